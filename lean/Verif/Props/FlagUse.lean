import Verif.Spec.FlagUse
import Verif.Props.Argv
import Verif.Lemmas.JobArgs
/-
C158: a flag that a command accepts is a flag that it heeds.
-/
namespace Swoll.Props.FlagUse
open Swoll Swoll.Argv Swoll.FlagUse Swoll.Spec.Argv Swoll.Spec.FlagUse Swoll.Props.Argv
open Swoll.JobArgs (Str)

/-! ### What is asked for exists -/

theorem reads_flag (c : Cmd) : ∀ p ∈ reads c, ∃ f ∈ flags c, f.name = p.1 ∧ f.kind = p.2 := by
  have h : ((reads c).all fun p => (flags c).any fun f => f.name == p.1 && f.kind == p.2) = true := by
    cases c <;> decide +kernel
  intro p hp
  have := List.all_eq_true.1 h p hp
  obtain ⟨f, hf, h⟩ := List.any_eq_true.1 this
  simp only [Bool.and_eq_true, beq_iff_eq] at h
  exact ⟨f, hf, h.1, h.2⟩

/-- What is found is of the flags of the command and of their types. -/
def Sound (c : Cmd) (l : List (Flag × Str)) : Prop := ∀ p ∈ l, p.1 ∈ flags c ∧ settable p.1 p.2 = true

theorem sound_nil (c : Cmd) : Sound c [] := fun _ hp => nomatch hp

theorem set_sound {c : Cmd} {f : Flag} {v : Str} {g : List (Flag × Str)} (hf : f ∈ flags c) (h : Argv.set f v = some g) : Sound c g := by
  unfold Argv.set at h
  split at h
  · injection h with h; subst h
    intro p hp; rw [List.mem_singleton.1 hp]; exact ⟨hf, by assumption⟩
  · cases h

theorem on_sound {c : Cmd} {f : Flag} (hf : f ∈ flags c) (hk : f.kind = .bool) : f ∈ flags c ∧ settable f "true".toList = true := by
  refine ⟨hf, ?_⟩
  unfold settable
  rw [hk]
  decide

theorem sound_append {c : Cmd} {a b : List (Flag × Str)} (ha : Sound c a) (hb : Sound c b) : Sound c (a ++ b) := by
  intro p hp
  rcases List.mem_append.1 hp with h | h
  · exact ha p h
  · exact hb p h

theorem byName_mem {fl : List Flag} {n : Str} {f : Flag} (h : byName fl n = some f) : f ∈ fl := List.mem_of_find?_eq_some h

theorem byShort_mem {fl : List Flag} {x : Char} {f : Flag} (h : byShort fl x = some f) : f ∈ fl := List.mem_of_find?_eq_some h

theorem shorts_sound (c : Cmd) : ∀ (s : Str) {g : List (Flag × Str)} {p : Option Flag}, shorts (flags c) s = some (g, p) →
    Sound c g ∧ ∀ f, p = some f → f ∈ flags c
  | [], g, p, h => by
    simp only [shorts, Option.some.injEq, Prod.mk.injEq] at h
    obtain ⟨rfl, rfl⟩ := h
    exact ⟨sound_nil c, by intro f h; cases h⟩
  | x :: cs, g, p, h => by
    rw [shorts] at h
    split at h
    · cases h
    · rename_i f hf
      have hm := byShort_mem hf
      have hmap : ∀ {v : Str}, (Argv.set f v).map (fun y => (y, (none : Option Flag))) = some (g, p) → Sound c g ∧ ∀ f, p = some f → f ∈ flags c := by
        intro v h
        obtain ⟨y, hy, he⟩ := Option.map_eq_some_iff.1 h
        simp only [Prod.mk.injEq] at he
        obtain ⟨rfl, rfl⟩ := he
        exact ⟨set_sound hm hy, by intro f h; cases h⟩
      split at h
      · exact hmap h
      · split at h
        · rename_i hk
          obtain ⟨y, hy, he⟩ := Option.map_eq_some_iff.1 h
          obtain ⟨y1, y2⟩ := y
          simp only [Prod.mk.injEq] at he
          obtain ⟨rfl, rfl⟩ := he
          obtain ⟨k1, k2⟩ := shorts_sound c cs hy
          refine ⟨?_, k2⟩
          intro q hq
          rcases List.mem_cons.1 hq with rfl | hq
          · exact on_sound hm hk
          · exact k1 q hq
        · split at h
          · simp only [Option.some.injEq, Prod.mk.injEq] at h
            obtain ⟨rfl, rfl⟩ := h
            exact ⟨sound_nil c, by intro f' h; injection h with h; subst h; exact hm⟩
          · exact hmap h

theorem long_sound (c : Cmd) (s : Str) {g : List (Flag × Str)} {p : Option Flag} (h : long (flags c) s = some (g, p)) :
    Sound c g ∧ ∀ f, p = some f → f ∈ flags c := by
  unfold long at h
  split at h
  · cases h
  · split at h
    split at h
    · cases h
    · rename_i f v hf _
      obtain ⟨y, hy, he⟩ := Option.map_eq_some_iff.1 h
      simp only [Prod.mk.injEq] at he
      obtain ⟨rfl, rfl⟩ := he
      exact ⟨set_sound (byName_mem hf) hy, by intro f h; cases h⟩
    · rename_i f hf _
      split at h
      · rename_i hk
        simp only [Option.some.injEq, Prod.mk.injEq] at h
        obtain ⟨rfl, rfl⟩ := h
        exact ⟨(by intro p hp; rw [List.mem_singleton.1 hp]; exact on_sound (byName_mem hf) hk), by intro f h; cases h⟩
      · simp only [Option.some.injEq, Prod.mk.injEq] at h
        obtain ⟨rfl, rfl⟩ := h
        exact ⟨sound_nil c, by intro f' h; injection h with h; subst h; exact byName_mem hf⟩

theorem parse_sound (c : Cmd) : ∀ (ws : List Str) (w : Option Flag), (∀ f, w = some f → f ∈ flags c) → ∀ {r : Found},
    parse (flags c) w ws = some r → Sound c r.given := by
  intro ws
  induction ws with
  | nil =>
    intro w hw r h
    cases w with
    | none => simp only [parse, Option.some.injEq] at h; subst h; intro p hp; cases hp
    | some f => cases h
  | cons s rest ih =>
    intro w hw r h
    cases w with
    | some f =>
      rw [parse] at h
      split at h
      · cases h
      · rename_i g hg
        obtain ⟨y, hy, rfl⟩ := Option.map_eq_some_iff.1 h
        exact sound_append (set_sound (hw f rfl) hg) (ih none (by intro f h; cases h) hy)
    | none =>
      rw [parse.eq_def] at h
      dsimp only at h
      split at h
      · injection h with h; subst h; intro p hp; cases hp
      · split at h
        · cases h
        · rename_i g p hg
          obtain ⟨y, hy, rfl⟩ := Option.map_eq_some_iff.1 h
          obtain ⟨k1, k2⟩ := long_sound c _ hg
          exact sound_append k1 (ih p k2 hy)
      · split at h
        · cases h
        · rename_i g p hg
          obtain ⟨y, hy, rfl⟩ := Option.map_eq_some_iff.1 h
          obtain ⟨k1, k2⟩ := shorts_sound c _ hg
          exact sound_append k1 (ih p k2 hy)
      · obtain ⟨y, hy, rfl⟩ := Option.map_eq_some_iff.1 h
        have := ih none (by intro f h; cases h) hy
        exact this

theorem mapM_some {α β : Type} {f : α → Option β} : ∀ {l : List α}, (∀ x ∈ l, (f x).isSome) → ∃ ys, l.mapM f = some ys
  | [], _ => ⟨[], rfl⟩
  | x :: xs, h => by
    obtain ⟨y, hy⟩ := Option.isSome_iff_exists.1 (h x (by simp))
    obtain ⟨ys, hys⟩ := mapM_some (l := xs) (f := f) (fun z hz => h z (by simp [hz]))
    exact ⟨y :: ys, by simp [List.mapM_cons, hy, hys]⟩

theorem get_some {c : Cmd} {r : Found} (hs : Sound c r.given) {f : Flag} (hf : f ∈ flags c) : ∃ x, FlagUse.get c r f.name f.kind = some x := by
  unfold FlagUse.get
  rw [(fine c).name f hf]
  dsimp only
  rw [if_neg (by simp)]
  have ht : ∃ v, getString c r f.name = some v := by
    unfold getString
    split
    · exact ⟨_, rfl⟩
    · rw [(fine c).name f hf]; exact ⟨_, rfl⟩
  obtain ⟨v, ht⟩ := ht
  cases hk : f.kind with
  | text => exact ⟨_, by rw [ht]; rfl⟩
  | bool => exact ⟨_, by unfold getBool; rw [ht]; rfl⟩
  | slice =>
    have : ∀ v ∈ values r f.name, (JobArgs.readAsCSV v).isSome := by
      intro v hv
      obtain ⟨p, hp, he⟩ := List.mem_filterMap.1 hv
      split at he
      · rename_i hn
        injection he with he
        subst he
        obtain ⟨h1, h2⟩ := hs p hp
        have : p.1 = f := same_flag c _ _ h1 hf (.inl hn)
        unfold settable at h2
        rw [this, hk] at h2
        exact h2
      · cases he
    obtain ⟨ys, hys⟩ := mapM_some this
    dsimp only
    unfold getStringSlice
    rw [hys]
    dsimp only
    rw [Lemmas.JobArgs.readAsCSV_write]
    exact ⟨_, rfl⟩

/-- C158: whatever is on the command line, a command that is run finds each of the flags it asks for, with the type it asks
for: no command ends because of its own flags. -/
theorem c158_found (args : List Str) {c : Cmd} {s : Seen} (h : learns args = some (c, s)) : ∀ x ∈ s.values, x.2.isSome := by
  unfold learns at h
  obtain ⟨⟨c', r⟩, he, h⟩ := Option.map_eq_some_iff.1 h
  simp only [Prod.mk.injEq] at h
  obtain ⟨rfl, rfl⟩ := h
  unfold execute at he
  split at he
  · cases he
  · obtain ⟨r', hr, he⟩ := Option.map_eq_some_iff.1 he
    simp only [Prod.mk.injEq] at he
    obtain ⟨rfl, rfl⟩ := he
    have hs := parse_sound _ _ none (by intro f h; cases h) hr
    intro x hx
    obtain ⟨p, hp, rfl⟩ := List.mem_map.1 hx
    obtain ⟨f, hf, h1, h2⟩ := reads_flag _ p hp
    obtain ⟨y, hy⟩ := get_some hs hf
    dsimp only
    rw [← h1, ← h2, hy]
    rfl

/-! ### What is heeded -/

theorem table (c : Cmd) (hw : Works c) (f : Flag) (hf : f ∈ flags c) :
    (∃ n ∈ ignored c, n.toList = f.name) ∨ (f.name, f.kind) ∈ reads c := by
  have h : ((flags c).all fun f => (ignored c).any (fun n => n.toList == f.name) || (reads c).contains (f.name, f.kind)) = true := by
    unfold Works at hw
    cases c <;> first | (exact absurd hw (by decide)) | decide +kernel
  have := List.all_eq_true.1 h f hf
  rw [Bool.or_eq_true] at this
  rcases this with h | h
  · obtain ⟨n, hn, h⟩ := List.any_eq_true.1 h
    exact .inl ⟨n, hn, by simpa using h⟩
  · exact .inr (List.contains_iff_mem.1 h)

theorem table' (c : Cmd) : ∀ n ∈ ignored c, ∀ k, (n.toList, k) ∉ reads c := by
  have h : ((ignored c).all fun n => !(reads c).any fun p => p.1 == n.toList) = true := by
    cases c <;> decide +kernel
  intro n hn k hk
  have := List.all_eq_true.1 h n hn
  rw [Bool.not_eq_true', List.any_eq_false] at this
  exact this _ hk (by simp)

theorem given_flags {c : Cmd} {is : List Item} (hi : ∀ i ∈ is, i.Good (flags c)) : ∀ p ∈ is.flatMap Item.given, p.1 ∈ flags c := by
  intro p hp
  obtain ⟨i, hi', hp⟩ := List.mem_flatMap.1 hp
  have hgood := hi i hi'
  cases i with
  | word s => cases hp
  | long f v => rw [List.mem_singleton.1 hp]; exact hgood.1
  | longEq f v => rw [List.mem_singleton.1 hp]; exact hgood.1
  | short f c v => rw [List.mem_singleton.1 hp]; exact hgood.1
  | attached f c v => rw [List.mem_singleton.1 hp]; exact hgood.1
  | on f => rw [List.mem_singleton.1 hp]; exact hgood.1
  | letters fs =>
    obtain ⟨q, hq, rfl⟩ := List.mem_map.1 hp
    exact (hgood.2 q hq).1

theorem values_eq {c : Cmd} {f : Flag} (hf : f ∈ flags c) (ws : List Str) : ∀ l : List (Flag × Str), (∀ p ∈ l, p.1 ∈ flags c) →
    values ⟨l, ws⟩ f.name = (l.filter (·.1 = f)).map (·.2) := by
  intro l hl
  induction l with
  | nil => rfl
  | cons p l ih =>
    have ih := ih (fun q hq => hl q (List.mem_cons_of_mem _ hq))
    unfold values at ih ⊢
    rw [List.filterMap_cons]
    by_cases hp : p.1 = f
    · rw [List.filter_cons_of_pos (by simpa using hp), List.map_cons, ← ih, hp, if_pos rfl]
    · rw [List.filter_cons_of_neg (by simpa using hp), ← ih, if_neg]
      intro hn
      exact hp (same_flag c _ _ (hl p (.head _)) hf (.inl hn))

theorem mapM_getD {α β : Type} {f : α → Option (List β)} : ∀ {l : List α} {ys : List (List β)}, l.mapM f = some ys →
    l.map (fun x => (f x).getD []) = ys
  | [], ys, h => by simp only [List.mapM_nil] at h; injection h
  | x :: xs, ys, h => by
    simp only [List.mapM_cons, Option.bind_eq_bind, Option.bind_eq_some_iff, Option.pure_def, Option.some.injEq] at h
    obtain ⟨y, hy, zs, hz, rfl⟩ := h
    rw [List.map_cons, hy, mapM_getD hz]
    rfl

theorem get_meant {c : Cmd} {r : Found} (hs : Sound c r.given) {f : Flag} (hf : f ∈ flags c) :
    FlagUse.get c r f.name f.kind = some (meant f (values r f.name)) := by
  obtain ⟨x, hx⟩ := get_some hs hf
  unfold FlagUse.get at hx ⊢
  rw [(fine c).name f hf] at hx ⊢
  dsimp only at hx ⊢
  rw [if_neg (by simp)] at hx ⊢
  have ht : getString c r f.name = some ((values r f.name).getLast?.getD f.dflt) := by
    unfold getString
    split
    · rename_i h; rw [h]; rfl
    · rename_i h; rw [(fine c).name f hf, h]; rfl
  unfold meant
  cases hk : f.kind with
  | text => dsimp only; rw [ht]; rfl
  | bool => dsimp only; unfold getBool; rw [ht]; rfl
  | slice =>
    rw [hk] at hx
    dsimp only at hx ⊢
    unfold getStringSlice at hx ⊢
    cases hm : (values r f.name).mapM JobArgs.readAsCSV with
    | none => rw [hm] at hx; cases hx
    | some ls =>
      dsimp only
      rw [Lemmas.JobArgs.readAsCSV_write, mapM_getD hm, Option.map_some]
      unfold Lemmas.JobArgs.norm
      by_cases h : ls.flatten = [[]]
      · rw [if_pos h, h]
      · rw [if_neg h]
        split
        · rename_i h'; exact absurd h' h
        · rfl

/-- C158: what a command learns of a flag it heeds is what was meant by the command line, in whatever way it was written. -/
theorem c158_heeded_partial (c : Cmd) (hw : Works c) (is : List Item) (hi : ∀ i ∈ is, i.Good (flags c)) (f : Flag) (hf : f ∈ flags c)
    (hn : ∀ n ∈ ignored c, n.toList ≠ f.name) : ∃ s, learns (path c ++ is.flatMap Item.text) = some (c, s) ∧
      (f.name, some (meant f (((is.flatMap Item.given).filter (·.1 = f)).map (·.2)))) ∈ s.values := by
  have he := (c156_line c hw is hi []).1
  refine ⟨_, by unfold learns; rw [he]; rfl, ?_⟩
  have hr : (f.name, f.kind) ∈ reads c := by
    rcases table c hw f hf with ⟨n, h1, h2⟩ | h
    · exact absurd h2 (hn n h1)
    · exact h
  have hs : Sound c (is.flatMap Item.given) := by
    unfold execute at he
    rw [c156_command c hw] at he
    obtain ⟨r, h1, h2⟩ := Option.map_eq_some_iff.1 he
    simp only [Prod.mk.injEq, true_and] at h2
    have := parse_sound c _ none (by intro f h; cases h) h1
    rw [h2] at this
    exact this
  refine List.mem_map.2 ⟨_, hr, ?_⟩
  dsimp only
  rw [get_meant hs hf, values_eq hf _ _ (given_flags hi)]

theorem unset_eq (c : Cmd) (hw : Works c) (f : Flag) (hf : f ∈ flags c) : meant f [] = unset c f := by
  have h : ((flags c).all fun f => meant f [] == unset c f) = true := by
    unfold Works at hw
    cases c <;> first | (exact absurd hw (by decide)) | decide +kernel
  simpa using List.all_eq_true.1 h f hf

/-- C158: and if it was not given, what the documentation says: nothing, off, or the preset. -/
theorem c158_unset_partial (c : Cmd) (hw : Works c) (is : List Item) (hi : ∀ i ∈ is, i.Good (flags c)) (f : Flag) (hf : f ∈ flags c)
    (hn : ∀ n ∈ ignored c, n.toList ≠ f.name) (hg : ∀ p ∈ is.flatMap Item.given, p.1.name ≠ f.name) :
    ∃ s, learns (path c ++ is.flatMap Item.text) = some (c, s) ∧ (f.name, some (unset c f)) ∈ s.values := by
  obtain ⟨s, h1, h2⟩ := c158_heeded_partial c hw is hi f hf hn
  refine ⟨s, h1, ?_⟩
  have : (is.flatMap Item.given).filter (fun p => decide (p.1 = f)) = [] := by
    rw [List.filter_eq_nil_iff]
    intro p hp
    have := hg p hp
    simp only [decide_eq_true_eq]
    intro e
    exact this (by rw [e])
  rw [this, List.map_nil, unset_eq c hw f hf] at h2
  exact h2

/-- C158: the other commands learn the words that are no flags, in their order. -/
theorem c158_words_partial (c : Cmd) (hw : Works c) (hc : c ∉ wordless) (is : List Item) (hi : ∀ i ∈ is, i.Good (flags c)) :
    ∃ s, learns (path c ++ is.flatMap Item.text) = some (c, s) ∧ s.words = is.flatMap Item.words := by
  have he := (c156_line c hw is hi []).1
  refine ⟨_, by unfold learns; rw [he]; rfl, ?_⟩
  have hy : wordy c = true := by
    unfold Works at hw
    unfold wordless at hc
    revert hw hc
    cases c <;> decide
  unfold seen
  rw [if_pos hy]

theorem getString_same {c : Cmd} {r r' : Found} {n : Str} (h : values r n = values r' n) : getString c r n = getString c r' n := by
  unfold getString; rw [h]

theorem get_same {c : Cmd} {r r' : Found} {n : Str} {k : Kind} (h : values r n = values r' n) :
    FlagUse.get c r n k = FlagUse.get c r' n k := by
  unfold FlagUse.get getBool getStringSlice
  rw [getString_same h, h]

theorem learns_same (c : Cmd) (hw : Works c) (is₁ is₂ : List Item) (i : Item) (h1 : ∀ i ∈ is₁, i.Good (flags c))
    (h2 : ∀ i ∈ is₂, i.Good (flags c)) (hi : i.Good (flags c)) (hg : ∀ p ∈ i.given, ∀ q ∈ reads c, p.1.name ≠ q.1)
    (hs : i.words = [] ∨ wordy c = false) :
    learns (path c ++ (is₁ ++ i :: is₂).flatMap Item.text) = learns (path c ++ (is₁ ++ is₂).flatMap Item.text) := by
  have e1 := (c156_line c hw (is₁ ++ i :: is₂) (by
    intro j hj
    rcases List.mem_append.1 hj with hj | hj
    · exact h1 j hj
    · rcases List.mem_cons.1 hj with rfl | hj
      · exact hi
      · exact h2 j hj) []).1
  have e2 := (c156_line c hw (is₁ ++ is₂) (by
    intro j hj
    rcases List.mem_append.1 hj with hj | hj
    · exact h1 j hj
    · exact h2 j hj) []).1
  unfold learns
  rw [e1, e2]
  simp only [Option.map_some, Option.some.injEq, Prod.mk.injEq, true_and]
  unfold seen
  have hv : ∀ q ∈ reads c, values ⟨(is₁ ++ i :: is₂).flatMap Item.given, (is₁ ++ i :: is₂).flatMap Item.words⟩ q.1 =
      values ⟨(is₁ ++ is₂).flatMap Item.given, (is₁ ++ is₂).flatMap Item.words⟩ q.1 := by
    intro q hq
    unfold values
    simp only [List.flatMap_append, List.flatMap_cons, List.filterMap_append]
    have : i.given.filterMap (fun p => if p.1.name = q.1 then some p.2 else none) = [] := by
      rw [List.filterMap_eq_nil_iff]
      intro p hp
      exact if_neg (hg p hp q hq)
    rw [this, List.nil_append]
  congr 1
  · apply List.map_congr_left
    intro q hq
    rw [get_same (hv q hq)]
  · rcases hs with hs | hs
    · simp [List.flatMap_append, List.flatMap_cons, hs]
    · simp [hs]

/-- C158 fails for the flags in the list: the command accepts them, anywhere and with any value of their type, and does what
it would do without. -/
theorem c158_ignored_violated (c : Cmd) (hw : Works c) (is₁ is₂ : List Item) (h1 : ∀ i ∈ is₁, i.Good (flags c))
    (h2 : ∀ i ∈ is₂, i.Good (flags c)) (f : Flag) (hf : f ∈ flags c) (n : String) (hn : n ∈ ignored c) (he : f.name = n.toList)
    (v : Str) (hv : Fits f v) :
    learns (path c ++ (is₁ ++ .longEq f v :: is₂).flatMap Item.text) = learns (path c ++ (is₁ ++ is₂).flatMap Item.text) := by
  refine learns_same c hw is₁ is₂ _ h1 h2 ⟨hf, hv⟩ ?_ (.inl rfl)
  intro p hp q hq e
  rw [List.mem_singleton.1 hp] at e
  dsimp only at e
  exact table' c n hn q.2 (by rw [← he, e]; exact hq)

/-- C158: and these commands accept any number of words and take no notice of them. -/
theorem c158_words_violated (c : Cmd) (hc : c ∈ wordless) (is₁ is₂ : List Item) (h1 : ∀ i ∈ is₁, i.Good (flags c))
    (h2 : ∀ i ∈ is₂, i.Good (flags c)) (w : Str) (h : w.head? ≠ some '-') :
    learns (path c ++ (is₁ ++ .word w :: is₂).flatMap Item.text) = learns (path c ++ (is₁ ++ is₂).flatMap Item.text) := by
  have hh : Works c ∧ wordy c = false := by
    unfold Works
    unfold wordless at hc
    revert hc
    cases c <;> decide
  exact learns_same c hh.1 is₁ is₂ _ h1 h2 (.inl h) (by intro p hp; cases hp) (.inr hh.2)

/-! ### Cases -/

/-- A flag given twice and one not given; two that do nothing. -/
example : Works .trace ∧ (⟨"namespace".toList, some 'n', .text, []⟩ : Flag) ∈ flags .trace ∧ (∀ n ∈ ignored .trace, n.toList ≠ "namespace".toList) ∧
    learns ["trace".toList, "-n".toList, "a".toList, "--namespace=b".toList, "-V".toList] =
      learns ["trace".toList, "--namespace".toList, "b".toList] ∧
    (learns ["client".toList, "query".toList, "running".toList, "-n".toList, "prod".toList]) =
      learns ["client".toList, "query".toList, "running".toList] ∧
    learns ["trace".toList, "-n".toList, "a".toList] ≠ learns ["trace".toList] ∧
    (.trace ∉ wordless ∧ (learns ["trace".toList, "open".toList, "-n".toList, "a".toList, "close".toList]).map (·.2.words) =
      some ["open".toList, "close".toList]) ∧
    learns ["top".toList, "--bpf=my.o".toList, "x".toList] = learns ["top".toList] ∧ (learns ["top".toList]).isSome := by
  refine ⟨by unfold Works; decide, by decide +kernel, by decide +kernel, by decide +kernel, by decide +kernel, by decide +kernel, by decide +kernel,
    by decide +kernel, by decide +kernel⟩

/-- The hypotheses of the failures. -/
example : Works .top ∧ (⟨"bpf".toList, some 'b', .text, []⟩ : Flag) ∈ flags .top ∧ "bpf" ∈ ignored .top ∧
    Fits ⟨"bpf".toList, some 'b', .text, []⟩ "my.o".toList ∧ .top ∈ wordless ∧ ("x".toList).head? ≠ some '-' := by
  refine ⟨by unfold Works; decide, by decide +kernel, by decide +kernel, trivial, by decide, by decide⟩

end Swoll.Props.FlagUse
