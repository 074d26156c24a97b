import Verif.Spec.Dashboard
/-
Lemmas about the dashboard: the text of a variable, sums by labels, what a selector selects.
-/
namespace Swoll.Lemmas.Dashboard
open Swoll Swoll.Dashboard Swoll.Spec.Dashboard
open Swoll.JobArgs (Str)
open Swoll.Views (Desc Sample)

/-! ### The text of a variable -/

/-- A character in an expression. -/
def resc1 (c : Char) : Str := if c = '\\' ∨ c ∈ special then ['\\', c] else [c]

def resc (v : Str) : Str := v.flatMap resc1

theorem special_no {c : Char} (h : c ∈ special) : c ≠ '\\' ∧ c ≠ '"' ∧ c ≠ '\n' := by
  have : ∀ c ∈ special, c ≠ '\\' ∧ c ≠ '"' ∧ c ≠ '\n' := by decide +kernel
  exact this c h

theorem special_escapable {c : Char} (h : c = '\\' ∨ c ∈ special) : escapable c = true := by
  have : ∀ c ∈ '\\' :: special, escapable c = true := by decide +kernel
  exact this c (by simpa using h)

theorem operators_special {c : Char} (h : c ∈ operators) : c = '\\' ∨ c ∈ special := by
  have : ∀ c ∈ operators, c = '\\' ∨ c ∈ special := by decide +kernel
  exact this c h

theorem unquote_cons {c : Char} (h1 : c ≠ '\\') (h2 : c ≠ '"') (h3 : c ≠ '\n') (r : Str) :
    unquote (c :: r) = (unquote r).map (c :: ·) := by
  rw [unquote]
  · rw [if_neg (by simp [h1, h2, h3])]
  · intro r' h _; exact absurd h h1

theorem unquote_escape : ∀ (v : Str) (r : Str), Clean v → unquote (escape v ++ r) = (unquote r).map (resc v ++ ·)
  | [], r, _ => by simp [escape, resc]
  | c :: v, r, h => by
    have ih := unquote_escape v r ⟨fun h' => h.1 (List.mem_cons_of_mem _ h'), fun h' => h.2 (List.mem_cons_of_mem _ h')⟩
    have hc : c ≠ '"' ∧ c ≠ '\n' := ⟨fun e => h.1 (e ▸ List.mem_cons_self), fun e => h.2 (e ▸ List.mem_cons_self)⟩
    unfold escape resc at ih ⊢
    rw [List.flatMap_cons, List.flatMap_cons, List.append_assoc]
    by_cases h1 : c = '\\'
    · subst h1
      rw [show escape1 '\\' = ['\\', '\\', '\\', '\\'] from if_pos rfl, show resc1 '\\' = ['\\', '\\'] from if_pos (.inl rfl)]
      simp only [List.cons_append, List.nil_append]
      rw [unquote, unquote, ih]
      simp [Option.map_map, Function.comp_def]
    · by_cases h2 : c ∈ special
      · rw [show escape1 c = ['\\', '\\', c] from (if_neg h1).trans (if_pos h2), show resc1 c = ['\\', c] from if_pos (.inr h2)]
        simp only [List.cons_append, List.nil_append]
        rw [unquote, unquote_cons h1 hc.1 hc.2, ih]
        simp [Option.map_map, Function.comp_def]
      · rw [show escape1 c = [c] from (if_neg h1).trans (if_neg h2), show resc1 c = [c] from if_neg (by simp [h1, h2])]
        simp only [List.cons_append, List.nil_append]
        rw [unquote_cons h1 hc.1 hc.2, ih]
        simp [Option.map_map, Function.comp_def]

theorem bar_cons (v w : Str) (vs : List Str) : bar (v :: w :: vs) = v ++ '|' :: bar (w :: vs) := rfl

theorem unquote_bar : ∀ (vs : List Str), (∀ v ∈ vs, Clean v) → unquote (bar (vs.map escape)) = some (bar (vs.map resc))
  | [], _ => rfl
  | [v], h => by
    have := unquote_escape v [] (h v (by simp))
    simpa [bar, unquote] using this
  | v :: w :: vs, h => by
    have ih := unquote_bar (w :: vs) (fun x hx => h x (List.mem_cons_of_mem _ hx))
    simp only [List.map_cons] at ih ⊢
    rw [bar_cons, bar_cons, unquote_escape v _ (h v (by simp)), unquote_cons (by decide) (by decide) (by decide), ih]
    rfl

/-- A text at the start of the first alternative. -/
def pushAll (v : Str) : List Str → List Str
  | [] => [v]
  | a :: as => (v ++ a) :: as

theorem push_all (c : Char) (v : Str) : ∀ l : List Str, push c (pushAll v l) = pushAll (c :: v) l
  | [] => rfl
  | _ :: _ => rfl

theorem alts_resc : ∀ (v : Str) (r : Str) (l : List Str), l ≠ [] → alts r = some l → alts (resc v ++ r) = some (pushAll v l)
  | [], r, l, hl, h => by
    cases l with
    | nil => exact absurd rfl hl
    | cons a as => simpa [resc, pushAll] using h
  | c :: v, r, l, hl, h => by
    have ih := alts_resc v r l hl h
    unfold resc at ih ⊢
    rw [List.flatMap_cons, List.append_assoc]
    by_cases h1 : c = '\\' ∨ c ∈ special
    · rw [show resc1 c = ['\\', c] from if_pos h1]
      simp only [List.cons_append, List.nil_append]
      rw [alts, if_pos (special_escapable h1), ih, Option.map_some, push_all]
    · rw [show resc1 c = [c] from if_neg h1]
      have h1' : c ≠ '\\' ∧ c ∉ special := ⟨fun e => h1 (.inl e), fun e => h1 (.inr e)⟩
      simp only [List.cons_append, List.nil_append]
      rw [alts]
      · rw [if_neg (by intro e; exact h1'.2 (e ▸ by decide +kernel)), if_neg (fun e => h1 (operators_special e)), ih, Option.map_some, push_all]
      · intro c' r' e _; exact h1'.1 e

theorem alts_bar : ∀ (vs : List Str), alts (bar (vs.map resc)) = some (if vs = [] then [[]] else vs)
  | [] => rfl
  | [v] => by
    have := alts_resc v [] [[]] (by simp) rfl
    simpa [bar, pushAll] using this
  | v :: w :: vs => by
    have ih := alts_bar (w :: vs)
    rw [if_neg (by simp)] at ih
    simp only [List.map_cons] at ih ⊢
    rw [bar_cons, alts_resc v _ ([] :: w :: vs) (by simp) ?_]
    · simp [pushAll]
    · rw [alts, if_pos rfl, ih]
      · rfl
      · intro c' r' e; exact absurd e (by decide)

/-! ### Sums by labels -/

def sumAt (rows : List (List Str × Nat × Nat)) (k : List Str) : Nat := ((rows.filter (·.1 = k)).map (·.2.1)).sum

theorem sumAt_cons (k : List Str) (x : List Str × Nat × Nat) (rows : List (List Str × Nat × Nat)) :
    sumAt (x :: rows) k = (if x.1 = k then x.2.1 else 0) + sumAt rows k := by
  unfold sumAt
  rw [List.filter_cons]
  by_cases h : x.1 = k <;> simp [h]

theorem sumAt_bump (k k' : List Str) (r : Nat) : ∀ rows, sumAt (bump rows k r) k' = sumAt rows k' + if k = k' then r else 0
  | [] => by rw [bump, sumAt_cons]; simp [sumAt]
  | (a, t, n) :: rest => by
    rw [bump]
    split
    · rename_i h
      rw [sumAt_cons, sumAt_cons]
      by_cases h' : a = k'
      · have : k = k' := h ▸ h'
        simp [h', this]; omega
      · have : k ≠ k' := h ▸ h'
        simp [h', this]
    · rw [sumAt_cons, sumAt_cons, sumAt_bump k k' r rest]
      omega

theorem keys_bump (k : List Str) (r : Nat) : ∀ rows : List (List Str × Nat × Nat),
    (bump rows k r).map (·.1) = if k ∈ rows.map (·.1) then rows.map (·.1) else rows.map (·.1) ++ [k]
  | [] => rfl
  | (a, t, n) :: rest => by
    rw [bump]
    split
    · rename_i h
      simp [h]
    · rename_i h
      rw [List.map_cons, keys_bump k r rest, List.map_cons]
      by_cases h' : k ∈ rest.map (·.1)
      · rw [if_pos h', if_pos (List.mem_cons_of_mem _ h')]
      · rw [if_neg h', if_neg]
        · rfl
        · intro h''
          rcases List.mem_cons.1 h'' with e | e
          · exact h e.symm
          · exact h' e

theorem group_aux (by_ : List Str) : ∀ (ss : List Series) (rows : List (List Str × Nat × Nat)), (rows.map (·.1)).Nodup →
    ((ss.foldl (fun rows s => bump rows (keyOf by_ s) s.rate) rows).map (·.1)).Nodup ∧
    (∀ k, k ∈ (ss.foldl (fun rows s => bump rows (keyOf by_ s) s.rate) rows).map (·.1) ↔
      k ∈ rows.map (·.1) ∨ ∃ s ∈ ss, keyOf by_ s = k) ∧
    ∀ k, sumAt (ss.foldl (fun rows s => bump rows (keyOf by_ s) s.rate) rows) k =
      sumAt rows k + ((ss.filter (keyOf by_ · = k)).map Series.rate).sum
  | [], rows, h => ⟨h, by simp, by simp⟩
  | s :: ss, rows, h => by
    have hk := keys_bump (keyOf by_ s) s.rate rows
    have hn : ((bump rows (keyOf by_ s) s.rate).map (·.1)).Nodup := by
      rw [hk]
      split
      · exact h
      · rename_i hn
        rw [List.nodup_append]
        refine ⟨h, by simp, ?_⟩
        intro a ha b hb e
        rw [List.mem_singleton.1 hb] at e
        exact hn (e ▸ ha)
    obtain ⟨h1, h2, h3⟩ := group_aux by_ ss _ hn
    rw [List.foldl_cons]
    refine ⟨h1, ?_, ?_⟩
    · intro k
      rw [h2, hk]
      constructor
      · rintro (hm | ⟨t, ht, e⟩)
        · split at hm
          · exact .inl hm
          · rcases List.mem_append.1 hm with hm | hm
            · exact .inl hm
            · exact .inr ⟨s, List.mem_cons_self, (List.mem_singleton.1 hm).symm⟩
        · exact .inr ⟨t, List.mem_cons_of_mem _ ht, e⟩
      · rintro (hm | ⟨t, ht, e⟩)
        · left; split
          · exact hm
          · exact List.mem_append_left _ hm
        · rcases List.mem_cons.1 ht with rfl | ht
          · left; subst e; split
            · assumption
            · simp
          · exact .inr ⟨t, ht, e⟩
    · intro k
      rw [h3, sumAt_bump, List.filter_cons]
      by_cases e : keyOf by_ s = k
      · simp [e]; omega
      · simp [e]

theorem mem_sumAt : ∀ {rows : List (List Str × Nat × Nat)}, (rows.map (·.1)).Nodup → ∀ r ∈ rows, sumAt rows r.1 = r.2.1
  | [], _, _, h => nomatch h
  | x :: rows, hn, r, h => by
    rw [List.map_cons, List.nodup_cons] at hn
    rw [sumAt_cons]
    have hz : ∀ k, k ∉ rows.map (·.1) → sumAt rows k = 0 := by
      intro k hk
      unfold sumAt
      rw [List.filter_eq_nil_iff.2]
      · rfl
      · intro y hy
        simp only [decide_eq_true_eq]
        intro e
        exact hk (e ▸ List.mem_map_of_mem hy)
    rcases List.mem_cons.1 h with rfl | h
    · rw [if_pos rfl, hz _ hn.1]; rfl
    · rw [if_neg, mem_sumAt hn.2 r h]
      · omega
      · intro e; exact hn.1 (e ▸ List.mem_map_of_mem h)

theorem group_facts (by_ : List Str) (ss : List Series) :
    ((group by_ ss).map (·.1)).Nodup ∧ (∀ k, k ∈ (group by_ ss).map (·.1) ↔ ∃ s ∈ ss, keyOf by_ s = k) ∧
    ∀ r ∈ group by_ ss, r.2.1 = ((ss.filter (keyOf by_ · = r.1)).map Series.rate).sum := by
  obtain ⟨h1, h2, h3⟩ := group_aux by_ ss [] (by simp)
  refine ⟨h1, fun k => (h2 k).trans (by simp), ?_⟩
  intro r hr
  have := h3 r.1
  rw [mem_sumAt h1 r hr] at this
  rw [this]
  simp [sumAt]

/-! ### What a selector selects -/

/-- What a list of values stands for in an expression. -/
def orEmpty (vs : List Str) : List Str := if vs = [] then [[]] else vs

theorem mem_orEmpty {vs : List Str} {x : Str} (h : x ≠ []) : x ∈ orEmpty vs ↔ x ∈ vs := by
  unfold orEmpty
  split
  · rename_i e; subst e; simp [h]
  · rfl

/-- The test of a matcher of the dashboard. -/
def tests (e : Env) (m : Matcher) (x : Str) : Bool := match m.op, m.value with
  | .eq, .lit s => x = s
  | .ne, .lit s => x ≠ s
  | .eq, .var v => x = bar ((e.get v).map resc)
  | .ne, .var v => x ≠ bar ((e.get v).map resc)
  | .re, .var v => (orEmpty (e.get v)).contains x
  | .re, .lit _ => false

/-- The matchers that come up. -/
def Usual (m : Matcher) : Prop := (m.op ≠ .re ∧ m.value = .lit "OK".toList) ∨ ∃ v, m.value = .var v

instance (m : Matcher) : Decidable (Usual m) := by
  unfold Usual
  cases m.value with
  | lit s => exact decidable_of_iff (m.op ≠ .re ∧ (.lit s : Val) = .lit "OK".toList) (by simp)
  | var v => exact isTrue (.inr ⟨v, rfl⟩)

theorem test_eq {e : Env} (he : ∀ v, ∀ x ∈ e.get v, Clean x) {m : Matcher} (h : Usual m) : m.test e = some (tests e m) := by
  obtain ⟨l, op, v⟩ := m
  rcases h with ⟨h1, h2⟩ | ⟨w, h2⟩
  · dsimp only at h1 h2
    subst h2
    have ht : (⟨l, op, .lit "OK".toList⟩ : Matcher).text e = some "OK".toList := by
      show unquote "OK".toList = _
      decide +kernel
    unfold Matcher.test
    rw [ht]
    cases op with
    | re => exact absurd rfl h1
    | eq => rfl
    | ne => rfl
  · dsimp only at h2
    subst h2
    have ht : (⟨l, op, .var w⟩ : Matcher).text e = some (bar ((e.get w).map resc)) := unquote_bar _ (he w)
    unfold Matcher.test
    rw [ht]
    cases op with
    | eq => rfl
    | ne => rfl
    | re => dsimp only; rw [alts_bar]; rfl

theorem mapM_test {e : Env} (he : ∀ v, ∀ x ∈ e.get v, Clean x) : ∀ {ms : List Matcher}, (∀ m ∈ ms, Usual m) →
    (ms.mapM fun (m : Matcher) => (m.test e).map fun f => (m.label, f)) = some (ms.map fun m => (m.label, tests e m))
  | [], _ => rfl
  | m :: ms, h => by
    have ih := mapM_test he (ms := ms) (fun x hx => h x (List.mem_cons_of_mem _ hx))
    rw [List.mapM_cons, test_eq he (h m List.mem_cons_self), ih]
    rfl

theorem select_eq {e : Env} (he : ∀ v, ∀ x ∈ e.get v, Clean x) {ms : List Matcher} (h : ∀ m ∈ ms, Usual m) (ss : List Series) (metric : Str) :
    select e ss metric ms = some (ss.filter fun s => fqName s.desc = metric && ms.all fun m => tests e m (s.get m.label)) := by
  unfold select
  rw [mapM_test he h]
  simp [List.all_map, Function.comp_def]

theorem count_name : ∀ d : Desc, fqName d = countName ↔ d = .count
  | .count => by decide +kernel
  | .time => by decide +kernel

/-! ### The variables -/

theorem takeWhile_clean : ∀ {v : Str}, Clean v → v.takeWhile (· ≠ '"') = v
  | [], _ => rfl
  | c :: v, h => by
    have hc : c ≠ '"' := fun e => h.1 (e ▸ List.mem_cons_self)
    rw [List.takeWhile_cons, if_pos (by simpa using hc),
      takeWhile_clean ⟨fun h' => h.1 (List.mem_cons_of_mem _ h'), fun h' => h.2 (List.mem_cons_of_mem _ h')⟩]

/-- The five labels there are variables for. -/
def five : List String := ["namespace", "pod", "container", "class", "group"]

theorem get_labels {s t : Series} (h : t.labels = s.labels) (n : Str) : t.get n = s.get n := by
  unfold Series.get; rw [h]

theorem options_mem {ss : List Series} (hx : Exported ss) {e : Env} (he : ∀ v, ∀ x ∈ e.get v, Clean x) {ls : List String}
    (hl : ∀ l ∈ ls, l ∈ five) {v : String} (hv : v ∈ five) :
    (∀ x ∈ options e ss v.toList (ls.map re), Clean x ∧ ∃ t ∈ ss, t.get v.toList = x) ∧
    ∀ s ∈ ss, (∀ l ∈ ls, s.get l.toList ∈ e.get l.toList) → s.get v.toList ∈ options e ss v.toList (ls.map re) := by
  have hu : ∀ m ∈ ls.map re, Usual m := by
    intro m hm
    obtain ⟨l, -, rfl⟩ := List.mem_map.1 hm
    exact .inr ⟨_, rfl⟩
  unfold options
  rw [select_eq he hu]
  dsimp only
  generalize hsel : (ss.filter fun s => fqName s.desc = countName && (ls.map re).all fun m => tests e m (s.get m.label)) = sel
  obtain ⟨-, hk, -⟩ := group_facts [v.toList] sel
  constructor
  · intro x hx'
    obtain ⟨h1, h2⟩ := List.mem_filter.1 hx'
    obtain ⟨r, hr, rfl⟩ := List.mem_map.1 h1
    obtain ⟨s, hs, e'⟩ := (hk r.1).1 (List.mem_map_of_mem hr)
    rw [← e']
    have hs' : s ∈ ss := by rw [← hsel] at hs; exact (List.mem_filter.1 hs).1
    have hc := (hx.named s hs' v hv).2
    show Clean ((s.get v.toList).takeWhile (· ≠ '"')) ∧ ∃ t ∈ ss, t.get v.toList = (s.get v.toList).takeWhile (· ≠ '"')
    rw [takeWhile_clean hc]
    exact ⟨hc, s, hs', rfl⟩
  · intro s hs h
    obtain ⟨t, ht, hd, hlab⟩ := hx.both s hs
    have hts : t ∈ sel := by
      rw [← hsel, List.mem_filter]
      refine ⟨ht, ?_⟩
      rw [Bool.and_eq_true, List.all_eq_true]
      refine ⟨by simpa using (count_name t.desc).2 hd, ?_⟩
      intro m hm
      obtain ⟨l, hl', rfl⟩ := List.mem_map.1 hm
      show (orEmpty (e.get l.toList)).contains (t.get l.toList) = true
      rw [List.contains_iff_mem, mem_orEmpty (hx.named t ht l (hl l hl')).1, get_labels hlab]
      exact h l hl'
    obtain ⟨h1, h2⟩ := hx.named s hs v hv
    rw [List.mem_filter]
    refine ⟨?_, by simpa using h1⟩
    have := (hk (keyOf [v.toList] t)).2 ⟨t, hts, rfl⟩
    obtain ⟨r, hr, hr'⟩ := List.mem_map.1 this
    refine List.mem_map.2 ⟨r, hr, ?_⟩
    rw [hr']
    show (t.get v.toList).takeWhile (· ≠ '"') = _
    rw [get_labels hlab, takeWhile_clean h2]

theorem values_mem {ss : List Series} (hx : Exported ss) {e : Env} (he : ∀ v, ∀ x ∈ e.get v, Clean x) {ls : List String}
    (hl : ∀ l ∈ ls, l ∈ five) {v : String} (hv : v ∈ five) {c : Choice} (hc : CleanChoice c) :
    (∀ x ∈ c.values (options e ss v.toList (ls.map re)), Clean x) ∧
    ∀ s ∈ ss, (∀ l ∈ ls, s.get l.toList ∈ e.get l.toList) →
      (s.get v.toList ∈ c.values (options e ss v.toList (ls.map re)) ↔ meets c (s.get v.toList) = true) := by
  obtain ⟨h1, h2⟩ := options_mem hx he hl hv
  cases c with
  | all => exact ⟨fun x hx' => (h1 x hx').1, fun s hs h => by simp [Choice.values, meets, h2 s hs h]⟩
  | one w => exact ⟨fun x hx' => by rw [List.mem_singleton.1 hx']; exact hc, fun s hs h => by simp [Choice.values, meets]⟩
  | many ws => exact ⟨hc, fun s hs h => by simp [Choice.values, meets]⟩

theorem get_clean {e : Env} (h : ∀ p ∈ e, ∀ x ∈ p.2, Clean x) : ∀ v, ∀ x ∈ e.get v, Clean x := by
  intro v x hx
  unfold Env.get at hx
  split at hx
  · rename_i p hp; exact h p (List.mem_of_find?_eq_some hp) x hx
  · cases hx

theorem get_append {e : Env} {v : Str} (h : v ∈ e.map (·.1)) (r : Env) : Env.get (e ++ r) v = Env.get e v := by
  unfold Env.get
  rw [List.find?_append]
  cases hf : e.find? (fun p => decide (p.1 = v)) with
  | some p => rfl
  | none =>
    obtain ⟨p, hp, he⟩ := List.mem_map.1 h
    have := List.find?_eq_none.1 hf p hp
    exact absurd (by simpa using he) this

theorem get_last {e : Env} {v : Str} (h : v ∉ e.map (·.1)) (x : List Str) (r : Env) : Env.get (e ++ (v, x) :: r) v = x := by
  unfold Env.get
  rw [List.find?_append, List.find?_eq_none.2]
  · simp
  · intro p hp
    simp only [decide_eq_true_eq]
    intro e'
    exact h (e' ▸ List.mem_map_of_mem hp)

/-- The values of the variables, and what it means that a label has one of them. -/
theorem resolve_facts {ss : List Series} (hx : Exported ss) {ch : Str → Choice} (hc : ∀ v, CleanChoice (ch v)) :
    (∀ v, ∀ x ∈ (resolve ss ch).get v, Clean x) ∧ (∀ s ∈ ss,
    (s.get "namespace".toList ∈ (resolve ss ch).get "namespace".toList ↔ meets (ch "namespace".toList) (s.get "namespace".toList) = true) ∧
    (s.get "namespace".toList ∈ (resolve ss ch).get "namespace".toList →
      (s.get "pod".toList ∈ (resolve ss ch).get "pod".toList ↔ meets (ch "pod".toList) (s.get "pod".toList) = true)) ∧
    (s.get "namespace".toList ∈ (resolve ss ch).get "namespace".toList → s.get "pod".toList ∈ (resolve ss ch).get "pod".toList →
      (s.get "container".toList ∈ (resolve ss ch).get "container".toList ↔
        meets (ch "container".toList) (s.get "container".toList) = true)) ∧
    (s.get "class".toList ∈ (resolve ss ch).get "class".toList ↔ meets (ch "class".toList) (s.get "class".toList) = true) ∧
    (s.get "class".toList ∈ (resolve ss ch).get "class".toList →
      (s.get "group".toList ∈ (resolve ss ch).get "group".toList ↔ meets (ch "group".toList) (s.get "group".toList) = true))) ∧
    (resolve ss ch).get "class".toList = (ch "class".toList).values (options
      [("namespace".toList, (resolve ss ch).get "namespace".toList), ("pod".toList, (resolve ss ch).get "pod".toList),
        ("container".toList, (resolve ss ch).get "container".toList)] ss "class".toList []) ∧
    (resolve ss ch).get "group".toList = (ch "group".toList).values (options
      [("namespace".toList, (resolve ss ch).get "namespace".toList), ("pod".toList, (resolve ss ch).get "pod".toList),
        ("container".toList, (resolve ss ch).get "container".toList), ("class".toList, (resolve ss ch).get "class".toList)]
      ss "group".toList [re "class"]) := by
  generalize h1 : (ch "namespace".toList).values (options [] ss "namespace".toList []) = E1
  generalize h2 : (ch "pod".toList).values (options [("namespace".toList, E1)] ss "pod".toList [re "namespace"]) = E2
  generalize h3 : (ch "container".toList).values (options [("namespace".toList, E1), ("pod".toList, E2)] ss "container".toList
    [re "namespace", re "pod"]) = E3
  generalize h4 : (ch "class".toList).values (options [("namespace".toList, E1), ("pod".toList, E2), ("container".toList, E3)]
    ss "class".toList []) = E4
  generalize h5 : (ch "group".toList).values (options [("namespace".toList, E1), ("pod".toList, E2), ("container".toList, E3),
    ("class".toList, E4)] ss "group".toList [re "class"]) = E5
  have hr : resolve ss ch = [("namespace".toList, E1), ("pod".toList, E2), ("container".toList, E3), ("class".toList, E4),
      ("group".toList, E5)] := by
    unfold resolve vars
    simp only [List.foldl_cons, List.foldl_nil, List.nil_append, List.cons_append]
    rw [h1, h2, h3, h4, h5]
  have f1 : "namespace" ∈ five := by decide
  have f2 : "pod" ∈ five := by decide
  have f3 : "container" ∈ five := by decide
  have f4 : "class" ∈ five := by decide
  have f5 : "group" ∈ five := by decide
  -- the values are clean
  obtain ⟨c1, m1⟩ := values_mem hx (e := []) (fun v x h => by cases h) (ls := []) (by simp) f1 (hc "namespace".toList)
  rw [List.map_nil, h1] at c1 m1
  have k1 : ∀ p ∈ [("namespace".toList, E1)], ∀ x ∈ p.2, Clean x := by
    intro p hp; rw [List.mem_singleton.1 hp]; exact c1
  have e1 : Env.get [("namespace".toList, E1)] "namespace".toList = E1 := get_last (e := []) (by simp) E1 []
  obtain ⟨c2, m2⟩ := values_mem hx (get_clean k1) (ls := ["namespace"]) (by simp [f1]) f2 (hc "pod".toList)
  rw [List.map_cons, List.map_nil, h2] at c2 m2
  have k2 : ∀ p ∈ [("namespace".toList, E1), ("pod".toList, E2)], ∀ x ∈ p.2, Clean x := by
    intro p hp
    rcases List.mem_cons.1 hp with rfl | hp
    · exact c1
    · rw [List.mem_singleton.1 hp]; exact c2
  have e12 : Env.get [("namespace".toList, E1), ("pod".toList, E2)] "namespace".toList = E1 := get_last (e := []) (by simp) E1 _
  have e22 : Env.get [("namespace".toList, E1), ("pod".toList, E2)] "pod".toList = E2 :=
    get_last (e := [("namespace".toList, E1)]) (by simp only [List.map_cons, List.map_nil]; decide +kernel) E2 []
  obtain ⟨c3, m3⟩ := values_mem hx (get_clean k2) (ls := ["namespace", "pod"]) (by simp [f1, f2]) f3 (hc "container".toList)
  rw [List.map_cons, List.map_cons, List.map_nil, h3] at c3 m3
  have k3 : ∀ p ∈ [("namespace".toList, E1), ("pod".toList, E2), ("container".toList, E3)], ∀ x ∈ p.2, Clean x := by
    intro p hp
    rcases List.mem_append.1 (show p ∈ [("namespace".toList, E1), ("pod".toList, E2)] ++ [("container".toList, E3)] from hp) with hp | hp
    · exact k2 p hp
    · rw [List.mem_singleton.1 hp]; exact c3
  obtain ⟨c4, m4⟩ := values_mem hx (get_clean k3) (ls := []) (by simp) f4 (hc "class".toList)
  rw [List.map_nil, h4] at c4 m4
  have k4 : ∀ p ∈ [("namespace".toList, E1), ("pod".toList, E2), ("container".toList, E3), ("class".toList, E4)], ∀ x ∈ p.2, Clean x := by
    intro p hp
    rcases List.mem_append.1 (show p ∈ [("namespace".toList, E1), ("pod".toList, E2), ("container".toList, E3)] ++
      [("class".toList, E4)] from hp) with hp | hp
    · exact k3 p hp
    · rw [List.mem_singleton.1 hp]; exact c4
  have e44 : Env.get [("namespace".toList, E1), ("pod".toList, E2), ("container".toList, E3), ("class".toList, E4)] "class".toList = E4 :=
    get_last (e := [("namespace".toList, E1), ("pod".toList, E2), ("container".toList, E3)])
      (by simp only [List.map_cons, List.map_nil]; decide +kernel) E4 []
  obtain ⟨c5, m5⟩ := values_mem hx (get_clean k4) (ls := ["class"]) (by simp [f4]) f5 (hc "group".toList)
  rw [List.map_cons, List.map_nil, h5] at c5 m5
  have k5 : ∀ p ∈ resolve ss ch, ∀ x ∈ p.2, Clean x := by
    rw [hr]
    intro p hp
    rcases List.mem_append.1 (show p ∈ [("namespace".toList, E1), ("pod".toList, E2), ("container".toList, E3), ("class".toList, E4)] ++
      [("group".toList, E5)] from hp) with hp | hp
    · exact k4 p hp
    · rw [List.mem_singleton.1 hp]; exact c5
  have g1 : (resolve ss ch).get "namespace".toList = E1 := by rw [hr]; exact get_last (e := []) (by simp) E1 _
  have g2 : (resolve ss ch).get "pod".toList = E2 := by
    rw [hr]
    exact get_last (e := [("namespace".toList, E1)]) (by simp only [List.map_cons, List.map_nil]; decide +kernel) E2 _
  have g3 : (resolve ss ch).get "container".toList = E3 := by
    rw [hr]
    exact get_last (e := [("namespace".toList, E1), ("pod".toList, E2)]) (by simp only [List.map_cons, List.map_nil]; decide +kernel) E3 _
  have g4 : (resolve ss ch).get "class".toList = E4 := by
    rw [hr]
    exact get_last (e := [("namespace".toList, E1), ("pod".toList, E2), ("container".toList, E3)])
      (by simp only [List.map_cons, List.map_nil]; decide +kernel) E4 _
  have g5 : (resolve ss ch).get "group".toList = E5 := by
    rw [hr]
    exact get_last (e := [("namespace".toList, E1), ("pod".toList, E2), ("container".toList, E3), ("class".toList, E4)])
      (by simp only [List.map_cons, List.map_nil]; decide +kernel) E5 _
  refine ⟨get_clean k5, ?_, ?_, ?_⟩
  · intro s hs
    rw [g1, g2, g3, g4, g5]
    refine ⟨m1 s hs (by simp), ?_, ?_, m4 s hs (by simp), ?_⟩
    · intro hn
      exact m2 s hs (by intro l hl; rw [List.mem_singleton.1 hl, e1]; exact hn)
    · intro hn hp
      refine m3 s hs ?_
      intro l hl
      rcases List.mem_cons.1 hl with rfl | hl
      · rw [e12]; exact hn
      · rw [List.mem_singleton.1 hl, e22]; exact hp
    · intro hcl
      exact m5 s hs (by intro l hl; rw [List.mem_singleton.1 hl, e44]; exact hcl)
  · rw [g1, g2, g3, g4, h4]
  · rw [g1, g2, g3, g4, g5, h5]

end Swoll.Lemmas.Dashboard
