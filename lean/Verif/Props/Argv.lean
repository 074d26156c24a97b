import Verif.Spec.Argv
/-
C156: the command line means what is written.
-/
namespace Swoll.Props.Argv
open Swoll Swoll.Argv Swoll.Spec.Argv
open Swoll.JobArgs (Str)

/-! ### The tables -/

/-- The names and letters of flags are of use. -/
structure Fine (fl : List Flag) : Prop where
  name : ∀ f ∈ fl, byName fl f.name = some f
  short : ∀ f ∈ fl, ∀ c, f.short = some c → byShort fl c = some f
  plain : ∀ f ∈ fl, '=' ∉ f.name ∧ f.name.head? ≠ some '-' ∧ f.name ≠ []
  letter : ∀ f ∈ fl, ∀ c, f.short = some c → c ≠ '-'

theorem fine (c : Cmd) : Fine (flags c) := by
  have h : ∀ fl : List Flag, (fl.all fun f => byName fl f.name == some f && (match f.short with
      | none => true | some c => byShort fl c == some f && c != '-') && !f.name.contains '=' && f.name.head? != some '-' && !f.name.isEmpty) = true → Fine fl := by
    intro fl h
    rw [List.all_eq_true] at h
    refine ⟨fun f hf => ?_, fun f hf c hc => ?_, fun f hf => ?_, fun f hf c hc => ?_⟩
    all_goals
      have hx := h f hf
      simp only [Bool.and_eq_true, beq_iff_eq, bne_iff_ne, Bool.not_eq_true', List.contains_eq_mem, decide_eq_false_iff_not] at hx
      obtain ⟨⟨⟨⟨h1, h2⟩, h3⟩, h4⟩, h5⟩ := hx
    · exact h1
    · rw [hc] at h2
      simp only [Bool.and_eq_true, beq_iff_eq, bne_iff_ne] at h2
      exact h2.1
    · exact ⟨h3, h4, by intro h0; rw [h0] at h5; cases h5⟩
    · rw [hc] at h2
      simp only [Bool.and_eq_true, beq_iff_eq, bne_iff_ne] at h2
      exact h2.2
  apply h
  cases c <;> decide +kernel

theorem same_flag (c : Cmd) (f g : Flag) (hf : f ∈ flags c) (hg : g ∈ flags c)
    (h : f.name = g.name ∨ (f.short = g.short ∧ f.short ≠ none)) : f = g := by
  rcases h with h | ⟨h, hn⟩
  · have h1 := (fine c).name f hf
    rw [h, (fine c).name g hg] at h1
    exact (Option.some.inj h1).symm
  · cases hs : f.short with
    | none => exact absurd hs hn
    | some x =>
      have h1 := (fine c).short f hf x hs
      rw [(fine c).short g hg x (h ▸ hs)] at h1
      exact (Option.some.inj h1).symm

/-- C156: no command has two flags of one name or one letter. (The program would end on its start.) -/
theorem c156_ready (c : Cmd) (i j : Nat) (f g : Flag) (hf : (flags c)[i]? = some f) (hg : (flags c)[j]? = some g)
    (h : f.name = g.name ∨ (f.short = g.short ∧ f.short ≠ none)) : i = j := by
  have hn : (flags c).Nodup := by cases c <;> decide +kernel
  have he := same_flag c f g (List.mem_of_getElem? hf) (List.mem_of_getElem? hg) h
  obtain ⟨hi, hf⟩ := List.getElem?_eq_some_iff.1 hf
  obtain ⟨hj, hg⟩ := List.getElem?_eq_some_iff.1 hg
  exact (List.getElem_inj (h₀ := hi) (h₁ := hj) hn).1 (hf.trans (he.trans hg.symm))

example : (flags .create).length = 22 ∧ (⟨"oneshot".toList, some 'O', .bool, "false".toList⟩ : Flag) ∈ flags .create := by decide +kernel

/-! ### Words -/

theorem cut_none {s : Str} (h : '=' ∉ s) : JobArgs.cut '=' s = (s, none) := by
  induction s with
  | nil => rfl
  | cons c s ih =>
    rw [List.mem_cons, not_or] at h
    rw [JobArgs.cut, if_neg (Ne.symm h.1), ih h.2]

theorem cut_some {s v : Str} (h : '=' ∉ s) : JobArgs.cut '=' (s ++ '=' :: v) = (s, some v) := by
  induction s with
  | nil => rfl
  | cons c s ih =>
    rw [List.mem_cons, not_or] at h
    rw [List.cons_append, JobArgs.cut, if_neg (Ne.symm h.1), ih h.2]

theorem set_fits {f : Flag} {v : Str} (h : Fits f v) : Argv.set f v = some [(f, v)] := by
  unfold Argv.set
  refine if_pos ?_
  unfold settable
  unfold Fits at h
  cases hk : f.kind with
  | text => rfl
  | bool =>
    rw [hk] at h
    dsimp only at h ⊢
    exact List.contains_iff_mem.2 h
  | slice =>
    rw [hk] at h
    obtain ⟨l, h⟩ := h
    dsimp only
    rw [h]
    rfl

theorem fits_not {f : Flag} {v : Str} (h : ¬ Fits f v) : Argv.set f v = none := by
  unfold Argv.set
  refine if_neg fun hs => h ?_
  unfold settable at hs
  unfold Fits
  cases hk : f.kind with
  | text => trivial
  | bool =>
    rw [hk] at hs
    exact List.contains_iff_mem.1 hs
  | slice =>
    rw [hk] at hs
    exact Option.isSome_iff_exists.1 hs

theorem parse_long {fl : List Flag} {n : Str} {rest : List Str} (hn : n ≠ []) :
    parse fl none (("--".toList ++ n) :: rest) = match long fl n with
      | none => none
      | some (g, p) => (parse fl p rest).map fun r => ⟨g ++ r.given, r.words⟩ := by
  cases n with
  | nil => exact absurd rfl hn
  | cons c cs => rfl

theorem parse_short {fl : List Flag} {c : Char} {cs : Str} {rest : List Str} (hc : c ≠ '-') :
    parse fl none (('-' :: c :: cs) :: rest) = match shorts fl (c :: cs) with
      | none => none
      | some (g, p) => (parse fl p rest).map fun r => ⟨g ++ r.given, r.words⟩ := by
  rw [parse]
  · rfl
  · intro h _
    exact absurd h hc
  · intro _ _ h
    exact absurd h hc

theorem parse_word {fl : List Flag} {s : Str} {rest : List Str} (h : s.head? ≠ some '-' ∨ s = ['-']) :
    parse fl none (s :: rest) = (parse fl none rest).map fun r => ⟨r.given, s :: r.words⟩ := by
  rcases h with h | rfl
  · rw [parse]
    all_goals
      intros
      subst_vars
      exact h rfl
  · rfl

theorem long_name {fl : List Flag} (hfl : Fine fl) {f : Flag} (hf : f ∈ fl) (v : Option Str) :
    long fl (f.name ++ (match v with | none => [] | some v => '=' :: v)) =
      match v with
      | some v => (set f v).map (·, none)
      | none => if f.kind = .bool then some ([(f, "true".toList)], none) else some ([], some f) := by
  obtain ⟨h1, h2, h3⟩ := hfl.plain f hf
  have hh : (f.name ++ (match v with | none => [] | some v => '=' :: v)).head? = f.name.head? := by
    rw [List.head?_append]
    cases hn : f.name with
    | nil => exact absurd hn h3
    | cons _ _ => rfl
  unfold long
  rw [hh, if_neg]
  · cases v with
    | none =>
      dsimp only
      rw [List.append_nil, cut_none h1, hfl.name f hf]
    | some v =>
      dsimp only
      rw [cut_some h1, hfl.name f hf]
  · rintro (h | h)
    · exact h2 h
    · exact h1 (List.mem_of_mem_head? h)

theorem shorts_letters {fl : List Flag} (hfl : Fine fl) (fs : List (Flag × Char))
    (h : ∀ p ∈ fs, p.1 ∈ fl ∧ p.1.kind = .bool ∧ p.1.short = some p.2) (heq : ∀ p ∈ fs, p.2 ≠ '=') :
    shorts fl (fs.map (·.2)) = some (fs.map fun p => (p.1, "true".toList), none) := by
  induction fs with
  | nil => rfl
  | cons p fs ih =>
    obtain ⟨h1, h2, h3⟩ := h p (.head _)
    have ih := ih (fun q hq => h q (List.mem_cons_of_mem _ hq)) (fun q hq => heq q (List.mem_cons_of_mem _ hq))
    rw [List.map_cons, shorts, hfl.short _ h1 _ h3]
    dsimp only
    split
    · next hx =>
      exfalso
      cases fs with
      | nil => cases hx
      | cons q fs =>
        rw [List.map_cons] at hx
        exact heq q (.tail _ (.head _)) (List.cons.inj hx).1
    · rw [if_pos h2, ih]
      rfl

/-- One item. -/
theorem parse_item {fl : List Flag} (hfl : Fine fl) (he : ∀ f ∈ fl, f.short ≠ some '=') (i : Item) (hi : i.Good fl) (rest : List Str) :
    parse fl none (i.text ++ rest) = (parse fl none rest).map fun r => ⟨i.given ++ r.given, i.words ++ r.words⟩ := by
  cases i with
  | word s => exact parse_word hi
  | long f v =>
    obtain ⟨h1, h2, h3⟩ := hi
    show parse fl none (("--".toList ++ f.name) :: v :: rest) = _
    have := long_name hfl h1 none
    dsimp only at this
    rw [List.append_nil, if_neg h2] at this
    rw [parse_long (hfl.plain f h1).2.2, this]
    dsimp only
    rw [parse, set_fits h3]
    dsimp only
    rw [Option.map_map]
    rfl
  | longEq f v =>
    obtain ⟨h1, h3⟩ := hi
    show parse fl none (("--".toList ++ f.name ++ '=' :: v) :: rest) = _
    have := long_name hfl h1 (some v)
    dsimp only at this
    rw [List.append_assoc, parse_long (by simp), this, set_fits h3]
    rfl
  | short f c v =>
    obtain ⟨h1, h2, h3, h4⟩ := hi
    show parse fl none (('-' :: c :: []) :: v :: rest) = _
    rw [parse_short (hfl.letter f h1 c h3), shorts, hfl.short f h1 c h3]
    dsimp only
    rw [if_neg h2, if_pos rfl]
    dsimp only
    rw [parse, set_fits h4]
    dsimp only
    rw [Option.map_map]
    rfl
  | attached f c v =>
    obtain ⟨h1, h2, h3, h4, h5, h6⟩ := hi
    show parse fl none (('-' :: c :: v) :: rest) = _
    rw [parse_short (hfl.letter f h1 c h3), shorts, hfl.short f h1 c h3]
    dsimp only
    cases v with
    | nil => exact absurd rfl h4
    | cons x v =>
      have hx : x ≠ '=' := fun h => h5 (by rw [h]; rfl)
      split
      · next h =>
        split at h
        · next he => exact absurd (List.cons.inj he).1 hx
        · rw [if_neg h2, if_neg h4, set_fits h6] at h
          cases h
      · next h =>
        split at h
        · next he => exact absurd (List.cons.inj he).1 hx
        · rw [if_neg h2, if_neg h4, set_fits h6] at h
          cases h
          rfl
  | on f =>
    obtain ⟨h1, h2⟩ := hi
    show parse fl none (("--".toList ++ f.name) :: rest) = _
    have := long_name hfl h1 none
    dsimp only at this
    rw [List.append_nil, if_pos h2] at this
    rw [parse_long (hfl.plain f h1).2.2, this]
    rfl
  | letters fs =>
    obtain ⟨h1, h2⟩ := hi
    cases fs with
    | nil => exact absurd rfl h1
    | cons p fs =>
      show parse fl none (('-' :: p.2 :: fs.map (·.2)) :: rest) = _
      have hp := h2 p (.head _)
      have := shorts_letters hfl (p :: fs) h2 (fun q hq he' => he _ (h2 q hq).1 (he' ▸ (h2 q hq).2.2))
      rw [List.map_cons] at this
      rw [parse_short (hfl.letter _ hp.1 _ hp.2.2), this]
      rfl

theorem no_eq (c : Cmd) : ∀ f ∈ flags c, f.short ≠ some '=' := by
  cases c <;> decide +kernel

theorem parse_items (c : Cmd) (is : List Item) (h : ∀ i ∈ is, i.Good (flags c)) (rest : List Str) :
    parse (flags c) none (is.flatMap Item.text ++ rest) =
      (parse (flags c) none rest).map fun r => ⟨is.flatMap Item.given ++ r.given, is.flatMap Item.words ++ r.words⟩ := by
  induction is with
  | nil =>
    show parse _ _ rest = _
    cases parse (flags c) none rest <;> rfl
  | cons i is ih =>
    rw [List.flatMap_cons, List.append_assoc, parse_item (fine c) (no_eq c) i (h i (.head _)),
      ih (fun x hx => h x (List.mem_cons_of_mem _ hx)), Option.map_map]
    congr 1
    funext r
    simp only [Function.comp, List.flatMap_cons, List.append_assoc]

/-! ### Commands -/

theorem strip_word {fl : List Flag} {w : Str} {rest : List Str} (h1 : w.head? ≠ some '-') (h2 : w ≠ []) :
    strip fl (w :: rest) = w :: strip fl rest := by
  have ht : takes fl w = false := by
    unfold takes
    split
    · exact absurd rfl h1
    · exact absurd rfl h1
    · rfl
  have hd : ¬ w = ['-', '-'] := by
    intro he
    rw [he] at h1
    exact h1 rfl
  cases rest with
  | nil => simp [strip, hd, ht, h1, h2]
  | cons a rest => cases rest <;> simp [strip, hd, ht, h1, h2]

theorem step_word {c c' : Cmd} {w : Str} {rest : List Str} (h1 : w.head? ≠ some '-') (h2 : w ≠ []) (h3 : next c w = some c') :
    step (c, w :: rest) = (c', rest) := by
  unfold step
  dsimp only
  rw [strip_word h1 h2, List.head?_cons]
  dsimp only
  rw [h3, List.erase_cons_head]

theorem step_leaf {c : Cmd} (h : Works c) (rest : List Str) : step (c, rest) = (c, rest) := by
  unfold step
  dsimp only
  split
  · rfl
  · have : ∀ w, next c w = none := by
      intro w
      cases c
      all_goals first | rfl | exact absurd h (by unfold Works; decide)
    rw [this]

/-- C156: a command is found by its words, whatever follows. -/
theorem c156_command (c : Cmd) (h : Works c) (rest : List Str) : find (path c ++ rest) = some (c, rest) := by
  have key : step (step (step (.root, path c ++ rest))) = (c, rest) := by
    cases c
    case root => exact absurd h (by unfold Works; decide)
    case client => exact absurd h (by unfold Works; decide)
    case query => exact absurd h (by unfold Works; decide)
    case help => rw [show path .help ++ rest = "help".toList :: rest from rfl, step_word (c' := .help) (by decide) (by decide) (by decide), step_leaf h, step_leaf h]
    case controller => rw [show path .controller ++ rest = "controller".toList :: rest from rfl, step_word (c' := .controller) (by decide) (by decide) (by decide), step_leaf h, step_leaf h]
    case selftest => rw [show path .selftest ++ rest = "selftest".toList :: rest from rfl, step_word (c' := .selftest) (by decide) (by decide) (by decide), step_leaf h, step_leaf h]
    case server => rw [show path .server ++ rest = "server".toList :: rest from rfl, step_word (c' := .server) (by decide) (by decide) (by decide), step_leaf h, step_leaf h]
    case top => rw [show path .top ++ rest = "top".toList :: rest from rfl, step_word (c' := .top) (by decide) (by decide) (by decide), step_leaf h, step_leaf h]
    case trace => rw [show path .trace ++ rest = "trace".toList :: rest from rfl, step_word (c' := .trace) (by decide) (by decide) (by decide), step_leaf h, step_leaf h]
    case delete => rw [show path .delete ++ rest = "client".toList :: "delete".toList :: rest from rfl, step_word (c' := .client) (by decide) (by decide) (by decide), step_word (c' := .delete) (by decide) (by decide) (by decide), step_leaf h]
    case watch => rw [show path .watch ++ rest = "client".toList :: "watch".toList :: rest from rfl, step_word (c' := .client) (by decide) (by decide) (by decide), step_word (c' := .watch) (by decide) (by decide) (by decide), step_leaf h]
    case create => rw [show path .create ++ rest = "client".toList :: "create".toList :: rest from rfl, step_word (c' := .client) (by decide) (by decide) (by decide), step_word (c' := .create) (by decide) (by decide) (by decide), step_leaf h]
    case completed => rw [show path .completed ++ rest = "client".toList :: "query".toList :: "completed".toList :: rest from rfl, step_word (c' := .client) (by decide) (by decide) (by decide), step_word (c' := .query) (by decide) (by decide) (by decide), step_word (c' := .completed) (by decide) (by decide) (by decide)]
    case running => rw [show path .running ++ rest = "client".toList :: "query".toList :: "running".toList :: rest from rfl, step_word (c' := .client) (by decide) (by decide) (by decide), step_word (c' := .query) (by decide) (by decide) (by decide), step_word (c' := .running) (by decide) (by decide) (by decide)]
  unfold find
  dsimp only
  rw [key, if_neg]
  rintro ⟨h0, -⟩
  exact h (by rw [show c = .root from h0]; decide)

example : Works .create ∧ path .create = ["client".toList, "create".toList] := ⟨by unfold Works; decide, rfl⟩

/-- C156: the command line means what is written: the command is run with the values that were given to its flags, in any of
the ways to give them, and with the other words; what follows `--` is words. -/
theorem c156_line (c : Cmd) (h : Works c) (is : List Item) (hi : ∀ i ∈ is, i.Good (flags c)) (ws : List Str) :
    execute (path c ++ is.flatMap Item.text) = some (c, ⟨is.flatMap Item.given, is.flatMap Item.words⟩) ∧
    execute (path c ++ (is.flatMap Item.text ++ "--".toList :: ws)) = some (c, ⟨is.flatMap Item.given, is.flatMap Item.words ++ ws⟩) := by
  constructor
  · unfold execute
    rw [c156_command c h]
    dsimp only
    have := parse_items c is hi []
    rw [List.append_nil] at this
    rw [this]
    simp [parse]
  · unfold execute
    rw [c156_command c h]
    dsimp only
    rw [parse_items c is hi, show parse (flags c) none ("--".toList :: ws) = some ⟨[], ws⟩ from rfl]
    simp

example : let is : List Item := [.long ⟨"jobid".toList, some 'j', .text, []⟩ "--x".toList, .letters [(⟨"oneshot".toList, some 'O', .bool, "false".toList⟩, 'O')],
      .word "pod".toList]
    (∀ i ∈ is, i.Good (flags .create)) ∧ is.flatMap Item.text = ["--jobid".toList, "--x".toList, "-O".toList, "pod".toList] := by
  refine ⟨?_, by decide⟩
  intro i hi
  rcases List.mem_cons.1 hi with rfl | hi
  · exact ⟨by decide +kernel, by decide, trivial⟩
  rcases List.mem_cons.1 hi with rfl | hi
  · exact ⟨by decide, by intro p hp; rw [List.mem_singleton.1 hp]; exact ⟨by decide +kernel, rfl, rfl⟩⟩
  rcases List.mem_cons.1 hi with rfl | hi
  · exact .inl (by decide)
  cases hi

theorem line_none (c : Cmd) (h : Works c) (is : List Item) (hi : ∀ i ∈ is, i.Good (flags c)) (rest : List Str)
    (hr : parse (flags c) none rest = none) : execute (path c ++ (is.flatMap Item.text ++ rest)) = none := by
  unfold execute
  rw [c156_command c h]
  dsimp only
  rw [parse_items c is hi, hr]
  rfl

/-- C156: what means nothing is refused: a flag the command does not have, a flag with no value at the end of the line, a value that
is not of the flag's type. -/
theorem c156_refused (c : Cmd) (h : Works c) (is : List Item) (hi : ∀ i ∈ is, i.Good (flags c)) (rest : List Str) :
    (∀ n, n ≠ [] → '=' ∉ n → (∀ f ∈ flags c, f.name ≠ n) →
      execute (path c ++ (is.flatMap Item.text ++ ("--".toList ++ n) :: rest)) = none) ∧
    (∀ f ∈ flags c, f.kind ≠ .bool → execute (path c ++ (is.flatMap Item.text ++ ["--".toList ++ f.name])) = none) ∧
    (∀ f ∈ flags c, ∀ v, ¬ Fits f v →
      execute (path c ++ (is.flatMap Item.text ++ ("--".toList ++ f.name ++ '=' :: v) :: rest)) = none ∧
      (f.kind ≠ .bool → execute (path c ++ (is.flatMap Item.text ++ ("--".toList ++ f.name) :: v :: rest)) = none)) := by
  refine ⟨fun n h0 h1 h2 => line_none c h is hi _ ?_, fun f hf hk => line_none c h is hi _ ?_, fun f hf v hv =>
    ⟨line_none c h is hi _ ?_, fun hk => line_none c h is hi _ ?_⟩⟩
  · rw [parse_long h0]
    have : long (flags c) n = none := by
      unfold long
      split
      · rfl
      · have hn : byName (flags c) n = none := by
          unfold byName
          rw [List.find?_eq_none]
          intro f hf
          simpa using h2 f hf
        rw [cut_none h1]
        dsimp only
        rw [hn]
    rw [this]
  · have := long_name (fine c) hf none
    dsimp only at this
    rw [List.append_nil, if_neg hk] at this
    rw [parse_long ((fine c).plain f hf).2.2, this]
    rfl
  · have := long_name (fine c) hf (some v)
    dsimp only at this
    rw [List.append_assoc, parse_long (by simp), this, fits_not hv]
    rfl
  · have := long_name (fine c) hf none
    dsimp only at this
    rw [List.append_nil, if_neg hk] at this
    rw [parse_long ((fine c).plain f hf).2.2, this]
    dsimp only
    rw [parse, fits_not hv]
    rfl

example : (∀ f ∈ flags .trace, f.name ≠ "oneshot".toList) ∧ ∃ f ∈ flags .trace, ¬ Fits f "maybe".toList := by
  refine ⟨by decide +kernel, ⟨"no-containers".toList, none, .bool, "false".toList⟩, by decide +kernel, ?_⟩
  unfold Fits
  decide +kernel

/-! ### What a command reads -/

/-- C156: of the values given for a flag the last is used. -/
theorem c156_last (c : Cmd) (h : Works c) (is : List Item) (hi : ∀ i ∈ is, i.Good (flags c)) (f : Flag) (v : Str)
    (hl : ((is.flatMap Item.given).filter (·.1 = f)).getLast? = some (f, v)) (hf : f ∈ flags c) :
    ∃ r, execute (path c ++ is.flatMap Item.text) = some (c, r) ∧ getString c r f.name = some v := by
  refine ⟨_, (c156_line c h is hi []).1, ?_⟩
  have hg : ∀ p ∈ is.flatMap Item.given, p.1 ∈ flags c := by
    intro p hp
    obtain ⟨i, hi', hp⟩ := List.mem_flatMap.1 hp
    have hgood := hi i hi'
    cases i with
    | word s => cases hp
    | long f v => rw [List.mem_singleton.1 hp]; exact hgood.1
    | longEq f v => rw [List.mem_singleton.1 hp]; exact hgood.1
    | short f c v => rw [List.mem_singleton.1 hp]; exact hgood.1
    | attached f c v => rw [List.mem_singleton.1 hp]; exact hgood.1
    | on f => rw [List.mem_singleton.1 hp]; exact hgood.1
    | letters fs =>
      obtain ⟨q, hq, rfl⟩ := List.mem_map.1 hp
      exact (hgood.2 q hq).1
  have hv : ∀ l : List (Flag × Str), (∀ p ∈ l, p.1 ∈ flags c) →
      values ⟨l, is.flatMap Item.words⟩ f.name = (l.filter (·.1 = f)).map (·.2) := by
    intro l hl
    induction l with
    | nil => rfl
    | cons p l ih =>
      have ih := ih (fun q hq => hl q (List.mem_cons_of_mem _ hq))
      unfold values at ih ⊢
      rw [List.filterMap_cons]
      by_cases hp : p.1 = f
      · rw [List.filter_cons_of_pos (by simpa using hp), List.map_cons, ← ih, hp, if_pos rfl]
      · rw [List.filter_cons_of_neg (by simpa using hp), ← ih, if_neg]
        intro hn
        exact hp (same_flag c _ _ (hl p (.head _)) hf (.inl hn))
  unfold getString
  rw [hv _ hg, List.getLast?_map, hl]
  rfl

/-- C156: and a flag that is not given has its default. -/
theorem c156_default (c : Cmd) (h : Works c) (is : List Item) (hi : ∀ i ∈ is, i.Good (flags c)) (f : Flag) (hf : f ∈ flags c)
    (hn : ∀ p ∈ is.flatMap Item.given, p.1.name ≠ f.name) :
    ∃ r, execute (path c ++ is.flatMap Item.text) = some (c, r) ∧ getString c r f.name = some f.dflt := by
  refine ⟨_, (c156_line c h is hi []).1, ?_⟩
  have : values ⟨is.flatMap Item.given, is.flatMap Item.words⟩ f.name = [] := by
    unfold values
    rw [List.filterMap_eq_nil_iff]
    intro p hp
    exact if_neg (hn p hp)
  unfold getString
  rw [this]
  dsimp only [List.getLast?_nil]
  rw [(fine c).name f hf]
  rfl

example : getString .trace ⟨[(⟨"namespace".toList, some 'n', .text, []⟩, "a".toList), (⟨"namespace".toList, some 'n', .text, []⟩, "b".toList)], []⟩
      "namespace".toList = some "b".toList ∧
    getString .trace ⟨[], []⟩ "log".toList = some "info".toList := by decide +kernel

/-! ### The job of a trace -/

theorem one_slice (v : Str) (f : Flag) (l : Found) (h : values l f.name = [v]) : getStringSlice l f.name = JobArgs.getStringSlice v := by
  unfold getStringSlice JobArgs.getStringSlice
  rw [h]
  cases hv : JobArgs.readAsCSV v with
  | none => simp [List.mapM_cons, hv]
  | some ls => simp [List.mapM_cons, hv]

/-- C156: the client in the job of a trace is given, for each flag, the value the controller wrote, whatever is in it. -/
theorem c156_job (a : JobArgs.Args) (he : ∃ l, JobArgs.readAsCSV a.endpoints = some l) (hs : ∃ l, JobArgs.readAsCSV a.syscalls = some l)
    (hh : ∃ l, JobArgs.readAsCSV a.hosts = some l) :
    ∃ r, execute (jobLine a) = some (.create, r) ∧ r.words = [] ∧
      getStringSlice r "endpoints".toList = JobArgs.getStringSlice a.endpoints ∧
      getStringSlice r "syscalls".toList = JobArgs.getStringSlice a.syscalls ∧
      getStringSlice r "match-hosts".toList = JobArgs.getStringSlice a.hosts ∧
      getString .create r "label-selector".toList = some a.labelSel ∧
      getString .create r "field-selector".toList = some a.fieldSel ∧
      getString .create r "namespace".toList = some a.ns ∧
      getString .create r "jobid".toList = some a.jobid ∧
      getString .create r "file".toList = some [] ∧
      getString .create r "output".toList = some "json".toList ∧
      getBool .create r "oneshot".toList = some true ∧
      getBool .create r "use-tls".toList = some false := by
  let is : List Item := [.long ⟨"endpoints".toList, some 'e', .slice, []⟩ a.endpoints, .long ⟨"syscalls".toList, some 's', .slice, []⟩ a.syscalls,
    .long ⟨"match-hosts".toList, some 'm', .slice, []⟩ a.hosts, .long ⟨"label-selector".toList, some 'l', .text, []⟩ a.labelSel,
    .long ⟨"field-selector".toList, some 'F', .text, []⟩ a.fieldSel, .long ⟨"namespace".toList, some 'n', .text, []⟩ a.ns,
    .long ⟨"jobid".toList, some 'j', .text, []⟩ a.jobid, .on ⟨"oneshot".toList, some 'O', .bool, "false".toList⟩]
  have hi : ∀ i ∈ is, i.Good (flags .create) := by
    intro i hi
    rcases List.mem_cons.1 hi with rfl | hi
    · exact ⟨by decide +kernel, by decide, he⟩
    rcases List.mem_cons.1 hi with rfl | hi
    · exact ⟨by decide +kernel, by decide, hs⟩
    rcases List.mem_cons.1 hi with rfl | hi
    · exact ⟨by decide +kernel, by decide, hh⟩
    rcases List.mem_cons.1 hi with rfl | hi
    · exact ⟨by decide +kernel, by decide, trivial⟩
    rcases List.mem_cons.1 hi with rfl | hi
    · exact ⟨by decide +kernel, by decide, trivial⟩
    rcases List.mem_cons.1 hi with rfl | hi
    · exact ⟨by decide +kernel, by decide, trivial⟩
    rcases List.mem_cons.1 hi with rfl | hi
    · exact ⟨by decide +kernel, by decide, trivial⟩
    rcases List.mem_cons.1 hi with rfl | hi
    · exact ⟨by decide +kernel, by decide⟩
    cases hi
  have hx := (c156_line .create (by unfold Works; decide) is hi []).1
  refine ⟨_, hx, rfl, ?_, ?_, ?_, ?_⟩
  · exact one_slice _ ⟨"endpoints".toList, some 'e', .slice, []⟩ _ rfl
  · exact one_slice _ ⟨"syscalls".toList, some 's', .slice, []⟩ _ rfl
  · exact one_slice _ ⟨"match-hosts".toList, some 'm', .slice, []⟩ _ rfl
  · exact ⟨rfl, rfl, rfl, rfl, rfl, rfl, rfl, rfl⟩

example : let a : JobArgs.Args := ⟨"\"10.0.0.1:9095\"".toList, "openat,read".toList, "\"\"".toList, "--x".toList, [], "web".toList, "j".toList⟩
    (∃ l, JobArgs.readAsCSV a.endpoints = some l) ∧ (∃ l, JobArgs.readAsCSV a.syscalls = some l) ∧ (∃ l, JobArgs.readAsCSV a.hosts = some l) :=
  ⟨⟨["10.0.0.1:9095".toList], by decide +kernel⟩, ⟨["openat".toList, "read".toList], by decide +kernel⟩, ⟨[[]], by decide +kernel⟩⟩

/-! ### The chart -/

/-- C156: the server of the chart listens where the chart says, for the containers the chart names. -/
theorem c156_server (cri port : Str) : ∃ r, execute (serverLine cri port) = some (.server, r) ∧ r.words = [] ∧
    getString .server r "cri".toList = some cri ∧ getString .server r "listen-addr".toList = some (':' :: port) ∧
    getBool .server r "use-tls".toList = some false ∧ getBool .server r "no-metrics".toList = some false := by
  let is : List Item := [.short ⟨"cri".toList, some 'r', .text, []⟩ 'r' cri, .long ⟨"listen-addr".toList, some 'l', .text, ":9095".toList⟩ (':' :: port)]
  have hi : ∀ i ∈ is, i.Good (flags .server) := by
    intro i hi
    rcases List.mem_cons.1 hi with rfl | hi
    · exact ⟨by decide +kernel, by decide, rfl, trivial⟩
    rcases List.mem_cons.1 hi with rfl | hi
    · exact ⟨by decide +kernel, by decide, trivial⟩
    cases hi
  exact ⟨_, (c156_line .server (by unfold Works; decide) is hi []).1, rfl, rfl, rfl, rfl, rfl⟩

/-- C156: and the controller of the chart runs its jobs from the image the chart names, shows its metrics to the proxy beside it only,
and is one of those of which one leads. -/
theorem c156_controller (image : Str) : ∃ r, execute (controllerLine image) = some (.controller, r) ∧ r.words = [] ∧
    getString .controller r "image".toList = some image ∧
    getString .controller r "metrics-addr".toList = some "127.0.0.1:8080".toList ∧
    getBool .controller r "enable-leader-election".toList = some true ∧
    getString .controller r "kubeconfig".toList = some [] := by
  let is : List Item := [.on ⟨"enable-leader-election".toList, none, .bool, "false".toList⟩,
    .long ⟨"image".toList, some 'i', .text, "criticalstack/swoll:latest".toList⟩ image,
    .longEq ⟨"metrics-addr".toList, some 'm', .text, ":8080".toList⟩ "127.0.0.1:8080".toList,
    .on ⟨"enable-leader-election".toList, none, .bool, "false".toList⟩]
  have hi : ∀ i ∈ is, i.Good (flags .controller) := by
    intro i hi
    rcases List.mem_cons.1 hi with rfl | hi
    · exact ⟨by decide +kernel, by decide⟩
    rcases List.mem_cons.1 hi with rfl | hi
    · exact ⟨by decide +kernel, by decide, trivial⟩
    rcases List.mem_cons.1 hi with rfl | hi
    · exact ⟨by decide +kernel, trivial⟩
    rcases List.mem_cons.1 hi with rfl | hi
    · exact ⟨by decide +kernel, by decide⟩
    cases hi
  exact ⟨_, (c156_line .controller (by unfold Works; decide) is hi []).1, rfl, rfl, rfl, rfl, rfl⟩

/-! ### Flags before the command -/

theorem strip_item {fl : List Flag} (hfl : Fine fl) (he : ∀ f ∈ fl, f.short ≠ some '=') (i : Item) (hi : i.Good fl) (hw : i.words = []) (w : Str)
    (rest : List Str) : strip fl (i.text ++ w :: rest) = strip fl (w :: rest) := by
  have flag : ∀ s : Str, s.head? = some '-' → s ≠ ['-', '-'] → takes fl s = false → strip fl (s :: w :: rest) = strip fl (w :: rest) := by
    intro s h1 h2 h3
    cases rest <;> simp [strip, h1, h2, h3]
  have value : ∀ s v : Str, s ≠ ['-', '-'] → takes fl s = true → strip fl (s :: v :: w :: rest) = strip fl (w :: rest) := by
    intro s v h2 h3
    simp [strip, h2, h3]
  cases i with
  | word s => cases hw
  | long f v =>
    obtain ⟨h1, h2, -⟩ := hi
    obtain ⟨p1, p2, p3⟩ := hfl.plain f h1
    refine value _ v ?_ ?_
    · intro h
      exact p3 (List.cons.inj (List.cons.inj h).2).2
    · show (!f.name.contains '=' && !(byName fl f.name).any (·.kind == .bool)) = true
      rw [hfl.name f h1]
      simp [p1, h2]
  | longEq f v =>
    refine flag _ rfl ?_ ?_
    · intro h
      have := (List.cons.inj (List.cons.inj h).2).2
      simp at this
    · show (!(f.name ++ '=' :: v).contains '=' && _) = false
      simp
  | short f c v =>
    obtain ⟨h1, h2, h3, -⟩ := hi
    refine value _ v ?_ ?_
    · intro h
      exact hfl.letter f h1 c h3 (List.cons.inj (List.cons.inj h).2).1
    · have hc := hfl.letter f h1 c h3
      have hq : c ≠ '=' := fun h => he f h1 (h ▸ h3)
      unfold takes
      split
      · next h => exact absurd (List.cons.inj (List.cons.inj h).2).1 hc
      · next h =>
        obtain ⟨rfl, -⟩ := List.cons.inj (List.cons.inj h).2
        rw [hfl.short f h1 _ h3]
        simp [h2, hq]
      · next h => exact absurd rfl (h c)
  | attached f c v =>
    obtain ⟨h1, h2, h3, h4, -⟩ := hi
    have hc := hfl.letter f h1 c h3
    refine flag _ rfl ?_ ?_
    · intro h
      exact hc (List.cons.inj (List.cons.inj h).2).1
    · unfold takes
      split
      · next h => exact absurd (List.cons.inj (List.cons.inj h).2).1 hc
      · next h => exact absurd (List.cons.inj (List.cons.inj h).2).2 h4
      · rfl
  | on f =>
    obtain ⟨h1, h2⟩ := hi
    obtain ⟨p1, p2, p3⟩ := hfl.plain f h1
    refine flag _ rfl ?_ ?_
    · intro h
      exact p3 (List.cons.inj (List.cons.inj h).2).2
    · show (!f.name.contains '=' && !(byName fl f.name).any (·.kind == .bool)) = false
      rw [hfl.name f h1]
      simp [h2]
  | letters fs =>
    obtain ⟨h1, h2⟩ := hi
    cases fs with
    | nil => exact absurd rfl h1
    | cons p fs =>
      obtain ⟨q1, q2, q3⟩ := h2 p (.head _)
      have hc := hfl.letter _ q1 _ q3
      refine flag _ rfl ?_ ?_
      · intro h
        exact hc (List.cons.inj (List.cons.inj h).2).1
      · show takes fl ('-' :: p.2 :: fs.map (·.2)) = false
        unfold takes
        split
        · next h => exact absurd (List.cons.inj (List.cons.inj h).2).1 hc
        · next h =>
          obtain ⟨h, -⟩ := List.cons.inj (List.cons.inj h).2
          rw [← h, hfl.short _ q1 _ q3]
          simp [q2]
        · rfl

theorem good_mono {fl fl' : List Flag} (h : ∀ f ∈ fl, f ∈ fl') (i : Item) (hi : i.Good fl) : i.Good fl' := by
  cases i with
  | word s => exact hi
  | long f v => exact ⟨h _ hi.1, hi.2⟩
  | longEq f v => exact ⟨h _ hi.1, hi.2⟩
  | short f c v => exact ⟨h _ hi.1, hi.2⟩
  | attached f c v => exact ⟨h _ hi.1, hi.2⟩
  | on f => exact ⟨h _ hi.1, hi.2⟩
  | letters fs => exact ⟨hi.1, fun p hp => ⟨h _ (hi.2 p hp).1, (hi.2 p hp).2⟩⟩

theorem root_all (c : Cmd) : ∀ f ∈ rootFlags, f ∈ flags c := by
  cases c <;> decide +kernel

theorem strip_items (c : Cmd) (pre : List Item) (h : ∀ i ∈ pre, i.Good rootFlags ∧ i.words = []) (w : Str) (rest : List Str) :
    strip (flags c) (pre.flatMap Item.text ++ w :: rest) = strip (flags c) (w :: rest) := by
  induction pre with
  | nil => rfl
  | cons i pre ih =>
    have ih := ih (fun x hx => h x (List.mem_cons_of_mem _ hx))
    have hi := h i (.head _)
    rw [List.flatMap_cons, List.append_assoc]
    cases hp : pre.flatMap Item.text with
    | nil =>
      rw [List.nil_append, strip_item (fine c) (no_eq c) i (good_mono (root_all c) i hi.1) hi.2]
    | cons a as =>
      rw [hp] at ih
      rw [List.cons_append, strip_item (fine c) (no_eq c) i (good_mono (root_all c) i hi.1) hi.2, ← List.cons_append, ih]

theorem step_before {c c' : Cmd} {w : Str} {pre : List Item} {rest : List Str} (h : ∀ i ∈ pre, i.Good rootFlags ∧ i.words = [])
    (hw : w ∉ pre.flatMap Item.text) (h1 : w.head? ≠ some '-') (h2 : w ≠ []) (h3 : next c w = some c') :
    step (c, pre.flatMap Item.text ++ w :: rest) = (c', pre.flatMap Item.text ++ rest) := by
  unfold step
  dsimp only
  rw [strip_items c pre h, strip_word h1 h2, List.head?_cons]
  dsimp only
  rw [h3]
  dsimp only
  rw [List.erase_append_right _ hw, List.erase_cons_head]

/-- C156: the flags that every command has may come before the command, as far as none of the words written for them is a word of
the command's name. -/
theorem c156_before_partial (c : Cmd) (h : Works c) (pre is : List Item) (hp : ∀ i ∈ pre, i.Good rootFlags ∧ i.words = [])
    (hi : ∀ i ∈ is, i.Good (flags c)) (hw : ∀ w ∈ path c, w ∉ pre.flatMap Item.text) :
    execute (pre.flatMap Item.text ++ (path c ++ is.flatMap Item.text)) =
      some (c, ⟨pre.flatMap Item.given ++ is.flatMap Item.given, is.flatMap Item.words⟩) := by
  have key : ∀ rest, step (step (step (.root, pre.flatMap Item.text ++ (path c ++ rest)))) = (c, pre.flatMap Item.text ++ rest) := by
    intro rest
    cases c
    case root => exact absurd h (by unfold Works; decide)
    case client => exact absurd h (by unfold Works; decide)
    case query => exact absurd h (by unfold Works; decide)
    case help => rw [show path .help ++ rest = "help".toList :: rest from rfl, step_before hp (hw _ (.head _)) (c' := .help) (by decide) (by decide) (by decide), step_leaf h, step_leaf h]
    case controller => rw [show path .controller ++ rest = "controller".toList :: rest from rfl, step_before hp (hw _ (.head _)) (c' := .controller) (by decide) (by decide) (by decide), step_leaf h, step_leaf h]
    case selftest => rw [show path .selftest ++ rest = "selftest".toList :: rest from rfl, step_before hp (hw _ (.head _)) (c' := .selftest) (by decide) (by decide) (by decide), step_leaf h, step_leaf h]
    case server => rw [show path .server ++ rest = "server".toList :: rest from rfl, step_before hp (hw _ (.head _)) (c' := .server) (by decide) (by decide) (by decide), step_leaf h, step_leaf h]
    case top => rw [show path .top ++ rest = "top".toList :: rest from rfl, step_before hp (hw _ (.head _)) (c' := .top) (by decide) (by decide) (by decide), step_leaf h, step_leaf h]
    case trace => rw [show path .trace ++ rest = "trace".toList :: rest from rfl, step_before hp (hw _ (.head _)) (c' := .trace) (by decide) (by decide) (by decide), step_leaf h, step_leaf h]
    case delete => rw [show path .delete ++ rest = "client".toList :: "delete".toList :: rest from rfl, step_before hp (hw _ (.head _)) (c' := .client) (by decide) (by decide) (by decide), step_before hp (hw _ (.tail _ (.head _))) (c' := .delete) (by decide) (by decide) (by decide), step_leaf h]
    case watch => rw [show path .watch ++ rest = "client".toList :: "watch".toList :: rest from rfl, step_before hp (hw _ (.head _)) (c' := .client) (by decide) (by decide) (by decide), step_before hp (hw _ (.tail _ (.head _))) (c' := .watch) (by decide) (by decide) (by decide), step_leaf h]
    case create => rw [show path .create ++ rest = "client".toList :: "create".toList :: rest from rfl, step_before hp (hw _ (.head _)) (c' := .client) (by decide) (by decide) (by decide), step_before hp (hw _ (.tail _ (.head _))) (c' := .create) (by decide) (by decide) (by decide), step_leaf h]
    case completed => rw [show path .completed ++ rest = "client".toList :: "query".toList :: "completed".toList :: rest from rfl, step_before hp (hw _ (.head _)) (c' := .client) (by decide) (by decide) (by decide), step_before hp (hw _ (.tail _ (.head _))) (c' := .query) (by decide) (by decide) (by decide), step_before hp (hw _ (.tail _ (.tail _ (.head _)))) (c' := .completed) (by decide) (by decide) (by decide)]
    case running => rw [show path .running ++ rest = "client".toList :: "query".toList :: "running".toList :: rest from rfl, step_before hp (hw _ (.head _)) (c' := .client) (by decide) (by decide) (by decide), step_before hp (hw _ (.tail _ (.head _))) (c' := .query) (by decide) (by decide) (by decide), step_before hp (hw _ (.tail _ (.tail _ (.head _)))) (c' := .running) (by decide) (by decide) (by decide)]
  have hf : find (pre.flatMap Item.text ++ (path c ++ is.flatMap Item.text)) = some (c, pre.flatMap Item.text ++ is.flatMap Item.text) := by
    unfold find
    dsimp only
    rw [key, if_neg]
    rintro ⟨h0, -⟩
    exact h (by rw [show c = .root from h0]; decide)
  unfold execute
  rw [hf]
  dsimp only
  have hg : ∀ i ∈ pre, i.Good (flags c) := fun i hi => good_mono (root_all c) i (hp i hi).1
  have h2 := parse_items c is hi []
  rw [List.append_nil] at h2
  rw [parse_items c pre hg, h2]
  have hww : pre.flatMap Item.words = [] := by
    rw [List.flatMap_eq_nil_iff]
    exact fun i hi => (hp i hi).2
  simp [parse, hww]

example : execute ["--log".toList, "debug".toList, "trace".toList, "-n".toList, "web".toList] =
    some (.trace, ⟨[(⟨"log".toList, none, .text, "info".toList⟩, "debug".toList), (⟨"namespace".toList, some 'n', .text, []⟩, "web".toList)], []⟩) := by decide +kernel

/-- C156 does not hold of all the flags of a command: one of the command's own that is on or off, before it, takes the command's
name for its value, and what follows is no command. -/
theorem c156_own_before_violated (rest : List Str) :
    execute ("--use-tls".toList :: "client".toList :: "query".toList :: rest) = none ∧
    execute ["--no-containers".toList, "trace".toList] = none := by
  constructor
  · have hstep : step (.root, "--use-tls".toList :: "client".toList :: "query".toList :: rest) = (.root, "--use-tls".toList :: "client".toList :: "query".toList :: rest) := by
      unfold step
      dsimp only
      rw [show strip (flags .root) ("--use-tls".toList :: "client".toList :: "query".toList :: rest) = "query".toList :: strip (flags .root) rest from by
        rw [strip, if_neg (by decide), if_pos (by decide +kernel), strip_word (by decide) (by decide)]]
      rfl
    unfold execute find
    dsimp only
    rw [hstep, hstep, hstep, if_pos]
    refine ⟨rfl, ?_⟩
    dsimp only
    rw [show strip (flags .root) ("--use-tls".toList :: "client".toList :: "query".toList :: rest) = "query".toList :: strip (flags .root) rest from by
        rw [strip, if_neg (by decide), if_pos (by decide +kernel), strip_word (by decide) (by decide)]]
    exact List.cons_ne_nil _ _
  · decide +kernel

/-- C156: nor when a value before the command is the command's name: the value is dropped, the next flag becomes the value, and the
command's name is left as a word. -/
theorem c156_stolen_violated :
    execute ["--altroot".toList, "trace".toList, "--log".toList, "debug".toList, "trace".toList] =
      some (.trace, ⟨[(⟨"altroot".toList, some 'A', .text, []⟩, "--log".toList)], ["debug".toList, "trace".toList]⟩) := by
  decide +kernel

end Swoll.Props.Argv
