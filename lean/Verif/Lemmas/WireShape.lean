import Verif.Lemmas.Wire
import Verif.Lemmas.JsonSound
import Verif.Lemmas.DurationSound
/-
Which JSON is accepted for a trace.
-/
namespace Swoll.Lemmas.Wire
open Swoll Swoll.Wire Swoll.Spec.Wire Swoll.Spec.Json
open Swoll.Json (Str Json first only)

theorem fold_lower (c : Char) : fold c = lower c := by
  have h1 : (65 ≤ c.toNat ∧ c.toNat ≤ 90) ↔ ('A' ≤ c ∧ c ≤ 'Z') := by
    rw [Char.le_def, Char.le_def, UInt32.le_iff_toNat_le, UInt32.le_iff_toNat_le]
    exact Iff.rfl
  have h2 : ∀ d : Char, c.toNat = d.toNat ↔ c = d := fun d => ⟨fun h => by
    rw [← Char.ofNat_toNat c, h, Char.ofNat_toNat], fun h => by rw [h]⟩
  unfold fold lower
  by_cases h : 'A' ≤ c ∧ c ≤ 'Z'
  · rw [if_pos h, if_pos (h1.2 h)]
    congr 1
    have := (h1.2 h).1
    show c.toNat + 32 = c.toNat - 65 + 97
    omega
  · rw [if_neg h, if_neg (fun h' => h (h1.1 h'))]
    have k1 : c.toNat = 0x212a ↔ c = '\u212a' := h2 '\u212a'
    have k2 : c.toNat = 0x17f ↔ c = '\u017f' := h2 '\u017f'
    by_cases e1 : c = 'K'
    · rw [if_pos (k1.2 e1), if_pos e1]
    · rw [if_neg (fun h' => e1 (k1.1 h')), if_neg e1]
      by_cases e2 : c = '\u017f'
      · rw [if_pos (k2.2 e2), if_pos e2]
      · rw [if_neg (fun h' => e2 (k2.1 h')), if_neg e2]

theorem named_iff {name : String} {k : Str} : named name k = true ↔ Names name k := by
  unfold named Names
  rw [beq_iff_eq, show fold = lower from funext fold_lower]

/-- A name is that of one field. -/
theorem names_one {a b : String} {k : Str} (hne : a.toList.map lower ≠ b.toList.map lower) (ha : Names a k) :
    ¬ Names b k := fun hb => hne (ha.symm.trans hb)

theorem foldlM_isSome {α β : Type} {f : α → β → Option α} {P : β → Prop} (h : ∀ a m, (f a m).isSome = true ↔ P m) :
    ∀ (l : List β) (a : α), (l.foldlM f a).isSome = true ↔ ∀ m ∈ l, P m
  | [], a => by simp
  | m :: l, a => by
    rw [List.foldlM_cons]
    have hm := h a m
    cases hf : f a m with
    | none =>
      rw [hf] at hm
      simp only [Option.isSome_none, Bool.false_eq_true, false_iff] at hm
      simp [hm]
    | some b =>
      rw [hf] at hm
      simp only [Option.isSome_some, true_iff] at hm
      simp only [Option.bind_eq_bind, Option.bind_some]
      rw [foldlM_isSome h l b]
      simp [hm]

theorem mapM_isSome {α β : Type} {f : α → Option β} : ∀ (l : List α),
    (l.mapM f).isSome = true ↔ ∀ m ∈ l, (f m).isSome = true
  | [] => by simp
  | m :: l => by
    rw [List.mapM_cons]
    have := mapM_isSome (f := f) l
    cases hf : f m with
    | none => simp [hf]
    | some b =>
      simp only [Option.bind_eq_bind, Option.bind_some, List.mem_cons, forall_eq_or_imp, hf, Option.isSome_some, true_and]
      rw [← this]
      cases l.mapM f <;> rfl

theorem struct_isSome {α : Type} {f : α → Str × Json → Option α} {P : Str × Json → Prop}
    (h : ∀ a m, (f a m).isSome = true ↔ P m) (a : α) (v : Json) :
    (struct f a v).isSome = true ↔ (v = .null ∨ ∃ l, v = .obj l ∧ ∀ e ∈ l, P e) := by
  cases v with
  | null => simp [struct]
  | obj l =>
    simp only [struct]
    rw [foldlM_isSome h l a]
    simp
  | bool b => simp [struct]
  | num b => simp [struct]
  | str b => simp [struct]
  | arr b => simp [struct]

theorem str_isSome (old : Str) (v : Json) : (str old v).isSome = true ↔ Text v := by
  unfold Text
  cases v <;> simp [str]

theorem strs_isSome (v : Json) : (strs v).isSome = true ↔ Texts v := by
  unfold Texts
  cases v with
  | arr l =>
    simp only [strs]
    rw [mapM_isSome]
    simp [str_isSome]
  | null => simp [strs]
  | bool b => simp [strs]
  | num b => simp [strs]
  | str b => simp [strs]
  | obj b => simp [strs]

theorem strMap_isSome (old : GoMap Str Str) (v : Json) : (strMap old v).isSome = true ↔ TextMap v := by
  unfold TextMap
  cases v with
  | obj l =>
    simp only [strMap]
    rw [foldlM_isSome (P := fun e => Text e.2) (fun a m => by rw [Option.isSome_map, str_isSome]) l old]
    simp
  | null => simp [strMap]
  | bool b => simp [strMap]
  | num b => simp [strMap]
  | str b => simp [strMap]
  | arr b => simp [strMap]

theorem digitsVal_iff {ds : Str} {n : Nat} : Flags.digitsVal 0 ds = some n ↔
    Spec.Duration.Digits ds ∧ n = Spec.Duration.number ds := by
  rw [Duration.digits_iff]
  constructor
  · intro h
    have hd : ∀ (ds : Str) (a : Nat), Flags.digitsVal a ds = some n → ∀ c ∈ ds, Json.isDigit c = true := by
      intro ds
      induction ds with
      | nil => intro _ _ c hc; cases hc
      | cons c ds ih =>
        intro a h
        rw [Flags.digitsVal] at h
        split at h
        · next d hc =>
          intro x hx
          rcases List.mem_cons.1 hx with rfl | hx
          · unfold Flags.digitVal at hc
            split at hc
            · next hh => exact Duration.isDigit_nat.2 hh
            · cases hc
          · exact ih _ h x hx
        · cases h
    have hd := hd ds 0 h
    refine ⟨hd, ?_⟩
    rw [← Duration.val_number hd, Swoll.Duration.val, h]
    rfl
  · rintro ⟨h, rfl⟩
    have := Duration.digitsVal_cons ds h 0
    rw [this, Nat.zero_mul, Nat.zero_add, Duration.val_number h]

theorem atoi_iff {l : Str} (hl : Number l) {n : Int} : Flags.atoi l = some n ↔ Whole l n := by
  have plus : ∀ r, l ≠ '+' :: r := by
    intro r e
    obtain ⟨c, r', e', hc⟩ := Json.number_head hl
    rw [e] at e'
    injection e' with e' _
    subst e'
    rcases hc with hc | hc <;> exact absurd hc (by decide)
  have key : ∀ (neg : Bool) (ds : Str), (if ds = [] then none
      else match Flags.digitsVal 0 ds with
        | none => none
        | some v =>
          if -2 ^ 63 ≤ (if neg = true then -(v : Int) else v) ∧ (if neg = true then -(v : Int) else v) < 2 ^ 63 then
            some (if neg = true then -(v : Int) else v) else none) = some n ↔
      ds ≠ [] ∧ Spec.Duration.Digits ds ∧ -(2 ^ 63 : Int) ≤ n ∧ n < 2 ^ 63 ∧
        n = (if neg then -(Spec.Duration.number ds : Int) else Spec.Duration.number ds) := by
    intro neg ds
    constructor
    · intro h
      split at h
      · cases h
      · next hne =>
        split at h
        · cases h
        · next v hv =>
          obtain ⟨h1, h2⟩ := digitsVal_iff.1 hv
          subst h2
          generalize (if neg = true then -(Spec.Duration.number ds : Int) else Spec.Duration.number ds) = z at h ⊢
          split at h
          · next hr =>
            injection h with h
            subst h
            exact ⟨hne, h1, hr.1, hr.2, rfl⟩
          · cases h
    · rintro ⟨h1, h2, h3, h4, h5⟩
      rw [if_neg h1, digitsVal_iff.2 ⟨h2, rfl⟩]
      dsimp only
      rw [← h5, if_pos ⟨h3, h4⟩]
  have cases : (∃ r, l = '-' :: r) ∨ ((∀ r, l ≠ '-' :: r) ∧ Flags.splitSign l = (false, l)) := by
    unfold Flags.splitSign
    split
    · next r => exact Or.inl ⟨r, rfl⟩
    · next r => exact absurd rfl (plus r)
    · next hm _ => exact Or.inr ⟨fun r e => hm r e, rfl⟩
  rcases cases with ⟨r, rfl⟩ | ⟨hm, hs⟩
  · refine Iff.trans (key true r) ?_
    constructor
    · rintro ⟨h1, h2, h3, h4, h5⟩
      exact ⟨r, h1, h2, h3, h4, Or.inr ⟨rfl, by simpa using h5⟩⟩
    · rintro ⟨ds, h1, h2, h3, h4, h5⟩
      rcases h5 with ⟨e, -⟩ | ⟨e, h5⟩
      · subst e
        have := Duration.digits_iff.1 h2 '-' List.mem_cons_self
        exact absurd this (by decide)
      · injection e with _ e
        subst e
        exact ⟨h1, h2, h3, h4, by simpa using h5⟩
  · unfold Flags.atoi
    rw [hs]
    refine Iff.trans (key false l) ?_
    constructor
    · rintro ⟨h1, h2, h3, h4, h5⟩
      exact ⟨l, h1, h2, h3, h4, Or.inl ⟨rfl, by simpa using h5⟩⟩
    · rintro ⟨ds, h1, h2, h3, h4, h5⟩
      rcases h5 with ⟨e, h5⟩ | ⟨e, -⟩
      · subst e
        exact ⟨h1, h2, h3, h4, by simpa using h5⟩
      · exact absurd e (hm ds)

attribute [local irreducible] named

/-- A chain of fields, each with its own test. -/
theorem chain {α : Type} {name : String} {k : Str} {x y : Option α} {P Q : Prop} (hx : x.isSome = true ↔ P)
    (hy : ¬ Names name k → (y.isSome = true ↔ Q)) (hq : Names name k → Q) :
    (if named name k = true then x else y).isSome = true ↔ (Names name k → P) ∧ Q := by
  by_cases h : Names name k
  · rw [if_pos (named_iff.2 h), hx]
    exact ⟨fun hp => ⟨fun _ => hp, hq h⟩, fun hp => hp.1 h⟩
  · rw [if_neg (fun h' => h (named_iff.1 h')), hy h]
    exact ⟨fun hq => ⟨fun h' => absurd h' h, hq⟩, fun hp => hp.2⟩

theorem isSome_map {α β : Type} {x : Option α} {f : α → β} : (x.map f).isSome = true ↔ x.isSome = true := by
  cases x <;> simp

theorem exprMember_isSome (a : Expr) (m : Str × Json) : (exprMember a m).isSome = true ↔
    (Names "key" m.1 → Text m.2) ∧ (Names "operator" m.1 → Text m.2) ∧ (Names "values" m.1 → Texts m.2) := by
  unfold exprMember
  refine chain (isSome_map.trans (str_isSome _ _)) (fun _ => chain (isSome_map.trans (str_isSome _ _)) (fun _ => ?_) ?_) ?_
  · by_cases h : Names "values" m.1
    · rw [if_pos (named_iff.2 h), isSome_map, strs_isSome]
      exact ⟨fun hp _ => hp, fun hp => hp h⟩
    · rw [if_neg (fun h' => h (named_iff.1 h'))]
      exact ⟨fun _ h' => absurd h' h, fun _ => rfl⟩
  · exact fun h h' => absurd h' (names_one (by decide +kernel) h)
  · exact fun h => ⟨fun h' => absurd h' (names_one (by decide +kernel) h), fun h' => absurd h' (names_one (by decide +kernel) h)⟩

theorem expr_isSome (a : Expr) (v : Json) : (struct exprMember a v).isSome = true ↔ ExprJson v :=
  struct_isSome exprMember_isSome a v

theorem exprs_isSome (v : Json) : (exprs v).isSome = true ↔ (v = .null ∨ ∃ l, v = .arr l ∧ ∀ x ∈ l, ExprJson x) := by
  cases v with
  | arr l =>
    simp only [exprs]
    rw [mapM_isSome]
    simp [expr_isSome]
  | null => simp [exprs]
  | bool b => simp [exprs]
  | num b => simp [exprs]
  | str b => simp [exprs]
  | obj b => simp [exprs]

/-- The last of the fields. -/
theorem chain_last {α : Type} {name : String} {k : Str} {x y : Option α} {P : Prop} (hx : x.isSome = true ↔ P)
    (hy : y.isSome = true) : (if named name k = true then x else y).isSome = true ↔ (Names name k → P) := by
  by_cases h : Names name k
  · rw [if_pos (named_iff.2 h), hx]
    exact ⟨fun hp _ => hp, fun hp => hp h⟩
  · rw [if_neg (fun h' => h (named_iff.1 h'))]
    exact ⟨fun _ h' => absurd h' h, fun _ => hy⟩

theorem selectorMember_isSome (a : Selector) (m : Str × Json) : (selectorMember a m).isSome = true ↔
    (Names "matchLabels" m.1 → TextMap m.2) ∧
    (Names "matchExpressions" m.1 → m.2 = .null ∨ ∃ l, m.2 = .arr l ∧ ∀ x ∈ l, ExprJson x) := by
  unfold selectorMember
  refine chain (isSome_map.trans (strMap_isSome _ _)) (fun _ => ?_) ?_
  · exact chain_last (isSome_map.trans (exprs_isSome _)) rfl
  · exact fun h h' => absurd h' (names_one (by decide +kernel) h)

theorem selector_isSome (a : Selector) (v : Json) : (struct selectorMember a v).isSome = true ↔ SelectorJson v :=
  struct_isSome selectorMember_isSome a v

theorem duration_isSome (v : Json) : (duration v).isSome = true ↔ ∃ s d, v = .str s ∧ Spec.Duration.Means s d := by
  cases v with
  | str s =>
    simp only [duration, Option.isSome_iff_exists]
    constructor
    · rintro ⟨d, h⟩
      exact ⟨s, d, rfl, Duration.parse_iff.1 h⟩
    · rintro ⟨s', d, e, h⟩
      injection e with e
      subst e
      exact ⟨d, Duration.parse_iff.2 h⟩
  | null =>
    constructor
    · intro h; exact absurd h (by decide)
    · rintro ⟨s, d, e, -⟩; cases e
  | bool b => simp [duration]
  | num b => simp [duration]
  | arr b => simp [duration]
  | obj b => simp [duration]

/-- All the numbers are numbers. -/
def NumOk (v : Json) : Prop := ∀ l, v = .num l → Number l

theorem int_isSome (old : Int) (v : Json) (hv : NumOk v) :
    (int old v).isSome = true ↔ (v = .null ∨ ∃ s n, v = .num s ∧ Whole s n) := by
  cases v with
  | num l =>
    simp only [int, Option.isSome_iff_exists]
    constructor
    · rintro ⟨n, h⟩
      exact Or.inr ⟨l, n, rfl, (atoi_iff (hv l rfl)).1 h⟩
    · rintro (h | ⟨s, n, e, h⟩)
      · cases h
      · injection e with e
        subst e
        exact ⟨n, (atoi_iff (hv _ rfl)).2 h⟩
  | null => simp [int]
  | bool b => simp [int]
  | str b => simp [int]
  | arr b => simp [int]
  | obj b => simp [int]

/-- What has to hold of a field of a request. -/
def SpecField (e : Str × Json) : Prop :=
  (Names "labelSelector" e.1 → SelectorJson e.2) ∧ (Names "fieldSelector" e.1 → SelectorJson e.2) ∧
  (Names "hostSelector" e.1 → Texts e.2) ∧ (Names "syscalls" e.1 → Texts e.2) ∧
  (Names "duration" e.1 → ∃ s d, e.2 = .str s ∧ Spec.Duration.Means s d) ∧
  (Names "sampleRate" e.1 → e.2 = .null ∨ ∃ s n, e.2 = .num s ∧ Whole s n)

theorem specMember_isSome (a : Spec) (m : Str × Json) (hm : NumOk m.2) :
    (specMember a m).isSome = true ↔ SpecField m := by
  have no : ∀ {a b : String} {P : Prop}, a.toList.map lower ≠ b.toList.map lower → Names a m.1 → (Names b m.1 → P) :=
    fun hne h h' => absurd h' (names_one hne h)
  unfold specMember SpecField
  refine chain (isSome_map.trans (selector_isSome _ _)) (fun _ => chain (isSome_map.trans (selector_isSome _ _))
    (fun _ => chain (isSome_map.trans (strs_isSome _)) (fun _ => chain (isSome_map.trans (strs_isSome _))
    (fun _ => chain (isSome_map.trans (duration_isSome _)) (fun _ => ?_) ?_) ?_) ?_) ?_) ?_
  · exact chain_last (isSome_map.trans (int_isSome _ _ hm)) rfl
  · exact fun h => no (by decide +kernel) h
  · exact fun h => ⟨no (by decide +kernel) h, no (by decide +kernel) h⟩
  · exact fun h => ⟨no (by decide +kernel) h, no (by decide +kernel) h, no (by decide +kernel) h⟩
  · exact fun h => ⟨no (by decide +kernel) h, no (by decide +kernel) h, no (by decide +kernel) h, no (by decide +kernel) h⟩
  · exact fun h => ⟨no (by decide +kernel) h, no (by decide +kernel) h, no (by decide +kernel) h, no (by decide +kernel) h,
      no (by decide +kernel) h⟩

theorem foldlM_isSome' {α β : Type} {f : α → β → Option α} {P : β → Prop} : ∀ (l : List β) (a : α),
    (∀ a, ∀ m ∈ l, ((f a m).isSome = true ↔ P m)) → ((l.foldlM f a).isSome = true ↔ ∀ m ∈ l, P m)
  | [], a, _ => by simp
  | m :: l, a, h => by
    rw [List.foldlM_cons]
    have hm := h a m List.mem_cons_self
    cases hf : f a m with
    | none =>
      rw [hf] at hm
      simp only [Option.isSome_none, Bool.false_eq_true, false_iff] at hm
      simp [hm]
    | some b =>
      rw [hf] at hm
      simp only [Option.isSome_some, true_iff] at hm
      simp only [Option.bind_eq_bind, Option.bind_some]
      rw [foldlM_isSome' l b (fun a m hm => h a m (List.mem_cons_of_mem _ hm))]
      simp [hm]

/-- The numbers in what a text says. -/
theorem says_num {t : Str} {v : Json} (h : Says t v) : NumOk v := by
  intro l e
  subst e
  cases h with
  | num h => exact h

theorem maps_num {t : Str} {l : List (Str × Json)} (h : Maps t l) : ∀ e ∈ l, NumOk e.2 := by
  refine Maps.rec (motive_1 := fun _ _ _ => True) (motive_2 := fun _ _ _ => True)
    (motive_3 := fun _ l _ => ∀ e ∈ l, NumOk e.2) ?_ ?_ ?_ ?_ ?_ ?_ ?_ ?_ ?_ ?_ ?_ ?_ ?_ h
  all_goals try (intros; trivial)
  · intro w q w1 w2 t w' k v _ _ _ _ ht _ _ e he
    rw [List.mem_singleton.1 he]
    exact says_num ht
  · intro w q w1 w2 t w' u k v l _ _ _ _ ht _ _ _ ih e he
    rcases List.mem_cons.1 he with rfl | he
    · exact says_num ht
    · exact ih e he

theorem says_members {t : Str} {l : List (Str × Json)} (h : Says t (.obj l)) : ∀ e ∈ l, NumOk e.2 := by
  cases h with
  | none => intro e he; cases he
  | obj h => exact maps_num h

theorem spec_isSome {t : Str} {v : Json} (h : Says t v) (a : Spec) :
    (struct specMember a v).isSome = true ↔ SpecJson v := by
  cases v with
  | obj l =>
    simp only [struct]
    rw [foldlM_isSome' (P := SpecField) l a (fun a m hm => specMember_isSome a m (says_members h m hm))]
    unfold SpecJson
    constructor
    · intro h; exact Or.inr ⟨l, rfl, h⟩
    · rintro (h | ⟨l', e, h⟩)
      · cases h
      · injection e with e
        subst e
        exact h
  | null => simp [struct, SpecJson]
  | bool b => simp [struct, SpecJson]
  | num b => simp [struct, SpecJson]
  | str b => simp [struct, SpecJson]
  | arr b => simp [struct, SpecJson]

/-! ### What the fields of a request are read as -/

theorem if_named {α : Type} {name : String} {k : Str} {x y : Option α} {r : α}
    (h : (if named name k = true then x else y) = some r) : (Names name k ∧ x = some r) ∨ (¬ Names name k ∧ y = some r) := by
  split at h
  · next hk => exact Or.inl ⟨named_iff.1 hk, h⟩
  · next hk => exact Or.inr ⟨fun h' => hk (named_iff.2 h'), h⟩

theorem specMember_reads {s s' : Spec} {m : Str × Json} (h : specMember s m = some s') :
    ((Names "labelSelector" m.1 → struct selectorMember s.label m.2 = some s'.label) ∧ (¬ Names "labelSelector" m.1 → s'.label = s.label)) ∧
    ((Names "fieldSelector" m.1 → struct selectorMember s.field m.2 = some s'.field) ∧ (¬ Names "fieldSelector" m.1 → s'.field = s.field)) ∧
    ((Names "hostSelector" m.1 → strs m.2 = some s'.hosts) ∧ (¬ Names "hostSelector" m.1 → s'.hosts = s.hosts)) ∧
    ((Names "syscalls" m.1 → strs m.2 = some s'.calls) ∧ (¬ Names "syscalls" m.1 → s'.calls = s.calls)) ∧
    ((Names "duration" m.1 → duration m.2 = some s'.duration) ∧ (¬ Names "duration" m.1 → s'.duration = s.duration)) ∧
    ((Names "sampleRate" m.1 → int s.rate m.2 = some s'.rate) ∧ (¬ Names "sampleRate" m.1 → s'.rate = s.rate)) := by
  unfold specMember at h
  rcases if_named h with ⟨hk, h⟩ | ⟨k0, h⟩
  · obtain ⟨x, hx, rfl⟩ := Option.map_eq_some_iff.1 h
    exact ⟨⟨fun _ => hx, fun h => absurd hk h⟩,
      ⟨fun h => absurd h (names_one (a := "labelSelector") (b := "fieldSelector") (by decide +kernel) hk), fun _ => rfl⟩,
      ⟨fun h => absurd h (names_one (a := "labelSelector") (b := "hostSelector") (by decide +kernel) hk), fun _ => rfl⟩,
      ⟨fun h => absurd h (names_one (a := "labelSelector") (b := "syscalls") (by decide +kernel) hk), fun _ => rfl⟩,
      ⟨fun h => absurd h (names_one (a := "labelSelector") (b := "duration") (by decide +kernel) hk), fun _ => rfl⟩,
      ⟨fun h => absurd h (names_one (a := "labelSelector") (b := "sampleRate") (by decide +kernel) hk), fun _ => rfl⟩⟩
  rcases if_named h with ⟨hk, h⟩ | ⟨k1, h⟩
  · obtain ⟨x, hx, rfl⟩ := Option.map_eq_some_iff.1 h
    exact ⟨⟨fun h => absurd h (names_one (a := "fieldSelector") (b := "labelSelector") (by decide +kernel) hk), fun _ => rfl⟩,
      ⟨fun _ => hx, fun h => absurd hk h⟩,
      ⟨fun h => absurd h (names_one (a := "fieldSelector") (b := "hostSelector") (by decide +kernel) hk), fun _ => rfl⟩,
      ⟨fun h => absurd h (names_one (a := "fieldSelector") (b := "syscalls") (by decide +kernel) hk), fun _ => rfl⟩,
      ⟨fun h => absurd h (names_one (a := "fieldSelector") (b := "duration") (by decide +kernel) hk), fun _ => rfl⟩,
      ⟨fun h => absurd h (names_one (a := "fieldSelector") (b := "sampleRate") (by decide +kernel) hk), fun _ => rfl⟩⟩
  rcases if_named h with ⟨hk, h⟩ | ⟨k2, h⟩
  · obtain ⟨x, hx, rfl⟩ := Option.map_eq_some_iff.1 h
    exact ⟨⟨fun h => absurd h (names_one (a := "hostSelector") (b := "labelSelector") (by decide +kernel) hk), fun _ => rfl⟩,
      ⟨fun h => absurd h (names_one (a := "hostSelector") (b := "fieldSelector") (by decide +kernel) hk), fun _ => rfl⟩,
      ⟨fun _ => hx, fun h => absurd hk h⟩,
      ⟨fun h => absurd h (names_one (a := "hostSelector") (b := "syscalls") (by decide +kernel) hk), fun _ => rfl⟩,
      ⟨fun h => absurd h (names_one (a := "hostSelector") (b := "duration") (by decide +kernel) hk), fun _ => rfl⟩,
      ⟨fun h => absurd h (names_one (a := "hostSelector") (b := "sampleRate") (by decide +kernel) hk), fun _ => rfl⟩⟩
  rcases if_named h with ⟨hk, h⟩ | ⟨k3, h⟩
  · obtain ⟨x, hx, rfl⟩ := Option.map_eq_some_iff.1 h
    exact ⟨⟨fun h => absurd h (names_one (a := "syscalls") (b := "labelSelector") (by decide +kernel) hk), fun _ => rfl⟩,
      ⟨fun h => absurd h (names_one (a := "syscalls") (b := "fieldSelector") (by decide +kernel) hk), fun _ => rfl⟩,
      ⟨fun h => absurd h (names_one (a := "syscalls") (b := "hostSelector") (by decide +kernel) hk), fun _ => rfl⟩,
      ⟨fun _ => hx, fun h => absurd hk h⟩,
      ⟨fun h => absurd h (names_one (a := "syscalls") (b := "duration") (by decide +kernel) hk), fun _ => rfl⟩,
      ⟨fun h => absurd h (names_one (a := "syscalls") (b := "sampleRate") (by decide +kernel) hk), fun _ => rfl⟩⟩
  rcases if_named h with ⟨hk, h⟩ | ⟨k4, h⟩
  · obtain ⟨x, hx, rfl⟩ := Option.map_eq_some_iff.1 h
    exact ⟨⟨fun h => absurd h (names_one (a := "duration") (b := "labelSelector") (by decide +kernel) hk), fun _ => rfl⟩,
      ⟨fun h => absurd h (names_one (a := "duration") (b := "fieldSelector") (by decide +kernel) hk), fun _ => rfl⟩,
      ⟨fun h => absurd h (names_one (a := "duration") (b := "hostSelector") (by decide +kernel) hk), fun _ => rfl⟩,
      ⟨fun h => absurd h (names_one (a := "duration") (b := "syscalls") (by decide +kernel) hk), fun _ => rfl⟩,
      ⟨fun _ => hx, fun h => absurd hk h⟩,
      ⟨fun h => absurd h (names_one (a := "duration") (b := "sampleRate") (by decide +kernel) hk), fun _ => rfl⟩⟩
  rcases if_named h with ⟨hk, h⟩ | ⟨k5, h⟩
  · obtain ⟨x, hx, rfl⟩ := Option.map_eq_some_iff.1 h
    exact ⟨⟨fun h => absurd h (names_one (a := "sampleRate") (b := "labelSelector") (by decide +kernel) hk), fun _ => rfl⟩,
      ⟨fun h => absurd h (names_one (a := "sampleRate") (b := "fieldSelector") (by decide +kernel) hk), fun _ => rfl⟩,
      ⟨fun h => absurd h (names_one (a := "sampleRate") (b := "hostSelector") (by decide +kernel) hk), fun _ => rfl⟩,
      ⟨fun h => absurd h (names_one (a := "sampleRate") (b := "syscalls") (by decide +kernel) hk), fun _ => rfl⟩,
      ⟨fun h => absurd h (names_one (a := "sampleRate") (b := "duration") (by decide +kernel) hk), fun _ => rfl⟩,
      ⟨fun _ => hx, fun h => absurd hk h⟩⟩
  injection h with h
  subst h
  exact ⟨⟨fun h => absurd h k0, fun _ => rfl⟩, ⟨fun h => absurd h k1, fun _ => rfl⟩, ⟨fun h => absurd h k2, fun _ => rfl⟩, ⟨fun h => absurd h k3, fun _ => rfl⟩, ⟨fun h => absurd h k4, fun _ => rfl⟩, ⟨fun h => absurd h k5, fun _ => rfl⟩⟩

theorem selectorMember_reads {s s' : Selector} {m : Str × Json} (h : selectorMember s m = some s') :
    ((Names "matchLabels" m.1 → strMap s.labels m.2 = some s'.labels) ∧ (¬ Names "matchLabels" m.1 → s'.labels = s.labels)) ∧
    ((Names "matchExpressions" m.1 → exprs m.2 = some s'.exprs) ∧ (¬ Names "matchExpressions" m.1 → s'.exprs = s.exprs)) := by
  unfold selectorMember at h
  rcases if_named h with ⟨hk, h⟩ | ⟨k0, h⟩
  · obtain ⟨x, hx, rfl⟩ := Option.map_eq_some_iff.1 h
    exact ⟨⟨fun _ => hx, fun h => absurd hk h⟩,
      ⟨fun h => absurd h (names_one (a := "matchLabels") (b := "matchExpressions") (by decide +kernel) hk), fun _ => rfl⟩⟩
  rcases if_named h with ⟨hk, h⟩ | ⟨k1, h⟩
  · obtain ⟨x, hx, rfl⟩ := Option.map_eq_some_iff.1 h
    exact ⟨⟨fun h => absurd h (names_one (a := "matchExpressions") (b := "matchLabels") (by decide +kernel) hk), fun _ => rfl⟩,
      ⟨fun _ => hx, fun h => absurd hk h⟩⟩
  injection h with h
  subst h
  exact ⟨⟨fun h => absurd h k0, fun _ => rfl⟩, ⟨fun h => absurd h k1, fun _ => rfl⟩⟩

theorem foldlM_keeps {α β γ : Type} {f : α → β → Option α} {π : α → γ} {P : β → Prop}
    (h : ∀ a b m, f a m = some b → ¬ P m → π b = π a) : ∀ (l : List β) {a b : α}, (∀ m ∈ l, ¬ P m) →
    l.foldlM f a = some b → π b = π a
  | [], a, b, _, e => by
    injection e with e
    rw [e]
  | m :: l, a, b, hl, e => by
    rw [List.foldlM_cons] at e
    cases hf : f a m with
    | none => rw [hf] at e; cases e
    | some c =>
      rw [hf] at e
      rw [foldlM_keeps h l (fun m hm => hl m (List.mem_cons_of_mem _ hm)) e, h _ _ _ hf (hl m List.mem_cons_self)]

/-- The last field of a name. -/
theorem foldlM_last {α β γ : Type} {f : α → β → Option α} {π : α → γ} {P : β → Prop}
    (h : ∀ a b m, f a m = some b → ¬ P m → π b = π a) {l1 l2 : List β} {m : β} {a b : α} (hl : ∀ m ∈ l2, ¬ P m)
    (e : (l1 ++ m :: l2).foldlM f a = some b) :
    ∃ c d, l1.foldlM f a = some c ∧ f c m = some d ∧ π b = π d := by
  rw [List.foldlM_append] at e
  cases h1 : l1.foldlM f a with
  | none => rw [h1] at e; cases e
  | some c =>
    rw [h1] at e
    simp only [Option.bind_eq_bind, Option.bind_some, List.foldlM_cons] at e
    cases h2 : f c m with
    | none => rw [h2] at e; cases e
    | some d =>
      rw [h2] at e
      exact ⟨c, d, rfl, h2, foldlM_keeps h l2 hl e⟩

theorem strs_map (xs : List Str) : strs (.arr (xs.map .str)) = some xs := strs_ofStrs xs

theorem strMap_map {m : GoMap Str Str} (hn : m.NodupKeys) :
    strMap [] (.obj (m.map fun e => (e.1, .str e.2))) = some m.reverse := by
  have := foldlM_set (str []) Json.str id m [] (fun e _ => rfl) hn (by simp)
  simpa [strMap] using this

end Swoll.Lemmas.Wire
