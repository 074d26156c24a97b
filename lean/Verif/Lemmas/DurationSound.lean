import Verif.Lemmas.Duration
import Verif.Lemmas.Json
import Verif.Spec.Duration
/-
The texts that are durations.
-/
namespace Swoll.Lemmas.Duration
open Swoll.Duration
open Swoll.Json (Str isDigit)
open Swoll.Flags (digitsVal digitVal)
open Swoll.Spec.Duration (unitLength number Part Parts Means)

theorem digits_iff {s : Str} : Spec.Duration.Digits s ↔ ∀ c ∈ s, isDigit c = true :=
  ⟨fun h c hc => Lemmas.Json.isDigit_iff.2 (h c hc), fun h c hc => Lemmas.Json.isDigit_iff.1 (h c hc)⟩

theorem val_number {s : Str} (h : ∀ c ∈ s, isDigit c = true) : val s = number s := by
  have key : ∀ (s : Str) (acc : Nat), (∀ c ∈ s, isDigit c = true) →
      digitsVal acc s = some (s.foldl (fun n c => 10 * n + (c.toNat - '0'.toNat)) acc) := by
    intro s
    induction s with
    | nil => intro acc _; rfl
    | cons c s ih =>
      intro acc h
      have hc := isDigit_nat.1 (h c List.mem_cons_self)
      have : digitVal c = some (c.toNat - 48) := by
        unfold digitVal
        rw [if_pos hc]
      simp only [digitsVal, this, List.foldl_cons]
      rw [ih _ (fun x hx => h x (List.mem_cons_of_mem _ hx)), Nat.mul_comm]
      rfl
  unfold val
  rw [key s 0 h]
  rfl

theorem units_iff {u : String} {k : Nat} : (u, k) ∈ unitLength ↔ (u.toList, k) ∈ units := by
  have h1 : unitLength.map (fun e => (e.1.toList, e.2)) = units := by decide +kernel
  rw [← h1, List.mem_map]
  constructor
  · intro h; exact ⟨_, h, rfl⟩
  · rintro ⟨⟨a, b⟩, h, e⟩
    simp only [Prod.mk.injEq] at e
    rw [← String.toList_inj.1 e.1, ← e.2]
    exact h

/-- The units are short words without digits. -/
theorem unit_shape {u : Str} {k : Nat} (hu : (u, k) ∈ units) : (∃ c cs, u = c :: cs ∧ isDigit c = false ∧ c ≠ '.') ∧
    (∀ c ∈ u, isUnit c = true) ∧ units.lookup u = some k ∧ 0 < k := by
  have : ∀ e ∈ units, (e.1 ≠ [] ∧ ∀ c, e.1.head? = some c → isDigit c = false ∧ c ≠ '.') ∧ (∀ c ∈ e.1, isUnit c = true) ∧
      units.lookup e.1 = some e.2 ∧ 0 < e.2 := by decide
  obtain ⟨⟨h1, h2⟩, h3⟩ := this _ hu
  refine ⟨?_, h3⟩
  cases u with
  | nil => exact absurd rfl h1
  | cons c cs => exact ⟨c, cs, rfl, h2 c rfl⟩

theorem part_complete {p : Str} {x : Nat} (h : Part p x) {rest : Str}
    (hr : ∀ c, rest.head? = some c → isUnit c = false) (hx : x < 2 ^ 63) : part (p ++ rest) = some (x, rest) := by
  obtain ⟨ds, fs, dot, u, k, rfl, hds, hfs, hdot, hne, hu, rfl⟩ := h
  rw [digits_iff] at hds hfs
  obtain ⟨⟨c, cs, hc, hc1, hc2⟩, hu1, hu2, hu3⟩ := unit_shape (units_iff.1 hu)
  have h1 : ∀ c, (dot ++ fs ++ u.toList ++ rest).head? = some c → isDigit c = false := by
    intro y hy
    rcases hdot with ⟨rfl, rfl⟩ | rfl
    · rw [List.nil_append, List.nil_append, hc] at hy
      injection hy with hy
      subst hy
      exact hc1
    · injection hy with hy
      subst hy
      decide
  have h2 : after (dot ++ fs ++ u.toList ++ rest) = (fs, u.toList ++ rest) := by
    rcases hdot with ⟨rfl, rfl⟩ | rfl
    · rw [List.nil_append, List.nil_append, hc, List.cons_append]
      unfold after
      split
      · next heq => injection heq with heq; exact absurd heq hc2
      · rfl
    · obtain ⟨e1, e2⟩ := takeWhile_digits (rest := u.toList ++ rest) hfs (by
        intro y hy
        rw [hc] at hy
        injection hy with hy
        subst hy
        exact hc1)
      simp only [List.cons_append, List.nil_append, after, List.append_assoc]
      rw [e1, e2]
  obtain ⟨d1, d2⟩ := takeWhile_digits hds h1
  obtain ⟨u1, u2⟩ := takeWhile_unit hu1 hr
  have hv : number ds * k < 2 ^ 63 := Nat.lt_of_le_of_lt (Nat.le_add_right _ _) hx
  have hv1 : number ds < 2 ^ 63 := Nat.lt_of_le_of_lt (Nat.le_mul_of_pos_right _ hu3) hv
  have hv2 : ¬ number ds > (2 ^ 63 - 1) / k := by
    rw [Nat.not_lt, Nat.le_div_iff_mul_le hu3]
    omega
  rw [show ds ++ dot ++ fs ++ u.toList ++ rest = ds ++ (dot ++ fs ++ u.toList ++ rest) by simp]
  unfold part
  simp only [d1, d2, h2, val_number hds, val_number hfs, u1, u2, hu2]
  rw [if_neg (by omega), if_neg (by rintro ⟨a, b⟩; rcases hne with h | h <;> contradiction), if_neg hv2,
    if_neg (by omega)]

theorem takeWhile_all {p : Char → Bool} {l : Str} : ∀ c ∈ l.takeWhile p, p c = true := by
  induction l with
  | nil => intro c hc; cases hc
  | cons a l ih =>
    intro c hc
    rw [List.takeWhile_cons] at hc
    split at hc
    · rcases List.mem_cons.1 hc with rfl | hc
      · assumption
      · exact ih c hc
    · cases hc

theorem part_sound {s rest : Str} {x : Nat} (h : part s = some (x, rest)) :
    x < 2 ^ 63 ∧ ∃ p, s = p ++ rest ∧ Part p x := by
  unfold part at h
  dsimp only at h
  split at h
  · cases h
  split at h
  · cases h
  next hne =>
  split at h
  · cases h
  next k hk =>
  split at h
  · cases h
  split at h
  · cases h
  next hx =>
  simp only [Option.some.injEq, Prod.mk.injEq] at h
  obtain ⟨rfl, rfl⟩ := h
  refine ⟨by omega, ?_⟩
  have hs := List.takeWhile_append_dropWhile (p := isDigit) (l := s)
  generalize hr : s.dropWhile isDigit = r at *
  have hds : ∀ c ∈ s.takeWhile isDigit, isDigit c = true := takeWhile_all
  generalize s.takeWhile isDigit = ds at *
  have haf : ∃ dot, r = dot ++ (after r).1 ++ (after r).2 ∧ (dot = [] ∧ (after r).1 = [] ∨ dot = ['.']) ∧
      ∀ c ∈ (after r).1, isDigit c = true := by
    unfold after
    split
    · next s' =>
      refine ⟨['.'], ?_, Or.inr rfl, takeWhile_all⟩
      simp
    · exact ⟨[], by simp, Or.inl ⟨rfl, rfl⟩, by simp⟩
  obtain ⟨dot, e1, e2, e3⟩ := haf
  generalize (after r).1 = fs at *
  generalize (after r).2 = s2 at *
  have hmem : ∀ (l : List (Str × Nat)) u, l.lookup u = some k → (u, k) ∈ l := by
    intro l u
    induction l with
    | nil => intro h; cases h
    | cons a l ih =>
      intro h
      rw [List.lookup_cons] at h
      split at h
      · next he =>
        injection h with h
        subst h
        rw [beq_iff_eq] at he
        subst he
        exact List.mem_cons_self
      · exact List.mem_cons_of_mem _ (ih h)
  refine ⟨ds ++ dot ++ fs ++ s2.takeWhile isUnit, ?_, ds, fs, dot, String.ofList (s2.takeWhile isUnit), k,
    by rw [String.toList_ofList], digits_iff.2 hds, digits_iff.2 e3, e2, ?_, ?_, ?_⟩
  · rw [← hs, e1]
    simp
  · by_cases h : ds = []
    · right; intro h'; exact hne ⟨h, h'⟩
    · exact Or.inl h
  · rw [units_iff, String.toList_ofList]
    exact hmem _ _ hk
  · rw [val_number hds, val_number e3]

theorem part_head {p : Str} {x : Nat} (h : Part p x) (t : Str) : ∃ c r, p ++ t = c :: r ∧ isUnit c = false := by
  obtain ⟨ds, fs, dot, u, k, rfl, hds, hfs, hdot, hne, hu, rfl⟩ := h
  rw [digits_iff] at hds hfs
  cases ds with
  | cons c ds => exact ⟨c, _, by simp only [List.cons_append]; rfl, by simp [isUnit, hds c List.mem_cons_self]⟩
  | nil =>
    rcases hdot with ⟨rfl, rfl⟩ | rfl
    · rcases hne with h | h <;> exact absurd rfl h
    · exact ⟨'.', _, by simp only [List.nil_append, List.cons_append]; rfl, by decide⟩

theorem loop_complete {t : Str} {y : Nat} (h : Parts t y) : ∀ (n d : Nat), t.length ≤ n → d + y < 2 ^ 63 →
    loop n d t = some (d + y) := by
  induction h with
  | @one p x hp =>
    intro n d hn hy
    obtain ⟨c, r, e, -⟩ := part_head hp []
    rw [List.append_nil] at e
    have := part_complete hp (rest := []) (by simp) (by omega)
    rw [List.append_nil] at this
    exact loop_one (by rw [e]; simp) this hy (by rw [e] at hn; simp at hn; omega)
  | @more p x t y hp ht ih =>
    intro n d hn hy
    obtain ⟨c, r, e, -⟩ := part_head hp []
    rw [List.append_nil] at e
    have hl : 0 < p.length := by rw [e]; simp
    rw [List.length_append] at hn
    have hh : ∀ c, t.head? = some c → isUnit c = false := by
      intro c hc
      cases ht with
      | one hq =>
        obtain ⟨c', r', e', h'⟩ := part_head hq []
        rw [List.append_nil] at e'
        rw [e'] at hc
        injection hc with hc
        subst hc
        exact h'
      | @more q _ t' _ hq _ =>
        obtain ⟨c', r', e', h'⟩ := part_head hq t'
        rw [e'] at hc
        injection hc with hc
        subst hc
        exact h'
    rw [loop_read (by rw [e]; simp) (part_complete hp hh (by omega)) (by omega) (by omega),
      ih (n - 1) (d + x) (by omega) (by omega), Nat.add_assoc]

theorem loop_sound : ∀ (n d : Nat) {s : Str} {r : Nat}, s ≠ [] → loop n d s = some r →
    ∃ y, Parts s y ∧ r = d + y ∧ r < 2 ^ 63 := by
  intro n
  induction n with
  | zero =>
    intro d s r hs h
    cases s with
    | nil => exact absurd rfl hs
    | cons c s => simp [loop] at h
  | succ n ih =>
    intro d s r hs h
    cases s with
    | nil => exact absurd rfl hs
    | cons c s =>
      rw [loop] at h
      split at h
      · cases h
      · next x s' hp =>
        obtain ⟨-, p, e, hpart⟩ := part_sound hp
        split at h
        · cases h
        · next hlt =>
          rw [e]
          cases s' with
          | nil =>
            rw [loop_nil] at h
            injection h with h
            subst h
            rw [List.append_nil]
            exact ⟨x, .one hpart, rfl, by omega⟩
          | cons c' s' =>
            obtain ⟨y, h1, h2, h3⟩ := ih (d + x) (by simp) h
            exact ⟨x + y, .more hpart h1, by omega, h3⟩

theorem parts_ne {t : Str} {y : Nat} (h : Parts t y) : t ≠ [] ∧ t ≠ ['0'] ∧
    ∀ c, t.head? = some c → isUnit c = false := by
  have key : ∀ {p : Str} {x : Nat}, Part p x → ∀ t, p ++ t ≠ ['0'] := by
    intro p x hp t
    obtain ⟨ds, fs, dot, u, k, rfl, hds, hfs, hdot, hne, hu, rfl⟩ := hp
    obtain ⟨⟨c, cs, hc, hc1, hc2⟩, -⟩ := unit_shape (units_iff.1 hu)
    intro h
    have hm : c ∈ ds ++ dot ++ fs ++ u.toList ++ t := by rw [hc]; simp
    rw [h, List.mem_singleton] at hm
    subst hm
    exact absurd hc1 (by decide)
  cases h with
  | one hp =>
    obtain ⟨c, r, e, hc⟩ := part_head hp []
    have := key hp []
    rw [List.append_nil] at e this
    refine ⟨by rw [e]; simp, this, ?_⟩
    intro c' h'
    rw [e] at h'
    injection h' with h'
    subst h'
    exact hc
  | @more p _ t _ hp _ =>
    obtain ⟨c, r, e, hc⟩ := part_head hp t
    refine ⟨by rw [e]; simp, key hp t, ?_⟩
    intro c' h'
    rw [e] at h'
    injection h' with h'
    subst h'
    exact hc

theorem parseUnsigned_iff {s : Str} {n : Nat} :
    parseUnsigned s = some n ↔ (s = ['0'] ∧ n = 0 ∨ Parts s n) ∧ n < 2 ^ 63 := by
  unfold parseUnsigned
  constructor
  · intro h
    split at h
    · next hs =>
      injection h with h
      subst h
      exact ⟨Or.inl ⟨hs, rfl⟩, by decide⟩
    split at h
    · cases h
    · next h1 h2 =>
      obtain ⟨y, a, b, c⟩ := loop_sound _ _ h2 h
      rw [Nat.zero_add] at b
      subst b
      exact ⟨Or.inr a, c⟩
  · rintro ⟨⟨rfl, rfl⟩ | h, hn⟩
    · rfl
    · obtain ⟨h1, h2, -⟩ := parts_ne h
      rw [if_neg h2, if_neg h1, loop_complete h _ _ (Nat.le_refl _) (by omega), Nat.zero_add]

/-- A text is read as the duration it is. -/
theorem parse_iff {s : Str} {d : Int} : parse s = some d ↔ Means s d := by
  constructor
  · intro h
    unfold parse at h
    split at h
    · next s =>
      cases hp : parseUnsigned s with
      | none => rw [hp] at h; cases h
      | some n =>
        rw [hp] at h
        simp only [Option.map_some, Option.some.injEq] at h
        obtain ⟨h1, h2⟩ := parseUnsigned_iff.1 hp
        exact ⟨['-'], s, n, rfl, h1, h2, Or.inr ⟨rfl, h.symm⟩⟩
    · next s =>
      cases hp : parseUnsigned s with
      | none => rw [hp] at h; cases h
      | some n =>
        rw [hp] at h
        simp only [Option.map_some, Option.some.injEq] at h
        obtain ⟨h1, h2⟩ := parseUnsigned_iff.1 hp
        exact ⟨['+'], s, n, rfl, h1, h2, Or.inl ⟨Or.inr rfl, h.symm⟩⟩
    · cases hp : parseUnsigned s with
      | none => rw [hp] at h; cases h
      | some n =>
        rw [hp] at h
        simp only [Option.map_some, Option.some.injEq] at h
        obtain ⟨h1, h2⟩ := parseUnsigned_iff.1 hp
        exact ⟨[], s, n, rfl, h1, h2, Or.inl ⟨Or.inl rfl, h.symm⟩⟩
  · rintro ⟨sign, body, n, rfl, hb, hn, hs⟩
    have hp := parseUnsigned_iff.2 ⟨hb, hn⟩
    rcases hs with ⟨rfl | rfl, rfl⟩ | ⟨rfl, rfl⟩
    · rw [List.nil_append]
      have hh : ∀ c, body.head? = some c → isUnit c = false := by
        rcases hb with ⟨rfl, -⟩ | hb
        · intro c hc; injection hc with hc; subst hc; decide
        · exact (parts_ne hb).2.2
      unfold parse
      split
      · have := hh '-' rfl; exact absurd this (by decide)
      · have := hh '+' rfl; exact absurd this (by decide)
      · rw [hp]; rfl
    · simp [parse, hp]
    · simp [parse, hp]

end Swoll.Lemmas.Duration
