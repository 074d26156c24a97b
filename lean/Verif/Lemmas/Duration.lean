import Verif.Model.Duration
import Verif.Lemmas.FlagNames
/-
Durations are read as they are written.
-/
namespace Swoll.Lemmas.Duration
open Swoll.Duration
open Swoll.Json (Str isDigit)
open Swoll.Flags (digit digits digitsVal digitVal)
open Swoll.Lemmas.Flags (digitsVal_digits digits_all digits_head digitVal_digit digitsVal_snoc)

theorem isDigit_nat {c : Char} : isDigit c = true ↔ 48 ≤ c.toNat ∧ c.toNat ≤ 57 := by
  simp [isDigit]

theorem val_digits (n : Nat) : val (digits n) = n := by
  unfold val
  rw [digitsVal_digits]
  rfl

theorem isDigit_digits (n : Nat) : ∀ c ∈ digits n, isDigit c = true := fun c hc => isDigit_nat.2 (digits_all n c hc)

theorem isDigit_digit {d : Nat} (h : d < 10) : isDigit (digit d) = true := by
  have : ∀ d, d < 10 → isDigit (digit d) = true := by decide
  exact this d h

theorem digitsVal_cons (ds : Str) (hd : ∀ c ∈ ds, isDigit c = true) :
    ∀ acc, digitsVal acc ds = some (acc * 10 ^ ds.length + val ds) := by
  induction ds with
  | nil => intro acc; simp [val, digitsVal]
  | cons c cs ih =>
    intro acc
    obtain ⟨x, hx⟩ : ∃ x, digitVal c = some x := by
      unfold digitVal
      rw [if_pos (isDigit_nat.1 (hd c List.mem_cons_self))]
      exact ⟨_, rfl⟩
    have ih := ih (fun c hc => hd c (List.mem_cons_of_mem _ hc))
    have hv : val (c :: cs) = x * 10 ^ cs.length + val cs := by
      unfold val
      simp only [digitsVal, hx, Nat.zero_mul, Nat.zero_add]
      rw [ih x]
      simp [val]
    rw [hv]
    simp only [digitsVal, hx, List.length_cons, Nat.pow_succ]
    rw [ih, Option.some.injEq, Nat.add_mul, ← Nat.add_assoc, Nat.mul_assoc acc, Nat.mul_comm 10]

theorem val_cons {d : Nat} (h : d < 10) {ds : Str} (hd : ∀ c ∈ ds, isDigit c = true) :
    val (digit d :: ds) = d * 10 ^ ds.length + val ds := by
  unfold val
  simp only [digitsVal, digitVal_digit h, Nat.zero_mul, Nat.zero_add]
  rw [digitsVal_cons ds hd]
  simp [val]

/-- What `fmtFrac` writes before the unit: nothing, or a dot and digits. -/
def Frac (t fs : Str) : Prop := (t = [] ∧ fs = []) ∨ (t = '.' :: fs ∧ fs ≠ [])

theorem fmtFrac_some : ∀ (prec v : Nat) (ds unit : Str), (∀ c ∈ ds, isDigit c = true) → ds ≠ [] →
    ∃ fs, fmtFrac prec v true (ds ++ unit) = ('.' :: (fs ++ unit), v / 10 ^ prec) ∧ (∀ c ∈ fs, isDigit c = true) ∧
      fs.length = prec + ds.length ∧ val fs = v % 10 ^ prec * 10 ^ ds.length + val ds := by
  intro prec
  induction prec with
  | zero =>
    intro v ds unit hd hne
    exact ⟨ds, by simp [fmtFrac], hd, by simp, by simp [Nat.mod_one]⟩
  | succ p ih =>
    intro v ds unit hd hne
    have h10 : v % 10 < 10 := Nat.mod_lt _ (by decide)
    obtain ⟨fs, h1, h2, h3, h4⟩ := ih (v / 10) (digit (v % 10) :: ds) unit (by
      intro c hc
      rcases List.mem_cons.1 hc with rfl | hc
      · exact isDigit_digit h10
      · exact hd c hc) (by simp)
    refine ⟨fs, ?_, h2, ?_, ?_⟩
    · simp only [fmtFrac, Bool.true_or, if_true]
      rw [← List.cons_append, h1, Nat.div_div_eq_div_mul, Nat.pow_succ, Nat.mul_comm 10]
    · rw [h3, List.length_cons]; omega
    · rw [h4, val_cons h10 hd, List.length_cons, Nat.pow_succ, Nat.pow_succ, Nat.mul_comm (10 ^ p) 10, Nat.mod_mul,
        Nat.add_mul, ← Nat.add_assoc]
      congr 1
      rw [Nat.mul_comm (10 ^ ds.length) 10, ← Nat.mul_assoc, Nat.mul_comm (v / 10 % 10 ^ p) 10]
      omega

theorem fmtFrac_none : ∀ (prec v : Nat) (unit : Str),
    ∃ t fs, fmtFrac prec v false unit = (t ++ unit, v / 10 ^ prec) ∧ Frac t fs ∧ (∀ c ∈ fs, isDigit c = true) ∧
      fs.length ≤ prec ∧ v % 10 ^ prec = val fs * 10 ^ (prec - fs.length) := by
  intro prec
  induction prec with
  | zero =>
    intro v unit
    exact ⟨[], [], by simp [fmtFrac], Or.inl ⟨rfl, rfl⟩, by simp, by simp, by simp [Nat.mod_one, val, digitsVal]⟩
  | succ p ih =>
    intro v unit
    have h10 : v % 10 < 10 := Nat.mod_lt _ (by decide)
    by_cases h : v % 10 = 0
    · obtain ⟨t, fs, h1, h2, h3, h4, h5⟩ := ih (v / 10) unit
      refine ⟨t, fs, ?_, h2, h3, by omega, ?_⟩
      · have hp : (false || v % 10 != 0) = false := by simp [h]
        simp only [fmtFrac, hp, Bool.false_eq_true, if_false]
        rw [h1, Nat.div_div_eq_div_mul, Nat.pow_succ, Nat.mul_comm 10]
      · rw [Nat.pow_succ, Nat.mul_comm (10 ^ p) 10, Nat.mod_mul, h, h5, Nat.succ_sub h4, Nat.pow_succ]
        rw [Nat.zero_add, Nat.mul_comm 10, Nat.mul_assoc]
    · obtain ⟨fs, h1, h2, h3, h4⟩ := fmtFrac_some p (v / 10) [digit (v % 10)] unit (by
        intro c hc
        rw [List.mem_singleton.1 hc]
        exact isDigit_digit h10) (by simp)
      refine ⟨'.' :: fs, fs, ?_, Or.inr ⟨rfl, ?_⟩, h2, by simp at h3; omega, ?_⟩
      · have hp : (false || v % 10 != 0) = true := by simp [h]
        simp only [fmtFrac, hp, if_true]
        rw [show digit (v % 10) :: unit = [digit (v % 10)] ++ unit from rfl, h1, Nat.div_div_eq_div_mul, Nat.pow_succ,
          Nat.mul_comm 10]
        rfl
      · intro e; rw [e] at h3; simp at h3
      · have hv : val [digit (v % 10)] = v % 10 := by
          have := val_cons h10 (ds := []) (by simp)
          simpa [val, digitsVal] using this
        rw [h4, hv, h3, Nat.pow_succ, Nat.mul_comm (10 ^ p) 10, Nat.mod_mul]
        simp
        omega

theorem takeWhile_digits {ds rest : Str} (hd : ∀ c ∈ ds, isDigit c = true) (hr : ∀ c, rest.head? = some c → isDigit c = false) :
    (ds ++ rest).takeWhile isDigit = ds ∧ (ds ++ rest).dropWhile isDigit = rest := by
  induction ds with
  | nil =>
    cases rest with
    | nil => exact ⟨rfl, rfl⟩
    | cons c rest => have := hr c rfl; simp [this]
  | cons d ds ih =>
    have hd' := hd d List.mem_cons_self
    obtain ⟨h1, h2⟩ := ih (fun c hc => hd c (List.mem_cons_of_mem _ hc))
    simp [hd', h1, h2]

theorem takeWhile_unit {u rest : Str} (hu : ∀ c ∈ u, isUnit c = true) (hr : ∀ c, rest.head? = some c → isUnit c = false) :
    (u ++ rest).takeWhile isUnit = u ∧ (u ++ rest).dropWhile isUnit = rest := by
  induction u with
  | nil =>
    cases rest with
    | nil => exact ⟨rfl, rfl⟩
    | cons c rest => have := hr c rfl; simp [this]
  | cons d ds ih =>
    have hd' := hu d List.mem_cons_self
    obtain ⟨h1, h2⟩ := ih (fun c hc => hu c (List.mem_cons_of_mem _ hc))
    simp [hd', h1, h2]

/-- One number with its unit. -/
theorem part_read {v : Nat} {t fs u rest : Str} {unit : Nat} (hf : Frac t fs) (hfs : ∀ c ∈ fs, isDigit c = true)
    (hu : (u, unit) ∈ units) (hr : ∀ c, rest.head? = some c → isUnit c = false)
    (hx : v * unit + val fs * unit / 10 ^ fs.length < 2 ^ 63) :
    part (digits v ++ (t ++ (u ++ rest))) = some (v * unit + val fs * unit / 10 ^ fs.length, rest) := by
  have hu' : (∃ c cs, u = c :: cs ∧ isDigit c = false ∧ c ≠ '.') ∧ (∀ c ∈ u, isUnit c = true) ∧
      units.lookup u = some unit ∧ 0 < unit := by
    have : ∀ e ∈ units, (e.1 ≠ [] ∧ ∀ c, e.1.head? = some c → isDigit c = false ∧ c ≠ '.') ∧ (∀ c ∈ e.1, isUnit c = true) ∧
        units.lookup e.1 = some e.2 ∧ 0 < e.2 := by decide
    obtain ⟨⟨h1, h2⟩, h3⟩ := this _ hu
    refine ⟨?_, h3⟩
    cases u with
    | nil => exact absurd rfl h1
    | cons c cs => exact ⟨c, cs, rfl, h2 c rfl⟩
  obtain ⟨⟨c, cs, hc, hc1, hc2⟩, hu1, hu2, hu3⟩ := hu'
  have hne : digits v ≠ [] := by
    obtain ⟨c, cs, h, -⟩ := digits_head v
    rw [h]; simp
  have h1 : ∀ c, (t ++ (u ++ rest)).head? = some c → isDigit c = false := by
    intro x hx'
    rcases hf with ⟨rfl, -⟩ | ⟨rfl, -⟩
    · rw [List.nil_append, hc] at hx'
      injection hx' with hx'
      subst hx'
      exact hc1
    · injection hx' with hx'
      subst hx'
      decide
  have h2 : after (t ++ (u ++ rest)) = (fs, u ++ rest) := by
    rcases hf with ⟨rfl, rfl⟩ | ⟨rfl, -⟩
    · rw [List.nil_append, hc, List.cons_append]
      unfold after
      split
      · next heq => injection heq with heq; exact absurd heq hc2
      · rfl
    · obtain ⟨e1, e2⟩ := takeWhile_digits (rest := u ++ rest) hfs (by
        intro x hx'
        rw [hc] at hx'
        injection hx' with hx'
        subst hx'
        exact hc1)
      simp only [List.cons_append, after]
      rw [e1, e2]
  obtain ⟨d1, d2⟩ := takeWhile_digits (isDigit_digits v) h1
  obtain ⟨u1, u2⟩ := takeWhile_unit hu1 hr
  have hv : v * unit < 2 ^ 63 := Nat.lt_of_le_of_lt (Nat.le_add_right _ _) hx
  have hv1 : v < 2 ^ 63 := Nat.lt_of_le_of_lt (Nat.le_mul_of_pos_right v hu3) hv
  have hv2 : ¬ v > (2 ^ 63 - 1) / unit := by
    rw [Nat.not_lt, Nat.le_div_iff_mul_le hu3]
    omega
  unfold part
  simp only [d1, d2, h2, val_digits, u1, u2, hu2]
  rw [if_neg (by omega), if_neg (by intro h; exact hne h.1), if_neg hv2, if_neg (by omega)]

theorem loop_read {n d x : Nat} {s rest : Str} (hs : s ≠ []) (hp : part s = some (x, rest)) (hx : d + x < 2 ^ 63)
    (hn : 0 < n) : loop n d s = loop (n - 1) (d + x) rest := by
  cases n with
  | zero => omega
  | succ n =>
    cases s with
    | nil => exact absurd rfl hs
    | cons c s =>
      rw [loop, hp]
      dsimp only
      rw [if_neg (by omega)]
      rfl

theorem loop_nil (n d : Nat) : loop n d [] = some d := by cases n <;> rfl

theorem digits_ne (n : Nat) (s : Str) : digits n ++ s ≠ [] := by
  obtain ⟨c, cs, h, -⟩ := digits_head n
  rw [h]; simp

/-- The head of a text that begins with a number is a digit. -/
theorem head_digits (n : Nat) (s : Str) : ∀ c, (digits n ++ s).head? = some c → isDigit c = true := by
  intro c hc
  obtain ⟨d, ds, h, -⟩ := digits_head n
  rw [h] at hc
  injection hc with hc
  subst hc
  exact isDigit_digits n d (by rw [h]; exact List.mem_cons_self)

theorem head_unit (n : Nat) (s : Str) : ∀ c, (digits n ++ s).head? = some c → isUnit c = false := by
  intro c hc
  simp [isUnit, head_digits n s c hc]

/-- The fraction written with at most as many digits as the unit has zeros is read exactly. -/
theorem frac_exact {v prec : Nat} {fs : Str} (hl : fs.length ≤ prec) (h : v % 10 ^ prec = val fs * 10 ^ (prec - fs.length)) :
    v / 10 ^ prec * 10 ^ prec + val fs * 10 ^ prec / 10 ^ fs.length = v := by
  have h10 : 0 < 10 ^ fs.length := Nat.pow_pos (by decide)
  have : 10 ^ prec = 10 ^ (prec - fs.length) * 10 ^ fs.length := by
    rw [← Nat.pow_add]; congr 1; omega
  have h2 : val fs * 10 ^ prec / 10 ^ fs.length = v % 10 ^ prec := by
    rw [h, this, ← Nat.mul_assoc, Nat.mul_div_cancel _ h10]
  rw [h2, Nat.mul_comm]
  exact Nat.div_add_mod v (10 ^ prec)

/-- A number with a fraction, read at the end of a text. -/
theorem frac_part (v prec : Nat) (u : Str) (hu : (u, 10 ^ prec) ∈ units) (hv : v < 2 ^ 63) :
    part (digits (fmtFrac prec v false u).2 ++ (fmtFrac prec v false u).1) = some (v, []) := by
  obtain ⟨t, fs, h1, h2, h3, h4, h5⟩ := fmtFrac_none prec v u
  have hx := frac_exact h4 h5
  have := part_read (v := v / 10 ^ prec) (rest := []) h2 h3 hu (by simp) (by rw [hx]; exact hv)
  rw [hx, List.append_nil] at this
  rw [h1]
  exact this

theorem loop_one {n d x : Nat} {s : Str} (hs : s ≠ []) (hp : part s = some (x, [])) (hx : d + x < 2 ^ 63)
    (hn : 0 < n) : loop n d s = some (d + x) := by
  rw [loop_read hs hp hx hn, loop_nil]

/-- A whole number of minutes or hours in front of more. -/
theorem whole_part {v k : Nat} {u rest : Str} (hu : (u, k) ∈ units) (hr : ∀ c, rest.head? = some c → isUnit c = false)
    (hx : v * k < 2 ^ 63) : part (digits v ++ (u ++ rest)) = some (v * k, rest) := by
  have := part_read (v := v) (t := []) (fs := []) (Or.inl ⟨rfl, rfl⟩) (by simp) hu hr (by simpa [val, digitsVal] using hx)
  simpa [val, digitsVal] using this

theorem loop_unsigned (u : Nat) (hu : u < 2 ^ 63) : loop (unsigned u).length 0 (unsigned u) = some u := by
  have hlen : ∀ s : Str, s ≠ [] → 0 < s.length := fun s hs => List.length_pos_iff.2 hs
  unfold unsigned
  split
  · split
    · next h => subst h; decide +kernel
    split
    · have := whole_part (v := u) (k := 1) (u := ['n', 's']) (rest := []) (by decide) (by simp) (by omega)
      rw [List.append_nil, Nat.mul_one] at this
      rw [loop_one (digits_ne _ _) this (by omega) (hlen _ (digits_ne _ _)), Nat.zero_add]
    split
    · rw [loop_one (digits_ne _ _) (frac_part u 3 _ (by decide) hu) (by omega) (hlen _ (digits_ne _ _)), Nat.zero_add]
    · rw [loop_one (digits_ne _ _) (frac_part u 6 _ (by decide) hu) (by omega) (hlen _ (digits_ne _ _)), Nat.zero_add]
  · obtain ⟨t, fs, h1, h2, h3, h4, h5⟩ := fmtFrac_none 9 u ['s']
    have hx := frac_exact h4 h5
    rw [h1]
    dsimp only
    have hs : part (digits (u / 10 ^ 9 % 60) ++ (t ++ ['s'])) =
        some (u / 10 ^ 9 % 60 * 10 ^ 9 + val fs * 10 ^ 9 / 10 ^ fs.length, []) := by
      have hm : u / 10 ^ 9 % 60 * 10 ^ 9 ≤ u / 10 ^ 9 * 10 ^ 9 := Nat.mul_le_mul_right _ (Nat.mod_le _ _)
      have := part_read (v := u / 10 ^ 9 % 60) (rest := []) (u := ['s']) (unit := 10 ^ 9) h2 h3 (by decide) (by simp)
        (by omega)
      rw [List.append_nil] at this
      exact this
    split
    · next h0 =>
      have e : u / 10 ^ 9 % 60 = u / 10 ^ 9 := Nat.mod_eq_of_lt (by omega)
      rw [e, hx] at hs
      rw [e, loop_one (digits_ne _ _) hs (by omega) (hlen _ (digits_ne _ _)), Nat.zero_add]
    split
    · next h0 h00 =>
      have e : u / 10 ^ 9 / 60 % 60 = u / 10 ^ 9 / 60 := Nat.mod_eq_of_lt (by omega)
      have hm := whole_part (v := u / 10 ^ 9 / 60 % 60) (k := 60000000000) (u := ['m'])
        (rest := digits (u / 10 ^ 9 % 60) ++ (t ++ ['s'])) (by decide) (head_unit _ _) (by omega)
      rw [List.singleton_append] at hm
      rw [loop_read (digits_ne _ _) hm (by omega) (hlen _ (digits_ne _ _)),
        loop_one (digits_ne _ _) hs (by omega) (by
          simp only [List.length_append, List.length_cons]
          have := hlen _ (digits_ne (u / 10 ^ 9 / 60 % 60) [])
          simp only [List.append_nil] at this
          omega)]
      congr 1
      omega
    · have hm := whole_part (v := u / 10 ^ 9 / 60 % 60) (k := 60000000000) (u := ['m'])
        (rest := digits (u / 10 ^ 9 % 60) ++ (t ++ ['s'])) (by decide) (head_unit _ _) (by omega)
      have hh := whole_part (v := u / 10 ^ 9 / 60 / 60) (k := 3600000000000) (u := ['h'])
        (rest := digits (u / 10 ^ 9 / 60 % 60) ++ 'm' :: (digits (u / 10 ^ 9 % 60) ++ (t ++ ['s']))) (by decide)
        (head_unit _ _) (by omega)
      rw [List.singleton_append] at hm hh
      have l1 := hlen _ (digits_ne (u / 10 ^ 9 / 60 % 60) [])
      have l2 := hlen _ (digits_ne (u / 10 ^ 9 / 60 / 60) [])
      simp only [List.append_nil] at l1 l2
      rw [loop_read (digits_ne _ _) hh (by omega) (hlen _ (digits_ne _ _)),
        loop_read (digits_ne _ _) hm (by omega) (by simp only [List.length_append, List.length_cons]; omega),
        loop_one (digits_ne _ _) hs (by omega) (by simp only [List.length_append, List.length_cons]; omega)]
      congr 1
      omega

/-- Something written with a unit is longer than a digit and starts with one. -/
theorem unsigned_shape (u : Nat) : unsigned u ≠ ['0'] ∧ unsigned u ≠ [] ∧
    ∀ c, (unsigned u).head? = some c → isDigit c = true := by
  have key : ∀ (n : Nat) (s : Str), (s ≠ []) → digits n ++ s ≠ ['0'] ∧ digits n ++ s ≠ [] ∧
      ∀ c, (digits n ++ s).head? = some c → isDigit c = true := by
    intro n s hs
    refine ⟨?_, digits_ne _ _, head_digits _ _⟩
    intro h
    have h1 := congrArg List.length h
    have l1 := List.length_pos_iff.2 (digits_ne n [])
    have l2 := List.length_pos_iff.2 hs
    simp at h1 l1
    omega
  have hf : ∀ p v u, u ≠ [] → (fmtFrac p v false u).1 ≠ [] := by
    intro p v u hu
    obtain ⟨t, fs, h1, -⟩ := fmtFrac_none p v u
    rw [h1]
    intro h
    exact hu (List.append_eq_nil_iff.1 h).2
  unfold unsigned
  split
  · split
    · refine ⟨by decide, by decide, ?_⟩
      intro c hc
      injection hc with hc
      subst hc
      decide
    split
    · exact key _ _ (by simp)
    split
    · exact key _ _ (hf _ _ _ (by simp))
    · exact key _ _ (hf _ _ _ (by simp))
  · dsimp only
    split
    · exact key _ _ (hf _ _ _ (by simp))
    split
    · exact key _ _ (by simp)
    · exact key _ _ (by simp)

theorem parseUnsigned_unsigned (u : Nat) (hu : u < 2 ^ 63) : parseUnsigned (unsigned u) = some u := by
  obtain ⟨h1, h2, -⟩ := unsigned_shape u
  unfold parseUnsigned
  rw [if_neg h1, if_neg h2, loop_unsigned u hu]

/-- A duration is read as it is written, except the most negative one. -/
theorem parse_text (d : Int) (h1 : -(2 ^ 63 : Int) < d) (h2 : d < 2 ^ 63) : parse (text d) = some d := by
  have hu : d.natAbs < 2 ^ 63 := by omega
  have hp := parseUnsigned_unsigned d.natAbs hu
  unfold text
  split
  · simp only [parse, hp, Option.map_some, Option.some.injEq]
    omega
  · have hh := (unsigned_shape d.natAbs).2.2
    unfold parse
    split
    · next heq => have := hh '-' (by rw [heq]; rfl); exact absurd this (by decide)
    · next heq => have := hh '+' (by rw [heq]; rfl); exact absurd this (by decide)
    · rw [hp, Option.map_some, Option.some.injEq]
      omega

end Swoll.Lemmas.Duration
