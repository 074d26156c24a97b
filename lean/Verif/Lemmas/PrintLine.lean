import Verif.Lemmas.Print
import Verif.Lemmas.Views
import Verif.Lemmas.Syscalls
/- Helper lemmas about printed lines. -/
namespace Swoll.Lemmas.Print
open Swoll.Bytes Swoll.Event Swoll.Flags Swoll.Print Swoll.Spec.Event Swoll.Spec.Print
open Swoll.Lemmas.Flags Swoll.Lemmas.Event Swoll.Lemmas.Views
open Swoll.Views (f64 f64i roundTo)

/-! ### Latency -/

theorem roundDiv_bounds (n d : Nat) (hd : 0 < d) :
    2 * (d * roundDiv n d) ≤ 2 * n + d ∧ 2 * n ≤ 2 * (d * roundDiv n d) + d := by
  have h := Nat.div_add_mod n d
  have hm := Nat.mod_lt n hd
  unfold roundDiv
  dsimp only
  split
  · next hc =>
    rw [Nat.mul_add]
    omega
  · next hc =>
    omega

theorem msOf_eq {n : Nat} (hn : n ≠ 0) : ∃ e, 71 ≤ e + Nat.log2 n ∧
    msOf n = (roundDiv (n * 2 ^ e) (10 ^ 6), e) := by
  unfold msOf
  rw [if_neg hn]
  dsimp only
  split
  · exact ⟨_, by omega, rfl⟩
  · exact ⟨_, by omega, rfl⟩

theorem thousandths_bounds (n e b : Nat) (hb : 10 ^ 6 < b * 2 ^ e) :
    2000 * Print.thousandths (roundDiv (n * 2 ^ e) (10 ^ 6)) e < 2 * n + 1000 + b ∧
    2 * n < 2000 * Print.thousandths (roundDiv (n * 2 ^ e) (10 ^ 6)) e + 1000 + b := by
  have he : 0 < 2 ^ e := Nat.two_pow_pos e
  obtain ⟨h1, h2⟩ := roundDiv_bounds (n * 2 ^ e) (10 ^ 6) (by decide)
  generalize roundDiv (n * 2 ^ e) (10 ^ 6) = m at *
  obtain ⟨h3, h4⟩ := roundDiv_bounds (m * 1000) (2 ^ e) he
  unfold Print.thousandths
  generalize roundDiv (m * 1000) (2 ^ e) = p at *
  generalize 2 ^ e = x at *
  have a1 : (2000 * p) * x < (2 * n + 1000 + b) * x := by
    have : (2 * n + 1000 + b) * x = 2 * (n * x) + 1000 * x + b * x := by
      rw [Nat.add_mul, Nat.add_mul, Nat.mul_assoc]
    have h : 2000 * p * x = 1000 * (2 * (x * p)) := by
      rw [Nat.mul_comm x p, Nat.mul_assoc]; omega
    omega
  have a2 : 2 * n * x < (2000 * p + 1000 + b) * x := by
    have : (2000 * p + 1000 + b) * x = 2000 * (p * x) + 1000 * x + b * x := by
      rw [Nat.add_mul, Nat.add_mul, Nat.mul_assoc]
    have h : 2 * n * x = 2 * (n * x) := by rw [Nat.mul_assoc]
    have h' : x * p = p * x := Nat.mul_comm ..
    omega
  exact ⟨Nat.lt_of_mul_lt_mul_right a1, Nat.lt_of_mul_lt_mul_right a2⟩

/-- Below 2^53 the thousandths are the nearest. -/
theorem latency_small (n : Nat) (h : n < 2 ^ 53) :
    1000 * Print.thousandths (msOf n).1 (msOf n).2 ≤ n + 500 ∧
    n ≤ 1000 * Print.thousandths (msOf n).1 (msOf n).2 + 500 := by
  by_cases hn : n = 0
  · subst hn
    simp [msOf, Print.thousandths, roundDiv]
  · obtain ⟨e, he, hm⟩ := msOf_eq hn
    rw [hm]
    have hl : Nat.log2 n < 53 := (Nat.log2_lt hn).2 h
    have := thousandths_bounds n e 2 (by
      have : 2 ^ 19 ≤ 2 ^ e := Nat.pow_le_pow_right (by decide) (by omega)
      omega)
    dsimp only
    omega

/-- Up to eighteen years they are at most 622 nanoseconds off. -/
theorem latency_large (n : Nat) (h : n ≤ 2 ^ 59) :
    1000 * Print.thousandths (msOf n).1 (msOf n).2 ≤ n + 622 ∧
    n ≤ 1000 * Print.thousandths (msOf n).1 (msOf n).2 + 622 := by
  by_cases hn : n = 0
  · subst hn
    simp [msOf, Print.thousandths, roundDiv]
  · obtain ⟨e, he, hm⟩ := msOf_eq hn
    rw [hm]
    have hl : Nat.log2 n < 60 := (Nat.log2_lt hn).2 (by omega)
    have := thousandths_bounds n e 245 (by
      have : 2 ^ 12 ≤ 2 ^ e := Nat.pow_le_pow_right (by decide) (by omega)
      omega)
    dsimp only
    omega

theorem digits_step {n : Nat} (h : 10 ≤ n) : digits n = digits (n / 10) ++ [digit (n % 10)] := by
  rw [digits, dif_neg (by omega)]

theorem fixed3_eq (p : Nat) : fixed3 p = Spec.Print.thousandths p := by
  unfold fixed3 Spec.Print.thousandths
  have e1 : decimal (((p / 1000 : Nat)) : Int) = digits (p / 1000) := by rw [← itoa_eq, itoa_nat]
  have e2 : decimal (1000 + (p : Int) % 1000) = digits (1000 + p % 1000) := by
    rw [← itoa_nat, itoa_eq]; rfl
  have e1' : decimal ((p : Int) / 1000) = digits (p / 1000) := e1
  rw [e1', e2]
  have hl : p % 1000 < 1000 := Nat.mod_lt _ (by decide)
  rw [digits_step (n := 1000 + p % 1000) (by omega),
    digits_step (n := (1000 + p % 1000) / 10) (by omega),
    digits_step (n := (1000 + p % 1000) / 10 / 10) (by omega),
    show (1000 + p % 1000) / 10 / 10 / 10 = 1 by omega,
    show p / 100 % 10 = (1000 + p % 1000) / 10 / 10 % 10 by omega,
    show p / 10 % 10 = (1000 + p % 1000) / 10 % 10 by omega,
    show p % 10 = (1000 + p % 1000) % 10 by omega,
    show digits 1 = ['1'] by decide +kernel]
  simp

/-- A float64 of a time is off by at most 64 nanoseconds for the first eighteen years. -/
theorem f64i_near {z : Int} (h0 : 0 ≤ z) (h : z ≤ 2 ^ 59) :
    0 ≤ f64i z ∧ f64i z ≤ z + 64 ∧ z ≤ f64i z + 64 := by
  have he := roundTo_error (p := 53) (n := z.natAbs)
  unfold f64i f64
  rw [if_neg (by omega)]
  omega

theorem roundDiv_mono {a b d : Nat} (h : a ≤ b) : roundDiv a d ≤ roundDiv b d := by
  have hq := Nat.div_le_div_right (c := d) h
  have ha := Nat.div_add_mod a d
  have hb := Nat.div_add_mod b d
  unfold roundDiv
  dsimp only
  by_cases he : a / d = b / d
  · rw [he] at ha ⊢
    have : a % d ≤ b % d := by omega
    split <;> split <;> omega
  · split <;> split <;> omega

theorem roundDiv_mul (k : Nat) {d : Nat} (hd : 0 < d) : roundDiv (k * d) d = k := by
  unfold roundDiv
  dsimp only
  rw [Nat.mul_div_cancel _ hd, Nat.mul_mod_left, if_neg (by omega)]

theorem roundTo_eq {p n : Nat} (h : 2 ^ p ≤ n) :
    roundTo p n = roundDiv n (2 ^ (Nat.log2 n + 1 - p)) * 2 ^ (Nat.log2 n + 1 - p) := by
  unfold roundTo
  rw [if_neg (by omega)]
  rfl

theorem f64_mono {a b : Nat} (h : a ≤ b) : f64 a ≤ f64 b := by
  unfold f64
  by_cases hb : b < 2 ^ 53
  · rw [roundTo_exact (by decide) (by omega), roundTo_exact (by decide) (by omega)]
    exact h
  · have hb0 : b ≠ 0 := by have := Nat.two_pow_pos 53; omega
    have hlb : 53 ≤ Nat.log2 b := (Nat.le_log2 hb0).2 (by omega)
    have hb2 := Nat.log2_self_le hb0
    have low : 2 ^ Nat.log2 b ≤ roundTo 53 b := by
      rw [roundTo_eq (by omega)]
      have e : 2 ^ Nat.log2 b = 2 ^ 52 * 2 ^ (Nat.log2 b + 1 - 53) := by
        rw [← Nat.pow_add]; congr 1; omega
      have := roundDiv_mono (d := 2 ^ (Nat.log2 b + 1 - 53)) hb2
      rw [e, roundDiv_mul _ (Nat.two_pow_pos _)] at this
      rw [e]
      exact Nat.mul_le_mul_right _ this
    by_cases ha : a < 2 ^ 53
    · rw [roundTo_exact (by decide) (by omega)]
      have : 2 ^ 53 ≤ 2 ^ Nat.log2 b := Nat.pow_le_pow_right (by decide) hlb
      omega
    · have ha0 : a ≠ 0 := by have := Nat.two_pow_pos 53; omega
      have hla : 53 ≤ Nat.log2 a := (Nat.le_log2 ha0).2 (by omega)
      have hle : Nat.log2 a ≤ Nat.log2 b := (Nat.le_log2 hb0).2 (Nat.le_trans (Nat.log2_self_le ha0) h)
      by_cases heq : Nat.log2 a = Nat.log2 b
      · rw [roundTo_eq (n := a) (by omega), roundTo_eq (n := b) (by omega), heq]
        exact Nat.mul_le_mul_right _ (roundDiv_mono h)
      · have ha2 : a < 2 ^ (Nat.log2 a + 1) := Nat.lt_log2_self
        have : roundTo 53 a ≤ 2 ^ (Nat.log2 a + 1) := by
          rw [roundTo_eq (by omega)]
          have e : 2 ^ (Nat.log2 a + 1) = 2 ^ 53 * 2 ^ (Nat.log2 a + 1 - 53) := by
            rw [← Nat.pow_add]; congr 1; omega
          have := roundDiv_mono (d := 2 ^ (Nat.log2 a + 1 - 53)) (Nat.le_of_lt ha2)
          rw [e, roundDiv_mul _ (Nat.two_pow_pos _)] at this
          rw [e]
          exact Nat.mul_le_mul_right _ this
        have h3 : 2 ^ (Nat.log2 a + 1) ≤ 2 ^ Nat.log2 b :=
          Nat.pow_le_pow_right (by decide) (by omega)
        omega

theorem f64i_mono {a b : Int} (h0 : 0 ≤ a) (h : a ≤ b) : f64i a ≤ f64i b := by
  unfold f64i
  rw [if_neg (by omega), if_neg (by omega)]
  exact Int.ofNat_le.2 (f64_mono (by omega))

/-- The latency column, for a call that does not finish before it starts. -/
theorem latencyText_eq {s f : Int} (h0 : 0 ≤ s) (h : s ≤ f) : ∃ k,
    latencyText s f = List.replicate k ' ' ++ Spec.Print.thousandths
      (Print.thousandths (msOf (f64i (f64i f - f64i s)).natAbs).1
        (msOf (f64i (f64i f - f64i s)).natAbs).2) := by
  have hm := f64i_mono h0 h
  have hl : ¬ f64i (f64i f - f64i s) < 0 := by
    have hd : ¬ f64i f - f64i s < 0 := by omega
    generalize f64i f - f64i s = x at *
    unfold f64i
    rw [if_neg hd]; omega
  unfold latencyText padLeft
  dsimp only
  rw [if_neg hl, fixed3_eq]
  exact ⟨_, rfl⟩

theorem latency_column {s f : Nat} (h : s ≤ f) (hf : f < 2 ^ 59) : ∃ p k,
    latencyText s f = blanks k ++ Spec.Print.thousandths p ∧
    (f < 2 ^ 53 → 1000 * p ≤ f - s + 500 ∧ f - s ≤ 1000 * p + 500) ∧
    1000 * p ≤ f - s + 1000 ∧ f - s ≤ 1000 * p + 1000 := by
  obtain ⟨k, hk⟩ := latencyText_eq (s := s) (f := f) (by omega) (by omega)
  refine ⟨_, k, hk, ?_, ?_⟩
  · intro h53
    rw [f64i_exact (z := (f : Int)) (by omega) (by omega),
      f64i_exact (z := (s : Int)) (by omega) (by omega), f64i_exact (by omega) (by omega)]
    have := latency_small ((f : Int) - s).natAbs (by omega)
    omega
  · have h1 := f64i_near (z := (s : Int)) (by omega) (by omega)
    have h2 := f64i_near (z := (f : Int)) (by omega) (by omega)
    have hm := f64i_mono (a := (s : Int)) (b := f) (by omega) (by omega)
    have hmax := f64i_mono (a := (f : Int)) (b := 2 ^ 59) (by omega) (by omega)
    rw [show f64i (2 ^ 59) = 2 ^ 59 by decide +kernel] at hmax
    generalize f64i (f : Int) = F at *
    generalize f64i (s : Int) = S at *
    have h3 := f64i_near (z := F - S) (by omega) (by omega)
    have hmax' := f64i_mono (a := F - S) (b := 2 ^ 59) (by omega) (by omega)
    rw [show f64i (2 ^ 59) = 2 ^ 59 by decide +kernel] at hmax'
    generalize f64i (F - S) = L at *
    have := latency_large L.natAbs (by omega)
    omega

theorem fqdn_eq (k : Option Topology.Container) :
    fqdn k = containerName (k.map fun c => (c.name, c.pod, c.ns)) := by
  cases k <;> rfl

theorem errorText_ok (e : Int) : ErrorText e (errnoText e) := by
  have hne : ∀ x ∈ errnoVals, x.1 ≠ 0 → x.2.toList ≠ "OK".toList := by decide +kernel
  constructor
  · unfold errnoText
    split
    · next h => exact ⟨fun _ => rfl, fun _ => h⟩
    · next h =>
      refine ⟨fun h' => absurd h' h, fun h' => ?_⟩
      exfalso
      unfold errnoToString at h'
      cases hg : GoMap.get errnoVals e with
      | none => rw [hg] at h'; revert h'; decide +kernel
      | some s => rw [hg] at h'; exact hne _ (GoMap.mem_of_get hg) h h'
  · intro name hm
    have h0 : ∀ x ∈ Spec.Flags.errnos, x.1 ≠ 0 := by decide +kernel
    unfold errnoText
    rw [if_neg (h0 _ hm), (Props.Flags.c42_linux_errors (.refl _) (List.mem_cons_of_mem _ hm)).1]

/-! ### Lines -/

theorem mem_join {c : Char} {sep : List Char} : ∀ {l : List (List Char)}, c ∈ join sep l →
    c ∈ sep ∨ ∃ x ∈ l, c ∈ x
  | [], h => by simp [join] at h
  | [x], h => .inr ⟨x, by simp, by simpa [join] using h⟩
  | x :: y :: ys, h => by
    simp only [join, List.mem_append] at h
    rcases h with (h | h) | h
    · exact .inr ⟨x, by simp, h⟩
    · exact .inl h
    · rcases mem_join h with h | ⟨z, hz, hc⟩
      · exact .inl h
      · exact .inr ⟨z, List.mem_cons_of_mem _ hz, hc⟩

theorem digits_newline (n : Nat) : '\n' ∉ digits n := fun h => by
  have := digits_all n _ h
  revert this; decide

theorem itoa_newline (i : Int) : '\n' ∉ itoa i := by
  unfold itoa
  split
  · intro h
    rcases List.mem_cons.1 h with h | h
    · revert h; decide
    · exact digits_newline _ h
  · exact digits_newline _

theorem join_newline {sep : List Char} {l : List (List Char)} (hs : '\n' ∉ sep)
    (hl : ∀ x ∈ l, '\n' ∉ x) : '\n' ∉ join sep l := fun h => by
  rcases mem_join h with h | ⟨x, hx, h⟩
  · exact hs h
  · exact hl x hx h

theorem byteChar_newline {b : Byte} (h : byteChar b = '\n') : b = 10 := by
  revert h
  have : ∀ b : Byte, byteChar b = '\n' → b = 10 := by
    intro b
    have : ∀ n, n < 256 → Char.ofNat n = '\n' → n = 10 := by decide +kernel
    intro h
    exact UInt8.toNat_inj.1 (this _ b.toNat_lt h)
  exact this b

theorem chars_newline {bs : List Byte} (h : (10 : Byte) ∉ bs) : '\n' ∉ bs.map byteChar := fun hm => by
  obtain ⟨b, hb, he⟩ := List.mem_map.1 hm
  exact h (byteChar_newline he ▸ hb)

theorem nameOf_newline {tbl : List (Int × String)} (h : ∀ e ∈ tbl, '\n' ∉ e.2.toList) (v : Int) :
    '\n' ∉ (nameOf tbl v).toList := by
  unfold nameOf
  cases hg : GoMap.get tbl v with
  | none => rw [String.toList_ofList]; exact itoa_newline v
  | some s => exact h _ (GoMap.mem_of_get hg)

theorem layText_newline : ∀ {ts : List Tok}, (∀ s, Tok.lit s ∈ ts → '\n' ∉ s.toList) →
    ∀ bs, '\n' ∉ layText ts bs
  | [], _, _ => by simp [layText]
  | .lit s :: ts, h, bs => by
    simp only [layText, List.mem_append, not_or]
    exact ⟨h s (by simp), layText_newline (fun s hs => h s (by simp [hs])) bs⟩
  | .u w :: ts, h, bs => by
    simp only [layText, List.mem_append, not_or]
    exact ⟨itoa_newline _, layText_newline (fun s hs => h s (by simp [hs])) _⟩
  | .s w :: ts, h, bs => by
    simp only [layText, List.mem_append, not_or]
    exact ⟨itoa_newline _, layText_newline (fun s hs => h s (by simp [hs])) _⟩

theorem hexDigits_newline (n : Nat) : '\n' ∉ hexDigits n := by
  have hd : ∀ d, d < 16 → '\n' ≠ hexDigit d := by decide +kernel
  induction n using Nat.strongRecOn with
  | ind n ih =>
    unfold hexDigits
    split
    · next h => simpa using hd n h
    · next h =>
      simp only [List.mem_append, List.mem_singleton, not_or]
      exact ⟨ih _ (by omega), hd _ (by omega)⟩

theorem flatten_newline {l : List (List Char)} {sep : List Char} (hs : '\n' ∉ sep)
    (hl : ∀ x ∈ l, '\n' ∉ x) : '\n' ∉ (l.intersperse sep).flatten := by
  induction l with
  | nil => simp
  | cons x xs ih =>
    cases xs with
    | nil => simpa using hl
    | cons y ys =>
      simp only [List.intersperse, List.flatten_cons, List.mem_append, not_or]
      exact ⟨hl x (by simp), hs, ih fun z hz => hl z (by simp [hz])⟩

theorem parse_newline {env : Env} (he : ∀ n, (env.order n).Perm n.type.masks) (n : Names) (f : Word) :
    ∀ x ∈ parse n.type (env.order n) f, '\n' ∉ x.toList := by
  have h : (∀ e ∈ n.type.masks, '\n' ∉ e.2.toList) ∧
      ∀ e ∈ n.type.special, '\n' ∉ e.2.toList := by
    cases n <;> decide +kernel
  have key : ∀ x ∈ ((env.order n).filter fun e => e.1 &&& f ≠ 0).map (·.2), '\n' ∉ x.toList := by
    intro x hx
    obtain ⟨e, hm, rfl⟩ := List.mem_map.1 hx
    exact h.1 e ((he n).mem_iff.1 (List.mem_filter.1 hm).1)
  intro x hx
  unfold parse at hx
  split at hx
  · next v name hs =>
    split at hx
    · rw [List.mem_singleton] at hx
      subst hx
      exact h.2 (v, x) hs
    · exact key x hx
  · exact key x hx

theorem mode_newline (m : BitVec 32) : '\n' ∉ modeText m := by
  unfold modeText
  have h1 : ∀ p ∈ (List.range 13).zip "dalTLDpSugct?".toList, p.2 ≠ '\n' := by decide +kernel
  have h2 : ∀ p ∈ (List.range 9).zip "rwxrwxrwx".toList, p.2 ≠ '\n' := by decide +kernel
  dsimp only
  simp only [List.mem_append, not_or]
  constructor
  · split
    · decide
    · intro h
      obtain ⟨⟨i, c⟩, hp, hc⟩ := List.mem_filterMap.1 h
      dsimp only at hc
      split at hc
      · exact h1 _ hp (Option.some.inj hc)
      · cases hc
  · intro h
    obtain ⟨⟨i, c⟩, hp, hc⟩ := List.mem_map.1 h
    dsimp only at hc
    split at hc
    · exact h2 _ hp hc
    · revert hc; decide

theorem sockType_newline (t : Word) :
    ∀ x ∈ sockTypeParse t, '\n' ∉ x.toList := by
  have h : ∀ e ∈ sockTypeNames, '\n' ∉ e.2.toList := by decide +kernel
  intro x hx
  unfold sockTypeParse at hx
  dsimp only at hx
  simp only [List.mem_append] at hx
  rcases hx with (hx | hx) | hx
  · split at hx
    · next s hs =>
      rw [List.mem_singleton] at hx
      subst hx
      exact h _ (lookup_mem hs)
    · rw [List.mem_singleton] at hx
      subst hx
      rw [String.toList_ofList]
      simp only [List.cons_append, List.mem_cons, List.mem_append, List.not_mem_nil, or_false, not_or]
      exact ⟨by decide, itoa_newline _, by decide⟩
  · split at hx
    · rw [List.mem_singleton] at hx
      subst hx
      decide +kernel
    · simp at hx
  · split at hx
    · rw [List.mem_singleton] at hx
      subst hx
      decide +kernel
    · simp at hx

theorem option_newline (s : SockoptName) : '\n' ∉ s.parse.toList := by
  have h1 : ∀ e ∈ socketOpMasks, '\n' ∉ e.2.toList := by decide +kernel
  have h2 : ∀ e ∈ tcpOpMasks, '\n' ∉ e.2.toList := by decide +kernel
  have h3 : ∀ e ∈ ipOpMasks, '\n' ∉ e.2.toList := by decide +kernel
  have h4 : ∀ e ∈ ip6OpMasks, '\n' ∉ e.2.toList := by decide +kernel
  unfold SockoptName.parse
  split
  · exact nameOf_newline h1 _
  · split
    · exact nameOf_newline h2 _
    · split
      · exact nameOf_newline h3 _
      · split
        · exact nameOf_newline h4 _
        · rw [String.toList_ofList]; exact itoa_newline _

theorem rlimit_newline (v : Int) : '\n' ∉ (rlimitName v).toList := by
  have h : ∀ e ∈ rlimitNames, '\n' ∉ e.2.toList := by decide +kernel
  unfold rlimitName
  cases hg : rlimitNames.lookup v with
  | none => rw [String.toList_ofList]; exact itoa_newline _
  | some s => exact h _ (lookup_mem hg)

theorem family_one {bs : List Byte} (hl : 2 ≤ bs.length) (h : leVal (bs.take 2) = 1) :
    bs.take 2 = [1, 0] := by
  match bs, hl with
  | a :: b :: rest, _ =>
    simp only [List.take_succ_cons, List.take_zero, leVal] at h ⊢
    have ha : a.toNat = 1 := by omega
    have hb : b.toNat = 0 := by omega
    rw [show a = 1 from UInt8.toNat_inj.1 ha, show b = 0 from UInt8.toNat_inj.1 hb]

theorem sock_newline {bs : List Byte} (h : leVal (bs.take 2) = 1 → (10 : Byte) ∉ bs.drop 2) :
    '\n' ∉ sockAddrString bs := by
  have key : '\n' ∉ (parseSockAddr bs).1 := by
    unfold parseSockAddr
    dsimp only
    split
    · simp only [List.mem_append, not_or]
      refine ⟨by decide +kernel, flatten_newline (by decide) ?_⟩
      intro x hx
      obtain ⟨b, -, rfl⟩ := List.mem_map.1 hx
      exact itoa_newline _
    · split
      · simp only [List.mem_append, not_or]
        refine ⟨by decide +kernel, flatten_newline (by decide) ?_⟩
        intro x hx
        obtain ⟨i, -, rfl⟩ := List.mem_map.1 hx
        intro hm
        obtain ⟨b, -, hb⟩ := List.mem_flatMap.1 hm
        have hd : ∀ d, d < 16 → '\n' ≠ hexDigit d := by decide +kernel
        unfold hex2 at hb
        have hlt := b.toNat_lt
        simp only [List.mem_cons, List.not_mem_nil, or_false] at hb
        rcases hb with hb | hb
        · exact hd _ (by omega) hb
        · exact hd _ (by omega) hb
      · split
        · next hf =>
          simp only [List.mem_append, not_or]
          refine ⟨by decide +kernel, chars_newline ?_⟩
          have h2 : leVal (bs.take 2) = 1 := hf
          intro hm
          unfold makeCString window at hm
          exact h h2 (List.mem_of_mem_take (List.mem_of_mem_take hm))
        · split
          · simp only [List.mem_append, not_or]
            refine ⟨by decide +kernel, ?_⟩
            unfold bracketed
            simp only [List.cons_append, List.mem_cons, List.mem_append, List.not_mem_nil, or_false,
              not_or]
            refine ⟨by decide, flatten_newline (by decide) ?_, by decide⟩
            intro x hx
            obtain ⟨b, -, rfl⟩ := List.mem_map.1 hx
            exact itoa_newline _
          · exact itoa_newline (leVal (window bs 0 2))
  unfold sockAddrString
  simp only [List.mem_append, List.mem_cons, not_or]
  exact ⟨key, by decide, itoa_newline _⟩

/-- No line end in the fixed part of what is printed for an argument. -/
def quiet : How → Bool
  | .struct _ ts => ts.all fun t => match t with
    | .lit s => !s.toList.contains '\n'
    | _ => true
  | _ => true

theorem shown_quiet : ∀ row ∈ shown, '\n' ∉ row.2.1.toList ∧ ∀ s ∈ row.2.2,
    '\n' ∉ s.name.toList ∧ '\n' ∉ s.ctype.toList ∧ quiet s.how = true := by decide +kernel

theorem render_newline {env : Env} (he : ∀ n, (env.order n).Perm n.type.masks)
    {argv : List (String × Val)} (hs : ∀ f s, (f, Val.str s) ∈ argv → (10 : Byte) ∉ s) (how : How)
    (hq : quiet how = true) (hk : ∀ f, how = .sock f → '\n' ∉ sockAddrString (bytesOf env argv f)) :
    '\n' ∉ render env argv how := by
  have hstr : ∀ f, (10 : Byte) ∉ strOf argv f := by
    intro f
    unfold strOf
    split
    · next s h => exact hs f s (lookup_mem h)
    · simp
  cases how with
  | num f => exact itoa_newline _
  | text f => exact chars_newline (hstr f)
  | dirfd f =>
    show '\n' ∉ dirfdText _
    unfold dirfdText
    split
    · decide +kernel
    · exact itoa_newline _
  | mode f => exact mode_newline _
  | flags n f =>
    show '\n' ∉ flagText _ _ _
    unfold flagText
    dsimp only
    split
    · exact itoa_newline _
    · refine join_newline (by decide) ?_
      intro x hx
      obtain ⟨y, hy, rfl⟩ := List.mem_map.1 hx
      exact parse_newline he n _ y hy
  | request f =>
    have h : ∀ e ∈ ptraceReqTypes, '\n' ∉ e.2.toList := by decide +kernel
    exact nameOf_newline h _
  | family f =>
    have h : ∀ e ∈ sockFamilyMap, '\n' ∉ e.2.toList := by decide +kernel
    exact nameOf_newline h _
  | sockType f =>
    refine join_newline (by decide) ?_
    intro x hx
    obtain ⟨y, hy, rfl⟩ := List.mem_map.1 hx
    exact sockType_newline _ y hy
  | proto f =>
    have h : ∀ e ∈ sockProtoMap, '\n' ∉ e.2.toList := by decide +kernel
    exact nameOf_newline h _
  | level f =>
    have h : ∀ e ∈ sockLevelMap, '\n' ∉ e.2.toList := by decide +kernel
    exact nameOf_newline h _
  | rlimit f => exact rlimit_newline _
  | option tp lv => exact option_newline _
  | sock f => exact hk f rfl
  | raw f =>
    show '\n' ∉ rawText _
    unfold rawText
    simp only [List.cons_append, List.mem_cons, List.mem_append, List.not_mem_nil, or_false, not_or]
    refine ⟨by decide, join_newline (by decide) ?_, by decide⟩
    intro x hx
    obtain ⟨b, -, rfl⟩ := List.mem_map.1 hx
    exact itoa_newline _
  | struct fs ts =>
    refine layText_newline ?_ _
    intro s hm
    have := List.all_eq_true.1 hq _ hm
    simpa using this
  | hex f =>
    show '\n' ∉ hex08 _
    unfold hex08
    simp only [List.mem_append, not_or]
    refine ⟨⟨by decide +kernel, ?_⟩, hexDigits_newline _⟩
    rw [List.mem_replicate]
    intro h
    exact absurd h.2 (by decide)
  | words fs =>
    refine join_newline (by decide) ?_
    intro x hx
    obtain ⟨f, -, rfl⟩ := List.mem_map.1 hx
    exact chars_newline (hstr f)

theorem errno_newline (e : Int) : '\n' ∉ errnoText e := by
  have h : ∀ e ∈ errnoVals, '\n' ∉ e.2.toList := by decide +kernel
  unfold errnoText errnoToString
  split
  · decide +kernel
  · cases hg : GoMap.get errnoVals e with
    | none => decide +kernel
    | some s => exact h _ (GoMap.mem_of_get hg)

theorem ingest_inv {κ : Type} {tbl : Syscalls.Syscalls} {lk : Option (Int → Option κ)}
    {data : List Byte} {ev : TraceEvent κ} (h : ingest tbl lk (.bytes data) = .ok ev) :
    ∃ e : KEvent, ∃ fields, e.WF ∧ e.syscall.toNat = leVal (window data 16 4) ∧
      decoders.lookup e.syscall.toNat = some fields ∧
      ev = eventOf tbl lk e (fields.map fun f => (f.1, evalRd e.args f.2)) := by
  have hlen : 736 ≤ data.length := by
    refine Nat.le_of_not_lt fun hc => ?_
    have hs : widths.sum = 736 := by decide
    simp only [ingest, ingestBytes] at h
    rw [if_pos (by omega)] at h
    cases h
  obtain ⟨e, hw, he, hn⟩ := event_of_data data hlen
  have hd : data = encode e ++ data.drop 736 := by rw [he, List.take_append_drop]
  cases hl : decoders.lookup e.syscall.toNat with
  | none =>
    rw [hd] at h
    simp only [ingest, ingest_encode e hw, decodeSyscall] at h
    rw [show (rawOf e).syscall = e.syscall from rfl, hl] at h
    cases h
  | some fields =>
    have := ingest_ok tbl lk e hw (data.drop 736) fields hl
    rw [← hd, h] at this
    exact ⟨e, fields, hw, hn, hl, Res.ok.inj this⟩

/-- Socket addresses are always in the event, and whole. -/
theorem sock_inside : ∀ row ∈ shown, ∀ s ∈ row.2.2, ∀ f, s.how = .sock f →
    ∃ fields ∈ decoders.lookup row.1, ∃ k, fields.lookup f = some (.sock k) ∧ k < 5 := by
  have h : ∀ row ∈ shown, ∀ s ∈ row.2.2, (match s.how with
      | .sock f => ((decoders.lookup row.1).bind (·.lookup f)).any fun r => match r with
        | .sock k => decide (k < 5)
        | _ => false
      | _ => true) = true := by decide +kernel
  intro row hrow s hs f hf
  have := h row hrow s hs
  rw [hf] at this
  dsimp only at this
  cases h1 : decoders.lookup row.1 with
  | none => rw [h1] at this; cases this
  | some fields =>
    rw [h1] at this
    cases h2 : fields.lookup f with
    | none => simp [h2] at this
    | some r =>
      simp only [Option.bind_some, h2, Option.any_some] at this
      cases r with
      | sock k => exact ⟨fields, rfl, k, h2, of_decide_eq_true this⟩
      | _ => cases this

/-- What may be in an event for its line to be one line. -/
theorem arguments_newline {κ : Type} {env : Env} (he : ∀ n, (env.order n).Perm n.type.masks)
    {tbl : Syscalls.Syscalls} {lk : Option (Int → Option κ)} {data : List Byte} {ev : TraceEvent κ}
    (h : ingest tbl lk (.bytes data) = .ok ev)
    (hs : ∀ f s, (f, Val.str s) ∈ ev.argv → (10 : Byte) ∉ s)
    (hb : ∀ f rest, (f, Val.buf ([1, 0] ++ rest)) ∈ ev.argv → (10 : Byte) ∉ rest) (as : List PArg)
    (ha : arguments env (leVal (window data 16 4)) ev.argv = some as) :
    ∀ a ∈ as, '\n' ∉ argText a := by
  obtain ⟨e, fields, hw, hn, hl, rfl⟩ := ingest_inv h
  unfold arguments at ha
  rw [Option.map_eq_some_iff] at ha
  obtain ⟨row, hrow, rfl⟩ := ha
  intro a ham
  obtain ⟨s, hsm, rfl⟩ := List.mem_map.1 ham
  have hrow' := lookup_mem hrow
  obtain ⟨-, hq⟩ := shown_quiet _ hrow'
  obtain ⟨q1, q2, q3⟩ := hq s hsm
  unfold argText
  simp only [List.mem_append, not_or]
  refine ⟨⟨⟨⟨⟨by decide, q2⟩, by decide⟩, q1⟩, by decide⟩, ?_⟩
  refine render_newline he hs s.how q3 ?_
  intro f hf
  obtain ⟨fields', hl', k, hk, hk5⟩ := sock_inside _ hrow' s hsm f hf
  rw [hn] at hl
  have : fields' = fields := Option.some.inj (hl'.symm.trans hl)
  subst this
  have hlk := lookup_argv _ e.args f _ hk
  have hlen : e.args.length = 640 := hw.2
  have hev : evalRd e.args (.sock k) = .buf (window e.args (k * argLen) 110) := by
    show makeCBytes e.args (k * argLen) 110 = _
    unfold makeCBytes
    rw [if_pos ⟨by decide, by rw [hlen]; unfold argLen; omega⟩]
    rfl
  refine sock_newline ?_
  unfold bytesOf
  rw [argv_eventOf, hlk, hev]
  intro hf1
  dsimp only at hf1 ⊢
  have hwl : (window e.args (k * argLen) 110).length = 110 := by
    unfold window
    rw [List.length_take, List.length_drop, hlen]; unfold argLen; omega
  have h10 := family_one (by omega) hf1
  refine hb f _ ?_
  rw [← h10, List.take_append_drop, ← hev]
  exact lookup_mem hlk

theorem comm_newline {bs : List Byte} (w : Nat) (h : (10 : Byte) ∉ bs) :
    '\n' ∉ padLeft w (runes bs) (chars bs) := by
  unfold padLeft
  simp only [List.mem_append, List.mem_replicate, not_or]
  exact ⟨fun h => absurd h.2 (by decide), chars_newline h⟩

/-! ### System calls -/

section
open Swoll.Syscalls Swoll.Lemmas.Syscalls

/-- The number table is the beginning of Linux's. -/
theorem linux_map : gSyscallMap =
    (Spec.Linux.syscalls.take 333).map (fun x => ("sys_" ++ x.2, x.1)) := by decide +kernel

theorem linux_names_nodup : (Spec.Linux.syscalls.map (·.2)).Nodup :=
  nodup_of_digest (by decide +kernel)

theorem linux_first : ∀ x ∈ Spec.Linux.syscalls, x.1 < 333 → x ∈ Spec.Linux.syscalls.take 333 := by
  have h : ∀ x ∈ Spec.Linux.syscalls.drop 333, 333 ≤ x.1 := by decide +kernel
  intro x hx hl
  rw [← List.take_append_drop 333 Spec.Linux.syscalls] at hx
  rcases List.mem_append.1 hx with hx | hx
  · exact hx
  · have := h x hx; omega

theorem linux_unprefixed : ∀ x ∈ Spec.Linux.syscalls,
    "sys_".toList.isPrefixOf x.2.toList = false := by decide +kernel

theorem linux_of_map {e : String × Nat} (h : e ∈ gSyscallMap) :
    ∃ x ∈ Spec.Linux.syscalls, x.1 = e.2 ∧ e.1 = "sys_" ++ x.2 := by
  rw [linux_map] at h
  obtain ⟨x, hx, rfl⟩ := List.mem_map.1 h
  exact ⟨x, List.mem_of_mem_take hx, rfl, rfl⟩

theorem idx_spec {i : Nat} {e : String × Nat} (h : gSyscallMap[i]? = some e) : e.2 = i := by
  have : (gSyscallMap.map (·.2))[i]? = some e.2 := by rw [List.getElem?_map, h]; rfl
  rw [nrs_eq_range] at this
  obtain ⟨hlt, hv⟩ := List.getElem?_eq_some_iff.1 this
  rw [List.getElem_range] at hv
  exact hv.symm

theorem class_known {e : String × String × String} {n : Nat} (he : e ∈ gClassMap)
    (hn : (e.2.2, n) ∈ gSyscallMap) : n ∉ unknownCalls := by
  have hd : ∀ i ∈ clsIdx, i ∉ unknownCalls := by decide +kernel
  have h : some e.2.2 ∈ gClassMap.map (fun e => some e.2.2) := List.mem_map.2 ⟨e, he, rfl⟩
  rw [cls_eq_idx] at h
  obtain ⟨i, hi, hx⟩ := List.mem_map.1 h
  obtain ⟨x, hx, hx2⟩ := Option.map_eq_some_iff.1 hx
  have := inj_of_nodup_map names_nodup (List.mem_of_getElem? hx) hn hx2
  have hxi := idx_spec hx
  rw [this] at hxi
  rw [show n = i from hxi]
  exact hd i hi

theorem known_class {x : Nat × String} (hx : x ∈ Spec.Linux.syscalls) (hu : x.1 ∉ unknownCalls) :
    ("sys_" ++ x.2, x.1) ∈ gSyscallMap ∧ ∃ e ∈ gClassMap, e.2.2 = "sys_" ++ x.2 := by
  have hd : ∀ n, n < 333 → n ∉ unknownCalls → n ∈ clsIdx := by decide +kernel
  have hlt : x.1 < 333 := by
    have : ∀ x ∈ Spec.Linux.syscalls, x.1 ∉ unknownCalls → x.1 < 333 := by decide +kernel
    exact this x hx hu
  have hm : ("sys_" ++ x.2, x.1) ∈ gSyscallMap := by
    rw [linux_map]
    exact List.mem_map_of_mem (f := fun x : Nat × String => ("sys_" ++ x.2, x.1))
      (linux_first x hx hlt)
  refine ⟨hm, ?_⟩
  obtain ⟨i, hi⟩ := List.getElem?_of_mem hm
  have := idx_spec hi
  have hc : some ("sys_" ++ x.2) ∈ clsIdx.map (fun i => gSyscallMap[i]?.map (·.1)) := by
    refine List.mem_map.2 ⟨x.1, hd _ hlt hu, ?_⟩
    rw [show x.1 = i from this, hi]
    rfl
  rw [← cls_eq_idx] at hc
  obtain ⟨e, he, hx⟩ := List.mem_map.1 hc
  exact ⟨e, he, Option.some.inj hx⟩

end

end Swoll.Lemmas.Print
