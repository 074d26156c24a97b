import Verif.Model.Hash
/- Helper lemmas: the checksum tells apart strings of one length that differ within eight bytes. -/
namespace Swoll.Lemmas.Crc
open Swoll.Hash

/-- The polynomial. -/
abbrev P : BitVec 64 := 0xC96C5795D7870F42#64

theorem crcBit_xor (a b : BitVec 64) : crcBit (a ^^^ b) = crcBit a ^^^ crcBit b := by
  unfold crcBit
  rw [BitVec.getLsbD_xor]
  cases ha : a.getLsbD 0 <;> cases hb : b.getLsbD 0 <;> simp only [Bool.xor_self, Bool.xor_false,
    Bool.xor_true, Bool.not_false, Bool.false_eq_true, if_false, if_true, BitVec.ushiftRight_xor_distrib]
  · ac_rfl
  · ac_rfl
  · rw [show a >>> 1 ^^^ P ^^^ (b >>> 1 ^^^ P) = a >>> 1 ^^^ b >>> 1 ^^^ (P ^^^ P) by ac_rfl]
    simp

theorem crcBit_top (c : BitVec 64) : (crcBit c).getLsbD 63 = c.getLsbD 0 := by
  unfold crcBit
  cases h : c.getLsbD 0
  · simp only [Bool.false_eq_true, if_false, BitVec.getLsbD_ushiftRight]
    exact BitVec.getLsbD_of_ge _ _ (by decide)
  · simp only [if_true, BitVec.getLsbD_xor, BitVec.getLsbD_ushiftRight]
    rw [BitVec.getLsbD_of_ge c _ (by decide)]
    decide

theorem crcBit_zero {c : BitVec 64} (h : crcBit c = 0) : c = 0 := by
  have ht := crcBit_top c
  rw [h] at ht
  have h0 : c.getLsbD 0 = false := by rw [← ht]; decide
  unfold crcBit at h
  rw [h0] at h
  simp only [Bool.false_eq_true, if_false] at h
  apply BitVec.eq_of_getLsbD_eq
  intro i hi
  cases i with
  | zero => rw [h0]; simp
  | succ i =>
    have := congrArg (fun x => x.getLsbD i) h
    simp only [BitVec.getLsbD_ushiftRight] at this
    rw [show i + 1 = 1 + i by omega, this]
    simp

theorem crcBit_inj {a b : BitVec 64} (h : crcBit a = crcBit b) : a = b := by
  have h0 : crcBit (a ^^^ b) = 0 := by rw [crcBit_xor, h]; simp
  have := crcBit_zero h0
  have e : a ^^^ b ^^^ b = 0#64 ^^^ b := by rw [this]; rfl
  rw [BitVec.xor_assoc, BitVec.xor_self, BitVec.xor_zero, BitVec.zero_xor] at e
  exact e

theorem crcBit_shl {x : BitVec 64} {n : Nat} (h : x.toNat < 2 ^ (63 - n)) (hn : n < 63) :
    crcBit (x <<< (n + 1)) = x <<< n := by
  have h0 : (x <<< (n + 1)).getLsbD 0 = false := by
    rw [BitVec.getLsbD_shiftLeft]; simp
  unfold crcBit
  rw [h0]
  simp only [Bool.false_eq_true, if_false]
  apply BitVec.eq_of_toNat_eq
  have hp : (2 : Nat) ^ 64 = 2 ^ (63 - n) * 2 ^ (n + 1) := by rw [← Nat.pow_add]; congr 1; omega
  have h1 : x.toNat * 2 ^ (n + 1) < 2 ^ 64 := by
    rw [hp]; exact Nat.mul_lt_mul_of_pos_right h (Nat.two_pow_pos _)
  have h2 : x.toNat * 2 ^ n < 2 ^ 64 := by
    refine Nat.lt_of_le_of_lt (Nat.mul_le_mul_left _ ?_) h1
    exact Nat.pow_le_pow_right (by decide) (by omega)
  rw [BitVec.toNat_ushiftRight, BitVec.toNat_shiftLeft, BitVec.toNat_shiftLeft, Nat.shiftLeft_eq,
    Nat.shiftLeft_eq, Nat.shiftRight_eq_div_pow, Nat.mod_eq_of_lt h1, Nat.mod_eq_of_lt h2, Nat.pow_succ,
    ← Nat.mul_assoc]
  simp

/-- Eight bits. -/
def eight (c : BitVec 64) : BitVec 64 := crcBit (crcBit (crcBit (crcBit (crcBit (crcBit (crcBit (crcBit c)))))))

theorem crcByte_eq (c : BitVec 64) (b : BitVec 8) : crcByte c b = eight (c ^^^ b.setWidth 64) := rfl

theorem eight_xor (a b : BitVec 64) : eight (a ^^^ b) = eight a ^^^ eight b := by
  unfold eight; simp only [crcBit_xor]

theorem eight_inj {a b : BitVec 64} (h : eight a = eight b) : a = b := by
  unfold eight at h
  exact crcBit_inj (crcBit_inj (crcBit_inj (crcBit_inj (crcBit_inj (crcBit_inj (crcBit_inj (crcBit_inj h)))))))

theorem eight_zero : eight 0 = 0 := by decide

theorem eight_shl {x : BitVec 64} (h : x.toNat < 2 ^ 56) : eight (x <<< 8) = x := by
  have lt : ∀ n, n < 8 → x.toNat < 2 ^ (63 - n) := fun n hn =>
    Nat.lt_of_lt_of_le h (Nat.pow_le_pow_right (by decide) (by omega))
  unfold eight
  rw [crcBit_shl (n := 7) (lt 7 (by omega)) (by omega), crcBit_shl (n := 6) (lt 6 (by omega)) (by omega),
    crcBit_shl (n := 5) (lt 5 (by omega)) (by omega), crcBit_shl (n := 4) (lt 4 (by omega)) (by omega),
    crcBit_shl (n := 3) (lt 3 (by omega)) (by omega), crcBit_shl (n := 2) (lt 2 (by omega)) (by omega),
    crcBit_shl (n := 1) (lt 1 (by omega)) (by omega), crcBit_shl (n := 0) (lt 0 (by omega)) (by omega)]
  simp

/-- The bytes as one number, the first at the bottom. -/
def pack : List (BitVec 8) → BitVec 64
  | [] => 0
  | b :: bs => b.setWidth 64 ^^^ (pack bs <<< 8)

theorem pack_lt : ∀ bs : List (BitVec 8), bs.length ≤ 8 → (pack bs).toNat < 2 ^ (8 * bs.length)
  | [], _ => by simp [pack]
  | b :: bs, h => by
    have ih := pack_lt bs (by simp at h; omega)
    have hl : 8 * (b :: bs).length = 8 * bs.length + 8 := by simp; omega
    rw [hl]
    simp only [pack, BitVec.toNat_xor]
    apply Nat.xor_lt_two_pow
    · rw [BitVec.toNat_setWidth]
      refine Nat.lt_of_le_of_lt (Nat.mod_le _ _) (Nat.lt_of_lt_of_le b.isLt ?_)
      exact Nat.pow_le_pow_right (by decide) (by omega)
    · rw [BitVec.toNat_shiftLeft, Nat.shiftLeft_eq]
      refine Nat.lt_of_le_of_lt (Nat.mod_le _ _) ?_
      rw [Nat.pow_add]
      exact Nat.mul_lt_mul_of_pos_right ih (by decide)

/-- Only one state leads to nothing over at most eight bytes. -/
theorem pack_of_zero : ∀ (bs : List (BitVec 8)) (s : BitVec 64), bs.length ≤ 8 → bs.foldl crcByte s = 0 →
    s = pack bs
  | [], s, _, h => h
  | b :: bs, s, hl, h => by
    have hl' : bs.length ≤ 7 := by simp at hl; omega
    have ih := pack_of_zero bs (crcByte s b) (by omega) h
    have hp : (pack bs).toNat < 2 ^ 56 := Nat.lt_of_lt_of_le (pack_lt bs (by omega))
      (Nat.pow_le_pow_right (by decide) (by omega))
    rw [crcByte_eq, ← eight_shl hp] at ih
    have e := eight_inj ih
    have := congrArg (fun x => x ^^^ b.setWidth 64) e
    simp only [BitVec.xor_assoc, BitVec.xor_self, BitVec.xor_zero] at this
    rw [this, pack, BitVec.xor_comm]

theorem pack_zero : ∀ bs : List (BitVec 8), bs.length ≤ 8 → pack bs = 0 → ∀ b ∈ bs, b = 0
  | [], _, _ => by simp
  | b :: bs, hl, h => by
    have hl' : bs.length ≤ 7 := by simp at hl; omega
    have hp : (pack bs).toNat < 2 ^ 56 := Nat.lt_of_lt_of_le (pack_lt bs (by omega))
      (Nat.pow_le_pow_right (by decide) (by omega))
    simp only [pack] at h
    have e : b.setWidth 64 = pack bs <<< 8 := by
      have := congrArg (fun x => x ^^^ (pack bs <<< 8)) h
      simpa [BitVec.xor_assoc] using this
    have e' := congrArg BitVec.toNat e
    rw [BitVec.toNat_setWidth, BitVec.toNat_shiftLeft, Nat.shiftLeft_eq] at e'
    have hb := b.isLt
    rw [Nat.mod_eq_of_lt (by omega), Nat.mod_eq_of_lt (by omega)] at e'
    have hb0 : b = 0 := BitVec.eq_of_toNat_eq (by simp; omega)
    have hp0 : pack bs = 0 := BitVec.eq_of_toNat_eq (by simp; omega)
    intro x hx
    rcases List.mem_cons.1 hx with rfl | hx
    · exact hb0
    · exact pack_zero bs (by omega) hp0 x hx

theorem fold_xor : ∀ (xs ys : List (BitVec 8)), xs.length = ys.length → ∀ a b : BitVec 64,
    xs.foldl crcByte a ^^^ ys.foldl crcByte b = (List.zipWith (· ^^^ ·) xs ys).foldl crcByte (a ^^^ b)
  | [], [], _, _, _ => rfl
  | x :: xs, y :: ys, h, a, b => by
    simp only [List.foldl_cons, List.zipWith_cons_cons]
    rw [fold_xor xs ys (by simpa using h)]
    congr 1
    simp only [crcByte_eq, ← eight_xor]
    congr 1
    rw [BitVec.setWidth_xor]
    ac_rfl

theorem fold_inj (xs : List (BitVec 8)) : ∀ {a b : BitVec 64}, xs.foldl crcByte a = xs.foldl crcByte b → a = b := by
  induction xs with
  | nil => exact fun h => h
  | cons x xs ih =>
    intro a b h
    have e := eight_inj (ih h)
    have := congrArg (fun y => y ^^^ x.setWidth 64) e
    simpa [BitVec.xor_assoc] using this

theorem zip_zero : ∀ (xs ys : List (BitVec 8)), xs.length = ys.length →
    (∀ b ∈ List.zipWith (· ^^^ ·) xs ys, b = 0) → xs = ys
  | [], [], _, _ => rfl
  | x :: xs, y :: ys, h, hz => by
    simp only [List.zipWith_cons_cons, List.mem_cons] at hz
    have h0 := hz _ (.inl rfl)
    have e : x = y := by
      have := congrArg (fun z => z ^^^ y) h0
      simpa [BitVec.xor_assoc] using this
    rw [e, zip_zero xs ys (by simpa using h) fun b hb => hz b (.inr hb)]

/-- Two strings of bytes that differ in at most eight neighbouring places only have different checksums. -/
theorem crc64_burst {pre xs ys post : List (BitVec 8)} (hl : xs.length = ys.length) (h8 : xs.length ≤ 8)
    (h : crc64 (pre ++ xs ++ post) = crc64 (pre ++ ys ++ post)) : xs = ys := by
  unfold crc64 at h
  have h := BitVec.not_inj.1 h
  simp only [List.foldl_append] at h
  have h := fold_inj post h
  have hz : (List.zipWith (· ^^^ ·) xs ys).foldl crcByte 0 = 0 := by
    have := fold_xor xs ys hl (pre.foldl crcByte (~~~ 0#64)) (pre.foldl crcByte (~~~ 0#64))
    rw [h, BitVec.xor_self, BitVec.xor_self] at this
    exact this.symm
  have hlen : (List.zipWith (· ^^^ ·) xs ys).length ≤ 8 := by simp; omega
  exact zip_zero xs ys hl (pack_zero _ hlen (pack_of_zero _ _ hlen hz).symm)

end Swoll.Lemmas.Crc
