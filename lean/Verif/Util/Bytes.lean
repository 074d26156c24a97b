/-
Byte buffers: little-endian integers, windows and overwrites.  Used by the models of the raw
event (pkg/event/raw.go), of the C readers (pkg/types/c.go) and of the probe's event struct.
-/
namespace Swoll.Bytes

abbrev Byte := UInt8

/-- The `n` low-order bytes of `v`, least significant first. -/
def leBytes : Nat → Nat → List Byte
  | 0, _ => []
  | n + 1, v => UInt8.ofNat (v % 256) :: leBytes n (v / 256)

/-- The number whose little-endian bytes are `bs`. -/
def leVal : List Byte → Nat
  | [] => 0
  | b :: bs => b.toNat + 256 * leVal bs

/-- `n` bytes starting at `off`. -/
def window (bs : List Byte) (off n : Nat) : List Byte := (bs.drop off).take n

/-- Overwrite the bytes starting at `off` with `new`. -/
def overwrite (bs : List Byte) (off : Nat) (new : List Byte) : List Byte :=
  bs.take off ++ new ++ bs.drop (off + new.length)

@[simp] theorem length_leBytes (n v : Nat) : (leBytes n v).length = n := by
  induction n generalizing v with
  | zero => rfl
  | succ n ih => simp [leBytes, ih]

theorem leVal_leBytes (n v : Nat) : leVal (leBytes n v) = v % 256 ^ n := by
  induction n generalizing v with
  | zero => simp [leBytes, leVal, Nat.mod_one]
  | succ n ih =>
    simp only [leBytes, leVal, ih]
    have h1 : (UInt8.ofNat (v % 256)).toNat = v % 256 := by
      simp
    rw [h1, Nat.pow_succ, Nat.mul_comm (256 ^ n) 256, Nat.mod_mul]

theorem leVal_lt (bs : List Byte) : leVal bs < 256 ^ bs.length := by
  induction bs with
  | nil => simp [leVal]
  | cons b bs ih =>
    simp only [leVal, List.length_cons, Nat.pow_succ]
    have := b.toNat_lt
    omega

theorem leBytes_leVal (bs : List Byte) : leBytes bs.length (leVal bs) = bs := by
  induction bs with
  | nil => rfl
  | cons b bs ih =>
    have hb := b.toNat_lt
    have h1 : (b.toNat + 256 * leVal bs) % 256 = b.toNat := by omega
    have h2 : (b.toNat + 256 * leVal bs) / 256 = leVal bs := by omega
    simp only [List.length_cons, leVal, leBytes, h1, h2, ih]
    simp

theorem leBytes_take (n m v : Nat) (h : n ≤ m) : (leBytes m v).take n = leBytes n v := by
  induction n generalizing m v with
  | zero => simp [leBytes]
  | succ n ih =>
    cases m with
    | zero => omega
    | succ m => simp [leBytes, ih m (v / 256) (by omega)]

@[simp] theorem length_overwrite (bs new : List Byte) (off : Nat)
    (h : off + new.length ≤ bs.length) : (overwrite bs off new).length = bs.length := by
  simp only [overwrite, List.length_append, List.length_take, List.length_drop]
  omega

@[simp] theorem length_window (bs : List Byte) (off n : Nat) (h : off + n ≤ bs.length) :
    (window bs off n).length = n := by
  simp only [window, List.length_take, List.length_drop]
  omega

/-- What was written is read back. -/
theorem window_overwrite_same (bs new : List Byte) (off n : Nat)
    (h : off + new.length ≤ bs.length) (hn : n ≤ new.length) :
    window (overwrite bs off new) off n = new.take n := by
  have h1 : (bs.take off).length = off := by simp; omega
  simp only [window, overwrite, List.append_assoc]
  rw [List.drop_append_of_le_length (by omega)]
  rw [List.drop_of_length_le (by omega : (bs.take off).length ≤ off)]
  simp only [List.nil_append]
  rw [List.take_append_of_le_length hn]

/-- Writing elsewhere does not change what is read. -/
theorem window_overwrite_other (bs new : List Byte) (off off' n : Nat)
    (h : off + new.length ≤ bs.length)
    (hd : off' + n ≤ off ∨ off + new.length ≤ off') :
    window (overwrite bs off new) off' n = window bs off' n := by
  apply List.ext_getElem?
  intro i
  simp only [window, overwrite, List.getElem?_take, List.getElem?_drop, List.append_assoc]
  by_cases hi : i < n
  · simp only [hi, if_true]
    have h1 : (bs.take off).length = off := by simp; omega
    rcases hd with hd | hd
    · rw [List.getElem?_append_left (by omega), List.getElem?_take, if_pos (by omega)]
    · rw [List.getElem?_append_right (by omega), h1,
        List.getElem?_append_right (by omega), List.getElem?_drop]
      congr 1
      omega
  · simp [hi]

theorem window_take (bs : List Byte) (off n m : Nat) (h : n ≤ m) :
    (window bs off m).take n = window bs off n := by
  simp only [window, List.take_take]
  congr 1
  omega

/-- Reading field after field from a concatenation. -/
theorem window_append_right (a b : List Byte) (off n : Nat) (h : a.length ≤ off) :
    window (a ++ b) off n = window b (off - a.length) n := by
  simp only [window]
  rw [List.drop_append]
  rw [List.drop_of_length_le h]
  simp

theorem window_append_left (a b : List Byte) (off n : Nat) (h : off + n ≤ a.length) :
    window (a ++ b) off n = window a off n := by
  simp only [window]
  rw [List.drop_append_of_le_length (by omega)]
  rw [List.take_append_of_le_length (by simp; omega)]

theorem window_all (a : List Byte) : window a 0 a.length = a := by
  simp [window]

end Swoll.Bytes
