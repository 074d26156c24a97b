/-
Texts for durations, such as `1h30m`, `2.5s` and `-300ms`.
-/
namespace Swoll.Spec.Duration

/-- The units and their lengths in nanoseconds. -/
def unitLength : List (String × Nat) :=
  [("ns", 1), ("us", 10 ^ 3), ("µs", 10 ^ 3), ("μs", 10 ^ 3), ("ms", 10 ^ 6), ("s", 10 ^ 9), ("m", 60 * 10 ^ 9),
   ("h", 3600 * 10 ^ 9)]

/-- Decimal digits, maybe none. -/
def Digits (s : List Char) : Prop := ∀ c ∈ s, '0' ≤ c ∧ c ≤ '9'

/-- The number the digits stand for. -/
def number (s : List Char) : Nat := s.foldl (fun n c => 10 * n + (c.toNat - '0'.toNat)) 0

/-- A number, maybe with a fraction, and its unit: this many nanoseconds, rounded down. -/
def Part (p : List Char) (x : Nat) : Prop :=
  ∃ whole frac dot unit k, p = whole ++ dot ++ frac ++ unit.toList ∧ Digits whole ∧ Digits frac ∧
    (dot = [] ∧ frac = [] ∨ dot = ['.']) ∧ (whole ≠ [] ∨ frac ≠ []) ∧ (unit, k) ∈ unitLength ∧
    x = number whole * k + number frac * k / 10 ^ frac.length

/-- Parts, one after the other, and their sum. -/
inductive Parts : List Char → Nat → Prop where
  | one {p x} : Part p x → Parts p x
  | more {p x t y} : Part p x → Parts t y → Parts (p ++ t) (x + y)

/-- The text is this duration. -/
def Means (s : List Char) (d : Int) : Prop :=
  ∃ sign body n, s = sign ++ body ∧ (body = ['0'] ∧ n = 0 ∨ Parts body n) ∧ n < 2 ^ 63 ∧
    ((sign = [] ∨ sign = ['+']) ∧ d = n ∨ sign = ['-'] ∧ d = -(n : Int))

end Swoll.Spec.Duration
