import Verif.Model.Json
/-
JSON: which texts say what (RFC 8259).
-/
namespace Swoll.Spec.Json
open Swoll.Json (Str Json)

/-- White space. -/
def Space (w : Str) : Prop := ∀ c ∈ w, c = ' ' ∨ c = '\t' ∨ c = '\r' ∨ c = '\n'

/-- A decimal digit. -/
def Digit (c : Char) : Prop := '0' ≤ c ∧ c ≤ '9'

/-- One or more of them. -/
def Digits (s : Str) : Prop := s ≠ [] ∧ ∀ c ∈ s, Digit c

/-- A number: a sign, digits without leading zeros, a fraction and an exponent, most of which may be missing. -/
def Number (s : Str) : Prop :=
  ∃ sign int frac exp : Str, s = sign ++ int ++ frac ++ exp ∧ (sign = [] ∨ sign = ['-']) ∧
    Digits int ∧ (int.head? = some '0' → int = ['0']) ∧
    (frac = [] ∨ ∃ ds, frac = '.' :: ds ∧ Digits ds) ∧
    (exp = [] ∨ ∃ e g ds, exp = e :: g ++ ds ∧ (e = 'e' ∨ e = 'E') ∧ (g = [] ∨ g = ['+'] ∨ g = ['-']) ∧ Digits ds)

/-- A hexadecimal digit and its value. -/
inductive Hex : Char → Nat → Prop where
  | dec (i : Nat) : i < 10 → Hex (Char.ofNat ('0'.toNat + i)) i
  | low (i : Nat) : i < 6 → Hex (Char.ofNat ('a'.toNat + i)) (10 + i)
  | up (i : Nat) : i < 6 → Hex (Char.ofNat ('A'.toNat + i)) (10 + i)

/-- Four hexadecimal digits and their value. -/
def Hex4 (s : Str) (n : Nat) : Prop :=
  ∃ a b c d w x y z, s = [a, b, c, d] ∧ Hex a w ∧ Hex b x ∧ Hex c y ∧ Hex d z ∧ n = w * 4096 + x * 256 + y * 16 + z

/-- The characters that have an escape sequence of two characters, and its second one. -/
def twoChar : List (Char × Char) :=
  [('"', '"'), ('\\', '\\'), ('/', '/'), ('b', '\x08'), ('f', '\x0c'), ('n', '\n'), ('r', '\r'), ('t', '\t')]

/-- What is between the quotes of a string, for the string. RFC 8259 leaves open what a half of a surrogate pair is; here
it is U+FFFD. -/
inductive Body : Str → Str → Prop where
  | nil : Body [] []
  | plain {c : Char} {s t : Str} : 0x20 ≤ c.toNat → c ≠ '"' → c ≠ '\\' → Body s t → Body (c :: s) (c :: t)
  | two {e c : Char} {s t : Str} : (e, c) ∈ twoChar → Body s t → Body (c :: s) ('\\' :: e :: t)
  | unicode {c : Char} {h s t : Str} : Hex4 h c.toNat → Body s t → Body (c :: s) ('\\' :: 'u' :: h ++ t)
  | pair {c : Char} {hi lo : Nat} {h l s t : Str} : Hex4 h hi → Hex4 l lo → 0xd800 ≤ hi → hi < 0xdc00 → 0xdc00 ≤ lo →
      lo < 0xe000 → c.toNat = 0x10000 + (hi - 0xd800) * 0x400 + (lo - 0xdc00) → Body s t →
      Body (c :: s) ('\\' :: 'u' :: h ++ ('\\' :: 'u' :: l ++ t))
  | half {n : Nat} {h s t : Str} : Hex4 h n → 0xd800 ≤ n → n < 0xe000 →
      (∀ l lo r, t = '\\' :: 'u' :: l ++ r → Hex4 l lo → ¬ (n < 0xdc00 ∧ 0xdc00 ≤ lo ∧ lo < 0xe000)) → Body s t →
      Body ('\ufffd' :: s) ('\\' :: 'u' :: h ++ t)

/-- A string in quotes. -/
def Quoted (s t : Str) : Prop := ∃ b, Body s b ∧ t = '"' :: b ++ ['"']

mutual
/-- The text says this, without white space around it. -/
inductive Says : Str → Json → Prop where
  | null : Says "null".toList .null
  | yes : Says "true".toList (.bool true)
  | no : Says "false".toList (.bool false)
  | num {l : Str} : Number l → Says l (.num l)
  | str {t s : Str} : Quoted s t → Says t (.str s)
  | empty {w : Str} : Space w → Says ('[' :: w ++ [']']) (.arr [])
  | arr {t : Str} {l : List Json} : Lists t l → Says ('[' :: t ++ [']']) (.arr l)
  | none {w : Str} : Space w → Says ('{' :: w ++ ['}']) (.obj [])
  | obj {t : Str} {l : List (Str × Json)} : Maps t l → Says ('{' :: t ++ ['}']) (.obj l)
/-- Elements, separated by commas. -/
inductive Lists : Str → List Json → Prop where
  | last {w t w' : Str} {v : Json} : Space w → Says t v → Space w' → Lists (w ++ t ++ w') [v]
  | more {w t w' u : Str} {v : Json} {l : List Json} : Space w → Says t v → Space w' → Lists u l →
      Lists (w ++ t ++ w' ++ ',' :: u) (v :: l)
/-- Names and values, separated by commas. -/
inductive Maps : Str → List (Str × Json) → Prop where
  | last {w q w1 w2 t w' k : Str} {v : Json} : Space w → Quoted k q → Space w1 → Space w2 → Says t v → Space w' →
      Maps (w ++ q ++ w1 ++ ':' :: w2 ++ t ++ w') [(k, v)]
  | more {w q w1 w2 t w' u k : Str} {v : Json} {l : List (Str × Json)} : Space w → Quoted k q → Space w1 → Space w2 →
      Says t v → Space w' → Maps u l → Maps (w ++ q ++ w1 ++ ':' :: w2 ++ t ++ w' ++ ',' :: u) ((k, v) :: l)
end

end Swoll.Spec.Json
