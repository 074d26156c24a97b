import Verif.Model.Client
/-
What a URL is (RFC 3986), and plain names.
-/
namespace Swoll.Spec.Client
open Swoll.Client

def letterOrDigit (c : Byte) : Bool :=
  (97 ≤ c.val && c.val ≤ 122) || (65 ≤ c.val && c.val ≤ 90) || (48 ≤ c.val && c.val ≤ 57)

/-- unreserved of RFC 3986: letters, digits and `- . _ ~`. -/
def unreserved (c : Byte) : Bool := letterOrDigit c || ([45, 46, 95, 126] : Str).contains c
/-- sub-delims of RFC 3986: `! $ & ' ( ) * + , ; =`. -/
def subDelim (c : Byte) : Bool := ([33, 36, 38, 39, 40, 41, 42, 43, 44, 59, 61] : Str).contains c

/-- A host name or IPv4 address; no colons, no percent signs. -/
def HostName (h : Str) : Prop := h ≠ [] ∧ ∀ c ∈ h, unreserved c = true ∨ subDelim c = true

/-- The value of a string of decimal digits. -/
def value : Str → Nat := List.foldl (fun n c => n * 10 + (c.val - 48)) 0

def Digits (s : Str) : Prop := s ≠ [] ∧ ∀ c ∈ s, 48 ≤ c.val ∧ c.val ≤ 57

/-- The value of a hexadecimal digit. -/
def hexValue (c : Byte) : Option Nat :=
  if 48 ≤ c.val ∧ c.val ≤ 57 then some (c.val - 48)
  else if 65 ≤ c.val ∧ c.val ≤ 70 then some (c.val - 55)
  else if 97 ≤ c.val ∧ c.val ≤ 102 then some (c.val - 87)
  else none

/-- `Writes e s`: the path `e` of a URL, of the characters allowed in one and percent signs with two
hexadecimal digits, stands for the bytes `s`. -/
inductive Writes : Str → Str → Prop where
  | nil : Writes [] []
  | char (c : Byte) (e s : Str) :
      (unreserved c = true ∨ subDelim c = true ∨ c = 58 ∨ c = 64 ∨ c = 47) → Writes e s → Writes (c :: e) (c :: s)
  | percent (a b c : Byte) (x y : Nat) (e s : Str) :
      hexValue a = some x → hexValue b = some y → c.val = 16 * x + y → Writes e s →
      Writes (37 :: a :: b :: e) (c :: s)

/-- The scheme to use. -/
def schemeFor (tls wsock : Bool) : Str :=
  match tls, wsock with
  | false, false => ascii "http"
  | true, false => ascii "https"
  | false, true => ascii "ws"
  | true, true => ascii "wss"

/-- A host within a URL: a name, or an address in brackets. -/
def HostPart (h : Str) : Prop :=
  (∀ c ∈ h, unreserved c = true ∨ subDelim c = true) ∨
  ∃ a, h = 91 :: (a ++ [93]) ∧ ∀ c ∈ a, c ∈ ascii "0123456789abcdefABCDEF:."

/-- A well formed URL with this scheme: scheme://host:port/path. -/
def WellFormed (scheme url : Str) : Prop :=
  ∃ host port e s, url = scheme ++ ascii "://" ++ host ++ [58] ++ port ++ e ∧ HostPart host ∧
    (∀ c ∈ port, 48 ≤ c.val ∧ c.val ≤ 57) ∧ (e = [] ∨ e.head? = some 47) ∧ Writes e s

/-- A name that can be one part of a path: not empty, without slashes, not a dot or two. -/
def PlainName (n : Str) : Prop := n ≠ [] ∧ 47 ∉ n ∧ n ≠ ascii "." ∧ n ≠ ascii ".."

end Swoll.Spec.Client
