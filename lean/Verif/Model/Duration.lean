import Verif.Model.Json
import Verif.Model.Flags
/-
How durations are written and read: `metav1.Duration` writes `time.Duration.String` and reads `time.ParseDuration`
(Go 1.14), for the duration of a trace, api/v1alpha1/trace_types.go:42.

Simplification: a fraction of a unit is computed exactly; Go uses floating point, which is exact where the unit is a
multiple of the last digit's place, and stops reading digits of a fraction that do not fit 63 bits.
-/
namespace Swoll.Duration
open Swoll.Json (Str isDigit)
open Swoll.Flags (digit digits digitsVal)

/-- `fmtFrac`: the fraction `v / 10^prec` without its trailing zeros in front of `acc`, and the whole part. `print`
says whether a digit was written. (Library, used for trace_types.go:42.) -/
def fmtFrac : Nat → Nat → Bool → Str → Str × Nat
  | 0, v, print, acc => (if print then '.' :: acc else acc, v)
  | prec + 1, v, print, acc =>
    let p := print || v % 10 != 0
    fmtFrac prec (v / 10) p (if p then digit (v % 10) :: acc else acc)

/-- `Duration.String` of a duration that is not negative. (Library, used for trace_types.go:42.) -/
def unsigned (u : Nat) : Str :=
  if u < 1000000000 then
    if u = 0 then ['0', 's']
    else if u < 1000 then digits u ++ ['n', 's']
    else if u < 1000000 then digits (fmtFrac 3 u false ['µ', 's']).2 ++ (fmtFrac 3 u false ['µ', 's']).1
    else digits (fmtFrac 6 u false ['m', 's']).2 ++ (fmtFrac 6 u false ['m', 's']).1
  else
    let f := fmtFrac 9 u false ['s']
    let s := digits (f.2 % 60) ++ f.1
    if f.2 / 60 = 0 then s
    else
      let s := digits (f.2 / 60 % 60) ++ 'm' :: s
      if f.2 / 60 / 60 = 0 then s else digits (f.2 / 60 / 60) ++ 'h' :: s

/-- `Duration.String`, in nanoseconds. (Library, used for trace_types.go:42.) -/
def text (d : Int) : Str := if d < 0 then '-' :: unsigned d.natAbs else unsigned d.natAbs

/-- `unitMap`. (Library, used for trace_types.go:42.) -/
def units : List (Str × Nat) :=
  [(['n', 's'], 1), (['u', 's'], 1000), (['µ', 's'], 1000), (['μ', 's'], 1000), (['m', 's'], 1000000),
   (['s'], 1000000000), (['m'], 60000000000), (['h'], 3600000000000)]

/-- The value of some digits. (`leadingInt`; library, used for trace_types.go:42.) -/
def val (ds : Str) : Nat := (digitsVal 0 ds).getD 0

/-- Neither a digit nor a dot. (`ParseDuration`; library, used for trace_types.go:42.) -/
def isUnit (c : Char) : Bool := !(c == '.' || isDigit c)

/-- The digits after a dot, if there is one, and what follows. (`leadingFraction`; library, used for
trace_types.go:42.) -/
def after : Str → Str × Str
  | '.' :: s => (s.takeWhile isDigit, s.dropWhile isDigit)
  | s => ([], s)

/-- One number with its unit, in nanoseconds, and what follows. (`ParseDuration`; library, used for
trace_types.go:42.) -/
def part (s : Str) : Option (Nat × Str) :=
  let ds := s.takeWhile isDigit
  let fs := (after (s.dropWhile isDigit)).1
  let s2 := (after (s.dropWhile isDigit)).2
  if val ds ≥ 2 ^ 63 then none
  else if ds = [] ∧ fs = [] then none
  else match units.lookup (s2.takeWhile isUnit) with
    | none => none
    | some unit =>
      if val ds > (2 ^ 63 - 1) / unit then none
      else
        let x := val ds * unit + val fs * unit / 10 ^ fs.length
        if x ≥ 2 ^ 63 then none else some (x, s2.dropWhile isUnit)

/-- The loop of `ParseDuration`; `fuel` is at least the length of the text. (Library, used for trace_types.go:42.) -/
def loop : Nat → Nat → Str → Option Nat
  | _, d, [] => some d
  | 0, _, _ :: _ => none
  | n + 1, d, c :: s =>
    match part (c :: s) with
    | none => none
    | some (x, s) => if d + x ≥ 2 ^ 63 then none else loop n (d + x) s

/-- The text after the sign. (`ParseDuration`; library, used for trace_types.go:42.) -/
def parseUnsigned (s : Str) : Option Nat :=
  if s = ['0'] then some 0 else if s = [] then none else loop s.length 0 s

/-- `time.ParseDuration`. (Library, used for trace_types.go:42.) -/
def parse : Str → Option Int
  | '-' :: s => (parseUnsigned s).map (fun d : Nat => -(d : Int))
  | '+' :: s => (parseUnsigned s).map (fun d : Nat => (d : Int))
  | s => (parseUnsigned s).map (fun d : Nat => (d : Int))

end Swoll.Duration
