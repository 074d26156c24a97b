import Verif.Model.JobArgs
import Verif.Model.Controller
/-
The names in the job of a trace, internal/pkg/controller/trace.go:43-80, and what the API server demands of names:
`k8s.io/apimachinery/pkg/util/validation` and the validation of jobs, library code that trace.go:179 meets.

Simplification: of a job only the names that are made of the trace's are checked; the rest is constant, or given to the
container as an argument, which may be any text.
-/
namespace Swoll.Names
open Swoll.JobArgs (Str)

/-- `[a-z0-9]`. (`dns1123LabelFmt`; library, used at trace.go:179.) -/
def lower (c : Char) : Bool := ('a' ≤ c && c ≤ 'z') || ('0' ≤ c && c ≤ '9')

/-- `[A-Za-z0-9]`. (`qnameCharFmt`; library, used at trace.go:179.) -/
def letter (c : Char) : Bool := lower c || ('A' ≤ c && c ≤ 'Z')

/-- `[a-z0-9]([-a-z0-9]*[a-z0-9])?`. (`dns1123LabelFmt`; library, used at trace.go:179.) -/
def part (s : Str) : Bool := s.head?.any lower && s.getLast?.any lower && s.all fun c => lower c || c == '-'

/-- `IsDNS1123Label`: the names of containers. (Library, used at trace.go:179.) -/
def isLabel (s : Str) : Bool := decide (s.length ≤ 63) && part s

/-- `IsDNS1123Subdomain`: the names of most objects. (Library, used at trace.go:179.) -/
def isSubdomain (s : Str) : Bool := decide (s.length ≤ 253) && (JobArgs.split '.' s).all part

/-- `IsValidLabelValue`. (Library, used at trace.go:179.) -/
def isValue (s : Str) : Bool := s.isEmpty ||
  (decide (s.length ≤ 63) && s.head?.any letter && s.getLast?.any letter &&
    s.all fun c => letter c || c == '-' || c == '_' || c == '.')

/-- `maskTrailingDash`. (Library, used at trace.go:179.) -/
def mask (s : Str) : Str := if s.getLast? = some '-' then s.take (s.length - 2) ++ ['a'] else s

/-- The parts of a `Job` that are made of the trace's name. (trace.go:45-80) -/
structure Job where
  generateName : Str
  container : Str
  label : Str
  deriving DecidableEq, Repr

/-- `createJobResource`. (trace.go:47, 58, 79-80) -/
def jobOf (trace : Str) : Job := ⟨"sw-".toList ++ trace ++ ['-'], "sw-".toList ++ trace, trace⟩

/-- `SimpleNameGenerator.GenerateName`, the five random letters being `random`. (Library, used at trace.go:179.) -/
def generate (base random : Str) : Str := base.take 58 ++ random

/-- What the API server makes of the request for a job: its name, or a refusal. The name of the job is also the value of
a label of its pods. (Library, used at trace.go:179.) -/
def create (j : Job) (random : Str) : Option Str :=
  if isSubdomain (mask j.generateName) && isSubdomain (generate j.generateName random) && isLabel j.container && isValue j.label &&
    isValue (generate j.generateName random) then some (generate j.generateName random) else none

end Swoll.Names
