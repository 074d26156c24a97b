import Verif.Model.Wire
/-
How the API server stores a Trace resource and how the controller is told of it: the resource definitions
config/crd/bases/tools.swoll.criticalstack.com_traces.yaml and chart/crds/crds.yaml, what the API server does with them
(`apiextensions.k8s.io/v1`: fields that are not in the schema are removed, what is left has to be of the schema's types),
and the list the controller's cache is filled from (internal/pkg/controller/trace.go:226-236).

Simplifications: `metadata` is checked by the API server itself and kept as it is; the format of the two times of the
status is not checked; a number is an integer if it is written without a fraction and without an exponent.
-/
namespace Swoll.Admit
open Swoll.Json (Str Json)
open Swoll.Wire (Spec struct specMember)

/-- `openAPIV3Schema`, as far as it is used. (crds.yaml:30-166) -/
inductive Schema where
  | text
  | integer
  | whatever
  | array (elem : Schema)
  | map (elem : Schema)
  | object (required : List Str) (props : List (Str × Schema))

mutual
/-- What is left of a value: fields that are not named by the schema are removed. (Pruning; API server, crds.yaml:29.) -/
def prune : Schema → Json → Json
  | .array s, .arr l => .arr (l.map (prune s))
  | .map s, .obj l => .obj (l.map fun e => (e.1, prune s e.2))
  | .object _ ps, .obj l => .obj (l.filterMap fun e => (pruneProp ps e.1 e.2).map (e.1, ·))
  | _, v => v
/-- A field. (As above.) -/
def pruneProp : List (Str × Schema) → Str → Json → Option Json
  | [], _, _ => none
  | (n, s) :: ps, k, v => if n = k then some (prune s v) else pruneProp ps k v
end

/-- An integer. (Validation; API server, used by `type: integer`, ..._traces.yaml:115.) -/
def whole (s : Str) : Bool := !s.any fun c => c == '.' || c == 'e' || c == 'E'

mutual
/-- Is the value of the schema's types, with what is required? (Validation; API server, crds.yaml:29.) -/
def valid : Schema → Json → Bool
  | .text, .str _ => true
  | .integer, .num s => whole s
  | .whatever, .obj _ => true
  | .array s, .arr l => l.all (valid s)
  | .map s, .obj l => l.all fun e => valid s e.2
  | .object req ps, .obj l => req.all (fun k => l.any fun e => e.1 == k) && l.all fun e => validProp ps e.1 e.2
  | _, _ => false
/-- A field. (As above.) -/
def validProp : List (Str × Schema) → Str → Json → Bool
  | [], _, _ => true
  | (n, s) :: ps, k, v => if n = k then valid s v else validProp ps k v
end

/-- What the API server stores; `none` is a refusal. (Pruning goes before validation.) (crds.yaml:29) -/
def submit (s : Schema) (v : Json) : Option Json := if valid s (prune s v) then some (prune s v) else none

/-! ### The resource definitions -/

/-- A condition of a selector. (crds.yaml:59-87) -/
def expr : Schema := .object ["key".toList, "operator".toList]
  [("key".toList, .text), ("operator".toList, .text), ("values".toList, .array .text)]

/-- A selector. (crds.yaml:49-97, 102-150) -/
def selector : Schema := .object []
  [("matchExpressions".toList, .array expr), ("matchLabels".toList, .map .text)]

/-- The request, with or without a sample rate. (crds.yaml:44-155; ..._traces.yaml:44-121) -/
def spec (rate : Bool) : Schema := .object [] ([("duration".toList, .text), ("fieldSelector".toList, selector),
  ("hostSelector".toList, .array .text), ("labelSelector".toList, selector)] ++
  (if rate then [("sampleRate".toList, .integer)] else []) ++ [("syscalls".toList, .array .text)])

/-- The status. (crds.yaml:156-169) -/
def status : Schema := .object [] [("completionTime".toList, .text), ("job".toList, .text), ("startTime".toList, .text),
  ("state".toList, .text)]

/-- A trace. (crds.yaml:30-170) -/
def trace (spec : Schema) : Schema := .object [] [("apiVersion".toList, .text), ("kind".toList, .text),
  ("metadata".toList, .whatever), ("spec".toList, spec), ("status".toList, status)]

/-- The definition of the repository's manifests. (config/crd/bases/tools.swoll.criticalstack.com_traces.yaml) -/
def manifests : Schema := trace (spec true)

/-- The definition of the Helm chart. (chart/crds/crds.yaml) -/
def chart : Schema := trace (spec false)

/-! ### The controller's cache -/

/-- A field of a trace. (api/v1alpha1/trace_types.go:62-69) -/
def readMember (s : Spec) (e : Str × Json) : Option Spec := if e.1 = "spec".toList then struct specMember s e.2 else some s

/-- The request of a stored trace, as it is decoded. (trace_types.go:62-69) -/
def read : Json → Option Spec
  | .obj l => l.foldlM readMember .zero
  | _ => none

/-- The list the cache is filled from is decoded as a whole: if a trace cannot be decoded, there is no list, and the
controller is told of nothing. (`Reflector.ListAndWatch`; library, used at trace.go:227.) -/
def view (stored : List Json) : Option (List Spec) := stored.mapM read

end Swoll.Admit
