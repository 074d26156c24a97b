import Verif.Model.CmdLine
/-
What users write to select pods, and what they mean by it.
-/
namespace Swoll.Spec.CmdLine
open Swoll
open Swoll.JobArgs (Str)
open Swoll.Cluster (Api)

/-- A condition on the labels of a pod. -/
inductive Cond where
  /-- `k=v` -/
  | is (k v : Str)
  /-- `k==v` -/
  | equals (k v : Str)
  /-- `k!=v` -/
  | isnt (k v : Str)
  /-- `k` -/
  | has (k : Str)
  /-- `!k` -/
  | hasnt (k : Str)
  deriving DecidableEq, Repr

/-- It talks to the container runtime, the cluster and the proc file system it was pointed to. -/
def Reaches (o : Topology.Observer) (cri config root : String) : Prop :=
  o.criSocket = cri ∧ o.kubeConfig = config ∧ o.procRoot = root

/-- How it is written. -/
def Cond.text : Cond → Str
  | .is k v => k ++ ['='] ++ v
  | .equals k v => k ++ ['=', '='] ++ v
  | .isnt k v => k ++ ['!', '='] ++ v
  | .has k => k
  | .hasnt k => '!' :: k

/-- When it is met. A pod that has no such label is also not of that value. -/
def Cond.Met (labels : GoMap Str Str) : Cond → Prop
  | .is k v => labels.get k = some v
  | .equals k v => labels.get k = some v
  | .isnt k v => labels.get k ≠ some v
  | .has k => ∃ v, labels.get k = some v
  | .hasnt k => labels.get k = none

/-- A key the API server accepts. -/
def GoodKey (a : Api) (k : Str) : Prop := k ≠ [] ∧ JobArgs.validKey a.rules k = true

/-- A condition of keys and values the API server accepts. -/
def Cond.Good (a : Api) : Cond → Prop
  | .is k v => GoodKey a k ∧ JobArgs.validValue a.rules v = true
  | .equals k v => GoodKey a k ∧ JobArgs.validValue a.rules v = true
  | .isnt k v => GoodKey a k ∧ JobArgs.validValue a.rules v = true
  | .has k => GoodKey a k
  | .hasnt k => GoodKey a k

/-- The text says `k=v`, with white space wherever the writer likes. -/
def Says (s : Str) (e : Str × Str) : Prop :=
  ∃ a b c d : Str, (∀ x ∈ a ++ b ++ c ++ d, JobArgs.isSpace x = true) ∧
    s = a ++ e.1 ++ b ++ ['='] ++ c ++ e.2 ++ d

/-- The texts say these, one each. -/
inductive SayAll : List Str → List (Str × Str) → Prop where
  | nil : SayAll [] []
  | cons {s : Str} {e : Str × Str} {ss : List Str} {es : List (Str × Str)} :
      Says s e → SayAll ss es → SayAll (s :: ss) (e :: es)

/-- The parts, separated by commas. -/
def commas : List Str → Str
  | [] => []
  | [s] => s
  | s :: t :: ss => s ++ [','] ++ commas (t :: ss)

/-- The words of a command line, separated by spaces. -/
def spaced : List Str → Str
  | [] => []
  | [s] => s
  | s :: t :: ss => s ++ [' '] ++ spaced (t :: ss)

end Swoll.Spec.CmdLine
