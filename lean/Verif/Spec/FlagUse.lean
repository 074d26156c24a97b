import Verif.Model.FlagUse
import Verif.Spec.Argv
/-
The flags that a command accepts and takes no notice of.
-/
namespace Swoll.Spec.FlagUse
open Swoll Swoll.Argv
open Swoll.JobArgs (Str)

/-- The flags about the node and its kernel. -/
def nodeFlags : List String := ["cri", "altroot", "bpf", "nsproxy-offset", "pidns-offset", "no-detect-offsets"]

/-- The flags of a command that do nothing. -/
def ignored : Cmd → List String
  | .help => nodeFlags ++ ["kubeconfig", "version", "log", "log-callers"]
  | .completed | .running | .delete | .watch => nodeFlags ++ ["kubeconfig", "version", "output", "namespace"]
  | .create => nodeFlags ++ ["kubeconfig", "version"]
  | .controller => nodeFlags ++ ["version"]
  | .selftest => nodeFlags ++ ["kubeconfig", "version"]
  | .server | .trace => ["version"]
  | .top => ["bpf", "nsproxy-offset", "pidns-offset", "no-detect-offsets", "version", "output"]
  | .root | .client | .query => []

/-- The commands to which words that are no flags mean nothing. -/
def wordless : List Cmd := [.completed, .running, .create, .controller, .selftest, .server, .top]

/-- The text a flag stands for if it is not given, by command; nothing for the rest. -/
def presets : Cmd → List (String × String)
  | .trace => [("log", "info"), ("output", "cli")]
  | .top => [("log", "info"), ("output", "cli")]
  | .server => [("log", "info"), ("listen-addr", ":9095")]
  | .controller => [("log", "info"), ("metrics-addr", ":8080"), ("image", "criticalstack/swoll:latest")]
  | .create | .completed | .running | .delete | .watch => [("log", "info"), ("output", "json")]
  | _ => [("log", "info")]

/-- What a flag means when it is not given: nothing is on, no list has anything in it. -/
def unset (c : Cmd) (f : Flag) : FlagUse.Got := match f.kind with
  | .bool => .bool false
  | .slice => .slice []
  | .text => .text (match (presets c).find? (fun p => p.1.toList = f.name) with
      | some p => p.2.toList
      | none => [])

/-- What a flag means when it was given these values, in this order. A flag for a list has all of what they list; a list of
nothing but one empty name is no list. -/
def meant (f : Flag) (vs : List Str) : FlagUse.Got := match f.kind with
  | .text => .text (vs.getLast?.getD f.dflt)
  | .bool => .bool (["1", "t", "T", "true", "TRUE", "True"].map String.toList |>.contains (vs.getLast?.getD f.dflt))
  | .slice => .slice (match (vs.map fun v => (JobArgs.readAsCSV v).getD []).flatten with
      | [[]] => []
      | l => l)

end Swoll.Spec.FlagUse
