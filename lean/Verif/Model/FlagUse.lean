import Verif.Model.Argv
/-
What the commands of cmd/ take from their command line. Other than through `reads` and `words` no command looks at its flags.

Simplifications: a flag that is read only on some paths of a command counts as read; what is made of the values is in
Model/Startup, Model/ClientCmd and others. That `--help` prints a text instead is a reading of the flag `help`.
-/
namespace Swoll.FlagUse
open Swoll Swoll.Argv
open Swoll.JobArgs (Str)

/-- What is read before every command, by the root and by cobra. (root.go:31, 45; `execute`, library, of root.go:81) -/
def common : List (Str × Kind) := [("help".toList, .bool), ("log-callers".toList, .bool), ("log".toList, .text)]

/-- `loadBPFargs` and `SetOffsetsFromArgs`. (loader.go:21; offsetter.go:13, 23, 47) -/
def loading : List (Str × Kind) :=
  [("bpf".toList, .text), ("no-detect-offsets".toList, .bool), ("nsproxy-offset".toList, .text), ("pidns-offset".toList, .text)]

/-- `parseStaticEndpointsArg`. (client.go:383, 388) -/
def endpoints : List (Str × Kind) := [("endpoints".toList, .slice), ("use-tls".toList, .bool)]

/-- The flags a command asks for, by name and type. (client.go:35-350; controller.go:39-75; root.go:67; selftest.go:149;
server.go:733-765, 777, 801, 889-891; top.go:384-418; trace.go:35-68, 100, 183, 218. cobra's `help` has a `PersistentPreRun`
of its own, and `client` and `query` print a text.) -/
def reads : Cmd → List (Str × Kind)
  | .root => ("version".toList, .bool) :: common
  | .help | .client | .query => [("help".toList, .bool)]
  | .completed | .running | .delete | .watch => endpoints ++ common
  | .create => endpoints ++ [("file".toList, .text), ("namespace".toList, .text), ("syscalls".toList, .slice),
      ("label-selector".toList, .text), ("field-selector".toList, .text), ("oneshot".toList, .bool), ("jobid".toList, .text),
      ("match-hosts".toList, .slice), ("output".toList, .text)] ++ common
  | .controller => [("kubeconfig".toList, .text), ("enable-leader-election".toList, .bool), ("metrics-addr".toList, .text),
      ("image".toList, .text), ("endpoints".toList, .slice)] ++ common
  | .selftest => ("fix".toList, .bool) :: common
  | .server => [("no-metrics".toList, .bool), ("cri".toList, .text), ("kubeconfig".toList, .text), ("altroot".toList, .text),
      ("listen-addr".toList, .text)] ++ loading ++ [("use-tls".toList, .bool), ("key".toList, .text), ("cert".toList, .text)] ++ common
  | .top => [("cri".toList, .text), ("altroot".toList, .text), ("kubeconfig".toList, .text), ("label-selector".toList, .text),
      ("namespace".toList, .text), ("no-ui".toList, .bool), ("aggregate-hosts".toList, .bool)] ++ common
  | .trace => [("namespace".toList, .text), ("cri".toList, .text), ("kubeconfig".toList, .text), ("altroot".toList, .text),
      ("output".toList, .text), ("syscalls".toList, .slice), ("no-containers".toList, .bool), ("field-selector".toList, .text)] ++
      loading ++ common

/-- Does a command look at its other words? (trace.go:58; client.go:60, 85; `Find`, library, for `help`) -/
def wordy : Cmd → Bool
  | .trace | .delete | .watch | .help => true
  | _ => false

/-- What a getter gives. (client.go:150-194) -/
inductive Got where
  | text (v : Str)
  | bool (b : Bool)
  | slice (l : List Str)
  deriving DecidableEq, Repr

/-- `GetString`, `GetBool`, `GetStringSlice`: an error, `none`, if there is no flag of that name and type. (`getFlagType`,
library, of client.go:150-194; a missing `log` is a crash, root.go:45) -/
def get (c : Cmd) (r : Found) (n : Str) (k : Kind) : Option Got :=
  match byName (flags c) n with
  | none => none
  | some f =>
    if f.kind ≠ k then none
    else match k with
      | .text => (getString c r n).map .text
      | .bool => (getBool c r n).map .bool
      | .slice => (getStringSlice r n).map .slice

/-- All that a command learns from its command line. (root.go:31-81) -/
structure Seen where
  /-- what each getter gave, by the name of the flag -/
  values : List (Str × Option Got)
  words : List Str
  deriving DecidableEq, Repr

/-- What the command learns of what was found. (root.go:31-81) -/
def seen (c : Cmd) (r : Found) : Seen :=
  ⟨(reads c).map (fun p => (p.1, get c r p.1 p.2)), if wordy c then r.words else []⟩

/-- What the program does depends on the command and what it learns. (root.go:81) -/
def learns (args : List Str) : Option (Cmd × Seen) := (execute args).map (fun p => (p.1, seen p.1 p.2))

end Swoll.FlagUse
