import Verif.Model.JobArgs
/-
The command line: the commands and flags of cmd/, and how cobra (1.1.1) and pflag (1.0.5) find the command and the values of
its flags in the words of a command line.

Simplifications: of the commands cobra adds, only `help` is kept; a command line with an error in it gives `none`, whatever
the message; that `--help` and `-h` print a text instead of running the command is not modelled.
-/
namespace Swoll.Argv
open Swoll.JobArgs (Str)

/-- The types of flags in cmd/. (`StringP`, `BoolP`, `StringSliceP`: client.go:412-423) -/
inductive Kind where
  | text | bool | slice
  deriving DecidableEq, Repr

/-- A flag: its name, its letter, its type and what it is if it is not given. (root.go:89-98) -/
structure Flag where
  name : Str
  short : Option Char
  kind : Kind
  dflt : Str
  deriving DecidableEq, Repr

/-- The commands. (client.go:25-36, 425-427; controller.go:33; root.go:22; selftest.go:146; server.go:76; top.go:379; trace.go:27) -/
inductive Cmd where
  | root | help | client | query | completed | running | delete | watch | create
  | controller | selftest | server | top | trace
  deriving DecidableEq, Repr

/-- The words for the commands below one. (client.go:425-427; controller.go:128; selftest.go:161; server.go:82; top.go:554;
trace.go:283; `findNext`, library) -/
def next : Cmd → Str → Option Cmd
  | .root, w => [("help".toList, Cmd.help), ("client".toList, .client), ("controller".toList, .controller),
      ("selftest".toList, .selftest), ("server".toList, .server), ("top".toList, .top), ("trace".toList, .trace)].lookup w
  | .client, w => [("watch".toList, Cmd.watch), ("delete".toList, .delete), ("create".toList, .create), ("query".toList, .query)].lookup w
  | .query, w => [("running".toList, Cmd.running), ("completed".toList, .completed)].lookup w
  | _, _ => none

/-- The persistent flags of the root. (root.go:89-98) -/
def rootFlags : List Flag :=
  [⟨"cri".toList, some 'r', .text, []⟩, ⟨"kubeconfig".toList, some 'k', .text, []⟩, ⟨"altroot".toList, some 'A', .text, []⟩,
   ⟨"bpf".toList, some 'b', .text, []⟩, ⟨"version".toList, some 'V', .bool, "false".toList⟩,
   ⟨"nsproxy-offset".toList, none, .text, []⟩, ⟨"pidns-offset".toList, none, .text, []⟩,
   ⟨"no-detect-offsets".toList, none, .bool, "false".toList⟩, ⟨"log".toList, none, .text, "info".toList⟩,
   ⟨"log-callers".toList, none, .bool, "false".toList⟩]

/-- The persistent flags of `client`. (client.go:412-415) -/
def clientFlags : List Flag :=
  [⟨"use-tls".toList, none, .bool, "false".toList⟩, ⟨"endpoints".toList, some 'e', .slice, []⟩,
   ⟨"output".toList, some 'o', .text, "json".toList⟩, ⟨"namespace".toList, some 'n', .text, []⟩]

/-- The flags of one command only. (client.go:417-423; controller.go:130-136, with an empty KUBECONFIG; selftest.go:162;
server.go:84-88; top.go:555-559; trace.go:284-288; the image is controller.go's `defaultImageName`) -/
def ownFlags : Cmd → List Flag
  | .create =>
    [⟨"file".toList, some 'f', .text, []⟩, ⟨"jobid".toList, some 'j', .text, []⟩, ⟨"label-selector".toList, some 'l', .text, []⟩,
     ⟨"field-selector".toList, some 'F', .text, []⟩, ⟨"syscalls".toList, some 's', .slice, []⟩,
     ⟨"oneshot".toList, some 'O', .bool, "false".toList⟩, ⟨"match-hosts".toList, some 'm', .slice, []⟩]
  | .controller =>
    [⟨"kubeconfig".toList, some 'k', .text, []⟩, ⟨"metrics-addr".toList, some 'm', .text, ":8080".toList⟩,
     ⟨"image".toList, some 'i', .text, "criticalstack/swoll:latest".toList⟩, ⟨"endpoints".toList, some 'e', .slice, []⟩,
     ⟨"enable-leader-election".toList, none, .bool, "false".toList⟩]
  | .selftest => [⟨"fix".toList, some 'f', .bool, "false".toList⟩]
  | .server =>
    [⟨"use-tls".toList, none, .bool, "false".toList⟩, ⟨"cert".toList, none, .text, []⟩, ⟨"key".toList, none, .text, []⟩,
     ⟨"no-metrics".toList, none, .bool, "false".toList⟩, ⟨"listen-addr".toList, some 'l', .text, ":9095".toList⟩]
  | .top =>
    [⟨"namespace".toList, some 'n', .text, []⟩, ⟨"output".toList, some 'o', .text, "cli".toList⟩,
     ⟨"label-selector".toList, some 'l', .text, []⟩, ⟨"aggregate-hosts".toList, none, .bool, "false".toList⟩,
     ⟨"no-ui".toList, none, .bool, "false".toList⟩]
  | .trace =>
    [⟨"syscalls".toList, some 's', .slice, []⟩, ⟨"namespace".toList, some 'n', .text, []⟩,
     ⟨"output".toList, some 'o', .text, "cli".toList⟩, ⟨"field-selector".toList, some 'f', .text, []⟩,
     ⟨"no-containers".toList, none, .bool, "false".toList⟩]
  | _ => []

/-- The persistent flags of the commands above. (`mergePersistentFlags`, library, of root.go:89-98, client.go:412-415) -/
def inherited : Cmd → List Flag
  | .client | .query | .completed | .running | .delete | .watch | .create => clientFlags ++ rootFlags
  | _ => rootFlags

/-- All the flags of a command: a flag of its own hides one of the same name, and `help` is cobra's. (`mergePersistentFlags`,
`InitDefaultHelpFlag`; library, of root.go:81) -/
def flags (c : Cmd) : List Flag :=
  ownFlags c ++ (inherited c).filter (fun f => !(ownFlags c).any (·.name == f.name)) ++
    [⟨"help".toList, some 'h', .bool, "false".toList⟩]

/-- By name. (`Lookup`; library, of root.go:81) -/
def byName (fl : List Flag) (n : Str) : Option Flag := fl.find? (·.name == n)

/-- By letter. (`shorthands`; library, of root.go:81) -/
def byShort (fl : List Flag) (c : Char) : Option Flag := fl.find? (·.short == some c)

/-! ### Which command -/

/-- Does a word take the next one for its value? (`stripFlags`; library, of root.go:81) -/
def takes (fl : List Flag) : Str → Bool
  | '-' :: '-' :: n => !n.contains '=' && !(byName fl n).any (·.kind == .bool)
  | ['-', c] => c != '=' && !(byShort fl c).any (·.kind == .bool)
  | _ => false

/-- The words that are no flags and no values of flags. (`stripFlags`; library, of root.go:81) -/
def strip (fl : List Flag) : List Str → List Str
  | [] => []
  | s :: rest =>
    if s = "--".toList then []
    else if takes fl s then
      match rest with
      | _ :: v :: rest => strip fl (v :: rest)
      | _ => []
    else if s ≠ [] ∧ s.head? ≠ some '-' then s :: strip fl rest
    else strip fl rest

/-- One level down: the first of these words, if it is a command, is taken out, where it is found first. (`innerfind`,
`argsMinusFirstX`; library, of root.go:81) -/
def step (a : Cmd × List Str) : Cmd × List Str :=
  match (strip (flags a.1) a.2).head? with
  | none => a
  | some w => match next a.1 w with
    | none => a
    | some c => (c, a.2.erase w)

/-- The command, and the words left to it. Words that no command takes are an error. (`Find`, `legacyArgs`; library, of
root.go:81. Three levels are all there are.) -/
def find (args : List Str) : Option (Cmd × List Str) :=
  let a := step (step (step (.root, args)))
  if a.1 = .root ∧ strip (flags .root) a.2 ≠ [] then none else some a

/-! ### Which values -/

/-- May a flag have a value? (`strconv.ParseBool`, `readAsCSV`; library, of root.go:81) -/
def settable (f : Flag) (v : Str) : Bool := match f.kind with
  | .text => true
  | .bool => ["1".toList, "t".toList, "T".toList, "true".toList, "TRUE".toList, "True".toList,
      "0".toList, "f".toList, "F".toList, "false".toList, "FALSE".toList, "False".toList].contains v
  | .slice => (JobArgs.readAsCSV v).isSome

/-- Give a flag a value. (`Set`; library, of root.go:81) -/
def set (f : Flag) (v : Str) : Option (List (Flag × Str)) := if settable f v then some [(f, v)] else none

/-- A word of letters: the values in it, and the flag that is still without one. (`parseSingleShortArg`; library, of root.go:81) -/
def shorts (fl : List Flag) : Str → Option (List (Flag × Str) × Option Flag)
  | [] => some ([], none)
  | c :: cs => match byShort fl c with
    | none => none
    | some f =>
      match cs with
      | '=' :: x :: v => (set f (x :: v)).map (·, none)
      | _ =>
        if f.kind = .bool then (shorts fl cs).map fun r => ((f, "true".toList) :: r.1, r.2)
        else if cs = [] then some ([], some f)
        else (set f cs).map (·, none)

/-- A word with two dashes, without them. (`parseLongArg`; library, of root.go:81) -/
def long (fl : List Flag) (s : Str) : Option (List (Flag × Str) × Option Flag) :=
  if s.head? = some '-' ∨ s.head? = some '=' then none
  else match JobArgs.cut '=' s with
    | (n, v) => match byName fl n, v with
      | none, _ => none
      | some f, some v => (set f v).map (·, none)
      | some f, none => if f.kind = .bool then some ([(f, "true".toList)], none) else some ([], some f)

/-- What is found in a command line: the values given, in order, and the other words. (`parseArgs`; library, of root.go:81) -/
structure Found where
  given : List (Flag × Str)
  words : List Str
  deriving DecidableEq, Repr

/-- All the words; the flag that still waits for its value comes first. (`parseArgs`; library, of root.go:81) -/
def parse (fl : List Flag) : Option Flag → List Str → Option Found
  | none, [] => some ⟨[], []⟩
  | some _, [] => none
  | some f, v :: rest => match set f v with
    | none => none
    | some g => (parse fl none rest).map fun r => ⟨g ++ r.given, r.words⟩
  | none, s :: rest =>
    match s with
    | '-' :: '-' :: [] => some ⟨[], rest⟩
    | '-' :: '-' :: c :: cs => match long fl (c :: cs) with
      | none => none
      | some (g, p) => (parse fl p rest).map fun r => ⟨g ++ r.given, r.words⟩
    | '-' :: c :: cs => match shorts fl (c :: cs) with
      | none => none
      | some (g, p) => (parse fl p rest).map fun r => ⟨g ++ r.given, r.words⟩
    | s => (parse fl none rest).map fun r => ⟨r.given, s :: r.words⟩

/-- The program's view of its command line. (`Execute`; library, used at root.go:81) -/
def execute (args : List Str) : Option (Cmd × Found) :=
  match find args with
  | none => none
  | some (c, rest) => (parse (flags c) none rest).map (c, ·)

/-! ### What the commands read -/

/-- The values given for a flag. (`Set`; library, of root.go:81) -/
def values (f : Found) (n : Str) : List Str := f.given.filterMap fun p => if p.1.name = n then some p.2 else none

/-- `GetString`. (Library, used at client.go:150, 155) -/
def getString (c : Cmd) (f : Found) (n : Str) : Option Str :=
  match (values f n).getLast? with
  | some v => some v
  | none => (byName (flags c) n).map (·.dflt)

/-- `GetBool`. (Library, used at client.go:179, 388) -/
def getBool (c : Cmd) (f : Found) (n : Str) : Option Bool :=
  (getString c f n).map fun v => ["1".toList, "t".toList, "T".toList, "true".toList, "TRUE".toList, "True".toList].contains v

/-- `GetStringSlice`: the values of all that were given, one after the other. (Library, used at client.go:164, 189, 383) -/
def getStringSlice (f : Found) (n : Str) : Option (List Str) :=
  match (values f n).mapM JobArgs.readAsCSV with
  | none => none
  | some ls => JobArgs.readAsCSV (JobArgs.writeAsCSV ls.flatten)

/-! ### Command lines -/

/-- The arguments of the container of a job. (trace.go:60-71) -/
def jobLine (a : JobArgs.Args) : List Str :=
  ["client".toList, "create".toList, "--endpoints".toList, a.endpoints, "--syscalls".toList, a.syscalls,
   "--match-hosts".toList, a.hosts, "--label-selector".toList, a.labelSel, "--field-selector".toList, a.fieldSel,
   "--namespace".toList, a.ns, "--jobid".toList, a.jobid, "--oneshot".toList]

/-- The command of the server's container, after the program's name. (chart/templates/server-daemonset.yaml:33-39) -/
def serverLine (cri port : Str) : List Str := ["server".toList, "-r".toList, cri, "--listen-addr".toList, ':' :: port]

/-- The command and arguments of the controller's. (chart/templates/controller-deployment.yaml:33-41) -/
def controllerLine (image : Str) : List Str :=
  ["controller".toList, "--enable-leader-election".toList, "--image".toList, image,
   "--metrics-addr=127.0.0.1:8080".toList, "--enable-leader-election".toList]

end Swoll.Argv
