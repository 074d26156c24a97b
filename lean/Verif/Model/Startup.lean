import Verif.Model.JobArgs
import Verif.Model.Offsets
/-
Start-up of the commands: which object file is loaded, where settings come from (cmd/loader.go,
cmd/trace.go, cmd/server.go, cmd/top.go, cmd/offsetter.go), the self test (cmd/selftest.go), the log level
(cmd/root.go) and how the controller finds the probes (cmd/controller.go). Strings are lists of
characters. `none` is the end of the program with a message.
-/
namespace Swoll.Startup
open Swoll
open Swoll.JobArgs (Str)

/-- The commands that load a probe. (cmd/trace.go:26-29, cmd/server.go:893-900, cmd/top.go:378-381) -/
inductive Command where
  | trace | server | top
  deriving DecidableEq, Repr

/-! ### The object file -/

/-- What `ioutil.ReadFile` answers: the content, "no such file" or another error. (cmd/loader.go:32) -/
inductive Read where
  | content (bs : List UInt8)
  | missing
  | failed
  deriving DecidableEq, Repr

/-- Files, environment and the object in the executable. (cmd/loader.go:27-41) -/
structure Machine where
  read : Str → Read
  env : Str → Str
  builtin : List UInt8

/-- `loadBPFargs`, cmd/loader.go:14-45, for the value of `--bpf`: the object and whether the error is nil.
The error of the last read is returned even if it is "no such file". -/
def loadBPFargs (w : Machine) (flag : Str) : List UInt8 × Bool :=
  let file := if flag = [] then w.env "SWOLL_BPFOBJECT".toList else flag
  let builtin (bs : List UInt8) : List UInt8 := if bs.length = 0 then w.builtin else bs
  if file = [] then (builtin [], true)
  else match w.read file with
    | .failed => ([], false)
    | .missing => (builtin [], false)
    | .content bs => (builtin bs, true)

/-- What is loaded into the kernel: cmd/trace.go:100-103, cmd/server.go:777-780 end the program on an
error; cmd/top.go:431 takes the object in the executable. -/
def object (c : Command) (w : Machine) (flag : Str) : Option (List UInt8) :=
  match c with
  | .top => some w.builtin
  | _ => if (loadBPFargs w flag).2 then some (loadBPFargs w flag).1 else none

/-! ### Settings -/

/-- The CRI socket, the Kubernetes configuration and the root of the process table.
(cmd/trace.go:36-49, cmd/server.go:738-763) -/
structure Settings where
  cri : Str
  kubeconfig : Str
  altroot : Str
  deriving DecidableEq, Repr

/-- A flag, or else a variable: cmd/trace.go:36-49, cmd/server.go:743-763. -/
def orEnv (w : Machine) (flag var : Str) : Str := if flag = [] then w.env var else flag

/-- The settings a command goes by; `s`: the flags. cmd/trace.go:36-49, cmd/server.go:738-763,
cmd/top.go:384-401. -/
def settings (c : Command) (w : Machine) (s : Settings) : Settings :=
  match c with
  | .top => { s with kubeconfig := if s.kubeconfig = [] then w.env "HOME".toList ++ "/.kube/config".toList else s.kubeconfig }
  | _ => ⟨orEnv w s.cri "SWOLL_CRISOCKET".toList, orEnv w s.kubeconfig "SWOLL_KUBECONFIG".toList,
      orEnv w s.altroot "SWOLL_ALTROOT".toList⟩

/-- `SetOffsetsFromArgs`, cmd/offsetter.go:12-76, with `--no-detect-offsets`, `--nsproxy-offset` and
`--pidns-offset`; `detect` is `DetectAndSetOffsets`. `top` only detects, cmd/top.go:438-440. The result says
whether there was no error. -/
def setOffsets (c : Command) (nodetect : Bool) (ns pid : Str) (detect : Offsets.Config → Bool × Offsets.Config)
    (up : Bool) (m : Offsets.Config) : Bool × Offsets.Config :=
  match c with
  | .top => detect m
  | _ => if nodetect then Offsets.setArgs up ns pid m else detect m

/-! ### The self test -/

/-- What `os.Stat` says. (cmd/selftest.go:29, 59) -/
inductive Stat where
  | found | missing | failed
  deriving DecidableEq, Repr

/-- The configuration file of the running kernel: its content, or how finding or opening it failed.
(cmd/selftest.go:52-76) -/
inductive Config where
  | text (s : Str)
  | missing
  | failed
  deriving DecidableEq, Repr

/-- The machine the self test looks at. (cmd/selftest.go:17-37, 66-76) -/
structure Host where
  /-- is CAP_SYS_ADMIN effective? `none`: capabilities cannot be read -/
  sysAdmin : Option Bool
  /-- /sys/kernel/debug/tracing -/
  tracing : Stat
  /-- does mounting debugfs succeed, and what is /sys/kernel/debug/tracing afterwards? -/
  mount : Bool × Stat
  config : Config

/-- `checkCapabilities`, cmd/selftest.go:17-27: whether there is no error. -/
def checkCapabilities (h : Host) : Bool := h.sysAdmin == some true

/-- `checkMounts`, cmd/selftest.go:29-35. -/
def checkMounts (h : Host) : Bool := h.tracing != .missing

/-- `fixMounts`, cmd/selftest.go:37-39. -/
def fixMounts (h : Host) : Bool × Host :=
  if h.mount.1 then (true, { h with tracing := h.mount.2 }) else (false, h)

/-- The expression `^(\w+)\=[ym]$`, cmd/selftest.go:80, 85: the first group. -/
def configLine (l : Str) : Option Str :=
  let name := l.takeWhile Offsets.wordChar
  let rest := l.dropWhile Offsets.wordChar
  if name ≠ [] ∧ (rest = ['=', 'y'] ∨ rest = ['=', 'm']) then some name else none

/-- `parseBootConfig`, cmd/selftest.go:68-93: the keys of the map. -/
def parseBootConfig (text : Str) : List Str := (Offsets.scan text).filterMap configLine

/-- The features, cmd/selftest.go:101-105. -/
def checks : List Str :=
  ["CONFIG_BPF".toList, "CONFIG_BPF_JIT".toList, "CONFIG_FTRACE_SYSCALLS".toList]

/-- `checkFeatures`, cmd/selftest.go:95-114, and what `runSelfTest` makes of its error, 135-139. -/
def checkFeatures : Config → Bool
  | .missing => true
  | .failed => false
  | .text s => checks.all (parseBootConfig s).contains

/-- `runSelfTest`, cmd/selftest.go:116-142: whether there is no error, and the machine afterwards. -/
def runSelfTest (fix : Bool) (h : Host) : Bool × Host :=
  if checkCapabilities h then
    if checkMounts h then (checkFeatures h.config, h)
    else if fix then
      match fixMounts h with
      | (false, h) => (false, h)
      | (true, h) => if checkMounts h then (checkFeatures h.config, h) else (false, h)
    else (false, h)
  else (false, h)

/-! ### Levels and formats -/

/-- The switch over `--log`, cmd/root.go:44-61: whether the program goes on. -/
def logLevel (s : Str) : Bool :=
  s == "debug".toList || s == "trace".toList || s == "info".toList || s == "warn".toList || s == "error".toList ||
  s == "fatal".toList || s == "panic".toList

/-! ### The controller's endpoints -/

/-- The loop over the nodes, cmd/controller.go:88-101, given the addresses of each; `none` is a crash, for
a node without addresses. -/
def nodeEndpoints : List (List Str) → Option (List Str)
  | [] => some []
  | [] :: _ => none
  | (a :: _) :: ns => (nodeEndpoints ns).map ((a ++ ":9095".toList) :: ·)

/-- The endpoints the controller puts into jobs, for the value of `--endpoints`: cmd/controller.go:69-101. -/
def controllerEndpoints (flag : List Str) (nodes : List (List Str)) : Option (List Str) :=
  if flag.length = 0 then nodeEndpoints nodes else some flag

end Swoll.Startup
