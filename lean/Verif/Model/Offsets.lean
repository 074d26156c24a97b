import Verif.Model.JobArgs
/-
Kernel structure offsets: pkg/kernel/offsets.go (setting them), pkg/kernel/offset_helper.go (finding
them), cmd/offsetter.go (taking them from the command line) and what the probe makes of them,
internal/bpf/probe.c. Strings are lists of characters; in files one character is one byte.
-/
namespace Swoll.Offsets
open Swoll.JobArgs (Str isSpace split sign)

/-- The BPF map `swoll_offsets_config`, probe.c:286-292: offset type (one byte) to offset. It has
room for two entries, and no more than two types are ever stored. -/
abbrev Config := GoMap (BitVec 8) (BitVec 32)

/-- `OffsetNSProxy`, `OffsetPidNSCommon`, offsets.go:13-18; the same numbers in probe.c:278-279. -/
def nsProxy : BitVec 8 := 1
/-- `OffsetPidNSCommon`, offsets.go:13-18. -/
def pidNSCommon : BitVec 8 := 2

/-- The first argument of `Set`: any value; a name, an int, a type, or something else.
(offsets.go:68) -/
inductive Which where
  | name (s : Str)
  | int (n : BitVec 64)
  | type (t : BitVec 8)
  | other
  deriving DecidableEq, Repr

/-- The switch in `Set`, offsets.go:69-83. -/
def realType : Which → BitVec 8
  | .name s =>
    if s = "nsproxy".toList then nsProxy
    else if s = "pid_ns_common".toList then pidNSCommon
    else 0
  | .int n => n.setWidth 8
  | .type t => t
  | .other => 0

/-- `NewOffset`, offsets.go:49-63: whether the type is known. -/
def newOffset (t : BitVec 8) : Bool := t == nsProxy || t == pidNSCommon

/-- `Set`, offsets.go:68-95: whether it returned no error, and the map. `up` says whether the update
of the map succeeds. The Go map `offsets` is never read and left out. -/
def setOffset (up : Bool) (t : Which) (v : BitVec 32) (m : Config) : Bool × Config :=
  if newOffset (realType t) then
    (if up then (true, m.set (realType t) v) else (false, m))
  else (false, m)

/-- `swoll__get_nsproxy_offset` and `swoll__get_pid_ns_common_offset`, probe.c:1032-1062; `dflt` is
the offset the probe was compiled with. -/
def nsproxyOffset (m : Config) (dflt : BitVec 32) : BitVec 32 := (m.get nsProxy).getD dflt
/-- `swoll__get_pid_ns_common_offset`, probe.c:1048-1062. -/
def pidnsOffset (m : Config) (dflt : BitVec 32) : BitVec 32 := (m.get pidNSCommon).getD dflt

/-- A hexadecimal digit. (Library, used at offsetter.go:30, 54.) -/
def hexDigit (c : Char) : Option Nat :=
  if 48 ≤ c.toNat ∧ c.toNat ≤ 57 then some (c.toNat - 48)
  else if 97 ≤ c.toNat ∧ c.toNat ≤ 102 then some (c.toNat - 87)
  else if 65 ≤ c.toNat ∧ c.toNat ≤ 70 then some (c.toNat - 55)
  else none

/-- The number hexadecimal digits stand for. (Library, used at offsetter.go:30, 54.) -/
def hexDigits : Nat → Str → Option Nat
  | n, [] => some n
  | n, c :: cs =>
    match hexDigit c with
    | some d => hexDigits (16 * n + d) cs
    | none => none

/-- `strconv.ParseInt(s, 16, 64)`. (Used at offsetter.go:30, 54 and offset_helper.go:296-323.) -/
def parseHex (s : Str) : Option Int :=
  if (sign s).2 = [] then none
  else match hexDigits 0 (sign s).2 with
    | none => none
    | some n =>
      if (sign s).1 then (if n ≤ 2 ^ 63 then some (-(n : Int)) else none)
      else if n < 2 ^ 63 then some (n : Int) else none

/-- `strings.TrimPrefix(s, "0x")`. (Used at offsetter.go:29, 53.) -/
def trim0x (s : Str) : Str := if "0x".toList.isPrefixOf s then s.drop 2 else s

/-- One of the two halves of `SetOffsetsFromArgs` without detection, offsetter.go:23-45 and 47-70:
the flag's value, if not empty, is parsed and stored. The result says whether there was no error. (A
missing map makes the program exit; here `up` is false.) -/
def setArg (up : Bool) (which value : Str) (m : Config) : Bool × Config :=
  if value = [] then (true, m)
  else match parseHex (trim0x value) with
    | none => (false, m)
    | some n => setOffset up (.name which) (BitVec.ofInt 32 n) m

/-- `SetOffsetsFromArgs` without detection, offsetter.go:22-72. -/
def setArgs (up : Bool) (ns pid : Str) (m : Config) : Bool × Config :=
  match setArg up "nsproxy".toList ns m with
  | (false, m) => (false, m)
  | (true, m) => setArg up "pid_ns_common".toList pid m

/-- The end of a line, where the scanner drops one carriage return.
(Library, used at offset_helper.go:50.) -/
def dropCR (s : Str) : Str := if s.getLast? = some '\r' then s.dropLast else s

/-- The lines `bufio.Scanner` yields: a last line that is empty is not one, and the scan ends, without
a sign of it, before a line of more than 65535 bytes. (Used at offset_helper.go:50, 155, 195.) -/
def scan (text : Str) : List Str :=
  let ls := split '\n' text
  let ls := if ls.getLast? = some [] then ls.dropLast else ls
  (ls.takeWhile fun l => decide (l.length ≤ 65535)).map dropCR

/-- `strings.Fields`. (Library, used at offset_helper.go:53.) -/
def fieldsFrom : Str → Str → List Str
  | acc, [] => if acc = [] then [] else [acc]
  | acc, c :: cs =>
    if isSpace c then (if acc = [] then fieldsFrom [] cs else acc :: fieldsFrom [] cs)
    else fieldsFrom (acc ++ [c]) cs

/-- `strings.Fields`, offset_helper.go:53. -/
def fields (s : Str) : List Str := fieldsFrom [] s

/-- One line in `parseKernelSyms`, offset_helper.go:53-62; `none` is a crash, for want of a second
or a third field. -/
def symLine (m : GoMap Str Str) (line : Str) : Option (GoMap Str Str) :=
  match fields line with
  | addr :: typ :: rest =>
    if typ = ['t'] ∨ typ = ['T'] then
      match rest with
      | name :: _ => some (m.set name addr)
      | [] => none
    else some m
  | _ => none

/-- `parseKernelSyms`, offset_helper.go:48-66. -/
def parseKernelSyms (text : Str) : Option (GoMap Str Str) := (scan text).foldlM symLine []

/-- `\w` and `\s` of Go's regular expressions. (Used at offset_helper.go:108-109.) -/
def wordChar (c : Char) : Bool := c.isAlphanum || c == '_'
/-- `\s` of Go's regular expressions, offset_helper.go:108-109. -/
def reSpace (c : Char) : Bool := c == ' ' || c == '\t' || c == '\n' || c == '\r' || c == '\x0c'

/-- A literal at the start of the text. (part of the expressions at offset_helper.go:108-109) -/
def lit (p s : Str) : Option Str := if p.isPrefixOf s then some (s.drop p.length) else none

/-- One or more characters of a class: all there are. Enough here, as in both expressions a character
that is not in the class follows. (offset_helper.go:108-109) -/
def many1 (p : Char → Bool) (s : Str) : Option (Str × Str) :=
  match s.takeWhile p with
  | [] => none
  | w => some (w, s.dropWhile p)

/-- One character of a class. (offset_helper.go:108-109) -/
def one (p : Char → Bool) : Str → Option Str
  | [] => none
  | c :: cs => if p c then some cs else none

/-- The two regular expressions, offset_helper.go:108-109, at the start of a text, and what they
capture: `mov\s+\w+,QWORD PTR \[\w+\+(0x\w+?)\]` and `lea\s+\w+,\[\w+[+-](0x\w+?)\]`. They differ
in the operation, in what is between the registers, and in the signs. -/
def loadAt (op mid : Str) (signs : Char → Bool) (s : Str) : Option Str := do
  let s ← lit op s
  let (_, s) ← many1 reSpace s
  let (_, s) ← many1 wordChar s
  let s ← lit mid s
  let (_, s) ← many1 wordChar s
  let s ← one signs s
  let s ← lit "0x".toList s
  let (w, s) ← many1 wordChar s
  let _ ← lit [']'] s
  some ("0x".toList ++ w)

/-- The leftmost match. (Library, of the expressions at offset_helper.go:108-109.) -/
def load (op mid : Str) (signs : Char → Bool) : Str → Option Str
  | [] => loadAt op mid signs []
  | c :: cs =>
    match loadAt op mid signs (c :: cs) with
    | some o => some o
    | none => load op mid signs cs

/-- `movre` and `leare`. (offset_helper.go:108-109) -/
def findMov : Str → Option Str := load "mov".toList ",QWORD PTR [".toList (fun c => c == '+')
/-- `leare`, offset_helper.go:109. -/
def findLea : Str → Option Str := load "lea".toList ",[".toList (fun c => c == '+' || c == '-')

/-- `strings.Contains`. (Used at offset_helper.go:158-180.) -/
def contains (sub : Str) : Str → Bool
  | [] => sub.isPrefixOf []
  | c :: cs => sub.isPrefixOf (c :: cs) || contains sub cs

/-- The loop of `nsproxyOffsetSearch`, offset_helper.go:158-180; `locked` is the state `stateRMov`. -/
def nsproxySearch (lock : Str) : Bool → List Str → Str
  | _, [] => []
  | locked, l :: ls =>
    if "ffffffff".toList.isPrefixOf l then
      if locked then
        match findMov l with
        | some o => o
        | none => nsproxySearch lock true ls
      else nsproxySearch lock (contains lock l) ls
    else nsproxySearch lock locked ls

/-- What the search adds to the candidates: nothing if it is empty, offset_helper.go:266. -/
def nsproxyFound (lock : Str) (code : Str) : List Str :=
  match nsproxySearch lock false (scan code) with
  | [] => []
  | o => [o]

/-- `pidnscommonOffsetSearch`, offset_helper.go:194-205. -/
def pidnsFound (code : Str) : List Str := (scan code).filterMap findLea

/-- `candidates[o]++`. (offset_helper.go:225-275) -/
def incr (m : GoMap Str Nat) (o : Str) : GoMap Str Nat := m.set o ((m.get o).getD 0 + 1)

/-- `maxCandidates`, offset_helper.go:207-223, for the order in which the map yields its entries. -/
def maxCandidates (m : GoMap Str Nat) : Str × Nat :=
  m.foldl (fun r e => if e.2 > r.2 then e else r) ([], 0)

/-- What detection depends on: the symbol file if it can be read, the output of objdump for an
address (`none`: an error; this includes addresses that are not numbers), the order in which Go
iterates over a map, whether the BPF map exists, and whether each of the two updates succeeds.
(Read at offset_helper.go:280-324.) -/
structure World where
  kallsyms : Option Str
  dump : Str → Option Str
  order : GoMap Str Nat → GoMap Str Nat
  configMap : Bool
  upNs : Bool
  upPid : Bool

/-- `nsproxyLikelyOffset` and `pidnsCommonLikelyOffset`, offset_helper.go:225-250 and 252-275: all
functions have to be known and dumped; the offsets found in their code are counted, and the one
found most often is the result, which is empty if there are none. -/
def likely (w : World) (syms : GoMap Str Str) (found : Str → List Str) (fns : List Str) : Option Str :=
  match fns.mapM fun fn => (syms.get fn).bind w.dump with
  | none => none
  | some codes => some (maxCandidates (w.order ((codes.flatMap found).foldl incr []))).1

/-- The functions to look at, offset_helper.go:18-33. -/
def nsProxyProbeSymbols : List Str :=
  ["ipcns_get", "mntns_get", "cgroupns_get", "netns_get", "get_proc_task_net",
   "switch_task_namespaces", "mounts_open_common"].map String.toList
/-- The functions to look at for the other offset, offset_helper.go:18-33. -/
def pidNsProbeSymbols : List Str :=
  ["pidns_for_children_get", "pidns_put", "pidns_get"].map String.toList

/-- What detection returns. (offset_helper.go:280-324) -/
inductive Res where
  | ok | err | panic
  deriving DecidableEq, Repr

/-- The last part of `DetectAndSetOffsets`, offset_helper.go:296-323. -/
def parseAndSet (w : World) (ns pid : Str) (m : Config) : Res × Config :=
  match parseHex (trim0x ns), parseHex (trim0x pid) with
  | some n, some p =>
    if w.configMap then
      match setOffset w.upNs (.name "nsproxy".toList) (BitVec.ofInt 32 n) m with
      | (false, m) => (.err, m)
      | (true, m) =>
        match setOffset w.upPid (.name "pid_ns_common".toList) (BitVec.ofInt 32 p) m with
        | (false, m) => (.err, m)
        | (true, m) => (.ok, m)
    else (.err, m)
  | _, _ => (.err, m)

/-- `DetectAndSetOffsets`, offset_helper.go:280-324. `errors.Wrapf` of no error is no error, so a
search that finds nothing returns no error. -/
def detect (w : World) (m : Config) : Res × Config :=
  match w.kallsyms with
  | none => (.err, m)
  | some text =>
    match parseKernelSyms text with
    | none => (.panic, m)
    | some syms =>
      match likely w syms (nsproxyFound ((syms.get "_raw_spin_lock".toList).getD []))
          nsProxyProbeSymbols with
      | none => (.err, m)
      | some [] => (.ok, m)
      | some ns =>
        match likely w syms pidnsFound pidNsProbeSymbols with
        | none => (.err, m)
        | some [] => (.ok, m)
        | some pid => parseAndSet w ns pid m

end Swoll.Offsets
