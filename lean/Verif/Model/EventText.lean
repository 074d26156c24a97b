import Verif.Model.EventJSON
import Verif.Model.Wire
/-
The text of an event, as the server sends it to its clients: `WriteJSON`, cmd/server.go:212, 253, of a
`TraceEvent`, pkg/event/trace.go:18-43, its arguments being the structures of pkg/event/call.

A text is a list of characters; what goes over the wire is its UTF-8 form, whose length is `size`.
-/
namespace Swoll.EventText
open Swoll.Bytes Swoll.Event Swoll.Flags Swoll.EventJSON
open Swoll.Json (Str)

/-! ### Strings of bytes -/

/-- The character at the start of a string, and the number of its bytes; `none` where Go sees `RuneError`.
(`utf8.DecodeRuneInString`; library, part of writing pkg/event/trace.go:18-35.) -/
def rune (bs : List Byte) : Option (Nat × Char) :=
  (runeLen bs).map fun n =>
    let b := (bs.getD 0 0).toNat
    let c := (bs.getD 1 0).toNat % 64
    let d := (bs.getD 2 0).toNat % 64
    let e := (bs.getD 3 0).toNat % 64
    (n, Char.ofNat (
      if n = 1 then b
      else if n = 2 then b % 32 * 64 + c
      else if n = 3 then b % 16 * 4096 + c * 64 + d
      else b % 8 * 262144 + c * 4096 + d * 64 + e))

/-- A string between its quotes; what is not UTF-8 is written as an escape. `fuel` is at least the length.
(`encodeState.string`; library, part of writing pkg/event/trace.go:18-35.) -/
def body : Nat → List Byte → Str
  | 0, _ => []
  | _, [] => []
  | n + 1, b :: bs =>
    match rune (b :: bs) with
    | some (k, c) => Json.escape c ++ body n ((b :: bs).drop k)
    | none => Json.unicode 0xfffd ++ body n bs

/-- A string. (As above.) -/
def quoteBytes (bs : List Byte) : Str := '"' :: body bs.length bs ++ ['"']

/-- A digit of base 64. (encoding/base64; library, used for the `Buffer`s of pkg/event/call/*.go, pkg/types/buffer.go:3.) -/
def digit64 (n : Nat) : Char :=
  if n < 26 then Char.ofNat (65 + n) else if n < 52 then Char.ofNat (71 + n) else if n < 62 then Char.ofNat (n - 4)
  else if n = 62 then '+' else '/'

/-- `base64.StdEncoding`. (As above.) -/
def base64 : List Byte → Str
  | [] => []
  | [a] => [digit64 (a.toNat / 4), digit64 (a.toNat % 4 * 16), '=', '=']
  | [a, b] => [digit64 (a.toNat / 4), digit64 (a.toNat % 4 * 16 + b.toNat / 16), digit64 (b.toNat % 16 * 4), '=']
  | a :: b :: c :: bs => digit64 (a.toNat / 4) :: digit64 (a.toNat % 4 * 16 + b.toNat / 16) ::
      digit64 (b.toNat % 16 * 4 + c.toNat / 64) :: digit64 (c.toNat % 64) :: base64 bs

/-! ### Texts -/

/-- What is written. (Library, over pkg/event/trace.go:18-35.) -/
inductive Doc where
  | null
  | num (i : Int)
  | str (s : Str)
  | bytes (bs : List Byte)
  | arr (l : List Doc)
  | obj (l : List (String × Doc))

mutual
/-- `json.Marshal`. (Library, used by cmd/server.go:212, 253.) -/
def Doc.text : Doc → Str
  | .null => "null".toList
  | .num i => itoa i
  | .str s => Json.quote s
  | .bytes bs => quoteBytes bs
  | .arr l => '[' :: elems l ++ [']']
  | .obj l => '{' :: members l ++ ['}']
/-- The elements of an array. (cmd/server.go:212, 253) -/
def elems : List Doc → Str
  | [] => []
  | v :: l => v.text ++ (match l with | [] => [] | _ :: _ => ',' :: elems l)
/-- The members of an object. (cmd/server.go:212, 253) -/
def members : List (String × Doc) → Str
  | [] => []
  | (k, v) :: l => Json.quote k.toList ++ ':' :: v.text ++ (match l with | [] => [] | _ :: _ => ',' :: members l)
end

/-- The bytes a text takes on the wire. (cmd/server.go:212, 253; counted at pkg/client/endpoint.go:145) -/
def size (s : Str) : Nat := (s.map Char.utf8Size).sum

/-! ### Arguments -/

/-- What the decoders see beside the event: the addresses of the slots, which `Nanosleep` takes for its arguments
(pkg/event/call/nanosleep.go:17-21), and the bytes of slices that leave the event, given by offset and length
(pkg/types/c.go:9-18). -/
structure Memory where
  slot : Nat → BitVec 64
  beyond : Int → Int → List Byte

/-- How an argument structure is written: a field as its type says, a number at an offset of a field of bytes (its
width in bytes, and whether it has a sign), and nested arrays and structures.
(the structures of pkg/event/call/*.go) -/
inductive Lay where
  | field (name : String)
  | int (name : String) (offset width : Nat) (signed : Bool)
  | arr (l : List Lay)
  | obj (l : List (String × Lay))

/-- `Timespec`, pkg/types/clocktypes.go:37-40, and that of syscall (library, used by pkg/event/call/stat.go:12). -/
def timespec (f : String) (o : Nat) : Lay := .obj [("Sec", .int f o 8 true), ("Nsec", .int f (o + 8) 8 true)]

/-- `syscall.Stat_t` on amd64. (Library, used by pkg/event/call/stat.go:12, fstat.go:12, statfs.go:12.) -/
def statLay : Lay := .obj [
  ("Dev", .int "stat_buf" 0 8 false), ("Ino", .int "stat_buf" 8 8 false), ("Nlink", .int "stat_buf" 16 8 false),
  ("Mode", .int "stat_buf" 24 4 false), ("Uid", .int "stat_buf" 28 4 false), ("Gid", .int "stat_buf" 32 4 false),
  ("X__pad0", .int "stat_buf" 36 4 true), ("Rdev", .int "stat_buf" 40 8 false), ("Size", .int "stat_buf" 48 8 true),
  ("Blksize", .int "stat_buf" 56 8 true), ("Blocks", .int "stat_buf" 64 8 true), ("Atim", timespec "stat_buf" 72),
  ("Mtim", timespec "stat_buf" 88), ("Ctim", timespec "stat_buf" 104),
  ("X__unused", .arr [.int "stat_buf.unused" 0 8 true, .int "stat_buf.unused" 8 8 true, .int "stat_buf.unused" 16 8 true])]

/-- `syscall.Rlimit`. (Library, used by pkg/event/call/prlimit64.go:13, 19-20.) -/
def rlimitLay (f : String) : Lay := .obj [("Cur", .int f 0 8 false), ("Max", .int f 8 8 false)]

/-- `Itimerspec`, pkg/types/clocktypes.go:42-45. -/
def itimerspecLay (f : String) : Lay := .obj [("Interval", timespec f 0), ("Value", timespec f 16)]

/-- `Sockopt`, pkg/event/call/sockopt.go:23-29. Its name is one string. -/
def sockoptLay : List (String × Lay) := [("fd", .field "fd"), ("level", .field "level"), ("name", .field "name.tp"),
  ("val", .field "val"), ("len", .field "len")]

/-- The structures whose members are not just their fields. -/
def layouts : List (String × List (String × Lay)) := [
  -- pkg/event/call/connect.go:9-12
  ("Connect", [("fd", .field "fd"), ("Saddr", .field "saddr")]),
  -- pkg/event/call/execve.go:10-13
  ("Execve", [("filename", .field "filename"),
    ("argv", .arr [.field "argv[0]", .field "argv[1]", .field "argv[2]", .field "argv[3]"])]),
  -- pkg/event/call/fstat.go:10-13
  ("Fstat", [("fd", .field "fd"), ("stat_buf", statLay)]),
  -- pkg/event/call/getsockopt.go:3-5
  ("Getsockopt", [("sockopt", .obj sockoptLay)]),
  -- pkg/event/call/prlimit64.go:16-21
  ("Prlimit64", [("pid", .field "pid"), ("resource", .field "resource"), ("new", rlimitLay "new"),
    ("old", rlimitLay "old")]),
  -- pkg/event/call/setsockopt.go:3-5
  ("Setsockopt", sockoptLay),
  -- pkg/event/call/stat.go:10-13
  ("Stat", [("filename", .field "filename"), ("stat_buf", statLay)]),
  -- pkg/event/call/statfs.go:10-13
  ("Statfs", [("path", .field "path"), ("stat_buf", statLay)]),
  -- pkg/event/call/timerfd_settime.go:9-14
  ("TimerFDSettime", [("fd", .field "fd"), ("flags", .field "flags"), ("new", itimerspecLay "new"),
    ("old", itimerspecLay "old")])]

/-- The members of a structure. (as cited in `fieldKinds` and `layouts`) -/
def layout (t : String) : List (String × Lay) :=
  (layouts.lookup t).getD (((fieldKinds.lookup t).getD []).map fun f => (f.1, .field f.1))

/-- The bytes of a field. (pkg/types/c.go:9-18) -/
def bytesOf (m : Memory) : Val → List Byte
  | .buf bs => bs
  | .outside off len => m.beyond off len
  | _ => []

/-- An integer in memory. (the structures of numbers in pkg/event/call/*.go) -/
def intAt (bs : List Byte) (offset width : Nat) (signed : Bool) : Int :=
  if signed then (BitVec.ofNat (8 * width) (leVal (window bs offset width))).toInt
  else (leVal (window bs offset width) : Int)

/-- `SockAddr.MarshalJSON`, pkg/types/sockaddr.go:75-88. -/
def sockDoc (mem : List Byte) : Doc :=
  .obj [("Family", .num (intAt mem 0 2 false)), ("Data", .arr ((List.range 14).map fun i => .num (intAt mem (2 + i) 1 true))),
    ("decoded", .bytes ((sockAddrString mem).map fun c => UInt8.ofNat c.toNat))]

/-- A list of names. (the `MarshalJSON` methods of the flag types, pkg/types/*.go and pkg/event/call/*.go) -/
def names (l : List String) : Doc := .arr (l.map fun s => .str s.toList)

/-- A field, by its type. A value of another sort, which no decoder makes, is written as null.
(the `MarshalJSON` methods of pkg/event/call/*.go and pkg/types/*.go modelled in Model/Flags) -/
def fieldDoc (env : Env) (m : Memory) (argv : List (String × Val)) : Kind → Val → Doc
  | .num, .int i => .num i
  | .text, .str bs => .bytes bs
  | .raw, v => .str (base64 (bytesOf m v))
  | .ptrs, .ptrs i _ => .obj [("Sec", .num (m.slot i).toInt), ("Nsec", .num (m.slot (i + 1)).toInt)]
  | .sock, v => sockDoc (bytesOf m v)
  | .flags s, .int i => names (parse s.type (env.order s) (BitVec.ofInt 64 i))
  | .family, .int i => .str (nameOf sockFamilyMap i).toList
  | .proto, .int i => .str (nameOf sockProtoMap i).toList
  | .level, .int i => .str (nameOf sockLevelMap i).toList
  | .rlimit, .int i => .str (rlimitName i).toList
  | .sockType, .int i => names (sockTypeParse (BitVec.ofInt 64 i))
  | .optTp, .int _ | .optLv, .int _ =>
    .str (SockoptName.parse { tp := EventJSON.intAt argv "name.tp", lv := EventJSON.intAt argv "name.lv" }).toList
  | _, _ => .null

mutual
/-- The arguments, a structure with fields `ks`. (Library, over the structures of pkg/event/call/*.go.) -/
def Lay.doc (env : Env) (m : Memory) (ks : List (String × Kind)) (argv : List (String × Val)) : Lay → Doc
  | .field f => fieldDoc env m argv ((ks.lookup f).getD .num) ((argv.lookup f).getD (.str []))
  | .int f o w s => .num (intAt (bytesOf m ((argv.lookup f).getD (.str []))) o w s)
  | .arr l => .arr (elemDocs env m ks argv l)
  | .obj l => .obj (memberDocs env m ks argv l)
/-- Elements. (As above.) -/
def elemDocs (env : Env) (m : Memory) (ks : List (String × Kind)) (argv : List (String × Val)) : List Lay → List Doc
  | [] => []
  | v :: l => v.doc env m ks argv :: elemDocs env m ks argv l
/-- Members. (As above.) -/
def memberDocs (env : Env) (m : Memory) (ks : List (String × Kind)) (argv : List (String × Val)) :
    List (String × Lay) → List (String × Doc)
  | [] => []
  | (k, v) :: l => (k, v.doc env m ks argv) :: memberDocs env m ks argv l
end

/-- The arguments of type `t`. (pkg/event/trace.go:35) -/
def argsDoc (env : Env) (m : Memory) (t : String) (argv : List (String × Val)) : Doc :=
  .obj (memberDocs env m ((fieldKinds.lookup t).getD []) argv (layout t))

/-! ### Events -/

/-- A string member with `omitempty`. (pkg/types/container.go:6-11) -/
def optStr (name s : String) : List (String × Doc) := if s = "" then [] else [(name, .str s.toList)]

/-- An integer member with `omitempty`. (pkg/types/container.go:13-14) -/
def optInt (name : String) (i : Int) : List (String × Doc) := if i = 0 then [] else [(name, .num i)]

/-- Labels, sorted. (pkg/types/container.go:12) -/
def labelsDoc (l : GoMap String String) : Doc :=
  .obj ((l.mergeSort fun a b => JobArgs.strLE a.1.toList b.1.toList).map fun e => (e.1, .str e.2.toList))

/-- The labels, with `omitempty`. (pkg/types/container.go:12) -/
def optLabels : GoMap String String → List (String × Doc)
  | [] => []
  | e :: l => [("labels", labelsDoc (e :: l))]

/-- `Container`, pkg/types/container.go:5-15. -/
def containerDoc (c : Topology.Container) : Doc :=
  .obj (optStr "id" c.id ++ optStr "pod" c.pod ++ optStr "sandbox-id" c.sandbox ++ optStr "name" c.name ++
    optStr "image" c.image ++ optStr "namespace" c.ns ++
    optLabels (c.labels.getD []) ++
    optInt "pid" c.pid ++ optInt "pid-namespace" c.pidns)

/-- `Syscall`, pkg/syscalls/syscalls.go:10-15. -/
def syscallDoc (s : Syscalls.Syscall) : Doc :=
  .obj [("nr", .num s.nr), ("name", .str s.name.toList), ("class", .str s.cls.toList), ("group", .str s.group.toList)]

/-- A `TraceEvent`, pkg/event/trace.go:18-35, with arguments of type `t`. -/
def eventDoc (env : Env) (m : Memory) (t : String) (ev : TraceEvent Topology.Container) : Doc :=
  .obj [("syscall", (ev.syscall.map syscallDoc).getD .null), ("pid", .num ev.pid), ("tid", .num ev.tid),
    ("container_pid", .num ev.cpid), ("uid", .num ev.uid), ("gid", .num ev.gid), ("comm", .bytes ev.comm),
    ("session", .num ev.sid), ("container", (ev.container.map containerDoc).getD .null),
    ("error", .str (errnoToString ev.error).toList), ("return", .num ev.ret), ("pid_ns", .num ev.pidNs),
    ("uts_ns", .num ev.utsNs), ("mount_ns", .num ev.mntNs), ("start", .num ev.start), ("finish", .num ev.finish),
    ("args", argsDoc env m t ev.argv)]

/-- The message for an event decoded for system call `nr`: `WriteJSON` ends it with a newline.
(cmd/server.go:212, 253) -/
def message (env : Env) (m : Memory) (nr : Nat) (ev : TraceEvent Topology.Container) : Str :=
  (eventDoc env m ((decodeTypes.lookup nr).getD "") ev).text ++ ['\n']

/-- `maxMessageSize`, pkg/client/endpoint.go:28. -/
def maxMessageSize : Nat := 4096

/-- Whether the client reads a message; otherwise reading fails and the stream ends.
(`SetReadLimit`, pkg/client/endpoint.go:145; 212-222) -/
def accepts (msg : Str) : Bool := size msg ≤ maxMessageSize

end Swoll.EventText
