import Verif.Model.Flags
import Verif.Model.Topology
/-
The JSON form of events: what the server writes to its streams and a client reads back
(`json.Marshal` of a `TraceEvent`, and pkg/event/trace.go `UnmarshalJSON`).

Here `encoding/json` is taken to carry numbers, byte slices (base64), structures of exported number
fields and well-formed strings unchanged, to apply the `MarshalJSON`/`UnmarshalJSON` methods of
the types that have them, and to replace every ill-formed UTF-8 byte of a string; the last is
modelled (`jsonText`). Model/EventText and Model/EventRead model the text itself, and C134 shows that
this is what it carries.
-/
namespace Swoll.EventJSON
open Swoll.Bytes Swoll.Event Swoll.Flags

/-! ### Strings -/

/-- A continuation byte in the given range. (Library, part of writing pkg/event/trace.go:18-43.) -/
def isIn (lo hi : Nat) (b : Byte) : Bool := decide (lo ≤ b.toNat ∧ b.toNat ≤ hi)

/-- `utf8.DecodeRuneInString`, as used by `encoding/json`: the length of the well-formed sequence
at the start of a string, `none` where Go returns (`RuneError`, 1). The ranges are those of Go's
`acceptRanges` table. (pkg/event/trace.go:18-43 is written through it) -/
def runeLen : List Byte → Option Nat
  | [] => none
  | b :: rest =>
    if b.toNat < 0x80 then some 1
    else if isIn 0xc2 0xdf b then
      match rest with
      | c :: _ => if isIn 0x80 0xbf c then some 2 else none
      | _ => none
    else if isIn 0xe0 0xef b then
      match rest with
      | c :: d :: _ =>
        if isIn (if b.toNat = 0xe0 then 0xa0 else 0x80) (if b.toNat = 0xed then 0x9f else 0xbf) c
            && isIn 0x80 0xbf d then some 3 else none
      | _ => none
    else if isIn 0xf0 0xf4 b then
      match rest with
      | c :: d :: e :: _ =>
        if isIn (if b.toNat = 0xf0 then 0x90 else 0x80) (if b.toNat = 0xf4 then 0x8f else 0xbf) c
            && isIn 0x80 0xbf d && isIn 0x80 0xbf e then some 4 else none
      | _ => none
    else none

/-- The bytes of U+FFFD, the replacement character.
(Library, part of writing pkg/event/trace.go:18-43.) -/
def replacement : List Byte := [0xef, 0xbf, 0xbd]

/-- A string written to JSON and read back (`encodeState.string` of encoding/json): well-formed
sequences are kept, any other byte becomes U+FFFD. `fuel` is at least the length.
(strings of pkg/event/trace.go:18-43) -/
def jsonTextLoop : Nat → List Byte → List Byte
  | 0, _ => []
  | _, [] => []
  | fuel + 1, b :: rest =>
    match runeLen (b :: rest) with
    | some n => (b :: rest).take n ++ jsonTextLoop fuel ((b :: rest).drop n)
    | none => replacement ++ jsonTextLoop fuel rest

/-- A string through JSON. (strings of pkg/event/trace.go:18-43) -/
def jsonText (s : List Byte) : List Byte := jsonTextLoop s.length s

/-! ### Argument types -/

/-- The flag types with JSON methods.
(pkg/types/*.go and pkg/event/call/*.go, lines at each `FlagType`) -/
inductive FlagSort where
  | file | msg | timer | umount | accept | inotify | mount
  deriving DecidableEq, Repr

/-- The methods of a flag type.
(lines at each `FlagType` of FlagTables, from pkg/types/*.go and pkg/event/call/*.go) -/
def FlagSort.type : FlagSort → FlagType
  | .file => fileFlags
  | .msg => msgFlags
  | .timer => timerFlags
  | .umount => umountFlags
  | .accept => acceptFlags
  | .inotify => inotifyMask
  | .mount => mountFlags

/-- How a field is written in JSON: a number; a string; bytes or a structure of numbers; part of
the decoder's pointer array (nanosleep); a socket address; a flag set; a named constant; the two
fields of a socket option name, which are written as one string (here: as the same string
twice). Other nesting is flattened, as in `Event.decoders`.
(the types of the fields cited in `fieldKinds`, pkg/event/call/*.go) -/
inductive Kind where
  | num | text | raw | ptrs | sock
  | flags (s : FlagSort)
  | family | proto | level | rlimit | sockType | optTp | optLv
  deriving DecidableEq, Repr

/-- The `switch` of `DecodeSyscall`, pkg/event/call/syscall.go:13-196: the Go type that holds the
arguments of each system call. -/
def decodeTypes : List (Nat × String) := [
  (nr.sys_accept, "Accept"), (nr.sys_accept4, "Accept4"), (nr.sys_alarm, "Alarm"),
  (nr.sys_acct, "Acct"), (nr.sys_brk, "Brk"), (nr.sys_connect, "Connect"),
  (nr.sys_clone, "Clone"), (nr.sys_close, "Close"), (nr.sys_creat, "Creat"),
  (nr.sys_exit, "Exit"), (nr.sys_faccessat, "Faccessat"), (nr.sys_fstat, "Fstat"),
  (nr.sys_ftruncate, "Ftruncate"), (nr.sys_futex, "Futex"), (nr.sys_getcwd, "Getcwd"),
  (nr.sys_getpeername, "Getpeername"), (nr.sys_getsockname, "Getsockname"),
  (nr.sys_getsockopt, "Getsockopt"), (nr.sys_init_module, "InitModule"),
  (nr.sys_inotify_add_watch, "INotifyAddWatch"), (nr.sys_kill, "Kill"), (nr.sys_link, "Link"),
  (nr.sys_listen, "Listen"), (nr.sys_mincore, "Mincore"), (nr.sys_mkdir, "Mkdir"),
  (nr.sys_mount, "Mount"), (nr.sys_mprotect, "Mprotect"), (nr.sys_nanosleep, "Nanosleep"),
  (nr.sys_pivot_root, "PivotRoot"), (nr.sys_prlimit64, "Prlimit64"), (nr.sys_ptrace, "Ptrace"),
  (nr.sys_read, "Read"), (nr.sys_readlink, "Readlink"), (nr.sys_readlinkat, "Readlinkat"),
  (nr.sys_recvfrom, "Recvfrom"), (nr.sys_rename, "Rename"), (nr.sys_rmdir, "Rmdir"),
  (nr.sys_seccomp, "Seccomp"), (nr.sys_sendto, "Sendto"), (nr.sys_setns, "Setns"),
  (nr.sys_setsockopt, "Setsockopt"), (nr.sys_bind, "Bind"), (nr.sys_execve, "Execve"),
  (nr.sys_open, "Open"), (nr.sys_openat, "Openat"), (nr.sys_chdir, "Chdir"),
  (nr.sys_chroot, "Chroot"), (nr.sys_access, "Access"), (nr.sys_write, "Write"),
  (nr.sys_unlink, "Unlink"), (nr.sys_umount2, "Umount2"),
  (nr.sys_timerfd_settime, "TimerFDSettime"), (nr.sys_timerfd_create, "TimerFDCreate"),
  (nr.sys_syslog, "Syslog"), (nr.sys_symlink, "Symlink"), (nr.sys_statfs, "Statfs"),
  (nr.sys_stat, "Stat"), (nr.sys_socket, "Socket"), (nr.sys_setuid, "Setuid")]

/-- The `switch` of `TraceEvent.UnmarshalJSON`, pkg/event/trace.go:77-197: the Go type the arguments
are read back into. -/
def jsonTypes : List (Nat × String) := [
  (nr.sys_accept, "Accept"), (nr.sys_accept4, "Accept4"), (nr.sys_alarm, "Alarm"),
  (nr.sys_acct, "Acct"), (nr.sys_brk, "Brk"), (nr.sys_connect, "Connect"),
  (nr.sys_clone, "Clone"), (nr.sys_close, "Close"), (nr.sys_creat, "Creat"),
  (nr.sys_exit, "Exit"), (nr.sys_faccessat, "Faccessat"), (nr.sys_fstat, "Fstat"),
  (nr.sys_ftruncate, "Ftruncate"), (nr.sys_futex, "Futex"), (nr.sys_getcwd, "Getcwd"),
  (nr.sys_getpeername, "Getpeername"), (nr.sys_getsockname, "Getsockname"),
  (nr.sys_getsockopt, "Getsockopt"), (nr.sys_init_module, "InitModule"),
  (nr.sys_inotify_add_watch, "INotifyAddWatch"), (nr.sys_kill, "Kill"), (nr.sys_link, "Link"),
  (nr.sys_listen, "Listen"), (nr.sys_mincore, "Mincore"), (nr.sys_mkdir, "Mkdir"),
  (nr.sys_mount, "Mount"), (nr.sys_mprotect, "Mprotect"), (nr.sys_nanosleep, "Nanosleep"),
  (nr.sys_pivot_root, "PivotRoot"), (nr.sys_prlimit64, "Prlimit64"), (nr.sys_ptrace, "Ptrace"),
  (nr.sys_read, "Read"), (nr.sys_readlink, "Readlink"), (nr.sys_readlinkat, "Readlinkat"),
  (nr.sys_recvfrom, "Recvfrom"), (nr.sys_rename, "Rename"), (nr.sys_rmdir, "Rmdir"),
  (nr.sys_seccomp, "Seccomp"), (nr.sys_sendto, "Sendto"), (nr.sys_setns, "Setns"),
  (nr.sys_setsockopt, "Setsockopt"), (nr.sys_bind, "Bind"), (nr.sys_execve, "Execve"),
  (nr.sys_open, "Open"), (nr.sys_openat, "Openat"), (nr.sys_chdir, "Chdir"),
  (nr.sys_chroot, "Chroot"), (nr.sys_access, "Access"), (nr.sys_write, "Write"),
  (nr.sys_unlink, "Unlink"), (nr.sys_umount2, "Umount2"),
  (nr.sys_timerfd_settime, "TimerFDSettime"), (nr.sys_timerfd_create, "TimerFDCreate"),
  (nr.sys_syslog, "Syslog"), (nr.sys_symlink, "Symlink"), (nr.sys_statfs, "Statfs"),
  (nr.sys_stat, "Stat"), (nr.sys_socket, "Socket"), (nr.sys_setuid, "Setuid")]

/-- The fields of the argument types and how each is written in JSON.
(each row cites its structure in pkg/event/call/*.go) -/
def fieldKinds : List (String × List (String × Kind)) := [
  -- pkg/event/call/accept.go:14-17
  ("Accept", [
    ("fd", .num), ("saddr", .sock)]),
  -- pkg/event/call/accept.go:19-23
  ("Accept4", [
    ("fd", .num), ("saddr", .sock), ("flags", .flags .accept)]),
  -- pkg/event/call/access.go:9-12
  ("Access", [
    ("pathname", .text), ("mode", .num)]),
  -- pkg/event/call/acct.go:9-11
  ("Acct", [
    ("pathname", .text)]),
  -- pkg/event/call/alarm.go:9-11
  ("Alarm", [
    ("seconds", .num)]),
  -- pkg/event/call/bind.go:9-13
  ("Bind", [
    ("fd", .num), ("ret", .num), ("saddr", .sock)]),
  -- pkg/event/call/brk.go:9-11
  ("Brk", [
    ("addr", .num)]),
  -- pkg/event/call/chdir.go:9-11
  ("Chdir", [
    ("filename", .text)]),
  -- pkg/event/call/chroot.go:9-11
  ("Chroot", [
    ("filename", .text)]),
  -- pkg/event/call/clone.go:10-16
  ("Clone", [
    ("flags", .num), ("new_stack", .num), ("child_stack", .num), ("parent_stack", .num),
    ("tls", .num)]),
  -- pkg/event/call/close.go:9-11
  ("Close", [
    ("fd", .num)]),
  -- pkg/event/call/connect.go:9-12
  ("Connect", [
    ("fd", .num), ("saddr", .sock)]),
  -- pkg/event/call/creat.go:10-13
  ("Creat", [
    ("pathname", .text), ("mode", .num)]),
  -- pkg/event/call/execve.go:10-13
  ("Execve", [
    ("filename", .text), ("argv[0]", .text), ("argv[1]", .text), ("argv[2]", .text),
    ("argv[3]", .text)]),
  -- pkg/event/call/exit.go:9-11
  ("Exit", [
    ("code", .num)]),
  -- pkg/event/call/faccessat.go:10-15
  ("Faccessat", [
    ("fd", .num), ("pathname", .text), ("mode", .num), ("flags", .num)]),
  -- pkg/event/call/fstat.go:10-13
  ("Fstat", [
    ("fd", .num), ("stat_buf", .raw), ("stat_buf.unused", .raw)]),
  -- pkg/event/call/ftruncate.go:9-12
  ("Ftruncate", [
    ("fd", .num), ("length", .num)]),
  -- pkg/event/call/futex.go:9-13
  ("Futex", [
    ("uaddr", .num), ("op", .num), ("val", .num)]),
  -- pkg/event/call/getcwd.go:9-12
  ("Getcwd", [
    ("buf", .text), ("size", .num)]),
  -- pkg/event/call/getpeername.go:9-12
  ("Getpeername", [
    ("fd", .num), ("saddr", .sock)]),
  -- pkg/event/call/getsockname.go:9-12
  ("Getsockname", [
    ("fd", .num), ("saddr", .sock)]),
  -- pkg/event/call/sockopt.go:23-29
  ("Getsockopt", [
    ("fd", .num), ("level", .level), ("name.tp", .optTp), ("name.lv", .optLv), ("val", .raw),
    ("len", .num)]),
  -- pkg/event/call/inotify_add_watch.go:14-18
  ("INotifyAddWatch", [
    ("fd", .num), ("pathname", .text), ("mask", .flags .inotify)]),
  -- pkg/event/call/init_module.go:9-13
  ("InitModule", [
    ("name", .text), ("len", .num), ("params", .text)]),
  -- pkg/event/call/kill.go:9-12
  ("Kill", [
    ("pid", .num), ("sig", .num)]),
  -- pkg/event/call/link.go:9-12
  ("Link", [
    ("old_name", .text), ("new_name", .text)]),
  -- pkg/event/call/listen.go:9-12
  ("Listen", [
    ("sock", .num), ("backlog", .num)]),
  -- pkg/event/call/mincore.go:9-13
  ("Mincore", [
    ("addr", .num), ("len", .num), ("vec", .num)]),
  -- pkg/event/call/mkdir.go:11-14
  ("Mkdir", [
    ("pathname", .text), ("mode", .num)]),
  -- pkg/event/call/mount.go:13-18
  ("Mount", [
    ("device", .text), ("directory", .text), ("type", .text), ("flags", .flags .mount)]),
  -- pkg/event/call/mprotect.go:12-17
  ("Mprotect", [
    ("addr", .num), ("len", .num), ("prot", .num), ("addr_data", .raw)]),
  -- pkg/event/call/nanosleep.go:10-13
  ("Nanosleep", [
    ("req", .ptrs), ("rem", .ptrs)]),
  -- pkg/event/call/open.go:9-14
  ("Open", [
    ("filename", .text), ("flags", .flags .file), ("mode", .num), ("ret", .num)]),
  -- pkg/event/call/openat.go:9-13
  ("Openat", [
    ("dir_fd", .num), ("pathname", .text), ("flags", .flags .file)]),
  -- pkg/event/call/pivot_root.go:9-12
  ("PivotRoot", [
    ("new_root", .text), ("old_root", .text)]),
  -- pkg/event/call/prlimit64.go:16-21
  ("Prlimit64", [
    ("pid", .num), ("resource", .rlimit), ("new", .raw), ("old", .raw)]),
  -- pkg/event/call/ptrace.go:14-19
  ("Ptrace", [
    ("request", .num), ("pid", .num), ("addr", .num), ("data", .num)]),
  -- pkg/event/call/read.go:9-13
  ("Read", [
    ("fd", .num), ("buf", .raw), ("count", .num)]),
  -- pkg/event/call/readlink.go:9-13
  ("Readlink", [
    ("pathname", .text), ("buf", .raw), ("size", .num)]),
  -- pkg/event/call/readlinkat.go:9-14
  ("Readlinkat", [
    ("dir_fd", .num), ("pathname", .text), ("buf", .raw), ("size", .num)]),
  -- pkg/event/call/recvfrom.go:9-16
  ("Recvfrom", [
    ("fd", .num), ("ubuf", .raw), ("size", .num), ("o_size", .num), ("flags", .flags .msg),
    ("saddr", .sock)]),
  -- pkg/event/call/rename.go:9-12
  ("Rename", [
    ("old_name", .text), ("new_name", .text)]),
  -- pkg/event/call/rmdir.go:9-11
  ("Rmdir", [
    ("pathname", .text)]),
  -- pkg/event/call/seccomp.go:9-13
  ("Seccomp", [
    ("op", .num), ("flags", .num), ("args", .text)]),
  -- pkg/event/call/sendto.go:9-15
  ("Sendto", [
    ("fd", .num), ("ubuf", .raw), ("size", .num), ("flags", .flags .msg), ("saddr", .sock)]),
  -- pkg/event/call/setns.go:9-12
  ("Setns", [
    ("fd", .num), ("ns_type", .num)]),
  -- pkg/event/call/sockopt.go:23-29
  ("Setsockopt", [
    ("fd", .num), ("level", .level), ("name.tp", .optTp), ("name.lv", .optLv), ("val", .raw),
    ("len", .num)]),
  -- pkg/event/call/setuid.go:9-11
  ("Setuid", [
    ("uid", .num)]),
  -- pkg/event/call/socket.go:19-23
  ("Socket", [
    ("family", .family), ("type", .sockType), ("protocol", .proto)]),
  -- pkg/event/call/stat.go:10-13
  ("Stat", [
    ("filename", .text), ("stat_buf", .raw), ("stat_buf.unused", .raw)]),
  -- pkg/event/call/statfs.go:10-13
  ("Statfs", [
    ("path", .text), ("stat_buf", .raw), ("stat_buf.unused", .raw)]),
  -- pkg/event/call/symlink.go:9-12
  ("Symlink", [
    ("target", .text), ("linkpath", .text)]),
  -- pkg/event/call/syslog.go:9-13
  ("Syslog", [
    ("type", .num), ("buf", .text), ("len", .num)]),
  -- pkg/event/call/timerfd_create.go:9-12
  ("TimerFDCreate", [
    ("clock", .num), ("flags", .flags .timer)]),
  -- pkg/event/call/timerfd_settime.go:9-14
  ("TimerFDSettime", [
    ("fd", .num), ("flags", .flags .timer), ("new", .raw), ("old", .raw)]),
  -- pkg/event/call/umount2.go:9-12
  ("Umount2", [
    ("target", .text), ("flags", .flags .umount)]),
  -- pkg/event/call/unlink.go:9-11
  ("Unlink", [
    ("pathname", .text)]),
  -- pkg/event/call/write.go:9-13
  ("Write", [
    ("fd", .num), ("buf", .raw), ("count", .num)])]

/-! ### Fields -/

/-- A JSON value: a number, a string of arbitrary text, a string naming a constant, an array of
names, a string or structure standing for bytes, or for part of the pointer array.
(as made by the methods of pkg/event/call/*.go and pkg/types/*.go) -/
inductive JVal where
  | num (i : Int)
  | text (bs : List Byte)
  | name (s : String)
  | names (l : List String)
  | bytes (bs : List Byte)
  | ptrs (i n : Nat)
  deriving DecidableEq

/-- The reverse tables built by the `init` functions, and the orders in which the flag tables are
iterated. (errno.go:55-60, socket.go:258-268, sockopt.go:339-364) -/
structure Env where
  errno : GoMap String Int
  family : GoMap String Int
  proto : GoMap String Int
  level : GoMap String Int
  opt : OptKeys
  order : FlagSort → List (Word × String)

/-- The integer in the field of that name, 0 if there is none. (fields of pkg/event/call/*.go) -/
def intAt (fields : List (String × Val)) (name : String) : Int :=
  match fields.lookup name with
  | some (.int i) => i
  | _ => 0

/-- `MarshalJSON` of a field; `fields` are all fields of the structure. Bytes outside the event's
argument area are not modelled: writing them counts as a crash.
(the methods of pkg/event/call/*.go and pkg/types/*.go modelled in Model/Flags) -/
def marshal (env : Env) (fields : List (String × Val)) : Kind → Val → Res JVal
  | .num, .int i => .ok (.num i)
  | .text, .str bs => .ok (.text (jsonText bs))
  | .raw, .buf bs => .ok (.bytes bs)
  | .ptrs, .ptrs i n => .ok (.ptrs i n)
  | .sock, .buf bs => .ok (.bytes (sockAddrThroughJSON bs))
  | .flags s, .int i => .ok (.names (parse s.type (env.order s) (BitVec.ofInt 64 i)))
  | .family, .int i => .ok (.name (nameOf sockFamilyMap i))
  | .proto, .int i => .ok (.name (nameOf sockProtoMap i))
  | .level, .int i => .ok (.name (nameOf sockLevelMap i))
  | .rlimit, .int i => .ok (.name (rlimitName i))
  | .sockType, .int i => .ok (.names (sockTypeParse (BitVec.ofInt 64 i)))
  | .optTp, .int _ | .optLv, .int _ =>
    .ok (.name (SockoptName.parse { tp := intAt fields "name.tp", lv := intAt fields "name.lv" }))
  | _, _ => .panic

/-- An optional result of an `UnmarshalJSON` method. (the methods of pkg/event/call/*.go) -/
def resInt : Option Int → Res Val
  | some i => .ok (.int i)
  | none => .err

/-- `UnmarshalJSON` of a field of a new structure. A value of another JSON type is an error.
(the methods of pkg/event/call/*.go and pkg/types/*.go modelled in Model/Flags) -/
def unmarshal (env : Env) : Kind → JVal → Res Val
  | .num, .num i => .ok (.int i)
  | .text, .text bs => .ok (.str bs)
  | .raw, .bytes bs => .ok (.buf bs)
  | .ptrs, .ptrs i n => .ok (.ptrs i n)
  | .sock, .bytes bs => .ok (.buf bs)
  | .flags s, .names l => .ok (.int (Flags.unmarshal s.type 0 l).toInt)
  | .family, .name s => resInt (valueOf env.family s)
  | .proto, .name s => resInt (valueOf env.proto s)
  | .level, .name s => resInt (valueOf env.level s)
  | .rlimit, .name s => resInt (rlimitValue s)
  | .sockType, .names l => .ok (.int (sockTypeUnmarshal l).toInt)
  | .optTp, .name s => resInt ((sockoptUnmarshal env.opt s).map (·.tp))
  | .optLv, .name s => resInt ((sockoptUnmarshal env.opt s).map (·.lv))
  | _, _ => .err

/-- The zero value of a field, which it keeps when the JSON object has no such member.
(Library, used at pkg/event/trace.go:199-201.) -/
def zeroVal : Kind → Val
  | .text => .str []
  | .raw | .sock => .buf []
  | .ptrs => .ptrs 0 0
  | _ => .int 0

/-- Run a list of steps, stopping at the first that does not succeed.
(Library, used at pkg/event/trace.go:199-201.) -/
def allOk {α β : Type} (f : α → Res β) : List α → Res (List β)
  | [] => .ok []
  | a :: l => match f a with
    | .ok b => match allOk f l with
      | .ok bs => .ok (b :: bs)
      | .err => .err
      | .panic => .panic
    | .err => .err
    | .panic => .panic

/-- A field of the arguments `argv`, of a structure with fields `ks`, as JSON.
(Library, over the types of pkg/event/call/*.go.) -/
def writeField (env : Env) (ks : List (String × Kind)) (argv : List (String × Val))
    (f : String × Val) : Res (String × JVal) :=
  match ks.lookup f.1 with
  | some k => match marshal env argv k f.2 with
    | .ok j => .ok (f.1, j)
    | .err => .err
    | .panic => .panic
  | none => .panic

/-- A field of a new structure read from a JSON object.
(Library, used at pkg/event/trace.go:199-201.) -/
def readField (env : Env) (j : List (String × JVal)) (f : String × Kind) : Res (String × Val) :=
  match j.lookup f.1 with
  | none => .ok (f.1, zeroVal f.2)
  | some v => match unmarshal env f.2 v with
    | .ok w => .ok (f.1, w)
    | .err => .err
    | .panic => .panic

/-- `json.Marshal` of the arguments, a structure of type `t`.
(Library, over pkg/event/trace.go:18-35.) -/
def writeArgs (env : Env) (t : String) (argv : List (String × Val)) : Res (List (String × JVal)) :=
  allOk (writeField env ((fieldKinds.lookup t).getD []) argv) argv

/-- `json.Unmarshal` into a new structure of type `t`, trace.go:199-201. -/
def readArgs (env : Env) (t : String) (j : List (String × JVal)) : Res (List (String × Val)) :=
  allOk (readField env j) ((fieldKinds.lookup t).getD [])

/-! ### Events -/

/-- A container through JSON: all members are `omitempty` (pkg/types/container.go:5-15), so an
empty label map comes back as none. (Container strings are Lean strings, well-formed.) -/
def containerThroughJSON (c : Topology.Container) : Topology.Container :=
  { c with labels := if c.labels = some [] then none else c.labels }

/-- The JSON of an event: header members and the arguments, trace.go:18-35. -/
structure JEvent where
  header : TraceEvent Topology.Container
  comm : List Byte
  error : String
  args : List (String × JVal)

/-- `json.Marshal` of a `TraceEvent`. Its `Argv` holds the type `DecodeSyscall` chose for system
call `nr`; header members that are plain numbers are carried by `header`.
(pkg/event/trace.go:18-35) -/
def write (env : Env) (nr : Nat) (ev : TraceEvent Topology.Container) : Res JEvent :=
  match decodeTypes.lookup nr with
  | none => .err
  | some t => match writeArgs env t ev.argv with
    | .ok a => .ok
      { header := { ev with container := ev.container.map containerThroughJSON }
        comm := jsonText ev.comm, error := errnoToString ev.error, args := a }
    | .err => .err
    | .panic => .panic

/-- `TraceEvent.UnmarshalJSON`, trace.go:63-205: a nil pointer dereference without a system call
(77), an error for a system call not in the `switch` (199: unmarshalling into a nil interface). -/
def read (env : Env) (j : JEvent) : Res (TraceEvent Topology.Container) :=
  match j.header.syscall with
  | none => .panic
  | some s => match jsonTypes.lookup s.nr with
    | none => .err
    | some t => match readArgs env t j.args with
      | .ok a => .ok { j.header with
          comm := j.comm, error := stringToErrno env.errno j.error, argv := a }
      | .err => .err
      | .panic => .panic

/-- An event as a client sees it. `nr` is the system call number the event was decoded for.
(the server writes it (cmd/server.go:212, 253), the client reads it, pkg/client/endpoint.go:224) -/
def throughJSON (env : Env) (nr : Nat) (ev : TraceEvent Topology.Container) :
    Res (TraceEvent Topology.Container) :=
  match write env nr ev with
  | .ok j => read env j
  | .err => .err
  | .panic => .panic

end Swoll.EventJSON
