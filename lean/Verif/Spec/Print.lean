import Verif.Spec.Event
import Verif.Spec.Flags
import Verif.Spec.Linux
/-
What a person reading a printed event expects of each argument, written from the manual pages:
which arguments a system call has, in which order and under which names, what each holds, and
how such a value reads.
-/
namespace Swoll.Spec.Print
open Swoll.Bytes Swoll.Event Swoll.Spec.Event Swoll.Spec.Flags

/-- The kinds of arguments. Numbers are positions of other arguments; `object n` is a structure of
`n` bytes the argument points to. -/
inductive Arg where
  | int | uint | long | addr | path | object (n : Nat)
  | buffer (size : Nat) | buffer32 (size : Nat) | bufferAt (size : Nat) | intAt
  deriving DecidableEq, Repr

/-- What the argument of this kind at position `k` holds. -/
def Arg.at (k : Nat) : Arg → Meaning
  | .int => .s32 k
  | .uint => .u32 k
  | .long => .s64 k
  | .addr => .u64 k
  | .path => .cstr k
  | .object n => .obj k 0 n
  | .buffer s => .buf k s
  | .buffer32 s => .buf32 k s
  | .bufferAt s => .bufAt k s
  | .intAt => .deref k

/-- The arguments that are sets of flags. -/
inductive Bits where
  | «open» | msg | timer | umount | accept | inotify | mount | clone | access | prot
  deriving DecidableEq, Repr

/-- Where they are documented. -/
def Bits.doc : Bits → Doc
  | .open => fileFlags
  | .msg => msgFlags
  | .timer => timerFlags
  | .umount => umountFlags
  | .accept => acceptFlags
  | .inotify => inotifyMask
  | .mount => mountFlags
  | .clone => cloneFlags
  | .access => xmodeFlags
  | .prot => protFlags

/-- How a value should read. -/
inductive Reading where
  | number | text | bytes | permissions | directory | address | socketType
  | family | protocol | level | option | request | limit
  | flags (b : Bits)
  /-- a structure: its members with the text before each, the offset, the width, and whether the
  member is signed; and the text after the last -/
  | record (members : List (String × Nat × Nat × Bool)) (close : String)
  /-- the same, possibly behind `&`, and possibly followed by more members -/
  | start (members : List (String × Nat × Nat × Bool)) (close : String)
  deriving DecidableEq, Repr

/-- A number in decimal. -/
def decimal (v : Int) : List Char := (toString v).toList

/-- Items with a separator between them. -/
def separated (sep : Char) (items : List (List Char)) : List Char := List.intercalate [sep] items

/-- By a name Linux has for it, or in decimal. -/
def NameOrNumber (names : List (Int × String)) (v : Int) (t : List Char) : Prop :=
  (∃ n, (v, n) ∈ names ∧ t = n.toList) ∨ t = decimal v

/-- The names of the flags that are set, each once, with `|` between them, in any order; where no
flag has a name also the number. -/
def FlagNames (d : Doc) (v : Int) (t : List Char) : Prop :=
  (∃ ns : List String, ns.Nodup ∧ (∀ n, n ∈ ns ↔ Describes d (BitVec.ofInt 64 v) n) ∧
    t = separated '|' (ns.map (·.toList))) ∨
  ((∀ n, ¬ Describes d (BitVec.ofInt 64 v) n) ∧ t = decimal v)

/-- Values for which the names of the flags are well defined (see `c41_file_names_iff` and
`c41_mount_names_iff`): the two bits of `O_SYNC` go together; mount flags have no bits above the
highest one. -/
def Bits.Regular (f : BitVec 64) : Bits → Prop
  | .open => f.getLsbD 12 = f.getLsbD 20
  | .mount => f.getLsbD 31 = true ∨ ∀ i, 32 ≤ i → i < 64 → f.getLsbD i = false
  | _ => True

/-- The permissions of a file mode, as in `ls -l`. -/
def permissions (v : Nat) : List Char :=
  [(8, 'r'), (7, 'w'), (6, 'x'), (5, 'r'), (4, 'w'), (3, 'x'), (2, 'r'), (1, 'w'), (0, 'x')].map
    fun p => if v.testBit p.1 then p.2 else '-'

/-- One member of a structure. -/
def member (bs : List Byte) (off width : Nat) (signed : Bool) : Int :=
  let n := leVal (window bs off width)
  if signed ∧ 2 ^ (8 * width - 1) ≤ n then (n : Int) - 2 ^ (8 * width) else n

/-- The text of a structure. -/
def record (members : List (String × Nat × Nat × Bool)) (close : String) (bs : List Byte) :
    List Char :=
  (members.flatMap fun m => m.1.toList ++ decimal (member bs m.2.1 m.2.2.1 m.2.2.2)) ++
    close.toList

/-- The name of a socket type (the low four bits of the argument), or its number in angle
brackets. -/
def socketTypeName (n : Nat) : List Char :=
  match [(1, "SOCK_STREAM"), (2, "SOCK_DGRAM"), (3, "SOCK_RAW"), (4, "SOCK_RDM"),
      (5, "SOCK_SEQPACKET"), (10, "SOCK_PACKET")].lookup n with
  | some s => s.toList
  | none => "<".toList ++ decimal n ++ ">".toList

/-- The names of the options of a level. -/
def optionNames (level : Int) : List (Int × String) :=
  if level = 1 then Linux.socketOptions
  else if level = 6 then Linux.tcpOptions
  else if level = 0 then Linux.ipOptions
  else if level = 41 then Linux.ipv6Options
  else []

/-- The text of a socket address: an IPv4 address and port, and a path of the file system. (For
other families nothing is required here; the port of IPv6 addresses is printed wrong, see
`c44_ipv6_violated`.) -/
def AddressText (bs : List Byte) (t : List Char) : Prop :=
  (∀ hi lo a b c d rest, bs = [2, 0, hi, lo, a, b, c, d] ++ rest →
    t = "ipv4:".toList ++ separated '.' ([a, b, c, d].map fun x => decimal x.toNat) ++ [':'] ++
      decimal (bigEndian16 hi lo)) ∧
  (∀ path rest, bs = [1, 0] ++ path ++ [0] ++ rest → (0 : Byte) ∉ path → path.length < 108 →
    t = "unix:".toList ++ path.map (fun b => Char.ofNat b.toNat) ++ ":0".toList)

/-- The text reads as the value, an argument of call `c`. -/
def Reads (c : Call) : Reading → Val → List Char → Prop
  | .number, .int v, t => t = decimal v
  | .text, .str s, t => t = s.map fun b => Char.ofNat b.toNat
  | .bytes, .buf bs, t => t = ['['] ++ separated ' ' (bs.map fun b => decimal b.toNat) ++ [']']
  | .permissions, .int v, t => ∃ kind, t = kind ++ permissions v.toNat
  | .directory, .int v, t => t = if v = -100 then "AT_FDCWD".toList else decimal v
  | .address, .buf bs, t => AddressText bs t
  | .socketType, .int v, t =>
    ∃ ns : List String, ns.Nodup ∧
      (∀ n, n ∈ ns ↔ (n = "SOCK_CLOEXEC" ∧ (BitVec.ofInt 64 v).getLsbD 19 = true) ∨
        (n = "SOCK_NONBLOCK" ∧ (BitVec.ofInt 64 v).getLsbD 11 = true)) ∧
      t = separated '|' (socketTypeName (v % 16).toNat :: ns.map (·.toList))
  | .family, .int v, t => NameOrNumber Linux.families v t
  | .protocol, .int v, t =>
    -- protocols have these names in the internet families, 2 and 10
    ((c.args 0).setWidth 32).toInt ∈ [(2 : Int), 10] → NameOrNumber Linux.protocols v t
  | .level, .int v, t => NameOrNumber Linux.levels v t
  | .option, .int v, t => NameOrNumber (optionNames ((c.args 1).setWidth 32).toInt) v t
  | .request, .int v, t => NameOrNumber Linux.ptraceRequests v t
  | .limit, .int v, t => NameOrNumber Linux.limits v t
  | .flags b, .int v, t => b.Regular (BitVec.ofInt 64 v) → FlagNames b.doc v t
  | .record ms close, .buf bs, t => t = record ms close bs
  | .start ms close, .buf bs, t =>
    ∃ pre rest, (pre = [] ∨ pre = ['&']) ∧ t = pre ++ record ms close bs ++ rest
  | _, _, _ => False

/-- Where a socket address leads: a port and IPv4 address, or a path. -/
inductive Place where
  | inet (portAndAddress : List Byte)
  | path (name : List Byte)

/-- A socket address leads there. -/
def IsAt (bs : List Byte) : Place → Prop
  | .inet p => p.length = 6 ∧ ∃ rest, bs = [2, 0] ++ p ++ rest
  | .path p => (0 : Byte) ∉ p ∧ p.length < 108 ∧ ∃ rest, bs = [1, 0] ++ p ++ [0] ++ rest

/-- Two values, passed in the same place by calls `c₁` and `c₂`, that are the same as far as a
person needs to tell: the same number, string or bytes; the same permission bits; the same
type and flags of a socket; the same names of flags; the same members of a structure; the same
IPv4 address and port, or the same path. -/
def Same (c₁ c₂ : Call) : Reading → Val → Val → Prop
  | .permissions, .int v, .int w => ∀ i < 9, v.toNat.testBit i = w.toNat.testBit i
  | .socketType, .int v, .int w => v % 16 = w % 16 ∧
    (BitVec.ofInt 64 v).getLsbD 19 = (BitVec.ofInt 64 w).getLsbD 19 ∧
    (BitVec.ofInt 64 v).getLsbD 11 = (BitVec.ofInt 64 w).getLsbD 11
  | .protocol, v, w =>
    ((c₁.args 0).setWidth 32).toInt ∈ [(2 : Int), 10] →
    ((c₂.args 0).setWidth 32).toInt ∈ [(2 : Int), 10] → v = w
  | .option, v, w => (c₁.args 1).setWidth 32 = (c₂.args 1).setWidth 32 → v = w
  | .flags b, .int v, .int w =>
    b.Regular (BitVec.ofInt 64 v) → b.Regular (BitVec.ofInt 64 w) →
    ∀ n, Describes b.doc (BitVec.ofInt 64 v) n ↔ Describes b.doc (BitVec.ofInt 64 w) n
  | .record ms _, .buf bs, .buf bs' | .start ms _, .buf bs, .buf bs' =>
    ∀ m ∈ ms, member bs m.2.1 m.2.2.1 m.2.2.2 = member bs' m.2.1 m.2.2.1 m.2.2.2
  | .address, .buf bs, .buf bs' =>
    ∀ p q, IsAt bs p → IsAt bs' q → p = q
  | _, v, w => v = w

/-- An argument of a system call: the names the manual page or the kernel has for it, its kind and
how it reads. -/
structure Param where
  names : List String
  kind : Arg
  reading : Reading
  deriving DecidableEq, Repr

/-- `struct rlimit`, getrlimit(2) -/
def rlimit : Reading := .record [("{", 0, 8, false), (" ", 8, 8, false)] "}"

/-- `struct timespec`, nanosleep(2) -/
def timespec : Reading := .record [("{", 0, 8, true), (" ", 8, 8, true)] "}"

/-- `struct itimerspec`, timerfd_settime(2) -/
def itimerspec : Reading :=
  .record [("{{", 0, 8, true), (" ", 8, 8, true), ("} {", 16, 8, true), (" ", 24, 8, true)] "}}"

/-- `struct stat` up to the reserved members, stat(2): device, inode, links, mode, owner, group,
padding, device number, size, block size, blocks, and the three times. -/
def stat : Reading :=
  .start [("{", 0, 8, false), (" ", 8, 8, false), (" ", 16, 8, false), (" ", 24, 4, false),
    (" ", 28, 4, false), (" ", 32, 4, false), (" ", 36, 4, true), (" ", 40, 8, false),
    (" ", 48, 8, true), (" ", 56, 8, true), (" ", 64, 8, true), (" {", 72, 8, true),
    (" ", 80, 8, true), ("} {", 88, 8, true), (" ", 96, 8, true), ("} {", 104, 8, true),
    (" ", 112, 8, true)] "}"

/-- `struct statfs` up to the reserved members, statfs(2): type, block size, blocks, free and
available blocks, files, free files, id, name length, fragment size, flags. -/
def statfs : Reading :=
  .start [("{", 0, 8, true), (" ", 8, 8, true), (" ", 16, 8, false), (" ", 24, 8, false),
    (" ", 32, 8, false), (" ", 40, 8, false), (" ", 48, 8, false), (" {{[", 56, 4, true),
    (" ", 60, 4, true), ("]}} ", 64, 8, true), (" ", 72, 8, true), (" ", 80, 8, true)] " "

/-- The system calls, manual section 2, as x86-64 Linux has them. (`execve` is reported by its own
tracepoint and treated separately.) -/
def prototypes : List (Nat × List Param) := [
  (nr.sys_accept, [⟨["sockfd"], .int, .number⟩, ⟨["addr"], .object 110, .address⟩,
    ⟨["addrlen"], .addr, .number⟩]),
  (nr.sys_accept4, [⟨["sockfd"], .int, .number⟩, ⟨["addr"], .object 110, .address⟩,
    ⟨["addrlen"], .addr, .number⟩, ⟨["flags"], .int, .flags .accept⟩]),
  (nr.sys_alarm, [⟨["seconds"], .uint, .number⟩]),
  (nr.sys_acct, [⟨["filename", "pathname"], .path, .text⟩]),
  (nr.sys_brk, [⟨["addr"], .addr, .number⟩]),
  (nr.sys_connect, [⟨["sockfd"], .int, .number⟩, ⟨["addr"], .object 110, .address⟩,
    ⟨["addrlen"], .int, .number⟩]),
  (nr.sys_clone, [⟨["flags"], .long, .flags .clone⟩, ⟨["stack"], .addr, .number⟩,
    ⟨["parent_tid"], .addr, .number⟩, ⟨["child_tid"], .addr, .number⟩, ⟨["tls"], .addr, .number⟩]),
  (nr.sys_close, [⟨["fd"], .int, .number⟩]),
  (nr.sys_creat, [⟨["pathname"], .path, .text⟩, ⟨["mode"], .uint, .permissions⟩]),
  (nr.sys_exit, [⟨["status"], .int, .number⟩]),
  (nr.sys_faccessat, [⟨["dirfd"], .int, .directory⟩, ⟨["pathname"], .path, .text⟩,
    ⟨["mode"], .uint, .flags .access⟩]),
  (nr.sys_fstat, [⟨["fd"], .int, .number⟩, ⟨["statbuf"], .object 120, stat⟩]),
  (nr.sys_ftruncate, [⟨["fd"], .int, .number⟩, ⟨["length"], .long, .number⟩]),
  (nr.sys_futex, [⟨["uaddr"], .addr, .number⟩, ⟨["futex_op"], .int, .number⟩,
    ⟨["val"], .uint, .number⟩, ⟨["timeout"], .addr, .number⟩, ⟨["uaddr2"], .addr, .number⟩,
    ⟨["val3"], .uint, .number⟩]),
  (nr.sys_getcwd, [⟨["buf"], .path, .text⟩, ⟨["size"], .long, .number⟩]),
  (nr.sys_getpeername, [⟨["sockfd"], .int, .number⟩, ⟨["addr"], .object 110, .address⟩,
    ⟨["addrlen"], .addr, .number⟩]),
  (nr.sys_getsockname, [⟨["sockfd"], .int, .number⟩, ⟨["addr"], .object 110, .address⟩,
    ⟨["addrlen"], .addr, .number⟩]),
  (nr.sys_getsockopt, [⟨["sockfd"], .int, .number⟩, ⟨["level"], .int, .level⟩,
    ⟨["optname"], .int, .option⟩, ⟨["optval"], .bufferAt 4, .bytes⟩,
    ⟨["optlen"], .intAt, .number⟩]),
  (nr.sys_init_module, [⟨["module_image"], .buffer 1, .bytes⟩, ⟨["len"], .long, .number⟩,
    ⟨["param_values"], .path, .text⟩]),
  (nr.sys_inotify_add_watch, [⟨["fd"], .int, .number⟩, ⟨["pathname"], .path, .text⟩,
    ⟨["mask"], .uint, .flags .inotify⟩]),
  (nr.sys_kill, [⟨["pid"], .int, .number⟩, ⟨["sig"], .int, .number⟩]),
  (nr.sys_link, [⟨["oldpath"], .path, .text⟩, ⟨["newpath"], .path, .text⟩]),
  (nr.sys_listen, [⟨["sockfd"], .int, .number⟩, ⟨["backlog"], .int, .number⟩]),
  (nr.sys_mincore, [⟨["addr"], .addr, .number⟩, ⟨["length", "len"], .long, .number⟩,
    ⟨["vec"], .addr, .number⟩]),
  (nr.sys_mkdir, [⟨["pathname"], .path, .text⟩, ⟨["mode"], .uint, .permissions⟩]),
  (nr.sys_mount, [⟨["source"], .path, .text⟩, ⟨["target"], .path, .text⟩,
    ⟨["filesystemtype"], .path, .text⟩, ⟨["mountflags"], .long, .flags .mount⟩,
    ⟨["data"], .addr, .number⟩]),
  (nr.sys_mprotect, [⟨["addr"], .addr, .number⟩, ⟨["len"], .long, .number⟩,
    ⟨["prot"], .int, .flags .prot⟩]),
  (nr.sys_nanosleep, [⟨["req"], .object 16, timespec⟩, ⟨["rem"], .object 16, timespec⟩]),
  (nr.sys_pivot_root, [⟨["new_root"], .path, .text⟩, ⟨["put_old"], .path, .text⟩]),
  (nr.sys_prlimit64, [⟨["pid"], .int, .number⟩, ⟨["resource"], .int, .limit⟩,
    ⟨["new_limit"], .object 16, rlimit⟩, ⟨["old_limit"], .object 16, rlimit⟩]),
  (nr.sys_ptrace, [⟨["request"], .int, .request⟩, ⟨["pid"], .int, .number⟩,
    ⟨["addr"], .addr, .number⟩, ⟨["data"], .addr, .number⟩]),
  (nr.sys_read, [⟨["fd"], .int, .number⟩, ⟨["buf"], .buffer 2, .bytes⟩,
    ⟨["count"], .long, .number⟩]),
  (nr.sys_readlink, [⟨["pathname"], .path, .text⟩, ⟨["buf"], .buffer 2, .bytes⟩,
    ⟨["bufsiz"], .long, .number⟩]),
  (nr.sys_readlinkat, [⟨["dirfd"], .int, .directory⟩, ⟨["pathname"], .path, .text⟩,
    ⟨["buf"], .buffer 3, .bytes⟩, ⟨["bufsiz"], .long, .number⟩]),
  (nr.sys_recvfrom, [⟨["sockfd"], .int, .number⟩, ⟨["buf"], .buffer 2, .bytes⟩,
    ⟨["len"], .long, .number⟩, ⟨["flags"], .uint, .flags .msg⟩,
    ⟨["src_addr"], .object 110, .address⟩, ⟨["addrlen"], .addr, .number⟩]),
  (nr.sys_rename, [⟨["oldpath"], .path, .text⟩, ⟨["newpath"], .path, .text⟩]),
  (nr.sys_rmdir, [⟨["pathname"], .path, .text⟩]),
  (nr.sys_seccomp, [⟨["operation"], .uint, .number⟩, ⟨["flags"], .uint, .number⟩,
    ⟨["args"], .addr, .number⟩]),
  (nr.sys_sendto, [⟨["sockfd"], .int, .number⟩, ⟨["buf"], .buffer 2, .bytes⟩,
    ⟨["len"], .long, .number⟩, ⟨["flags"], .int, .flags .msg⟩,
    ⟨["dest_addr"], .object 110, .address⟩, ⟨["addrlen"], .int, .number⟩]),
  (nr.sys_setns, [⟨["fd"], .int, .number⟩, ⟨["nstype"], .int, .flags .clone⟩]),
  (nr.sys_setsockopt, [⟨["sockfd"], .int, .number⟩, ⟨["level"], .int, .level⟩,
    ⟨["optname"], .int, .option⟩, ⟨["optval"], .buffer32 4, .bytes⟩,
    ⟨["optlen"], .int, .number⟩]),
  (nr.sys_bind, [⟨["sockfd"], .int, .number⟩, ⟨["addr"], .object 110, .address⟩,
    ⟨["addrlen"], .int, .number⟩]),
  (nr.sys_open, [⟨["pathname"], .path, .text⟩, ⟨["flags"], .int, .flags .open⟩,
    ⟨["mode"], .int, .number⟩]),
  (nr.sys_openat, [⟨["dirfd"], .int, .directory⟩, ⟨["pathname"], .path, .text⟩,
    ⟨["flags"], .int, .flags .open⟩, ⟨["mode"], .uint, .permissions⟩]),
  (nr.sys_chdir, [⟨["path"], .path, .text⟩]),
  (nr.sys_chroot, [⟨["path"], .path, .text⟩]),
  (nr.sys_access, [⟨["pathname"], .path, .text⟩, ⟨["mode"], .int, .flags .access⟩]),
  (nr.sys_write, [⟨["fd"], .int, .number⟩, ⟨["buf"], .buffer 2, .bytes⟩,
    ⟨["count"], .long, .number⟩]),
  (nr.sys_unlink, [⟨["pathname"], .path, .text⟩]),
  (nr.sys_umount2, [⟨["target"], .path, .text⟩, ⟨["flags"], .int, .flags .umount⟩]),
  (nr.sys_timerfd_settime, [⟨["fd"], .int, .number⟩, ⟨["flags"], .int, .flags .timer⟩,
    ⟨["new_value"], .object 32, itimerspec⟩, ⟨["old_value"], .object 32, itimerspec⟩]),
  (nr.sys_timerfd_create, [⟨["clockid"], .int, .number⟩, ⟨["flags"], .int, .flags .timer⟩]),
  (nr.sys_syslog, [⟨["type"], .int, .number⟩, ⟨["bufp"], .path, .text⟩,
    ⟨["len"], .int, .number⟩]),
  (nr.sys_symlink, [⟨["target"], .path, .text⟩, ⟨["linkpath"], .path, .text⟩]),
  (nr.sys_statfs, [⟨["path"], .path, .text⟩, ⟨["buf"], .object 120, statfs⟩]),
  (nr.sys_stat, [⟨["pathname"], .path, .text⟩, ⟨["statbuf"], .object 120, stat⟩]),
  (nr.sys_socket, [⟨["domain"], .int, .family⟩, ⟨["type"], .int, .socketType⟩,
    ⟨["protocol"], .int, .protocol⟩]),
  (nr.sys_setuid, [⟨["uid"], .uint, .number⟩])]

/-- The argument a printed name stands for: its position and description. -/
def paramOf (n : Nat) (name : String) : Option (Nat × Param) :=
  (prototypes.lookup n).bind fun ps =>
    ((List.range ps.length).zip ps).find? fun p => p.2.names.contains name

/-- Printed arguments that do not, in general, say what the system call was given
(`c89_misprinted_are_real`). -/
def misprinted : List (Nat × String) := [
  (nr.sys_accept4, "flags"), (nr.sys_clone, "fn"), (nr.sys_clone, "child_stack"),
  (nr.sys_faccessat, "mode"), (nr.sys_faccessat, "flags"), (nr.sys_ftruncate, "length"),
  (nr.sys_futex, "uaddr"), (nr.sys_getsockopt, "optval"), (nr.sys_init_module, "module_image"),
  (nr.sys_mincore, "vec"), (nr.sys_nanosleep, "req"), (nr.sys_nanosleep, "rem"),
  (nr.sys_recvfrom, "buf"), (nr.sys_recvfrom, "len"), (nr.sys_seccomp, "args"),
  (nr.sys_sendto, "buf"), (nr.sys_setsockopt, "optval"), (nr.sys_timerfd_settime, "fd"),
  (nr.sys_timerfd_settime, "flags"), (nr.sys_statfs, "buf")]

/-- The C types of the arguments in section 2 of the Linux manual, `const` aside; where the manual changed
its mind both are listed. (The types of `execve` and of `faccessat`'s flags are those of the C library.) -/
def ctypes : List (Nat × List (String × List String)) := [
  (nr.sys_accept, [("sockfd", ["int"]), ("addr", ["struct sockaddr *"])]),
  (nr.sys_accept4, [("sockfd", ["int"]), ("addr", ["struct sockaddr *"]), ("flags", ["int"])]),
  (nr.sys_alarm, [("seconds", ["unsigned int"])]),
  (nr.sys_acct, [("pathname", ["char *"])]),
  (nr.sys_brk, [("addr", ["void *"])]),
  (nr.sys_connect, [("sockfd", ["int"]), ("addr", ["struct sockaddr *"])]),
  (nr.sys_clone, [("flags", ["int", "unsigned long"])]),
  (nr.sys_close, [("fd", ["int"])]),
  (nr.sys_creat, [("pathname", ["char *"]), ("mode", ["mode_t"])]),
  (nr.sys_exit, [("status", ["int"])]),
  (nr.sys_faccessat, [("dirfd", ["int"]), ("pathname", ["char *"]), ("mode", ["int"]),
    ("flags", ["int"])]),
  (nr.sys_fstat, [("fd", ["int"]), ("statbuf", ["struct stat *"])]),
  (nr.sys_ftruncate, [("fd", ["int"]), ("length", ["off_t"])]),
  (nr.sys_futex, [("uaddr", ["uint32_t *", "int *"]), ("futex_op", ["int"]),
    ("val", ["uint32_t", "int"])]),
  (nr.sys_getcwd, [("buf", ["char *"]), ("size", ["size_t"])]),
  (nr.sys_getpeername, [("sockfd", ["int"]), ("addr", ["struct sockaddr *"])]),
  (nr.sys_getsockname, [("sockfd", ["int"]), ("addr", ["struct sockaddr *"])]),
  (nr.sys_getsockopt, [("sockfd", ["int"]), ("level", ["int"]), ("optname", ["int"]),
    ("optval", ["void *"]), ("optlen", ["socklen_t *"])]),
  (nr.sys_init_module, [("module_image", ["void *"]), ("len", ["unsigned long"]),
    ("param_values", ["char *"])]),
  (nr.sys_inotify_add_watch, [("fd", ["int"]), ("pathname", ["char *"]), ("mask", ["uint32_t"])]),
  (nr.sys_kill, [("pid", ["pid_t"]), ("sig", ["int"])]),
  (nr.sys_link, [("oldpath", ["char *"]), ("newpath", ["char *"])]),
  (nr.sys_listen, [("sockfd", ["int"]), ("backlog", ["int"])]),
  (nr.sys_mincore, [("addr", ["void *"]), ("len", ["size_t"]), ("vec", ["unsigned char *"])]),
  (nr.sys_mkdir, [("pathname", ["char *"]), ("mode", ["mode_t"])]),
  (nr.sys_mount, [("source", ["char *"]), ("target", ["char *"]), ("filesystemtype", ["char *"]),
    ("mountflags", ["unsigned long"])]),
  (nr.sys_mprotect, [("addr", ["void *"]), ("len", ["size_t"]), ("prot", ["int"])]),
  (nr.sys_nanosleep, [("req", ["struct timespec *"]), ("rem", ["struct timespec *"])]),
  (nr.sys_pivot_root, [("new_root", ["char *"]), ("put_old", ["char *"])]),
  (nr.sys_prlimit64, [("pid", ["pid_t"]), ("resource", ["int"]),
    ("new_limit", ["struct rlimit *"]), ("old_limit", ["struct rlimit *"])]),
  (nr.sys_ptrace, [("request", ["enum __ptrace_request"]), ("pid", ["pid_t"]),
    ("addr", ["void *"]), ("data", ["void *"])]),
  (nr.sys_read, [("fd", ["int"]), ("buf", ["void *"]), ("count", ["size_t"])]),
  (nr.sys_readlink, [("pathname", ["char *"]), ("buf", ["char *"]), ("bufsiz", ["size_t"])]),
  (nr.sys_readlinkat, [("dirfd", ["int"]), ("pathname", ["char *"]), ("buf", ["char *"]),
    ("bufsiz", ["size_t"])]),
  (nr.sys_recvfrom, [("sockfd", ["int"]), ("buf", ["void *"]), ("len", ["size_t"]),
    ("flags", ["int"]), ("src_addr", ["struct sockaddr *"])]),
  (nr.sys_rename, [("oldpath", ["char *"]), ("newpath", ["char *"])]),
  (nr.sys_rmdir, [("pathname", ["char *"])]),
  (nr.sys_seccomp, [("operation", ["unsigned int"]), ("flags", ["unsigned int"]),
    ("args", ["void *"])]),
  (nr.sys_sendto, [("sockfd", ["int"]), ("buf", ["void *"]), ("len", ["size_t"]),
    ("flags", ["int"]), ("dest_addr", ["struct sockaddr *"])]),
  (nr.sys_setns, [("fd", ["int"]), ("nstype", ["int"])]),
  (nr.sys_setsockopt, [("sockfd", ["int"]), ("level", ["int"]), ("optname", ["int"]),
    ("optval", ["void *"]), ("optlen", ["socklen_t"])]),
  (nr.sys_bind, [("sockfd", ["int"]), ("addr", ["struct sockaddr *"])]),
  (nr.sys_execve, [("filename", ["char *"]), ("argv[]", ["char * const"])]),
  (nr.sys_open, [("pathname", ["char *"]), ("flags", ["int"]), ("mode", ["mode_t"])]),
  (nr.sys_openat, [("dirfd", ["int"]), ("pathname", ["char *"]), ("flags", ["int"])]),
  (nr.sys_chdir, [("path", ["char *"])]),
  (nr.sys_chroot, [("path", ["char *"])]),
  (nr.sys_access, [("pathname", ["char *"]), ("mode", ["int"])]),
  (nr.sys_write, [("fd", ["int"]), ("buf", ["void *"]), ("count", ["size_t"])]),
  (nr.sys_unlink, [("pathname", ["char *"])]),
  (nr.sys_umount2, [("target", ["char *"]), ("flags", ["int"])]),
  (nr.sys_timerfd_settime, [("fd", ["int"]), ("flags", ["int"]),
    ("new_value", ["struct itimerspec *"]), ("old_value", ["struct itimerspec *"])]),
  (nr.sys_timerfd_create, [("clockid", ["int"]), ("flags", ["int"])]),
  (nr.sys_syslog, [("type", ["int"]), ("bufp", ["char *"]), ("len", ["int"])]),
  (nr.sys_symlink, [("target", ["char *"]), ("linkpath", ["char *"])]),
  (nr.sys_statfs, [("path", ["char *"]), ("buf", ["struct statfs *"])]),
  (nr.sys_stat, [("pathname", ["char *"]), ("statbuf", ["struct stat *"])]),
  (nr.sys_socket, [("domain", ["int"]), ("type", ["int"]), ("protocol", ["int"])]),
  (nr.sys_setuid, [("uid", ["uid_t"])])]

/-- Printed arguments whose C type is not that of the manual: `struck sockaddr *` in `bind`, signed counts in
`read` and `write`, `(*)socklen_t *`, `void *` for the times of `nanosleep`, `int` for the mode of `open`, and
the arguments `clone` has only in the C library. -/
def mistyped : List (Nat × String) := [
  (nr.sys_clone, "fn"), (nr.sys_clone, "child_stack"), (nr.sys_getsockopt, "optlen"),
  (nr.sys_nanosleep, "req"), (nr.sys_nanosleep, "rem"), (nr.sys_read, "count"),
  (nr.sys_setsockopt, "optlen"), (nr.sys_bind, "addr"), (nr.sys_open, "mode"),
  (nr.sys_write, "count")]

/-- Some blanks. -/
def blanks (k : Nat) : List Char := List.replicate k ' '

/-- A container as `name.pod.namespace`; dashes when it is not known. -/
def containerName : Option (String × String × String) → List Char
  | none => "-.-.-".toList
  | some (name, pod, ns) => name.toList ++ ['.'] ++ pod.toList ++ ['.'] ++ ns.toList

/-- The text for an error number: `OK`, or the name Linux has for it. Numbers that Linux does not
have may be printed in any way but `OK`. -/
def ErrorText (e : Int) (text : List Char) : Prop :=
  (e = 0 ↔ text = "OK".toList) ∧
  ∀ name, (e, name) ∈ Spec.Flags.errnos → text = name.toList

/-- One line of output: a line end at the end and nowhere else. -/
def OneLine (text : List Char) : Prop := ∃ body, text = body ++ ['\n'] ∧ '\n' ∉ body

/-- Linux's system calls that swoll does not know. Those below 333 have a number in its table but
are in none of its classes. -/
def unknownCalls : List Nat :=
  [123, 150, 152, 178, 181, 182, 183, 184, 185, 195, 214, 215, 216, 236, 237, 238, 239, 249, 256,
   279, 309, 323, 326, 327, 328, 329, 330, 331, 333, 334] ++ (List.range 38).map (424 + ·)

/-- A number of thousandths with a decimal point and three digits after it. -/
def thousandths (p : Nat) : List Char :=
  decimal (p / 1000) ++ ['.'] ++ (decimal (1000 + p % 1000)).drop 1

/-- Arguments that are not printed at all. -/
def omitted : List (Nat × String) := [
  (nr.sys_accept, "addrlen"), (nr.sys_accept4, "addrlen"), (nr.sys_connect, "addrlen"),
  (nr.sys_clone, "stack"), (nr.sys_clone, "parent_tid"), (nr.sys_clone, "child_tid"),
  (nr.sys_clone, "tls"), (nr.sys_futex, "timeout"), (nr.sys_futex, "uaddr2"),
  (nr.sys_futex, "val3"), (nr.sys_getpeername, "addrlen"), (nr.sys_getsockname, "addrlen"),
  (nr.sys_mount, "data"), (nr.sys_recvfrom, "addrlen"), (nr.sys_sendto, "addrlen"),
  (nr.sys_bind, "addrlen"), (nr.sys_openat, "mode")]

end Swoll.Spec.Print
