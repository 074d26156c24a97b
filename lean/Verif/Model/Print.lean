import Verif.Model.EventJSON
import Verif.Model.Views
/-
How an event is printed for a person: `CallName` and `Arguments` of the decoded system calls
(pkg/event/call/*.go), the line `swoll trace` prints (cmd/trace.go) and the line
`swoll client create --oneshot` prints (cmd/client.go). The line of `swoll client watch` is in Model/Watch.

Text is a list of characters. A byte of a traced string stands for itself, one character per
byte (`Flags.byteChar`), as in the model of socket addresses. The output is taken not to be a
terminal, or colours to be off (`color.NoColor` of fatih/color), so the colour functions are
`fmt.Sprint`.
-/
namespace Swoll.Print
open Swoll.Bytes Swoll.Event Swoll.Flags

/-- The text of bytes. (strings and `%s`, as printed by cmd/trace.go:139-153) -/
def chars (bs : List Byte) : List Char := bs.map byteChar

/-- The bit sets among the arguments; the types are cited in FlagTables.
(field types of pkg/event/call/*.go) -/
inductive Names where
  | file | msg | timer | umount | accept | inotify | mount | clone | xmode | prot
  deriving DecidableEq, Repr

/-- The type of a bit set. (pkg/types/*.go, pkg/event/call/*.go, lines at each `FlagType`) -/
def Names.type : Names → FlagType
  | .file => fileFlags
  | .msg => msgFlags
  | .timer => timerFlags
  | .umount => umountFlags
  | .accept => acceptFlags
  | .inotify => inotifyMask
  | .mount => mountFlags
  | .clone => cloneFlags
  | .xmode => xmodeFlags
  | .prot => protFlags

/-- What printing depends on besides the event: the order in which `range` visits each mask map,
the bytes of the agent's memory behind a slice that is not contained in the event
(`Val.outside`), and those of the decoder's array of pointers (`Val.ptrs`). A slice of negative
length, with which fmt may do anything, is treated as some bytes too.
(pkg/types/c.go:9-18, nanosleep.go:17-21) -/
structure Env where
  order : Names → List (Word × String)
  outside : Int → Int → List Byte
  ptrs : Nat → Nat → List Byte

/-- The pieces of the text of a Go structure of numbers: fixed text, or the next `w` bytes as an
unsigned or signed number. (`%v` of structures, as printed by cmd/trace.go:146) -/
inductive Tok where
  | lit (s : String)
  | u (w : Nat)
  | s (w : Nat)
  deriving DecidableEq, Repr

/-- `%v` of a structure in memory. (as printed by cmd/trace.go:146) -/
def layText : List Tok → List Byte → List Char
  | [], _ => []
  | .lit s :: ts, bs => s.toList ++ layText ts bs
  | .u w :: ts, bs => itoa (leVal (bs.take w)) ++ layText ts (bs.drop w)
  | .s w :: ts, bs => itoa (BitVec.ofNat (8 * w) (leVal (bs.take w))).toInt ++ layText ts (bs.drop w)

/-- `Rlimit`, prlimit64.go:13 (`syscall.Rlimit`: two uint64). -/
def rlimitText : List Tok := [.lit "{", .u 8, .lit " ", .u 8, .lit "}"]

/-- `Timespec`, pkg/types/clocktypes.go:37-40. -/
def timespecText : List Tok := [.lit "{", .s 8, .lit " ", .s 8, .lit "}"]

/-- `Itimerspec`, pkg/types/clocktypes.go:42-45. -/
def itimerspecText : List Tok :=
  [.lit "{"] ++ timespecText ++ [.lit " "] ++ timespecText ++ [.lit "}"]

/-- `syscall.Stat_t` of linux/amd64: Dev, Ino, Nlink uint64; Mode, Uid, Gid uint32; X__pad0 int32;
Rdev uint64; Size, Blksize, Blocks int64; Atim, Mtim, Ctim Timespec; X__unused [3]int64.
(stat.go:12, fstat.go:12, statfs.go:12) -/
def statText : List Tok :=
  [.lit "{", .u 8, .lit " ", .u 8, .lit " ", .u 8, .lit " ", .u 4, .lit " ", .u 4, .lit " ", .u 4,
    .lit " ", .s 4, .lit " ", .u 8, .lit " ", .s 8, .lit " ", .s 8, .lit " ", .s 8, .lit " "]
  ++ timespecText ++ [.lit " "] ++ timespecText ++ [.lit " "] ++ timespecText
  ++ [.lit " [", .s 8, .lit " ", .s 8, .lit " ", .s 8, .lit "]}"]

/-- How the value of an argument is turned into text, and from which decoded fields. What each
does is in `render`. (the `Value` column of the `Arguments` functions cited in `shown`) -/
inductive How where
  | num (f : String)
  | text (f : String)
  | dirfd (f : String)
  | mode (f : String)
  | flags (n : Names) (f : String)
  | request (f : String)
  | family (f : String)
  | sockType (f : String)
  | proto (f : String)
  | level (f : String)
  | rlimit (f : String)
  | option (tp lv : String)
  | sock (f : String)
  | raw (f : String)
  | struct (fs : List String) (ts : List Tok)
  | hex (f : String)
  | words (fs : List String)
  deriving DecidableEq, Repr

/-- An element of `Arguments`: `Argument`, function.go:11-18, with the rule for its value. -/
structure Shown where
  name : String
  ctype : String
  how : How
  deriving DecidableEq, Repr

/-- `CallName` and `Arguments` of every system call that is decoded, in the order of
`DecodeSyscall` (pkg/event/call/syscall.go:13-196). -/
def shown : List (Nat × String × List Shown) := [
  -- accept: pkg/event/call/accept.go:68, 77-82
  (nr.sys_accept, "accept", [⟨"sockfd", "int", .num "fd"⟩, ⟨"addr", "struct sockaddr *", .sock "saddr"⟩]),
  -- accept4: pkg/event/call/accept.go:84, 86-92
  (nr.sys_accept4, "accept4", [⟨"sockfd", "int", .num "fd"⟩, ⟨"addr", "struct sockaddr *", .sock "saddr"⟩,
    ⟨"flags", "int", .flags .accept "flags"⟩]),
  -- alarm: pkg/event/call/alarm.go:13, 20-24
  (nr.sys_alarm, "alarm", [⟨"seconds", "unsigned int", .num "seconds"⟩]),
  -- acct: pkg/event/call/acct.go:13, 20-24
  (nr.sys_acct, "acct", [⟨"pathname", "const char *", .text "pathname"⟩]),
  -- brk: pkg/event/call/brk.go:13, 20-24
  (nr.sys_brk, "brk", [⟨"addr", "void *", .num "addr"⟩]),
  -- connect: pkg/event/call/connect.go:14, 22-27
  (nr.sys_connect, "connect", [⟨"sockfd", "int", .num "fd"⟩, ⟨"addr", "struct sockaddr *", .sock "saddr"⟩]),
  -- clone: pkg/event/call/clone.go:18, 30-36
  (nr.sys_clone, "clone", [⟨"fn", "int (*)(void *)", .hex "new_stack"⟩,
    ⟨"child_stack", "void *", .hex "child_stack"⟩, ⟨"flags", "int", .flags .clone "flags"⟩]),
  -- close: pkg/event/call/close.go:13, 19-23
  (nr.sys_close, "close", [⟨"fd", "int", .num "fd"⟩]),
  -- creat: pkg/event/call/creat.go:15, 23-28
  (nr.sys_creat, "creat", [⟨"pathname", "const char *", .text "pathname"⟩, ⟨"mode", "mode_t", .mode "mode"⟩]),
  -- exit: pkg/event/call/exit.go:13, 20-24
  (nr.sys_exit, "exit", [⟨"status", "int", .num "code"⟩]),
  -- faccessat: pkg/event/call/faccessat.go:17, 27-34
  (nr.sys_faccessat, "faccessat", [⟨"dirfd", "int", .dirfd "fd"⟩,
    ⟨"pathname", "const char *", .text "pathname"⟩, ⟨"mode", "int", .mode "mode"⟩,
    ⟨"flags", "int", .num "flags"⟩]),
  -- fstat: pkg/event/call/fstat.go:15, 24-29
  (nr.sys_fstat, "fstat", [⟨"fd", "int", .num "fd"⟩,
    ⟨"statbuf", "struct stat *", .struct ["stat_buf", "stat_buf.unused"] (.lit "&" :: statText)⟩]),
  -- ftruncate: pkg/event/call/ftruncate.go:14, 23-28
  (nr.sys_ftruncate, "ftruncate", [⟨"fd", "int", .num "fd"⟩, ⟨"length", "off_t", .num "length"⟩]),
  -- futex: pkg/event/call/futex.go:15, 24-30
  (nr.sys_futex, "futex", [⟨"uaddr", "int *", .num "uaddr"⟩, ⟨"futex_op", "int", .num "op"⟩,
    ⟨"val", "int", .num "val"⟩]),
  -- getcwd: pkg/event/call/getcwd.go:14, 22-27
  (nr.sys_getcwd, "getcwd", [⟨"buf", "char *", .text "buf"⟩, ⟨"size", "size_t", .num "size"⟩]),
  -- getpeername: pkg/event/call/getpeername.go:14, 22-27
  (nr.sys_getpeername, "getpeername", [⟨"sockfd", "int", .num "fd"⟩,
    ⟨"addr", "struct sockaddr *", .sock "saddr"⟩]),
  -- getsockname: pkg/event/call/getsockname.go:14, 22-27
  (nr.sys_getsockname, "getsockname", [⟨"sockfd", "int", .num "fd"⟩,
    ⟨"addr", "struct sockaddr *", .sock "saddr"⟩]),
  -- getsockopt: pkg/event/call/getsockopt.go:7, pkg/event/call/sockopt.go:49-66
  (nr.sys_getsockopt, "getsockopt", [⟨"sockfd", "int", .num "fd"⟩, ⟨"level", "int", .level "level"⟩,
    ⟨"optname", "int", .option "name.tp" "name.lv"⟩, ⟨"optval", "void *", .raw "val"⟩,
    ⟨"optlen", "(*)socklen_t *", .num "len"⟩]),
  -- init_module: pkg/event/call/init_module.go:15, 24-30
  (nr.sys_init_module, "init_module", [⟨"module_image", "void *", .text "name"⟩,
    ⟨"len", "unsigned long", .num "len"⟩, ⟨"param_values", "const char *", .text "params"⟩]),
  -- inotify_add_watch: pkg/event/call/inotify_add_watch.go:20, 29-35
  (nr.sys_inotify_add_watch, "inotify_add_watch", [⟨"fd", "int", .num "fd"⟩,
    ⟨"pathname", "const char *", .text "pathname"⟩, ⟨"mask", "uint32_t", .flags .inotify "mask"⟩]),
  -- kill: pkg/event/call/kill.go:14, 23-28
  (nr.sys_kill, "kill", [⟨"pid", "pid_t", .num "pid"⟩, ⟨"sig", "int", .num "sig"⟩]),
  -- link: pkg/event/call/link.go:14, 22-27
  (nr.sys_link, "link", [⟨"oldpath", "const char *", .text "old_name"⟩,
    ⟨"newpath", "const char *", .text "new_name"⟩]),
  -- listen: pkg/event/call/listen.go:14, 23-28
  (nr.sys_listen, "listen", [⟨"sockfd", "int", .num "sock"⟩, ⟨"backlog", "int", .num "backlog"⟩]),
  -- mincore: pkg/event/call/mincore.go:15, 24-30
  (nr.sys_mincore, "mincore", [⟨"addr", "void *", .num "addr"⟩, ⟨"len", "size_t", .num "len"⟩,
    ⟨"vec", "unsigned char *", .num "vec"⟩]),
  -- mkdir: pkg/event/call/mkdir.go:16, 24-29
  (nr.sys_mkdir, "mkdir", [⟨"pathname", "const char *", .text "pathname"⟩, ⟨"mode", "mode_t", .mode "mode"⟩]),
  -- mount: pkg/event/call/mount.go:20, 30-37
  (nr.sys_mount, "mount", [⟨"source", "const char *", .text "device"⟩,
    ⟨"target", "const char *", .text "directory"⟩, ⟨"filesystemtype", "const char *", .text "type"⟩,
    ⟨"mountflags", "unsigned long", .flags .mount "flags"⟩]),
  -- mprotect: pkg/event/call/mprotect.go:19, 36-42
  (nr.sys_mprotect, "mprotect", [⟨"addr", "void *", .num "addr"⟩, ⟨"len", "size_t", .num "len"⟩,
    ⟨"prot", "int", .flags .prot "prot"⟩]),
  -- nanosleep: pkg/event/call/nanosleep.go:15, 22-27
  (nr.sys_nanosleep, "nanosleep", [⟨"req", "void *", .struct ["req"] timespecText⟩,
    ⟨"rem", "void *", .struct ["rem"] timespecText⟩]),
  -- pivot_root: pkg/event/call/pivot_root.go:14, 23-28
  (nr.sys_pivot_root, "pivot_root", [⟨"new_root", "const char *", .text "new_root"⟩,
    ⟨"put_old", "const char *", .text "old_root"⟩]),
  -- prlimit64: pkg/event/call/prlimit64.go:23, 34-41
  (nr.sys_prlimit64, "prlimit64", [⟨"pid", "pid_t", .num "pid"⟩, ⟨"resource", "int", .rlimit "resource"⟩,
    ⟨"new_limit", "const struct rlimit *", .struct ["new"] rlimitText⟩,
    ⟨"old_limit", "struct rlimit *", .struct ["old"] rlimitText⟩]),
  -- ptrace: pkg/event/call/ptrace.go:21, 32-39
  (nr.sys_ptrace, "ptrace", [⟨"request", "enum __ptrace_request", .request "request"⟩,
    ⟨"pid", "pid_t", .num "pid"⟩, ⟨"addr", "void *", .num "addr"⟩, ⟨"data", "void *", .num "data"⟩]),
  -- read: pkg/event/call/read.go:15, 34-40
  (nr.sys_read, "read", [⟨"fd", "int", .num "fd"⟩, ⟨"buf", "void *", .raw "buf"⟩,
    ⟨"count", "ssize_t", .num "count"⟩]),
  -- readlink: pkg/event/call/readlink.go:15, 34-40
  (nr.sys_readlink, "readlink", [⟨"pathname", "const char *", .text "pathname"⟩, ⟨"buf", "char *", .raw "buf"⟩,
    ⟨"bufsiz", "size_t", .num "size"⟩]),
  -- readlinkat: pkg/event/call/readlinkat.go:16, 36-43
  (nr.sys_readlinkat, "readlinkat", [⟨"dirfd", "int", .dirfd "dir_fd"⟩,
    ⟨"pathname", "const char *", .text "pathname"⟩, ⟨"buf", "char *", .raw "buf"⟩,
    ⟨"bufsiz", "size_t", .num "size"⟩]),
  -- recvfrom: pkg/event/call/recvfrom.go:18, 32-40
  (nr.sys_recvfrom, "recvfrom", [⟨"sockfd", "int", .num "fd"⟩, ⟨"buf", "void *", .raw "ubuf"⟩,
    ⟨"len", "size_t", .num "size"⟩, ⟨"flags", "int", .flags .msg "flags"⟩,
    ⟨"src_addr", "struct sockaddr *", .sock "saddr"⟩]),
  -- rename: pkg/event/call/rename.go:14, 22-27
  (nr.sys_rename, "rename", [⟨"oldpath", "const char *", .text "old_name"⟩,
    ⟨"newpath", "const char *", .text "new_name"⟩]),
  -- rmdir: pkg/event/call/rmdir.go:13, 20-24
  (nr.sys_rmdir, "rmdir", [⟨"pathname", "const char *", .text "pathname"⟩]),
  -- seccomp: pkg/event/call/seccomp.go:15, 24-30
  (nr.sys_seccomp, "seccomp", [⟨"operation", "unsigned int", .num "op"⟩,
    ⟨"flags", "unsigned int", .num "flags"⟩, ⟨"args", "void *", .text "args"⟩]),
  -- sendto: pkg/event/call/sendto.go:17, 29-37
  (nr.sys_sendto, "sendto", [⟨"sockfd", "int", .num "fd"⟩, ⟨"buf", "const void *", .raw "ubuf"⟩,
    ⟨"len", "size_t", .num "size"⟩, ⟨"flags", "int", .flags .msg "flags"⟩,
    ⟨"dest_addr", "const struct sockaddr *", .sock "saddr"⟩]),
  -- setns: pkg/event/call/setns.go:24, 33-38
  (nr.sys_setns, "setns", [⟨"fd", "int", .num "fd"⟩, ⟨"nstype", "int", .flags .clone "ns_type"⟩]),
  -- setsockopt: pkg/event/call/setsockopt.go:7, pkg/event/call/sockopt.go:49-66
  (nr.sys_setsockopt, "setsockopt", [⟨"sockfd", "int", .num "fd"⟩, ⟨"level", "int", .level "level"⟩,
    ⟨"optname", "int", .option "name.tp" "name.lv"⟩, ⟨"optval", "void *", .raw "val"⟩,
    ⟨"optlen", "(*)socklen_t *", .num "len"⟩]),
  -- bind: pkg/event/call/bind.go:15, 25-30
  (nr.sys_bind, "bind", [⟨"sockfd", "int", .num "fd"⟩, ⟨"addr", "struck sockaddr *", .sock "saddr"⟩]),
  -- execve: pkg/event/call/execve.go:15, 25-30
  (nr.sys_execve, "execve", [⟨"filename", "const char *", .text "filename"⟩,
    ⟨"argv[]", "char * const", .words ["argv[0]", "argv[1]", "argv[2]", "argv[3]"]⟩]),
  -- open: pkg/event/call/open.go:16, 27-33
  (nr.sys_open, "open", [⟨"pathname", "const char *", .text "filename"⟩,
    ⟨"flags", "int", .flags .file "flags"⟩, ⟨"mode", "int", .num "mode"⟩]),
  -- openat: pkg/event/call/openat.go:15, 25-31
  (nr.sys_openat, "openat", [⟨"dirfd", "int", .dirfd "dir_fd"⟩, ⟨"pathname", "const char *", .text "pathname"⟩,
    ⟨"flags", "int", .flags .file "flags"⟩]),
  -- chdir: pkg/event/call/chdir.go:13, 20-24
  (nr.sys_chdir, "chdir", [⟨"path", "const char *", .text "filename"⟩]),
  -- chroot: pkg/event/call/chroot.go:13, 20-24
  (nr.sys_chroot, "chroot", [⟨"path", "const char *", .text "filename"⟩]),
  -- access: pkg/event/call/access.go:14, 22-27
  (nr.sys_access, "access", [⟨"pathname", "const char *", .text "pathname"⟩,
    ⟨"mode", "int", .flags .xmode "mode"⟩]),
  -- write: pkg/event/call/write.go:15, 34-40
  (nr.sys_write, "write", [⟨"fd", "int", .num "fd"⟩, ⟨"buf", "const void *", .raw "buf"⟩,
    ⟨"count", "ssize_t", .num "count"⟩]),
  -- unlink: pkg/event/call/unlink.go:13, 20-24
  (nr.sys_unlink, "unlink", [⟨"pathname", "const char *", .text "pathname"⟩]),
  -- umount: pkg/event/call/umount2.go:14, 22-27
  (nr.sys_umount2, "umount", [⟨"target", "const char *", .text "target"⟩,
    ⟨"flags", "int", .flags .umount "flags"⟩]),
  -- timerfd_settime: pkg/event/call/timerfd_settime.go:16, 26-33
  (nr.sys_timerfd_settime, "timerfd_settime", [⟨"fd", "int", .num "fd"⟩,
    ⟨"flags", "int", .flags .timer "flags"⟩,
    ⟨"new_value", "const struct itimerspec *", .struct ["new"] itimerspecText⟩,
    ⟨"old_value", "struct itimerspec *", .struct ["old"] itimerspecText⟩]),
  -- timerfd_create: pkg/event/call/timerfd_create.go:14, 22-27
  (nr.sys_timerfd_create, "timerfd_create", [⟨"clockid", "int", .num "clock"⟩,
    ⟨"flags", "int", .flags .timer "flags"⟩]),
  -- syslog: pkg/event/call/syslog.go:15, 24-31
  (nr.sys_syslog, "syslog", [⟨"type", "int", .num "type"⟩, ⟨"bufp", "char *", .text "buf"⟩,
    ⟨"len", "int", .num "len"⟩]),
  -- symlink: pkg/event/call/symlink.go:14, 22-27
  (nr.sys_symlink, "symlink", [⟨"target", "const char *", .text "target"⟩,
    ⟨"linkpath", "const char *", .text "linkpath"⟩]),
  -- statfs: pkg/event/call/statfs.go:15, 23-28
  (nr.sys_statfs, "statfs", [⟨"path", "const char *", .text "path"⟩,
    ⟨"buf", "struct statfs *", .struct ["stat_buf", "stat_buf.unused"] statText⟩]),
  -- stat: pkg/event/call/stat.go:15, 24-29
  (nr.sys_stat, "stat", [⟨"pathname", "const char *", .text "filename"⟩,
    ⟨"statbuf", "struct stat *", .struct ["stat_buf", "stat_buf.unused"] statText⟩]),
  -- socket: pkg/event/call/socket.go:25, 35-41
  (nr.sys_socket, "socket", [⟨"domain", "int", .family "family"⟩, ⟨"type", "int", .sockType "type"⟩,
    ⟨"protocol", "int", .proto "protocol"⟩]),
  -- setuid: pkg/event/call/setuid.go:13, 20-24
  (nr.sys_setuid, "setuid", [⟨"uid", "uid_t", .num "uid"⟩])]

/-- A decoded field that is a number; other shapes do not occur there. (`Arguments` functions,
pkg/event/call/*.go) -/
def intOf (argv : List (String × Val)) (f : String) : Int :=
  match argv.lookup f with
  | some (.int i) => i
  | _ => 0

/-- A decoded field that is a string; other shapes do not occur there. (`Arguments` functions,
pkg/event/call/*.go) -/
def strOf (argv : List (String × Val)) (f : String) : List Byte :=
  match argv.lookup f with
  | some (.str s) => s
  | _ => []

/-- The bytes of a decoded field that is a slice, a pointer or a structure.
(`Arguments` functions, pkg/event/call/*.go) -/
def bytesOf (env : Env) (argv : List (String × Val)) (f : String) : List Byte :=
  match argv.lookup f with
  | some (.buf bs) => bs
  | some (.outside o l) => env.outside o l
  | some (.ptrs i n) => env.ptrs i n
  | _ => []

/-- `strings.Join`. (Library, as in pkg/types/fileflags.go:48-50) -/
def join (sep : List Char) : List (List Char) → List Char
  | [] => []
  | [x] => x
  | x :: xs => x ++ sep ++ join sep xs

/-- `String` of a bit set: `strings.Join(flags.Parse(), "|")` (as in pkg/types/fileflags.go:48-50),
except for message flags, where a value without names is printed as a number
(pkg/types/msgflags.go:36-44). -/
def flagText (env : Env) (n : Names) (i : Int) : List Char :=
  let names := parse n.type (env.order n) (BitVec.ofInt 64 i)
  if n = .msg ∧ names = [] then itoa i else join ['|'] (names.map (·.toList))

/-- `FileMode.String` of package os, on the 32 bits of a mode. (Library, creat.go:26, mkdir.go:27,
faccessat.go:31) -/
def modeText (m : BitVec 32) : List Char :=
  let kinds := ((List.range 13).zip "dalTLDpSugct?".toList).filterMap fun (i, c) =>
    if m.getLsbD (31 - i) then some c else none
  (if kinds = [] then ['-'] else kinds) ++
    ((List.range 9).zip "rwxrwxrwx".toList).map fun (i, c) => if m.getLsbD (8 - i) then c else '-'

/-- `DirFD.String`, pkg/types/dirfd.go:9-15. -/
def dirfdText (i : Int) : List Char := if i = -100 then "AT_FDCWD".toList else itoa i

/-- `%v` of a byte slice. (`Buffer`, pkg/types/buffer.go:3, and `[]byte`, sockopt.go:27) -/
def rawText (bs : List Byte) : List Char :=
  '[' :: join [' '] (bs.map fun b => itoa b.toNat) ++ [']']

/-- Hexadecimal digits of a number. (Library, `%x` in clone.go:32-33) -/
def hexDigits (n : Nat) : List Char :=
  if _h : n < 16 then [hexDigit n] else hexDigits (n / 16) ++ [hexDigit (n % 16)]
termination_by n

/-- `fmt.Sprintf("0x%08x", n)`, clone.go:32-33. -/
def hex08 (n : Nat) : List Char :=
  "0x".toList ++ List.replicate (8 - (hexDigits n).length) '0' ++ hexDigits n

/-- `fmt.Sprint` of the value of an argument: a number without a `String` method in decimal, a
string as it is, other types by their `String` methods.
(cmd/trace.go:146, cmd/client.go:319-322; the methods: dirfd.go:9-15, ptrace.go:92-94,
socket.go:116-122 and 230-232, sockopt.go:116-118 and 288-290, prlimit64.go:94-96,
sockaddr.go:65-73; execve.go:28) -/
def render (env : Env) (argv : List (String × Val)) : How → List Char
  | .num f => itoa (intOf argv f)
  | .text f => chars (strOf argv f)
  | .dirfd f => dirfdText (intOf argv f)
  | .mode f => modeText (BitVec.ofInt 32 (intOf argv f))
  | .flags n f => flagText env n (intOf argv f)
  | .request f => (nameOf ptraceReqTypes (intOf argv f)).toList
  | .family f => (nameOf sockFamilyMap (intOf argv f)).toList
  | .sockType f => join ['|'] ((sockTypeParse (BitVec.ofInt 64 (intOf argv f))).map (·.toList))
  | .proto f => (nameOf sockProtoMap (intOf argv f)).toList
  | .level f => (nameOf sockLevelMap (intOf argv f)).toList
  | .rlimit f => (rlimitName (intOf argv f)).toList
  | .option tp lv => (SockoptName.parse { tp := intOf argv tp, lv := intOf argv lv }).toList
  | .sock f => sockAddrString (bytesOf env argv f)
  | .raw f => rawText (bytesOf env argv f)
  | .struct fs ts => layText ts (fs.flatMap (bytesOf env argv))
  | .hex f => hex08 (intOf argv f).toNat
  | .words fs => join [' '] (fs.map fun f => chars (strOf argv f))

/-- A printed argument: its name, its C type and the text of its value. (cmd/trace.go:145-146) -/
structure PArg where
  name : String
  ctype : String
  text : List Char
  deriving DecidableEq, Repr

/-- `ev.Argv.CallName()` for an event of system call `nr`. (the functions cited in `shown`) -/
def callName (nr : Nat) : Option String := (shown.lookup nr).map (·.1)

/-- `ev.Argv.Arguments()`, each value through `fmt.Sprint`. (the functions cited in `shown`) -/
def arguments (env : Env) (nr : Nat) (argv : List (String × Val)) : Option (List PArg) :=
  (shown.lookup nr).map fun r => r.2.map fun s => ⟨s.name, s.ctype, render env argv s.how⟩

/-! ### The lines -/

/-- How many columns `fmt` counts for a string: `utf8.RuneCountInString`, where an ill-formed byte
counts as one. `fuel` is at least the length. (Library, widths at cmd/trace.go:140-142) -/
def runesLoop : Nat → List Byte → Nat
  | 0, _ => 0
  | _, [] => 0
  | fuel + 1, b :: rest =>
    match EventJSON.runeLen (b :: rest) with
    | some n => 1 + runesLoop fuel ((b :: rest).drop n)
    | none => 1 + runesLoop fuel rest

/-- Columns of a string. (Library, widths at cmd/trace.go:140-142) -/
def runes (bs : List Byte) : Nat := runesLoop bs.length bs

/-- `%<w>s`: blanks on the left up to the width. (Library, cmd/trace.go:140-142) -/
def padLeft (w cols : Nat) (t : List Char) : List Char := List.replicate (w - cols) ' ' ++ t

/-- `%-<w>v`: blanks on the right up to the width. (Library, cmd/trace.go:142) -/
def padRight (w cols : Nat) (t : List Char) : List Char := t ++ List.replicate (w - cols) ' '

/-- The error column: cmd/trace.go:123-127, cmd/client.go:307-311. -/
def errnoText (e : Int) : List Char := if e = 0 then "OK".toList else (errnoToString e).toList

/-- `Container.FQDN`, pkg/types/container.go:17-23. -/
def fqdn : Option Topology.Container → List Char
  | none => "-.-.-".toList
  | some c => c.name.toList ++ ['.'] ++ c.pod.toList ++ ['.'] ++ c.ns.toList

/-- `n / d` rounded to the nearest integer, ties to even. (IEEE 754 division and decimal
conversion, pkg/event/trace.go:218-220, cmd/trace.go:131-137) -/
def roundDiv (n d : Nat) : Nat :=
  let q := n / d
  let r := n % d
  if d < 2 * r ∨ (2 * r = d ∧ q % 2 = 1) then q + 1 else q

/-- `n / 1e6` as a float64, for a whole number `n` of at most 64 bits: `(m, e)` stands for
`m / 2 ^ e` with `2 ^ 52 ≤ m ≤ 2 ^ 53`, or is `(0, 0)`. (pkg/event/trace.go:218-220; the size of the
quotient, 2^-20 to 2^44, keeps the exponent far from the limits of the format) -/
def msOf (n : Nat) : Nat × Nat :=
  if n = 0 then (0, 0)
  else
    let e := 72 - Nat.log2 n
    let e := if 10 ^ 6 * 2 ^ 53 ≤ n * 2 ^ e then e - 1 else e
    (roundDiv (n * 2 ^ e) (10 ^ 6), e)

/-- The digits of `%6.3f` of `m / 2 ^ e`: the exact value rounded to thousandths.
(Library, cmd/trace.go:131-137) -/
def thousandths (m e : Nat) : Nat := roundDiv (m * 1000) (2 ^ e)

/-- `%.3f`: a number of thousandths with a decimal point. (Library, cmd/trace.go:131-137) -/
def fixed3 (p : Nat) : List Char :=
  digits (p / 1000) ++ ['.', digit (p / 100 % 10), digit (p / 10 % 10), digit (p % 10)]

/-- `%6.3f` of `LatencyMS`: pkg/event/trace.go:214-220, cmd/trace.go:129-137. A negative value
keeps its sign even when it rounds to zero. -/
def latencyText (start finish : Int) : List Char :=
  let l := Views.f64i (Views.f64i finish - Views.f64i start)
  let t := fixed3 (thousandths (msOf l.natAbs).1 (msOf l.natAbs).2)
  let t := if l < 0 then '-' :: t else t
  padLeft 6 t.length t

/-- One argument: `fmt.Printf("(%s)%s=%v", …)`, cmd/trace.go:146, cmd/client.go:319-322. -/
def argText (a : PArg) : List Char :=
  ['('] ++ a.ctype.toList ++ [')'] ++ a.name.toList ++ ['='] ++ a.text

/-- The arguments, with commas between them, and the closing parenthesis and line end.
(cmd/trace.go:145-153, cmd/client.go:318-329) -/
def argsText (as : List PArg) : List Char := join [',', ' '] (as.map argText) ++ [')', '\n']

/-- What `swoll trace` prints for an event of system call `nr`: `showMsg`, cmd/trace.go:105-153,
for the output format `cli`. `containers` is false with `--no-containers`. `none` is a call of
a method of a nil `Argv`, a panic. Column counts of container names are counts of characters:
they are names of Kubernetes objects, in ASCII. -/
def cliLine (env : Env) (containers : Bool) (nr : Nat) (ev : TraceEvent Topology.Container) :
    Option (List Char) :=
  match callName nr, arguments env nr ev.argv with
  | some name, some as =>
    let err := errnoText ev.error
    some (['('] ++ latencyText ev.start ev.finish ++ "ms) ".toList ++
      (if containers then
        padLeft 35 (fqdn ev.container).length (fqdn ev.container) ++ ": [".toList ++
          padLeft 9 (runes ev.comm) (chars ev.comm) ++ "] (".toList
      else
        ['['] ++ padLeft 15 (runes ev.comm) (chars ev.comm) ++ ['/'] ++
          padRight 8 (itoa ev.pid).length (itoa ev.pid) ++ "] (".toList) ++
      padLeft 11 err.length err ++ ") ".toList ++ name.toList ++ ['('] ++ argsText as)
  | _, _ => none

/-- What `swoll client create --oneshot` prints for an event it reads: cmd/client.go:291-329. -/
def oneshotLine (env : Env) (nr : Nat) (ev : TraceEvent Topology.Container) :
    Option (List Char) :=
  match callName nr, arguments env nr ev.argv with
  | some name, some as =>
    let err := errnoText ev.error
    some (padLeft 35 (fqdn ev.container).length (fqdn ev.container) ++ ": [".toList ++
      padLeft 11 (runes ev.comm) (chars ev.comm) ++ "] (".toList ++
      padLeft 11 err.length err ++ ") ".toList ++ name.toList ++ ['('] ++ argsText as)
  | _, _ => none

end Swoll.Print
