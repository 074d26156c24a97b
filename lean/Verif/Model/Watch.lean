import Verif.Model.Print
/-
The line `swoll client watch` prints for an event: `TraceEvent.ColorString`, pkg/event/trace.go:53-61,
used at cmd/client.go:132. The arguments are printed by `%s` of the pointer to their structure, so
by fmt's rules for structures and not by `Arguments` (Model/Print).

Text is as in Model/Print: one character per byte of a traced string.
-/
namespace Swoll.Watch
open Swoll.Bytes Swoll.Event Swoll.Flags Swoll.Print

/-- How `%s` prints a field of a structure (package fmt): a field with a `String` method, a string,
and a structure of such, as `render` says; a number by the complaint about the verb, with its Go
type and its value as `%v` prints it (a pointer to a structure likewise); a byte slice as it is; an
array of strings in brackets.
(the field types of the structures cited in `watched`) -/
inductive Item where
  | method (h : How)
  | bad (goType : String) (h : How)
  | bytes (f : String)
  | words (fs : List String)
  deriving DecidableEq, Repr

/-- A number of a structure inside the structure: complained about too.
(Library, used by pkg/event/trace.go:54) -/
def badNum (goType : String) (t : Tok) : List Tok := [.lit ("%!s(" ++ goType ++ "="), t, .lit ")"]

/-- Fields of a structure with a blank between them. (Library, used by pkg/event/trace.go:54) -/
def spaced : List (List Tok) → List Tok
  | [] => []
  | [x] => x
  | x :: xs => x ++ [.lit " "] ++ spaced xs

/-- `Rlimit`, prlimit64.go:13 (`syscall.Rlimit`: two uint64). -/
def rlimitBad : List Tok :=
  [.lit "{"] ++ spaced [badNum "uint64" (.u 8), badNum "uint64" (.u 8)] ++ [.lit "}"]

/-- `Timespec`, pkg/types/clocktypes.go:37-40. -/
def timespecBad : List Tok :=
  [.lit "{"] ++ spaced [badNum "int64" (.s 8), badNum "int64" (.s 8)] ++ [.lit "}"]

/-- `Itimerspec`, pkg/types/clocktypes.go:42-45. -/
def itimerspecBad : List Tok := [.lit "{"] ++ spaced [timespecBad, timespecBad] ++ [.lit "}"]

/-- `syscall.Stat_t` of linux/amd64, as in `Print.statText`. (stat.go:12, statfs.go:12) -/
def statBad : List Tok :=
  [.lit "{"] ++ spaced [badNum "uint64" (.u 8), badNum "uint64" (.u 8), badNum "uint64" (.u 8),
    badNum "uint32" (.u 4), badNum "uint32" (.u 4), badNum "uint32" (.u 4), badNum "int32" (.s 4),
    badNum "uint64" (.u 8), badNum "int64" (.s 8), badNum "int64" (.s 8), badNum "int64" (.s 8),
    timespecBad, timespecBad, timespecBad,
    [.lit "["] ++ spaced [badNum "int64" (.s 8), badNum "int64" (.s 8), badNum "int64" (.s 8)] ++
      [.lit "]"]] ++ [.lit "}"]

/-- The fields of the argument structures, and whether they are those of an embedded structure.
(each row cites its structure; sockopt.go:23-29 is embedded at getsockopt.go and setsockopt.go) -/
def watched : List (Nat × Bool × List Item) := [
  -- pkg/event/call/accept.go:14-17
  (nr.sys_accept, false, [.bad "types.InputFD" (.num "fd"), .method (.sock "saddr")]),
  -- pkg/event/call/accept.go:19-23
  (nr.sys_accept4, false, [.bad "types.InputFD" (.num "fd"), .method (.sock "saddr"),
    .method (.flags .accept "flags")]),
  -- pkg/event/call/alarm.go:9-11
  (nr.sys_alarm, false, [.bad "uint32" (.num "seconds")]),
  -- pkg/event/call/acct.go:9-11
  (nr.sys_acct, false, [.method (.text "pathname")]),
  -- pkg/event/call/brk.go:9-11
  (nr.sys_brk, false, [.bad "uint64" (.num "addr")]),
  -- pkg/event/call/connect.go:9-12
  (nr.sys_connect, false, [.bad "types.InputFD" (.num "fd"), .method (.sock "saddr")]),
  -- pkg/event/call/clone.go:10-16
  (nr.sys_clone, false, [.method (.flags .clone "flags"), .bad "uint64" (.num "new_stack"),
    .bad "uint64" (.num "child_stack"), .bad "uint64" (.num "parent_stack"),
    .bad "uint64" (.num "tls")]),
  -- pkg/event/call/close.go:9-11
  (nr.sys_close, false, [.bad "types.InputFD" (.num "fd")]),
  -- pkg/event/call/creat.go:10-13
  (nr.sys_creat, false, [.method (.text "pathname"), .method (.mode "mode")]),
  -- pkg/event/call/exit.go:9-11
  (nr.sys_exit, false, [.bad "int" (.num "code")]),
  -- pkg/event/call/faccessat.go:10-15
  (nr.sys_faccessat, false, [.method (.dirfd "fd"), .method (.text "pathname"),
    .method (.mode "mode"), .bad "int" (.num "flags")]),
  -- pkg/event/call/fstat.go:10-13
  (nr.sys_fstat, false, [.bad "types.InputFD" (.num "fd"),
    .bad "*syscall.Stat_t" (.struct ["stat_buf", "stat_buf.unused"] ([.lit "&"] ++ statText))]),
  -- pkg/event/call/ftruncate.go:9-12
  (nr.sys_ftruncate, false, [.bad "types.InputFD" (.num "fd"), .bad "int" (.num "length")]),
  -- pkg/event/call/futex.go:9-13
  (nr.sys_futex, false, [.bad "uint32" (.num "uaddr"), .bad "int" (.num "op"),
    .bad "uint32" (.num "val")]),
  -- pkg/event/call/getcwd.go:9-12
  (nr.sys_getcwd, false, [.method (.text "buf"), .bad "int" (.num "size")]),
  -- pkg/event/call/getpeername.go:9-12
  (nr.sys_getpeername, false, [.bad "types.InputFD" (.num "fd"), .method (.sock "saddr")]),
  -- pkg/event/call/getsockname.go:9-12
  (nr.sys_getsockname, false, [.bad "types.InputFD" (.num "fd"), .method (.sock "saddr")]),
  -- pkg/event/call/sockopt.go:23-29
  (nr.sys_getsockopt, true, [.bad "types.InputFD" (.num "fd"), .method (.level "level"),
    .method (.option "name.tp" "name.lv"), .bytes "val", .bad "int" (.num "len")]),
  -- pkg/event/call/init_module.go:9-13
  (nr.sys_init_module, false, [.method (.text "name"), .bad "int" (.num "len"),
    .method (.text "params")]),
  -- pkg/event/call/inotify_add_watch.go:14-18
  (nr.sys_inotify_add_watch, false, [.bad "types.InputFD" (.num "fd"), .method (.text "pathname"),
    .method (.flags .inotify "mask")]),
  -- pkg/event/call/kill.go:9-12
  (nr.sys_kill, false, [.bad "int32" (.num "pid"), .bad "int32" (.num "sig")]),
  -- pkg/event/call/link.go:9-12
  (nr.sys_link, false, [.method (.text "old_name"), .method (.text "new_name")]),
  -- pkg/event/call/listen.go:9-12
  (nr.sys_listen, false, [.bad "types.InputFD" (.num "sock"), .bad "int" (.num "backlog")]),
  -- pkg/event/call/mincore.go:9-13
  (nr.sys_mincore, false, [.bad "uintptr" (.num "addr"), .bad "int" (.num "len"),
    .bad "uintptr" (.num "vec")]),
  -- pkg/event/call/mkdir.go:11-14
  (nr.sys_mkdir, false, [.method (.text "pathname"), .method (.mode "mode")]),
  -- pkg/event/call/mount.go:13-18
  (nr.sys_mount, false, [.method (.text "device"), .method (.text "directory"),
    .method (.text "type"), .method (.flags .mount "flags")]),
  -- pkg/event/call/mprotect.go:12-17
  (nr.sys_mprotect, false, [.bad "uintptr" (.num "addr"), .bad "int" (.num "len"),
    .method (.flags .prot "prot"), .bytes "addr_data"]),
  -- pkg/event/call/nanosleep.go:10-13
  (nr.sys_nanosleep, false, [.method (.struct ["req"] timespecBad),
    .method (.struct ["rem"] timespecBad)]),
  -- pkg/event/call/pivot_root.go:9-12
  (nr.sys_pivot_root, false, [.method (.text "new_root"), .method (.text "old_root")]),
  -- pkg/event/call/prlimit64.go:16-21
  (nr.sys_prlimit64, false, [.bad "int" (.num "pid"), .method (.rlimit "resource"),
    .method (.struct ["new"] rlimitBad), .method (.struct ["old"] rlimitBad)]),
  -- pkg/event/call/ptrace.go:14-19
  (nr.sys_ptrace, false, [.method (.request "request"), .bad "int" (.num "pid"),
    .bad "uint64" (.num "addr"), .bad "call.PtraceData" (.num "data")]),
  -- pkg/event/call/read.go:9-13
  (nr.sys_read, false, [.bad "types.InputFD" (.num "fd"), .bytes "buf", .bad "int" (.num "count")]),
  -- pkg/event/call/readlink.go:9-13
  (nr.sys_readlink, false, [.method (.text "pathname"), .bytes "buf", .bad "int" (.num "size")]),
  -- pkg/event/call/readlinkat.go:9-14
  (nr.sys_readlinkat, false, [.method (.dirfd "dir_fd"), .method (.text "pathname"), .bytes "buf",
    .bad "int" (.num "size")]),
  -- pkg/event/call/recvfrom.go:9-16
  (nr.sys_recvfrom, false, [.bad "types.InputFD" (.num "fd"), .bytes "ubuf",
    .bad "int" (.num "size"), .bad "int" (.num "o_size"), .method (.flags .msg "flags"),
    .method (.sock "saddr")]),
  -- pkg/event/call/rename.go:9-12
  (nr.sys_rename, false, [.method (.text "old_name"), .method (.text "new_name")]),
  -- pkg/event/call/rmdir.go:9-11
  (nr.sys_rmdir, false, [.method (.text "pathname")]),
  -- pkg/event/call/seccomp.go:9-13
  (nr.sys_seccomp, false, [.bad "int" (.num "op"), .bad "int" (.num "flags"),
    .method (.text "args")]),
  -- pkg/event/call/sendto.go:9-15
  (nr.sys_sendto, false, [.bad "types.InputFD" (.num "fd"), .bytes "ubuf", .bad "int" (.num "size"),
    .method (.flags .msg "flags"), .method (.sock "saddr")]),
  -- pkg/event/call/setns.go:9-12
  (nr.sys_setns, false, [.bad "types.InputFD" (.num "fd"), .method (.flags .clone "ns_type")]),
  -- pkg/event/call/sockopt.go:23-29
  (nr.sys_setsockopt, true, [.bad "types.InputFD" (.num "fd"), .method (.level "level"),
    .method (.option "name.tp" "name.lv"), .bytes "val", .bad "int" (.num "len")]),
  -- pkg/event/call/bind.go:9-13
  (nr.sys_bind, false, [.bad "types.InputFD" (.num "fd"), .bad "types.OutputFD" (.num "ret"),
    .method (.sock "saddr")]),
  -- pkg/event/call/execve.go:10-13
  (nr.sys_execve, false, [.method (.text "filename"),
    .words ["argv[0]", "argv[1]", "argv[2]", "argv[3]"]]),
  -- pkg/event/call/open.go:9-14
  (nr.sys_open, false, [.method (.text "filename"), .method (.flags .file "flags"),
    .bad "int" (.num "mode"), .bad "types.OutputFD" (.num "ret")]),
  -- pkg/event/call/openat.go:9-13
  (nr.sys_openat, false, [.method (.dirfd "dir_fd"), .method (.text "pathname"),
    .method (.flags .file "flags")]),
  -- pkg/event/call/chdir.go:9-11
  (nr.sys_chdir, false, [.method (.text "filename")]),
  -- pkg/event/call/chroot.go:9-11
  (nr.sys_chroot, false, [.method (.text "filename")]),
  -- pkg/event/call/access.go:9-12
  (nr.sys_access, false, [.method (.text "pathname"), .method (.flags .xmode "mode")]),
  -- pkg/event/call/write.go:9-13
  (nr.sys_write, false, [.bad "types.InputFD" (.num "fd"), .bytes "buf",
    .bad "int" (.num "count")]),
  -- pkg/event/call/unlink.go:9-11
  (nr.sys_unlink, false, [.method (.text "pathname")]),
  -- pkg/event/call/umount2.go:9-12
  (nr.sys_umount2, false, [.method (.text "target"), .method (.flags .umount "flags")]),
  -- pkg/event/call/timerfd_settime.go:9-14
  (nr.sys_timerfd_settime, false, [.bad "types.InputFD" (.num "fd"),
    .method (.flags .timer "flags"), .method (.struct ["new"] itimerspecBad),
    .method (.struct ["old"] itimerspecBad)]),
  -- pkg/event/call/timerfd_create.go:9-12
  (nr.sys_timerfd_create, false, [.bad "types.TFDClock" (.num "clock"),
    .method (.flags .timer "flags")]),
  -- pkg/event/call/syslog.go:9-13
  (nr.sys_syslog, false, [.bad "int" (.num "type"), .method (.text "buf"),
    .bad "int" (.num "len")]),
  -- pkg/event/call/symlink.go:9-12
  (nr.sys_symlink, false, [.method (.text "target"), .method (.text "linkpath")]),
  -- pkg/event/call/statfs.go:10-13
  (nr.sys_statfs, false, [.method (.text "path"),
    .method (.struct ["stat_buf", "stat_buf.unused"] statBad)]),
  -- pkg/event/call/stat.go:10-13
  (nr.sys_stat, false, [.method (.text "filename"),
    .method (.struct ["stat_buf", "stat_buf.unused"] statBad)]),
  -- pkg/event/call/socket.go:19-23
  (nr.sys_socket, false, [.method (.family "family"), .method (.sockType "type"),
    .method (.proto "protocol")]),
  -- pkg/event/call/setuid.go:9-11
  (nr.sys_setuid, false, [.bad "int" (.num "uid")])]

/-- A field. (Library, used by pkg/event/trace.go:54) -/
def itemText (env : Env) (argv : List (String × Val)) : Item → List Char
  | .method h => render env argv h
  | .bad t h => "%!s(".toList ++ t.toList ++ ['='] ++ render env argv h ++ [')']
  | .bytes f => chars (bytesOf env argv f)
  | .words fs => ['['] ++ join [' '] (fs.map fun f => chars (strOf argv f)) ++ [']']

/-- `%s` of `ev.Argv`, whose type `UnmarshalJSON` chose by the number of the system call
(pkg/event/trace.go:54, 77-197); a nil interface is complained about. -/
def argvText (env : Env) (nr : Nat) (argv : List (String × Val)) : List Char :=
  match watched.lookup nr with
  | some (embedded, items) =>
    let body := ['{'] ++ join [' '] (items.map (itemText env argv)) ++ ['}']
    ['&'] ++ (if embedded then ['{'] ++ body ++ ['}'] else body)
  | none => "%!s(<nil>)".toList

/-- `Errno.ColorString`, pkg/types/errno.go:14-20. -/
def errText (e : Int) : List Char :=
  (if e = 0 then "\x1b[1;32m".toList else "\x1b[1;31m".toList) ++ (errnoToString e).toList ++
    "\x1b[0m".toList

/-- `TraceEvent.ColorString`, pkg/event/trace.go:53-61, as printed at cmd/client.go:132. `none` is
the nil dereference of an event without a system call. -/
def watchLine (env : Env) (ev : TraceEvent Topology.Container) : Option (List Char) :=
  match ev.syscall with
  | none => none
  | some s => some ("\x1b[1m".toList ++ fqdn ev.container ++ ":\x1b[0m [\x1b[4m".toList ++
      chars ev.comm ++ "\x1b[0m] ".toList ++ s.name.toList ++ ['('] ++ argvText env s.nr ev.argv ++
      ") err=".toList ++ errText ev.error ++ " ses=".toList ++ itoa ev.sid ++ ['\n'])

end Swoll.Watch
