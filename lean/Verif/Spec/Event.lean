import Verif.Model.Event
/-
Specification of what an event should say about the system call it reports, written from the
Linux system call interface (x86-64) and not from the probe or the decoders.
-/
namespace Swoll.Spec.Event
open Swoll.Bytes Swoll.Event

/-- What a decoded field should hold. `k`, `c` are positions in the system call's argument
list. -/
inductive Meaning where
  /-- argument `k`, a C `int` -/
  | s32 (k : Nat)
  /-- argument `k`, a C `unsigned int` (or `mode_t`, `uid_t`) -/
  | u32 (k : Nat)
  /-- argument `k`, a signed 64-bit integer (Go's `int`; a size below 2^63) -/
  | s64 (k : Nat)
  /-- argument `k`, an unsigned 64-bit integer or an address -/
  | u64 (k : Nat)
  /-- the NUL-terminated string at the address in argument `k`, cut at 128 bytes -/
  | cstr (k : Nat)
  /-- the `n` bytes at offset `o` of the object at the address in argument `k` -/
  | obj (k o n : Nat)
  /-- the buffer at the address in argument `k`, whose size is the 64-bit argument `c`, cut at
  128 bytes -/
  | buf (k c : Nat)
  /-- the same with a 32-bit size -/
  | buf32 (k c : Nat)
  /-- the same with the 32-bit size at the address in argument `c` -/
  | bufAt (k c : Nat)
  /-- the C `int` at the address in argument `k` -/
  | deref (k : Nat)
  /-- the return value, a C `int` -/
  | ret
  /-- zero: the system call has no such argument -/
  | absent
  deriving DecidableEq, Repr

/-- The memory at `a` holds exactly `bs`. -/
def Holds (m : Mem) (a : Nat) (bs : List Byte) : Prop :=
  ∀ i < bs.length, m (a + i) = bs[i]?

instance (m : Mem) (a : Nat) (bs : List Byte) : Decidable (Holds m a bs) :=
  inferInstanceAs (Decidable (∀ i < bs.length, m (a + i) = bs[i]?))

/-- `s` is the C string at `a`, cut at `lim` bytes: its bytes are not NUL, they are in memory,
and a NUL follows unless the string was cut. -/
def CStringAt (m : Mem) (a lim : Nat) (s : List Byte) : Prop :=
  Holds m a s ∧ (0 : Byte) ∉ s ∧ s.length ≤ lim ∧ (s.length < lim → m (a + s.length) = some 0)

instance (m : Mem) (a lim : Nat) (s : List Byte) : Decidable (CStringAt m a lim s) :=
  inferInstanceAs (Decidable (_ ∧ _ ∧ _ ∧ (_ → _)))

/-- `bs` is the buffer of `n` bytes at `a`, cut at 128. -/
def BufAt (m : Mem) (a n : Nat) (bs : List Byte) : Prop :=
  Holds m a bs ∧ bs.length = min n 128

instance (m : Mem) (a n : Nat) (bs : List Byte) : Decidable (BufAt m a n bs) :=
  inferInstanceAs (Decidable (_ ∧ _))

/-- A field value agrees with what the system call `c` did. -/
def Means (c : Call) : Meaning → Val → Prop
  | .s32 k, .int v => v = ((c.args k).setWidth 32).toInt
  | .u32 k, .int v => v = ((c.args k).setWidth 32).toNat
  | .s64 k, .int v => v = (c.args k).toInt
  | .u64 k, .int v => v = (c.args k).toNat
  | .cstr k, .str s => CStringAt c.mem (c.args k).toNat 128 s
  | .obj k o n, .buf bs => bs.length = n ∧ Holds c.mem ((c.args k).toNat + o) bs
  | .buf k n, .buf bs => BufAt c.mem (c.args k).toNat (c.args n).toNat bs
  | .buf32 k n, .buf bs => BufAt c.mem (c.args k).toNat ((c.args n).setWidth 32).toNat bs
  | .bufAt k n, .buf bs =>
    ∀ l, rdMem c.mem (c.args n).toNat 4 = some l → BufAt c.mem (c.args k).toNat (leVal l) bs
  | .deref k, .int v =>
    ∀ l, rdMem c.mem (c.args k).toNat 4 = some l → v = (BitVec.ofNat 32 (leVal l)).toInt
  | .ret, .int v => v = (c.ret.setWidth 32).toInt
  | .absent, .int v => v = 0
  | _, _ => False

/-- Reading through a pointer is decidable. -/
instance decForallRd (m : Mem) (a n : Nat) (P : List Byte → Prop) [∀ l, Decidable (P l)] :
    Decidable (∀ l, rdMem m a n = some l → P l) :=
  match h : rdMem m a n with
  | none => isTrue (by simp)
  | some l => if hp : P l then isTrue (by intro l' h'; cases h'; exact hp)
              else isFalse (fun hh => hp (hh l rfl))

instance (c : Call) (m : Meaning) (v : Val) : Decidable (Means c m v) := by
  unfold Means; split <;> infer_instance

/-- Arguments that are addresses. -/
def Meaning.ptrs : Meaning → List Nat
  | .cstr k | .obj k _ _ | .buf k _ | .buf32 k _ | .deref k => [k]
  | .bufAt k c => [k, c]
  | _ => []

/-- The 64-bit size of a buffer. -/
def Meaning.sizes : Meaning → List Nat
  | .buf _ c => [c]
  | _ => []

/-- The memory the probe copies (128 bytes, whatever the object's size) is readable, and sizes
are not absurd. -/
def Sane (c : Call) (m : Meaning) : Prop :=
  (∀ k ∈ m.ptrs, ∀ i < 128, (c.mem ((c.args k).toNat + i)).isSome) ∧
  ∀ k ∈ m.sizes, (c.args k).toNat < 2 ^ 63

instance (c : Call) (m : Meaning) : Decidable (Sane c m) :=
  inferInstanceAs (Decidable (_ ∧ _))

/-- The meaning of every decoded field, per system call: the Linux prototypes. (`execve` is
reported by its own tracepoint and treated separately. Left out, for want of a meaning: the
`o_size` of `recvfrom`, and the bytes of a `stat` structure past the end of the `statfs` one.) -/
def meanings : List (Nat × List (String × Meaning)) := [
  -- int accept(int, struct sockaddr *, int *)
  (nr.sys_accept, [("fd", .s32 0), ("saddr", .obj 1 0 110)]),
  -- int accept4(int, struct sockaddr *, int *, int flags)
  (nr.sys_accept4, [("fd", .s32 0), ("saddr", .obj 1 0 110), ("flags", .s32 3)]),
  (nr.sys_alarm, [("seconds", .u32 0)]),
  (nr.sys_acct, [("pathname", .cstr 0)]),
  (nr.sys_brk, [("addr", .u64 0)]),
  (nr.sys_connect, [("fd", .s32 0), ("saddr", .obj 1 0 110)]),
  -- long clone(unsigned long flags, void *, int *parent_tid, int *child_tid, unsigned long tls)
  (nr.sys_clone, [("flags", .s64 0), ("new_stack", .u64 1), ("child_stack", .u64 2),
    ("parent_stack", .u64 3), ("tls", .u64 4)]),
  (nr.sys_close, [("fd", .s32 0)]),
  (nr.sys_creat, [("pathname", .cstr 0), ("mode", .u32 1)]),
  (nr.sys_exit, [("code", .s32 0)]),
  -- long faccessat(int, const char *, int mode): no flags
  (nr.sys_faccessat, [("fd", .s32 0), ("pathname", .cstr 1), ("mode", .u32 2),
    ("flags", .absent)]),
  (nr.sys_fstat, [("fd", .s32 0), ("stat_buf", .obj 1 0 120),
    ("stat_buf.unused", .obj 1 120 24)]),
  -- long ftruncate(unsigned int, unsigned long)
  (nr.sys_ftruncate, [("fd", .s32 0), ("length", .s64 1)]),
  -- long futex(u32 *uaddr, int op, u32 val, ...)
  (nr.sys_futex, [("uaddr", .u64 0), ("op", .s32 1), ("val", .u32 2)]),
  (nr.sys_getcwd, [("buf", .cstr 0), ("size", .s64 1)]),
  (nr.sys_getpeername, [("fd", .s32 0), ("saddr", .obj 1 0 110)]),
  (nr.sys_getsockname, [("fd", .s32 0), ("saddr", .obj 1 0 110)]),
  -- long getsockopt(int, int level, int name, char *val, int *len)
  (nr.sys_getsockopt, [("fd", .s32 0), ("level", .s32 1), ("name.tp", .s32 2),
    ("name.lv", .s32 1), ("val", .bufAt 3 4), ("len", .deref 4)]),
  (nr.sys_init_module, [("name", .cstr 0), ("len", .s64 1), ("params", .cstr 2)]),
  (nr.sys_inotify_add_watch, [("fd", .s32 0), ("pathname", .cstr 1), ("mask", .u32 2)]),
  (nr.sys_kill, [("pid", .s32 0), ("sig", .s32 1)]),
  (nr.sys_link, [("old_name", .cstr 0), ("new_name", .cstr 1)]),
  (nr.sys_listen, [("sock", .s32 0), ("backlog", .s32 1)]),
  -- long mincore(unsigned long, size_t, unsigned char *vec)
  (nr.sys_mincore, [("addr", .u64 0), ("len", .s64 1), ("vec", .u64 2)]),
  (nr.sys_mkdir, [("pathname", .cstr 0), ("mode", .u32 1)]),
  (nr.sys_mount, [("device", .cstr 0), ("directory", .cstr 1), ("type", .cstr 2),
    ("flags", .s64 3)]),
  -- the memory being protected is reported too
  (nr.sys_mprotect, [("addr", .u64 0), ("len", .s64 1), ("prot", .s32 2),
    ("addr_data", .buf 0 1)]),
  (nr.sys_nanosleep, [("req", .obj 0 0 16), ("rem", .obj 1 0 16)]),
  (nr.sys_pivot_root, [("new_root", .cstr 0), ("old_root", .cstr 1)]),
  (nr.sys_prlimit64, [("pid", .s32 0), ("resource", .s32 1), ("new", .obj 2 0 16),
    ("old", .obj 3 0 16)]),
  (nr.sys_ptrace, [("request", .s32 0), ("pid", .s32 1), ("addr", .u64 2), ("data", .u64 3)]),
  (nr.sys_read, [("fd", .s32 0), ("buf", .buf 1 2), ("count", .s64 2)]),
  (nr.sys_readlink, [("pathname", .cstr 0), ("buf", .buf 1 2), ("size", .s64 2)]),
  (nr.sys_readlinkat, [("dir_fd", .s32 0), ("pathname", .cstr 1), ("buf", .buf 2 3),
    ("size", .s64 3)]),
  -- long recvfrom(int, void *, size_t, unsigned flags, struct sockaddr *, int *)
  (nr.sys_recvfrom, [("fd", .s32 0), ("ubuf", .buf 1 2), ("size", .s64 2), ("flags", .u32 3),
    ("saddr", .obj 4 0 110)]),
  (nr.sys_rename, [("old_name", .cstr 0), ("new_name", .cstr 1)]),
  (nr.sys_rmdir, [("pathname", .cstr 0)]),
  -- long seccomp(unsigned op, unsigned flags, void *)
  (nr.sys_seccomp, [("op", .u32 0), ("flags", .u32 1), ("args", .cstr 2)]),
  (nr.sys_sendto, [("fd", .s32 0), ("ubuf", .buf 1 2), ("size", .s64 2), ("flags", .s32 3),
    ("saddr", .obj 4 0 110)]),
  (nr.sys_setns, [("fd", .s32 0), ("ns_type", .s32 1)]),
  -- long setsockopt(int, int level, int name, char *val, int len)
  (nr.sys_setsockopt, [("fd", .s32 0), ("level", .s32 1), ("name.tp", .s32 2),
    ("name.lv", .s32 1), ("val", .buf32 3 4), ("len", .s32 4)]),
  (nr.sys_bind, [("fd", .s32 0), ("ret", .ret), ("saddr", .obj 1 0 110)]),
  (nr.sys_open, [("filename", .cstr 0), ("flags", .s32 1), ("mode", .s32 2), ("ret", .ret)]),
  (nr.sys_openat, [("dir_fd", .s32 0), ("pathname", .cstr 1), ("flags", .s32 2)]),
  (nr.sys_chdir, [("filename", .cstr 0)]),
  (nr.sys_chroot, [("filename", .cstr 0)]),
  (nr.sys_access, [("pathname", .cstr 0), ("mode", .s32 1)]),
  (nr.sys_write, [("fd", .s32 0), ("buf", .buf 1 2), ("count", .s64 2)]),
  (nr.sys_unlink, [("pathname", .cstr 0)]),
  (nr.sys_umount2, [("target", .cstr 0), ("flags", .s32 1)]),
  -- long timerfd_settime(int fd, int flags, const struct itimerspec *, struct itimerspec *)
  (nr.sys_timerfd_settime, [("fd", .s32 0), ("flags", .s32 1), ("new", .obj 2 0 32),
    ("old", .obj 3 0 32)]),
  (nr.sys_timerfd_create, [("clock", .s32 0), ("flags", .s32 1)]),
  (nr.sys_syslog, [("type", .s32 0), ("buf", .cstr 1), ("len", .s32 2)]),
  (nr.sys_symlink, [("target", .cstr 0), ("linkpath", .cstr 1)]),
  (nr.sys_statfs, [("path", .cstr 0), ("stat_buf", .obj 1 0 120)]),
  (nr.sys_stat, [("filename", .cstr 0), ("stat_buf", .obj 1 0 120),
    ("stat_buf.unused", .obj 1 120 24)]),
  (nr.sys_socket, [("family", .s32 0), ("type", .s32 1), ("protocol", .s32 2)]),
  (nr.sys_setuid, [("uid", .u32 0)])]

/-- The meaning of field `f` of system call `n`. -/
def meaning (n : Nat) (f : String) : Option Meaning := (meanings.lookup n).bind (·.lookup f)

/-- Fields whose decoded value is not, in general, what the system call was given
(`c36_mismatches_are_real` proves each wrong). -/
def mismatches : List (Nat × String) := [
  (nr.sys_accept4, "flags"), (nr.sys_clone, "child_stack"), (nr.sys_clone, "parent_stack"),
  (nr.sys_faccessat, "flags"), (nr.sys_fstat, "stat_buf.unused"), (nr.sys_ftruncate, "length"),
  (nr.sys_futex, "uaddr"), (nr.sys_getsockopt, "val"), (nr.sys_mincore, "vec"),
  (nr.sys_mprotect, "addr_data"), (nr.sys_nanosleep, "req"), (nr.sys_nanosleep, "rem"),
  (nr.sys_recvfrom, "ubuf"), (nr.sys_recvfrom, "size"), (nr.sys_sendto, "ubuf"),
  (nr.sys_setsockopt, "val"), (nr.sys_bind, "ret"), (nr.sys_open, "ret"),
  (nr.sys_timerfd_settime, "fd"), (nr.sys_timerfd_settime, "flags"),
  (nr.sys_stat, "stat_buf.unused")]

/-- The raw event that says the same as a kernel event: the halves of the two packed ids, and
every other field unchanged. -/
def rawOf (e : KEvent) : RawEvent :=
  { pid := e.pidTid.setWidth 32, tid := e.pidTid.extractLsb' 32 32,
    uid := e.uidGid.setWidth 32, gid := e.uidGid.extractLsb' 32 32,
    syscall := e.syscall, nsPid := e.nsPid, start := e.entr, finish := e.exit,
    session := e.session, pidNs := e.pidNs, utsNs := e.utsNs, mntNs := e.mntNs,
    ipcNs := e.ipcNs, cgrNs := e.cgrNs, contextSw := e.contextSw, errno := e.errno,
    ret := e.ret, comm := e.comm, args := e.args }

/-- Fields of an exit event whose decoded value may come from an earlier event
(`c67_stale_fields_are_real`). -/
def stale : List (Nat × String) := [
  (nr.sys_faccessat, "flags"), (nr.sys_fstat, "stat_buf.unused"),
  (nr.sys_stat, "stat_buf.unused"), (nr.sys_statfs, "stat_buf.unused"),
  (nr.sys_mprotect, "addr_data"), (nr.sys_execve, "filename"), (nr.sys_execve, "argv[0]"),
  (nr.sys_execve, "argv[1]"), (nr.sys_execve, "argv[2]")]

/-- The value is made of bytes of the event, not of other memory of the agent. -/
def Inside : Val → Prop
  | .outside _ _ => False
  | .ptrs _ _ => False
  | _ => True

instance (v : Val) : Decidable (Inside v) := by unfold Inside; split <;> infer_instance

/-- The system calls whose arguments can be decoded. -/
def decodable : List Nat := nr.sys_execve :: meanings.map (·.1)

/-- What Linux reports: results from -4095 to -1 are error numbers, negated. -/
def errorOf (ret : Int) : Int := if -4095 ≤ ret ∧ ret < 0 then -ret else 0

/-- The decoded string `s` is the prefix of `bs` before the first NUL. -/
def BeforeNul (bs s : List Byte) : Prop :=
  (0 : Byte) ∉ s ∧ (s = bs ∨ (s ++ [0]) <+: bs)

end Swoll.Spec.Event
