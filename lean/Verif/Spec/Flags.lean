import Verif.Util.Bytes
/-
What a user expects of printed flags, error names, socket constants and addresses, written
from the manual pages and the Linux headers alone. Flags are given by bit position.
-/
namespace Swoll.Spec.Flags
open Swoll.Bytes

/-- Documentation of a flag argument: the names with the bits each stands for, and possibly a
name for one particular value as a whole, given by its bits. -/
structure Doc where
  flags : List (String × List Nat)
  whole : Option (List Nat × String)

/-- The bits of `f` are exactly those listed. -/
def OnlyBits (f : BitVec 64) (bs : List Nat) : Prop :=
  ∀ i, i < 64 → (f.getLsbD i = true ↔ i ∈ bs)

/-- A flag is set: it has bits, and all of them are set. -/
def IsSet (f : BitVec 64) (bs : List Nat) : Prop :=
  bs ≠ [] ∧ ∀ b ∈ bs, f.getLsbD b = true

/-- The name `n` describes the value `f`. -/
def Describes (d : Doc) (f : BitVec 64) (n : String) : Prop :=
  match d.whole with
  | some (bs, name) =>
    (OnlyBits f bs ∧ n = name) ∨ (¬ OnlyBits f bs ∧ ∃ e ∈ d.flags, e.1 = n ∧ IsSet f e.2)
  | none => ∃ e ∈ d.flags, e.1 = n ∧ IsSet f e.2

/-- The bits that have a name. -/
def Doc.named (d : Doc) : List Nat := d.flags.flatMap (·.2)

/-- `g` has the bits of `f` that have a name, and no others. -/
def SameNamedBits (d : Doc) (f g : BitVec 64) : Prop :=
  ∀ i, i < 64 → (g.getLsbD i = true ↔ f.getLsbD i = true ∧ i ∈ d.named)

/-- open(2) -/
def fileFlags : Doc where
  flags := [
    ("O_RDONLY", []),
    ("O_WRONLY", [0]),
    ("O_RDWR", [1]),
    ("O_CREAT", [6]),
    ("O_EXCL", [7]),
    ("O_NOCTTY", [8]),
    ("O_TRUNC", [9]),
    ("O_APPEND", [10]),
    ("O_NONBLOCK", [11]),
    ("O_DSYNC", [12]),
    ("O_SYNC", [12, 20]),
    ("O_ASYNC", [13]),
    ("O_DIRECT", [14]),
    ("O_DIRECTORY", [16]),
    ("O_NOFOLLOW", [17]),
    ("O_NOATIME", [18]),
    ("O_CLOEXEC", [19])]
  whole := some ([], "O_RDONLY")

/-- send(2), recv(2) -/
def msgFlags : Doc where
  flags := [
    ("MSG_OOB", [0]),
    ("MSG_PEEK", [1]),
    ("MSG_TRUNC", [5]),
    ("MSG_DONTWAIT", [6]),
    ("MSG_WAITALL", [8]),
    ("MSG_ERRQUEUE", [13]),
    ("MSG_NOSIGNAL", [14]),
    ("MSG_CMSG_CLOEXEC", [30])]
  whole := none

/-- timerfd_create(2), timerfd_settime(2) -/
def timerFlags : Doc where
  flags := [
    ("TFD_TIMER_ABSTIME", [0]),
    ("TFD_TIMER_CANCEL_ON_SET", [1]),
    ("TFD_NONBLOCK", [11]),
    ("TFD_CLOEXEC", [19])]
  whole := none

/-- umount2(2) -/
def umountFlags : Doc where
  flags := [
    ("MNT_FORCE", [0]),
    ("MNT_DETACH", [1]),
    ("MNT_EXPIRE", [2])]
  whole := none

/-- accept4(2) -/
def acceptFlags : Doc where
  flags := [
    ("SOCK_NONBLOCK", [11]),
    ("SOCK_CLOEXEC", [19])]
  whole := none

/-- inotify_add_watch(2) -/
def inotifyMask : Doc where
  flags := [
    ("IN_ACCESS", [0]),
    ("IN_MODIFY", [1]),
    ("IN_ATTRIB", [2]),
    ("IN_CLOSE_WRITE", [3]),
    ("IN_CLOSE_NOWRITE", [4]),
    ("IN_OPEN", [5]),
    ("IN_MOVED_FROM", [6]),
    ("IN_MOVED_TO", [7]),
    ("IN_CREATE", [8]),
    ("IN_DELETE", [9]),
    ("IN_DELETE_SELF", [10]),
    ("IN_MOVE_SELF", [11]),
    ("IN_ONLYDIR", [24]),
    ("IN_DONT_FOLLOW", [25]),
    ("IN_EXCL_UNLINK", [26]),
    ("IN_MASK_ADD", [29]),
    ("IN_ONESHOT", [31])]
  whole := some ([0, 1, 2, 3, 4, 5, 6, 7, 8, 9, 10, 11], "IN_ALL_EVENTS")

/-- mount(2) -/
def mountFlags : Doc where
  flags := [
    ("MS_RDONLY", [0]),
    ("MS_NOSUID", [1]),
    ("MS_NODEV", [2]),
    ("MS_NOEXEC", [3]),
    ("MS_SYNCHRONOUS", [4]),
    ("MS_REMOUNT", [5]),
    ("MS_MANDLOCK", [6]),
    ("MS_DIRSYNC", [7]),
    ("MS_NOATIME", [10]),
    ("MS_NODIRATIME", [11]),
    ("MS_BIND", [12]),
    ("MS_MOVE", [13]),
    ("MS_REC", [14]),
    ("MS_VERBOSE", [15]),
    ("MS_POSIXACL", [16]),
    ("MS_UNBINDABLE", [17]),
    ("MS_PRIVATE", [18]),
    ("MS_SLAVE", [19]),
    ("MS_SHARED", [20]),
    ("MS_RELATIME", [21]),
    ("MS_KERNMOUNT", [22]),
    ("MS_I_VERSION", [23]),
    ("MS_STRICTATIME", [24]),
    ("MS_LAZYTIME", [25]),
    ("MS_SUBMOUNT", [26]),
    ("MS_NOREMOTELOCK", [27]),
    ("MS_NOSEC", [28]),
    ("MS_BORN", [29]),
    ("MS_ACTIVE", [30]),
    ("MS_NOUSER", [31])]
  whole := some ([], "MS_NONE")

/-- clone(2) -/
def cloneFlags : Doc where
  flags := [
    ("CLONE_VM", [8]),
    ("CLONE_FS", [9]),
    ("CLONE_FILES", [10]),
    ("CLONE_SIGHAND", [11]),
    ("CLONE_PTRACE", [13]),
    ("CLONE_VFORK", [14]),
    ("CLONE_PARENT", [15]),
    ("CLONE_THREAD", [16]),
    ("CLONE_NEWNS", [17]),
    ("CLONE_SYSVSEM", [18]),
    ("CLONE_SETTLS", [19]),
    ("CLONE_PARENT_SETTID", [20]),
    ("CLONE_CHILD_CLEARTID", [21]),
    ("CLONE_UNTRACED", [23]),
    ("CLONE_CHILD_SETTID", [24]),
    ("CLONE_NEWCGROUP", [25]),
    ("CLONE_NEWUTS", [26]),
    ("CLONE_NEWIPC", [27]),
    ("CLONE_NEWUSER", [28]),
    ("CLONE_NEWPID", [29]),
    ("CLONE_NEWNET", [30]),
    ("CLONE_IO", [31])]
  whole := none

/-- ptrace(2), PTRACE_SETOPTIONS -/
def ptraceFlags : Doc where
  flags := [
    ("PTRACE_O_TRACESYSGOOD", [0]),
    ("PTRACE_O_TRACEFORK", [1]),
    ("PTRACE_O_TRACEVFORK", [2]),
    ("PTRACE_O_TRACECLONE", [3]),
    ("PTRACE_O_TRACEEXEC", [4]),
    ("PTRACE_O_TRACEVFORKDONE", [5]),
    ("PTRACE_O_TRACEEXIT", [6])]
  whole := none

/-- access(2) -/
def xmodeFlags : Doc where
  flags := [
    ("X_OK", [0]),
    ("W_OK", [1]),
    ("R_OK", [2])]
  whole := some ([], "F_OK")

/-- mprotect(2) -/
def protFlags : Doc where
  flags := [
    ("PROT_NONE", []),
    ("PROT_READ", [0]),
    ("PROT_WRITE", [1]),
    ("PROT_EXEC", [2]),
    ("PROT_SEM", [3]),
    ("PROT_GROWSDOWN", [24]),
    ("PROT_GROWSUP", [25])]
  whole := some ([], "PROT_NONE")

/-- A Go `int`. -/
def FitsInt (n : Int) : Prop := -2 ^ 63 ≤ n ∧ n < 2 ^ 63

/-- The error numbers of Linux, asm-generic/errno-base.h and asm-generic/errno.h. -/
def errnos : List (Int × String) := [
  (1, "EPERM"),
  (2, "ENOENT"),
  (3, "ESRCH"),
  (4, "EINTR"),
  (5, "EIO"),
  (6, "ENXIO"),
  (7, "E2BIG"),
  (8, "ENOEXEC"),
  (9, "EBADF"),
  (10, "ECHILD"),
  (11, "EAGAIN"),
  (12, "ENOMEM"),
  (13, "EACCES"),
  (14, "EFAULT"),
  (15, "ENOTBLK"),
  (16, "EBUSY"),
  (17, "EEXIST"),
  (18, "EXDEV"),
  (19, "ENODEV"),
  (20, "ENOTDIR"),
  (21, "EISDIR"),
  (22, "EINVAL"),
  (23, "ENFILE"),
  (24, "EMFILE"),
  (25, "ENOTTY"),
  (26, "ETXTBSY"),
  (27, "EFBIG"),
  (28, "ENOSPC"),
  (29, "ESPIPE"),
  (30, "EROFS"),
  (31, "EMLINK"),
  (32, "EPIPE"),
  (33, "EDOM"),
  (34, "ERANGE"),
  (35, "EDEADLK"),
  (36, "ENAMETOOLONG"),
  (37, "ENOLCK"),
  (38, "ENOSYS"),
  (39, "ENOTEMPTY"),
  (40, "ELOOP"),
  (42, "ENOMSG"),
  (43, "EIDRM"),
  (44, "ECHRNG"),
  (45, "EL2NSYNC"),
  (46, "EL3HLT"),
  (47, "EL3RST"),
  (48, "ELNRNG"),
  (49, "EUNATCH"),
  (50, "ENOCSI"),
  (51, "EL2HLT"),
  (52, "EBADE"),
  (53, "EBADR"),
  (54, "EXFULL"),
  (55, "ENOANO"),
  (56, "EBADRQC"),
  (57, "EBADSLT"),
  (59, "EBFONT"),
  (60, "ENOSTR"),
  (61, "ENODATA"),
  (62, "ETIME"),
  (63, "ENOSR"),
  (64, "ENONET"),
  (65, "ENOPKG"),
  (66, "EREMOTE"),
  (67, "ENOLINK"),
  (68, "EADV"),
  (69, "ESRMNT"),
  (70, "ECOMM"),
  (71, "EPROTO"),
  (72, "EMULTIHOP"),
  (73, "EDOTDOT"),
  (74, "EBADMSG"),
  (75, "EOVERFLOW"),
  (76, "ENOTUNIQ"),
  (77, "EBADFD"),
  (78, "EREMCHG"),
  (79, "ELIBACC"),
  (80, "ELIBBAD"),
  (81, "ELIBSCN"),
  (82, "ELIBMAX"),
  (83, "ELIBEXEC"),
  (84, "EILSEQ"),
  (85, "ERESTART"),
  (86, "ESTRPIPE"),
  (87, "EUSERS"),
  (88, "ENOTSOCK"),
  (89, "EDESTADDRREQ"),
  (90, "EMSGSIZE"),
  (91, "EPROTOTYPE"),
  (92, "ENOPROTOOPT"),
  (93, "EPROTONOSUPPORT"),
  (94, "ESOCKTNOSUPPORT"),
  (95, "EOPNOTSUPP"),
  (96, "EPFNOSUPPORT"),
  (97, "EAFNOSUPPORT"),
  (98, "EADDRINUSE"),
  (99, "EADDRNOTAVAIL"),
  (100, "ENETDOWN"),
  (101, "ENETUNREACH"),
  (102, "ENETRESET"),
  (103, "ECONNABORTED"),
  (104, "ECONNRESET"),
  (105, "ENOBUFS"),
  (106, "EISCONN"),
  (107, "ENOTCONN"),
  (108, "ESHUTDOWN"),
  (109, "ETOOMANYREFS"),
  (110, "ETIMEDOUT"),
  (111, "ECONNREFUSED"),
  (112, "EHOSTDOWN"),
  (113, "EHOSTUNREACH"),
  (114, "EALREADY"),
  (115, "EINPROGRESS"),
  (116, "ESTALE"),
  (117, "EUCLEAN"),
  (118, "ENOTNAM"),
  (119, "ENAVAIL"),
  (120, "EISNAM"),
  (121, "EREMOTEIO"),
  (122, "EDQUOT"),
  (123, "ENOMEDIUM"),
  (124, "EMEDIUMTYPE"),
  (125, "ECANCELED"),
  (126, "ENOKEY"),
  (127, "EKEYEXPIRED"),
  (128, "EKEYREVOKED"),
  (129, "EKEYREJECTED"),
  (130, "EOWNERDEAD"),
  (131, "ENOTRECOVERABLE"),
  (132, "ERFKILL"),
  (133, "EHWPOISON")]

/-- A 16-bit number in network byte order. -/
def bigEndian16 (hi lo : Byte) : Nat := hi.toNat * 256 + lo.toNat

/-- A byte as two hexadecimal digits. -/
def hexByte (b : Byte) : List Char :=
  ["0123456789abcdef".toList.getD (b.toNat / 16) ' ', "0123456789abcdef".toList.getD (b.toNat % 16) ' ']

/-- The socket types of socket(2). -/
def sockTypes : List Nat := [1, 2, 3, 4, 5, 10]

end Swoll.Spec.Flags
