/-
Tables of symbolic names: flag bits, error numbers, socket constants, resource limits.

Each row is written `(value, "name")` where the Go map has a constant of package `syscall` or
`golang.org/x/sys/unix` as its key. Those packages are not part of the repository; the values
are the linux/amd64 ones, taken from the C headers of Linux (`MS_NOUSER` is `-0x80000000` in
both, i.e. sign-extended to 64 bits).
-/
namespace Swoll.Flags

/-- A Go `int` holding a set of flags. (as in pkg/types/fileflags.go:9) -/
abbrev Word := BitVec 64

/-- A flag type: the masks its `Parse` ranges over, the value `Parse` treats apart, and the
`switch` of its `UnmarshalJSON`. (as in pkg/types/fileflags.go:11-107) -/
structure FlagType where
  /-- the mask table, a Go map -/
  masks : List (Word × String)
  /-- value for which `Parse` returns a single name without looking at the masks -/
  special : Option (Word × String)
  /-- cases `"name": *f |= value` of `UnmarshalJSON` -/
  sets : List (String × Word)
  /-- cases `"name": *f = 0` of `UnmarshalJSON` -/
  resets : List String
  /-- `UnmarshalJSON` starts with `*f = 0` -/
  clears : Bool

/-- `FileFlags`, pkg/types/fileflags.go: masks 11-29, `Parse` 31-46, `UnmarshalJSON` 56-106. -/
def fileFlags : FlagType where
  masks := [
    (0x2, "O_RDWR"),
    (0x1, "O_WRONLY"),
    (0x0, "O_RDONLY"),
    (0x400, "O_APPEND"),
    (0x2000, "O_ASYNC"),
    (0x80000, "O_CLOEXEC"),
    (0x40, "O_CREAT"),
    (0x4000, "O_DIRECT"),
    (0x10000, "O_DIRECTORY"),
    (0x1000, "O_DSYNC"),
    (0x80, "O_EXCL"),
    (0x40000, "O_NOATIME"),
    (0x100, "O_NOCTTY"),
    (0x20000, "O_NOFOLLOW"),
    (0x800, "O_NONBLOCK"),
    (0x101000, "O_SYNC"),
    (0x200, "O_TRUNC")]
  special := some (0x0, "O_RDONLY")
  sets := [
    ("O_RDWR", 0x2),
    ("O_WRONLY", 0x1),
    ("O_RDONLY", 0x0),
    ("O_APPEND", 0x400),
    ("O_ASYNC", 0x2000),
    ("O_CLOEXEC", 0x80000),
    ("O_CREAT", 0x40),
    ("O_DIRECT", 0x4000),
    ("O_DIRECTORY", 0x10000),
    ("O_DSYNC", 0x1000),
    ("O_EXCL", 0x80),
    ("O_NOATIME", 0x40000),
    ("O_NOCTTY", 0x100),
    ("O_NOFOLLOW", 0x20000),
    ("O_NONBLOCK", 0x800),
    ("O_SYNC", 0x101000),
    ("O_TRUNC", 0x200)]
  resets := []
  clears := true

/-- `MsgFlags`, pkg/types/msgflags.go: masks 12-21, `Parse` 23-34, `UnmarshalJSON` 50-79. -/
def msgFlags : FlagType where
  masks := [
    (0x40000000, "MSG_CMSG_CLOEXEC"),
    (0x40, "MSG_DONTWAIT"),
    (0x2000, "MSG_ERRQUEUE"),
    (0x1, "MSG_OOB"),
    (0x2, "MSG_PEEK"),
    (0x20, "MSG_TRUNC"),
    (0x100, "MSG_WAITALL"),
    (0x4000, "MSG_NOSIGNAL")]
  special := none
  sets := [
    ("MSG_CMSG_CLOEXEC", 0x40000000),
    ("MSG_DONTWAIT", 0x40),
    ("MSG_ERRQUEUE", 0x2000),
    ("MSG_OOB", 0x1),
    ("MSG_PEEK", 0x2),
    ("MSG_TRUNC", 0x20),
    ("MSG_WAITALL", 0x100),
    ("MSG_NOSIGNAL", 0x4000)]
  resets := []
  clears := false

/-- `TimerFlags`, pkg/types/clocktypes.go: masks 20-25, `Parse` 47-58, `UnmarshalJSON` 68-89. -/
def timerFlags : FlagType where
  masks := [
    (0x80000, "TFD_CLOEXEC"),
    (0x800, "TFD_NONBLOCK"),
    (0x1, "TFD_TIMER_ABSTIME"),
    (0x2, "TFD_TIMER_CANCEL_ON_SET")]
  special := none
  sets := [
    ("TFD_CLOEXEC", 0x80000),
    ("TFD_NONBLOCK", 0x800),
    ("TFD_TIMER_ABSTIME", 0x1),
    ("TFD_TIMER_CANCEL_ON_SET", 0x2)]
  resets := []
  clears := false

/-- `UmountFlags`, pkg/types/umountflags.go: masks 11-15, `Parse` 17-28, `UnmarshalJSON` 38-57. -/
def umountFlags : FlagType where
  masks := [
    (0x1, "MNT_FORCE"),
    (0x2, "MNT_DETACH"),
    (0x4, "MNT_EXPIRE")]
  special := none
  sets := [
    ("MNT_FORCE", 0x1),
    ("MNT_DETACH", 0x2),
    ("MNT_EXPIRE", 0x4)]
  resets := []
  clears := false

/-- `AcceptFlags`, pkg/event/call/accept.go: masks 25-28, `Parse` 30-41, `UnmarshalJSON` 51-66. -/
def acceptFlags : FlagType where
  masks := [
    (0x800, "SOCK_NONBLOCK"),
    (0x80000, "SOCK_CLOEXEC")]
  special := none
  sets := [
    ("SOCK_NONBLOCK", 0x800),
    ("SOCK_CLOEXEC", 0x80000)]
  resets := []
  clears := false

/-- `InotifyMask`, pkg/event/call/inotify_add_watch.go: masks 37-55, `Parse` 57-72, `UnmarshalJSON` 82-130. -/
def inotifyMask : FlagType where
  masks := [
    (0x1, "IN_ACCESS"),
    (0x4, "IN_ATTRIB"),
    (0x8, "IN_CLOSE_WRITE"),
    (0x10, "IN_CLOSE_NOWRITE"),
    (0x100, "IN_CREATE"),
    (0x200, "IN_DELETE"),
    (0x400, "IN_DELETE_SELF"),
    (0x2, "IN_MODIFY"),
    (0x800, "IN_MOVE_SELF"),
    (0x40, "IN_MOVED_FROM"),
    (0x80, "IN_MOVED_TO"),
    (0x20, "IN_OPEN"),
    (0x2000000, "IN_DONT_FOLLOW"),
    (0x4000000, "IN_EXCL_UNLINK"),
    (0x20000000, "IN_MASK_ADD"),
    (0x80000000, "IN_ONESHOT"),
    (0x1000000, "IN_ONLYDIR")]
  special := some (0xfff, "IN_ALL_EVENTS")
  sets := [
    ("IN_ALL_EVENTS", 0xfff),
    ("IN_ACCESS", 0x1),
    ("IN_ATTRIB", 0x4),
    ("IN_CLOSE_WRITE", 0x8),
    ("IN_CLOSE_NOWRITE", 0x10),
    ("IN_CREATE", 0x100),
    ("IN_DELETE", 0x200),
    ("IN_DELETE_SELF", 0x400),
    ("IN_MODIFY", 0x2),
    ("IN_MOVE_SELF", 0x800),
    ("IN_MOVED_FROM", 0x40),
    ("IN_MOVED_TO", 0x80),
    ("IN_OPEN", 0x20),
    ("IN_DONT_FOLLOW", 0x2000000),
    ("IN_EXCL_UNLINK", 0x4000000),
    ("IN_MASK_ADD", 0x20000000),
    ("IN_ONESHOT", 0x80000000),
    ("IN_ONLYDIR", 0x1000000)]
  resets := []
  clears := false

/-- `MountFlags`, pkg/event/call/mount.go: masks 39-70, `Parse` 72-87, `UnmarshalJSON` 97-172. -/
def mountFlags : FlagType where
  masks := [
    (0x1, "MS_RDONLY"),
    (0x2, "MS_NOSUID"),
    (0x4, "MS_NODEV"),
    (0x8, "MS_NOEXEC"),
    (0x10, "MS_SYNCHRONOUS"),
    (0x20, "MS_REMOUNT"),
    (0x40, "MS_MANDLOCK"),
    (0x80, "MS_DIRSYNC"),
    (0x400, "MS_NOATIME"),
    (0x800, "MS_NODIRATIME"),
    (0x1000, "MS_BIND"),
    (0x2000, "MS_MOVE"),
    (0x4000, "MS_REC"),
    (0x8000, "MS_VERBOSE"),
    (0x10000, "MS_POSIXACL"),
    (0x20000, "MS_UNBINDABLE"),
    (0x40000, "MS_PRIVATE"),
    (0x80000, "MS_SLAVE"),
    (0x100000, "MS_SHARED"),
    (0x200000, "MS_RELATIME"),
    (0x400000, "MS_KERNMOUNT"),
    (0x800000, "MS_I_VERSION"),
    (0x1000000, "MS_STRICTATIME"),
    (0x2000000, "MS_LAZYTIME"),
    (0x4000000, "MS_SUBMOUNT"),
    (0x8000000, "MS_NOREMOTELOCK"),
    (0x10000000, "MS_NOSEC"),
    (0x20000000, "MS_BORN"),
    (0x40000000, "MS_ACTIVE"),
    (0xffffffff80000000, "MS_NOUSER")]
  special := some (0x0, "MS_NONE")
  sets := [
    ("MS_LAZYTIME", 0x2000000),
    ("MS_SUBMOUNT", 0x4000000),
    ("MS_NOREMOTELOCK", 0x8000000),
    ("MS_NOSEC", 0x10000000),
    ("MS_BORN", 0x20000000),
    ("MS_ACTIVE", 0x40000000),
    ("MS_NOUSER", 0xffffffff80000000),
    ("MS_STRICTATIME", 0x1000000),
    ("MS_RDONLY", 0x1),
    ("MS_NOSUID", 0x2),
    ("MS_NODEV", 0x4),
    ("MS_NOEXEC", 0x8),
    ("MS_SYNCHRONOUS", 0x10),
    ("MS_REMOUNT", 0x20),
    ("MS_MANDLOCK", 0x40),
    ("MS_DIRSYNC", 0x80),
    ("MS_NOATIME", 0x400),
    ("MS_NODIRATIME", 0x800),
    ("MS_BIND", 0x1000),
    ("MS_MOVE", 0x2000),
    ("MS_REC", 0x4000),
    ("MS_VERBOSE", 0x8000),
    ("MS_POSIXACL", 0x10000),
    ("MS_UNBINDABLE", 0x20000),
    ("MS_PRIVATE", 0x40000),
    ("MS_SLAVE", 0x80000),
    ("MS_SHARED", 0x100000),
    ("MS_RELATIME", 0x200000),
    ("MS_KERNMOUNT", 0x400000),
    ("MS_I_VERSION", 0x800000)]
  resets := ["MS_NONE"]
  clears := false

/-- `CloneFlags`, pkg/types/cloneflags.go: masks 12-35, `Parse` 37-47; it has no JSON methods, so its `sets` is empty and unused. -/
def cloneFlags : FlagType where
  masks := [
    (0x200000, "CLONE_CHILD_CLEARTID"),
    (0x1000000, "CLONE_CHILD_SETTID"),
    (0x400, "CLONE_FILES"),
    (0x200, "CLONE_FS"),
    (0x80000000, "CLONE_IO"),
    (0x2000000, "CLONE_NEWCGROUP"),
    (0x8000000, "CLONE_NEWIPC"),
    (0x40000000, "CLONE_NEWNET"),
    (0x20000, "CLONE_NEWNS"),
    (0x20000000, "CLONE_NEWPID"),
    (0x10000000, "CLONE_NEWUSER"),
    (0x4000000, "CLONE_NEWUTS"),
    (0x8000, "CLONE_PARENT"),
    (0x100000, "CLONE_PARENT_SETTID"),
    (0x2000, "CLONE_PTRACE"),
    (0x80000, "CLONE_SETTLS"),
    (0x800, "CLONE_SIGHAND"),
    (0x40000, "CLONE_SYSVSEM"),
    (0x10000, "CLONE_THREAD"),
    (0x800000, "CLONE_UNTRACED"),
    (0x4000, "CLONE_VFORK"),
    (0x100, "CLONE_VM")]
  special := none
  sets := []
  resets := []
  clears := false

/-- `PtraceFlags`, pkg/types/ptraceflags.go: masks 23-32, `Parse` 76-86; it has no JSON methods, so its `sets` is empty and unused. -/
def ptraceFlags : FlagType where
  masks := [
    (0x1, "PTRACE_O_TRACESYSGOOD"),
    (0x2, "PTRACE_O_TRACEFORK"),
    (0x4, "PTRACE_O_TRACEVFORK"),
    (0x8, "PTRACE_O_TRACECLONE"),
    (0x10, "PTRACE_O_TRACEEXEC"),
    (0x20, "PTRACE_O_TRACEVFORKDONE"),
    (0x40, "PTRACE_O_TRACEEXIT")]
  special := none
  sets := []
  resets := []
  clears := false

/-- `XmodeFlags`, pkg/types/xmode.go: masks 11-15, `Parse` 17-31; it has no JSON methods, so its `sets` is empty and unused. -/
def xmodeFlags : FlagType where
  masks := [
    (0x4, "R_OK"),
    (0x2, "W_OK"),
    (0x1, "X_OK")]
  special := some (0x0, "F_OK")
  sets := []
  resets := []
  clears := false

/-- `ProtFlags`, pkg/event/call/mprotect.go: masks 46-54, `Parse` 56-71; it has no JSON methods, so its `sets` is empty and unused. -/
def protFlags : FlagType where
  masks := [
    (0x0, "PROT_NONE"),
    (0x1, "PROT_READ"),
    (0x2, "PROT_WRITE"),
    (0x4, "PROT_EXEC"),
    (0x8, "PROT_SEM"),
    (0x2000000, "PROT_GROWSUP"),
    (0x1000000, "PROT_GROWSDOWN")]
  special := some (0x0, "PROT_NONE")
  sets := []
  resets := []
  clears := false

/-- `errnoVals`, pkg/types/errno.go: constants 62-198, map 200-335. -/
def errnoVals : List (Int × String) := [
  (-1, "UNK"),
  (0, "OK"),
  (1, "EPERM"),
  (2, "ENOENT"),
  (3, "ESRCH"),
  (4, "EINTR"),
  (5, "EIO"),
  (6, "ENXIO"),
  (7, "E2BIG"),
  (8, "ENOEXEC"),
  (9, "EBADF"),
  (10, "ECHILD"),
  (11, "EAGAIN"),
  (12, "ENOMEM"),
  (13, "EACCES"),
  (14, "EFAULT"),
  (15, "ENOTBLK"),
  (16, "EBUSY"),
  (17, "EEXIST"),
  (18, "EXDEV"),
  (19, "ENODEV"),
  (20, "ENOTDIR"),
  (21, "EISDIR"),
  (22, "EINVAL"),
  (23, "ENFILE"),
  (24, "EMFILE"),
  (25, "ENOTTY"),
  (26, "ETXTBSY"),
  (27, "EFBIG"),
  (28, "ENOSPC"),
  (29, "ESPIPE"),
  (30, "EROFS"),
  (31, "EMLINK"),
  (32, "EPIPE"),
  (33, "EDOM"),
  (34, "ERANGE"),
  (35, "EDEADLK"),
  (36, "ENAMETOOLONG"),
  (37, "ENOLCK"),
  (38, "ENOSYS"),
  (39, "ENOTEMPTY"),
  (40, "ELOOP"),
  (42, "ENOMSG"),
  (43, "EIDRM"),
  (44, "ECHRNG"),
  (45, "EL2NSYNC"),
  (46, "EL3HLT"),
  (47, "EL3RST"),
  (48, "ELNRNG"),
  (49, "EUNATCH"),
  (50, "ENOCSI"),
  (51, "EL2HLT"),
  (52, "EBADE"),
  (53, "EBADR"),
  (54, "EXFULL"),
  (55, "ENOANO"),
  (56, "EBADRQC"),
  (57, "EBADSLT"),
  (59, "EBFONT"),
  (60, "ENOSTR"),
  (61, "ENODATA"),
  (62, "ETIME"),
  (63, "ENOSR"),
  (64, "ENONET"),
  (65, "ENOPKG"),
  (66, "EREMOTE"),
  (67, "ENOLINK"),
  (68, "EADV"),
  (69, "ESRMNT"),
  (70, "ECOMM"),
  (71, "EPROTO"),
  (72, "EMULTIHOP"),
  (73, "EDOTDOT"),
  (74, "EBADMSG"),
  (75, "EOVERFLOW"),
  (76, "ENOTUNIQ"),
  (77, "EBADFD"),
  (78, "EREMCHG"),
  (79, "ELIBACC"),
  (80, "ELIBBAD"),
  (81, "ELIBSCN"),
  (82, "ELIBMAX"),
  (83, "ELIBEXEC"),
  (84, "EILSEQ"),
  (85, "ERESTART"),
  (86, "ESTRPIPE"),
  (87, "EUSERS"),
  (88, "ENOTSOCK"),
  (89, "EDESTADDRREQ"),
  (90, "EMSGSIZE"),
  (91, "EPROTOTYPE"),
  (92, "ENOPROTOOPT"),
  (93, "EPROTONOSUPPORT"),
  (94, "ESOCKTNOSUPPORT"),
  (95, "EOPNOTSUPP"),
  (96, "EPFNOSUPPORT"),
  (97, "EAFNOSUPPORT"),
  (98, "EADDRINUSE"),
  (99, "EADDRNOTAVAIL"),
  (100, "ENETDOWN"),
  (101, "ENETUNREACH"),
  (102, "ENETRESET"),
  (103, "ECONNABORTED"),
  (104, "ECONNRESET"),
  (105, "ENOBUFS"),
  (106, "EISCONN"),
  (107, "ENOTCONN"),
  (108, "ESHUTDOWN"),
  (109, "ETOOMANYREFS"),
  (110, "ETIMEDOUT"),
  (111, "ECONNREFUSED"),
  (112, "EHOSTDOWN"),
  (113, "EHOSTUNREACH"),
  (114, "EALREADY"),
  (115, "EINPROGRESS"),
  (116, "ESTALE"),
  (117, "EUCLEAN"),
  (118, "ENOTNAM"),
  (119, "ENAVAIL"),
  (120, "EISNAM"),
  (122, "EDQUOT"),
  (126, "ENOKEY"),
  (132, "ERFKILL"),
  (123, "ENOMEDIUM"),
  (121, "EREMOTEIO"),
  (125, "ECANCELED"),
  (133, "EHWPOISON"),
  (130, "EOWNERDEAD"),
  (124, "EMEDIUMTYPE"),
  (127, "EKEYEXPIRED"),
  (128, "EKEYREVOKED"),
  (129, "EKEYREJECTED"),
  (131, "ENOTRECOVERABLE"),
  (512, "ERESTARTSYS")]

/-- `sockFamilyMap`, pkg/event/call/socket.go: 125-154. -/
def sockFamilyMap : List (Int × String) := [
  (2, "AF_INET"),
  (10, "AF_INET6"),
  (16, "AF_NETLINK"),
  (38, "AF_ALG"),
  (5, "AF_APPLETALK"),
  (18, "AF_ASH"),
  (8, "AF_ATMPVC"),
  (20, "AF_ATMSVC"),
  (3, "AF_AX25"),
  (31, "AF_BLUETOOTH"),
  (7, "AF_BRIDGE"),
  (37, "AF_CAIF"),
  (29, "AF_CAN"),
  (12, "AF_DECnet"),
  (19, "AF_ECONET"),
  (27, "AF_IB"),
  (4, "AF_IPX"),
  (23, "AF_IRDA"),
  (34, "AF_ISDN"),
  (41, "AF_KCM"),
  (15, "AF_KEY"),
  (28, "AF_MPLS"),
  (13, "AF_NETBEUI"),
  (30, "AF_TIPC"),
  (17, "AF_PACKET"),
  (1, "AF_UNIX"),
  (40, "AF_VSOCK"),
  (44, "AF_XDP")]

/-- `sockProtoMap`, pkg/event/call/socket.go: 193-220. -/
def sockProtoMap : List (Int × String) := [
  (51, "IPPROTO_AH"),
  (108, "IPPROTO_COMP"),
  (33, "IPPROTO_DCCP"),
  (60, "IPPROTO_DSTOPTS"),
  (8, "IPPROTO_EGP"),
  (98, "IPPROTO_ENCAP"),
  (50, "IPPROTO_ESP"),
  (44, "IPPROTO_FRAGMENT"),
  (47, "IPPROTO_GRE"),
  (1, "IPPROTO_ICMP"),
  (58, "IPPROTO_ICMPV6"),
  (22, "IPPROTO_IDP"),
  (2, "IPPROTO_IGMP"),
  (0, "IPPROTO_IP"),
  (4, "IPPROTO_IPIP"),
  (41, "IPPROTO_IPV6"),
  (92, "IPPROTO_MTP"),
  (59, "IPPROTO_NONE"),
  (255, "IPPROTO_RAW"),
  (43, "IPPROTO_ROUTING"),
  (46, "IPPROTO_RSVP"),
  (132, "IPPROTO_SCTP"),
  (6, "IPPROTO_TCP"),
  (29, "IPPROTO_TP"),
  (17, "IPPROTO_UDP"),
  (136, "IPPROTO_UDPLITE")]

/-- `sockLevelMap`, pkg/event/call/sockopt.go: 69-82. -/
def sockLevelMap : List (Int × String) := [
  (265, "SOL_AAL"),
  (264, "SOL_ATM"),
  (261, "SOL_DECNET"),
  (58, "SOL_ICMPV6"),
  (0, "SOL_IP"),
  (41, "SOL_IPV6"),
  (266, "SOL_IRDA"),
  (263, "SOL_PACKET"),
  (255, "SOL_RAW"),
  (1, "SOL_SOCKET"),
  (6, "SOL_TCP"),
  (262, "SOL_X25")]

/-- `socketOpMasks`, pkg/event/call/sockopt.go: 121-163. -/
def socketOpMasks : List (Int × String) := [
  (30, "SO_ACCEPTCONN"),
  (26, "SO_ATTACH_FILTER"),
  (50, "SO_ATTACH_BPF"),
  (51, "SO_ATTACH_REUSEPORT_CBPF"),
  (52, "SO_ATTACH_REUSEPORT_EBPF"),
  (25, "SO_BINDTODEVICE"),
  (6, "SO_BROADCAST"),
  (14, "SO_BSDCOMPAT"),
  (1, "SO_DEBUG"),
  (27, "SO_DETACH_FILTER"),
  (39, "SO_DOMAIN"),
  (4, "SO_ERROR"),
  (5, "SO_DONTROUTE"),
  (49, "SO_INCOMING_CPU"),
  (9, "SO_KEEPALIVE"),
  (13, "SO_LINGER"),
  (44, "SO_LOCK_FILTER"),
  (36, "SO_MARK"),
  (10, "SO_OOBINLINE"),
  (16, "SO_PASSCRED"),
  (42, "SO_PEEK_OFF"),
  (17, "SO_PEERCRED"),
  (12, "SO_PRIORITY"),
  (38, "SO_PROTOCOL"),
  (8, "SO_RCVBUF"),
  (33, "SO_RCVBUFFORCE"),
  (18, "SO_RCVLOWAT"),
  (19, "SO_SNDLOWAT"),
  (20, "SO_RCVTIMEO"),
  (21, "SO_SNDTIMEO"),
  (2, "SO_REUSEADDR"),
  (15, "SO_REUSEPORT"),
  (40, "SO_RXQ_OVFL"),
  (7, "SO_SNDBUF"),
  (31, "SO_PEERSEC"),
  (32, "SO_SNDBUFFORCE"),
  (29, "SO_TIMESTAMP"),
  (3, "SO_TYPE"),
  (46, "SO_BUSY_POLL"),
  (59, "SO_PEERGROUPS"),
  (28, "SO_PEERNAME")]

/-- `tcpOpMasks`, pkg/event/call/sockopt.go: 174-190. -/
def tcpOpMasks : List (Int × String) := [
  (13, "TCP_CONGESTION"),
  (3, "TCP_CORK"),
  (9, "TCP_DEFER_ACCEPT"),
  (11, "TCP_INFO"),
  (6, "TCP_KEEPCNT"),
  (4, "TCP_KEEPIDLE"),
  (5, "TCP_KEEPINTVL"),
  (8, "TCP_LINGER2"),
  (2, "TCP_MAXSEG"),
  (1, "TCP_NODELAY"),
  (12, "TCP_QUICKACK"),
  (7, "TCP_SYNCNT"),
  (18, "TCP_USER_TIMEOUT"),
  (10, "TCP_WINDOW_CLAMP"),
  (17, "TCP_THIN_DUPACK")]

/-- `ipOpMasks`, pkg/event/call/sockopt.go: 201-232. -/
def ipOpMasks : List (Int × String) := [
  (35, "IP_ADD_MEMBERSHIP"),
  (39, "IP_ADD_SOURCE_MEMBERSHIP"),
  (24, "IP_BIND_ADDRESS_NO_PORT"),
  (38, "IP_BLOCK_SOURCE"),
  (36, "IP_DROP_MEMBERSHIP"),
  (40, "IP_DROP_SOURCE_MEMBERSHIP"),
  (15, "IP_FREEBIND"),
  (3, "IP_HDRINCL"),
  (41, "IP_MSFILTER"),
  (14, "IP_MTU"),
  (10, "IP_MTU_DISCOVER"),
  (49, "IP_MULTICAST_ALL"),
  (32, "IP_MULTICAST_IF"),
  (34, "IP_MULTICAST_LOOP"),
  (33, "IP_MULTICAST_TTL"),
  (22, "IP_NODEFRAG"),
  (4, "IP_OPTIONS"),
  (8, "IP_PKTINFO"),
  (11, "IP_RECVERR"),
  (6, "IP_RECVOPTS"),
  (20, "IP_RECVORIGDSTADDR"),
  (13, "IP_RECVTOS"),
  (12, "IP_RECVTTL"),
  (7, "IP_RETOPTS"),
  (5, "IP_ROUTER_ALERT"),
  (1, "IP_TOS"),
  (19, "IP_TRANSPARENT"),
  (37, "IP_UNBLOCK_SOURCE"),
  (2, "IP_TTL"),
  (50, "IP_UNICAST_IF")]

/-- `ip6OpMasks`, pkg/event/call/sockopt.go: 243-263. -/
def ip6OpMasks : List (Int × String) := [
  (1, "IPV6_ADDRFORM"),
  (20, "IPV6_ADD_MEMBERSHIP"),
  (21, "IPV6_DROP_MEMBERSHIP"),
  (24, "IPV6_MTU"),
  (23, "IPV6_MTU_DISCOVER"),
  (18, "IPV6_MULTICAST_HOPS"),
  (17, "IPV6_MULTICAST_IF"),
  (19, "IPV6_MULTICAST_LOOP"),
  (49, "IPV6_RECVPKTINFO"),
  (57, "IPV6_RTHDR"),
  (10, "IPV6_AUTHHDR"),
  (59, "IPV6_DSTOPTS"),
  (54, "IPV6_HOPOPTS"),
  (52, "IPV6_HOPLIMIT"),
  (25, "IPV6_RECVERR"),
  (22, "IPV6_ROUTER_ALERT"),
  (16, "IPV6_UNICAST_HOPS"),
  (26, "IPV6_V6ONLY")]

/-- `ptraceReqTypes`, pkg/event/call/ptrace.go: 50-82. -/
def ptraceReqTypes : List (Int × String) := [
  (16908, "PTRACE_SECCOMP_GET_FILTER"),
  (16904, "PTRACE_LISTEN"),
  (16905, "PTRACE_PEEKSIGINFO"),
  (16903, "PTRACE_INTERRUPT"),
  (16902, "PTRACE_SEIZE"),
  (16910, "PTRACE_GET_SYSCALL_INFO"),
  (2, "PTRACE_PEEKDATA"),
  (3, "PTRACE_PEEKUSER"),
  (0, "PTRACE_TRACEME"),
  (1, "PTRACE_PEEKTEXT"),
  (4, "PTRACE_POKETEXT"),
  (12, "PTRACE_GETREGS"),
  (14, "PTRACE_GETFPREGS"),
  (16900, "PTRACE_GETREGSET"),
  (13, "PTRACE_SETREGS"),
  (15, "PTRACE_SETFPREGS"),
  (16901, "PTRACE_SETREGSET"),
  (16898, "PTRACE_GETSIGINFO"),
  (16899, "PTRACE_SETSIGINFO"),
  (16896, "PTRACE_SETOPTIONS"),
  (16897, "PTRACE_GETEVENTMSG"),
  (7, "PTRACE_CONT"),
  (24, "PTRACE_SYSCALL"),
  (9, "PTRACE_SINGLESTEP"),
  (31, "PTRACE_SYSEMU"),
  (32, "PTRACE_SYSEMU_SINGLESTEP"),
  (8, "PTRACE_KILL"),
  (16, "PTRACE_ATTACH"),
  (17, "PTRACE_DETACH"),
  (25, "PTRACE_GET_THREAD_AREA"),
  (26, "PTRACE_SET_THREAD_AREA")]

/-- The cases of `PRresource.Parse`, pkg/event/call/prlimit64.go:55-92 (constants 43-53). -/
def rlimitNames : List (Int × String) := [
  (9, "RLIMIT_AS"),
  (4, "RLIMIT_CORE"),
  (0, "RLIMIT_CPU"),
  (2, "RLIMIT_DATA"),
  (1, "RLIMIT_FSIZE"),
  (7, "RLIMIT_NOFILE"),
  (3, "RLIMIT_STACK"),
  (5, "RLIMIT_RSS"),
  (6, "RLIMIT_NPROC"),
  (8, "RLIMIT_MEMLOCK"),
  (10, "RLIMIT_LOCKS"),
  (11, "RLIMIT_SIGPENDING"),
  (12, "RLIMIT_MSGQUEUE"),
  (13, "RLIMIT_NICE"),
  (14, "RLIMIT_RTPRIO"),
  (15, "RLIMIT_RTTIME")]

/-- The cases of `PRresource.UnmarshalJSON`, pkg/event/call/prlimit64.go:102-151. -/
def rlimitValues : List (String × Int) := [
  ("RLIMIT_AS", 9),
  ("RLIMIT_CORE", 4),
  ("RLIMIT_CPU", 0),
  ("RLIMIT_DATA", 2),
  ("RLIMIT_FSIZE", 1),
  ("RLIMIT_NOFILE", 7),
  ("RLIMIT_STACK", 3),
  ("RLIMIT_RSS", 5),
  ("RLIMIT_NPROC", 6),
  ("RLIMIT_MEMLOCK", 8),
  ("RLIMIT_LOCKS", 10),
  ("RLIMIT_SIGPENDING", 11),
  ("RLIMIT_MSGQUEUE", 12),
  ("RLIMIT_NICE", 13),
  ("RLIMIT_RTPRIO", 14),
  ("RLIMIT_RTTIME", 15)]

end Swoll.Flags
