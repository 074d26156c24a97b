/-
Constants of the Linux interface on x86-64, taken from the kernel and C library headers
(asm/unistd_64.h, asm-generic/socket.h, asm-generic/resource.h, bits/socket.h, linux/in.h,
linux/in6.h, linux/tcp.h, linux/ptrace.h, asm/ptrace-abi.h) and not from the program. Where two
names share a number both are listed.
-/
namespace Swoll.Spec.Linux

/-- asm/unistd_64.h, without `__NR_` -/
def syscalls : List (Nat × String) := [
  (0, "read"), (1, "write"), (2, "open"), (3, "close"), (4, "stat"), (5, "fstat"), (6, "lstat"),
  (7, "poll"), (8, "lseek"), (9, "mmap"), (10, "mprotect"), (11, "munmap"), (12, "brk"),
  (13, "rt_sigaction"), (14, "rt_sigprocmask"), (15, "rt_sigreturn"), (16, "ioctl"),
  (17, "pread64"), (18, "pwrite64"), (19, "readv"), (20, "writev"), (21, "access"), (22, "pipe"),
  (23, "select"), (24, "sched_yield"), (25, "mremap"), (26, "msync"), (27, "mincore"),
  (28, "madvise"), (29, "shmget"), (30, "shmat"), (31, "shmctl"), (32, "dup"), (33, "dup2"),
  (34, "pause"), (35, "nanosleep"), (36, "getitimer"), (37, "alarm"), (38, "setitimer"),
  (39, "getpid"), (40, "sendfile"), (41, "socket"), (42, "connect"), (43, "accept"),
  (44, "sendto"), (45, "recvfrom"), (46, "sendmsg"), (47, "recvmsg"), (48, "shutdown"),
  (49, "bind"), (50, "listen"), (51, "getsockname"), (52, "getpeername"), (53, "socketpair"),
  (54, "setsockopt"), (55, "getsockopt"), (56, "clone"), (57, "fork"), (58, "vfork"),
  (59, "execve"), (60, "exit"), (61, "wait4"), (62, "kill"), (63, "uname"), (64, "semget"),
  (65, "semop"), (66, "semctl"), (67, "shmdt"), (68, "msgget"), (69, "msgsnd"), (70, "msgrcv"),
  (71, "msgctl"), (72, "fcntl"), (73, "flock"), (74, "fsync"), (75, "fdatasync"), (76, "truncate"),
  (77, "ftruncate"), (78, "getdents"), (79, "getcwd"), (80, "chdir"), (81, "fchdir"),
  (82, "rename"), (83, "mkdir"), (84, "rmdir"), (85, "creat"), (86, "link"), (87, "unlink"),
  (88, "symlink"), (89, "readlink"), (90, "chmod"), (91, "fchmod"), (92, "chown"), (93, "fchown"),
  (94, "lchown"), (95, "umask"), (96, "gettimeofday"), (97, "getrlimit"), (98, "getrusage"),
  (99, "sysinfo"), (100, "times"), (101, "ptrace"), (102, "getuid"), (103, "syslog"),
  (104, "getgid"), (105, "setuid"), (106, "setgid"), (107, "geteuid"), (108, "getegid"),
  (109, "setpgid"), (110, "getppid"), (111, "getpgrp"), (112, "setsid"), (113, "setreuid"),
  (114, "setregid"), (115, "getgroups"), (116, "setgroups"), (117, "setresuid"),
  (118, "getresuid"), (119, "setresgid"), (120, "getresgid"), (121, "getpgid"), (122, "setfsuid"),
  (123, "setfsgid"), (124, "getsid"), (125, "capget"), (126, "capset"), (127, "rt_sigpending"),
  (128, "rt_sigtimedwait"), (129, "rt_sigqueueinfo"), (130, "rt_sigsuspend"), (131, "sigaltstack"),
  (132, "utime"), (133, "mknod"), (134, "uselib"), (135, "personality"), (136, "ustat"),
  (137, "statfs"), (138, "fstatfs"), (139, "sysfs"), (140, "getpriority"), (141, "setpriority"),
  (142, "sched_setparam"), (143, "sched_getparam"), (144, "sched_setscheduler"),
  (145, "sched_getscheduler"), (146, "sched_get_priority_max"), (147, "sched_get_priority_min"),
  (148, "sched_rr_get_interval"), (149, "mlock"), (150, "munlock"), (151, "mlockall"),
  (152, "munlockall"), (153, "vhangup"), (154, "modify_ldt"), (155, "pivot_root"),
  (156, "_sysctl"), (157, "prctl"), (158, "arch_prctl"), (159, "adjtimex"), (160, "setrlimit"),
  (161, "chroot"), (162, "sync"), (163, "acct"), (164, "settimeofday"), (165, "mount"),
  (166, "umount2"), (167, "swapon"), (168, "swapoff"), (169, "reboot"), (170, "sethostname"),
  (171, "setdomainname"), (172, "iopl"), (173, "ioperm"), (174, "create_module"),
  (175, "init_module"), (176, "delete_module"), (177, "get_kernel_syms"), (178, "query_module"),
  (179, "quotactl"), (180, "nfsservctl"), (181, "getpmsg"), (182, "putpmsg"), (183, "afs_syscall"),
  (184, "tuxcall"), (185, "security"), (186, "gettid"), (187, "readahead"), (188, "setxattr"),
  (189, "lsetxattr"), (190, "fsetxattr"), (191, "getxattr"), (192, "lgetxattr"),
  (193, "fgetxattr"), (194, "listxattr"), (195, "llistxattr"), (196, "flistxattr"),
  (197, "removexattr"), (198, "lremovexattr"), (199, "fremovexattr"), (200, "tkill"),
  (201, "time"), (202, "futex"), (203, "sched_setaffinity"), (204, "sched_getaffinity"),
  (205, "set_thread_area"), (206, "io_setup"), (207, "io_destroy"), (208, "io_getevents"),
  (209, "io_submit"), (210, "io_cancel"), (211, "get_thread_area"), (212, "lookup_dcookie"),
  (213, "epoll_create"), (214, "epoll_ctl_old"), (215, "epoll_wait_old"),
  (216, "remap_file_pages"), (217, "getdents64"), (218, "set_tid_address"),
  (219, "restart_syscall"), (220, "semtimedop"), (221, "fadvise64"), (222, "timer_create"),
  (223, "timer_settime"), (224, "timer_gettime"), (225, "timer_getoverrun"), (226, "timer_delete"),
  (227, "clock_settime"), (228, "clock_gettime"), (229, "clock_getres"), (230, "clock_nanosleep"),
  (231, "exit_group"), (232, "epoll_wait"), (233, "epoll_ctl"), (234, "tgkill"), (235, "utimes"),
  (236, "vserver"), (237, "mbind"), (238, "set_mempolicy"), (239, "get_mempolicy"),
  (240, "mq_open"), (241, "mq_unlink"), (242, "mq_timedsend"), (243, "mq_timedreceive"),
  (244, "mq_notify"), (245, "mq_getsetattr"), (246, "kexec_load"), (247, "waitid"),
  (248, "add_key"), (249, "request_key"), (250, "keyctl"), (251, "ioprio_set"),
  (252, "ioprio_get"), (253, "inotify_init"), (254, "inotify_add_watch"),
  (255, "inotify_rm_watch"), (256, "migrate_pages"), (257, "openat"), (258, "mkdirat"),
  (259, "mknodat"), (260, "fchownat"), (261, "futimesat"), (262, "newfstatat"), (263, "unlinkat"),
  (264, "renameat"), (265, "linkat"), (266, "symlinkat"), (267, "readlinkat"), (268, "fchmodat"),
  (269, "faccessat"), (270, "pselect6"), (271, "ppoll"), (272, "unshare"),
  (273, "set_robust_list"), (274, "get_robust_list"), (275, "splice"), (276, "tee"),
  (277, "sync_file_range"), (278, "vmsplice"), (279, "move_pages"), (280, "utimensat"),
  (281, "epoll_pwait"), (282, "signalfd"), (283, "timerfd_create"), (284, "eventfd"),
  (285, "fallocate"), (286, "timerfd_settime"), (287, "timerfd_gettime"), (288, "accept4"),
  (289, "signalfd4"), (290, "eventfd2"), (291, "epoll_create1"), (292, "dup3"), (293, "pipe2"),
  (294, "inotify_init1"), (295, "preadv"), (296, "pwritev"), (297, "rt_tgsigqueueinfo"),
  (298, "perf_event_open"), (299, "recvmmsg"), (300, "fanotify_init"), (301, "fanotify_mark"),
  (302, "prlimit64"), (303, "name_to_handle_at"), (304, "open_by_handle_at"),
  (305, "clock_adjtime"), (306, "syncfs"), (307, "sendmmsg"), (308, "setns"), (309, "getcpu"),
  (310, "process_vm_readv"), (311, "process_vm_writev"), (312, "kcmp"), (313, "finit_module"),
  (314, "sched_setattr"), (315, "sched_getattr"), (316, "renameat2"), (317, "seccomp"),
  (318, "getrandom"), (319, "memfd_create"), (320, "kexec_file_load"), (321, "bpf"),
  (322, "execveat"), (323, "userfaultfd"), (324, "membarrier"), (325, "mlock2"),
  (326, "copy_file_range"), (327, "preadv2"), (328, "pwritev2"), (329, "pkey_mprotect"),
  (330, "pkey_alloc"), (331, "pkey_free"), (332, "statx"), (333, "io_pgetevents"), (334, "rseq"),
  (424, "pidfd_send_signal"), (425, "io_uring_setup"), (426, "io_uring_enter"),
  (427, "io_uring_register"), (428, "open_tree"), (429, "move_mount"), (430, "fsopen"),
  (431, "fsconfig"), (432, "fsmount"), (433, "fspick"), (434, "pidfd_open"), (435, "clone3"),
  (436, "close_range"), (437, "openat2"), (438, "pidfd_getfd"), (439, "faccessat2"),
  (440, "process_madvise"), (441, "epoll_pwait2"), (442, "mount_setattr"), (443, "quotactl_fd"),
  (444, "landlock_create_ruleset"), (445, "landlock_add_rule"), (446, "landlock_restrict_self"),
  (447, "memfd_secret"), (448, "process_mrelease"), (449, "futex_waitv"),
  (450, "set_mempolicy_home_node"), (451, "cachestat"), (452, "fchmodat2"),
  (453, "map_shadow_stack"), (454, "futex_wake"), (455, "futex_wait"), (456, "futex_requeue"),
  (457, "statmount"), (458, "listmount"), (459, "lsm_get_self_attr"), (460, "lsm_set_self_attr"),
  (461, "lsm_list_modules")]

/-- bits/socket.h: address families -/
def families : List (Int × String) := [
  (0, "AF_UNSPEC"), (1, "AF_LOCAL"), (1, "AF_UNIX"), (2, "AF_INET"), (3, "AF_AX25"), (4, "AF_IPX"),
  (5, "AF_APPLETALK"), (6, "AF_NETROM"), (7, "AF_BRIDGE"), (8, "AF_ATMPVC"), (9, "AF_X25"),
  (10, "AF_INET6"), (11, "AF_ROSE"), (12, "AF_DECnet"), (13, "AF_NETBEUI"), (14, "AF_SECURITY"),
  (15, "AF_KEY"), (16, "AF_NETLINK"), (17, "AF_PACKET"), (18, "AF_ASH"), (19, "AF_ECONET"),
  (20, "AF_ATMSVC"), (21, "AF_RDS"), (22, "AF_SNA"), (23, "AF_IRDA"), (24, "AF_PPPOX"),
  (25, "AF_WANPIPE"), (26, "AF_LLC"), (27, "AF_IB"), (28, "AF_MPLS"), (29, "AF_CAN"),
  (30, "AF_TIPC"), (31, "AF_BLUETOOTH"), (32, "AF_IUCV"), (33, "AF_RXRPC"), (34, "AF_ISDN"),
  (35, "AF_PHONET"), (36, "AF_IEEE802154"), (37, "AF_CAIF"), (38, "AF_ALG"), (39, "AF_NFC"),
  (40, "AF_VSOCK"), (41, "AF_KCM"), (42, "AF_QIPCRTR"), (43, "AF_SMC"), (44, "AF_XDP"),
  (45, "AF_MCTP")]

/-- linux/in.h and linux/in6.h: protocols of the internet families -/
def protocols : List (Int × String) := [
  (0, "IPPROTO_HOPOPTS"), (0, "IPPROTO_IP"), (1, "IPPROTO_ICMP"), (2, "IPPROTO_IGMP"),
  (4, "IPPROTO_IPIP"), (6, "IPPROTO_TCP"), (8, "IPPROTO_EGP"), (12, "IPPROTO_PUP"),
  (17, "IPPROTO_UDP"), (22, "IPPROTO_IDP"), (29, "IPPROTO_TP"), (33, "IPPROTO_DCCP"),
  (41, "IPPROTO_IPV6"), (43, "IPPROTO_ROUTING"), (44, "IPPROTO_FRAGMENT"), (46, "IPPROTO_RSVP"),
  (47, "IPPROTO_GRE"), (50, "IPPROTO_ESP"), (51, "IPPROTO_AH"), (58, "IPPROTO_ICMPV6"),
  (59, "IPPROTO_NONE"), (60, "IPPROTO_DSTOPTS"), (92, "IPPROTO_MTP"), (94, "IPPROTO_BEETPH"),
  (98, "IPPROTO_ENCAP"), (103, "IPPROTO_PIM"), (108, "IPPROTO_COMP"), (115, "IPPROTO_L2TP"),
  (132, "IPPROTO_SCTP"), (135, "IPPROTO_MH"), (136, "IPPROTO_UDPLITE"), (137, "IPPROTO_MPLS"),
  (143, "IPPROTO_ETHERNET"), (255, "IPPROTO_RAW"), (262, "IPPROTO_MPTCP")]

/-- bits/socket.h: option levels; for a protocol the level is its number -/
def levels : List (Int × String) := [
  (0, "SOL_IP"), (1, "SOL_SOCKET"), (6, "SOL_TCP"), (17, "SOL_UDP"), (41, "SOL_IPV6"),
  (58, "SOL_ICMPV6"), (255, "SOL_RAW"), (261, "SOL_DECNET"), (262, "SOL_X25"), (263, "SOL_PACKET"),
  (264, "SOL_ATM"), (265, "SOL_AAL"), (266, "SOL_IRDA"), (267, "SOL_NETBEUI"), (268, "SOL_LLC"),
  (269, "SOL_DCCP"), (270, "SOL_NETLINK"), (271, "SOL_TIPC"), (272, "SOL_RXRPC"),
  (273, "SOL_PPPOL2TP"), (274, "SOL_BLUETOOTH"), (275, "SOL_PNPIPE"), (276, "SOL_RDS"),
  (277, "SOL_IUCV"), (278, "SOL_CAIF"), (279, "SOL_ALG"), (280, "SOL_NFC"), (281, "SOL_KCM"),
  (282, "SOL_TLS"), (283, "SOL_XDP"), (284, "SOL_MPTCP"), (285, "SOL_MCTP"), (286, "SOL_SMC")]

/-- asm-generic/socket.h: options of level SOL_SOCKET -/
def socketOptions : List (Int × String) := [
  (1, "SO_DEBUG"), (2, "SO_REUSEADDR"), (3, "SO_TYPE"), (4, "SO_ERROR"), (5, "SO_DONTROUTE"),
  (6, "SO_BROADCAST"), (7, "SO_SNDBUF"), (8, "SO_RCVBUF"), (9, "SO_KEEPALIVE"),
  (10, "SO_OOBINLINE"), (11, "SO_NO_CHECK"), (12, "SO_PRIORITY"), (13, "SO_LINGER"),
  (14, "SO_BSDCOMPAT"), (15, "SO_REUSEPORT"), (16, "SO_PASSCRED"), (17, "SO_PEERCRED"),
  (18, "SO_RCVLOWAT"), (19, "SO_SNDLOWAT"), (20, "SO_RCVTIMEO"), (21, "SO_SNDTIMEO"),
  (22, "SO_SECURITY_AUTHENTICATION"), (23, "SO_SECURITY_ENCRYPTION_TRANSPORT"),
  (24, "SO_SECURITY_ENCRYPTION_NETWORK"), (25, "SO_BINDTODEVICE"), (26, "SO_ATTACH_FILTER"),
  (26, "SO_GET_FILTER"), (27, "SO_DETACH_FILTER"), (28, "SO_PEERNAME"), (29, "SO_TIMESTAMP"),
  (30, "SO_ACCEPTCONN"), (31, "SO_PEERSEC"), (32, "SO_SNDBUFFORCE"), (33, "SO_RCVBUFFORCE"),
  (34, "SO_PASSSEC"), (35, "SO_TIMESTAMPNS"), (36, "SO_MARK"), (37, "SO_TIMESTAMPING"),
  (38, "SO_PROTOCOL"), (39, "SO_DOMAIN"), (40, "SO_RXQ_OVFL"), (41, "SO_WIFI_STATUS"),
  (42, "SO_PEEK_OFF"), (43, "SO_NOFCS"), (44, "SO_LOCK_FILTER"), (45, "SO_SELECT_ERR_QUEUE"),
  (46, "SO_BUSY_POLL"), (47, "SO_MAX_PACING_RATE"), (48, "SO_BPF_EXTENSIONS"),
  (49, "SO_INCOMING_CPU"), (50, "SO_ATTACH_BPF"), (51, "SO_ATTACH_REUSEPORT_CBPF"),
  (52, "SO_ATTACH_REUSEPORT_EBPF"), (53, "SO_CNX_ADVICE"), (55, "SO_MEMINFO"),
  (56, "SO_INCOMING_NAPI_ID"), (57, "SO_COOKIE"), (59, "SO_PEERGROUPS"), (60, "SO_ZEROCOPY"),
  (61, "SO_TXTIME"), (62, "SO_BINDTOIFINDEX"), (63, "SO_TIMESTAMP_NEW"),
  (64, "SO_TIMESTAMPNS_NEW"), (65, "SO_TIMESTAMPING_NEW"), (66, "SO_RCVTIMEO_NEW"),
  (67, "SO_SNDTIMEO_NEW"), (68, "SO_DETACH_REUSEPORT_BPF"), (69, "SO_PREFER_BUSY_POLL"),
  (70, "SO_BUSY_POLL_BUDGET"), (71, "SO_NETNS_COOKIE"), (72, "SO_BUF_LOCK"),
  (73, "SO_RESERVE_MEM"), (74, "SO_TXREHASH"), (75, "SO_RCVMARK"), (76, "SO_PASSPIDFD"),
  (77, "SO_PEERPIDFD")]

/-- linux/tcp.h: options of level SOL_TCP -/
def tcpOptions : List (Int × String) := [
  (1, "TCP_NODELAY"), (2, "TCP_MAXSEG"), (3, "TCP_CORK"), (4, "TCP_KEEPIDLE"),
  (5, "TCP_KEEPINTVL"), (6, "TCP_KEEPCNT"), (7, "TCP_SYNCNT"), (8, "TCP_LINGER2"),
  (9, "TCP_DEFER_ACCEPT"), (10, "TCP_WINDOW_CLAMP"), (11, "TCP_INFO"), (12, "TCP_QUICKACK"),
  (13, "TCP_CONGESTION"), (14, "TCP_MD5SIG"), (16, "TCP_THIN_LINEAR_TIMEOUTS"),
  (17, "TCP_THIN_DUPACK"), (18, "TCP_USER_TIMEOUT"), (19, "TCP_REPAIR"), (20, "TCP_REPAIR_QUEUE"),
  (21, "TCP_QUEUE_SEQ"), (22, "TCP_REPAIR_OPTIONS"), (23, "TCP_FASTOPEN"), (24, "TCP_TIMESTAMP"),
  (25, "TCP_NOTSENT_LOWAT"), (26, "TCP_CC_INFO"), (27, "TCP_SAVE_SYN"), (28, "TCP_SAVED_SYN"),
  (29, "TCP_REPAIR_WINDOW"), (30, "TCP_FASTOPEN_CONNECT"), (31, "TCP_ULP"), (32, "TCP_MD5SIG_EXT"),
  (33, "TCP_FASTOPEN_KEY"), (34, "TCP_FASTOPEN_NO_COOKIE"), (35, "TCP_ZEROCOPY_RECEIVE"),
  (36, "TCP_INQ"), (37, "TCP_TX_DELAY")]

/-- linux/in.h: options of level SOL_IP -/
def ipOptions : List (Int × String) := [
  (1, "IP_TOS"), (2, "IP_TTL"), (3, "IP_HDRINCL"), (4, "IP_OPTIONS"), (5, "IP_ROUTER_ALERT"),
  (6, "IP_RECVOPTS"), (7, "IP_RETOPTS"), (8, "IP_PKTINFO"), (9, "IP_PKTOPTIONS"),
  (10, "IP_MTU_DISCOVER"), (11, "IP_RECVERR"), (12, "IP_RECVTTL"), (13, "IP_RECVTOS"),
  (14, "IP_MTU"), (15, "IP_FREEBIND"), (16, "IP_IPSEC_POLICY"), (17, "IP_XFRM_POLICY"),
  (18, "IP_PASSSEC"), (19, "IP_TRANSPARENT"), (20, "IP_ORIGDSTADDR"), (20, "IP_RECVORIGDSTADDR"),
  (21, "IP_MINTTL"), (22, "IP_NODEFRAG"), (23, "IP_CHECKSUM"), (24, "IP_BIND_ADDRESS_NO_PORT"),
  (25, "IP_RECVFRAGSIZE"), (26, "IP_RECVERR_RFC4884"), (32, "IP_MULTICAST_IF"),
  (33, "IP_MULTICAST_TTL"), (34, "IP_MULTICAST_LOOP"), (35, "IP_ADD_MEMBERSHIP"),
  (36, "IP_DROP_MEMBERSHIP"), (37, "IP_UNBLOCK_SOURCE"), (38, "IP_BLOCK_SOURCE"),
  (39, "IP_ADD_SOURCE_MEMBERSHIP"), (40, "IP_DROP_SOURCE_MEMBERSHIP"), (41, "IP_MSFILTER"),
  (49, "IP_MULTICAST_ALL"), (50, "IP_UNICAST_IF"), (51, "IP_LOCAL_PORT_RANGE"), (52, "IP_PROTOCOL")]

/-- linux/in6.h: options of level SOL_IPV6 -/
def ipv6Options : List (Int × String) := [
  (1, "IPV6_ADDRFORM"), (2, "IPV6_2292PKTINFO"), (3, "IPV6_2292HOPOPTS"), (4, "IPV6_2292DSTOPTS"),
  (5, "IPV6_2292RTHDR"), (6, "IPV6_2292PKTOPTIONS"), (7, "IPV6_CHECKSUM"),
  (8, "IPV6_2292HOPLIMIT"), (9, "IPV6_NEXTHOP"), (10, "IPV6_AUTHHDR"), (11, "IPV6_FLOWINFO"),
  (16, "IPV6_UNICAST_HOPS"), (17, "IPV6_MULTICAST_IF"), (18, "IPV6_MULTICAST_HOPS"),
  (19, "IPV6_MULTICAST_LOOP"), (20, "IPV6_ADD_MEMBERSHIP"), (21, "IPV6_DROP_MEMBERSHIP"),
  (22, "IPV6_ROUTER_ALERT"), (23, "IPV6_MTU_DISCOVER"), (24, "IPV6_MTU"), (25, "IPV6_RECVERR"),
  (26, "IPV6_V6ONLY"), (27, "IPV6_JOIN_ANYCAST"), (28, "IPV6_LEAVE_ANYCAST"),
  (29, "IPV6_MULTICAST_ALL"), (31, "IPV6_RECVERR_RFC4884"), (32, "IPV6_FLOWLABEL_MGR"),
  (33, "IPV6_FLOWINFO_SEND"), (34, "IPV6_IPSEC_POLICY"), (35, "IPV6_XFRM_POLICY"),
  (36, "IPV6_HDRINCL"), (49, "IPV6_RECVPKTINFO"), (50, "IPV6_PKTINFO"), (51, "IPV6_RECVHOPLIMIT"),
  (52, "IPV6_HOPLIMIT"), (53, "IPV6_RECVHOPOPTS"), (54, "IPV6_HOPOPTS"), (55, "IPV6_RTHDRDSTOPTS"),
  (56, "IPV6_RECVRTHDR"), (57, "IPV6_RTHDR"), (58, "IPV6_RECVDSTOPTS"), (59, "IPV6_DSTOPTS"),
  (60, "IPV6_RECVPATHMTU"), (61, "IPV6_PATHMTU"), (62, "IPV6_DONTFRAG"), (66, "IPV6_RECVTCLASS"),
  (67, "IPV6_TCLASS"), (70, "IPV6_AUTOFLOWLABEL"), (72, "IPV6_ADDR_PREFERENCES"),
  (73, "IPV6_MINHOPCOUNT"), (74, "IPV6_ORIGDSTADDR"), (75, "IPV6_TRANSPARENT"),
  (76, "IPV6_UNICAST_IF"), (77, "IPV6_RECVFRAGSIZE"), (78, "IPV6_FREEBIND")]

/-- asm-generic/resource.h: resource limits -/
def limits : List (Int × String) := [
  (0, "RLIMIT_CPU"), (1, "RLIMIT_FSIZE"), (2, "RLIMIT_DATA"), (3, "RLIMIT_STACK"),
  (4, "RLIMIT_CORE"), (5, "RLIMIT_RSS"), (6, "RLIMIT_NPROC"), (7, "RLIMIT_NOFILE"),
  (8, "RLIMIT_MEMLOCK"), (9, "RLIMIT_AS"), (10, "RLIMIT_LOCKS"), (11, "RLIMIT_SIGPENDING"),
  (12, "RLIMIT_MSGQUEUE"), (13, "RLIMIT_NICE"), (14, "RLIMIT_RTPRIO"), (15, "RLIMIT_RTTIME")]

/-- linux/ptrace.h, asm/ptrace-abi.h: ptrace requests -/
def ptraceRequests : List (Int × String) := [
  (0, "PTRACE_TRACEME"), (1, "PTRACE_PEEKTEXT"), (2, "PTRACE_PEEKDATA"), (3, "PTRACE_PEEKUSER"),
  (3, "PTRACE_PEEKUSR"), (4, "PTRACE_POKETEXT"), (5, "PTRACE_POKEDATA"), (6, "PTRACE_POKEUSER"),
  (6, "PTRACE_POKEUSR"), (7, "PTRACE_CONT"), (8, "PTRACE_KILL"), (9, "PTRACE_SINGLESTEP"),
  (12, "PTRACE_GETREGS"), (13, "PTRACE_SETREGS"), (14, "PTRACE_GETFPREGS"),
  (15, "PTRACE_SETFPREGS"), (16, "PTRACE_ATTACH"), (17, "PTRACE_DETACH"),
  (18, "PTRACE_GETFPXREGS"), (19, "PTRACE_SETFPXREGS"), (21, "PTRACE_OLDSETOPTIONS"),
  (24, "PTRACE_SYSCALL"), (25, "PTRACE_GET_THREAD_AREA"), (26, "PTRACE_SET_THREAD_AREA"),
  (30, "PTRACE_ARCH_PRCTL"), (31, "PTRACE_SYSEMU"), (32, "PTRACE_SYSEMU_SINGLESTEP"),
  (33, "PTRACE_SINGLEBLOCK"), (16896, "PTRACE_SETOPTIONS"), (16897, "PTRACE_GETEVENTMSG"),
  (16898, "PTRACE_GETSIGINFO"), (16899, "PTRACE_SETSIGINFO"), (16900, "PTRACE_GETREGSET"),
  (16901, "PTRACE_SETREGSET"), (16902, "PTRACE_SEIZE"), (16903, "PTRACE_INTERRUPT"),
  (16904, "PTRACE_LISTEN"), (16905, "PTRACE_PEEKSIGINFO"), (16906, "PTRACE_GETSIGMASK"),
  (16907, "PTRACE_SETSIGMASK"), (16908, "PTRACE_SECCOMP_GET_FILTER"),
  (16909, "PTRACE_SECCOMP_GET_METADATA"), (16910, "PTRACE_GET_SYSCALL_INFO"),
  (16911, "PTRACE_GET_RSEQ_CONFIGURATION"), (16912, "PTRACE_SET_SYSCALL_USER_DISPATCH_CONFIG"),
  (16913, "PTRACE_GET_SYSCALL_USER_DISPATCH_CONFIG")]

end Swoll.Spec.Linux
