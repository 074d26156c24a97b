/-
Syscall tables of pkg/syscalls/consts.go, transcribed mechanically.
-/
namespace Swoll.Syscalls

/-- `gSyscallMap`, pkg/syscalls/consts.go:4-338 (name ↦ number), in source order. -/
def gSyscallMap : List (String × Nat) := [
  ("sys_read", 0),
  ("sys_write", 1),
  ("sys_open", 2),
  ("sys_close", 3),
  ("sys_stat", 4),
  ("sys_fstat", 5),
  ("sys_lstat", 6),
  ("sys_poll", 7),
  ("sys_lseek", 8),
  ("sys_mmap", 9),
  ("sys_mprotect", 10),
  ("sys_munmap", 11),
  ("sys_brk", 12),
  ("sys_rt_sigaction", 13),
  ("sys_rt_sigprocmask", 14),
  ("sys_rt_sigreturn", 15),
  ("sys_ioctl", 16),
  ("sys_pread64", 17),
  ("sys_pwrite64", 18),
  ("sys_readv", 19),
  ("sys_writev", 20),
  ("sys_access", 21),
  ("sys_pipe", 22),
  ("sys_select", 23),
  ("sys_sched_yield", 24),
  ("sys_mremap", 25),
  ("sys_msync", 26),
  ("sys_mincore", 27),
  ("sys_madvise", 28),
  ("sys_shmget", 29),
  ("sys_shmat", 30),
  ("sys_shmctl", 31),
  ("sys_dup", 32),
  ("sys_dup2", 33),
  ("sys_pause", 34),
  ("sys_nanosleep", 35),
  ("sys_getitimer", 36),
  ("sys_alarm", 37),
  ("sys_setitimer", 38),
  ("sys_getpid", 39),
  ("sys_sendfile", 40),
  ("sys_socket", 41),
  ("sys_connect", 42),
  ("sys_accept", 43),
  ("sys_sendto", 44),
  ("sys_recvfrom", 45),
  ("sys_sendmsg", 46),
  ("sys_recvmsg", 47),
  ("sys_shutdown", 48),
  ("sys_bind", 49),
  ("sys_listen", 50),
  ("sys_getsockname", 51),
  ("sys_getpeername", 52),
  ("sys_socketpair", 53),
  ("sys_setsockopt", 54),
  ("sys_getsockopt", 55),
  ("sys_clone", 56),
  ("sys_fork", 57),
  ("sys_vfork", 58),
  ("sys_execve", 59),
  ("sys_exit", 60),
  ("sys_wait4", 61),
  ("sys_kill", 62),
  ("sys_uname", 63),
  ("sys_semget", 64),
  ("sys_semop", 65),
  ("sys_semctl", 66),
  ("sys_shmdt", 67),
  ("sys_msgget", 68),
  ("sys_msgsnd", 69),
  ("sys_msgrcv", 70),
  ("sys_msgctl", 71),
  ("sys_fcntl", 72),
  ("sys_flock", 73),
  ("sys_fsync", 74),
  ("sys_fdatasync", 75),
  ("sys_truncate", 76),
  ("sys_ftruncate", 77),
  ("sys_getdents", 78),
  ("sys_getcwd", 79),
  ("sys_chdir", 80),
  ("sys_fchdir", 81),
  ("sys_rename", 82),
  ("sys_mkdir", 83),
  ("sys_rmdir", 84),
  ("sys_creat", 85),
  ("sys_link", 86),
  ("sys_unlink", 87),
  ("sys_symlink", 88),
  ("sys_readlink", 89),
  ("sys_chmod", 90),
  ("sys_fchmod", 91),
  ("sys_chown", 92),
  ("sys_fchown", 93),
  ("sys_lchown", 94),
  ("sys_umask", 95),
  ("sys_gettimeofday", 96),
  ("sys_getrlimit", 97),
  ("sys_getrusage", 98),
  ("sys_sysinfo", 99),
  ("sys_times", 100),
  ("sys_ptrace", 101),
  ("sys_getuid", 102),
  ("sys_syslog", 103),
  ("sys_getgid", 104),
  ("sys_setuid", 105),
  ("sys_setgid", 106),
  ("sys_geteuid", 107),
  ("sys_getegid", 108),
  ("sys_setpgid", 109),
  ("sys_getppid", 110),
  ("sys_getpgrp", 111),
  ("sys_setsid", 112),
  ("sys_setreuid", 113),
  ("sys_setregid", 114),
  ("sys_getgroups", 115),
  ("sys_setgroups", 116),
  ("sys_setresuid", 117),
  ("sys_getresuid", 118),
  ("sys_setresgid", 119),
  ("sys_getresgid", 120),
  ("sys_getpgid", 121),
  ("sys_setfsuid", 122),
  ("sys_setfsgid", 123),
  ("sys_getsid", 124),
  ("sys_capget", 125),
  ("sys_capset", 126),
  ("sys_rt_sigpending", 127),
  ("sys_rt_sigtimedwait", 128),
  ("sys_rt_sigqueueinfo", 129),
  ("sys_rt_sigsuspend", 130),
  ("sys_sigaltstack", 131),
  ("sys_utime", 132),
  ("sys_mknod", 133),
  ("sys_uselib", 134),
  ("sys_personality", 135),
  ("sys_ustat", 136),
  ("sys_statfs", 137),
  ("sys_fstatfs", 138),
  ("sys_sysfs", 139),
  ("sys_getpriority", 140),
  ("sys_setpriority", 141),
  ("sys_sched_setparam", 142),
  ("sys_sched_getparam", 143),
  ("sys_sched_setscheduler", 144),
  ("sys_sched_getscheduler", 145),
  ("sys_sched_get_priority_max", 146),
  ("sys_sched_get_priority_min", 147),
  ("sys_sched_rr_get_interval", 148),
  ("sys_mlock", 149),
  ("sys_munlock", 150),
  ("sys_mlockall", 151),
  ("sys_munlockall", 152),
  ("sys_vhangup", 153),
  ("sys_modify_ldt", 154),
  ("sys_pivot_root", 155),
  ("sys__sysctl", 156),
  ("sys_prctl", 157),
  ("sys_arch_prctl", 158),
  ("sys_adjtimex", 159),
  ("sys_setrlimit", 160),
  ("sys_chroot", 161),
  ("sys_sync", 162),
  ("sys_acct", 163),
  ("sys_settimeofday", 164),
  ("sys_mount", 165),
  ("sys_umount2", 166),
  ("sys_swapon", 167),
  ("sys_swapoff", 168),
  ("sys_reboot", 169),
  ("sys_sethostname", 170),
  ("sys_setdomainname", 171),
  ("sys_iopl", 172),
  ("sys_ioperm", 173),
  ("sys_create_module", 174),
  ("sys_init_module", 175),
  ("sys_delete_module", 176),
  ("sys_get_kernel_syms", 177),
  ("sys_query_module", 178),
  ("sys_quotactl", 179),
  ("sys_nfsservctl", 180),
  ("sys_getpmsg", 181),
  ("sys_putpmsg", 182),
  ("sys_afs_syscall", 183),
  ("sys_tuxcall", 184),
  ("sys_security", 185),
  ("sys_gettid", 186),
  ("sys_readahead", 187),
  ("sys_setxattr", 188),
  ("sys_lsetxattr", 189),
  ("sys_fsetxattr", 190),
  ("sys_getxattr", 191),
  ("sys_lgetxattr", 192),
  ("sys_fgetxattr", 193),
  ("sys_listxattr", 194),
  ("sys_llistxattr", 195),
  ("sys_flistxattr", 196),
  ("sys_removexattr", 197),
  ("sys_lremovexattr", 198),
  ("sys_fremovexattr", 199),
  ("sys_tkill", 200),
  ("sys_time", 201),
  ("sys_futex", 202),
  ("sys_sched_setaffinity", 203),
  ("sys_sched_getaffinity", 204),
  ("sys_set_thread_area", 205),
  ("sys_io_setup", 206),
  ("sys_io_destroy", 207),
  ("sys_io_getevents", 208),
  ("sys_io_submit", 209),
  ("sys_io_cancel", 210),
  ("sys_get_thread_area", 211),
  ("sys_lookup_dcookie", 212),
  ("sys_epoll_create", 213),
  ("sys_epoll_ctl_old", 214),
  ("sys_epoll_wait_old", 215),
  ("sys_remap_file_pages", 216),
  ("sys_getdents64", 217),
  ("sys_set_tid_address", 218),
  ("sys_restart_syscall", 219),
  ("sys_semtimedop", 220),
  ("sys_fadvise64", 221),
  ("sys_timer_create", 222),
  ("sys_timer_settime", 223),
  ("sys_timer_gettime", 224),
  ("sys_timer_getoverrun", 225),
  ("sys_timer_delete", 226),
  ("sys_clock_settime", 227),
  ("sys_clock_gettime", 228),
  ("sys_clock_getres", 229),
  ("sys_clock_nanosleep", 230),
  ("sys_exit_group", 231),
  ("sys_epoll_wait", 232),
  ("sys_epoll_ctl", 233),
  ("sys_tgkill", 234),
  ("sys_utimes", 235),
  ("sys_vserver", 236),
  ("sys_mbind", 237),
  ("sys_set_mempolicy", 238),
  ("sys_get_mempolicy", 239),
  ("sys_mq_open", 240),
  ("sys_mq_unlink", 241),
  ("sys_mq_timedsend", 242),
  ("sys_mq_timedreceive", 243),
  ("sys_mq_notify", 244),
  ("sys_mq_getsetattr", 245),
  ("sys_kexec_load", 246),
  ("sys_waitid", 247),
  ("sys_add_key", 248),
  ("sys_request_key", 249),
  ("sys_keyctl", 250),
  ("sys_ioprio_set", 251),
  ("sys_ioprio_get", 252),
  ("sys_inotify_init", 253),
  ("sys_inotify_add_watch", 254),
  ("sys_inotify_rm_watch", 255),
  ("sys_migrate_pages", 256),
  ("sys_openat", 257),
  ("sys_mkdirat", 258),
  ("sys_mknodat", 259),
  ("sys_fchownat", 260),
  ("sys_futimesat", 261),
  ("sys_newfstatat", 262),
  ("sys_unlinkat", 263),
  ("sys_renameat", 264),
  ("sys_linkat", 265),
  ("sys_symlinkat", 266),
  ("sys_readlinkat", 267),
  ("sys_fchmodat", 268),
  ("sys_faccessat", 269),
  ("sys_pselect6", 270),
  ("sys_ppoll", 271),
  ("sys_unshare", 272),
  ("sys_set_robust_list", 273),
  ("sys_get_robust_list", 274),
  ("sys_splice", 275),
  ("sys_tee", 276),
  ("sys_sync_file_range", 277),
  ("sys_vmsplice", 278),
  ("sys_move_pages", 279),
  ("sys_utimensat", 280),
  ("sys_epoll_pwait", 281),
  ("sys_signalfd", 282),
  ("sys_timerfd_create", 283),
  ("sys_eventfd", 284),
  ("sys_fallocate", 285),
  ("sys_timerfd_settime", 286),
  ("sys_timerfd_gettime", 287),
  ("sys_accept4", 288),
  ("sys_signalfd4", 289),
  ("sys_eventfd2", 290),
  ("sys_epoll_create1", 291),
  ("sys_dup3", 292),
  ("sys_pipe2", 293),
  ("sys_inotify_init1", 294),
  ("sys_preadv", 295),
  ("sys_pwritev", 296),
  ("sys_rt_tgsigqueueinfo", 297),
  ("sys_perf_event_open", 298),
  ("sys_recvmmsg", 299),
  ("sys_fanotify_init", 300),
  ("sys_fanotify_mark", 301),
  ("sys_prlimit64", 302),
  ("sys_name_to_handle_at", 303),
  ("sys_open_by_handle_at", 304),
  ("sys_clock_adjtime", 305),
  ("sys_syncfs", 306),
  ("sys_sendmmsg", 307),
  ("sys_setns", 308),
  ("sys_getcpu", 309),
  ("sys_process_vm_readv", 310),
  ("sys_process_vm_writev", 311),
  ("sys_kcmp", 312),
  ("sys_finit_module", 313),
  ("sys_sched_setattr", 314),
  ("sys_sched_getattr", 315),
  ("sys_renameat2", 316),
  ("sys_seccomp", 317),
  ("sys_getrandom", 318),
  ("sys_memfd_create", 319),
  ("sys_kexec_file_load", 320),
  ("sys_bpf", 321),
  ("sys_execveat", 322),
  ("sys_userfaultfd", 323),
  ("sys_membarrier", 324),
  ("sys_mlock2", 325),
  ("sys_copy_file_range", 326),
  ("sys_preadv2", 327),
  ("sys_pwritev2", 328),
  ("sys_pkey_mprotect", 329),
  ("sys_pkey_alloc", 330),
  ("sys_pkey_free", 331),
  ("sys_statx", 332)]

/-- `gClassMap`, pkg/syscalls/consts.go:340-754, flattened to
(class, group, syscall name) triples in source order.  Simplification: the Go value is
a map of maps of lists; the nesting only matters for iteration order, which
`buildTable` takes as an arbitrary permutation. -/
def gClassMap : List (String × String × String) := [
  ("FileSystem", "Files", "sys_close"),
  ("FileSystem", "Files", "sys_creat"),
  ("FileSystem", "Files", "sys_open"),
  ("FileSystem", "Files", "sys_openat"),
  ("FileSystem", "Files", "sys_name_to_handle_at"),
  ("FileSystem", "Files", "sys_open_by_handle_at"),
  ("FileSystem", "Files", "sys_memfd_create"),
  ("FileSystem", "Files", "sys_mknod"),
  ("FileSystem", "Files", "sys_mknodat"),
  ("FileSystem", "Files", "sys_rename"),
  ("FileSystem", "Files", "sys_renameat"),
  ("FileSystem", "Files", "sys_renameat2"),
  ("FileSystem", "Files", "sys_truncate"),
  ("FileSystem", "Files", "sys_ftruncate"),
  ("FileSystem", "Files", "sys_fallocate"),
  ("FileSystem", "Directories", "sys_mkdir"),
  ("FileSystem", "Directories", "sys_mkdirat"),
  ("FileSystem", "Directories", "sys_rmdir"),
  ("FileSystem", "Directories", "sys_getcwd"),
  ("FileSystem", "Directories", "sys_chdir"),
  ("FileSystem", "Directories", "sys_fchdir"),
  ("FileSystem", "Directories", "sys_chroot"),
  ("FileSystem", "Directories", "sys_getdents"),
  ("FileSystem", "Directories", "sys_getdents64"),
  ("FileSystem", "Directories", "sys_lookup_dcookie"),
  ("FileSystem", "Links", "sys_link"),
  ("FileSystem", "Links", "sys_linkat"),
  ("FileSystem", "Links", "sys_symlink"),
  ("FileSystem", "Links", "sys_symlinkat"),
  ("FileSystem", "Links", "sys_unlink"),
  ("FileSystem", "Links", "sys_unlinkat"),
  ("FileSystem", "Links", "sys_readlink"),
  ("FileSystem", "Links", "sys_readlinkat"),
  ("FileSystem", "BasicAttributes", "sys_umask"),
  ("FileSystem", "BasicAttributes", "sys_stat"),
  ("FileSystem", "BasicAttributes", "sys_lstat"),
  ("FileSystem", "BasicAttributes", "sys_fstat"),
  ("FileSystem", "BasicAttributes", "sys_newfstatat"),
  ("FileSystem", "BasicAttributes", "sys_chmod"),
  ("FileSystem", "BasicAttributes", "sys_fchmod"),
  ("FileSystem", "BasicAttributes", "sys_fchmodat"),
  ("FileSystem", "BasicAttributes", "sys_chown"),
  ("FileSystem", "BasicAttributes", "sys_lchown"),
  ("FileSystem", "BasicAttributes", "sys_fchown"),
  ("FileSystem", "BasicAttributes", "sys_fchownat"),
  ("FileSystem", "BasicAttributes", "sys_utime"),
  ("FileSystem", "BasicAttributes", "sys_utimes"),
  ("FileSystem", "BasicAttributes", "sys_futimesat"),
  ("FileSystem", "BasicAttributes", "sys_utimensat"),
  ("FileSystem", "BasicAttributes", "sys_access"),
  ("FileSystem", "BasicAttributes", "sys_faccessat"),
  ("FileSystem", "BasicAttributes", "sys_statx"),
  ("FileSystem", "ExtendedAttributes", "sys_setxattr"),
  ("FileSystem", "ExtendedAttributes", "sys_lsetxattr"),
  ("FileSystem", "ExtendedAttributes", "sys_fsetxattr"),
  ("FileSystem", "ExtendedAttributes", "sys_getxattr"),
  ("FileSystem", "ExtendedAttributes", "sys_lgetxattr"),
  ("FileSystem", "ExtendedAttributes", "sys_fgetxattr"),
  ("FileSystem", "ExtendedAttributes", "sys_listxattr"),
  ("FileSystem", "ExtendedAttributes", "sys_flistxattr"),
  ("FileSystem", "ExtendedAttributes", "sys_removexattr"),
  ("FileSystem", "ExtendedAttributes", "sys_lremovexattr"),
  ("FileSystem", "ExtendedAttributes", "sys_fremovexattr"),
  ("FileSystem", "ExtendedAttributes", "sys_keyctl"),
  ("FileSystem", "ExtendedAttributes", "sys_add_key"),
  ("FileSystem", "Descriptors", "sys_ioctl"),
  ("FileSystem", "Descriptors", "sys_fcntl"),
  ("FileSystem", "Descriptors", "sys_dup"),
  ("FileSystem", "Descriptors", "sys_dup2"),
  ("FileSystem", "Descriptors", "sys_dup3"),
  ("FileSystem", "Descriptors", "sys_flock"),
  ("FileSystem", "ReadWrite", "sys_read"),
  ("FileSystem", "ReadWrite", "sys_readv"),
  ("FileSystem", "ReadWrite", "sys_pread64"),
  ("FileSystem", "ReadWrite", "sys_preadv"),
  ("FileSystem", "ReadWrite", "sys_write"),
  ("FileSystem", "ReadWrite", "sys_writev"),
  ("FileSystem", "ReadWrite", "sys_pwrite64"),
  ("FileSystem", "ReadWrite", "sys_pwritev"),
  ("FileSystem", "ReadWrite", "sys_lseek"),
  ("FileSystem", "ReadWrite", "sys_sendfile"),
  ("FileSystem", "SynchronizedIO", "sys_fdatasync"),
  ("FileSystem", "SynchronizedIO", "sys_fsync"),
  ("FileSystem", "SynchronizedIO", "sys_msync"),
  ("FileSystem", "SynchronizedIO", "sys_sync_file_range"),
  ("FileSystem", "SynchronizedIO", "sys_sync"),
  ("FileSystem", "SynchronizedIO", "sys_syncfs"),
  ("FileSystem", "AsynchronousIO", "sys_io_setup"),
  ("FileSystem", "AsynchronousIO", "sys_io_destroy"),
  ("FileSystem", "AsynchronousIO", "sys_io_submit"),
  ("FileSystem", "AsynchronousIO", "sys_io_cancel"),
  ("FileSystem", "AsynchronousIO", "sys_io_getevents"),
  ("FileSystem", "MultiplexedIO", "sys_select"),
  ("FileSystem", "MultiplexedIO", "sys_pselect6"),
  ("FileSystem", "MultiplexedIO", "sys_poll"),
  ("FileSystem", "MultiplexedIO", "sys_ppoll"),
  ("FileSystem", "MultiplexedIO", "sys_epoll_create"),
  ("FileSystem", "MultiplexedIO", "sys_epoll_create1"),
  ("FileSystem", "MultiplexedIO", "sys_epoll_ctl"),
  ("FileSystem", "MultiplexedIO", "sys_epoll_wait"),
  ("FileSystem", "MultiplexedIO", "sys_epoll_pwait"),
  ("FileSystem", "Monitoring", "sys_inotify_init"),
  ("FileSystem", "Monitoring", "sys_inotify_init1"),
  ("FileSystem", "Monitoring", "sys_inotify_add_watch"),
  ("FileSystem", "Monitoring", "sys_inotify_rm_watch"),
  ("FileSystem", "Monitoring", "sys_fanotify_init"),
  ("FileSystem", "Monitoring", "sys_fanotify_mark"),
  ("FileSystem", "MiscellaneousFiles", "sys_fadvise64"),
  ("FileSystem", "MiscellaneousFiles", "sys_readahead"),
  ("FileSystem", "MiscellaneousFiles", "sys_getrandom"),
  ("Network", "Sockets", "sys_socket"),
  ("Network", "Sockets", "sys_socketpair"),
  ("Network", "Sockets", "sys_getsockopt"),
  ("Network", "Sockets", "sys_setsockopt"),
  ("Network", "Sockets", "sys_getsockname"),
  ("Network", "Sockets", "sys_getpeername"),
  ("Network", "Sockets", "sys_bind"),
  ("Network", "Sockets", "sys_listen"),
  ("Network", "Sockets", "sys_accept"),
  ("Network", "Sockets", "sys_accept4"),
  ("Network", "Sockets", "sys_connect"),
  ("Network", "Sockets", "sys_shutdown"),
  ("Network", "IO", "sys_recvfrom"),
  ("Network", "IO", "sys_recvmsg"),
  ("Network", "IO", "sys_recvmmsg"),
  ("Network", "IO", "sys_sendto"),
  ("Network", "IO", "sys_sendmsg"),
  ("Network", "IO", "sys_sendmmsg"),
  ("Network", "Naming", "sys_sethostname"),
  ("Network", "Naming", "sys_setdomainname"),
  ("Network", "Filtering", "sys_bpf"),
  ("Time", "TimeOfDay", "sys_time"),
  ("Time", "TimeOfDay", "sys_settimeofday"),
  ("Time", "TimeOfDay", "sys_gettimeofday"),
  ("Time", "POSIXClocks", "sys_clock_settime"),
  ("Time", "POSIXClocks", "sys_clock_gettime"),
  ("Time", "POSIXClocks", "sys_clock_getres"),
  ("Time", "POSIXClocks", "sys_clock_adjtime"),
  ("Time", "POSIXClocks", "sys_clock_nanosleep"),
  ("Time", "ClockTimers", "sys_timer_create"),
  ("Time", "ClockTimers", "sys_timer_delete"),
  ("Time", "ClockTimers", "sys_timer_settime"),
  ("Time", "ClockTimers", "sys_timer_gettime"),
  ("Time", "ClockTimers", "sys_timer_getoverrun"),
  ("Time", "SysTimers", "sys_alarm"),
  ("Time", "SysTimers", "sys_setitimer"),
  ("Time", "SysTimers", "sys_getitimer"),
  ("Time", "FileDescriptorTimers", "sys_timerfd_create"),
  ("Time", "FileDescriptorTimers", "sys_timerfd_settime"),
  ("Time", "FileDescriptorTimers", "sys_timerfd_gettime"),
  ("Time", "MiscellaneousTime", "sys_adjtimex"),
  ("Time", "MiscellaneousTime", "sys_nanosleep"),
  ("Time", "MiscellaneousTime", "sys_times"),
  ("System", "Kernel", "sys_create_module"),
  ("System", "Kernel", "sys_init_module"),
  ("System", "Kernel", "sys_finit_module"),
  ("System", "Kernel", "sys_delete_module"),
  ("System", "Kernel", "sys_get_kernel_syms"),
  ("System", "Accounting", "sys_acct"),
  ("System", "Accounting", "sys_quotactl"),
  ("System", "PrivlidgedFileSystem", "sys_pivot_root"),
  ("System", "PrivlidgedFileSystem", "sys_swapon"),
  ("System", "PrivlidgedFileSystem", "sys_swapoff"),
  ("System", "PrivlidgedFileSystem", "sys_mount"),
  ("System", "PrivlidgedFileSystem", "sys_umount2"),
  ("System", "PrivlidgedFileSystem", "sys_nfsservctl"),
  ("System", "UnprivledgedFileSystem", "sys_ustat"),
  ("System", "UnprivledgedFileSystem", "sys_statfs"),
  ("System", "UnprivledgedFileSystem", "sys_fstatfs"),
  ("System", "UnprivledgedFileSystem", "sys_sysfs"),
  ("System", "MiscellaneousSystem", "sys__sysctl"),
  ("System", "MiscellaneousSystem", "sys_syslog"),
  ("System", "MiscellaneousSystem", "sys_ioperm"),
  ("System", "MiscellaneousSystem", "sys_iopl"),
  ("System", "MiscellaneousSystem", "sys_personality"),
  ("System", "MiscellaneousSystem", "sys_vhangup"),
  ("System", "MiscellaneousSystem", "sys_reboot"),
  ("System", "MiscellaneousSystem", "sys_kexec_load"),
  ("System", "MiscellaneousSystem", "sys_kexec_file_load"),
  ("System", "MiscellaneousSystem", "sys_perf_event_open"),
  ("System", "MiscellaneousSystem", "sys_uname"),
  ("System", "MiscellaneousSystem", "sys_sysinfo"),
  ("Signals", "Standard", "sys_kill"),
  ("Signals", "Standard", "sys_tkill"),
  ("Signals", "Standard", "sys_tgkill"),
  ("Signals", "Standard", "sys_pause"),
  ("Signals", "RealTime", "sys_rt_sigaction"),
  ("Signals", "RealTime", "sys_rt_sigprocmask"),
  ("Signals", "RealTime", "sys_rt_sigpending"),
  ("Signals", "RealTime", "sys_rt_sigqueueinfo"),
  ("Signals", "RealTime", "sys_rt_tgsigqueueinfo"),
  ("Signals", "RealTime", "sys_rt_sigtimedwait"),
  ("Signals", "RealTime", "sys_rt_sigsuspend"),
  ("Signals", "RealTime", "sys_rt_sigreturn"),
  ("Signals", "RealTime", "sys_sigaltstack"),
  ("Signals", "FileDescriptor", "sys_signalfd"),
  ("Signals", "FileDescriptor", "sys_signalfd4"),
  ("Signals", "FileDescriptor", "sys_eventfd"),
  ("Signals", "FileDescriptor", "sys_eventfd2"),
  ("Signals", "MiscellaneousSignals", "sys_restart_syscall"),
  ("IPC", "Pipes", "sys_pipe"),
  ("IPC", "Pipes", "sys_pipe2"),
  ("IPC", "Pipes", "sys_tee"),
  ("IPC", "Pipes", "sys_splice"),
  ("IPC", "Pipes", "sys_vmsplice"),
  ("IPC", "SharedMemory", "sys_shmget"),
  ("IPC", "SharedMemory", "sys_shmctl"),
  ("IPC", "SharedMemory", "sys_shmat"),
  ("IPC", "SharedMemory", "sys_shmdt"),
  ("IPC", "Semaphore", "sys_semget"),
  ("IPC", "Semaphore", "sys_semctl"),
  ("IPC", "Semaphore", "sys_semop"),
  ("IPC", "Semaphore", "sys_semtimedop"),
  ("IPC", "Futex", "sys_futex"),
  ("IPC", "Futex", "sys_set_robust_list"),
  ("IPC", "Futex", "sys_get_robust_list"),
  ("IPC", "MessageQueues", "sys_msgget"),
  ("IPC", "MessageQueues", "sys_msgctl"),
  ("IPC", "MessageQueues", "sys_msgsnd"),
  ("IPC", "MessageQueues", "sys_msgrcv"),
  ("IPC", "MessageQueues", "sys_mq_open"),
  ("IPC", "MessageQueues", "sys_mq_unlink"),
  ("IPC", "MessageQueues", "sys_mq_getsetattr"),
  ("IPC", "MessageQueues", "sys_mq_timedsend"),
  ("IPC", "MessageQueues", "sys_mq_timedreceive"),
  ("IPC", "MessageQueues", "sys_mq_notify"),
  ("ProcessManagement", "Execution", "sys_clone"),
  ("ProcessManagement", "Execution", "sys_fork"),
  ("ProcessManagement", "Execution", "sys_vfork"),
  ("ProcessManagement", "Execution", "sys_execve"),
  ("ProcessManagement", "Execution", "sys_execveat"),
  ("ProcessManagement", "Execution", "sys_exit"),
  ("ProcessManagement", "Execution", "sys_exit_group"),
  ("ProcessManagement", "Execution", "sys_wait4"),
  ("ProcessManagement", "Execution", "sys_waitid"),
  ("ProcessManagement", "Process", "sys_getpid"),
  ("ProcessManagement", "Process", "sys_getppid"),
  ("ProcessManagement", "Process", "sys_gettid"),
  ("ProcessManagement", "Session", "sys_setsid"),
  ("ProcessManagement", "Session", "sys_getsid"),
  ("ProcessManagement", "Group", "sys_setpgid"),
  ("ProcessManagement", "Group", "sys_getpgid"),
  ("ProcessManagement", "Group", "sys_getpgrp"),
  ("ProcessManagement", "User", "sys_setuid"),
  ("ProcessManagement", "User", "sys_getuid"),
  ("ProcessManagement", "User", "sys_setgid"),
  ("ProcessManagement", "User", "sys_getgid"),
  ("ProcessManagement", "User", "sys_setresuid"),
  ("ProcessManagement", "User", "sys_getresuid"),
  ("ProcessManagement", "User", "sys_setresgid"),
  ("ProcessManagement", "User", "sys_getresgid"),
  ("ProcessManagement", "User", "sys_setreuid"),
  ("ProcessManagement", "User", "sys_setregid"),
  ("ProcessManagement", "User", "sys_setfsuid"),
  ("ProcessManagement", "User", "sys_geteuid"),
  ("ProcessManagement", "User", "sys_getegid"),
  ("ProcessManagement", "User", "sys_setgroups"),
  ("ProcessManagement", "User", "sys_getgroups"),
  ("ProcessManagement", "Namespace", "sys_setns"),
  ("ProcessManagement", "Scheduling", "sys_sched_setattr"),
  ("ProcessManagement", "Scheduling", "sys_sched_getattr"),
  ("ProcessManagement", "Scheduling", "sys_sched_setscheduler"),
  ("ProcessManagement", "Scheduling", "sys_sched_getscheduler"),
  ("ProcessManagement", "Scheduling", "sys_sched_setparam"),
  ("ProcessManagement", "Scheduling", "sys_sched_getparam"),
  ("ProcessManagement", "Scheduling", "sys_sched_setaffinity"),
  ("ProcessManagement", "Scheduling", "sys_sched_getaffinity"),
  ("ProcessManagement", "Scheduling", "sys_sched_get_priority_max"),
  ("ProcessManagement", "Scheduling", "sys_sched_get_priority_min"),
  ("ProcessManagement", "Scheduling", "sys_sched_rr_get_interval"),
  ("ProcessManagement", "Scheduling", "sys_sched_yield"),
  ("ProcessManagement", "Scheduling", "sys_setpriority"),
  ("ProcessManagement", "Scheduling", "sys_getpriority"),
  ("ProcessManagement", "Scheduling", "sys_ioprio_set"),
  ("ProcessManagement", "Scheduling", "sys_ioprio_get"),
  ("ProcessManagement", "Resources", "sys_setrlimit"),
  ("ProcessManagement", "Resources", "sys_getrlimit"),
  ("ProcessManagement", "Resources", "sys_prlimit64"),
  ("ProcessManagement", "Resources", "sys_getrusage"),
  ("ProcessManagement", "VirtualMemory", "sys_brk"),
  ("ProcessManagement", "VirtualMemory", "sys_mmap"),
  ("ProcessManagement", "VirtualMemory", "sys_munmap"),
  ("ProcessManagement", "VirtualMemory", "sys_mremap"),
  ("ProcessManagement", "VirtualMemory", "sys_mprotect"),
  ("ProcessManagement", "VirtualMemory", "sys_madvise"),
  ("ProcessManagement", "VirtualMemory", "sys_mlock"),
  ("ProcessManagement", "VirtualMemory", "sys_mlock2"),
  ("ProcessManagement", "VirtualMemory", "sys_mlockall"),
  ("ProcessManagement", "VirtualMemory", "sys_mincore"),
  ("ProcessManagement", "VirtualMemory", "sys_membarrier"),
  ("ProcessManagement", "VirtualMemory", "sys_modify_ldt"),
  ("ProcessManagement", "Threading", "sys_capset"),
  ("ProcessManagement", "Threading", "sys_capget"),
  ("ProcessManagement", "Threading", "sys_set_thread_area"),
  ("ProcessManagement", "Threading", "sys_get_thread_area"),
  ("ProcessManagement", "Threading", "sys_set_tid_address"),
  ("ProcessManagement", "Threading", "sys_arch_prctl"),
  ("ProcessManagement", "MiscellaneousPM", "sys_uselib"),
  ("ProcessManagement", "MiscellaneousPM", "sys_prctl"),
  ("ProcessManagement", "MiscellaneousPM", "sys_seccomp"),
  ("ProcessManagement", "MiscellaneousPM", "sys_ptrace"),
  ("ProcessManagement", "MiscellaneousPM", "sys_process_vm_readv"),
  ("ProcessManagement", "MiscellaneousPM", "sys_process_vm_writev"),
  ("ProcessManagement", "MiscellaneousPM", "sys_kcmp"),
  ("ProcessManagement", "MiscellaneousPM", "sys_unshare")]

end Swoll.Syscalls
