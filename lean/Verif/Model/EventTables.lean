import Verif.Util.Bytes
/-
Tables of the two halves of argument passing: what the probe copies for each syscall
(internal/bpf/probe.c, the `SWOLL_CALL_DEF` fillers) and what user space reads back
(pkg/event/call/*.go, the `DecodeArguments` methods). One row per function, each citing its
lines. Interpretation of the rows is in Model/Event.lean.
-/
namespace Swoll.Event

/-! Syscall numbers of the cases of the switch in `swoll__exit` (probe.c:2632-2725), as in
pkg/syscalls/consts.go; those of `DecodeSyscall` (pkg/event/call/syscall.go:13-196) are among
them. -/
namespace nr
abbrev sys_kill : Nat := 62  -- consts.go:67, probe.c:2633
abbrev sys_acct : Nat := 163  -- consts.go:168, probe.c:2634
abbrev sys_alarm : Nat := 37  -- consts.go:42, probe.c:2635
abbrev sys_brk : Nat := 12  -- consts.go:17, probe.c:2636
abbrev sys_close : Nat := 3  -- consts.go:8, probe.c:2637
abbrev sys_access : Nat := 21  -- consts.go:26, probe.c:2638
abbrev sys_openat : Nat := 257  -- consts.go:262, probe.c:2639
abbrev sys_open : Nat := 2  -- consts.go:7, probe.c:2640
abbrev sys_connect : Nat := 42  -- consts.go:47, probe.c:2641
abbrev sys_execve : Nat := 59  -- consts.go:64, probe.c:2642
abbrev sys_unlink : Nat := 87  -- consts.go:92, probe.c:2643
abbrev sys_unlinkat : Nat := 263  -- consts.go:268, probe.c:2644
abbrev sys_epoll_wait : Nat := 232  -- consts.go:237, probe.c:2645
abbrev sys_faccessat : Nat := 269  -- consts.go:274, probe.c:2646
abbrev sys_statx : Nat := 332  -- consts.go:337, probe.c:2647
abbrev sys_syslog : Nat := 103  -- consts.go:108, probe.c:2648
abbrev sys_fcntl : Nat := 72  -- consts.go:77, probe.c:2649
abbrev sys_fdatasync : Nat := 75  -- consts.go:80, probe.c:2650
abbrev sys_fstatfs : Nat := 138  -- consts.go:143, probe.c:2651
abbrev sys_fstat : Nat := 5  -- consts.go:10, probe.c:2652
abbrev sys_statfs : Nat := 137  -- consts.go:142, probe.c:2653
abbrev sys_fsync : Nat := 74  -- consts.go:79, probe.c:2654
abbrev sys_ftruncate : Nat := 77  -- consts.go:82, probe.c:2655
abbrev sys_getcwd : Nat := 79  -- consts.go:84, probe.c:2656
abbrev sys_getdents : Nat := 78  -- consts.go:83, probe.c:2657
abbrev sys_inotify_add_watch : Nat := 254  -- consts.go:259, probe.c:2658
abbrev sys_listen : Nat := 50  -- consts.go:55, probe.c:2659
abbrev sys_lookup_dcookie : Nat := 212  -- consts.go:217, probe.c:2660
abbrev sys_lseek : Nat := 8  -- consts.go:13, probe.c:2661
abbrev sys_madvise : Nat := 28  -- consts.go:33, probe.c:2662
abbrev sys_membarrier : Nat := 324  -- consts.go:329, probe.c:2663
abbrev sys_mkdir : Nat := 83  -- consts.go:88, probe.c:2664
abbrev sys_mkdirat : Nat := 258  -- consts.go:263, probe.c:2665
abbrev sys_mknod : Nat := 133  -- consts.go:138, probe.c:2666
abbrev sys_mlock : Nat := 149  -- consts.go:154, probe.c:2667
abbrev sys_pivot_root : Nat := 155  -- consts.go:160, probe.c:2668
abbrev sys_poll : Nat := 7  -- consts.go:12, probe.c:2669
abbrev sys_prctl : Nat := 157  -- consts.go:162, probe.c:2670
abbrev sys_rmdir : Nat := 84  -- consts.go:89, probe.c:2671
abbrev sys_chdir : Nat := 80  -- consts.go:85, probe.c:2672
abbrev sys_fchdir : Nat := 81  -- consts.go:86, probe.c:2673
abbrev sys_chroot : Nat := 161  -- consts.go:166, probe.c:2674
abbrev sys_link : Nat := 86  -- consts.go:91, probe.c:2675
abbrev sys_linkat : Nat := 265  -- consts.go:270, probe.c:2676
abbrev sys_symlink : Nat := 88  -- consts.go:93, probe.c:2677
abbrev sys_symlinkat : Nat := 266  -- consts.go:271, probe.c:2678
abbrev sys_bind : Nat := 49  -- consts.go:54, probe.c:2679
abbrev sys_socket : Nat := 41  -- consts.go:46, probe.c:2680
abbrev sys_setns : Nat := 308  -- consts.go:313, probe.c:2681
abbrev sys_prlimit64 : Nat := 302  -- consts.go:307, probe.c:2682
abbrev sys_mount : Nat := 165  -- consts.go:170, probe.c:2683
abbrev sys_umount2 : Nat := 166  -- consts.go:171, probe.c:2684
abbrev sys_recvmsg : Nat := 47  -- consts.go:52, probe.c:2685
abbrev sys_setuid : Nat := 105  -- consts.go:110, probe.c:2686
abbrev sys_recvfrom : Nat := 45  -- consts.go:50, probe.c:2687
abbrev sys_sendto : Nat := 44  -- consts.go:49, probe.c:2688
abbrev sys_ptrace : Nat := 101  -- consts.go:106, probe.c:2689
abbrev sys_readlink : Nat := 89  -- consts.go:94, probe.c:2690
abbrev sys_readlinkat : Nat := 267  -- consts.go:272, probe.c:2691
abbrev sys_getpeername : Nat := 52  -- consts.go:57, probe.c:2692
abbrev sys_getsockname : Nat := 51  -- consts.go:56, probe.c:2693
abbrev sys_accept : Nat := 43  -- consts.go:48, probe.c:2694
abbrev sys_accept4 : Nat := 288  -- consts.go:293, probe.c:2695
abbrev sys_mprotect : Nat := 10  -- consts.go:15, probe.c:2696
abbrev sys_setsockopt : Nat := 54  -- consts.go:59, probe.c:2697
abbrev sys_getsockopt : Nat := 55  -- consts.go:60, probe.c:2698
abbrev sys_creat : Nat := 85  -- consts.go:90, probe.c:2699
abbrev sys_init_module : Nat := 175  -- consts.go:180, probe.c:2700
abbrev sys_seccomp : Nat := 317  -- consts.go:322, probe.c:2701
abbrev sys_stat : Nat := 4  -- consts.go:9, probe.c:2702
abbrev sys_sethostname : Nat := 170  -- consts.go:175, probe.c:2703
abbrev sys_clone : Nat := 56  -- consts.go:61, probe.c:2704
abbrev sys_read : Nat := 0  -- consts.go:5, probe.c:2705
abbrev sys_write : Nat := 1  -- consts.go:6, probe.c:2706
abbrev sys_ioctl : Nat := 16  -- consts.go:21, probe.c:2707
abbrev sys_rename : Nat := 82  -- consts.go:87, probe.c:2708
abbrev sys_timerfd_settime : Nat := 286  -- consts.go:291, probe.c:2709
abbrev sys_timerfd_create : Nat := 283  -- consts.go:288, probe.c:2710
abbrev sys_mincore : Nat := 27  -- consts.go:32, probe.c:2711
abbrev sys_nanosleep : Nat := 35  -- consts.go:40, probe.c:2712
abbrev sys_rt_sigaction : Nat := 13  -- consts.go:18, probe.c:2713
abbrev sys_futex : Nat := 202  -- consts.go:207, probe.c:2714
abbrev sys_select : Nat := 23  -- consts.go:28, probe.c:2715
abbrev sys_exit : Nat := 60  -- consts.go:65, probe.c:2716

end nr

/-- One copy made by a filler into argument slot `s` of the event:
* `reg s k`: `bpf_probe_memcpy` of the 8-byte syscall argument register `k`;
* `user s k`: `bpf_probe_read` of the whole 128-byte slot from user address `args[k]`;
* `user8 s k`: the same, but of 8 bytes only (getsockopt, probe.c:2331-2342).
Register numbers come from the argument structs (probe.c:326-914): the first member is the
syscall number and all following members are 8 bytes wide, so member `k+1` is register `k`. -/
inductive Act where
  | reg (slot arg : Nat)
  | user (slot arg : Nat)
  | user8 (slot arg : Nat)
  deriving DecidableEq, Repr

/-- Which error macro a filler returns: `SWOLL_COMMON_LTZERO_ERROR` (probe.c:1584) or
`SWOLL_COMMON_NULL_ERROR` (probe.c:1590). -/
inductive ErrKind where
  | ltzero
  | null
  deriving DecidableEq, Repr

/-- A filler, `SWOLL_CALL_DEF`: its copies in order, and the error macro at its end (probe.c:303-312).
-/
structure Filler where
  acts : List Act
  err : ErrKind
  deriving DecidableEq, Repr

/-- The cases of the switch in `swoll__exit`, probe.c:2632-2715, in source order, each with the
body of its filler. -/
def fillers : List (Nat × Filler) := [
  -- kill: probe.c:1621-1629, struct 326-330
  (nr.sys_kill, ⟨[.reg 0 0, .reg 1 1], .ltzero⟩),
  -- acct: probe.c:1945-1952, struct 332-335
  (nr.sys_acct, ⟨[.user 0 0], .ltzero⟩),
  -- alarm: probe.c:1954-1961, struct 337-340
  (nr.sys_alarm, ⟨[.reg 0 0], .ltzero⟩),
  -- brk: probe.c:1963-1970, struct 342-345
  (nr.sys_brk, ⟨[.reg 0 0], .ltzero⟩),
  -- close: probe.c:2160-2167, struct 680-683
  (nr.sys_close, ⟨[.reg 0 0], .ltzero⟩),
  -- access: probe.c:1723-1731, struct 466-470
  (nr.sys_access, ⟨[.user 0 0, .reg 1 1], .ltzero⟩),
  -- openat: probe.c:1778-1788, struct 381-387
  (nr.sys_openat, ⟨[.reg 0 0, .user 1 1, .reg 2 2], .ltzero⟩),
  -- open: probe.c:1790-1799, struct 389-394
  (nr.sys_open, ⟨[.user 0 0, .reg 1 1, .reg 2 2], .ltzero⟩),
  -- connect: probe.c:1801-1811, struct 396-401
  (nr.sys_connect, ⟨[.reg 0 0, .user 1 1, .reg 2 2], .ltzero⟩),
  -- execve: probe.c:1814-1818, struct 404-409
  (nr.sys_execve, ⟨[], .ltzero⟩),
  -- unlink: probe.c:1820-1827, struct 426-429
  (nr.sys_unlink, ⟨[.user 0 0], .ltzero⟩),
  -- unlinkat: probe.c:1829-1838, struct 441-446
  (nr.sys_unlinkat, ⟨[.reg 0 0, .user 1 1, .reg 2 2], .ltzero⟩),
  -- epoll_wait: probe.c:1840-1848, struct 432-438
  (nr.sys_epoll_wait, ⟨[.reg 0 0, .reg 2 2], .ltzero⟩),
  -- faccessat: probe.c:1850-1859, struct 459-464
  (nr.sys_faccessat, ⟨[.reg 0 0, .user 1 1, .reg 2 2], .ltzero⟩),
  -- statx: probe.c:1861-1872, struct 472-479
  (nr.sys_statx, ⟨[.reg 0 0, .user 1 1, .reg 2 2, .reg 3 3, .user 4 4], .ltzero⟩),
  -- syslog: probe.c:1874-1883, struct 481-486
  (nr.sys_syslog, ⟨[.reg 0 0, .user 1 1, .reg 2 2], .ltzero⟩),
  -- fcntl: probe.c:1885-1894, struct 488-493
  (nr.sys_fcntl, ⟨[.reg 0 0, .reg 1 1, .reg 2 2], .ltzero⟩),
  -- fdatasync: probe.c:1896-1903, struct 495-498
  (nr.sys_fdatasync, ⟨[.reg 0 0], .ltzero⟩),
  -- fstatfs: probe.c:1905-1913, struct 500-504
  (nr.sys_fstatfs, ⟨[.reg 0 0, .user 1 1], .ltzero⟩),
  -- fstat: probe.c:1915-1923, struct 353-357
  (nr.sys_fstat, ⟨[.reg 0 0, .user 1 1], .ltzero⟩),
  -- statfs: probe.c:1935-1943, struct 347-351
  (nr.sys_statfs, ⟨[.user 0 0, .user 1 1], .ltzero⟩),
  -- fsync: probe.c:1972-1979, struct 506-509
  (nr.sys_fsync, ⟨[.reg 0 0], .ltzero⟩),
  -- ftruncate: probe.c:1981-1989, struct 860-865
  (nr.sys_ftruncate, ⟨[.reg 0 0, .reg 1 1], .ltzero⟩),
  -- getcwd: probe.c:1991-1999, struct 511-515
  (nr.sys_getcwd, ⟨[.user 0 0, .reg 1 1], .null⟩),
  -- getdents: probe.c:2001-2009, struct 517-522
  (nr.sys_getdents, ⟨[.reg 0 0, .reg 2 2], .ltzero⟩),
  -- inotify_add_watch: probe.c:2011-2020, struct 524-529
  (nr.sys_inotify_add_watch, ⟨[.reg 0 0, .user 1 1, .reg 2 2], .ltzero⟩),
  -- listen: probe.c:2022-2030, struct 531-535
  (nr.sys_listen, ⟨[.reg 0 0, .reg 1 1], .ltzero⟩),
  -- lookup_dcookie: probe.c:2032-2041, struct 537-542
  (nr.sys_lookup_dcookie, ⟨[.reg 0 0, .reg 2 2, .user 1 1], .ltzero⟩),
  -- lseek: probe.c:2043-2052, struct 544-549
  (nr.sys_lseek, ⟨[.reg 0 0, .reg 1 1, .reg 2 2], .ltzero⟩),
  -- madvise: probe.c:2054-2063, struct 551-556
  (nr.sys_madvise, ⟨[.reg 0 0, .reg 1 1, .reg 2 2], .ltzero⟩),
  -- membarrier: probe.c:2065-2073, struct 558-562
  (nr.sys_membarrier, ⟨[.reg 0 0, .reg 1 1], .ltzero⟩),
  -- mkdir: probe.c:2075-2083, struct 572-576
  (nr.sys_mkdir, ⟨[.user 0 0, .reg 1 1], .ltzero⟩),
  -- mkdirat: probe.c:2085-2094, struct 578-583
  (nr.sys_mkdirat, ⟨[.reg 0 0, .user 1 1, .reg 2 2], .ltzero⟩),
  -- mknod: probe.c:2096-2105, struct 585-590
  (nr.sys_mknod, ⟨[.user 0 0, .reg 1 1, .reg 2 2], .ltzero⟩),
  -- mlock: probe.c:2107-2115, struct 592-596
  (nr.sys_mlock, ⟨[.reg 0 0, .reg 1 1], .ltzero⟩),
  -- pivot_root: probe.c:2117-2125, struct 598-602
  (nr.sys_pivot_root, ⟨[.user 0 0, .user 1 1], .ltzero⟩),
  -- poll: probe.c:2127-2135, struct 604-609
  (nr.sys_poll, ⟨[.reg 1 1, .reg 2 2], .ltzero⟩),
  -- prctl: probe.c:2137-2146, struct 624-631
  (nr.sys_prctl, ⟨[.reg 0 0, .reg 1 1, .reg 2 2], .ltzero⟩),
  -- rmdir: probe.c:2169-2176, struct 685-688
  (nr.sys_rmdir, ⟨[.user 0 0], .ltzero⟩),
  -- chdir: probe.c:2178-2185, struct 698-701
  (nr.sys_chdir, ⟨[.user 0 0], .ltzero⟩),
  -- fchdir: probe.c:2187-2192
  (nr.sys_fchdir, ⟨[], .ltzero⟩),
  -- chroot: probe.c:2194-2201, struct 704-707
  (nr.sys_chroot, ⟨[.user 0 0], .ltzero⟩),
  -- link: probe.c:2203-2211, struct 709-713
  (nr.sys_link, ⟨[.user 0 0, .user 1 1], .ltzero⟩),
  -- linkat: probe.c:2213-2218
  (nr.sys_linkat, ⟨[], .ltzero⟩),
  -- symlink: probe.c:2220-2228, struct 730-734
  (nr.sys_symlink, ⟨[.user 0 0, .user 1 1], .ltzero⟩),
  -- symlinkat: probe.c:2230-2235
  (nr.sys_symlinkat, ⟨[], .ltzero⟩),
  -- bind: probe.c:1755-1764, struct 411-416
  (nr.sys_bind, ⟨[.reg 0 0, .user 1 1, .reg 2 2], .ltzero⟩),
  -- socket: probe.c:1766-1775, struct 617-622
  (nr.sys_socket, ⟨[.reg 0 0, .reg 1 1, .reg 2 2], .ltzero⟩),
  -- setns: probe.c:1745-1753, struct 611-615
  (nr.sys_setns, ⟨[.reg 0 0, .reg 1 1], .ltzero⟩),
  -- prlimit64: probe.c:1733-1743, struct 633-639
  (nr.sys_prlimit64, ⟨[.reg 0 0, .reg 1 1, .user 2 2, .user 3 3], .ltzero⟩),
  -- mount: probe.c:1701-1711, struct 366-373
  (nr.sys_mount, ⟨[.user 0 0, .user 1 1, .user 2 2, .reg 3 3], .ltzero⟩),
  -- umount2: probe.c:1713-1721, struct 375-379
  (nr.sys_umount2, ⟨[.user 0 0, .reg 1 1], .ltzero⟩),
  -- recvmsg: probe.c:1663-1672, struct 641-646
  (nr.sys_recvmsg, ⟨[.reg 0 0, .user 1 1, .reg 2 2], .ltzero⟩),
  -- setuid: probe.c:1631-1638, struct 669-672
  (nr.sys_setuid, ⟨[.reg 0 0], .ltzero⟩),
  -- recvfrom: probe.c:1688-1699, struct 659-667
  (nr.sys_recvfrom, ⟨[.reg 0 0, .user 1 1, .reg 2 2, .reg 3 3, .user 4 4], .ltzero⟩),
  -- sendto: probe.c:1674-1685, struct 649-657
  (nr.sys_sendto, ⟨[.reg 0 0, .user 1 1, .reg 2 2, .reg 3 3, .user 4 4], .ltzero⟩),
  -- ptrace: probe.c:2148-2158, struct 690-696
  (nr.sys_ptrace, ⟨[.reg 0 0, .reg 1 1, .reg 2 2, .reg 3 3], .ltzero⟩),
  -- readlink: probe.c:2238-2247, struct 715-720
  (nr.sys_readlink, ⟨[.user 0 0, .user 1 1, .reg 2 2], .ltzero⟩),
  -- readlinkat: probe.c:2249-2259, struct 722-728
  (nr.sys_readlinkat, ⟨[.reg 0 0, .user 1 1, .user 2 2, .reg 3 3], .ltzero⟩),
  -- getpeername: probe.c:2261-2270, struct 736-741
  (nr.sys_getpeername, ⟨[.reg 0 0, .user 1 1, .reg 2 2], .ltzero⟩),
  -- getsockname: probe.c:2272-2281, struct 743-748
  (nr.sys_getsockname, ⟨[.reg 0 0, .user 1 1, .reg 2 2], .ltzero⟩),
  -- accept: probe.c:2283-2292, struct 750-756
  (nr.sys_accept, ⟨[.reg 0 0, .user 1 1, .reg 2 2], .ltzero⟩),
  -- accept4: probe.c:2294-2304, struct 750-756
  (nr.sys_accept4, ⟨[.reg 0 0, .user 1 1, .reg 2 2, .reg 3 3], .ltzero⟩),
  -- mprotect: probe.c:2306-2316, struct 758-763
  (nr.sys_mprotect, ⟨[.reg 0 0, .reg 1 1, .reg 2 2, .user 3 0], .ltzero⟩),
  -- setsockopt: probe.c:2318-2329, struct 765-772
  (nr.sys_setsockopt, ⟨[.reg 0 0, .reg 1 1, .reg 2 2, .user 3 3, .reg 4 4], .ltzero⟩),
  -- getsockopt: probe.c:2331-2342, struct 774-781
  (nr.sys_getsockopt, ⟨[.reg 0 0, .reg 1 1, .reg 2 2, .user8 3 3, .user8 4 4], .ltzero⟩),
  -- creat: probe.c:2345-2353, struct 783-787
  (nr.sys_creat, ⟨[.user 0 0, .reg 1 1], .ltzero⟩),
  -- init_module: probe.c:2355-2364, struct 789-794
  (nr.sys_init_module, ⟨[.user 0 0, .reg 1 1, .user 2 2], .ltzero⟩),
  -- seccomp: probe.c:2366-2375, struct 796-801
  (nr.sys_seccomp, ⟨[.reg 0 0, .reg 1 1, .user 2 2], .ltzero⟩),
  -- stat: probe.c:1925-1933, struct 360-364
  (nr.sys_stat, ⟨[.user 0 0, .user 1 1], .ltzero⟩),
  -- sethostname: probe.c:2377-2385, struct 803-807
  (nr.sys_sethostname, ⟨[.user 0 0, .reg 1 1], .ltzero⟩),
  -- clone: probe.c:2387-2398, struct 809-816
  (nr.sys_clone, ⟨[.reg 0 0, .reg 1 1, .user 2 2, .user 3 3, .reg 4 4], .ltzero⟩),
  -- read: probe.c:2400-2409, struct 818-823
  (nr.sys_read, ⟨[.reg 0 0, .user 1 1, .reg 2 2], .ltzero⟩),
  -- write: probe.c:2411-2420, struct 882-888
  (nr.sys_write, ⟨[.reg 0 0, .user 1 1, .reg 2 2], .ltzero⟩),
  -- ioctl: probe.c:2422-2431, struct 825-830
  (nr.sys_ioctl, ⟨[.reg 0 0, .reg 1 1, .user 2 2], .ltzero⟩),
  -- rename: probe.c:2433-2441, struct 832-836
  (nr.sys_rename, ⟨[.user 0 0, .user 1 1], .ltzero⟩),
  -- timerfd_settime: probe.c:2443-2453, struct 838-844
  (nr.sys_timerfd_settime, ⟨[.reg 0 1, .reg 1 0, .user 2 2, .user 3 3], .ltzero⟩),
  -- timerfd_create: probe.c:2455-2463, struct 846-850
  (nr.sys_timerfd_create, ⟨[.reg 0 0, .reg 1 1], .ltzero⟩),
  -- mincore: probe.c:2465-2474, struct 852-858
  (nr.sys_mincore, ⟨[.reg 0 0, .reg 1 1, .user 2 2], .ltzero⟩),
  -- nanosleep: probe.c:2477-2485, struct 867-872
  (nr.sys_nanosleep, ⟨[.user 0 0, .user 1 1], .ltzero⟩),
  -- rt_sigaction: probe.c:2487-2497, struct 874-880
  (nr.sys_rt_sigaction, ⟨[.reg 0 0, .user 1 1, .user 2 2, .reg 3 3], .ltzero⟩),
  -- futex: probe.c:2499-2510, struct 890-898
  (nr.sys_futex, ⟨[.reg 0 0, .reg 1 1, .reg 2 2, .reg 3 3, .reg 4 4], .ltzero⟩),
  -- select: probe.c:2512-2523, struct 900-908
  (nr.sys_select, ⟨[.reg 0 0, .reg 1 1, .reg 2 2, .reg 3 3, .reg 4 4], .ltzero⟩),
  -- exit: probe.c:2532-2539, struct 910-914
  (nr.sys_exit, ⟨[.reg 0 0], .ltzero⟩)
]

/-- How one field of a decoded call is read from the argument slots (`data[s]`):
* `c32`/`cu32`/`c64`/`cu64 s`: `MakeC32`, `MakeCU32`, `MakeC64`, `MakeCU64` followed by a
  conversion to a Go integer; `int(MakeCU64)` is listed as `c64`, `int(MakeCU32)` and
  `os.FileMode(MakeC32)` as `cu32`, which have the same value;
* `cstr s`: `MakeCString(data[s], arglen)`;
* `bytes s n`: `MakeCBytes(data[s], n)`;
* `bufMin s c`: `MakeCBytes(data[s], min(arglen, MakeC64(data[c])))`;
* `bufMax s c`: `MakeCBytes(data[s], max(arglen, int(MakeCU64(data[c]))))` (mprotect);
* `mem s n`: the slot viewed as an `n`-byte structure; `memAt s o n`: `n` bytes at offset `o`
  of that view (a `Stat_t` is 144 bytes: 120 used and 24 of padding `X__unused`, listed as a
  field of its own);
* `sock s`: pointer to the slot viewed as a socket address (110 bytes, the largest view taken
  of it, sockaddr.go:20-63);
* `ptrs i n`: `n` bytes of the slice of slot pointers itself, from element `i` (nanosleep);
* `zero`, `empty`: an integer or string field that is never assigned. -/
inductive Rd where
  | c32 (s : Nat)
  | cu32 (s : Nat)
  | c64 (s : Nat)
  | cu64 (s : Nat)
  | cstr (s : Nat)
  | bytes (s n : Nat)
  | bufMin (s c : Nat)
  | bufMax (s c : Nat)
  | mem (s n : Nat)
  | memAt (s o n : Nat)
  | sock (s : Nat)
  | ptrs (i n : Nat)
  | zero
  | empty
  deriving DecidableEq, Repr

/-- The cases of `DecodeSyscall`, pkg/event/call/syscall.go:13-196, in source order, each with
the fields of the struct its `DecodeArguments` fills. Fields are named by their JSON names
(lower-cased Go names where there is no tag). -/
def decoders : List (Nat × List (String × Rd)) := [
  -- accept: pkg/event/call/accept.go:70-75
  (nr.sys_accept, [("fd", .c32 0), ("saddr", .sock 1)]),
  -- accept4: pkg/event/call/accept.go:94-99
  (nr.sys_accept4, [("fd", .c32 0), ("saddr", .sock 1), ("flags", .c32 2)]),
  -- alarm: pkg/event/call/alarm.go:15-18
  (nr.sys_alarm, [("seconds", .cu32 0)]),
  -- acct: pkg/event/call/acct.go:15-18
  (nr.sys_acct, [("pathname", .cstr 0)]),
  -- brk: pkg/event/call/brk.go:15-18
  (nr.sys_brk, [("addr", .cu64 0)]),
  -- connect: pkg/event/call/connect.go:16-20
  (nr.sys_connect, [("fd", .c32 0), ("saddr", .sock 1)]),
  -- clone: pkg/event/call/clone.go:20-28
  (nr.sys_clone, [("flags", .c64 0), ("new_stack", .cu64 1), ("child_stack", .cu64 2),
    ("parent_stack", .cu64 3), ("tls", .cu64 4)]),
  -- close: pkg/event/call/close.go:15-18
  (nr.sys_close, [("fd", .c32 0)]),
  -- creat: pkg/event/call/creat.go:17-21
  (nr.sys_creat, [("pathname", .cstr 0), ("mode", .cu32 1)]),
  -- exit: pkg/event/call/exit.go:15-18
  (nr.sys_exit, [("code", .c32 0)]),
  -- faccessat: pkg/event/call/faccessat.go:19-25
  (nr.sys_faccessat, [("fd", .c32 0), ("pathname", .cstr 1), ("mode", .cu32 2),
    ("flags", .c32 3)]),
  -- fstat: pkg/event/call/fstat.go:17-22
  (nr.sys_fstat, [("fd", .c32 0), ("stat_buf", .mem 1 120),
    ("stat_buf.unused", .memAt 1 120 24)]),
  -- ftruncate: pkg/event/call/ftruncate.go:16-21
  (nr.sys_ftruncate, [("fd", .c32 0), ("length", .c32 1)]),
  -- futex: pkg/event/call/futex.go:17-22
  (nr.sys_futex, [("uaddr", .cu32 0), ("op", .c32 1), ("val", .cu32 2)]),
  -- getcwd: pkg/event/call/getcwd.go:16-20
  (nr.sys_getcwd, [("buf", .cstr 0), ("size", .c64 1)]),
  -- getpeername: pkg/event/call/getpeername.go:16-20
  (nr.sys_getpeername, [("fd", .c32 0), ("saddr", .sock 1)]),
  -- getsockname: pkg/event/call/getsockname.go:16-20
  (nr.sys_getsockname, [("fd", .c32 0), ("saddr", .sock 1)]),
  -- getsockopt: pkg/event/call/sockopt.go:31-47
  (nr.sys_getsockopt, [("fd", .c32 0), ("level", .c32 1), ("name.tp", .c32 2),
    ("name.lv", .c32 1), ("val", .bytes 3 4), ("len", .c32 4)]),
  -- init_module: pkg/event/call/init_module.go:17-22
  (nr.sys_init_module, [("name", .cstr 0), ("len", .c64 1), ("params", .cstr 2)]),
  -- inotify_add_watch: pkg/event/call/inotify_add_watch.go:22-27
  (nr.sys_inotify_add_watch, [("fd", .c32 0), ("pathname", .cstr 1), ("mask", .cu32 2)]),
  -- kill: pkg/event/call/kill.go:16-21
  (nr.sys_kill, [("pid", .c32 0), ("sig", .c32 1)]),
  -- link: pkg/event/call/link.go:16-20
  (nr.sys_link, [("old_name", .cstr 0), ("new_name", .cstr 1)]),
  -- listen: pkg/event/call/listen.go:16-21
  (nr.sys_listen, [("sock", .c32 0), ("backlog", .c32 1)]),
  -- mincore: pkg/event/call/mincore.go:17-22
  (nr.sys_mincore, [("addr", .cu64 0), ("len", .c64 1), ("vec", .cu64 2)]),
  -- mkdir: pkg/event/call/mkdir.go:18-22
  (nr.sys_mkdir, [("pathname", .cstr 0), ("mode", .cu32 1)]),
  -- mount: pkg/event/call/mount.go:22-28
  (nr.sys_mount, [("device", .cstr 0), ("directory", .cstr 1), ("type", .cstr 2),
    ("flags", .c64 3)]),
  -- mprotect: pkg/event/call/mprotect.go:21-34
  (nr.sys_mprotect, [("addr", .cu64 0), ("len", .c64 1), ("prot", .c32 2),
    ("addr_data", .bufMax 3 1)]),
  -- nanosleep: pkg/event/call/nanosleep.go:17-21
  (nr.sys_nanosleep, [("req", .ptrs 0 16), ("rem", .ptrs 1 16)]),
  -- pivot_root: pkg/event/call/pivot_root.go:16-21
  (nr.sys_pivot_root, [("new_root", .cstr 0), ("old_root", .cstr 1)]),
  -- prlimit64: pkg/event/call/prlimit64.go:25-32
  (nr.sys_prlimit64, [("pid", .c32 0), ("resource", .c32 1), ("new", .mem 2 16),
    ("old", .mem 3 16)]),
  -- ptrace: pkg/event/call/ptrace.go:23-30
  (nr.sys_ptrace, [("request", .c32 0), ("pid", .c32 1), ("addr", .cu64 2), ("data", .cu64 3)]),
  -- read: pkg/event/call/read.go:17-32
  (nr.sys_read, [("fd", .c32 0), ("buf", .bufMin 1 2), ("count", .c64 2)]),
  -- readlink: pkg/event/call/readlink.go:17-32
  (nr.sys_readlink, [("pathname", .cstr 0), ("buf", .bufMin 1 2), ("size", .c64 2)]),
  -- readlinkat: pkg/event/call/readlinkat.go:18-34
  (nr.sys_readlinkat, [("dir_fd", .c32 0), ("pathname", .cstr 1), ("buf", .bufMin 2 3),
    ("size", .c64 3)]),
  -- recvfrom: pkg/event/call/recvfrom.go:20-30
  (nr.sys_recvfrom, [("fd", .c32 0), ("ubuf", .bytes 1 128), ("size", .zero), ("o_size", .zero),
    ("flags", .cu32 3), ("saddr", .sock 4)]),
  -- rename: pkg/event/call/rename.go:16-20
  (nr.sys_rename, [("old_name", .cstr 0), ("new_name", .cstr 1)]),
  -- rmdir: pkg/event/call/rmdir.go:15-18
  (nr.sys_rmdir, [("pathname", .cstr 0)]),
  -- seccomp: pkg/event/call/seccomp.go:17-22
  (nr.sys_seccomp, [("op", .cu32 0), ("flags", .cu32 1), ("args", .cstr 2)]),
  -- sendto: pkg/event/call/sendto.go:19-27
  (nr.sys_sendto, [("fd", .c32 0), ("ubuf", .bytes 1 128), ("size", .c64 2), ("flags", .c32 3),
    ("saddr", .sock 4)]),
  -- setns: pkg/event/call/setns.go:26-31
  (nr.sys_setns, [("fd", .c32 0), ("ns_type", .c32 1)]),
  -- setsockopt: pkg/event/call/sockopt.go:31-47
  (nr.sys_setsockopt, [("fd", .c32 0), ("level", .c32 1), ("name.tp", .c32 2),
    ("name.lv", .c32 1), ("val", .bytes 3 4), ("len", .c32 4)]),
  -- bind: pkg/event/call/bind.go:18-23
  (nr.sys_bind, [("fd", .c32 0), ("ret", .zero), ("saddr", .sock 1)]),
  -- execve: pkg/event/call/execve.go:17-23
  (nr.sys_execve, [("filename", .cstr 0), ("argv[0]", .cstr 1), ("argv[1]", .cstr 2),
    ("argv[2]", .cstr 3), ("argv[3]", .empty)]),
  -- open: pkg/event/call/open.go:19-25
  (nr.sys_open, [("filename", .cstr 0), ("flags", .c32 1), ("mode", .c32 2), ("ret", .zero)]),
  -- openat: pkg/event/call/openat.go:18-23
  (nr.sys_openat, [("dir_fd", .c32 0), ("pathname", .cstr 1), ("flags", .c32 2)]),
  -- chdir: pkg/event/call/chdir.go:15-18
  (nr.sys_chdir, [("filename", .cstr 0)]),
  -- chroot: pkg/event/call/chroot.go:15-18
  (nr.sys_chroot, [("filename", .cstr 0)]),
  -- access: pkg/event/call/access.go:16-20
  (nr.sys_access, [("pathname", .cstr 0), ("mode", .c32 1)]),
  -- write: pkg/event/call/write.go:17-32
  (nr.sys_write, [("fd", .c32 0), ("buf", .bufMin 1 2), ("count", .c64 2)]),
  -- unlink: pkg/event/call/unlink.go:15-18
  (nr.sys_unlink, [("pathname", .cstr 0)]),
  -- umount2: pkg/event/call/umount2.go:16-20
  (nr.sys_umount2, [("target", .cstr 0), ("flags", .c32 1)]),
  -- timerfd_settime: pkg/event/call/timerfd_settime.go:18-25
  (nr.sys_timerfd_settime, [("fd", .c32 0), ("flags", .c32 1), ("new", .mem 2 32),
    ("old", .mem 3 32)]),
  -- timerfd_create: pkg/event/call/timerfd_create.go:16-20
  (nr.sys_timerfd_create, [("clock", .c32 0), ("flags", .c32 1)]),
  -- syslog: pkg/event/call/syslog.go:17-22
  (nr.sys_syslog, [("type", .c32 0), ("buf", .cstr 1), ("len", .c32 2)]),
  -- symlink: pkg/event/call/symlink.go:16-20
  (nr.sys_symlink, [("target", .cstr 0), ("linkpath", .cstr 1)]),
  -- statfs: pkg/event/call/statfs.go:17-21
  (nr.sys_statfs, [("path", .cstr 0), ("stat_buf", .mem 1 120),
    ("stat_buf.unused", .memAt 1 120 24)]),
  -- stat: pkg/event/call/stat.go:17-22
  (nr.sys_stat, [("filename", .cstr 0), ("stat_buf", .mem 1 120),
    ("stat_buf.unused", .memAt 1 120 24)]),
  -- socket: pkg/event/call/socket.go:27-33
  (nr.sys_socket, [("family", .c32 0), ("type", .c32 1), ("protocol", .c32 2)]),
  -- setuid: pkg/event/call/setuid.go:15-18
  (nr.sys_setuid, [("uid", .cu32 0)])
]

end Swoll.Event
