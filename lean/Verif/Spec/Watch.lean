import Verif.Spec.Print
/-
What a person who runs `swoll client watch` expects of a line, beyond Spec/Print.
-/
namespace Swoll.Spec.Watch
open Swoll.Event Swoll.Spec.Print

/-- Text in a colour or style of the terminal (ECMA-48 `SGR`), switched off behind it. -/
def styled (sgr : String) (t : List Char) : List Char :=
  "\x1b[".toList ++ sgr.toList ++ ['m'] ++ t ++ "\x1b[0m".toList

/-- Green for success, red for an error. -/
def verdict (success : Bool) (t : List Char) : List Char :=
  styled (if success then "1;32" else "1;31") t

/-- Text shown although the program that prints it complains (`fmt`: wrong verb for the type). -/
def complaint (goType : String) (t : List Char) : List Char :=
  "%!s(".toList ++ goType.toList ++ ['='] ++ t ++ [')']

/-- The text holds this piece. -/
def Contains (text piece : List Char) : Prop := ∃ pre post, text = pre ++ piece ++ post

/-- Arguments that `--oneshot` and `watch` show in different ways: bytes, structures, the addresses
of `clone` and the words of `execve`. -/
def differs : List (Nat × String) := [
  (nr.sys_clone, "fn"), (nr.sys_clone, "child_stack"), (nr.sys_getsockopt, "optval"),
  (nr.sys_setsockopt, "optval"), (nr.sys_nanosleep, "req"), (nr.sys_nanosleep, "rem"),
  (nr.sys_prlimit64, "new_limit"), (nr.sys_prlimit64, "old_limit"), (nr.sys_read, "buf"),
  (nr.sys_readlink, "buf"), (nr.sys_readlinkat, "buf"), (nr.sys_recvfrom, "buf"),
  (nr.sys_sendto, "buf"), (nr.sys_write, "buf"), (nr.sys_execve, "argv[]"),
  (nr.sys_timerfd_settime, "new_value"), (nr.sys_timerfd_settime, "old_value"),
  (nr.sys_statfs, "buf"), (nr.sys_stat, "statbuf")]

/-- Where between the braces the `k`th argument is. There are more values than arguments for `bind` and
`recvfrom`, and the flags come first for `clone`. -/
def place (n k : Nat) : Nat :=
  if n = nr.sys_clone then [1, 2, 0].getD k k
  else if (n = nr.sys_bind ∧ 1 ≤ k) ∨ (n = nr.sys_recvfrom ∧ 3 ≤ k) then k + 1
  else k

/-- Bytes a program read, wrote, sent or received: the call, the argument, the field it is decoded to. -/
def spilled : List (Nat × Nat × String) := [
  (nr.sys_getsockopt, 3, "val"), (nr.sys_setsockopt, 3, "val"), (nr.sys_read, 1, "buf"),
  (nr.sys_write, 1, "buf"), (nr.sys_readlink, 1, "buf"), (nr.sys_readlinkat, 2, "buf"),
  (nr.sys_recvfrom, 1, "ubuf"), (nr.sys_sendto, 1, "ubuf"), (nr.sys_mprotect, 3, "addr_data")]

/-- Calls none of whose arguments is a number or holds one. -/
def wordsOnly : List Nat := [
  nr.sys_acct, nr.sys_creat, nr.sys_link, nr.sys_mkdir, nr.sys_mount, nr.sys_pivot_root,
  nr.sys_rename, nr.sys_rmdir, nr.sys_execve, nr.sys_openat, nr.sys_chdir, nr.sys_chroot,
  nr.sys_access, nr.sys_unlink, nr.sys_umount2, nr.sys_symlink, nr.sys_socket]

end Swoll.Spec.Watch
