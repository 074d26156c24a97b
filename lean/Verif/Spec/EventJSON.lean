import Verif.Spec.Flags
import Verif.Model.Event
import Verif.Model.Flags
/-
What a client may expect of an event read back from JSON, written from the system calls' manual
pages: which arguments are special, and what must be kept of each. `Val` is the decoder's type of
argument values.
-/
namespace Swoll.Spec.EventJSON
open Swoll.Bytes Swoll.Event
open Swoll.Spec.Flags (SameNamedBits)

/-- The bytes are the UTF-8 encoding of some text. -/
def Utf8 (bs : List Byte) : Prop := ∃ cs : List Char, bs = cs.flatMap String.utf8EncodeChar

/-- Arguments that are neither plain numbers nor strings nor buffers. -/
inductive Special where
  | file | msg | timer | umount | accept | inotify | mount
  | address | sockType | option
  deriving DecidableEq

/-- The special arguments, by system call number (x86-64) and name. -/
def specials : List ((Nat × String) × Special) := [
  -- open, openat
  ((2, "flags"), .file), ((257, "flags"), .file),
  -- connect, accept, sendto, recvfrom, bind, getsockname, getpeername, accept4
  ((42, "saddr"), .address), ((43, "saddr"), .address), ((44, "saddr"), .address),
  ((45, "saddr"), .address), ((49, "saddr"), .address), ((51, "saddr"), .address),
  ((52, "saddr"), .address), ((288, "saddr"), .address),
  -- sendto, recvfrom
  ((44, "flags"), .msg), ((45, "flags"), .msg),
  -- accept4
  ((288, "flags"), .accept),
  -- socket
  ((41, "type"), .sockType),
  -- setsockopt, getsockopt
  ((54, "name.tp"), .option), ((54, "name.lv"), .option),
  ((55, "name.tp"), .option), ((55, "name.lv"), .option),
  -- mount, umount2
  ((165, "flags"), .mount), ((166, "flags"), .umount),
  -- inotify_add_watch
  ((254, "mask"), .inotify),
  -- timerfd_create, timerfd_settime
  ((283, "flags"), .timer), ((286, "flags"), .timer)]

/-- The flags with their named bits are the same. -/
def SameFlags (d : Spec.Flags.Doc) (i i' : Int) : Prop :=
  SameNamedBits d (BitVec.ofInt 64 i) (BitVec.ofInt 64 i')

/-- The reader gets a number of which `P` holds; if it has the 64 bits of `i` it is `i`. -/
def Reads (i : Int) (v' : Val) (P : Int → Prop) : Prop :=
  ∃ i', v' = .int i' ∧ (BitVec.ofInt 64 i' = BitVec.ofInt 64 i → i' = i) ∧ P i'

/-- What a reader gets (`v'`) of an argument `v`.
* text: itself if it is well-formed, something else that is well-formed if not;
* flags: the named bits; file flags only if the two bits of `O_SYNC` agree, mount flags only if
  no bit from 31 up is set;
* a socket address: its first 16 bytes;
* a socket type: its two flags, and its type number if that is 0 or one of socket(2);
* anything else, but the two parts of a socket option name: itself. -/
def Kept : Option Special → Val → Val → Prop
  | none, .str bs, v' => ∃ bs', v' = .str bs' ∧ Utf8 bs' ∧ (bs' = bs ↔ Utf8 bs)
  | none, v, v' => v' = v
  | some .msg, .int i, v' => Reads i v' fun i' => SameFlags Spec.Flags.msgFlags i i'
  | some .timer, .int i, v' => Reads i v' fun i' => SameFlags Spec.Flags.timerFlags i i'
  | some .umount, .int i, v' => Reads i v' fun i' => SameFlags Spec.Flags.umountFlags i i'
  | some .accept, .int i, v' => Reads i v' fun i' => SameFlags Spec.Flags.acceptFlags i i'
  | some .inotify, .int i, v' => Reads i v' fun i' => SameFlags Spec.Flags.inotifyMask i i'
  | some .file, .int i, v' => Reads i v' fun i' => (SameFlags Spec.Flags.fileFlags i i' ↔
      (BitVec.ofInt 64 i).getLsbD 12 = (BitVec.ofInt 64 i).getLsbD 20)
  | some .mount, .int i, v' => Reads i v' fun i' => (SameFlags Spec.Flags.mountFlags i i' ↔
      ∀ b, 31 ≤ b → b < 64 → (BitVec.ofInt 64 i).getLsbD b = false)
  | some .address, .buf bs, v' => v' = .buf (bs.take 16)
  | some .sockType, .int i, v' => Reads i v' fun i' =>
      (BitVec.ofInt 64 i').getLsbD 19 = (BitVec.ofInt 64 i).getLsbD 19 ∧
      (BitVec.ofInt 64 i').getLsbD 11 = (BitVec.ofInt 64 i).getLsbD 11 ∧
      (BitVec.ofInt 64 i' = BitVec.ofInt 64 i &&& 0x8080f ↔
        (BitVec.ofInt 64 i).toNat % 16 ∈ 0 :: Spec.Flags.sockTypes)
  | some .option, .int _, v' => ∃ i', v' = .int i'
  | some _, _, _ => False

/-- No bit is set that has no name. -/
def OnlyNamed (d : Spec.Flags.Doc) (i : Int) : Prop :=
  ∀ b, b < 64 → (BitVec.ofInt 64 i).getLsbD b = true → b ∈ d.named

/-- An argument that has nothing a reader does not get: text is well-formed, all flags have names (`O_SYNC` is
there with both of its bits or not at all, mount flags end at bit 30), and a socket type is one of
socket(2), or 0, with no flags but its own two. Of addresses nothing is asked. -/
def Whole : Option Special → Val → Prop
  | none, .str bs => Utf8 bs
  | some .msg, .int i => OnlyNamed Spec.Flags.msgFlags i
  | some .timer, .int i => OnlyNamed Spec.Flags.timerFlags i
  | some .umount, .int i => OnlyNamed Spec.Flags.umountFlags i
  | some .accept, .int i => OnlyNamed Spec.Flags.acceptFlags i
  | some .inotify, .int i => OnlyNamed Spec.Flags.inotifyMask i
  | some .file, .int i => OnlyNamed Spec.Flags.fileFlags i ∧
      (BitVec.ofInt 64 i).getLsbD 12 = (BitVec.ofInt 64 i).getLsbD 20
  | some .mount, .int i => OnlyNamed Spec.Flags.mountFlags i ∧
      ∀ b, 31 ≤ b → b < 64 → (BitVec.ofInt 64 i).getLsbD b = false
  | some .sockType, .int i => BitVec.ofInt 64 i &&& 0x8080f = BitVec.ofInt 64 i ∧
      (BitVec.ofInt 64 i).toNat % 16 ∈ 0 :: Spec.Flags.sockTypes
  | _, _ => True

/-- Addresses are cut to 16 bytes. -/
def cutAddress : Option Special → Val → Val
  | some .address, .buf bs => .buf (bs.take 16)
  | _, v => v

/-- The arguments of a call of number `nr` with its address, if it has one, cut to 16 bytes. -/
def cut (nr : Nat) (argv : List (String × Val)) : List (String × Val) :=
  argv.map fun a => (a.1, cutAddress (specials.lookup (nr, a.1)) a.2)

/-- All arguments of a call of number `nr` are whole; the option of setsockopt and getsockopt is one of IP, or a
named one of sockets or TCP. -/
structure Intact (nr : Nat) (argv : List (String × Val)) : Prop where
  args : ∀ n v, (n, v) ∈ argv → Whole (specials.lookup (nr, n)) v
  option : nr ∈ [54, 55] → ∃ tp lv, argv.lookup "name.tp" = some (.int tp) ∧ argv.lookup "name.lv" = some (.int lv) ∧
    (lv = 0 ∨ (lv = 1 ∧ tp ∈ Swoll.Flags.socketOpMasks.map (·.1)) ∨ (lv = 6 ∧ tp ∈ Swoll.Flags.tcpOpMasks.map (·.1)))

/-- What is told of an error number: none, 512 (an interrupted call that is started again) and the errors of Linux are
told as they are, others as -1. -/
def toldError (n : Int) : Int := if n = 0 ∨ n = 512 ∨ n ∈ Spec.Flags.errnos.map (·.1) then n else -1

end Swoll.Spec.EventJSON
