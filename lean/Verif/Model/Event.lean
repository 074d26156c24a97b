import Verif.Model.EventTables
import Verif.Model.Syscalls
/-
Model of the life of one event: filled in by the probe (internal/bpf/probe.c), laid out as a C
structure, parsed by pkg/event/raw.go and pkg/event/trace.go, its arguments decoded by
pkg/event/call and pkg/types/c.go.
-/
namespace Swoll.Event
open Swoll.Bytes

/-! ### The probe -/

/-- User memory of the traced process; `none` is an address that cannot be read.
(Read at probe.c:35-41, 96-106.) -/
abbrev Mem := Nat → Option Byte

/-- Reading `n` bytes at `a`, failing if any of them is unreadable. (probe.c:96-106) -/
def rdMem (m : Mem) : Nat → Nat → Option (List Byte)
  | _, 0 => some []
  | a, n + 1 => do
    let b ← m a
    let bs ← rdMem m (a + 1) n
    return b :: bs

/-- `bpf_probe_read(dst, n, a)`: on a fault the kernel clears the destination.
(Used at probe.c:35-41, 96-106.) -/
def probeRead (m : Mem) (a n : Nat) : List Byte := (rdMem m a n).getD (List.replicate n 0)

/-- What the probe reads about the current task (probe.c:1328-1355, 1371-1386): the helpers
`bpf_get_current_pid_tgid`, `bpf_get_current_uid_gid`, `bpf_get_current_comm` and the kernel
structures. Simplified: the chains of kernel pointers are replaced by the values at their ends,
and `sid`/`nsPid` by the results of `swoll__task_session_vnr`/`swoll__task_tgid_vnr`. -/
structure Task where
  tgid : BitVec 32
  pid : BitVec 32
  uid : BitVec 32
  gid : BitVec 32
  sid : BitVec 32
  nsPid : BitVec 32
  pidNs : BitVec 32
  utsNs : BitVec 32
  mntNs : BitVec 32
  ipcNs : BitVec 32
  cgrNs : BitVec 32
  nvcsw : BitVec 64
  nivcsw : BitVec 64
  comm : List Byte

/-- `struct swoll_event`, probe.c:118-147. -/
structure KEvent where
  pidTid : BitVec 64
  uidGid : BitVec 64
  syscall : BitVec 32
  nsPid : BitVec 32
  entr : BitVec 64
  exit : BitVec 64
  session : BitVec 32
  pidNs : BitVec 32
  utsNs : BitVec 32
  mntNs : BitVec 32
  ipcNs : BitVec 32
  cgrNs : BitVec 32
  contextSw : BitVec 64
  errno : BitVec 32
  ret : BitVec 32
  comm : List Byte
  args : List Byte
  deriving DecidableEq, Repr

/-- Array members have their declared sizes. (probe.c:118-147) -/
def KEvent.WF (e : KEvent) : Prop := e.comm.length = 16 ∧ e.args.length = 640

/-- The high half of the 64-bit helper results holds the first named id. (probe.c:1371-1386) -/
def pack (hi lo : BitVec 32) : BitVec 64 := hi ++ lo

/-- `swoll__event_fill_init`, probe.c:1371-1386 (with `swoll__event_fill_namespaces`,
1328-1355): everything but the command and the arguments is cleared (`SWOLL_EVENT_SZ`, 319),
then the header is filled in. -/
def fillInit (scratch : KEvent) (nr : BitVec 32) (t : Task) : KEvent :=
  { pidTid := pack t.tgid t.pid, uidGid := pack t.gid t.uid, syscall := nr, nsPid := t.nsPid,
    entr := 0, exit := 0, session := t.sid, pidNs := t.pidNs, utsNs := t.utsNs,
    mntNs := t.mntNs, ipcNs := t.ipcNs, cgrNs := t.cgrNs, contextSw := t.nvcsw + t.nivcsw,
    errno := 0, ret := 0, comm := t.comm, args := scratch.args }

/-- One traced system call as the exit tracepoint sees it: number, argument registers, and the
owner and time captured at entry (`struct swoll_event_key`, probe.c:66-70), the return value,
the user memory at exit and the current time. -/
structure Call where
  nr : BitVec 32
  args : Nat → BitVec 64
  uid : BitVec 32
  gid : BitVec 32
  start : BitVec 64
  ret : BitVec 64
  mem : Mem
  finish : BitVec 64

/-- `EVENT_ARG<s>`, probe.c:96-106, 137-141: the slots are consecutive 128-byte arrays. -/
def setSlot (args : List Byte) (s : Nat) (bs : List Byte) : List Byte :=
  overwrite args (128 * s) bs

/-- One copy of a filler. (probe.c:96-106) -/
def doAct (regs : Nat → BitVec 64) (m : Mem) (args : List Byte) : Act → List Byte
  | .reg s k => setSlot args s (leBytes 8 (regs k).toNat)
  | .user s k => setSlot args s (probeRead m (regs k).toNat 128)
  | .user8 s k => setSlot args s (probeRead m (regs k).toNat 8)

/-- `SWOLL_COMMON_LTZERO_ERROR` and `SWOLL_COMMON_NULL_ERROR`, probe.c:1584, 1590. -/
def errOf (ret : BitVec 64) : ErrKind → BitVec 32
  | .ltzero => if (ret.setWidth 32).toInt < 0 then -(ret.setWidth 32) else 0
  | .null => if ret = 0 then -1 else 0

/-- `swoll__exit`, probe.c:2580-2732, from the point where the event is built: the header, the
switch over the fillers (each sets `ret` through `SWOLL_CALL_INIT`, 303-312, and returns the
errno), and the default case, which only terminates the slots. The lookup of the entry record
is modelled in Model/Probe.lean. -/
def onExit (scratch : KEvent) (t : Task) (c : Call) : KEvent :=
  let e := fillInit scratch c.nr t
  let e := { e with uidGid := pack c.gid c.uid, entr := c.start, exit := c.finish }
  match fillers.lookup e.syscall.toNat with
  | some f =>
    { e with
      ret := c.ret.setWidth 32
      errno := errOf c.ret f.err
      args := f.acts.foldl (doAct c.args c.mem) e.args }
  | none => { e with args := [0, 1, 2, 3, 4].foldl (fun a s => setSlot a s [0]) e.args }

/-- `_(P)`, probe.c:35-41, for an 8-byte pointer in user memory. -/
def derefPtr (m : Mem) (a : Nat) : Nat := leVal (probeRead m a 8)

/-- `swoll__syscalls_execve`, probe.c:2734-2769, after the filter: slot 0 takes the file name,
slots 1 to 4 the strings `argv[1]` to `argv[4]` (reads past a shorter vector included). -/
def onExecve (scratch : KEvent) (t : Task) (m : Mem) (filename argv now : BitVec 64) : KEvent :=
  let e := fillInit scratch (BitVec.ofNat 32 nr.sys_execve) t
  let e := { e with entr := now, exit := now }
  let a := setSlot e.args 0 (probeRead m filename.toNat 128)
  { e with
    args := [1, 2, 3, 4].foldl
      (fun a i => setSlot a i (probeRead m (derefPtr m (argv.toNat + 8 * i)) 128)) a }

/-- C layout of a struct on x86-64: each member, given as alignment and bytes, is placed at the
next multiple of its alignment; the whole is padded to a multiple of the largest.
(of probe.c:118-147) -/
def cStruct (align : Nat) (members : List (Nat × List Byte)) : List Byte :=
  let pad (bs : List Byte) (al : Nat) := bs ++ List.replicate ((al - bs.length % al) % al) 0
  pad (members.foldl (fun acc m => pad acc m.1 ++ m.2) []) align

/-- The bytes `bpf_perf_event_output` sends, probe.c:2727-2728: the event structure as it lies
in memory (little-endian). -/
def encode (e : KEvent) : List Byte := cStruct 8 [
  (8, leBytes 8 e.pidTid.toNat), (8, leBytes 8 e.uidGid.toNat),
  (4, leBytes 4 e.syscall.toNat), (4, leBytes 4 e.nsPid.toNat),
  (8, leBytes 8 e.entr.toNat), (8, leBytes 8 e.exit.toNat),
  (4, leBytes 4 e.session.toNat), (4, leBytes 4 e.pidNs.toNat),
  (4, leBytes 4 e.utsNs.toNat), (4, leBytes 4 e.mntNs.toNat),
  (4, leBytes 4 e.ipcNs.toNat), (4, leBytes 4 e.cgrNs.toNat),
  (8, leBytes 8 e.contextSw.toNat), (4, leBytes 4 e.errno.toNat),
  (4, leBytes 4 e.ret.toNat), (1, e.comm), (1, e.args)]

/-! ### Raw events -/

/-- `RawEvent`, pkg/event/raw.go:19-39. -/
structure RawEvent where
  pid : BitVec 32
  tid : BitVec 32
  uid : BitVec 32
  gid : BitVec 32
  syscall : BitVec 32
  nsPid : BitVec 32
  start : BitVec 64
  finish : BitVec 64
  session : BitVec 32
  pidNs : BitVec 32
  utsNs : BitVec 32
  mntNs : BitVec 32
  ipcNs : BitVec 32
  cgrNs : BitVec 32
  contextSw : BitVec 64
  errno : BitVec 32
  ret : BitVec 32
  comm : List Byte
  args : List Byte
  deriving DecidableEq, Repr

/-- Sizes of the fields of `RawEvent` in order, raw.go:19-39 (with `evCommLen` 16 and
`evArgLen * evArgCount` = 640, raw.go:13-15). -/
def widths : List Nat := [4, 4, 4, 4, 4, 4, 8, 8, 4, 4, 4, 4, 4, 4, 8, 4, 4, 16, 640]

/-- Field `i` of a buffer, as `encoding/binary` reads it: fields are consecutive, without
padding. (raw.go:54-60) -/
def rawField (data : List Byte) (i : Nat) : List Byte :=
  window data ((widths.take i).sum) (widths.getD i 0)

/-- Little-endian fixed-width integer, `encoding/binary`. (raw.go:54-60) -/
def le (n : Nat) (bs : List Byte) : BitVec n := BitVec.ofNat n (leVal bs)

/-- `RawEvent.IngestBytes`, raw.go:54-60: `binary.Read` needs `widths.sum` bytes (else
`io.ErrUnexpectedEOF`, `none` here) and ignores what follows. -/
def ingestBytes (data : List Byte) : Option RawEvent :=
  if data.length < widths.sum then none
  else
    let f := rawField data
    some { pid := le 32 (f 0), tid := le 32 (f 1), uid := le 32 (f 2), gid := le 32 (f 3),
           syscall := le 32 (f 4), nsPid := le 32 (f 5), start := le 64 (f 6),
           finish := le 64 (f 7), session := le 32 (f 8), pidNs := le 32 (f 9),
           utsNs := le 32 (f 10), mntNs := le 32 (f 11), ipcNs := le 32 (f 12),
           cgrNs := le 32 (f 13), contextSw := le 64 (f 14), errno := le 32 (f 15),
           ret := le 32 (f 16), comm := f 17, args := f 18 }

/-- The counting loop of `MakeCString` (pkg/types/c.go:24-30) and `Commstr` (raw.go:94-100). -/
def cstrCount : List Byte → Nat
  | [] => 0
  | b :: bs => if b = 0 then 0 else cstrCount bs + 1

/-- `RawEvent.Commstr`, raw.go:91-103. -/
def RawEvent.commstr (e : RawEvent) : List Byte := e.comm.take (cstrCount e.comm)

/-! ### Reading C values, pkg/types/c.go

`a` is the argument area of the event and `off` the offset the pointer has in it. -/

/-- `MakeCString`, c.go:20-33. -/
def makeCString (a : List Byte) (off len : Nat) : List Byte :=
  (window a off len).take (cstrCount (window a off len))

/-- `MakeCU64`, c.go:35-37. -/
def makeCU64 (a : List Byte) (off : Nat) : BitVec 64 := le 64 (window a off 8)

/-- `MakeC64`, c.go:39-41. -/
def makeC64 (a : List Byte) (off : Nat) : Int := (makeCU64 a off).toInt

/-- `MakeCU32`, c.go:43-45. -/
def makeCU32 (a : List Byte) (off : Nat) : BitVec 32 := le 32 (window a off 4)

/-- `MakeC32`, c.go:47-49. -/
def makeC32 (a : List Byte) (off : Nat) : Int := (makeCU32 a off).toInt

/-- A decoded field. `outside off len` is a slice header that is not contained in the event's
argument area (`MakeCBytes`, c.go:9-18, builds it without a check); `ptrs i n` stands for `n`
bytes of the decoder's own array of pointers. -/
inductive Val where
  | int (i : Int)
  | str (bs : List Byte)
  | buf (bs : List Byte)
  | outside (off len : Int)
  | ptrs (i n : Nat)
  deriving DecidableEq, Repr

/-- `MakeCBytes`, c.go:9-18. -/
def makeCBytes (a : List Byte) (off : Nat) (len : Int) : Val :=
  if 0 ≤ len ∧ (off : Int) + len ≤ a.length then .buf (window a off len.toNat)
  else .outside off len

/-- `ArgLen`, raw.go:107-109. -/
def argLen : Nat := 128

/-- The value a `DecodeArguments` statement gives to a field; `Args` (raw.go:43-51) puts slot
`s` at offset `s * evArgLen`. -/
def evalRd (a : List Byte) : Rd → Val
  | .c32 s => .int (makeC32 a (s * argLen))
  | .cu32 s => .int (makeCU32 a (s * argLen)).toNat
  | .c64 s => .int (makeC64 a (s * argLen))
  | .cu64 s => .int (makeCU64 a (s * argLen)).toNat
  | .cstr s => .str (makeCString a (s * argLen) argLen)
  | .bytes s n => makeCBytes a (s * argLen) n
  | .bufMin s c =>
    makeCBytes a (s * argLen)
      (if makeC64 a (c * argLen) < argLen then makeC64 a (c * argLen) else argLen)
  | .bufMax s c =>
    makeCBytes a (s * argLen)
      (if (argLen : Int) < makeC64 a (c * argLen) then makeC64 a (c * argLen) else argLen)
  | .mem s n => makeCBytes a (s * argLen) n
  | .memAt s o n => makeCBytes a (s * argLen + o) n
  | .sock s => makeCBytes a (s * argLen) 110
  | .ptrs i n => .ptrs i n
  | .zero => .int 0
  | .empty => .str []

/-- Result of a Go call that may also panic. (as `Ingest`, pkg/event/trace.go:225-276) -/
inductive Res (α : Type) where
  | ok (a : α)
  | err
  | panic
  deriving DecidableEq

/-- The elements of the argument slice a field reader indexes. (pkg/event/raw.go:43-51) -/
def Rd.slots : Rd → List Nat
  | .c32 s | .cu32 s | .c64 s | .cu64 s | .cstr s | .bytes s _ | .mem s _ | .memAt s _ _
  | .sock s => [s]
  | .bufMin s c | .bufMax s c => [s, c]
  | .ptrs i _ => [i]
  | .zero | .empty => []

/-- `evArgCount`, raw.go:14: the length of the slice `Args` returns. -/
def argCount : Nat := 5

/-- `DecodeSyscall`, pkg/event/call/syscall.go:13-196: an error for an unhandled syscall, an
index panic if a decoder uses an element past the slice. -/
def decodeSyscall (nr : Nat) (a : List Byte) : Res (List (String × Val)) :=
  match decoders.lookup nr with
  | none => .err
  | some fields =>
    if fields.all fun f => f.2.slots.all (· < argCount) then
      .ok (fields.map fun f => (f.1, evalRd a f.2))
    else .panic

/-! ### Trace events -/

/-- `TraceEvent`, pkg/event/trace.go:18-43, without the raw event and the callback. -/
structure TraceEvent (κ : Type) where
  syscall : Option Syscalls.Syscall
  pid : Int
  tid : Int
  cpid : Int
  uid : Int
  gid : Int
  comm : List Byte
  sid : Int
  container : Option κ
  error : Int
  ret : Int
  pidNs : Int
  utsNs : Int
  mntNs : Int
  start : Int
  finish : Int
  argv : List (String × Val)
  deriving DecidableEq

/-- The argument of `Ingest`, an `interface{}`. (pkg/event/trace.go:225) -/
inductive Input where
  | kernelEvent (bs : List Byte)
  | bytes (bs : List Byte)
  | other

/-- `TraceEvent.Ingest`, trace.go:225-276. `lookup` is the optional container callback, whose
error is ignored. When decoding fails the input, a byte slice, is asserted to be a
`call.Function` (trace.go:253), which panics. -/
def ingest {κ : Type} (tbl : Syscalls.Syscalls) (lookup : Option (Int → Option κ)) (i : Input) :
    Res (TraceEvent κ) :=
  let go (data : List Byte) : Res (TraceEvent κ) :=
    match ingestBytes data with
    | none => .err
    | some r =>
      match decodeSyscall r.syscall.toNat r.args with
      | .err => .panic
      | .panic => .panic
      | .ok argv => .ok
        { syscall := Syscalls.lookup tbl (.int r.syscall.toNat)
          pid := r.pid.toNat, tid := r.tid.toNat, cpid := r.nsPid.toNat
          uid := r.uid.toNat, gid := r.gid.toNat
          comm := r.commstr, sid := r.session.toInt
          container := lookup.bind fun f => f r.pidNs.toNat
          error := r.errno.toNat, ret := r.ret.toNat
          pidNs := r.pidNs.toNat, utsNs := r.utsNs.toNat, mntNs := r.mntNs.toNat
          start := r.start.toInt, finish := r.finish.toInt
          argv := argv }
  match i with
  | .kernelEvent bs => go bs
  | .bytes bs => go bs
  | .other => .err

end Swoll.Event
