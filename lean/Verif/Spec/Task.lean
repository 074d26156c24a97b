import Verif.Model.Task
/-
Processes and pid namespaces as the manual pages have them (pid_namespaces(7), clone(2), unshare(2), setns(2),
setsid(2)), and how Linux keeps them in memory (kernel/pid.c, kernel/nsproxy.c). None of it is code of swoll.
-/
namespace Swoll.Spec.Task
open Swoll Swoll.Task

/-- A pid namespace: the namespaces it is in, outermost first and itself last, and its inode number. -/
structure Space where
  around : List Nat
  inum : BitVec 32
  deriving DecidableEq, Repr

/-- A thread. `home` is the pid namespace it lives in, which never changes; `numbers` the number it was given in each
namespace around its home; `childHome` the namespace its children will be born into. -/
structure Thread where
  home : Nat
  numbers : List (Nat × BitVec 32)
  proc : Nat
  childHome : Nat
  uts : BitVec 32 := 0
  mnt : BitVec 32 := 0
  ipc : BitVec 32 := 0
  cgr : BitVec 32 := 0
  willing : BitVec 64 := 0
  forced : BitVec 64 := 0
  deriving DecidableEq, Repr

/-- A process: its first thread, and the first thread of the process that began the session it is in. -/
structure Process where
  leader : Nat
  session : Nat
  deriving DecidableEq, Repr

structure World where
  spaces : List Space
  threads : List Thread
  procs : List Process
  deriving DecidableEq, Repr

/-- One namespace, one process, one thread: init. -/
def boot (inum : BitVec 32) : World :=
  ⟨[⟨[0], inum⟩], [{ home := 0, numbers := [(0, 1)], proc := 0, childHome := 0 }], [⟨0, 0⟩]⟩

/-- What a thread may do that bears on who it is. Numbers for new threads are whatever the kernel picks. -/
inductive Act where
  | fork (nrs : Nat → BitVec 32)
  | forkNewPid (inum : BitVec 32) (nrs : Nat → BitVec 32)
  | newThread (nrs : Nat → BitVec 32)
  | unshareNewPid (inum : BitVec 32)
  | setnsPid (space : Nat)
  | setsid
  | moveOther (uts mnt ipc cgr : BitVec 32)
  | switched (willing forced : BitVec 64)

/-- Does the act change where the children of the thread will be born? -/
def Act.moves : Act → Bool
  | .unshareNewPid _ => true
  | .setnsPid _ => true
  | _ => false

/-- The numbers of a thread born into a namespace: one for each namespace around it. -/
def given (sp : Space) (nrs : Nat → BitVec 32) : List (Nat × BitVec 32) := sp.around.map fun s => (s, nrs s)

/-- A process born to thread `th` into namespace `s`, in the session of its parent. -/
def World.birth (w : World) (th : Thread) (pr : Process) (s : Nat) (sp : Space) (nrs : Nat → BitVec 32) : World :=
  { w with
    threads := w.threads ++ [{ th with home := s, childHome := s, numbers := given sp nrs, proc := w.procs.length,
                                       willing := 0, forced := 0 }]
    procs := w.procs ++ [⟨w.threads.length, pr.session⟩] }

/-- A namespace within namespace `sp`, as the next one. -/
def World.inside (w : World) (sp : Space) (inum : BitVec 32) : Space := ⟨sp.around ++ [w.spaces.length], inum⟩

/-- A thread does something; what the kernel refuses changes nothing. -/
def World.act (w : World) (t : Nat) (a : Act) : World :=
  match w.threads[t]? with
  | none => w
  | some th =>
    match a with
    | .fork nrs =>
      match w.spaces[th.childHome]?, w.procs[th.proc]? with
      | some sp, some pr => w.birth th pr th.childHome sp nrs
      | _, _ => w
    | .forkNewPid inum nrs =>
      match w.spaces[th.childHome]?, w.procs[th.proc]? with
      | some sp, some pr =>
        if th.childHome = th.home then
          { w with spaces := w.spaces ++ [w.inside sp inum] }.birth th pr w.spaces.length (w.inside sp inum) nrs
        else w
      | _, _ => w
    | .newThread nrs =>
      match w.spaces[th.home]? with
      | some sp =>
        if th.childHome = th.home then
          { w with threads := w.threads ++ [{ th with numbers := given sp nrs, willing := 0, forced := 0 }] }
        else w
      | none => w
    | .unshareNewPid inum =>
      match w.spaces[th.home]? with
      | some sp =>
        if th.childHome = th.home then
          { w with
            spaces := w.spaces ++ [w.inside sp inum]
            threads := w.threads.set t { th with childHome := w.spaces.length } }
        else w
      | none => w
    | .setnsPid s =>
      match w.spaces[s]? with
      | some sp => if th.home ∈ sp.around then { w with threads := w.threads.set t { th with childHome := s } } else w
      | none => w
    | .setsid =>
      match w.procs[th.proc]? with
      | some pr => { w with procs := w.procs.set th.proc { pr with session := pr.leader } }
      | none => w
    | .moveOther u m i c => { w with threads := w.threads.set t { th with uts := u, mnt := m, ipc := i, cgr := c } }
    | .switched v f => { w with threads := w.threads.set t { th with willing := v, forced := f } }

/-- A history: who does what, one after the other. -/
def World.run (w : World) : List (Nat × Act) → World
  | [] => w
  | (t, a) :: h => (w.act t a).run h

/-- The number thread `t` has in namespace `s`, if it can be seen there. -/
def World.numberIn (w : World) (t s : Nat) : Option (BitVec 32) :=
  match w.threads[t]? with
  | some th => th.numbers.lookup s
  | none => none

/-- `getpid()` in thread `t`: the number of the first thread of its process, in its own namespace. -/
def World.getpid (w : World) (t : Nat) : Option (BitVec 32) := do
  let th ← w.threads[t]?
  let pr ← w.procs[th.proc]?
  w.numberIn pr.leader th.home

/-- `getsid(0)` in thread `t`: the number of what began its session, in its own namespace; 0 if it cannot be seen
there. -/
def World.getsid (w : World) (t : Nat) : Option (BitVec 32) := do
  let th ← w.threads[t]?
  let pr ← w.procs[th.proc]?
  pure ((w.numberIn pr.session th.home).getD 0)

/-- `/proc/self/ns/pid` of thread `t`: the inode number of the namespace it lives in. -/
def World.ownNs (w : World) (t : Nat) : Option (BitVec 32) := do
  let th ← w.threads[t]?
  let sp ← w.spaces[th.home]?
  pure sp.inum

/-! How Linux keeps it. Thread `i` is at address `i + 1`, and so are its `struct pid` and its `nsproxy`; namespace `i`
is at address `i + 1`. What is at other offsets than the right ones is anything. -/

structure Layout where
  proxyOff : BitVec 32
  nsOff : BitVec 32
  otherWord : Nat → BitVec 32 → Option Addr
  otherInum : Nat → BitVec 32 → Option (BitVec 32)

/-- What is at address `a` of a table whose entry `i` is at `i + 1`. -/
def tableAt {α : Type} (l : List α) : Addr → Option α
  | 0 => none
  | i + 1 => l[i]?

def World.mem (w : World) (lay : Layout) : Mem where
  task a := (tableAt w.threads a).map fun th =>
    { threadPid := a
      groupLeader := (w.procs[th.proc]?).elim 0 fun pr => pr.leader + 1
      signalSid := (w.procs[th.proc]?).elim 0 fun pr => pr.session + 1
      word := fun off => if off = lay.proxyOff then some a else lay.otherWord a off
      nvcsw := th.willing
      nivcsw := th.forced }
  pid a := (tableAt w.threads a).map fun th =>
    ⟨th.numbers.length - 1, th.numbers.map fun x => ⟨x.2, x.1 + 1⟩⟩
  nsproxy a := (tableAt w.threads a).map fun th => ⟨4 * a, 4 * a + 1, 4 * a + 2, 4 * a + 3, th.childHome + 1⟩
  pidns a := (tableAt w.spaces a).map fun sp =>
    ⟨sp.around.length - 1, fun off => if off = lay.nsOff then some sp.inum else lay.otherInum a off⟩
  inum a := (tableAt w.threads (a / 4)).map fun th =>
    match a % 4 with
    | 0 => th.uts
    | 1 => th.mnt
    | 2 => th.ipc
    | _ => th.cgr

end Swoll.Spec.Task
