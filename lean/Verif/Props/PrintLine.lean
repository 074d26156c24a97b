import Verif.Lemmas.PrintLine
import Verif.Props.Print
import Verif.Props.Syscalls
/-
C91-C93: printed lines. (C90 is in Props/PrintFaithful.lean.)
-/
namespace Swoll.Props.PrintLine
open Swoll.Bytes Swoll.Event Swoll.Flags Swoll.Print Swoll.Spec.Event Swoll.Spec.Print
open Swoll.Lemmas.Flags Swoll.Lemmas.Event Swoll.Lemmas.Print Swoll.Lemmas.Views
open Swoll.Props.Print (Possible sampleEnv sampleEnv_possible)
open Swoll.Props.Event (sampleScratch sampleScratch_wf sampleTask sampleCall)

/-! ### C91: one event, one line -/

/-- An event is printed as one line, in each of the three formats, if no string in it has a line
end: none of the decoded strings and no path of a Unix socket (a buffer that starts with the
address family 1), nor the command, nor the names of the container. -/
theorem c91_one_line_partial (env : Env) (he : Possible env) (tbl : Syscalls.Syscalls)
    (lk : Option (Int → Option Topology.Container)) (data : List Byte)
    (ev : TraceEvent Topology.Container) (hev : ingest tbl lk (.bytes data) = .ok ev)
    (hstr : ∀ f s, (f, Val.str s) ∈ ev.argv → (10 : Byte) ∉ s)
    (hbuf : ∀ f rest, (f, Val.buf ([1, 0] ++ rest)) ∈ ev.argv → (10 : Byte) ∉ rest)
    (hcomm : (10 : Byte) ∉ ev.comm)
    (hcont : ∀ c ∈ ev.container, '\n' ∉ c.name.toList ∧ '\n' ∉ c.pod.toList ∧ '\n' ∉ c.ns.toList) :
    (∀ containers, ∃ line, cliLine env containers (leVal (window data 16 4)) ev = some line ∧
      OneLine line) ∧
    ∃ line, oneshotLine env (leVal (window data 16 4)) ev = some line ∧ OneLine line := by
  have harg := fun as ha => arguments_newline he hev hstr hbuf as ha
  obtain ⟨e, fields, hw, hn, hl, -⟩ := ingest_inv hev
  have hdec : leVal (window data 16 4) ∈ decodable := by
    rw [← hn]; exact (decodable_iff _).2 ⟨fields, hl⟩
  obtain ⟨h1, h2⟩ := (Props.Print.c89_every_decoded_call_prints env ev.argv).1 hdec
  obtain ⟨name, hname⟩ := Option.isSome_iff_exists.1 h1
  obtain ⟨as, has⟩ := Option.isSome_iff_exists.1 h2
  have hnm : '\n' ∉ name.toList := by
    unfold callName at hname
    rw [Option.map_eq_some_iff] at hname
    obtain ⟨row, hrow, rfl⟩ := hname
    exact (shown_quiet _ (lookup_mem hrow)).1
  have hbody : '\n' ∉ join [',', ' '] (as.map argText) ++ [')'] := by
    rw [List.mem_append, not_or]
    refine ⟨join_newline (by decide) ?_, by decide⟩
    intro x hx
    obtain ⟨a, ha, rfl⟩ := List.mem_map.1 hx
    exact harg as has a ha
  have hfq : '\n' ∉ fqdn ev.container := by
    unfold fqdn
    split
    · decide +kernel
    · next c hc =>
      obtain ⟨c1, c2, c3⟩ := hcont c hc
      simp only [List.mem_append, not_or]
      exact ⟨⟨⟨⟨c1, by decide⟩, c2⟩, by decide⟩, c3⟩
  have hrep : ∀ k, '\n' ∉ List.replicate k ' ' := fun k h => by
    rw [List.mem_replicate] at h
    exact absurd h.2 (by decide)
  have hlat : ∀ a b, '\n' ∉ latencyText a b := by
    intro a b
    have hf : ∀ p, '\n' ∉ fixed3 p := by
      intro p
      have hd : ∀ d, d < 10 → '\n' ≠ digit d := by decide
      unfold fixed3
      simp only [List.mem_append, List.mem_cons, List.not_mem_nil, or_false, not_or]
      exact ⟨digits_newline _, by decide, hd _ (by omega), hd _ (by omega), hd _ (by omega)⟩
    unfold latencyText padLeft
    dsimp only
    simp only [List.mem_append, not_or]
    refine ⟨hrep _, ?_⟩
    split
    · simp only [List.mem_cons, not_or]
      exact ⟨by decide, hf _⟩
    · exact hf _
  have split : ∀ pre : List Char, '\n' ∉ pre → OneLine (pre ++ argsText as) := by
    intro pre hp
    refine ⟨pre ++ (join [',', ' '] (as.map argText) ++ [')']), ?_, ?_⟩
    · unfold argsText
      simp
    · rw [List.mem_append, not_or]
      exact ⟨hp, hbody⟩
  have herr := errno_newline ev.error
  have hcm := fun w => comm_newline w hcomm
  refine ⟨fun containers => ⟨_, by unfold cliLine; rw [hname, has], split _ ?_⟩,
    ⟨_, by unfold oneshotLine; rw [hname, has], split _ ?_⟩⟩
  · have l1 : '\n' ∉ "ms) ".toList := by decide +kernel
    have l2 : '\n' ∉ ": [".toList := by decide +kernel
    have l3 : '\n' ∉ "] (".toList := by decide +kernel
    have l4 : '\n' ∉ ") ".toList := by decide +kernel
    cases containers <;> simp only [List.mem_append, not_or, if_true, if_false, padLeft, padRight,
      Bool.false_eq_true] at hcm ⊢
    · exact ⟨⟨⟨⟨⟨⟨⟨by decide, hlat _ _⟩, l1⟩, ⟨⟨⟨⟨by decide, hcm _⟩, by decide⟩,
        itoa_newline _, hrep _⟩, l3⟩⟩, hrep _, herr⟩, l4⟩, hnm⟩, by decide⟩
    · exact ⟨⟨⟨⟨⟨⟨⟨by decide, hlat _ _⟩, l1⟩, ⟨⟨⟨hrep _, hfq⟩, l2⟩, hcm _⟩, l3⟩,
        hrep _, herr⟩, l4⟩, hnm⟩, by decide⟩
  · have l2 : '\n' ∉ ": [".toList := by decide +kernel
    have l3 : '\n' ∉ "] (".toList := by decide +kernel
    have l4 : '\n' ∉ ") ".toList := by decide +kernel
    simp only [List.mem_append, not_or, padLeft] at hcm ⊢
    exact ⟨⟨⟨⟨⟨⟨⟨⟨hrep _, hfq⟩, l2⟩, hcm _⟩, l3⟩, hrep _, herr⟩, l4⟩, hnm⟩, by decide⟩

/-- A call of `unlink` on a path. -/
def unlinkCall (path : List Byte) (start : BitVec 64) : Call :=
  { nr := BitVec.ofNat 32 nr.sys_unlink, args := fun _ => 4096
    uid := 0, gid := 0, start := start, ret := 0, finish := start + 2000
    mem := fun a => some ((path ++ List.replicate 128 0).getD (a - 4096) 0) }

/-- The hypotheses are met by an event of `unlink("ab")`. -/
example : ∃ ev, ingest (κ := Topology.Container) ⟨[], []⟩ none (.bytes (encode (onExit sampleScratch
      sampleTask (unlinkCall [97, 98] 7000)) ++ [])) = .ok ev ∧
    (∃ f, (f, Val.str [97, 98]) ∈ ev.argv) ∧
    (∀ f s, (f, Val.str s) ∈ ev.argv → (10 : Byte) ∉ s) ∧
    (∀ f rest, (f, Val.buf ([1, 0] ++ rest)) ∈ ev.argv → (10 : Byte) ∉ rest) ∧
    (10 : Byte) ∉ ev.comm ∧ ev.container = none := by
  have hwf := wf_onExit sampleScratch sampleTask (unlinkCall [97, 98] 7000) sampleScratch_wf rfl
  refine ⟨_, ingest_ok (κ := Topology.Container) ⟨[], []⟩ none _ hwf [] [("pathname", .cstr 0)]
    (by rw [onExit_syscall]; show decoders.lookup 87 = _; decide +kernel), ?_⟩
  rw [argv_eventOf]
  have e : ([("pathname", Rd.cstr 0)].map fun f => (f.1, evalRd (onExit sampleScratch sampleTask
      (unlinkCall [97, 98] 7000)).args f.2)) = [("pathname", .str [97, 98])] := by decide +kernel
  rw [e]
  refine ⟨⟨"pathname", List.mem_singleton.2 rfl⟩, ?_, ?_, by decide +kernel, rfl⟩
  · intro f s h
    simp only [List.mem_singleton, Prod.mk.injEq, Val.str.injEq] at h
    rw [h.2]
    decide
  · intro f rest h
    simp at h

/-- Two lines for one event: unlinking a file whose name holds a line end and a line of output
prints the same text as two other events would, of which the second never happened. -/
def secondPath : List Byte := "/etc/shadow".toList.map fun c => UInt8.ofNat c.toNat

/-- The name of the file: the end of one line and the beginning of another. -/
def forgedPath : List Byte :=
  ("x)\n( 0.002ms) [             sh/101     ] (         OK) ".toList ++
    "unlink((const char *)pathname=/etc/shadow".toList).map fun c => UInt8.ofNat c.toNat

/-- What is printed, without containers, for a call. -/
def printed (tbl : Syscalls.Syscalls) (c : Call) : Option (List Char) :=
  match ingest (κ := Topology.Container) tbl none
    (.bytes (encode (onExit sampleScratch sampleTask c))) with
  | .ok ev => cliLine sampleEnv false c.nr.toNat ev
  | _ => none

theorem c91_one_line_violated (tbl : Syscalls.Syscalls) : ∃ l₁ l₂,
    printed tbl (unlinkCall [120] 7000) = some l₁ ∧
    printed tbl (unlinkCall secondPath 9000) = some l₂ ∧
    printed tbl (unlinkCall forgedPath 7000) = some (l₁ ++ l₂) := by
  have h : ∀ path start, printed tbl (unlinkCall path start) =
      cliLine sampleEnv false 87 (eventOf ⟨[], []⟩ none
        (onExit sampleScratch sampleTask (unlinkCall path start))
        [("pathname", evalRd (onExit sampleScratch sampleTask (unlinkCall path start)).args
          (.cstr 0))]) := by
    intro path start
    have hwf := wf_onExit sampleScratch sampleTask (unlinkCall path start) sampleScratch_wf rfl
    have := ingest_ok (κ := Topology.Container) tbl none _ hwf [] [("pathname", .cstr 0)]
      (by rw [onExit_syscall]; show decoders.lookup 87 = _; decide +kernel)
    rw [List.append_nil] at this
    unfold printed
    rw [this]
    rfl
  rw [h, h, h]
  have key : (cliLine sampleEnv false 87 (eventOf ⟨[], []⟩ none
        (onExit sampleScratch sampleTask (unlinkCall [120] 7000))
        [("pathname", evalRd (onExit sampleScratch sampleTask (unlinkCall [120] 7000)).args
          (.cstr 0))])).isSome ∧ (cliLine sampleEnv false 87 (eventOf ⟨[], []⟩ none
        (onExit sampleScratch sampleTask (unlinkCall secondPath 9000))
        [("pathname", evalRd (onExit sampleScratch sampleTask (unlinkCall secondPath 9000)).args
          (.cstr 0))])).isSome ∧ cliLine sampleEnv false 87 (eventOf ⟨[], []⟩ none
        (onExit sampleScratch sampleTask (unlinkCall forgedPath 7000))
        [("pathname", evalRd (onExit sampleScratch sampleTask (unlinkCall forgedPath 7000)).args
          (.cstr 0))]) = some ((cliLine sampleEnv false 87 (eventOf ⟨[], []⟩ none
        (onExit sampleScratch sampleTask (unlinkCall [120] 7000))
        [("pathname", evalRd (onExit sampleScratch sampleTask (unlinkCall [120] 7000)).args
          (.cstr 0))])).getD [] ++ (cliLine sampleEnv false 87 (eventOf ⟨[], []⟩ none
        (onExit sampleScratch sampleTask (unlinkCall secondPath 9000))
        [("pathname", evalRd (onExit sampleScratch sampleTask (unlinkCall secondPath 9000)).args
          (.cstr 0))])).getD []) := by decide +kernel
  obtain ⟨k1, k2, k3⟩ := key
  obtain ⟨l₁, h1⟩ := Option.isSome_iff_exists.1 k1
  obtain ⟨l₂, h2⟩ := Option.isSome_iff_exists.1 k2
  rw [h1, h2] at k3
  exact ⟨l₁, l₂, h1, h2, k3⟩

/-! ### C92: the columns -/

/-- The line `swoll trace` prints for a traced call: how long it took in milliseconds, its
container, the command of its task, its error and its name with the arguments.

Partial: calls that start and finish within the first eighteen years after boot; the latency is the
nearest thousandth if they finish in the first 104 days, otherwise at most one microsecond off
(`c92_latency_violated`). -/
theorem c92_container_line_partial (env : Env) (tbl : Syscalls.Syscalls)
    (lk : Option (Int → Option Topology.Container)) (scratch : KEvent) (t : Task) (c : Call)
    (extra : List Byte) (hw : scratch.WF) (hc : t.comm.length = 16) (hn : c.nr.toNat ∈ decodable)
    (hg : c.nr.toNat ≠ nr.sys_getcwd) (hr : -4095 ≤ c.ret.toInt ∧ c.ret.toInt < 2 ^ 31)
    (hs : c.start.toNat ≤ c.finish.toNat) (hf : c.finish.toNat < 2 ^ 59) :
    ∃ ev line comm err name args p b₁ b₂ b₃ b₄,
      ingest tbl lk (.bytes (encode (onExit scratch t c) ++ extra)) = .ok ev ∧
      cliLine env true c.nr.toNat ev = some line ∧
      line = ['('] ++ blanks b₁ ++ Spec.Print.thousandths p ++ "ms) ".toList ++
        blanks b₂ ++ containerName ((lk.bind fun f => f t.pidNs.toNat).map fun k =>
          (k.name, k.pod, k.ns)) ++ ": [".toList ++
        blanks b₃ ++ comm.map (fun b => Char.ofNat b.toNat) ++ "] (".toList ++
        blanks b₄ ++ err ++ ") ".toList ++ name ++ ['('] ++ args ++ [')', '\n'] ∧
      BeforeNul t.comm comm ∧ ErrorText (errorOf c.ret.toInt) err ∧
      (∃ n ∈ callName c.nr.toNat, name = n.toList) ∧
      (∃ as ∈ arguments env c.nr.toNat ev.argv, args = join [',', ' '] (as.map argText)) ∧
      (c.finish.toNat < 2 ^ 53 →
        1000 * p ≤ c.finish.toNat - c.start.toNat + 500 ∧
        c.finish.toNat - c.start.toNat ≤ 1000 * p + 500) ∧
      1000 * p ≤ c.finish.toNat - c.start.toNat + 1000 ∧
      c.finish.toNat - c.start.toNat ≤ 1000 * p + 1000 := by
  obtain ⟨ev, hev, -, -, -, -, -, -, -, -, -, -, hcomm, hcont, hst, hfi⟩ :=
    Props.Event.c39_header_partial tbl lk scratch t c extra hw hc hn
  obtain ⟨ev', hev', -, herr⟩ :=
    Props.Event.c68_result_partial tbl lk scratch t c extra hw hc hn hg
  have : ev' = ev := Res.ok.inj (hev'.symm.trans hev)
  subst this
  obtain ⟨h1, h2⟩ := (Props.Print.c89_every_decoded_call_prints env ev'.argv).1 hn
  obtain ⟨name, hname⟩ := Option.isSome_iff_exists.1 h1
  obtain ⟨as, has⟩ := Option.isSome_iff_exists.1 h2
  obtain ⟨p, b₁, hlat, hp⟩ := latency_column hs hf
  refine ⟨ev', _, ev'.comm, errnoText ev'.error, name.toList, join [',', ' '] (as.map argText), p,
    b₁, 35 - (fqdn ev'.container).length, 9 - runes ev'.comm, 11 - (errnoText ev'.error).length,
    hev, by unfold cliLine; rw [hname, has], ?_, hcomm, ?_, ⟨name, hname, rfl⟩, ⟨as, has, rfl⟩, hp⟩
  · rw [hst (by omega), hfi (by omega), hlat, fqdn_eq, hcont]
    simp [padLeft, argsText, blanks, chars]
    exact fun _ _ => rfl
  · rw [herr hr.1 hr.2]
    exact errorText_ok _

/-- The line of `swoll trace --no-containers`: the command and the number of the thread instead of
the container and the command.

Partial: as above; and the number is not that of the process (`c92_pid_violated`). -/
theorem c92_host_line_partial (env : Env) (tbl : Syscalls.Syscalls)
    (lk : Option (Int → Option Topology.Container)) (scratch : KEvent) (t : Task) (c : Call)
    (extra : List Byte) (hw : scratch.WF) (hc : t.comm.length = 16) (hn : c.nr.toNat ∈ decodable)
    (hg : c.nr.toNat ≠ nr.sys_getcwd) (hr : -4095 ≤ c.ret.toInt ∧ c.ret.toInt < 2 ^ 31)
    (hs : c.start.toNat ≤ c.finish.toNat) (hf : c.finish.toNat < 2 ^ 59) :
    ∃ ev line comm err name args p b₁ b₂ b₃ b₄,
      ingest tbl lk (.bytes (encode (onExit scratch t c) ++ extra)) = .ok ev ∧
      cliLine env false c.nr.toNat ev = some line ∧
      line = ['('] ++ blanks b₁ ++ Spec.Print.thousandths p ++ "ms) [".toList ++
        blanks b₂ ++ comm.map (fun b => Char.ofNat b.toNat) ++ ['/'] ++
        decimal t.pid.toNat ++ blanks b₃ ++ "] (".toList ++
        blanks b₄ ++ err ++ ") ".toList ++ name ++ ['('] ++ args ++ [')', '\n'] ∧
      BeforeNul t.comm comm ∧ ErrorText (errorOf c.ret.toInt) err ∧
      (∃ n ∈ callName c.nr.toNat, name = n.toList) ∧
      (∃ as ∈ arguments env c.nr.toNat ev.argv, args = join [',', ' '] (as.map argText)) ∧
      (c.finish.toNat < 2 ^ 53 →
        1000 * p ≤ c.finish.toNat - c.start.toNat + 500 ∧
        c.finish.toNat - c.start.toNat ≤ 1000 * p + 500) ∧
      1000 * p ≤ c.finish.toNat - c.start.toNat + 1000 ∧
      c.finish.toNat - c.start.toNat ≤ 1000 * p + 1000 := by
  obtain ⟨ev, hev, -, hpid, -, -, -, -, -, -, -, -, hcomm, -, hst, hfi⟩ :=
    Props.Event.c39_header_partial tbl lk scratch t c extra hw hc hn
  obtain ⟨ev', hev', -, herr⟩ :=
    Props.Event.c68_result_partial tbl lk scratch t c extra hw hc hn hg
  have : ev' = ev := Res.ok.inj (hev'.symm.trans hev)
  subst this
  obtain ⟨h1, h2⟩ := (Props.Print.c89_every_decoded_call_prints env ev'.argv).1 hn
  obtain ⟨name, hname⟩ := Option.isSome_iff_exists.1 h1
  obtain ⟨as, has⟩ := Option.isSome_iff_exists.1 h2
  obtain ⟨p, b₁, hlat, hp⟩ := latency_column hs hf
  refine ⟨ev', _, ev'.comm, errnoText ev'.error, name.toList, join [',', ' '] (as.map argText), p,
    b₁, 15 - runes ev'.comm, 8 - (itoa ev'.pid).length, 11 - (errnoText ev'.error).length,
    hev, by unfold cliLine; rw [hname, has], ?_, hcomm, ?_, ⟨name, hname, rfl⟩, ⟨as, has, rfl⟩, hp⟩
  · rw [hst (by omega), hfi (by omega), hlat, hpid, itoa_eq]
    simp [padLeft, padRight, argsText, blanks, chars]
    exact fun _ _ => rfl
  · rw [herr hr.1 hr.2]
    exact errorText_ok _

/-- The line of `swoll client create --oneshot`, for an event that its server decoded. -/
theorem c92_oneshot_line_partial (env : Env) (tbl : Syscalls.Syscalls)
    (lk : Option (Int → Option Topology.Container)) (scratch : KEvent) (t : Task) (c : Call)
    (extra : List Byte) (hw : scratch.WF) (hc : t.comm.length = 16) (hn : c.nr.toNat ∈ decodable)
    (hg : c.nr.toNat ≠ nr.sys_getcwd) (hr : -4095 ≤ c.ret.toInt ∧ c.ret.toInt < 2 ^ 31) :
    ∃ ev line comm err name args b₂ b₃ b₄,
      ingest tbl lk (.bytes (encode (onExit scratch t c) ++ extra)) = .ok ev ∧
      oneshotLine env c.nr.toNat ev = some line ∧
      line = blanks b₂ ++ containerName ((lk.bind fun f => f t.pidNs.toNat).map fun k =>
          (k.name, k.pod, k.ns)) ++ ": [".toList ++
        blanks b₃ ++ comm.map (fun b => Char.ofNat b.toNat) ++ "] (".toList ++
        blanks b₄ ++ err ++ ") ".toList ++ name ++ ['('] ++ args ++ [')', '\n'] ∧
      BeforeNul t.comm comm ∧ ErrorText (errorOf c.ret.toInt) err ∧
      (∃ n ∈ callName c.nr.toNat, name = n.toList) ∧
      ∃ as ∈ arguments env c.nr.toNat ev.argv, args = join [',', ' '] (as.map argText) := by
  obtain ⟨ev, hev, -, -, -, -, -, -, -, -, -, -, hcomm, hcont, -⟩ :=
    Props.Event.c39_header_partial tbl lk scratch t c extra hw hc hn
  obtain ⟨ev', hev', -, herr⟩ :=
    Props.Event.c68_result_partial tbl lk scratch t c extra hw hc hn hg
  have : ev' = ev := Res.ok.inj (hev'.symm.trans hev)
  subst this
  obtain ⟨h1, h2⟩ := (Props.Print.c89_every_decoded_call_prints env ev'.argv).1 hn
  obtain ⟨name, hname⟩ := Option.isSome_iff_exists.1 h1
  obtain ⟨as, has⟩ := Option.isSome_iff_exists.1 h2
  refine ⟨ev', _, ev'.comm, errnoText ev'.error, name.toList, join [',', ' '] (as.map argText),
    35 - (fqdn ev'.container).length, 11 - runes ev'.comm, 11 - (errnoText ev'.error).length,
    hev, by unfold oneshotLine; rw [hname, has], ?_, hcomm, ?_, ⟨name, hname, rfl⟩, ⟨as, has, rfl⟩⟩
  · rw [fqdn_eq, hcont]
    simp [padLeft, argsText, blanks, chars]
    exact fun _ _ => rfl
  · rw [herr hr.1 hr.2]
    exact errorText_ok _

/-- The hypotheses are met. -/
example : (sampleCall nr.sys_kill).nr.toNat ∈ decodable ∧ sampleTask.comm.length = 16 ∧
    (sampleCall nr.sys_kill).start.toNat ≤ (sampleCall nr.sys_kill).finish.toNat ∧
    printed ⟨[], []⟩ (unlinkCall secondPath 9000) = some (("( 0.002ms) [             sh/101     ] " ++
      "(         OK) unlink((const char *)pathname=/etc/shadow)\n").toList) := by decide +kernel

/-- After 104 days of uptime a call of 499 nanoseconds can be printed as one of a microsecond, to
which it is not the nearest. -/
theorem c92_latency_violated : ∃ start finish : Nat, start < finish ∧ finish < 2 ^ 54 ∧
    finish - start = 499 ∧ latencyText start finish = " 0.001".toList :=
  ⟨2 ^ 53 + 1, 2 ^ 53 + 500, by decide, by decide, by decide, by decide +kernel⟩

/-- The number printed beside the command is not the process's, for any thread but the first:
thread 101 of process 100 is printed as `sh/101`. -/
theorem c92_pid_violated (tbl : Syscalls.Syscalls) : sampleTask.tgid = 100 ∧
    ∃ pre post, printed tbl (unlinkCall [120] 7000) = some (pre ++ "sh/101  ".toList ++ post) := by
  refine ⟨rfl, ?_⟩
  have hwf := wf_onExit sampleScratch sampleTask (unlinkCall [120] 7000) sampleScratch_wf rfl
  have := ingest_ok (κ := Topology.Container) tbl none _ hwf [] [("pathname", .cstr 0)]
    (by rw [onExit_syscall]; show decoders.lookup 87 = _; decide +kernel)
  rw [List.append_nil] at this
  unfold printed
  rw [this]
  refine ⟨"( 0.002ms) [             ".toList,
    "   ] (         OK) unlink((const char *)pathname=x)\n".toList, ?_⟩
  show cliLine sampleEnv false 87 (eventOf ⟨[], []⟩ none
    (onExit sampleScratch sampleTask (unlinkCall [120] 7000))
    [("pathname", evalRd (onExit sampleScratch sampleTask (unlinkCall [120] 7000)).args
      (.cstr 0))]) = _
  decide +kernel

/-! ### C93: names of system calls -/

open Swoll.Syscalls in
/-- A system call that swoll finds, by name or by number, has Linux's name for its number. -/
theorem c93_names_are_linux (order : List (String × String × String)) (h : order.Perm gClassMap)
    (s : Syscalls) (hs : new order = some s) (k : Key) (sc : Syscall) (hl : lookup s k = some sc) :
    ∃ n, sc.name = "sys_" ++ n ∧ (sc.nr, n) ∈ Spec.Linux.syscalls := by
  obtain ⟨h1, -⟩ := Props.Syscalls.c43_lookup_sound order h s hs k sc hl
  obtain ⟨x, hx, hx1, hx2⟩ := linux_of_map h1.1
  exact ⟨x.2, hx2, (show x.1 = sc.nr from hx1) ▸ hx⟩

open Swoll.Syscalls in
/-- Every system call of Linux but those in `unknownCalls` is found by its name and by its number.

Partial: 68 of 373 are not found (`c93_unknown_calls_violated`). -/
theorem c93_all_known_partial (order : List (String × String × String)) (h : order.Perm gClassMap)
    (s : Syscalls) (hs : new order = some s) :
    ∀ x ∈ Spec.Linux.syscalls, x.1 ∉ unknownCalls → ∃ sc, sc.nr = x.1 ∧
      lookup s (.str x.2) = some sc ∧ lookup s (.str ("sys_" ++ x.2)) = some sc ∧
      lookup s (.int x.1) = some sc ∧ lookup s (.u32 (BitVec.ofNat 32 x.1)) = some sc := by
  intro x hx hu
  obtain ⟨k1, e, he, k3⟩ := known_class hx hu
  have k2 := linux_unprefixed x hx
  obtain ⟨h1, h2, h3⟩ := Props.Syscalls.c43_lookup_complete order h s hs _ x.1 e.1 e.2.1
    ⟨k1, by rw [← k3]; exact he⟩
  exact ⟨_, rfl, by rw [Props.Syscalls.c43_prefix_optional s _ k2]; exact h3, h3, h1, h2⟩

open Swoll.Syscalls in
/-- The system calls of `unknownCalls`, `openat2` and `clone3` among them, are found neither by
name nor by number. -/
theorem c93_unknown_calls_violated (order : List (String × String × String))
    (h : order.Perm gClassMap) (s : Syscalls) (hs : new order = some s) :
    ∀ x ∈ Spec.Linux.syscalls, x.1 ∈ unknownCalls →
      lookup s (.str x.2) = none ∧ lookup s (.int x.1) = none := by
  intro x hx hu
  constructor
  · cases hl : lookup s (.str x.2) with
    | none => rfl
    | some sc =>
      exfalso
      obtain ⟨⟨h1, h2⟩, h3⟩ := Props.Syscalls.c43_lookup_sound order h s hs _ sc hl
      obtain ⟨y, hy, hy1, hy2⟩ := linux_of_map h1
      dsimp only at hy1 hy2
      have hp := Lemmas.Syscalls.names_prefixed _ h1
      dsimp only at hp
      rcases h3 with h3 | h3
      · rw [h3, linux_unprefixed x hx] at hp
        cases hp
      · have he : y.2 = x.2 := by
          rw [hy2] at h3
          have := congrArg String.toList h3
          rw [String.toList_append, String.toList_append] at this
          exact String.toList_inj.1 (List.append_cancel_left this)
        have := Lemmas.Syscalls.inj_of_nodup_map linux_names_nodup hy hx he
        refine class_known h2 h1 ?_
        rw [← hy1, this]
        exact hu
  · cases hl : lookup s (.int x.1) with
    | none => rfl
    | some sc =>
      obtain ⟨⟨h1, h2⟩, h3⟩ := Props.Syscalls.c43_lookup_sound order h s hs _ sc hl
      have h3 : sc.nr = x.1 := Int.ofNat.inj h3
      exact absurd (h3 ▸ hu) (class_known h2 h1)

example : (437, "openat2") ∈ Spec.Linux.syscalls ∧ 437 ∈ unknownCalls ∧
    (257, "openat") ∈ Spec.Linux.syscalls ∧ 257 ∉ unknownCalls := by decide +kernel

end Swoll.Props.PrintLine
