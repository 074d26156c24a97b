import Verif.Lemmas.DaemonCover
import Verif.Lemmas.DaemonMetrics
import Verif.Lemmas.DaemonAlive
/-
C75, C76, C77, C78: the daemon as a whole.  Histories are arbitrary interleavings of kernel
activity, jobs, the observer, users and the daemon's goroutines.
-/
namespace Swoll.Props.Daemon
open Swoll Swoll.Daemon Swoll.Spec.Daemon Swoll.Lemmas.Daemon
open Swoll.Event (Task Mem KEvent TraceEvent pack)
open Swoll.Hash (crcString)
open Swoll.Spec.Hub (TableOK)

variable {tbl : Syscalls.Syscalls} {crc : String → BitVec 64} {srt : List PubSub.Env → List PubSub.Env}

/-! ### C76: deliveries are true, in order and addressed -/

/-- C76 (partial): every event handed to a user reports one particular call that some thread made and that
somebody had asked for, with the container that lived in the caller's namespace when it was
decoded; events are handed out in the order in which the calls ended, and none comes twice.  Missing: the
arguments in `Spec.Event.mismatches` (C36), the result of `getcwd` and results of 31 bits and more (C68). -/
theorem c76_true_partial {hist : List Op} {d : Daemon} (h : run tbl crc srt (fresh tbl) hist = some d)
    (hs : ∀ o ∈ hist, SaneOp o) :
    ∃ call seen : Nat → Nat,
      (∀ k tok ev, Delivered tbl crc srt hist k tok ev →
        call k < seen k ∧ seen k < k ∧ hist[seen k]? = some .ingest ∧ TrueOf tbl hist (call k) ev ∧
        ∃ c, containerOf (hist.take (seen k)) ev.pidNs = some c ∧ ev.container = some c.copy) ∧
      (∀ k tok ev k' tok' ev', Delivered tbl crc srt hist k tok ev → Delivered tbl crc srt hist k' tok' ev' →
        (k < k' → call k < call k') ∧ (k = k' → ev = ev')) := by
  obtain ⟨src, ing, is, lo, ho⟩ := origins_run hist h
  refine ⟨src, ing, ?_, ?_⟩
  · intro k tok ev hd
    obtain ⟨h1, ⟨h2, h3, bs, h4, h5⟩, -⟩ := ho.gone k ev (delivered_routes hd)
    obtain ⟨t1, t2⟩ := true_of hs h4 h5
    refine ⟨h2, h1, h3, t1, ?_⟩
    obtain ⟨o, d1, d2, c, sc, hub, outs, -, -, -, -, hc, -⟩ := delivered_elim hd
    rw [hc] at t2
    have t2 := t2.symm
    rw [Option.map_eq_some_iff] at t2
    obtain ⟨c', e1, e2⟩ := t2
    exact ⟨c', e1, by rw [hc, e2]⟩
  · intro k tok ev k' tok' ev' hd hd'
    refine ⟨fun hlt => ho.order k ev k' ev' (delivered_routes hd) (delivered_routes hd') hlt, ?_⟩
    rintro rfl
    obtain ⟨o, d1, -, h2, h3⟩ := delivered_routes hd
    obtain ⟨o', d1', -, h2', h3'⟩ := delivered_routes hd'
    rw [h2] at h2'
    injection h2' with e
    subst e
    rw [h3] at h3'
    injection h3'

/-- C76: only users whom the event concerns are handed it, and only if some registered job wants
the call. -/
theorem c76_recipients (hsrt : PubSub.Node.IsSort srt) {hist : List Op} (hd : DetachOnce hist)
    (hs : ∀ o ∈ hist, SaneOp o) {k tok : Nat} {ev : TraceEvent Topology.Container}
    (h : Delivered tbl crcString srt hist k tok ev) :
    ∃ c sc, ev.container = some c ∧ ev.syscall = some sc ∧ wanting (hist.take k) ev.pidNs sc.nr ≠ [] ∧
      ∃ u ∈ users (hist.take k), u.token = tok ∧
        (KeepsApart crcString (hist.take k) c sc → Concerns (hist.take k) ev c sc u.target) := by
  obtain ⟨o, d, d', c, sc, hub, outs, h1, h2, -, -, hc, hsc, he, x, hx, hxt⟩ := delivered_elim h
  have hv : ∀ i, (o i).Valid := hs (.route o) (List.mem_of_getElem? h1)
  obtain ⟨hw, u, hu, hut, hcon⟩ := user_concerned hsrt (detachOnce_take hd k) h2 hv he hx
  exact ⟨c, sc, hc, hsc, hw, u, hu, by rw [hut, hxt], hcon⟩

/-- C76: tokens tell users apart. -/
theorem c76_tokens (hist : List Op) : ((users hist).map (·.token)).Nodup :=
  users_inv hist 0 [] (by simp) (by simp)

/-- C76: when anybody is handed an event, everybody whom it concerns is: a user of a path exactly
once, a user of an unsampled job once for each registration of the job. -/
theorem c76_everyone (hsrt : PubSub.Node.IsSort srt) {hist : List Op} (hd : DetachOnce hist)
    (hs : ∀ o ∈ hist, SaneOp o) {k tok : Nat} {ev : TraceEvent Topology.Container}
    (h : Delivered tbl crcString srt hist k tok ev) {c : Topology.Container} {sc : Syscalls.Syscall}
    (hc : ev.container = some c) (hsc : ev.syscall = some sc) (ha : KeepsApart crcString (hist.take k) c sc)
    {u : User} (hu : u ∈ users (hist.take k)) :
    (∀ ps, u.target = .path ps → Handed tbl crcString srt hist k u.token ev
      (if Spec.Hash.meant ps <+: Spec.Hash.meant (names c sc) then 1 else 0)) ∧
    (∀ id, u.target = .job id → id ≠ "" →
      (∀ r ∈ wanting (hist.take k) ev.pidNs sc.nr, r.job.id = id → r.job.rate ≤ 0) →
      Handed tbl crcString srt hist k u.token ev
        ((wanting (hist.take k) ev.pidNs sc.nr).filter (fun r => r.job.id = id)).length) := by
  obtain ⟨o, d, d', c', sc', hub, outs, h1, h2, h3, -, hc', hsc', he, x, hx, hxt⟩ := delivered_elim h
  rw [hc] at hc'; injection hc' with hc'; subst hc'
  rw [hsc] at hsc'; injection hsc' with hsc'; subst hsc'
  have hv : ∀ i, (o i).Valid := hs (.route o) (List.mem_of_getElem? h1)
  obtain ⟨hw, -⟩ := user_concerned hsrt (detachOnce_take hd k) h2 hv he hx
  have key := count_user hsrt (detachOnce_take hd k) h2 hv he hw ha hu
  constructor
  · intro ps ht
    rw [ht] at key
    exact ⟨_, d, d', _, h1, h2, h3, key⟩
  · intro id ht hid hrate
    rw [ht] at key
    exact ⟨_, d, d', _, h1, h2, h3, key hid hrate⟩

/-! ### C77: nothing is missed -/

/-- C77 (partial): take any history of the daemon after which its queues are empty.  Every call
that a thread made and completed while a job covered it, of a syscall that can be decoded, is served.
Missing: calls of syscalls that cannot be decoded (C38, C78), sampled jobs (C14), calls lost because
the kernel had no room. -/
theorem c77_complete_partial (hT : TableOK tbl) (hsrt : PubSub.Node.IsSort srt) {hist : List Op} {d : Daemon}
    (h : run tbl crcString srt (fresh tbl) hist = some d) (hidle : d.ring = [] ∧ d.msg = none)
    (hd : DetachOnce hist) (hs : ∀ o ∈ hist, SaneOp o) (hp : ∀ o ∈ hist, SanePairs o)
    {e : Nat} {before : List Op} {t0 t : Task} {c : Event.Call} {scratch : KEvent}
    (hm : Made hist e before t0 t c scratch)
    (hone : ∀ o ∈ (hist.take e).drop (before.length + 1), ¬ BeginsCallOf t.tgid t.pid o)
    (hns : t0.pidNs = t.pidNs) (hne : c.nr ≠ 59) (hdec : c.nr.toNat ∈ Spec.Event.decodable)
    {sc : Syscalls.Syscall} (hl : Syscalls.lookup tbl (.int c.nr.toNat) = some sc)
    {j : Hub.Job} (hc : Covers tbl before j t.pidNs.toNat c.nr.toNat)
    (hdel : ∀ o ∈ hist.drop before.length, o ≠ .delete j.id) :
    Served tbl crcString srt hist e t.pidNs.toNat c.nr.toNat sc j (Reports tbl t c) := by
  obtain ⟨id, m0, args, between, m1, h1, h2, h3, h4, h5, h6, h7, h8, h9⟩ := hm
  have hlt := (List.getElem?_eq_some_iff.1 h2).1
  have hsplit : hist = hist.take (e + 1) ++ hist.drop (e + 1) := (List.take_append_drop _ _).symm
  have hsane := sane_at hs h2
  have htake : hist.take (e + 1) = hist.take e ++ [.exit t id c.ret m1 c.finish c.mem (some scratch) false] := by
    rw [List.take_add_one, h2]; rfl
  have hrun := h
  rw [hsplit] at hrun
  obtain ⟨d1, r1, -⟩ := run_split hrun
  have r1' := r1
  rw [htake] at r1'
  obtain ⟨d2, out, r2, s2⟩ := run_snoc r1'
  rw [h1] at r2
  obtain ⟨da, ra, rb⟩ := run_split r2
  obtain ⟨db, outb, sb, rc⟩ := run_cons_some rb
  -- the call is recorded
  have hscnr : (sc.nr : Int) = c.nr.toNat := hT.2 _ sc hl
  have hnr : BitVec.ofNat 32 sc.nr = c.nr := by
    apply BitVec.eq_of_toNat_eq
    rw [BitVec.toNat_ofNat]
    have := c.nr.isLt
    have : sc.nr = c.nr.toNat := by omega
    rw [this]; exact Nat.mod_eq_of_lt c.nr.isLt
  have hpb : ∀ o ∈ before, SanePairs o := fun o ho => hp o (List.mem_of_mem_take (i := e) (by rw [h1]; simp [ho]))
  have hpass := covered_passes hT ra hpb hc hl (ctxOf t0 id m0 c.start).proc
    (some ((ctxOf t0 id m0 c.start).ns, (ctxOf t0 id m0 c.start).proc, (ctxOf t0 id m0 c.start).nr))
  have hnsi : BitVec.ofInt 32 (t.pidNs.toNat : Int) = t0.pidNs := by
    rw [hns]; simp
  rw [hnsi, hnr] at hpass
  have hcnr : (ctxOf t0 id m0 c.start).nr = c.nr := by rw [h6]; rfl
  have hrec : db.state = GoMap.set da.state (pack t0.tgid t0.pid) ⟨id, args, pack t0.gid t0.uid, c.start⟩ := by
    simp only [step, Option.some.injEq, Prod.mk.injEq] at sb
    obtain ⟨rfl, -⟩ := sb
    refine enter_records (tbl := tbl) (s := da.probe) (c := ctxOf t0 id m0 c.start) args ?_ ?_
    · rw [hcnr]; exact hne
    · rw [hcnr]
      rw [hcnr] at hpass
      exact hpass
  have hkeep : GoMap.get d2.state (pack t.tgid t.pid) = some ⟨id, args, pack t0.gid t0.uid, c.start⟩ := by
    refine record_keeps between rc ?_ ?_
    · intro o ho
      refine ⟨h5 o ho, hone o ?_⟩
      rw [h1, List.drop_append]
      simp [ho]
    · rw [hrec, h3, h4, GoMap.get_set_same]
  have hring := exit_writes hkeep rfl s2
  have hcall : (⟨id.setWidth 32, fun i => args.getD i 0, (pack t0.gid t0.uid).setWidth 32,
      ((pack t0.gid t0.uid) >>> 32).setWidth 32, c.start, c.ret, c.mem, c.finish⟩ : Event.Call) = c := by
    rw [unpack_lo, unpack_hi, ← h6, ← h7, ← h8, ← h9]
  dsimp only at hring
  rw [hcall] at hring
  rw [hsplit] at h hd hs ⊢
  refine way_of hsrt hT r1 h hidle hd hs hring hl (Reports tbl t c) ?_ ?_ ?_ ?_
  · intro lk
    obtain ⟨ev, hev⟩ := Props.Event.c38_decodable_ok tbl (some lk) scratch t c (hsane.2 _ rfl) hsane.1 hdec []
    rw [List.append_nil] at hev
    obtain ⟨q1, q2, -⟩ := reports_exit (hsane.2 _ rfl) hsane.1 hev
    exact ⟨ev, hev, q1, q1.spaces.1, by rw [q1.syscall, hl], q2⟩
  · rw [htake, h1, List.append_assoc]
    refine covers_registered hc _ ?_
    intro o ho
    apply hdel
    rw [hsplit, htake, h1, List.append_assoc, List.append_assoc, List.drop_left]
    simp only [List.cons_append, List.mem_cons, List.mem_append] at ho ⊢
    rcases ho with ho | ho | ho
    · exact Or.inl ho
    · exact Or.inr (Or.inl ho)
    · rcases ho with ho | ho
      · exact Or.inr (Or.inr (Or.inl ho))
      · cases ho
  · intro o ho
    apply hdel
    rw [hsplit, htake, h1, List.append_assoc, List.append_assoc, List.drop_left]
    simp [ho]
  · rw [htake]
    simp only [List.length_append, List.length_singleton, List.length_take]
    omega

/-- C77 (partial): the same for an execve, reported when it begins. -/
theorem c77_execve_partial (hT : TableOK tbl) (hsrt : PubSub.Node.IsSort srt) {hist : List Op} {d : Daemon}
    (h : run tbl crcString srt (fresh tbl) hist = some d) (hidle : d.ring = [] ∧ d.msg = none)
    (hd : DetachOnce hist) (hs : ∀ o ∈ hist, SaneOp o) (hp : ∀ o ∈ hist, SanePairs o)
    {e : Nat} {t : Task} {time : BitVec 64} {mem : Mem} {filename argv : BitVec 64} {scratch : KEvent}
    (hm : hist[e]? = some (.execve t time mem filename argv (some scratch) false))
    {sc : Syscalls.Syscall} (hl : Syscalls.lookup tbl (.int 59) = some sc)
    {j : Hub.Job} (hc : Covers tbl (hist.take e) j t.pidNs.toNat 59)
    (hdel : ∀ o ∈ hist.drop e, o ≠ .delete j.id) :
    Served tbl crcString srt hist e t.pidNs.toNat 59 sc j (ReportsExec tbl t time mem filename) := by
  have hlt := (List.getElem?_eq_some_iff.1 hm).1
  have hsplit : hist = hist.take (e + 1) ++ hist.drop (e + 1) := (List.take_append_drop _ _).symm
  have hsane := sane_at hs hm
  have htake : hist.take (e + 1) = hist.take e ++ [.execve t time mem filename argv (some scratch) false] := by
    rw [List.take_add_one, hm]; rfl
  have hdrop : hist.drop e = .execve t time mem filename argv (some scratch) false :: hist.drop (e + 1) := by
    rw [List.drop_eq_getElem_cons hlt]
    rw [List.getElem?_eq_getElem hlt] at hm
    injection hm with hm
    rw [hm]
  have hrun := h
  rw [hsplit] at hrun
  obtain ⟨d1, r1, -⟩ := run_split hrun
  have r1' := r1
  rw [htake] at r1'
  obtain ⟨d2, out, r2, s2⟩ := run_snoc r1'
  have hscnr : (sc.nr : Int) = 59 := hT.2 _ sc hl
  have hnr : BitVec.ofNat 32 sc.nr = 59#32 := by
    have : sc.nr = 59 := by omega
    rw [this]
  have hpb : ∀ o ∈ hist.take e, SanePairs o := fun o ho => hp o (List.mem_of_mem_take ho)
  have hpass := covered_passes hT r2 hpb hc hl (ctxOf t 59 0 time).proc none
  have hnsi : BitVec.ofInt 32 (t.pidNs.toNat : Int) = t.pidNs := by simp
  rw [hnsi, hnr] at hpass
  have hring : d1.ring = d2.ring ++ [Event.encode (Event.onExecve scratch t mem filename argv time)] :=
    execve_writes hpass s2
  rw [hsplit] at h hd hs ⊢
  refine way_of (nr := 59) hsrt hT r1 h hidle hd hs hring hl (ReportsExec tbl t time mem filename) ?_ ?_ ?_ ?_
  · intro lk
    obtain ⟨ev, hev⟩ := execve_ok tbl lk (hsane.2 _ rfl) hsane.1 (mem := mem) (filename := filename) (argv := argv) (time := time)
    obtain ⟨q1, q2⟩ := reports_execve (hsane.2 _ rfl) hsane.1 hev
    exact ⟨ev, hev, q1, q1.spaces.1, by rw [q1.syscall, hl], q2⟩
  · rw [htake]
    refine covers_registered hc _ ?_
    intro o ho
    rw [List.mem_singleton] at ho
    subst ho
    intro e; cases e
  · intro o ho
    apply hdel
    rw [hdrop]
    simp [ho]
  · rw [htake]
    simp only [List.length_append, List.length_singleton, List.length_take]
    omega

/-- C77: the queues do empty: if the event callback runs, each sample is decoded and routed, unless
the process ends. -/
theorem c77_drains (o : Nat → PubSub.Oracle) {d d' : Daemon}
    (h : run tbl crc srt d (.route o :: (List.replicate d.ring.length [Op.ingest, .route o]).flatten) = some d') :
    d'.ring = [] ∧ d'.msg = none := by
  obtain ⟨d1, out, s1, r1⟩ := run_cons_some h
  have hs1 : d1.ring = d.ring ∧ d1.msg = none := by
    rcases route_elim s1 with ⟨-, rfl, -⟩ | ⟨ev, c, sc, hub, outs, -, -, -, -, rfl, -⟩ <;> exact ⟨rfl, rfl⟩
  have key : ∀ (n : Nat) {x y : Daemon}, x.ring.length = n → x.msg = none →
      run tbl crc srt x (List.replicate n [Op.ingest, .route o]).flatten = some y → y.ring = [] ∧ y.msg = none := by
    intro n
    induction n with
    | zero =>
      intro x y hn hm hr
      simp only [List.replicate_zero, List.flatten_nil, run, Option.some.injEq] at hr
      subst hr
      exact ⟨List.length_eq_zero_iff.1 hn, hm⟩
    | succ n ih =>
      intro x y hn hm hr
      rw [List.replicate_succ, List.flatten_cons] at hr
      obtain ⟨x1, o1, e1, hr⟩ := run_cons_some hr
      obtain ⟨x2, o2, e2, hr⟩ := run_cons_some hr
      have h1 : x1.ring.length = n := by
        rcases (ingest_elim e1).2 with ⟨-, e | e⟩ | ⟨bs, rest, -, g, ⟨-, rfl⟩ | ⟨ev, -, rfl⟩⟩
        · exact absurd hm e
        · rw [e] at hn; simp at hn
        · rw [g] at hn; simpa using hn
        · rw [g] at hn; simpa using hn
      have h2 : x2.ring.length = n ∧ x2.msg = none := by
        rcases route_elim e2 with ⟨-, rfl, -⟩ | ⟨ev, c, sc, hub, outs, -, -, -, -, rfl, -⟩ <;> exact ⟨h1, rfl⟩
      exact ih h2.1 h2.2 hr
  exact key _ (by rw [hs1.1]) hs1.2 r1

/-! ### C78: staying alive -/

/-- C78 (partial): the daemon survives every history in which only decodable syscalls are asked for,
no two jobs that want the same call have the same sampling rate, and no subscription is ended twice.
Missing: those three exceptions, each of which ends the process (`c78_violated`, C15, C05). -/
theorem c78_survives_partial (hsrt : PubSub.Node.IsSort srt) (hT : TableOK tbl) (hist : List Op)
    (hs : ∀ o ∈ hist, SaneOp o) (hp : ∀ o ∈ hist, Placed o)
    (hdec : ∀ ns nr, Requested tbl hist ns nr → nr.toNat ∈ Spec.Event.decodable) (hrate : RatesApart hist)
    (hd : DetachOnce hist) : run tbl crc srt (fresh tbl) hist ≠ none := by
  obtain ⟨d, h⟩ := run_alive (crc := crc) hsrt hT hist hd hs hp hdec hrate
  rw [h]; exact fun e => by cases e

/-! ### C75: metrics follow the containers -/

/-- C75 (partial): from the moment the callback has announced a container to the kernel, every
completed call in its namespace is counted, once, under its number and error, until the container
stops. -/
theorem c75_counted_partial {pre post : List Op} {d d' : Daemon} (h : run tbl crc srt (fresh tbl) pre = some d)
    (hq : d.todo = []) (hg : ∀ o ∈ pre, Granted o) {ns : BitVec 32} (hst : ∃ o ∈ pre, Started ns o)
    (h' : run tbl crc srt d post = some d') (hstop : ∀ o ∈ post, ¬ Stopped ns o)
    {nr : BitVec 32} (hnr : nr ≠ 0xFFFFFFFF#32) {e : Nat} (he : e < 255) :
    count d' ns nr e = count d ns nr e + BitVec.ofNat 64 (post.countP (completes ns nr e)) := by
  obtain ⟨-, -, a, ra, ea, -, ga⟩ := met_run pre h
  obtain ⟨R, hi⟩ := hub_inv h
  obtain ⟨o, ho, hs⟩ := hst
  have hmet : a.met ns = true := by
    rcases ga hg o ho ns hs with hm | ⟨n, hn, -⟩
    · exact hm
    · rw [hq] at hn; cases hn
  exact count_run post hi ra ea hmet (fun n hn => by rw [hq] at hn; cases hn) hstop h' hnr he

/-- C75: only what ran in a namespace that was announced is counted (31337 is the hub's own
placeholder). -/
theorem c75_only_announced {hist : List Op} {d : Daemon} (h : run tbl crc srt (fresh tbl) hist = some d)
    {k : Probe.MKey} (hk : GoMap.get d.metrics k ≠ none) :
    (k.pidNs = 31337 ∨ ∃ o ∈ hist, Started k.pidNs o) ∧ ∃ o ∈ hist, RunsIn k.pidNs o :=
  (entries_run hist h).2 k hk

/-- C75 (partial): when a container has stopped, nothing runs in its namespace any more and the
callback is done, none of its metrics remain.  Missing: calls that end after the stop was noticed are
counted nevertheless (`c75_stop_violated`). -/
theorem c75_pruned_partial {pre post : List Op} {c : Topology.Container} {d : Daemon}
    (h : run tbl crc srt (fresh tbl) (pre ++ .topo (some ⟨1, some c⟩) :: post) = some d) (hq : d.todo = [])
    (hc : 0 < c.pidns) (hrun : ∀ o ∈ post, ¬ RunsIn (BitVec.ofInt 32 c.pidns) o)
    (hz : ∀ o ∈ pre ++ post, ¬ RunsIn 0 o) {k : Probe.MKey} (hk : k.pidNs = BitVec.ofInt 32 c.pidns) :
    GoMap.get d.metrics k = none := by
  obtain ⟨d1, h1, h2⟩ := run_split h
  obtain ⟨d2, out, s2, h3⟩ := run_cons_some h2
  have h2' : run tbl crc srt (fresh tbl) (pre ++ [.topo (some ⟨1, some c⟩)]) = some d2 := by
    rw [Lemmas.Daemon.run_append, h1]; simp only [Option.bind_some, run, s2]
  obtain ⟨-, -, a, ra, -, -, -⟩ := met_run _ h2'
  obtain ⟨R, hi⟩ := hub_inv h2'
  obtain ⟨n2, k2⟩ := entries_run _ h2'
  refine pruned_run post hi ra h3 (fun o ho => ⟨hrun o ho, hz o (by simp [ho])⟩) n2 ?_ ?_ hq k hk
  · intro k hk e
    obtain ⟨-, o, ho, hr⟩ := k2 k hk
    rw [e] at hr
    rw [List.mem_append, List.mem_singleton] at ho
    rcases ho with ho | rfl
    · exact hz o (by simp [ho]) hr
    · exact hr
  · left
    refine ⟨c.pidns, ?_, rfl⟩
    rcases todo_step s2 with ⟨ev, e, ht⟩ | ⟨f, e, -⟩ | ⟨-, hn, -⟩
    · injection e with e
      subst e
      rw [ht]
      exact List.mem_append_right _ (newActs_stop hc)
    · cases e
    · exact absurd rfl (hn _)

/-! ### A history that meets the hypotheses -/

open Swoll.Props.Hub (demoTbl jobA demo_ok)
open Swoll.Props.Event (sampleTask sampleScratch sampleScratch_wf sampleMem)
open Swoll.Props.PubSub (isort isort_isSort)

def web : Topology.Container :=
  { id := "c1", pod := "web", sandbox := "", name := "nginx", image := "", ns := "default", labels := some [], pid := 100, pidns := 4026531836 }

/-- Iteration in the order of the map. -/
def calm : Nat → PubSub.Oracle := fun _ => ⟨fun _ m => m, fun _ _ => 0⟩

/-- A container starts, a job wants its `openat`s, three users attach and a thread calls `openat`. -/
def story : List Op :=
  [.topo (some ⟨0, some web⟩), .act {}, .push jobA 4026531836 257, .addSyscall (.int 257) 4026531836 {},
   .attachPath ["default", "web"] 7, .attachTrace "a" 9, .attachPath ["kube-system"] 11,
   .enter sampleTask 257 1 1 [1, 2, 3] false, .exit sampleTask 257 3 1 2 sampleMem (some sampleScratch) false,
   .ingest, .route calm]

theorem story_sane : ∀ o ∈ story, SaneOp o ∧ SanePairs o ∧ Placed o ∧ Granted o := by
  intro o ho
  simp only [story, List.mem_cons, List.not_mem_nil, or_false] at ho
  rcases ho with rfl | rfl | rfl | rfl | rfl | rfl | rfl | rfl | rfl | rfl | rfl
  · exact ⟨trivial, trivial, trivial, trivial⟩
  · exact ⟨trivial, trivial, trivial, rfl, rfl⟩
  · exact ⟨trivial, by simp [SanePairs, Spec.Hub.SanePair], trivial, trivial⟩
  · exact ⟨trivial, trivial, trivial, trivial⟩
  · exact ⟨trivial, trivial, trivial, trivial⟩
  · exact ⟨trivial, trivial, trivial, trivial⟩
  · exact ⟨trivial, trivial, trivial, trivial⟩
  · exact ⟨trivial, trivial, by simp [Placed, sampleTask], trivial⟩
  · exact ⟨⟨rfl, fun s e => by injection e with e; subst e; exact sampleScratch_wf⟩, trivial, trivial, trivial⟩
  · exact ⟨trivial, trivial, trivial, trivial⟩
  · exact ⟨fun _ _ _ => List.Perm.refl _, trivial, trivial, trivial⟩

/-- The users of the path and of the job are handed the event, the third user is not; the names are kept
apart; afterwards the queues are empty. -/
example : ((run demoTbl crcString isort (fresh demoTbl) (story.take 10)).bind
      (fun d => (step demoTbl crcString isort d (.route calm)).map (fun r => (r.2.map (·.1), r.1.ring, r.1.msg.isNone)))) =
    some ([0, 1], [], true) ∧
    DetachOnce story ∧ (users story).map (·.token) = [0, 1, 2] ∧
    Spec.Hash.Separates crcString (["default", "web"] ++ names web.copy ⟨257, "sys_openat", "FileSystem", "Files"⟩) ∧
    Spec.Hash.Separates crcString (["kube-system"] ++ names web.copy ⟨257, "sys_openat", "FileSystem", "Files"⟩) := by
  refine ⟨by decide +kernel, ?_, by decide, by decide +kernel, by decide +kernel⟩
  show ([] : List Nat).Nodup
  simp

/-- The call of the story is made, covered and decodable. -/
example : (∃ c, Made story 8 (story.take 7) sampleTask sampleTask c sampleScratch ∧ c.nr = 257 ∧
      c.nr.toNat ∈ Spec.Event.decodable) ∧
    Covers demoTbl (story.take 7) jobA sampleTask.pidNs.toNat 257 ∧
    (∀ o ∈ (story.take 8).drop ((story.take 7).length + 1), ¬ BeginsCallOf sampleTask.tgid sampleTask.pid o) := by
  refine ⟨⟨⟨257, fun i => [1, 2, 3].getD i 0, 1000, 1000, 1, 3, sampleMem, 2⟩,
    ⟨257, 1, [1, 2, 3], [], 1, rfl, rfl, rfl, rfl, by simp, by decide, rfl, rfl, rfl⟩, rfl, by decide +kernel⟩, ?_, ?_⟩
  · refine ⟨story.take 2, [], (story.take 7).drop 4, rfl, ?_, ?_⟩
    · intro o ho e
      subst e
      simp [story] at ho
    · intro o ho hd
      simp only [story, List.take_succ_cons, List.take_zero, List.drop_succ_cons, List.drop_zero, List.mem_cons,
        List.not_mem_nil, or_false] at ho
      rcases ho with rfl | rfl | rfl <;> exact hd
  · intro o ho
    simp [story] at ho

def execTbl : Syscalls.Syscalls :=
  ⟨[(59, ⟨59, "sys_execve", "Process", "Process"⟩)], [("sys_execve", ⟨59, "sys_execve", "Process", "Process"⟩)]⟩

/-- The same with an execve. -/
def execStory : List Op :=
  [.topo (some ⟨0, some web⟩), .push jobA 4026531836 59, .addSyscall (.int 59) 4026531836 {},
   .attachPath ["default"] 7, .execve sampleTask 1 sampleMem 64 128 (some sampleScratch) false, .ingest, .route calm]

example : TableOK execTbl ∧ Covers execTbl (execStory.take 4) jobA sampleTask.pidNs.toNat 59 ∧
    (run execTbl crcString isort (fresh execTbl) (execStory.take 6)).bind
      (fun d => (step execTbl crcString isort d (.route calm)).map (fun r => (r.2.map (·.1), r.1.ring, r.1.msg.isNone))) =
    some ([0], [], true) := by
  refine ⟨⟨?_, ?_⟩, ⟨execStory.take 1, [], (execStory.take 4).drop 3, rfl, ?_, ?_⟩, by decide +kernel⟩
  · intro k s h
    have hm : ∀ e ∈ execTbl.nr, e.2 = ⟨59, "sys_execve", "Process", "Process"⟩ := by decide
    have hm' : ∀ e ∈ execTbl.name, e.2 = ⟨59, "sys_execve", "Process", "Process"⟩ := by decide
    have hs : s = ⟨59, "sys_execve", "Process", "Process"⟩ := by
      cases k with
      | str v => exact hm' _ (GoMap.mem_of_get h)
      | u32 n => exact hm _ (GoMap.mem_of_get h)
      | int n => exact hm _ (GoMap.mem_of_get h)
      | other => cases h
    subst hs
    decide
  · intro n s h
    have hm : ∀ e ∈ execTbl.nr, (e.2.nr : Int) = e.1 := by decide
    exact hm _ (GoMap.mem_of_get h)
  · intro o ho e
    subst e
    simp [execStory] at ho
  · intro o ho hd
    simp only [execStory, List.take_succ_cons, List.take_zero, List.drop_succ_cons, List.drop_zero, List.mem_cons,
      List.not_mem_nil, or_false] at ho
    subst ho
    exact hd

/-- Only `openat`, which can be decoded, is asked for in the story. -/
example : (∀ ns nr, Requested demoTbl story ns nr → nr.toNat ∈ Spec.Event.decodable) ∧ RatesApart story := by
  constructor
  · rintro ns nr ⟨k, n, s, hreq, hl, hnr, -⟩
    have hk : k = .int 257 := by
      rcases hreq with ⟨f, hf⟩ | ⟨r, f, hf⟩
      · simp only [story, List.mem_cons, List.not_mem_nil, or_false, reduceCtorEq, false_or, Op.addSyscall.injEq] at hf
        exact hf.1
      · simp [story] at hf
    subst hk
    have : s = ⟨257, "sys_openat", "FileSystem", "Files"⟩ := by
      have e : Syscalls.lookup demoTbl (.int 257) = some ⟨257, "sys_openat", "FileSystem", "Files"⟩ := by decide
      rw [e] at hl; injection hl with hl; exact hl.symm
    subst this
    rw [← hnr]
    decide +kernel
  · intro j j' ns nr h1 h2 hr _
    simp only [story, List.mem_cons, List.not_mem_nil, or_false, reduceCtorEq, false_or, Op.push.injEq] at h1 h2
    rw [h1.1] at hr
    exact absurd hr (by decide)

/-- C78 violated: a user asks for `getpid`; the first `getpid` in the container ends the daemon. -/
theorem c78_violated :
    (run ⟨[(39, ⟨39, "sys_getpid", "", ""⟩)], [("sys_getpid", ⟨39, "sys_getpid", "", ""⟩)]⟩ crcString isort
        (fresh ⟨[(39, ⟨39, "sys_getpid", "", ""⟩)], [("sys_getpid", ⟨39, "sys_getpid", "", ""⟩)]⟩)
        [.topo (some ⟨0, some web⟩), .push jobA 4026531836 39, .addSyscall (.int 39) 4026531836 {},
         .enter sampleTask 39 1 1 [] false, .exit sampleTask 39 100 1 2 sampleMem (some sampleScratch) false]).isSome = true ∧
    (run ⟨[(39, ⟨39, "sys_getpid", "", ""⟩)], [("sys_getpid", ⟨39, "sys_getpid", "", ""⟩)]⟩ crcString isort
        (fresh ⟨[(39, ⟨39, "sys_getpid", "", ""⟩)], [("sys_getpid", ⟨39, "sys_getpid", "", ""⟩)]⟩)
        [.topo (some ⟨0, some web⟩), .push jobA 4026531836 39, .addSyscall (.int 39) 4026531836 {},
         .enter sampleTask 39 1 1 [] false, .exit sampleTask 39 100 1 2 sampleMem (some sampleScratch) false,
         .ingest]).isNone = true := by
  constructor <;> decide +kernel

/-- C75 violated: the container has stopped and the callback is done, but a call in its namespace is
still counted, and stays. -/
theorem c75_stop_violated :
    (run demoTbl crcString isort (fresh demoTbl)
      [.topo (some ⟨0, some web⟩), .act {}, .topo (some ⟨1, some web⟩), .act {}, .act {},
       .exit sampleTask 257 3 1 2 sampleMem (some sampleScratch) false]).map
      (fun d => (d.todo, containerOf [.topo (some ⟨0, some web⟩), .topo (some ⟨1, some web⟩)] 4026531836,
        count d 4026531836 257 0)) = some ([], none, 1) := by
  decide +kernel

/-- The hypotheses of C75 are met: the callback has announced the container, whose calls are then
counted. -/
example : (run demoTbl crcString isort (fresh demoTbl) (story.take 2)).map (fun d => d.todo) = some [] ∧
    Started 4026531836 (.topo (some ⟨0, some web⟩)) ∧
    (story.drop 2).countP (completes 4026531836 257 0) = 1 ∧
    (run demoTbl crcString isort (fresh demoTbl) story).map (fun d => count d 4026531836 257 0) = some 1 ∧
    (run demoTbl crcString isort (fresh demoTbl) (story ++ .topo (some ⟨1, some web⟩) :: [.act {}, .act {}])).map
      (fun d => (d.todo, count d 4026531836 257 0)) = some ([], 0) := by
  refine ⟨by decide +kernel, ⟨by decide, by decide⟩, by decide +kernel, by decide +kernel, by decide +kernel⟩

end Swoll.Props.Daemon
