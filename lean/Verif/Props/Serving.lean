import Verif.Lemmas.ServiceServe
import Verif.Props.Service
/-
C86–C88: the server survives its clients, jobs do what the request says, and for how long.
-/
namespace Swoll.Props.Serving
open Swoll Swoll.Service
open Swoll.Daemon (Daemon Delivery)
open Swoll.Hash (crcString)
open Swoll.Spec.Service
open Swoll.Spec.Hub (TableOK)
open Swoll.Spec.Daemon (Covers Disturbs Made Served Reports BeginsCallOf)
open Swoll.Lemmas.Service

variable {tbl : Syscalls.Syscalls} {crc : String → BitVec 64} {srt : List PubSub.Env → List PubSub.Env}

/-! ### C86: no client can end the server -/

/-- C86 (partial): the server survives every history of requests, containers, websockets, calls and faults, in
every interleaving, if all syscalls that requests name exist and can be decoded, and no two requests for the
same syscall have the same positive sampling rate.  Missing: those three kinds of requests, each of which lets a
client end the server (`c86_violated`, C78, C15). -/
theorem c86_survives_partial (hsrt : PubSub.Node.IsSort srt) (hT : TableOK tbl) (ops : List Op)
    (hs : ∀ o ∈ ops, Sane o) (hp : ∀ o ∈ ops, Placed o) (hd : Decodable tbl ops) (hr : RatesDiffer tbl ops) :
    run tbl crc srt (fresh tbl) ops ≠ none := by
  suffices H : ∀ (ys xs : List Op) (s : Service), ops = xs ++ ys → run tbl crc srt (fresh tbl) xs = some s →
      run tbl crc srt s ys ≠ none from H ops [] _ rfl rfl
  intro ys
  induction ys with
  | nil => intro xs s _ _ h; cases h
  | cons y ys ih =>
    intro xs s he hx h
    have hsub : ∀ o ∈ xs, o ∈ ops := fun o ho => by rw [he]; exact List.mem_append_left _ ho
    have hreq : ∃ more, requests ops = requests xs ++ more := by
      rw [he]; unfold requests; rw [List.filterMap_append]; exact ⟨_, rfl⟩
    obtain ⟨more, hreq⟩ := hreq
    obtain ⟨⟨s1, out⟩, h1⟩ := service_alive (op := y) hsrt hT hx (fun o ho => hs o (hsub o ho)) (fun o ho => hp o (hsub o ho))
      (fun b hb => hd b (by rw [hreq]; exact List.mem_append_left _ hb))
      (fun i j b c hi hj => hr i j b c (by rw [hreq, List.getElem?_append_left (lt_of_get hi)]; exact hi)
        (by rw [hreq, List.getElem?_append_left (lt_of_get hj)]; exact hj))
    simp only [run, h1] at h
    refine ih (xs ++ [y]) s1 (by rw [he]; simp) ?_ h
    rw [run_append, hx]
    simp only [Option.bind_some, run, h1]

/-- C86 violated: in every reachable state, if the first syscall a job names does not exist, the next container
the job selects ends the server. -/
theorem c86_violated {s : Service} {p : Nat} {pr : Proc} (hp : s.procs[p]? = some pr) (hi : pr.todo = [])
    {name : String} {rest : List String} (hc : pr.spec.calls = name :: rest)
    (hl : Syscalls.lookup tbl (.str name) = none) {c : Topology.Container} (hpos : 0 < c.pidns)
    (hsel : Hub.hostMatch pr.spec c.name = true) :
    run tbl crc srt s [.notice p (some ⟨0, some c⟩), .work p {}] = none := by
  have hneg : ¬ c.pidns ≤ 0 := by omega
  have hpe : Topology.processEvent true pr.cache (some ⟨0, some c⟩) =
      (GoMap.set pr.cache c.pidns c, [⟨Topology.typeStart, c, GoMap.set pr.cache c.pidns c⟩], none) := by
    simp only [Topology.processEvent, if_neg hneg]
    rfl
  obtain ⟨more, hacts⟩ : ∃ more, acts tbl pr.spec ⟨Topology.typeStart, c, GoMap.set pr.cache c.pidns c⟩ = .crash :: more := by
    unfold acts
    rw [if_neg (show ¬ Topology.typeStart = Topology.typeStop by decide), if_pos rfl]
    simp only [hsel, if_true, hc, List.flatMap_cons, startActs, hl]
    exact ⟨_, rfl⟩
  have h1 : step tbl crc srt s (.notice p (some ⟨0, some c⟩)) =
      some ({ s with procs := s.procs.set p ⟨pr.spec, GoMap.set pr.cache c.pidns c, .crash :: more⟩ }, []) := by
    simp only [step, hp, hi, hpe, List.flatMap_cons, List.flatMap_nil, List.append_nil, hacts]
  obtain ⟨s0, hs0, e3⟩ : ∃ s0, step tbl crc srt s (.notice p (some ⟨0, some c⟩)) = some (s0, []) ∧
      s0.procs[p]? = some ⟨pr.spec, GoMap.set pr.cache c.pidns c, .crash :: more⟩ := ⟨_, h1, set_get hp⟩
  simp only [run, hs0]
  have h2 : step tbl crc srt s0 (.work p {}) = none := by
    simp only [step, e3, actOp]
  rw [h2]

/-! ### C87: a job does what its request asks for -/

/-- C87: a create request that is answered 201 has a goroutine, which follows containers with exactly what the
body of the request says, and goes on to do so. -/
theorem c87_accepted {pre post : List Op} {s s' : Service} (h : run tbl crc srt (fresh tbl) pre = some s) {i : Nat}
    {id : String} (ha : Answered s i id 201) (h' : run tbl crc srt s post = some s') :
    ∃ b, (requests pre)[i]? = some b ∧ ∃ p, Serves s p i id b ∧ Serves s' p i id b := by
  obtain ⟨b, h1, p, pr, h2, h3⟩ := staffed_run h i id ha
  have e : s.bodies = requests pre := by rw [bodies_run h]; rfl
  obtain ⟨pr', g1, g2⟩ := proc_run h' h2
  exact ⟨b, by rw [← e]; exact h1, p, ⟨pr, h2, h3⟩, pr', g1, by rw [g2, h3]⟩

/-- C87: a goroutine hears of a container its request selects; once it is done, and no call of it was refused,
the job is registered for every syscall the request names in that container, and from some point `n` of the log
on it covers the syscall, sampled or not, as long as the job is not deleted and nobody takes the rule away or
makes it a sampled one. -/
theorem c87_placed (hT : TableOK tbl) {post : List Op} {s s' : Service} {p i : Nat} {id : String} {b : Body}
    (hs : Serves s p i id b) (hi : Rests s p)
    {c : Topology.Container} (hpos : 0 < c.pidns) (hsel : b.hosts = [] ∨ c.name ∈ b.hosts)
    (h' : run tbl crc srt s (.notice p (some ⟨0, some c⟩) :: post) = some s')
    (hf : ∀ f, .work p f ∈ post → f = {}) (hdone : Rests s' p) {name : String} (hname : name ∈ b.calls)
    {sc : Syscalls.Syscall} (hl : Syscalls.lookup tbl (.str name) = some sc)
    (hdel : ∀ o ∈ s'.log.drop s.log.length, o ≠ .delete id) :
    ∃ n, s.log.length < n ∧ n ≤ s'.log.length ∧
      ∀ more : List Daemon.Op, (∀ o ∈ more, o ≠ .delete id) →
        (∀ o ∈ (s'.log ++ more).drop n, ¬ Disturbs tbl c.pidns sc.nr o) →
        Covers tbl (s'.log ++ more) ⟨i, id, b.rate⟩ c.pidns sc.nr := by
  obtain ⟨pr, hp, hspec⟩ := hs
  have hm : Hub.hostMatch pr.spec c.name = true := by
    rw [hspec]
    unfold Hub.hostMatch
    rcases hsel with hsel | hsel
    · simp [hsel]
    · simp [hsel]
  obtain ⟨pr', g1, g2, g3⟩ := stage_run hT hp (hi pr hp) hpos hm
    (name := name) (by rw [hspec]; exact hname) hl hf h'
  rw [hdone pr' g1] at g3
  cases g3 with
  | before h => cases h
  | between a b hl h => cases h
  | after x y z hl =>
    have hj : pr.spec.job = ⟨i, id, b.rate⟩ := by rw [hspec]
    rw [hj] at hl
    have hdrop : s'.log.drop s.log.length = x ++ .push ⟨i, id, b.rate⟩ c.pidns sc.nr ::
        (y ++ .addSyscall (.int sc.nr) c.pidns {} :: z) := by
      rw [hl, List.append_assoc, List.drop_left]
    rw [hdrop] at hdel
    have hl2 : s'.log = (s.log ++ x ++ .push ⟨i, id, b.rate⟩ c.pidns sc.nr ::
        (y ++ [.addSyscall (.int sc.nr) c.pidns {}])) ++ z := by rw [hl]; simp
    refine ⟨(s.log ++ x ++ Daemon.Op.push ⟨i, id, b.rate⟩ c.pidns sc.nr :: (y ++ [.addSyscall (.int sc.nr) c.pidns {}])).length,
      by simp; omega, by rw [hl2]; simp, ?_⟩
    intro more hdel' hdis
    have hl3 : s'.log ++ more = (s.log ++ x ++ Daemon.Op.push ⟨i, id, b.rate⟩ c.pidns sc.nr ::
        (y ++ [.addSyscall (.int sc.nr) c.pidns {}])) ++ (z ++ more) := by rw [hl2]; simp
    rw [hl3, List.drop_left] at hdis
    refine ⟨s.log ++ x, y, z ++ more, by rw [hl]; simp, ?_, hdis⟩
    intro o ho
    simp only [List.mem_append] at ho
    rcases ho with ho | ho | ho
    · exact hdel o (by simp [ho])
    · exact hdel o (by simp [ho])
    · exact hdel' o ho

/-- C87 (partial): a goroutine hears of a container its request selects; once it
is done, and no call of it was refused, the job covers every syscall the request names in that container, as
long as the job is not deleted and nobody takes the rule away or makes it a sampled one.  Missing: refused
calls, which leave the rest of the request undone; a sampled request itself makes the rule a sampled one for a
moment, see `c87_placed` and C119. -/
theorem c87_covered_partial (hT : TableOK tbl) {post : List Op} {s s' : Service} {p i : Nat} {id : String} {b : Body}
    (hs : Serves s p i id b) (hi : Rests s p)
    {c : Topology.Container} (hpos : 0 < c.pidns) (hsel : b.hosts = [] ∨ c.name ∈ b.hosts)
    (h' : run tbl crc srt s (.notice p (some ⟨0, some c⟩) :: post) = some s')
    (hf : ∀ f, .work p f ∈ post → f = {}) (hdone : Rests s' p) {name : String} (hname : name ∈ b.calls)
    {sc : Syscalls.Syscall} (hl : Syscalls.lookup tbl (.str name) = some sc)
    (hdel : ∀ o ∈ s'.log.drop s.log.length, o ≠ .delete id)
    (hdis : ∀ o ∈ s'.log.drop s.log.length, ¬ Disturbs tbl c.pidns sc.nr o) :
    Covers tbl s'.log ⟨i, id, b.rate⟩ c.pidns sc.nr := by
  obtain ⟨n, n1, n2, h⟩ := c87_placed hT hs hi hpos hsel h' hf hdone hname hl hdel
  have := h [] (by simp) (by
    rw [List.append_nil]
    intro o ho
    refine hdis o ?_
    rw [show n = s.log.length + (n - s.log.length) by omega, ← List.drop_drop] at ho
    exact List.mem_of_mem_drop ho)
  rwa [List.append_nil] at this

/-- C87 (partial), end to end: a POST asks for syscalls of containers and is answered 201; its goroutine hears of
a container that it selects and finishes without refusals; then a thread in that container makes one of the
calls.  When the queues of the daemon are empty again the call has been served: every client that watches an
unsampled job or a path the container is on has been handed what the call did; for sampled jobs see C119.
`n` is a point of the log before the goroutine is done: from there on nobody may take the rule away or make it a
sampled one.  Missing: as in C77 and above. -/
theorem c87_served_partial (hT : TableOK tbl) (hsrt : PubSub.Node.IsSort srt) {pre mid post : List Op} {s y z : Service}
    {i : Nat} {id : String} (h : run tbl crcString srt (fresh tbl) pre = some s) (ha : Answered s i id 201) :
    ∃ b, (requests pre)[i]? = some b ∧ ∃ p, Serves s p i id b ∧
    ∀ co : Topology.Container, 0 < co.pidns → (b.hosts = [] ∨ co.name ∈ b.hosts) → Rests s p →
      (∀ f, .work p f ∈ mid → f = {}) →
      run tbl crcString srt s (.notice p (some ⟨0, some co⟩) :: mid) = some y → Rests y p →
      run tbl crcString srt y post = some z → z.daemon.ring = [] ∧ z.daemon.msg = none →
      (∀ op ∈ pre ++ .notice p (some ⟨0, some co⟩) :: mid ++ post, Sane op ∧ Numbered op) →
      (∀ o ∈ z.log.drop s.log.length, o ≠ .delete id) →
      ∀ name ∈ b.calls, ∀ sc, Syscalls.lookup tbl (.str name) = some sc →
      ∃ n, s.log.length < n ∧ n ≤ y.log.length ∧
      ∀ (e : Nat) before t0 t call scratch, Made z.log e before t0 t call scratch → y.log <+: before →
        (∀ o ∈ (z.log.take e).drop (before.length + 1), ¬ BeginsCallOf t.tgid t.pid o) →
        t0.pidNs = t.pidNs → (t.pidNs.toNat : Int) = co.pidns → call.nr ≠ 59 → call.nr.toNat ∈ Spec.Event.decodable →
        sc.nr = call.nr.toNat → (∀ o ∈ before.drop n, ¬ Disturbs tbl co.pidns sc.nr o) →
        Served tbl crcString srt z.log e t.pidNs.toNat call.nr.toNat sc ⟨i, id, b.rate⟩ (Reports tbl t call) := by
  obtain ⟨b, h1, p, hs, -⟩ := c87_accepted h ha (post := []) rfl
  refine ⟨b, h1, p, hs, ?_⟩
  intro co hpos hsel hi hf hy hdone hz hidle hops hdel name hname sc hl
  have hfull : run tbl crcString srt (fresh tbl) (pre ++ .notice p (some ⟨0, some co⟩) :: mid ++ post) = some z := by
    rw [run_append, run_append, h]
    simp only [Option.bind_some, hy, hz]
  obtain ⟨w1, e1⟩ := log_grows hy
  obtain ⟨w2, e2⟩ := log_grows hz
  have hsy : y.log.drop s.log.length = w1 := by rw [e1, List.drop_left]
  have hsz2 : z.log.drop s.log.length = w1 ++ w2 := by rw [e2, e1, List.append_assoc, List.drop_left]
  obtain ⟨n, n1, n2, hcov⟩ := c87_placed hT hs hi hpos hsel hy hf hdone hname hl
    (by rw [hsy]; exact fun o ho => hdel o (by rw [hsz2]; simp [ho]))
  refine ⟨n, n1, n2, ?_⟩
  intro e before t0 t call scratch hm hpre hone hns hco hne hdec hnr hdis
  obtain ⟨w3, e3⟩ := hpre
  have hb : ∃ w4, z.log = before ++ w4 := by
    obtain ⟨_, _, _, _, _, q, _⟩ := hm
    have : z.log.take e ++ z.log.drop e = z.log := List.take_append_drop e z.log
    rw [q] at this
    exact ⟨_, by rw [← this, List.append_assoc]⟩
  obtain ⟨w4, e4⟩ := hb
  have hsz : z.log.drop s.log.length = w1 ++ w3 ++ w4 := by
    rw [e4, ← e3, e1, List.append_assoc, List.append_assoc, List.drop_left, List.append_assoc]
  rw [hsz] at hdel
  have hcov' : Covers tbl before ⟨i, id, b.rate⟩ t.pidNs.toNat call.nr.toNat := by
    have := hcov w3 (fun o ho => hdel o (by simp [ho])) (by rw [e3]; exact hdis)
    rw [e3, hnr] at this
    rw [hco]; exact this
  refine Props.Daemon.c77_complete_partial hT hsrt (logged_run hfull) hidle (sinv_run hfull).once
    (sane_run hfull (fun o ho => (hops o ho).1) (fun o ho => by cases ho))
    (pairs_run hT hfull (fun o ho => (hops o ho).2)).2 hm hone hns hne hdec ?_ hcov' ?_
  · rw [← hnr]; exact (hT.1 _ _ hl).1
  · intro o ho
    rw [e4, List.drop_left] at ho
    exact hdel o (by simp [ho])

/-- C87 violated: when the kernel refuses a rule, the callback gives up all that is left of the request, and
nobody tells the client. -/
theorem c87_violated {s : Service} {p : Nat} {pr : Proc} {ns nr : Int} {rest : List Act} (hp : s.procs[p]? = some pr)
    (ht : pr.todo = .addSyscall ns nr :: rest) {f : Filter.Faults} (hf : f.config = true ∨ f.filter = true) :
    ∃ s' out, step tbl crc srt s (.work p f) = some (s', out) ∧ Rests s' p ∧ s'.server = s.server ∧
      Spec.Daemon.registrations s'.log = Spec.Daemon.registrations s.log := by
  have hno : goesOn tbl s.daemon.hub.maps pr.spec.job f (.addSyscall ns nr) = false := by
    simp only [goesOn, Filter.addSyscall]
    split
    · rfl
    · unfold Filter.addRule
      rcases hf with hf | hf <;> simp [hf]
      split <;> rfl
  obtain ⟨d, hd⟩ : ∃ d, Daemon.step tbl crc srt s.daemon (.addSyscall (.int nr) ns f) = some d := ⟨_, rfl⟩
  have hs : step tbl crc srt s (.work p f) = some (⟨d.1, s.server, s.bodies, s.procs.set p ⟨pr.spec, pr.cache, []⟩,
      s.sessions, s.attached, s.log ++ [.addSyscall (.int nr) ns f]⟩, d.2) := by
    simp only [step, hp, ht, actOp, perform, hd, hno]
    rfl
  refine ⟨_, _, hs, ?_, rfl, ?_⟩
  · intro q hq
    dsimp only at hq
    rw [set_get hp] at hq
    injection hq with hq
    subst hq
    rfl
  · show Spec.Daemon.registrations (s.log ++ [.addSyscall (.int nr) ns f]) = _
    rw [regs_snoc]
    rfl

/-! ### C88: a job ends when its duration is over -/

/-- C88 (partial): a listed job stays listed until somebody asks for its deletion.  Missing: jobs with a
duration (`c88_violated`). -/
theorem c88_until_deleted_partial {s s' : Service} {ops : List Op} {id : String} (h : run tbl crc srt s ops = some s')
    (hl : Listed s id) (hq : Spec.Server.Quiet s.server id) (hd : .delete id ∉ ops) : Listed s' id := by
  refine (lasting_run h ⟨hl, ?_⟩ hd).1
  intro t ht hid
  by_cases ha : Spec.Server.Active t
  · exact absurd hid (hq t ht ha)
  · unfold Spec.Server.Active at ha
    cases hpc : t.pc with
    | done c => trivial
    | _ => exact absurd (fun c e => by rw [hpc] at e; cases e) ha

/-- C88 violated: durations change nothing.  Any history and the same history with all durations left out go the
same way, whatever happens and however long it goes on. -/
theorem c88_violated (ops : List Op) :
    run tbl crc srt (fresh tbl) (ops.map undated) =
      (run tbl crc srt (fresh tbl) ops).map (fun s => { s with bodies := s.bodies.map undatedBody }) :=
  undated_run ops (fresh tbl)

/-- ... and so does what clients are handed. -/
theorem c88_violated_events {ops : List Op} {s : Service} (h : run tbl crc srt (fresh tbl) ops = some s) (op : Op) :
    ∃ s', run tbl crc srt (fresh tbl) (ops.map undated) = some s' ∧
      (step tbl crc srt s' (undated op)).map (·.2) = (step tbl crc srt s op).map (·.2) := by
  refine ⟨_, by rw [c88_violated, h]; rfl, ?_⟩
  rw [undated_step]
  cases step tbl crc srt s op <;> rfl

/-! ### Histories that meet the hypotheses -/

open Swoll.Props.Hub (demoTbl demo_ok)
open Swoll.Props.Daemon (web calm)
open Swoll.Props.Event (sampleTask sampleScratch sampleScratch_wf sampleMem)
open Swoll.Props.PubSub (isort isort_isSort)
open Swoll.Props.Service (asked tale called deleted facts of_facts)

/-- A container starts and calls `openat`; a client asks for a job, watches it, deletes it. -/
def whole : List Op := tale ++ called ++ [.outside (.route calm)] ++ deleted

theorem whole_ok : ∀ o ∈ whole, Sane o ∧ Placed o ∧ Numbered o := by
  intro o ho
  simp only [whole, tale, asked, called, deleted, List.mem_append, List.mem_cons, List.mem_replicate, List.not_mem_nil, or_false] at ho
  have h16 : sampleTask.comm.length = 16 := by decide
  have hns : sampleTask.pidNs ≠ 0 := by decide
  have hwf : ∀ s, some sampleScratch = some s → s.WF := by
    intro s e; injection e with e; subst e; exact sampleScratch_wf
  have hcalm : ∀ i, (calm i).Valid := fun _ _ m => List.Perm.refl m
  rcases ho with (((((rfl | ⟨-, rfl⟩) | rfl | rfl | rfl | rfl | rfl | rfl | rfl | rfl | rfl) | rfl | rfl | rfl) | rfl) | rfl | ⟨-, rfl⟩)
  all_goals first
    | exact ⟨trivial, trivial, trivial⟩
    | exact ⟨trivial, trivial, fun _ => by decide⟩
    | exact ⟨trivial, hns, trivial⟩
    | exact ⟨⟨h16, hwf⟩, trivial, trivial⟩
    | exact ⟨hcalm, trivial, trivial⟩

/-- `c86_survives_partial`: the whole history meets the hypotheses. -/
example : TableOK demoTbl ∧ (∀ o ∈ whole, Sane o) ∧ (∀ o ∈ whole, Placed o) ∧ Decodable demoTbl whole ∧ RatesDiffer demoTbl whole ∧
    (requests whole).map (·.calls) = [["sys_openat"], []] := by
  have hr : requests whole = [{ hosts := [], calls := ["sys_openat"], rate := 0 }, { hosts := [], calls := [], rate := 0 }] := by
    decide +kernel
  refine ⟨demo_ok, fun o ho => (whole_ok o ho).1, fun o ho => (whole_ok o ho).2.1, ?_, ?_, by rw [hr]; rfl⟩
  · intro b hb name hname
    rw [hr] at hb
    simp only [List.mem_cons, List.not_mem_nil, or_false] at hb
    rcases hb with rfl | rfl
    · rw [List.mem_singleton] at hname
      subst hname
      exact ⟨⟨257, "sys_openat", "FileSystem", "Files"⟩, by decide, by decide +kernel⟩
    · cases hname
  · intro i j b c hi hj hb
    rw [hr] at hi
    have hm := List.mem_of_getElem? hi
    simp only [List.mem_cons, List.not_mem_nil, or_false] at hm
    rcases hm with rfl | rfl <;> exact absurd hb (by decide)

/-- C86 violated, on a history: a client asks for a syscall that does not exist, and gets 201; the next
container ends the server. -/
example : (run demoTbl crcString isort (fresh demoTbl)
      (.create (some "a") "u" true { hosts := [], calls := ["nope"], rate := 0 } :: List.replicate 4 (.handle 0))).map
        (fun s => s.server.threads) = some [⟨"a", .done 201⟩] ∧
    (run demoTbl crcString isort (fresh demoTbl)
      (.create (some "a") "u" true { hosts := [], calls := ["nope"], rate := 0 } :: List.replicate 4 (.handle 0) ++
        [.notice 0 (some ⟨0, some web⟩), .work 0 {}])).isNone = true := by
  exact ⟨by decide +kernel, by decide +kernel⟩

/-- What the daemon goes through in the tale. -/
def taleLog : List Daemon.Op :=
  [.push ⟨0, "a", 0⟩ 4026531836 257, .addSyscall (.int 257) 4026531836 {}, .topo (some ⟨0, some web⟩), .act {},
   .attachTrace "a" 9, .attachPath ["default", "web", "nginx"] 7]

def callLog : List Daemon.Op :=
  [.enter sampleTask 257 1 1 [1, 2, 3] false, .exit sampleTask 257 3 1 2 sampleMem (some sampleScratch) false,
   .ingest, .route calm]

set_option maxRecDepth 1000000 in
theorem tale_log : (run demoTbl crcString isort (fresh demoTbl) tale).map (·.log) = some taleLog := by rfl

set_option maxRecDepth 1000000 in
theorem call_log : (run demoTbl crcString isort (fresh demoTbl) (tale ++ (called ++ [.outside (.route calm)]))).map (·.log) =
    some (taleLog ++ callLog) := by rfl

/-- `c87_served_partial`: the tale meets all hypotheses, so the call is served. -/
example : ∃ z, run demoTbl crcString isort (fresh demoTbl) (tale ++ (called ++ [.outside (.route calm)])) = some z ∧
    Served demoTbl crcString isort z.log 7 4026531836 257 ⟨257, "sys_openat", "FileSystem", "Files"⟩ ⟨0, "a", 0⟩
      (Reports demoTbl sampleTask ⟨257, fun i => [1, 2, 3].getD i 0, 1000, 1000, 1, 3, sampleMem, 2⟩) := by
  obtain ⟨s, hs, fs⟩ := of_facts (o := run demoTbl crcString isort (fresh demoTbl) asked)
    (f := fun s => (s.server.threads, s.procs, s.log.length))
    (v := ([⟨"a", .done 201⟩], [⟨⟨⟨0, "a", 0⟩, [], ["sys_openat"]⟩, [], []⟩], 0)) (by decide +kernel)
  obtain ⟨y, hy, fy⟩ := of_facts tale_log
  obtain ⟨z, hz, fz⟩ := of_facts call_log
  obtain ⟨y', hy', fy'⟩ := of_facts (o := run demoTbl crcString isort (fresh demoTbl) tale)
    (f := fun s => s.procs.map (·.todo)) (v := [[]]) (by decide +kernel)
  obtain ⟨z', hz', fz'⟩ := of_facts (o := run demoTbl crcString isort (fresh demoTbl) (tale ++ (called ++ [.outside (.route calm)])))
    (f := fun s => (s.daemon.ring.length, s.daemon.msg.isNone)) (v := (0, true)) (by decide +kernel)
  obtain rfl : y = y' := Option.some.inj (hy.symm.trans hy')
  obtain rfl : z = z' := Option.some.inj (hz.symm.trans hz')
  simp only [Prod.mk.injEq] at fs fz'
  obtain ⟨e1, e2, e3⟩ := fs
  have hl0 : s.log = [] := List.length_eq_zero_iff.1 e3
  obtain ⟨b, hb, p, ⟨pr, hp1, hp2⟩, H⟩ := c87_served_partial (tbl := demoTbl) (srt := isort) demo_ok isort_isSort (pre := asked)
    (mid := [.work 0 {}, .work 0 {}, .outside (.topo (some ⟨0, some web⟩)), .outside (.act {}),
      .watch (.job "a"), .attach 0 9, .watch (.path "default" "web" "nginx"), .attach 1 7])
    (post := called ++ [.outside (.route calm)]) (s := s) (y := y) (z := z) (i := 0) (id := "a") hs
    (by unfold Answered; rw [e1]; rfl)
  have hbe : b = { hosts := [], calls := ["sys_openat"], rate := 0 } := by
    have : (requests asked)[0]? = some { hosts := [], calls := ["sys_openat"], rate := 0 } := by decide
    exact Option.some.inj (hb.symm.trans this)
  subst hbe
  have hp : p = 0 := by
    rw [e2] at hp1
    have := lt_of_get hp1
    simp at this
    exact this
  subst hp
  refine ⟨z, hz, ?_⟩
  have hrun : ∀ ops : List Op, run demoTbl crcString isort s ops = run demoTbl crcString isort (fresh demoTbl) (asked ++ ops) := by
    intro ops; rw [run_append, hs]; rfl
  refine Exists.elim (H web (by decide) (Or.inl rfl) ?_ ?_ (by rw [hrun]; exact hy) ?_ ?_ ?_ ?_ ?_
    "sys_openat" (by simp) ⟨257, "sys_openat", "FileSystem", "Files"⟩ (by decide)) ?_
  rotate_left 7
  rintro n ⟨n1, n2, H⟩
  refine H 7 taleLog sampleTask sampleTask _ sampleScratch ?_ (by rw [fy]; exact List.prefix_refl _) ?_ rfl (by decide) (by decide)
    (by decide +kernel) (by decide) ?_
  · rw [fz]
    exact ⟨257, 1, [1, 2, 3], [], 1, rfl, rfl, rfl, rfl, by simp, by decide, rfl, rfl, rfl⟩
  · intro o ho
    rw [fz] at ho
    simp [taleLog, callLog] at ho
  · intro o ho hd
    have := List.mem_of_mem_drop ho
    simp only [taleLog, List.mem_cons, List.not_mem_nil, or_false] at this
    rcases this with rfl | rfl | rfl | rfl | rfl | rfl <;> exact hd
  · intro q hq
    have := List.mem_of_getElem? hq
    rw [e2, List.mem_singleton] at this
    rw [this]
  · intro f hf
    simp only [List.mem_cons, List.not_mem_nil, or_false, Op.work.injEq, true_and, reduceCtorEq] at hf
    rcases hf with rfl | rfl <;> rfl
  · intro q hq
    have := List.mem_map_of_mem (f := fun p : Proc => p.todo) (List.mem_of_getElem? hq)
    rw [fy', List.mem_singleton] at this
    exact this
  · rw [run_append, hy, Option.bind_some] at hz; exact hz
  · exact ⟨List.length_eq_zero_iff.1 fz'.1, Option.isNone_iff_eq_none.1 fz'.2⟩
  · intro op hop
    have : op ∈ whole := by
      have e : whole = asked ++ .notice 0 (some ⟨0, some web⟩) :: [.work 0 {}, .work 0 {}, .outside (.topo (some ⟨0, some web⟩)),
          .outside (.act {}), .watch (.job "a"), .attach 0 9, .watch (.path "default" "web" "nginx"), .attach 1 7] ++
          (called ++ [.outside (.route calm)]) ++ deleted := by
        simp [whole, tale]
      rw [e]
      exact List.mem_append_left _ hop
    exact ⟨(whole_ok op this).1, (whole_ok op this).2.2⟩
  · intro o ho e
    rw [fz] at ho
    have := List.mem_of_mem_drop ho
    subst e
    simp [taleLog, callLog] at this

/-- C87 violated, on a history: a job wants `openat` and `read`; the kernel refuses the first rule; `read` is never
registered although the request was answered 201. -/
example : (run demoTbl crcString isort (fresh demoTbl)
      (.create (some "a") "u" true { hosts := [], calls := ["sys_openat", "sys_read"], rate := 0 } :: List.replicate 4 (.handle 0) ++
        [.notice 0 (some ⟨0, some web⟩), .work 0 {}, .work 0 { filter := true }, .work 0 {}, .work 0 {}])).map facts =
    some ⟨[⟨"a", .done 201⟩], [("a", [])], [], true, [("a", 4026531836, 257)]⟩ := by decide +kernel

/-- `c88_until_deleted_partial` and `c88_violated`: a job asked for with a duration of one second is listed after
any number of steps without a DELETE. -/
example : (run demoTbl crcString isort (fresh demoTbl)
      (.create (some "a") "u" true { hosts := [], calls := ["sys_openat"], rate := 0, duration := 1000000000 } ::
        List.replicate 4 (.handle 0))).map (fun s => (s.server.threads, s.server.running.has "a")) =
    some ([⟨"a", .done 201⟩], true) := by decide +kernel

end Swoll.Props.Serving
