import Verif.Lemmas.ServiceRules
import Verif.Props.Daemon
/-
C82–C85: jobs and websockets over the life of the server.
-/
namespace Swoll.Props.Service
open Swoll Swoll.Service
open Swoll.Daemon (Daemon Delivery)
open Swoll.Hash (crcString)
open Swoll.Spec.Service
open Swoll.Spec.Daemon (registrations KeepsApart)
open Swoll.Spec.Hub (TableOK)
open Swoll.Lemmas.Service
open Swoll.Event (TraceEvent)

variable {tbl : Syscalls.Syscalls} {crc : String → BitVec 64} {srt : List PubSub.Env → List PubSub.Env}

/-! ### C82: a deleted job stays deleted -/

/-- C82 (partial): take any history in which the DELETE of a job arrives when no other request about the job is
being handled and no goroutine of the job is in the middle of handling a container.  If it is answered 200 and
afterwards nobody asks for a job of that id and no goroutine of the job hears of a started container, the job
is not listed, not registered for anything, and nobody who watches it is handed anything.  Missing: the
goroutine of a deleted job goes on and registers the job again when it hears of a container (`c82_violated`). -/
theorem c82_stays_deleted_partial (hsrt : PubSub.Node.IsSort srt) {pre post : List Op} {s s' : Service} {id : String}
    (h : run tbl crcString srt (fresh tbl) pre = some s) (hq : Spec.Server.Quiet s.server id) (hi : Idle s id)
    (hr : ∀ op ∈ post, ¬ Revives s id op) (h' : run tbl crcString srt s (.delete id :: post) = some s')
    (ha : Answered s' (next s) id 200) :
    ¬ Listed s' id ∧ ¬ Registered s' id ∧
    ∀ op s'' out tok ev, (∀ o ∈ pre ++ post ++ [op], Sane o) → step tbl crcString srt s' op = some (s'', out) →
      (tok, ev) ∈ out → Subscribed s' tok (.job id) → id ≠ "" →
      ¬ ∀ c sc, ev.container = some c → ev.syscall = some sc → KeepsApart crcString s'.log c sc := by
  have hg := going_run hq hi hr h'
  obtain ⟨pc, h1, h2⟩ := hg.way
  rw [show s'.server.threads[next s]? = some ⟨id, .done 200⟩ from ha] at h1
  injection h1 with h1
  injection h1 with _ h1
  subst h1
  obtain ⟨hnr, hnl⟩ := h2 rfl
  refine ⟨hnl, hnr, ?_⟩
  intro op s'' out tok ev hsane hs hx hsub hid hka
  have hfull : run tbl crcString srt (fresh tbl) (pre ++ .delete id :: post) = some s' := by
    rw [run_append, h]; exact h'
  have hl := logged_run hfull
  obtain ⟨hdel, htake⟩ := delivered_of hl hs hx
  have hfull' : run tbl crcString srt (fresh tbl) ((pre ++ .delete id :: post) ++ [op]) = some s'' := by
    rw [run_append, hfull]
    simp only [Option.bind_some, run, hs]
  have hsn : ∀ o ∈ s''.log, Spec.Daemon.SaneOp o := by
    refine sane_run hfull' ?_ (fun o ho => by cases ho)
    intro o ho
    simp only [List.mem_append, List.mem_cons, List.not_mem_nil, or_false] at ho hsane
    rcases ho with (ho | rfl | ho) | ho
    · exact hsane o (Or.inl (Or.inl ho))
    · trivial
    · exact hsane o (Or.inl (Or.inr ho))
    · exact hsane o (Or.inr ho)
  have hinv := sinv_run hfull'
  obtain ⟨c, sc, e1, e2, -, u, hu, hut, hcon⟩ := Props.Daemon.c76_recipients hsrt hinv.once hsn hdel
  rw [htake] at hu hcon
  have hc := hcon (hka c sc e1 e2)
  -- the user is the watcher
  have huniq : u = ⟨tok, .job id⟩ := by
    have hnd := Props.Daemon.c76_tokens s'.log
    have hu2 : (⟨tok, .job id⟩ : Spec.Daemon.User) ∈ Spec.Daemon.users s'.log := hsub
    have := Lemmas.Service.eq_of_token hnd hu hu2 hut
    exact this
  subst huniq
  rcases hc with hc | ⟨r, hr, e⟩
  · exact hid hc
  · exact hnr ⟨r, (List.mem_filter.1 hr).1, e⟩

/-- C82 violated: a job that is not listed any more, but whose goroutine is there, is registered again when
that goroutine hears of a container the job selects.  It can then not be deleted: DELETE answers 404 and the
registration stays. -/
theorem c82_violated {ops : List Op} {s : Service} (h : run tbl crc srt (fresh tbl) ops = some s) {id : String}
    (hn : ¬ Listed s id) {p : Nat} {pr : Proc} (hp : s.procs[p]? = some pr) (hid : pr.spec.job.id = id)
    (hi : pr.todo = []) {name : String} {rest : List String} (hc : pr.spec.calls = name :: rest)
    {sc : Syscalls.Syscall} (hl : Syscalls.lookup tbl (.str name) = some sc) {c : Topology.Container}
    (hpos : 0 < c.pidns) (hsel : Hub.hostMatch pr.spec c.name = true) :
    ∃ s1, run tbl crc srt s [.notice p (some ⟨0, some c⟩), .work p {}] = some s1 ∧ ¬ Listed s1 id ∧ Registered s1 id ∧
      ∃ s2, run tbl crc srt s1 (.delete id :: List.replicate 6 (.handle (next s1))) = some s2 ∧
        Answered s2 (next s1) id 404 ∧ Registered s2 id := by
  obtain ⟨s1, r1, r2, r3⟩ := revive (tbl := tbl) (crc := crc) (srt := srt) hp hi hc hl hpos hsel
  have hfull : run tbl crc srt (fresh tbl) (ops ++ [.notice p (some ⟨0, some c⟩), .work p {}]) = some s1 := by
    rw [run_append, h]; exact r1
  have hn1 : ¬ Listed s1 id := by unfold Listed; rw [r2]; exact hn
  have hr1 : Registered s1 id := by
    refine ⟨⟨pr.spec.job, c.pidns, sc.nr⟩, ?_, hid⟩
    rw [r3, regs_snoc]
    exact List.mem_append_right _ (List.mem_singleton.2 rfl)
  obtain ⟨s2, q1, -, -, q2, -⟩ := delete_run (logged_run hfull) id
  have hg : s1.server.running.get id = none := by
    cases e : s1.server.running.get id with
    | none => rfl
    | some j => exact absurd ⟨j, e⟩ hn1
  obtain ⟨a1, a2, -⟩ := q2 hg
  exact ⟨s1, r1, hn1, hr1, s2, q1, a1, by unfold Registered; rw [a2]; exact hr1⟩

/-! ### C83: a running job can be deleted -/

/-- C83 (partial): a DELETE of a listed job that is registered for something, handled without other requests in
between, takes the job off the list and out of the hub.  It is answered 200 unless a job of the same id was
deleted before, then 500.  Missing: jobs that are registered for nothing (`c83_violated`). -/
theorem c83_deleted_partial {ops : List Op} {s : Service} (h : run tbl crc srt (fresh tbl) ops = some s) {id : String}
    (hl : Listed s id) (hr : Registered s id) :
    ∃ s', run tbl crc srt s (.delete id :: List.replicate 6 (.handle (next s))) = some s' ∧
      ¬ Listed s' id ∧ ¬ Registered s' id ∧ (∀ id', id' ≠ id → (Listed s' id' ↔ Listed s id') ∧ (Registered s' id' ↔ Registered s id')) ∧
      Answered s' (next s) id (if s.server.completed.has id then 500 else 200) ∧ s'.server.completed.has id = true := by
  obtain ⟨j, hj⟩ := hl
  obtain ⟨s', r1, -, -, -, r2⟩ := delete_run (logged_run h) id
  obtain ⟨e1, -, e2⟩ := r2 j hj
  obtain ⟨f1, f2, f3⟩ := e2 hr
  refine ⟨s', r1, ?_, ?_, ?_, ?_⟩
  · rintro ⟨k, hk⟩
    rw [f1, GoMap.get_del_same] at hk
    cases hk
  · unfold Registered; rw [e1]; exact not_registered_delete id
  · intro id' hne
    constructor
    · unfold Listed
      rw [f1, GoMap.get_del_other _ (fun e => hne e.symm)]
    · unfold Registered
      rw [e1, regs_snoc]
      constructor
      · rintro ⟨r, hr, e⟩; exact ⟨r, (List.mem_filter.1 hr).1, e⟩
      · rintro ⟨r, hr, e⟩
        exact ⟨r, List.mem_filter.2 ⟨hr, decide_eq_true (by rw [e]; exact hne)⟩, e⟩
  · cases hc : s.server.completed.has id with
    | true =>
      obtain ⟨g1, g2⟩ := f2 hc
      rw [g2]
      exact ⟨g1, hc⟩
    | false =>
      obtain ⟨g1, g2⟩ := f3 hc
      refine ⟨g1, ?_⟩
      rw [g2]
      exact Lemmas.Server.has_iff.2 ⟨j, GoMap.get_set_same _ _ _⟩

/-- C83: a DELETE of an id that is not listed is answered 404 and changes nothing. -/
theorem c83_unknown {ops : List Op} {s : Service} (h : run tbl crc srt (fresh tbl) ops = some s) {id : String}
    (hl : ¬ Listed s id) :
    ∃ s', run tbl crc srt s (.delete id :: List.replicate 6 (.handle (next s))) = some s' ∧
      Answered s' (next s) id 404 ∧ s'.server.running = s.server.running ∧ s'.server.completed = s.server.completed ∧
      s'.log = s.log := by
  obtain ⟨s', r1, -, -, r2, -⟩ := delete_run (logged_run h) id
  have hg : s.server.running.get id = none := by
    cases e : s.server.running.get id with
    | none => rfl
    | some j => exact absurd ⟨j, e⟩ hl
  obtain ⟨a, b, c, d⟩ := r2 hg
  exact ⟨s', r1, a, c, d, b⟩

/-- C83 violated: a listed job that is registered for nothing - no container it selects has been announced to
it yet - cannot be deleted: DELETE is answered 500 and the job stays listed. -/
theorem c83_violated {ops : List Op} {s : Service} (h : run tbl crc srt (fresh tbl) ops = some s) {id : String}
    (hl : Listed s id) (hr : ¬ Registered s id) :
    ∃ s', run tbl crc srt s (.delete id :: List.replicate 6 (.handle (next s))) = some s' ∧
      Answered s' (next s) id 500 ∧ Listed s' id := by
  obtain ⟨j, hj⟩ := hl
  obtain ⟨s', r1, -, -, -, r2⟩ := delete_run (logged_run h) id
  obtain ⟨-, e1, -⟩ := r2 j hj
  obtain ⟨f1, f2, -⟩ := e1 hr
  exact ⟨s', r1, f1, j, by rw [f2]; exact hj⟩

/-! ### C84: closing a websocket ends its subscription -/

/-- C84: in every reachable state the subscriptions in place are exactly those of the websockets that have
subscribed and, if they watch a job, whose writer has not returned; no two websockets share one. -/
theorem c84_subscriptions {ops : List Op} {s : Service} (h : run tbl crc srt (fresh tbl) ops = some s) :
    (∀ tok w, Subscribed s tok w ↔ ∃ (k : Nat) (se : Session), s.sessions[k]? = some se ∧ se.tok = some tok ∧
      target se.watch = target w ∧ ¬ (se.over = true ∧ ∃ id, se.watch = .job id)) ∧
    (∀ (k k' : Nat) se se' tok, s.sessions[k]? = some se → s.sessions[k']? = some se' → se.tok = some tok →
      se'.tok = some tok → k = k') := by
  have hi := sinv_run h
  refine ⟨?_, fun k k' se se' tok h1 h2 h3 h4 => hi.inj k k' se se' tok h1 h2 h3 h4⟩
  intro tok w
  unfold Subscribed
  rw [hi.users]
  constructor
  · rintro ⟨k, se, h1, h2, h3, h4⟩; exact ⟨k, se, h1, h2, h3.symm, h4⟩
  · rintro ⟨k, se, h1, h2, h3, h4⟩; exact ⟨k, se, h1, h2, h3.symm, h4⟩

/-- C84 (partial): when the writer of a websocket that watches a job finds the connection closed, or fails to
write to it, the subscription ends, for ever: whatever happens afterwards, nothing is handed to it.  Missing:
websockets that watch a path (`c84_violated`). -/
theorem c84_closed_partial (hsrt : PubSub.Node.IsSort srt) {pre post : List Op} {s s1 s2 : Service} {out : List Delivery}
    (h : run tbl crcString srt (fresh tbl) pre = some s) {k : Nat} {se : Session} {tok : Nat} {id : String} {fails : Bool}
    (hk : s.sessions[k]? = some se) (ht : se.tok = some tok) (hw : se.watch = .job id)
    (hc : se.closed = true ∨ fails = true) (hp : step tbl crcString srt s (.ping k fails) = some (s1, out))
    (h2 : run tbl crcString srt s1 post = some s2) :
    (∀ w, ¬ Subscribed s2 tok w) ∧
    ∀ op s3 out' ev, (∀ o ∈ pre ++ post ++ [op], Sane o) → step tbl crcString srt s2 op = some (s3, out') →
      (tok, ev) ∉ out' := by
  have h1 : run tbl crcString srt (fresh tbl) (pre ++ [.ping k fails]) = some s1 := by
    rw [run_append, h]; simp only [Option.bind_some, run, hp]
  have h2' : run tbl crcString srt (fresh tbl) ((pre ++ [.ping k fails]) ++ post) = some s2 := by
    rw [run_append, h1]; exact h2
  -- the session is over
  obtain ⟨se1, g1, g2, g3, g4⟩ : ∃ se1, s1.sessions[k]? = some se1 ∧ se1.watch = .job id ∧ se1.tok = some tok ∧
      se1.over = true := by
    by_cases ho : se.over = true
    · obtain ⟨b, b1, b2, b3, b4, -⟩ := session_step (step_moves hp) hk
      exact ⟨b, b1, by rw [b2, hw], b3 tok ht, b4 ho⟩
    · have hcc : (se.closed || fails) = true := by rcases hc with hc | hc <;> simp [hc]
      simp only [step, hk, ht, hcc, hw, if_true] at hp
      rw [if_neg ho] at hp
      obtain ⟨d, -, rfl⟩ := perform_elim hp
      exact ⟨_, set_get hk, rfl, rfl, rfl⟩
  obtain ⟨se2, q1, q2, q3, q4, -⟩ := session_run h2 g1
  have hi := sinv_run h2'
  have hno : ∀ u ∈ Spec.Daemon.users s2.log, u.token ≠ tok := by
    intro u hu e
    obtain ⟨k', se', e1, e2, -, e4⟩ := (hi.users u).1 hu
    have := hi.inj k' k se' se2 tok e1 q1 (by rw [e2, e]) (q3 tok g3)
    subst this
    rw [q1] at e1
    injection e1 with e1
    subst e1
    exact e4 ⟨q4 g4, id, by rw [q2, g2]⟩
  refine ⟨fun w hs => hno _ hs rfl, ?_⟩
  intro op s3 out' ev hsane hs hx
  obtain ⟨hdel, htake⟩ := delivered_of (logged_run h2') hs hx
  have h3 : run tbl crcString srt (fresh tbl) (((pre ++ [.ping k fails]) ++ post) ++ [op]) = some s3 := by
    rw [run_append, h2']; simp only [Option.bind_some, run, hs]
  have hsn : ∀ o ∈ s3.log, Spec.Daemon.SaneOp o := by
    refine sane_run h3 ?_ (fun o ho => by cases ho)
    intro o ho
    simp only [List.mem_append, List.mem_singleton] at ho hsane
    rcases ho with ((ho | rfl) | ho) | ho
    · exact hsane o (Or.inl (Or.inl ho))
    · trivial
    · exact hsane o (Or.inl (Or.inr ho))
    · exact hsane o (Or.inr ho)
  obtain ⟨c, sc, -, -, -, u, hu, hut, -⟩ := Props.Daemon.c76_recipients hsrt (sinv_run h3).once hsn hdel
  rw [htake] at hu
  exact hno u hu hut

/-- C84: a subscribed websocket that is open stays subscribed as long as the client answers and does not go
away, whatever else happens. -/
theorem c84_stays {pre post : List Op} {s s' : Service} (h : run tbl crc srt (fresh tbl) pre = some s)
    {k : Nat} {se : Session} {tok : Nat} (hk : s.sessions[k]? = some se) (ht : se.tok = some tok)
    (ho : se.over = false) (hc : se.closed = false) (h' : run tbl crc srt s post = some s')
    (hp : ∀ op ∈ post, op ≠ .close k ∧ op ≠ .ping k true) : Subscribed s' tok se.watch := by
  have hf : run tbl crc srt (fresh tbl) (pre ++ post) = some s' := by rw [run_append, h]; exact h'
  obtain ⟨se', q1, q2, q3, q4, -⟩ := session_open h' hk ho hc hp
  refine (sinv_run hf).users _ |>.2 ⟨k, se', q1, q3 tok ht, by rw [q2], ?_⟩
  rintro ⟨e, -⟩
  rw [q4] at e
  cases e

/-- C84: a client can watch a job if and only if the job is listed; then it has a websocket of its own, open and
not yet subscribed, and nothing else changes. -/
theorem c84_watch (s : Service) (id : String) :
    (¬ Listed s id → step tbl crc srt s (.watch (.job id)) = some (s, [])) ∧
    (Listed s id → ∃ s', step tbl crc srt s (.watch (.job id)) = some (s', []) ∧
      s' = { s with sessions := s.sessions ++ [⟨.job id, none, false, false⟩] }) := by
  constructor
  · intro h
    have : s.server.running.has id = false := by
      cases e : s.server.running.has id with
      | false => rfl
      | true => exact absurd (Lemmas.Server.has_iff.1 e) h
    simp only [step, this]
    rfl
  · intro h
    have : s.server.running.has id = true := Lemmas.Server.has_iff.2 h
    exact ⟨_, by simp only [step, this, if_true], rfl⟩

/-- C84 violated: a websocket that watches a path stays subscribed whatever happens, even after the client is
gone and the writer has returned. -/
theorem c84_violated {pre post : List Op} {s s' : Service} (h : run tbl crc srt (fresh tbl) pre = some s)
    {k : Nat} {se : Session} {tok : Nat} {ns pod c : String} (hk : s.sessions[k]? = some se) (ht : se.tok = some tok)
    (hw : se.watch = .path ns pod c) (h' : run tbl crc srt s post = some s') :
    Subscribed s' tok (.path ns pod c) := by
  have hf : run tbl crc srt (fresh tbl) (pre ++ post) = some s' := by rw [run_append, h]; exact h'
  obtain ⟨se', q1, q2, q3, -, -⟩ := session_run h' hk
  refine (sinv_run hf).users _ |>.2 ⟨k, se', q1, q3 tok ht, by rw [q2, hw], ?_⟩
  rintro ⟨-, id, e⟩
  rw [q2, hw] at e
  cases e

/-! ### C85: the kernel records only what some job asks for -/

/-- C85 (partial): in any history in which no job is taken out of the hub while one of its goroutines is in the
middle of handling a container, the kernel records a call only if a job is registered for it - except the one
rule every hub starts with, of pid namespace 0.  Missing: deletions that come in between (`c85_violated`). -/
theorem c85_wanted_partial (hT : TableOK tbl) {ops : List Op} {s : Service} (h : run tbl crc srt (fresh tbl) ops = some s)
    (hu : Undisturbed tbl crc srt ops) {ns proc nr : BitVec 32} (hr : Records tbl s ns proc nr) :
    Spec.Daemon.Stub tbl ns nr ∨
      ∃ r ∈ registrations s.log, BitVec.ofInt 32 r.ns = ns ∧ BitVec.ofInt 32 r.nr = nr := by
  have hi := rinv_run h hu
  rcases records_wanted hi.clean hi.pos hr with h1 | ⟨r, h1, sc, h2, h3, h4⟩
  · exact Or.inl h1
  · refine Or.inr ⟨r, h1, h4, ?_⟩
    rw [← hT.2 _ _ h2, ← h3]
    simp

/-! ### Histories that meet the hypotheses -/

open Swoll.Props.Hub (demoTbl demo_ok)
open Swoll.Props.Daemon (web calm)
open Swoll.Props.Event (sampleTask sampleScratch sampleScratch_wf sampleMem)
open Swoll.Props.PubSub (isort isort_isSort)

/-- A client asks for a job `a` that wants `openat`. -/
def asked : List Op :=
  .create (some "a") "u" true { hosts := [], calls := ["sys_openat"], rate := 0 } :: List.replicate 4 (.handle 0)

/-- The job hears of a container, a client watches the job and another one the container. -/
def tale : List Op :=
  asked ++ [.notice 0 (some ⟨0, some web⟩), .work 0 {}, .work 0 {}, .outside (.topo (some ⟨0, some web⟩)), .outside (.act {}),
   .watch (.job "a"), .attach 0 9, .watch (.path "default" "web" "nginx"), .attach 1 7]

/-- The container calls `openat`. -/
def called : List Op :=
  [.outside (.enter sampleTask 257 1 1 [1, 2, 3] false),
   .outside (.exit sampleTask 257 3 1 2 sampleMem (some sampleScratch) false), .outside .ingest]

/-- A DELETE of the job, the second request, is handled. -/
def deleted : List Op := .delete "a" :: List.replicate 6 (.handle 1)

/-- What matters here of a state. -/
structure Facts where
  answers : List (Server.Thread String)
  todos : List (String × List Act)
  sessions : List Session
  listed : Bool
  registered : List (String × Int × Int)
  deriving DecidableEq

def facts (s : Service) : Facts :=
  ⟨s.server.threads, s.procs.map (fun p => (p.spec.job.id, p.todo)), s.sessions, s.server.running.has "a",
    (registrations s.log).map (fun r => (r.job.id, r.ns, r.nr))⟩

theorem of_facts {α : Type} {o : Option Service} {f : Service → α} {v : α} (h : o.map f = some v) :
    ∃ s, o = some s ∧ f s = v := by
  cases o with
  | none => cases h
  | some s => injection h with h; exact ⟨s, rfl, h⟩

/-- `c82_stays_deleted_partial` and `c83_deleted_partial`: after the tale the job is listed, registered and
idle; the DELETE is answered 200; before it a call of the container reaches both clients, after it none. -/
example : (∃ s, run demoTbl crcString isort (fresh demoTbl) tale = some s ∧ Spec.Server.Quiet s.server "a" ∧ Idle s "a" ∧
      Listed s "a" ∧ Registered s "a" ∧ next s = 1 ∧ ∀ op ∈ deleted.tail ++ called, ¬ Revives s "a" op) ∧
    (run demoTbl crcString isort (fresh demoTbl) (tale ++ deleted ++ called)).map facts =
      some ⟨[⟨"a", .done 201⟩, ⟨"a", .done 200⟩], [("a", [])],
        [⟨.job "a", some 0, false, false⟩, ⟨.path "default" "web" "nginx", some 1, false, false⟩], false, []⟩ ∧
    (run demoTbl crcString isort (fresh demoTbl) (tale ++ called)).bind (fun s =>
      (step demoTbl crcString isort s (.outside (.route calm))).map (fun r => r.2.map (·.1))) = some [1, 0] ∧
    (run demoTbl crcString isort (fresh demoTbl) (tale ++ deleted ++ called)).bind (fun s =>
      (step demoTbl crcString isort s (.outside (.route calm))).map (fun r => r.2.map (·.1))) = some [] := by
  refine ⟨?_, by decide +kernel, by decide +kernel, by decide +kernel⟩
  obtain ⟨s, h1, h2⟩ := of_facts (o := run demoTbl crcString isort (fresh demoTbl) tale) (f := facts)
    (v := ⟨[⟨"a", .done 201⟩], [("a", [])],
      [⟨.job "a", some 0, false, false⟩, ⟨.path "default" "web" "nginx", some 1, false, false⟩], true,
      [("a", 4026531836, 257)]⟩) (by decide +kernel)
  simp only [facts, Facts.mk.injEq] at h2
  obtain ⟨e1, e2, -, e4, e5⟩ := h2
  refine ⟨s, h1, ?_, ?_, ?_, ?_, by unfold next; rw [e1]; rfl, ?_⟩
  · intro t ht
    rw [e1, List.mem_singleton] at ht
    subst ht
    intro h; exact absurd rfl (h 201)
  · intro pr hpr _
    have := List.mem_map_of_mem (f := fun p : Proc => (p.spec.job.id, p.todo)) hpr
    rw [e2, List.mem_singleton] at this
    exact (Prod.mk.inj this).2
  · exact Lemmas.Server.has_iff.1 e4
  · have : (("a", 4026531836, 257) : String × Int × Int) ∈ (registrations s.log).map (fun r => (r.job.id, r.ns, r.nr)) := by
      rw [e5]; exact List.mem_singleton.2 rfl
    obtain ⟨r, hr, e⟩ := List.mem_map.1 this
    exact ⟨r, hr, (Prod.mk.inj e).1⟩
  · intro op hop h
    simp only [deleted, called, List.tail_cons, List.mem_append, List.mem_replicate, List.mem_cons, List.not_mem_nil, or_false] at hop
    rcases hop with ⟨-, rfl⟩ | rfl | rfl | rfl <;> exact h

/-- C82 violated, on a history: the job is deleted with 200, its goroutine hears of the container again, and a
call of the container reaches both clients, although no job is listed. -/
theorem c82_violated_story :
    (run demoTbl crcString isort (fresh demoTbl)
      (tale ++ deleted ++ [.notice 0 (some ⟨0, some web⟩), .work 0 {}, .work 0 {}] ++ called)).map facts =
      some ⟨[⟨"a", .done 201⟩, ⟨"a", .done 200⟩], [("a", [])],
        [⟨.job "a", some 0, false, false⟩, ⟨.path "default" "web" "nginx", some 1, false, false⟩], false,
        [("a", 4026531836, 257)]⟩ ∧
    (run demoTbl crcString isort (fresh demoTbl)
      (tale ++ deleted ++ [.notice 0 (some ⟨0, some web⟩), .work 0 {}, .work 0 {}] ++ called)).bind (fun s =>
        (step demoTbl crcString isort s (.outside (.route calm))).map (fun r => r.2.map (·.1))) = some [1, 0] := by
  exact ⟨by decide +kernel, by decide +kernel⟩

/-- C83 violated, on a history: a job that has not heard of any container is DELETEd; the answer is 500 and the
job stays listed. -/
example : (run demoTbl crcString isort (fresh demoTbl) (asked ++ deleted)).map facts =
    some ⟨[⟨"a", .done 201⟩, ⟨"a", .done 500⟩], [("a", [])], [], true, []⟩ := by decide +kernel

/-- `c84_closed_partial` and `c84_violated`: both clients go away; the job's watcher loses its subscription,
the other one keeps it and is handed the next call. -/
example : (run demoTbl crcString isort (fresh demoTbl) (tale ++ [.close 0, .ping 0 false, .close 1, .ping 1 true])).map
      (fun s => (s.sessions, Spec.Daemon.users s.log)) =
      some ([⟨.job "a", some 0, true, true⟩, ⟨.path "default" "web" "nginx", some 1, true, true⟩],
        [⟨1, .path ["default", "web", "nginx"]⟩]) ∧
    (run demoTbl crcString isort (fresh demoTbl) (tale ++ [.close 0, .ping 0 false, .close 1, .ping 1 true] ++ called)).bind
      (fun s => (step demoTbl crcString isort s (.outside (.route calm))).map (fun r => r.2.map (·.1))) = some [1] := by
  exact ⟨by decide +kernel, by decide +kernel⟩

/-- `c85_wanted_partial`: the tale with the DELETE at its end is undisturbed; the kernel records the calls of
the container before the DELETE and not after it. -/
example : TableOK demoTbl ∧ Undisturbed demoTbl crcString isort (tale ++ deleted) ∧
    (∃ s, run demoTbl crcString isort (fresh demoTbl) tale = some s ∧ Records demoTbl s 4026531836 7 257) ∧
    (∃ s, run demoTbl crcString isort (fresh demoTbl) (tale ++ deleted) = some s ∧ ¬ Records demoTbl s 4026531836 7 257) := by
  refine ⟨demo_ok, undisturbed_of_settled (by decide +kernel), ?_, ?_⟩
  · obtain ⟨s, h1, h2⟩ := of_facts (o := run demoTbl crcString isort (fresh demoTbl) tale)
      (f := fun s => (Filter.step demoTbl s.daemon.hub.maps (.callEvent 4026531836 7 257)).2) (v := true) (by decide +kernel)
    exact ⟨s, h1, h2⟩
  · obtain ⟨s, h1, h2⟩ := of_facts (o := run demoTbl crcString isort (fresh demoTbl) (tale ++ deleted))
      (f := fun s => (Filter.step demoTbl s.daemon.hub.maps (.callEvent 4026531836 7 257)).2) (v := false) (by decide +kernel)
    exact ⟨s, h1, fun h => by unfold Records at h; rw [h2] at h; cases h⟩

/-- C85 violated: the job is deleted, with 200, after its goroutine has registered it and before it has added
the kernel's rule.  The rule stays for ever: no job is listed or registered, every goroutine is idle, and the
kernel goes on recording. -/
theorem c85_violated :
    ∃ s, run demoTbl crcString isort (fresh demoTbl)
        (asked ++ [.notice 0 (some ⟨0, some web⟩), .work 0 {}] ++ deleted ++ [.work 0 {}]) = some s ∧
      Answered s 1 "a" 200 ∧ ¬ Listed s "a" ∧ registrations s.log = [] ∧ (∀ pr ∈ s.procs, pr.todo = []) ∧
      Records demoTbl s 4026531836 7 257 := by
  obtain ⟨s, h1, h2⟩ := of_facts (o := run demoTbl crcString isort (fresh demoTbl)
        (asked ++ [.notice 0 (some ⟨0, some web⟩), .work 0 {}] ++ deleted ++ [.work 0 {}]))
    (f := fun s => (facts s, (Filter.step demoTbl s.daemon.hub.maps (.callEvent 4026531836 7 257)).2))
    (v := (⟨[⟨"a", .done 201⟩, ⟨"a", .done 200⟩], [("a", [])], [], false, []⟩, true)) (by decide +kernel)
  simp only [facts, Facts.mk.injEq, Prod.mk.injEq] at h2
  obtain ⟨⟨e1, e2, -, e4, e5⟩, e6⟩ := h2
  refine ⟨s, h1, by unfold Answered; rw [e1]; rfl, ?_, List.map_eq_nil_iff.1 e5, ?_, e6⟩
  · intro hl
    rw [Lemmas.Server.has_iff.2 hl] at e4
    cases e4
  · intro pr hpr
    have := List.mem_map_of_mem (f := fun p : Proc => (p.spec.job.id, p.todo)) hpr
    rw [e2, List.mem_singleton] at this
    exact (Prod.mk.inj this).2

end Swoll.Props.Service
