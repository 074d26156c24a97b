import Verif.Lemmas.ServiceJobs
import Verif.Lemmas.DaemonDeliver
/-
What becomes of a deleted job.
-/
namespace Swoll.Lemmas.Service
open Swoll Swoll.Service
open Swoll.Daemon (Daemon Delivery)
open Swoll.Spec.Service
open Swoll.Spec.Daemon (registrations regStep)
open Swoll.Server (Thread Pc)

variable {tbl : Syscalls.Syscalls} {crc : String → BitVec 64} {srt : List PubSub.Env → List PubSub.Env}

/-! ### Logs -/

/-- If the daemon's own operations are sane, so is the log. -/
theorem sane_step {s s' : Service} {op : Op} {out : List Delivery} (hm : Moves tbl crc srt s op s' out)
    (ho : Sane op) (h : ∀ o ∈ s.log, Spec.Daemon.SaneOp o) : ∀ o ∈ s'.log, Spec.Daemon.SaneOp o := by
  have snoc : ∀ o, Spec.Daemon.SaneOp o → ∀ x ∈ s.log ++ [o], Spec.Daemon.SaneOp x := by
    intro o h1 x hx
    rcases List.mem_append.1 hx with hx | hx
    · exact h x hx
    · rw [List.mem_singleton] at hx; subst hx; exact h1
  cases hm with
  | outside o d out _ hd => exact snoc o ho
  | handleDelete i t j d out ht hp hd => exact snoc _ trivial
  | work p f pr a rest o d out hp ht ha hd =>
    refine snoc o ?_
    cases a <;> simp only [actOp, Option.some.injEq, reduceCtorEq] at ha <;> subst ha <;> exact trivial
  | attach k draw se d out hk ht hd =>
    refine snoc _ ?_
    cases se.watch <;> exact trivial
  | hangJob k fails se t id d out hk ht ho hc hw hd => exact snoc _ trivial
  | _ => exact h

theorem sane_run {s s' : Service} {ops : List Op} (h : run tbl crc srt s ops = some s') (ho : ∀ op ∈ ops, Sane op)
    (h0 : ∀ o ∈ s.log, Spec.Daemon.SaneOp o) : ∀ o ∈ s'.log, Spec.Daemon.SaneOp o :=
  run_induct (P := fun x => ∀ o ∈ x.log, Spec.Daemon.SaneOp o) h h0 (fun _ op _ _ hop hm hx => sane_step hm (ho op hop) hx)

/-- What a step hands out is delivered at the end of the log. -/
theorem delivered_of {s s' : Service} {op : Op} {out : List Delivery} (hl : Logged tbl crc srt s)
    (h : step tbl crc srt s op = some (s', out)) {tok : Nat} {ev : Event.TraceEvent Topology.Container}
    (hx : (tok, ev) ∈ out) :
    Spec.Daemon.Delivered tbl crc srt s'.log s.log.length tok ev ∧ s'.log.take s.log.length = s.log := by
  rcases moves_log (step_moves h) with ⟨-, -, rfl⟩ | ⟨o, h1, h2⟩
  · cases hx
  · have htake : s'.log.take s.log.length = s.log := by rw [h1]; simp
    refine ⟨⟨o, s.daemon, s'.daemon, out, by rw [h1]; simp, ?_, h2, hx⟩, htake⟩
    rw [htake]; exact hl

/-! ### Deleting -/

/-- Where the handler of the delete request `n` may be, and what it has achieved. -/
def Way (x : Service) (id : String) : Pc → Prop
  | .deleteGet => True
  | .deleteHub _ => True
  | .removeGet _ => ¬ Registered x id
  | .removeDel _ => ¬ Registered x id
  | .completeGet _ => ¬ Registered x id ∧ ¬ Listed x id
  | .completeSet _ => ¬ Registered x id ∧ ¬ Listed x id
  | .done c => c = 200 → ¬ Registered x id ∧ ¬ Listed x id
  | _ => False

/-- What holds while request `n` deletes job `id` and nobody revives it. -/
structure Going (s : Service) (id : String) (n : Nat) (x : Service) : Prop where
  procs : ∀ (p : Nat) pr, x.procs[p]? = some pr → pr.spec.job.id = id →
    Follows s p id ∧ ∀ ns nr, Act.push ns nr ∉ pr.todo
  threads : ∀ t ∈ x.server.threads, t.id = id → t.pc ≠ .createGet ∧ t.pc ≠ .createSet
  way : ∃ pc, x.server.threads[n]? = some ⟨id, pc⟩ ∧ Way x id pc

theorem registered_snoc {s s' : Service} {o : Daemon.Op} (hl : s'.log = s.log ++ [o]) {id : String}
    (ho : ∀ j ns nr, o = .push j ns nr → j.id ≠ id) (h : Registered s' id) : Registered s id := by
  obtain ⟨r, hr, e⟩ := h
  rw [hl, regs_snoc] at hr
  cases o with
  | push j ns nr =>
    simp only [regStep, List.mem_append, List.mem_singleton] at hr
    rcases hr with hr | rfl
    · exact ⟨r, hr, e⟩
    · exact absurd e (ho j ns nr rfl)
  | delete id' =>
    simp only [regStep, List.mem_filter] at hr
    exact ⟨r, hr.1, e⟩
  | _ => exact ⟨r, hr, e⟩

theorem registered_same {s s' : Service} (hl : s'.log = s.log) {id : String} (h : Registered s' id) : Registered s id := by
  unfold Registered at *; rw [hl] at h; exact h

theorem way_mono {x x' : Service} {id : String} {pc : Pc} (hr : Registered x' id → Registered x id)
    (hl : Listed x' id → Listed x id) (h : Way x id pc) : Way x' id pc := by
  cases pc with
  | createGet => exact h
  | createSet => exact h
  | deleteGet => trivial
  | deleteHub j => trivial
  | removeGet j => exact fun y => h (hr y)
  | removeDel j => exact fun y => h (hr y)
  | completeGet j => exact ⟨fun y => h.1 (hr y), fun y => h.2 (hl y)⟩
  | completeSet j => exact ⟨fun y => h.1 (hr y), fun y => h.2 (hl y)⟩
  | done c => exact fun e => ⟨fun y => (h e).1 (hr y), fun y => (h e).2 (hl y)⟩

/-- A step that leaves goroutines and requests alone. -/
theorem going_same {s x x' : Service} {id : String} {n : Nat} (hp : x'.procs = x.procs) (hs : x'.server = x.server)
    (hr : Registered x' id → Registered x id) (h : Going s id n x) : Going s id n x' := by
  refine ⟨by rw [hp]; exact h.procs, by rw [hs]; exact h.threads, ?_⟩
  obtain ⟨pc, h1, h2⟩ := h.way
  exact ⟨pc, by rw [hs]; exact h1, way_mono hr (by unfold Listed; rw [hs]; exact fun y => y) h2⟩

/-- A step of the handler of one request. -/
theorem going_handle {s x x' : Service} {id : String} {n i : Nat} {t : Thread String} {hub : Bool}
    (ht : x.server.threads[i]? = some t) (hs : x'.server = Server.step x.server (.step i hub))
    (hp : ∀ (p : Nat) pr, x'.procs[p]? = some pr → pr.spec.job.id = id → x.procs[p]? = some pr)
    (hr : Registered x' id → Registered x id) (hd : ∀ j, t.pc = .deleteHub j → t.id = id → ¬ Registered x' id)
    (h : Going s id n x) : Going s id n x' := by
  have ha : x'.server = Server.advance x.server i t hub := by rw [hs]; simp only [Server.step, ht]
  -- the threads of the new state
  have key : ∃ pc', x'.server.threads = x.server.threads.set i ⟨t.id, pc'⟩ ∧
      (t.id = id → (pc' ≠ .createGet ∧ pc' ≠ .createSet) ∧ (Way x id t.pc → Way x' id pc')) ∧
      (Listed x' id → Listed x id) := by
    have hlt := List.mem_of_getElem? ht
    have listed : x'.server.running = x.server.running → (Listed x' id → Listed x id) := by
      intro e; unfold Listed; rw [e]; exact fun y => y
    have delisted : x'.server.running = x.server.running.del t.id → (Listed x' id → Listed x id) ∧
        (t.id = id → ¬ Listed x' id) := by
      intro e
      unfold Listed
      rw [e]
      constructor
      · rintro ⟨j, hj⟩
        by_cases g : id = t.id
        · subst g; rw [GoMap.get_del_same] at hj; cases hj
        · rw [GoMap.get_del_other _ (fun e => g e.symm)] at hj; exact ⟨j, hj⟩
      · rintro rfl ⟨j, hj⟩
        rw [GoMap.get_del_same] at hj; cases hj
    rw [ha]
    unfold Server.advance
    cases hpc : t.pc with
    | createGet =>
      simp only [hpc, Server.advance] at ha
      exact ⟨_, rfl, fun e => absurd hpc (h.threads t hlt e).1, listed (by rw [ha]; rfl)⟩
    | createSet =>
      simp only [hpc, Server.advance] at ha
      refine ⟨_, rfl, fun e => absurd hpc (h.threads t hlt e).2, ?_⟩
      by_cases g : t.id = id
      · exact absurd hpc (h.threads t hlt g).2
      · unfold Listed
        rw [ha]
        rintro ⟨j, hj⟩
        dsimp only at hj
        rw [GoMap.get_set_other _ _ g] at hj
        exact ⟨j, hj⟩
    | deleteGet =>
      simp only [hpc, Server.advance] at ha
      dsimp only
      cases hg : x.server.running.get t.id with
      | none =>
        rw [hg] at ha
        exact ⟨_, rfl, fun _ => ⟨⟨(fun e => by cases e), (fun e => by cases e)⟩, fun _ e => by cases e⟩, listed (by rw [ha]; rfl)⟩
      | some j =>
        rw [hg] at ha
        exact ⟨_, rfl, fun _ => ⟨⟨(fun e => by cases e), (fun e => by cases e)⟩, fun _ => trivial⟩, listed (by rw [ha]; rfl)⟩
    | deleteHub j =>
      simp only [hpc, Server.advance] at ha
      refine ⟨_, rfl, fun e => ⟨?_, ?_⟩, listed (by rw [ha]; rfl)⟩
      · cases hub <;> exact ⟨(fun e => by cases e), (fun e => by cases e)⟩
      · intro _
        cases hub
        · exact fun e => by cases e
        · exact hd j hpc e
    | removeGet j =>
      simp only [hpc, Server.advance] at ha
      refine ⟨_, rfl, fun e => ⟨?_, ?_⟩, listed (by rw [ha]; rfl)⟩
      · cases x.server.running.has t.id <;> exact ⟨(fun e => by cases e), (fun e => by cases e)⟩
      · intro hw
        cases x.server.running.has t.id
        · exact fun e => by cases e
        · exact fun y => hw (hr y)
    | removeDel j =>
      simp only [hpc, Server.advance] at ha
      have hdl := delisted (by rw [ha])
      exact ⟨_, rfl, fun e => ⟨⟨(fun e => by cases e), (fun e => by cases e)⟩, fun hw => ⟨fun y => hw (hr y), hdl.2 e⟩⟩, hdl.1⟩
    | completeGet j =>
      simp only [hpc, Server.advance] at ha
      have hll := listed (by rw [ha]; rfl)
      refine ⟨_, rfl, fun e => ⟨?_, ?_⟩, hll⟩
      · cases x.server.completed.has t.id <;> exact ⟨(fun e => by cases e), (fun e => by cases e)⟩
      · intro hw
        cases x.server.completed.has t.id
        · exact ⟨fun y => hw.1 (hr y), fun y => hw.2 (hll y)⟩
        · exact fun e => by cases e
    | completeSet j =>
      simp only [hpc, Server.advance] at ha
      have hll := listed (by rw [ha]; rfl)
      exact ⟨_, rfl, fun e => ⟨⟨(fun e => by cases e), (fun e => by cases e)⟩,
        fun hw _ => ⟨fun y => hw.1 (hr y), fun y => hw.2 (hll y)⟩⟩, hll⟩
    | done c =>
      simp only [hpc, Server.advance] at ha
      have hll := listed (by rw [ha])
      refine ⟨.done c, ?_, fun e => ⟨⟨(fun e => by cases e), (fun e => by cases e)⟩,
        fun hw e' => ⟨fun y => (hw e').1 (hr y), fun y => (hw e').2 (hll y)⟩⟩, hll⟩
      dsimp only
      rw [← hpc]
      have hlt := lt_of_get ht
      have : x.server.threads[i] = t := (List.getElem?_eq_some_iff.1 ht).2
      rw [← this]
      exact (List.set_getElem_self hlt).symm
  obtain ⟨pc', k1, k2, k3⟩ := key
  have hi := lt_of_get ht
  refine ⟨fun p pr h1 h2 => h.procs p pr (hp p pr h1 h2) h2, ?_, ?_⟩
  · intro u hu e
    rw [k1] at hu
    rcases List.mem_or_eq_of_mem_set hu with hu | rfl
    · exact h.threads u hu e
    · exact (k2 e).1
  · obtain ⟨pc, h1, h2⟩ := h.way
    by_cases g : i = n
    · subst g
      rw [ht] at h1
      injection h1 with h1
      subst h1
      exact ⟨pc', by rw [k1]; exact set_get ht, (k2 rfl).2 h2⟩
    · refine ⟨pc, ?_, way_mono hr k3 h2⟩
      rw [k1, set_get_ne (fun e => g e.symm)]
      exact h1

theorem stop_no_push {s : Hub.Spec} {c : Topology.Call} (h : c.type = Topology.typeStop) (ns nr : Int) :
    Act.push ns nr ∉ acts tbl s c := by
  unfold acts
  rw [if_pos h]
  intro hx
  rw [List.mem_flatMap] at hx
  obtain ⟨name, -, hx⟩ := hx
  unfold stopActs at hx
  split at hx <;> simp at hx

/-- Only a started container makes a job register. -/
theorem notice_no_push {pr : Proc} {ev : Option Topology.Event} (h : ∀ c, ev ≠ some ⟨0, some c⟩) (ns nr : Int) :
    Act.push ns nr ∉ (Topology.processEvent true pr.cache ev).2.1.flatMap (acts tbl pr.spec) := by
  unfold Topology.processEvent
  split
  · simp
  · rename_i e
    split
    · simp
    · rename_i c hc
      split
      · simp
      · split
        · rename_i ht
          exfalso
          exact h c (by cases e; simp only at hc ht; subst hc; subst ht; rfl)
        · split
          · simp only [if_true, List.flatMap_cons, List.flatMap_nil, List.append_nil]
            exact stop_no_push rfl ns nr
          · simp

theorem going_step {s x x' : Service} {id : String} {n : Nat} {op : Op} {out : List Delivery}
    (hm : Moves tbl crc srt x op x' out) (hr : ¬ Revives s id op) (h : Going s id n x) : Going s id n x' := by
  cases hm with
  | idle op => exact h
  | outside o d out ho hd =>
    refine going_same (x := x) rfl rfl (registered_snoc (s := x) (o := o) rfl ?_) h
    rintro j ns nr rfl; cases ho
  | create q u ok b =>
    obtain ⟨pc, h1, h2⟩ := h.way
    refine ⟨h.procs, ?_, pc, ?_, way_mono (fun y => y) (fun y => y) h2⟩
    · intro t ht e
      simp only [Server.step, List.mem_append, List.mem_singleton] at ht
      rcases ht with ht | rfl
      · exact h.threads t ht e
      · exact absurd e hr
    · simp only [Server.step]
      rw [List.getElem?_append_left (lt_of_get h1)]; exact h1
  | delete id' =>
    obtain ⟨pc, h1, h2⟩ := h.way
    refine ⟨h.procs, ?_, pc, ?_, way_mono (fun y => y) (fun y => y) h2⟩
    · intro t ht e
      simp only [Server.step, List.mem_append, List.mem_singleton] at ht
      rcases ht with ht | rfl
      · exact h.threads t ht e
      · exact ⟨(fun e => by cases e), (fun e => by cases e)⟩
    · simp only [Server.step]
      rw [List.getElem?_append_left (lt_of_get h1)]; exact h1
  | handleDelete i t j d out ht hp hd =>
    refine going_handle (x := x) ht rfl (fun _ _ e _ => e) (registered_snoc (s := x) (o := .delete t.id) rfl ?_) ?_ h
    · rintro j ns nr e; cases e
    · rintro j' - rfl
      exact not_registered_delete (s := x) t.id
  | handleCreate i t ht hp =>
    refine going_handle (x := x) ht rfl ?_ (fun y => y) ?_ h
    · intro p pr hp' e
      rw [List.getElem?_append] at hp'
      split at hp'
      · exact hp'
      · have hmem := List.mem_of_getElem? hp'
        rw [List.mem_singleton] at hmem
        subst hmem
        exact absurd hp (h.threads t (List.mem_of_getElem? ht) e).2
    · intro j' e; rw [hp] at e; cases e
  | handleOther i t ht h1 h2 =>
    exact going_handle (x := x) ht rfl (fun _ _ e _ => e) (fun y => y) (fun j e => absurd e (h1 j)) h
  | notice p ev pr hp ht =>
    refine ⟨?_, h.threads, h.way⟩
    intro q pr' hq e
    rcases get_set (lt_of_get hp) hq with ⟨rfl, rfl⟩ | ⟨-, hq⟩
    · have hf := (h.procs q pr hp e).1
      refine ⟨hf, fun ns nr => notice_no_push ?_ ns nr⟩
      rintro c rfl
      exact hr hf
    · exact h.procs q pr' hq e
  | work p f pr a rest o d out hp ht ha hd =>
    have hg : ∀ x' : Service, x'.log = x.log ++ [o] → Registered x' id → Registered x id := by
      intro x' hl
      refine registered_snoc (s := x) (o := o) hl ?_
      rintro j ns nr rfl e
      cases a <;> simp only [actOp, Option.some.injEq, reduceCtorEq, Daemon.Op.push.injEq] at ha
      obtain ⟨rfl, rfl, rfl⟩ := ha
      exact (h.procs p pr hp e).2 _ _ (by rw [ht]; exact List.mem_cons_self)
    obtain ⟨pc, h1, h2⟩ := h.way
    refine ⟨?_, h.threads, pc, h1, way_mono (hg _ rfl) (fun y => y) h2⟩
    intro q pr' hq e
    rcases get_set (lt_of_get hp) hq with ⟨rfl, rfl⟩ | ⟨-, hq⟩
    · have hf := h.procs q pr hp e
      refine ⟨hf.1, fun ns nr => ?_⟩
      dsimp only
      split
      · intro hx; exact hf.2 ns nr (by rw [ht]; exact List.mem_cons_of_mem _ hx)
      · simp
    · exact h.procs q pr' hq e
  | watch w hw => exact going_same (x := x) rfl rfl (fun y => y) h
  | attach k draw se d out hk ht hd =>
    refine going_same (x := x) rfl rfl (registered_snoc (s := x) (o := attachOp draw se.watch) rfl ?_) h
    rintro j ns nr e
    cases hw : se.watch <;> rw [hw] at e <;> cases e
  | close k se hk => exact going_same (x := x) rfl rfl (fun y => y) h
  | hangJob k fails se t id' d out hk ht ho hc hw hd =>
    refine going_same (x := x) rfl rfl (registered_snoc (s := x) (o := .detach t) rfl ?_) h
    rintro j ns nr e; cases e
  | hangPath k fails se t ns pod c hk ht ho hc hw => exact going_same (x := x) rfl rfl (fun y => y) h

theorem going_start {s : Service} {id : String} (hq : Spec.Server.Quiet s.server id) (hi : Idle s id)
    {s1 : Service} {out : List Delivery} (h : step tbl crc srt s (.delete id) = some (s1, out)) :
    Going s id (next s) s1 := by
  simp only [step] at h
  obtain ⟨rfl, rfl⟩ := done_elim h
  refine ⟨?_, ?_, .deleteGet, last_get, trivial⟩
  · intro p pr hp e
    refine ⟨⟨pr, hp, e⟩, ?_⟩
    intro ns nr hx
    rw [hi pr (List.mem_of_getElem? hp) e] at hx
    cases hx
  · intro t ht e
    simp only [Server.step, List.mem_append, List.mem_singleton] at ht
    rcases ht with ht | rfl
    · constructor <;> intro hpc <;> exact hq t ht (fun c e' => by rw [hpc] at e'; cases e') e
    · exact ⟨(fun e => by cases e), (fun e => by cases e)⟩

theorem going_run {s s' : Service} {id : String} {post : List Op} (hq : Spec.Server.Quiet s.server id) (hi : Idle s id)
    (hr : ∀ op ∈ post, ¬ Revives s id op) (h : run tbl crc srt s (.delete id :: post) = some s') :
    Going s id (next s) s' := by
  obtain ⟨s1, out, h1, h2⟩ := run_cons_some h
  exact run_induct h2 (going_start hq hi h1) (fun _ op _ _ hop hm hx => going_step hm (hr op hop) hx)

/-- The goroutine of a job registers it when it hears of a container. -/
theorem revive {s : Service} {p : Nat} {pr : Proc} (hp : s.procs[p]? = some pr) (hi : pr.todo = [])
    {name : String} {rest : List String} (hc : pr.spec.calls = name :: rest) {sc : Syscalls.Syscall}
    (hl : Syscalls.lookup tbl (.str name) = some sc) {c : Topology.Container} (hpos : 0 < c.pidns)
    (hsel : Hub.hostMatch pr.spec c.name = true) :
    ∃ s1, run tbl crc srt s [.notice p (some ⟨0, some c⟩), .work p {}] = some s1 ∧ s1.server = s.server ∧
      s1.log = s.log ++ [.push pr.spec.job c.pidns sc.nr] := by
  have hneg : ¬ c.pidns ≤ 0 := by omega
  have hpe : Topology.processEvent true pr.cache (some ⟨0, some c⟩) =
      (GoMap.set pr.cache c.pidns c, [⟨Topology.typeStart, c, GoMap.set pr.cache c.pidns c⟩], none) := by
    simp only [Topology.processEvent, if_neg hneg]
    rfl
  obtain ⟨more, hacts⟩ : ∃ more, acts tbl pr.spec ⟨Topology.typeStart, c, GoMap.set pr.cache c.pidns c⟩ =
      .push c.pidns sc.nr :: more := by
    unfold acts
    rw [if_neg (show ¬ Topology.typeStart = Topology.typeStop by decide), if_pos rfl]
    simp only [hsel, if_true, hc, List.flatMap_cons, startActs, hl]
    exact ⟨_, rfl⟩
  have h1 : step tbl crc srt s (.notice p (some ⟨0, some c⟩)) =
      some ({ s with procs := s.procs.set p ⟨pr.spec, GoMap.set pr.cache c.pidns c, .push c.pidns sc.nr :: more⟩ }, []) := by
    simp only [step, hp, hi, hpe, List.flatMap_cons, List.flatMap_nil, List.append_nil, hacts]
  obtain ⟨s0, hs0, e1, e2, e3⟩ : ∃ s0, step tbl crc srt s (.notice p (some ⟨0, some c⟩)) = some (s0, []) ∧
      s0.server = s.server ∧ s0.log = s.log ∧
      s0.procs[p]? = some ⟨pr.spec, GoMap.set pr.cache c.pidns c, .push c.pidns sc.nr :: more⟩ :=
    ⟨_, h1, rfl, rfl, set_get hp⟩
  obtain ⟨s1, out, hs1, e4, e5⟩ : ∃ s1 out, step tbl crc srt s0 (.work p {}) = some (s1, out) ∧
      s1.server = s0.server ∧ s1.log = s0.log ++ [.push pr.spec.job c.pidns sc.nr] := by
    simp only [step, e3, actOp, perform, Daemon.step]
    exact ⟨_, _, rfl, rfl, rfl⟩
  exact ⟨s1, run_cons_of hs0 (run_cons_of hs1 rfl), by rw [e4, e1], by rw [e5, e2]⟩

theorem eq_of_token {us : List Spec.Daemon.User} (hn : (us.map (·.token)).Nodup) {u v : Spec.Daemon.User} (hu : u ∈ us)
    (hv : v ∈ us) (h : u.token = v.token) : u = v := by
  induction us with
  | nil => cases hu
  | cons x xs ih =>
    rw [List.map_cons, List.nodup_cons] at hn
    rcases List.mem_cons.1 hu with e | hu' <;> rcases List.mem_cons.1 hv with e' | hv'
    · rw [e, e']
    · exact absurd (List.mem_map.2 ⟨v, hv', by rw [← h, e]⟩) hn.1
    · exact absurd (List.mem_map.2 ⟨u, hu', by rw [h, e']⟩) hn.1
    · exact ih hn.2 hu' hv'

end Swoll.Lemmas.Service
