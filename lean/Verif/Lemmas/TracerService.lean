import Verif.Lemmas.Tracer
/-
`swoll trace` is a server with one job and one client, and its registrations.
-/
namespace Swoll.Lemmas.Tracer
open Swoll Swoll.Tracer
open Swoll.Daemon (Daemon Delivery)
open Swoll.Event (TraceEvent)
open Swoll.Host (Format)
open Swoll.Spec.Daemon (Delivered registrations regStep users)

variable {tbl : Syscalls.Syscalls} {crc : String → BitVec 64} {srt : List PubSub.Env → List PubSub.Env}
variable {fmt : Format} {json : TraceEvent Topology.Container → List Char}

/-- The request that asks for the same job. -/
def prelude (id : String) (given : List String) : List Service.Op :=
  [.create (some id) id true { hosts := [], calls := Host.namesOf given, rate := 0 }, .handle 0, .handle 0]

/-- The same operation of the server. -/
def tr (id : String) (attached : Bool) : Op → List Service.Op
  | .outside o _ => [.outside o]
  | .notice ev => [.notice 0 ev]
  | .work f => [.work 0 f]
  | .attach draw => if attached then [] else [.watch (.job id), .attach 0 draw]

/-- The server looks like the tracer. -/
structure Like (id : String) (given : List String) (s : Service.Service) (t : Tracer) : Prop where
  daemon : s.daemon = t.daemon
  log : s.log = t.log
  procs : s.procs = [t.proc]
  spec : t.proc.spec = spec id given
  listed : s.server.running.has id = true
  sessions : s.sessions = if t.attached then [⟨.job id, some 0, false, false⟩] else []
  attached : s.attached = if t.attached then 1 else 0

theorem like_start (id : String) (given : List String) :
    ∃ s, Service.run tbl crc srt (Service.fresh tbl) (prelude id given) = some s ∧ Like id given s (start tbl id given) ∧
      Spec.Service.Answered s 0 id 201 := by
  refine ⟨_, rfl, ⟨rfl, rfl, rfl, rfl, ?_, rfl, rfl⟩, rfl⟩
  exact Lemmas.Server.has_iff.2 ⟨_, GoMap.get_set_same _ _ _⟩

theorem like_move {id : String} {given : List String} {s : Service.Service} {t : Tracer} (hl : Like id given s t) (op : Op) :
    (move tbl crc srt t op = none → Service.run tbl crc srt s (tr id t.attached op) = none) ∧
    ∀ t' out, move tbl crc srt t op = some (t', out) →
      ∃ s', Service.run tbl crc srt s (tr id t.attached op) = some s' ∧ Like id given s' t' := by
  have hp0 : s.procs[0]? = some t.proc := by rw [hl.procs]; rfl
  have hset : ∀ p, s.procs.set 0 p = [p] := by intro p; rw [hl.procs]; rfl
  cases op with
  | outside o env =>
    simp only [move, tr, Service.run, Service.step, perform, Service.perform, hl.daemon]
    split
    · cases hd : Daemon.step tbl crc srt t.daemon o with
      | none => exact ⟨fun _ => rfl, fun t' out h => (by cases h)⟩
      | some r =>
        refine ⟨fun h => (by cases h), ?_⟩
        intro t' out h
        simp only [Option.map_some, Option.some.injEq, Prod.mk.injEq] at h
        obtain ⟨rfl, -⟩ := h
        exact ⟨_, rfl, ⟨rfl, by simp [hl.log], hl.procs, hl.spec, hl.listed, hl.sessions, hl.attached⟩⟩
    · refine ⟨fun h => (by cases h), ?_⟩
      intro t' out h
      simp only [Option.some.injEq, Prod.mk.injEq] at h
      obtain ⟨rfl, -⟩ := h
      exact ⟨s, rfl, hl⟩
  | notice ev =>
    simp only [move, tr, Service.run, Service.step, hp0]
    split
    · rename_i hx
      refine ⟨fun h => (by cases h), ?_⟩
      intro t' out h
      simp only [Option.some.injEq, Prod.mk.injEq] at h
      obtain ⟨rfl, -⟩ := h
      simp only [hx]
      exact ⟨s, rfl, hl⟩
    · rename_i hx
      refine ⟨fun h => (by cases h), ?_⟩
      intro t' out h
      simp only [Option.some.injEq, Prod.mk.injEq] at h
      obtain ⟨rfl, -⟩ := h
      simp only [hx]
      exact ⟨_, rfl, ⟨hl.daemon, hl.log, hset _, hl.spec, hl.listed, hl.sessions, hl.attached⟩⟩
  | work f =>
    simp only [move, tr, Service.run, Service.step, hp0]
    cases hx : t.proc.todo with
    | nil =>
      refine ⟨fun h => (by cases h), ?_⟩
      intro t' out h
      simp only [Option.some.injEq, Prod.mk.injEq] at h
      obtain ⟨rfl, -⟩ := h
      exact ⟨s, rfl, hl⟩
    | cons a rest =>
      dsimp only
      cases ha : Service.actOp t.proc.spec.job f a with
      | none => exact ⟨fun _ => rfl, fun t' out h => (by cases h)⟩
      | some o =>
        simp only [perform, Service.perform, hl.daemon]
        cases hd : Daemon.step tbl crc srt t.daemon o with
        | none => exact ⟨fun _ => rfl, fun t' out h => (by cases h)⟩
        | some r =>
          refine ⟨fun h => (by cases h), ?_⟩
          intro t' out h
          simp only [Option.map_some, Option.some.injEq, Prod.mk.injEq] at h
          obtain ⟨rfl, -⟩ := h
          exact ⟨_, rfl, ⟨rfl, by simp [hl.log], hset _, hl.spec, hl.listed, hl.sessions, hl.attached⟩⟩
  | attach draw =>
    have hid : t.proc.spec.job.id = id := by rw [hl.spec]; rfl
    cases hat : t.attached with
    | true =>
      simp only [move, hat, tr, if_true, Service.run]
      refine ⟨fun h => (by cases h), ?_⟩
      intro t' out h
      simp only [Option.some.injEq, Prod.mk.injEq] at h
      obtain ⟨rfl, -⟩ := h
      exact ⟨s, rfl, hl⟩
    | false =>
      have hse : s.sessions = [] := by rw [hl.sessions, hat]; rfl
      have hat0 : s.attached = 0 := by rw [hl.attached, hat]; rfl
      simp only [move, hat, tr, Bool.false_eq_true, if_false, Service.run, Service.step, hl.listed, if_true, hse, List.nil_append]
      simp only [List.getElem?_cons_zero, Service.attachOp, perform, Service.perform, hl.daemon, hid]
      cases hd : Daemon.step tbl crc srt t.daemon (.attachTrace id draw) with
      | none => exact ⟨fun _ => rfl, fun t' out h => (by cases h)⟩
      | some r =>
        refine ⟨fun h => (by cases h), ?_⟩
        intro t' out h
        simp only [Option.map_some, Option.some.injEq, Prod.mk.injEq] at h
        obtain ⟨rfl, -⟩ := h
        exact ⟨_, rfl, ⟨rfl, by simp [hl.log], hl.procs, hl.spec, hl.listed, by simp [hat0], by simp [hat0]⟩⟩

/-- The tracer never forgets what it is about. -/
theorem like_out {id : String} {given : List String} {s : Service.Service} {t : Tracer} (hl : Like id given s t) (ls : List (List Char)) :
    Like id given s { t with out := ls } := ⟨hl.daemon, hl.log, hl.procs, hl.spec, hl.listed, hl.sessions, hl.attached⟩

theorem like_step {id : String} {given : List String} {s : Service.Service} {t t' : Tracer} {op : Op} (hl : Like id given s t)
    (h : step tbl crc srt fmt json t op = some t') :
    ∃ s', Service.run tbl crc srt s (tr id t.attached op) = some s' ∧ Like id given s' t' := by
  obtain ⟨t1, ds, hm, hp⟩ := step_elim h
  obtain ⟨s', h1, h2⟩ := (like_move (tbl := tbl) (crc := crc) (srt := srt) hl op).2 t1 ds hm
  refine ⟨s', h1, ?_⟩
  rcases hp with ⟨rfl, -⟩ | ⟨o, env, ls, -, -, rfl⟩
  · exact h2
  · exact like_out h2 _

/-- What holds of the operations of the tracer and of watching holds of those of the server. -/
theorem like_run {id : String} {given : List String} {t t' : Tracer} {s : Service.Service} {ops : List Op}
    (hl : Like id given s t) (h : run tbl crc srt fmt json t ops = some t') :
    ∃ sops s', Service.run tbl crc srt s sops = some s' ∧ Like id given s' t' ∧
      ∀ o ∈ sops, (∃ op ∈ ops, ∃ b, o ∈ tr id b op) := by
  induction ops generalizing s t with
  | nil =>
    simp only [run, Option.some.injEq] at h; subst h
    exact ⟨[], s, rfl, hl, fun o ho => by cases ho⟩
  | cons op ops ih =>
    obtain ⟨t1, h1, h2⟩ := run_cons_some h
    obtain ⟨s1, g1, g2⟩ := like_step hl h1
    obtain ⟨sops, s', e1, e2, e3⟩ := ih g2 h2
    refine ⟨tr id t.attached op ++ sops, s', ?_, e2, ?_⟩
    · rw [Lemmas.Service.run_append, g1]; exact e1
    · intro o ho
      rcases List.mem_append.1 ho with ho | ho
      · exact ⟨op, by simp, _, ho⟩
      · obtain ⟨op', h1, h2⟩ := e3 o ho
        exact ⟨op', by simp [h1], h2⟩

theorem tr_sane {id : String} {b : Bool} {op : Op} {o : Service.Op} (ho : o ∈ tr id b op) (h : Spec.Tracer.Sane op) :
    Spec.Service.Sane o := by
  cases op with
  | outside x env => simp only [tr, List.mem_singleton] at ho; subst ho; exact h
  | notice ev => simp only [tr, List.mem_singleton] at ho; subst ho; trivial
  | work f => simp only [tr, List.mem_singleton] at ho; subst ho; trivial
  | attach d =>
    simp only [tr] at ho
    split at ho
    · cases ho
    · simp only [List.mem_cons, List.not_mem_nil, or_false] at ho
      rcases ho with rfl | rfl <;> trivial

theorem tr_placed {id : String} {b : Bool} {op : Op} {o : Service.Op} (ho : o ∈ tr id b op) (h : Spec.Tracer.Placed op) :
    Spec.Service.Placed o := by
  cases op with
  | outside x env => simp only [tr, List.mem_singleton] at ho; subst ho; exact h
  | notice ev => simp only [tr, List.mem_singleton] at ho; subst ho; trivial
  | work f => simp only [tr, List.mem_singleton] at ho; subst ho; trivial
  | attach d =>
    simp only [tr] at ho
    split at ho
    · cases ho
    · simp only [List.mem_cons, List.not_mem_nil, or_false] at ho
      rcases ho with rfl | rfl <;> trivial

theorem tr_numbered {id : String} {b : Bool} {op : Op} {o : Service.Op} (ho : o ∈ tr id b op) (h : Spec.Tracer.Numbered op) :
    Spec.Service.Numbered o := by
  cases op with
  | outside x env => simp only [tr, List.mem_singleton] at ho; subst ho; trivial
  | notice ev =>
    simp only [tr, List.mem_singleton] at ho; subst ho
    rcases ev with _ | ⟨ty, _ | c⟩
    · trivial
    · trivial
    · exact h
  | work f => simp only [tr, List.mem_singleton] at ho; subst ho; trivial
  | attach d =>
    simp only [tr] at ho
    split at ho
    · cases ho
    · simp only [List.mem_cons, List.not_mem_nil, or_false] at ho
      rcases ho with rfl | rfl <;> trivial

theorem prelude_ok {id : String} {given : List String} {o : Service.Op} (ho : o ∈ prelude id given) :
    Spec.Service.Sane o ∧ Spec.Service.Placed o ∧ Spec.Service.Numbered o := by
  simp only [prelude, List.mem_cons, List.not_mem_nil, or_false] at ho
  rcases ho with rfl | rfl | rfl <;> exact ⟨trivial, trivial, trivial⟩

/-- A history of the tracer is one of the server. -/
theorem like_history {id : String} {given : List String} {t : Tracer} {ops : List Op}
    (h : run tbl crc srt fmt json (start tbl id given) ops = some t) :
    ∃ sops s, Service.run tbl crc srt (Service.fresh tbl) (prelude id given ++ sops) = some s ∧ Like id given s t ∧
      ∀ o ∈ sops, (∃ op ∈ ops, ∃ b, o ∈ tr id b op) := by
  obtain ⟨s0, h0, h1, -⟩ := like_start (tbl := tbl) (crc := crc) (srt := srt) id given
  obtain ⟨sops, s, e1, e2, e3⟩ := like_run h1 h
  exact ⟨sops, s, by rw [Lemmas.Service.run_append, h0]; exact e1, e2, e3⟩

theorem log_sane {id : String} {given : List String} {t : Tracer} {ops : List Op}
    (h : run tbl crc srt fmt json (start tbl id given) ops = some t) (hs : ∀ o ∈ ops, Spec.Tracer.Sane o) :
    ∀ o ∈ t.log, Spec.Daemon.SaneOp o := by
  obtain ⟨sops, s, h1, h2, h3⟩ := like_history h
  rw [← h2.log]
  refine Lemmas.Service.sane_run h1 ?_ (fun o ho => by cases ho)
  intro o ho
  rcases List.mem_append.1 ho with ho | ho
  · exact (prelude_ok ho).1
  · obtain ⟨op, q1, b, q2⟩ := h3 o ho
    exact tr_sane q2 (hs op q1)

theorem log_once {id : String} {given : List String} {t : Tracer} {ops : List Op}
    (h : run tbl crc srt fmt json (start tbl id given) ops = some t) : Spec.Daemon.DetachOnce t.log := by
  obtain ⟨sops, s, h1, h2, -⟩ := like_history h
  rw [← h2.log]
  exact (Lemmas.Service.sinv_run h1).once

/-- There is one user at most. -/
theorem log_users {id : String} {given : List String} {t : Tracer} {ops : List Op}
    (h : run tbl crc srt fmt json (start tbl id given) ops = some t) : 
    ∀ u, u ∈ users t.log ↔ t.attached = true ∧ u = ⟨0, .job id⟩ := by
  obtain ⟨sops, s, h1, h2, -⟩ := like_history h
  intro u
  rw [← h2.log, (Lemmas.Service.sinv_run h1).users u, h2.sessions]
  constructor
  · rintro ⟨k, se, e1, e2, e3, -⟩
    cases ha : t.attached with
    | false => rw [ha] at e1; simp at e1
    | true =>
      rw [ha] at e1
      have := List.mem_of_getElem? e1
      simp only [if_true, List.mem_singleton] at this
      subst this
      refine ⟨rfl, ?_⟩
      injection e2 with e2
      cases u with
      | mk tok tg =>
        simp only at e2 e3
        rw [e3, ← e2]
        rfl
  · rintro ⟨ha, rfl⟩
    refine ⟨0, ⟨.job id, some 0, false, false⟩, by rw [ha]; rfl, rfl, rfl, ?_⟩
    rintro ⟨e, -⟩; cases e

end Swoll.Lemmas.Tracer
