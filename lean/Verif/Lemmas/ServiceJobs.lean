import Verif.Lemmas.ServiceSessions
import Verif.Lemmas.Server
import Verif.Props.Hub
/-
Deleting jobs, and what their goroutines do.
-/
namespace Swoll.Lemmas.Service
open Swoll Swoll.Service
open Swoll.Daemon (Daemon Delivery)
open Swoll.Spec.Service
open Swoll.Spec.Daemon (registrations regStep)
open Swoll.Server (Thread Pc)

variable {tbl : Syscalls.Syscalls} {crc : String → BitVec 64} {srt : List PubSub.Env → List PubSub.Env}

/-! ### Registrations -/

theorem regs_snoc (log : List Daemon.Op) (o : Daemon.Op) : registrations (log ++ [o]) = regStep (registrations log) o := by
  unfold registrations; rw [List.foldl_append]; rfl

/-- The hub of a service is one reached by hub operations, with the registrations of the log. -/
theorem hub_reached {s : Service} (hl : Logged tbl crc srt s) :
    ∃ ops, Hub.run tbl (Hub.Hub.init (Hub.newHubMaps tbl Filter.KMaps.empty)) ops = some s.daemon.hub ∧
      Spec.Hub.registered ops = registrations s.log :=
  ⟨_, Lemmas.Daemon.hub_run hl, Lemmas.Daemon.registered_trace hl⟩

theorem found_iff {s : Service} (hl : Logged tbl crc srt s) (id : String) :
    (Hub.findJobListByID s.daemon.hub id).isSome = true ↔ Registered s id := by
  obtain ⟨ops, hr, e⟩ := hub_reached hl
  have h := ((Props.Hub.c08_indexes tbl _ ops _ hr).2 id).2
  rw [e] at h
  unfold Registered
  constructor
  · intro hs
    cases hf : Hub.findJobListByID s.daemon.hub id with
    | none => rw [hf] at hs; cases hs
    | some l =>
      have : Spec.Hub.ofId (registrations s.log) id ≠ [] := fun x => by rw [h.2 x] at hf; cases hf
      obtain ⟨r, hr⟩ := List.exists_mem_of_ne_nil _ this
      unfold Spec.Hub.ofId at hr
      rw [List.mem_filter] at hr
      exact ⟨r, hr.1, by simpa using hr.2⟩
  · rintro ⟨r, hr, hid⟩
    cases hf : Hub.findJobListByID s.daemon.hub id with
    | some l => rfl
    | none =>
      have hx := h.1 hf
      have : r ∈ Spec.Hub.ofId (registrations s.log) id := List.mem_filter.2 ⟨hr, by simpa using hid⟩
      rw [hx] at this; cases this

/-- Deleting a job never ends the process, and touches only the hub. -/
theorem delete_alive {s : Service} (hl : Logged tbl crc srt s) (id : String) :
    ∃ hub, Daemon.step tbl crc srt s.daemon (.delete id) = some ({ s.daemon with hub := hub }, []) := by
  obtain ⟨ops, hr, e⟩ := hub_reached hl
  have h := (Props.Hub.c09_delete tbl _ ops _ hr id).1
  simp only [Daemon.step]
  cases hd : Hub.deleteTrace tbl s.daemon.hub id with
  | notFound => exact ⟨s.daemon.hub, rfl⟩
  | fatal => exact absurd hd h
  | done hub => exact ⟨hub, rfl⟩

/-! ### The handler of a delete request, when nothing comes between its steps -/

theorem last_get {T : List (Thread String)} {t : Thread String} : (T ++ [t])[T.length]? = some t := by simp

theorem last_set {T : List (Thread String)} {t u : Thread String} : (T ++ [t]).set T.length u = T ++ [u] := by
  rw [List.set_append_right _ _ (Nat.le_refl _)]; simp

/-- The step of the last request's handler, as far as the lists are concerned. -/
theorem server_last {st : Server.State String} {T : List (Thread String)} {id : String} {pc : Pc} {hub : Bool}
    (h : st.threads = T ++ [⟨id, pc⟩]) :
    Server.step st (.step T.length hub) = Server.advance st T.length ⟨id, pc⟩ hub := by
  simp only [Server.step, h, last_get]

theorem goto_last {st : Server.State String} {T : List (Thread String)} {id : String} {pc pc' : Pc}
    (h : st.threads = T ++ [⟨id, pc⟩]) :
    Server.goto st T.length ⟨id, pc⟩ pc' = { st with threads := T ++ [⟨id, pc'⟩] } := by
  unfold Server.goto; rw [h, last_set]

/-- A step that does not involve the hub. -/
theorem handle_plain {s : Service} {T : List (Thread String)} {id : String} {pc : Pc}
    (h : s.server.threads = T ++ [⟨id, pc⟩]) (h1 : ∀ j, pc ≠ .deleteHub j) (h2 : pc ≠ .createSet) :
    step tbl crc srt s (.handle T.length) =
      some ({ s with server := Server.advance s.server T.length ⟨id, pc⟩ true }, []) := by
  have e := server_last (hub := true) h
  simp only [step, handle, h, last_get]
  cases pc with
  | deleteHub j => exact absurd rfl (h1 j)
  | createSet => exact absurd rfl h2
  | _ => rw [← e]

theorem handle_hub {s : Service} {T : List (Thread String)} {id : String} {j : Server.Job} {d : Daemon}
    (h : s.server.threads = T ++ [⟨id, .deleteHub j⟩])
    (hd : Daemon.step tbl crc srt s.daemon (.delete id) = some (d, [])) :
    step tbl crc srt s (.handle T.length) =
      some ({ s with daemon := d, log := s.log ++ [.delete id],
                     server := { s.server with threads := T ++ [⟨id,
                       if (Hub.findJobListByID s.daemon.hub id).isSome then .removeGet j else .done 500⟩] } }, []) := by
  have e := server_last (hub := (Hub.findJobListByID s.daemon.hub id).isSome) h
  simp only [step, handle, h, last_get, perform, hd, Option.map_some, e]
  unfold Server.advance
  dsimp only
  rw [goto_last h]

theorem run_cons_of {s s1 s' : Service} {o : Op} {os : List Op} {out : List Delivery}
    (h : step tbl crc srt s o = some (s1, out)) (h' : run tbl crc srt s1 os = some s') :
    run tbl crc srt s (o :: os) = some s' := by
  simp only [run, h, h']

theorem run_done {s : Service} {T : List (Thread String)} {id : String} {c : Nat} (n : Nat)
    (h : s.server.threads = T ++ [⟨id, .done c⟩]) :
    run tbl crc srt s (List.replicate n (.handle T.length)) = some s := by
  induction n with
  | zero => rfl
  | succ n ih =>
    rw [List.replicate_succ]
    refine run_cons_of (handle_plain h (fun j e => by cases e) (fun e => by cases e)) ?_
    exact ih

theorem not_registered_delete {s : Service} (id : String) :
    ¬ ∃ r ∈ registrations (s.log ++ [Daemon.Op.delete id]), r.job.id = id := by
  rintro ⟨r, hr, e⟩
  rw [regs_snoc] at hr
  simp only [regStep, List.mem_filter, decide_eq_true_eq] at hr
  exact hr.2 e

/-- A delete request handled without interruption. -/
theorem delete_run {s : Service} (hl : Logged tbl crc srt s) (id : String) :
    ∃ s', run tbl crc srt s (.delete id :: List.replicate 6 (.handle (next s))) = some s' ∧
      s'.procs = s.procs ∧ s'.sessions = s.sessions ∧
      (s.server.running.get id = none →
        Answered s' (next s) id 404 ∧ s'.log = s.log ∧ s'.server.running = s.server.running ∧
          s'.server.completed = s.server.completed) ∧
      (∀ j, s.server.running.get id = some j → s'.log = s.log ++ [.delete id] ∧
        (¬ Registered s id → Answered s' (next s) id 500 ∧ s'.server.running = s.server.running ∧
          s'.server.completed = s.server.completed) ∧
        (Registered s id → s'.server.running = s.server.running.del id ∧
          (s.server.completed.has id = true → Answered s' (next s) id 500 ∧ s'.server.completed = s.server.completed) ∧
          (s.server.completed.has id = false →
            Answered s' (next s) id 200 ∧ s'.server.completed = s.server.completed.set id j))) := by
  obtain ⟨hub, hd⟩ := delete_alive (tbl := tbl) (crc := crc) (srt := srt) hl id
  have hf := found_iff (tbl := tbl) (crc := crc) (srt := srt) hl id
  obtain ⟨dm, ⟨run, comp, T, lg⟩, bodies, procs, sess, att, log⟩ := s
  dsimp only [Answered, next] at *
  -- a handler takes a step
  have plain : ∀ (dm : Daemon) (run comp : GoMap String Server.Job) (lg log) (pc : Pc),
      (∀ j, pc ≠ .deleteHub j) → pc ≠ .createSet →
      step tbl crc srt ⟨dm, ⟨run, comp, T ++ [⟨id, pc⟩], lg⟩, bodies ++ [noBody], procs, sess, att, log⟩ (.handle T.length) =
        some (⟨dm, Server.advance ⟨run, comp, T ++ [⟨id, pc⟩], lg⟩ T.length ⟨id, pc⟩ true, bodies ++ [noBody], procs, sess, att, log⟩, []) :=
    fun dm run comp lg log pc h1 h2 => handle_plain rfl h1 h2
  have r0 : step tbl crc srt ⟨dm, ⟨run, comp, T, lg⟩, bodies, procs, sess, att, log⟩ (.delete id) =
      some (⟨dm, ⟨run, comp, T ++ [⟨id, .deleteGet⟩], lg⟩, bodies ++ [noBody], procs, sess, att, log⟩, []) := rfl
  have r1 := plain dm run comp lg log .deleteGet (fun j e => by cases e) (fun e => by cases e)
  cases hg : run.get id with
  | none =>
    simp only [Server.advance, hg, Server.goto, last_set] at r1
    refine ⟨_, run_cons_of r0 (run_cons_of (os := List.replicate 5 _) r1 (run_done 5 rfl)), rfl, rfl,
      fun _ => ⟨last_get, rfl, rfl, rfl⟩, fun j hj => by cases hj⟩
  | some j =>
    simp only [Server.advance, hg, Server.goto, last_set] at r1
    have r2 := handle_hub (tbl := tbl) (crc := crc) (srt := srt)
      (s := ⟨dm, ⟨run, comp, T ++ [⟨id, .deleteHub j⟩], lg⟩, bodies ++ [noBody], procs, sess, att, log⟩)
      (T := T) (id := id) (j := j) rfl hd
    dsimp only at r2
    by_cases hreg : Registered ⟨dm, ⟨run, comp, T, lg⟩, bodies, procs, sess, att, log⟩ id
    · rw [if_pos (hf.2 hreg)] at r2
      have r3 := plain { dm with hub := hub } run comp lg (log ++ [.delete id]) (.removeGet j)
        (fun j e => by cases e) (fun e => by cases e)
      have hhas : run.has id = true := Lemmas.Server.has_iff.2 ⟨j, hg⟩
      simp only [Server.advance, hhas, Server.goto, last_set, if_true] at r3
      have r4 := plain { dm with hub := hub } run comp lg (log ++ [.delete id]) (.removeDel j)
        (fun j e => by cases e) (fun e => by cases e)
      simp only [Server.advance, hg, Server.goto, last_set] at r4
      have r5 := plain { dm with hub := hub } (run.del id) comp (lg ++ [.removed j id]) (log ++ [.delete id]) (.completeGet j)
        (fun j e => by cases e) (fun e => by cases e)
      cases hc : comp.has id with
      | true =>
        simp only [Server.advance, hc, Server.goto, last_set, if_true] at r5
        refine ⟨_, run_cons_of r0 (run_cons_of (os := List.replicate 5 _) r1 (run_cons_of (os := List.replicate 4 _) r2
          (run_cons_of (os := List.replicate 3 _) r3 (run_cons_of (os := List.replicate 2 _) r4
            (run_cons_of (os := List.replicate 1 _) r5 (run_done 1 rfl)))))), rfl, rfl, (fun h => by cases h), ?_⟩
        intro k hk
        refine ⟨rfl, fun hn => absurd hreg hn, fun _ => ⟨rfl, fun _ => ⟨last_get, rfl⟩, fun h => by cases h⟩⟩
      | false =>
        have r6 := plain { dm with hub := hub } (run.del id) comp (lg ++ [.removed j id]) (log ++ [.delete id]) (.completeSet j)
          (fun j e => by cases e) (fun e => by cases e)
        simp only [Server.advance, hc, Server.goto, last_set, Bool.false_eq_true, if_false] at r5
        simp only [Server.advance, Server.goto, last_set] at r6
        refine ⟨_, run_cons_of r0 (run_cons_of (os := List.replicate 5 _) r1 (run_cons_of (os := List.replicate 4 _) r2
          (run_cons_of (os := List.replicate 3 _) r3 (run_cons_of (os := List.replicate 2 _) r4
            (run_cons_of (os := List.replicate 1 _) r5 (run_cons_of (os := []) r6 rfl)))))), rfl, rfl, (fun h => by cases h), ?_⟩
        intro k hk
        injection hk with hk
        subst hk
        refine ⟨rfl, fun hn => absurd hreg hn, fun _ => ⟨rfl, (fun h => by cases h), fun _ => ⟨last_get, rfl⟩⟩⟩
    · rw [if_neg (fun h => hreg (hf.1 h))] at r2
      refine ⟨_, run_cons_of r0 (run_cons_of (os := List.replicate 5 _) r1 (run_cons_of (os := List.replicate 4 _) r2
        (run_done 4 rfl))), rfl, rfl, (fun h => by cases h), ?_⟩
      intro k hk
      exact ⟨rfl, fun _ => ⟨last_get, rfl, rfl⟩, fun h => absurd h hreg⟩

/-! ### Jobs last until they are deleted -/

/-- The handler of a request about the job is not one that deletes it. -/
def Harmless : Server.Pc → Prop
  | .createGet => True
  | .createSet => True
  | .done _ => True
  | _ => False

/-- The job is listed and no handler is about to take it off. -/
def Lasting (s : Server.State String) (id : String) : Prop :=
  (∃ j, s.running.get id = some j) ∧ ∀ t ∈ s.threads, t.id = id → Harmless t.pc

theorem lasting_handle {s : Server.State String} {id : String} (h : Lasting s id) (i : Nat) (b : Bool) :
    Lasting (Server.step s (.step i b)) id := by
  obtain ⟨⟨j, hj⟩, ht⟩ := h
  simp only [Server.step]
  split
  · exact ⟨⟨j, hj⟩, ht⟩
  · rename_i t hti
    have hput : ∀ pc, (t.id = id → Harmless pc) → ∀ x ∈ s.threads.set i { t with pc := pc }, x.id = id → Harmless x.pc := by
      intro pc hpc x hx hid
      rcases List.mem_or_eq_of_mem_set hx with hx | rfl
      · exact ht x hx hid
      · exact hpc hid
    have hold := ht t (List.mem_of_getElem? hti)
    unfold Server.advance
    cases hpc : t.pc with
    | createGet =>
      dsimp only [Server.goto]
      refine ⟨⟨j, hj⟩, hput _ ?_⟩
      intro _
      split <;> trivial
    | createSet =>
      dsimp only [Server.goto]
      refine ⟨?_, hput _ (fun _ => trivial)⟩
      by_cases e : t.id = id
      · rw [e]; exact ⟨i, GoMap.get_set_same _ _ _⟩
      · exact ⟨j, by rw [GoMap.get_set_other _ _ e]; exact hj⟩
    | done c => exact ⟨⟨j, hj⟩, ht⟩
    | deleteGet =>
      have hne : t.id ≠ id := fun e => by have := hold e; rw [hpc] at this; exact this
      dsimp only
      split
      · exact ⟨⟨j, hj⟩, hput _ (fun e => absurd e hne)⟩
      · exact ⟨⟨j, hj⟩, hput _ (fun e => absurd e hne)⟩
    | deleteHub k =>
      have hne : t.id ≠ id := fun e => by have := hold e; rw [hpc] at this; exact this
      exact ⟨⟨j, hj⟩, hput _ (fun e => absurd e hne)⟩
    | removeGet k =>
      have hne : t.id ≠ id := fun e => by have := hold e; rw [hpc] at this; exact this
      exact ⟨⟨j, hj⟩, hput _ (fun e => absurd e hne)⟩
    | removeDel k =>
      have hne : t.id ≠ id := fun e => by have := hold e; rw [hpc] at this; exact this
      refine ⟨⟨j, ?_⟩, hput _ (fun e => absurd e hne)⟩
      dsimp only
      rw [GoMap.get_del_other _ hne]; exact hj
    | completeGet k =>
      have hne : t.id ≠ id := fun e => by have := hold e; rw [hpc] at this; exact this
      exact ⟨⟨j, hj⟩, hput _ (fun e => absurd e hne)⟩
    | completeSet k =>
      have hne : t.id ≠ id := fun e => by have := hold e; rw [hpc] at this; exact this
      exact ⟨⟨j, hj⟩, hput _ (fun e => absurd e hne)⟩

theorem lasting_run {s s' : Service} {ops : List Op} {id : String} (h : run tbl crc srt s ops = some s')
    (h0 : Lasting s.server id) (hd : .delete id ∉ ops) : Lasting s'.server id := by
  refine run_induct (P := fun x => Lasting x.server id) h h0 ?_
  intro x op x' out hop hm hx
  have grow : ∀ t : Server.Thread String, (t.id = id → Harmless t.pc) →
      ∀ y ∈ x.server.threads ++ [t], y.id = id → Harmless y.pc := by
    intro t ht y hy hid
    rcases List.mem_append.1 hy with hy | hy
    · exact hx.2 y hy hid
    · rw [List.mem_singleton] at hy; subst hy; exact ht hid
  cases hm with
  | create q u ok b =>
    refine ⟨hx.1, grow ⟨q.getD u, if ok then .createGet else .done 400⟩ ?_⟩
    intro _
    cases ok <;> trivial
  | delete id' =>
    refine ⟨hx.1, grow ⟨id', .deleteGet⟩ ?_⟩
    intro e
    simp only at e
    subst e
    exact absurd hop hd
  | handleDelete i t j d out ht hp hd => exact lasting_handle hx i _
  | handleCreate i t ht hp => exact lasting_handle hx i _
  | handleOther i t ht h1 h2 => exact lasting_handle hx i _
  | _ => exact hx

end Swoll.Lemmas.Service
