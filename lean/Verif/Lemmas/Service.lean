import Verif.Model.Service
import Verif.Spec.Daemon
import Verif.Lemmas.Daemon
/-
The steps of the service one by one, and what it does to the daemon.
-/
namespace Swoll.Lemmas.Service
open Swoll Swoll.Service
open Swoll.Daemon (Daemon Delivery)

variable {tbl : Syscalls.Syscalls} {crc : String → BitVec 64} {srt : List PubSub.Env → List PubSub.Env}

/-- The body of a request that has none. -/
abbrev noBody : Body := { hosts := [], calls := [], rate := 0 }

/-- The steps of the service. -/
inductive Moves (tbl : Syscalls.Syscalls) (crc : String → BitVec 64) (srt : List PubSub.Env → List PubSub.Env)
    (s : Service) : Op → Service → List Delivery → Prop
  | idle (op : Op) : Moves tbl crc srt s op s []
  | outside (o : Daemon.Op) (d : Daemon) (out : List Delivery) (ho : isOutside o = true)
      (h : Daemon.step tbl crc srt s.daemon o = some (d, out)) :
      Moves tbl crc srt s (.outside o) { s with daemon := d, log := s.log ++ [o] } out
  | create (q : Option String) (u : String) (ok : Bool) (b : Body) :
      Moves tbl crc srt s (.create q u ok b)
        { s with server := Server.step s.server (.create q u ok), bodies := s.bodies ++ [b] } []
  | delete (id : String) : Moves tbl crc srt s (.delete id)
      { s with server := Server.step s.server (.delete id), bodies := s.bodies ++ [noBody] } []
  | handleDelete (i : Nat) (t : Server.Thread String) (j : Server.Job) (d : Daemon) (out : List Delivery)
      (ht : s.server.threads[i]? = some t) (hp : t.pc = .deleteHub j)
      (h : Daemon.step tbl crc srt s.daemon (.delete t.id) = some (d, out)) :
      Moves tbl crc srt s (.handle i)
        { s with daemon := d, log := s.log ++ [.delete t.id],
                 server := Server.step s.server (.step i (Hub.findJobListByID s.daemon.hub t.id).isSome) } out
  | handleCreate (i : Nat) (t : Server.Thread String) (ht : s.server.threads[i]? = some t) (hp : t.pc = .createSet) :
      Moves tbl crc srt s (.handle i)
        { s with server := Server.step s.server (.step i true),
                 procs := s.procs ++ [⟨⟨⟨i, t.id, (s.bodies.getD i noBody).rate⟩,
                   (s.bodies.getD i noBody).hosts, (s.bodies.getD i noBody).calls⟩, [], []⟩] } []
  | handleOther (i : Nat) (t : Server.Thread String) (ht : s.server.threads[i]? = some t)
      (h1 : ∀ j, t.pc ≠ .deleteHub j) (h2 : t.pc ≠ .createSet) :
      Moves tbl crc srt s (.handle i) { s with server := Server.step s.server (.step i true) } []
  | notice (p : Nat) (ev : Option Topology.Event) (pr : Proc) (hp : s.procs[p]? = some pr) (ht : pr.todo = []) :
      Moves tbl crc srt s (.notice p ev)
        { s with procs := s.procs.set p ⟨pr.spec, (Topology.processEvent true pr.cache ev).1,
          (Topology.processEvent true pr.cache ev).2.1.flatMap (acts tbl pr.spec)⟩ } []
  | work (p : Nat) (f : Filter.Faults) (pr : Proc) (a : Act) (rest : List Act) (o : Daemon.Op) (d : Daemon)
      (out : List Delivery) (hp : s.procs[p]? = some pr) (ht : pr.todo = a :: rest)
      (ha : actOp pr.spec.job f a = some o) (h : Daemon.step tbl crc srt s.daemon o = some (d, out)) :
      Moves tbl crc srt s (.work p f)
        { s with daemon := d, log := s.log ++ [o],
                 procs := s.procs.set p { pr with todo := if goesOn tbl s.daemon.hub.maps pr.spec.job f a then rest else [] } } out
  | watch (w : Watch) (h : ∀ id, w = .job id → s.server.running.has id = true) :
      Moves tbl crc srt s (.watch w) { s with sessions := s.sessions ++ [⟨w, none, false, false⟩] } []
  | attach (k : Nat) (draw : Int) (se : Session) (d : Daemon) (out : List Delivery) (hk : s.sessions[k]? = some se)
      (ht : se.tok = none) (h : Daemon.step tbl crc srt s.daemon (attachOp draw se.watch) = some (d, out)) :
      Moves tbl crc srt s (.attach k draw)
        { s with daemon := d, log := s.log ++ [attachOp draw se.watch],
                 sessions := s.sessions.set k { se with tok := some s.attached }, attached := s.attached + 1 } out
  | close (k : Nat) (se : Session) (hk : s.sessions[k]? = some se) :
      Moves tbl crc srt s (.close k) { s with sessions := s.sessions.set k { se with closed := true } } []
  | hangJob (k : Nat) (fails : Bool) (se : Session) (t : Nat) (id : String) (d : Daemon) (out : List Delivery)
      (hk : s.sessions[k]? = some se) (ht : se.tok = some t) (ho : se.over = false) (hc : (se.closed || fails) = true)
      (hw : se.watch = .job id) (h : Daemon.step tbl crc srt s.daemon (.detach t) = some (d, out)) :
      Moves tbl crc srt s (.ping k fails)
        { s with daemon := d, log := s.log ++ [.detach t],
                 sessions := s.sessions.set k { se with closed := true, over := true } } out
  | hangPath (k : Nat) (fails : Bool) (se : Session) (t : Nat) (ns pod c : String)
      (hk : s.sessions[k]? = some se) (ht : se.tok = some t) (ho : se.over = false) (hc : (se.closed || fails) = true)
      (hw : se.watch = .path ns pod c) :
      Moves tbl crc srt s (.ping k fails)
        { s with sessions := s.sessions.set k { se with closed := true, over := true } } []

theorem perform_elim {s s' : Service} {o : Daemon.Op} {out : List Delivery}
    (h : perform tbl crc srt s o = some (s', out)) :
    ∃ d, Daemon.step tbl crc srt s.daemon o = some (d, out) ∧ s' = { s with daemon := d, log := s.log ++ [o] } := by
  unfold perform at h
  rw [Option.map_eq_some_iff] at h
  obtain ⟨⟨d, out'⟩, h1, h2⟩ := h
  simp only [Prod.mk.injEq] at h2
  obtain ⟨h2, rfl⟩ := h2
  exact ⟨d, h1, h2.symm⟩

theorem done_elim {α β : Type} {a a' : α} {b b' : β} (h : some (a, b) = some (a', b')) : a' = a ∧ b' = b := by
  injection h with h; injection h with h1 h2; exact ⟨h1.symm, h2.symm⟩

theorem step_moves {s s' : Service} {op : Op} {out : List Delivery} (h : step tbl crc srt s op = some (s', out)) :
    Moves tbl crc srt s op s' out := by
  cases op with
  | outside o =>
    simp only [step] at h
    split at h
    · obtain ⟨d, h1, rfl⟩ := perform_elim h
      exact .outside o d out (by assumption) h1
    · obtain ⟨rfl, rfl⟩ := done_elim h; exact .idle _
  | create q u ok b =>
    simp only [step] at h
    obtain ⟨rfl, rfl⟩ := done_elim h; exact .create q u ok b
  | delete id =>
    simp only [step] at h
    obtain ⟨rfl, rfl⟩ := done_elim h; exact .delete id
  | handle i =>
    simp only [step, handle] at h
    split at h
    · obtain ⟨rfl, rfl⟩ := done_elim h; exact .idle _
    · rename_i t ht
      split at h
      · rename_i j hp
        rw [Option.map_eq_some_iff] at h
        obtain ⟨⟨s1, out1⟩, h1, h2⟩ := h
        obtain ⟨d, h3, rfl⟩ := perform_elim h1
        simp only [Prod.mk.injEq] at h2
        obtain ⟨rfl, rfl⟩ := h2
        exact .handleDelete i t j d out1 ht hp h3
      · rename_i hp
        obtain ⟨rfl, rfl⟩ := done_elim h
        exact .handleCreate i t ht hp
      · rename_i h1 h2
        obtain ⟨rfl, rfl⟩ := done_elim h
        exact .handleOther i t ht (fun j => h1 j) h2
  | notice p ev =>
    simp only [step] at h
    split at h
    · obtain ⟨rfl, rfl⟩ := done_elim h; exact .idle _
    · rename_i pr hp
      split at h
      · obtain ⟨rfl, rfl⟩ := done_elim h; exact .idle _
      · rename_i ht
        obtain ⟨rfl, rfl⟩ := done_elim h
        exact .notice p ev pr hp ht
  | work p f =>
    simp only [step] at h
    split at h
    · obtain ⟨rfl, rfl⟩ := done_elim h; exact .idle _
    · rename_i pr hp
      split at h
      · obtain ⟨rfl, rfl⟩ := done_elim h; exact .idle _
      · rename_i a rest ht
        split at h
        · cases h
        · rename_i o ho
          rw [Option.map_eq_some_iff] at h
          obtain ⟨⟨s1, out1⟩, h1, h2⟩ := h
          obtain ⟨d, h3, rfl⟩ := perform_elim h1
          simp only [Prod.mk.injEq] at h2
          obtain ⟨rfl, rfl⟩ := h2
          exact .work p f pr a rest o d out1 hp ht ho h3
  | watch w =>
    simp only [step] at h
    split at h
    · rename_i id
      split at h
      · obtain ⟨rfl, rfl⟩ := done_elim h
        exact .watch _ (fun i e => by injection e with e; subst e; assumption)
      · obtain ⟨rfl, rfl⟩ := done_elim h; exact .idle _
    · obtain ⟨rfl, rfl⟩ := done_elim h
      exact .watch _ (fun i e => by cases e)
  | attach k draw =>
    simp only [step] at h
    split at h
    · obtain ⟨rfl, rfl⟩ := done_elim h; exact .idle _
    · rename_i se hk
      split at h
      · obtain ⟨rfl, rfl⟩ := done_elim h; exact .idle _
      · rename_i ht
        rw [Option.map_eq_some_iff] at h
        obtain ⟨⟨s1, out1⟩, h1, h2⟩ := h
        obtain ⟨d, h3, rfl⟩ := perform_elim h1
        simp only [Prod.mk.injEq] at h2
        obtain ⟨rfl, rfl⟩ := h2
        exact .attach k draw se d out1 hk ht h3
  | close k =>
    simp only [step] at h
    split at h
    · obtain ⟨rfl, rfl⟩ := done_elim h; exact .idle _
    · rename_i se hk
      obtain ⟨rfl, rfl⟩ := done_elim h
      exact .close k se hk
  | ping k fails =>
    simp only [step] at h
    split at h
    · obtain ⟨rfl, rfl⟩ := done_elim h; exact .idle _
    · rename_i se hk
      split at h
      · obtain ⟨rfl, rfl⟩ := done_elim h; exact .idle _
      · rename_i t ht
        split at h
        · obtain ⟨rfl, rfl⟩ := done_elim h; exact .idle _
        · rename_i ho
          split at h
          · rename_i hc
            split at h
            · rename_i id hw
              obtain ⟨d, h3, rfl⟩ := perform_elim h
              exact .hangJob k fails se t id d out hk ht (by simpa using ho) hc hw h3
            · rename_i ns pod c hw
              obtain ⟨rfl, rfl⟩ := done_elim h
              exact .hangPath k fails se t ns pod c hk ht (by simpa using ho) hc hw
          · obtain ⟨rfl, rfl⟩ := done_elim h; exact .idle _

/-! ### Histories -/

theorem run_append (xs ys : List Op) (s : Service) :
    run tbl crc srt s (xs ++ ys) = (run tbl crc srt s xs).bind (fun s' => run tbl crc srt s' ys) := by
  induction xs generalizing s with
  | nil => rfl
  | cons x xs ih =>
    simp only [List.cons_append, run]
    cases step tbl crc srt s x with
    | none => rfl
    | some r => exact ih _

theorem run_split {xs ys : List Op} {s s' : Service} (h : run tbl crc srt s (xs ++ ys) = some s') :
    ∃ s1, run tbl crc srt s xs = some s1 ∧ run tbl crc srt s1 ys = some s' := by
  rw [run_append, Option.bind_eq_some_iff] at h; exact h

theorem run_cons_some {o : Op} {os : List Op} {s s' : Service} (h : run tbl crc srt s (o :: os) = some s') :
    ∃ s1 out, step tbl crc srt s o = some (s1, out) ∧ run tbl crc srt s1 os = some s' := by
  simp only [run] at h
  cases hs : step tbl crc srt s o with
  | none => rw [hs] at h; cases h
  | some r => rw [hs] at h; exact ⟨r.1, r.2, rfl, h⟩

/-- Something that every step preserves holds after every history. -/
theorem run_induct {P : Service → Prop} {s s' : Service} {ops : List Op} (h : run tbl crc srt s ops = some s')
    (h0 : P s) (hs : ∀ s op s' out, op ∈ ops → Moves tbl crc srt s op s' out → P s → P s') : P s' := by
  induction ops generalizing s with
  | nil => simp only [run, Option.some.injEq] at h; subst h; exact h0
  | cons o os ih =>
    obtain ⟨s1, out, h1, h2⟩ := run_cons_some h
    exact ih h2 (hs s o s1 out (by simp) (step_moves h1) h0)
      (fun s op s' out hm => hs s op s' out (List.mem_cons_of_mem _ hm))

/-- A step of the service is at most one step of the daemon. -/
theorem moves_log {s s' : Service} {op : Op} {out : List Delivery} (h : Moves tbl crc srt s op s' out) :
    (s'.log = s.log ∧ s'.daemon = s.daemon ∧ out = []) ∨
    ∃ o, s'.log = s.log ++ [o] ∧ Daemon.step tbl crc srt s.daemon o = some (s'.daemon, out) := by
  cases h with
  | outside o d out ho h => exact Or.inr ⟨o, rfl, h⟩
  | handleDelete i t j d out ht hp h => exact Or.inr ⟨_, rfl, h⟩
  | work p f pr a rest o d out hp ht ha h => exact Or.inr ⟨_, rfl, h⟩
  | attach k draw se d out hk ht h => exact Or.inr ⟨_, rfl, h⟩
  | hangJob k fails se t id d out hk ht ho hc hw h => exact Or.inr ⟨_, rfl, h⟩
  | _ => exact Or.inl ⟨rfl, rfl, rfl⟩

/-- What the daemon has gone through is one of its histories. -/
def Logged (tbl : Syscalls.Syscalls) (crc : String → BitVec 64) (srt : List PubSub.Env → List PubSub.Env)
    (s : Service) : Prop := Daemon.run tbl crc srt (Daemon.fresh tbl) s.log = some s.daemon

theorem logged_step {s s' : Service} {op : Op} {out : List Delivery} (h : Moves tbl crc srt s op s' out)
    (hl : Logged tbl crc srt s) : Logged tbl crc srt s' := by
  unfold Logged at *
  rcases moves_log h with ⟨h1, h2, -⟩ | ⟨o, h1, h2⟩
  · rw [h1, h2]; exact hl
  · rw [h1, Lemmas.Daemon.run_append, hl]
    simp only [Option.bind_some, Daemon.run, h2]

theorem logged_run {s : Service} {ops : List Op} (h : run tbl crc srt (fresh tbl) ops = some s) :
    Logged tbl crc srt s :=
  run_induct h (by rfl) (fun _ _ _ _ _ hm hl => logged_step hm hl)

/-- The log only grows. -/
theorem log_grows {s s' : Service} {ops : List Op} (h : run tbl crc srt s ops = some s') : ∃ more, s'.log = s.log ++ more := by
  refine run_induct (P := fun x => ∃ more, x.log = s.log ++ more) h ⟨[], by simp⟩ ?_
  rintro x op x' out - hm ⟨more, e⟩
  rcases moves_log hm with ⟨h1, -, -⟩ | ⟨o, h1, -⟩
  · exact ⟨more, by rw [h1, e]⟩
  · exact ⟨more ++ [o], by rw [h1, e, List.append_assoc]⟩

end Swoll.Lemmas.Service
