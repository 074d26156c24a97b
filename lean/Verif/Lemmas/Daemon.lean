import Verif.Spec.Daemon
import Verif.Lemmas.HubJob
import Verif.Lemmas.Probe
import Verif.Lemmas.Topology
import Verif.Props.Hub
import Verif.Props.Topology
import Verif.Props.PubSub
/-
Helper lemmas for the daemon: its hub is a hub after a history of hub operations, its tree a tree
after subscriptions and cancellations, its cache a cache after notices.
-/
namespace Swoll.Lemmas.Daemon
open Swoll Swoll.Daemon Swoll.Spec.Daemon
open Swoll.Event (Task Mem KEvent TraceEvent)

variable {tbl : Syscalls.Syscalls} {crc : String → BitVec 64} {srt : List PubSub.Env → List PubSub.Env}

theorem run_append (xs ys : List Op) (d : Daemon) :
    run tbl crc srt d (xs ++ ys) = (run tbl crc srt d xs).bind (fun d' => run tbl crc srt d' ys) := by
  induction xs generalizing d with
  | nil => rfl
  | cons x xs ih =>
    simp only [List.cons_append, run]
    cases step tbl crc srt d x with
    | none => rfl
    | some r => exact ih r.1

theorem run_split {xs ys : List Op} {d d' : Daemon} (h : run tbl crc srt d (xs ++ ys) = some d') :
    ∃ d1, run tbl crc srt d xs = some d1 ∧ run tbl crc srt d1 ys = some d' := by
  rw [run_append, Option.bind_eq_some_iff] at h; exact h

theorem run_cons_some {o : Op} {os : List Op} {d d' : Daemon} (h : run tbl crc srt d (o :: os) = some d') :
    ∃ d1 out, step tbl crc srt d o = some (d1, out) ∧ run tbl crc srt d1 os = some d' := by
  simp only [run] at h
  cases hs : step tbl crc srt d o with
  | none => rw [hs] at h; cases h
  | some r => rw [hs] at h; exact ⟨r.1, r.2, rfl, h⟩

theorem run_snoc {o : Op} {os : List Op} {d d' : Daemon} (h : run tbl crc srt d (os ++ [o]) = some d') :
    ∃ d1 out, run tbl crc srt d os = some d1 ∧ step tbl crc srt d1 o = some (d', out) := by
  obtain ⟨d1, h1, h2⟩ := run_split h
  obtain ⟨d2, out, h3, h4⟩ := run_cons_some h2
  simp only [run, Option.some.injEq] at h4
  subst h4
  exact ⟨d1, out, h1, h3⟩

/-! ### The hub -/

/-- What an operation does to the hub, as hub operations. -/
def hubOps (d : Daemon) : Op → List Hub.Op
  | .enter t id mtime time _ _ =>
    .filter (.metricsEvent (ctxOf t id mtime time).ns (ctxOf t id mtime time).proc (ctxOf t id mtime time).nr) ::
      (if (ctxOf t id mtime time).nr = Probe.nrExecve then []
       else [.filter (.callEvent (ctxOf t id mtime time).ns (ctxOf t id mtime time).proc (ctxOf t id mtime time).nr)])
  | .exit t id _ mtime time _ _ _ =>
    [.filter (.metricsEvent (ctxOf t id mtime time).ns (ctxOf t id mtime time).proc (ctxOf t id mtime time).nr)]
  | .execve t time _ _ _ _ _ =>
    [.filter (.callEvent (ctxOf t 59 0 time).ns (ctxOf t 59 0 time).proc (ctxOf t 59 0 time).nr)]
  | .push j ns nr => [.push j ns nr]
  | .swap rate ns nr => [.swap rate ns nr]
  | .addSyscall k ns f => [.filter (.addSyscall k ns f)]
  | .addSampled k ns rate f => [.filter (.addSampled k ns rate f)]
  | .removeSyscall k ns => [.filter (.removeSyscall k ns)]
  | .delete id => [.delete id]
  | .act f =>
    match d.todo with
    | .addMetrics ns :: _ => [.filter (.addMetrics ns f)]
    | .removeMetrics ns :: _ => [.filter (.removeMetrics ns)]
    | _ => []
  | .route _ =>
    match d.msg with
    | some ev =>
      match ev.container, ev.syscall with
      | some _, some sc => [.event ⟨ev.pidNs, sc.nr, true⟩]
      | _, _ => []
    | none => []
  | _ => []

theorem fillMetrics_maps (s : Probe.PState) (c : Probe.Ctx) (r : Option (BitVec 64)) :
    (Probe.fillMetrics s c r).maps = (Filter.step tbl s.maps (.metricsEvent c.ns c.proc c.nr)).1 := by
  unfold Probe.fillMetrics
  dsimp only
  split
  · rfl
  · split
    · rfl
    · cases r <;> rfl

theorem enter_maps (s : Probe.PState) (c : Probe.Ctx) (args : List (BitVec 64)) (full : Bool) :
    (Probe.enter s c args full).maps =
      if c.nr = Probe.nrExecve then (Filter.step tbl s.maps (.metricsEvent c.ns c.proc c.nr)).1
      else (Filter.step tbl (Filter.step tbl s.maps (.metricsEvent c.ns c.proc c.nr)).1 (.callEvent c.ns c.proc c.nr)).1 := by
  unfold Probe.enter
  dsimp only
  rw [← fillMetrics_maps (tbl := tbl) s c none]
  split
  · rfl
  · split
    · rfl
    · split <;> rfl

theorem exit_maps (s : Probe.PState) (c : Probe.Ctx) (ret : BitVec 64) (scr : Bool) :
    (Probe.exit hasFiller s c ret scr).1.maps = (Filter.step tbl s.maps (.metricsEvent c.ns c.proc c.nr)).1 := by
  unfold Probe.exit
  dsimp only
  rw [← fillMetrics_maps (tbl := tbl) s c (some ret)]
  split
  · rfl
  · split
    · rfl
    · split <;> rfl

theorem execve_maps (s : Probe.PState) (c : Probe.Ctx) (scr : Bool) :
    (Probe.execve s c scr).1.maps = (Filter.step tbl s.maps (.callEvent c.ns c.proc c.nr)).1 := by
  unfold Probe.execve
  dsimp only
  split
  · rfl
  · split <;> rfl

theorem emit_hub (d : Daemon) (e : KEvent) (lost : Bool) : (emit d e lost).hub = d.hub := by
  unfold emit; split <;> rfl

theorem hub_one (h : Hub.Hub) (o : Hub.Op) : Hub.run tbl h [o] = (Hub.step tbl h o).map (·.1) := by
  simp only [Hub.run]
  cases Hub.step tbl h o <;> rfl

theorem hub_filter (h : Hub.Hub) (o : Filter.Op) :
    Hub.run tbl h [.filter o] = some { h with maps := (Filter.step tbl h.maps o).1 } := rfl

/-- The hub of the daemon runs the hub operations. -/
theorem hub_step {d d' : Daemon} {o : Op} {out : List Delivery} (h : step tbl crc srt d o = some (d', out)) :
    Hub.run tbl d.hub (hubOps d o) = some d'.hub := by
  cases o with
  | enter t id mtime time args full =>
    simp only [step, Option.some.injEq, Prod.mk.injEq] at h
    obtain ⟨rfl, -⟩ := h
    simp only [hubOps, Daemon.withProbe, enter_maps (tbl := tbl)]
    split <;> rfl
  | exit t id ret mtime time mem scratch lost =>
    have hm := exit_maps (tbl := tbl) d.probe (ctxOf t id mtime time) ret scratch.isSome
    simp only [step] at h
    generalize Probe.exit hasFiller d.probe (ctxOf t id mtime time) ret scratch.isSome = r at h hm
    simp only [hubOps, hub_filter]
    split at h <;> simp only [Option.some.injEq, Prod.mk.injEq] at h <;> obtain ⟨rfl, -⟩ := h <;>
      simp only [emit_hub, Daemon.withProbe, hm] <;> rfl
  | execve t time mem filename argv scratch lost =>
    have hm := execve_maps (tbl := tbl) d.probe (ctxOf t 59 0 time) scratch.isSome
    simp only [step] at h
    generalize Probe.execve d.probe (ctxOf t 59 0 time) scratch.isSome = r at h hm
    simp only [hubOps, hub_filter]
    split at h <;> simp only [Option.some.injEq, Prod.mk.injEq] at h <;> obtain ⟨rfl, -⟩ := h <;>
      simp only [emit_hub, Daemon.withProbe, hm] <;> rfl
  | push j ns nr =>
    simp only [step, Option.some.injEq, Prod.mk.injEq] at h
    obtain ⟨rfl, -⟩ := h; rfl
  | swap rate ns nr =>
    simp only [step, Option.map_eq_some_iff, Prod.mk.injEq] at h
    obtain ⟨x, hx, rfl, -⟩ := h
    simp [hubOps, hub_one, Hub.step, hx]
  | addSyscall k ns f =>
    simp only [step, Option.some.injEq, Prod.mk.injEq] at h
    obtain ⟨rfl, -⟩ := h; rfl
  | addSampled k ns rate f =>
    simp only [step, Option.some.injEq, Prod.mk.injEq] at h
    obtain ⟨rfl, -⟩ := h; rfl
  | removeSyscall k ns =>
    simp only [step, Option.some.injEq, Prod.mk.injEq] at h
    obtain ⟨rfl, -⟩ := h; rfl
  | delete id =>
    simp only [step] at h
    simp only [hubOps, hub_one, Hub.step]
    split at h
    · rename_i hd; simp only [Option.some.injEq, Prod.mk.injEq] at h; obtain ⟨rfl, -⟩ := h; simp [hd]
    · cases h
    · rename_i hd; simp only [Option.some.injEq, Prod.mk.injEq] at h; obtain ⟨rfl, -⟩ := h; simp [hd]
  | topo ev =>
    simp only [step, Option.some.injEq, Prod.mk.injEq] at h
    obtain ⟨rfl, -⟩ := h; rfl
  | act f =>
    simp only [step] at h
    simp only [hubOps]
    cases ht : d.todo with
    | nil => rw [ht] at h; simp only [Option.some.injEq, Prod.mk.injEq] at h; obtain ⟨rfl, -⟩ := h; rfl
    | cons a rest =>
      rw [ht] at h
      simp only [Option.some.injEq, Prod.mk.injEq] at h
      obtain ⟨rfl, -⟩ := h
      cases a with
      | addMetrics ns => rfl
      | removeMetrics ns => rfl
      | prune ns => simp only [doAct]; split <;> rfl
  | attachPath paths draw =>
    simp only [step, Option.map_eq_some_iff, Prod.mk.injEq] at h
    obtain ⟨x, hx, rfl, -⟩ := h; rfl
  | attachTrace id draw =>
    simp only [step, Option.map_eq_some_iff, Prod.mk.injEq] at h
    obtain ⟨x, hx, rfl, -⟩ := h; rfl
  | detach n =>
    simp only [step, Option.map_eq_some_iff, Prod.mk.injEq] at h
    obtain ⟨x, hx, rfl, -⟩ := h; rfl
  | ingest =>
    simp only [step] at h
    simp only [hubOps, Hub.run]
    split at h
    · split at h
      · simp only [Option.some.injEq, Prod.mk.injEq] at h; obtain ⟨rfl, -⟩ := h; rfl
      · cases h
      · simp only [Option.some.injEq, Prod.mk.injEq] at h; obtain ⟨rfl, -⟩ := h; rfl
    · simp only [Option.some.injEq, Prod.mk.injEq] at h; obtain ⟨rfl, -⟩ := h; rfl
  | route o =>
    simp only [step] at h
    simp only [hubOps]
    cases hm : d.msg with
    | none => rw [hm] at h; simp only [Option.some.injEq, Prod.mk.injEq] at h; obtain ⟨rfl, -⟩ := h; rfl
    | some ev =>
      rw [hm] at h
      dsimp only at h ⊢
      cases hc : ev.container with
      | none =>
        rw [hc] at h
        simp only [Option.some.injEq, Prod.mk.injEq] at h; obtain ⟨rfl, -⟩ := h; rfl
      | some c =>
        cases hsc : ev.syscall with
        | none => rw [hc, hsc] at h; cases h
        | some sc =>
          rw [hc, hsc] at h
          dsimp only at h ⊢
          cases hh : Hub.handleEvent d.hub ⟨ev.pidNs, sc.nr, true⟩ with
          | none => rw [hh] at h; cases h
          | some r =>
            rw [hh] at h
            simp only [Option.some.injEq, Prod.mk.injEq] at h
            obtain ⟨rfl, -⟩ := h
            simp [hub_one, Hub.step, hh]

/-- The hub operations of a history. -/
def hubTrace (tbl : Syscalls.Syscalls) (crc : String → BitVec 64) (srt : List PubSub.Env → List PubSub.Env) :
    Daemon → List Op → List Hub.Op
  | _, [] => []
  | d, o :: os => hubOps d o ++
    match step tbl crc srt d o with
    | none => []
    | some (d1, _) => hubTrace tbl crc srt d1 os

theorem hubTrace_cons {d d1 : Daemon} {o : Op} {out : List Delivery} (os : List Op)
    (h : step tbl crc srt d o = some (d1, out)) :
    hubTrace tbl crc srt d (o :: os) = hubOps d o ++ hubTrace tbl crc srt d1 os := by
  simp only [hubTrace, h]

theorem hubTrace_append {xs ys : List Op} {d d1 : Daemon} (h : run tbl crc srt d xs = some d1) :
    hubTrace tbl crc srt d (xs ++ ys) = hubTrace tbl crc srt d xs ++ hubTrace tbl crc srt d1 ys := by
  induction xs generalizing d with
  | nil => simp only [run, Option.some.injEq] at h; subst h; rfl
  | cons x xs ih =>
    obtain ⟨d2, out, h1, h2⟩ := run_cons_some h
    rw [List.cons_append, hubTrace_cons _ h1, hubTrace_cons _ h1, ih h2, List.append_assoc]

theorem hub_run {hist : List Op} {d d' : Daemon} (h : run tbl crc srt d hist = some d') :
    Hub.run tbl d.hub (hubTrace tbl crc srt d hist) = some d'.hub := by
  induction hist generalizing d with
  | nil => simp only [run, Option.some.injEq] at h; subst h; rfl
  | cons o os ih =>
    obtain ⟨d1, out, h1, h2⟩ := run_cons_some h
    rw [hubTrace_cons _ h1]
    rw [Lemmas.Hub.run_append_eq tbl _ _ _ _ (hub_step h1)]
    exact ih h2

/-- Registrations are those of the hub operations. -/
theorem regs_hubOps (d : Daemon) (o : Op) (rs : List Spec.Hub.Reg) :
    (hubOps d o).foldl Spec.Hub.regStep rs = regStep rs o := by
  cases o with
  | enter t id mtime time args full => simp only [hubOps]; split <;> rfl
  | act f => simp only [hubOps]; split <;> rfl
  | route o =>
    simp only [hubOps]
    split
    · split <;> rfl
    · rfl
  | _ => rfl

theorem regs_trace {hist : List Op} {d d' : Daemon} (h : run tbl crc srt d hist = some d') (rs : List Spec.Hub.Reg) :
    (hubTrace tbl crc srt d hist).foldl Spec.Hub.regStep rs = hist.foldl regStep rs := by
  induction hist generalizing d rs with
  | nil => rfl
  | cons o os ih =>
    obtain ⟨d1, out, h1, h2⟩ := run_cons_some h
    rw [hubTrace_cons _ h1, List.foldl_append, regs_hubOps, ih h2]; rfl

theorem registered_trace {hist : List Op} {d : Daemon} (h : run tbl crc srt (fresh tbl) hist = some d) :
    Spec.Hub.registered (hubTrace tbl crc srt (fresh tbl) hist) = registrations hist := regs_trace h []

/-! ### The tree of subscriptions -/

/-- The subscription operations of a history. -/
def psOp (crc : String → BitVec 64) : Op → Option PubSub.Op
  | .attachPath paths draw => some (.subscribe (Hash.attachPath crc paths) "" "" draw)
  | .attachTrace id draw => some (.subscribe (Hash.tracePath crc id) "" "" draw)
  | .detach h => some (.unsubscribe h)
  | _ => none

theorem doAct_ps (f : Filter.Faults) (d : Daemon) (a : Act) : (doAct f d a).ps = d.ps := by
  cases a with
  | prune ns => simp only [doAct]; split <;> rfl
  | _ => rfl

theorem doAct_cache (f : Filter.Faults) (d : Daemon) (a : Act) : (doAct f d a).cache = d.cache := by
  cases a with
  | prune ns => simp only [doAct]; split <;> rfl
  | _ => rfl

theorem emit_ps (d : Daemon) (e : KEvent) (lost : Bool) : (emit d e lost).ps = d.ps := by
  unfold emit; split <;> rfl

theorem emit_cache (d : Daemon) (e : KEvent) (lost : Bool) : (emit d e lost).cache = d.cache := by
  unfold emit; split <;> rfl

theorem exit_elim {d d' : Daemon} {t : Task} {id ret mtime time : BitVec 64} {mem : Mem} {scratch : Option KEvent}
    {lost : Bool} {out : List Delivery}
    (h : step tbl crc srt d (.exit t id ret mtime time mem scratch lost) = some (d', out)) :
    out = [] ∧
    ((d' = d.withProbe (Probe.exit hasFiller d.probe (ctxOf t id mtime time) ret scratch.isSome).1 ∧
        ((Probe.exit hasFiller d.probe (ctxOf t id mtime time) ret scratch.isSome).2 = none ∨ scratch = none)) ∨
      ∃ e s, (Probe.exit hasFiller d.probe (ctxOf t id mtime time) ret scratch.isSome).2 = some e ∧ scratch = some s ∧
        d' = emit (d.withProbe (Probe.exit hasFiller d.probe (ctxOf t id mtime time) ret scratch.isSome).1)
          (Event.onExit s t (callOf e ret mem)) lost) := by
  simp only [step] at h
  cases hr : (Probe.exit hasFiller d.probe (ctxOf t id mtime time) ret scratch.isSome).2 with
  | none =>
    rw [hr] at h
    simp only [Option.some.injEq, Prod.mk.injEq] at h
    exact ⟨h.2.symm, Or.inl ⟨h.1.symm, Or.inl rfl⟩⟩
  | some e =>
    cases scratch with
    | none =>
      rw [hr] at h
      simp only [Option.some.injEq, Prod.mk.injEq] at h
      exact ⟨h.2.symm, Or.inl ⟨h.1.symm, Or.inr rfl⟩⟩
    | some s =>
      rw [hr] at h
      simp only [Option.some.injEq, Prod.mk.injEq] at h
      exact ⟨h.2.symm, Or.inr ⟨e, s, rfl, rfl, h.1.symm⟩⟩

theorem execve_elim {d d' : Daemon} {t : Task} {time : BitVec 64} {mem : Mem} {filename argv : BitVec 64}
    {scratch : Option KEvent} {lost : Bool} {out : List Delivery}
    (h : step tbl crc srt d (.execve t time mem filename argv scratch lost) = some (d', out)) :
    out = [] ∧
    ((d' = d.withProbe (Probe.execve d.probe (ctxOf t 59 0 time) scratch.isSome).1 ∧
        ((Probe.execve d.probe (ctxOf t 59 0 time) scratch.isSome).2 = none ∨ scratch = none)) ∨
      ∃ e s, (Probe.execve d.probe (ctxOf t 59 0 time) scratch.isSome).2 = some e ∧ scratch = some s ∧
        d' = emit (d.withProbe (Probe.execve d.probe (ctxOf t 59 0 time) scratch.isSome).1)
          (Event.onExecve s t mem filename argv time) lost) := by
  simp only [step] at h
  cases hr : (Probe.execve d.probe (ctxOf t 59 0 time) scratch.isSome).2 with
  | none =>
    rw [hr] at h
    simp only [Option.some.injEq, Prod.mk.injEq] at h
    exact ⟨h.2.symm, Or.inl ⟨h.1.symm, Or.inl rfl⟩⟩
  | some e =>
    cases scratch with
    | none =>
      rw [hr] at h
      simp only [Option.some.injEq, Prod.mk.injEq] at h
      exact ⟨h.2.symm, Or.inl ⟨h.1.symm, Or.inr rfl⟩⟩
    | some s =>
      rw [hr] at h
      simp only [Option.some.injEq, Prod.mk.injEq] at h
      exact ⟨h.2.symm, Or.inr ⟨e, s, rfl, rfl, h.1.symm⟩⟩

theorem ingest_elim {d d' : Daemon} {out : List Delivery} (h : step tbl crc srt d .ingest = some (d', out)) :
    out = [] ∧
    ((d' = d ∧ (d.msg ≠ none ∨ d.ring = [])) ∨ ∃ bs rest, d.msg = none ∧ d.ring = bs :: rest ∧
      ((Event.ingest tbl (some (fun ns => Topology.lookupContainer d.cache ns)) (.bytes bs) = .err ∧
          d' = { d with ring := rest }) ∨
        ∃ ev, Event.ingest tbl (some (fun ns => Topology.lookupContainer d.cache ns)) (.bytes bs) = .ok ev ∧
          d' = { d with ring := rest, msg := if ev.container.isSome then some ev else none })) := by
  simp only [step] at h
  cases hm : d.msg with
  | some m =>
    rw [hm] at h
    simp only [Option.some.injEq, Prod.mk.injEq] at h
    exact ⟨h.2.symm, Or.inl ⟨h.1.symm, Or.inl (by simp)⟩⟩
  | none =>
    cases hr : d.ring with
    | nil =>
      rw [hm, hr] at h
      simp only [Option.some.injEq, Prod.mk.injEq] at h
      exact ⟨h.2.symm, Or.inl ⟨h.1.symm, Or.inr rfl⟩⟩
    | cons bs rest =>
      rw [hm, hr] at h
      dsimp only at h
      cases hi : Event.ingest tbl (some (fun ns => Topology.lookupContainer d.cache ns)) (.bytes bs) with
      | err =>
        rw [hi] at h
        simp only [Option.some.injEq, Prod.mk.injEq] at h
        exact ⟨h.2.symm, Or.inr ⟨bs, rest, rfl, rfl, Or.inl ⟨hi, h.1.symm⟩⟩⟩
      | panic => rw [hi] at h; cases h
      | ok ev =>
        rw [hi] at h
        simp only [Option.some.injEq, Prod.mk.injEq] at h
        exact ⟨h.2.symm, Or.inr ⟨bs, rest, rfl, rfl, Or.inr ⟨ev, hi, h.1.symm⟩⟩⟩

theorem route_elim {d d' : Daemon} {o : Nat → PubSub.Oracle} {out : List Delivery}
    (h : step tbl crc srt d (.route o) = some (d', out)) :
    (out = [] ∧ d' = { d with msg := none } ∧ ∀ ev, d.msg = some ev → ev.container = none) ∨
    ∃ ev c sc hub outs, d.msg = some ev ∧ ev.container = some c ∧ ev.syscall = some sc ∧
      Hub.handleEvent d.hub ⟨ev.pidNs, sc.nr, true⟩ = some (hub, outs) ∧
      d' = { d with msg := none, hub := hub } ∧ out = publishAll crc o d.ps ev c sc outs := by
  simp only [step] at h
  cases hm : d.msg with
  | none =>
    rw [hm] at h
    simp only [Option.some.injEq, Prod.mk.injEq] at h
    refine Or.inl ⟨h.2.symm, ?_, by simp⟩
    rw [← h.1, ← hm]
  | some ev =>
    rw [hm] at h
    dsimp only at h
    cases hc : ev.container with
    | none =>
      rw [hc] at h
      simp only [Option.some.injEq, Prod.mk.injEq] at h
      exact Or.inl ⟨h.2.symm, h.1.symm, fun e he => by injection he with he; rw [← he]; exact hc⟩
    | some c =>
      cases hsc : ev.syscall with
      | none => rw [hc, hsc] at h; cases h
      | some sc =>
        rw [hc, hsc] at h
        dsimp only at h
        cases hh : Hub.handleEvent d.hub ⟨ev.pidNs, sc.nr, true⟩ with
        | none => rw [hh] at h; cases h
        | some r =>
          rw [hh] at h
          simp only [Option.some.injEq, Prod.mk.injEq] at h
          exact Or.inr ⟨ev, c, sc, r.1, r.2, rfl, hc, hsc, hh, h.1.symm, h.2.symm⟩

theorem act_elim {d d' : Daemon} {f : Filter.Faults} {out : List Delivery}
    (h : step tbl crc srt d (.act f) = some (d', out)) :
    out = [] ∧ ((d.todo = [] ∧ d' = d) ∨ ∃ a rest, d.todo = a :: rest ∧ d' = { doAct f d a with todo := rest }) := by
  simp only [step] at h
  cases ht : d.todo with
  | nil =>
    rw [ht] at h; simp only [Option.some.injEq, Prod.mk.injEq] at h
    exact ⟨h.2.symm, Or.inl ⟨rfl, h.1.symm⟩⟩
  | cons a rest =>
    rw [ht] at h; simp only [Option.some.injEq, Prod.mk.injEq] at h
    exact ⟨h.2.symm, Or.inr ⟨a, rest, rfl, h.1.symm⟩⟩

theorem delete_elim {d d' : Daemon} {id : String} {out : List Delivery}
    (h : step tbl crc srt d (.delete id) = some (d', out)) : out = [] ∧ ∃ hub, d' = { d with hub := hub } := by
  simp only [step] at h
  split at h
  · simp only [Option.some.injEq, Prod.mk.injEq] at h; exact ⟨h.2.symm, d.hub, h.1.symm⟩
  · cases h
  · simp only [Option.some.injEq, Prod.mk.injEq] at h; exact ⟨h.2.symm, _, h.1.symm⟩

theorem swap_elim {d d' : Daemon} {rate ns nr : Int} {out : List Delivery}
    (h : step tbl crc srt d (.swap rate ns nr) = some (d', out)) : out = [] ∧ ∃ hub, d' = { d with hub := hub } := by
  simp only [step, Option.map_eq_some_iff, Prod.mk.injEq] at h
  obtain ⟨x, hx, h1, h2⟩ := h
  exact ⟨h2.symm, x, h1.symm⟩

/-- The tree changes only by subscription operations. -/
theorem ps_step {d d' : Daemon} {o : Op} {out : List Delivery} (h : step tbl crc srt d o = some (d', out)) :
    PubSub.run srt d.ps (psOp crc o).toList = some d'.ps := by
  cases o with
  | enter t id mtime time args full =>
    simp only [step, Option.some.injEq, Prod.mk.injEq] at h
    obtain ⟨rfl, -⟩ := h; rfl
  | exit t id ret mtime time mem scratch lost =>
    rcases (exit_elim h).2 with ⟨rfl, -⟩ | ⟨e, s, -, -, rfl⟩
    · rfl
    · rw [emit_ps]; rfl
  | execve t time mem filename argv scratch lost =>
    rcases (execve_elim h).2 with ⟨rfl, -⟩ | ⟨e, s, -, -, rfl⟩
    · rfl
    · rw [emit_ps]; rfl
  | push j ns nr => simp only [step, Option.some.injEq, Prod.mk.injEq] at h; obtain ⟨rfl, -⟩ := h; rfl
  | swap rate ns nr => obtain ⟨-, x, rfl⟩ := swap_elim h; rfl
  | addSyscall k ns f => simp only [step, Option.some.injEq, Prod.mk.injEq] at h; obtain ⟨rfl, -⟩ := h; rfl
  | addSampled k ns rate f => simp only [step, Option.some.injEq, Prod.mk.injEq] at h; obtain ⟨rfl, -⟩ := h; rfl
  | removeSyscall k ns => simp only [step, Option.some.injEq, Prod.mk.injEq] at h; obtain ⟨rfl, -⟩ := h; rfl
  | delete id => obtain ⟨-, x, rfl⟩ := delete_elim h; rfl
  | topo ev => simp only [step, Option.some.injEq, Prod.mk.injEq] at h; obtain ⟨rfl, -⟩ := h; rfl
  | act f =>
    rcases (act_elim h).2 with ⟨-, rfl⟩ | ⟨a, rest, -, rfl⟩
    · rfl
    · show some d.ps = some (doAct f d a).ps; rw [doAct_ps]
  | attachPath paths draw =>
    simp only [step, Option.map_eq_some_iff, Prod.mk.injEq] at h
    obtain ⟨x, hx, rfl, -⟩ := h
    simp only [psOp, Option.toList, PubSub.run, hx]; rfl
  | attachTrace id draw =>
    simp only [step, Option.map_eq_some_iff, Prod.mk.injEq] at h
    obtain ⟨x, hx, rfl, -⟩ := h
    simp only [psOp, Option.toList, PubSub.run, hx]; rfl
  | detach n =>
    simp only [step, Option.map_eq_some_iff, Prod.mk.injEq] at h
    obtain ⟨x, hx, rfl, -⟩ := h
    simp only [psOp, Option.toList, PubSub.run, hx]; rfl
  | ingest =>
    rcases (ingest_elim h).2 with ⟨rfl, -⟩ | ⟨bs, rest, -, -, ⟨-, rfl⟩ | ⟨ev, -, rfl⟩⟩ <;> rfl
  | route o =>
    rcases route_elim h with ⟨-, rfl, -⟩ | ⟨ev, c, sc, hub, outs, -, -, -, -, rfl, -⟩ <;> rfl

/-- The cache changes only by notices. -/
theorem cache_step {d d' : Daemon} {o : Op} {out : List Delivery} (h : step tbl crc srt d o = some (d', out)) :
    d'.cache = (Topology.run true d.cache (notice o).toList).1 := by
  cases o with
  | enter t id mtime time args full =>
    simp only [step, Option.some.injEq, Prod.mk.injEq] at h
    obtain ⟨rfl, -⟩ := h; rfl
  | exit t id ret mtime time mem scratch lost =>
    rcases (exit_elim h).2 with ⟨rfl, -⟩ | ⟨e, s, -, -, rfl⟩
    · rfl
    · rw [emit_cache]; rfl
  | execve t time mem filename argv scratch lost =>
    rcases (execve_elim h).2 with ⟨rfl, -⟩ | ⟨e, s, -, -, rfl⟩
    · rfl
    · rw [emit_cache]; rfl
  | push j ns nr => simp only [step, Option.some.injEq, Prod.mk.injEq] at h; obtain ⟨rfl, -⟩ := h; rfl
  | swap rate ns nr => obtain ⟨-, x, rfl⟩ := swap_elim h; rfl
  | addSyscall k ns f => simp only [step, Option.some.injEq, Prod.mk.injEq] at h; obtain ⟨rfl, -⟩ := h; rfl
  | addSampled k ns rate f => simp only [step, Option.some.injEq, Prod.mk.injEq] at h; obtain ⟨rfl, -⟩ := h; rfl
  | removeSyscall k ns => simp only [step, Option.some.injEq, Prod.mk.injEq] at h; obtain ⟨rfl, -⟩ := h; rfl
  | delete id => obtain ⟨-, x, rfl⟩ := delete_elim h; rfl
  | topo ev => simp only [step, Option.some.injEq, Prod.mk.injEq] at h; obtain ⟨rfl, -⟩ := h; rfl
  | act f =>
    rcases (act_elim h).2 with ⟨-, rfl⟩ | ⟨a, rest, -, rfl⟩
    · rfl
    · show (doAct f d a).cache = d.cache; rw [doAct_cache]
  | attachPath paths draw =>
    simp only [step, Option.map_eq_some_iff, Prod.mk.injEq] at h
    obtain ⟨x, hx, rfl, -⟩ := h; rfl
  | attachTrace id draw =>
    simp only [step, Option.map_eq_some_iff, Prod.mk.injEq] at h
    obtain ⟨x, hx, rfl, -⟩ := h; rfl
  | detach n =>
    simp only [step, Option.map_eq_some_iff, Prod.mk.injEq] at h
    obtain ⟨x, hx, rfl, -⟩ := h; rfl
  | ingest =>
    rcases (ingest_elim h).2 with ⟨rfl, -⟩ | ⟨bs, rest, -, -, ⟨-, rfl⟩ | ⟨ev, -, rfl⟩⟩ <;> rfl
  | route o =>
    rcases route_elim h with ⟨-, rfl, -⟩ | ⟨ev, c, sc, hub, outs, -, -, -, -, rfl, -⟩ <;> rfl

theorem psRun_append (xs ys : List PubSub.Op) (s s1 : PubSub.PS) (h : PubSub.run srt s xs = some s1) :
    PubSub.run srt s (xs ++ ys) = PubSub.run srt s1 ys := by
  induction xs generalizing s with
  | nil => simp only [PubSub.run, Option.some.injEq] at h; subst h; rfl
  | cons x xs ih =>
    simp only [List.cons_append, PubSub.run] at h ⊢
    cases hs : PubSub.step srt s x with
    | none => rw [hs] at h; cases h
    | some s' => rw [hs] at h; exact ih s' h

theorem filterMap_cons_toList {α β : Type} (f : α → Option β) (x : α) (xs : List α) :
    (x :: xs).filterMap f = (f x).toList ++ xs.filterMap f := by
  rw [List.filterMap_cons]; cases f x <;> rfl

theorem ps_run {hist : List Op} {d d' : Daemon} (h : run tbl crc srt d hist = some d') :
    PubSub.run srt d.ps (hist.filterMap (psOp crc)) = some d'.ps := by
  induction hist generalizing d with
  | nil => simp only [run, Option.some.injEq] at h; subst h; rfl
  | cons o os ih =>
    obtain ⟨d1, out, h1, h2⟩ := run_cons_some h
    rw [filterMap_cons_toList, psRun_append _ _ _ _ (ps_step h1)]
    exact ih h2

theorem topoRun_append (xs ys : List (Option Topology.Event)) (c : Topology.Cache) :
    (Topology.run true c (xs ++ ys)).1 = (Topology.run true (Topology.run true c xs).1 ys).1 := by
  induction xs generalizing c with
  | nil => rfl
  | cons x xs ih => exact ih _

theorem cache_run {hist : List Op} {d d' : Daemon} (h : run tbl crc srt d hist = some d') :
    d'.cache = (Topology.run true d.cache (hist.filterMap notice)).1 := by
  induction hist generalizing d with
  | nil => simp only [run, Option.some.injEq] at h; subst h; rfl
  | cons o os ih =>
    obtain ⟨d1, out, h1, h2⟩ := run_cons_some h
    rw [filterMap_cons_toList, topoRun_append, ← cache_step h1]
    exact ih h2

/-- Looking a container up. -/
theorem lookup_run {hist : List Op} {d : Daemon} (h : run tbl crc srt (fresh tbl) hist = some d) (ns : Int) :
    Topology.lookupContainer d.cache ns = (containerOf hist ns).map Topology.Container.copy := by
  rw [cache_run h]
  exact Props.Topology.c20_lookup true _ ns

end Swoll.Lemmas.Daemon
