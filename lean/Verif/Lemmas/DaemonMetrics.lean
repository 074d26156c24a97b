import Verif.Lemmas.DaemonTrace
import Verif.Props.Probe
/-
The metrics of the running daemon.
-/
namespace Swoll.Lemmas.Daemon
open Swoll Swoll.Daemon Swoll.Spec.Daemon
open Swoll.Event (Task Mem KEvent TraceEvent pack)
open Swoll.Spec.Filter (scope Abs Sample)
open Swoll.Lemmas.Filter (Rel rel_step)
open Swoll.Lemmas.Probe (mEvolve pstep_rel mEvolve_get nodup_mEvolve updateKtime_get updateMetrics_get)

variable {tbl : Syscalls.Syscalls} {crc : String → BitVec 64} {srt : List PubSub.Env → List PubSub.Env}

/-! ### The topology callback -/

/-- The calls an event makes necessary. -/
def newActs (ev : Option Topology.Event) : List Act :=
  match Spec.Topology.meaning ev with
  | some (true, c) => [.addMetrics c.pidns]
  | some (false, c) => [.removeMetrics c.pidns, .prune c.pidns]
  | none => []

theorem acts_eq (cache : Topology.Cache) (ev : Option Topology.Event) :
    (Topology.processEvent true cache ev).2.1.flatMap acts = newActs ev := by
  unfold newActs
  cases hm : Spec.Topology.meaning ev with
  | none => rw [Lemmas.Topology.process_invalid true cache ev hm]; rfl
  | some bc =>
    obtain ⟨b, c⟩ := bc
    rw [Lemmas.Topology.process_valid true cache ev b c hm]
    cases b <;> rfl

theorem emit_todo (d : Daemon) (e : KEvent) (lost : Bool) : (emit d e lost).todo = d.todo := by
  unfold emit; split <;> rfl
theorem emit_metrics (d : Daemon) (e : KEvent) (lost : Bool) : (emit d e lost).metrics = d.metrics := by
  unfold emit; split <;> rfl

/-- What an operation does to the callback's work. -/
theorem todo_step {d d' : Daemon} {o : Op} {out : List Delivery} (h : step tbl crc srt d o = some (d', out)) :
    (∃ ev, o = .topo ev ∧ d'.todo = d.todo ++ newActs ev) ∨ (∃ f, o = .act f ∧ d'.todo = d.todo.tail) ∨
    (d'.todo = d.todo ∧ (∀ ev, o ≠ .topo ev) ∧ ∀ f, o ≠ .act f) := by
  cases o with
  | topo ev =>
    simp only [step, Option.some.injEq, Prod.mk.injEq] at h; obtain ⟨rfl, -⟩ := h
    exact Or.inl ⟨ev, rfl, by rw [← acts_eq d.cache ev]⟩
  | act f =>
    refine Or.inr (Or.inl ⟨f, rfl, ?_⟩)
    rcases (act_elim h).2 with ⟨e, rfl⟩ | ⟨a, rest, e, rfl⟩
    · rw [e]; rfl
    · rw [e]; rfl
  | enter t id mtime time args full =>
    simp only [step, Option.some.injEq, Prod.mk.injEq] at h
    obtain ⟨rfl, -⟩ := h
    exact Or.inr (Or.inr ⟨rfl, (fun _ e => by cases e), (fun _ e => by cases e)⟩)
  | exit t id ret mtime time mem scratch lost =>
    refine Or.inr (Or.inr ⟨?_, (fun _ e => by cases e), (fun _ e => by cases e)⟩)
    rcases (exit_elim h).2 with ⟨rfl, -⟩ | ⟨e, s, -, -, rfl⟩
    · rfl
    · rw [emit_todo]; rfl
  | execve t time mem filename argv scratch lost =>
    refine Or.inr (Or.inr ⟨?_, (fun _ e => by cases e), (fun _ e => by cases e)⟩)
    rcases (execve_elim h).2 with ⟨rfl, -⟩ | ⟨e, s, -, -, rfl⟩
    · rfl
    · rw [emit_todo]; rfl
  | push j ns nr =>
    simp only [step, Option.some.injEq, Prod.mk.injEq] at h; obtain ⟨rfl, -⟩ := h
    exact Or.inr (Or.inr ⟨rfl, (fun _ e => by cases e), (fun _ e => by cases e)⟩)
  | swap rate ns nr =>
    obtain ⟨-, x, rfl⟩ := swap_elim h
    exact Or.inr (Or.inr ⟨rfl, (fun _ e => by cases e), (fun _ e => by cases e)⟩)
  | addSyscall k ns f =>
    simp only [step, Option.some.injEq, Prod.mk.injEq] at h; obtain ⟨rfl, -⟩ := h
    exact Or.inr (Or.inr ⟨rfl, (fun _ e => by cases e), (fun _ e => by cases e)⟩)
  | addSampled k ns rate f =>
    simp only [step, Option.some.injEq, Prod.mk.injEq] at h; obtain ⟨rfl, -⟩ := h
    exact Or.inr (Or.inr ⟨rfl, (fun _ e => by cases e), (fun _ e => by cases e)⟩)
  | removeSyscall k ns =>
    simp only [step, Option.some.injEq, Prod.mk.injEq] at h; obtain ⟨rfl, -⟩ := h
    exact Or.inr (Or.inr ⟨rfl, (fun _ e => by cases e), (fun _ e => by cases e)⟩)
  | delete id =>
    obtain ⟨-, x, rfl⟩ := delete_elim h
    exact Or.inr (Or.inr ⟨rfl, (fun _ e => by cases e), (fun _ e => by cases e)⟩)
  | attachPath paths draw =>
    simp only [step, Option.map_eq_some_iff, Prod.mk.injEq] at h
    obtain ⟨x, hx, rfl, -⟩ := h
    exact Or.inr (Or.inr ⟨rfl, (fun _ e => by cases e), (fun _ e => by cases e)⟩)
  | attachTrace id draw =>
    simp only [step, Option.map_eq_some_iff, Prod.mk.injEq] at h
    obtain ⟨x, hx, rfl, -⟩ := h
    exact Or.inr (Or.inr ⟨rfl, (fun _ e => by cases e), (fun _ e => by cases e)⟩)
  | detach n =>
    simp only [step, Option.map_eq_some_iff, Prod.mk.injEq] at h
    obtain ⟨x, hx, rfl, -⟩ := h
    exact Or.inr (Or.inr ⟨rfl, (fun _ e => by cases e), (fun _ e => by cases e)⟩)
  | ingest =>
    refine Or.inr (Or.inr ⟨?_, (fun _ e => by cases e), (fun _ e => by cases e)⟩)
    rcases (ingest_elim h).2 with ⟨rfl, -⟩ | ⟨bs, rest, -, -, ⟨-, rfl⟩ | ⟨ev, -, rfl⟩⟩ <;> rfl
  | route o =>
    refine Or.inr (Or.inr ⟨?_, (fun _ e => by cases e), (fun _ e => by cases e)⟩)
    rcases route_elim h with ⟨-, rfl, -⟩ | ⟨ev, c, sc, hub, outs, -, -, -, -, rfl, -⟩ <;> rfl

theorem meaning_started {ev : Option Topology.Event} {c : Topology.Container}
    (h : Spec.Topology.meaning ev = some (true, c)) : Started (BitVec.ofInt 32 c.pidns) (.topo ev) := by
  unfold Spec.Topology.meaning at h
  split at h
  · rename_i t c'
    split at h
    · rename_i hv
      simp only [Option.some.injEq, Prod.mk.injEq, decide_eq_true_eq] at h
      obtain ⟨rfl, rfl⟩ := h
      exact ⟨hv.1, rfl⟩
    · cases h
  · cases h

theorem started_meaning {ev : Option Topology.Event} {ns : BitVec 32} (h : Started ns (.topo ev)) :
    ∃ c, Spec.Topology.meaning ev = some (true, c) ∧ 0 < c.pidns ∧ BitVec.ofInt 32 c.pidns = ns := by
  unfold Started at h
  split at h
  · rename_i c he
    injection he with he
    subst he
    refine ⟨c, ?_, h⟩
    simp [Spec.Topology.meaning, h.1]
  · exact h.elim

theorem meaning_stopped {ev : Option Topology.Event} {c : Topology.Container}
    (h : Spec.Topology.meaning ev = some (false, c)) : Stopped (BitVec.ofInt 32 c.pidns) (.topo ev) := by
  unfold Spec.Topology.meaning at h
  split at h
  · rename_i t c'
    split at h
    · rename_i hv
      simp only [Option.some.injEq, Prod.mk.injEq, decide_eq_false_iff_not] at h
      obtain ⟨h0, rfl⟩ := h
      rcases hv.2 with e | e
      · exact absurd e h0
      · subst e; exact ⟨hv.1, rfl⟩
    · cases h
  · cases h

theorem started_topo {ns : BitVec 32} {o : Op} (h : Started ns o) : ∃ ev, o = .topo ev := by
  cases o with
  | topo ev => exact ⟨ev, rfl⟩
  | _ => exact h.elim

theorem scope_pos {n : Int} (h : 0 < n) : scope n = some (BitVec.ofInt 32 n) := by
  unfold scope; rw [if_neg (by omega)]

theorem addMetrics_mem {ev : Option Topology.Event} {n : Int} (h : Act.addMetrics n ∈ newActs ev) :
    Started (BitVec.ofInt 32 n) (.topo ev) ∧ 0 < n := by
  unfold newActs at h
  split at h
  · rename_i c hm
    simp only [List.mem_singleton, Act.addMetrics.injEq] at h
    subst h
    have := meaning_started hm
    refine ⟨this, ?_⟩
    obtain ⟨c', hm', hp, -⟩ := started_meaning this
    rw [hm] at hm'
    simp only [Option.some.injEq, Prod.mk.injEq, true_and] at hm'
    rw [hm']; exact hp
  · simp at h
  · cases h

theorem prune_mem {ev : Option Topology.Event} {n : Int} (h : Act.prune n ∈ newActs ev) :
    Stopped (BitVec.ofInt 32 n) (.topo ev) := by
  unfold newActs at h
  split at h
  · simp at h
  · rename_i c hm
    simp only [List.mem_cons, List.not_mem_nil, or_false, reduceCtorEq, false_or, Act.prune.injEq] at h
    subst h
    exact meaning_stopped hm
  · cases h

/-! ### Which namespaces are counted -/

theorem hub_inv {hist : List Op} {d : Daemon} (h : run tbl crc srt (fresh tbl) hist = some d) :
    ∃ R, Lemmas.Hub.Inv d.hub R := by
  obtain ⟨R, hi, -⟩ := Lemmas.Hub.inv_reach tbl (hub_run h)
  exact ⟨R, hi⟩

/-- Metrics are asked for only by the callback. -/
theorem met_hubOps {d : Daemon} {o : Op} {x : Hub.Op} (hx : x ∈ hubOps d o) {n : BitVec 32} (ha : HubAsksMet n x) :
    ∃ f m rest, o = .act f ∧ d.todo = .addMetrics m :: rest ∧ scope m = some n := by
  obtain ⟨f, rfl, m, g, rfl, hsc⟩ := ha
  cases o with
  | enter t id mtime time args full =>
    simp only [hubOps] at hx
    split at hx <;> simp at hx
  | act fa =>
    simp only [hubOps] at hx
    split at hx
    · rename_i m' rest ht
      simp only [List.mem_singleton, Hub.Op.filter.injEq, Filter.Op.addMetrics.injEq] at hx
      obtain ⟨rfl, rfl⟩ := hx
      exact ⟨_, _, rest, rfl, ht, hsc⟩
    · simp at hx
    · cases hx
  | route oo =>
    simp only [hubOps] at hx
    split at hx
    · split at hx <;> simp at hx
    · simp at hx
  | _ => simp [hubOps] at hx

/-- After a history: the rule set, which namespaces it counts, and what the callback has to do. -/
theorem met_run (hist : List Op) : ∀ {d : Daemon}, run tbl crc srt (fresh tbl) hist = some d →
    (∀ n, Act.addMetrics n ∈ d.todo → 0 < n ∧ ∃ o ∈ hist, Started (BitVec.ofInt 32 n) o) ∧
    (∀ n, Act.prune n ∈ d.todo → ∃ o ∈ hist, Stopped (BitVec.ofInt 32 n) o) ∧
    ∃ a, Rel d.hub.maps a ∧ a.enabled = true ∧
      (∀ n, a.met n = true → n = 31337 ∨ ∃ o ∈ hist, Started n o) ∧
      ((∀ o ∈ hist, Granted o) → ∀ o ∈ hist, ∀ ns, Started ns o →
        a.met ns = true ∨ ∃ n, Act.addMetrics n ∈ d.todo ∧ scope n = some ns) := by
  induction hist using Swoll.ListX.snoc_induction with
  | h0 =>
    intro d h
    simp only [run, Option.some.injEq] at h
    subst h
    refine ⟨fun n hn => by simp [fresh] at hn, fun n hn => by simp [fresh] at hn, ?_⟩
    obtain ⟨a0, r0, e0, -, m0⟩ := rules_new tbl
    exact ⟨a0, r0, e0, fun n hn => Or.inl ((m0 n).1 hn), fun _ o ho => by simp at ho⟩
  | h1 xs o ih =>
    intro d h
    obtain ⟨d1, out, h1, h2⟩ := run_snoc h
    obtain ⟨iadd, iprune, a, ra, ea, ma, ga⟩ := ih h1
    obtain ⟨R, hi⟩ := hub_inv h1
    obtain ⟨a', r', t'⟩ := track_run tbl _ _ _ R hi (hub_step h2) a ra
    have hadd : ∀ n, Act.addMetrics n ∈ d.todo → 0 < n ∧ ∃ o' ∈ xs ++ [o], Started (BitVec.ofInt 32 n) o' := by
      intro n hn
      have old : Act.addMetrics n ∈ d1.todo → 0 < n ∧ ∃ o' ∈ xs ++ [o], Started (BitVec.ofInt 32 n) o' := by
        intro hn
        obtain ⟨p, o', ho', hs⟩ := iadd n hn
        exact ⟨p, o', by simp [ho'], hs⟩
      rcases todo_step h2 with ⟨ev, rfl, ht⟩ | ⟨f, rfl, ht⟩ | ⟨ht, -⟩
      · rw [ht, List.mem_append] at hn
        rcases hn with hn | hn
        · exact old hn
        · obtain ⟨s, p⟩ := addMetrics_mem hn
          exact ⟨p, .topo ev, by simp, s⟩
      · rw [ht] at hn; exact old (List.mem_of_mem_tail hn)
      · rw [ht] at hn; exact old hn
    have hprune : ∀ n, Act.prune n ∈ d.todo → ∃ o' ∈ xs ++ [o], Stopped (BitVec.ofInt 32 n) o' := by
      intro n hn
      have old : Act.prune n ∈ d1.todo → ∃ o' ∈ xs ++ [o], Stopped (BitVec.ofInt 32 n) o' := by
        intro hn
        obtain ⟨o', ho', hs⟩ := iprune n hn
        exact ⟨o', by simp [ho'], hs⟩
      rcases todo_step h2 with ⟨ev, rfl, ht⟩ | ⟨f, rfl, ht⟩ | ⟨ht, -⟩
      · rw [ht, List.mem_append] at hn
        rcases hn with hn | hn
        · exact old hn
        · exact ⟨.topo ev, by simp, prune_mem hn⟩
      · rw [ht] at hn; exact old (List.mem_of_mem_tail hn)
      · rw [ht] at hn; exact old hn
    refine ⟨hadd, hprune, ?_⟩
    have hnew : ∀ n, a'.met n = true → n = 31337 ∨ ∃ o' ∈ xs ++ [o], Started n o' := by
      intro n hn
      rcases t'.new n hn with hn | ⟨x, hx, hax⟩
      · rcases ma n hn with hn | ⟨o', ho', hs⟩
        · exact Or.inl hn
        · exact Or.inr ⟨o', by simp [ho'], hs⟩
      · obtain ⟨f, m, rest, rfl, ht, hsc⟩ := met_hubOps hx hax
        obtain ⟨p, o', ho', hs⟩ := iadd m (by rw [ht]; simp)
        rw [scope_pos p] at hsc
        injection hsc with hsc
        rw [hsc] at hs
        exact Or.inr ⟨o', by simp [ho'], hs⟩
    refine ⟨a', r', t'.en ea, hnew, ?_⟩
    intro hg o' ho' ns hs
    rw [List.mem_append, List.mem_singleton] at ho'
    have hg' : ∀ x ∈ xs, Granted x := fun x hx => hg x (by simp [hx])
    rcases todo_step h2 with ⟨ev, rfl, ht⟩ | ⟨f, rfl, ht⟩ | ⟨ht, hnt, hna⟩
    · rcases ho' with ho' | rfl
      · rcases ga hg' o' ho' ns hs with hm | ⟨n, hn, hsc⟩
        · exact Or.inl (t'.met ns hm)
        · exact Or.inr ⟨n, by rw [ht]; simp [hn], hsc⟩
      · obtain ⟨c, hm, hp, he⟩ := started_meaning hs
        refine Or.inr ⟨c.pidns, ?_, by rw [scope_pos hp, he]⟩
        rw [ht]
        simp [newActs, hm]
    · rcases ho' with ho' | rfl
      · rcases ga hg' o' ho' ns hs with hm | ⟨n, hn, hsc⟩
        · exact Or.inl (t'.met ns hm)
        · -- is it this one?
          cases htd : d1.todo with
          | nil => rw [htd] at hn; cases hn
          | cons x rest =>
            rw [htd] at hn
            rcases List.mem_cons.1 hn with rfl | hn
            · left
              have hgf : f.config = false ∧ f.filter = false := hg (.act f) (by simp)
              have hmaps : d.hub.maps = (Filter.step tbl d1.hub.maps (.addMetrics n f)).1 := by
                rcases (act_elim h2).2 with ⟨e, -⟩ | ⟨x, rest', e, rfl⟩
                · rw [htd] at e; cases e
                · rw [htd] at e
                  injection e with e1 e2
                  subst e1
                  rfl
              have hr2 := (rel_step tbl ra (.addMetrics n f)).1
              rw [← hmaps] at hr2
              have hmet : (a.step tbl (.addMetrics n f)).1.met ns = true := by
                simp [Abs.step, hgf.1, hgf.2, hsc]
              have e1 := (Lemmas.Probe.rel_met tbl r' ns 0 0).2
              have e2 := (Lemmas.Probe.rel_met tbl hr2 ns 0 0).2
              rw [e1, t'.en ea, hmet] at e2
              have e3 : (a.step tbl (.addMetrics n f)).1.enabled = true := by
                simp [Abs.step, hgf.1, hgf.2, hsc, ea]
              rw [e3] at e2
              simpa using e2
            · exact Or.inr ⟨n, by rw [ht, htd]; exact hn, hsc⟩
      · exact hs.elim
    · rcases ho' with ho' | rfl
      · rcases ga hg' o' ho' ns hs with hm | ⟨n, hn, hsc⟩
        · exact Or.inl (t'.met ns hm)
        · exact Or.inr ⟨n, by rw [ht]; exact hn, hsc⟩
      · obtain ⟨ev, e⟩ := started_topo hs
        exact absurd e (hnt ev)

/-! ### Counting -/

/-- What an operation does to the metrics. -/
theorem metrics_step {d d' : Daemon} {o : Op} {out : List Delivery} (h : step tbl crc srt d o = some (d', out))
    {a : Abs} (hr : Rel d.hub.maps a) :
    (∃ t id m time args full, o = .enter t id m time args full ∧
      d'.metrics = mEvolve a d.metrics (.enter (ctxOf t id m time) args full)) ∨
    (∃ t id ret m time mem scr lost, o = .exit t id ret m time mem scr lost ∧
      d'.metrics = mEvolve a d.metrics (.exit (ctxOf t id m time) ret scr.isSome)) ∨
    (∃ f n rest, o = .act f ∧ d.todo = .prune n :: rest ∧
      d'.metrics = match Probe.pruneNamespace d.metrics n (d.metrics.length + 1) with
        | some r => r.1
        | none => d.metrics) ∨
    (d'.metrics = d.metrics ∧ (∀ t id m time args full, o ≠ .enter t id m time args full) ∧
      (∀ t id ret m time mem scr lost, o ≠ .exit t id ret m time mem scr lost) ∧
      ∀ f n rest, o = .act f → d.todo ≠ .prune n :: rest) := by
  cases o with
  | enter t id m time args full =>
    simp only [step, Option.some.injEq, Prod.mk.injEq] at h; obtain ⟨rfl, -⟩ := h
    refine Or.inl ⟨t, id, m, time, args, full, rfl, ?_⟩
    exact (pstep_rel tbl hasFiller (s := d.probe) hr (.enter (ctxOf t id m time) args full)).2
  | exit t id ret m time mem scr lost =>
    refine Or.inr (Or.inl ⟨t, id, ret, m, time, mem, scr, lost, rfl, ?_⟩)
    have := (pstep_rel tbl hasFiller (s := d.probe) hr (.exit (ctxOf t id m time) ret scr.isSome)).2
    rcases (exit_elim h).2 with ⟨rfl, -⟩ | ⟨e, s, -, -, rfl⟩
    · exact this
    · rw [emit_metrics]; exact this
  | act f =>
    rcases (act_elim h).2 with ⟨e, rfl⟩ | ⟨x, rest, e, rfl⟩
    · refine Or.inr (Or.inr (Or.inr ⟨rfl, (fun _ _ _ _ _ _ e => by cases e), (fun _ _ _ _ _ _ _ _ e => by cases e), ?_⟩))
      intro _ n rest _; rw [e]; simp
    · cases x with
      | prune n =>
        refine Or.inr (Or.inr (Or.inl ⟨f, n, rest, rfl, e, ?_⟩))
        simp only [doAct]
        cases Probe.pruneNamespace d.metrics n (d.metrics.length + 1) <;> rfl
      | addMetrics n =>
        refine Or.inr (Or.inr (Or.inr ⟨rfl, (fun _ _ _ _ _ _ e => by cases e), (fun _ _ _ _ _ _ _ _ e => by cases e), ?_⟩))
        intro _ n rest _; rw [e]; simp
      | removeMetrics n =>
        refine Or.inr (Or.inr (Or.inr ⟨rfl, (fun _ _ _ _ _ _ e => by cases e), (fun _ _ _ _ _ _ _ _ e => by cases e), ?_⟩))
        intro _ n rest _; rw [e]; simp
  | execve t time mem filename argv scratch lost =>
    refine Or.inr (Or.inr (Or.inr ⟨?_, (fun _ _ _ _ _ _ e => by cases e), (fun _ _ _ _ _ _ _ _ e => by cases e),
      (fun _ _ _ e => by cases e)⟩))
    have : (Probe.execve d.probe (ctxOf t 59 0 time) scratch.isSome).1.metrics = d.metrics := by
      have := (pstep_rel tbl hasFiller (s := d.probe) hr (.execve (ctxOf t 59 0 time) scratch.isSome)).2
      exact this
    rcases (execve_elim h).2 with ⟨rfl, -⟩ | ⟨e, s, -, -, rfl⟩
    · exact this
    · rw [emit_metrics]; exact this
  | push j ns nr =>
    simp only [step, Option.some.injEq, Prod.mk.injEq] at h; obtain ⟨rfl, -⟩ := h
    exact Or.inr (Or.inr (Or.inr ⟨rfl, (fun _ _ _ _ _ _ e => by cases e), (fun _ _ _ _ _ _ _ _ e => by cases e), (fun _ _ _ e => by cases e)⟩))
  | swap rate ns nr =>
    obtain ⟨-, x, rfl⟩ := swap_elim h
    exact Or.inr (Or.inr (Or.inr ⟨rfl, (fun _ _ _ _ _ _ e => by cases e), (fun _ _ _ _ _ _ _ _ e => by cases e), (fun _ _ _ e => by cases e)⟩))
  | addSyscall k ns f =>
    simp only [step, Option.some.injEq, Prod.mk.injEq] at h; obtain ⟨rfl, -⟩ := h
    exact Or.inr (Or.inr (Or.inr ⟨rfl, (fun _ _ _ _ _ _ e => by cases e), (fun _ _ _ _ _ _ _ _ e => by cases e), (fun _ _ _ e => by cases e)⟩))
  | addSampled k ns rate f =>
    simp only [step, Option.some.injEq, Prod.mk.injEq] at h; obtain ⟨rfl, -⟩ := h
    exact Or.inr (Or.inr (Or.inr ⟨rfl, (fun _ _ _ _ _ _ e => by cases e), (fun _ _ _ _ _ _ _ _ e => by cases e), (fun _ _ _ e => by cases e)⟩))
  | removeSyscall k ns =>
    simp only [step, Option.some.injEq, Prod.mk.injEq] at h; obtain ⟨rfl, -⟩ := h
    exact Or.inr (Or.inr (Or.inr ⟨rfl, (fun _ _ _ _ _ _ e => by cases e), (fun _ _ _ _ _ _ _ _ e => by cases e), (fun _ _ _ e => by cases e)⟩))
  | delete id =>
    obtain ⟨-, x, rfl⟩ := delete_elim h
    exact Or.inr (Or.inr (Or.inr ⟨rfl, (fun _ _ _ _ _ _ e => by cases e), (fun _ _ _ _ _ _ _ _ e => by cases e), (fun _ _ _ e => by cases e)⟩))
  | topo ev =>
    simp only [step, Option.some.injEq, Prod.mk.injEq] at h; obtain ⟨rfl, -⟩ := h
    exact Or.inr (Or.inr (Or.inr ⟨rfl, (fun _ _ _ _ _ _ e => by cases e), (fun _ _ _ _ _ _ _ _ e => by cases e), (fun _ _ _ e => by cases e)⟩))
  | attachPath paths draw =>
    simp only [step, Option.map_eq_some_iff, Prod.mk.injEq] at h
    obtain ⟨x, hx, rfl, -⟩ := h
    exact Or.inr (Or.inr (Or.inr ⟨rfl, (fun _ _ _ _ _ _ e => by cases e), (fun _ _ _ _ _ _ _ _ e => by cases e), (fun _ _ _ e => by cases e)⟩))
  | attachTrace id draw =>
    simp only [step, Option.map_eq_some_iff, Prod.mk.injEq] at h
    obtain ⟨x, hx, rfl, -⟩ := h
    exact Or.inr (Or.inr (Or.inr ⟨rfl, (fun _ _ _ _ _ _ e => by cases e), (fun _ _ _ _ _ _ _ _ e => by cases e), (fun _ _ _ e => by cases e)⟩))
  | detach n =>
    simp only [step, Option.map_eq_some_iff, Prod.mk.injEq] at h
    obtain ⟨x, hx, rfl, -⟩ := h
    exact Or.inr (Or.inr (Or.inr ⟨rfl, (fun _ _ _ _ _ _ e => by cases e), (fun _ _ _ _ _ _ _ _ e => by cases e), (fun _ _ _ e => by cases e)⟩))
  | ingest =>
    refine Or.inr (Or.inr (Or.inr ⟨?_, (fun _ _ _ _ _ _ e => by cases e), (fun _ _ _ _ _ _ _ _ e => by cases e), (fun _ _ _ e => by cases e)⟩))
    rcases (ingest_elim h).2 with ⟨rfl, -⟩ | ⟨bs, rest, -, -, ⟨-, rfl⟩ | ⟨ev, -, rfl⟩⟩ <;> rfl
  | route o =>
    refine Or.inr (Or.inr (Or.inr ⟨?_, (fun _ _ _ _ _ _ e => by cases e), (fun _ _ _ _ _ _ _ _ e => by cases e), (fun _ _ _ e => by cases e)⟩))
    rcases route_elim h with ⟨-, rfl, -⟩ | ⟨ev, c, sc, hub, outs, -, -, -, -, rfl, -⟩ <;> rfl

/-- Pruning leaves the entries of other namespaces alone. -/
theorem prune_other {m : GoMap Probe.MKey Probe.MVal} {n : Int} {fuel : Nat} {r : GoMap Probe.MKey Probe.MVal × Nat}
    (h : Probe.pruneNamespace m n fuel = some r) {k : Probe.MKey} (hk : k.pidNs ≠ BitVec.ofInt 32 n) :
    GoMap.get r.1 k = GoMap.get m k := by
  unfold Probe.pruneNamespace at h
  rw [Option.map_eq_some_iff] at h
  obtain ⟨es, -, rfl⟩ := h
  dsimp only
  rw [Props.Probe.foldl_del_get, if_neg]
  intro hm
  rw [List.mem_filter] at hm
  exact hk (by simpa using hm.2)

/-- The count of a bucket after an operation, in a namespace that is counted. -/
theorem count_step {d d' : Daemon} {o : Op} {out : List Delivery} (h : step tbl crc srt d o = some (d', out))
    {a : Abs} (hr : Rel d.hub.maps a) (hen : a.enabled = true) {ns : BitVec 32} (hmet : a.met ns = true)
    (hp : ∀ n, Act.prune n ∈ d.todo → BitVec.ofInt 32 n ≠ ns) {nr : BitVec 32} (hnr : nr ≠ 0xFFFFFFFF#32)
    {e : Nat} (he : e < 255) :
    count d' ns nr e = count d ns nr e + BitVec.ofNat 64 (completes ns nr e o).toNat := by
  have key : ∀ p : Probe.POp, d'.metrics = mEvolve a d.metrics p → Spec.Probe.inBucket a ns nr e p = completes ns nr e o →
      count d' ns nr e = count d ns nr e + BitVec.ofNat 64 (completes ns nr e o).toNat := by
    intro p hm hb
    rcases mEvolve_get a d.metrics p ns nr e he with ⟨h1, c, ret, sc, -, w, hw, -, h2, h3⟩ | ⟨h1, h2, h3⟩
    · rw [← hb, h1]
      unfold count
      rw [hm, hw]
      cases hg : GoMap.get d.metrics ⟨ns, nr, BitVec.ofNat 16 e⟩ with
      | none => simp only [(h3 hg).1]; rfl
      | some v => simp only [(h2 v hg).1]; rfl
    · rw [← hb, h1]
      unfold count
      rw [hm]
      cases hg : GoMap.get d.metrics ⟨ns, nr, BitVec.ofNat 16 e⟩ with
      | none =>
        cases hw : GoMap.get (mEvolve a d.metrics p) ⟨ns, nr, BitVec.ofNat 16 e⟩ with
        | none => rfl
        | some w => simp only [(h3 hg w hw).1]; rfl
      | some v =>
        obtain ⟨w, hw, e1, -⟩ := h2 v hg
        rw [hw]
        simp only [e1, Bool.toNat_false]
        simp
  rcases metrics_step h hr with ⟨t, id, m, time, args, full, rfl, hm⟩ | ⟨t, id, ret, m, time, mem, scr, lost, rfl, hm⟩ |
    ⟨f, n, rest, rfl, ht, hm⟩ | ⟨hm, h1, h2, -⟩
  · exact key _ hm rfl
  · apply key _ hm
    simp only [Spec.Probe.inBucket, completes, Spec.Probe.counted, hen, ctxOf, Probe.Ctx.nr]
    by_cases hx : t.pidNs = ns
    · subst hx
      by_cases hy : id.setWidth 32 = nr
      · subst hy; simp [hmet, hnr]
      · have : (id.setWidth 32 == nr) = false := by simpa using hy
        simp [this]
    · have : (t.pidNs == ns) = false := by simpa using hx
      simp [this]
  · have hk : ns ≠ BitVec.ofInt 32 n := fun e => hp n (by rw [ht]; simp) e.symm
    have : GoMap.get d'.metrics ⟨ns, nr, BitVec.ofNat 16 e⟩ = GoMap.get d.metrics ⟨ns, nr, BitVec.ofNat 16 e⟩ := by
      rw [hm]
      split
      · rename_i r hr
        exact prune_other hr hk
      · rfl
    unfold count
    rw [this]
    simp [completes]
  · have hc : completes ns nr e o = false := by
      cases o with
      | exit t id ret m time mem scr lost => exact absurd rfl (h2 t id ret m time mem scr lost)
      | _ => rfl
    unfold count
    rw [hm, hc]
    simp

theorem count_run : ∀ (post : List Op) {d d' : Daemon} {R : List Hub.Ctx} {a : Abs}, Lemmas.Hub.Inv d.hub R →
    Rel d.hub.maps a → a.enabled = true → ∀ {ns : BitVec 32}, a.met ns = true →
    (∀ n, Act.prune n ∈ d.todo → BitVec.ofInt 32 n ≠ ns) → (∀ o ∈ post, ¬ Stopped ns o) →
    run tbl crc srt d post = some d' → ∀ {nr : BitVec 32}, nr ≠ 0xFFFFFFFF#32 → ∀ {e : Nat}, e < 255 →
    count d' ns nr e = count d ns nr e + BitVec.ofNat 64 (post.countP (completes ns nr e)) := by
  intro post
  induction post with
  | nil =>
    intro d d' R a _ _ _ ns _ _ _ h nr _ e _
    simp only [run, Option.some.injEq] at h
    subst h
    simp
  | cons o os ih =>
    intro d d' R a hi hr hen ns hmet hp hst h nr hnr e he
    obtain ⟨d1, out, h1, h2⟩ := run_cons_some h
    obtain ⟨R1, hi1, -⟩ := Lemmas.Hub.inv_run tbl _ _ _ R hi (hub_step h1)
    obtain ⟨a1, r1, t1⟩ := track_run tbl _ _ _ R hi (hub_step h1) a hr
    have hp1 : ∀ n, Act.prune n ∈ d1.todo → BitVec.ofInt 32 n ≠ ns := by
      intro n hn
      rcases todo_step h1 with ⟨ev, rfl, ht⟩ | ⟨f, rfl, ht⟩ | ⟨ht, -⟩
      · rw [ht, List.mem_append] at hn
        rcases hn with hn | hn
        · exact hp n hn
        · intro e
          have := prune_mem hn
          rw [e] at this
          exact hst _ (by simp) this
      · rw [ht] at hn; exact hp n (List.mem_of_mem_tail hn)
      · rw [ht] at hn; exact hp n hn
    rw [ih hi1 r1 (t1.en hen) (t1.met ns hmet) hp1 (fun x hx => hst x (by simp [hx])) h2 hnr he,
      count_step h1 hr hen hmet hp hnr he, List.countP_cons, BitVec.add_assoc, ← BitVec.ofNat_add]
    congr 2
    cases completes ns nr e o <;> simp [Nat.add_comm]

/-! ### Entries -/

/-- A new entry is for the namespace of a counted call. -/
theorem mEvolve_new (a : Abs) (m : GoMap Probe.MKey Probe.MVal) (o : Probe.POp) (k : Probe.MKey)
    (h : GoMap.get m k = none) (h' : GoMap.get (mEvolve a m o) k ≠ none) :
    a.met k.pidNs = true ∧ ((∃ c args full, o = .enter c args full ∧ c.ns = k.pidNs) ∨
      ∃ c ret scr, o = .exit c ret scr ∧ c.ns = k.pidNs) := by
  cases o with
  | api o => exact absurd h h'
  | execve c scr => exact absurd h h'
  | enter c args full =>
    simp only [mEvolve] at h'
    split at h'
    · rename_i hc
      rw [updateKtime_get] at h'
      split at h'
      · rename_i hk
        simp only [Spec.Probe.counted, Bool.and_eq_true] at hc
        rw [hk]
        exact ⟨hc.1.2, Or.inl ⟨c, args, full, rfl, rfl⟩⟩
      · exact absurd h h'
    · exact absurd h h'
  | exit c ret scr =>
    simp only [mEvolve] at h'
    split at h'
    · rename_i hc
      rw [updateMetrics_get] at h'
      split at h'
      · rename_i hk
        simp only [Spec.Probe.counted, Bool.and_eq_true] at hc
        rw [hk]
        exact ⟨hc.1.2, Or.inr ⟨c, ret, scr, rfl, rfl⟩⟩
      · exact absurd h h'
    · exact absurd h h'

theorem nodup_foldl_del (ks : List Probe.MKey) : ∀ (m : GoMap Probe.MKey Probe.MVal), GoMap.NodupKeys m →
    GoMap.NodupKeys (ks.foldl GoMap.del m) := by
  induction ks with
  | nil => intro m h; exact h
  | cons k ks ih => intro m h; exact ih _ (GoMap.nodupKeys_del h k)

theorem prune_sub {m : GoMap Probe.MKey Probe.MVal} {n : Int} {fuel : Nat} {r : GoMap Probe.MKey Probe.MVal × Nat}
    (h : Probe.pruneNamespace m n fuel = some r) :
    (∀ k, GoMap.get r.1 k ≠ none → GoMap.get m k ≠ none) ∧ (GoMap.NodupKeys m → GoMap.NodupKeys r.1) := by
  unfold Probe.pruneNamespace at h
  rw [Option.map_eq_some_iff] at h
  obtain ⟨es, -, rfl⟩ := h
  refine ⟨?_, fun hn => nodup_foldl_del _ _ hn⟩
  intro k hk
  dsimp only at hk
  rw [Props.Probe.foldl_del_get] at hk
  split at hk
  · exact absurd rfl hk
  · exact hk

/-- Entries are distinct; each belongs to a namespace something ran in and that was announced. -/
theorem entries_step {d d' : Daemon} {o : Op} {out : List Delivery} (h : step tbl crc srt d o = some (d', out))
    {a : Abs} (hr : Rel d.hub.maps a) :
    (GoMap.NodupKeys d.metrics → GoMap.NodupKeys d'.metrics) ∧
    ∀ k, GoMap.get d'.metrics k ≠ none → GoMap.get d.metrics k ≠ none ∨ (a.met k.pidNs = true ∧ RunsIn k.pidNs o) := by
  rcases metrics_step h hr with ⟨t, id, m, time, args, full, rfl, hm⟩ | ⟨t, id, ret, m, time, mem, scr, lost, rfl, hm⟩ |
    ⟨f, n, rest, rfl, ht, hm⟩ | ⟨hm, -⟩
  · rw [hm]
    refine ⟨nodup_mEvolve _ _ _, fun k hk => ?_⟩
    by_cases hg : GoMap.get d.metrics k = none
    · obtain ⟨h1, ⟨c, _, _, e, h2⟩ | ⟨c, _, _, e, h2⟩⟩ := mEvolve_new a _ _ k hg hk
      · injection e with e; subst e; exact Or.inr ⟨h1, h2⟩
      · cases e
    · exact Or.inl hg
  · rw [hm]
    refine ⟨nodup_mEvolve _ _ _, fun k hk => ?_⟩
    by_cases hg : GoMap.get d.metrics k = none
    · obtain ⟨h1, ⟨c, _, _, e, h2⟩ | ⟨c, _, _, e, h2⟩⟩ := mEvolve_new a _ _ k hg hk
      · cases e
      · injection e with e; subst e; exact Or.inr ⟨h1, h2⟩
    · exact Or.inl hg
  · rw [hm]
    split
    · rename_i r hp
      exact ⟨(prune_sub hp).2, fun k hk => Or.inl ((prune_sub hp).1 k hk)⟩
    · exact ⟨id, fun k hk => Or.inl hk⟩
  · rw [hm]; exact ⟨id, fun k hk => Or.inl hk⟩

theorem entries_run (hist : List Op) : ∀ {d : Daemon}, run tbl crc srt (fresh tbl) hist = some d →
    GoMap.NodupKeys d.metrics ∧ ∀ k, GoMap.get d.metrics k ≠ none →
      (k.pidNs = 31337 ∨ ∃ o ∈ hist, Started k.pidNs o) ∧ ∃ o ∈ hist, RunsIn k.pidNs o := by
  induction hist using Swoll.ListX.snoc_induction with
  | h0 =>
    intro d h
    simp only [run, Option.some.injEq] at h
    subst h
    exact ⟨GoMap.nodupKeys_nil, fun k hk => absurd rfl hk⟩
  | h1 xs o ih =>
    intro d h
    obtain ⟨d1, out, h1, h2⟩ := run_snoc h
    obtain ⟨n1, k1⟩ := ih h1
    obtain ⟨-, -, a, ra, -, ma, -⟩ := met_run xs h1
    obtain ⟨s1, s2⟩ := entries_step h2 ra
    refine ⟨s1 n1, fun k hk => ?_⟩
    rcases s2 k hk with hk | ⟨hm, hi⟩
    · obtain ⟨e1, o', ho', hr⟩ := k1 k hk
      refine ⟨?_, o', by simp [ho'], hr⟩
      rcases e1 with e1 | ⟨o2, ho2, hs⟩
      · exact Or.inl e1
      · exact Or.inr ⟨o2, by simp [ho2], hs⟩
    · refine ⟨?_, o, by simp, hi⟩
      rcases ma _ hm with e1 | ⟨o2, ho2, hs⟩
      · exact Or.inl e1
      · exact Or.inr ⟨o2, by simp [ho2], hs⟩

/-- Pruning with no entry of namespace 0. -/
theorem prune_all {m : GoMap Probe.MKey Probe.MVal} (hn : GoMap.NodupKeys m)
    (hz : ∀ k, GoMap.get m k ≠ none → k.pidNs ≠ 0) (n : Int) :
    ∃ r, Probe.pruneNamespace m n (m.length + 1) = some r ∧
      ∀ k, k.pidNs = BitVec.ofInt 32 n → GoMap.get r.1 k = none := by
  have hz0 : GoMap.get m ⟨0, 0, 0⟩ = none := by
    apply Classical.byContradiction
    intro hx
    exact hz _ hx rfl
  refine ⟨_, by rw [Probe.pruneNamespace, BpfIter.iterate_absent m _ hn hz0 _ (by omega)]; rfl, ?_⟩
  intro k hk
  dsimp only
  rw [Props.Probe.foldl_del_get]
  by_cases hm : k ∈ (m.map (·.1)).filter (fun k => k.pidNs = BitVec.ofInt 32 n)
  · rw [if_pos hm]
  · rw [if_neg hm, GoMap.get_eq_none_iff]
    intro hk2
    apply hm
    rw [List.mem_filter]
    exact ⟨hk2, by simpa using hk⟩

/-- Once the callback has caught up, a pruned namespace in which nothing runs has no entries. -/
theorem pruned_run {ns : BitVec 32} : ∀ (ops : List Op) {d d' : Daemon} {R : List Hub.Ctx} {a : Abs},
    Lemmas.Hub.Inv d.hub R → Rel d.hub.maps a → run tbl crc srt d ops = some d' →
    (∀ o ∈ ops, ¬ RunsIn ns o ∧ ¬ RunsIn 0 o) →
    GoMap.NodupKeys d.metrics → (∀ k, GoMap.get d.metrics k ≠ none → k.pidNs ≠ 0) →
    ((∃ n, Act.prune n ∈ d.todo ∧ BitVec.ofInt 32 n = ns) ∨ ∀ k, k.pidNs = ns → GoMap.get d.metrics k = none) →
    d'.todo = [] → ∀ k, k.pidNs = ns → GoMap.get d'.metrics k = none := by
  intro ops
  induction ops with
  | nil =>
    intro d d' R a _ _ h _ _ _ hor ht
    simp only [run, Option.some.injEq] at h
    subst h
    rcases hor with ⟨n, hn, -⟩ | h
    · rw [ht] at hn; cases hn
    · exact h
  | cons o os ih =>
    intro d d' R a hi hr h hno hn hz hor ht
    obtain ⟨d1, out, h1, h2⟩ := run_cons_some h
    obtain ⟨R1, hi1, -⟩ := Lemmas.Hub.inv_run tbl _ _ _ R hi (hub_step h1)
    obtain ⟨a1, r1, -⟩ := track_run tbl _ _ _ R hi (hub_step h1) a hr
    obtain ⟨s1, s2⟩ := entries_step h1 hr
    obtain ⟨n1, n2⟩ := hno o (by simp)
    have hz1 : ∀ k, GoMap.get d1.metrics k ≠ none → k.pidNs ≠ 0 := by
      intro k hk e
      rcases s2 k hk with hk | ⟨-, hk⟩
      · exact hz k hk e
      · rw [e] at hk; exact n2 hk
    have hstay : (∀ k, k.pidNs = ns → GoMap.get d.metrics k = none) → ∀ k, k.pidNs = ns → GoMap.get d1.metrics k = none := by
      intro hx k hk
      apply Classical.byContradiction
      intro hy
      rcases s2 k hy with hy | ⟨-, hy⟩
      · exact hy (hx k hk)
      · rw [hk] at hy; exact n1 hy
    refine ih hi1 r1 h2 (fun x hx => hno x (by simp [hx])) (s1 hn) hz1 ?_ ht
    rcases hor with ⟨n, hm, he⟩ | hx
    · rcases todo_step h1 with ⟨ev, rfl, htd⟩ | ⟨f, rfl, htd⟩ | ⟨htd, -⟩
      · exact Or.inl ⟨n, by rw [htd]; simp [hm], he⟩
      · cases htt : d.todo with
        | nil => rw [htt] at hm; cases hm
        | cons x rest =>
          rw [htt] at hm
          rcases List.mem_cons.1 hm with hm | hm
          · right
            subst hm
            obtain ⟨r, hp, hall⟩ := prune_all hn hz n
            rcases metrics_step h1 hr with ⟨_, _, _, _, _, _, e, -⟩ | ⟨_, _, _, _, _, _, _, _, e, -⟩ |
              ⟨f', n', rest', -, ht', hm'⟩ | ⟨-, -, -, hne⟩
            · cases e
            · cases e
            · rw [htt] at ht'
              injection ht' with e1 e2
              injection e1 with e1
              subst e1
              rw [hp] at hm'
              intro k hk
              rw [hm']
              exact hall k (by rw [hk, he])
            · exact absurd htt (hne f n rest rfl)
          · exact Or.inl ⟨n, by rw [htd, htt]; exact hm, he⟩
      · exact Or.inl ⟨n, by rw [htd]; exact hm, he⟩
    · exact Or.inr (hstay hx)

theorem newActs_stop {c : Topology.Container} (h : 0 < c.pidns) :
    Act.prune c.pidns ∈ newActs (some ⟨1, some c⟩) := by
  simp [newActs, Spec.Topology.meaning, h]

end Swoll.Lemmas.Daemon
