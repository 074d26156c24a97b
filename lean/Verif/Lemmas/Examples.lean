import Verif.Model.Examples
import Verif.Lemmas.HostShow
import Verif.Spec.Examples
/-
A filter that was never switched on lets nothing through, and the rules of kubernetes-basic.
-/
namespace Swoll.Lemmas.Examples
open Swoll Swoll.Examples
open Swoll.Spec.Filter (scope Abs Sample)
open Swoll.Lemmas.Filter (Rel rel_step rel_empty)
open Swoll.Lemmas.Host (Lets)

variable {tbl : Syscalls.Syscalls}

theorem addAll_run (refused : String → Filter.Faults) : ∀ (ns : List String) (m : Filter.KMaps),
    addAll tbl refused m ns = (Filter.run tbl m (ns.map (fun n => .addSyscall (.str n) (-1) (refused n)))).1
  | [], _ => rfl
  | n :: ns, m => by
    simp only [addAll, List.map_cons, Filter.run, Filter.step]
    exact addAll_run refused ns _

/-! ### Never switched on -/

theorem step_enabled (a : Abs) (o : Filter.Op) (h : o ≠ .enable) : (a.step tbl o).1.enabled = a.enabled := by
  cases o <;> simp only [Abs.step] <;> (try exact absurd rfl h) <;> (repeat' split) <;> rfl

theorem run_off : ∀ (ops : List Filter.Op) {m : Filter.KMaps} {a : Abs}, Rel m a → a.enabled = false →
    .enable ∉ ops → Filter.isFilterEnabled (Filter.run tbl m ops).1 Filter.fmodeEnabled = false
  | [], m, a, hr, he, _ => by simp only [Filter.run]; rw [hr.en, he]
  | o :: os, m, a, hr, he, hn => by
    simp only [Filter.run]
    refine run_off os (rel_step tbl hr o).1 ?_ (fun h => hn (List.mem_cons_of_mem _ h))
    rw [step_enabled _ _ (fun h => hn (by simp [h])), he]

/-- The filter is off and the program has seen nothing. -/
structure Dark (p : Prog) : Prop where
  off : Filter.isFilterEnabled p.probe.maps Filter.fmodeEnabled = false
  state : p.probe.state = []
  ring : p.ring = []
  out : p.out = []

theorem nfilter_off {m : Filter.KMaps} (h : Filter.isFilterEnabled m Filter.fmodeEnabled = false)
    (mode : BitVec 16) (ns tid nr : BitVec 32) : Filter.runNfilter m mode ns tid nr = (m, Filter.factionDrop) := by
  simp [Filter.runNfilter, h]

theorem fillMetrics_off {s : Probe.PState} (h : Filter.isFilterEnabled s.maps Filter.fmodeEnabled = false)
    (c : Probe.Ctx) (ret : Option (BitVec 64)) : Probe.fillMetrics s c ret = s := by
  simp [Probe.fillMetrics, nfilter_off h]

theorem enter_off {s : Probe.PState} (h : Filter.isFilterEnabled s.maps Filter.fmodeEnabled = false)
    (c : Probe.Ctx) (args : List (BitVec 64)) (full : Bool) : Probe.enter s c args full = s := by
  simp only [Probe.enter, fillMetrics_off h, nfilter_off h, if_true]
  split <;> rfl

theorem exit_off {f : BitVec 32 → Bool} {s : Probe.PState}
    (h : Filter.isFilterEnabled s.maps Filter.fmodeEnabled = false) (he : s.state = [])
    (c : Probe.Ctx) (ret : BitVec 64) (b : Bool) : Probe.exit f s c ret b = (s, none) := by
  simp [Probe.exit, fillMetrics_off h, he]

theorem execve_off {s : Probe.PState} (h : Filter.isFilterEnabled s.maps Filter.fmodeEnabled = false)
    (c : Probe.Ctx) (b : Bool) : Probe.execve s c b = (s, none) := by
  simp [Probe.execve, nfilter_off h]

theorem callback_nil (tbl : Syscalls.Syscalls) (lookup : Option (Int → Option Topology.Container)) (p : Prog) :
    callback tbl lookup [] p = some p := by
  have : Event.ingest tbl lookup (.bytes []) = .err := by
    have h : Event.ingestBytes [] = none := by decide
    simp [Event.ingest, h]
  simp [callback, this]

theorem step_dark {p : Prog} (h : Dark p) (o : Op) : step tbl p o = some p := by
  cases o with
  | enter t id m time args full => simp only [step, enter_off h.off]
  | exit t id ret m time mem s l => simp only [step, exit_off h.off h.state]
  | execve t time mem f av s l => simp only [step, execve_off h.off]
  | sample lk => simp only [step, h.ring]
  | lost lk => exact callback_nil tbl lk p

theorem run_dark {p : Prog} (h : Dark p) : ∀ hist : List Op, run tbl p hist = some p
  | [] => rfl
  | o :: os => by simp only [run, step_dark h]; exact run_dark h os

theorem start_dark {ops : List Filter.Op} (h : .enable ∉ ops) :
    Dark (start (Filter.run tbl Filter.KMaps.empty ops).1) :=
  ⟨run_off ops rel_empty rfl h, rfl, rfl, rfl⟩

/-! ### The rules -/

theorem addAll_lets {refused : String → Filter.Faults} : ∀ (ns : List String) {m : Filter.KMaps}
    {P : BitVec 32 → Prop} {a : Abs}, Lets m P a →
    ∃ a', Lets (addAll tbl refused m ns) (fun nr => P nr ∨ ∃ n ∈ ns, ∃ s, Syscalls.lookup tbl (.str n) = some s ∧
      BitVec.ofNat 32 s.nr = nr ∧ (refused n).config = false ∧ (refused n).filter = false) a'
  | [], m, P, a, h => by
    refine ⟨a, h.rel, h.ns, h.rate, ?_⟩
    intro nr; rw [h.all]; simp
  | n :: ns, m, P, a, h => by
    simp only [addAll]
    have hrel := (rel_step tbl h.rel (.addSyscall (.str n) (-1) (refused n))).1
    simp only [Abs.step, Filter.step] at hrel
    cases hl : Syscalls.lookup tbl (.str n) with
    | none =>
      rw [hl] at hrel
      obtain ⟨a', k⟩ := addAll_lets (refused := refused) ns (P := P) ⟨hrel, h.ns, h.rate, h.all⟩
      refine ⟨a', k.rel, k.ns, k.rate, ?_⟩
      intro nr
      rw [k.all]
      simp only [List.mem_cons, exists_eq_or_imp, hl]
      simp
    | some s =>
      rw [hl] at hrel
      dsimp only at hrel
      by_cases hf : ((refused n).config || (refused n).filter) = true
      · rw [if_pos hf] at hrel
        obtain ⟨a', k⟩ := addAll_lets (refused := refused) ns (P := P) ⟨hrel, h.ns, h.rate, h.all⟩
        refine ⟨a', k.rel, k.ns, k.rate, ?_⟩
        intro nr
        rw [k.all]
        simp only [List.mem_cons, exists_eq_or_imp, hl]
        cases hc : (refused n).config <;> cases hg : (refused n).filter <;> simp_all
      · rw [if_neg hf] at hrel
        have hlets : Lets (Filter.addSyscall tbl m (.str n) (-1) (refused n)).1 (fun nr => P nr ∨ BitVec.ofNat 32 s.nr = nr)
            (a.setRule (scope (-1)) (BitVec.ofNat 32 s.nr) (some ⟨0, 0⟩)) := by
          refine ⟨hrel, ?_, ?_, ?_⟩
          · intro k nr
            simp only [Abs.setRule, scope, if_true]
            rw [if_neg (by simp)]; exact h.ns k nr
          · intro nr s' hs'
            simp only [Abs.setRule, scope, if_true, true_and] at hs'
            split at hs'
            · injection hs' with hs'; rw [← hs']
            · exact h.rate nr s' hs'
          · intro nr
            simp only [Abs.setRule, scope, if_true, true_and]
            by_cases e : nr = BitVec.ofNat 32 s.nr
            · simp [e]
            · rw [if_neg e, h.all]
              constructor
              · exact Or.inl
              · rintro (hp | hp)
                · exact hp
                · exact absurd hp.symm e
        obtain ⟨a', k⟩ := addAll_lets (refused := refused) ns hlets
        refine ⟨a', k.rel, k.ns, k.rate, ?_⟩
        intro nr
        rw [k.all]
        have hf : (refused n).config = false ∧ (refused n).filter = false := by
          cases hc : (refused n).config <;> cases hg : (refused n).filter <;> simp_all
        simp only [List.mem_cons, exists_eq_or_imp, hl, Option.some.injEq, exists_eq_left', hf, and_self, and_true]
        rw [or_assoc]

theorem kubernetesBasic_lets (refused : String → Filter.Faults) :
    ∃ a, Lets (Filter.enable (kubernetesBasic tbl refused)) (fun nr => ∃ n ∈ names, ∃ s,
      Syscalls.lookup tbl (.str n) = some s ∧ BitVec.ofNat 32 s.nr = nr ∧
      (refused n).config = false ∧ (refused n).filter = false) a ∧ a.enabled = true := by
  have h0 : Lets Filter.KMaps.empty (fun _ => False) Abs.empty :=
    ⟨rel_empty, fun _ _ => rfl, (fun _ _ h => by cases h), (fun _ => by simp [Abs.empty])⟩
  obtain ⟨a, k⟩ := addAll_lets (tbl := tbl) (refused := refused) names h0
  refine ⟨_, ⟨(rel_step tbl k.rel .enable).1, k.ns, k.rate, ?_⟩, rfl⟩
  intro nr
  show (a.sys none nr).isSome ↔ _
  rw [k.all]
  simp only [false_or]

/-! ### Switched on -/

open Swoll.Spec.Examples (view viewOp asking)
open Swoll.Spec.Host (Due Tells SaneOp Known)
open Swoll.Lemmas.Host (Sampled Inv inv_run)
open Swoll.Event (TraceEvent)

theorem run_app (ops : List Filter.Op) (o : Filter.Op) : ∀ m : Filter.KMaps,
    (Filter.run tbl m (ops ++ [o])).1 = (Filter.step tbl (Filter.run tbl m ops).1 o).1 := by
  induction ops with
  | nil => intro m; rfl
  | cons x xs ih => intro m; simp only [List.cons_append, Filter.run]; exact ih _

theorem install_addAll : ∀ (ns : List String) {m m' : Filter.KMaps},
    Host.install tbl (fun _ => {}) m ns = some m' → addAll tbl (fun _ => {}) m ns = m'
  | [], m, m', h => by simpa [Host.install, addAll] using h
  | n :: ns, m, m', h => by
    simp only [Host.install] at h
    split at h
    · cases h
    · rename_i r hr
      rw [Lemmas.Host.rule_eq] at hr
      split at h
      · cases h
      · rename_i m1 hm1
        have : (Filter.addSyscall tbl m (.str n) (-1) {}).1 = m1 := by
          simp only [Filter.addSyscall, hr, hm1]
        simp only [addAll, this]
        exact install_addAll ns h

theorem asking_start {given : List String} (hg : given ≠ []) (hk : Known tbl given) :
    Host.start tbl (fun _ => {}) given = some ⟨⟨asking tbl given, [], []⟩, [], []⟩ := by
  obtain ⟨m', hm⟩ := Lemmas.Host.install_ok (tbl := tbl) given Filter.KMaps.empty hk
  have hn : Host.namesOf given = given := by simp [Host.namesOf, hg]
  unfold Host.start asking
  rw [hn, hm, run_app, ← addAll_run (fun _ => {}), install_addAll given hm]
  rfl

theorem ingest_some (lk : Option (Int → Option Topology.Container)) (bs : List Bytes.Byte) :
    Event.ingest tbl lk (.bytes bs) = Event.ingest tbl (some (fun n => lk.bind (fun f => f n))) (.bytes bs) := by
  cases lk <;> simp [Event.ingest]

theorem ingest_any {lk lk' : Option (Int → Option Topology.Container)} {bs : List Bytes.Byte}
    {ev : TraceEvent Topology.Container} (h : Event.ingest tbl lk (.bytes bs) = .ok ev) :
    ∃ ev', Event.ingest tbl lk' (.bytes bs) = .ok ev' := by
  simp only [Event.ingest] at h ⊢
  split at h
  · cases h
  · split at h
    · cases h
    · cases h
    · exact ⟨_, rfl⟩

theorem ingest_err {lk : Option (Int → Option Topology.Container)} {bs : List Bytes.Byte}
    (h : Event.ingest tbl lk (.bytes bs) = .err) : Event.ingestBytes bs = none := by
  simp only [Event.ingest] at h
  split at h
  · assumption
  · split at h <;> cases h

theorem sampled_bytes {given : List String} {hist : List Host.Op} (hs : ∀ o ∈ hist, SaneOp o) {e : Nat}
    {bs : List Bytes.Byte} (h : Sampled tbl given hist e bs) : ∃ r, Event.ingestBytes bs = some r := by
  rcases h with ⟨t, c, s, hc, hb⟩ | ⟨t, time, mem, f, av, s, hx, hb⟩
  · obtain ⟨hw, hl⟩ := Lemmas.Host.completed_sane hs hc
    rw [hb]
    exact ⟨_, Lemmas.Host.ingestBytes_encode (Lemmas.Event.wf_onExit s t c hw hl)⟩
  · obtain ⟨hw, hl⟩ := Lemmas.Host.executed_sane hs hx
    obtain ⟨hwf, -, -⟩ := Lemmas.Event.execve_args s t mem f av time hw hl
    rw [hb]
    exact ⟨_, Lemmas.Host.ingestBytes_encode hwf⟩

/-- What the callback makes of a sample says what was done. -/
theorem sampled_tells {given : List String} {hist : List Host.Op} (hs : ∀ o ∈ hist, SaneOp o) {e : Nat}
    {bs : List Bytes.Byte} (h : Sampled tbl given hist e bs) {lk : Option (Int → Option Topology.Container)}
    {ev : TraceEvent Topology.Container} (hi : Event.ingest tbl lk (.bytes bs) = .ok ev) :
    ∃ nr, Tells tbl given hist e nr ev ∧ ev.container = lk.bind (fun f => f ev.pidNs) := by
  rw [ingest_some] at hi
  rcases h with ⟨t, c, s, hc, hb⟩ | ⟨t, time, mem, f, av, s, hx, hb⟩
  · obtain ⟨hw, hl⟩ := Lemmas.Host.completed_sane hs hc
    rw [hb] at hi
    obtain ⟨hr, hcn, -⟩ := Lemmas.Daemon.reports_exit hw hl hi
    exact ⟨c.nr.toNat, Or.inl ⟨t, c, s, hc, rfl, hr⟩, hcn⟩
  · obtain ⟨hw, hl⟩ := Lemmas.Host.executed_sane hs hx
    rw [hb] at hi
    obtain ⟨hr, hcn⟩ := Lemmas.Daemon.reports_execve hw hl hi
    exact ⟨59, Or.inr ⟨t, time, mem, f, av, s, hx, rfl, hr⟩, hcn⟩

/-- The program and the tracer have the same probe and buffer, and have shown as much. -/
structure Sim (p : Prog) (h : Host.Host) : Prop where
  probe : p.probe = h.probe
  ring : p.ring = h.ring
  out : p.out.length = h.out.length

variable {json : TraceEvent Topology.Container → List Char} {env : Print.Env}

theorem run_snoc {o : Op} : ∀ {os : List Op} {p p' : Prog}, run tbl p (os ++ [o]) = some p' →
    ∃ p1, run tbl p os = some p1 ∧ step tbl p1 o = some p'
  | [], p, p', h => by
    simp only [List.nil_append, run] at h
    split at h
    · cases h
    · injection h with h; subst h; exact ⟨p, rfl, by assumption⟩
  | x :: xs, p, p', h => by
    simp only [List.cons_append, run] at h ⊢
    split at h
    · cases h
    · exact run_snoc h

theorem run_add {o : Op} : ∀ {os : List Op} {p p1 p' : Prog}, run tbl p os = some p1 → step tbl p1 o = some p' →
    run tbl p (os ++ [o]) = some p'
  | [], p, p1, p', h1, h2 => by
    simp only [run, Option.some.injEq] at h1
    subst h1
    simp [run, h2]
  | x :: xs, p, p1, p', h1, h2 => by
    simp only [List.cons_append, run] at h1 ⊢
    split at h1
    · cases h1
    · exact run_add h1 h2

theorem host_snoc (xs : List Host.Op) (o : Host.Op) {h0 h h' : Host.Host}
    (h1 : Host.run tbl .other json h0 xs = some h) (h2 : Host.step tbl .other json h o = some h') :
    Host.run tbl .other json h0 (xs ++ [o]) = some h' := by
  rw [Lemmas.Host.run_append, h1]
  simp [Host.run, h2]

theorem sim_step {given : List String} {hist : List Host.Op} (hs : ∀ o ∈ hist, SaneOp o) {p p' : Prog} {h : Host.Host}
    (hi : Inv tbl .other json given hist h) (hsim : Sim p h) {o : Op} (hst : step tbl p o = some p') :
    (viewOp env o = none ∧ Sim p' h) ∨ ∃ o' h', viewOp env o = some o' ∧ Host.step tbl .other json h o' = some h' ∧ Sim p' h' := by
  obtain ⟨e1, e2, e3⟩ := hsim
  cases o with
  | enter t id m time args full =>
    simp only [step, Option.some.injEq] at hst
    subst hst
    exact Or.inr ⟨_, _, rfl, rfl, by simp [e1], e2, e3⟩
  | exit t id ret m time mem s l =>
    simp only [step] at hst
    refine Or.inr ⟨.exit t id ret m time mem s l, ?_⟩
    simp only [viewOp, Host.step, ← e1]
    generalize Probe.exit Daemon.hasFiller p.probe (Daemon.ctxOf t id m time) ret s.isSome = r at hst ⊢
    obtain ⟨r1, r2⟩ := r
    cases r2 <;> cases s <;> simp only [Option.some.injEq] at hst <;> subst hst <;>
      refine ⟨_, trivial, rfl, ?_⟩ <;> simp only [emit, Host.emit] <;> (repeat' split) <;> constructor <;> simp [e2, e3]
  | execve t time mem f av s l =>
    simp only [step] at hst
    refine Or.inr ⟨.execve t time mem f av s l, ?_⟩
    simp only [viewOp, Host.step, ← e1]
    generalize Probe.execve p.probe (Daemon.ctxOf t 59 0 time) s.isSome = r at hst ⊢
    obtain ⟨r1, r2⟩ := r
    cases r2 <;> cases s <;> simp only [Option.some.injEq] at hst <;> subst hst <;>
      refine ⟨_, trivial, rfl, ?_⟩ <;> simp only [emit, Host.emit] <;> (repeat' split) <;> constructor <;> simp [e2, e3]
  | sample lk =>
    simp only [step] at hst
    split at hst
    · rename_i hr
      injection hst with hst
      subst hst
      exact Or.inr ⟨_, h, rfl, by simp only [Host.step]; rw [← e2, hr], e1, e2, e3⟩
    · rename_i bs rest hr
      rw [e2] at hr
      obtain ⟨e, he⟩ := Lemmas.Host.ring_sampled hi (bs := bs) (by rw [hr]; simp)
      obtain ⟨r, hb⟩ := sampled_bytes hs he
      simp only [callback] at hst
      split at hst
      · rename_i ev hev
        obtain ⟨ev', hev'⟩ := ingest_any (lk' := some fun _ => none) hev
        have hp := Lemmas.Host.print_ok (fmt := .other) (json := json) (env := env) hb hev'
        injection hst with hst
        subst hst
        refine Or.inr ⟨_, { h with ring := rest, out := h.out ++ [[]] }, rfl, ?_, e1, rfl, by simp [e3]⟩
        simp only [Host.step]
        rw [hr]
        simp only [hp, Host.showMsg, Option.map_some]
      · rename_i hev
        rw [ingest_err hev] at hb
        cases hb
      · cases hst
  | lost lk =>
    simp only [step, callback_nil, Option.some.injEq] at hst
    subst hst
    exact Or.inl ⟨rfl, e1, e2, e3⟩

theorem view_snoc (hist : List Op) (o : Op) : view env (hist ++ [o]) = view env hist ++ (viewOp env o).toList := by
  unfold view
  rw [List.filterMap_append]
  cases h : viewOp env o <;> simp [h]

theorem sim_run {given : List String} {h0 : Host.Host} (hg : Host.start tbl (fun _ => {}) given = some h0)
    {p0 : Prog} (hp0 : Sim p0 h0) (hist : List Op) : (∀ o ∈ view env hist, SaneOp o) → ∀ {p : Prog},
    run tbl p0 hist = some p → ∃ h, Host.run tbl .other json h0 (view env hist) = some h ∧ Sim p h := by
  induction hist using Swoll.ListX.snoc_induction with
  | h0 =>
    intro _ p hr
    simp only [run, Option.some.injEq] at hr
    subst hr
    exact ⟨h0, rfl, hp0⟩
  | h1 xs o ih =>
    intro hs p hr
    obtain ⟨p1, k1, k2⟩ := run_snoc hr
    rw [view_snoc] at hs ⊢
    have hs1 : ∀ o ∈ view env xs, SaneOp o := fun o ho => hs o (List.mem_append_left _ ho)
    obtain ⟨h, k3, k4⟩ := ih hs1 k1
    rcases sim_step (env := env) hs1 (inv_run hg _ k3) k4 k2 with ⟨hv, k5⟩ | ⟨o', h', hv, k5, k6⟩
    · rw [hv]; exact ⟨h, by simpa using k3, k5⟩
    · rw [hv]; exact ⟨h', host_snoc _ _ k3 k5, k6⟩

theorem step_alive {p : Prog} (o : Op) (hp : ∀ bs ∈ p.ring, ∃ ev, Event.ingest (κ := Topology.Container) tbl (some fun _ => none) (.bytes bs) = .ok ev) :
    ∃ p', step tbl p o = some p' := by
  cases o with
  | enter => exact ⟨_, rfl⟩
  | exit => simp only [step]; split <;> exact ⟨_, rfl⟩
  | execve => simp only [step]; split <;> exact ⟨_, rfl⟩
  | lost lk => exact ⟨_, callback_nil tbl lk p⟩
  | sample lk =>
    simp only [step]
    split
    · exact ⟨_, rfl⟩
    · rename_i bs rest hr
      obtain ⟨ev, he⟩ := hp bs (by rw [hr]; simp)
      obtain ⟨ev', he'⟩ := ingest_any (lk' := lk) he
      simp only [callback, he']
      exact ⟨_, rfl⟩

theorem run_alive {given : List String} {h0 : Host.Host} (hg : Host.start tbl (fun _ => {}) given = some h0)
    {p0 : Prog} (hp0 : Sim p0 h0) (hd : ∀ nr, Spec.Host.Asked tbl given nr → nr.toNat ∈ Spec.Event.decodable)
    (hist : List Op) : (∀ o ∈ view env hist, SaneOp o) → ∃ p, run tbl p0 hist = some p := by
  induction hist using Swoll.ListX.snoc_induction with
  | h0 => intro _; exact ⟨p0, rfl⟩
  | h1 xs o ih =>
    intro hs
    rw [view_snoc] at hs
    have hs1 : ∀ o ∈ view env xs, SaneOp o := fun o ho => hs o (List.mem_append_left _ ho)
    obtain ⟨p, hp⟩ := ih hs1
    obtain ⟨h, k1, k2⟩ := sim_run (json := fun _ => []) hg hp0 xs hs1 hp
    have hi := inv_run hg _ k1
    obtain ⟨p', hp'⟩ := step_alive (tbl := tbl) (p := p) o (by
      intro bs hb
      rw [k2.ring] at hb
      obtain ⟨e, he⟩ := Lemmas.Host.ring_sampled hi hb
      obtain ⟨x, hx⟩ := Lemmas.Host.print_some (fmt := .other) (json := fun _ => []) hs1 he hd env
      exact Lemmas.Host.print_some_ok hx)
    exact ⟨p', run_add hp hp'⟩

end Swoll.Lemmas.Examples
