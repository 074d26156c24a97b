import Verif.Lemmas.ServiceDeleted
import Verif.Lemmas.HubJob
import Verif.Lemmas.DaemonMetrics
/-
The rules in the kernel and the jobs they are there for.
-/
namespace Swoll.Lemmas.Service
open Swoll Swoll.Service
open Swoll.Daemon (Daemon Delivery)
open Swoll.Filter (FilterKey KMaps)
open Swoll.Spec.Service
open Swoll.Spec.Daemon (registrations regStep)
open Swoll.Spec.Hub (Reg ruleKey reg)
open Swoll.Spec.Filter (scope)
open Swoll.Lemmas.Filter (sysKey metKey metKey0)
open Swoll.Lemmas.Hub (Inv)

variable {tbl : Syscalls.Syscalls} {crc : String → BitVec 64} {srt : List PubSub.Env → List PubSub.Env}

/-- The key of the rule every hub starts with. -/
def StubKey (tbl : Syscalls.Syscalls) (k : FilterKey) : Prop :=
  ∃ s, Syscalls.lookup tbl (.str "sys_set_tid_address") = some s ∧ k = sysKey (some 0) (BitVec.ofNat 32 s.nr)

/-- Somebody wants the rule: it is for metrics, the one every hub starts with, or that of a registration. -/
def Owned (tbl : Syscalls.Syscalls) (rs : List Reg) (k : FilterKey) : Prop :=
  (∃ sc, k = metKey sc) ∨ StubKey tbl k ∨ ∃ r ∈ rs, ruleKey tbl r.ns r.nr = some k

/-- Every rule is wanted by somebody. -/
def Clean (tbl : Syscalls.Syscalls) (m : KMaps) (rs : List Reg) : Prop :=
  ∀ k v, GoMap.get m.filter k = some v → Owned tbl rs k

theorem owned_mono {rs rs' : List Reg} (h : ∀ r ∈ rs, r ∈ rs') {k : FilterKey} (hk : Owned tbl rs k) : Owned tbl rs' k := by
  rcases hk with hk | hk | ⟨r, hr, e⟩
  · exact Or.inl hk
  · exact Or.inr (Or.inl hk)
  · exact Or.inr (Or.inr ⟨r, h r hr, e⟩)

theorem clean_mono {m : KMaps} {rs rs' : List Reg} (h : ∀ r ∈ rs, r ∈ rs') (hc : Clean tbl m rs) : Clean tbl m rs' :=
  fun k v hk => owned_mono h (hc k v hk)

/-- No new keys. -/
theorem clean_sub {m m' : KMaps} {rs : List Reg} (h : ∀ k v, GoMap.get m'.filter k = some v → ∃ v', GoMap.get m.filter k = some v')
    (hc : Clean tbl m rs) : Clean tbl m' rs := by
  intro k v hk
  obtain ⟨v', hv⟩ := h k v hk
  exact hc k v' hv

theorem clean_add {m : KMaps} {rs : List Reg} (r : Filter.Rule) (f : Filter.Faults) (hk : Owned tbl rs (Filter.normKey r.key))
    (hc : Clean tbl m rs) : Clean tbl (Filter.addRule m r f).1 rs := by
  intro k v hv
  by_cases e : Filter.normKey r.key = k
  · rw [← e]; exact hk
  · rw [Lemmas.Hub.get_addRule m r f k e] at hv
    exact hc k v hv

theorem clean_del {m : KMaps} {rs : List Reg} (r : Filter.Rule) (hc : Clean tbl m rs) : Clean tbl (Filter.delRule m r).1 rs := by
  refine clean_sub ?_ hc
  intro k v hv
  unfold Filter.delRule at hv
  split at hv
  · dsimp only at hv
    rw [GoMap.get_del] at hv
    split at hv
    · cases hv
    · exact ⟨v, hv⟩
  · exact ⟨v, hv⟩

/-- The rule the operation puts into the kernel is wanted by somebody. -/
def Wanted (tbl : Syscalls.Syscalls) (rs : List Reg) : Filter.Op → Prop
  | .addSyscall k ns _ => ∀ s, Syscalls.lookup tbl k = some s → Owned tbl rs (sysKey (scope ns) (BitVec.ofNat 32 s.nr))
  | .addSampled k ns _ _ => ∀ s, Syscalls.lookup tbl k = some s → Owned tbl rs (sysKey (scope ns) (BitVec.ofNat 32 s.nr))
  | _ => True

theorem clean_filter {m : KMaps} {rs : List Reg} {o : Filter.Op} (hw : Wanted tbl rs o) (hc : Clean tbl m rs) :
    Clean tbl (Filter.step tbl m o).1 rs := by
  have frame : ∀ (mode : BitVec 16) (ns proc nr : BitVec 32), Clean tbl (Filter.runNfilter m mode ns proc nr).1 rs := by
    intro mode ns proc nr
    refine clean_sub ?_ hc
    intro k v hv
    have := (Lemmas.Filter.runNfilter_frame m mode ns proc nr).2 k
    rw [hv] at this
    exact Option.isSome_iff_exists.1 this.symm
  cases o with
  | addSyscall k ns f =>
    simp only [Filter.step, Filter.addSyscall, Lemmas.Filter.newRule_sys]
    cases hl : Syscalls.lookup tbl k with
    | none => exact hc
    | some s =>
      refine clean_add _ f ?_ hc
      rw [Lemmas.Filter.normKey_sys]
      exact hw s hl
  | addSampled k ns rate f =>
    simp only [Filter.step, Filter.addSampledSyscall, Lemmas.Filter.newRule_sampled]
    cases hl : Syscalls.lookup tbl k with
    | none => exact hc
    | some s =>
      refine clean_add _ f ?_ hc
      rw [Lemmas.Filter.normKey_sys]
      exact hw s hl
  | removeSyscall k ns =>
    simp only [Filter.step, Filter.removeSyscall, Lemmas.Filter.newRule_sys]
    cases hl : Syscalls.lookup tbl k with
    | none => exact hc
    | some s => exact clean_del _ hc
  | addMetrics ns f =>
    simp only [Filter.step, Filter.addMetrics, Lemmas.Filter.newRule_met]
    refine clean_add _ f ?_ hc
    rw [Lemmas.Filter.normKey_met]
    exact Or.inl ⟨_, rfl⟩
  | removeMetrics ns =>
    simp only [Filter.step, Filter.removeMetrics, Lemmas.Filter.newRule_met]
    exact clean_del _ hc
  | enable => exact hc
  | callEvent ns proc nr => exact frame _ ns proc nr
  | metricsEvent ns proc nr => exact frame _ ns proc nr

/-- The hub operation puts in only rules that somebody wants. -/
def WantedHub (tbl : Syscalls.Syscalls) (rs : List Reg) : Hub.Op → Prop
  | .filter o => Wanted tbl rs o
  | _ => True

theorem clean_hub {h h' : Hub.Hub} {R : List Hub.Ctx} (hi : Inv h R) {op : Hub.Op} {b : Bool} {o : List Hub.Out}
    (hs : Hub.step tbl h op = some (h', b, o)) (hw : WantedHub tbl (R.map reg) op) (hc : Clean tbl h.maps (R.map reg)) :
    Clean tbl h'.maps (Spec.Hub.regStep (R.map reg) op) := by
  cases op with
  | push j ns nr =>
    simp only [Hub.step, Option.some.injEq, Prod.mk.injEq] at hs
    obtain ⟨rfl, -⟩ := hs
    exact clean_mono (fun r hr => List.mem_append_left _ hr) hc
  | swap rate ns nr =>
    simp only [Hub.step, Option.map_eq_some_iff] at hs
    obtain ⟨h1, hs, e⟩ := hs
    simp only [Prod.mk.injEq] at e
    obtain ⟨rfl, -⟩ := e
    show Clean tbl h1.maps (R.map reg)
    unfold Hub.swapSample at hs
    split at hs
    · cases hs
    · injection hs with hs; subst hs; exact hc
    · split at hs
      · injection hs with hs
        subst hs
        exact clean_filter (o := .removeSyscall (.int nr) ns) trivial hc
      · injection hs with hs; subst hs; exact hc
  | filter o =>
    simp only [Hub.step, Option.some.injEq, Prod.mk.injEq] at hs
    obtain ⟨rfl, -⟩ := hs
    exact clean_filter hw hc
  | event e =>
    simp only [Hub.step, Option.map_eq_some_iff] at hs
    obtain ⟨r, hs, e'⟩ := hs
    simp only [Prod.mk.injEq] at e'
    obtain ⟨rfl, -⟩ := e'
    rw [(Lemmas.Hub.handleEvent_same hi hs).maps]
    exact hc
  | delete id =>
    simp only [Hub.step] at hs
    rcases Lemmas.Hub.delete_spec tbl hi id with ⟨hn, hx⟩ | ⟨-, h1, hx, -, hmaps, -⟩
    · rw [hx] at hs
      simp only [Option.some.injEq, Prod.mk.injEq] at hs
      obtain ⟨rfl, -⟩ := hs
      refine clean_mono ?_ hc
      intro r hr
      refine List.mem_filter.2 ⟨hr, ?_⟩
      obtain ⟨c, hcR, rfl⟩ := List.mem_map.1 hr
      have : c ∉ Lemmas.Hub.idOf R id := by rw [hn]; simp
      simp only [Lemmas.Hub.idOf, List.mem_filter, hcR, true_and, decide_eq_true_eq] at this
      exact decide_eq_true this
    · rw [hx] at hs
      simp only [Option.some.injEq, Prod.mk.injEq] at hs
      obtain ⟨rfl, -⟩ := hs
      rw [hmaps]
      intro k v hv
      obtain ⟨g1, g2⟩ := Lemmas.Hub.mapsAfter_get tbl k (Lemmas.Hub.idOf R id) R h.maps hi.nodup
        (List.Nodup.sublist ((List.filter_sublist).map _) hi.nodup) (fun c hc => (List.mem_filter.1 hc).1)
      have hno : ¬ ∃ c ∈ Lemmas.Hub.idOf R id, Lemmas.Hub.pairOf (Lemmas.Hub.withoutAll R (Lemmas.Hub.idOf R id)) c.ns c.nr = [] ∧
          ruleKey tbl c.ns c.nr = some k := by
        intro hx
        rw [g1 hx] at hv
        cases hv
      rw [g2 hno] at hv
      rcases hc k v hv with h1 | h1 | ⟨r, hr, e⟩
      · exact Or.inl h1
      · exact Or.inr (Or.inl h1)
      · obtain ⟨c, hcR, rfl⟩ := List.mem_map.1 hr
        by_cases hid : c.job.id = id
        · have hmem : c ∈ Lemmas.Hub.idOf R id := List.mem_filter.2 ⟨hcR, by simpa using hid⟩
          have hne : Lemmas.Hub.pairOf (Lemmas.Hub.withoutAll R (Lemmas.Hub.idOf R id)) c.ns c.nr ≠ [] :=
            fun e' => hno ⟨c, hmem, e', e⟩
          rw [Lemmas.Hub.withoutAll_idOf hi.nodup] at hne
          obtain ⟨c', hc'⟩ := List.exists_mem_of_ne_nil _ hne
          simp only [Lemmas.Hub.pairOf, List.mem_filter, decide_eq_true_eq] at hc'
          refine Or.inr (Or.inr ⟨reg c', List.mem_filter.2 ⟨List.mem_map.2 ⟨c', hc'.1.1, rfl⟩, decide_eq_true hc'.1.2⟩, ?_⟩)
          show ruleKey tbl c'.ns c'.nr = some k
          rw [hc'.2.1, hc'.2.2]
          exact e
        · exact Or.inr (Or.inr ⟨reg c, List.mem_filter.2 ⟨hr, decide_eq_true hid⟩, e⟩)

/-- The operation puts in only rules that somebody wants. -/
def WantedOp (tbl : Syscalls.Syscalls) (rs : List Reg) : Daemon.Op → Prop
  | .addSyscall k ns f => Wanted tbl rs (.addSyscall k ns f)
  | .addSampled k ns r f => Wanted tbl rs (.addSampled k ns r f)
  | _ => True

/-- Rules are wanted, over several hub operations none of which changes registrations. -/
theorem clean_hubRun {h h' : Hub.Hub} {R : List Hub.Ctx} (hi : Inv h R) {ops : List Hub.Op}
    (hs : Hub.run tbl h ops = some h') (hw : ∀ op ∈ ops, WantedHub tbl (R.map reg) op)
    (hn : ∀ op ∈ ops.dropLast, ∀ rs, Spec.Hub.regStep rs op = rs)
    (hc : Clean tbl h.maps (R.map reg)) : Clean tbl h'.maps (ops.foldl Spec.Hub.regStep (R.map reg)) := by
  induction ops generalizing h R with
  | nil => simp only [Hub.run, Option.some.injEq] at hs; subst hs; exact hc
  | cons o os ih =>
    simp only [Hub.run] at hs
    cases h1 : Hub.step tbl h o with
    | none => rw [h1] at hs; cases hs
    | some r =>
      rw [h1] at hs
      have c1 := clean_hub hi h1 (hw o (by simp)) hc
      obtain ⟨R', i1, e1, -⟩ := Lemmas.Hub.inv_step tbl hi h1
      rw [List.foldl_cons]
      rw [← e1] at c1 ⊢
      cases os with
      | nil => simp only [Hub.run, Option.some.injEq] at hs; subst hs; exact c1
      | cons o' os' =>
        have e0 : R'.map reg = R.map reg := by rw [e1]; exact hn o (by simp) _
        refine ih i1 hs ?_ ?_ c1
        · intro op hop; rw [e0]; exact hw op (by simp [hop])
        · intro op hop rs; exact hn op (by simp [hop]) rs

theorem clean_daemon {d d' : Daemon} {o : Daemon.Op} {out : List Delivery} {R : List Hub.Ctx} (hi : Inv d.hub R)
    (hs : Daemon.step tbl crc srt d o = some (d', out)) (hw : WantedOp tbl (R.map reg) o)
    (hc : Clean tbl d.hub.maps (R.map reg)) : Clean tbl d'.hub.maps (regStep (R.map reg) o) := by
  have hr := Lemmas.Daemon.hub_step hs
  rw [← Lemmas.Daemon.regs_hubOps d o]
  have key : (∀ op ∈ Lemmas.Daemon.hubOps d o, WantedHub tbl (R.map reg) op) ∧
      ∀ op ∈ (Lemmas.Daemon.hubOps d o).dropLast, ∀ rs, Spec.Hub.regStep rs op = rs := by
    cases o with
    | enter t id mtime time args full =>
      simp only [Lemmas.Daemon.hubOps]
      split
      · refine ⟨?_, by simp⟩
        intro op hop
        rw [List.mem_singleton] at hop; subst hop; trivial
      · constructor
        · intro op hop
          simp only [List.mem_cons, List.not_mem_nil, or_false] at hop
          rcases hop with rfl | rfl <;> trivial
        · intro op hop rs
          simp only [List.dropLast_cons_cons, List.dropLast_singleton, List.mem_singleton] at hop
          subst hop; rfl
    | act f =>
      simp only [Lemmas.Daemon.hubOps]
      split <;> refine ⟨?_, by simp⟩ <;> intro op hop
      · rw [List.mem_singleton] at hop; subst hop; trivial
      · rw [List.mem_singleton] at hop; subst hop; trivial
      · cases hop
    | route o =>
      simp only [Lemmas.Daemon.hubOps]
      split
      · split
        · refine ⟨?_, by simp⟩
          intro op hop
          rw [List.mem_singleton] at hop; subst hop; trivial
        · exact ⟨by simp, by simp⟩
      · exact ⟨by simp, by simp⟩
    | addSyscall k ns f =>
      refine ⟨?_, by simp [Lemmas.Daemon.hubOps]⟩
      intro op hop
      simp only [Lemmas.Daemon.hubOps, List.mem_singleton] at hop
      subst hop; exact hw
    | addSampled k ns r f =>
      refine ⟨?_, by simp [Lemmas.Daemon.hubOps]⟩
      intro op hop
      simp only [Lemmas.Daemon.hubOps, List.mem_singleton] at hop
      subst hop; exact hw
    | _ =>
      refine ⟨?_, by simp [Lemmas.Daemon.hubOps]⟩
      intro op hop
      simp only [Lemmas.Daemon.hubOps, List.mem_singleton, List.not_mem_nil] at hop
      try (subst hop; trivial)
  exact clean_hubRun hi hr key.1 key.2 hc

theorem clean_fresh : Clean tbl (Daemon.fresh tbl).hub.maps [] := by
  show Clean tbl (Filter.step tbl (Filter.step tbl (Filter.step tbl KMaps.empty
    (.addSyscall (.str "sys_set_tid_address") 0 {})).1 (.addMetrics 31337 {})).1 .enable).1 []
  refine clean_filter trivial (clean_filter trivial (clean_filter ?_ ?_))
  · intro s hs
    exact Or.inr (Or.inl ⟨s, hs, rfl⟩)
  · intro k v hk; cases hk

/-! ### What the goroutines of the jobs have still to do -/

/-- The rules the callback has still to put in belong to pairs for which `P` holds, or which it registers
before. -/
def Fed (P : Int → Int → Prop) : List Act → Prop
  | [] => True
  | .push ns nr :: t => 0 < ns ∧ Fed (fun a b => (a = ns ∧ b = nr) ∨ P a b) t
  | .addSyscall ns nr :: t => P ns nr ∧ Fed P t
  | .addSampled ns nr :: t => P ns nr ∧ Fed P t
  | .swap _ _ :: t => Fed P t
  | .removeSyscall _ _ :: t => Fed P t
  | .crash :: t => Fed P t

theorem fed_mono {P Q : Int → Int → Prop} (h : ∀ a b, P a b → Q a b) : ∀ l, Fed P l → Fed Q l := by
  intro l
  induction l generalizing P Q with
  | nil => intro _; trivial
  | cons x t ih =>
    cases x with
    | push ns nr =>
      rintro ⟨h1, h2⟩
      refine ⟨h1, ih ?_ h2⟩
      rintro a b (g | g)
      · exact Or.inl g
      · exact Or.inr (h a b g)
    | addSyscall ns nr => rintro ⟨h1, h2⟩; exact ⟨h _ _ h1, ih h h2⟩
    | addSampled ns nr => rintro ⟨h1, h2⟩; exact ⟨h _ _ h1, ih h h2⟩
    | swap ns nr => exact ih h
    | removeSyscall ns nr => exact ih h
    | crash => exact ih h

theorem fed_append {P : Int → Int → Prop} : ∀ l l', Fed P l → Fed P l' → Fed P (l ++ l') := by
  intro l
  induction l generalizing P with
  | nil => intro l' _ h; exact h
  | cons x t ih =>
    intro l' h h'
    cases x with
    | push ns nr => exact ⟨h.1, ih l' h.2 (fed_mono (fun _ _ g => Or.inr g) l' h')⟩
    | addSyscall ns nr => exact ⟨h.1, ih l' h.2 h'⟩
    | addSampled ns nr => exact ⟨h.1, ih l' h.2 h'⟩
    | swap ns nr => exact ih l' h h'
    | removeSyscall ns nr => exact ih l' h h'
    | crash => exact ih l' h h'

theorem fed_flatMap {P : Int → Int → Prop} {α : Type} (f : α → List Act) (l : List α) (h : ∀ a ∈ l, Fed P (f a)) :
    Fed P (l.flatMap f) := by
  induction l with
  | nil => trivial
  | cons a l ih =>
    rw [List.flatMap_cons]
    exact fed_append _ _ (h a (by simp)) (ih (fun b hb => h b (by simp [hb])))

theorem fed_acts (P : Int → Int → Prop) (s : Hub.Spec) (c : Topology.Call) (hc : 0 < c.container.pidns) :
    Fed P (acts tbl s c) := by
  unfold acts
  split
  · refine fed_flatMap _ _ ?_
    intro name _
    unfold stopActs
    split <;> trivial
  · split
    · split
      · refine fed_flatMap _ _ ?_
        intro name _
        unfold startActs
        split
        · trivial
        · split
          · exact ⟨hc, Or.inl ⟨rfl, rfl⟩, Or.inl ⟨rfl, rfl⟩, trivial⟩
          · exact ⟨hc, Or.inl ⟨rfl, rfl⟩, trivial⟩
      · trivial
    · trivial

theorem fed_notice (P : Int → Int → Prop) (s : Hub.Spec) (cache : Topology.Cache) (ev : Option Topology.Event) :
    Fed P ((Topology.processEvent true cache ev).2.1.flatMap (acts tbl s)) := by
  refine fed_flatMap _ _ ?_
  intro c hc
  refine fed_acts P s c ?_
  unfold Topology.processEvent at hc
  split at hc
  · cases hc
  · split at hc
    · cases hc
    · split at hc
      · cases hc
      · rename_i hpos
        split at hc
        · simp only [if_true, List.mem_singleton] at hc; subst hc; dsimp only; omega
        · split at hc
          · simp only [if_true, List.mem_singleton] at hc; subst hc; dsimp only; omega
          · cases hc

/-- Every rule in the kernel is wanted, and so will be those that goroutines have still to put in. -/
structure RInv (tbl : Syscalls.Syscalls) (s : Service) : Prop where
  clean : Clean tbl s.daemon.hub.maps (registrations s.log)
  fed : ∀ pr ∈ s.procs, Fed (fun ns nr => (⟨pr.spec.job, ns, nr⟩ : Reg) ∈ registrations s.log) pr.todo
  pos : ∀ r ∈ registrations s.log, 0 < r.ns

theorem wanted_of {rs : List Reg} {j : Hub.Job} {ns nr : Int} (h : (⟨j, ns, nr⟩ : Reg) ∈ rs) :
    ∀ s, Syscalls.lookup tbl (.int nr) = some s → Owned tbl rs (sysKey (scope ns) (BitVec.ofNat 32 s.nr)) := by
  intro s hs
  refine Or.inr (Or.inr ⟨_, h, ?_⟩)
  rw [Lemmas.Hub.ruleKey_eq, hs]; rfl

theorem rinv_daemon {s : Service} (hl : Logged tbl crc srt s) {o : Daemon.Op} {d : Daemon} {out : List Delivery}
    (hd : Daemon.step tbl crc srt s.daemon o = some (d, out)) (hw : WantedOp tbl (registrations s.log) o)
    (h : RInv tbl s) : Clean tbl d.hub.maps (registrations (s.log ++ [o])) := by
  obtain ⟨R, hi, e⟩ := Lemmas.Hub.inv_reach tbl (Lemmas.Daemon.hub_run hl)
  have e' : R.map reg = registrations s.log := by rw [e]; exact Lemmas.Daemon.registered_trace hl
  rw [regs_snoc, ← e']
  rw [← e'] at hw
  exact clean_daemon hi hd hw (by rw [e']; exact h.clean)

/-- An operation that does not concern registrations. -/
def Aside (o : Daemon.Op) : Prop := ∀ rs, regStep rs o = rs

theorem aside_outside {o : Daemon.Op} (h : isOutside o = true) : Aside o ∧ ∀ rs, WantedOp tbl rs o := by
  cases o <;> first | exact ⟨fun _ => rfl, fun _ => trivial⟩ | cases h

/-- A step that leaves procs and registrations alone. -/
theorem rinv_same {s s' : Service} (h : RInv tbl s) (hc : Clean tbl s'.daemon.hub.maps (registrations s'.log))
    (hr : registrations s'.log = registrations s.log) (hp : s'.procs = s.procs) : RInv tbl s' :=
  ⟨hc, by rw [hr, hp]; exact h.fed, by rw [hr]; exact h.pos⟩

theorem rinv_step {s s' : Service} {op : Op} {out : List Delivery} (hm : Moves tbl crc srt s op s' out)
    (hl : Logged tbl crc srt s)
    (hu : ∀ i t j, op = .handle i → s.server.threads[i]? = some t → t.pc = .deleteHub j → Idle s t.id)
    (h : RInv tbl s) : RInv tbl s' := by
  cases hm with
  | idle op => exact h
  | outside o d out ho hd =>
    obtain ⟨h1, h2⟩ := aside_outside (tbl := tbl) ho
    exact rinv_same h (rinv_daemon hl hd (h2 _) h) (by dsimp only; rw [regs_snoc, h1]) rfl
  | create q u ok b => exact rinv_same h h.clean rfl rfl
  | delete id => exact rinv_same h h.clean rfl rfl
  | handleDelete i t j d out ht hp hd =>
    have hidle := hu i t j rfl ht hp
    have hreg : registrations (s.log ++ [Daemon.Op.delete t.id]) =
        (registrations s.log).filter (fun r => r.job.id ≠ t.id) := by rw [regs_snoc]; rfl
    refine ⟨rinv_daemon hl hd trivial h, ?_, ?_⟩
    · intro pr hpr
      dsimp only
      rw [hreg]
      by_cases e : pr.spec.job.id = t.id
      · rw [hidle pr hpr e]; trivial
      · refine fed_mono ?_ _ (h.fed pr hpr)
        intro a b hab
        exact List.mem_filter.2 ⟨hab, by simpa using e⟩
    · intro r hr
      dsimp only at hr
      rw [hreg] at hr
      exact h.pos r (List.mem_filter.1 hr).1
  | handleCreate i t ht hp =>
    refine ⟨h.clean, ?_, h.pos⟩
    intro pr hpr
    rcases List.mem_append.1 hpr with hpr | hpr
    · exact h.fed pr hpr
    · rw [List.mem_singleton] at hpr; subst hpr; trivial
  | handleOther i t ht h1 h2 => exact rinv_same h h.clean rfl rfl
  | notice p ev pr hp ht =>
    refine ⟨h.clean, ?_, h.pos⟩
    intro pr' hpr
    rcases List.mem_or_eq_of_mem_set hpr with hpr | rfl
    · exact h.fed pr' hpr
    · exact fed_notice _ _ _ _
  | work p f pr a rest o d out hp ht ha hd =>
    have hf := h.fed pr (List.mem_of_getElem? hp)
    rw [ht] at hf
    -- what the call does to the registrations, and that its rule is wanted
    have key : WantedOp tbl (registrations s.log) o ∧
        (∀ r ∈ registrations s.log, r ∈ registrations (s.log ++ [o])) ∧
        (∀ r ∈ registrations (s.log ++ [o]), 0 < r.ns) ∧
        Fed (fun ns nr => (⟨pr.spec.job, ns, nr⟩ : Reg) ∈ registrations (s.log ++ [o])) rest := by
      rw [regs_snoc]
      cases a with
      | push ns nr =>
        simp only [actOp, Option.some.injEq] at ha
        subst ha
        refine ⟨trivial, fun r hr => List.mem_append_left _ hr, ?_, ?_⟩
        · intro r hr
          rcases List.mem_append.1 hr with hr | hr
          · exact h.pos r hr
          · rw [List.mem_singleton] at hr; subst hr; exact hf.1
        · refine fed_mono ?_ _ hf.2
          rintro a b (⟨rfl, rfl⟩ | g)
          · exact List.mem_append_right _ (List.mem_singleton.2 rfl)
          · exact List.mem_append_left _ g
      | swap ns nr =>
        simp only [actOp, Option.some.injEq] at ha
        subst ha
        exact ⟨trivial, fun _ hr => hr, h.pos, hf⟩
      | addSampled ns nr =>
        simp only [actOp, Option.some.injEq] at ha
        subst ha
        exact ⟨wanted_of hf.1, fun _ hr => hr, h.pos, hf.2⟩
      | addSyscall ns nr =>
        simp only [actOp, Option.some.injEq] at ha
        subst ha
        exact ⟨wanted_of hf.1, fun _ hr => hr, h.pos, hf.2⟩
      | removeSyscall ns nr =>
        simp only [actOp, Option.some.injEq] at ha
        subst ha
        exact ⟨trivial, fun _ hr => hr, h.pos, hf⟩
      | crash => cases ha
    obtain ⟨k1, k2, k3, k4⟩ := key
    refine ⟨rinv_daemon hl hd k1 h, ?_, k3⟩
    intro pr' hpr
    rcases List.mem_or_eq_of_mem_set hpr with hpr | rfl
    · exact fed_mono (fun a b g => k2 _ g) _ (h.fed pr' hpr)
    · dsimp only
      split
      · exact k4
      · trivial
  | watch w hw => exact rinv_same h h.clean rfl rfl
  | attach k draw se d out hk ht hd =>
    refine rinv_same h (rinv_daemon hl hd ?_ h) ?_ rfl
    · cases se.watch <;> trivial
    · dsimp only; rw [regs_snoc]; cases se.watch <;> rfl
  | close k se hk => exact rinv_same h h.clean rfl rfl
  | hangJob k fails se t id d out hk ht ho hc hw hd =>
    exact rinv_same h (rinv_daemon hl hd trivial h) (by dsimp only; rw [regs_snoc]; rfl) rfl
  | hangPath k fails se t ns pod c hk ht ho hc hw => exact rinv_same h h.clean rfl rfl

/-- Induction over the prefixes of a history. -/
theorem run_prefixes {P : Service → Prop} {s0 s' : Service} {ops : List Op} (h : run tbl crc srt s0 ops = some s')
    (h0 : P s0) (hs : ∀ xs op ys x x' out, ops = xs ++ op :: ys → run tbl crc srt s0 xs = some x →
      Moves tbl crc srt x op x' out → P x → P x') : P s' := by
  have key : ∀ (ys xs : List Op) (x : Service), ops = xs ++ ys → run tbl crc srt s0 xs = some x → P x →
      run tbl crc srt x ys = some s' → P s' := by
    intro ys
    induction ys with
    | nil =>
      intro xs x _ _ hp hr
      simp only [run, Option.some.injEq] at hr
      subst hr; exact hp
    | cons y ys ih =>
      intro xs x he hx hp hr
      obtain ⟨x1, out, h1, h2⟩ := run_cons_some hr
      refine ih (xs ++ [y]) x1 (by rw [he]; simp) ?_ (hs xs y ys x x1 out he hx (step_moves h1) hp) h2
      rw [run_append, hx]
      simp only [Option.bind_some, run, h1]
  exact key ops [] s0 rfl rfl h0 h

theorem rinv_run {s : Service} {ops : List Op} (h : run tbl crc srt (fresh tbl) ops = some s)
    (hu : Undisturbed tbl crc srt ops) : RInv tbl s := by
  refine run_prefixes h ⟨clean_fresh, (fun pr hpr => by cases hpr), (fun r hr => by cases hr)⟩ ?_
  intro xs op ys x x' out he hx hm hr
  refine rinv_step hm (logged_run hx) ?_ hr
  rintro i t j rfl ht hp
  exact hu xs i ys x t j he hx ht hp

/-- A call that the kernel passes has a rule. -/
theorem passes_key {m : KMaps} {ns proc nr : BitVec 32} (h : (Filter.step tbl m (.callEvent ns proc nr)).2 = true) :
    ∃ k v, k ∈ Filter.evalKeys Filter.fmodeSyscall ns proc nr ∧ GoMap.get m.filter k = some v := by
  have loop : ∀ ks : List FilterKey, (Filter.evalLoop m ks).2 ≠ Filter.factionDrop →
      ∃ k v, k ∈ ks ∧ GoMap.get m.filter k = some v := by
    intro ks
    induction ks with
    | nil => intro h; exact absurd rfl h
    | cons k ks ih =>
      intro h
      simp only [Filter.evalLoop] at h
      split at h
      · split at h
        · rename_i v hv; exact ⟨k, v, by simp, hv⟩
        · obtain ⟨k', v, h1, h2⟩ := ih h; exact ⟨k', v, by simp [h1], h2⟩
      · obtain ⟨k', v, h1, h2⟩ := ih h; exact ⟨k', v, by simp [h1], h2⟩
  simp only [Filter.step, decide_eq_true_eq] at h
  unfold Filter.runNfilter at h
  split at h
  · exact loop _ h
  · exact absurd rfl h

/-- A recorded call is wanted. -/
theorem records_wanted {m : KMaps} {rs : List Reg} (hc : Clean tbl m rs) (hp : ∀ r ∈ rs, 0 < r.ns) {ns proc nr : BitVec 32}
    (h : (Filter.step tbl m (.callEvent ns proc nr)).2 = true) :
    Spec.Daemon.Stub tbl ns nr ∨ ∃ r ∈ rs, ∃ sc, Syscalls.lookup tbl (.int r.nr) = some sc ∧ BitVec.ofNat 32 sc.nr = nr ∧
      BitVec.ofInt 32 r.ns = ns := by
  obtain ⟨k, v, h1, h2⟩ := passes_key h
  have ho := hc k v h2
  have hk : ∀ sc x, k = sysKey sc x → x = nr ∧ (sc = some ns ∨ sc = none) := by
    rintro sc x rfl
    rw [Lemmas.Filter.evalKeys_sys] at h1
    cases sc with
    | none => simp [sysKey] at h1; exact ⟨h1, Or.inr rfl⟩
    | some n => simp [sysKey] at h1; exact ⟨h1.2, Or.inl (by rw [h1.1])⟩
  rcases ho with ⟨sc, rfl⟩ | ⟨s, hs, e⟩ | ⟨r, hr, e⟩
  · rw [Lemmas.Filter.evalKeys_sys] at h1
    cases sc <;> simp [sysKey, metKey] at h1
  · obtain ⟨e1, e2⟩ := hk _ _ e
    rcases e2 with e2 | e2
    · injection e2 with e2
      exact Or.inl ⟨e2.symm, s, hs, e1⟩
    · cases e2
  · rw [Lemmas.Hub.ruleKey_eq, Option.map_eq_some_iff] at e
    obtain ⟨s, hs, e⟩ := e
    obtain ⟨e1, e2⟩ := hk _ _ e.symm
    rw [Lemmas.Hub.scope_sane (hp r hr)] at e2
    rcases e2 with e2 | e2
    · injection e2 with e2
      exact Or.inr ⟨r, hr, s, hs, e1, e2⟩
    · cases e2

/-- A check that `Undisturbed` holds of one history. -/
def settled (tbl : Syscalls.Syscalls) (crc : String → BitVec 64) (srt : List PubSub.Env → List PubSub.Env) :
    Service → List Op → Bool
  | _, [] => true
  | s, o :: os =>
    (match o with
    | .handle i =>
      match s.server.threads[i]? with
      | some ⟨id, .deleteHub _⟩ => s.procs.all (fun pr => pr.spec.job.id != id || pr.todo.isEmpty)
      | _ => true
    | _ => true) &&
    match step tbl crc srt s o with
    | none => true
    | some (s1, _) => settled tbl crc srt s1 os

theorem undisturbed_of_settled {ops : List Op} (h : settled tbl crc srt (fresh tbl) ops = true) : Undisturbed tbl crc srt ops := by
  suffices H : ∀ (s : Service) (ops : List Op), settled tbl crc srt s ops = true → ∀ before i after x t j,
      ops = before ++ .handle i :: after → run tbl crc srt s before = some x →
      x.server.threads[i]? = some t → t.pc = .deleteHub j → Idle x t.id from
    fun before i after x t j e1 e2 e3 e4 => H _ _ h before i after x t j e1 e2 e3 e4
  clear h
  intro s ops h before
  induction before generalizing s ops with
  | nil =>
    intro i after x t j e1 e2 e3 e4
    injection e2 with e2
    subst e2 e1
    obtain ⟨id, pc⟩ := t
    simp only at e4
    subst e4
    simp only [List.nil_append, settled, e3, Bool.and_eq_true, List.all_eq_true] at h
    intro pr hpr hid
    have := h.1 pr hpr
    rw [hid] at this
    simpa using this
  | cons o os ih =>
    intro i after x t j e1 e2 e3 e4
    subst e1
    rw [List.cons_append] at h
    simp only [run] at e2
    simp only [settled, Bool.and_eq_true] at h
    cases hs : step tbl crc srt s o with
    | none => rw [hs] at e2; cases e2
    | some r =>
      rw [hs] at e2 h
      exact ih r.1 _ h.2 i after x t j rfl e2 e3 e4

end Swoll.Lemmas.Service
