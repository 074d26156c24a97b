import Verif.Lemmas.SiteSync
import Verif.Lemmas.DaemonSample
import Verif.Props.Cluster
import Verif.Props.Serving
/-
C121 to C124: the server in a cluster, from the pods on.
-/
namespace Swoll.Props.Site
open Swoll Swoll.Site Swoll.Spec.Site Swoll.Lemmas.Site Swoll.Lemmas.SiteSync
open Swoll.Cluster (Key Pod Api Watcher Sel selects selected serverObserver)
open Swoll.Spec.Cluster (Wants GoodLabels GoodFields)
open Swoll.Hash (crcString)

variable {a : Api} {tbl : Syscalls.Syscalls} {crc : String → BitVec 64} {srt : List PubSub.Env → List PubSub.Env}

/-! ### What is shown -/

/-- Only the server hands anything out. -/
theorem out_step {s s' : Site} {op : Op} {out : List Daemon.Delivery} (h : step a tbl crc srt s op = some (s', out)) :
    out = [] ∨ ∃ x, Service.step tbl crc srt s.service x = some (s'.service, out) := by
  have sv : ∀ {t : Site} {x : Service.Op}, serve tbl crc srt t x = some (s', out) → t.service = s.service →
      ∃ x, Service.step tbl crc srt s.service x = some (s'.service, out) := by
    intro t x h e
    unfold serve at h
    rw [Option.map_eq_some_iff] at h
    obtain ⟨⟨v, out'⟩, g1, g2⟩ := h
    injection g2 with g2 g3
    subst g2; subst g3
    exact ⟨x, by rw [← e]; exact g1⟩
  cases op with
  | tell w =>
    cases w with
    | none =>
      simp only [step] at h
      split at h
      · injection h with h; injection h with h1 h2; exact Or.inl h2.symm
      · exact Or.inr (sv h rfl)
    | some p =>
      simp only [step] at h
      repeat' split at h
      all_goals first
        | (injection h with h; injection h with h1 h2; exact Or.inl h2.symm)
        | exact Or.inr (sv h rfl)
  | create ns sel q u ok b => simp only [step] at h; exact Or.inr (sv h rfl)
  | service x =>
    simp only [step] at h
    repeat' split at h
    all_goals first
      | (injection h with h; injection h with h1 h2; exact Or.inl h2.symm)
      | exact Or.inr (sv h rfl)
  | put p => simp only [step, Option.some.injEq, Prod.mk.injEq] at h; exact Or.inl h.2.symm
  | remove k => simp only [step, Option.some.injEq, Prod.mk.injEq] at h; exact Or.inl h.2.symm
  | runtime l => simp only [step, Option.some.injEq, Prod.mk.injEq] at h; exact Or.inl h.2.symm
  | lose w => simp only [step, Option.map_eq_some_iff, Prod.mk.injEq] at h; obtain ⟨_, -, -, h⟩ := h; exact Or.inl h.symm
  | list w => simp only [step, Option.map_eq_some_iff, Prod.mk.injEq] at h; obtain ⟨_, -, -, h⟩ := h; exact Or.inl h.symm
  | handle w k => simp only [step, Option.map_eq_some_iff, Prod.mk.injEq] at h; obtain ⟨_, -, -, h⟩ := h; exact Or.inl h.symm

/-- What the server goes through is as sane as the history. -/
theorem sane_step {s s' : Site} {op : Op} {out : List Daemon.Delivery} (h : step a tbl crc srt s op = some (s', out))
    (ho : Sane op) (hs : ∀ x ∈ s.log, Spec.Service.Sane x) : ∀ x ∈ s'.log, Spec.Service.Sane x := by
  have sv : ∀ {t : Site} {x : Service.Op}, serve tbl crc srt t x = some (s', out) → t.log = s.log → Spec.Service.Sane x →
      ∀ x ∈ s'.log, Spec.Service.Sane x := by
    intro t x h e hx y hy
    unfold serve at h
    rw [Option.map_eq_some_iff] at h
    obtain ⟨⟨v, out'⟩, g1, g2⟩ := h
    injection g2 with g2 g3
    subst g2
    rcases List.mem_append.1 hy with hy | hy
    · exact hs y (by rw [← e]; exact hy)
    · rw [List.mem_singleton.1 hy]; exact hx
  have ob : ∀ {w f}, observer s w f = some s' → s'.log = s.log := by
    intro w f ho
    unfold observer at ho
    repeat' split at ho
    all_goals first
      | (rw [Option.map_eq_some_iff] at ho; obtain ⟨y, -, rfl⟩ := ho; rfl)
      | (injection ho with ho; subst ho; rfl)
  cases op with
  | tell w =>
    cases w with
    | none =>
      simp only [step] at h
      split at h
      · injection h with h; injection h with h1 h2; subst h1; exact hs
      · exact sv h rfl trivial
    | some p =>
      simp only [step] at h
      repeat' split at h
      all_goals first
        | (injection h with h; injection h with h1 h2; subst h1; exact hs)
        | exact sv h rfl trivial
  | create ns sel q u ok b => simp only [step] at h; exact sv h rfl trivial
  | service x =>
    simp only [step] at h
    repeat' split at h
    all_goals first
      | (injection h with h; injection h with h1 h2; subst h1; exact hs)
      | exact sv h rfl ho
  | put p => simp only [step, Option.some.injEq, Prod.mk.injEq] at h; obtain ⟨rfl, -⟩ := h; exact hs
  | remove k => simp only [step, Option.some.injEq, Prod.mk.injEq] at h; obtain ⟨rfl, -⟩ := h; exact hs
  | runtime l => simp only [step, Option.some.injEq, Prod.mk.injEq] at h; obtain ⟨rfl, -⟩ := h; exact hs
  | lose w =>
    simp only [step, Option.map_eq_some_iff, Prod.mk.injEq] at h
    obtain ⟨_, h1, rfl, -⟩ := h
    rw [ob h1]; exact hs
  | list w =>
    simp only [step, Option.map_eq_some_iff, Prod.mk.injEq] at h
    obtain ⟨_, h1, rfl, -⟩ := h
    rw [ob h1]; exact hs
  | handle w k =>
    simp only [step, Option.map_eq_some_iff, Prod.mk.injEq] at h
    obtain ⟨_, h1, rfl, -⟩ := h
    rw [ob h1]; exact hs

theorem sane_run {ops : List Op} {s s' : Site} (h : run a tbl crc srt s ops = some s') (ho : ∀ op ∈ ops, Sane op)
    (hs : ∀ x ∈ s.log, Spec.Service.Sane x) : ∀ x ∈ s'.log, Spec.Service.Sane x := by
  induction ops generalizing s with
  | nil => injection h with h; subst h; exact hs
  | cons op ops ih =>
    unfold run at h
    split at h
    · cases h
    · next s1 out h1 =>
      exact ih h (fun x hx => ho x (List.mem_cons_of_mem _ hx)) (sane_step h1 (ho op List.mem_cons_self) hs)

theorem run_snoc' {s s1 s2 : Site} {ops : List Op} {op : Op} {out : List Daemon.Delivery}
    (h : run a tbl crc srt s ops = some s1) (h1 : step a tbl crc srt s1 op = some (s2, out)) :
    run a tbl crc srt s (ops ++ [op]) = some s2 := by
  induction ops generalizing s with
  | nil => injection h with h; subst h; simp only [List.nil_append, run, h1]
  | cons x xs ih =>
    rw [List.cons_append]
    unfold run at h ⊢
    cases hy : step a tbl crc srt s x with
    | none => rw [hy] at h; cases h
    | some y => rw [hy] at h; exact ih h

/-- What has been handed out, and how the daemon got there. -/
theorem shown {o : Topology.Observer} {ops : List Op} {s s' : Site} {op : Op} {out : List Daemon.Delivery}
    (h : run a tbl crc srt (fresh tbl o) ops = some s) (ho : ∀ x ∈ ops ++ [op], Sane x)
    (hs : step a tbl crc srt s op = some (s', out)) {tok : Nat} {ev : Event.TraceEvent Topology.Container}
    (hx : (tok, ev) ∈ out) :
    Spec.Daemon.Delivered tbl crc srt s'.service.log s.service.log.length tok ev ∧
    s'.service.log.take s.service.log.length = s.service.log ∧ (∀ x ∈ s'.service.log, Spec.Daemon.SaneOp x) ∧
    Spec.Daemon.DetachOnce s'.service.log ∧
    ∃ d, Daemon.run tbl crc srt (Daemon.fresh tbl) s'.service.log = some d := by
  have hi := (inv_run h).1
  have h' := run_snoc' h hs
  have hi' := (inv_run h').1
  rcases out_step hs with rfl | ⟨x, hx1⟩
  · cases hx
  · obtain ⟨d1, d2⟩ := Lemmas.Service.delivered_of (Lemmas.Service.logged_run hi.log) hx1 hx
    refine ⟨d1, d2, ?_, (Lemmas.Service.sinv_run hi'.log).once, _, Lemmas.Service.logged_run hi'.log⟩
    exact Lemmas.Service.sane_run hi'.log (sane_run h' ho (fun x hx => by cases hx)) (fun x hx => by cases hx)

theorem resident_mem {evs : List (Option Topology.Event)} {ns : Int} {c : Topology.Container}
    (h : Spec.Topology.resident evs ns = some c) : c.pidns = ns ∧ ∃ t, some ⟨t, some c⟩ ∈ evs := by
  unfold Spec.Topology.resident at h
  split at h
  · next c' hl =>
    injection h with h; subst h
    have hm := List.mem_of_getLast? hl
    rw [List.mem_filter, List.mem_filterMap] at hm
    obtain ⟨⟨e, he, hmean⟩, hn⟩ := hm
    refine ⟨by simpa using hn, ?_⟩
    unfold Spec.Topology.meaning at hmean
    split at hmean
    · next t c'' =>
      split at hmean
      · injection hmean with hmean
        injection hmean with h1 h2
        subst h2
        exact ⟨t, he⟩
      · cases hmean
    · cases hmean
  · cases h

/-- Every event that anybody is handed is one of a container of a pod that the observer of the server selected. -/
theorem shown_found {o : Topology.Observer} {ops : List Op} {s s' : Site} {op : Op} {out : List Daemon.Delivery}
    (h : run a tbl crc srt (fresh tbl o) ops = some s) (ho : ∀ x ∈ ops ++ [op], Sane x)
    (hs : step a tbl crc srt s op = some (s', out)) {tok : Nat} {ev : Event.TraceEvent Topology.Container}
    (hx : (tok, ev) ∈ out) :
    ∃ c, ev.container = some c ∧ c.pidns = ev.pidNs ∧ Found ops (Watched a o) c := by
  obtain ⟨h1, h2, h3, -, d, h4⟩ := shown h ho hs hx
  obtain ⟨call, seen, H, -⟩ := Props.Daemon.c76_true_partial h4 h3
  obtain ⟨-, hlt, -, -, c, hc, he⟩ := H _ _ _ h1
  have hi := (inv_run h).1
  obtain ⟨hns, t, hmem⟩ := resident_mem hc
  have hm : some ⟨t, some c⟩ ∈ s.service.log.filterMap Spec.Daemon.notice := by
    rw [List.mem_filterMap] at hmem ⊢
    obtain ⟨x, hx1, hx2⟩ := hmem
    refine ⟨x, ?_, hx2⟩
    rw [← h2]
    have : s'.service.log.take (seen s.service.log.length) <+: s'.service.log.take s.service.log.length :=
      List.take_prefix_take_left (by omega)
    exact this.subset hx1
  rw [notices_run hi.log] at hm
  simp only [Service.fresh, List.filterMap_nil, List.nil_append, List.mem_filterMap] at hm
  obtain ⟨x, hx1, hx2⟩ := hm
  have hev : x = .outside (.topo (some ⟨t, some c⟩)) := by
    split at hx2
    · injection hx2 with hx2; rw [hx2]
    · cases hx2
  subst hev
  obtain ⟨e, c', e1, e2, hf⟩ := hi.topo _ hx1
  injection e1 with e1
  subst e1
  injection e2 with e2
  subst e2
  exact ⟨c.copy, he, hns, hf⟩

/-! ### C121: pods that opted out -/

/-- C121: whoever is handed an event is handed one of a container of a pod that was not labelled `swoll=false`. -/
theorem c121_shown (hk : a.rules.key "swoll".toList = true) (hv : a.rules.value "false".toList = true)
    {cri config root : String} {o : Topology.Observer} (hobs : serverObserver cri config root = some o)
    {ops : List Op} {s s' : Site} {op : Op} {out : List Daemon.Delivery}
    (h : run a tbl crc srt (fresh tbl o) ops = some s) (ho : ∀ x ∈ ops ++ [op], Sane x)
    (hs : step a tbl crc srt s op = some (s', out)) {tok : Nat} {ev : Event.TraceEvent Topology.Container}
    (hx : (tok, ev) ∈ out) :
    ∃ c p, ev.container = some c ∧ .put p ∈ ops ∧ p.labels.get "swoll".toList ≠ some "false".toList ∧
      p.name = c.pod ∧ p.ns = c.ns ∧ Runs ops p c.name ev.pidNs := by
  obtain ⟨c, h1, h2, p, h3, h4, h5, h6, h7⟩ := shown_found h ho hs hx
  refine ⟨c, p, h1, h3, ?_, h5, h6, by rw [← h2]; exact h7⟩
  obtain ⟨o', f, e1, e2, e3⟩ := Props.Cluster.c121_watched hk hv cri config root
  rw [hobs] at e1
  injection e1 with e1
  subst e1
  rw [← e3]
  unfold Watched selected at h4
  rw [e2] at h4
  exact h4

/-- C121: nobody is ever handed an event of a pod that has always been labelled `swoll=false`. -/
theorem c121_never_shown (hk : a.rules.key "swoll".toList = true) (hv : a.rules.value "false".toList = true)
    {cri config root : String} {o : Topology.Observer} (hobs : serverObserver cri config root = some o)
    {ops : List Op} {s s' : Site} {op : Op} {out : List Daemon.Delivery}
    (h : run a tbl crc srt (fresh tbl o) ops = some s) (ho : ∀ x ∈ ops ++ [op], Sane x)
    (hs : step a tbl crc srt s op = some (s', out)) {ns name : String}
    (hout : ∀ p, .put p ∈ ops → p.ns = ns → p.name = name → p.labels.get "swoll".toList = some "false".toList)
    {tok : Nat} {ev : Event.TraceEvent Topology.Container} (hx : (tok, ev) ∈ out) {c : Topology.Container}
    (hc : ev.container = some c) : ¬ (c.ns = ns ∧ c.pod = name) := by
  rintro ⟨rfl, rfl⟩
  obtain ⟨c', p, h1, h2, h3, h4, h5, -⟩ := c121_shown hk hv hobs h ho hs hx
  rw [hc] at h1
  injection h1 with h1
  subst h1
  exact h3 (hout p h2 h5 h4)

/-! ### C122: observers follow the pods they select -/

/-- C122: what a topology is told is about containers of pods that its observer selected. -/
theorem c122_told {o : Topology.Observer} {ops : List Op} {s : Site} (h : run a tbl crc srt (fresh tbl o) ops = some s)
    {i : Option Nat} {w : Watcher} (hw : watcher s i = some w) {ev : Option Topology.Event} (he : ev ∈ told s i) :
    ∃ t c, ev = some ⟨t, some c⟩ ∧ Found ops (fun p => selected a w.obs p = true) c := by
  have hi := (inv_run h).1
  cases i with
  | none =>
    injection hw with hw
    subst hw
    simp only [told, List.mem_filterMap] at he
    obtain ⟨x, hx1, hx2⟩ := he
    have hev : x = .outside (.topo ev) := by
      split at hx2
      · injection hx2 with hx2; rw [hx2]
      · cases hx2
    subst hev
    obtain ⟨⟨t, oc⟩, c, e1, e2, hf⟩ := hi.topo _ hx1
    simp only at e2
    subst e2
    rw [hi.obs]
    exact ⟨t, c, e1, hf⟩
  | some p =>
    simp only [told, List.mem_filterMap] at he
    obtain ⟨x, hx1, hx2⟩ := he
    have hev : x = .notice p ev := by
      split at hx2
      · split at hx2
        · next e => injection hx2 with hx2; rw [hx2, e]
        · cases hx2
      · cases hx2
    subst hev
    obtain ⟨w', ⟨t, oc⟩, c, e0, e1, e2, hf⟩ := hi.told p ev hx1
    simp only at e2
    subst e2
    simp only [watcher] at hw
    rw [hw] at e0
    injection e0 with e0
    subst e0
    exact ⟨t, c, e1, hf⟩

/-- C122 (partial): an observer that is connected, has handled the changes of a pod and has been listened to, has
its topology know the containers of the pod if it selects the pod as it is now, and not know them if it does not.
This is so whatever went before: lost connections, changed labels, other pods, restarts of the watch. Missing:
changes of pods while the connection is lost (C123), and containers that come or go while their pod is there, or
of which the runtime does not always tell (for which it is false, C22). -/
theorem c122_current_partial {o : Topology.Observer} {ops : List Op} {s : Site}
    (h : run a tbl crc srt (fresh tbl o) ops = some s) (hc : Calm a tbl crc srt (fresh tbl o) ops) (hd : Dotless ops)
    {cc : Topology.CriContainer} (hst : Steady ops cc) {k : Key} (hk : '.' ∉ k.1.toList) {c : Topology.Container}
    (hl : Lives cc k c) {i : Option Nat} {w : Watcher} (hw : watcher s i = some w) (hu : CaughtUp w k) :
    ((∃ p, s.pods.get k = some p ∧ selected a w.obs p = true) → Spec.Topology.resident (told s i) c.pidns = some c) ∧
    ((¬ ∃ p, s.pods.get k = some p ∧ selected a w.obs p = true) → Spec.Topology.resident (told s i) c.pidns = none) := by
  have hlist : ∀ x, .runtime x ∈ ops → Lists cc x := by
    intro x hx
    obtain ⟨l, rfl, hm⟩ := hst.listed x hx
    exact ⟨l, rfl, hm, fun cc' h1 h2 => hst.alone l cc' hx h1 h2⟩
  have hsp : Speaks k c w (said s i w) := by
    obtain ⟨l, rest, rfl⟩ := hst.first
    have hrun := h
    unfold run at hrun
    simp only [step] at hrun
    have hi1 : Inv a tbl crc srt o (.runtime (some l) :: rest) { fresh tbl o with cri := some l } :=
      inv_step (inv_fresh o _) rfl List.mem_cons_self (show step a tbl crc srt (fresh tbl o) (.runtime (some l)) = some (_, []) from rfl)
    refine speaks_run hl hk hrun hi1 rfl (fun x hx => List.mem_cons_of_mem _ hx) hlist hd
      (hlist _ List.mem_cons_self) ?_ i w hw
    intro j v hv
    cases j with
    | none => injection hv with hv; subst hv; exact speaks_new k c o
    | some p => cases hv
  have hset := settled ((sync_fresh h hc).2 i w hw) hu
  have he : said s i w = told s i := by unfold said; rw [hu.2.2]; simp
  rw [← he, hsp.known, hset]
  constructor
  · rintro ⟨p, h1, h2⟩
    rw [h1, Option.filter_some, if_pos h2]; rfl
  · intro hn
    cases hp : s.pods.get k with
    | none => rfl
    | some p =>
      rw [Option.filter_some, if_neg (fun h2 => hn ⟨p, hp, h2⟩)]; rfl

/-- C122 (partial), for the server: the daemon knows the containers of a pod if, as it is now, it is there and not
labelled `swoll=false`, and does not know them otherwise. Missing: as above. -/
theorem c122_server_partial (hkey : a.rules.key "swoll".toList = true) (hv : a.rules.value "false".toList = true)
    {cri config root : String} {o : Topology.Observer} (hobs : serverObserver cri config root = some o)
    {ops : List Op} {s : Site} (h : run a tbl crc srt (fresh tbl o) ops = some s)
    (hc : Calm a tbl crc srt (fresh tbl o) ops) (hd : Dotless ops)
    {cc : Topology.CriContainer} (hst : Steady ops cc) {k : Key} (hk : '.' ∉ k.1.toList) {c : Topology.Container}
    (hl : Lives cc k c) (hu : CaughtUp s.hub k) :
    ((∃ p, s.pods.get k = some p ∧ p.labels.get "swoll".toList ≠ some "false".toList) →
      Spec.Daemon.containerOf s.service.log c.pidns = some c) ∧
    ((¬ ∃ p, s.pods.get k = some p ∧ p.labels.get "swoll".toList ≠ some "false".toList) →
      Spec.Daemon.containerOf s.service.log c.pidns = none) := by
  have hi := (inv_run h).1
  have H := c122_current_partial h hc hd hst hk hl (i := none) rfl hu
  have e : Spec.Daemon.containerOf s.service.log c.pidns = Spec.Topology.resident (told s none) c.pidns := by
    unfold Spec.Daemon.containerOf
    rw [notices_run hi.log]
    rfl
  have e2 : ∀ p, selected a s.hub.obs p = true ↔ p.labels.get "swoll".toList ≠ some "false".toList := by
    intro p
    obtain ⟨o', f, e1, e2, e3⟩ := Props.Cluster.c121_watched hkey hv cri config root
    rw [hobs] at e1
    injection e1 with e1
    subst e1
    rw [← e3, hi.obs]
    unfold selected
    rw [e2]
  simp only [e2] at H
  rw [e]
  exact H

/-- What the observer of a goroutine watches. -/
theorem job_watches {o : Topology.Observer} {ops : List Op} {s : Site} (h : run a tbl crc srt (fresh tbl o) ops = some s)
    {p : Nat} {pr : Service.Proc} (hp : s.service.procs[p]? = some pr) :
    ∃ w ns sel b t, s.jobs[p]? = some w ∧ (asked ops)[pr.spec.job.ref]? = some (ns, sel, b) ∧
      s.service.server.threads[pr.spec.job.ref]? = some t ∧ t.id = pr.spec.job.id ∧
      pr.spec.hosts = b.hosts ∧ pr.spec.calls = b.calls ∧
      (ns ≠ "" → GoodLabels a sel.label.matchLabels → GoodFields a sel.field.matchLabels →
        sel.label.matchExpressions = [] → sel.field.matchExpressions = [] →
        ∀ pod, selected a w.obs pod = true ↔ Wants ns sel pod) := by
  obtain ⟨hi, hsel, hbod⟩ := inv_run h
  obtain ⟨w, sel, h1, h2, h3⟩ := hi.watch p pr hp
  obtain ⟨t, b, h4, h5, h6, h7, h8⟩ := named_run hi.log pr (List.mem_of_getElem? hp)
  rw [hsel, List.getElem?_map, Option.map_eq_some_iff] at h2
  obtain ⟨⟨ns, sl, b'⟩, g1, g2⟩ := h2
  rw [hbod, List.getElem?_map, g1] at h6
  injection h6 with h6
  simp only at h6
  subst h6
  subst g2
  refine ⟨w, ns, sl, b', t, h1, g1, h4, h5, h7, h8, ?_⟩
  intro hns hl hf hx1 hx2 pod
  obtain ⟨o', f, e1, e2, e3⟩ := Props.Cluster.c120_selected_partial (a := a) (parent := o) hns hl hf ⟨hx1, hx2⟩
  rw [← e3, h3]
  simp only [e1, Option.getD_some]
  unfold selected
  rw [e2]

/-- C122 (partial), for a job: its goroutine knows the containers of a pod if, as it is now, it is there and one
that the request selects, and does not know them otherwise. Missing: as above, and match expressions (C120). -/
theorem c122_job_partial {o : Topology.Observer} {ops : List Op} {s : Site}
    (h : run a tbl crc srt (fresh tbl o) ops = some s) (hc : Calm a tbl crc srt (fresh tbl o) ops) (hd : Dotless ops)
    {cc : Topology.CriContainer} (hst : Steady ops cc) {k : Key} (hk : '.' ∉ k.1.toList) {c : Topology.Container}
    (hl : Lives cc k c) {p : Nat} {pr : Service.Proc} (hp : s.service.procs[p]? = some pr)
    {ns : String} {sel : Sel} {b : Service.Body} (hask : (asked ops)[pr.spec.job.ref]? = some (ns, sel, b))
    (hns : ns ≠ "") (hgl : GoodLabels a sel.label.matchLabels) (hgf : GoodFields a sel.field.matchLabels)
    (hx : sel.label.matchExpressions = [] ∧ sel.field.matchExpressions = []) {w : Watcher} (hw : s.jobs[p]? = some w)
    (hu : CaughtUp w k) :
    ((∃ pod, s.pods.get k = some pod ∧ Wants ns sel pod) → Spec.Topology.resident (told s (some p)) c.pidns = some c) ∧
    ((¬ ∃ pod, s.pods.get k = some pod ∧ Wants ns sel pod) →
      Spec.Topology.resident (told s (some p)) c.pidns = none) := by
  have H := c122_current_partial h hc hd hst hk hl (i := some p) hw hu
  obtain ⟨w', ns', sel', b', t, h1, h2, -, -, -, -, h3⟩ := job_watches h hp
  rw [hw] at h1
  injection h1 with h1
  subst h1
  rw [hask] at h2
  injection h2 with h2
  injection h2 with h4 h5
  injection h5 with h5 h6
  subst h4; subst h5; subst h6
  have h3 := h3 hns hgl hgf hx.1 hx.2
  simp only [h3] at H
  exact H

/-! ### C124: what the clients of a job are shown -/

/-- C124 (partial): an event that somebody who watches a job is handed is one of a call that the request of that
job names, made in a container that the request names, of a pod that the request selected. (As everywhere, if the
checksum of the paths keeps the names involved apart.) Missing: match expressions (C120), pods that the request
selected once and does not select now, for which it is false (`c124_relabelled_violated`). -/
theorem c124_selected_partial (hsrt : PubSub.Node.IsSort srt) {o : Topology.Observer}
    {ops : List Op} {s s' : Site} {op : Op} {out : List Daemon.Delivery}
    (h : run a tbl crcString srt (fresh tbl o) ops = some s) (ho : ∀ x ∈ ops ++ [op], Sane x)
    (hs : step a tbl crcString srt s op = some (s', out)) {tok : Nat} {ev : Event.TraceEvent Topology.Container}
    (hx : (tok, ev) ∈ out) :
    ∃ c sc, ev.container = some c ∧ ev.syscall = some sc ∧ ∃ u ∈ Spec.Daemon.users s.service.log, u.token = tok ∧
      (Spec.Daemon.KeepsApart crcString s.service.log c sc → ∀ id, u.target = .job id → id ≠ "" →
        ∃ (i : Nat) (ns : String) (sel : Sel) (b : Service.Body) (t : Server.Thread String),
          (asked ops)[i]? = some (ns, sel, b) ∧ s.service.server.threads[i]? = some t ∧ t.id = id ∧
          (∃ call ∈ b.calls, ∃ sc', Syscalls.lookup tbl (.str call) = some sc' ∧ sc'.nr = sc.nr) ∧
          (ns ≠ "" → GoodLabels a sel.label.matchLabels → GoodFields a sel.field.matchLabels →
            sel.label.matchExpressions = [] → sel.field.matchExpressions = [] →
            ∃ p name, .put p ∈ ops ∧ Wants ns sel p ∧ Runs ops p name ev.pidNs ∧ (b.hosts = [] ∨ name ∈ b.hosts))) := by
  obtain ⟨h1, h2, h3, h4, -⟩ := shown h ho hs hx
  obtain ⟨c, sc, e1, e2, -, u, hu, ht, H⟩ := Props.Daemon.c76_recipients hsrt h4 h3 h1
  rw [h2] at hu H
  refine ⟨c, sc, e1, e2, u, hu, ht, ?_⟩
  intro ha id hid hne
  have := H ha
  rw [hid] at this
  rcases this with e | ⟨r, hr, hrid⟩
  · exact absurd e hne
  · have hi := (inv_run h).1
    unfold Spec.Daemon.wanting at hr
    rw [List.mem_filter] at hr
    obtain ⟨hr, hr2⟩ := hr
    simp only [decide_eq_true_eq] at hr2
    obtain ⟨p, pr, g1, g2, cc, name, sc', g3, g4, g5, g6, g7, g8⟩ := (heard_run hi.log).2 r.job r.ns r.nr
      (Lemmas.Daemon.reg_pushed hr)
    obtain ⟨w, ns, sel, b, t, k1, k2, k3, k4, k5, k6, k7⟩ := job_watches h g1
    refine ⟨_, ns, sel, b, t, k2, k3, by rw [k4, g2, hrid], ⟨name, by rw [← k6]; exact g6, sc', g7, ?_⟩, ?_⟩
    · have := g8.trans hr2.2
      exact Int.ofNat.inj this
    · intro m1 m2 m3 m4 m5
      obtain ⟨w', e, c', f1, f2, f3, p', q1, q2, q3, q4, q5⟩ := hi.told p _ g3
      rw [k1] at f1
      injection f1 with f1
      subst f1
      injection f2 with f2
      subst f2
      injection f3 with f3
      subst f3
      refine ⟨p', cc.name, q1, (k7 m1 m2 m3 m4 m5 p').1 q2, ?_, by rw [← k5]; exact g5⟩
      have : cc.pidns = ev.pidNs := g4.trans hr2.1
      rw [← this]
      exact q5

/-! ### C123: losing the API server -/

theorem sure_handle {w : Watcher} (h : ∀ k, .gone k ∉ w.queue) (cri : Option (List Topology.CriContainer)) (k : Key) :
    w.handle cri k ≠ none := by
  unfold Watcher.handle
  split
  · simp
  · simp
  · simp
  · next k' q hpop => exact absurd (pop_mem hpop).1 (h k')

/-- C123 (partial): observers may lose the API server and list the pods again as often as they like; as long as no
pod changes while one of them that has seen pods is cut off, none of them ends the process, whatever it handles.
Missing: pods that change meanwhile, for which it is false (`c123_violated`). -/
theorem c123_survives_partial {o : Topology.Observer} {ops : List Op} {s : Site}
    (h : run a tbl crc srt (fresh tbl o) ops = some s) (hc : Calm a tbl crc srt (fresh tbl o) ops)
    (i : Option Nat) (k : Key) : step a tbl crc srt s (.handle i k) ≠ none := by
  have sure : ∀ j w, watcher s j = some w → ∀ k, .gone k ∉ w.queue := by
    intro j w hw
    rcases (sync_fresh h hc).2 j w hw with e | e
    · exact e.sure
    · rw [e.2.2]; intro k hk; cases hk
  simp only [step, ne_eq, Option.map_eq_none_iff]
  unfold observer
  cases i with
  | none =>
    simp only [Option.map_eq_none_iff]
    exact sure_handle (sure none _ rfl) _ _
  | some p =>
    cases hp : s.jobs[p]? with
    | none => simp [hp]
    | some w =>
      simp only [hp, Option.map_eq_none_iff]
      exact sure_handle (sure (some p) w hp) _ _

theorem podsOK_run {ops : List Op} {s s' : Site} (h : run a tbl crc srt s ops = some s') (hp : PodsOK s.pods) :
    PodsOK s'.pods := by
  induction ops generalizing s with
  | nil => injection h with h; subst h; exact hp
  | cons op ops ih =>
    unfold run at h
    split at h
    · cases h
    · next s1 out h1 => exact ih h (podsOK_step h1 hp)

theorem pop_only {k : Key} {x : Cluster.Change} : ∀ {q : List Cluster.Change}, (∃ c ∈ q, c.key = k) →
    (∀ c ∈ q, c.key = k → c = x) → ∃ q', Cluster.pop k q = some (x, q')
  | [], h, _ => by obtain ⟨c, hc, -⟩ := h; cases hc
  | d :: ds, h, hall => by
    unfold Cluster.pop
    by_cases e : d.key = k
    · rw [if_pos e, hall d List.mem_cons_self e]; exact ⟨_, rfl⟩
    · rw [if_neg e]
      obtain ⟨c, hc, hk⟩ := h
      rcases List.mem_cons.1 hc with rfl | hc
      · exact absurd hk e
      · obtain ⟨q', hq⟩ := pop_only ⟨c, hc, hk⟩ (fun x hx => hall x (List.mem_cons_of_mem _ hx))
        rw [hq]
        exact ⟨_, rfl⟩

/-- What the observer has to handle after it was cut off while the pod `k` changed. -/
theorem relist {w : Watcher} (hsel : (selects a w.obs).isSome) {pods : GoMap Key Pod} (hpods : PodsOK pods) {k : Key}
    (hq : ∀ c ∈ w.queue, c.key ≠ k) :
    ((w.store.get k).isSome → pods.get k = none → ∃ q, Cluster.pop k (w.lose.list a pods).queue = some (.gone k, q)) ∧
    (∀ p, pods.get k = some p → selected a w.obs p = true →
      ∃ q, Cluster.pop k (w.lose.list a pods).queue = some (.upd p, q)) := by
  have hl : (w.lose.list a pods).queue = w.queue ++ ((pods.map (·.2)).filter (selected a w.obs)).map .upd ++
      ((w.store.map (·.1)).filter (fun k' => !(((pods.map (·.2)).filter (selected a w.obs)).map Pod.key).contains k' &&
        !Cluster.endsLast w.queue k')).map .gone := by
    unfold Watcher.list Watcher.lose
    rw [if_neg]
    simp only [Bool.false_or]
    intro e
    rw [Option.isNone_iff_eq_none] at e
    rw [e] at hsel
    cases hsel
  have hkey : ∀ p ∈ pods.map (·.2), p.key = k → pods.get k = some p := by
    intro p hp e
    obtain ⟨x, hx, rfl⟩ := List.mem_map.1 hp
    rw [← e, hpods.2 x hx]
    exact GoMap.get_of_mem hpods.1 hx
  have hends : Cluster.endsLast w.queue k = false := by
    have : w.queue.filter (fun c => c.key == k) = [] := by
      rw [List.filter_eq_nil_iff]
      intro x hx e
      exact hq x hx (by simpa using e)
    unfold Cluster.endsLast
    rw [this]; rfl
  rw [hl]
  constructor
  · intro hseen hnone
    refine pop_only ⟨.gone k, ?_, rfl⟩ ?_
    · apply List.mem_append_right
      apply List.mem_map_of_mem
      rw [List.mem_filter]
      refine ⟨(GoMap.mem_keys_iff _ _).2 hseen, ?_⟩
      rw [hends, Bool.not_false, Bool.and_true, Bool.not_eq_true', Bool.eq_false_iff]
      intro hcon
      rw [List.contains_iff_mem] at hcon
      obtain ⟨p, hp, e⟩ := List.mem_map.1 hcon
      have := hkey p (List.mem_filter.1 hp).1 e
      rw [hnone] at this; cases this
    · intro x hx e
      rcases List.mem_append.1 hx with hx | hx
      · rcases List.mem_append.1 hx with hx | hx
        · exact absurd e (hq x hx)
        · obtain ⟨p, hp, rfl⟩ := List.mem_map.1 hx
          have := hkey p (List.mem_filter.1 hp).1 e
          rw [hnone] at this; cases this
      · obtain ⟨k', hk', rfl⟩ := List.mem_map.1 hx
        have e : k' = k := e
        rw [e]
  · intro p hp hs
    have hmem : p ∈ (pods.map (·.2)).filter (selected a w.obs) :=
      List.mem_filter.2 ⟨List.mem_map.2 ⟨(k, p), GoMap.mem_of_get hp, rfl⟩, hs⟩
    have hpk : p.key = k := get_key hpods hp
    refine pop_only ⟨.upd p, ?_, hpk⟩ ?_
    · exact List.mem_append_left _ (List.mem_append_right _ (List.mem_map_of_mem hmem))
    · intro x hx e
      rcases List.mem_append.1 hx with hx | hx
      · rcases List.mem_append.1 hx with hx | hx
        · exact absurd e (hq x hx)
        · obtain ⟨p', hp', rfl⟩ := List.mem_map.1 hx
          have := hkey p' (List.mem_filter.1 hp').1 e
          rw [hp] at this
          injection this with this
          rw [this]
      · obtain ⟨k', hk', rfl⟩ := List.mem_map.1 hx
        have e : k' = k := e
        subst e
        rw [List.mem_filter, Bool.and_eq_true, Bool.not_eq_true', Bool.eq_false_iff] at hk'
        exact absurd (by rw [List.contains_iff_mem, ← hpk]; exact List.mem_map_of_mem hmem) hk'.2.1

theorem podsOK_fresh {o : Topology.Observer} : PodsOK (fresh tbl o).pods :=
  ⟨GoMap.nodupKeys_nil, fun e he => by cases he⟩

/-- C123 violated: whatever went before, if the server has seen a pod, loses the API server, and the pod is deleted
before it is back, the server ends. -/
theorem c123_violated {o : Topology.Observer} {ops : List Op} {s : Site}
    (h : run a tbl crc srt (fresh tbl o) ops = some s) (hsel : (selects a s.hub.obs).isSome) {k : Key}
    (hseen : (s.hub.store.get k).isSome) (hq : ∀ c ∈ s.hub.queue, c.key ≠ k) :
    run a tbl crc srt s [.lose none, .remove k, .list none, .handle none k] = none := by
  have hpods : PodsOK (s.pods.del k) :=
    podsOK_step (tbl := tbl) (crc := crc) (srt := srt) (a := a) (op := .remove k) rfl (podsOK_run h podsOK_fresh)
  obtain ⟨q, hpop⟩ := (relist hsel hpods hq).1 hseen (GoMap.get_del_same _ _)
  have hh : (s.hub.lose.hears a (s.pods.get k) none) = s.hub.lose := by
    unfold Watcher.hears; rw [if_neg (by simp [Watcher.lose])]
  simp only [run, step, observer, change, Option.map_some, hh]
  unfold Watcher.handle
  rw [hpop]
  rfl

/-- C123 violated: if the pod is recreated before the server is back, with the same name, as those of stateful sets
are, and runs, the server is not told of its containers. -/
theorem c123_recreated_violated {o : Topology.Observer} {ops : List Op} {s : Site}
    (h : run a tbl crc srt (fresh tbl o) ops = some s) (hsel : (selects a s.hub.obs).isSome) {p old : Pod}
    (hseen : s.hub.store.get p.key = some old) (hq : ∀ c ∈ s.hub.queue, c.key ≠ p.key)
    (hrun : old.phase = "Running" ∧ p.phase = "Running") (hp : selected a s.hub.obs p = true)
    (l : List Topology.CriContainer) :
    ∃ s', run a tbl crc srt s [.lose none, .remove p.key, .put p, .runtime (some l), .list none, .handle none p.key] =
      some s' ∧ s'.pods.get p.key = some p ∧ s'.hub.store.get p.key = some p ∧ s'.hub.chan = s.hub.chan ∧
      s'.service = s.service := by
  have hpods : PodsOK ((s.pods.del p.key).set p.key p) :=
    podsOK_step (tbl := tbl) (crc := crc) (srt := srt) (a := a) (op := .put p)
      (s := { s with pods := s.pods.del p.key }) rfl
      (podsOK_step (tbl := tbl) (crc := crc) (srt := srt) (a := a) (op := .remove p.key)
        (s' := change a s p.key none) rfl (podsOK_run h podsOK_fresh))
  obtain ⟨q, hpop⟩ := (relist hsel hpods hq).2 p (GoMap.get_set_same _ _ _) hp
  have hh : ∀ x y, (s.hub.lose.hears a x y) = s.hub.lose := by
    intro x y
    unfold Watcher.hears; rw [if_neg (by simp [Watcher.lose])]
  have hst : (s.hub.lose.list a ((s.pods.del p.key).set p.key p)).store = s.hub.store ∧
      (s.hub.lose.list a ((s.pods.del p.key).set p.key p)).chan = s.hub.chan := by
    unfold Watcher.list
    split <;> exact ⟨rfl, rfl⟩
  simp only [run, step, observer, change, Option.map_some, hh]
  unfold Watcher.handle
  rw [hpop]
  simp only [hst.1, hseen, Option.map_some]
  refine ⟨_, rfl, GoMap.get_set_same _ _ _, ?_, ?_, rfl⟩
  · rw [note_store]; exact GoMap.get_set_same _ _ _
  · rw [note_chan]
    simp only [Topology.observe, Pod.view, hrun.1, hrun.2, hst.2]
    simp

/-! ### A small cluster -/

open Swoll.Props.Cluster (someApi)
open Swoll.Props.Hub (demoTbl)
open Swoll.Props.PubSub (isort isort_isSort)
open Swoll.Props.Daemon (calm)
open Swoll.Props.Service (called)

/-- The observer of the server. -/
def serverObs : Topology.Observer := ⟨"", "", "", "swoll!=false", "", "", false⟩

example : serverObserver "" "" "" = some serverObs := by decide

/-- A pod with these labels. -/
def webPod (labels : GoMap JobArgs.Str JobArgs.Str) : Pod := ⟨"default", "web", 1, labels, [], "Running"⟩

def nginx : GoMap JobArgs.Str JobArgs.Str := [("app".toList, "nginx".toList)]

/-- Its container, as the runtime lists it, and as the observer describes it. -/
def webCri : Topology.CriContainer :=
  ⟨"c1", "", [("io.kubernetes.pod.name", "web"), ("io.kubernetes.pod.namespace", "default"),
    ("io.kubernetes.container.name", "nginx")], some 100, some 4026531836⟩

def webCont : Topology.Container :=
  ⟨"c1", "web", "", "nginx", "", "default", some webCri.labels, 100, 4026531836⟩

/-- A job for the calls of `openat` of the pods labelled `app=nginx`. -/
def nginxSel : Sel := ⟨⟨nginx, []⟩, ⟨[], []⟩⟩

/-- A pod is there, the server sees it; a client asks for the job, which sees it too; a client watches the job. -/
def play : List Op :=
  [.runtime (some [webCri]), .put (webPod nginx), .list none, .handle none ("default", "web"), .tell none,
   .service (.outside (.act {})),
   .create "default" nginxSel (some "a") "u" true { hosts := [], calls := ["sys_openat"], rate := 0 }] ++
  List.replicate 4 (.service (.handle 0)) ++
  [.list (some 0), .handle (some 0) ("default", "web"), .tell (some 0), .service (.work 0 {}), .service (.work 0 {}),
   .service (.watch (.job "a")), .service (.attach 0 9)]

/-- The events handed out by an operation after a history: to whom, from which pid namespace and pod. -/
def handed (ops : List Op) (op : Op) : Option (List (Nat × Int × Option String)) :=
  (run someApi demoTbl crcString isort (fresh demoTbl serverObs) ops).bind (fun s =>
    (step someApi demoTbl crcString isort s op).map (fun r => r.2.map (fun d => (d.1, d.2.pidNs, d.2.container.map (·.pod)))))

/-- `c121_shown`, `c124_selected_partial`: the pod calls `openat`, and the client is handed the event. -/
example : handed (play ++ called.map .service) (.service (.outside (.route calm))) =
    some [(0, 4026531836, some "web")] := by decide +kernel

/-- `c121_never_shown`: if the pod is labelled `swoll=false` as well, nobody is. -/
example : handed ((.put (webPod (("swoll".toList, "false".toList) :: nginx)) :: play.filter (fun o => match o with | .put _ => false | _ => true)) ++
    called.map .service) (.service (.outside (.route calm))) = some [] := by decide +kernel

example : (someApi.rules.key "swoll".toList = true ∧ someApi.rules.value "false".toList = true) ∧
    ∀ x ∈ play ++ called.map .service ++ [.service (.outside (.route calm))], Sane x := by
  refine ⟨by decide +kernel, ?_⟩
  intro x hx
  have h16 : Props.Event.sampleTask.comm.length = 16 := by decide
  have hwf : ∀ s, some Props.Event.sampleScratch = some s → s.WF := by
    intro s e; injection e with e; subst e; exact Props.Event.sampleScratch_wf
  have hcalm : ∀ i, (calm i).Valid := fun _ _ m => List.Perm.refl m
  simp only [play, called, List.mem_append, List.mem_cons, List.mem_replicate, List.not_mem_nil, or_false, List.map_cons,
    List.map_nil] at hx
  rcases hx with ((((rfl | rfl | rfl | rfl | rfl | rfl | rfl) | ⟨-, rfl⟩) | rfl | rfl | rfl | rfl | rfl | rfl | rfl) |
    rfl | rfl | rfl) | rfl
  all_goals first
    | trivial
    | exact ⟨h16, hwf⟩
    | exact hcalm

/-- `Calm`, as a check. -/
def calmB (a : Api) (tbl : Syscalls.Syscalls) (crc : String → BitVec 64) (srt : List PubSub.Env → List PubSub.Env) :
    Site → List Op → Bool
  | _, [] => true
  | s, o :: os =>
    (match o with
      | .put _ => (s.hub :: s.jobs).all (fun w => w.connected || (w.store.isEmpty && w.queue.isEmpty))
      | .remove _ => (s.hub :: s.jobs).all (fun w => w.connected || (w.store.isEmpty && w.queue.isEmpty))
      | _ => true) &&
    match step a tbl crc srt s o with
    | none => true
    | some (s1, _) => calmB a tbl crc srt s1 os

theorem calm_of : ∀ {ops : List Op} {s : Site}, calmB a tbl crc srt s ops = true → Calm a tbl crc srt s ops
  | [], _, _ => trivial
  | o :: os, s, h => by
    unfold calmB at h
    rw [Bool.and_eq_true] at h
    obtain ⟨h1, h2⟩ := h
    constructor
    · intro hch w hw
      cases o with
      | put p =>
        have := List.all_eq_true.1 h1 w hw
        simpa using this
      | remove k =>
        have := List.all_eq_true.1 h1 w hw
        simpa using this
      | _ => exact absurd hch id
    · intro s1 out hs
      rw [hs] at h2
      exact calm_of h2

/-- The pod loses its label, and the job sees that. -/
def relabelled : List Op :=
  play ++ [.lose (some 0), .list (some 0), .handle (some 0) ("default", "web"), .put (webPod []), .handle (some 0) ("default", "web"),
   .tell (some 0), .service (.work 0 {}), .handle none ("default", "web")]

theorem relabelled_calm : Calm someApi demoTbl crcString isort (fresh demoTbl serverObs) relabelled :=
  calm_of (by decide +kernel)

theorem webLives : Lives webCri ("default", "web") webCont :=
  ⟨⟨by decide, by decide⟩, by decide, rfl, rfl, by decide, by decide⟩

theorem relabelled_steady : Steady relabelled webCri ∧ Dotless relabelled := by
  have hm : ∀ op ∈ relabelled, (∃ x, op = .runtime x) → op = .runtime (some [webCri]) := by
    intro op hop ⟨x, hx⟩
    subst hx
    simpa [relabelled, play, List.mem_replicate] using hop
  refine ⟨⟨⟨_, _, rfl⟩, ?_, ?_⟩, ?_⟩
  · intro x hx
    have := hm _ hx ⟨x, rfl⟩
    injection this with this
    exact ⟨_, this, List.mem_singleton.2 rfl⟩
  · intro l cc' hx hc _
    have := hm _ hx ⟨_, rfl⟩
    injection this with this
    injection this with this
    subst this
    exact List.mem_singleton.1 hc
  · intro p hp
    have : p.ns = "default" := by
      simp only [relabelled, play, List.mem_append, List.mem_cons, List.mem_replicate, List.not_mem_nil, or_false,
        Op.put.injEq, reduceCtorEq, false_or, and_false] at hp
      rcases hp with rfl | rfl <;> rfl
    rw [this]
    decide +kernel

/-- `c122_server_partial`, `c122_job_partial`: in this history, before and after the pod loses its label, observers
are caught up; first both know the container, then only the server does. -/
example : (run someApi demoTbl crcString isort (fresh demoTbl serverObs) play).map (fun s =>
      ((s.hub :: s.jobs).map (fun w => (w.connected, w.queue.length, w.chan.length)),
        Spec.Topology.resident (told s none) 4026531836, Spec.Topology.resident (told s (some 0)) 4026531836)) =
    some ([(true, 0, 0), (true, 0, 0)], some webCont, some webCont) ∧
  (run someApi demoTbl crcString isort (fresh demoTbl serverObs) relabelled).map (fun s =>
      ((s.hub :: s.jobs).map (fun w => (w.connected, w.queue.length, w.chan.length)),
        Spec.Topology.resident (told s none) 4026531836, Spec.Topology.resident (told s (some 0)) 4026531836)) =
    some ([(true, 0, 0), (true, 0, 0)], some webCont, none) := by
  constructor <;> decide +kernel

theorem nginx_good : GoodLabels someApi nginxSel.label.matchLabels ∧ GoodFields someApi nginxSel.field.matchLabels := by
  unfold GoodLabels GoodFields GoMap.NodupKeys
  exact ⟨⟨by decide +kernel, by decide +kernel⟩, ⟨by decide +kernel, by decide +kernel⟩⟩

example : (asked relabelled)[0]? = some ("default", nginxSel, { hosts := [], calls := ["sys_openat"], rate := 0 }) ∧
    (run someApi demoTbl crcString isort (fresh demoTbl serverObs) relabelled).map (fun s => s.service.procs.map (·.spec.job.ref)) =
      some [0] := by
  constructor
  · rfl
  · decide +kernel

/-- Then somebody else asks for the calls of all pods. -/
def another : List Op :=
  relabelled ++ .create "default" ⟨⟨[], []⟩, ⟨[], []⟩⟩ (some "b") "v" true { hosts := [], calls := ["sys_openat"], rate := 0 } ::
  (List.replicate 4 (.service (.handle 1)) ++
  [.list (some 1), .handle (some 1) ("default", "web"), .tell (some 1), .service (.work 1 {}), .service (.work 1 {})] ++
  called.map .service)

/-- C124 violated: the pod lost its label and the observer of job `a` knows; the client of job `a` is handed its
calls nevertheless, as soon as another job wants them. -/
theorem c124_relabelled_violated :
    handed another (.service (.outside (.route calm))) = some [(0, 4026531836, some "web")] ∧
    (run someApi demoTbl crcString isort (fresh demoTbl serverObs) another).map (fun s =>
      (Spec.Daemon.users s.service.log, s.service.server.threads.map (·.id))) = some ([⟨0, .job "a"⟩], ["a", "b"]) ∧
    (run someApi demoTbl crcString isort (fresh demoTbl serverObs) another).map (fun s =>
      (s.pods.get ("default", "web"), s.jobs.map (fun w => (w.connected, w.queue.length, w.chan.length)))) =
      some (some (webPod []), [(true, 0, 0), (true, 0, 0)]) ∧
    ((asked another)[0]?.map (fun x => (x.1, x.2.1))) = some ("default", nginxSel) ∧
    ¬ Wants "default" nginxSel (webPod []) := by
  refine ⟨by decide +kernel, by decide +kernel, by decide +kernel, rfl, ?_⟩
  rintro ⟨-, ⟨h, -⟩, -⟩
  have := h "app".toList "nginx".toList (by decide +kernel)
  cases this

/-- `c123_survives_partial`: the history in which the label is lost is calm although the job loses the API server in
it (`relabelled_calm`). `c123_violated`, `c123_recreated_violated`: after it the server has seen the pod, which runs,
and has nothing left to handle. -/
example : ((run someApi demoTbl crcString isort (fresh demoTbl serverObs) relabelled).map (fun s =>
      (s.hub.store.get ("default", "web"), s.hub.queue, (selects someApi s.hub.obs).isSome, selected someApi s.hub.obs (webPod nginx)))) =
    some (some (webPod []), [], true, true) := by decide +kernel

end Swoll.Props.Site
