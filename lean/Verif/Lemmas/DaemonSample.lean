import Verif.Lemmas.DaemonRoute
/-
The counters of sampled jobs.
-/
namespace Swoll.Lemmas.Daemon
open Swoll Swoll.Daemon Swoll.Spec.Daemon
open Swoll.Event (Task Mem KEvent TraceEvent pack)
open Swoll.Hash (crcString)

variable {tbl : Syscalls.Syscalls} {crc : String → BitVec 64} {srt : List PubSub.Env → List PubSub.Env}

/-! ### Registrations are pushes -/

theorem regs_sublist (hist : List Op) : (registrations hist).Sublist (hist.filterMap pushed) := by
  induction hist using ListX.snoc_induction with
  | h0 => exact List.Sublist.refl _
  | h1 xs o ih =>
    unfold registrations at ih ⊢
    rw [List.foldl_append, List.foldl_cons, List.foldl_nil, List.filterMap_append]
    cases o with
    | push j ns nr => exact List.Sublist.append ih (List.Sublist.refl _)
    | delete id =>
      have e : List.filterMap pushed [Op.delete id] = [] := rfl
      rw [e, List.append_nil]
      exact List.Sublist.trans List.filter_sublist ih
    | _ => exact List.Sublist.trans ih (List.sublist_append_left _ _)

theorem reg_pushed {hist : List Op} {r : Spec.Hub.Reg} (h : r ∈ registrations hist) :
    Op.push r.job r.ns r.nr ∈ hist := by
  obtain ⟨o, ho, e⟩ := List.mem_filterMap.1 ((regs_sublist hist).mem h)
  cases o with
  | push j ns nr =>
    simp only [pushed, Option.some.injEq] at e
    subst e; exact ho
  | _ => cases e

theorem rateApart_take {hist : List Op} {j : Hub.Job} (h : RateApart hist j) (n : Nat) : RateApart (hist.take n) j := by
  refine ⟨fun j' ns nr hm => h.alone j' ns nr (List.mem_of_mem_take hm), fun ns nr => ?_,
    fun j' ns nr h1 h2 => h.higher j' ns nr (List.mem_of_mem_take h1) (List.mem_of_mem_take h2)⟩
  exact Nat.le_trans (((List.take_sublist n hist).filterMap _).count_le _) (h.once ns nr)

theorem mem_wanting {hist : List Op} {r : Spec.Hub.Reg} {ns nr : Int} :
    r ∈ wanting hist ns nr ↔ r ∈ registrations hist ∧ r.ns = ns ∧ r.nr = nr := by
  unfold wanting
  rw [List.mem_filter]
  simp

/-- Of the registrations of a pair at most one is the job's. -/
theorem own_count {hist : List Op} {j : Hub.Job} (h : RateApart hist j) (ns nr : Int) (p : Spec.Hub.Reg → Bool)
    (hp : p ⟨j, ns, nr⟩ = true) (hp' : ∀ r, p r = true → r.job.ref = j.ref ∨ r.job.id = j.id) :
    ((wanting hist ns nr).filter p).length = if ⟨j, ns, nr⟩ ∈ registrations hist then 1 else 0 := by
  have e : (wanting hist ns nr).filter p = (wanting hist ns nr).filter (fun r => r == ⟨j, ns, nr⟩) := by
    apply List.filter_congr
    intro r hr
    rw [Bool.eq_iff_iff, beq_iff_eq]
    obtain ⟨h1, h2, h3⟩ := mem_wanting.1 hr
    constructor
    · intro hx
      have := h.alone _ _ _ (reg_pushed h1) (hp' r hx)
      cases r
      simp only at this h2 h3
      subst this h2 h3
      rfl
    · rintro rfl; exact hp
  have e2 : ((wanting hist ns nr).filter (fun r => r == ⟨j, ns, nr⟩)).length = (registrations hist).count ⟨j, ns, nr⟩ := by
    unfold wanting List.count
    rw [← List.countP_eq_length_filter, List.countP_filter]
    apply List.countP_congr
    intro r _
    simp only [Bool.and_eq_true, beq_iff_eq, decide_eq_true_eq]
    constructor
    · exact fun x => x.1
    · rintro rfl; exact ⟨rfl, rfl, rfl⟩
  rw [e, e2]
  have hle := Nat.le_trans ((regs_sublist hist).count_le ⟨j, ns, nr⟩) (h.once ns nr)
  by_cases hm : ⟨j, ns, nr⟩ ∈ registrations hist
  · rw [if_pos hm]
    have := List.count_pos_iff.2 hm
    omega
  · rw [if_neg hm]; exact List.count_eq_zero.2 hm

/-! ### The counter -/

theorem hub_sampled {h h' : Hub.Hub} {R : List Hub.Ctx} (hi : Lemmas.Hub.Inv h R) {op : Hub.Op} {b : Bool} {o : List Hub.Out}
    (hs : Hub.step tbl h op = some (h', b, o)) (hne : ∀ e, op ≠ .event e) : h'.sampled = h.sampled := by
  cases op with
  | push j ns nr =>
    simp only [Hub.step, Option.some.injEq, Prod.mk.injEq] at hs
    rw [← hs.1]; rfl
  | swap rate ns nr =>
    simp only [Hub.step, Option.map_eq_some_iff, Prod.mk.injEq] at hs
    obtain ⟨x, hx, rfl, -⟩ := hs
    exact (Lemmas.Hub.swap_same hx).2.2.2
  | filter o =>
    simp only [Hub.step, Option.some.injEq, Prod.mk.injEq] at hs
    obtain ⟨rfl, -⟩ := hs; rfl
  | delete id =>
    rcases Lemmas.Hub.delete_spec tbl hi id with ⟨-, hd⟩ | ⟨-, h1, hd, -, -, e⟩
    · simp only [Hub.step, hd, Option.some.injEq, Prod.mk.injEq] at hs
      rw [← hs.1]
    · simp only [Hub.step, hd, Option.some.injEq, Prod.mk.injEq] at hs
      rw [← hs.1]; exact e
  | event e => exact absurd rfl (hne e)

/-- What an operation of the daemon does to the counters. -/
theorem sampled_step {hist : List Op} {d d' : Daemon} (h : run tbl crc srt (fresh tbl) hist = some d) {o : Op}
    {out : List Delivery} (hs : step tbl crc srt d o = some (d', out)) :
    (d'.hub.sampled = d.hub.sampled ∧ ∀ oo, o = .route oo → ∀ ev, d.msg = some ev → ev.container = none) ∨
    ∃ oo ev c sc, o = .route oo ∧ d.msg = some ev ∧ ev.container = some c ∧ ev.syscall = some sc ∧
      ∀ ref, d'.hub.sampled ref = d.hub.sampled ref +
        ((wanting hist ev.pidNs sc.nr).filter (fun r => r.job.ref = ref ∧ r.job.rate > 0)).length := by
  obtain ⟨R, hinv, -⟩ := Lemmas.Hub.inv_reach tbl (hub_run h)
  have hone : ∀ op, hubOps d o = [op] → (∀ e, op ≠ .event e) → d'.hub.sampled = d.hub.sampled := by
    intro op e hne
    have hh := hub_step hs
    rw [e, hub_one, Option.map_eq_some_iff] at hh
    obtain ⟨⟨h1, b, os⟩, h2, h3⟩ := hh
    rw [← h3]
    exact hub_sampled hinv h2 hne
  have hnone : hubOps d o = [] → d'.hub.sampled = d.hub.sampled := by
    intro e
    have hh := hub_step hs
    rw [e] at hh
    simp only [Hub.run, Option.some.injEq] at hh
    rw [← hh]
  cases o with
  | route oo =>
    rcases route_elim hs with ⟨-, e, g⟩ | ⟨ev, c, sc, hub, outs, g1, g2, g3, g4, g5, -⟩
    · left
      exact ⟨by rw [e], fun _ _ => g⟩
    · right
      refine ⟨oo, ev, c, sc, rfl, g1, g2, g3, ?_⟩
      intro ref
      have hw := wanting_eq h ev.pidNs sc.nr
      by_cases hn : wanting hist ev.pidNs sc.nr = []
      · have := Props.Hub.c11_dropped tbl _ _ _ (hub_run h) ⟨ev.pidNs, sc.nr, true⟩ (Or.inr (by rw [hw]; exact hn))
        rw [this] at g4
        simp only [Option.some.injEq, Prod.mk.injEq] at g4
        rw [g5, hn]
        simp [← g4.1]
      · obtain ⟨rest, -, -, -, e4, -⟩ := Props.Hub.c11_routing tbl _ _ _ _ (hub_run h) ⟨ev.pidNs, sc.nr, true⟩ outs g4 rfl
          (by rw [hw]; exact hn)
        dsimp only at e4
        rw [hw] at e4
        rw [g5]
        exact e4 ref
  | enter t id mtime time args full =>
    left
    refine ⟨?_, by intro oo e; cases e⟩
    by_cases he : (hubOps d (.enter t id mtime time args full)).length = 1
    · obtain ⟨op, e⟩ := List.length_eq_one_iff.1 he
      refine hone op e ?_
      intro ev h; subst h
      simp only [hubOps] at e
      split at e <;> simp at e
    · have hh := hub_step hs
      simp only [step, Option.some.injEq, Prod.mk.injEq] at hs
      rw [← hs.1]; rfl
  | act f =>
    left
    refine ⟨?_, by intro oo e; cases e⟩
    rcases (act_elim hs).2 with ⟨-, e⟩ | ⟨a, rest, -, e⟩
    · rw [e]
    · rw [e]
      cases a with
      | prune ns => simp only [doAct]; split <;> rfl
      | _ => rfl
  | exit t id ret m time mem scratch lost => exact Or.inl ⟨hone _ rfl (by intro e h; cases h), by intro oo e; cases e⟩
  | execve t time mem filename argv scratch lost => exact Or.inl ⟨hone _ rfl (by intro e h; cases h), by intro oo e; cases e⟩
  | push j ns nr => exact Or.inl ⟨hone _ rfl (by intro e h; cases h), by intro oo e; cases e⟩
  | swap rate ns nr => exact Or.inl ⟨hone _ rfl (by intro e h; cases h), by intro oo e; cases e⟩
  | addSyscall k ns f => exact Or.inl ⟨hone _ rfl (by intro e h; cases h), by intro oo e; cases e⟩
  | addSampled k ns rate f => exact Or.inl ⟨hone _ rfl (by intro e h; cases h), by intro oo e; cases e⟩
  | removeSyscall k ns => exact Or.inl ⟨hone _ rfl (by intro e h; cases h), by intro oo e; cases e⟩
  | delete id => exact Or.inl ⟨hone _ rfl (by intro e h; cases h), by intro oo e; cases e⟩
  | topo ev => exact Or.inl ⟨hnone rfl, by intro oo e; cases e⟩
  | attachPath ps draw => exact Or.inl ⟨hnone rfl, by intro oo e; cases e⟩
  | attachTrace id draw => exact Or.inl ⟨hnone rfl, by intro oo e; cases e⟩
  | detach h => exact Or.inl ⟨hnone rfl, by intro oo e; cases e⟩
  | ingest => exact Or.inl ⟨hnone rfl, by intro oo e; cases e⟩

/-- The event in hand has a container. -/
theorem msg_container {hist : List Op} {d : Daemon} (h : run tbl crc srt (fresh tbl) hist = some d)
    {ev : TraceEvent Topology.Container} (hm : d.msg = some ev) : ev.container ≠ none := by
  induction hist using ListX.snoc_induction generalizing d with
  | h0 =>
    simp only [run, Option.some.injEq] at h
    subst h; cases hm
  | h1 xs o ih =>
    obtain ⟨d1, out, r1, s1⟩ := run_snoc h
    have keep : d.msg = d1.msg → ev.container ≠ none := fun e => ih r1 (by rw [← e]; exact hm)
    rcases ring_step s1 with ⟨-, e, -⟩ | ⟨t, id, ret, m1, time, mem, s, e, -, -, -, e', -⟩ |
      ⟨t, time, mem, filename, argv, s, e, -, -, -, e', -⟩ | ⟨bs, rest, -, -, -, -, -, e | ⟨ev', e1, e2, -⟩⟩ | ⟨oo, -, -, e⟩
    · exact keep e
    · exact keep e'
    · exact keep e'
    · rw [e] at hm; cases hm
    · rw [e1] at hm
      injection hm with hm
      subst hm
      intro e; rw [e] at e2; cases e2
    · rw [e] at hm; cases hm

theorem below_succ (ks : List Nat) (hk : ks.Nodup) (n : Nat) :
    ks.countP (fun k => decide (k < n + 1)) = ks.countP (fun k => decide (k < n)) + if n ∈ ks then 1 else 0 := by
  rw [← List.Nodup.count hk]
  unfold List.count
  clear hk
  induction ks with
  | nil => rfl
  | cons x xs ih =>
    simp only [List.countP_cons, ih, decide_eq_true_eq, beq_iff_eq]
    by_cases h1 : x = n
    · subst h1; simp; omega
    · by_cases h2 : x < n
      · simp [h1, h2, Nat.lt_succ_of_lt h2]; omega
      · have : ¬ x < n + 1 := by omega
        simp [h1, h2, this]

/-- The counter of the job is the number of its events so far. -/
theorem counter {hist : List Op} {j : Hub.Job} (hj : RateApart hist j) (hr : 0 < j.rate) {ks : List Nat}
    (hnd : ks.Nodup) (hks : ∀ k, k ∈ ks ↔ EventOf tbl crc srt hist j k) (n : Nat) (hn : n ≤ hist.length) {d : Daemon}
    (h : run tbl crc srt (fresh tbl) (hist.take n) = some d) :
    d.hub.sampled j.ref = (ks.countP (fun k => decide (k < n)) : Nat) := by
  induction n generalizing d with
  | zero =>
    simp only [List.take_zero, run, Option.some.injEq] at h
    subst h
    have : ks.countP (fun k => decide (k < 0)) = 0 := by
      rw [List.countP_eq_zero]; intro k _; simp
    rw [this]; rfl
  | succ n ih =>
    have hlt : n < hist.length := by omega
    rw [List.take_succ_eq_append_getElem hlt] at h
    obtain ⟨d1, out, r1, s1⟩ := run_snoc h
    have ih := ih (by omega) r1
    rw [below_succ ks hnd]
    rcases sampled_step r1 s1 with ⟨e, hno⟩ | ⟨oo, ev, c, sc, e1, e2, e3, e4, e5⟩
    · have : n ∉ ks := by
        rw [hks]
        rintro ⟨ev, sc, ⟨o, d2, q1, q2, q3⟩, -⟩
        rw [q2] at r1; injection r1 with r1; subst r1
        rw [List.getElem?_eq_getElem hlt] at q1
        injection q1 with q1
        exact msg_container q2 q3 (hno o q1 ev q3)
      rw [e, ih, if_neg this]; rfl
    · have hin : n ∈ ks ↔ (⟨j, ev.pidNs, sc.nr⟩ : Spec.Hub.Reg) ∈ registrations (hist.take n) := by
        rw [hks]
        constructor
        · rintro ⟨ev', sc', ⟨o, d2, q1, q2, q3⟩, q4, q5⟩
          rw [q2] at r1; injection r1 with r1; subst r1
          rw [e2] at q3; injection q3 with q3; subst q3
          rw [e4] at q4; injection q4 with q4; subst q4
          exact q5
        · intro hm
          exact ⟨ev, sc, ⟨oo, d1, by rw [List.getElem?_eq_getElem hlt, e1], r1, e2⟩, e4, hm⟩
      have hc := own_count (rateApart_take hj n) ev.pidNs sc.nr (fun r => decide (r.job.ref = j.ref ∧ r.job.rate > 0))
        (by simp [hr]) (by intro r hx; simp only [decide_eq_true_eq] at hx; exact Or.inl hx.1)
      rw [e5, ih, hc]
      by_cases hm : n ∈ ks
      · rw [if_pos hm, if_pos (hin.1 hm)]; push_cast; rfl
      · rw [if_neg hm, if_neg (fun x => hm (hin.2 x))]; push_cast; rfl

/-- The divisor of a job whose rate is apart from the others. -/
theorem tells_own {hist : List Op} {j : Hub.Job} (hj : RateApart hist j) (hr : 0 < j.rate) {d : Daemon}
    (h : run tbl crc srt (fresh tbl) hist = some d) {ns nr : Int} (hm : (⟨j, ns, nr⟩ : Spec.Hub.Reg) ∈ registrations hist)
    {hub : Hub.Hub} {outs : List Hub.Out} (he : Hub.handleEvent d.hub ⟨ns, nr, true⟩ = some (hub, outs)) :
    ∃ rest, outs = .nsStream :: rest ∧ rest.Sublist ((wanting hist ns nr).map (fun r => .jobStream r.job.id)) ∧
      rest.count (.jobStream j.id) = if j.rate ∣ d.hub.sampled j.ref + 1 then 1 else 0 := by
  have hrun := hub_run h
  have hw := wanting_eq h ns nr
  have hmw : (⟨j, ns, nr⟩ : Spec.Hub.Reg) ∈ wanting hist ns nr := mem_wanting.2 ⟨hm, rfl, rfl⟩
  have hne : wanting hist ns nr ≠ [] := List.ne_nil_of_mem hmw
  obtain ⟨l1, l2, l3⟩ := Props.Hub.c13_lowest tbl _ _ _ hrun ns nr
  rw [hw] at l2 l3
  obtain ⟨c, hc⟩ : ∃ c, Hub.findLowestSampleJob d.hub ns nr = some (some c) := by
    cases hx : Hub.findLowestSampleJob d.hub ns nr with
    | none => exact absurd hx l1
    | some y =>
      cases y with
      | none => exact absurd (l2.1 hx) hne
      | some c => exact ⟨c, rfl⟩
  have hlow := l3 c hc
  have hone := own_count hj ns nr (fun r => decide (r.job.ref = j.ref ∨ r.job.id = j.id)) (by simp)
    (by intro r hx; simpa using hx)
  rw [if_pos hm] at hone
  have hall : Spec.Hub.handleAll d.hub (List.replicate 1 ⟨ns, nr, true⟩) = some (hub, [outs]) := by
    simp only [List.replicate, Spec.Hub.handleAll, he, Option.map_some]
  have key := Props.Hub.c14_actual tbl _ _ _ _ hrun ns nr ⟨j, ns, nr⟩ _ (by rw [hw]; exact hmw) (by rw [hw]; exact hlow) hr
    (by rw [hw]; exact hone) 1 _ hall
  have key := key.2 0 (by simp)
  have hper : (if (Spec.Hub.reg c).job.ref = j.ref then j.rate else j.rate - (Spec.Hub.reg c).job.rate) = j.rate := by
    by_cases hx : (Spec.Hub.reg c).job.ref = j.ref
    · rw [if_pos hx]
    · rw [if_neg hx]
      obtain ⟨p, q, e, a, b⟩ := hlow
      have hcm : Spec.Hub.reg c ∈ wanting hist ns nr := by rw [e]; simp
      have hle : (Spec.Hub.reg c).job.rate ≤ j.rate := by
        rw [e, List.mem_append, List.mem_cons] at hmw
        rcases hmw with hmw | hmw | hmw
        · exact Int.le_of_lt (a _ hmw)
        · rw [← hmw]; exact Int.le_refl _
        · exact b _ hmw
      obtain ⟨m1, m2, m3⟩ := mem_wanting.1 hcm
      have hp := reg_pushed m1
      rw [m2, m3] at hp
      rcases hj.higher _ _ _ (reg_pushed hm) hp (by intro y; rw [y] at hx; exact hx rfl) with y | y
      · rw [y]; omega
      · omega
  dsimp only at key
  rw [hper] at key
  rcases outs_spec h he with ⟨e, -⟩ | ⟨-, rest, e1, e2, -⟩
  · exact absurd e hne
  · refine ⟨rest, e1, e2, ?_⟩
    have hcount : rest.count (.jobStream j.id) ≤ 1 := by
      refine Nat.le_trans (e2.count_le _) ?_
      have h2 := own_count hj ns nr (fun r => decide (r.job.id = j.id)) (by simp) (by intro r hx; right; simpa using hx)
      rw [if_pos hm, ← List.countP_eq_length_filter] at h2
      unfold List.count
      rw [List.countP_map]
      refine Nat.le_of_eq (Eq.trans ?_ h2)
      apply List.countP_congr
      intro r _
      simp
    have hin : Hub.Out.jobStream j.id ∈ rest ↔ j.rate ∣ d.hub.sampled j.ref + 1 := by
      rw [e1] at key
      simpa using key
    by_cases hd : j.rate ∣ d.hub.sampled j.ref + 1
    · rw [if_pos hd]
      have := List.count_pos_iff.2 (hin.2 hd)
      omega
    · rw [if_neg hd]
      exact List.count_eq_zero.2 (fun x => hd (hin.1 x))

/-- How often a user of such a job is handed the event. -/
theorem count_sampled (hs : PubSub.Node.IsSort srt) {hist : List Op} (hu : DetachOnce hist) {j : Hub.Job}
    (hj : RateApart hist j) (hr : 0 < j.rate) {d : Daemon}
    (h : run tbl crcString srt (fresh tbl) hist = some d) {o : Nat → PubSub.Oracle} (ho : ∀ i, (o i).Valid)
    {ev : TraceEvent Topology.Container} {c : Topology.Container} {sc : Syscalls.Syscall} {hub : Hub.Hub}
    {outs : List Hub.Out} (he : Hub.handleEvent d.hub ⟨ev.pidNs, sc.nr, true⟩ = some (hub, outs))
    (hm : (⟨j, ev.pidNs, sc.nr⟩ : Spec.Hub.Reg) ∈ registrations hist) (ha : KeepsApart crcString hist c sc)
    {u : User} (hmu : u ∈ users hist) (ht : u.target = .job j.id) (hid : j.id ≠ "") :
    (publishAll crcString o d.ps ev c sc outs).count (u.token, ev) =
      if j.rate ∣ d.hub.sampled j.ref + 1 then 1 else 0 := by
  have hc := count_publishAll hs hu h o ho ev c sc outs hmu 0
  obtain ⟨rest, e1, e2, e3⟩ := tells_own hj hr h hm he
  unfold publishAll
  rw [hc, e1, List.countP_cons, ht]
  have hz : ¬ pathOf crcString (.job j.id) <+: outPath crcString c sc .nsStream :=
    (Props.Hash.c63_streams_disjoint [] j.id ⟨c.ns, c.pod, c.name, sc.name⟩).2
  have hsep : ∀ r ∈ wanting hist ev.pidNs sc.nr, Spec.Hash.Separates crcString [j.id, r.job.id] := by
    intro r hr
    have := ha u hmu
    rw [ht] at this
    exact this r (List.mem_filter.1 hr).1
  rw [if_neg (by simpa using hz), Nat.add_zero, countP_jobs c sc j.id hid hsep e2, e3]

theorem below_index {ks : List Nat} (h : ks.Pairwise (· < ·)) {i k : Nat} (hk : ks[i]? = some k) :
    ks.countP (fun x => decide (x < k)) = i := by
  induction ks generalizing i with
  | nil => simp at hk
  | cons x xs ih =>
    rw [List.pairwise_cons] at h
    cases i with
    | zero =>
      simp only [List.getElem?_cons_zero, Option.some.injEq] at hk
      subst hk
      rw [List.countP_eq_zero]
      intro y hy
      rw [List.mem_cons] at hy
      rcases hy with rfl | hy
      · simp
      · have := h.1 y hy; simp; omega
    | succ i =>
      rw [List.getElem?_cons_succ] at hk
      rw [List.countP_cons, ih h.2 hk]
      have := h.1 k (List.mem_of_getElem? hk)
      simp [this]

end Swoll.Lemmas.Daemon
