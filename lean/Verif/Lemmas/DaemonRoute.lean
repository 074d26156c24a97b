import Verif.Lemmas.DaemonDeliver
/-
What routing one event does.
-/
namespace Swoll.Lemmas.Daemon
open Swoll Swoll.Daemon Swoll.Spec.Daemon
open Swoll.Event (Task Mem KEvent TraceEvent pack)
open Swoll.Hash (crcString)

variable {tbl : Syscalls.Syscalls} {crc : String → BitVec 64} {srt : List PubSub.Env → List PubSub.Env}

theorem detachOnce_take {hist : List Op} (h : DetachOnce hist) (k : Nat) : DetachOnce (hist.take k) := by
  unfold DetachOnce at *
  exact List.Sublist.nodup ((List.take_sublist k hist).filterMap _) h

/-- A delivery is a routing. -/
theorem delivered_elim {hist : List Op} {k tok : Nat} {ev : TraceEvent Topology.Container}
    (h : Delivered tbl crc srt hist k tok ev) :
    ∃ o d d' c sc hub outs, hist[k]? = some (.route o) ∧ run tbl crc srt (fresh tbl) (hist.take k) = some d ∧
      step tbl crc srt d (.route o) = some (d', publishAll crc o d.ps ev c sc outs) ∧
      d.msg = some ev ∧ ev.container = some c ∧ ev.syscall = some sc ∧
      Hub.handleEvent d.hub ⟨ev.pidNs, sc.nr, true⟩ = some (hub, outs) ∧
      ∃ x ∈ publishAll crc o d.ps ev c sc outs, x.1 = tok := by
  obtain ⟨o, d, d', out, h1, h2, h3, h4⟩ := h
  have hr : ∃ oo, o = .route oo := by
    rcases ring_step h3 with ⟨-, -, e⟩ | ⟨t, id, ret, m1, time, mem, s, e, -, -, -, -, e'⟩ |
      ⟨t, time, mem, filename, argv, s, e, -, -, -, -, e'⟩ | ⟨bs, rest, -, -, -, -, e, -⟩ | ⟨oo, e, -⟩
    · subst e; cases h4
    · subst e'; cases h4
    · subst e'; cases h4
    · subst e; cases h4
    · exact ⟨oo, e⟩
  obtain ⟨oo, rfl⟩ := hr
  rcases route_elim h3 with ⟨e, -⟩ | ⟨ev', c, sc, hub, outs, hm, hc, hsc, he, hd, ho⟩
  · subst e; cases h4
  · have : ev' = ev := by
      rw [ho] at h4
      unfold publishAll at h4
      rw [List.mem_flatMap] at h4
      obtain ⟨p, -, hx⟩ := h4
      rw [List.mem_map] at hx
      obtain ⟨t, -, e⟩ := hx
      injection e
    subst this
    rw [ho] at h3 h4
    exact ⟨oo, d, d', c, sc, hub, outs, h1, h2, h3, hm, hc, hsc, he, _, h4, rfl⟩

theorem delivered_routes {hist : List Op} {k tok : Nat} {ev : TraceEvent Topology.Container}
    (h : Delivered tbl crc srt hist k tok ev) : Routes tbl crc srt hist k ev := by
  obtain ⟨o, d, d', c, sc, hub, outs, h1, h2, -, h4, -⟩ := delivered_elim h
  exact ⟨o, d, h1, h2, h4⟩

theorem ns_prefix_iff {hist : List Op} {c : Topology.Container} {sc : Syscalls.Syscall}
    (ha : KeepsApart crcString hist c sc) {u : User} (hu : u ∈ users hist) {ps : List String} (ht : u.target = .path ps) :
    pathOf crcString u.target <+: outPath crcString c sc .nsStream ↔
      Spec.Hash.meant ps <+: Spec.Hash.meant (names c sc) := by
  have := ha u hu
  rw [ht] at this ⊢
  exact Props.Hash.c07_path crcString ps ⟨c.ns, c.pod, c.name, sc.name⟩ this

/-- How often a user is handed the event. -/
theorem count_user (hs : PubSub.Node.IsSort srt) {hist : List Op} (hu : DetachOnce hist) {d : Daemon}
    (h : run tbl crcString srt (fresh tbl) hist = some d) {o : Nat → PubSub.Oracle} (ho : ∀ i, (o i).Valid)
    {ev : TraceEvent Topology.Container} {c : Topology.Container} {sc : Syscalls.Syscall} {hub : Hub.Hub}
    {outs : List Hub.Out} (he : Hub.handleEvent d.hub ⟨ev.pidNs, sc.nr, true⟩ = some (hub, outs))
    (hw : wanting hist ev.pidNs sc.nr ≠ []) (ha : KeepsApart crcString hist c sc) {u : User} (hm : u ∈ users hist) :
    match u.target with
    | .path ps => (publishAll crcString o d.ps ev c sc outs).count (u.token, ev) =
        if Spec.Hash.meant ps <+: Spec.Hash.meant (names c sc) then 1 else 0
    | .job id => id ≠ "" → (∀ r ∈ wanting hist ev.pidNs sc.nr, r.job.id = id → r.job.rate ≤ 0) →
        (publishAll crcString o d.ps ev c sc outs).count (u.token, ev) =
          ((wanting hist ev.pidNs sc.nr).filter (fun r => r.job.id = id)).length := by
  have hc := count_publishAll hs hu h o ho ev c sc outs hm 0
  rcases outs_spec h he with ⟨e, -⟩ | ⟨-, rest, e1, e2, e3⟩
  · exact absurd e hw
  · cases ht : u.target with
    | path ps =>
      dsimp only
      unfold publishAll
      rw [hc, e1, List.countP_cons]
      have hz : rest.countP (fun x => decide (pathOf crcString u.target <+: outPath crcString c sc x)) = 0 := by
        apply countP_zero
        intro x hx
        obtain ⟨r, -, rfl⟩ := List.mem_map.1 (e2.mem hx)
        rw [ht]
        exact decide_eq_false (Props.Hash.c63_streams_disjoint ps r.job.id ⟨c.ns, c.pod, c.name, sc.name⟩).1
      rw [hz, Nat.zero_add]
      simp only [decide_eq_true_eq]
      by_cases hp : Spec.Hash.meant ps <+: Spec.Hash.meant (names c sc)
      · rw [if_pos ((ns_prefix_iff ha hm ht).2 hp), if_pos hp]
      · rw [if_neg (fun e => hp ((ns_prefix_iff ha hm ht).1 e)), if_neg hp]
    | job id =>
      dsimp only
      intro hid hrate
      unfold publishAll
      rw [hc, e1, List.countP_cons, ht]
      have hz : ¬ pathOf crcString (.job id) <+: outPath crcString c sc .nsStream :=
        (Props.Hash.c63_streams_disjoint [] id ⟨c.ns, c.pod, c.name, sc.name⟩).2
      have hsep : ∀ r ∈ wanting hist ev.pidNs sc.nr, Spec.Hash.Separates crcString [id, r.job.id] := by
        intro r hr
        have := ha u hm
        rw [ht] at this
        exact this r (List.mem_filter.1 hr).1
      rw [if_neg (by simpa using hz), Nat.add_zero, countP_jobs c sc id hid hsep e2, e3 id hrate]

/-- Whoever is handed the event wanted it. -/
theorem user_concerned (hs : PubSub.Node.IsSort srt) {hist : List Op} (hu : DetachOnce hist) {d : Daemon}
    (h : run tbl crcString srt (fresh tbl) hist = some d) {o : Nat → PubSub.Oracle} (ho : ∀ i, (o i).Valid)
    {ev : TraceEvent Topology.Container} {c : Topology.Container} {sc : Syscalls.Syscall} {hub : Hub.Hub}
    {outs : List Hub.Out} (he : Hub.handleEvent d.hub ⟨ev.pidNs, sc.nr, true⟩ = some (hub, outs))
    {x : Delivery} (hx : x ∈ publishAll crcString o d.ps ev c sc outs) :
    wanting hist ev.pidNs sc.nr ≠ [] ∧ ∃ u ∈ users hist, u.token = x.1 ∧
      (KeepsApart crcString hist c sc → Concerns hist ev c sc u.target) := by
  obtain ⟨-, u, hu', e, y, hy, hp⟩ := mem_publishAll hs hu h o ho ev c sc outs hx
  rcases outs_spec h he with ⟨-, e0⟩ | ⟨hw, rest, e1, e2, -⟩
  · subst e0; cases hy
  · refine ⟨hw, u, hu', e, fun ha => ?_⟩
    rw [e1, List.mem_cons] at hy
    cases ht : u.target with
    | path ps =>
      rw [ht] at hp
      rcases hy with rfl | hy
      · exact (ns_prefix_iff ha hu' ht).1 (by rw [ht]; exact hp)
      · obtain ⟨r, -, rfl⟩ := List.mem_map.1 (e2.mem hy)
        exact absurd hp (Props.Hash.c63_streams_disjoint ps r.job.id ⟨c.ns, c.pod, c.name, sc.name⟩).1
    | job id =>
      rw [ht] at hp
      rcases hy with rfl | hy
      · exact absurd hp (Props.Hash.c63_streams_disjoint [] id ⟨c.ns, c.pod, c.name, sc.name⟩).2
      · obtain ⟨r, hr, rfl⟩ := List.mem_map.1 (e2.mem hy)
        by_cases hid : id = ""
        · exact Or.inl hid
        · refine Or.inr ⟨r, hr, ?_⟩
          have := ha u hu'
          rw [ht] at this
          exact ((trace_prefix id r.job.id hid (this r (List.mem_filter.1 hr).1)).1 hp).symm

/-! ### Tokens -/

theorem users_inv (hist : List Op) (n : Nat) (us : List User) (h : (us.map (·.token)).Nodup) (hb : ∀ u ∈ us, u.token < n) :
    ((hist.foldl userStep (n, us)).2.map (·.token)).Nodup := by
  induction hist generalizing n us with
  | nil => exact h
  | cons o os ih =>
    rw [List.foldl_cons]
    have add : ∀ t : Target, ((us ++ [(⟨n, t⟩ : User)]).map (fun u => u.token)).Nodup ∧ ∀ u ∈ us ++ [(⟨n, t⟩ : User)], u.token < n + 1 := by
      intro t
      constructor
      · rw [List.map_append, List.nodup_append]
        refine ⟨h, by simp, ?_⟩
        intro a ha b hb2
        obtain ⟨u, hu, rfl⟩ := List.mem_map.1 ha
        simp only [List.map_cons, List.map_nil, List.mem_singleton] at hb2
        subst hb2
        exact Nat.ne_of_lt (hb u hu)
      · intro u hu
        rw [List.mem_append, List.mem_singleton] at hu
        rcases hu with hu | rfl
        · exact Nat.lt_succ_of_lt (hb u hu)
        · exact Nat.lt_succ_self _
    cases o with
    | attachPath ps draw => exact ih _ _ (add _).1 (add _).2
    | attachTrace id draw => exact ih _ _ (add _).1 (add _).2
    | detach t =>
      refine ih _ _ ?_ ?_
      · exact List.Sublist.nodup ((List.filter_sublist).map _) h
      · intro u hu; exact hb u (List.mem_filter.1 hu).1
    | _ => exact ih n us h hb

end Swoll.Lemmas.Daemon
