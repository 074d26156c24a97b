import Verif.Lemmas.HubJob
namespace Swoll.Lemmas.Hub
open Swoll.Filter hiding Op step run
open Swoll Swoll.Syscalls Swoll.Hub Swoll.Spec.Hub

/-- Whether one particular context's job is published to. -/
theorem writeAll_mem (ns nr : Int) (m c : Ctx) : ∀ (l : List Ctx) (h h' : Hub) (o : List Out),
    findLowestSampleJob h ns nr = some (some m) → writeAll ns nr h l = some (h', o) →
    (∀ x ∈ l, x.job.ref = c.job.ref → x.cid = c.cid) → (∀ x ∈ l, x.job.id = c.job.id → x.cid = c.cid) →
    (l.map (·.cid)).Nodup →
    (c ∈ l → (∀ x ∈ l, x.cid = c.cid → x = c) →
      (Out.jobStream c.job.id ∈ o ↔ (c.job.rate > 0 → period m c ∣ h.sampled c.job.ref + 1))) ∧
    ((∀ x ∈ l, x.cid ≠ c.cid) → Out.jobStream c.job.id ∉ o) := by
  intro l
  induction l with
  | nil =>
    intro h h' o _ hw _ _ _
    simp only [writeAll, Option.some.injEq, Prod.mk.injEq] at hw
    obtain ⟨_, rfl⟩ := hw
    simp
  | cons d ds ih =>
    intro h h' o hm hw huniq hid hnd
    rw [List.map_cons, List.nodup_cons] at hnd
    unfold writeAll at hw
    rw [writeEvent_spec h d m ns nr hm] at hw
    split at hw
    · cases hw
    · rename_i h1 o1 hw1
      split at hw1
      · cases hw1
      · injection hw1 with hw1
        injection hw1 with e1 e2
        split at hw
        · cases hw
        · rename_i h2 o2 hw2
          simp only [Option.some.injEq, Prod.mk.injEq] at hw
          obtain ⟨rfl, rfl⟩ := hw
          have hs1 : SameIdx h h1 := by rw [← e1]; exact ⟨rfl, rfl, rfl, rfl⟩
          have hm1 : findLowestSampleJob h1 ns nr = some (some m) := by rw [findLowest_same hs1]; exact hm
          obtain ⟨i1, i2⟩ := ih h1 h2 o2 hm1 hw2 (fun x hx => huniq x (by simp [hx]))
            (fun x hx => hid x (by simp [hx])) hnd.2
          constructor
          · intro hc hsame
            rw [List.mem_cons] at hc
            by_cases hd : d.cid = c.cid
            · have : d = c := hsame d (by simp) hd
              subst this
              have hnot := i2 (fun x hx he => hnd.1 (List.mem_map.2 ⟨x, hx, he⟩))
              rw [List.mem_append, ← e2]
              constructor
              · rintro (hx | hx)
                · split at hx
                  · assumption
                  · simp at hx
                · exact absurd hx hnot
              · intro hp
                left
                rw [if_pos hp]; simp
            · have hc' : c ∈ ds := by
                rcases hc with rfl | hc
                · exact absurd rfl hd
                · exact hc
              have hk := i1 hc' (fun x hx => hsame x (by simp [hx]))
              have hne : d.job.ref ≠ c.job.ref := fun he => hd (huniq d (by simp) he)
              have hidn : d.job.id ≠ c.job.id := fun he => hd (hid d (by simp) he)
              have hcount : h1.sampled c.job.ref = h.sampled c.job.ref := by
                rw [← e1]; show bump h d c.job.ref = _
                unfold bump; rw [if_neg (fun x => hne x.1.symm)]
              rw [hcount] at hk
              rw [List.mem_append, ← hk, ← e2]
              constructor
              · rintro (hx | hx)
                · split at hx
                  · simp at hx; exact absurd hx.symm hidn
                  · simp at hx
                · exact hx
              · exact Or.inr
          · intro hno hx
            have hidn : d.job.id ≠ c.job.id := fun he => hno d (by simp) (hid d (by simp) he)
            rw [List.mem_append, ← e2] at hx
            rcases hx with hx | hx
            · split at hx
              · simp at hx; exact absurd hx.symm hidn
              · simp at hx
            · exact i2 (fun x hx => hno x (by simp [hx])) hx

theorem hits_unique {l : List Ctx} {c : Ctx} (hc : c ∈ l) (hnd : (l.map (·.cid)).Nodup)
    (huniq : ∀ x ∈ l, x.job.ref = c.job.ref → x = c) (hr : c.job.rate > 0) : hits l c.job.ref = 1 := by
  unfold hits
  have hnd' : l.Nodup := by
    unfold List.Nodup at *
    rw [List.pairwise_map] at hnd
    exact hnd.imp (fun h e => h (by rw [e]))
  have : l.filter (fun x => decide (x.job.ref = c.job.ref ∧ x.job.rate > 0)) = l.filter (fun x => x == c) := by
    apply List.filter_congr
    intro x hx
    rw [Bool.eq_iff_iff]
    simp only [decide_eq_true_eq, beq_iff_eq]
    constructor
    · intro h; exact huniq x hx h.1
    · rintro rfl; exact ⟨rfl, hr⟩
  rw [this, ← List.countP_eq_length_filter]
  have := List.Nodup.count (a := c) hnd'
  rw [if_pos hc] at this
  exact this

/-- Notification of hosts. -/
theorem hosts_get (k : String) : ∀ ns : List Note, GoMap.get (hostsAfter ns) k =
    if ∃ n ∈ ns, n.host = k then some (decide (¬ ∃ n ∈ ns, n.start = false ∧ n.host = k)) else none := by
  intro ns
  induction ns using ListX.snoc_induction with
  | h0 => simp [hostsAfter]
  | h1 ns n ih =>
    have hstep : hostsAfter (ns ++ [n]) =
        if n.start then addContainer (hostsAfter ns) n.pod n.name else removeContainer (hostsAfter ns) n.pod n.name := by
      unfold hostsAfter; rw [List.foldl_append]; rfl
    rw [hstep]
    have hmem : ∀ (P : Note → Prop), (∃ x ∈ ns ++ [n], P x) ↔ (∃ x ∈ ns, P x) ∨ P n := by
      intro P
      constructor
      · rintro ⟨x, hx, hp⟩
        rw [List.mem_append, List.mem_singleton] at hx
        rcases hx with hx | rfl
        · exact Or.inl ⟨x, hx, hp⟩
        · exact Or.inr hp
      · rintro (⟨x, hx, hp⟩ | hp)
        · exact ⟨x, by simp [hx], hp⟩
        · exact ⟨n, by simp, hp⟩
    simp only [hmem]
    have hkey : createJobKey n.pod n.name = n.host := rfl
    cases hst : n.start with
    | true =>
      simp only [if_true]
      unfold addContainer
      dsimp only
      rw [hkey]
      by_cases hk : n.host = k
      · by_cases hex : ∃ x ∈ ns, x.host = k
        · have hhas : GoMap.has (hostsAfter ns) n.host = true := by
            unfold GoMap.has; rw [hk, ih, if_pos hex]; rfl
          rw [if_pos hhas, ih, if_pos hex, if_pos (Or.inl hex)]
          simp
        · have hhas : ¬ GoMap.has (hostsAfter ns) n.host = true := by
            unfold GoMap.has; rw [hk, ih, if_neg hex]; simp
          rw [if_neg hhas, hk, GoMap.get_set_same, if_pos (Or.inr rfl)]
          congr 1
          symm
          rw [decide_eq_true_eq]
          rintro (⟨x, hx, _, he⟩ | ⟨h, _⟩)
          · exact hex ⟨x, hx, he⟩
          · cases h
      · have : GoMap.get (if GoMap.has (hostsAfter ns) n.host = true then hostsAfter ns
            else GoMap.set (hostsAfter ns) n.host true) k = GoMap.get (hostsAfter ns) k := by
          split
          · rfl
          · exact GoMap.get_set_other _ _ hk
        rw [this, ih]
        simp [hk]
    | false =>
      simp only [Bool.false_eq_true, if_false]
      unfold removeContainer
      rw [hkey, GoMap.get_set, ih]
      by_cases hk : n.host = k
      · simp [hk]
      · simp [hk]

theorem hosts_nodup (ns : List Note) : GoMap.NodupKeys (hostsAfter ns) := by
  induction ns using ListX.snoc_induction with
  | h0 => exact GoMap.nodupKeys_nil
  | h1 ns n ih =>
    unfold hostsAfter
    rw [List.foldl_append]
    show GoMap.NodupKeys (if n.start then addContainer (hostsAfter ns) n.pod n.name else removeContainer (hostsAfter ns) n.pod n.name)
    unfold addContainer removeContainer
    dsimp only
    split
    · split
      · exact ih
      · exact GoMap.nodupKeys_set ih _ _
    · exact GoMap.nodupKeys_set ih _ _

theorem mem_monitored (ns : List Note) (all : Bool) (k : String) :
    k ∈ monitoredHosts (hostsAfter ns) all ↔ ∃ b, GoMap.get (hostsAfter ns) k = some b ∧ (all = true ∨ b = true) := by
  unfold monitoredHosts
  constructor
  · intro h
    obtain ⟨⟨k', b⟩, hm, rfl⟩ := List.mem_map.1 h
    rw [List.mem_filter] at hm
    exact ⟨b, GoMap.get_of_mem (hosts_nodup ns) hm.1, by simpa using hm.2⟩
  · rintro ⟨b, hg, hb⟩
    exact List.mem_map.2 ⟨(k, b), List.mem_filter.2 ⟨GoMap.mem_of_get hg, by simpa using hb⟩, rfl⟩

end Swoll.Lemmas.Hub
