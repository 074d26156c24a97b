import Verif.Spec.Topology
import Verif.Util.ListX
/-
Facts about the topology model used in Props.Topology.
-/
namespace Swoll.Lemmas.Topology
open Swoll Swoll.Topology Swoll.Spec.Topology

theorem process_valid (cb : Bool) (cache : Cache) (ev : Option Event) (b : Bool) (c : Container)
    (h : meaning ev = some (b, c)) :
    processEvent cb cache ev =
      (if b then GoMap.set cache c.pidns c else GoMap.del cache c.pidns,
       if cb then [⟨if b then 0 else 1, c, if b then GoMap.set cache c.pidns c else GoMap.del cache c.pidns⟩] else [],
       none) := by
  unfold meaning at h
  split at h
  · rename_i t c'
    split at h
    · rename_i hv
      simp only [Option.some.injEq, Prod.mk.injEq] at h
      obtain ⟨h1, rfl⟩ := h
      have hn : ¬ c'.pidns ≤ 0 := by omega
      rcases hv.2 with ht | ht
      · subst ht; simp at h1; subst h1; simp [processEvent, typeStart, hn]
      · subst ht; simp at h1; subst h1; simp [processEvent, typeStart, typeStop, hn]
    · cases h
  · cases h

theorem process_invalid (cb : Bool) (cache : Cache) (ev : Option Event) (h : meaning ev = none) :
    processEvent cb cache ev = (cache, [], complaint ev) := by
  unfold meaning at h
  split at h
  · rename_i t c
    split at h
    · cases h
    · rename_i hv
      unfold processEvent complaint typeStart typeStop
      by_cases hn : c.pidns ≤ 0
      · simp [hn]
      · have h1 : ¬ (t = 0 ∨ t = 1) := fun hh => hv ⟨by omega, hh⟩
        rw [not_or] at h1
        simp [hn, h1]
  · rename_i hx
    cases ev with
    | none => rfl
    | some ev =>
      obtain ⟨t, c⟩ := ev
      cases c with
      | none => rfl
      | some c => exact absurd rfl (hx t c)

theorem complaint_valid (ev : Option Event) : complaint ev = none ↔ (meaning ev).isSome := by
  unfold complaint meaning
  cases ev with
  | none => simp
  | some ev =>
    obtain ⟨t, c⟩ := ev
    cases c with
    | none => simp
    | some c =>
      by_cases hn : c.pidns ≤ 0
      · have : ¬ 0 < c.pidns := by omega
        simp [hn, this]
      · have : 0 < c.pidns := by omega
        by_cases ht : t = 0 ∨ t = 1
        · simp [hn, this, ht]
        · simp [hn, this, ht]

theorem run_append (cb : Bool) : ∀ (a b : List (Option Event)) (cache : Cache),
    run cb cache (a ++ b) =
      ((run cb (run cb cache a).1 b).1, (run cb cache a).2.1 ++ (run cb (run cb cache a).1 b).2.1,
       (run cb cache a).2.2 ++ (run cb (run cb cache a).1 b).2.2) := by
  intro a
  induction a with
  | nil => intro b cache; simp [run]
  | cons x xs ih => intro b cache; simp [run, ih, List.append_assoc]

theorem cache_resident (cb : Bool) (evs : List (Option Event)) (ns : Int) :
    GoMap.get (run cb [] evs).1 ns = resident evs ns := by
  induction evs using Swoll.ListX.snoc_induction with
  | h0 => rfl
  | h1 evs ev ih =>
    rw [run_append]
    simp only [run]
    unfold resident
    rw [List.filterMap_append, List.filter_append]
    cases hm : meaning ev with
    | none =>
      rw [process_invalid cb _ ev hm]
      simp only [List.filterMap_cons, hm, List.filterMap_nil, List.filter_nil, List.append_nil]
      exact ih
    | some bc =>
      obtain ⟨b, c⟩ := bc
      rw [process_valid cb _ ev b c hm]
      simp only [List.filterMap_cons, hm, List.filterMap_nil, List.filter_cons, List.filter_nil]
      by_cases hc : c.pidns = ns
      · subst hc
        simp only [decide_true, if_true, List.getLast?_append, List.getLast?_singleton, Option.some_or]
        cases b
        · simp
        · simp
      · simp only [hc, decide_false, Bool.false_eq_true, if_false, List.append_nil]
        have : GoMap.get (if b = true then GoMap.set (run cb [] evs).1 c.pidns c else GoMap.del (run cb [] evs).1 c.pidns) ns
            = GoMap.get (run cb [] evs).1 ns := by
          cases b
          · simp only [Bool.false_eq_true, if_false]; exact GoMap.get_del_other _ hc
          · simp only [if_true]; exact GoMap.get_set_other _ _ hc
        rw [this]; exact ih

theorem get_foldl_set (l : List (String × String)) : ∀ (acc : GoMap String String) (k : String),
    GoMap.get (l.foldl (fun m e => GoMap.set m e.1 e.2) acc) k =
      match (l.filter (fun e => e.1 = k)).getLast? with
      | some e => some e.2
      | none => GoMap.get acc k := by
  induction l using Swoll.ListX.snoc_induction with
  | h0 => intro acc k; rfl
  | h1 l e ih =>
    intro acc k
    rw [List.foldl_append, List.filter_append]
    simp only [List.foldl_cons, List.foldl_nil]
    by_cases hk : e.1 = k
    · subst hk; simp
    · rw [GoMap.get_set_other _ _ hk, ih]
      simp [hk]

/-- In a map with distinct keys the last entry of a key is the one looked up. -/
theorem last_get {m : GoMap String String} (hn : GoMap.NodupKeys m) (k : String) :
    (match (m.filter (fun e => e.1 = k)).getLast? with
      | some e => some e.2
      | none => none) = GoMap.get m k := by
  cases hg : GoMap.get m k with
  | none =>
    have : m.filter (fun e => e.1 = k) = [] := by
      rw [List.filter_eq_nil_iff]
      intro e he
      rw [GoMap.get_eq_none_iff] at hg
      simp only [decide_eq_true_eq]
      intro hk; exact hg (List.mem_map.2 ⟨e, he, hk⟩)
    rw [this]; rfl
  | some v =>
    have hmem : (k, v) ∈ m.filter (fun e => e.1 = k) := List.mem_filter.2 ⟨GoMap.mem_of_get hg, by simp⟩
    cases hl : (m.filter (fun e => e.1 = k)).getLast? with
    | none => rw [List.getLast?_eq_none_iff] at hl; rw [hl] at hmem; simp at hmem
    | some e =>
      have he := List.mem_filter.1 (List.mem_of_getLast? hl)
      have hk : e.1 = k := by simpa using he.2
      have : GoMap.get m e.1 = some e.2 := GoMap.get_of_mem hn (by exact he.1)
      rw [hk, hg] at this
      exact this.symm

theorem criOne_some (p : Pod) (c : CriContainer) (k : Container) (hn : p.name ≠ "") (hs : p.ns ≠ "") :
    criOne (some (p.name, p.ns)) c = some k ↔
      ownedBy p c ∧ ∃ pid pidns, c.pid = some pid ∧ c.pidns = some pidns ∧
        k = { id := c.id, pod := p.name, sandbox := "", name := label c "io.kubernetes.container.name", image := c.image,
              ns := p.ns, labels := some c.labels, pid := pid, pidns := pidns } := by
  have hl : ∀ (key v : String), v ≠ "" → (label c key = v ↔ GoMap.get c.labels key = some v) := by
    intro key v hv
    unfold label
    cases GoMap.get c.labels key with
    | none => simp [eq_comm, hv]
    | some x => simp
  unfold criOne ownedBy
  rw [← hl _ _ hn, ← hl _ _ hs]
  dsimp only
  by_cases ho : label c "io.kubernetes.pod.name" = p.name ∧ label c "io.kubernetes.pod.namespace" = p.ns
  · rw [ho.1, ho.2]
    simp only [bne_self_eq_false, Bool.or_false, and_self, true_and]
    have : (p.name == "" || p.ns == "") = false := by simp [hn, hs]
    simp only [this, Bool.false_eq_true, if_false]
    cases c.pid with
    | none => simp
    | some pid =>
      cases c.pidns with
      | none => simp
      | some pidns => simp [eq_comm]
  · have : ((label c "io.kubernetes.pod.name" == "" || label c "io.kubernetes.pod.namespace" == "") ||
        (p.name != label c "io.kubernetes.pod.name" || p.ns != label c "io.kubernetes.pod.namespace")) = true := by
      simp only [Bool.or_eq_true, beq_iff_eq, bne_iff_ne, ne_eq]
      apply Classical.byContradiction
      intro hx
      simp only [not_or, Classical.not_not] at hx
      exact ho ⟨hx.2.1.symm, hx.2.2.symm⟩
    simp only [this, if_true, reduceCtorEq, false_iff]
    rintro ⟨h, _⟩; exact ho h

theorem podKey_inj {a b : String × String} (ha : '.' ∉ a.2.toList) (hb : '.' ∉ b.2.toList)
    (h : a.1 ++ "." ++ a.2 = b.1 ++ "." ++ b.2) : a = b := by
  have key : ∀ (x y : List Char) (u v : List Char), '.' ∉ u → '.' ∉ v → u ++ '.' :: x = v ++ '.' :: y → u = v ∧ x = y := by
    intro x y u
    induction u with
    | nil =>
      intro v _ hv he
      cases v with
      | nil => simp at he; exact ⟨rfl, he⟩
      | cons w ws => simp at he; exact absurd (by rw [← he.1]; simp) hv
    | cons w ws ih =>
      intro v hu hv he
      cases v with
      | nil => simp at he; exact absurd (by rw [he.1]; simp) hu
      | cons z zs =>
        simp at he hu hv
        obtain ⟨e1, e2⟩ := ih zs hu.2 hv.2 he.2
        exact ⟨by rw [he.1, e1], e2⟩
  have h1 : (a.1 ++ "." ++ a.2).toList.reverse = (b.1 ++ "." ++ b.2).toList.reverse := by rw [h]
  simp only [String.toList_append, List.reverse_append, List.append_assoc] at h1
  have e : ".".toList.reverse = ['.'] := by decide
  rw [e] at h1
  have := key _ _ a.2.toList.reverse b.2.toList.reverse (by simpa using ha) (by simpa using hb) h1
  have e1 := List.reverse_inj.1 this.1
  have e2 := List.reverse_inj.1 this.2
  exact Prod.ext (String.toList_injective e2) (String.toList_injective e1)

theorem cacheAfter_get (notes : List Note) (hd : ∀ n ∈ notes, '.' ∉ (about n).2.toList) (p : String × String)
    (hp : '.' ∉ p.2.toList) : GoMap.get (cacheAfter notes) (p.1 ++ "." ++ p.2) = remembered notes p := by
  unfold cacheAfter remembered
  induction notes using Swoll.ListX.snoc_induction with
  | h0 => rfl
  | h1 notes n ih =>
    rw [List.foldl_append, List.foldl_append]
    simp only [List.foldl_cons, List.foldl_nil]
    have ih := ih (fun x hx => hd x (by simp [hx]))
    generalize List.foldl (fun pc n => (observe pc n).1) [] notes = pc at ih ⊢
    generalize List.foldl _ none notes = acc at ih ⊢
    have hdn := hd n (by simp)
    have hkey : ∀ q : Pod, about n = (q.name, q.ns) → about n ≠ p → podKey q ≠ p.1 ++ "." ++ p.2 := by
      intro q hq hne he
      apply hne
      rw [hq]
      exact podKey_inj (by rw [hq] at hdn; exact hdn) hp he
    cases n with
    | add q cri =>
      simp only [observe, isDelete, isSteady, Bool.false_eq_true, if_false, false_and]
      rw [ih]; simp
    | update old new cri =>
      simp only [observe, isDelete, isSteady, found, Bool.false_eq_true, if_false]
      by_cases hst : old.phase = "Running" ∧ new.phase = "Running"
      · have hst' : (old.phase == "Running" && new.phase == "Running") = true := by simp [hst.1, hst.2]
        simp only [hst, and_self, if_true]
        by_cases hab : about (.update old new cri) = p
        · rw [if_pos hab]
          have hk : podKey new = p.1 ++ "." ++ p.2 := by rw [← hab]; rfl
          have hhas : GoMap.has pc (podKey new) = acc.isSome := by unfold GoMap.has; rw [hk, ih]
          rw [hhas]
          cases acc with
          | some l => simp only [Option.isSome_some, if_true]; rw [ih]; simp
          | none =>
            simp only [Option.isSome_none, Bool.false_eq_true, if_false, true_and]
            by_cases hl : containersForPod new cri = []
            · simp [hl, ih]
            · have : (containersForPod new cri).length > 0 := List.length_pos_iff.2 hl
              simp only [this, if_true, hl, not_false_eq_true, ne_eq, BEq.rfl, Bool.and_self]
              rw [hk, GoMap.get_set_same]; simp
        · rw [if_neg hab]
          have hk := hkey new rfl hab
          split
          · exact ih
          · split
            · rw [GoMap.get_set_other _ _ hk]; exact ih
            · exact ih
      · have hst' : (old.phase == "Running" && new.phase == "Running") = false := by
          rw [Bool.eq_false_iff]; simpa using hst
        simp only [hst, if_false, hst', Bool.false_eq_true, false_and]
        rw [ih]; simp
    | delete q cri =>
      simp only [observe, isDelete, if_true]
      by_cases hab : about (.delete q cri) = p
      · rw [if_pos hab]
        have hk : podKey q = p.1 ++ "." ++ p.2 := by rw [← hab]; rfl
        split
        · rw [hk]; exact GoMap.get_del_same _ _
        · rename_i hx; rw [hk] at hx; exact hx
      · rw [if_neg hab]
        have hk := hkey q rfl hab
        split
        · rw [GoMap.get_del_other _ hk]; exact ih
        · exact ih

end Swoll.Lemmas.Topology
