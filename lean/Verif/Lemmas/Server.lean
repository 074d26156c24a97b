import Verif.Spec.Server
/-
The invariant of the job lists when requests about the same id do not overlap.
-/
namespace Swoll.Lemmas.Server
open Swoll Swoll.Server Swoll.Spec.Server

variable {Id : Type} [DecidableEq Id]

/-- What is known of the lists while a request is at `pc`. -/
def At (s : State Id) (id : Id) : Pc → Prop
  | .createSet => s.running.get id = none
  | .deleteHub j | .removeGet j | .removeDel j => s.running.get id = some j
  | .completeGet j => s.running.get id = none ∧ .removed j id ∈ s.log ∧ .deleted j id ∉ s.log
  | .completeSet j => s.running.get id = none ∧ .removed j id ∈ s.log ∧ .deleted j id ∉ s.log ∧
      s.completed.get id = none
  | _ => True

def Completing (j : Job) (pc : Pc) : Prop := pc = .completeGet j ∨ pc = .completeSet j

structure Inv (s : State Id) : Prop where
  solo : ∀ (i k : Nat) (t u : Thread Id), s.threads[i]? = some t → s.threads[k]? = some u → Active t → Active u →
    t.id = u.id → i = k
  runs : ∀ j id, s.running.get id = some j ↔ Runs s j id
  at' : ∀ (i : Nat) (t : Thread Id), s.threads[i]? = some t → At s t.id t.pc
  made : ∀ j id, .created j id ∈ s.log → s.threads[j]? = some ⟨id, .done 201⟩
  rem : ∀ j id, .removed j id ∈ s.log → .created j id ∈ s.log
  del : ∀ j id, .deleted j id ∈ s.log → .removed j id ∈ s.log ∧ s.completed.get id = some j
  comp : ∀ j id, s.completed.get id = some j → .deleted j id ∈ s.log
  left : ∀ j id, .removed j id ∈ s.log → .deleted j id ∈ s.log ∨
    (∃ t ∈ s.threads, t.id = id ∧ Completing j t.pc) ∨ ∃ k, k ≠ j ∧ s.completed.get id = some k

theorem inv_init : Inv (init : State Id) where
  solo := fun i k t u h => by simp [init] at h
  runs := fun j id => by simp [init, Runs, GoMap.get]
  at' := fun i t h => by simp [init] at h
  made := fun j id h => by simp [init] at h
  rem := fun j id h => by simp [init] at h
  del := fun j id h => by simp [init] at h
  comp := fun j id h => by simp [init, GoMap.get] at h
  left := fun j id h => by simp [init] at h

/-- A new request. -/
theorem inv_new {s : State Id} (h : Inv s) {id : Id} (hq : Quiet s id) {pc : Pc}
    (hpc : At s id pc) :
    Inv { s with threads := s.threads ++ [⟨id, pc⟩] } := by
  have get : ∀ {i : Nat} {t : Thread Id}, (s.threads ++ [⟨id, pc⟩])[i]? = some t →
      s.threads[i]? = some t ∨ (i = s.threads.length ∧ t = ⟨id, pc⟩) := by
    intro i t hi
    rw [List.getElem?_append] at hi
    split at hi
    · exact Or.inl hi
    · next hl =>
      right
      have : i - s.threads.length = 0 := by
        rcases Nat.eq_zero_or_pos (i - s.threads.length) with h0 | h0
        · exact h0
        · rw [List.getElem?_eq_none (by simp; omega)] at hi; cases hi
      rw [this] at hi
      simp at hi
      exact ⟨by omega, hi.symm⟩
  have mem : ∀ {i : Nat} {t : Thread Id}, s.threads[i]? = some t → t ∈ s.threads :=
    fun h => List.mem_of_getElem? h
  exact {
    solo := fun i k t u hi hk ha hb e => by
      rcases get hi with hi | ⟨ei, rfl⟩ <;> rcases get hk with hk | ⟨ek, rfl⟩
      · exact h.solo i k t u hi hk ha hb e
      · exact absurd e (hq t (mem hi) ha)
      · exact absurd e.symm (hq u (mem hk) hb)
      · rw [ei, ek]
    runs := h.runs
    at' := fun i t hi => by
      rcases get hi with hi | ⟨hi, rfl⟩
      · exact h.at' i t hi
      · exact hpc
    made := fun j id' hj => by
      have := h.made j id' hj
      rw [List.getElem?_append_left (by
        refine Nat.lt_of_not_le fun hle => ?_
        rw [List.getElem?_eq_none hle] at this; cases this)]
      exact this
    rem := h.rem
    del := h.del
    comp := h.comp
    left := fun j id' hj => by
      rcases h.left j id' hj with h1 | ⟨t, ht, h1⟩ | h1
      · exact Or.inl h1
      · exact Or.inr (Or.inl ⟨t, List.mem_append_left _ ht, h1⟩)
      · exact Or.inr (Or.inr h1) }

omit [DecidableEq Id] in
theorem get_set_thread {s : State Id} {i k : Nat} {t u : Thread Id} {pc : Pc}
    (h : (goto s i t pc).threads[k]? = some u) :
    (k ≠ i ∧ s.threads[k]? = some u) ∨ (k = i ∧ u = { t with pc := pc }) := by
  unfold goto at h
  dsimp only at h
  rw [List.getElem?_set] at h
  split at h
  · next e =>
    split at h
    · injection h with h
      exact Or.inr ⟨e.symm, h.symm⟩
    · cases h
  · next e => exact Or.inl ⟨fun h => e h.symm, h⟩

/-- A step of request `i`, at `t`, to `pc`, by which the lists become those of `s'`. What it needs:
only the entries of `t.id` change. -/
theorem inv_step {s : State Id} (h : Inv s) {i : Nat} {t : Thread Id} (hi : s.threads[i]? = some t)
    (ha : Active t) {pc : Pc} {s' : State Id} (hthr : s'.threads = (goto s i t pc).threads)
    (hrun : ∀ id, id ≠ t.id → s'.running.get id = s.running.get id)
    (hcomp : ∀ id, id ≠ t.id → s'.completed.get id = s.completed.get id)
    (hlog : ∃ evs, s'.log = s.log ++ evs ∧
      (∀ j id, .removed j id ∈ evs → id = t.id) ∧ (∀ j id, .deleted j id ∈ evs → id = t.id) ∧
      (∀ j id, .created j id ∈ evs → j = i ∧ id = t.id))
    (hruns : ∀ j, s'.running.get t.id = some j ↔ Runs s' j t.id)
    (hat : At s' t.id pc)
    (hmade : .created i t.id ∈ s'.log → pc = .done 201)
    (hrem : ∀ j, .removed j t.id ∈ s'.log → .created j t.id ∈ s'.log)
    (hdel : ∀ j, .deleted j t.id ∈ s'.log → .removed j t.id ∈ s'.log ∧ s'.completed.get t.id = some j)
    (hcomp' : ∀ j, s'.completed.get t.id = some j → .deleted j t.id ∈ s'.log)
    (hleft : ∀ j, .removed j t.id ∈ s'.log → .deleted j t.id ∈ s'.log ∨ Completing j pc ∨
      ∃ k, k ≠ j ∧ s'.completed.get t.id = some k) : Inv s' := by
  obtain ⟨evs, hl, hl1, hl2, hl3⟩ := hlog
  have hlen : i < s.threads.length := by
    refine Nat.lt_of_not_le fun hle => ?_
    rw [List.getElem?_eq_none hle] at hi; cases hi
  have get : ∀ {k : Nat} {u : Thread Id}, s'.threads[k]? = some u →
      (k ≠ i ∧ s.threads[k]? = some u) ∨ (k = i ∧ u = { t with pc := pc }) := by
    intro k u hk
    rw [hthr] at hk
    exact get_set_thread hk
  have own : s'.threads[i]? = some { t with pc := pc } := by
    rw [hthr]
    unfold goto
    dsimp only
    rw [List.getElem?_set, if_pos rfl, if_pos hlen]
  have other : ∀ {k : Nat} {u : Thread Id}, k ≠ i → s.threads[k]? = some u → s'.threads[k]? = some u := by
    intro k u hk hu
    rw [hthr]
    unfold goto
    dsimp only
    rw [List.getElem?_set, if_neg (fun h => hk h.symm)]
    exact hu
  have rem_iff : ∀ {j id}, id ≠ t.id → (Ev.removed j id ∈ s'.log ↔ Ev.removed j id ∈ s.log) := by
    intro j id hne
    rw [hl, List.mem_append]
    exact ⟨fun h => h.elim (fun h => h) (fun h => absurd (hl1 j id h) hne), Or.inl⟩
  have del_iff : ∀ {j id}, id ≠ t.id → (Ev.deleted j id ∈ s'.log ↔ Ev.deleted j id ∈ s.log) := by
    intro j id hne
    rw [hl, List.mem_append]
    exact ⟨fun h => h.elim (fun h => h) (fun h => absurd (hl2 j id h) hne), Or.inl⟩
  have cre_iff : ∀ {j id}, id ≠ t.id → (Ev.created j id ∈ s'.log ↔ Ev.created j id ∈ s.log) := by
    intro j id hne
    rw [hl, List.mem_append]
    exact ⟨fun h => h.elim (fun h => h) (fun h => absurd (hl3 j id h).2 hne), Or.inl⟩
  exact {
    solo := fun k l u v hk hl ha1 ha2 e => by
      rcases get hk with ⟨nk, hk⟩ | ⟨ek, rfl⟩ <;> rcases get hl with ⟨nl, hl⟩ | ⟨el, rfl⟩
      · exact h.solo k l u v hk hl ha1 ha2 e
      · exact absurd (h.solo k i u t hk hi ha1 ha e) nk
      · exact absurd (h.solo i l t v hi hl ha ha2 e).symm nl
      · rw [ek, el]
    runs := fun j id => by
      by_cases hid : id = t.id
      · subst hid; exact hruns j
      · rw [hrun id hid, h.runs]
        unfold Runs
        rw [rem_iff hid, cre_iff hid]
    at' := fun k u hk => by
      rcases get hk with ⟨nk, hk⟩ | ⟨ek, rfl⟩
      · have hu := h.at' k u hk
        by_cases hact : ∃ c, u.pc = .done c
        · obtain ⟨c, hc⟩ := hact
          rw [hc]; trivial
        · have hau : Active u := fun c hc => hact ⟨c, hc⟩
          have hne : u.id ≠ t.id := fun e => nk (h.solo k i u t hk hi hau ha e)
          revert hu
          unfold At
          rw [hrun _ hne, hcomp _ hne]
          cases u.pc <;> dsimp only <;> intro hu
          case completeGet j => exact ⟨hu.1, (rem_iff hne).2 hu.2.1, fun hd => hu.2.2 ((del_iff hne).1 hd)⟩
          case completeSet j =>
            exact ⟨hu.1, (rem_iff hne).2 hu.2.1, fun hd => hu.2.2.1 ((del_iff hne).1 hd), hu.2.2.2⟩
          all_goals exact hu
      · exact hat
    made := fun j id hj => by
      by_cases hold : Ev.created j id ∈ s.log
      · have h1 := h.made j id hold
        have hne : j ≠ i := fun e => by
          subst e
          rw [hi] at h1
          injection h1 with h1
          rw [h1] at ha
          exact ha 201 rfl
        exact other hne h1
      · rw [hl, List.mem_append] at hj
        obtain ⟨rfl, rfl⟩ := hl3 j id (hj.resolve_left hold)
        rw [own, hmade (by rw [hl, List.mem_append]; exact hj)]
    rem := fun j id hj => by
      by_cases hid : id = t.id
      · subst hid; exact hrem j hj
      · exact (cre_iff hid).2 (h.rem j id ((rem_iff hid).1 hj))
    del := fun j id hj => by
      by_cases hid : id = t.id
      · subst hid; exact hdel j hj
      · have := h.del j id ((del_iff hid).1 hj)
        exact ⟨(rem_iff hid).2 this.1, by rw [hcomp id hid]; exact this.2⟩
    comp := fun j id hj => by
      by_cases hid : id = t.id
      · subst hid; exact hcomp' j hj
      · rw [hcomp id hid] at hj
        exact (del_iff hid).2 (h.comp j id hj)
    left := fun j id hj => by
      by_cases hid : id = t.id
      · subst hid
        rcases hleft j hj with h1 | h1 | h1
        · exact Or.inl h1
        · exact Or.inr (Or.inl ⟨_, List.mem_of_getElem? own, rfl, h1⟩)
        · exact Or.inr (Or.inr h1)
      · rcases h.left j id ((rem_iff hid).1 hj) with h1 | ⟨u, hu, e, h1⟩ | h1
        · exact Or.inl ((del_iff hid).2 h1)
        · obtain ⟨k, hk⟩ := List.getElem?_of_mem hu
          have hne : k ≠ i := fun ek => by
            subst ek
            rw [hi] at hk
            injection hk with hk
            exact hid (by rw [hk]; exact e.symm)
          exact Or.inr (Or.inl ⟨u, List.mem_of_getElem? (other hne hk), e, h1⟩)
        · refine Or.inr (Or.inr ?_)
          rw [hcomp id hid]; exact h1 }

theorem has_iff {m : GoMap Id Job} {id : Id} : m.has id = true ↔ ∃ j, m.get id = some j :=
  Option.isSome_iff_exists

theorem has_false {m : GoMap Id Job} {id : Id} (h : ¬ m.has id = true) : m.get id = none := by
  cases hg : m.get id with
  | none => rfl
  | some j => exact absurd (has_iff.2 ⟨j, hg⟩) h

/-- A step that changes none of the lists. -/
theorem inv_goto {s : State Id} (h : Inv s) {i : Nat} {t : Thread Id} (hi : s.threads[i]? = some t)
    (ha : Active t) {pc : Pc} (hat : At s t.id pc)
    (hleft : ∀ j, Completing j t.pc → Completing j pc ∨ ∃ k, k ≠ j ∧ s.completed.get t.id = some k) :
    Inv (goto s i t pc) := by
  refine inv_step h hi ha rfl (fun _ _ => rfl) (fun _ _ => rfl)
    ⟨[], (List.append_nil _).symm, fun _ _ h => (by cases h), fun _ _ h => (by cases h),
      fun _ _ h => (by cases h)⟩
    (fun j => h.runs j t.id) hat ?_ (fun j hj => h.rem j t.id hj) (fun j hj => h.del j t.id hj)
    (fun j hj => h.comp j t.id hj) ?_
  · intro hm
    have := h.made i t.id hm
    rw [hi] at this
    injection this with this
    rw [this] at ha
    exact absurd rfl (ha 201)
  · intro j hj
    rcases h.left j t.id hj with h1 | ⟨u, hu, e, h1⟩ | h1
    · exact Or.inl h1
    · obtain ⟨k, hk⟩ := List.getElem?_of_mem hu
      have hau : Active u := fun c hc => by
        rcases h1 with h1 | h1 <;> rw [hc] at h1 <;> cases h1
      have := h.solo k i u t hk hi hau ha e
      subst this
      rw [hi] at hk
      injection hk with hk
      subst hk
      exact Or.inr (hleft j h1)
    · exact Or.inr (Or.inr h1)

/-- At the request's own steps, nobody is completing a job of this id but the request itself. -/
theorem not_completing {s : State Id} (h : Inv s) {i : Nat} {t : Thread Id} (hi : s.threads[i]? = some t)
    (ha : Active t) {j : Job} (hn : ¬ Completing j t.pc) :
    ¬ ∃ u ∈ s.threads, u.id = t.id ∧ Completing j u.pc := by
  rintro ⟨u, hu, e, h1⟩
  obtain ⟨k, hk⟩ := List.getElem?_of_mem hu
  have hau : Active u := fun c hc => by
    rcases h1 with h1 | h1 <;> rw [hc] at h1 <;> cases h1
  have := h.solo k i u t hk hi hau ha e
  subst this
  rw [hi] at hk
  injection hk with hk
  subst hk
  exact hn h1

theorem inv_advance {s : State Id} (h : Inv s) {i : Nat} {t : Thread Id}
    (hi : s.threads[i]? = some t) (hub : Bool) : Inv (advance s i t hub) := by
  by_cases hd : ∃ c, t.pc = .done c
  · obtain ⟨c, hc⟩ := hd
    unfold advance
    rw [hc]
    exact h
  have ha : Active t := fun c hc => hd ⟨c, hc⟩
  have hat := h.at' i t hi
  have hnot : Ev.created i t.id ∉ s.log := fun hm => by
    have := h.made i t.id hm
    rw [hi] at this
    injection this with this
    rw [this] at ha
    exact absurd rfl (ha 201)
  unfold advance
  cases hpc : t.pc with
  | createGet =>
    dsimp only
    refine inv_goto h hi ha ?_ (fun j hj => by rw [hpc] at hj; rcases hj with hj | hj <;> cases hj)
    split
    · trivial
    · next hh => exact has_false hh
  | createSet =>
    rw [hpc] at hat
    have hat : s.running.get t.id = none := hat
    dsimp only
    refine inv_step h hi ha (pc := .done 201) rfl (fun id hid => ?_) (fun _ _ => rfl)
      ⟨[.created i t.id], rfl, ?_, ?_, ?_⟩ ?_ trivial (fun _ => rfl) ?_ ?_ ?_ ?_
    · exact GoMap.get_set_other _ _ (fun e => hid e.symm)
    · intro j id hm; simp at hm
    · intro j id hm; simp at hm
    · intro j id hm; simpa using hm
    · intro j
      dsimp only
      rw [GoMap.get_set, if_pos rfl]
      unfold Runs
      dsimp only
      simp only [List.mem_append, List.mem_singleton, Ev.created.injEq, and_true, reduceCtorEq, or_false]
      constructor
      · intro e
        injection e with e
        exact ⟨Or.inr e.symm, fun hr => hnot (e ▸ h.rem j t.id hr)⟩
      · rintro ⟨h1 | h1, h2⟩
        · have := (h.runs j t.id).2 ⟨h1, h2⟩
          rw [hat] at this; cases this
        · rw [h1]
    · intro j hj
      dsimp only at hj ⊢
      simp only [List.mem_append, List.mem_singleton, reduceCtorEq, or_false] at hj
      exact List.mem_append_left _ (h.rem j t.id hj)
    · intro j hj
      dsimp only at hj ⊢
      simp only [List.mem_append, List.mem_singleton, reduceCtorEq, or_false] at hj
      exact ⟨List.mem_append_left _ (h.del j t.id hj).1, (h.del j t.id hj).2⟩
    · intro j hj
      exact List.mem_append_left _ (h.comp j t.id hj)
    · intro j hj
      dsimp only at hj ⊢
      simp only [List.mem_append, List.mem_singleton, reduceCtorEq, or_false] at hj ⊢
      rcases h.left j t.id hj with h1 | h1 | h1
      · exact Or.inl h1
      · refine absurd h1 (not_completing h hi ha ?_)
        rw [hpc]
        rintro (h | h) <;> cases h
      · exact Or.inr (Or.inr h1)
  | deleteGet =>
    dsimp only
    have hc : ∀ (j : Job) (pc : Pc), Completing j t.pc → Completing j pc ∨
        ∃ k, k ≠ j ∧ s.completed.get t.id = some k := fun j pc hj => by
      rw [hpc] at hj; rcases hj with hj | hj <;> cases hj
    cases hg : s.running.get t.id with
    | none => exact inv_goto h hi ha trivial (fun j => hc j _)
    | some j => exact inv_goto h hi ha hg (fun j => hc j _)
  | deleteHub j =>
    dsimp only
    rw [hpc] at hat
    refine inv_goto h hi ha ?_ (fun j hj => by rw [hpc] at hj; rcases hj with hj | hj <;> cases hj)
    cases hub
    · trivial
    · exact hat
  | removeGet j =>
    dsimp only
    rw [hpc] at hat
    refine inv_goto h hi ha ?_ (fun j hj => by rw [hpc] at hj; rcases hj with hj | hj <;> cases hj)
    split
    · exact hat
    · trivial
  | removeDel j =>
    rw [hpc] at hat
    have hat : s.running.get t.id = some j := hat
    have hr := (h.runs j t.id).1 hat
    have hnd : Ev.deleted j t.id ∉ s.log := fun hm => hr.2 (h.del j t.id hm).1
    dsimp only
    rw [hat]
    dsimp only
    refine inv_step h hi ha (pc := .completeGet j) rfl (fun id hid => ?_) (fun _ _ => rfl)
      ⟨[.removed j t.id], rfl, ?_, ?_, ?_⟩ ?_ ⟨?_, ?_, ?_⟩ ?_ ?_ ?_ ?_ ?_
    · exact GoMap.get_del_other _ (fun e => hid e.symm)
    · intro j id hm; simp at hm; exact hm.2
    · intro j id hm; simp at hm
    · intro j id hm; simp at hm
    · intro k
      dsimp only
      rw [GoMap.get_del, if_pos rfl]
      unfold Runs
      dsimp only
      simp only [List.mem_append, List.mem_singleton, Ev.removed.injEq, and_true, reduceCtorEq,
        or_false]
      constructor
      · intro e; cases e
      · rintro ⟨hk, hk'⟩
        have := (h.runs k t.id).2 ⟨hk, fun h => hk' (Or.inl h)⟩
        rw [hat] at this
        injection this with this
        exact absurd (Or.inr this.symm) hk'
    · show GoMap.get (GoMap.del _ _) _ = none
      rw [GoMap.get_del, if_pos rfl]
    · exact List.mem_append_right _ (List.mem_singleton.2 rfl)
    · intro hm
      simp only [List.mem_append, List.mem_singleton, reduceCtorEq, or_false] at hm
      exact hnd hm
    · intro hm
      simp only [List.mem_append, List.mem_singleton, reduceCtorEq, or_false] at hm
      exact absurd hm hnot
    · intro k hk
      simp only [List.mem_append, List.mem_singleton, Ev.removed.injEq, and_true, reduceCtorEq,
        or_false] at hk ⊢
      rcases hk with hk | hk
      · exact h.rem k t.id hk
      · rw [hk]; exact hr.1
    · intro k hk
      simp only [List.mem_append, List.mem_singleton, reduceCtorEq, or_false] at hk
      exact ⟨List.mem_append_left _ (h.del k t.id hk).1, (h.del k t.id hk).2⟩
    · intro k hk
      exact List.mem_append_left _ (h.comp k t.id hk)
    · intro k hk
      simp only [List.mem_append, List.mem_singleton, Ev.removed.injEq, and_true, reduceCtorEq,
        or_false] at hk ⊢
      rcases hk with hk | hk
      · rcases h.left k t.id hk with h1 | h1 | h1
        · exact Or.inl h1
        · refine absurd h1 (not_completing h hi ha ?_)
          rw [hpc]
          rintro (h | h) <;> cases h
        · exact Or.inr (Or.inr h1)
      · rw [hk]; exact Or.inr (Or.inl (Or.inl rfl))
  | completeGet j =>
    rw [hpc] at hat
    have hat : s.running.get t.id = none ∧ .removed j t.id ∈ s.log ∧ .deleted j t.id ∉ s.log := hat
    dsimp only
    by_cases hh : s.completed.has t.id = true
    · rw [if_pos hh]
      refine inv_goto h hi ha trivial fun k hk => ?_
      rw [hpc] at hk
      rcases hk with hk | hk
      · injection hk with hk
        subst hk
        obtain ⟨k, hk⟩ := has_iff.1 hh
        refine Or.inr ⟨k, fun e => hat.2.2 ?_, hk⟩
        rw [← e]; exact h.comp k t.id hk
      · cases hk
    · rw [if_neg hh]
      refine inv_goto h hi ha ⟨hat.1, hat.2.1, hat.2.2, has_false hh⟩ fun k hk => ?_
      rw [hpc] at hk
      rcases hk with hk | hk
      · injection hk with hk
        rw [hk]; exact Or.inl (Or.inr rfl)
      · cases hk
  | completeSet j =>
    rw [hpc] at hat
    have hat : s.running.get t.id = none ∧ .removed j t.id ∈ s.log ∧ .deleted j t.id ∉ s.log ∧
      s.completed.get t.id = none := hat
    have hnone : ∀ k, Ev.deleted k t.id ∉ s.log := fun k hk => by
      have := (h.del k t.id hk).2
      rw [hat.2.2.2] at this; cases this
    dsimp only
    refine inv_step h hi ha (pc := .done 200) rfl (fun _ _ => rfl) (fun id hid => ?_)
      ⟨[.deleted j t.id], rfl, ?_, ?_, ?_⟩ ?_ trivial ?_ ?_ ?_ ?_ ?_
    · exact GoMap.get_set_other _ _ (fun e => hid e.symm)
    · intro j id hm; simp at hm
    · intro j id hm; simp at hm; exact hm.2
    · intro j id hm; simp at hm
    · intro k
      have := h.runs k t.id
      unfold Runs at this ⊢
      show s.running.get t.id = some k ↔ _
      simpa only [List.mem_append, List.mem_singleton, reduceCtorEq, or_false] using this
    · intro hm
      simp only [List.mem_append, List.mem_singleton, reduceCtorEq, or_false] at hm
      exact absurd hm hnot
    · intro k hk
      simp only [List.mem_append, List.mem_singleton, reduceCtorEq, or_false] at hk
      exact List.mem_append_left _ (h.rem k t.id hk)
    · intro k hk
      simp only [List.mem_append, List.mem_singleton, Ev.deleted.injEq, and_true] at hk
      rcases hk with hk | hk
      · exact absurd hk (hnone k)
      · rw [hk]
        refine ⟨List.mem_append_left _ hat.2.1, ?_⟩
        show GoMap.get (GoMap.set _ _ _) _ = _
        rw [GoMap.get_set, if_pos rfl]
    · intro k hk
      dsimp only at hk
      rw [GoMap.get_set, if_pos rfl] at hk
      injection hk with hk
      rw [hk]
      exact List.mem_append_right _ (List.mem_singleton.2 rfl)
    · intro k hk
      simp only [List.mem_append, List.mem_singleton, reduceCtorEq, or_false] at hk
      by_cases e : k = j
      · rw [e]; exact Or.inl (List.mem_append_right _ (List.mem_singleton.2 rfl))
      · refine Or.inr (Or.inr ⟨j, fun h => e h.symm, ?_⟩)
        show GoMap.get (GoMap.set _ _ _) _ = _
        rw [GoMap.get_set, if_pos rfl]
  | done c => exact absurd ⟨c, hpc⟩ hd

theorem inv_run {s : State Id} (h : Inv s) {as : List (Action Id)} (ha : Apart s as) : Inv (run s as) := by
  induction as generalizing s with
  | nil => exact h
  | cons a as ih =>
    have split : ∀ s', step s a = s' → Inv s' → Apart s' as → Inv (run s (a :: as)) := by
      intro s' e hi ha
      show Inv (run (step s a) as)
      rw [e]
      exact ih hi ha
    cases a with
    | create q u ok =>
      refine split _ rfl ?_ ha.2
      refine inv_new h ha.1 ?_
      cases ok <;> trivial
    | delete id =>
      refine split _ rfl ?_ ha.2
      exact inv_new h ha.1 trivial
    | step i hub =>
      refine split _ rfl ?_ ha
      unfold step
      dsimp only
      split
      · exact h
      · next t ht => exact inv_advance h ht hub

theorem advance_running {s : State Id} {i : Nat} {t : Thread Id} (hub : Bool) {id : Id}
    (h : Active t → id ≠ t.id) : (advance s i t hub).running.get id = s.running.get id := by
  unfold advance
  cases hpc : t.pc with
  | createSet =>
    have := h fun c hc => by rw [hpc] at hc; cases hc
    exact GoMap.get_set_other _ _ (fun e => this e.symm)
  | removeDel j =>
    have := h fun c hc => by rw [hpc] at hc; cases hc
    exact GoMap.get_del_other _ (fun e => this e.symm)
  | deleteGet => dsimp only; cases s.running.get t.id <;> rfl
  | _ => rfl

theorem advance_other {s : State Id} {i n : Nat} {t : Thread Id} (hub : Bool) (h : n ≠ i) :
    (advance s i t hub).threads[n]? = s.threads[n]? := by
  have hg : ∀ pc, (goto s i t pc).threads[n]? = s.threads[n]? := fun pc => by
    unfold goto
    dsimp only
    rw [List.getElem?_set, if_neg (fun e => h e.symm)]
  unfold advance
  cases hpc : t.pc with
  | deleteGet => dsimp only; cases s.running.get t.id <;> exact hg _
  | done c => rfl
  | _ => exact hg _

/-- A create request for an id that runs is refused, when it is handled apart from others. -/
theorem refused_run {s : State Id} (h : Inv s) {as : List (Action Id)} (ha : Apart s as) {n : Nat}
    {id : Id} {pc : Pc} (hn : s.threads[n]? = some ⟨id, pc⟩)
    (hpc : (pc = .createGet ∧ s.running.has id = true) ∨ pc = .done 500) :
    ∃ pc', (run s as).threads[n]? = some ⟨id, pc'⟩ ∧ (pc' = .createGet ∨ pc' = .done 500) := by
  induction as generalizing s pc with
  | nil => exact ⟨pc, hn, hpc.imp_left And.left⟩
  | cons a as ih =>
    have hlt : n < s.threads.length := by
      refine Nat.lt_of_not_le fun hle => ?_
      rw [List.getElem?_eq_none hle] at hn; cases hn
    have hone : Inv (step s a) ∧ Apart (step s a) as := by
      cases a with
      | create q u ok => exact ⟨inv_run h (as := [.create q u ok]) ⟨ha.1, trivial⟩, ha.2⟩
      | delete id => exact ⟨inv_run h (as := [.delete id]) ⟨ha.1, trivial⟩, ha.2⟩
      | step i hub => exact ⟨inv_run h (as := [.step i hub]) trivial, ha⟩
    cases a with
    | create q u ok =>
      refine ih hone.1 hone.2 (pc := pc) ?_ hpc
      show (s.threads ++ _)[n]? = _
      rw [List.getElem?_append_left hlt]; exact hn
    | delete id' =>
      refine ih hone.1 hone.2 (pc := pc) ?_ hpc
      show (s.threads ++ _)[n]? = _
      rw [List.getElem?_append_left hlt]; exact hn
    | step i hub =>
      cases ht : s.threads[i]? with
      | none =>
        have e : step s (.step i hub) = s := by unfold step; dsimp only; rw [ht]
        refine ih hone.1 hone.2 (pc := pc) ?_ ?_ <;> rw [e]
        · exact hn
        · exact hpc
      | some t =>
        have e : step s (.step i hub) = advance s i t hub := by unfold step; dsimp only; rw [ht]
        by_cases hni : n = i
        · subst hni
          rw [hn] at ht
          injection ht with ht
          subst ht
          refine ih hone.1 hone.2 (pc := .done 500) ?_ (Or.inr rfl)
          rw [e]
          unfold advance
          rcases hpc with ⟨hpc, hh⟩ | hpc <;> rw [hpc] <;> dsimp only
          · rw [if_pos hh]
            unfold goto
            dsimp only
            rw [List.getElem?_set, if_pos rfl, if_pos hlt]
          · rw [hn, hpc]
        · refine ih hone.1 hone.2 (pc := pc) ?_ ?_
          · rw [e, advance_other hub hni]; exact hn
          · rw [e]
            rcases hpc with ⟨hpc, hh⟩ | hpc
            · refine Or.inl ⟨hpc, ?_⟩
              unfold GoMap.has
              rw [advance_running hub fun hact hid => hni (h.solo n i _ t hn ht
                (fun c hc => by rw [hpc] at hc; cases hc) hact hid)]
              exact hh
            · exact Or.inr hpc

end Swoll.Lemmas.Server
