import Verif.Lemmas.Probe
import Verif.Model.Bounded
import Verif.Spec.Bounded
import Verif.Props.Probe
/-
Helper lemmas for the bounded tables.
-/
namespace Swoll.Lemmas.Bounded
open Swoll Swoll.Syscalls Swoll.Filter Swoll.Probe Swoll.Spec.Filter Swoll.Spec.Probe Swoll.Bounded Swoll.Spec.Bounded
open Swoll.Lemmas.Filter Swoll.Lemmas.Probe

variable {cap : Nat} {tbl : Syscalls} {hf : BitVec 32 → Bool}

theorem nodup_len {α : Type} [DecidableEq α] : ∀ {a b : List α}, a.Nodup → (∀ x ∈ a, x ∈ b) → a.length ≤ b.length
  | [], _, _, _ => Nat.zero_le _
  | x :: a, b, h, hs => by
    have h2 := List.nodup_cons.1 h
    have hx : x ∈ b := hs x List.mem_cons_self
    have := nodup_len (a := a) (b := b.erase x) h2.2 (fun y hy => by
      refine (List.mem_erase_of_ne ?_).2 (hs y (List.mem_cons_of_mem _ hy))
      intro e
      exact h2.1 (e ▸ hy))
    rw [List.length_erase_of_mem hx] at this
    have hp : 0 < b.length := List.length_pos_of_mem hx
    rw [List.length_cons]
    omega

/-- A list without repetition that is as long as one it is in holds nothing else. -/
theorem nodup_full {α : Type} [DecidableEq α] {a b : List α} (ha : a.Nodup) (hs : ∀ x ∈ a, x ∈ b)
    (hl : b.length ≤ a.length) : ∀ x ∈ b, x ∈ a := by
  intro x hx
  refine Classical.byContradiction fun hn => ?_
  have := nodup_len (List.nodup_cons.2 ⟨hn, ha⟩) (fun y hy => by
    rcases List.mem_cons.1 hy with e | hy
    · rw [e]; exact hx
    · exact hs y hy)
  rw [List.length_cons] at this
  omega

theorem fill_same (s s' : PState) (c : Ctx) (ret : Option (BitVec 64)) (hm : s.maps = s'.maps) (hs : s.state = s'.state) :
    (fillMetrics s c ret).maps = (fillMetrics s' c ret).maps ∧ (fillMetrics s c ret).state = (fillMetrics s' c ret).state := by
  unfold fillMetrics
  dsimp only
  rw [hm]
  split
  · exact ⟨rfl, hs⟩
  · split
    · exact ⟨rfl, hs⟩
    · cases ret <;> exact ⟨rfl, hs⟩

/-- What a step does apart from the metrics does not depend on the metrics. -/
theorem pstep_same (s s' : PState) (o : POp) (hm : s.maps = s'.maps) (hs : s.state = s'.state) :
    (pstep tbl hf s o).1.maps = (pstep tbl hf s' o).1.maps ∧ (pstep tbl hf s o).1.state = (pstep tbl hf s' o).1.state ∧
      (pstep tbl hf s o).2 = (pstep tbl hf s' o).2 := by
  cases o with
  | api o => simp only [pstep, hm, hs, and_self]
  | execve c sc =>
    simp only [pstep, execve, hm]
    split
    · exact ⟨rfl, hs, rfl⟩
    · split <;> exact ⟨rfl, hs, rfl⟩
  | enter c args full =>
    obtain ⟨h1, h2⟩ := fill_same s s' c none hm hs
    simp only [pstep, enter, h1]
    split
    · exact ⟨h1, h2, trivial⟩
    · split
      · exact ⟨rfl, h2, trivial⟩
      · split
        · exact ⟨rfl, h2, trivial⟩
        · exact ⟨rfl, by rw [h2], trivial⟩
  | exit c ret sc =>
    obtain ⟨h1, h2⟩ := fill_same s s' c (some ret) hm hs
    simp only [pstep, Swoll.Probe.exit, h2]
    split
    · exact ⟨h1, h2, rfl⟩
    · split
      · exact ⟨h1, rfl, rfl⟩
      · split <;> exact ⟨h1, rfl, rfl⟩

theorem fill_state (s : PState) (c : Ctx) (ret : Option (BitVec 64)) : (fillMetrics s c ret).state = s.state := by
  unfold fillMetrics
  dsimp only
  split
  · rfl
  · split
    · rfl
    · cases ret <;> rfl

/-- What a step does to the calls remembered. -/
theorem pstep_state (s : PState) (o : POp) :
    (∀ c ret sc, o = .exit c ret sc → (pstep tbl hf s o).1.state = GoMap.del s.state c.pidTgid) ∧
    (∀ c args full, o = .enter c args full → (pstep tbl hf s o).1.state = s.state ∨
      full = false ∧ ∃ v, (pstep tbl hf s o).1.state = GoMap.set s.state c.pidTgid v) ∧
    ((∀ c ret sc, o ≠ .exit c ret sc) → (∀ c args full, o ≠ .enter c args full) → (pstep tbl hf s o).1.state = s.state) := by
  refine ⟨?_, ?_, ?_⟩
  · rintro c ret sc rfl
    simp only [pstep, Swoll.Probe.exit, fill_state]
    split
    · next h => rw [fill_state, GoMap.del_eq_self h]
    · split
      · rfl
      · split <;> rfl
  · rintro c args full rfl
    simp only [pstep, enter]
    split
    · exact Or.inl (fill_state s c none)
    · split
      · exact Or.inl (fill_state s c none)
      · split
        · exact Or.inl (fill_state s c none)
        · next h => exact Or.inr ⟨by simpa using h, _, by rw [fill_state]⟩
  · intro h1 h2
    cases o with
    | api o => rfl
    | execve c sc =>
      simp only [pstep, execve]
      split
      · rfl
      · split <;> rfl
    | enter c args full => exact absurd rfl (h2 c args full)
    | exit c ret sc => exact absurd rfl (h1 c ret sc)

theorem bafter_snoc (xs : List POp) (o : POp) :
    bafter cap tbl hf (xs ++ [o]) = (bstep cap tbl hf (bafter cap tbl hf xs) o).1 := by
  simp [bafter]

theorem inside_snoc (xs : List POp) (o : POp) : inside (xs ++ [o]) = goes (inside xs) o := by
  simp [inside]

theorem told_abs (s : PState) (a : Abs) (o : POp) : absStep tbl a (told cap s o) = absStep tbl a o := by
  cases o <;> rfl

theorem told_evolve (s : PState) (a : Abs) (m : GoMap MKey MVal) (o : POp) :
    mEvolve a m (told cap s o) = mEvolve a m o := by
  cases o <;> rfl

/-- The rules do not depend on the sizes of the tables. -/
theorem bafter_rel (hist : List POp) : Rel (bafter cap tbl hf hist).maps (rulesAfter tbl hist) := by
  induction hist using snoc_induction with
  | h0 => exact rel_empty
  | h1 xs o ih =>
    rw [bafter_snoc, rulesAfter_snoc, ← told_abs (cap := cap) (bafter cap tbl hf xs)]
    exact (pstep_rel tbl hf ih _).1

theorem bafter_metrics (hist : List POp) (o : POp) : (bafter cap tbl hf (hist ++ [o])).metrics =
    capped cap (bafter cap tbl hf hist).metrics (mEvolve (rulesAfter tbl hist) (bafter cap tbl hf hist).metrics o) := by
  rw [bafter_snoc]
  simp only [bstep]
  rw [(pstep_rel tbl hf (bafter_rel hist) _).2, told_evolve]

/-- The calls remembered are calls that have begun and not returned; there is never one too many. -/
theorem state_inside (hist : List POp) : GoMap.NodupKeys (bafter cap tbl hf hist).state ∧
    (bafter cap tbl hf hist).state.length ≤ cap ∧
    ∀ p ∈ GoMap.keys (bafter cap tbl hf hist).state, p ∈ inside hist := by
  induction hist using snoc_induction with
  | h0 => exact ⟨GoMap.nodupKeys_nil, Nat.zero_le _, fun p hp => nomatch hp⟩
  | h1 xs o ih =>
    obtain ⟨h1, h2, h3⟩ := ih
    rw [bafter_snoc, inside_snoc]
    simp only [bstep]
    obtain ⟨k1, k2, k3⟩ := pstep_state (tbl := tbl) (hf := hf) (bafter cap tbl hf xs) (told cap (bafter cap tbl hf xs) o)
    cases o with
    | api o => rw [k3 (by intros; simp [told]) (by intros; simp [told])]; exact ⟨h1, h2, h3⟩
    | execve c sc => rw [k3 (by intros; simp [told]) (by intros; simp [told])]; exact ⟨h1, h2, h3⟩
    | exit c ret sc =>
      rw [k1 c ret sc rfl]
      refine ⟨GoMap.nodupKeys_del h1 _, Nat.le_trans (GoMap.length_del_le _ _) h2, fun p hp => ?_⟩
      rw [GoMap.keys_del] at hp
      obtain ⟨hp, hne⟩ := List.mem_filter.1 hp
      exact List.mem_filter.2 ⟨h3 p hp, hne⟩
    | enter c args full =>
      have hsub : ∀ p, p ∈ inside xs → p ∈ goes (inside xs) (.enter c args full) := by
        intro p hp
        simp only [goes, List.mem_cons, List.mem_filter]
        by_cases e : p = c.pidTgid
        · exact Or.inl e
        · exact Or.inr ⟨hp, by simpa using e⟩
      rcases k2 c args _ rfl with e | ⟨hfull, v, e⟩
      · rw [e]; exact ⟨h1, h2, fun p hp => hsub p (h3 p hp)⟩
      · rw [e]
        refine ⟨GoMap.nodupKeys_set h1 _ _, ?_, ?_⟩
        · unfold GoMap.set
          rw [List.length_cons]
          simp only [noRoom, Bool.and_eq_false_iff, decide_eq_false_iff_not] at hfull
          rcases hfull with hfull | hfull
          · -- the key was there
            have hmem : c.pidTgid ∈ GoMap.keys (bafter cap tbl hf xs).state := by
              rw [GoMap.mem_keys_iff]
              cases hg : GoMap.get (bafter cap tbl hf xs).state c.pidTgid with
              | none => rw [hg] at hfull; cases hfull
              | some v => rfl
            have hl : (GoMap.del (bafter cap tbl hf xs).state c.pidTgid).length + 1 ≤ (bafter cap tbl hf xs).state.length := by
              have := nodup_len (a := c.pidTgid :: GoMap.keys (GoMap.del (bafter cap tbl hf xs).state c.pidTgid))
                (b := GoMap.keys (bafter cap tbl hf xs).state)
                (List.nodup_cons.2 ⟨by rw [GoMap.keys_del]; simp, GoMap.nodupKeys_del h1 _⟩) (fun y hy => by
                  rcases List.mem_cons.1 hy with e | hy
                  · rw [e]; exact hmem
                  · rw [GoMap.keys_del] at hy; exact (List.mem_filter.1 hy).1)
              simpa [GoMap.keys] using this
            omega
          · have := GoMap.length_del_le (bafter cap tbl hf xs).state c.pidTgid
            omega
        · intro p hp
          rw [GoMap.mem_keys_iff, GoMap.get_set] at hp
          split at hp
          · next e => simp only [goes, List.mem_cons]; left; exact e.symm
          · exact hsub p (h3 p ((GoMap.mem_keys_iff _ _).2 hp))

/-- What a step does to the metrics: the kind counted is there afterwards, everything else is as before. -/
theorem evolve_keys (a : Abs) (m : GoMap MKey MVal) (o : POp) (k : MKey) :
    k ∈ GoMap.keys (mEvolve a m o) ↔ kind a o = some k ∨ k ∈ GoMap.keys m := by
  cases o with
  | api o => simp [mEvolve, kind]
  | execve c sc => simp [mEvolve, kind]
  | enter c args full =>
    simp only [mEvolve, kind]
    by_cases hc : counted a c = true
    · rw [if_pos hc, if_pos hc, GoMap.mem_keys_iff, GoMap.mem_keys_iff, updateKtime_get]
      by_cases e : k = ⟨c.ns, c.nr, 0⟩
      · simp [e]
      · rw [if_neg e]
        simp only [Option.some.injEq, eq_comm (b := k), e, false_or]
    · rw [if_neg hc, if_neg hc]; simp
  | exit c ret sc =>
    simp only [mEvolve, kind]
    by_cases hc : counted a c = true
    · rw [if_pos hc, if_pos hc, GoMap.mem_keys_iff, GoMap.mem_keys_iff, updateMetrics_get]
      by_cases e : k = ⟨c.ns, c.nr, BitVec.ofNat 16 (bucket ret)⟩
      · simp [e]
      · rw [if_neg e]
        simp only [Option.some.injEq, eq_comm (b := k), e, false_or]
    · rw [if_neg hc, if_neg hc]; simp

theorem keys_length {V : Type} (m : GoMap MKey V) : (GoMap.keys m).length = m.length := List.length_map ..

theorem metrics_nodup (hist : List POp) : GoMap.NodupKeys (bafter cap tbl hf hist).metrics := by
  induction hist using snoc_induction with
  | h0 => exact GoMap.nodupKeys_nil
  | h1 xs o ih =>
    rw [bafter_metrics]
    unfold capped
    split
    · exact nodup_mEvolve _ _ _ ih
    · exact ih

theorem metrics_le (hist : List POp) : (bafter cap tbl hf hist).metrics.length ≤ cap := by
  induction hist using snoc_induction with
  | h0 => exact Nat.zero_le _
  | h1 xs o ih =>
    rw [bafter_metrics]
    unfold capped
    split
    · assumption
    · exact ih

/-- A table that is full keeps its keys. -/
theorem metrics_stay (hist later : List POp) (hl : (bafter cap tbl hf hist).metrics.length = cap) :
    ∀ k, k ∈ GoMap.keys (bafter cap tbl hf (hist ++ later)).metrics ↔ k ∈ GoMap.keys (bafter cap tbl hf hist).metrics := by
  suffices H : (bafter cap tbl hf (hist ++ later)).metrics.length = cap ∧
      ∀ k, k ∈ GoMap.keys (bafter cap tbl hf (hist ++ later)).metrics ↔ k ∈ GoMap.keys (bafter cap tbl hf hist).metrics from H.2
  induction later using snoc_induction with
  | h0 => rw [List.append_nil]; exact ⟨hl, fun _ => Iff.rfl⟩
  | h1 xs o ih =>
    rw [← List.append_assoc, bafter_metrics]
    have hn := metrics_nodup (cap := cap) (tbl := tbl) (hf := hf) (hist ++ xs)
    generalize bafter cap tbl hf (hist ++ xs) = s at ih hn
    generalize rulesAfter tbl (hist ++ xs) = a
    unfold capped
    split
    · next hle =>
      have hsub : ∀ k ∈ GoMap.keys s.metrics, k ∈ GoMap.keys (mEvolve a s.metrics o) := fun k hk => (evolve_keys a s.metrics o k).2 (Or.inr hk)
      have h1 := nodup_len (a := GoMap.keys s.metrics) hn hsub
      rw [keys_length, keys_length] at h1
      refine ⟨by omega, fun k => Iff.trans ⟨fun hk => ?_, fun hk => hsub k hk⟩ (ih.2 k)⟩
      exact nodup_full (a := GoMap.keys s.metrics) hn hsub (by rw [keys_length, keys_length]; omega) k hk
    · exact ih

end Swoll.Lemmas.Bounded
