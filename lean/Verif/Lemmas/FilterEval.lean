import Verif.Lemmas.Filter
/-
Helper lemmas about the kernel's filter evaluation: first match, and sequences of evaluations.
-/
namespace Swoll.Lemmas.Filter
open Swoll Swoll.Syscalls Swoll.Filter Swoll.Spec.Filter

theorem isFilterEnabled_iff (m : KMaps) (t : BitVec 16) :
    isFilterEnabled m t = true ↔ ∃ b, GoMap.get m.config t = some b ∧ b ≠ 0 := by
  unfold isFilterEnabled
  cases h : GoMap.get m.config t <;> simp

theorem evalKeys_levels (mode : BitVec 16) (ns proc nr : BitVec 32) :
    evalKeys mode ns proc nr = levels.map (fun l => l.key mode ns proc nr) := by
  have h2 : ftypePidNS ||| ftypeSyscall = 0xC000#16 := by decide
  have h3 : ftypePid ||| ftypeSyscall = 0xA000#16 := by decide
  have h4 : (-1 : BitVec 32) = 0xFFFFFFFF#32 := by decide
  simp only [evalKeys, levels, List.map, Level.key, BitVec.or_assoc, h2, h3, h4]
  rfl

theorem levels_nodup : levels.Nodup := by decide

/-- First match, over an arbitrary key list. -/
theorem evalLoop_spec (m : KMaps) : ∀ ks : List FilterKey,
    (∃ pre k post v, ks = pre ++ k :: post ∧ Active m k v ∧ (∀ k' ∈ pre, ∀ v', ¬ Active m k' v') ∧
      evalLoop m ks = ({ m with filter := GoMap.set m.filter k (hit v).1 }, (hit v).2)) ∨
    ((∀ k ∈ ks, ∀ v, ¬ Active m k v) ∧ evalLoop m ks = (m, factionDrop)) := by
  intro ks
  induction ks with
  | nil => right; simp [evalLoop]
  | cons k ks ih =>
    by_cases ha : ∃ v, Active m k v
    · obtain ⟨v, hv⟩ := ha
      left
      exact ⟨[], k, ks, v, rfl, hv, by simp,
        evalLoop_hit m k ks v hv.1 ((isFilterEnabled_iff m _).2 hv.2)⟩
    · have hskip : evalLoop m (k :: ks) = evalLoop m ks := by
        rw [evalLoop]
        by_cases he : isFilterEnabled m k.flags = true
        · rw [if_pos he]
          cases hg : GoMap.get m.filter k with
          | none => rfl
          | some v => exact absurd ⟨v, hg, (isFilterEnabled_iff m _).1 he⟩ ha
        · rw [if_neg he]
      rcases ih with ⟨pre, k', post, v, h1, h2, h3, h4⟩ | ⟨h1, h2⟩
      · left
        refine ⟨k :: pre, k', post, v, by rw [h1]; rfl, h2, ?_, by rw [hskip, h4]⟩
        intro x hx v'
        rcases List.mem_cons.1 hx with rfl | hx
        · exact fun hh => ha ⟨v', hh⟩
        · exact h3 x hx v'
      · right
        refine ⟨?_, by rw [hskip, h2]⟩
        intro x hx v'
        rcases List.mem_cons.1 hx with rfl | hx
        · exact fun hh => ha ⟨v', hh⟩
        · exact h1 x hx v'

/-- First match, over the precedence levels. -/
theorem eval_spec (m : KMaps) (mode : BitVec 16) (ns proc nr : BitVec 32) :
    (∃ l v, Decides m mode ns proc nr l v ∧ evalLoop m (evalKeys mode ns proc nr) =
      ({ m with filter := GoMap.set m.filter (l.key mode ns proc nr) (hit v).1 }, (hit v).2)) ∨
    ((∀ l v, ¬ Decides m mode ns proc nr l v) ∧
      evalLoop m (evalKeys mode ns proc nr) = (m, factionDrop)) := by
  rw [evalKeys_levels]
  rcases evalLoop_spec m (levels.map (fun l => l.key mode ns proc nr)) with
    ⟨pre, k, post, v, h1, h2, h3, h4⟩ | ⟨h1, h2⟩
  · left
    obtain ⟨p1, p2, hp, hp1, hp2⟩ := List.map_eq_append_iff.1 h1
    obtain ⟨l, p3, hl, hk, _⟩ := List.map_eq_cons_iff.1 hp2
    refine ⟨l, v, ⟨p1, p3, by rw [hp, hl], by simpa [hk] using h2, ?_⟩, by rw [h4, ← hk]⟩
    intro l' hl' v'
    exact h3 _ (by rw [← hp1]; exact List.mem_map.2 ⟨l', hl', rfl⟩) v'
  · right
    refine ⟨?_, h2⟩
    rintro l v ⟨pre, post, he, ha, _⟩
    exact h1 _ (List.mem_map.2 ⟨l, by rw [he]; simp, rfl⟩) v ha

theorem active_unique {m : KMaps} {k : FilterKey} {v w : FilterVal} (h : Active m k v) (h' : Active m k w) :
    v = w := by
  have := h.1.symm.trans h'.1
  injection this

/-- The deciding level and rule are unique. -/
theorem decides_unique {m : KMaps} {mode : BitVec 16} {ns proc nr : BitVec 32} {l l' : Level}
    {v v' : FilterVal} (h : Decides m mode ns proc nr l v) (h' : Decides m mode ns proc nr l' v') :
    l = l' ∧ v = v' := by
  obtain ⟨p, q, he, ha, hb⟩ := h
  obtain ⟨p', q', he', ha', hb'⟩ := h'
  have hll : l = l' := by
    rw [he] at he'
    rcases List.append_eq_append_iff.1 he' with ⟨r, hr1, hr2⟩ | ⟨r, hr1, hr2⟩
    · cases r with
      | nil => simp at hr2; exact hr2.1
      | cons x r =>
        simp at hr2
        exact absurd ha (hb' l (by rw [hr1, ← hr2.1]; simp) v)
    · cases r with
      | nil => simp at hr2; exact hr2.1.symm
      | cons x r =>
        simp at hr2
        exact absurd ha' (hb l' (by rw [hr1, ← hr2.1]; simp) v')
  subst hll
  exact ⟨rfl, active_unique ha ha'⟩

theorem hit_verdict (v : FilterVal) : (SampledOut v → (hit v).2 = factionDrop) ∧
    (¬ SampledOut v → (hit v).2 = v.action) := by
  have hc : (v.sampleCount + 1).toNat = (v.sampleCount.toNat + 1) % 2 ^ 32 := by
    simp [BitVec.toNat_add]
  unfold hit SampledOut
  constructor
  · rintro ⟨h1, h2, h3⟩
    rw [if_pos h1, if_pos]
    refine ⟨by simpa [hc] using h2, ?_⟩
    intro h4
    apply h3
    exact Nat.dvd_of_mod_eq_zero (by simpa [hc] using h4)
  · intro h
    dsimp only
    split
    · rename_i h1
      split
      · rename_i h2
        exfalso
        apply h
        refine ⟨h1, by simpa [hc] using h2.1, ?_⟩
        intro h4
        apply h2.2
        have := Nat.mod_eq_zero_of_dvd h4
        simpa [hc] using this
      · rfl
    · rfl

theorem hit_fixed (v : FilterVal) : (hit v).1.sampleRate = v.sampleRate ∧
    (hit v).1.action = v.action ∧ (hit v).1.hits = v.hits + 1 ∧
    (hit v).1.sampleCount = if v.sampleRate = 0 then v.sampleCount else v.sampleCount + 1 := by
  have h0 : v.sampleRate.toNat > 0 ↔ v.sampleRate ≠ 0 := by
    constructor
    · intro h e; rw [e] at h; simp at h
    · intro h
      rcases Nat.eq_zero_or_pos v.sampleRate.toNat with h1 | h1
      · exact absurd (BitVec.eq_of_toNat_eq (by simpa using h1)) h
      · exact h1
  unfold hit
  by_cases h : v.sampleRate = 0
  · simp [h]
  · have : v.sampleRate.toNat > 0 := h0.2 h
    simp only [this, if_true, h, if_false]
    split <;> simp

/-- An evaluation leaves the configuration and the set of installed rules as they are. -/
theorem runNfilter_frame (m : KMaps) (mode : BitVec 16) (ns proc nr : BitVec 32) :
    (runNfilter m mode ns proc nr).1.config = m.config ∧
    ∀ k, (GoMap.get (runNfilter m mode ns proc nr).1.filter k).isSome = (GoMap.get m.filter k).isSome := by
  unfold runNfilter
  split
  · rcases eval_spec m mode ns proc nr with ⟨l, v, hd, he⟩ | ⟨_, he⟩
    · rw [he]
      refine ⟨rfl, ?_⟩
      intro k
      show (GoMap.get (GoMap.set m.filter _ _) k).isSome = _
      rw [GoMap.get_set]
      obtain ⟨_, _, _, ha, _⟩ := hd
      by_cases hk : l.key mode ns proc nr = k
      · rw [if_pos hk, ← hk, ha.1]; rfl
      · rw [if_neg hk]
    · rw [he]; exact ⟨rfl, fun _ => rfl⟩
  · exact ⟨rfl, fun _ => rfl⟩

/-- Two states with the same configuration and the same installed keys. -/
def SameShape (m m' : KMaps) : Prop :=
  m.config = m'.config ∧ ∀ k, (GoMap.get m.filter k).isSome = (GoMap.get m'.filter k).isSome

theorem sameShape_active {m m' : KMaps} (h : SameShape m m') (k : FilterKey) :
    (∃ v, Active m k v) ↔ (∃ v, Active m' k v) := by
  unfold Active
  have := h.2 k
  constructor
  · rintro ⟨v, h1, h2⟩
    rw [h1] at this
    obtain ⟨w, hw⟩ := Option.isSome_iff_exists.1 this.symm
    exact ⟨w, hw, h.1 ▸ h2⟩
  · rintro ⟨v, h1, h2⟩
    rw [h1] at this
    obtain ⟨w, hw⟩ := Option.isSome_iff_exists.1 this
    exact ⟨w, hw, h.1 ▸ h2⟩

theorem sameShape_decided {m m' : KMaps} (h : SameShape m m') (e : Ev) (k : FilterKey) :
    DecidedBy m e k ↔ DecidedBy m' e k := by
  have key : ∀ {m m' : KMaps}, SameShape m m' → DecidedBy m e k → DecidedBy m' e k := by
    intro m m' h
    rintro ⟨l, v, ⟨pre, post, he, ha, hb⟩, hk⟩
    obtain ⟨w, hw⟩ := (sameShape_active h _).1 ⟨v, ha⟩
    refine ⟨l, w, ⟨pre, post, he, hw, ?_⟩, hk⟩
    intro l' hl' v' hv'
    obtain ⟨u, hu⟩ := (sameShape_active h _).2 ⟨v', hv'⟩
    exact hb l' hl' u hu
  exact ⟨key h, key ⟨h.1.symm, fun k => (h.2 k).symm⟩⟩

/-- Verdict of the `i`-th match with the 32 bit counter. -/
def ithVerdictW (rate : Nat) (action : BitVec 8) (i : Nat) : BitVec 8 :=
  if rate = 0 ∨ i % 2 ^ 32 ≤ 1 ∨ rate ∣ i % 2 ^ 32 then action else factionDrop

/-- The state of a rule after `c` matches since it was written. -/
def Counted (v : FilterVal) (r : BitVec 32) (act : BitVec 8) (h0 : BitVec 64) (c : Nat) : Prop :=
  v.sampleRate = r ∧ v.action = act ∧ v.hits = h0 + BitVec.ofNat 64 c ∧
  (r ≠ 0 → v.sampleCount = BitVec.ofNat 32 c)

theorem counted_hit {v : FilterVal} {r : BitVec 32} {act : BitVec 8} {h0 : BitVec 64} {c : Nat}
    (h : Counted v r act h0 c) :
    Counted (hit v).1 r act h0 (c + 1) ∧ (hit v).2 = ithVerdictW r.toNat act (c + 1) := by
  obtain ⟨h1, h2, h3, h4⟩ := h
  obtain ⟨f1, f2, f3, f4⟩ := hit_fixed v
  constructor
  · refine ⟨f1.trans h1, f2.trans h2, ?_, ?_⟩
    · rw [f3, h3, BitVec.ofNat_add, BitVec.add_assoc]; rfl
    · intro hr
      rw [f4, if_neg (by rw [h1]; exact hr), h4 hr, BitVec.ofNat_add]; rfl
  · by_cases hr : r = 0
    · have hns : ¬ SampledOut v := by
        rintro ⟨hp, _⟩; rw [h1, hr] at hp; simp at hp
      rw [(hit_verdict v).2 hns, h2, ithVerdictW, if_pos (by left; rw [hr]; rfl)]
    · have hcount : v.sampleCount.toNat = c % 2 ^ 32 := by rw [h4 hr]; simp
      have hrn : r.toNat ≠ 0 := by
        intro e
        exact hr (BitVec.eq_of_toNat_eq (by simpa using e))
      have hmod : (v.sampleCount.toNat + 1) % 2 ^ 32 = (c + 1) % 2 ^ 32 := by
        rw [hcount]; omega
      by_cases hs : SampledOut v
      · rw [(hit_verdict v).1 hs, ithVerdictW, if_neg]
        obtain ⟨_, s2, s3⟩ := hs
        rw [hmod] at s2 s3
        rw [h1] at s3
        rintro (e | e | e)
        · exact hrn e
        · omega
        · exact s3 e
      · rw [(hit_verdict v).2 hs, ithVerdictW, if_pos, h2]
        unfold SampledOut at hs
        rw [hmod, h1] at hs
        by_cases hle : (c + 1) % 2 ^ 32 ≤ 1
        · exact Or.inr (Or.inl hle)
        · right; right
          by_cases hd : r.toNat ∣ (c + 1) % 2 ^ 32
          · exact hd
          · exact absurd ⟨by omega, by omega, hd⟩ hs

open Classical in
/-- Sequence of evaluations seen from one rule. -/
theorem evalAll_counts (m0 : KMaps) (hen : Enabled m0) (K : FilterKey) (r : BitVec 32) (act : BitVec 8)
    (h0 : BitVec 64) : ∀ (es : List Ev) (m : KMaps) (c : Nat) (v : FilterVal), SameShape m0 m →
    GoMap.get m.filter K = some v → Counted v r act h0 c →
    ((evalAll m es).2.filter (fun p => DecidedBy m0 p.1 K)).map (·.2) =
      (List.range' (c + 1) (es.filter (fun e => DecidedBy m0 e K)).length).map (ithVerdictW r.toNat act) ∧
    ∃ w, GoMap.get (evalAll m es).1.filter K = some w ∧
      Counted w r act h0 (c + (es.filter (fun e => DecidedBy m0 e K)).length) := by
  intro es
  induction es with
  | nil => intro m c v _ hg hv; exact ⟨by simp [evalAll], v, hg, by simpa using hv⟩
  | cons e es ih =>
    intro m c v hs hg hv
    have hen' : isFilterEnabled m fmodeEnabled = true := by
      rw [isFilterEnabled_iff, ← hs.1]; exact hen
    have hframe := runNfilter_frame m e.mode e.ns e.proc e.nr
    have hs' : SameShape m0 (runNfilter m e.mode e.ns e.proc e.nr).1 :=
      ⟨hs.1.trans hframe.1.symm, fun k => (hs.2 k).trans (hframe.2 k).symm⟩
    by_cases hd : DecidedBy m0 e K
    · have hd' := (sameShape_decided hs e K).1 hd
      obtain ⟨l, w, hdec, hK⟩ := hd'
      have hwv : w = v := by
        obtain ⟨_, _, _, ha, _⟩ := hdec
        rw [hK, ha.1] at hg
        injection hg
      subst hwv
      have hres : runNfilter m e.mode e.ns e.proc e.nr =
          ({ m with filter := GoMap.set m.filter K (hit w).1 }, (hit w).2) := by
        unfold runNfilter
        rw [if_pos hen']
        rcases eval_spec m e.mode e.ns e.proc e.nr with ⟨l', v', hd2, he⟩ | ⟨hno, _⟩
        · obtain ⟨e1, e2⟩ := decides_unique hdec hd2
          subst e1; subst e2
          rw [he, hK]
        · exact absurd hdec (hno l w)
      obtain ⟨c1, c2⟩ := counted_hit hv
      have hg' : GoMap.get (runNfilter m e.mode e.ns e.proc e.nr).1.filter K = some (hit w).1 := by
        rw [hres]; simp
      obtain ⟨i1, u, i2, i3⟩ := ih _ (c + 1) _ hs' hg' c1
      constructor
      · simp only [evalAll, List.filter_cons, hd, decide_true, if_true, List.map_cons, List.length_cons,
          List.range'_succ]
        rw [i1, hres, c2]
      · refine ⟨u, i2, ?_⟩
        simp only [List.filter_cons, hd, decide_true, if_true, List.length_cons]
        have : c + (List.length (List.filter (fun e => decide (DecidedBy m0 e K)) es) + 1) =
          c + 1 + List.length (List.filter (fun e => decide (DecidedBy m0 e K)) es) := by omega
        rw [this]; exact i3
    · have hd' : ¬ DecidedBy m e K := fun h => hd ((sameShape_decided hs e K).2 h)
      have hg' : GoMap.get (runNfilter m e.mode e.ns e.proc e.nr).1.filter K = some v := by
        unfold runNfilter
        rw [if_pos hen']
        rcases eval_spec m e.mode e.ns e.proc e.nr with ⟨l', v', hd2, he⟩ | ⟨_, he⟩
        · rw [he]
          show GoMap.get (GoMap.set m.filter _ _) K = _
          rw [GoMap.get_set, if_neg]
          · exact hg
          · intro hk
            exact hd' ⟨l', v', hd2, hk.symm⟩
        · rw [he]; exact hg
      obtain ⟨i1, u, i2, i3⟩ := ih _ c _ hs' hg' hv
      constructor
      · simp only [evalAll, List.filter_cons, hd, decide_false, Bool.false_eq_true, if_false]
        exact i1
      · refine ⟨u, i2, ?_⟩
        simp only [List.filter_cons, hd, decide_false, Bool.false_eq_true, if_false]
        exact i3

end Swoll.Lemmas.Filter
