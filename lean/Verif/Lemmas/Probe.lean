import Verif.Lemmas.FilterEval
import Verif.Spec.Probe
/-
Helper lemmas for the probe: refinement of the handlers' filter use, metrics updates.
-/
namespace Swoll.Lemmas.Probe
open Swoll Swoll.Syscalls Swoll.Filter Swoll.Probe Swoll.Spec.Filter Swoll.Spec.Probe Swoll.Lemmas.Filter

theorem rel_met (tbl : Syscalls) {m : KMaps} {a : Abs} (h : Rel m a) (ns proc nr : BitVec 32) :
    Rel (runNfilter m fmodeMetrics ns proc nr).1 a ∧
    (decide ((runNfilter m fmodeMetrics ns proc nr).2 ≠ factionDrop)) = (a.enabled && a.met ns) :=
  rel_metricsEvent tbl h ns proc nr

theorem rel_call (tbl : Syscalls) {m : KMaps} {a : Abs} (h : Rel m a) (ns proc nr : BitVec 32) :
    Rel (runNfilter m fmodeSyscall ns proc nr).1 (a.step tbl (.callEvent ns proc nr)).1 ∧
    (decide ((runNfilter m fmodeSyscall ns proc nr).2 ≠ factionDrop)) =
      (a.step tbl (.callEvent ns proc nr)).2 :=
  rel_callEvent tbl h ns proc nr

/-- What the metrics part of a handler does, in terms of the rule set. -/
theorem fillMetrics_eq (tbl : Syscalls) {s : PState} {a : Abs} (h : Rel s.maps a) (c : Ctx)
    (ret : Option (BitVec 64)) :
    Rel (fillMetrics s c ret).maps a ∧ (fillMetrics s c ret).state = s.state ∧
    (fillMetrics s c ret).metrics = if counted a c then
      (match ret with
       | none => updateKtime s.metrics c.ns c.nr c.mtime
       | some r => updateMetrics s.metrics c.ns c.nr (errOf r) c.mtime)
      else s.metrics := by
  obtain ⟨h1, h2⟩ := rel_met tbl h c.ns c.proc c.nr
  unfold fillMetrics counted
  dsimp only
  rw [← h2]
  by_cases hd : (runNfilter s.maps fmodeMetrics c.ns c.proc c.nr).2 = factionDrop
  · simp [hd, h1]
  · by_cases hn : c.nr = 0xFFFFFFFF#32
    · simp [hn]
      rw [hn] at h1
      exact h1
    · simp only [if_neg hd, if_neg hn]
      cases ret <;> simp [hd, hn, h1]

/-- How an operation changes the metrics map. -/
def mEvolve (a : Abs) (m : GoMap MKey MVal) : POp → GoMap MKey MVal
  | .enter c _ _ => if counted a c then updateKtime m c.ns c.nr c.mtime else m
  | .exit c ret _ => if counted a c then updateMetrics m c.ns c.nr (errOf ret) c.mtime else m
  | _ => m

theorem pstep_rel (tbl : Syscalls) (hf : BitVec 32 → Bool) {s : PState} {a : Abs} (h : Rel s.maps a) (o : POp) :
    Rel (pstep tbl hf s o).1.maps (absStep tbl a o) ∧ (pstep tbl hf s o).1.metrics = mEvolve a s.metrics o := by
  cases o with
  | api o => exact ⟨(rel_step tbl h o).1, rfl⟩
  | enter c args full =>
    obtain ⟨h1, h2, h3⟩ := fillMetrics_eq tbl h c none
    simp only [pstep, enter, absStep, mEvolve]
    by_cases hn : c.nr = nrExecve
    · simp only [if_pos hn]; exact ⟨h1, h3⟩
    · simp only [if_neg hn]
      obtain ⟨r1, r2⟩ := rel_call tbl h1 c.ns c.proc c.nr
      split
      · exact ⟨r1, h3⟩
      · split
        · exact ⟨r1, h3⟩
        · exact ⟨r1, h3⟩
  | exit c ret scratch =>
    obtain ⟨h1, h2, h3⟩ := fillMetrics_eq tbl h c (some ret)
    simp only [pstep, Swoll.Probe.exit, absStep, mEvolve]
    split
    · exact ⟨h1, h3⟩
    · split
      · exact ⟨h1, h3⟩
      · split
        · exact ⟨h1, h3⟩
        · exact ⟨h1, h3⟩
  | execve c scratch =>
    obtain ⟨r1, r2⟩ := rel_call tbl h c.ns c.proc c.nr
    simp only [pstep, execve, absStep, mEvolve]
    split
    · exact ⟨r1, rfl⟩
    · split
      · exact ⟨r1, rfl⟩
      · exact ⟨r1, rfl⟩

/-- The error number computation lands in the specified bucket. -/
theorem errOf_bucket (ret : BitVec 64) :
    (if (errOf ret ≠ 0 && (errOf ret).slt 255) then (errOf ret).setWidth 16 else 0) =
      BitVec.ofNat 16 (bucket ret) := by
  unfold errOf bucket
  generalize hr : ret.setWidth 32 = r
  dsimp only
  have hslt : r.slt 0 = decide (r.toInt < 0) := by simp [BitVec.slt]
  rw [hslt]
  by_cases h0 : r.toInt < 0
  · simp only [h0, decide_true, if_true]
    by_cases hm : r = BitVec.intMin 32
    · subst hm; decide
    · have hneg : (-r).toInt = -r.toInt := BitVec.toInt_neg_of_ne_intMin hm
      have hne : -r ≠ 0 := by
        intro e; rw [e] at hneg; simp at hneg; omega
      have hs : (-r).slt 255 = decide (-r.toInt < 255) := by
        rw [BitVec.slt, hneg]; rfl
      rw [hs]
      by_cases h1 : -255 < r.toInt
      · have h2 : -r.toInt < 255 := by omega
        simp only [hne, ne_eq, not_false_eq_true, decide_true, h2, Bool.and_self, if_true, h1, and_self]
        have hn : ((-r).toNat : Int) = -r.toInt := by
          have hlt := (-r).isLt
          rw [← hneg, BitVec.toInt_eq_toNat_cond]
          rw [BitVec.toInt_eq_toNat_cond] at hneg
          split at hneg
          · rw [if_pos (by assumption)]
          · omega
        apply BitVec.eq_of_toNat_eq
        rw [BitVec.toNat_setWidth, BitVec.toNat_ofNat]
        congr 1
        omega
      · have h2 : ¬ (-r.toInt < 255) := by omega
        simp [h2, h1]
  · simp only [h0, decide_false, Bool.false_eq_true, if_false, and_false]
    simp

theorem bucket_lt (ret : BitVec 64) : bucket ret < 255 := by
  unfold bucket
  dsimp only
  split <;> omega

theorem errOf_zero (ret : BitVec 64) : errOf ret = 0 ↔ 0 ≤ (ret.setWidth 32).toInt := by
  unfold errOf
  generalize ret.setWidth 32 = r
  have hslt : r.slt 0 = decide (r.toInt < 0) := by simp [BitVec.slt]
  rw [hslt]
  by_cases h0 : r.toInt < 0
  · simp only [h0, decide_true, if_true]
    constructor
    · intro h
      have : r = 0 := by
        have := congrArg (fun x => -x) h
        simpa using this
      rw [this] at h0; simp at h0
    · intro h; omega
  · simp [h0]; omega

/-- The key written by `updateMetrics`. -/
theorem updateMetrics_get (m : GoMap MKey MVal) (ns nr : BitVec 32) (ret : BitVec 64) (t : BitVec 64) (k : MKey) :
    GoMap.get (updateMetrics m ns nr (errOf ret) t) k =
      if k = ⟨ns, nr, BitVec.ofNat 16 (bucket ret)⟩ then
        some (match GoMap.get m k with
          | some v => ⟨v.count + 1, v.time + (t -
              (if errOf ret = 0 then v.enterKtime
               else if (errOf ret).slt 255 then
                 (match GoMap.get m ⟨ns, nr, 0⟩ with
                  | some v0 => v0.enterKtime
                  | none => t)
               else 0)), v.first, t, v.enterKtime⟩
          | none => ⟨1, 0, t, t, 0⟩)
      else GoMap.get m k := by
  unfold updateMetrics
  have hkey : (if (errOf ret ≠ 0 && (errOf ret).slt 255) then (⟨ns, nr, (errOf ret).setWidth 16⟩ : MKey)
      else ⟨ns, nr, 0⟩) = ⟨ns, nr, BitVec.ofNat 16 (bucket ret)⟩ := by
    rw [← errOf_bucket]
    split <;> rfl
  dsimp only
  rw [hkey, GoMap.get_set]
  by_cases hk : k = ⟨ns, nr, BitVec.ofNat 16 (bucket ret)⟩
  · rw [if_pos hk, if_pos hk.symm, hk]
    cases hg : GoMap.get m ⟨ns, nr, BitVec.ofNat 16 (bucket ret)⟩ with
    | none => simp
    | some v =>
      by_cases he : errOf ret = 0
      · simp [he]
      · have he' : ¬ errOf ret = 0#32 := he
        by_cases hs : (errOf ret).slt 255#32 = true
        · simp [he', hs]
          cases GoMap.get m ⟨ns, nr, 0#16⟩ <;> rfl
        · simp [he', hs]
  · rw [if_neg hk, if_neg (fun e => hk e.symm)]

theorem updateKtime_get (m : GoMap MKey MVal) (ns nr : BitVec 32) (t : BitVec 64) (k : MKey) :
    GoMap.get (updateKtime m ns nr t) k =
      if k = ⟨ns, nr, 0⟩ then
        some (match GoMap.get m k with
          | some v => { v with enterKtime := t }
          | none => ⟨0, 0, t, 0, t⟩)
      else GoMap.get m k := by
  unfold updateKtime
  dsimp only
  rw [GoMap.get_set]
  by_cases hk : k = ⟨ns, nr, 0⟩
  · rw [if_pos hk, if_pos hk.symm, hk]
    cases hg : GoMap.get m ⟨ns, nr, 0⟩ <;> simp
  · rw [if_neg hk, if_neg (fun e => hk e.symm)]

/-- Induction on a list from its end. -/
theorem snoc_induction {α : Type} {P : List α → Prop} (h0 : P []) (h1 : ∀ xs x, P xs → P (xs ++ [x])) :
    ∀ xs, P xs := by
  intro xs
  rw [← List.reverse_reverse xs]
  induction xs.reverse with
  | nil => exact h0
  | cons x ys ih => rw [List.reverse_cons]; exact h1 _ _ ih

theorem prun_snoc (tbl : Syscalls) (hf : BitVec 32 → Bool) (s : PState) (xs : List POp) (o : POp) :
    prun tbl hf s (xs ++ [o]) = (pstep tbl hf (prun tbl hf s xs) o).1 := by
  simp [prun]

theorem rulesAfter_snoc (tbl : Syscalls) (xs : List POp) (o : POp) :
    rulesAfter tbl (xs ++ [o]) = absStep tbl (rulesAfter tbl xs) o := by
  simp [rulesAfter]

theorem prun_rel (tbl : Syscalls) (hf : BitVec 32 → Bool) (hist : List POp) :
    Rel (prun tbl hf PState.init hist).maps (rulesAfter tbl hist) := by
  induction hist using snoc_induction with
  | h0 => exact rel_empty
  | h1 xs o ih => rw [prun_snoc, rulesAfter_snoc]; exact (pstep_rel tbl hf ih o).1

theorem prun_metrics_snoc (tbl : Syscalls) (hf : BitVec 32 → Bool) (hist : List POp) (o : POp) :
    (prun tbl hf PState.init (hist ++ [o])).metrics =
      mEvolve (rulesAfter tbl hist) (prun tbl hf PState.init hist).metrics o := by
  rw [prun_snoc]; exact (pstep_rel tbl hf (prun_rel tbl hf hist) o).2

theorem countFrom_snoc (tbl : Syscalls) (ns nr : BitVec 32) (e : Nat) : ∀ (hist : List POp) (o : POp) (a : Abs),
    countFrom tbl a ns nr e (hist ++ [o]) = countFrom tbl a ns nr e hist +
      (inBucket (hist.foldl (absStep tbl) a) ns nr e o).toNat := by
  intro hist
  induction hist with
  | nil => intro o a; simp [countFrom]
  | cons x xs ih => intro o a; simp only [List.cons_append, countFrom, ih, List.foldl_cons]; omega

theorem bucketKey_inj {ns nr ns' nr' : BitVec 32} {e e' : Nat} (h : e < 255) (h' : e' < 255) :
    ((⟨ns, nr, BitVec.ofNat 16 e⟩ : MKey) = ⟨ns', nr', BitVec.ofNat 16 e'⟩) ↔ ns = ns' ∧ nr = nr' ∧ e = e' := by
  constructor
  · intro hh
    injection hh with h1 h2 h3
    refine ⟨h1, h2, ?_⟩
    have := congrArg BitVec.toNat h3
    simp only [BitVec.toNat_ofNat] at this
    omega
  · rintro ⟨rfl, rfl, rfl⟩; rfl

/-- Effect of one operation on a bucket. -/
theorem mEvolve_get (a : Abs) (m : GoMap MKey MVal) (o : POp) (ns nr : BitVec 32) (e : Nat) (he : e < 255) :
    (inBucket a ns nr e o = true ∧ ∃ c ret sc, o = .exit c ret sc ∧
      ∃ w, GoMap.get (mEvolve a m o) ⟨ns, nr, BitVec.ofNat 16 e⟩ = some w ∧ w.last = c.mtime ∧
      (∀ v, GoMap.get m ⟨ns, nr, BitVec.ofNat 16 e⟩ = some v → w.count = v.count + 1 ∧ w.first = v.first) ∧
      (GoMap.get m ⟨ns, nr, BitVec.ofNat 16 e⟩ = none → w.count = 1 ∧ w.first = c.mtime)) ∨
    (inBucket a ns nr e o = false ∧
      (∀ v, GoMap.get m ⟨ns, nr, BitVec.ofNat 16 e⟩ = some v →
        ∃ w, GoMap.get (mEvolve a m o) ⟨ns, nr, BitVec.ofNat 16 e⟩ = some w ∧ w.count = v.count ∧
          w.first = v.first ∧ w.last = v.last) ∧
      (GoMap.get m ⟨ns, nr, BitVec.ofNat 16 e⟩ = none →
        ∀ w, GoMap.get (mEvolve a m o) ⟨ns, nr, BitVec.ofNat 16 e⟩ = some w → w.count = 0 ∧
          mtimeOf o = some w.first)) := by
  cases o with
  | api o => right; exact ⟨rfl, fun v hv => ⟨v, hv, rfl, rfl, rfl⟩,
      fun hn w hw => by simp only [mEvolve] at hw; rw [hn] at hw; cases hw⟩
  | execve c sc => right; exact ⟨rfl, fun v hv => ⟨v, hv, rfl, rfl, rfl⟩,
      fun hn w hw => by simp only [mEvolve] at hw; rw [hn] at hw; cases hw⟩
  | enter c args full =>
    right
    refine ⟨rfl, ?_, ?_⟩
    · intro v hv
      simp only [mEvolve]
      by_cases hc : counted a c = true
      · rw [if_pos hc, updateKtime_get]
        split
        · rw [hv]; exact ⟨_, rfl, rfl, rfl, rfl⟩
        · exact ⟨v, hv, rfl, rfl, rfl⟩
      · rw [if_neg hc]; exact ⟨v, hv, rfl, rfl, rfl⟩
    · intro hn w hw
      simp only [mEvolve] at hw
      by_cases hc : counted a c = true
      · rw [if_pos hc, updateKtime_get] at hw
        split at hw
        · rw [hn] at hw; injection hw with hw; subst hw; exact ⟨rfl, rfl⟩
        · rw [hn] at hw; cases hw
      · rw [if_neg hc, hn] at hw; cases hw
  | exit c ret sc =>
    by_cases hb : inBucket a ns nr e (.exit c ret sc) = true
    · left
      refine ⟨hb, c, ret, sc, rfl, ?_⟩
      simp only [inBucket, Bool.and_eq_true, beq_iff_eq] at hb
      obtain ⟨⟨⟨h1, h2⟩, h3⟩, h4⟩ := hb
      simp only [mEvolve, h1, if_true]
      rw [updateMetrics_get, if_pos ((bucketKey_inj he (bucket_lt ret)).2 ⟨h2.symm, h3.symm, h4.symm⟩)]
      cases hg : GoMap.get m ⟨ns, nr, BitVec.ofNat 16 e⟩ with
      | none => exact ⟨_, rfl, rfl, by simp, by simp⟩
      | some v =>
        refine ⟨_, rfl, rfl, ?_, by simp⟩
        intro v' hv'
        injection hv' with hv'
        subst hv'
        exact ⟨rfl, rfl⟩
    · right
      have hb' : inBucket a ns nr e (.exit c ret sc) = false := by simpa using hb
      have hsame : GoMap.get (mEvolve a m (.exit c ret sc)) ⟨ns, nr, BitVec.ofNat 16 e⟩ =
          GoMap.get m ⟨ns, nr, BitVec.ofNat 16 e⟩ := by
        simp only [mEvolve]
        by_cases hc : counted a c = true
        · rw [if_pos hc, updateMetrics_get, if_neg]
          intro hk
          obtain ⟨h1, h2, h3⟩ := (bucketKey_inj he (bucket_lt ret)).1 hk
          apply hb
          simp [inBucket, hc, h1, h2, h3]
        · rw [if_neg hc]
      refine ⟨hb', ?_, ?_⟩
      · intro v hv; exact ⟨v, hsame.trans hv, rfl, rfl, rfl⟩
      · intro hn w hw; rw [hsame, hn] at hw; cases hw

theorem nodup_mEvolve (a : Abs) (m : GoMap MKey MVal) (o : POp) (h : GoMap.NodupKeys m) :
    GoMap.NodupKeys (mEvolve a m o) := by
  cases o with
  | api o => exact h
  | execve c sc => exact h
  | enter c args full =>
    simp only [mEvolve]; split
    · exact GoMap.nodupKeys_set h _ _
    · exact h
  | exit c ret sc =>
    simp only [mEvolve]; split
    · exact GoMap.nodupKeys_set h _ _
    · exact h

theorem prun_nodup (tbl : Syscalls) (hf : BitVec 32 → Bool) (hist : List POp) :
    GoMap.NodupKeys (prun tbl hf PState.init hist).metrics := by
  induction hist using snoc_induction with
  | h0 => exact GoMap.nodupKeys_nil
  | h1 xs o ih => rw [prun_metrics_snoc]; exact nodup_mEvolve _ _ _ ih

end Swoll.Lemmas.Probe
