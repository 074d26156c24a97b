import Verif.Lemmas.Probe
import Verif.Props.Filter
/-
C29-C33: kernel metrics, their user-space readers, and enter/exit pairing.
-/
namespace Swoll.Props.Probe
open Swoll Swoll.Syscalls Swoll.Filter Swoll.Probe Swoll.Spec.Filter Swoll.Spec.Probe
open Swoll.Lemmas.Filter Swoll.Lemmas.Probe

variable (tbl : Syscalls) (hasFiller : BitVec 32 → Bool)

/-- State of the probe after a history from load. -/
abbrev after (hist : List POp) : PState := prun tbl hasFiller PState.init hist

/-! ### C29 -/

/-- C29: after any history, the count stored for (namespace, syscall, errno) is the number of
exits of that syscall with that errno that happened in the namespace while metrics were
collected for it; no entry means there were none. -/
theorem c29_counts (hist : List POp) (ns nr : BitVec 32) (e : Nat) (he : e < 255) :
    (∀ v, GoMap.get (after tbl hasFiller hist).metrics ⟨ns, nr, BitVec.ofNat 16 e⟩ = some v →
      v.count = BitVec.ofNat 64 (countFrom tbl Abs.empty ns nr e hist)) ∧
    (GoMap.get (after tbl hasFiller hist).metrics ⟨ns, nr, BitVec.ofNat 16 e⟩ = none →
      countFrom tbl Abs.empty ns nr e hist = 0) := by
  induction hist using snoc_induction with
  | h0 => exact ⟨by intro v hv; simp [after, prun, PState.init] at hv, fun _ => rfl⟩
  | h1 hist o ih =>
    have hcf := countFrom_snoc tbl ns nr e hist o Abs.empty
    unfold after at *
    rw [prun_metrics_snoc, hcf]
    change _ ∧ (_ → _ + (inBucket (rulesAfter tbl hist) ns nr e o).toNat = 0)
    rcases mEvolve_get (rulesAfter tbl hist) (prun tbl hasFiller PState.init hist).metrics o ns nr e he with
      ⟨hb, c, ret, sc, ho, w, hw, _, h1, h2⟩ | ⟨hb, h1, h2⟩
    · constructor
      · intro v hv
        rw [hw] at hv
        injection hv with hv
        subst hv
        change _ = BitVec.ofNat 64 (_ + (inBucket (rulesAfter tbl hist) ns nr e o).toNat)
        rw [hb]
        cases hg : GoMap.get (prun tbl hasFiller PState.init hist).metrics ⟨ns, nr, BitVec.ofNat 16 e⟩ with
        | none => rw [(h2 hg).1, ih.2 hg]; rfl
        | some v0 => rw [(h1 v0 hg).1, ih.1 v0 hg, BitVec.ofNat_add]; rfl
      · intro hn; rw [hw] at hn; cases hn
    · constructor
      · intro v hv
        change _ = BitVec.ofNat 64 (_ + (inBucket (rulesAfter tbl hist) ns nr e o).toNat)
        rw [hb, Bool.toNat_false, Nat.add_zero]
        cases hg : GoMap.get (prun tbl hasFiller PState.init hist).metrics ⟨ns, nr, BitVec.ofNat 16 e⟩ with
        | none => rw [(h2 hg v hv).1, ih.2 hg]; rfl
        | some v0 =>
          obtain ⟨w, hw, hw2, _⟩ := h1 v0 hg
          rw [hw] at hv
          injection hv with hv
          subst hv
          rw [hw2, ih.1 v0 hg]
      · intro hn
        rw [hb, Bool.toNat_false, Nat.add_zero]
        cases hg : GoMap.get (prun tbl hasFiller PState.init hist).metrics ⟨ns, nr, BitVec.ofNat 16 e⟩ with
        | none => exact ih.2 hg
        | some v0 =>
          obtain ⟨w, hw, _⟩ := h1 v0 hg
          rw [hw] at hn; cases hn

/-- C29: no other errno values are ever stored. -/
theorem c29_buckets (hist : List POp) (k : MKey) (v : MVal)
    (h : GoMap.get (after tbl hasFiller hist).metrics k = some v) : k.errno.toNat < 255 := by
  unfold after at h
  induction hist using snoc_induction generalizing v with
  | h0 => simp [prun, PState.init] at h
  | h1 hist o ih =>
    rw [prun_metrics_snoc] at h
    have hold : ∀ v, GoMap.get (prun tbl hasFiller PState.init hist).metrics k = some v → k.errno.toNat < 255 := ih
    cases o with
    | api o => exact ih v h
    | execve c sc => exact ih v h
    | enter c args full =>
      simp only [mEvolve] at h
      split at h
      · rw [updateKtime_get] at h
        split at h
        · rename_i hk; rw [hk]; show (0#16).toNat < 255; decide
        · exact ih v h
      · exact ih v h
    | exit c ret sc =>
      simp only [mEvolve] at h
      split at h
      · rw [updateMetrics_get] at h
        split at h
        · rename_i hk
          rw [hk]
          have := bucket_lt ret
          simp only [BitVec.toNat_ofNat]
          omega
        · exact ih v h
      · exact ih v h

/-- C29: with a clock that does not go back, first_seen and last_seen of an entry bracket every
exit counted in it. -/
theorem c29_seen_bracket (hist : List POp) (hclk : ClockMonotone hist) (ns nr : BitVec 32) (e : Nat)
    (he : e < 255) (v : MVal)
    (hv : GoMap.get (after tbl hasFiller hist).metrics ⟨ns, nr, BitVec.ofNat 16 e⟩ = some v)
    (pre post : List POp) (c : Ctx) (ret : BitVec 64) (sc : Bool)
    (hh : hist = pre ++ POp.exit c ret sc :: post)
    (hin : inBucket (rulesAfter tbl pre) ns nr e (.exit c ret sc) = true) :
    v.first.toNat ≤ c.mtime.toNat ∧ c.mtime.toNat ≤ v.last.toNat := by
  suffices H : ∀ hist, ClockMonotone hist → ∀ v,
      GoMap.get (after tbl hasFiller hist).metrics ⟨ns, nr, BitVec.ofNat 16 e⟩ = some v →
      v.first ∈ hist.filterMap mtimeOf ∧ ∀ pre post c ret sc, hist = pre ++ POp.exit c ret sc :: post →
        inBucket (rulesAfter tbl pre) ns nr e (.exit c ret sc) = true →
        v.first.toNat ≤ c.mtime.toNat ∧ c.mtime.toNat ≤ v.last.toNat by
    exact (H hist hclk v hv).2 pre post c ret sc hh hin
  clear hh hin hv v hclk hist pre post c ret sc
  intro hist
  induction hist using snoc_induction with
  | h0 => intro _ v hv; simp [after, prun, PState.init] at hv
  | h1 hist o ih =>
    intro hclk v hv
    have hclk' : ClockMonotone hist ∧ ∀ x ∈ hist.filterMap mtimeOf, ∀ y, mtimeOf o = some y → x.toNat ≤ y.toNat := by
      unfold ClockMonotone at hclk
      rw [List.filterMap_append, List.pairwise_append] at hclk
      refine ⟨hclk.1, fun x hx y hy => hclk.2.2 x hx y ?_⟩
      simp [hy]
    have hmono := hclk'.1
    -- an exit inside `hist ++ [o]` is either in `hist` or the last operation
    have hsplit : ∀ pre post c ret sc, hist ++ [o] = pre ++ POp.exit c ret sc :: post →
        (∃ post', hist = pre ++ POp.exit c ret sc :: post') ∨ (pre = hist ∧ o = POp.exit c ret sc) := by
      intro pre post c ret sc hh
      rcases List.eq_nil_or_concat post with rfl | ⟨post', o', rfl⟩
      · right
        have h := List.append_inj' hh rfl
        injection h.2 with h2
        exact ⟨h.1.symm, h2⟩
      · left
        have hh2 : hist ++ [o] = (pre ++ POp.exit c ret sc :: post') ++ [o'] := by simpa using hh
        exact ⟨post', (List.append_inj' hh2 rfl).1⟩
    have hmemex : ∀ pre post c ret sc, hist = pre ++ POp.exit c ret sc :: post →
        c.mtime ∈ hist.filterMap mtimeOf := by
      intro pre post c ret sc hh
      rw [hh, List.filterMap_append]
      simp [mtimeOf]
    unfold after at hv ih
    rw [prun_metrics_snoc] at hv
    rcases mEvolve_get (rulesAfter tbl hist) (prun tbl hasFiller PState.init hist).metrics o ns nr e he with
      ⟨hb, c, ret, sc, ho, w, hw, hlast, h1, h2⟩ | ⟨hb, h1, h2⟩
    · rw [hw] at hv
      injection hv with hv
      subst hv
      have hot : mtimeOf o = some c.mtime := by rw [ho]; rfl
      have hfirst : w.first ∈ (hist ++ [o]).filterMap mtimeOf ∧ w.first.toNat ≤ c.mtime.toNat := by
        cases hg : GoMap.get (prun tbl hasFiller PState.init hist).metrics ⟨ns, nr, BitVec.ofNat 16 e⟩ with
        | none =>
          rw [(h2 hg).2]
          refine ⟨?_, Nat.le_refl _⟩
          rw [List.filterMap_append]; simp [hot]
        | some v0 =>
          rw [(h1 v0 hg).2]
          have := (ih hmono v0 hg).1
          refine ⟨?_, hclk'.2 _ this _ hot⟩
          rw [List.filterMap_append]; exact List.mem_append_left _ this
      refine ⟨hfirst.1, ?_⟩
      intro pre post c' ret' sc' hh hin
      rw [hlast]
      rcases hsplit _ _ _ _ _ hh with ⟨post', hh'⟩ | ⟨rfl, ho'⟩
      · refine ⟨?_, hclk'.2 _ (hmemex _ _ _ _ _ hh') _ hot⟩
        cases hg : GoMap.get (prun tbl hasFiller PState.init hist).metrics ⟨ns, nr, BitVec.ofNat 16 e⟩ with
        | none =>
          -- impossible: an earlier counted exit would have left an entry
          exfalso
          have hz := (c29_counts tbl hasFiller hist ns nr e he).2 hg
          rw [hh'] at hz
          have hpos : ∀ (xs ys : List POp) (x : POp) (a : Abs), inBucket (xs.foldl (absStep tbl) a) ns nr e x = true →
              0 < countFrom tbl a ns nr e (xs ++ x :: ys) := by
            intro xs
            induction xs with
            | nil => intro ys x a hx; simp only [List.nil_append, countFrom]; simp only [List.foldl_nil] at hx; rw [hx]; simp; omega
            | cons z zs ihz => intro ys x a hx; simp only [List.cons_append, countFrom]; have := ihz ys x _ hx; omega
          have := hpos pre post' _ Abs.empty hin
          omega
        | some v0 =>
          rw [(h1 v0 hg).2]
          exact ((ih hmono v0 hg).2 _ _ _ _ _ hh' hin).1
      · rw [ho] at ho'
        injection ho' with e1 e2 e3
        subst e1
        exact ⟨hfirst.2, Nat.le_refl _⟩
    · cases hg : GoMap.get (prun tbl hasFiller PState.init hist).metrics ⟨ns, nr, BitVec.ofNat 16 e⟩ with
      | none =>
        have hwf := (h2 hg v hv).2
        refine ⟨by rw [List.filterMap_append]; simp [hwf], ?_⟩
        intro pre post c' ret' sc' hh hin
        rcases hsplit _ _ _ _ _ hh with ⟨post', hh'⟩ | ⟨rfl, ho'⟩
        · exfalso
          have hz := (c29_counts tbl hasFiller hist ns nr e he).2 hg
          rw [hh'] at hz
          have hpos : ∀ (xs ys : List POp) (x : POp) (a : Abs), inBucket (xs.foldl (absStep tbl) a) ns nr e x = true →
              0 < countFrom tbl a ns nr e (xs ++ x :: ys) := by
            intro xs
            induction xs with
            | nil => intro ys x a hx; simp only [List.nil_append, countFrom]; simp only [List.foldl_nil] at hx; rw [hx]; simp; omega
            | cons z zs ihz => intro ys x a hx; simp only [List.cons_append, countFrom]; have := ihz ys x _ hx; omega
          have := hpos pre post' _ Abs.empty hin
          omega
        · rw [ho'] at hb; rw [hb] at hin; cases hin
      | some v0 =>
        obtain ⟨w, hw, _, hf, hl⟩ := h1 v0 hg
        rw [hw] at hv
        injection hv with hv
        subst hv
        rw [hf, hl]
        obtain ⟨i1, i2⟩ := ih hmono v0 hg
        refine ⟨by rw [List.filterMap_append]; exact List.mem_append_left _ i1, ?_⟩
        intro pre post c' ret' sc' hh hin
        rcases hsplit _ _ _ _ _ hh with ⟨post', hh'⟩ | ⟨rfl, ho'⟩
        · exact i2 _ _ _ _ _ hh' hin
        · rw [ho'] at hb; rw [hb] at hin; cases hin

/-! ### C30 -/

/-- C30, the part that holds: as long as calls of the pair do not overlap, every exit follows
its enter and no error number of 255 or more is returned, the time stored for the success
bucket is the sum of the durations of its calls. -/
theorem c30_time_partial (hist : List POp) (ns nr : BitVec 32) (T : BitVec 64)
    (hT : timeFrom tbl Abs.empty ns nr none 0 hist = some T) (v : MVal)
    (hv : GoMap.get (after tbl hasFiller hist).metrics ⟨ns, nr, 0⟩ = some v) : v.time = T := by
  suffices H : ∀ (hist : List POp) (s : PState) (a : Abs) (opened : Option (BitVec 64)) (acc T : BitVec 64),
      Rel s.maps a →
      ((∃ v, GoMap.get s.metrics ⟨ns, nr, 0⟩ = some v ∧ v.time = acc ∧ ∀ t, opened = some t → v.enterKtime = t) ∨
        (GoMap.get s.metrics ⟨ns, nr, 0⟩ = none ∧ opened = none ∧ acc = 0)) →
      timeFrom tbl a ns nr opened acc hist = some T →
      ∀ v, GoMap.get (prun tbl hasFiller s hist).metrics ⟨ns, nr, 0⟩ = some v → v.time = T by
    exact H hist PState.init Abs.empty none 0 T rel_empty (Or.inr ⟨rfl, rfl, rfl⟩) hT v hv
  clear hv v hT T hist
  intro hist
  induction hist with
  | nil =>
    intro s a opened acc T hrel hst hT v hv
    simp only [timeFrom] at hT
    injection hT with hT
    subst hT
    rcases hst with ⟨v0, h1, h2, _⟩ | ⟨h1, _⟩
    · simp only [prun, List.foldl_nil] at hv
      rw [h1] at hv
      injection hv with hv
      subst hv
      exact h2
    · simp only [prun, List.foldl_nil] at hv
      rw [h1] at hv; cases hv
  | cons o os ih =>
    intro s a opened acc T hrel hst hT v hv
    obtain ⟨hr, hm⟩ := pstep_rel tbl hasFiller hrel o
    have hv' : GoMap.get (prun tbl hasFiller (pstep tbl hasFiller s o).1 os).metrics ⟨ns, nr, 0⟩ = some v := hv
    -- operations that leave the success bucket alone
    have keep : ∀ opened' acc', opened' = opened → acc' = acc →
        GoMap.get (mEvolve a s.metrics o) ⟨ns, nr, 0⟩ = GoMap.get s.metrics ⟨ns, nr, 0⟩ →
        timeFrom tbl (absStep tbl a o) ns nr opened' acc' os = some T → v.time = T := by
      intro opened' acc' e1 e2 hsame hTT
      subst e1; subst e2
      refine ih _ _ _ _ T hr ?_ hTT v hv'
      rw [hm, hsame]; exact hst
    cases o with
    | api o => exact keep opened acc rfl rfl rfl (by simpa only [timeFrom] using hT)
    | execve c sc => exact keep opened acc rfl rfl rfl (by simpa only [timeFrom] using hT)
    | enter c args full =>
      simp only [timeFrom] at hT
      by_cases hc : (counted a c && c.ns == ns && c.nr == nr) = true
      · rw [if_pos hc] at hT
        simp only [Bool.and_eq_true, beq_iff_eq] at hc
        obtain ⟨⟨h1, h2⟩, h3⟩ := hc
        cases opened with
        | some t => cases hT
        | none =>
          refine ih _ _ _ _ T hr ?_ hT v hv'
          rw [hm]
          simp only [mEvolve, h1, if_true]
          rw [updateKtime_get, if_pos (by rw [h2, h3])]
          rcases hst with ⟨v0, g1, g2, _⟩ | ⟨g1, _, g3⟩
          · left
            rw [g1]
            exact ⟨_, rfl, g2, by intro t ht; injection ht⟩
          · left
            rw [g1]
            exact ⟨_, rfl, g3.symm, by intro t ht; injection ht⟩
      · rw [if_neg hc] at hT
        refine keep opened acc rfl rfl ?_ hT
        simp only [mEvolve]
        split
        · rename_i h1
          rw [updateKtime_get, if_neg]
          intro hk
          injection hk with k1 k2
          apply hc
          simp [h1, k1, k2]
        · rfl
    | exit c ret sc =>
      simp only [timeFrom] at hT
      by_cases hc : (counted a c && c.ns == ns && c.nr == nr) = true
      · rw [if_pos hc] at hT
        simp only [Bool.and_eq_true, beq_iff_eq] at hc
        obtain ⟨⟨h1, h2⟩, h3⟩ := hc
        cases opened with
        | none => cases hT
        | some t =>
          simp only at hT
          rcases hst with ⟨v0, g1, g2, g3⟩ | ⟨_, g2, _⟩
          · by_cases hpos : 0 ≤ (ret.setWidth 32).toInt
            · rw [if_pos hpos] at hT
              have hb0 : bucket ret = 0 := by
                unfold bucket; dsimp only; rw [if_neg]; omega
              have he0 : errOf ret = 0 := (errOf_zero ret).2 hpos
              refine ih _ _ _ _ T hr ?_ hT v hv'
              rw [hm]
              simp only [mEvolve, h1, if_true]
              rw [updateMetrics_get, if_pos (by rw [h2, h3, hb0]; rfl)]
              left
              rw [g1]
              refine ⟨_, rfl, ?_, by intro t ht; cases ht⟩
              simp only [he0, if_true]
              rw [g2, g3 t rfl]
            · rw [if_neg hpos] at hT
              by_cases hsm : -255 < (ret.setWidth 32).toInt
              · rw [if_pos hsm] at hT
                have hb0 : 0 < bucket ret := by
                  unfold bucket; dsimp only; rw [if_pos]; omega; omega
                refine ih _ _ _ _ T hr ?_ hT v hv'
                rw [hm]
                have hsame : GoMap.get (mEvolve a s.metrics (.exit c ret sc)) ⟨ns, nr, 0⟩ =
                    GoMap.get s.metrics ⟨ns, nr, 0⟩ := by
                  simp only [mEvolve, h1, if_true]
                  rw [updateMetrics_get, if_neg]
                  intro hk
                  injection hk with _ _ k3
                  have := congrArg BitVec.toNat k3
                  have hlt := bucket_lt ret
                  have hz : (0 : BitVec 16).toNat = 0 := rfl
                  rw [hz] at this
                  simp only [BitVec.toNat_ofNat] at this
                  omega
                rw [hsame]
                left
                exact ⟨v0, g1, g2, by intro t ht; cases ht⟩
              · rw [if_neg hsm] at hT; cases hT
          · cases g2
      · rw [if_neg hc] at hT
        refine keep opened acc rfl rfl ?_ hT
        simp only [mEvolve]
        split
        · rename_i h1
          rw [updateMetrics_get, if_neg]
          intro hk
          injection hk with k1 k2
          apply hc
          simp [h1, k1, k2]
        · rfl

/-- A task for the examples: thread `p` of namespace 7 at clock `t`, calling `id`. -/
def demoCtx (p id : Nat) (t : Nat) : Ctx :=
  ⟨BitVec.ofNat 64 p, 0, 7, BitVec.ofNat 64 id, BitVec.ofNat 64 t, BitVec.ofNat 64 t⟩

/-- Metrics enabled for namespace 7. -/
def demoSetup : List POp := [.api .enable, .api (.addMetrics 7 {})]

/-- C30 violated (1): two threads of one namespace in overlapping calls of 20 ns each are
charged 30 ns together instead of 40, because the enter time is kept per (namespace, syscall). -/
theorem c30_overlap_violated :
    (GoMap.get (after Filter.demoTbl (fun _ => true) (demoSetup ++
      [.enter (demoCtx 1 0 100) [] false, .enter (demoCtx 2 0 110) [] false,
       .exit (demoCtx 1 0 120) 0 true, .exit (demoCtx 2 0 130) 0 true])).metrics ⟨7, 0, 0⟩).map
      (fun v => (v.count, v.time)) = some (2, 30) := by decide +kernel

/-- C30 violated (2), for every state: an exit with an error number of 255 or more (e.g. -512,
ERESTARTSYS) adds the whole clock value to the time of the success bucket. -/
theorem c30_restart_violated (hist : List POp) (c : Ctx) (ret : BitVec 64) (sc : Bool) (v : MVal)
    (hm : counted (rulesAfter tbl hist) c = true) (h1 : (ret.setWidth 32).toInt ≤ -255)
    (h2 : -2 ^ 31 < (ret.setWidth 32).toInt)
    (hv : GoMap.get (after tbl hasFiller hist).metrics ⟨c.ns, c.nr, 0⟩ = some v) :
    (GoMap.get (after tbl hasFiller (hist ++ [.exit c ret sc])).metrics ⟨c.ns, c.nr, 0⟩).map (·.time) =
      some (v.time + c.mtime) := by
  unfold after at *
  rw [prun_metrics_snoc]
  simp only [mEvolve, hm, if_true]
  have hb0 : bucket ret = 0 := by unfold bucket; dsimp only; rw [if_neg]; omega
  have he : ¬ errOf ret = 0 := by rw [errOf_zero]; omega
  have hs : ¬ (errOf ret).slt 255 = true := by
    unfold errOf
    have hmin : ret.setWidth 32 ≠ BitVec.intMin 32 := by
      intro e; rw [e] at h2; revert h2; decide
    have hneg := BitVec.toInt_neg_of_ne_intMin hmin
    have : (ret.setWidth 32).slt 0 = true := by
      rw [BitVec.slt]
      have hz : (0 : BitVec 32).toInt = 0 := rfl
      rw [hz]
      exact decide_eq_true (by omega)
    rw [if_pos this, BitVec.slt, hneg]
    have h255 : (255 : BitVec 32).toInt = 255 := by decide
    rw [h255]
    intro hd
    have := of_decide_eq_true hd
    omega
  rw [updateMetrics_get, if_pos (by rw [hb0]; rfl), hv]
  simp only [he, hs, if_false, Option.map_some, Bool.false_eq_true]
  simp

example : (GoMap.get (after Filter.demoTbl (fun _ => true) (demoSetup ++
      [.enter (demoCtx 1 0 100) [] false, .exit (demoCtx 1 0 150) (-512) true])).metrics ⟨7, 0, 0⟩).map
      (fun v => (v.count, v.time)) = some (1, 150) := by decide +kernel

/-- Non-vacuity of `c30_time_partial`: two sequential calls, one of them failing with EPERM. -/
example : timeFrom Filter.demoTbl Abs.empty 7 0 none 0 (demoSetup ++
    [.enter (demoCtx 1 0 100) [] false, .exit (demoCtx 1 0 150) 3 true,
     .enter (demoCtx 2 0 200) [] false, .exit (demoCtx 2 0 220) (-1) true,
     .enter (demoCtx 2 0 300) [] false, .exit (demoCtx 2 0 307) 0 true]) = some 57 := by decide +kernel

/-- Non-vacuity for C29: the same history, counted by bucket. -/
example : countFrom Filter.demoTbl Abs.empty 7 0 0 (demoSetup ++
    [.enter (demoCtx 1 0 100) [] false, .exit (demoCtx 1 0 150) 3 true,
     .enter (demoCtx 2 0 200) [] false, .exit (demoCtx 2 0 220) (-1) true,
     .enter (demoCtx 2 0 300) [] false, .exit (demoCtx 2 0 307) (-512) true]) = 2 := by decide +kernel

/-! ### C31, C32 -/

/-- Namespace 0 was never monitored. -/
def NoNsZero (hist : List POp) : Prop :=
  ∀ n f, POp.api (.addMetrics n f) ∈ hist → n = -1 ∨ BitVec.ofInt 32 n ≠ 0#32

theorem met_only_added (hist : List POp) (x : BitVec 32)
    (h : ∀ n f, POp.api (.addMetrics n f) ∈ hist → n = -1 ∨ BitVec.ofInt 32 n ≠ x) :
    (rulesAfter tbl hist).met x = false := by
  induction hist using snoc_induction with
  | h0 => rfl
  | h1 hist o ih =>
    have ih' := ih (fun n f hm => h n f (by simp [hm]))
    rw [rulesAfter_snoc]
    have hcall : ∀ (a : Abs) (c : Ctx), a.met x = false → (a.step tbl (.callEvent c.ns c.proc c.nr)).1.met x = false := by
      intro a c ha
      simp only [Abs.step]
      split
      · split <;> exact ha
      · exact ha
    cases o with
    | enter c args full => simp only [absStep]; split; exact ih'; exact hcall _ _ ih'
    | exit c ret sc => exact ih'
    | execve c sc => exact hcall _ _ ih'
    | api o =>
      simp only [absStep]
      cases o with
      | addMetrics n f =>
        rcases h n f (by simp) with h1 | h1
        · subst h1; simp only [Abs.step, scope, if_true]; split <;> exact ih'
        · simp only [Abs.step, scope]
          split
          · exact ih'
          · split
            · exact ih'
            · rename_i y hy
              split at hy
              · cases hy
              · injection hy with hy
                subst hy
                simp only [if_neg (fun e => h1 (Eq.symm e))]
                exact ih'
      | addSyscall k n f =>
        simp only [Abs.step]; split
        · exact ih'
        · split <;> exact ih'
      | addSampled k n r f =>
        simp only [Abs.step]; split
        · exact ih'
        · split <;> exact ih'
      | removeSyscall k n => simp only [Abs.step]; split <;> exact ih'
      | removeMetrics n => exact ih'
      | enable => exact ih'
      | callEvent a1 a2 a3 =>
        simp only [Abs.step]
        split
        · split <;> exact ih'
        · exact ih'
      | metricsEvent a1 a2 a3 => exact ih'

theorem no_ns_zero_entry (hist : List POp) (h : NoNsZero hist) (k : MKey) (hk : k.pidNs = 0) :
    GoMap.get (after tbl hasFiller hist).metrics k = none := by
  unfold after
  induction hist using snoc_induction with
  | h0 => rfl
  | h1 hist o ih =>
    have hh : NoNsZero hist := fun n f hm => h n f (by simp [hm])
    have ih' := ih hh
    have hmet := met_only_added tbl hist 0#32 hh
    rw [prun_metrics_snoc]
    cases o with
    | api o => exact ih'
    | execve c sc => exact ih'
    | enter c args full =>
      simp only [mEvolve]
      split
      · rename_i hc
        rw [updateKtime_get, if_neg]
        · exact ih'
        · intro e
          rw [e] at hk
          have hk : c.ns = 0#32 := hk
          simp [counted, hk, hmet] at hc
      · exact ih'
    | exit c ret sc =>
      simp only [mEvolve]
      split
      · rename_i hc
        rw [updateMetrics_get, if_neg]
        · exact ih'
        · intro e
          rw [e] at hk
          have hk : c.ns = 0#32 := hk
          simp [counted, hk, hmet] at hc
      · exact ih'

/-- C32, for histories in which namespace 0 is not monitored: whatever order the kernel keeps
the map in, `QueryAll` terminates and returns every metric exactly once. (Namespace ids of a
running kernel are never 0, but nothing in the code excludes `AddMetrics(0)`; see
`c32_query_all_violated`.) -/
theorem c32_query_all_partial (hist : List POp) (hz : NoNsZero hist) (order : GoMap MKey MVal)
    (ho : order.Perm (after tbl hasFiller hist).metrics) (fuel : Nat) (hf : order.length < fuel) :
    ∃ ms, queryAll order fuel = some ms ∧ (ms.map (·.1)).Nodup ∧
      ∀ k v, (k, v) ∈ ms ↔ GoMap.get (after tbl hasFiller hist).metrics k = some v := by
  have hn := prun_nodup tbl hasFiller hist
  have hno : GoMap.NodupKeys order := GoMap.keys_perm_nodup ho.symm hn
  have hz0 : GoMap.get order ⟨0, 0, 0⟩ = none := by
    rw [GoMap.get_perm ho hno]; exact no_ns_zero_entry tbl hasFiller hist hz _ rfl
  refine ⟨order, BpfIter.iterate_absent order _ hno hz0 fuel hf, hno, ?_⟩
  intro k v
  rw [← GoMap.get_perm ho hno, ← GoMap.mem_iff_get hno]

/-- C32 in general: what `QueryAll` returns on any map. When the all-zero key is present, only
the entries the kernel keeps after it are returned. -/
theorem c32_query_all_general (pre post : GoMap MKey MVal) (v : MVal)
    (hn : GoMap.NodupKeys (pre ++ (⟨0, 0, 0⟩, v) :: post)) (fuel : Nat) (hf : post.length < fuel) :
    queryAll (pre ++ (⟨0, 0, 0⟩, v) :: post) fuel = some post :=
  BpfIter.iterate_present pre post (⟨0, 0, 0⟩, v) hn fuel hf

/-- C32 violated: once `read` (0) succeeds in a monitored namespace 0, an entry with the
all-zero key exists, and `QueryAll` never returns it, nor anything stored before it. -/
theorem c32_query_all_violated :
    ∃ hist : List POp, ∃ v, (after Filter.demoTbl (fun _ => true) hist).metrics = [(⟨0, 0, 0⟩, v)] ∧
      v.count = 1 ∧ queryAll [(⟨0, 0, 0⟩, v)] 10 = some [] := by
  refine ⟨[.api .enable, .api (.addMetrics 0 {}), .enter ⟨1, 0, 0, 0, 5, 5⟩ [] false,
    .exit ⟨1, 0, 0, 0, 9, 9⟩ 0 true], ⟨1, 4, 5, 9, 5⟩, ?_, rfl, ?_⟩
  · decide +kernel
  · decide +kernel

theorem foldl_del_get (ks : List MKey) : ∀ (m : GoMap MKey MVal) (k : MKey),
    GoMap.get (ks.foldl GoMap.del m) k = if k ∈ ks then none else GoMap.get m k := by
  induction ks with
  | nil => intro m k; simp
  | cons x xs ih =>
    intro m k
    rw [List.foldl_cons, ih, GoMap.get_del]
    by_cases h1 : k ∈ xs
    · simp [h1]
    · by_cases h2 : x = k
      · simp [h2]
      · have : ¬ k = x := fun e => h2 e.symm
        simp [h1, h2, this]

/-- C31, for histories in which namespace 0 is not monitored: `PruneNamespace(ns)` removes
exactly the metrics of `ns` and reports how many there were. -/
theorem c31_prune_partial (hist : List POp) (hz : NoNsZero hist) (order : GoMap MKey MVal)
    (ho : order.Perm (after tbl hasFiller hist).metrics) (fuel : Nat) (hf : order.length < fuel) (ns : Int) :
    ∃ m' n, pruneNamespace order ns fuel = some (m', n) ∧
      (∀ k, GoMap.get m' k = if k.pidNs = BitVec.ofInt 32 ns then none
        else GoMap.get (after tbl hasFiller hist).metrics k) ∧
      n = ((after tbl hasFiller hist).metrics.filter (fun e => e.1.pidNs = BitVec.ofInt 32 ns)).length := by
  have hn := prun_nodup tbl hasFiller hist
  have hno : GoMap.NodupKeys order := GoMap.keys_perm_nodup ho.symm hn
  have hz0 : GoMap.get order ⟨0, 0, 0⟩ = none := by
    rw [GoMap.get_perm ho hno]; exact no_ns_zero_entry tbl hasFiller hist hz _ rfl
  refine ⟨_, _, by rw [pruneNamespace, BpfIter.iterate_absent order _ hno hz0 fuel hf]; rfl, ?_, ?_⟩
  · intro k
    rw [foldl_del_get, GoMap.get_perm ho hno]
    by_cases hk : k.pidNs = BitVec.ofInt 32 ns
    · rw [if_pos hk]
      by_cases hm : k ∈ (order.map (·.1)).filter (fun k => k.pidNs = BitVec.ofInt 32 ns)
      · rw [if_pos hm]
      · rw [if_neg hm, ← GoMap.get_perm ho hno, GoMap.get_eq_none_iff]
        intro hk2
        apply hm
        rw [List.mem_filter]
        exact ⟨hk2, by simpa using hk⟩
    · rw [if_neg hk, if_neg]
      intro hm
      rw [List.mem_filter] at hm
      exact hk (by simpa using hm.2)
  · rw [← (ho.filter _).length_eq, List.filter_map, List.length_map]
    rfl

/-- C31 violated: with the all-zero key present, pruning namespace 0 leaves it behind. -/
theorem c31_prune_violated : ∃ v, pruneNamespace [(⟨0, 0, 0⟩, v)] 0 10 = some ([(⟨0, 0, 0⟩, v)], 0) :=
  ⟨⟨1, 4, 5, 9, 5⟩, by decide +kernel⟩

example : NoNsZero demoSetup := by
  intro n f h
  simp [demoSetup] at h
  right; rw [h.1]; decide

/-! ### C33 -/

theorem step_state (s : PState) (a : Abs) (h : Rel s.maps a) (o : POp) (p : BitVec 64) :
    (IsExit p o → GoMap.get (pstep tbl hasFiller s o).1.state p = none) ∧
    (∀ c args full, o = .enter c args full → c.pidTgid = p → Recorded tbl a c full →
      GoMap.get (pstep tbl hasFiller s o).1.state p = some ⟨c.id, args, c.uidGid, c.time⟩) ∧
    ((¬ IsExit p o) → (∀ c args full, o = .enter c args full → c.pidTgid = p → ¬ Recorded tbl a c full) →
      GoMap.get (pstep tbl hasFiller s o).1.state p = GoMap.get s.state p) := by
  cases o with
  | api o => exact ⟨fun h => h.elim, fun _ _ _ h => (nomatch h), fun _ _ => rfl⟩
  | execve c sc =>
    refine ⟨fun h => h.elim, fun _ _ _ h => (nomatch h), fun _ _ => ?_⟩
    simp only [pstep, execve]
    split
    · rfl
    · split <;> rfl
  | exit c ret sc =>
    obtain ⟨_, h2, _⟩ := fillMetrics_eq tbl h c (some ret)
    refine ⟨?_, fun _ _ _ h => (nomatch h), ?_⟩
    · intro hp
      have hp : c.pidTgid = p := hp
      subst hp
      simp only [pstep, Swoll.Probe.exit]
      split
      · assumption
      · split
        · simp
        · split <;> simp
    · intro hp _
      have hp : c.pidTgid ≠ p := hp
      simp only [pstep, Swoll.Probe.exit]
      split
      · rw [h2]
      · split
        · rw [GoMap.get_del_other _ hp, h2]
        · split
          · rw [GoMap.get_del_other _ hp, h2]
          · rw [GoMap.get_del_other _ hp, h2]
  | enter c args full =>
    obtain ⟨h1, h2, _⟩ := fillMetrics_eq tbl h c none
    obtain ⟨_, r2⟩ := rel_call tbl h1 c.ns c.proc c.nr
    refine ⟨fun h => h.elim, ?_, ?_⟩
    · rintro c' args' full' ho hp ⟨k1, k2, k3⟩
      injection ho with e1 e2 e3
      subst e1; subst e2; subst e3
      unfold Passes at k2
      rw [k2] at r2
      have hnd : (runNfilter (fillMetrics s c none).maps fmodeSyscall c.ns c.proc c.nr).2 ≠ factionDrop := by
        simpa using r2
      simp only [pstep, enter, if_neg k1, if_neg hnd, k3, Bool.false_eq_true, if_false]
      rw [← hp]; simp
    · intro _ hnr
      simp only [pstep, enter]
      split
      · rw [h2]
      · rename_i k1
        split
        · rw [h2]
        · rename_i hnd
          split
          · rw [h2]
          · rename_i hfull
            by_cases hp : c.pidTgid = p
            · exfalso
              apply hnr c args full rfl hp
              refine ⟨k1, ?_, by simpa using hfull⟩
              unfold Passes
              rw [← r2]; simpa using hnd
            · rw [GoMap.get_set_other _ _ hp, h2]

/-- The probe remembers an enter for a thread exactly when the thread has a pending one. -/
theorem state_iff_pending (hist : List POp) (p : BitVec 64) (ek : EvKey) :
    GoMap.get (after tbl hasFiller hist).state p = some ek ↔
      ∃ c args, Pending tbl hist p c args ∧ ek = ⟨c.id, args, c.uidGid, c.time⟩ := by
  unfold after
  induction hist using snoc_induction generalizing ek with
  | h0 =>
    constructor
    · intro h; simp [prun, PState.init] at h
    · rintro ⟨c, args, ⟨pre, full, mid, hh, _⟩, _⟩
      cases pre <;> simp at hh
  | h1 hist o ih =>
    rw [prun_snoc]
    obtain ⟨s1, s2, s3⟩ := step_state tbl hasFiller _ _ (prun_rel tbl hasFiller hist) o p
    -- decompose a pending enter of `hist ++ [o]`
    have hdec : ∀ c args, Pending tbl (hist ++ [o]) p c args →
        (∃ full, o = .enter c args full ∧ c.pidTgid = p ∧ Recorded tbl (rulesAfter tbl hist) c full) ∨
        (Pending tbl hist p c args ∧ ¬ IsExit p o ∧
          ∀ c' args' full', o = .enter c' args' full' → c'.pidTgid = p → ¬ Recorded tbl (rulesAfter tbl hist) c' full') := by
      rintro c args ⟨pre, full, mid, hh, hp, hrec, hne, hnr⟩
      rcases List.eq_nil_or_concat mid with rfl | ⟨mid', o', rfl⟩
      · left
        have h := List.append_inj' hh rfl
        injection h.2 with h2
        rw [← h.1] at hrec
        exact ⟨full, h2, hp, hrec⟩
      · right
        rw [List.concat_eq_append] at hh hne hnr
        have hh2 : hist ++ [o] = (pre ++ POp.enter c args full :: mid') ++ [o'] := by simpa using hh
        have h := List.append_inj' hh2 rfl
        injection h.2 with h2
        subst h2
        refine ⟨⟨pre, full, mid', h.1, hp, hrec, fun x hx => hne x (by simp [hx]), ?_⟩, hne o (by simp), ?_⟩
        · intro m1 c' args' full' m2 hm hp'
          exact hnr m1 c' args' full' (m2 ++ [o]) (by simp [hm]) hp'
        · intro c' args' full' ho hp'
          rw [h.1]
          exact hnr mid' c' args' full' [] (by rw [ho]) hp'
    by_cases hex : IsExit p o
    · rw [s1 hex]
      constructor
      · intro h; cases h
      · rintro ⟨c, args, hpend, _⟩
        rcases hdec c args hpend with ⟨full, ho, _⟩ | ⟨_, hne, _⟩
        · rw [ho] at hex; exact hex.elim
        · exact absurd hex hne
    · by_cases hrec : ∃ c args full, o = .enter c args full ∧ c.pidTgid = p ∧ Recorded tbl (rulesAfter tbl hist) c full
      · obtain ⟨c, args, full, ho, hp, hr⟩ := hrec
        rw [s2 c args full ho hp hr]
        constructor
        · intro h
          injection h with h
          refine ⟨c, args, ⟨hist, full, [], by rw [ho], hp, hr, by simp, ?_⟩, h.symm⟩
          intro m1 c' args' full' m2 hm
          cases m1 <;> simp at hm
        · rintro ⟨c', args', hpend, he⟩
          rcases hdec c' args' hpend with ⟨full', ho', _⟩ | ⟨_, _, hn⟩
          · rw [ho] at ho'
            injection ho' with e1 e2 e3
            rw [he, e1, e2]
          · exact absurd hr (hn c args full ho hp)
      · have hnorec : ∀ c args full, o = .enter c args full → c.pidTgid = p → ¬ Recorded tbl (rulesAfter tbl hist) c full :=
          fun c args full ho hp hr => hrec ⟨c, args, full, ho, hp, hr⟩
        rw [s3 hex hnorec, ih]
        constructor
        · rintro ⟨c, args, ⟨pre, full, mid, hh, hp, hr, hne, hnr⟩, he⟩
          refine ⟨c, args, ⟨pre, full, mid ++ [o], by rw [hh]; simp, hp, hr, ?_, ?_⟩, he⟩
          · intro x hx
            rcases List.mem_append.1 hx with hx | hx
            · exact hne x hx
            · simp at hx; rw [hx]; exact hex
          · intro m1 c' args' full' m2 hm hp'
            rcases List.eq_nil_or_concat m2 with rfl | ⟨m2', o', rfl⟩
            · have h := List.append_inj' hm rfl
              injection h.2 with h2
              rw [← h.1, ← hh]
              exact hnorec c' args' full' h2 hp'
            · have hm2 : mid ++ [o] = (m1 ++ POp.enter c' args' full' :: m2') ++ [o'] := by simpa using hm
              exact hnr m1 c' args' full' m2' (List.append_inj' hm2 rfl).1 hp'
        · rintro ⟨c, args, hpend, he⟩
          rcases hdec c args hpend with ⟨full, ho, hp, hr⟩ | ⟨hp, _, _⟩
          · exact absurd hr (hnorec c args full ho hp)
          · exact ⟨c, args, hp, he⟩

/-- C33: after any history, an exit of a thread emits an event exactly when the thread has a
pending recorded enter of the same syscall (and scratch memory is available); the event
carries the enter's syscall, user, timestamp and arguments, and the exit's timestamp. -/
theorem c33_pairing (hist : List POp) (c : Ctx) (ret : BitVec 64) (scratch : Bool) (ev : Event) :
    (pstep tbl hasFiller (after tbl hasFiller hist) (.exit c ret scratch)).2 = some ev ↔
      scratch = true ∧ ∃ c0 args, Pending tbl hist c.pidTgid c0 args ∧ c0.id = c.id ∧
        ev = ⟨c.pidTgid, c0.uidGid, c0.nr, c.ns, c0.time, c.time, args,
          if hasFiller c0.nr then ret else 0⟩ := by
  have hst := fun ek => state_iff_pending tbl hasFiller hist c.pidTgid ek
  have hfm := (fillMetrics_eq tbl (prun_rel tbl hasFiller hist) c (some ret)).2.1
  simp only [pstep, Swoll.Probe.exit]
  unfold after at hst ⊢
  rw [hfm]
  cases hg : GoMap.get (prun tbl hasFiller PState.init hist).state c.pidTgid with
  | none =>
    constructor
    · intro h; cases h
    · rintro ⟨_, c0, args, hp, _⟩
      have := (hst _).2 ⟨c0, args, hp, rfl⟩
      rw [hg] at this; cases this
  | some ek =>
    obtain ⟨c0, args, hp, he⟩ := (hst ek).1 hg
    simp only
    cases scratch with
    | false => simp
    | true =>
      simp only [Bool.not_true, Bool.false_eq_true, if_false, true_and]
      by_cases hid : c.id = ek.id
      · rw [if_neg (by simpa using hid)]
        constructor
        · intro h
          injection h with h
          refine ⟨c0, args, hp, by rw [hid, he], ?_⟩
          rw [← h, he]; rfl
        · rintro ⟨c1, args1, hp1, _, hev⟩
          have h1 := (hst _).2 ⟨c1, args1, hp1, rfl⟩
          rw [hg] at h1
          injection h1 with h1
          rw [hev, h1]; rfl
      · rw [if_pos hid]
        constructor
        · intro h; cases h
        · rintro ⟨c1, args1, hp1, hid1, _⟩
          have h1 := (hst _).2 ⟨c1, args1, hp1, rfl⟩
          rw [hg] at h1
          injection h1 with h1
          exact absurd (by rw [h1, ← hid1]) hid

/-- C33: nothing but exits (and the execve tracepoint) emits events. -/
theorem c33_only_exits (s : PState) (o : POp) (ev : Event) (h : (pstep tbl hasFiller s o).2 = some ev) :
    (∃ c ret scratch, o = .exit c ret scratch) ∨ (∃ c scratch, o = .execve c scratch) := by
  cases o with
  | api o => simp [pstep] at h
  | enter c args full => simp [pstep] at h
  | exit c ret sc => exact Or.inl ⟨_, _, _, rfl⟩
  | execve c sc => exact Or.inr ⟨_, _, rfl⟩

/-- C33: an enter gives at most one event: after an exit of the thread, a pending enter must
have come after that exit. -/
theorem c33_enter_used_once (hist rest : List POp) (c : Ctx) (ret : BitVec 64) (sc : Bool) (c0 : Ctx)
    (args : List (BitVec 64)) (h : Pending tbl (hist ++ POp.exit c ret sc :: rest) c.pidTgid c0 args) :
    ∃ full pre mid, rest = pre ++ POp.enter c0 args full :: mid := by
  obtain ⟨pre, full, mid, hh, _, _, hne, _⟩ := h
  rcases List.append_eq_append_iff.1 hh with ⟨r, hr1, hr2⟩ | ⟨r, hr1, hr2⟩
  · -- pre = hist ++ r
    cases r with
    | nil => simp at hr2
    | cons x r =>
      simp at hr2
      exact ⟨full, r, mid, hr2.2⟩
  · -- hist = pre ++ r
    exfalso
    cases r with
    | nil => simp at hr2
    | cons x r =>
      simp at hr2
      exact hne (.exit c ret sc) (by rw [hr2.2]; simp) rfl

/-- C33, full statement for histories where each thread's enters and exits alternate: the
pending enter is the most recent enter of the thread. -/
theorem c33_most_recent_partial (hist : List POp) (hb : Bracketed hist) (p : BitVec 64) (c0 : Ctx)
    (args : List (BitVec 64)) (h : Pending tbl hist p c0 args) :
    ∃ pre full mid, hist = pre ++ POp.enter c0 args full :: mid ∧ c0.pidTgid = p ∧
      Recorded tbl (rulesAfter tbl pre) c0 full ∧ ∀ o ∈ mid, ¬ IsEnter p o ∧ ¬ IsExit p o := by
  obtain ⟨pre, full, mid, hh, hp, hr, hne, _⟩ := h
  refine ⟨pre, full, mid, hh, hp, hr, ?_⟩
  intro o ho
  refine ⟨?_, hne o ho⟩
  intro hen
  obtain ⟨m1, m2, hm⟩ := List.append_of_mem ho
  obtain ⟨x, hx, hxe⟩ := hb p pre (POp.enter c0 args full) m1 o m2 (by rw [hh, hm]) hp hen
  exact hne x (by rw [hm]; simp [hx]) hxe

/-- C33 violated without that assumption: thread 1's `openat` (257) is recorded and never exits
(its process is killed); the rule is removed; a new thread with the same ids enters `openat`
again, which is not recorded, and its exit is reported with the first call's timestamp and
arguments. -/
theorem c33_most_recent_violated :
    (pstep Filter.demoTbl (fun _ => true) (after Filter.demoTbl (fun _ => true)
      [.api .enable, .api (.addSyscall (.str "openat") 7 {}), .enter (demoCtx 1 257 100) [11] false,
       .api (.removeSyscall (.str "openat") 7), .enter (demoCtx 1 257 200) [22] false])
      (.exit (demoCtx 1 257 210) 3 true)).2 =
    some ⟨1, 0, 257, 7, 100, 210, [11], 3⟩ := by decide +kernel

/-- Non-vacuity: a recorded enter followed by another thread's activity, then the exit. -/
example : (pstep Filter.demoTbl (fun _ => true) (after Filter.demoTbl (fun _ => true)
      [.api .enable, .api (.addSyscall (.str "openat") 7 {}), .enter (demoCtx 1 257 100) [11] false,
       .enter (demoCtx 2 257 150) [22] false, .exit (demoCtx 2 257 160) 4 true])
      (.exit (demoCtx 1 257 210) 3 true)).2 =
    some ⟨1, 0, 257, 7, 100, 210, [11], 3⟩ := by decide +kernel

/-! ### C24: what the rules are matched against -/

/-- C24: a call of thread `tid` of process `pid` is matched as a call of that process, whichever of its threads made
it, and under its number. -/
theorem c24_matched (pid tid ns nr : BitVec 32) (uidGid mtime time : BitVec 64) :
    let c : Ctx := ⟨pid ++ tid, uidGid, ns, 0#32 ++ nr, mtime, time⟩
    c.proc = pid ∧ c.nr = nr := by
  refine ⟨?_, ?_⟩
  · apply BitVec.eq_of_toNat_eq
    have h1 := pid.isLt
    have h2 := tid.isLt
    simp only [Ctx.proc, BitVec.toNat_setWidth, BitVec.toNat_ushiftRight, BitVec.toNat_append]
    rw [Nat.shiftRight_or_distrib, Nat.shiftRight_eq_div_pow tid.toNat, Nat.div_eq_of_lt h2, Nat.or_zero,
      Nat.shiftLeft_shiftRight, Nat.mod_eq_of_lt h1]
  · apply BitVec.eq_of_toNat_eq
    have h1 := nr.isLt
    simp only [Ctx.nr, BitVec.toNat_setWidth, BitVec.toNat_append, BitVec.toNat_ofNat]
    simp [Nat.mod_eq_of_lt h1]

example : (⟨0x2a#32 ++ 0x2b#32, 0, 7, 0#32 ++ 59#32, 0, 0⟩ : Ctx).proc = 42 := (c24_matched 42 43 7 59 0 0 0).1

end Swoll.Props.Probe
