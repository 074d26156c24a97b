import Verif.Lemmas.Smp
/-
C113-C115: the probe on several CPUs.
-/
namespace Swoll.Props.Smp
open Swoll Swoll.Filter Swoll.Probe Swoll.Smp Swoll.Spec.Smp Swoll.Lemmas.Smp

/-! ### C113 -/

/-- C113, tie to C29-C30: a handler that nobody interrupts does what `Model/Probe` says. -/
theorem c113_serial (s : MState) (c : Nat) (hi : s.cpu c = .idle) (ns nr err : BitVec 32) (now : BitVec 64) :
    (mrun s (.call c (.exit ns nr err now) :: List.replicate 3 (.step c))).1 =
      ⟨updateMetrics s.metrics ns nr err now, s.cpu⟩ ∧
    (mrun s (.call c (.enter ns nr now) :: List.replicate 2 (.step c))).1 =
      ⟨updateKtime s.metrics ns nr now, s.cpu⟩ := by
  have hc : (fun d => if d = c then MPc.idle else s.cpu d) = s.cpu := by
    funext d
    split
    · next e => rw [e, hi]
    · rfl
  have h2 : ∀ (p q : MPc), (fun d => if d = c then q else if d = c then p else s.cpu d) =
      fun d => if d = c then q else s.cpu d := by
    intro p q
    funext d
    split <;> rfl
  constructor
  · simp only [List.replicate, mrun, mstep, hi, MState.put, advance, if_true, h2, hc, keyOf, isErr, updateMetrics]
    rfl
  · simp only [List.replicate, mrun, mstep, hi, MState.put, advance, if_true, h2, hc, updateKtime]
    cases GoMap.get s.metrics ⟨ns, nr, 0⟩ <;> rfl

/-- C113: whatever the CPUs do at the same time, and whatever the agent deletes meanwhile, the metrics never
report more calls than returned. -/
theorem c113_never_more (as : List MAct) (k : MKey) : reported (mrun .init as).1 k ≤ returned k .init as := by
  have h := (below_run (s := .init) (n := fun _ => 0) ⟨fun _ => Nat.le_refl 0, by intro c k v b e; cases e⟩ as).stored k
  obtain ⟨l, _, e⟩ := under_run (under_init k) as
  simp at h e
  omega

/-- C113, as far as it holds: if no two handlers are between copying and writing back the same entry, and it is
not deleted, then once the handlers are done the metrics report every call that returned. -/
theorem c113_exact_partial (as : List MAct) (k : MKey) (ha : Alone k as)
    (hd : ∀ c, (mrun .init as).1.cpu c = .idle) :
    reported (mrun .init as).1 k = returned k .init as % 2 ^ 64 := by
  have h := (exact_run (s := .init) (n := 0) (k := k) ⟨rfl, by intro c v b e; cases e⟩ ha.1 ha.2).stored
  obtain ⟨l, hu, e⟩ := under_run (under_init k) as
  have hl : l = [] := by
    cases l with
    | nil => rfl
    | cons c l =>
      have := (hu.mem c).1 (List.mem_cons_self ..)
      rw [hd c] at this
      cases this
  subst hl
  simp only [List.length_nil, Nat.add_zero] at e
  rw [Nat.zero_add, e] at h
  unfold reported
  have h' := congrArg BitVec.toNat h
  rw [BitVec.toNat_ofNat] at h'
  rw [← h']
  cases GoMap.get (mrun .init as).1.metrics k <;> rfl

/-- Two calls that return on two CPUs, the second while the first is being counted. -/
def example113 : List MAct :=
  [.call 0 (.exit 7 1 0 10), .call 1 (.exit 7 1 0 11), .step 0, .step 1, .step 0, .step 0, .step 1, .step 1]

/-- They meet the hypotheses of `c113_exact_partial`. -/
theorem example113_alone : Alone ⟨7, 1, 0⟩ example113 ∧ (∀ c, (mrun .init example113).1.cpu c = .idle) ∧
    returned ⟨7, 1, 0⟩ .init example113 = 2 := by
  have idle : ∀ n c, 2 ≤ c → (mrun .init (example113.take n)).1.cpu c = .idle := by
    intro n c hc
    rw [untouched_run]
    · rfl
    · intro a ha
      have := List.mem_of_mem_take ha
      simp only [example113, List.mem_cons, List.not_mem_nil, or_false] at this
      rcases this with h | h | h | h | h | h | h | h <;> subst h <;> simp [cpuOf] <;> omega
  refine ⟨⟨by decide, ?_⟩, ?_, by decide +kernel⟩
  · intro pre suf e c d hc hd
    have hpre : pre = example113.take pre.length := by rw [e, List.take_left]
    have hlen : pre.length < 9 := by
      have := congrArg List.length e
      simp [example113] at this
      omega
    have low : ∀ c, Copying (mrun .init pre).1 c ⟨7, 1, 0⟩ → c < 2 := by
      intro c ⟨v, b, h⟩
      apply Decidable.byContradiction
      intro hc
      rw [hpre, idle _ c (by omega)] at h
      cases h
    have key : ∀ n, n < 9 → ∀ c, c < 2 → ∀ d, d < 2 → holds ((mrun .init (example113.take n)).1.cpu c) = true →
        holds ((mrun .init (example113.take n)).1.cpu d) = true → c = d := by
      decide +kernel
    refine key pre.length hlen c (low c hc) d (low d hd) ?_ ?_
    · obtain ⟨v, b, h⟩ := hc
      rw [← hpre, h]; rfl
    · obtain ⟨v, b, h⟩ := hd
      rw [← hpre, h]; rfl
  · intro c
    by_cases hc : 2 ≤ c
    · exact idle 8 c hc
    · have : c = 0 ∨ c = 1 := by omega
      rcases this with h | h <;> subst h <;> decide +kernel

/-- C113 fails: if calls return on `n` CPUs at the same time, the metrics report one. -/
theorem c113_lost_violated (n : Nat) (hn : 0 < n) (ns nr : BitVec 32) (now : BitVec 64) :
    ∃ as, returned ⟨ns, nr, 0⟩ .init as = n ∧ (∀ c, (mrun .init as).1.cpu c = .idle) ∧
      reported (mrun .init as).1 ⟨ns, nr, 0⟩ = 1 := by
  have hnd : (List.range n).Nodup := List.nodup_range
  refine ⟨(List.range n).map (.call · (.exit ns nr 0 now)) ++ (List.range n).map .step ++
    (List.range n).map .step ++ (List.range n).map .step, ?_⟩
  generalize has : (List.range n).map (MAct.call · (.exit ns nr 0 now)) ++ (List.range n).map .step ++
    (List.range n).map .step ++ (List.range n).map .step = as
  have run : ∃ s : MState, (∀ c ∈ List.range n, s.cpu c = .store ⟨ns, nr, 0⟩ ⟨1, 0, now, now, 0⟩ true) ∧
      (∀ c, c ∉ List.range n → s.cpu c = .idle) ∧ mrun .init as = mrun s ((List.range n).map .step) := by
    refine ⟨⟨[], fun d => if d ∈ List.range n then .store ⟨ns, nr, 0⟩ ⟨1, 0, now, now, 0⟩ true else .idle⟩,
      fun c hc => if_pos hc, fun c hc => if_neg hc, ?_⟩
    rw [← has, mrun_append, mrun_append, mrun_append]
    have s1 := many_call (j := .exit ns nr 0 now) _ hnd .init (fun _ _ => rfl)
    have s2 := many_step (p := .start (.exit ns nr 0 now)) (q := .timed ns nr 0 now 0) (m := [])
      (by intro s c h1 h2; unfold advance; rw [h2]; rfl) _ hnd
      ⟨[], fun d => if d ∈ List.range n then .start (.exit ns nr 0 now) else MState.init.cpu d⟩ rfl
      (by intro c hc; exact if_pos hc)
    have s3 := many_step (p := .timed ns nr 0 now 0) (q := .store ⟨ns, nr, 0⟩ ⟨1, 0, now, now, 0⟩ true) (m := [])
      (by intro s c h1 h2; unfold advance; rw [h2]; dsimp only; rw [h1]; rfl) _ hnd
      ⟨[], fun d => if d ∈ List.range n then .timed ns nr 0 now 0
        else if d ∈ List.range n then .start (.exit ns nr 0 now) else MState.init.cpu d⟩ rfl
      (by intro c hc; exact if_pos hc)
    rw [s1]
    dsimp only [MState.init] at s2 s3 ⊢
    rw [s2]
    dsimp only
    rw [s3]
    have e : (fun d => if d ∈ List.range n then MPc.store ⟨ns, nr, 0⟩ ⟨1, 0, now, now, 0⟩ true
          else if d ∈ List.range n then .timed ns nr 0 now 0
          else if d ∈ List.range n then .start (.exit ns nr 0 now) else .idle) =
        fun d => if d ∈ List.range n then MPc.store ⟨ns, nr, 0⟩ ⟨1, 0, now, now, 0⟩ true else .idle := by
      funext d
      by_cases h : d ∈ List.range n
      · rw [if_pos h, if_pos h]
      · rw [if_neg h, if_neg h, if_neg h, if_neg h]
    simp only [e, List.nil_append]
  obtain ⟨s, h1, h2, h3⟩ := run
  obtain ⟨g1, g2, g3⟩ := many_store _ hnd s h1
  rw [← h3] at g1 g2 g3
  have gi : ∀ c, (mrun .init as).1.cpu c = .idle := by
    intro c
    rw [g3]
    split
    · rfl
    · next h => exact h2 c h
  refine ⟨?_, gi, ?_⟩
  · obtain ⟨l, hu, e⟩ := under_run (under_init ⟨ns, nr, 0⟩) as
    have hl : l = [] := by
      cases l with
      | nil => rfl
      | cons c l =>
        have := (hu.mem c).1 (List.mem_cons_self ..)
        rw [gi c] at this
        cases this
    subst hl
    rw [g1] at e
    simpa using e.symm
  · unfold reported
    rw [g2 (by intro e; have := congrArg List.length e; simp at this; omega)]
    rfl

/-- C113 fails: the number of calls reported goes down when a call is entered on one CPU while one returns on
another. -/
theorem c113_goes_down_violated : ∃ (as bs : List MAct) (k : MKey), (∀ k', .delete k' ∉ as ++ bs) ∧
    reported (mrun .init as).1 k = 3 ∧ reported (mrun .init (as ++ bs)).1 k = 0 := by
  refine ⟨[.call 0 (.enter 7 1 10), .step 0, .call 1 (.exit 7 1 0 11), .step 1, .step 1, .step 1,
    .call 1 (.exit 7 1 0 12), .step 1, .step 1, .step 1, .call 1 (.exit 7 1 0 13), .step 1, .step 1, .step 1],
    [.step 0], ⟨7, 1, 0⟩, by simp, by decide +kernel, by decide +kernel⟩

/-- C113 fails: an entry the agent has deleted is back, with its old count, when a handler was between copying and
writing it. -/
theorem c113_pruned_violated : ∃ (as : List MAct) (k : MKey), reported (mrun .init as).1 k = 2 ∧
    reported (mrun .init (as ++ [.delete k])).1 k = 0 ∧
    reported (mrun .init (as ++ [.delete k, .step 0])).1 k = 2 := by
  refine ⟨[.call 1 (.exit 7 1 0 11), .step 1, .step 1, .step 1, .call 1 (.exit 7 1 0 12), .step 1, .step 1, .step 1,
    .call 0 (.enter 7 1 20), .step 0], ⟨7, 1, 0⟩, ?_, ?_, ?_⟩ <;> decide +kernel

/-! ### C114 -/

/-- C114, tie to C24-C25: a call that nobody interrupts is decided as `Model/Filter` says. -/
theorem c114_serial (s : SState) (c : Nat) (hi : s.cpu c = .idle) :
    srun s (.call c :: List.replicate 4 (.step c)) = (⟨(Filter.hit s.val).1, s.cpu⟩, [(Filter.hit s.val).2]) :=
  srun_alone s c hi

/-- C114: a rule without sampling (rate 0 or 1) gives its action to every call, on whatever CPUs they are made. -/
theorem c114_every (v : FilterVal) (hr : v.sampleRate.toNat ≤ 1) (as : List SAct) :
    ∀ r ∈ (srun (.fresh v) as).2, r = v.action :=
  srun_all (s := .fresh v) (by intro c n e; cases e) hr as

/-- C114, as far as it holds: if no two CPUs are between reading and writing the counter, the verdicts are those
of the rate, in order. -/
theorem c114_exact_partial (v : FilterVal) (h0 : v.sampleCount = 0) (as : List SAct) (ha : AloneSampling v as)
    (hl : (srun (.fresh v) as).2.length < 2 ^ 32 - 1) :
    (srun (.fresh v) as).2 =
      (List.range' 1 (srun (.fresh v) as).2.length).map (Spec.Filter.ithVerdict v.sampleRate.toNat v.action) :=
  sexact_run (s := .fresh v) (n := 0) (v := v) ⟨rfl, rfl, fun _ => h0, by intro c m e; cases e⟩ ha (by omega)

/-- Three calls on two CPUs, the second while the first is being decided, meet the hypotheses: all calls made by
CPUs 0 and 1. -/
def example114 : List SAct :=
  [.call 0, .step 0, .call 1, .step 1, .step 1, .step 0, .step 0, .step 0, .step 1, .step 1, .call 0, .step 0,
    .step 0, .step 0, .step 0]

/-- They meet the hypotheses of `c114_exact_partial`. -/
theorem example114_alone : AloneSampling ⟨2, 0, 0, 1⟩ example114 ∧
    (srun (.fresh ⟨2, 0, 0, 1⟩) example114).2 = [1, 1, factionDrop] := by
  refine ⟨?_, by decide +kernel⟩
  intro pre suf e c d hc hd
  have hpre : pre = example114.take pre.length := by rw [e, List.take_left]
  have hlen : pre.length < 16 := by
    have := congrArg List.length e
    simp [example114] at this
    omega
  have low : ∀ c, Sampling (srun (.fresh ⟨2, 0, 0, 1⟩) pre).1 c → c < 2 := by
    intro c ⟨n, h⟩
    apply Decidable.byContradiction
    intro hc
    rw [suntouched_run] at h
    · cases h
    · intro a ha
      have : a ∈ example114 := by rw [e]; exact List.mem_append_left _ ha
      have all : ∀ a ∈ example114, scpuOf a < 2 := by decide
      have := all a this
      omega
  have key : ∀ n, n < 16 → ∀ c, c < 2 → ∀ d, d < 2 →
      samples ((srun (.fresh ⟨2, 0, 0, 1⟩) (example114.take n)).1.cpu c) = true →
      samples ((srun (.fresh ⟨2, 0, 0, 1⟩) (example114.take n)).1.cpu d) = true → c = d := by
    decide +kernel
  refine key pre.length hlen c (low c hc) d (low d hd) ?_ ?_
  · obtain ⟨n, h⟩ := hc
    rw [← hpre, h]; rfl
  · obtain ⟨n, h⟩ := hd
    rw [← hpre, h]; rfl

/-- C114 fails: of `n` calls made at the same time when the next is due, all pass, though only one of them is to. -/
theorem c114_burst_violated (v : FilterVal) (h0 : v.sampleCount = 0) (n : Nat) (hr : 2 ≤ v.sampleRate.toNat)
    (hn : 0 < n) (hle : n ≤ v.sampleRate.toNat) :
    ∃ as bs, (srun (.fresh v) as).2.length = v.sampleRate.toNat - 1 ∧
      (srun (srun (.fresh v) as).1 bs).2 = List.replicate n v.action ∧
      (List.range' v.sampleRate.toNat n).map (Spec.Filter.ithVerdict v.sampleRate.toNat v.action) =
        v.action :: List.replicate (n - 1) factionDrop := by
  have hlt := v.sampleRate.isLt
  obtain ⟨h1, h2, h, h3⟩ := srun_inTurn (v.sampleRate.toNat - 1) v (by omega) (.fresh v) rfl ⟨v.hits, rfl⟩
  refine ⟨inTurn (v.sampleRate.toNat - 1), atOnce (List.range n), h2, ?_, ?_⟩
  · rw [srun_atOnce _ (by rw [h3]; exact Nat.lt_of_lt_of_le (by decide) hr) _ List.nodup_range _ rfl
      (by intro c _; rw [h1]; rfl), h3, List.length_range]
    congr 1
    have e : (v.sampleCount + BitVec.ofNat 32 (v.sampleRate.toNat - 1) + 1).toNat = v.sampleRate.toNat := by
      rw [h0, BitVec.toNat_add, BitVec.toNat_add, BitVec.toNat_ofNat]
      simp
      omega
    dsimp only
    rw [if_neg]
    rw [e, Nat.mod_self]
    exact fun h => h.2 rfl
  · obtain ⟨m, rfl⟩ : ∃ m, n = m + 1 := ⟨n - 1, by omega⟩
    rw [List.range'_succ, List.map_cons]
    congr 1
    · unfold Spec.Filter.ithVerdict
      exact if_pos (Or.inr (Or.inr (Nat.dvd_refl _)))
    · rw [List.eq_replicate_iff]
      refine ⟨by simp, ?_⟩
      intro b hb
      rw [List.mem_map] at hb
      obtain ⟨i, hi, rfl⟩ := hb
      rw [List.mem_range'_1] at hi
      unfold Spec.Filter.ithVerdict
      rw [if_neg]
      rintro (h | h | ⟨q, h⟩)
      · omega
      · omega
      · have : q = 0 ∨ q = 1 ∨ 2 ≤ q := by omega
        rcases this with rfl | rfl | hq
        · omega
        · omega
        · have := Nat.mul_le_mul_left v.sampleRate.toNat hq
          omega

/-- C114 fails: of any number of calls made at the same time after the first, none passes. -/
theorem c114_starved_violated (v : FilterVal) (h0 : v.sampleCount = 0) (n : Nat) (hr : 3 ≤ v.sampleRate.toNat) :
    ∃ as bs, (srun (.fresh v) as).2.length = 1 ∧
      (srun (srun (.fresh v) as).1 bs).2 = List.replicate n factionDrop := by
  obtain ⟨h1, h2, h, h3⟩ := srun_inTurn 1 v (by omega) (.fresh v) rfl ⟨v.hits, rfl⟩
  refine ⟨inTurn 1, atOnce (List.range n), h2, ?_⟩
  rw [srun_atOnce _ (by rw [h3]; exact Nat.lt_of_lt_of_le (by decide) hr) _ List.nodup_range _ rfl
    (by intro c _; rw [h1]; rfl), h3, List.length_range]
  congr 1
  have e : (v.sampleCount + BitVec.ofNat 32 1 + 1).toNat = 2 := by rw [h0]; rfl
  dsimp only
  rw [if_pos]
  rw [e, Nat.mod_eq_of_lt (by omega)]
  exact ⟨by decide, by decide⟩

/-! ### C115 -/

/-- C115: on any number of CPUs and under any schedule, what is sent for a thread is what its own handlers give:
each exit of the system call entered last yields one event with what was kept at that entry, and nothing another
thread does on another CPU changes, adds or loses one. -/
theorem c115_pairing (cpus : Nat) (as : List PAct) (t : BitVec 64) (ht : Away (pairRun (.init cpus) as).1 t) :
    eventsOf t (pairRun (.init cpus) as).2.2 = (paired t none (jobsOf t (pairRun (.init cpus) as).2.1)).1 := by
  have := (pinv_run (pinv_init t cpus) as).away ht
  simpa using this.1

/-- Two threads on two CPUs, whose handlers overlap at every point. -/
def example115 : List PAct :=
  [.call 0 7 (.enter ⟨1, [3, 4], 5, 10⟩), .call 1 8 (.enter ⟨2, [6], 9, 11⟩), .step 1, .step 0,
    .call 0 8 (.exit 2 40 20 0), .call 1 7 (.exit 1 41 21 5), .step 0, .step 1, .step 1, .step 0, .step 0, .step 1,
    .step 1, .step 0]

/-- They meet the hypothesis, and each thread has its event. -/
example : (pairRun (.init 2) example115).2.2 = [⟨8, 9, 2, 40, 11, 20, [6], 0⟩, ⟨7, 5, 1, 41, 10, 21, [3, 4], 5⟩] ∧
    (pairRun (.init 2) example115).1.busy 7 = false ∧ (pairRun (.init 2) example115).1.busy 8 = false := by
  decide +kernel

/-- C115: at any time, at most the event of the handler at work is still to be sent for a thread. -/
theorem c115_at_once (cpus : Nat) (as : List PAct) (t : BitVec 64) :
    ∃ l, (paired t none (jobsOf t (pairRun (.init cpus) as).2.1)).1 =
      eventsOf t (pairRun (.init cpus) as).2.2 ++ l ∧ l.length ≤ 1 := by
  simpa using pinv_behind (pinv_run (pinv_init t cpus) as)

end Swoll.Props.Smp
