import Verif.Model.Filter
import Verif.Spec.Filter
import Verif.Lemmas.Filter
import Verif.Lemmas.FilterEval
/-
C23-C28: the kernel filter and its user-space API.
-/
namespace Swoll.Props.Filter
open Swoll Swoll.Syscalls Swoll.Filter Swoll.Spec.Filter Swoll.Lemmas.Filter

/-! ### C23 -/

theorem pairKey_eq (ns : Int) (nr : Nat) : pairKey ns nr = sysKey (scope ns) (BitVec.ofNat 32 nr) := by
  unfold pairKey
  cases scope ns <;> simp [Level.key, sysKey]

theorem addSyscall_eq (tbl : Syscalls) (m : KMaps) (k : Key) (s : Syscall) (h : lookup tbl k = some s) (ns : Int) :
    addSyscall tbl m k ns = (⟨GoMap.set m.config (pairKey ns s.nr).flags 1,
      GoMap.set m.filter (pairKey ns s.nr) ⟨0, 0, 0, 0⟩⟩, true) := by
  simp only [addSyscall, newRule_sys, h, Option.map_some, addRule, normKey_sys, pairKey_eq]
  rfl

theorem addSampled_eq (tbl : Syscalls) (m : KMaps) (k : Key) (s : Syscall) (h : lookup tbl k = some s) (ns : Int)
    (rate : BitVec 64) :
    addSampledSyscall tbl m k ns rate = (⟨GoMap.set m.config (pairKey ns s.nr).flags 1,
      GoMap.set m.filter (pairKey ns s.nr) ⟨rate.setWidth 32, 0, 0, 0⟩⟩, true) := by
  simp only [addSampledSyscall, newRule_sampled, h, Option.map_some, addRule, normKey_sys, pairKey_eq]
  rfl

theorem removeSyscall_eq (tbl : Syscalls) (m : KMaps) (k : Key) (s : Syscall) (h : lookup tbl k = some s) (ns : Int) :
    removeSyscall tbl m k ns = if GoMap.has m.filter (pairKey ns s.nr) then
      ({ m with filter := GoMap.del m.filter (pairKey ns s.nr) }, true) else (m, false) := by
  simp only [removeSyscall, newRule_sys, h, Option.map_some, delRule, pairKey_eq]

/-- C23: adding a (possibly sampled) syscall filter succeeds and writes exactly the entry of
that pair; every other entry is untouched. -/
theorem c23_add_writes_one (tbl : Syscalls) (m : KMaps) (k : Key) (s : Syscall)
    (h : lookup tbl k = some s) (ns : Int) (rate : BitVec 64) :
    ((addSyscall tbl m k ns).2 = true ∧ ∀ key, GoMap.get (addSyscall tbl m k ns).1.filter key =
      if key = pairKey ns s.nr then some ⟨0, 0, 0, factionAllow⟩ else GoMap.get m.filter key) ∧
    ((addSampledSyscall tbl m k ns rate).2 = true ∧
      ∀ key, GoMap.get (addSampledSyscall tbl m k ns rate).1.filter key =
      if key = pairKey ns s.nr then some ⟨rate.setWidth 32, 0, 0, factionAllow⟩
      else GoMap.get m.filter key) := by
  rw [addSyscall_eq tbl m k s h, addSampled_eq tbl m k s h]
  refine ⟨⟨rfl, fun key => ?_⟩, ⟨rfl, fun key => ?_⟩⟩ <;>
  · simp only [GoMap.get_set, eq_comm]; rfl

/-- C23: removing after adding (with or without sampling, naming the syscall in any accepted
way) succeeds, deletes exactly that entry, and when the pair had no entry before, every entry
is as before the addition. -/
theorem c23_add_remove (tbl : Syscalls) (m : KMaps) (k k' : Key) (s : Syscall)
    (h : lookup tbl k = some s) (h' : lookup tbl k' = some s) (ns : Int) (rate : BitVec 64) (m1 : KMaps)
    (hm1 : m1 = (addSyscall tbl m k ns).1 ∨ m1 = (addSampledSyscall tbl m k ns rate).1) :
    (removeSyscall tbl m1 k' ns).2 = true ∧
    (∀ key, GoMap.get (removeSyscall tbl m1 k' ns).1.filter key =
      if key = pairKey ns s.nr then none else GoMap.get m.filter key) ∧
    (GoMap.get m.filter (pairKey ns s.nr) = none →
      ∀ key, GoMap.get (removeSyscall tbl m1 k' ns).1.filter key = GoMap.get m.filter key) := by
  have hw := c23_add_writes_one tbl m k s h ns rate
  have hget : ∃ v, ∀ key, GoMap.get m1.filter key =
      if key = pairKey ns s.nr then some v else GoMap.get m.filter key := by
    rcases hm1 with rfl | rfl
    · exact ⟨_, hw.1.2⟩
    · exact ⟨_, hw.2.2⟩
  obtain ⟨v, hget⟩ := hget
  have hhas : GoMap.has m1.filter (pairKey ns s.nr) = true := by
    unfold GoMap.has; rw [hget]; simp
  rw [removeSyscall_eq tbl m1 k' s h', if_pos hhas]
  have hall : ∀ key, GoMap.get (GoMap.del m1.filter (pairKey ns s.nr)) key =
      if key = pairKey ns s.nr then none else GoMap.get m.filter key := by
    intro key
    rw [GoMap.get_del, hget]
    by_cases hk : key = pairKey ns s.nr
    · simp [hk]
    · have : pairKey ns s.nr ≠ key := fun e => hk e.symm
      simp [hk, this]
  refine ⟨rfl, hall, ?_⟩
  intro hn key
  show GoMap.get (GoMap.del m1.filter (pairKey ns s.nr)) key = _
  rw [hall]
  by_cases hk : key = pairKey ns s.nr
  · rw [if_pos hk, hk, hn]
  · rw [if_neg hk]

/-- C23: removal of a filter that is not there is reported and changes nothing; unknown
syscalls are rejected by all three calls without effect. -/
theorem c23_errors (tbl : Syscalls) (m : KMaps) (k : Key) (ns : Int) (rate : BitVec 64) (f : Faults) :
    (∀ s, lookup tbl k = some s → GoMap.get m.filter (pairKey ns s.nr) = none →
      removeSyscall tbl m k ns = (m, false)) ∧
    (lookup tbl k = none → removeSyscall tbl m k ns = (m, false) ∧
      addSyscall tbl m k ns f = (m, false) ∧ addSampledSyscall tbl m k ns rate f = (m, false)) := by
  constructor
  · intro s h hn
    rw [removeSyscall_eq tbl m k s h, if_neg (by simp [GoMap.has, hn])]
  · intro h
    simp [removeSyscall, addSyscall, addSampledSyscall, newRule_sys, newRule_sampled, h]

/-- Different pairs have different entries, so "exactly that entry" is per pair. -/
theorem c23_pairs_distinct (ns ns' : Int) (nr nr' : Nat) (hn : nr < 2 ^ 32) (hn' : nr' < 2 ^ 32)
    (h : pairKey ns nr = pairKey ns' nr') : scope ns = scope ns' ∧ nr = nr' := by
  rw [pairKey_eq, pairKey_eq] at h
  obtain ⟨h1, h2⟩ := sysKey_inj h
  refine ⟨h1, ?_⟩
  have := congrArg BitVec.toNat h2
  simpa [Nat.mod_eq_of_lt hn, Nat.mod_eq_of_lt hn'] using this

/-! ### C24 -/

/-- C24: with filtering off every call is dropped and nothing is counted; with filtering on
the deciding rule is the active rule of the first precedence level that has one. -/
theorem c24_first_match (m : KMaps) (mode : BitVec 16) (ns proc nr : BitVec 32) :
    (runNfilter m mode ns proc nr).2 ≠ factionDrop ↔
      Enabled m ∧ ∃ l v, Decides m mode ns proc nr l v ∧ v.action ≠ factionDrop ∧ ¬ SampledOut v := by
  unfold runNfilter
  by_cases he : isFilterEnabled m fmodeEnabled = true
  · rw [if_pos he]
    have hE : Enabled m := (isFilterEnabled_iff m _).1 he
    rcases eval_spec m mode ns proc nr with ⟨l, v, hd, hr⟩ | ⟨hno, hr⟩
    · rw [hr]
      constructor
      · intro h
        refine ⟨hE, l, v, hd, ?_, ?_⟩
        · intro ha
          apply h
          by_cases hs : SampledOut v
          · exact (hit_verdict v).1 hs
          · exact ((hit_verdict v).2 hs).trans ha
        · intro hs; exact h ((hit_verdict v).1 hs)
      · rintro ⟨_, l', v', hd', ha, hs⟩
        obtain ⟨_, rfl⟩ := decides_unique hd hd'
        show (hit v).2 ≠ _
        rw [(hit_verdict v).2 hs]
        exact ha
    · rw [hr]
      constructor
      · intro h; exact absurd rfl h
      · rintro ⟨_, l, v, hd, _⟩
        exact absurd hd (hno l v)
  · rw [if_neg he]
    constructor
    · intro h; exact absurd rfl h
    · rintro ⟨hE, _⟩
      exact absurd ((isFilterEnabled_iff m _).2 hE) he

/-- C24 (frame): the only thing an evaluation changes is the hit and sample counters of the
deciding rule: hit counter plus one, sample counter plus one when the rule is sampled. -/
theorem c24_counts_only_decider (m : KMaps) (mode : BitVec 16) (ns proc nr : BitVec 32) :
    (runNfilter m mode ns proc nr).1.config = m.config ∧
    (∀ l v, Enabled m → Decides m mode ns proc nr l v → ∀ k,
      GoMap.get (runNfilter m mode ns proc nr).1.filter k =
        if k = l.key mode ns proc nr then
          some ⟨v.sampleRate, if v.sampleRate = 0 then v.sampleCount else v.sampleCount + 1,
            v.hits + 1, v.action⟩
        else GoMap.get m.filter k) ∧
    ((¬ Enabled m ∨ ∀ l v, ¬ Decides m mode ns proc nr l v) →
      (runNfilter m mode ns proc nr).1 = m) := by
  refine ⟨(runNfilter_frame m mode ns proc nr).1, ?_, ?_⟩
  · intro l v hE hd k
    unfold runNfilter
    rw [if_pos ((isFilterEnabled_iff m fmodeEnabled).2 hE)]
    rcases eval_spec m mode ns proc nr with ⟨l', v', hd', hr⟩ | ⟨hno, _⟩
    · obtain ⟨e1, e2⟩ := decides_unique hd hd'
      subst e1; subst e2
      rw [hr]
      show GoMap.get (GoMap.set _ _ _) k = _
      rw [GoMap.get_set]
      by_cases hk : k = l.key mode ns proc nr
      · rw [if_pos hk, if_pos hk.symm]
        obtain ⟨f1, f2, f3, f4⟩ := hit_fixed v
        rw [← f1, ← f2, ← f3]
        rw [← f1] at f4
        rw [← f4]
      · rw [if_neg hk, if_neg (fun e => hk e.symm)]
    · exact absurd hd (hno l v)
  · intro h
    unfold runNfilter
    by_cases he : isFilterEnabled m fmodeEnabled = true
    · rw [if_pos he]
      rcases h with h | h
      · exact absurd ((isFilterEnabled_iff m _).1 he) h
      · rcases eval_spec m mode ns proc nr with ⟨l', v', hd', _⟩ | ⟨_, hr⟩
        · exact absurd hd' (h l' v')
        · rw [hr]
    · rw [if_neg he]

/-- At most one rule decides a call. -/
theorem c24_decider_unique (m : KMaps) (mode : BitVec 16) (ns proc nr : BitVec 32) (l l' : Level)
    (v v' : FilterVal) (h : Decides m mode ns proc nr l v) (h' : Decides m mode ns proc nr l' v') :
    l = l' ∧ v = v' := decides_unique h h'

/-! ### C25 -/

theorem ithVerdict_small (rate : Nat) (act : BitVec 8) (i : Nat) (h : 0 < i) (h2 : i < 2 ^ 32) :
    ithVerdictW rate act i = ithVerdict rate act i := by
  unfold ithVerdictW ithVerdict
  rw [Nat.mod_eq_of_lt h2]
  have : i ≤ 1 ↔ i = 1 := by omega
  simp only [this]

open Classical in
/-- C25: take any rule as freshly written (sample counter 0) and any sequence of events
evaluated against an enabled filter; the events decided by that rule, in order, get verdicts
"action" for the 1st and for every multiple of the rate (every one when the rate is 0) and
"drop" otherwise, and the rule's hit counter grows by their number. The 32 bit counter must
not overflow. -/
theorem c25_sampling (m : KMaps) (hen : Enabled m) (K : FilterKey) (v : FilterVal)
    (hg : GoMap.get m.filter K = some v) (hfresh : v.sampleCount = 0) (es : List Ev)
    (n : Nat) (hn : n = (es.filter (fun e => DecidedBy m e K)).length) (hsmall : n < 2 ^ 32) :
    ((evalAll m es).2.filter (fun p => DecidedBy m p.1 K)).map (·.2) =
      (List.range' 1 n).map (ithVerdict v.sampleRate.toNat v.action) ∧
    ∃ w, GoMap.get (evalAll m es).1.filter K = some w ∧ w.hits = v.hits + BitVec.ofNat 64 n ∧
      w.sampleRate = v.sampleRate ∧ w.action = v.action := by
  obtain ⟨h1, w, h2, h3⟩ := evalAll_counts m hen K v.sampleRate v.action v.hits es m 0 v
    ⟨rfl, fun _ => rfl⟩ hg ⟨rfl, rfl, by simp, fun _ => by simpa using hfresh⟩
  rw [← hn, Nat.zero_add] at h1
  constructor
  · rw [h1]
    apply List.map_congr_left
    intro i hi
    rw [List.mem_range'_1] at hi
    exact ithVerdict_small _ _ _ (by omega) (by omega)
  · refine ⟨w, h2, ?_, h3.1, h3.2.1⟩
    rw [h3.2.2.1, ← hn, Nat.zero_add]

/-- C25 at the 32 bit boundary: with a counter of `2^32 - 1` the next call passes whatever the
rate, because the counter wraps to 0, and so does the one after it. -/
theorem c25_wraparound (v : FilterVal) (h : v.sampleCount = 0xFFFFFFFF#32) (hr : v.sampleRate ≠ 0) :
    (hit v).2 = v.action ∧ (hit (hit v).1).2 = v.action ∧ (hit v).1.sampleCount = 0 := by
  have h1 : ¬ SampledOut v := by
    rintro ⟨_, h2, _⟩; rw [h] at h2; simp at h2
  have hc : (hit v).1.sampleCount = 0 := by
    rw [(hit_fixed v).2.2.2, if_neg hr, h]; decide
  have h2 : ¬ SampledOut (hit v).1 := by
    rintro ⟨_, h3, _⟩; rw [hc] at h3; simp at h3
  exact ⟨(hit_verdict v).2 h1, ((hit_verdict _).2 h2).trans (hit_fixed v).2.1, hc⟩

/-! ### C26 -/

/-- C26: for every history of API calls (including failing map updates) and kernel
evaluations, every outcome is the one of the abstract rule set. -/
theorem c26_refines (tbl : Syscalls) (ops : List Op) :
    (run tbl KMaps.empty ops).2 = (Abs.empty.run tbl ops).2 :=
  (rel_run tbl ops rel_empty).2

/-- Running a concatenated history. -/
theorem abs_run_append (tbl : Syscalls) : ∀ (a : Abs) (xs ys : List Op), a.run tbl (xs ++ ys) =
    (((a.run tbl xs).1.run tbl ys).1, (a.run tbl xs).2 ++ ((a.run tbl xs).1.run tbl ys).2) := by
  intro a xs
  induction xs generalizing a with
  | nil => intro ys; simp [Abs.run]
  | cons x xs ih => intro ys; simp [Abs.run, ih]

theorem run_append (tbl : Syscalls) : ∀ (m : KMaps) (xs ys : List Op), run tbl m (xs ++ ys) =
    ((run tbl (run tbl m xs).1 ys).1, (run tbl m xs).2 ++ (run tbl (run tbl m xs).1 ys).2) := by
  intro m xs
  induction xs generalizing m with
  | nil => intro ys; simp [run]
  | cons x xs ih => intro ys; simp [run, ih]

theorem outcomesAfter_abs (tbl : Syscalls) (xs ys : List Op) :
    outcomesAfter tbl xs ys = ((Abs.empty.run tbl xs).1.run tbl ys).2 :=
  (rel_run tbl ys (rel_run tbl xs rel_empty).1).2

/-- C26: after any history, adding a syscall for a namespace to an enabled filter makes calls
of that syscall there pass, for every process. -/
theorem c26_added_passes (tbl : Syscalls) (hist : List Op) (k : Key) (s : Syscall)
    (h : lookup tbl k = some s) (ns : Int) (hns : ns ≠ -1) (proc : BitVec 32) :
    outcomesAfter tbl hist [.addSyscall k ns {}, .enable,
      .callEvent (BitVec.ofInt 32 ns) proc (BitVec.ofNat 32 s.nr)] = [true, true, true] := by
  rw [outcomesAfter_abs]
  simp [Abs.run, Abs.step, h, scope, hns, Abs.setRule, Abs.decider, Sample.nextPasses]

/-- C26: adding it for every namespace (-1) makes calls pass in each namespace without a rule
of its own. -/
theorem c26_added_everywhere_passes (tbl : Syscalls) (hist : List Op) (k : Key) (s : Syscall)
    (h : lookup tbl k = some s) (ns' proc : BitVec 32)
    (hno : (Abs.empty.run tbl hist).1.sys (some ns') (BitVec.ofNat 32 s.nr) = none) :
    outcomesAfter tbl hist [.addSyscall k (-1) {}, .enable,
      .callEvent ns' proc (BitVec.ofNat 32 s.nr)] = [true, true, true] := by
  rw [outcomesAfter_abs]
  simp [Abs.run, Abs.step, h, scope, Abs.setRule, Abs.decider, Sample.nextPasses, hno]

/-- C26: if the pair had no rule, adding and removing one is invisible to everything after. -/
theorem c26_remove_restores (tbl : Syscalls) (hist rest : List Op) (k k' : Key) (s : Syscall)
    (h : lookup tbl k = some s) (h' : lookup tbl k' = some s) (ns : Int) (f : Faults)
    (hno : (Abs.empty.run tbl hist).1.sys (scope ns) (BitVec.ofNat 32 s.nr) = none) :
    outcomesAfter tbl (hist ++ [.addSyscall k ns f, .removeSyscall k' ns]) rest =
      outcomesAfter tbl hist rest := by
  rw [outcomesAfter_abs, outcomesAfter_abs, abs_run_append]
  congr 2
  generalize (Abs.empty.run tbl hist).1 = a at hno ⊢
  have key : ∀ v, (a.setRule (scope ns) (BitVec.ofNat 32 s.nr) v).setRule (scope ns) (BitVec.ofNat 32 s.nr) none = a := by
    intro v
    unfold Abs.setRule
    cases a with
    | mk en sys met =>
      simp only [Abs.mk.injEq, true_and, and_true]
      funext sc nr
      by_cases hc : sc = scope ns ∧ nr = BitVec.ofNat 32 s.nr
      · rw [if_pos hc, hc.1, hc.2]; exact hno.symm
      · rw [if_neg hc, if_neg hc]
  have key2 : a.setRule (scope ns) (BitVec.ofNat 32 s.nr) none = a := by
    have := key none
    unfold Abs.setRule
    cases a with
    | mk en sys met =>
      simp only [Abs.mk.injEq, true_and, and_true]
      funext sc nr
      by_cases hc : sc = scope ns ∧ nr = BitVec.ofNat 32 s.nr
      · rw [if_pos hc, hc.1, hc.2]; exact hno.symm
      · rw [if_neg hc]
  simp only [Abs.run, Abs.step, h, h']
  cases (f.config || f.filter)
  · simp only [Bool.false_eq_true, if_false]
    exact key _
  · simp only [if_true]
    exact key2

/-- Two rule sets that agree on everything but one pair. -/
def AgreeOff (sc : Option (BitVec 32)) (nr : BitVec 32) (a b : Abs) : Prop :=
  a.enabled = b.enabled ∧ a.met = b.met ∧ ∀ sc' nr', ¬ (sc' = sc ∧ nr' = nr) → a.sys sc' nr' = b.sys sc' nr'

theorem agreeOff_setRule {sc : Option (BitVec 32)} {nr : BitVec 32} {a b : Abs} (h : AgreeOff sc nr a b)
    (sc' : Option (BitVec 32)) (nr' : BitVec 32) (v : Option Sample) :
    AgreeOff sc nr (a.setRule sc' nr' v) (b.setRule sc' nr' v) := by
  refine ⟨h.1, h.2.1, ?_⟩
  intro x y hxy
  simp only [Abs.setRule]
  split
  · rfl
  · exact h.2.2 x y hxy

theorem agreeOff_run (tbl : Syscalls) (sc : Option (BitVec 32)) (nr : BitVec 32) : ∀ (es : List Op),
    (∀ e ∈ es, Unrelated sc nr e) → ∀ a b : Abs, AgreeOff sc nr a b →
    (a.run tbl es).2 = (b.run tbl es).2 := by
  intro es
  induction es with
  | nil => intros; rfl
  | cons e es ih =>
    intro hu a b hab
    have hstep : (a.step tbl e).2 = (b.step tbl e).2 ∧ AgreeOff sc nr (a.step tbl e).1 (b.step tbl e).1 := by
      have hue := hu e (by simp)
      cases e with
      | callEvent ns proc nr' =>
        have h1 : a.sys (some ns) nr' = b.sys (some ns) nr' := by
          apply hab.2.2
          rintro ⟨e1, e2⟩
          rcases hue with h | ⟨n, hn, hne⟩
          · exact h e2
          · rw [hn] at e1; injection e1 with e1; exact hne e1
        have h2 : a.sys none nr' = b.sys none nr' := by
          apply hab.2.2
          rintro ⟨e1, e2⟩
          rcases hue with h | ⟨n, hn, _⟩
          · exact h e2
          · rw [hn] at e1; cases e1
        have hd : a.decider ns nr' = b.decider ns nr' := by
          simp only [Abs.decider, h1, h2]
        simp only [Abs.step, hab.1, hd]
        split
        · cases b.decider ns nr' with
          | none => exact ⟨rfl, hab⟩
          | some p => exact ⟨rfl, agreeOff_setRule hab _ _ _⟩
        · exact ⟨rfl, hab⟩
      | metricsEvent ns proc nr' => exact ⟨by simp [Abs.step, hab.1, hab.2.1], hab⟩
      | addSyscall _ _ _ => exact absurd hue (by simp [Unrelated])
      | addSampled _ _ _ _ => exact absurd hue (by simp [Unrelated])
      | removeSyscall _ _ => exact absurd hue (by simp [Unrelated])
      | addMetrics _ _ => exact absurd hue (by simp [Unrelated])
      | removeMetrics _ => exact absurd hue (by simp [Unrelated])
      | enable => exact absurd hue (by simp [Unrelated])
    simp only [Abs.run]
    rw [hstep.1, ih (fun e he => hu e (by simp [he])) _ _ hstep.2]

/-- C26: adding or removing the rule of one pair never changes the decision of any event of
another syscall or (for a namespace rule) another namespace. -/
theorem c26_isolated (tbl : Syscalls) (hist : List Op) (k : Key) (s : Syscall) (h : lookup tbl k = some s)
    (ns : Int) (rate : BitVec 64) (f : Faults) (events : List Op)
    (hu : ∀ e ∈ events, Unrelated (scope ns) (BitVec.ofNat 32 s.nr) e) (op : Op)
    (hop : op = .addSyscall k ns f ∨ op = .addSampled k ns rate f ∨ op = .removeSyscall k ns) :
    outcomesAfter tbl (hist ++ [op]) events = outcomesAfter tbl hist events := by
  rw [outcomesAfter_abs, outcomesAfter_abs, abs_run_append]
  apply agreeOff_run tbl (scope ns) (BitVec.ofNat 32 s.nr) events hu
  generalize (Abs.empty.run tbl hist).1 = a
  have hset : ∀ v, AgreeOff (scope ns) (BitVec.ofNat 32 s.nr) (a.setRule (scope ns) (BitVec.ofNat 32 s.nr) v) a := by
    intro v
    refine ⟨rfl, rfl, ?_⟩
    intro x y hxy
    simp only [Abs.setRule, if_neg hxy]
  have hrefl : AgreeOff (scope ns) (BitVec.ofNat 32 s.nr) a a := ⟨rfl, rfl, fun _ _ _ => rfl⟩
  rcases hop with rfl | rfl | rfl
  · simp only [Abs.run, Abs.step, h]
    split
    · exact hrefl
    · exact hset _
  · simp only [Abs.run, Abs.step, h]
    split
    · exact hrefl
    · exact hset _
  · simp only [Abs.run, Abs.step, h]
    exact hset _

/-! ### C27 -/

/-- C27 violated, for every namespace and after every history: `RemoveMetrics` after
`AddMetrics` fails and metrics of that namespace keep being recorded. -/
theorem c27_remove_metrics_violated (tbl : Syscalls) (hist : List Op) (ns : Int) (hns : ns ≠ -1)
    (proc nr : BitVec 32) :
    outcomesAfter tbl hist [.enable, .addMetrics ns {}, .removeMetrics ns,
      .metricsEvent (BitVec.ofInt 32 ns) proc nr] = [true, true, false, true] := by
  rw [outcomesAfter_abs]
  simp [Abs.run, Abs.step, scope, hns]

/-- C27, what does hold: `AddMetrics` turns metrics on for that namespace, `RemoveMetrics`
disturbs nothing, and no metrics are recorded for namespaces never added.
Missing: that `RemoveMetrics` stops the collection (see `c27_remove_metrics_violated`). -/
theorem c27_metrics_partial (tbl : Syscalls) (hist rest : List Op) (ns : Int) :
    outcomesAfter tbl (hist ++ [.removeMetrics ns]) rest = outcomesAfter tbl hist rest ∧
    (ns ≠ -1 → ∀ proc nr, outcomesAfter tbl hist [.enable, .addMetrics ns {},
      .metricsEvent (BitVec.ofInt 32 ns) proc nr] = [true, true, true]) ∧
    ((∀ n f, Op.addMetrics n f ∈ hist → n = -1 ∨ BitVec.ofInt 32 n ≠ BitVec.ofInt 32 ns) →
      ∀ proc nr, outcomesAfter tbl hist [.metricsEvent (BitVec.ofInt 32 ns) proc nr] = [false]) := by
  refine ⟨?_, ?_, ?_⟩
  · rw [outcomesAfter_abs, outcomesAfter_abs, abs_run_append]
    simp [Abs.run, Abs.step]
  · intro hns proc nr
    rw [outcomesAfter_abs]
    simp [Abs.run, Abs.step, scope, hns]
  · intro h proc nr
    rw [outcomesAfter_abs]
    have key : ∀ (hist : List Op) (a : Abs), a.met (BitVec.ofInt 32 ns) = false →
        (∀ n f, Op.addMetrics n f ∈ hist → n = -1 ∨ BitVec.ofInt 32 n ≠ BitVec.ofInt 32 ns) →
        (a.run tbl hist).1.met (BitVec.ofInt 32 ns) = false := by
      intro hist
      induction hist with
      | nil => intro a ha _; exact ha
      | cons o os ih =>
        intro a ha hh
        simp only [Abs.run]
        apply ih _ _ (fun n f hm => hh n f (by simp [hm]))
        cases o with
        | addMetrics n f =>
          rcases hh n f (by simp) with h1 | h1
          · simp [Abs.step, scope, h1]; split <;> exact ha
          · simp only [Abs.step]
            split
            · exact ha
            · unfold scope
              split
              · rename_i hx; split at hx <;> first | exact ha | cases hx
              · rename_i x hx
                split at hx
                · cases hx
                · injection hx with hx
                  subst hx
                  simp only [if_neg (fun e => h1 (Eq.symm e))]
                  exact ha
        | addSyscall k n f =>
          simp only [Abs.step]; split
          · exact ha
          · split <;> exact ha
        | addSampled k n r f =>
          simp only [Abs.step]; split
          · exact ha
          · split <;> exact ha
        | removeSyscall k n => simp only [Abs.step]; split <;> exact ha
        | removeMetrics n => exact ha
        | enable => exact ha
        | callEvent a1 a2 a3 =>
          simp only [Abs.step]; split
          · split <;> exact ha
          · exact ha
        | metricsEvent a1 a2 a3 => exact ha
    have := key hist Abs.empty rfl h
    simp [Abs.run, Abs.step, this]

/-! ### C28 -/

theorem nodup_addRule {m : KMaps} (h : GoMap.NodupKeys m.filter) (r : Rule) (f : Faults) :
    GoMap.NodupKeys (addRule m r f).1.filter := by
  unfold addRule
  dsimp only
  split
  · exact h
  · split
    · exact h
    · exact GoMap.nodupKeys_set h _ _

theorem nodup_delRule {m : KMaps} (h : GoMap.NodupKeys m.filter) (r : Rule) :
    GoMap.NodupKeys (delRule m r).1.filter := by
  unfold delRule
  split
  · exact GoMap.nodupKeys_del h _
  · exact h

theorem nodup_runNfilter {m : KMaps} (h : GoMap.NodupKeys m.filter) (mode : BitVec 16) (ns proc nr : BitVec 32) :
    GoMap.NodupKeys (runNfilter m mode ns proc nr).1.filter := by
  unfold runNfilter
  split
  · rcases eval_spec m mode ns proc nr with ⟨l', v', hd', hr⟩ | ⟨_, hr⟩
    · rw [hr]; exact GoMap.nodupKeys_set h _ _
    · rw [hr]; exact h
  · exact h

theorem nodup_run (tbl : Syscalls) : ∀ (ops : List Op) (m : KMaps), GoMap.NodupKeys m.filter →
    GoMap.NodupKeys (run tbl m ops).1.filter := by
  intro ops
  induction ops with
  | nil => intro m h; exact h
  | cons o os ih =>
    intro m h
    simp only [run]
    apply ih
    cases o with
    | addSyscall k n f =>
      simp only [step, addSyscall]; split
      · exact h
      · exact nodup_addRule h _ _
    | addSampled k n r f =>
      simp only [step, addSampledSyscall]; split
      · exact h
      · exact nodup_addRule h _ _
    | removeSyscall k n =>
      simp only [step, removeSyscall]; split
      · exact h
      · exact nodup_delRule h _
    | addMetrics n f =>
      simp only [step, addMetrics]; split
      · exact h
      · exact nodup_addRule h _ _
    | removeMetrics n =>
      simp only [step, removeMetrics]; split
      · exact h
      · exact nodup_delRule h _
    | enable => exact h
    | callEvent a b c => exact nodup_runNfilter h _ _ _ _
    | metricsEvent a b c => exact nodup_runNfilter h _ _ _ _

/-- C28: after any history, whatever order the kernel keeps the map in, `GetRunning`
terminates and returns every installed rule exactly once. -/
theorem c28_get_running (tbl : Syscalls) (hist : List Op) (order : GoMap FilterKey FilterVal)
    (ho : order.Perm (run tbl KMaps.empty hist).1.filter) (fuel : Nat) (hf : order.length < fuel) :
    ∃ rs, getRunning order fuel = some rs ∧ rs.Nodup ∧
      ∀ k v, ⟨k, v⟩ ∈ rs ↔ GoMap.get (run tbl KMaps.empty hist).1.filter k = some v := by
  have hn := nodup_run tbl hist KMaps.empty GoMap.nodupKeys_nil
  have hno : GoMap.NodupKeys order := GoMap.keys_perm_nodup ho.symm hn
  have hrel := (rel_run tbl hist rel_empty).1
  have hz : GoMap.get order ⟨0, 0, 0, 0⟩ = none := by
    rw [GoMap.get_perm ho hno]
    exact rel_noKey hrel (by intro sc n; cases sc <;> simp [sysKey]) (by intro sc; cases sc <;> simp [metKey])
  refine ⟨_, by rw [getRunning, BpfIter.iterate_absent order _ hno hz fuel hf]; rfl, ?_, ?_⟩
  · have h1 : (order.map (fun e => (⟨e.1, e.2⟩ : Rule))).map (·.key) = GoMap.keys order := by
      rw [List.map_map]; rfl
    have h2 : ((order.map (fun e => (⟨e.1, e.2⟩ : Rule))).map (·.key)).Nodup := by rw [h1]; exact hno
    exact List.Pairwise.of_map _ (fun a b h e => h (by rw [e])) h2
  · intro k v
    rw [← GoMap.get_perm ho hno, ← GoMap.mem_iff_get hno]
    simp

/-! ### Non-vacuity -/

/-- A table with one syscall, for the examples. -/
def demoTbl : Syscalls := ⟨[(257, ⟨257, "sys_openat", "FileSystem", "Files"⟩)],
  [("sys_openat", ⟨257, "sys_openat", "FileSystem", "Files"⟩)]⟩

example : lookup demoTbl (.str "openat") = some ⟨257, "sys_openat", "FileSystem", "Files"⟩ ∧
    lookup demoTbl (.int 257) = some ⟨257, "sys_openat", "FileSystem", "Files"⟩ := by decide +kernel

/-- A concrete run: sampled at 3, calls 1, 3 and 6 of seven pass; another namespace is dropped. -/
example : (run demoTbl KMaps.empty
    [.addSampled (.str "openat") 7 3 {}, .enable,
     .callEvent 7 1 257, .callEvent 7 1 257, .callEvent 7 2 257, .callEvent 7 1 257,
     .callEvent 7 1 257, .callEvent 7 1 257, .callEvent 8 1 257]).2 =
    [true, true, true, false, true, false, false, true, false] := by decide +kernel

/-- A state satisfying the hypotheses of `c25_sampling`, with an event decided by the rule. -/
example : ∃ m : KMaps, Enabled m ∧ GoMap.get m.filter (pairKey 7 257) = some ⟨3, 0, 0, 0⟩ ∧
    DecidedBy m ⟨2#16, 7, 1, 257⟩ (pairKey 7 257) := by
  refine ⟨(run demoTbl KMaps.empty [.addSampled (.str "openat") 7 3 {}, .enable]).1, ⟨1, ?_, ?_⟩, ?_,
    .nsCall, ⟨3, 0, 0, 0⟩, ⟨[.nsWide, .nsProcCall], [.procCall, .call], rfl, ⟨?_, 1, ?_, ?_⟩, ?_⟩, ?_⟩
  · decide +kernel
  · decide
  · decide +kernel
  · decide +kernel
  · decide +kernel
  · decide
  · intro l hl v hv
    have : GoMap.get (run demoTbl KMaps.empty [.addSampled (.str "openat") 7 3 {}, .enable]).1.filter
        (l.key 2#16 7 1 257) = none := by
      clear hv
      revert l
      decide +kernel
    rw [Active, this] at hv
    cases hv.1
  · decide +kernel

example : (Abs.empty.run demoTbl [.enable]).1.sys (scope 7) 257 = none ∧
    Unrelated (scope 7) 257 (.callEvent 8 1 257) :=
  ⟨rfl, Or.inr ⟨7, rfl, by decide⟩⟩

end Swoll.Props.Filter
