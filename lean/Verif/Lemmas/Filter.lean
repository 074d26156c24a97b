import Verif.Model.Filter
import Verif.Spec.Filter
/-
Helper lemmas for the filter: closed forms of rule construction and the refinement relation.
-/
namespace Swoll.Lemmas.Filter
open Swoll Swoll.Syscalls Swoll.Filter Swoll.Spec.Filter

/-- Key of a syscall rule. -/
def sysKey (sc : Option (BitVec 32)) (nr : BitVec 32) : FilterKey :=
  match sc with
  | none => ⟨0x8002#16, 0, 0, nr⟩
  | some ns => ⟨0xC002#16, ns, 0, nr⟩

/-- Key of a metrics rule as stored. -/
def metKey (sc : Option (BitVec 32)) : FilterKey :=
  match sc with
  | none => ⟨0x0004#16, 0, 0, 0xFFFFFFFF#32⟩
  | some ns => ⟨0x4004#16, ns, 0, 0xFFFFFFFF#32⟩

/-- Key of a metrics rule before `AddRule` rewrites it. -/
def metKey0 (sc : Option (BitVec 32)) : FilterKey := { metKey sc with syscall := 0 }

theorem newRule_sys (tbl : Syscalls) (k : Key) (ns : Int) :
    newFilterRule [setModeSyscall, setSyscall tbl k, setPidNamespace ns, setActionAllow] =
      (lookup tbl k).map (fun s => ⟨sysKey (scope ns) (BitVec.ofNat 32 s.nr), ⟨0, 0, 0, 0⟩⟩) := by
  cases h : lookup tbl k with
  | none => simp [newFilterRule, setModeSyscall, setSyscall, h]
  | some s =>
    by_cases hn : ns = -1
    · simp [newFilterRule, setModeSyscall, setSyscall, setPidNamespace, setActionAllow, h, hn, scope,
        sysKey, Rule.zero, fmodeSyscall, ftypeSyscall, factionAllow]
    · simp [newFilterRule, setModeSyscall, setSyscall, setPidNamespace, setActionAllow, h, hn, scope,
        sysKey, Rule.zero, fmodeSyscall, ftypeSyscall, ftypePidNS, factionAllow]

theorem newRule_sampled (tbl : Syscalls) (k : Key) (ns : Int) (rate : BitVec 64) :
    newFilterRule [setModeSyscall, setSyscall tbl k, setPidNamespace ns, setSampleRate rate,
      setActionAllow] =
      (lookup tbl k).map (fun s =>
        ⟨sysKey (scope ns) (BitVec.ofNat 32 s.nr), ⟨rate.setWidth 32, 0, 0, 0⟩⟩) := by
  cases h : lookup tbl k with
  | none => simp [newFilterRule, setModeSyscall, setSyscall, h]
  | some s =>
    by_cases hn : ns = -1
    · simp [newFilterRule, setModeSyscall, setSyscall, setPidNamespace, setActionAllow, h, hn, scope,
        sysKey, Rule.zero, fmodeSyscall, ftypeSyscall, factionAllow, setSampleRate]
    · simp [newFilterRule, setModeSyscall, setSyscall, setPidNamespace, setActionAllow, h, hn, scope,
        sysKey, Rule.zero, fmodeSyscall, ftypeSyscall, ftypePidNS, factionAllow, setSampleRate]

theorem newRule_met (ns : Int) :
    newFilterRule [setModeMetrics, setPidNamespace ns, setActionAllow] =
      some ⟨metKey0 (scope ns), ⟨0, 0, 0, 0⟩⟩ := by
  by_cases hn : ns = -1
  · simp [newFilterRule, setModeMetrics, setPidNamespace, setActionAllow, hn, scope, metKey0, metKey,
      Rule.zero, fmodeMetrics, factionAllow]
  · simp [newFilterRule, setModeMetrics, setPidNamespace, setActionAllow, hn, scope, metKey0, metKey,
      Rule.zero, fmodeMetrics, ftypePidNS, factionAllow]

theorem normKey_sys (sc : Option (BitVec 32)) (nr : BitVec 32) : normKey (sysKey sc nr) = sysKey sc nr := by
  cases sc <;> simp [normKey, sysKey, fmodeMetrics]

theorem normKey_met (sc : Option (BitVec 32)) : normKey (metKey0 sc) = metKey sc := by
  cases sc <;> simp [normKey, metKey0, metKey, fmodeMetrics] <;> decide

theorem sysKey_inj {a b : Option (BitVec 32)} {x y : BitVec 32} (h : sysKey a x = sysKey b y) :
    a = b ∧ x = y := by
  cases a <;> cases b <;> simp [sysKey] at h <;> simp [h]

theorem metKey_inj {a b : Option (BitVec 32)} (h : metKey a = metKey b) : a = b := by
  cases a <;> cases b <;> simp [metKey] at h <;> simp [h]

theorem sysKey_ne_metKey (a b : Option (BitVec 32)) (x : BitVec 32) : sysKey a x ≠ metKey b := by
  cases a <;> cases b <;> simp [sysKey, metKey]

theorem sysKey_ne_metKey0 (a b : Option (BitVec 32)) (x : BitVec 32) : sysKey a x ≠ metKey0 b := by
  cases a <;> cases b <;> simp [sysKey, metKey, metKey0]

theorem metKey_ne_metKey0 (a b : Option (BitVec 32)) : metKey a ≠ metKey0 b := by
  cases a <;> cases b <;> simp [metKey, metKey0] <;> decide

theorem sysKey_flags (sc : Option (BitVec 32)) (nr : BitVec 32) :
    (sysKey sc nr).flags = 0x8002#16 ∨ (sysKey sc nr).flags = 0xC002#16 := by
  cases sc <;> simp [sysKey]

theorem evalKeys_sys (ns tid nr : BitVec 32) :
    evalKeys fmodeSyscall ns tid nr =
      [⟨0x4002#16, ns, 0, 0xFFFFFFFF#32⟩, ⟨0xE002#16, ns, tid, nr⟩, sysKey (some ns) nr,
       ⟨0xA002#16, 0, tid, nr⟩, sysKey none nr] := by
  simp [evalKeys, sysKey, fmodeSyscall, ftypePidNS, ftypePid, ftypeSyscall]

theorem evalKeys_met (ns tid nr : BitVec 32) :
    evalKeys fmodeMetrics ns tid nr =
      [metKey (some ns), ⟨0xE004#16, ns, tid, nr⟩, ⟨0xC004#16, ns, 0, nr⟩,
       ⟨0xA004#16, 0, tid, nr⟩, ⟨0x8004#16, 0, 0, nr⟩] := by
  simp [evalKeys, metKey, fmodeMetrics, ftypePidNS, ftypePid, ftypeSyscall]

/-- Correspondence of a stored value with an abstract rule. -/
def ValRel (v : FilterVal) (s : Sample) : Prop :=
  v.sampleRate.toNat = s.rate ∧ v.hits = BitVec.ofNat 64 s.seen ∧
  v.sampleCount = (if s.rate = 0 then 0 else BitVec.ofNat 32 s.seen)

/-- Correspondence of optional values. -/
def OptRel : Option FilterVal → Option Sample → Prop
  | none, none => True
  | some v, some s => ValRel v s
  | _, _ => False

/-- The refinement relation. -/
structure Rel (m : KMaps) (a : Abs) : Prop where
  en : isFilterEnabled m fmodeEnabled = a.enabled
  gate : ∀ k v, GoMap.get m.filter k = some v → isFilterEnabled m k.flags = true
  act : ∀ k v, GoMap.get m.filter k = some v → v.action = 0
  shape : ∀ k v, GoMap.get m.filter k = some v → (∃ sc nr, k = sysKey sc nr) ∨
    (∃ sc, k = metKey sc ∧ v.sampleRate = 0)
  sys : ∀ sc nr, OptRel (GoMap.get m.filter (sysKey sc nr)) (a.sys sc nr)
  met : ∀ ns, (GoMap.get m.filter (metKey (some ns))).isSome = a.met ns

theorem rel_empty : Rel KMaps.empty Abs.empty := by
  constructor <;> simp [KMaps.empty, Abs.empty, isFilterEnabled, OptRel]

theorem enabled_set (m : KMaps) (f : BitVec 16) (t : BitVec 16) :
    isFilterEnabled { m with config := GoMap.set m.config f 1 } t =
      (decide (f = t) || isFilterEnabled m t) := by
  unfold isFilterEnabled
  simp only [GoMap.get_set]
  by_cases h : f = t <;> simp [h]

/-- Switching on a rule type (other than the global switch) preserves the relation. -/
theorem rel_config {m : KMaps} {a : Abs} (h : Rel m a) (f : BitVec 16) (hf : f ≠ fmodeEnabled) :
    Rel { m with config := GoMap.set m.config f 1 } a := by
  refine ⟨?_, ?_, h.act, h.shape, h.sys, h.met⟩
  · rw [enabled_set]; simp [hf, h.en]
  · intro k v hk
    rw [enabled_set, h.gate k v hk]; simp

theorem sys_flag_ne (sc : Option (BitVec 32)) (nr : BitVec 32) : (sysKey sc nr).flags ≠ fmodeEnabled := by
  cases sc <;> simp [sysKey, fmodeEnabled]

theorem met_flag_ne (sc : Option (BitVec 32)) : (metKey sc).flags ≠ fmodeEnabled := by
  cases sc <;> simp [metKey, fmodeEnabled]

/-- Writing a syscall rule. -/
theorem rel_setSys {m : KMaps} {a : Abs} (h : Rel m a) (sc : Option (BitVec 32)) (nr : BitVec 32)
    (v : FilterVal) (s : Sample) (hv : ValRel v s) (hact : v.action = 0)
    (hg : isFilterEnabled m (sysKey sc nr).flags = true) :
    Rel { m with filter := GoMap.set m.filter (sysKey sc nr) v } (a.setRule sc nr (some s)) := by
  have key : ∀ k w, GoMap.get (GoMap.set m.filter (sysKey sc nr) v) k = some w →
      (k = sysKey sc nr ∧ w = v) ∨ GoMap.get m.filter k = some w := by
    intro k w hk
    rw [GoMap.get_set] at hk
    by_cases hkk : sysKey sc nr = k
    · simp [hkk] at hk; exact Or.inl ⟨hkk.symm, hk.symm⟩
    · simp [hkk] at hk; exact Or.inr hk
  refine ⟨h.en, ?_, ?_, ?_, ?_, ?_⟩
  · intro k w hk
    rcases key k w hk with ⟨rfl, rfl⟩ | hk
    · exact hg
    · exact h.gate k w hk
  · intro k w hk
    rcases key k w hk with ⟨rfl, rfl⟩ | hk
    · exact hact
    · exact h.act k w hk
  · intro k w hk
    rcases key k w hk with ⟨rfl, rfl⟩ | hk
    · exact Or.inl ⟨sc, nr, rfl⟩
    · exact h.shape k w hk
  · intro sc' nr'
    show OptRel (GoMap.get (GoMap.set m.filter (sysKey sc nr) v) (sysKey sc' nr')) _
    rw [GoMap.get_set]
    by_cases hk : sysKey sc nr = sysKey sc' nr'
    · obtain ⟨h1, h2⟩ := sysKey_inj hk
      subst h1; subst h2
      simpa [Abs.setRule, OptRel] using hv
    · rw [if_neg hk]
      have : ¬ (sc' = sc ∧ nr' = nr) := fun hh => hk (by rw [hh.1, hh.2])
      simp only [Abs.setRule, if_neg this]
      exact h.sys sc' nr'
  · intro ns
    show (GoMap.get (GoMap.set m.filter (sysKey sc nr) v) (metKey (some ns))).isSome = _
    rw [GoMap.get_set, if_neg (sysKey_ne_metKey _ _ _)]
    exact h.met ns

/-- Deleting a syscall rule. -/
theorem rel_delSys {m : KMaps} {a : Abs} (h : Rel m a) (sc : Option (BitVec 32)) (nr : BitVec 32) :
    Rel { m with filter := GoMap.del m.filter (sysKey sc nr) } (a.setRule sc nr none) := by
  have key : ∀ k w, GoMap.get (GoMap.del m.filter (sysKey sc nr)) k = some w →
      GoMap.get m.filter k = some w := by
    intro k w hk
    rw [GoMap.get_del] at hk
    by_cases hkk : sysKey sc nr = k <;> simp [hkk] at hk
    exact hk
  refine ⟨h.en, fun k w hk => h.gate k w (key k w hk), fun k w hk => h.act k w (key k w hk),
    fun k w hk => h.shape k w (key k w hk), ?_, ?_⟩
  · intro sc' nr'
    show OptRel (GoMap.get (GoMap.del m.filter (sysKey sc nr)) (sysKey sc' nr')) _
    rw [GoMap.get_del]
    by_cases hk : sysKey sc nr = sysKey sc' nr'
    · obtain ⟨h1, h2⟩ := sysKey_inj hk
      subst h1; subst h2
      simp [Abs.setRule, OptRel]
    · rw [if_neg hk]
      have : ¬ (sc' = sc ∧ nr' = nr) := fun hh => hk (by rw [hh.1, hh.2])
      simp only [Abs.setRule, if_neg this]
      exact h.sys sc' nr'
  · intro ns
    show (GoMap.get (GoMap.del m.filter (sysKey sc nr)) (metKey (some ns))).isSome = _
    rw [GoMap.get_del, if_neg (sysKey_ne_metKey _ _ _)]
    exact h.met ns

/-- Writing a metrics rule. -/
theorem rel_setMet {m : KMaps} {a : Abs} (h : Rel m a) (sc : Option (BitVec 32))
    (v : FilterVal) (hact : v.action = 0) (hr : v.sampleRate = 0)
    (hg : isFilterEnabled m (metKey sc).flags = true) :
    Rel { m with filter := GoMap.set m.filter (metKey sc) v }
      (match sc with
       | none => a
       | some n => { a with met := fun x => if x = n then true else a.met x }) := by
  have key : ∀ k w, GoMap.get (GoMap.set m.filter (metKey sc) v) k = some w →
      (k = metKey sc ∧ w = v) ∨ GoMap.get m.filter k = some w := by
    intro k w hk
    rw [GoMap.get_set] at hk
    by_cases hkk : metKey sc = k
    · simp [hkk] at hk; exact Or.inl ⟨hkk.symm, hk.symm⟩
    · simp [hkk] at hk; exact Or.inr hk
  have hsys : ∀ sc' nr', OptRel (GoMap.get (GoMap.set m.filter (metKey sc) v) (sysKey sc' nr')) (a.sys sc' nr') := by
    intro sc' nr'
    rw [GoMap.get_set, if_neg (fun e => sysKey_ne_metKey _ _ _ e.symm)]
    exact h.sys sc' nr'
  have hgate : ∀ k w, GoMap.get (GoMap.set m.filter (metKey sc) v) k = some w →
      isFilterEnabled m k.flags = true := by
    intro k w hk
    rcases key k w hk with ⟨rfl, rfl⟩ | hk
    · exact hg
    · exact h.gate k w hk
  have hac : ∀ k w, GoMap.get (GoMap.set m.filter (metKey sc) v) k = some w → w.action = 0 := by
    intro k w hk
    rcases key k w hk with ⟨rfl, rfl⟩ | hk
    · exact hact
    · exact h.act k w hk
  have hsh : ∀ k w, GoMap.get (GoMap.set m.filter (metKey sc) v) k = some w → (∃ sc nr, k = sysKey sc nr) ∨
    (∃ sc, k = metKey sc ∧ w.sampleRate = 0) := by
    intro k w hk
    rcases key k w hk with ⟨rfl, rfl⟩ | hk
    · exact Or.inr ⟨sc, rfl, hr⟩
    · exact h.shape k w hk
  cases sc with
  | none =>
    refine ⟨h.en, hgate, hac, hsh, hsys, ?_⟩
    intro ns
    show (GoMap.get (GoMap.set m.filter (metKey none) v) (metKey (some ns))).isSome = _
    rw [GoMap.get_set, if_neg (fun e => by cases metKey_inj e)]
    exact h.met ns
  | some n =>
    refine ⟨h.en, hgate, hac, hsh, hsys, ?_⟩
    intro ns
    show (GoMap.get (GoMap.set m.filter (metKey (some n)) v) (metKey (some ns))).isSome = _
    rw [GoMap.get_set]
    by_cases hk : ns = n
    · subst hk; simp
    · rw [if_neg (fun e => hk (by have := metKey_inj e; injection this with this; exact this.symm))]
      simp only [if_neg hk]
      exact h.met ns

theorem addRule_sys {m : KMaps} {a : Abs} (h : Rel m a) (sc : Option (BitVec 32)) (nr : BitVec 32)
    (v : FilterVal) (s : Sample) (hv : ValRel v s) (hact : v.action = 0) (f : Faults) :
    Rel (addRule m ⟨sysKey sc nr, v⟩ f).1
      (if f.config || f.filter then a else a.setRule sc nr (some s)) ∧
    (addRule m ⟨sysKey sc nr, v⟩ f).2 = !(f.config || f.filter) := by
  unfold addRule
  simp only [normKey_sys]
  rcases f with ⟨f1, f2⟩
  cases f1
  · cases f2
    · simp only [Bool.or_self, Bool.false_eq_true, if_false, Bool.not_false, and_true]
      exact rel_setSys (rel_config h _ (sys_flag_ne sc nr)) sc nr v s hv hact (by rw [enabled_set]; simp)
    · simp only [Bool.false_or, Bool.false_eq_true, if_false, if_true, Bool.not_true, and_true]
      exact rel_config h _ (sys_flag_ne sc nr)
  · simp [h]

theorem addRule_met {m : KMaps} {a : Abs} (h : Rel m a) (sc : Option (BitVec 32)) (f : Faults) :
    Rel (addRule m ⟨metKey0 sc, ⟨0, 0, 0, 0⟩⟩ f).1
      (if f.config || f.filter then a else (match sc with
       | none => a
       | some n => { a with met := fun x => if x = n then true else a.met x })) ∧
    (addRule m ⟨metKey0 sc, ⟨0, 0, 0, 0⟩⟩ f).2 = !(f.config || f.filter) := by
  unfold addRule
  simp only [normKey_met]
  rcases f with ⟨f1, f2⟩
  cases f1
  · cases f2
    · simp only [Bool.or_self, Bool.false_eq_true, if_false, Bool.not_false, and_true]
      have := rel_setMet (rel_config h _ (met_flag_ne sc)) sc ⟨0, 0, 0, 0⟩ rfl rfl
        (by rw [enabled_set]; simp)
      cases sc <;> exact this
    · simp only [Bool.false_or, Bool.false_eq_true, if_false, if_true, Bool.not_true, and_true]
      exact rel_config h _ (met_flag_ne sc)
  · simp [h]

theorem optRel_isSome {v : Option FilterVal} {s : Option Sample} (h : OptRel v s) :
    v.isSome = s.isSome := by
  cases v <;> cases s <;> simp_all [OptRel]

theorem hit_rel {v : FilterVal} {s : Sample} (h : ValRel v s) (ha : v.action = 0) :
    ValRel (hit v).1 { s with seen := s.seen + 1 } ∧ (hit v).1.action = 0 ∧
    (decide ((hit v).2 ≠ factionDrop)) = s.nextPasses := by
  obtain ⟨h1, h2, h3⟩ := h
  unfold hit
  by_cases hr : s.rate = 0
  · have hr' : ¬ (v.sampleRate.toNat > 0) := by omega
    simp only [hr', if_false]
    refine ⟨⟨h1, ?_, ?_⟩, ha, ?_⟩
    · show v.hits + 1 = _
      rw [h2, BitVec.ofNat_add]; rfl
    · simp [h3, hr]
    · simp [ha, factionDrop, Sample.nextPasses, hr]
  · have hr' : v.sampleRate.toNat > 0 := by omega
    have hc : v.sampleCount + 1 = BitVec.ofNat 32 (s.seen + 1) := by
      rw [h3, if_neg hr, BitVec.ofNat_add]; rfl
    simp only [hr', if_true, hc]
    have hn : (BitVec.ofNat 32 (s.seen + 1)).toNat = (s.seen + 1) % 2 ^ 32 := by simp
    rw [hn, h1]
    refine ⟨?_, ?_, ?_⟩
    · have hval : ValRel { v with hits := v.hits + 1, sampleCount := BitVec.ofNat 32 (s.seen + 1) }
          { s with seen := s.seen + 1 } := by
        refine ⟨h1, ?_, ?_⟩
        · show v.hits + 1 = _
          rw [h2, BitVec.ofNat_add]; rfl
        · simp [hr]
      split <;> exact hval
    · split <;> exact ha
    · unfold Sample.nextPasses
      have hr2 : (s.rate == 0) = false := by simp [hr]
      rw [hr2, Bool.false_or]
      split
      · rename_i hcond
        have h5 : ¬ ((s.seen + 1) % 2 ^ 32 ≤ 1) := by omega
        simp [factionDrop, hcond.2, h5]
      · rename_i hcond
        simp only [ha, factionDrop]
        by_cases h6 : (s.seen + 1) % 2 ^ 32 ≤ 1
        · simp [h6]
        · have h7 : (s.seen + 1) % 2 ^ 32 % s.rate = 0 := by
            by_cases h8 : (s.seen + 1) % 2 ^ 32 % s.rate = 0
            · exact h8
            · exact absurd ⟨by omega, h8⟩ hcond
          simp [h7]

theorem rel_noKey {m : KMaps} {a : Abs} (h : Rel m a) {k : FilterKey}
    (h1 : ∀ sc nr, k ≠ sysKey sc nr) (h2 : ∀ sc, k ≠ metKey sc) : GoMap.get m.filter k = none := by
  cases hg : GoMap.get m.filter k with
  | none => rfl
  | some v =>
    rcases h.shape k v hg with ⟨sc, nr, e⟩ | ⟨sc, e, _⟩
    · exact absurd e (h1 sc nr)
    · exact absurd e (h2 sc)

theorem evalLoop_skip (m : KMaps) (k : FilterKey) (ks : List FilterKey)
    (h : GoMap.get m.filter k = none) : evalLoop m (k :: ks) = evalLoop m ks := by
  simp [evalLoop, h]

theorem evalLoop_hit (m : KMaps) (k : FilterKey) (ks : List FilterKey) (v : FilterVal)
    (h : GoMap.get m.filter k = some v) (he : isFilterEnabled m k.flags = true) :
    evalLoop m (k :: ks) = ({ m with filter := GoMap.set m.filter k (hit v).1 }, (hit v).2) := by
  simp [evalLoop, h, he]

theorem rel_callEvent {m : KMaps} {a : Abs} (tbl : Syscalls) (h : Rel m a) (ns tid nr : BitVec 32) :
    Rel (step tbl m (.callEvent ns tid nr)).1 (a.step tbl (.callEvent ns tid nr)).1 ∧
    (step tbl m (.callEvent ns tid nr)).2 = (a.step tbl (.callEvent ns tid nr)).2 := by
  simp only [step, Abs.step, runNfilter, h.en]
  by_cases hen : a.enabled = true
  · simp only [hen, if_true, evalKeys_sys]
    rw [evalLoop_skip _ _ _ (rel_noKey h (by intro sc n; cases sc <;> simp [sysKey])
      (by intro sc; cases sc <;> simp [metKey]))]
    rw [evalLoop_skip _ _ _ (rel_noKey h (by intro sc n; cases sc <;> simp [sysKey])
      (by intro sc; cases sc <;> simp [metKey]))]
    have h1 := h.sys (some ns) nr
    have h2 := h.sys none nr
    cases hg : GoMap.get m.filter (sysKey (some ns) nr) with
    | some v =>
      rw [hg] at h1
      cases hs : a.sys (some ns) nr with
      | none => rw [hs] at h1; exact absurd h1 (by simp [OptRel])
      | some s =>
        rw [hs] at h1
        have hv : ValRel v s := h1
        obtain ⟨r1, r2, r3⟩ := hit_rel hv (h.act _ _ hg)
        rw [evalLoop_hit _ _ _ _ hg (h.gate _ _ hg)]
        simp only [Abs.decider, hs]
        exact ⟨rel_setSys h _ _ _ _ r1 r2 (h.gate _ _ hg), r3⟩
    | none =>
      rw [hg] at h1
      have hs : a.sys (some ns) nr = none := by
        cases hs : a.sys (some ns) nr with
        | none => rfl
        | some s => rw [hs] at h1; exact absurd h1 (by simp [OptRel])
      rw [evalLoop_skip _ _ _ hg]
      rw [evalLoop_skip _ _ _ (rel_noKey h (by intro sc n; cases sc <;> simp [sysKey])
        (by intro sc; cases sc <;> simp [metKey]))]
      simp only [Abs.decider, hs]
      cases hg2 : GoMap.get m.filter (sysKey none nr) with
      | some v =>
        rw [hg2] at h2
        cases hs2 : a.sys none nr with
        | none => rw [hs2] at h2; exact absurd h2 (by simp [OptRel])
        | some s =>
          rw [hs2] at h2
          have hv : ValRel v s := h2
          obtain ⟨r1, r2, r3⟩ := hit_rel hv (h.act _ _ hg2)
          rw [evalLoop_hit _ _ _ _ hg2 (h.gate _ _ hg2)]
          exact ⟨rel_setSys h _ _ _ _ r1 r2 (h.gate _ _ hg2), r3⟩
      | none =>
        rw [hg2] at h2
        have hs2 : a.sys none nr = none := by
          cases hs2 : a.sys none nr with
          | none => rfl
          | some s => rw [hs2] at h2; exact absurd h2 (by simp [OptRel])
        rw [evalLoop_skip _ _ _ hg2]
        simp only [hs2, Option.map_none, evalLoop]
        exact ⟨h, by simp⟩
  · have hen : a.enabled = false := by simpa using hen
    simp only [hen, Bool.false_eq_true, if_false]
    exact ⟨h, by simp⟩

/-- Bumping the counters of a metrics rule preserves the relation. -/
theorem rel_metHit {m : KMaps} {a : Abs} (h : Rel m a) (ns : BitVec 32) (v w : FilterVal)
    (hg : GoMap.get m.filter (metKey (some ns)) = some v) (ha : w.action = 0) (hr : w.sampleRate = 0) :
    Rel { m with filter := GoMap.set m.filter (metKey (some ns)) w } a := by
  have h1 := rel_setMet h (some ns) w ha hr (h.gate _ _ hg)
  have h2 : (fun x => if x = ns then true else a.met x) = a.met := by
    funext x
    by_cases hx : x = ns
    · subst hx
      have := h.met x
      rw [hg] at this
      simpa using this
    · simp [hx]
  simp only [h2] at h1
  exact h1

theorem rel_metricsEvent {m : KMaps} {a : Abs} (tbl : Syscalls) (h : Rel m a) (ns tid nr : BitVec 32) :
    Rel (step tbl m (.metricsEvent ns tid nr)).1 (a.step tbl (.metricsEvent ns tid nr)).1 ∧
    (step tbl m (.metricsEvent ns tid nr)).2 = (a.step tbl (.metricsEvent ns tid nr)).2 := by
  simp only [step, Abs.step, runNfilter, h.en]
  have hm := h.met ns
  by_cases hen : a.enabled = true
  · simp only [hen, if_true, evalKeys_met, Bool.true_and]
    cases hg : GoMap.get m.filter (metKey (some ns)) with
    | some v =>
      rw [hg] at hm
      have hr : v.sampleRate = 0 := by
        rcases h.shape _ _ hg with ⟨sc, n, e⟩ | ⟨sc, _, hr⟩
        · exact absurd e.symm (sysKey_ne_metKey _ _ _)
        · exact hr
      have ha := h.act _ _ hg
      have hh : hit v = ({ v with hits := v.hits + 1 }, 0) := by
        unfold hit
        simp [hr, ha]
      rw [evalLoop_hit _ _ _ _ hg (h.gate _ _ hg), hh]
      refine ⟨rel_metHit h ns v _ hg ha hr, ?_⟩
      rw [← hm]; simp [factionDrop]
    | none =>
      rw [hg] at hm
      rw [evalLoop_skip _ _ _ hg]
      rw [evalLoop_skip _ _ _ (rel_noKey h (by intro sc n; cases sc <;> simp [sysKey])
        (by intro sc; cases sc <;> simp [metKey]))]
      rw [evalLoop_skip _ _ _ (rel_noKey h (by intro sc n; cases sc <;> simp [sysKey])
        (by intro sc; cases sc <;> simp [metKey]))]
      rw [evalLoop_skip _ _ _ (rel_noKey h (by intro sc n; cases sc <;> simp [sysKey])
        (by intro sc; cases sc <;> simp [metKey]))]
      rw [evalLoop_skip _ _ _ (rel_noKey h (by intro sc n; cases sc <;> simp [sysKey])
        (by intro sc; cases sc <;> simp [metKey]))]
      simp only [evalLoop]
      refine ⟨h, ?_⟩
      rw [← hm]; simp
  · have hen : a.enabled = false := by simpa using hen
    simp only [hen, Bool.false_eq_true, if_false]
    exact ⟨h, by simp⟩

/-- One step preserves the relation and gives the same answer. -/
theorem rel_step {m : KMaps} {a : Abs} (tbl : Syscalls) (h : Rel m a) (o : Op) :
    Rel (step tbl m o).1 (a.step tbl o).1 ∧ (step tbl m o).2 = (a.step tbl o).2 := by
  cases o with
  | addSyscall k ns f =>
    simp only [step, Abs.step, addSyscall, newRule_sys]
    cases hl : lookup tbl k with
    | none => exact ⟨h, rfl⟩
    | some s =>
      have := addRule_sys h (scope ns) (BitVec.ofNat 32 s.nr) ⟨0, 0, 0, 0⟩ ⟨0, 0⟩
        (by simp [ValRel]) rfl f
      simp only [Option.map_some]
      by_cases hf : (f.config || f.filter) = true
      · simp only [hf, if_true, Bool.not_true] at this ⊢; exact this
      · have hf : (f.config || f.filter) = false := by simpa using hf
        simp only [hf, Bool.false_eq_true, if_false, Bool.not_false] at this ⊢; exact this
  | addSampled k ns rate f =>
    simp only [step, Abs.step, addSampledSyscall, newRule_sampled]
    cases hl : lookup tbl k with
    | none => exact ⟨h, rfl⟩
    | some s =>
      have := addRule_sys h (scope ns) (BitVec.ofNat 32 s.nr) ⟨rate.setWidth 32, 0, 0, 0⟩
        ⟨rate.toNat % 2 ^ 32, 0⟩ (by simp [ValRel, BitVec.toNat_setWidth]) rfl f
      simp only [Option.map_some]
      by_cases hf : (f.config || f.filter) = true
      · simp only [hf, if_true, Bool.not_true] at this ⊢; exact this
      · have hf : (f.config || f.filter) = false := by simpa using hf
        simp only [hf, Bool.false_eq_true, if_false, Bool.not_false] at this ⊢; exact this
  | removeSyscall k ns =>
    simp only [step, Abs.step, removeSyscall, newRule_sys]
    cases hl : lookup tbl k with
    | none => exact ⟨h, rfl⟩
    | some s =>
      have hi := optRel_isSome (h.sys (scope ns) (BitVec.ofNat 32 s.nr))
      have hi' : GoMap.has m.filter (sysKey (scope ns) (BitVec.ofNat 32 s.nr)) =
        (a.sys (scope ns) (BitVec.ofNat 32 s.nr)).isSome := hi
      simp only [Option.map_some, delRule, hi']
      by_cases hs : (a.sys (scope ns) (BitVec.ofNat 32 s.nr)).isSome = true
      · simp only [hs, if_true, and_true]
        exact rel_delSys h _ _
      · have hs : (a.sys (scope ns) (BitVec.ofNat 32 s.nr)).isSome = false := by simpa using hs
        simp only [hs, Bool.false_eq_true, if_false, and_true]
        have hn : GoMap.get m.filter (sysKey (scope ns) (BitVec.ofNat 32 s.nr)) = none := by
          rw [hs] at hi; simpa using hi
        have := rel_delSys h (scope ns) (BitVec.ofNat 32 s.nr)
        rw [GoMap.del_eq_self hn] at this
        exact this
  | addMetrics ns f =>
    simp only [step, Abs.step, addMetrics, newRule_met]
    have := addRule_met h (scope ns) f
    by_cases hf : (f.config || f.filter) = true
    · simp only [hf, if_true, Bool.not_true] at this ⊢; exact this
    · have hf : (f.config || f.filter) = false := by simpa using hf
      simp only [hf, Bool.false_eq_true, if_false, Bool.not_false] at this ⊢
      cases hs : scope ns <;> simp only [hs] at this ⊢ <;> exact this
  | removeMetrics ns =>
    have hn : GoMap.has m.filter (metKey0 (scope ns)) = false := by
      unfold GoMap.has
      rw [rel_noKey h (fun sc nr e => sysKey_ne_metKey0 _ _ _ e.symm)
        (fun sc e => metKey_ne_metKey0 _ _ e.symm)]
      rfl
    simp only [step, Abs.step, removeMetrics, newRule_met, delRule, hn]
    exact ⟨h, rfl⟩
  | enable =>
    simp only [step, Abs.step, enable, and_true]
    refine ⟨?_, ?_, h.act, h.shape, h.sys, h.met⟩
    · rw [enabled_set]; simp
    · intro k v hk
      rw [enabled_set, h.gate k v hk]; simp
  | callEvent ns tid nr => exact rel_callEvent tbl h ns tid nr
  | metricsEvent ns tid nr => exact rel_metricsEvent tbl h ns tid nr

theorem rel_run (tbl : Syscalls) : ∀ (os : List Op) {m : KMaps} {a : Abs}, Rel m a →
    Rel (run tbl m os).1 (a.run tbl os).1 ∧ (run tbl m os).2 = (a.run tbl os).2 := by
  intro os
  induction os with
  | nil => intro m a h; exact ⟨h, rfl⟩
  | cons o os ih =>
    intro m a h
    obtain ⟨h1, h2⟩ := rel_step tbl h o
    obtain ⟨h3, h4⟩ := ih h1
    simp only [run, Abs.run]
    exact ⟨h3, by rw [h2, h4]⟩

end Swoll.Lemmas.Filter
