import Verif.Spec.RuleText
import Verif.Props.Filter
import Verif.Props.Syscalls
import Verif.Lemmas.FlagNames
/-
C147: the log shows the rules in force for what they are.
-/
namespace Swoll.Props.RuleText
open Swoll Swoll.Syscalls Swoll.Filter Swoll.RuleText Swoll.Spec.Filter Swoll.Spec.Syscalls Swoll.Spec.RuleText
open Swoll.Lemmas.Filter Swoll.Props.Syscalls

/-! Reading a line back, up to each comma. -/

theorem comma_split : ∀ {u v x y : List Char}, ',' ∉ u → ',' ∉ v → u ++ ',' :: x = v ++ ',' :: y → u = v ∧ x = y
  | [], [], x, y, _, _, h => by injection h with _ h; exact ⟨rfl, h⟩
  | [], c :: v, x, y, _, hv, h => by
    injection h with h _
    exact absurd (by rw [h]; simp) hv
  | c :: u, [], x, y, hu, _, h => by
    injection h with h _
    exact absurd (by rw [← h]; simp) hu
  | c :: u, d :: v, x, y, hu, hv, h => by
    injection h with h1 h2
    obtain ⟨e1, e2⟩ := comma_split (fun hh => hu (List.mem_cons_of_mem _ hh)) (fun hh => hv (List.mem_cons_of_mem _ hh)) h2
    exact ⟨by rw [h1, e1], e2⟩

theorem digits_no_comma (n : Nat) : ',' ∉ Flags.digits n := fun h => by
  have := Lemmas.Flags.digits_all n _ h
  simp at this

/-- The five bits a flag text shows. -/
def bits (f : BitVec 16) : Bool × Bool × Bool × Bool × Bool :=
  (decide (f &&& fmodeSyscall ≠ 0), decide (f &&& fmodeMetrics ≠ 0), decide (f &&& ftypePid ≠ 0), decide (f &&& ftypePidNS ≠ 0),
    decide (f &&& ftypeSyscall ≠ 0))

/-- The flag text, from the five bits. -/
def bitText (b : Bool × Bool × Bool × Bool × Bool) : List Char :=
  let out : List (List Char) := []
  let out := if b.1 = true then out ++ ["FILTER_MODE_SYSCALL".toList] else out
  let out := if b.2.1 = true then out ++ ["FILTER_MODE_METRICS".toList] else out
  let out := if b.2.2.1 = true then out ++ ["FILTER_TYPE_PID".toList] else out
  let out := if b.2.2.2.1 = true then out ++ ["FILTER_TYPE_PID_NS".toList] else out
  let out := if b.2.2.2.2 = true then out ++ ["FILTER_TYPE_SYSCALL".toList] else out
  join out

theorem flagText_bits (f : BitVec 16) : flagText f = bitText (bits f) := by
  simp only [flagText, bitText, bits, decide_eq_true_eq]

theorem bitText_inj : ∀ a b c d e a' b' c' d' e' : Bool, bitText (a, b, c, d, e) = bitText (a', b', c', d', e') →
    (a, b, c, d, e) = (a', b', c', d', e') := by decide +kernel

theorem bitText_no_comma : ∀ a b c d e : Bool, ',' ∉ bitText (a, b, c, d, e) := by decide +kernel

theorem flag_no_comma (f : BitVec 16) : ',' ∉ flagText f := by rw [flagText_bits]; exact bitText_no_comma _ _ _ _ _

theorem flag_inj {f g : BitVec 16} (hf : f &&& 0xE006#16 = f) (hg : g &&& 0xE006#16 = g) (h : flagText f = flagText g) : f = g := by
  rw [flagText_bits, flagText_bits] at h
  have h := bitText_inj _ _ _ _ _ _ _ _ _ _ h
  simp only [Prod.mk.injEq] at h
  obtain ⟨h1, h2, h3, h4, h5⟩ := h
  have hb : ∀ m : BitVec 16, decide (f &&& m ≠ 0) = decide (g &&& m ≠ 0) → ∀ i, m = BitVec.twoPow 16 i →
      f.getLsbD i = g.getLsbD i := by
    intro m hm i hi
    subst hi
    rw [BitVec.and_twoPow, BitVec.and_twoPow] at hm
    by_cases hi : i < 16
    · have hne : BitVec.twoPow 16 i ≠ 0 := by
        intro hh
        have : (BitVec.twoPow 16 i).getLsbD i = true := by simp [hi]
        rw [hh] at this
        simp at this
      cases hx : f.getLsbD i <;> cases hy : g.getLsbD i <;> simp_all
    · rw [BitVec.getLsbD_of_ge _ _ (by omega), BitVec.getLsbD_of_ge _ _ (by omega)]
  have hz : ∀ {f : BitVec 16}, f &&& 0xE006#16 = f → ∀ i, (0xE006#16).getLsbD i = false → f.getLsbD i = false := by
    intro f hf i hi
    rw [← hf, BitVec.getLsbD_and, hi, Bool.and_false]
  apply BitVec.eq_of_getLsbD_eq
  intro i hi
  have cases16 : i = 1 ∨ i = 2 ∨ i = 13 ∨ i = 14 ∨ i = 15 ∨ (0xE006#16).getLsbD i = false := by
    have : ∀ i, i < 16 → i = 1 ∨ i = 2 ∨ i = 13 ∨ i = 14 ∨ i = 15 ∨ (0xE006#16).getLsbD i = false := by decide
    exact this i hi
  rcases cases16 with rfl | rfl | rfl | rfl | rfl | hh
  · exact hb _ h1 1 rfl
  · exact hb _ h2 2 rfl
  · exact hb _ h3 13 rfl
  · exact hb _ h4 14 rfl
  · exact hb _ h5 15 rfl
  · rw [hz hf i hh, hz hg i hh]

/-! Names of calls. -/

theorem names_no_comma : ∀ e ∈ gSyscallMap, ',' ∉ e.1.toList ∧ e.1.toList ≠ "ALL".toList := by decide +kernel

variable {tbl : Syscalls} {order : List (String × String × String)}

theorem name_known (ho : order.Perm gClassMap) (ht : new order = some tbl) {name : String} {nr : Nat} {c g : String}
    (he : Entry name nr c g) (k : FilterKey) (hk : k.syscall = BitVec.ofNat 32 nr) : callName tbl k = name.toList := by
  have hlt : nr < 333 := by
    have : nr ∈ gSyscallMap.map (·.2) := List.mem_map.2 ⟨_, he.1, rfl⟩
    rw [Lemmas.Syscalls.nrs_eq_range] at this
    exact List.mem_range.1 this
  have hi : k.syscall.toInt = (nr : Int) := by
    rw [hk, BitVec.toInt_ofNat']
    rw [Int.bmod_eq_of_le] <;> omega
  unfold callName
  rw [hi, (c43_lookup_complete order ho tbl ht name nr c g he).1]

theorem name_all (ho : order.Perm gClassMap) (ht : new order = some tbl) (k : FilterKey) (hk : k.syscall = -1) :
    callName tbl k = "ALL".toList := by
  unfold callName
  have hi : k.syscall.toInt = -1 := by rw [hk]; decide
  rw [hi]
  cases hl : lookup tbl (.int (-1)) with
  | none => rfl
  | some sc =>
    have := (c43_lookup_sound order ho tbl ht _ _ hl).2
    simp only at this
    omega

theorem name_no_comma (ho : order.Perm gClassMap) (ht : new order = some tbl) (k : FilterKey) : ',' ∉ callName tbl k := by
  unfold callName
  split
  · decide
  · next sc hl =>
    exact (names_no_comma _ (c43_lookup_sound order ho tbl ht _ _ hl).1.1).1

theorem name_inj (ho : order.Perm gClassMap) (ht : new order = some tbl) {r r' : Rule} (hr : Proper r) (hr' : Proper r')
    (h : callName tbl r.key = callName tbl r'.key) : r.key.syscall = r'.key.syscall := by
  rcases hr.2.2 with e | ⟨name, nr, c, g, he, e⟩ <;> rcases hr'.2.2 with e' | ⟨name', nr', c', g', he', e'⟩
  · rw [e, e']
  · rw [name_all ho ht _ e, name_known ho ht he' _ e'] at h
    exact absurd h.symm (names_no_comma _ he'.1).2
  · rw [name_all ho ht _ e', name_known ho ht he _ e] at h
    exact absurd h (names_no_comma _ he.1).2
  · rw [name_known ho ht he _ e, name_known ho ht he' _ e'] at h
    have hn : name = name' := String.toList_inj.1 h
    subst hn
    have h1 := GoMap.get_of_mem Lemmas.Syscalls.names_nodup he.1
    have h2 := GoMap.get_of_mem Lemmas.Syscalls.names_nodup he'.1
    rw [h1] at h2
    injection h2 with h2
    rw [e, e', h2]

theorem action_inj {a b : BitVec 8} (ha : a = 0 ∨ a = 1) (hb : b = 0 ∨ b = 1)
    (h : actionText a ++ "}".toList = actionText b ++ "}".toList) : a = b := by
  rcases ha with rfl | rfl <;> rcases hb with rfl | rfl
  · rfl
  · exact absurd h (by decide +kernel)
  · exact absurd h (by decide +kernel)
  · rfl

/-- C147: two rules that are shown alike are the same: from its line one can tell what a rule is about, what it does, and
what it has counted. -/
theorem c147_faithful (ho : order.Perm gClassMap) (ht : new order = some tbl) (r r' : Rule) (hr : Proper r) (hr' : Proper r')
    (h : ruleText tbl r = ruleText tbl r') : r = r' := by
  unfold ruleText keyText valText at h
  simp only [show "{".toList = ['{'] from rfl, show "flags=".toList = ['f', 'l', 'a', 'g', 's', '='] from rfl,
    show ", pid-namespace=".toList = ',' :: " pid-namespace=".toList from rfl, show ", thread-id=".toList = ',' :: " thread-id=".toList from rfl,
    show ", syscall=".toList = ',' :: " syscall=".toList from rfl, show ", ".toList = ',' :: " ".toList from rfl,
    show ", current-sample-count=".toList = ',' :: " current-sample-count=".toList from rfl, show ", hits=".toList = ',' :: " hits=".toList from rfl,
    show ", action=".toList = ',' :: " action=".toList from rfl, List.append_assoc, List.cons_append, List.nil_append, List.cons.injEq, true_and] at h
  obtain ⟨e1, h⟩ := comma_split (flag_no_comma _) (flag_no_comma _) h
  have h := List.append_cancel_left h
  obtain ⟨e2, h⟩ := comma_split (digits_no_comma _) (digits_no_comma _) h
  have h := List.append_cancel_left h
  obtain ⟨e3, h⟩ := comma_split (digits_no_comma _) (digits_no_comma _) h
  have h := List.append_cancel_left h
  obtain ⟨e4, h⟩ := comma_split (name_no_comma ho ht _) (name_no_comma ho ht _) h
  have h := List.append_cancel_left h
  have h := List.append_cancel_left h
  obtain ⟨e5, h⟩ := comma_split (digits_no_comma _) (digits_no_comma _) h
  have h := List.append_cancel_left h
  obtain ⟨e6, h⟩ := comma_split (digits_no_comma _) (digits_no_comma _) h
  have h := List.append_cancel_left h
  obtain ⟨e7, h⟩ := comma_split (digits_no_comma _) (digits_no_comma _) h
  have e8 := List.append_cancel_left h
  have i1 := flag_inj hr.1 hr'.1 e1
  have i2 := BitVec.eq_of_toNat_eq (Lemmas.Flags.digits_inj e2)
  have i3 := BitVec.eq_of_toNat_eq (Lemmas.Flags.digits_inj e3)
  have i4 := name_inj ho ht hr hr' e4
  have i5 := BitVec.eq_of_toNat_eq (Lemmas.Flags.digits_inj e5)
  have i6 := BitVec.eq_of_toNat_eq (Lemmas.Flags.digits_inj e6)
  have i7 := BitVec.eq_of_toNat_eq (Lemmas.Flags.digits_inj e7)
  have i8 := action_inj hr.2.1 hr'.2.1 e8
  obtain ⟨⟨f, p, t, n⟩, ⟨a, b, c, d⟩⟩ := r
  obtain ⟨⟨f', p', t', n'⟩, ⟨a', b', c', d'⟩⟩ := r'
  simp only at i1 i2 i3 i4 i5 i6 i7 i8
  subst i1 i2 i3 i4 i5 i6 i7 i8
  rfl

/-! What a history leaves in the map. -/

/-- The rules of calls are of calls the program knows. -/
def Known (a : Abs) : Prop := ∀ sc nr s, a.sys sc nr = some s → ∃ name n c g, Entry name n c g ∧ nr = BitVec.ofNat 32 n

theorem known_set {a : Abs} (h : Known a) (sc : Option (BitVec 32)) (nr : BitVec 32) (v : Option Sample)
    (hn : v.isSome = true → ∃ name n c g, Entry name n c g ∧ nr = BitVec.ofNat 32 n) : Known (a.setRule sc nr v) := by
  intro sc' nr' s hs
  unfold Abs.setRule at hs
  dsimp only at hs
  split at hs
  · next e =>
    rw [e.2]
    exact hn (by rw [hs]; rfl)
  · exact h sc' nr' s hs

theorem known_step (ho : order.Perm gClassMap) (ht : new order = some tbl) {a : Abs} (h : Known a) (o : Op) :
    Known (a.step tbl o).1 := by
  cases o with
  | addSyscall k ns f =>
    simp only [Abs.step]
    split
    · exact h
    · next s hl =>
      split
      · exact h
      · exact known_set h _ _ _ fun _ => ⟨_, _, _, _, (c43_lookup_sound order ho tbl ht _ _ hl).1, rfl⟩
  | addSampled k ns rate f =>
    simp only [Abs.step]
    split
    · exact h
    · next s hl =>
      split
      · exact h
      · exact known_set h _ _ _ fun _ => ⟨_, _, _, _, (c43_lookup_sound order ho tbl ht _ _ hl).1, rfl⟩
  | removeSyscall k ns =>
    simp only [Abs.step]
    split
    · exact h
    · exact known_set h _ _ _ fun hh => by cases hh
  | addMetrics ns f =>
    simp only [Abs.step]
    split
    · exact h
    · split <;> exact h
  | removeMetrics ns => exact h
  | enable => exact h
  | callEvent ns tid nr =>
    simp only [Abs.step]
    split
    · split
      · exact h
      · next sc s hd =>
        refine known_set h _ _ _ fun _ => ?_
        unfold Abs.decider at hd
        split at hd
        · next s' hs => exact h _ _ _ hs
        · cases hs : a.sys none nr with
          | none => rw [hs] at hd; cases hd
          | some s' => exact h _ _ _ hs
    · exact h
  | metricsEvent ns tid nr => exact h

theorem known_run (ho : order.Perm gClassMap) (ht : new order = some tbl) : ∀ (hist : List Op) (a : Abs), Known a →
    Known (a.run tbl hist).1
  | [], _, h => h
  | o :: os, a, h => by simp only [Abs.run]; exact known_run ho ht os _ (known_step ho ht h o)

/-- What the map holds of the metrics. -/
structure Metered (m : KMaps) (t : Meter) : Prop where
  on : isFilterEnabled m fmodeEnabled = t.on
  rule : ∀ sc, GoMap.get m.filter (metKey sc) = (t.count sc).map fun n => ⟨0, 0, BitVec.ofNat 64 n, 0⟩

theorem metered_addSys {m : KMaps} {t : Meter} (h : Metered m t) (sc : Option (BitVec 32)) (nr : BitVec 32) (v : FilterVal) (f : Faults) :
    Metered (addRule m ⟨sysKey sc nr, v⟩ f).1 t := by
  unfold addRule
  simp only [normKey_sys]
  rcases f with ⟨f1, f2⟩
  cases f1
  · have hon : isFilterEnabled { m with config := GoMap.set m.config (sysKey sc nr).flags 1 } fmodeEnabled = t.on := by
      rw [enabled_set]; simp [sys_flag_ne, h.on]
    cases f2
    · refine ⟨hon, fun sc' => ?_⟩
      show GoMap.get (GoMap.set m.filter (sysKey sc nr) v) (metKey sc') = _
      rw [GoMap.get_set, if_neg (sysKey_ne_metKey _ _ _)]
      exact h.rule sc'
    · exact ⟨hon, h.rule⟩
  · exact h

theorem metered_step {m : KMaps} {a : Abs} {t : Meter} (hr : Rel m a) (h : Metered m t) (o : Op) :
    Metered (step tbl m o).1 (t.step o) := by
  cases o with
  | addSyscall k ns f =>
    simp only [step, addSyscall, newRule_sys, Meter.step]
    cases lookup tbl k with
    | none => exact h
    | some s => exact metered_addSys h _ _ _ f
  | addSampled k ns rate f =>
    simp only [step, addSampledSyscall, newRule_sampled, Meter.step]
    cases lookup tbl k with
    | none => exact h
    | some s => exact metered_addSys h _ _ _ f
  | removeSyscall k ns =>
    simp only [step, removeSyscall, newRule_sys, Meter.step]
    cases lookup tbl k with
    | none => exact h
    | some s =>
      simp only [Option.map_some, delRule]
      split
      · refine ⟨h.on, fun sc' => ?_⟩
        show GoMap.get (GoMap.del m.filter _) (metKey sc') = _
        rw [GoMap.get_del, if_neg (sysKey_ne_metKey _ _ _)]
        exact h.rule sc'
      · exact h
  | addMetrics ns f =>
    simp only [step, addMetrics, newRule_met, Meter.step, addRule, normKey_met]
    rcases f with ⟨f1, f2⟩
    cases f1
    · have hon : isFilterEnabled { m with config := GoMap.set m.config (metKey (scope ns)).flags 1 } fmodeEnabled = t.on := by
        rw [enabled_set]; simp [met_flag_ne, h.on]
      cases f2
      · refine ⟨hon, fun sc' => ?_⟩
        show GoMap.get (GoMap.set m.filter (metKey (scope ns)) ⟨0, 0, 0, 0⟩) (metKey sc') = _
        rw [GoMap.get_set]
        by_cases e : metKey (scope ns) = metKey sc'
        · rw [if_pos e, ← metKey_inj e]
          simp
        · rw [if_neg e]
          have : ¬ sc' = scope ns := fun hh => e (by rw [hh])
          simp only [Bool.or_self, Bool.false_eq_true, if_false, this]
          exact h.rule sc'
      · exact ⟨hon, h.rule⟩
    · exact h
  | removeMetrics ns =>
    have hk : GoMap.get m.filter (metKey0 (scope ns)) = none :=
      rel_noKey hr (fun sc nr e => sysKey_ne_metKey0 _ _ _ e.symm) (fun sc e => metKey_ne_metKey0 _ _ e.symm)
    simp only [step, removeMetrics, newRule_met, Meter.step, delRule, GoMap.has, hk]
    exact h
  | enable =>
    simp only [step, Meter.step]
    refine ⟨?_, h.rule⟩
    unfold enable
    rw [enabled_set]
    simp
  | callEvent ns tid nr =>
    simp only [step, Meter.step, runNfilter]
    split
    · rcases Lemmas.Filter.eval_spec m fmodeSyscall ns tid nr with ⟨l, v, -, e⟩ | ⟨-, e⟩
      · rw [e]
        refine ⟨h.on, fun sc' => ?_⟩
        show GoMap.get (GoMap.set m.filter _ _) (metKey sc') = _
        rw [GoMap.get_set, if_neg]
        · exact h.rule sc'
        · cases l <;> cases sc' <;> simp [Level.key, metKey, fmodeSyscall, ftypePidNS, ftypePid, ftypeSyscall]
      · rw [e]; exact h
    · exact h
  | metricsEvent ns tid nr =>
    simp only [step, Meter.step, runNfilter, h.on]
    cases hon : t.on with
    | false => simp only [Bool.false_eq_true, if_false]; exact h
    | true =>
      simp only [if_true, evalKeys_met]
      cases hg : GoMap.get m.filter (metKey (some ns)) with
      | none =>
        rw [evalLoop_skip _ _ _ hg]
        iterate 4
          rw [evalLoop_skip _ _ _ (rel_noKey hr (by intro sc n; cases sc <;> simp [sysKey])
            (by intro sc; cases sc <;> simp [metKey]))]
        refine ⟨h.on.trans hon, fun sc' => ?_⟩
        simp only [evalLoop]
        by_cases e : sc' = some ns
        · subst e
          rw [hg]
          have := h.rule (some ns)
          rw [hg] at this
          cases hc : t.count (some ns) with
          | none => simp [hc]
          | some n => rw [hc] at this; cases this
        · rw [if_neg e]; exact h.rule sc'
      | some v =>
        rw [evalLoop_hit _ _ _ _ hg (hr.gate _ _ hg)]
        refine ⟨h.on.trans hon, fun sc' => ?_⟩
        show GoMap.get (GoMap.set m.filter _ _) (metKey sc') = _
        rw [GoMap.get_set]
        by_cases e : sc' = some ns
        · subst e
          rw [if_pos rfl]
          have := h.rule (some ns)
          rw [hg] at this
          cases hc : t.count (some ns) with
          | none => rw [hc] at this; cases this
          | some n =>
            rw [hc] at this
            injection this with this
            rw [this]
            simp [hit, hc, BitVec.ofNat_add]
        · rw [if_neg (fun hh => e (metKey_inj hh).symm)]
          simp only [if_neg e]
          exact h.rule sc'

theorem metered_run : ∀ (hist : List Op) {m : KMaps} {a : Abs} {t : Meter}, Rel m a → Metered m t →
    Metered (run tbl m hist).1 (hist.foldl Meter.step t)
  | [], _, _, _, _, h => h
  | o :: os, m, a, t, hr, h => by
    simp only [run, List.foldl_cons]
    exact metered_run os (rel_step tbl hr o).1 (metered_step hr h o)

/-! The line of each kind of rule. -/

theorem flag1 : flagText 0x8002#16 = "FILTER_MODE_SYSCALL|FILTER_TYPE_SYSCALL".toList := by decide +kernel
theorem flag2 : flagText 0xC002#16 = "FILTER_MODE_SYSCALL|FILTER_TYPE_PID_NS|FILTER_TYPE_SYSCALL".toList := by decide +kernel
theorem flag3 : flagText 0x0004#16 = "FILTER_MODE_METRICS".toList := by decide +kernel
theorem flag4 : flagText 0x4004#16 = "FILTER_MODE_METRICS|FILTER_TYPE_PID_NS".toList := by decide +kernel

theorem digits0 : Flags.digits 0 = ['0'] := by simp [Flags.digits, Flags.digit]

theorem t_thread : ", thread-id=0, syscall=".toList = ", thread-id=".toList ++ (['0'] ++ ", syscall=".toList) := by decide +kernel
theorem t_rate : ", sample-rate=".toList = ", ".toList ++ "sample-rate=".toList := by decide +kernel
theorem t_action : ", action=ACTION_ALLOW}".toList = ", action=".toList ++ ("ACTION_ALLOW".toList ++ "}".toList) := by decide +kernel
theorem t_call : "{flags=FILTER_MODE_SYSCALL|FILTER_TYPE_SYSCALL, pid-namespace=0".toList =
    "{".toList ++ ("flags=".toList ++ ("FILTER_MODE_SYSCALL|FILTER_TYPE_SYSCALL".toList ++ (", pid-namespace=".toList ++ ['0']))) := by
  decide +kernel
theorem t_callns : "{flags=FILTER_MODE_SYSCALL|FILTER_TYPE_PID_NS|FILTER_TYPE_SYSCALL, pid-namespace=".toList =
    "{".toList ++ ("flags=".toList ++ ("FILTER_MODE_SYSCALL|FILTER_TYPE_PID_NS|FILTER_TYPE_SYSCALL".toList ++ ", pid-namespace=".toList)) := by
  decide +kernel
theorem t_met : "{flags=FILTER_MODE_METRICS, pid-namespace=0".toList =
    "{".toList ++ ("flags=".toList ++ ("FILTER_MODE_METRICS".toList ++ (", pid-namespace=".toList ++ ['0']))) := by decide +kernel
theorem t_metns : "{flags=FILTER_MODE_METRICS|FILTER_TYPE_PID_NS, pid-namespace=".toList =
    "{".toList ++ ("flags=".toList ++ ("FILTER_MODE_METRICS|FILTER_TYPE_PID_NS".toList ++ ", pid-namespace=".toList)) := by decide +kernel
theorem t_metrest : ", thread-id=0, syscall=ALL, sample-rate=0, current-sample-count=0, hits=".toList =
    ", thread-id=".toList ++ (['0'] ++ (", syscall=".toList ++ ("ALL".toList ++ (", ".toList ++ ("sample-rate=".toList ++ (['0'] ++
      (", current-sample-count=".toList ++ (['0'] ++ ", hits=".toList)))))))) := by decide +kernel

theorem flag5 : flagText 0x4002#16 = "FILTER_MODE_SYSCALL|FILTER_TYPE_PID_NS".toList := by decide +kernel
theorem t_wide : "{flags=FILTER_MODE_SYSCALL|FILTER_TYPE_PID_NS, pid-namespace=".toList =
    "{".toList ++ ("flags=".toList ++ ("FILTER_MODE_SYSCALL|FILTER_TYPE_PID_NS".toList ++ ", pid-namespace=".toList)) := by decide +kernel
theorem t_wide2 : ", thread-id=0, syscall=sys_read, sample-rate=0, current-sample-count=0, hits=0, action=ACTION_ALLOW}".toList =
    ", thread-id=".toList ++ (['0'] ++ (", syscall=".toList ++ ("sys_read".toList ++ (", ".toList ++ ("sample-rate=".toList ++ (['0'] ++
      (", current-sample-count=".toList ++ (['0'] ++ (", hits=".toList ++ (['0'] ++ (", action=".toList ++
        ("ACTION_ALLOW".toList ++ "}".toList)))))))))))) := by decide +kernel

theorem glue_wide (a b c d e f g h i j k l m n o p q r s : List Char) :
    a ++ (b ++ c ++ d ++ e ++ f ++ g ++ h ++ i) ++ j ++ (k ++ l ++ m ++ n ++ o ++ p ++ q ++ r) ++ s =
    a ++ (b ++ (c ++ d)) ++ e ++ (f ++ (g ++ (h ++ (i ++ (j ++ (k ++ (l ++ (m ++ (n ++ (o ++ (p ++ (q ++ (r ++ s)))))))))))))  := by
  simp only [List.append_assoc]

theorem glue_call (a b c d e f g h i j k l m n o p q r s : List Char) :
    a ++ (b ++ c ++ d ++ e ++ f ++ g ++ h ++ i) ++ j ++ (k ++ l ++ m ++ n ++ o ++ p ++ q ++ r) ++ s =
    a ++ (b ++ (c ++ (d ++ e))) ++ (f ++ (g ++ h)) ++ i ++ (j ++ k) ++ l ++ m ++ n ++ o ++ p ++ (q ++ (r ++ s)) := by
  simp only [List.append_assoc]

theorem glue_callns (a b c d e f g h i j k l m n o p q r s : List Char) :
    a ++ (b ++ c ++ d ++ e ++ f ++ g ++ h ++ i) ++ j ++ (k ++ l ++ m ++ n ++ o ++ p ++ q ++ r) ++ s =
    a ++ (b ++ (c ++ d)) ++ e ++ (f ++ (g ++ h)) ++ i ++ (j ++ k) ++ l ++ m ++ n ++ o ++ p ++ (q ++ (r ++ s)) := by
  simp only [List.append_assoc]

theorem glue_met (a b c d e f g h i j k l m n o p q r s : List Char) :
    a ++ (b ++ c ++ d ++ e ++ f ++ g ++ h ++ i) ++ j ++ (k ++ l ++ m ++ n ++ o ++ p ++ q ++ r) ++ s =
    a ++ (b ++ (c ++ (d ++ e))) ++ (f ++ (g ++ (h ++ (i ++ (j ++ (k ++ (l ++ (m ++ (n ++ o))))))))) ++ p ++ (q ++ (r ++ s)) := by
  simp only [List.append_assoc]

theorem glue_metns (a b c d e f g h i j k l m n o p q r s : List Char) :
    a ++ (b ++ c ++ d ++ e ++ f ++ g ++ h ++ i) ++ j ++ (k ++ l ++ m ++ n ++ o ++ p ++ q ++ r) ++ s =
    a ++ (b ++ (c ++ d)) ++ e ++ (f ++ (g ++ (h ++ (i ++ (j ++ (k ++ (l ++ (m ++ (n ++ o))))))))) ++ p ++ (q ++ (r ++ s)) := by
  simp only [List.append_assoc]

theorem line_call (ho : order.Perm gClassMap) (ht : new order = some tbl) {name : String} {n : Nat} {c g : String}
    (he : Entry name n c g) (sc : Option (BitVec 32)) (v : FilterVal) (s : Sample) (hv : ValRel v s) (ha : v.action = 0) :
    ruleText tbl ⟨sysKey sc (BitVec.ofNat 32 n), v⟩ = callLine sc name s := by
  have hn : callName tbl (sysKey sc (BitVec.ofNat 32 n)) = name.toList := name_known ho ht he _ (by cases sc <;> rfl)
  obtain ⟨v1, v2, v3⟩ := hv
  have hc : v.sampleCount.toNat = if s.rate = 0 then 0 else s.seen % 2 ^ 32 := by
    rw [v3]; split <;> simp
  have hh : v.hits.toNat = s.seen % 2 ^ 64 := by rw [v2]; simp
  have hac : actionText v.action = "ACTION_ALLOW".toList := by rw [ha]; rfl
  have hthr : Flags.digits (sysKey sc (BitVec.ofNat 32 n)).thrid.toNat = ['0'] := by cases sc <;> exact digits0
  unfold ruleText keyText valText callLine num
  rw [hn, v1, hc, hh, hac, hthr, t_thread, t_rate, t_action]
  cases sc with
  | none =>
    rw [show flagText (sysKey none (BitVec.ofNat 32 n)).flags = _ from flag1,
      show Flags.digits (sysKey none (BitVec.ofNat 32 n)).pidns.toNat = _ from digits0]
    dsimp only
    rw [t_call]
    exact glue_call _ _ _ _ _ _ _ _ _ _ _ _ _ _ _ _ _ _ _
  | some ns =>
    rw [show flagText (sysKey (some ns) (BitVec.ofNat 32 n)).flags = _ from flag2]
    dsimp only
    rw [t_callns]
    exact glue_callns _ _ _ _ _ _ _ _ _ _ _ _ _ _ _ _ _ _ _

theorem line_metrics (ho : order.Perm gClassMap) (ht : new order = some tbl) (sc : Option (BitVec 32)) (n : Nat) :
    ruleText tbl ⟨metKey sc, ⟨0, 0, BitVec.ofNat 64 n, 0⟩⟩ = metricsLine sc n := by
  have hn : callName tbl (metKey sc) = "ALL".toList := name_all ho ht _ (by cases sc <;> rfl)
  have hac : actionText 0 = "ACTION_ALLOW".toList := rfl
  have hthr : Flags.digits (metKey sc).thrid.toNat = ['0'] := by cases sc <;> exact digits0
  have hh : (BitVec.ofNat 64 n).toNat = n % 2 ^ 64 := BitVec.toNat_ofNat _ _
  have hz : Flags.digits (0 : BitVec 32).toNat = ['0'] := digits0
  unfold ruleText keyText valText metricsLine num
  rw [hn, hac, hthr, hz, hh, t_metrest, t_action]
  cases sc with
  | none =>
    rw [show flagText (metKey none).flags = _ from flag3, show Flags.digits (metKey none).pidns.toNat = _ from digits0]
    dsimp only
    rw [t_met]
    exact glue_met _ _ _ _ _ _ _ _ _ _ _ _ _ _ _ _ _ _ _
  | some ns =>
    rw [show flagText (metKey (some ns)).flags = _ from flag4]
    dsimp only
    rw [t_metns]
    exact glue_metns _ _ _ _ _ _ _ _ _ _ _ _ _ _ _ _ _ _ _

theorem metKey_syscall (sc : Option (BitVec 32)) : (metKey sc).syscall = -1 := by cases sc <;> rfl

theorem sysKey_syscall (sc : Option (BitVec 32)) (nr : BitVec 32) : (sysKey sc nr).syscall = nr := by cases sc <;> rfl

theorem metered_empty : Metered KMaps.empty ⟨false, fun _ => none⟩ := ⟨rfl, fun _ => rfl⟩

theorem flags_sys (sc : Option (BitVec 32)) (nr : BitVec 32) : (sysKey sc nr).flags &&& 0xE006#16 = (sysKey sc nr).flags := by
  rcases sysKey_flags sc nr with e | e <;> rw [e] <;> decide

theorem flags_met (sc : Option (BitVec 32)) : (metKey sc).flags &&& 0xE006#16 = (metKey sc).flags := by
  have h : (metKey sc).flags = 0x0004#16 ∨ (metKey sc).flags = 0x4004#16 := by cases sc <;> simp [metKey]
  rcases h with e | e <;> rw [e] <;> decide

/-- C147: after any history of the rule helpers and of calls, the log has a line for each call in each namespace the user
asked to trace, with its counts, a line for each request for metrics, with its count, and no other line; no two are alike. -/
theorem c147_listing_partial (ho : order.Perm gClassMap) (ht : new order = some tbl) (hist : List Op)
    (kept : GoMap FilterKey FilterVal) (hk : kept.Perm (run tbl KMaps.empty hist).1.filter) (fuel : Nat) (hf : kept.length < fuel) :
    ∃ lines, listing tbl kept fuel = some lines ∧ lines.Nodup ∧ ∀ line, line ∈ lines ↔
      (∃ sc name nr c g s, Entry name nr c g ∧ (Abs.empty.run tbl hist).1.sys sc (BitVec.ofNat 32 nr) = some s ∧ line = callLine sc name s) ∨
      (∃ sc n, (meter hist).count sc = some n ∧ line = metricsLine sc n) := by
  obtain ⟨rs, h1, h2, h3⟩ := Props.Filter.c28_get_running tbl hist kept hk fuel hf
  have hrel := (rel_run tbl hist rel_empty).1
  have hkn := known_run ho ht hist Abs.empty (fun sc nr s hs => by cases hs)
  have hmet : Metered (run tbl KMaps.empty hist).1 (meter hist) :=
    metered_run hist rel_empty metered_empty
  have hsys : ∀ sc nr v, GoMap.get (run tbl KMaps.empty hist).1.filter (sysKey sc nr) = some v →
      ∃ s, (Abs.empty.run tbl hist).1.sys sc nr = some s ∧ ValRel v s := by
    intro sc nr v hg
    have := hrel.sys sc nr
    rw [hg] at this
    cases hs : (Abs.empty.run tbl hist).1.sys sc nr with
    | none => rw [hs] at this; exact absurd this (by simp [OptRel])
    | some s => rw [hs] at this; exact ⟨s, rfl, this⟩
  have hprop : ∀ r ∈ rs, Proper r := by
    intro r hr
    have hg := (h3 r.key r.val).1 hr
    have ha := hrel.act _ _ hg
    rcases hrel.shape _ _ hg with ⟨sc, nr, e⟩ | ⟨sc, e, -⟩
    · rw [e] at hg
      obtain ⟨s, hs, -⟩ := hsys sc nr _ hg
      obtain ⟨name, n, c, g, he, hn⟩ := hkn sc nr s hs
      exact ⟨by rw [e]; exact flags_sys sc nr, Or.inl ha, Or.inr ⟨name, n, c, g, he, by rw [e, sysKey_syscall, hn]⟩⟩
    · exact ⟨by rw [e]; exact flags_met sc, Or.inl ha, Or.inl (by rw [e, metKey_syscall])⟩
  refine ⟨rs.map (ruleText tbl), by rw [listing, h1]; rfl, ?_, fun line => ?_⟩
  · rw [List.Nodup, List.pairwise_map]
    have h2' : List.Pairwise (fun a b => a ∈ rs ∧ b ∈ rs ∧ a ≠ b) rs := by
      rw [List.pairwise_iff_forall_sublist]
      intro a b hab
      exact ⟨hab.subset (by simp), hab.subset (by simp), List.pairwise_iff_forall_sublist.1 h2 hab⟩
    exact h2'.imp fun {a b} h e => h.2.2 (c147_faithful ho ht a b (hprop a h.1) (hprop b h.2.1) e)
  · rw [List.mem_map]
    constructor
    · rintro ⟨r, hr, rfl⟩
      obtain ⟨key, val⟩ := r
      have hg := (h3 key val).1 hr
      rcases hrel.shape _ _ hg with ⟨sc, nr, e⟩ | ⟨sc, e, -⟩
      · subst e
        obtain ⟨s, hs, hv⟩ := hsys sc nr _ hg
        obtain ⟨name, n, c, g, he, hn⟩ := hkn sc nr s hs
        subst hn
        exact Or.inl ⟨sc, name, n, c, g, s, he, hs, line_call ho ht he sc val s hv (hrel.act _ _ hg)⟩
      · subst e
        rw [hmet.rule] at hg
        cases hc : (meter hist).count sc with
        | none => rw [hc] at hg; cases hg
        | some n =>
          rw [hc] at hg
          injection hg with hg
          subst hg
          exact Or.inr ⟨sc, n, hc, line_metrics ho ht sc n⟩
    · rintro (⟨sc, name, nr, c, g, s, he, hs, rfl⟩ | ⟨sc, n, hc, rfl⟩)
      · have := hrel.sys sc (BitVec.ofNat 32 nr)
        rw [hs] at this
        cases hg : GoMap.get (run tbl KMaps.empty hist).1.filter (sysKey sc (BitVec.ofNat 32 nr)) with
        | none => rw [hg] at this; exact absurd this (by simp [OptRel])
        | some v =>
          rw [hg] at this
          exact ⟨⟨_, v⟩, (h3 _ _).2 hg, line_call ho ht he sc v s this (hrel.act _ _ hg)⟩
      · have := hmet.rule sc
        rw [hc] at this
        exact ⟨⟨metKey sc, _⟩, (h3 _ _).2 this, line_metrics ho ht sc n⟩

/-- C147 fails for rules made from the options: a rule for all calls of a namespace is shown as one for `read`, and it
decides no call at all, of whatever thread and number, in a filter with nothing else in it. -/
theorem c147_wide_violated (ho : order.Perm gClassMap) (ht : new order = some tbl) (ns : Int) (hns : ns ≠ -1) :
    ∃ r, newFilterRule [setModeSyscall, setPidNamespace ns, setActionAllow] = some r ∧
      ruleText tbl ⟨normKey r.key, r.val⟩ = "{flags=FILTER_MODE_SYSCALL|FILTER_TYPE_PID_NS, pid-namespace=".toList ++
        num (BitVec.ofInt 32 ns).toNat ++ ", thread-id=0, syscall=sys_read, sample-rate=0, current-sample-count=0, hits=0, action=ACTION_ALLOW}".toList ∧
      ∀ pid tid nr, (runNfilter (addRule (enable KMaps.empty) r {}).1 fmodeSyscall pid tid nr).2 = factionDrop := by
  refine ⟨⟨⟨0x4002#16, BitVec.ofInt 32 ns, 0, 0⟩, ⟨0, 0, 0, 0⟩⟩, ?_, ?_, ?_⟩
  · simp [newFilterRule, setModeSyscall, setPidNamespace, setActionAllow, hns, Rule.zero, fmodeSyscall, ftypePidNS, factionAllow]
  · have he : Entry "sys_read" 0 "FileSystem" "ReadWrite" := by unfold Entry; decide +kernel
    have hk : normKey ⟨0x4002#16, BitVec.ofInt 32 ns, 0, 0⟩ = ⟨0x4002#16, BitVec.ofInt 32 ns, 0, 0⟩ := by
      unfold normKey
      rw [if_neg (fun h => h.1 (show 0x4002#16 &&& fmodeMetrics = 0 by decide))]
    have hn : callName tbl ⟨0x4002#16, BitVec.ofInt 32 ns, 0, 0⟩ = "sys_read".toList := name_known ho ht he _ rfl
    have hac : actionText 0 = "ACTION_ALLOW".toList := rfl
    have hz : Flags.digits (0 : BitVec 32).toNat = ['0'] := digits0
    have hz2 : Flags.digits (0 : BitVec 64).toNat = ['0'] := digits0
    unfold ruleText keyText valText num
    dsimp only
    rw [hk, hn, hac, hz, hz2, flag5, t_wide, t_wide2]
    dsimp only
    exact glue_wide _ _ _ _ _ _ _ _ _ _ _ _ _ _ _ _ _ _ _
  · intro pid tid nr
    rcases Lemmas.Filter.eval_spec (addRule (enable KMaps.empty) ⟨⟨0x4002#16, BitVec.ofInt 32 ns, 0, 0⟩, ⟨0, 0, 0, 0⟩⟩ {}).1
      fmodeSyscall pid tid nr with ⟨l, v, hd, -⟩ | ⟨-, e⟩
    · exfalso
      obtain ⟨-, -, -, ha, -⟩ := hd
      have hg := ha.1
      have hf : (addRule (enable KMaps.empty) ⟨⟨0x4002#16, BitVec.ofInt 32 ns, 0, 0⟩, ⟨0, 0, 0, 0⟩⟩ {}).1.filter =
          [(⟨0x4002#16, BitVec.ofInt 32 ns, 0, 0⟩, ⟨0, 0, 0, 0⟩)] := by
        have hk : normKey ⟨0x4002#16, BitVec.ofInt 32 ns, 0, 0⟩ = ⟨0x4002#16, BitVec.ofInt 32 ns, 0, 0⟩ := by
          unfold normKey
          rw [if_neg (fun h => h.1 (show 0x4002#16 &&& fmodeMetrics = 0 by decide))]
        unfold addRule
        dsimp only
        rw [hk]
        rfl
      rw [hf] at hg
      have hm := GoMap.mem_of_get hg
      have hkey : l.key fmodeSyscall pid tid nr = ⟨0x4002#16, BitVec.ofInt 32 ns, 0, 0⟩ := by
        have := List.mem_singleton.1 hm
        exact (Prod.mk.inj this).1
      cases l <;> simp [Level.key, fmodeSyscall] at hkey
    · unfold runNfilter
      split
      · rw [e]
      · rfl

/-! Histories and rules that meet the hypotheses. -/

example : ∃ t, new gClassMap = some t := c43_init_succeeds _ (List.Perm.refl _)

example : Entry "sys_openat" 257 "FileSystem" "Files" := by unfold Entry; decide +kernel

/-- A user asks for one call of one namespace, and for metrics of it; there are three calls. -/
def demoHist : List Op :=
  [.addSampled (.int 257) 4026531836 2 {}, .addMetrics 4026531836 {}, .enable, .callEvent 4026531836 1 257,
   .callEvent 4026531836 1 257, .callEvent 4026531836 1 257, .metricsEvent 4026531836 1 0]

example : (Abs.empty.run Props.Filter.demoTbl demoHist).1.sys (some 4026531836) 257 = some ⟨2, 3⟩ ∧
    (meter demoHist).count (some 4026531836) = some 1 := by decide +kernel

example : String.ofList (callLine (some 4026531836) "sys_openat" ⟨2, 3⟩) =
    "{flags=FILTER_MODE_SYSCALL|FILTER_TYPE_PID_NS|FILTER_TYPE_SYSCALL, pid-namespace=4026531836, thread-id=0, syscall=sys_openat, " ++
      "sample-rate=2, current-sample-count=3, hits=3, action=ACTION_ALLOW}" := by decide +kernel

example : Proper ⟨⟨0xC002#16, 4026531836, 0, 257⟩, ⟨2, 3, 3, 0⟩⟩ :=
  ⟨by decide, Or.inl rfl, Or.inr ⟨"sys_openat", 257, "FileSystem", "Files", by unfold Entry; decide +kernel, by decide⟩⟩

end Swoll.Props.RuleText
