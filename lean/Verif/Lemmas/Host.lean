import Verif.Spec.Host
import Verif.Lemmas.DaemonDeliver
/-
Tracing without containers: what the filter lets through, which calls are open, which samples are
made and printed.
-/
namespace Swoll.Lemmas.Host
open Swoll Swoll.Host Swoll.Spec.Host
open Swoll.Event (Task Mem KEvent TraceEvent pack)
open Swoll.Spec.Filter (scope Abs Sample)
open Swoll.Lemmas.Filter (Rel rel_step rel_empty)
open Swoll.Lemmas.Daemon (enter_maps fillMetrics_maps fillMetrics_state exit_state exit_event exit_emits
  unpack_lo unpack_hi pack_inj)

variable {tbl : Syscalls.Syscalls} {fmt : Format} {json : TraceEvent Topology.Container → List Char}

/-! ### Histories -/

theorem run_append (xs ys : List Op) (h : Host) :
    run tbl fmt json h (xs ++ ys) = (run tbl fmt json h xs).bind (fun h' => run tbl fmt json h' ys) := by
  induction xs generalizing h with
  | nil => rfl
  | cons x xs ih =>
    simp only [List.cons_append, run]
    cases step tbl fmt json h x with
    | none => rfl
    | some r => exact ih r

theorem run_snoc {o : Op} {os : List Op} {h h' : Host} (hr : run tbl fmt json h (os ++ [o]) = some h') :
    ∃ h1, run tbl fmt json h os = some h1 ∧ step tbl fmt json h1 o = some h' := by
  rw [run_append, Option.bind_eq_some_iff] at hr
  obtain ⟨h1, e1, e2⟩ := hr
  refine ⟨h1, e1, ?_⟩
  simp only [run] at e2
  split at e2
  · cases e2
  · injection e2 with e2; subst e2; assumption

/-! ### The filter -/

theorem rule_eq (name : String) : rule tbl name =
    Filter.newFilterRule [Filter.setModeSyscall, Filter.setSyscall tbl (.str name),
      Filter.setPidNamespace (-1), Filter.setActionAllow] := by
  unfold rule Filter.newFilterRule
  cases hl : Syscalls.lookup tbl (.str name) with
  | none => simp [Filter.setModeSyscall, Filter.setSyscall, hl]
  | some s => simp [Filter.setModeSyscall, Filter.setSyscall, Filter.setPidNamespace, Filter.setActionAllow, hl]

/-- The rule set lets through the calls `P` of every thread, and nothing else. -/
structure Lets (m : Filter.KMaps) (P : BitVec 32 → Prop) (a : Abs) : Prop where
  rel : Rel m a
  ns : ∀ n nr, a.sys (some n) nr = none
  rate : ∀ nr s, a.sys none nr = some s → s.rate = 0
  all : ∀ nr, (a.sys none nr).isSome ↔ P nr

theorem Lets.decider {m : Filter.KMaps} {P : BitVec 32 → Prop} {a : Abs} (h : Lets m P a) (ns nr : BitVec 32) :
    a.decider ns nr = (a.sys none nr).map (fun s => (none, s)) := by
  unfold Abs.decider; rw [h.ns]

theorem Lets.passes {m : Filter.KMaps} {P : BitVec 32 → Prop} {a : Abs} (h : Lets m P a) (he : a.enabled = true)
    (ns tid nr : BitVec 32) : (Filter.step tbl m (.callEvent ns tid nr)).2 = true ↔ P nr := by
  rw [(rel_step tbl h.rel _).2, ← h.all nr]
  simp only [Abs.step, he, if_true, h.decider]
  cases hs : a.sys none nr with
  | none => simp
  | some s => simp [Sample.nextPasses, h.rate nr s hs]

theorem Lets.call {m : Filter.KMaps} {P : BitVec 32 → Prop} {a : Abs} (h : Lets m P a) (he : a.enabled = true)
    (ns tid nr : BitVec 32) :
    ∃ a', Lets (Filter.step tbl m (.callEvent ns tid nr)).1 P a' ∧ a'.enabled = true := by
  have hrel := (rel_step tbl h.rel (.callEvent ns tid nr)).1
  simp only [Abs.step, he, if_true, h.decider] at hrel
  cases hs : a.sys none nr with
  | none =>
    rw [hs] at hrel
    exact ⟨a, ⟨hrel, h.ns, h.rate, h.all⟩, he⟩
  | some s =>
    rw [hs] at hrel
    simp only [Option.map_some] at hrel
    refine ⟨_, ⟨hrel, ?_, ?_, ?_⟩, he⟩
    · intro n nr'
      simp only [Abs.setRule]
      rw [if_neg (by simp)]; exact h.ns n nr'
    · intro nr' s' hs'
      simp only [Abs.setRule] at hs'
      split at hs'
      · injection hs' with hs'; subst hs'; exact h.rate nr s hs
      · exact h.rate nr' s' hs'
    · intro nr'
      simp only [Abs.setRule]
      split
      · rename_i hc
        rw [hc.2, ← h.all nr, hs]; simp
      · exact h.all nr'

theorem Lets.met {m : Filter.KMaps} {P : BitVec 32 → Prop} {a : Abs} (h : Lets m P a) (he : a.enabled = true)
    (ns tid nr : BitVec 32) :
    ∃ a', Lets (Filter.step tbl m (.metricsEvent ns tid nr)).1 P a' ∧ a'.enabled = true :=
  ⟨_, ⟨(rel_step tbl h.rel (.metricsEvent ns tid nr)).1, h.ns, h.rate, h.all⟩, he⟩

theorem install_some {refused : String → Filter.Faults} : ∀ (names : List String) {m m' : Filter.KMaps}
    {P : BitVec 32 → Prop} {a : Abs}, Lets m P a → install tbl refused m names = some m' →
    (∀ n ∈ names, (Syscalls.lookup tbl (.str n)).isSome) ∧
    ∃ a', Lets m' (fun nr => P nr ∨ ∃ n ∈ names, ∃ s, Syscalls.lookup tbl (.str n) = some s ∧
      BitVec.ofNat 32 s.nr = nr) a'
  | [], m, m', P, a, h, hi => by
    simp only [install, Option.some.injEq] at hi
    subst hi
    refine ⟨by simp, a, h.rel, h.ns, h.rate, ?_⟩
    intro nr; rw [h.all]; simp
  | n :: ns, m, m', P, a, h, hi => by
    simp only [install] at hi
    split at hi
    · cases hi
    · rename_i r hr
      split at hi
      · cases hi
      · rename_i m1 hm1
        rw [rule_eq] at hr
        have hadd : Filter.step tbl m (.addSyscall (.str n) (-1) (refused n)) = (m1, true) := by
          simp only [Filter.step, Filter.addSyscall, hr]; exact hm1
        have hrel := rel_step tbl h.rel (.addSyscall (.str n) (-1) (refused n))
        rw [hadd] at hrel
        obtain ⟨h1, h2⟩ := hrel
        simp only [Abs.step] at h1 h2
        cases hl : Syscalls.lookup tbl (.str n) with
        | none => rw [hl] at h2; simp at h2
        | some s =>
          rw [hl] at h1 h2
          dsimp only at h1 h2
          split at h2
          · simp at h2
          · rename_i hf
            rw [if_neg hf] at h1
            have hlets : Lets m1 (fun nr => P nr ∨ BitVec.ofNat 32 s.nr = nr)
                (a.setRule (scope (-1)) (BitVec.ofNat 32 s.nr) (some ⟨0, 0⟩)) := by
              refine ⟨h1, ?_, ?_, ?_⟩
              · intro k nr
                simp only [Abs.setRule, scope, if_true]
                rw [if_neg (by simp)]; exact h.ns k nr
              · intro nr s' hs'
                simp only [Abs.setRule, scope, if_true, true_and] at hs'
                split at hs'
                · injection hs' with hs'; rw [← hs']
                · exact h.rate nr s' hs'
              · intro nr
                simp only [Abs.setRule, scope, if_true, true_and]
                by_cases e : nr = BitVec.ofNat 32 s.nr
                · simp [e]
                · rw [if_neg e, h.all]
                  constructor
                  · exact Or.inl
                  · rintro (hp | hp)
                    · exact hp
                    · exact absurd hp.symm e
            obtain ⟨k1, a', k2⟩ := install_some ns hlets hi
            refine ⟨?_, a', k2.rel, k2.ns, k2.rate, ?_⟩
            · intro x hx
              rcases List.mem_cons.1 hx with rfl | hx
              · rw [hl]; rfl
              · exact k1 x hx
            · intro nr
              rw [k2.all]
              constructor
              · rintro ((hp | hp) | ⟨x, hx, hp⟩)
                · exact Or.inl hp
                · exact Or.inr ⟨n, by simp, s, hl, hp⟩
                · exact Or.inr ⟨x, by simp [hx], hp⟩
              · rintro (hp | ⟨x, hx, s', hs', hp⟩)
                · exact Or.inl (Or.inl hp)
                · rcases List.mem_cons.1 hx with rfl | hx
                  · rw [hl] at hs'; injection hs' with hs'; subst hs'; exact Or.inl (Or.inr hp)
                  · exact Or.inr ⟨x, hx, s', hs', hp⟩

theorem mem_names (given : List String) (n : String) :
    n ∈ namesOf given ↔ n ∈ given ∨ given = [] ∧ n = "execve" := by
  unfold namesOf
  split
  · rename_i h; subst h; simp
  · rename_i h; simp [h]

theorem start_lets {refused : String → Filter.Faults} {given : List String} {h : Host}
    (hs : start tbl refused given = some h) :
    Known tbl (namesOf given) ∧ (∃ a, Lets h.probe.maps (Asked tbl given) a ∧ a.enabled = true) ∧
      h.probe.state = [] ∧ h.ring = [] ∧ h.out = [] := by
  unfold start at hs
  rw [Option.map_eq_some_iff] at hs
  obtain ⟨m, hm, rfl⟩ := hs
  have h0 : Lets Filter.KMaps.empty (fun _ => False) Abs.empty :=
    ⟨rel_empty, fun _ _ => rfl, (fun _ _ h => by cases h), (fun _ => by simp [Abs.empty])⟩
  obtain ⟨k1, a, k2⟩ := install_some (namesOf given) h0 hm
  refine ⟨k1, ⟨_, ⟨(rel_step tbl k2.rel .enable).1, k2.ns, k2.rate, ?_⟩, rfl⟩, rfl, rfl, rfl⟩
  intro nr
  show (a.sys none nr).isSome ↔ _
  rw [k2.all]
  unfold Asked
  constructor
  · rintro (hf | ⟨n, hn, s, h1, h2⟩)
    · exact absurd hf id
    · exact ⟨n, s, (mem_names given n).1 hn, h1, h2⟩
  · rintro ⟨n, s, hn, h1, h2⟩
    exact Or.inr ⟨n, (mem_names given n).2 hn, s, h1, h2⟩

/-- The tracer starts if the names are known and the kernel takes the rules. -/
theorem install_ok : ∀ (names : List String) (m : Filter.KMaps),
    (∀ n ∈ names, (Syscalls.lookup tbl (.str n)).isSome) → ∃ m', install tbl (fun _ => {}) m names = some m'
  | [], m, _ => ⟨m, rfl⟩
  | n :: ns, m, h => by
    obtain ⟨s, hs⟩ := Option.isSome_iff_exists.1 (h n (by simp))
    have hr : ∃ r, rule tbl n = some r := by
      rw [rule_eq, Lemmas.Filter.newRule_sys, hs]; exact ⟨_, rfl⟩
    obtain ⟨r, hr⟩ := hr
    obtain ⟨m', hm'⟩ := install_ok ns (Filter.addRule m r {}).1 (fun x hx => h x (by simp [hx]))
    refine ⟨m', ?_⟩
    simp only [install, hr]
    exact hm'

/-! ### What an operation does -/

theorem ctx_nr (t : Task) (id m time : BitVec 64) : (Daemon.ctxOf t id m time).nr = id.setWidth 32 := rfl

theorem enter_step {h : Host} {given : List String} {a : Abs} (hl : Lets h.probe.maps (Asked tbl given) a)
    (he : a.enabled = true) (t : Task) (id m0 time : BitVec 64) (args : List (BitVec 64)) (full : Bool) :
    (∃ a', Lets (Probe.enter h.probe (Daemon.ctxOf t id m0 time) args full).maps (Asked tbl given) a' ∧
      a'.enabled = true) ∧
    (Begins tbl given t.tgid t.pid (.enter t id m0 time args full) →
      (Probe.enter h.probe (Daemon.ctxOf t id m0 time) args full).state =
        GoMap.set h.probe.state (pack t.tgid t.pid) ⟨id, args, pack t.gid t.uid, time⟩) ∧
    (¬ Begins tbl given t.tgid t.pid (.enter t id m0 time args full) →
      (Probe.enter h.probe (Daemon.ctxOf t id m0 time) args full).state = h.probe.state) := by
  obtain ⟨a1, hl1, he1⟩ := hl.met (tbl := tbl) he (Daemon.ctxOf t id m0 time).ns
    (Daemon.ctxOf t id m0 time).proc (Daemon.ctxOf t id m0 time).nr
  have hpass := hl1.passes (tbl := tbl) he1 (Daemon.ctxOf t id m0 time).ns
    (Daemon.ctxOf t id m0 time).proc (Daemon.ctxOf t id m0 time).nr
  refine ⟨?_, ?_⟩
  · rw [enter_maps (tbl := tbl)]
    split
    · exact ⟨a1, hl1, he1⟩
    · exact hl1.call he1 _ _ _
  · have hst := fillMetrics_state h.probe (Daemon.ctxOf t id m0 time) none
    have hm := fillMetrics_maps (tbl := tbl) h.probe (Daemon.ctxOf t id m0 time) none
    rw [← hm] at hpass
    simp only [Begins, true_and]
    unfold Probe.enter
    dsimp only
    by_cases hn : (Daemon.ctxOf t id m0 time).nr = Probe.nrExecve
    · rw [if_pos hn]
      refine ⟨fun hb => absurd hn hb.2.2, fun _ => hst⟩
    · rw [if_neg hn]
      have hp2 : (Filter.runNfilter (Probe.fillMetrics h.probe (Daemon.ctxOf t id m0 time) none).maps
          Filter.fmodeSyscall (Daemon.ctxOf t id m0 time).ns (Daemon.ctxOf t id m0 time).proc
          (Daemon.ctxOf t id m0 time).nr).2 ≠ Filter.factionDrop ↔ Asked tbl given (id.setWidth 32) := by
        rw [ctx_nr] at hpass ⊢
        rw [← hpass]
        simp [Filter.step]
      split
      · rename_i hd
        refine ⟨fun hb => absurd hd (hp2.2 hb.2.1), fun _ => hst⟩
      · rename_i hd
        cases full with
        | true => exact ⟨fun hb => absurd hb.1 (by simp), fun _ => hst⟩
        | false =>
          simp only [Bool.false_eq_true, if_false]
          refine ⟨fun _ => by rw [hst]; rfl, fun hb => absurd ⟨trivial, hp2.1 hd, hn⟩ hb⟩

theorem exit_maps (s : Probe.PState) (c : Probe.Ctx) (ret : BitVec 64) (scr : Bool) :
    (Probe.exit Daemon.hasFiller s c ret scr).1.maps =
      (Filter.step tbl s.maps (.metricsEvent c.ns c.proc c.nr)).1 := by
  have hm := fillMetrics_maps (tbl := tbl) s c (some ret)
  unfold Probe.exit
  dsimp only
  split
  · exact hm
  · split
    · exact hm
    · split <;> exact hm

theorem exit_ring {h h' : Host} {t : Task} {id ret m1 time : BitVec 64} {mem : Mem} {scr : Option KEvent}
    {lost : Bool} (hs : step tbl fmt json h (.exit t id ret m1 time mem scr lost) = some h') :
    h'.probe = (Probe.exit Daemon.hasFiller h.probe (Daemon.ctxOf t id m1 time) ret scr.isSome).1 ∧ h'.out = h.out ∧
    ((∃ s e, scr = some s ∧ lost = false ∧
      (Probe.exit Daemon.hasFiller h.probe (Daemon.ctxOf t id m1 time) ret true).2 = some e ∧
      h'.ring = h.ring ++ [Event.encode (Event.onExit s t (Daemon.callOf e ret mem))]) ∨
     (h'.ring = h.ring ∧ (scr = none ∨ lost = true ∨
      (Probe.exit Daemon.hasFiller h.probe (Daemon.ctxOf t id m1 time) ret true).2 = none))) := by
  simp only [step] at hs
  cases scr with
  | none =>
    split at hs
    · cases ‹none = some _›
    · injection hs with hs; subst hs; exact ⟨rfl, rfl, Or.inr ⟨rfl, Or.inl rfl⟩⟩
  | some s =>
    split at hs
    · rename_i e s' he hs'
      injection hs' with hs'; subst hs'
      injection hs with hs; subst hs
      cases lost with
      | true => exact ⟨rfl, rfl, Or.inr ⟨rfl, Or.inr (Or.inl rfl)⟩⟩
      | false => exact ⟨rfl, rfl, Or.inl ⟨s, e, rfl, rfl, he, rfl⟩⟩
    · rename_i hne
      injection hs with hs; subst hs
      refine ⟨rfl, rfl, Or.inr ⟨rfl, Or.inr (Or.inr ?_)⟩⟩
      cases hx : (Probe.exit Daemon.hasFiller h.probe (Daemon.ctxOf t id m1 time) ret true).2 with
      | none => rfl
      | some e => exact absurd rfl (hne e s hx)

theorem execve_probe (s : Probe.PState) (c : Probe.Ctx) (scr : Bool) :
    (Probe.execve s c scr).1.maps = (Filter.step tbl s.maps (.callEvent c.ns c.proc c.nr)).1 ∧
    (Probe.execve s c scr).1.state = s.state ∧
    ((Probe.execve s c true).2.isSome ↔ (Filter.step tbl s.maps (.callEvent c.ns c.proc c.nr)).2 = true) := by
  unfold Probe.execve
  dsimp only
  refine ⟨?_, ?_, ?_⟩
  · split
    · rfl
    · split <;> rfl
  · split
    · rfl
    · split <;> rfl
  · simp only [Filter.step]
    split
    · rename_i hd; simp [hd]
    · rename_i hd; simp [hd]

theorem execve_ring {h h' : Host} {t : Task} {time filename argv : BitVec 64} {mem : Mem} {scr : Option KEvent}
    {lost : Bool} (hs : step tbl fmt json h (.execve t time mem filename argv scr lost) = some h') :
    h'.probe = (Probe.execve h.probe (Daemon.ctxOf t 59 0 time) scr.isSome).1 ∧ h'.out = h.out ∧
    ((∃ s, scr = some s ∧ lost = false ∧
      (Probe.execve h.probe (Daemon.ctxOf t 59 0 time) true).2.isSome ∧
      h'.ring = h.ring ++ [Event.encode (Event.onExecve s t mem filename argv time)]) ∨
     (h'.ring = h.ring ∧ (scr = none ∨ lost = true ∨
      ¬ (Probe.execve h.probe (Daemon.ctxOf t 59 0 time) true).2.isSome))) := by
  simp only [step] at hs
  cases scr with
  | none =>
    split at hs
    · cases ‹none = some _›
    · injection hs with hs; subst hs; exact ⟨rfl, rfl, Or.inr ⟨rfl, Or.inl rfl⟩⟩
  | some s =>
    split at hs
    · rename_i e s' he hs'
      injection hs' with hs'; subst hs'
      injection hs with hs; subst hs
      cases lost with
      | true => exact ⟨rfl, rfl, Or.inr ⟨rfl, Or.inr (Or.inl rfl)⟩⟩
      | false => exact ⟨rfl, rfl, Or.inl ⟨s, rfl, rfl, by rw [show (Probe.execve h.probe (Daemon.ctxOf t 59 0 time) true).2 = some e from he]; rfl, rfl⟩⟩
    · rename_i hne
      injection hs with hs; subst hs
      refine ⟨rfl, rfl, Or.inr ⟨rfl, Or.inr (Or.inr ?_)⟩⟩
      cases hx : (Probe.execve h.probe (Daemon.ctxOf t 59 0 time) true).2 with
      | none => simp
      | some e => exact absurd rfl (hne e s hx)

theorem show_step {h h' : Host} {env : Print.Env} (hs : step tbl fmt json h (.show env) = some h') :
    h'.probe = h.probe ∧ ((h.ring = [] ∧ h' = h) ∨
      ∃ bs l, h.ring = bs :: h'.ring ∧ print tbl fmt json env bs = some l ∧ h'.out = h.out ++ [l]) := by
  simp only [step] at hs
  split at hs
  · rename_i hr
    injection hs with hs; subst hs; exact ⟨rfl, Or.inl ⟨hr, rfl⟩⟩
  · rename_i bs rest hr
    rw [Option.map_eq_some_iff] at hs
    obtain ⟨l, hl, rfl⟩ := hs
    exact ⟨rfl, Or.inr ⟨bs, l, hr, hl, rfl⟩⟩

/-! ### Open calls -/

/-- The thread's call, noted with `ek`, is open. -/
def Open (tbl : Syscalls.Syscalls) (given : List String) (hist : List Op) (p : BitVec 64) (ek : Probe.EvKey) : Prop :=
  ∃ t0 before m0 after, hist = before ++ .enter t0 ek.id m0 ek.entr ek.args false :: after ∧
    pack t0.tgid t0.pid = p ∧ ek.uidGid = pack t0.gid t0.uid ∧
    (∀ o ∈ after, ¬ Ends t0.tgid t0.pid o ∧ ¬ Begins tbl given t0.tgid t0.pid o) ∧
    Asked tbl given (ek.id.setWidth 32) ∧ ek.id.setWidth 32 ≠ 59#32

/-- An operation keeps an open call open if it neither ends it nor begins another of the thread. -/
theorem open_snoc {given : List String} {hist : List Op} {p : BitVec 64} {ek : Probe.EvKey} {o : Op}
    (h : Open tbl given (hist ++ [o]) p ek) :
    (∃ t m0, o = .enter t ek.id m0 ek.entr ek.args false ∧ pack t.tgid t.pid = p ∧
      ek.uidGid = pack t.gid t.uid ∧ Begins tbl given t.tgid t.pid o) ∨
    (Open tbl given hist p ek ∧ ∀ tgid pid, pack tgid pid = p → ¬ Ends tgid pid o ∧ ¬ Begins tbl given tgid pid o) := by
  obtain ⟨t0, before, m0, after, h1, h2, h3, h4, h5, h6⟩ := h
  rcases List.eq_nil_or_concat after with rfl | ⟨after', x, rfl⟩
  · obtain ⟨e1, e2⟩ := List.append_inj' h1 rfl
    injection e2 with e2
    exact Or.inl ⟨t0, m0, e2, h2, h3, by rw [e2]; exact ⟨rfl, rfl, rfl, h5, h6⟩⟩
  · rw [List.concat_eq_append, ← List.cons_append, ← List.append_assoc] at h1
    obtain ⟨e1, e2⟩ := List.append_inj' h1 rfl
    injection e2 with e2
    subst e2
    refine Or.inr ⟨⟨t0, before, m0, after', e1, h2, h3, ?_, h5, h6⟩, ?_⟩
    · intro y hy; exact h4 y (by simp [hy])
    · intro tgid pid hp
      obtain ⟨e3, e4⟩ := pack_inj (hp.trans h2.symm)
      subst e3; subst e4
      exact h4 o (by simp)

theorem Open.snoc {given : List String} {hist : List Op} {p : BitVec 64} {ek : Probe.EvKey}
    (h : Open tbl given hist p ek) (o : Op)
    (ho : ∀ tgid pid, pack tgid pid = p → ¬ Ends tgid pid o ∧ ¬ Begins tbl given tgid pid o) :
    Open tbl given (hist ++ [o]) p ek := by
  obtain ⟨t0, before, m0, after, h1, h2, h3, h4, h5⟩ := h
  refine ⟨t0, before, m0, after ++ [o], by rw [h1]; simp, h2, h3, ?_, h5⟩
  intro x hx
  rw [List.mem_append, List.mem_singleton] at hx
  rcases hx with hx | rfl
  · exact h4 x hx
  · exact ho _ _ h2

/-! ### Samples -/

/-- The bytes are the sample of what is due for position `e`. -/
def Sampled (tbl : Syscalls.Syscalls) (given : List String) (hist : List Op) (e : Nat) (bs : List Bytes.Byte) : Prop :=
  (∃ t c scratch, Completed tbl given hist e t c scratch ∧ bs = Event.encode (Event.onExit scratch t c)) ∨
  (∃ t time mem filename argv scratch, Executed tbl given hist e t time mem filename argv scratch ∧
    bs = Event.encode (Event.onExecve scratch t mem filename argv time))

theorem completed_append {given : List String} {hist os : List Op} {e : Nat} {t : Task} {c : Event.Call}
    {s : KEvent} (hl : e < hist.length) :
    Completed tbl given (hist ++ os) e t c s ↔ Completed tbl given hist e t c s := by
  unfold Completed
  rw [List.take_append_of_le_length (by omega), List.getElem?_append_left hl]

theorem executed_append {given : List String} {hist os : List Op} {e : Nat} {t : Task} {time : BitVec 64}
    {mem : Mem} {f av : BitVec 64} {s : KEvent} (hl : e < hist.length) :
    Executed tbl given (hist ++ os) e t time mem f av s ↔ Executed tbl given hist e t time mem f av s := by
  unfold Executed
  rw [List.getElem?_append_left hl]

theorem Completed.lt {given : List String} {hist : List Op} {e : Nat} {t : Task} {c : Event.Call} {s : KEvent}
    (h : Completed tbl given hist e t c s) : e < hist.length := by
  obtain ⟨before, t0, id, m0, args, between, m1, h1, h2, -⟩ := h
  exact (List.getElem?_eq_some_iff.1 h2).1

theorem Executed.lt {given : List String} {hist : List Op} {e : Nat} {t : Task} {time : BitVec 64}
    {mem : Mem} {f av : BitVec 64} {s : KEvent} (h : Executed tbl given hist e t time mem f av s) :
    e < hist.length := (List.getElem?_eq_some_iff.1 h.1).1

theorem sampled_append {given : List String} {hist os : List Op} {e : Nat} {bs : List Bytes.Byte}
    (h : Sampled tbl given hist e bs) : Sampled tbl given (hist ++ os) e bs := by
  rcases h with ⟨t, c, s, h, hb⟩ | ⟨t, time, mem, f, av, s, h, hb⟩
  · exact Or.inl ⟨t, c, s, (completed_append (Completed.lt h)).2 h, hb⟩
  · exact Or.inr ⟨t, time, mem, f, av, s, (executed_append (Executed.lt h)).2 h, hb⟩

theorem Due.lt {given : List String} {hist : List Op} {e : Nat} (h : Due tbl given hist e) : e < hist.length := by
  rcases h with ⟨t, c, s, h⟩ | ⟨t, time, mem, f, av, s, h⟩
  · exact Completed.lt h
  · exact Executed.lt h

theorem due_append {given : List String} {hist os : List Op} {e : Nat} (hl : e < hist.length) :
    Due tbl given (hist ++ os) e ↔ Due tbl given hist e := by
  unfold Due
  simp only [completed_append hl, executed_append hl]

theorem Sampled.due {given : List String} {hist : List Op} {e : Nat} {bs : List Bytes.Byte}
    (h : Sampled tbl given hist e bs) : Due tbl given hist e := by
  rcases h with ⟨t, c, s, h, -⟩ | ⟨t, time, mem, f, av, s, h, -⟩
  · exact Or.inl ⟨t, c, s, h⟩
  · exact Or.inr ⟨t, time, mem, f, av, s, h⟩

/-- What is due for the last operation of a history. -/
theorem due_last {given : List String} {hist : List Op} {o : Op} (h : Due tbl given (hist ++ [o]) hist.length) :
    (∃ t id ret m1 time mem s ek, o = .exit t id ret m1 time mem (some s) false ∧
      Open tbl given hist (pack t.tgid t.pid) ek ∧ ek.id = id) ∨
    (∃ t time mem f av s, o = .execve t time mem f av (some s) false ∧ Asked tbl given 59) := by
  rcases h with ⟨t, c, s, before, t0, id, m0, args, between, m1, h1, h2, h3, h4, h5, h6, h7, h8, h9, h10, h11⟩ |
    ⟨t, time, mem, f, av, s, h1, h2⟩
  · left
    rw [List.take_append_of_le_length (Nat.le_refl _), List.take_length] at h1
    simp only [List.getElem?_append_right (Nat.le_refl _), Nat.sub_self, List.getElem?_cons_zero,
      Option.some.injEq] at h2
    refine ⟨t, id, c.ret, m1, c.finish, c.mem, s, ⟨id, args, pack t0.gid t0.uid, c.start⟩, h2,
      ⟨t0, before, m0, between, h1, by rw [h3, h4], rfl, ?_, by rw [← h6]; exact h10, by rw [← h6]; exact h11⟩, rfl⟩
    rw [h3, h4]; exact h5
  · right
    simp only [List.getElem?_append_right (Nat.le_refl _), Nat.sub_self, List.getElem?_cons_zero,
      Option.some.injEq] at h1
    exact ⟨t, time, mem, f, av, s, h1, h2⟩

theorem due_exit {given : List String} {hist : List Op} {t : Task} {id ret m1 time : BitVec 64} {mem : Mem}
    {s : KEvent} {ek : Probe.EvKey} (h : Open tbl given hist (pack t.tgid t.pid) ek) (hid : ek.id = id)
    {e : Probe.Event} (e1 : e.syscall = ek.id.setWidth 32) (e2 : e.uidGid = ek.uidGid) (e3 : e.args = ek.args)
    (e4 : e.entr = ek.entr) (e5 : e.exit = time) :
    Sampled tbl given (hist ++ [.exit t id ret m1 time mem (some s) false]) hist.length
      (Event.encode (Event.onExit s t (Daemon.callOf e ret mem))) := by
  obtain ⟨t0, before, m0, after, h1, h2, h3, h4, h5, h6⟩ := h
  obtain ⟨g1, g2⟩ := pack_inj h2
  refine Or.inl ⟨t, Daemon.callOf e ret mem, s, ⟨before, t0, id, m0, ek.args, after, m1, ?_, ?_, g1, g2, ?_, ?_, ?_, ?_, ?_, ?_, ?_⟩, rfl⟩
  · rw [List.take_append_of_le_length (Nat.le_refl _), List.take_length, h1]
    show _ = before ++ Op.enter t0 id m0 e.entr ek.args false :: after
    rw [e4, hid]
  · simp only [List.getElem?_append_right (Nat.le_refl _), Nat.sub_self, List.getElem?_cons_zero,
      Option.some.injEq, Op.exit.injEq, true_and, and_true]
    exact ⟨rfl, e5.symm, rfl⟩
  · rw [← g1, ← g2]; exact h4
  · show e.syscall = _; rw [e1, hid]
  · show (fun i => e.args.getD i 0) = _; rw [e3]
  · show e.uidGid.setWidth 32 = _; rw [e2, h3, unpack_lo]
  · show (e.uidGid >>> 32).setWidth 32 = _; rw [e2, h3, unpack_hi]
  · show Asked tbl given e.syscall; rw [e1]; exact h5
  · show e.syscall ≠ _; rw [e1]; exact h6

/-! ### The invariant -/

/-- What holds after a history. -/
structure Inv (tbl : Syscalls.Syscalls) (fmt : Format) (json : TraceEvent Topology.Container → List Char)
    (given : List String) (hist : List Op) (h : Host) : Prop where
  rules : ∃ a, Lets h.probe.maps (Asked tbl given) a ∧ a.enabled = true
  state : ∀ p ek, GoMap.get h.probe.state p = some ek ↔ Open tbl given hist p ek
  samples : ∃ l : List (Nat × List Bytes.Byte), ∃ done : List (List Bytes.Byte),
    (l.map (·.1)).Pairwise (· < ·) ∧ (∀ x ∈ l, Sampled tbl given hist x.1 x.2) ∧
    (∀ e, Due tbl given hist e → ∃ bs, (e, bs) ∈ l) ∧ l.map (·.2) = done ++ h.ring ∧
    done.length = h.out.length ∧
    ∀ (i : Nat) b x, done[i]? = some b → h.out[i]? = some x → ∃ env, .show env ∈ hist ∧ print tbl fmt json env b = some x

theorem inv_start {refused : String → Filter.Faults} {given : List String} {h : Host}
    (hs : start tbl refused given = some h) : Inv tbl fmt json given [] h := by
  obtain ⟨-, h1, h2, h3, h4⟩ := start_lets hs
  refine ⟨h1, ?_, [], [], by simp, by simp, ?_, by simp [h3], by simp [h4], by simp⟩
  · intro p ek
    rw [h2]
    refine ⟨(fun h => by cases h), ?_⟩
    rintro ⟨t0, before, m0, after, h5, -⟩
    simp at h5
  · intro e hd; exact absurd (Due.lt hd) (by simp)

/-- If nothing is due for an operation and the buffer stays. -/
theorem samples_quiet {given : List String} {hist : List Op} {h h' : Host} {o : Op}
    (hi : Inv tbl fmt json given hist h) (hr : h'.ring = h.ring) (ho : h'.out = h.out)
    (hd : ¬ Due tbl given (hist ++ [o]) hist.length) :
    ∃ l : List (Nat × List Bytes.Byte), ∃ done : List (List Bytes.Byte),
    (l.map (·.1)).Pairwise (· < ·) ∧ (∀ x ∈ l, Sampled tbl given (hist ++ [o]) x.1 x.2) ∧
    (∀ e, Due tbl given (hist ++ [o]) e → ∃ bs, (e, bs) ∈ l) ∧ l.map (·.2) = done ++ h'.ring ∧
    done.length = h'.out.length ∧
    ∀ (i : Nat) b x, done[i]? = some b → h'.out[i]? = some x → ∃ env, .show env ∈ hist ++ [o] ∧ print tbl fmt json env b = some x := by
  obtain ⟨l, done, h1, h2, h3, h4, h5, h6⟩ := hi.samples
  refine ⟨l, done, h1, fun x hx => sampled_append (h2 x hx), ?_, by rw [hr]; exact h4, by rw [ho]; exact h5, ?_⟩
  · intro e he
    have hl := Due.lt he
    rw [List.length_append, List.length_singleton] at hl
    by_cases hlt : e < hist.length
    · exact h3 e ((due_append hlt).1 he)
    · have : e = hist.length := by omega
      subst this
      exact absurd he hd
  · intro i b x hb hx
    rw [ho] at hx
    obtain ⟨env, e1, e2⟩ := h6 i b x hb hx
    exact ⟨env, by simp [e1], e2⟩

/-- If a sample is written. -/
theorem samples_new {given : List String} {hist : List Op} {h h' : Host} {o : Op} {bs : List Bytes.Byte}
    (hi : Inv tbl fmt json given hist h) (hr : h'.ring = h.ring ++ [bs]) (ho : h'.out = h.out)
    (hd : Sampled tbl given (hist ++ [o]) hist.length bs) :
    ∃ l : List (Nat × List Bytes.Byte), ∃ done : List (List Bytes.Byte),
    (l.map (·.1)).Pairwise (· < ·) ∧ (∀ x ∈ l, Sampled tbl given (hist ++ [o]) x.1 x.2) ∧
    (∀ e, Due tbl given (hist ++ [o]) e → ∃ bs, (e, bs) ∈ l) ∧ l.map (·.2) = done ++ h'.ring ∧
    done.length = h'.out.length ∧
    ∀ (i : Nat) b x, done[i]? = some b → h'.out[i]? = some x → ∃ env, .show env ∈ hist ++ [o] ∧ print tbl fmt json env b = some x := by
  obtain ⟨l, done, h1, h2, h3, h4, h5, h6⟩ := hi.samples
  refine ⟨l ++ [(hist.length, bs)], done, ?_, ?_, ?_, ?_, by rw [ho]; exact h5, ?_⟩
  · rw [List.map_append, List.pairwise_append]
    refine ⟨h1, by simp, ?_⟩
    intro a ha b hb
    obtain ⟨x, hx, rfl⟩ := List.mem_map.1 ha
    simp only [List.map_cons, List.map_nil, List.mem_singleton] at hb
    subst hb
    exact Due.lt (h2 x hx).due
  · intro x hx
    rw [List.mem_append, List.mem_singleton] at hx
    rcases hx with hx | rfl
    · exact sampled_append (h2 x hx)
    · exact hd
  · intro e he
    have hl := Due.lt he
    rw [List.length_append, List.length_singleton] at hl
    by_cases hlt : e < hist.length
    · obtain ⟨b, hb⟩ := h3 e ((due_append hlt).1 he)
      exact ⟨b, by simp [hb]⟩
    · have : e = hist.length := by omega
      subst this
      exact ⟨bs, by simp⟩
  · rw [List.map_append, h4, hr, List.append_assoc]; rfl
  · intro i b x hb hx
    rw [ho] at hx
    obtain ⟨env, e1, e2⟩ := h6 i b x hb hx
    exact ⟨env, by simp [e1], e2⟩

theorem inv_step {given : List String} {hist : List Op} {h h' : Host} {o : Op}
    (hi : Inv tbl fmt json given hist h) (hs : step tbl fmt json h o = some h') :
    Inv tbl fmt json given (hist ++ [o]) h' := by
  obtain ⟨a, hl, he⟩ := hi.rules
  cases o with
  | enter t id m0 time args full =>
    simp only [step, Option.some.injEq] at hs
    subst hs
    obtain ⟨k1, k2, k3⟩ := enter_step hl he t id m0 time args full
    refine ⟨k1, ?_, samples_quiet hi rfl rfl ?_⟩
    · intro p ek
      by_cases hb : Begins tbl given t.tgid t.pid (.enter t id m0 time args full)
      · have hk := k2 hb
        dsimp only
        rw [hk, GoMap.get_set]
        by_cases hp : pack t.tgid t.pid = p
        · rw [if_pos hp]
          constructor
          · intro e
            injection e with e
            subst e
            obtain ⟨-, -, hf, b1, b2⟩ := hb
            subst hf
            exact ⟨t, hist, m0, [], rfl, hp, rfl, by simp, b1, b2⟩
          · intro ho
            rcases open_snoc ho with ⟨t', m0', e1, e2, e3, -⟩ | ⟨-, hq⟩
            · injection e1 with e1 e4 e5 e6 e7 e8
              subst e1
              cases ek
              simp only at e3 e4 e6 e7
              rw [e3, e4, e6, e7]
            · exact absurd hb (hq _ _ hp).2
        · rw [if_neg hp, hi.state]
          constructor
          · intro ho
            refine ho.snoc _ fun tgid pid hpp => ⟨fun hx => hx, ?_⟩
            rintro ⟨e1, e2, -⟩
            exact hp (by rw [e1, e2, hpp])
          · intro ho
            rcases open_snoc ho with ⟨t', m0', e1, e2, -⟩ | ⟨hq, -⟩
            · injection e1 with e1
              subst e1
              exact absurd e2 hp
            · exact hq
      · have hk := k3 hb
        dsimp only
        rw [hk, hi.state]
        constructor
        · intro ho
          refine ho.snoc _ fun tgid pid hpp => ⟨fun hx => hx, ?_⟩
          rintro ⟨e1, e2, e3⟩
          exact hb ⟨rfl, rfl, e3⟩
        · intro ho
          rcases open_snoc ho with ⟨t', m0', e1, e2, e3, hb'⟩ | ⟨hq, -⟩
          · injection e1 with e1
            subst e1
            exact absurd hb' hb
          · exact hq
    · intro hd
      rcases due_last hd with ⟨_, _, _, _, _, _, _, _, e, _⟩ | ⟨_, _, _, _, _, _, e, _⟩ <;> cases e
  | exit t id ret m1 time mem scr lost =>
    obtain ⟨k1, k2, k3⟩ := exit_ring hs
    refine ⟨?_, ?_, ?_⟩
    · rw [k1, exit_maps (tbl := tbl)]
      exact hl.met he _ _ _
    · intro p ek
      rw [k1, exit_state]
      show (if pack t.tgid t.pid = p then none else GoMap.get h.probe.state p) = some ek ↔ _
      by_cases hp : pack t.tgid t.pid = p
      · rw [if_pos hp]
        refine ⟨(fun e => by cases e), ?_⟩
        intro ho
        rcases open_snoc ho with ⟨t', m0', e1, -⟩ | ⟨-, hq⟩
        · cases e1
        · exact absurd ⟨rfl, rfl⟩ (hq _ _ hp).1
      · rw [if_neg hp, hi.state]
        constructor
        · intro ho
          refine ho.snoc _ fun tgid pid hpp => ⟨?_, fun hx => hx⟩
          rintro ⟨e1, e2⟩
          exact hp (by rw [e1, e2, hpp])
        · intro ho
          rcases open_snoc ho with ⟨t', m0', e1, -⟩ | ⟨hq, -⟩
          · cases e1
          · exact hq
    · rcases k3 with ⟨s, e, rfl, rfl, he, hr⟩ | ⟨hr, hw⟩
      · obtain ⟨ek, g1, g2, g3, g4, g5, g6, g7⟩ := exit_event he
        exact samples_new hi hr k2 (due_exit ((hi.state _ _).1 g1) g2.symm g3 g4 g5 g6 g7)
      · refine samples_quiet hi hr k2 ?_
        intro hd
        rcases due_last hd with ⟨t', id', ret', m1', time', mem', s', ek, e1, e2, e3⟩ | ⟨_, _, _, _, _, _, e, _⟩
        · injection e1 with e1 e4 e5 e6 e7 e8 e9 e10
          subst e1
          rcases hw with hw | hw | hw
          · rw [hw] at e9; cases e9
          · rw [hw] at e10; cases e10
          · have hg := (hi.state _ _).2 e2
            obtain ⟨e, he⟩ := exit_emits (c := Daemon.ctxOf t id m1 time) (ret := ret) hg (e4.trans e3.symm)
            rw [hw] at he; cases he
        · cases e
  | execve t time mem filename argv scr lost =>
    obtain ⟨k1, k2, k3⟩ := execve_ring hs
    have hx := fun b => execve_probe (tbl := tbl) h.probe (Daemon.ctxOf t 59 0 time) b
    have hpass := hl.passes (tbl := tbl) he (Daemon.ctxOf t 59 0 time).ns
      (Daemon.ctxOf t 59 0 time).proc (Daemon.ctxOf t 59 0 time).nr
    rw [← (hx true).2.2] at hpass
    refine ⟨?_, ?_, ?_⟩
    · rw [k1, (hx _).1]
      exact hl.call he _ _ _
    · intro p ek
      rw [k1, (hx _).2.1, hi.state]
      constructor
      · intro ho; exact ho.snoc _ fun _ _ _ => ⟨fun hx => hx, fun hx => hx⟩
      · intro ho
        rcases open_snoc ho with ⟨t', m0', e1, -⟩ | ⟨hq, -⟩
        · cases e1
        · exact hq
    · rcases k3 with ⟨s, rfl, rfl, hsm, hr⟩ | ⟨hr, hw⟩
      · refine samples_new hi hr k2 (Or.inr ⟨t, time, mem, filename, argv, s, ⟨?_, hpass.1 hsm⟩, rfl⟩)
        simp
      · refine samples_quiet hi hr k2 ?_
        intro hd
        rcases due_last hd with ⟨_, _, _, _, _, _, _, _, e, _⟩ | ⟨t', time', mem', f', av', s', e1, e2⟩
        · cases e
        · injection e1 with e1 e3 e4 e5 e6 e7 e8
          rcases hw with hw | hw | hw
          · rw [hw] at e7; cases e7
          · rw [hw] at e8; cases e8
          · exact hw (hpass.2 e2)
  | «show» env =>
    obtain ⟨k1, k2⟩ := show_step hs
    refine ⟨by rw [k1]; exact ⟨a, hl, he⟩, ?_, ?_⟩
    · intro p ek
      rw [k1, hi.state]
      constructor
      · intro ho; exact ho.snoc _ fun _ _ _ => ⟨fun hx => hx, fun hx => hx⟩
      · intro ho
        rcases open_snoc ho with ⟨t', m0', e1, -⟩ | ⟨hq, -⟩
        · cases e1
        · exact hq
    · have hnd : ¬ Due tbl given (hist ++ [.show env]) hist.length := by
        intro hd
        rcases due_last hd with ⟨_, _, _, _, _, _, _, _, e, _⟩ | ⟨_, _, _, _, _, _, e, _⟩ <;> cases e
      rcases k2 with ⟨-, rfl⟩ | ⟨bs, x, r1, r2, r3⟩
      · exact samples_quiet hi rfl rfl hnd
      · obtain ⟨l, done, h1, h2, h3, h4, h5, h6⟩ := samples_quiet (h' := h) hi rfl rfl hnd
        refine ⟨l, done ++ [bs], h1, h2, h3, by rw [h4, r1]; simp, by rw [r3]; simp [h5], ?_⟩
        intro i b y hb hy
        rw [r3] at hy
        by_cases hlt : i < done.length
        · rw [List.getElem?_append_left hlt] at hb
          rw [List.getElem?_append_left (by omega)] at hy
          exact h6 i b y hb hy
        · have hlen := (List.getElem?_eq_some_iff.1 hb).1
          rw [List.length_append, List.length_singleton] at hlen
          have : i = done.length := by omega
          subst this
          rw [List.getElem?_append_right (Nat.le_refl _)] at hb
          rw [h5, List.getElem?_append_right (Nat.le_refl _)] at hy
          simp only [Nat.sub_self, List.getElem?_cons_zero, Option.some.injEq] at hb hy
          subst hb; subst hy
          exact ⟨env, by simp, r2⟩

theorem inv_run {refused : String → Filter.Faults} {given : List String} {h0 : Host}
    (hs : start tbl refused given = some h0) (hist : List Op) : ∀ {h : Host},
    run tbl fmt json h0 hist = some h → Inv tbl fmt json given hist h := by
  induction hist using Swoll.ListX.snoc_induction with
  | h0 => intro h hr; simp only [run, Option.some.injEq] at hr; subst hr; exact inv_start hs
  | h1 xs o ih =>
    intro h hr
    obtain ⟨h1, e1, e2⟩ := run_snoc hr
    exact inv_step (ih e1) e2

end Swoll.Lemmas.Host
