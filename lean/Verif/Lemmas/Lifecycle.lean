import Verif.Spec.Lifecycle
namespace Swoll.Lemmas.Lifecycle
open Swoll.Lifecycle Swoll.Spec.Lifecycle

theorem held_append (r : Resource) (a b : List Call) :
    held r (a ++ b) = b.foldl (held1 r) (held r a) := by
  simp [held, List.foldl_append]

theorem enableAll_ok (tps : List String) (answers : Nat → Bool) (i : Nat)
    (h : ∀ i, answers i = true) : enableAll tps answers i = (tps.map (.enable · true), true) := by
  induction tps generalizing i with
  | nil => rfl
  | cons tp rest ih => simp [enableAll, h, ih]

theorem fold_enable (r : Resource) (tps : List String) (n : Nat) :
    (tps.map (Call.enable · true)).foldl (held1 r) n =
      match r with | .tracepoint t => n + tps.count t | _ => n := by
  induction tps generalizing n with
  | nil => cases r <;> simp
  | cons tp rest ih =>
    rw [List.map_cons, List.foldl_cons, ih]
    cases r with
    | program => simp [held1]
    | poller i => simp [held1]
    | tracepoint t =>
      simp only [held1, Resource.tracepoint.injEq, List.count_cons, beq_iff_eq]
      by_cases h : t = tp
      · simp [h]; omega
      · have h2 : ¬ tp = t := fun e => h e.symm
        simp [h, h2]

theorem exec_append (s : State) (as bs : List Action) : exec s (as ++ bs) = exec (exec s as) bs := by
  induction as generalizing s with
  | nil => rfl
  | cons a as ih => exact ih _

/-- A probe made by NewProbe: only its two flags change. -/
abbrev made (tps : List String) (ini tpi : Bool) : Probe :=
  { config := some tps, hasModule := true, initialized := ini, tpInitialized := tpi }

theorem initProbe_eq {tps : List String} {ini tpi : Bool} {s : State}
    (h : s.probe = some (made tps ini tpi)) (load : Bool) (opts : List Bool) :
    initProbe s load opts =
      if ini then (s, .ok)
      else if load && opts.all id then
        ({ s with probe := some (made tps true tpi), calls := s.calls ++ [.load true] }, .ok)
      else ({ s with calls := s.calls ++ [.load load] }, .err) := by
  unfold initProbe
  rw [h]
  cases ini with
  | true => rfl
  | false =>
    cases load with
    | false => rfl
    | true => cases h2 : opts.all id <;> simp

theorem initTracepoints_eq {tps : List String} {ini tpi : Bool} {s : State}
    (h : s.probe = some (made tps ini tpi)) (answers : Nat → Bool) :
    initTracepoints s answers =
      if tpi then (s, .ok)
      else if (enableAll tps answers 0).2 then
        ({ s with probe := some (made tps ini true),
                  calls := s.calls ++ (enableAll tps answers 0).1 }, .ok)
      else ({ s with calls := s.calls ++ (enableAll tps answers 0).1 }, .err) := by
  unfold initTracepoints
  rw [h]
  cases tpi with
  | true => rfl
  | false => cases h2 : (enableAll tps answers 0).2 <;> simp [h2]

theorem run_eq {tps : List String} {ini tpi : Bool} {s : State}
    (h : s.probe = some (made tps ini tpi)) (cb : Bool) (answers : Nat → Bool) (perf : Bool) :
    run s cb answers perf =
      if !ini then (s, .err)
      else if (initTracepoints s answers).2 = .ok then startLoop (initTracepoints s answers).1 cb perf
      else ((initTracepoints s answers).1, .err) := by
  have e := initTracepoints_eq h answers
  unfold run
  rw [h]
  cases ini with
  | false => rfl
  | true =>
    cases tpi with
    | true => rw [e]; rfl
    | false =>
      dsimp only
      simp only [Bool.not_true, Bool.false_eq_true, if_false]
      rw [e]
      cases (enableAll tps answers 0).2 <;> simp

theorem close_eq {tps : List String} {ini tpi : Bool} {s : State}
    (h : s.probe = some (made tps ini tpi)) (ok : Bool) :
    close s ok = ({ s with probe := some (made tps false false), calls := s.calls ++ [.close ok] },
      if ok then .ok else .err) := by
  unfold close
  rw [h]
  rfl

/-- For any history: a probe made by NewProbe keeps its module and tracepoints, and every Run that is
in its loop has its poller. -/
structure Inv (tps : List String) (s : State) : Prop where
  probe : ∃ ini tpi, s.probe = some (made tps ini tpi)
  live : ∀ (i : Nat) (l : Loop), s.loops[i]? = some l → l.live = true → held (.poller i) s.calls = 1
  future : ∀ i, s.loops.length ≤ i → held (.poller i) s.calls = 0

theorem enableAll_calls (r : Resource) (h : ∀ t, r ≠ .tracepoint t) (tps : List String)
    (answers : Nat → Bool) (i n : Nat) : (enableAll tps answers i).1.foldl (held1 r) n = n := by
  induction tps generalizing i n with
  | nil => rfl
  | cons tp rest ih =>
    unfold enableAll
    by_cases ha : answers i
    · simp only [ha, if_true, List.foldl_cons, ih]
      simp [held1, h]
    · simp [ha, held1]

theorem poller_ne (i : Nat) (t : String) : Resource.poller i ≠ .tracepoint t := by simp

theorem inv_congr {tps : List String} {s s' : State} (h : Inv tps s)
    (hp : ∃ ini tpi, s'.probe = some (made tps ini tpi))
    (hl : s'.loops = s.loops) (hc : ∀ i, held (.poller i) s'.calls = held (.poller i) s.calls) :
    Inv tps s' :=
  ⟨hp, fun i l => by rw [hl, hc]; exact h.live i l, fun i => by rw [hl, hc]; exact h.future i⟩

theorem inv_startLoop {tps : List String} {s : State} (h : Inv tps s) (cb perf : Bool) :
    Inv tps (startLoop s cb perf).1 := by
  unfold startLoop
  cases perf with
  | false => exact inv_congr h h.probe rfl (fun i => by simp [held_append, held1])
  | true =>
    refine ⟨h.probe, fun i l hi hl => ?_, fun i hi => ?_⟩
    · simp only [if_true] at hi ⊢
      rw [held_append]
      simp only [List.foldl_cons, List.foldl_nil, held1]
      by_cases e : i < s.loops.length
      · rw [List.getElem?_append_left e] at hi
        rw [h.live i l hi hl]
        have : ¬ i = s.loops.length := by omega
        simp [this]
      · rw [List.getElem?_append_right (by omega)] at hi
        have : i = s.loops.length := by
          have := (List.getElem?_eq_some_iff.1 hi).1
          simp at this; omega
        rw [h.future i (by omega)]
        simp [this]
    · simp only [if_true] at hi ⊢
      simp only [List.length_append, List.length_cons, List.length_nil] at hi
      rw [held_append]
      simp only [List.foldl_cons, List.foldl_nil, held1]
      rw [h.future i (by omega)]
      have : ¬ i = s.loops.length := by omega
      simp [this]

theorem inv_initTracepoints {tps : List String} {s : State} (h : Inv tps s) (answers : Nat → Bool) :
    Inv tps (initTracepoints s answers).1 := by
  obtain ⟨ini, tpi, hp⟩ := h.probe
  rw [initTracepoints_eq hp]
  have key : ∀ i, held (.poller i) (s.calls ++ (enableAll tps answers 0).1) =
      held (.poller i) s.calls := fun i => by rw [held_append, enableAll_calls _ (poller_ne i)]
  split
  · exact h
  · split
    · exact inv_congr h ⟨_, _, rfl⟩ rfl key
    · exact inv_congr h ⟨_, _, hp⟩ rfl key

theorem initTracepoints_res {tps : List String} {s : State} (h : Inv tps s) (answers : Nat → Bool) :
    (initTracepoints s answers).2 = .ok ∨ (initTracepoints s answers).2 = .err := by
  obtain ⟨ini, tpi, hp⟩ := h.probe
  rw [initTracepoints_eq hp]
  split
  · simp
  · split <;> simp

theorem inv_set {tps : List String} {s : State} (h : Inv tps s) {i : Nat} {l : Loop}
    (hl : s.loops[i]? = some l) (hlive : l.live = true) (l' : Loop) :
    Inv tps { s with loops := s.loops.set i l' } :=
  ⟨h.probe, fun j k hj hk => by
    dsimp only at hj ⊢
    by_cases e : i = j
    · subst e; exact h.live i l hl hlive
    · rw [List.getElem?_set_ne e] at hj; exact h.live j k hj hk,
   fun j hj => by
    dsimp only at hj ⊢
    rw [List.length_set] at hj; exact h.future j hj⟩

theorem inv_step {tps : List String} {s : State} (h : Inv tps s) (a : Action) :
    Inv tps (step s a).1 := by
  obtain ⟨ini, tpi, hp⟩ := h.probe
  cases a with
  | initProbe load opts =>
    simp only [step, initProbe_eq hp]
    have hh : ∀ b i, held (.poller i) (s.calls ++ [.load b]) = held (.poller i) s.calls := by
      intro b i; rw [held_append]; cases b <;> simp [held1]
    split
    · exact h
    · split
      · exact inv_congr h ⟨_, _, rfl⟩ rfl (hh _)
      · exact inv_congr h ⟨_, _, hp⟩ rfl (hh _)
  | initTracepoints answers => exact inv_initTracepoints h answers
  | run cb answers perf =>
    simp only [step, run_eq hp]
    split
    · exact h
    · split
      · exact inv_startLoop (inv_initTracepoints h answers) cb perf
      · exact inv_initTracepoints h answers
  | receive i m ok =>
    simp only [step, receive]
    split
    · exact h
    · rename_i l hl
      split
      · exact h
      · rename_i hlive
        have hlive : l.live = true := by simpa using hlive
        split
        · exact h
        · split
          · exact inv_set h hl hlive _
          · exact inv_set h hl hlive _
  | cancel i =>
    simp only [step, cancel]
    split
    · exact h
    · rename_i l hl
      split
      · exact h
      · refine ⟨h.probe, fun j k hj hk => ?_, fun j hj => ?_⟩
        · dsimp only at hj ⊢
          by_cases e : i = j
          · subst e
            have hlt := (List.getElem?_eq_some_iff.1 hl).1
            rw [List.getElem?_set_self hlt] at hj
            cases hj
            simp at hk
          · rw [List.getElem?_set_ne e] at hj
            rw [held_append]
            have : ¬ j = i := fun e' => e e'.symm
            simp [held1, this, h.live j k hj hk]
        · dsimp only at hj ⊢
          rw [List.length_set] at hj
          rw [held_append]
          simp [held1, h.future j hj]
  | close ok =>
    simp only [step, close_eq hp]
    refine inv_congr h ⟨_, _, rfl⟩ rfl (fun i => ?_)
    dsimp only
    rw [held_append]
    cases ok <;> simp [held1]

theorem inv_exec {tps : List String} {s : State} (h : Inv tps s) (as : List Action) :
    Inv tps (exec s as) := by
  induction as generalizing s with
  | nil => exact h
  | cons a as ih => exact ih (inv_step h a)

theorem newProbe_made {cfg : Option (List String)} {p : Probe} (h : newProbe true cfg = some p) :
    p = made (cfg.getD defaultTracepoints) false false := by
  simp only [newProbe, if_true, Option.some.injEq] at h
  exact h.symm

theorem inv_init {cfg : Option (List String)} {p : Probe} (h : newProbe true cfg = some p) :
    Inv (cfg.getD defaultTracepoints) (init (some p)) := by
  refine ⟨⟨false, false, by rw [newProbe_made h]; rfl⟩, fun i l hi => ?_, fun i _ => ?_⟩
  · simp [init] at hi
  · simp [init, held]

theorem startLoop_res (s : State) (cb perf : Bool) : (startLoop s cb perf).2 ≠ .panic := by
  unfold startLoop; split <;> simp

theorem step_res {tps : List String} {s : State} (h : Inv tps s) (a : Action) :
    (step s a).2 ≠ .panic := by
  obtain ⟨ini, tpi, hp⟩ := h.probe
  cases a with
  | initProbe load opts =>
    simp only [step, initProbe_eq hp]
    split
    · simp
    · split <;> simp
  | initTracepoints answers =>
    rcases initTracepoints_res h answers with e | e <;> simp [step, e]
  | run cb answers perf =>
    simp only [step, run_eq hp]
    split
    · simp
    · split
      · exact startLoop_res _ _ _
      · simp
  | receive i m ok =>
    simp only [step, receive]
    split
    · simp
    · split
      · simp
      · split
        · simp
        · split <;> simp
  | cancel i =>
    simp only [step, cancel]
    split
    · simp
    · split <;> simp
  | close ok => simp only [step, close_eq hp]; cases ok <;> simp

/-! Being ready. -/

theorem initTracepoints_ini {tps : List String} {ini tpi : Bool} {s : State}
    (hp : s.probe = some (made tps ini tpi)) (answers : Nat → Bool) :
    ∃ tpi', (initTracepoints s answers).1.probe = some (made tps ini tpi') := by
  rw [initTracepoints_eq hp]
  split
  · exact ⟨_, hp⟩
  · split
    · exact ⟨_, rfl⟩
    · exact ⟨_, hp⟩

theorem startLoop_probe (s : State) (cb perf : Bool) : (startLoop s cb perf).1.probe = s.probe := by
  unfold startLoop; split <;> rfl

theorem ready_step {tps : List String} {ini tpi : Bool} {s : State}
    (hp : s.probe = some (made tps ini tpi)) (a : Action) (rest : List (Action × Res)) :
    ∃ ini' tpi', (step s a).1.probe = some (made tps ini' tpi') ∧
      ready ((a, (step s a).2) :: rest) ini = ready rest ini' := by
  cases a with
  | initProbe load opts =>
    simp only [step, initProbe_eq hp]
    cases ini with
    | true => exact ⟨_, _, hp, by simp [ready]⟩
    | false =>
      simp only [Bool.false_eq_true, if_false]
      split
      · exact ⟨_, _, rfl, by simp [ready]⟩
      · exact ⟨_, _, hp, by simp [ready]⟩
  | initTracepoints answers =>
    obtain ⟨tpi', h1⟩ := initTracepoints_ini hp answers
    exact ⟨_, _, h1, by simp [ready]⟩
  | run cb answers perf =>
    refine ⟨ini, ?_⟩
    simp only [step, run_eq hp]
    obtain ⟨tpi', h1⟩ := initTracepoints_ini hp answers
    split
    · exact ⟨_, hp, by simp [ready]⟩
    · split
      · exact ⟨_, by rw [startLoop_probe]; exact h1, by simp [ready]⟩
      · exact ⟨_, h1, by simp [ready]⟩
  | receive i m ok =>
    refine ⟨ini, tpi, ?_, by simp [ready]⟩
    simp only [step, receive]
    split
    · exact hp
    · split
      · exact hp
      · split
        · exact hp
        · split <;> exact hp
  | cancel i =>
    refine ⟨ini, tpi, ?_, by simp [ready]⟩
    simp only [step, cancel]
    split
    · exact hp
    · split <;> exact hp
  | close ok => exact ⟨false, false, by simp only [step, close_eq hp], by simp [ready]⟩

theorem ready_exec {tps : List String} {ini tpi : Bool} {s : State}
    (hp : s.probe = some (made tps ini tpi)) (as : List Action) :
    ∃ tpi', (exec s as).probe = some (made tps (ready (as.zip (results s as)) ini) tpi') := by
  induction as generalizing s ini tpi with
  | nil => exact ⟨tpi, by simpa [results, ready, exec] using hp⟩
  | cons a as ih =>
    obtain ⟨ini', tpi', h1, h2⟩ := ready_step hp a (as.zip (results (step s a).1 as))
    obtain ⟨tpi'', h3⟩ := ih h1
    refine ⟨tpi'', ?_⟩
    simp only [results, List.zip_cons_cons]
    rw [h2]
    exact h3

/-! What is held. -/

/-- In a clean history exactly one program is held when the probe is initialized, and so on. -/
structure Holds (tps : List String) (s : State) : Prop where
  probe : ∃ ini tpi, s.probe = some (made tps ini tpi) ∧
    held .program s.calls = (if ini then 1 else 0) ∧
    ∀ t, held (.tracepoint t) s.calls = if tpi ∧ t ∈ tps then 1 else 0
  dead : ∀ (i : Nat) (l : Loop), s.loops[i]? = some l → l.live = false → held (.poller i) s.calls = 0

theorem holds_startLoop {tps : List String} {s : State} (h : Holds tps s) (cb perf : Bool) :
    Holds tps (startLoop s cb perf).1 := by
  obtain ⟨ini, tpi, hp, hpr, ht⟩ := h.probe
  unfold startLoop
  cases perf with
  | false =>
    refine ⟨⟨_, _, hp, ?_, fun t => ?_⟩, fun i l hi hl => ?_⟩
    · simp [held_append, held1, hpr]
    · simp [held_append, held1, ht]
    · simpa [held_append, held1] using h.dead i l hi hl
  | true =>
    refine ⟨⟨_, _, hp, ?_, fun t => ?_⟩, fun i l hi hl => ?_⟩
    · simp [held_append, held1, hpr]
    · simp [held_append, held1, ht]
    · simp only [if_true] at hi ⊢
      by_cases e : i < s.loops.length
      · rw [List.getElem?_append_left e] at hi
        rw [held_append]
        have : ¬ i = s.loops.length := by omega
        simp [held1, this, h.dead i l hi hl]
      · rw [List.getElem?_append_right (by omega)] at hi
        have e2 : i - s.loops.length = 0 := by
          have := (List.getElem?_eq_some_iff.1 hi).1
          simp at this; omega
        rw [e2] at hi
        simp at hi
        subst hi
        simp at hl

theorem holds_initTracepoints {tps : List String} (hd : tps.Nodup) {s : State} (h : Holds tps s)
    (answers : Nat → Bool) (ha : ∀ i, answers i = true) :
    Holds tps (initTracepoints s answers).1 ∧ (initTracepoints s answers).2 = .ok := by
  obtain ⟨ini, tpi, hp, hpr, ht⟩ := h.probe
  rw [initTracepoints_eq hp, enableAll_ok _ _ _ ha]
  cases tpi with
  | true => exact ⟨h, rfl⟩
  | false =>
    simp only [Bool.false_eq_true, if_false, if_true]
    refine ⟨⟨⟨_, _, rfl, ?_, fun t => ?_⟩, fun i l hi hl => ?_⟩, trivial⟩
    · dsimp only
      rw [held_append, fold_enable]; exact hpr
    · dsimp only
      rw [held_append, fold_enable, ht]
      by_cases hmem : t ∈ tps
      · simp [hmem, hd.count]
      · simp [hmem, List.count_eq_zero]
    · dsimp only
      rw [held_append, fold_enable]
      exact h.dead i l hi hl

theorem holds_step {tps : List String} (hd : tps.Nodup) {s : State} (hI : Inv tps s)
    (h : Holds tps s) (a : Action) (hcl : Clean a) : Holds tps (step s a).1 := by
  obtain ⟨ini, tpi, hp, hpr, ht⟩ := h.probe
  cases a with
  | initProbe load opts =>
    have ho : opts.all id = true := by
      rw [List.all_eq_true]; exact fun o hoo => hcl o hoo
    simp only [step, initProbe_eq hp, ho, Bool.and_true]
    cases ini with
    | true => exact h
    | false =>
      cases load with
      | false =>
        refine ⟨⟨_, _, hp, ?_, fun t => ?_⟩, fun i l hi' hl => ?_⟩
        · simp [held_append, held1, hpr]
        · simp [held_append, held1, ht]
        · simpa [held_append, held1] using h.dead i l hi' hl
      | true =>
        refine ⟨⟨_, _, rfl, ?_, fun t => ?_⟩, fun i l hi' hl => ?_⟩
        · simp [held_append, held1, hpr]
        · simp [held_append, held1, ht]
        · simpa [held_append, held1] using h.dead i l hi' hl
  | initTracepoints answers => exact (holds_initTracepoints hd h answers hcl).1
  | run cb answers perf =>
    obtain ⟨h2, h3⟩ := holds_initTracepoints hd h answers hcl
    simp only [step, run_eq hp, h3, if_true]
    split
    · exact h
    · exact holds_startLoop h2 cb perf
  | receive i m ok =>
    have hok : ok = true := hcl
    subst hok
    simp only [step, receive]
    split
    · exact h
    · rename_i l hl
      split
      · exact h
      · rename_i hlive
        have hlive : l.live = true := by simpa using hlive
        split
        · exact h
        · refine ⟨⟨_, _, hp, hpr, ht⟩, fun j k hj hk => ?_⟩
          simp only [if_true] at hj ⊢
          by_cases e : i = j
          · subst e
            have hlt := (List.getElem?_eq_some_iff.1 hl).1
            rw [List.getElem?_set_self hlt] at hj
            cases hj
            simp [hlive] at hk
          · rw [List.getElem?_set_ne e] at hj; exact h.dead j k hj hk
  | cancel i =>
    simp only [step, cancel]
    split
    · exact h
    · rename_i l hl
      split
      · exact h
      · rename_i hlive
        have hlive : l.live = true := by simpa using hlive
        refine ⟨⟨_, _, hp, ?_, fun t => ?_⟩, fun j k hj hk => ?_⟩
        · simp [held_append, held1, hpr]
        · simp [held_append, held1, ht]
        · dsimp only at hj ⊢
          rw [held_append]
          by_cases e : i = j
          · subst e
            simp [held1, hI.live i l hl hlive]
          · rw [List.getElem?_set_ne e] at hj
            simp [held1, h.dead j k hj hk]
  | close ok =>
    have hok : ok = true := hcl
    subst hok
    simp only [step, close_eq hp]
    refine ⟨⟨_, _, rfl, ?_, fun t => ?_⟩, fun i l hi' hl => ?_⟩
    · dsimp only
      rw [held_append]
      simp only [List.foldl_cons, List.foldl_nil, held1, hpr]
      split <;> simp
    · dsimp only
      rw [held_append]
      simp only [List.foldl_cons, List.foldl_nil, held1, ht]
      split <;> simp
    · dsimp only
      rw [held_append]
      simpa [held1] using h.dead i l hi' hl

theorem holds_exec {tps : List String} (hd : tps.Nodup) {s : State} (hI : Inv tps s)
    (h : Holds tps s) (as : List Action) (hcl : ∀ a ∈ as, Clean a) : Holds tps (exec s as) := by
  induction as generalizing s with
  | nil => exact h
  | cons a as ih =>
    exact ih (inv_step hI a) (holds_step hd hI h a (hcl a (by simp)))
      (fun b hb => hcl b (List.mem_cons_of_mem _ hb))

theorem holds_init {cfg : Option (List String)} {p : Probe} (h : newProbe true cfg = some p) :
    Holds (cfg.getD defaultTracepoints) (init (some p)) := by
  refine ⟨⟨false, false, by rw [newProbe_made h]; rfl, ?_, fun t => ?_⟩, fun i l hi => ?_⟩
  · simp [init, held]
  · simp [init, held]
  · simp [init] at hi

/-- For any history: an initialized probe holds its program, and its tracepoints once they are. -/
structure Has (tps : List String) (s : State) : Prop where
  probe : ∃ ini tpi, s.probe = some (made tps ini tpi) ∧
    (ini = true → 1 ≤ held .program s.calls) ∧
    (tpi = true → ∀ t ∈ tps, 1 ≤ held (.tracepoint t) s.calls)

theorem enableAll_mono (t : String) (tps : List String) (answers : Nat → Bool) (i n : Nat) :
    n ≤ (enableAll tps answers i).1.foldl (held1 (.tracepoint t)) n := by
  induction tps generalizing i n with
  | nil => exact Nat.le_refl _
  | cons tp rest ih =>
    unfold enableAll
    by_cases ha : answers i
    · simp only [ha, if_true, List.foldl_cons]
      refine Nat.le_trans ?_ (ih _ _)
      simp only [held1]; split <;> omega
    · simp [ha, held1]

theorem enableAll_has (t : String) (tps : List String) (answers : Nat → Bool) (i n : Nat)
    (h : (enableAll tps answers i).2 = true) (ht : t ∈ tps) :
    n + 1 ≤ (enableAll tps answers i).1.foldl (held1 (.tracepoint t)) n := by
  induction tps generalizing i n with
  | nil => simp at ht
  | cons tp rest ih =>
    unfold enableAll at h ⊢
    by_cases ha : answers i
    · simp only [ha, if_true, List.foldl_cons] at h ⊢
      by_cases e : t = tp
      · subst e
        refine Nat.le_trans ?_ (enableAll_mono _ _ _ _ _)
        simp [held1]
      · have hm : t ∈ rest := by simpa [e] using ht
        have := ih (i + 1) n h hm
        have h1 : held1 (.tracepoint t) n (.enable tp true) = n := by simp [held1, e]
        rw [h1]; exact this
    · simp [ha] at h

theorem has_startLoop {tps : List String} {s : State} (h : Has tps s) (cb perf : Bool) :
    Has tps (startLoop s cb perf).1 := by
  obtain ⟨ini, tpi, hp, h1, h2⟩ := h.probe
  unfold startLoop
  cases perf <;>
  exact ⟨_, _, hp, fun e => by simpa [held_append, held1] using h1 e,
    fun e t ht => by simpa [held_append, held1] using h2 e t ht⟩

theorem has_initTracepoints {tps : List String} {s : State} (h : Has tps s) (answers : Nat → Bool) :
    Has tps (initTracepoints s answers).1 ∧
    ((initTracepoints s answers).2 = .ok → ∀ t ∈ tps,
      1 ≤ held (.tracepoint t) (initTracepoints s answers).1.calls) := by
  obtain ⟨ini, tpi, hp, h1, h2⟩ := h.probe
  rw [initTracepoints_eq hp]
  have hpr : held .program (s.calls ++ (enableAll tps answers 0).1) = held .program s.calls := by
    rw [held_append, enableAll_calls _ (by simp)]
  split
  · rename_i htp; exact ⟨h, fun _ => h2 htp⟩
  · rename_i htp
    split
    · rename_i hall
      have key : ∀ t ∈ tps, 1 ≤ held (.tracepoint t) (s.calls ++ (enableAll tps answers 0).1) := by
        intro t ht
        rw [held_append]
        exact Nat.le_trans (by omega) (enableAll_has t tps answers 0 _ hall ht)
      exact ⟨⟨_, _, rfl, fun e => by rw [hpr]; exact h1 e, fun _ => key⟩, fun _ => key⟩
    · exact ⟨⟨_, _, hp, fun e => by rw [hpr]; exact h1 e, fun e => absurd e htp⟩,
        fun e => by simp at e⟩

theorem has_step {tps : List String} {s : State} (h : Has tps s) (a : Action) :
    Has tps (step s a).1 := by
  obtain ⟨ini, tpi, hp, h1, h2⟩ := h.probe
  cases a with
  | initProbe load opts =>
    simp only [step, initProbe_eq hp]
    have hh : ∀ b t, held (.tracepoint t) (s.calls ++ [.load b]) = held (.tracepoint t) s.calls := by
      intro b t; rw [held_append]; cases b <;> simp [held1]
    split
    · exact h
    · rename_i hi
      split
      · exact ⟨_, _, rfl, fun _ => by simp [held_append, held1],
          fun e t ht => by rw [hh]; exact h2 e t ht⟩
      · exact ⟨_, _, hp, fun e => absurd e hi, fun e t ht => by rw [hh]; exact h2 e t ht⟩
  | initTracepoints answers => exact (has_initTracepoints h answers).1
  | run cb answers perf =>
    simp only [step, run_eq hp]
    split
    · exact h
    · split
      · exact has_startLoop (has_initTracepoints h answers).1 cb perf
      · exact (has_initTracepoints h answers).1
  | receive i m ok =>
    simp only [step, receive]
    split
    · exact h
    · split
      · exact h
      · split
        · exact h
        · split
          · exact ⟨_, _, hp, h1, h2⟩
          · exact ⟨_, _, hp, h1, h2⟩
  | cancel i =>
    simp only [step, cancel]
    split
    · exact h
    · split
      · exact h
      · exact ⟨_, _, hp, fun e => by simpa [held_append, held1] using h1 e,
          fun e t ht => by simpa [held_append, held1] using h2 e t ht⟩
  | close ok =>
    simp only [step, close_eq hp]
    exact ⟨_, _, rfl, fun e => by simp at e, fun e => by simp at e⟩

theorem has_exec {tps : List String} {s : State} (h : Has tps s) (as : List Action) :
    Has tps (exec s as) := by
  induction as generalizing s with
  | nil => exact h
  | cons a as ih => exact ih (has_step h a)

theorem has_init {cfg : Option (List String)} {p : Probe} (h : newProbe true cfg = some p) :
    Has (cfg.getD defaultTracepoints) (init (some p)) :=
  ⟨false, false, by rw [newProbe_made h]; rfl, fun e => by simp at e, fun e => by simp at e⟩

/-! Messages. -/

theorem loops_initTracepoints (s : State) (answers : Nat → Bool) :
    (initTracepoints s answers).1.loops = s.loops := by
  unfold initTracepoints
  repeat' (first | split | rfl | (dsimp only; split))

theorem startLoop_get (s : State) (cb perf : Bool) (i : Nat) (hi : i < s.loops.length) :
    (startLoop s cb perf).1.loops[i]? = s.loops[i]? := by
  unfold startLoop
  split
  · dsimp only; rw [List.getElem?_append_left hi]
  · rfl

/-- A step that is neither a message for `i` nor its end leaves the `i`th loop alone. -/
theorem step_get (s : State) (a : Action) (i : Nat) (hi : i < s.loops.length)
    (h1 : ∀ m ok, a ≠ .receive i m ok) (h2 : a ≠ .cancel i) :
    (step s a).1.loops[i]? = s.loops[i]? := by
  cases a with
  | initProbe load opts =>
    simp only [step, initProbe]
    repeat' (first | split | rfl | (dsimp only; split))
  | initTracepoints answers => simp only [step]; rw [loops_initTracepoints]
  | run cb answers perf =>
    simp only [step, run]
    split
    · rfl
    · split
      · rfl
      · split
        · rfl
        · split
          · exact startLoop_get _ _ _ _ hi
          · have h3 := loops_initTracepoints s answers
            revert h3
            cases initTracepoints s answers with
            | mk s' r =>
              intro h3
              dsimp only at h3
              cases r with
              | ok =>
                dsimp only
                rw [startLoop_get _ _ _ _ (by rw [h3]; exact hi), h3]
              | err => dsimp only; rw [h3]
              | panic => dsimp only; rw [h3]
              | waits => dsimp only; rw [h3]
  | receive j m ok =>
    have e : j ≠ i := fun e => h1 m ok (by rw [e])
    simp only [step, receive]
    split
    · rfl
    · split
      · rfl
      · split
        · rfl
        · split
          · dsimp only; rw [List.getElem?_set_ne e]
          · dsimp only; rw [List.getElem?_set_ne e]
  | cancel j =>
    have e : j ≠ i := fun e => h2 (by rw [e])
    simp only [step, cancel]
    split
    · rfl
    · split
      · rfl
      · dsimp only; rw [List.getElem?_set_ne e]
  | close ok =>
    simp only [step, close]
    repeat' (first | split | rfl | (dsimp only; split))

theorem dead_exec (s : State) (as : List Action) (i : Nat) (l : Loop)
    (hl : s.loops[i]? = some l) (hd : l.live = false) : (exec s as).loops[i]? = some l := by
  induction as generalizing s with
  | nil => exact hl
  | cons a as ih =>
    refine ih _ ?_
    have hi := (List.getElem?_eq_some_iff.1 hl).1
    by_cases h1 : ∃ m ok, a = .receive i m ok
    · obtain ⟨m, ok, rfl⟩ := h1
      simp [step, receive, hl, hd]
    · by_cases h2 : a = .cancel i
      · subst h2; simp [step, cancel, hl, hd]
      · rw [step_get s a i hi (fun m ok e => h1 ⟨m, ok, e⟩) h2, hl]

theorem heard_skip (a : Action) (as : List Action) (i : Nat)
    (h1 : ∀ m ok, a ≠ .receive i m ok) (h2 : a ≠ .cancel i) : heard i (a :: as) = heard i as := by
  cases a with
  | receive j m ok =>
    have e : j ≠ i := fun e => h1 m ok (by rw [e])
    simp [heard, e]
  | cancel j =>
    have e : j ≠ i := fun e => h2 (by rw [e])
    simp [heard, e]
  | _ => simp [heard]

theorem heard_exec (s : State) (as : List Action) (i : Nat) (l : Loop)
    (hl : s.loops[i]? = some l) (hc : l.cb = true) (hv : l.live = true) :
    ∃ l', (exec s as).loops[i]? = some l' ∧ l'.got = l.got ++ heard i as := by
  induction as generalizing s l with
  | nil => exact ⟨l, hl, by simp [heard]⟩
  | cons a as ih =>
    have hi := (List.getElem?_eq_some_iff.1 hl).1
    by_cases h1 : ∃ m ok, a = .receive i m ok
    · obtain ⟨m, ok, rfl⟩ := h1
      cases ok with
      | true =>
        have hs : (step s (.receive i m true)).1.loops[i]? = some { l with got := l.got ++ [m] } := by
          simp [step, receive, hl, hv, hc, List.getElem?_set_self hi]
        obtain ⟨l', h3, h4⟩ := ih _ _ hs hc hv
        refine ⟨l', h3, ?_⟩
        rw [h4]; simp [heard]
      | false =>
        have hs : (step s (.receive i m false)).1.loops[i]? =
            some { l with live := false, got := l.got ++ [m] } := by
          simp [step, receive, hl, hv, hc, List.getElem?_set_self hi]
        exact ⟨_, dead_exec _ as i _ hs rfl, by simp [heard]⟩
    · by_cases h2 : a = .cancel i
      · subst h2
        have hs : (step s (.cancel i)).1.loops[i]? = some { l with live := false } := by
          simp [step, cancel, hl, hv, List.getElem?_set_self hi]
        exact ⟨_, dead_exec _ as i _ hs rfl, by simp [heard]⟩
      · have h1' : ∀ m ok, a ≠ .receive i m ok := fun m ok e => h1 ⟨m, ok, e⟩
        rw [heard_skip a as i h1' h2]
        exact ih _ l (by rw [step_get s a i hi h1' h2, hl]) hc hv

theorem flatMap_forward (ms : List Msg) : ms.flatMap forward = events ms := by
  induction ms with
  | nil => rfl
  | cons m ms ih => cases m <;> simp [forward, events, ih]

end Swoll.Lemmas.Lifecycle
