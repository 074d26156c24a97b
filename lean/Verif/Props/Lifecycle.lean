import Verif.Lemmas.Lifecycle
/-
C62: the probe's lifecycle.
-/
namespace Swoll.Props.Lifecycle
open Swoll.Lifecycle Swoll.Spec.Lifecycle Swoll.Lemmas.Lifecycle

/-- The state after a history of a probe made by NewProbe. -/
abbrev after (p : Probe) (as : List Action) : State := exec (init (some p)) as

/-- The history with what each call returned. -/
abbrev history (p : Probe) (as : List Action) : List (Action × Res) :=
  as.zip (results (init (some p)) as)

abbrev p0 : Probe :=
  { config := some defaultTracepoints, hasModule := true, initialized := false, tpInitialized := false }

example : newProbe true none = some p0 := rfl

/-- A probe made by NewProbe never crashes its caller, whatever is called in whatever order and
whatever fails. -/
theorem c62_safe (cfg : Option (List String)) (p : Probe) (h : newProbe true cfg = some p)
    (as : List Action) (a : Action) : (step (after p as) a).2 ≠ .panic :=
  step_res (inv_exec (inv_init h) as) a

/-- Run fails, and does nothing at all, unless InitProbe has succeeded since the last Close. -/
theorem c62_run_not_ready (cfg : Option (List String)) (p : Probe) (h : newProbe true cfg = some p)
    (as : List Action) (hr : ready (history p as) false = false) (cb : Bool) (answers : Nat → Bool)
    (perf : Bool) : step (after p as) (.run cb answers perf) = (after p as, .err) := by
  obtain ⟨tpi, hp⟩ := ready_exec (s := init (some p)) (by rw [newProbe_made h]; rfl) as
  rw [hr] at hp
  simp only [step, run_eq hp]
  rfl

/-- Run starts polling once InitProbe has succeeded, if the tracepoints can be enabled and the perf map
opened: it comes to wait for messages, with one more loop, and its poller. -/
theorem c62_run_ready (cfg : Option (List String)) (p : Probe) (h : newProbe true cfg = some p)
    (as : List Action) (hr : ready (history p as) false = true) (cb : Bool) (answers : Nat → Bool)
    (ha : ∀ i, answers i = true) :
    (step (after p as) (.run cb answers true)).2 = .waits ∧
    (step (after p as) (.run cb answers true)).1.loops =
      (after p as).loops ++ [{ cb := cb, live := true, got := [] }] ∧
    held (.poller (after p as).loops.length)
      (step (after p as) (.run cb answers true)).1.calls = 1 := by
  obtain ⟨tpi, hp⟩ := ready_exec (s := init (some p)) (by rw [newProbe_made h]; rfl) as
  rw [hr] at hp
  have hI := inv_exec (inv_init h) as
  have h2 := initTracepoints_eq hp answers
  have hok : (initTracepoints (after p as) answers).2 = .ok := by
    rw [h2, enableAll_ok _ _ _ ha]; cases tpi <;> rfl
  have hl := loops_initTracepoints (after p as) answers
  simp only [step, run_eq hp, hok, if_true, Bool.not_true, Bool.false_eq_true, if_false]
  refine ⟨by simp [startLoop], by simp [startLoop, hl], ?_⟩
  have hI2 := inv_startLoop (inv_initTracepoints hI answers) cb true
  refine hI2.live _ { cb := cb, live := true, got := [] } ?_ rfl
  simp [startLoop, hl]

/-- A Run that comes to wait for messages has the program loaded, every tracepoint of the configuration
enabled, and its poller running, after any history. -/
theorem c62_run_waits (cfg : Option (List String)) (p : Probe) (h : newProbe true cfg = some p)
    (as : List Action) (cb : Bool) (answers : Nat → Bool) (perf : Bool)
    (hw : (step (after p as) (.run cb answers perf)).2 = .waits) :
    1 ≤ held .program (step (after p as) (.run cb answers perf)).1.calls ∧
    (∀ t ∈ cfg.getD defaultTracepoints,
      1 ≤ held (.tracepoint t) (step (after p as) (.run cb answers perf)).1.calls) ∧
    held (.poller (after p as).loops.length)
      (step (after p as) (.run cb answers perf)).1.calls = 1 := by
  have hH := has_exec (has_init h) as
  have hI := inv_exec (inv_init h) as
  obtain ⟨ini, tpi, hp, h1, h2⟩ := hH.probe
  have hT := has_initTracepoints hH answers
  have hl := loops_initTracepoints (after p as) answers
  simp only [step, run_eq hp] at hw ⊢
  cases ini with
  | false => simp at hw
  | true =>
    simp only [Bool.not_true, Bool.false_eq_true, if_false] at hw ⊢
    split at hw
    · rename_i hok
      simp only [hok, if_true]
      obtain ⟨ini', htp⟩ := initTracepoints_ini hp answers
      obtain ⟨a, b, hab, h3, h4⟩ := hT.1.probe
      have ha : a = true := by
        rw [htp] at hab
        simp only [Option.some.injEq, Probe.mk.injEq] at hab
        exact hab.2.2.1.symm
      have h5 := h3 ha
      have h6 := hT.2 hok
      have hI2 := inv_startLoop (inv_initTracepoints hI answers) cb perf
      cases perf with
      | false => simp [startLoop] at hw
      | true =>
        refine ⟨by simpa [startLoop, held_append, held1] using h5,
          fun t ht => by simpa [startLoop, held_append, held1] using h6 t ht, ?_⟩
        refine hI2.live _ { cb := cb, live := true, got := [] } ?_ rfl
        simp [startLoop, hl]
    · simp at hw

example : (step (after p0 [.initProbe true []]) (.run true (fun _ => true) true)).2 = .waits := by
  decide

/-- Without a configuration these are the tracepoints of every system call's entry and exit and of the entry
of execve. -/
theorem c62_default_tracepoints (p : Probe) (h : newProbe true none = some p)
    (as : List Action) (cb : Bool) (answers : Nat → Bool) (perf : Bool)
    (hw : (step (after p as) (.run cb answers perf)).2 = .waits) :
    ∀ t ∈ ["tracepoint/raw_syscalls/sys_enter", "tracepoint/raw_syscalls/sys_exit",
        "tracepoint/syscalls/sys_enter_execve"],
      1 ≤ held (.tracepoint t) (step (after p as) (.run cb answers perf)).1.calls :=
  (c62_run_waits none p h as cb answers perf hw).2.1

/-- Once initialised, InitProbe returns nil and does nothing; otherwise it loads the module, once, and
returns nil exactly if that and all options succeed. -/
theorem c62_init (cfg : Option (List String)) (p : Probe) (h : newProbe true cfg = some p)
    (as : List Action) (load : Bool) (opts : List Bool) :
    (ready (history p as) false = true →
      step (after p as) (.initProbe load opts) = (after p as, .ok)) ∧
    (ready (history p as) false = false →
      (step (after p as) (.initProbe load opts)).1.calls = (after p as).calls ++ [.load load] ∧
      ((step (after p as) (.initProbe load opts)).2 = .ok ↔ load = true ∧ ∀ o ∈ opts, o = true)) := by
  obtain ⟨tpi, hp⟩ := ready_exec (s := init (some p)) (by rw [newProbe_made h]; rfl) as
  refine ⟨fun hr => ?_, fun hr => ?_⟩
  · rw [hr] at hp; simp only [step, initProbe_eq hp, if_true]
  · rw [hr] at hp
    simp only [step, initProbe_eq hp]
    simp only [Bool.false_eq_true, if_false]
    by_cases hb : (load && opts.all id) = true
    · rw [if_pos hb]
      rw [Bool.and_eq_true, List.all_eq_true] at hb
      refine ⟨by rw [hb.1], iff_of_true rfl ⟨hb.1, hb.2⟩⟩
    · rw [if_neg hb]
      rw [Bool.and_eq_true, List.all_eq_true] at hb
      refine ⟨rfl, iff_of_false (by simp) hb⟩

/-- Close closes the module, once, after any history; its answer is the module's, and the probe needs to
be initialised again. -/
theorem c62_close (cfg : Option (List String)) (p : Probe) (h : newProbe true cfg = some p)
    (as : List Action) (ok : Bool) :
    (step (after p as) (.close ok)).1.calls = (after p as).calls ++ [.close ok] ∧
    ((step (after p as) (.close ok)).2 = .ok ↔ ok = true) ∧
    ∀ cb answers perf, (step (step (after p as) (.close ok)).1 (.run cb answers perf)).2 = .err := by
  obtain ⟨ini, tpi, hp⟩ := (inv_exec (inv_init h) as).probe
  simp only [step, close_eq hp]
  refine ⟨trivial, by cases ok <;> simp, fun cb answers perf => ?_⟩
  rw [run_eq (tps := cfg.getD defaultTracepoints) (ini := false) (tpi := false) rfl]
  rfl

/-- Close on a nil probe returns nil and does nothing. -/
theorem c62_close_nil (ok : Bool) : step (init none) (.close ok) = (init none, .ok) := rfl

/-- A Run that is told to end stops its poller, after any history. -/
theorem c62_cancel (cfg : Option (List String)) (p : Probe) (h : newProbe true cfg = some p)
    (as : List Action) (i : Nat) (l : Loop) (hl : (after p as).loops[i]? = some l)
    (hlive : l.live = true) :
    held (.poller i) (after p as).calls = 1 ∧
    held (.poller i) (step (after p as) (.cancel i)).1.calls = 0 := by
  have := (inv_exec (inv_init h) as).live i l hl hlive
  refine ⟨this, ?_⟩
  simp [step, cancel, hl, hlive, held_append, this, held1]

/-- What should hold of every history: nothing is held more than once. -/
def HeldOnce (as : List Action) (p : Probe) : Prop := ∀ r, held r (after p as).calls ≤ 1

/-- What should hold of every history that ends with a successful Close after all Runs have ended:
nothing is held any more. -/
def Released (as : List Action) (p : Probe) : Prop :=
  (∀ l ∈ (after p as).loops, l.live = false) → ∀ r, held r (after p (as ++ [.close true])).calls = 0

/-- Proved for histories in which no initialisation step fails halfway and no callback fails. -/
theorem c62_held_partial (cfg : Option (List String)) (p : Probe) (h : newProbe true cfg = some p)
    (hd : (cfg.getD defaultTracepoints).Nodup) (as : List Action) (hc : ∀ a ∈ as, Clean a) :
    HeldOnce as p := by
  have hI := inv_exec (inv_init h) as
  have hH := holds_exec hd (inv_init h) (holds_init h) as hc
  obtain ⟨ini, tpi, hp, hpr, ht⟩ := hH.probe
  intro r
  cases r with
  | program => rw [hpr]; split <;> omega
  | tracepoint t => rw [ht]; split <;> omega
  | poller i =>
    cases hl : (after p as).loops[i]? with
    | none => rw [hI.future i (by simpa using hl)]; omega
    | some l =>
      cases hlive : l.live with
      | true => rw [hI.live i l hl hlive]; omega
      | false => rw [hH.dead i l hl hlive]; omega

theorem c62_released_partial (cfg : Option (List String)) (p : Probe)
    (h : newProbe true cfg = some p) (hd : (cfg.getD defaultTracepoints).Nodup) (as : List Action)
    (hc : ∀ a ∈ as, Clean a) : Released as p := by
  intro hdead r
  have hI := inv_exec (inv_init h) as
  have hH := holds_exec hd (inv_init h) (holds_init h) as hc
  obtain ⟨ini, tpi, hp, hpr, ht⟩ := hH.probe
  show held r (exec (init (some p)) (as ++ [.close true])).calls = 0
  rw [exec_append]
  simp only [exec, step]
  rw [close_eq hp, held_append]
  simp only [List.foldl_cons, List.foldl_nil, held1]
  cases r with
  | program => dsimp only; rw [hpr]; split <;> simp
  | tracepoint t => dsimp only; rw [ht]; split <;> simp
  | poller i =>
    dsimp only
    cases hl : (after p as).loops[i]? with
    | none => exact hI.future i (by simpa using hl)
    | some l => exact hH.dead i l hl (hdead l (List.mem_of_getElem? hl))

/-- With the default configuration the tracepoints are distinct; and there is a clean history that loads,
runs, receives, ends, closes, and starts again. -/
example : (Option.getD none defaultTracepoints).Nodup := by decide

abbrev cleanRun : List Action :=
  [.initProbe false [], .initProbe true [true, true], .run true (fun _ => true) false,
   .run true (fun _ => true) true, .receive 0 (.event [1, 2]) true, .receive 0 (.lost 3) true,
   .cancel 0, .close true, .initProbe true [], .run false (fun _ => true) true, .cancel 1]

example : (∀ a ∈ cleanRun, Clean a) ∧ (∀ l ∈ (after p0 cleanRun).loops, l.live = false) ∧
    held .program (after p0 cleanRun).calls = 1 := by
  refine ⟨?_, by decide, by decide⟩
  simp [Clean]

/-- The callback of a Run is called with each message that arrives until it ends, in order, once,
whatever else happens meanwhile. -/
theorem c62_messages (s : State) (as : List Action) (i : Nat) (l : Loop)
    (hl : s.loops[i]? = some l) (hc : l.cb = true) (hv : l.live = true) :
    ∃ l', (exec s as).loops[i]? = some l' ∧ l'.got = l.got ++ heard i as :=
  heard_exec s as i l hl hc hv

example : (after p0 cleanRun).loops[0]?.map (·.got) = some [.event [1, 2], .lost 3] := by decide

/-- The channel of a KernelReader carries exactly the events among those messages, in order. -/
theorem c62_reader (s : State) (as : List Action) (i : Nat) (l : Loop)
    (hl : s.loops[i]? = some l) (hc : l.cb = true) (hv : l.live = true) (h0 : l.got = []) :
    ∃ l', (exec s as).loops[i]? = some l' ∧ l'.got.flatMap forward = events (heard i as) := by
  obtain ⟨l', h1, h2⟩ := heard_exec s as i l hl hc hv
  exact ⟨l', h1, by rw [flatMap_forward, h2, h0]; rfl⟩

/-- If an option fails the module stays loaded; initialising again loads it a second time, and Close
releases one of the two. -/
theorem c62_option_violated : ∃ as, ¬ HeldOnce as p0 ∧ ¬ Released as p0 := by
  refine ⟨[.initProbe true [false], .initProbe true [true]], fun h => ?_, fun h => ?_⟩
  · exact absurd (h .program) (by decide)
  · exact absurd (h (by decide) .program) (by decide)

/-- If one tracepoint cannot be enabled the ones before it stay enabled, and the next Run enables them a
second time. -/
theorem c62_tracepoint_violated : ∃ as, ¬ HeldOnce as p0 ∧ ¬ Released as p0 := by
  refine ⟨[.initProbe true [], .run true (fun i => i == 0) true, .run true (fun _ => true) true,
    .cancel 0], fun h => ?_, fun h => ?_⟩
  · exact absurd (h (.tracepoint "tracepoint/raw_syscalls/sys_enter")) (by decide)
  · exact absurd (h (by decide) (.tracepoint "tracepoint/raw_syscalls/sys_enter")) (by decide)

/-- If a callback returns an error, Run returns it and leaves its poller running. -/
theorem c62_poller_violated : ∃ as, ¬ Released as p0 := by
  refine ⟨[.initProbe true [], .run true (fun _ => true) true, .receive 0 (.event []) false],
    fun h => ?_⟩
  exact absurd (h (by decide) (.poller 0)) (by decide)

/-- Close does not end a Run: its poller goes on, with the maps it polls closed. -/
theorem c62_close_running_violated : ∃ as, (step (after p0 as) (.close true)).2 = .ok ∧
    held (.poller 0) (step (after p0 as) (.close true)).1.calls = 1 ∧
    held .program (step (after p0 as) (.close true)).1.calls = 0 :=
  ⟨[.initProbe true [], .run true (fun _ => true) true], by decide⟩

/-- Close crashes on a Probe that NewProbe did not make. -/
theorem c62_zero_violated :
    (step (init (some { config := none, hasModule := false, initialized := false,
                        tpInitialized := false })) (.close true)).2 = .panic := rfl

end Swoll.Props.Lifecycle
