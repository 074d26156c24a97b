import Verif.Lemmas.ControllerRuns
/-
C47, C48, C49, C50: the trace controller, for every sequence of reconciles with every interference
by others, every fault of an API call, reads from a cache that may be behind, and every clock.
-/
namespace Swoll.Props.Controller
open Swoll.Controller Swoll.Spec.Controller Swoll.Lemmas.Controller

/-! ### Example histories -/

/-- A run with nothing going wrong, which reads the current version at time `now`. -/
def calm (now : Int) (suffix : String) : Sched :=
  { envGet := [], view := some 0, envDelete := [], fDelete := .ok, envUpdate₁ := [], fUpdate₁ := .ok
    envCreate := [], fCreate := .ok, suffix := suffix, envUpdate := [], fUpdate := .ok, now := now }

/-- A new trace for ten seconds. -/
def start : World := init (fresh (10 * second) ["sys_open"] false) []

/-- It is pending, running and complete after three runs. -/
def pendingW : World := run start [calm 0 "a"]
def runningW : World := run start [calm 0 "a", calm (5 * second) "b"]
def completeW : World := run start [calm 0 "a", calm (5 * second) "b", calm (15 * second) "c"]

/-- The user has deleted the running trace. -/
def deletedW : World := envs runningW [.delete]

theorem pending_reachable : Reachable pendingW := ⟨_, _, _, _, _, rfl⟩
theorem running_reachable : Reachable runningW := ⟨_, _, _, _, _, rfl⟩
theorem complete_reachable : Reachable completeW := ⟨_, _, _, _, _, rfl⟩

/-- Deletion is a step of the user in a run that reads nothing. -/
theorem deleted_reachable : Reachable deletedW :=
  ⟨10 * second, ["sys_open"], false, [], [calm 0 "a", calm (5 * second) "b",
    { calm 0 "x" with envGet := [.delete], view := none }], by decide +kernel⟩

/-! ### C47 -/

/-- C47: from one version of a trace to the next the state stays or goes one step forward, through
Unknown, Pending, Running, Complete, in every history. -/
theorem c47_forward {w : World} (h : Reachable w) :
    History (fun older newer => Forward older.state newer.state) w.seen :=
  history_mono (fun _ _ h => h.2) (reachable_inv h).hist

example : completeW.seen.map (·.state) = [.complete, .running, .pending, .unknown] := by
  decide +kernel

/-- C47: a complete trace stays complete, whatever happens. -/
theorem c47_complete_stays {w : World} (h : Reachable w) {v : Trace} (hv : v ∈ w.seen)
    (hc : v.state = .complete) (ss : List Sched) {t : Trace} (ht : (run w ss).trace = some t) :
    t.state = .complete := by
  have hi := run_inv (reachable_inv h) ss
  have hr := hi.rank_le ht (run_seen (reachable_inv h) ss v hv)
  rw [hc] at hr
  rcases hi.good t (hi.mem ht) with h | h | h | h
  · rw [h.1] at hr; exact absurd hr (by decide)
  · rw [h.1] at hr; exact absurd hr (by decide)
  · rw [h.1] at hr; exact absurd hr (by decide)
  · exact h.1

example : ∃ v ∈ completeW.seen, v.state = .complete := by decide +kernel

/-- C47: no reconcile crashes: a running trace always has a start time. -/
theorem c47_no_crash {w : World} (h : Reachable w) (s : Sched) : (reconcile w s).2 ≠ .panic := by
  have hi := reachable_inv h
  rcases reconcile_eq w s with ⟨k, t, w', t', -, hk, hd, he⟩ | ⟨-, h, -⟩
  · rw [he]
    have h0 := envs_steps (B := False) s.name w s.envGet
    have hi0 := h0.inv hi
    have ht : t ∈ (envs w s.envGet).seen := List.mem_of_getElem? hk
    have hst := onDelete_steps (B := False) (s := s) hi0 ht
    have hgo := onDelete_go (w := envs w s.envGet) (s := s) (t := t) (t' := t') (by rw [hd])
    rw [hd] at hst hgo
    have hm : t' ∈ w'.seen := by
      rcases hgo with ⟨-, rfl, -⟩ | ⟨-, h2, -⟩
      · exact steps_seen hst _ ht
      · exact h2
    have hg := (hst.inv hi0).good t' hm
    unfold onState
    dsimp only
    split
    · split <;> simp
    · split
      · simp
      · split <;> simp
    · next hs =>
      split
      · split
        · next hn =>
          rcases hg with h | h | h | h
          · rw [h.1] at hs; exact nomatch hs
          · rw [h.1] at hs; exact nomatch hs
          · rw [hn] at h; exact nomatch h.2.2
          · rw [h.1] at hs; exact nomatch hs
        · split
          · simp
          · split <;> simp
      · simp
    · simp
  · exact h

example : Reachable runningW ∧ (reconcile runningW (calm 0 "c")).2 = .requeue (5 * second) :=
  ⟨running_reachable, by decide +kernel⟩

/-- C47: a run that reads a complete trace which is not being deleted changes nothing. -/
theorem c47_complete_untouched {w : World} {s : Sched} {k : Nat} {t : Trace}
    (hv : s.view = some k) (hk : (envs w s.envGet).seen[k]? = some t) (hd : t.deleting = false)
    (hc : t.state = .complete) : reconcile w s = (envs w s.envGet, .done) := by
  rw [reconcile_live hv hk hd]
  unfold onState
  simp only [hc]

example : (envs completeW (calm 0 "d").envGet).seen[0]?.map (fun t => (t.deleting, t.state)) =
    some (false, .complete) := by decide +kernel

/-- C47, but the job of a complete trace may be started again: a run that reads an old version from
the cache creates another job, and only then is told that the version is old. -/
theorem c47_restart_violated : ∃ w s, Reachable w ∧ (∃ t, w.trace = some t ∧ t.state = .complete) ∧
    creates w s = true :=
  ⟨completeW, { calm (20 * second) "d" with view := some 2 }, complete_reachable,
    ⟨_, rfl, by decide +kernel⟩, by decide +kernel⟩

/-! ### C48 -/

/-- C48, as far as it holds: at most one reconcile of a trace creates a job and reports no error.
Missing: a reconcile can create a job and fail (below). -/
theorem c48_one_good_create_partial (d : Int) (sc : List String) (o : Bool) (jobs : List String)
    (ss : List Sched) : goodCreates (init (fresh d sc o) jobs) ss ≤ 1 :=
  (goodCreates_le (init_inv d sc o jobs) ss).1

/-- C48: every job is created by one reconcile, so the jobs beyond the first are those of reconciles
that reported an error. -/
theorem c48_created_partial (d : Int) (sc : List String) (o : Bool) (jobs : List String)
    (ss : List Sched) : (run (init (fresh d sc o) jobs) ss).created.length ≤
      1 + badCreates (init (fresh d sc o) jobs) ss := by
  have h := created_eq (init (fresh d sc o) jobs) ss
  have h1 := c48_one_good_create_partial d sc o jobs ss
  have h0 : (init (fresh d sc o) jobs).created.length = 0 := rfl
  omega

example : goodCreates start [calm 0 "a", calm 1 "b", calm 2 "c"] = 1 ∧
    (run start [calm 0 "a", calm 1 "b", calm 2 "c"]).created = ["sw-b"] := by decide +kernel

/-- Nothing goes wrong in a run: it reads the current version, no call fails and no one does
anything while it runs; before it others may edit the object but not delete it. -/
def Quiet (s : Sched) : Prop :=
  s.view = some 0 ∧ (∀ e ∈ s.envGet, e ≠ .delete) ∧ s.envCreate = [] ∧ s.fCreate = .ok ∧
    s.envUpdate = [] ∧ s.fUpdate = .ok

/-- C48: a trace gets at most one job if nothing goes wrong. -/
theorem c48_quiet_partial (d : Int) (sc : List String) (o : Bool) (jobs : List String)
    (ss : List Sched) (hq : ∀ s ∈ ss, Quiet s) :
    (run (init (fresh d sc o) jobs) ss).created.length ≤ 1 := by
  have key : ∀ (ss : List Sched) (w : World), Inv w →
      (∃ t, w.trace = some t ∧ t.deleting = false) → (∀ s ∈ ss, Quiet s) → badCreates w ss = 0 := by
    intro ss
    induction ss with
    | nil => exact fun _ _ _ _ => rfl
    | cons s ss ih =>
      intro w hi hl hq
      obtain ⟨h1, h2⟩ := quiet_step hi hl (hq s (List.mem_cons_self ..)).1
        (hq s (List.mem_cons_self ..)).2.1 (hq s (List.mem_cons_self ..)).2.2.1
        (hq s (List.mem_cons_self ..)).2.2.2.1 (hq s (List.mem_cons_self ..)).2.2.2.2.1
        (hq s (List.mem_cons_self ..)).2.2.2.2.2
      have h3 := ih _ (reconcile_inv hi s) h2 (fun s' hs' => hq s' (List.mem_cons_of_mem _ hs'))
      unfold badCreates
      rw [h3, if_neg]
      simp only [Bool.and_eq_true, beq_iff_eq, not_and]
      exact h1
  have h := c48_created_partial d sc o jobs ss
  rw [key ss _ (init_inv d sc o jobs) ⟨_, rfl, rfl⟩ hq] at h
  exact h

example : ∀ s ∈ [calm 0 "a", { calm 1 "b" with envGet := [.edit 7 []] }], Quiet s := by
  unfold Quiet; decide

/-- C48, but a trace gets two jobs if the user edits it between the creation of the job and the
update: the update is refused, and the next reconcile creates another. -/
theorem c48_conflict_violated : ∃ ss, 2 ≤ (run start ss).jobs.length ∧
    (run start ss).created.length = 2 :=
  ⟨[calm 0 "a", { calm 1 "b" with envUpdate := [.edit 7 []] }, calm 2 "c"], by decide +kernel⟩

/-- C48: the same if the update fails, if the process ends between the two calls, or if the reply to
the creation is lost. -/
theorem c48_fault_violated :
    (run start [calm 0 "a", { calm 1 "b" with fUpdate := .lost }, calm 2 "c"]).jobs.length = 2 ∧
    (run start [calm 0 "a", { calm 1 "b" with fCreate := .late }, calm 2 "c"]).jobs.length = 2 := by
  decide +kernel

/-- C48: and if the second reconcile reads a version from before the update. -/
theorem c48_stale_violated :
    (run start [calm 0 "a", calm 1 "b", { calm 2 "c" with view := some 1 }]).jobs.length = 2 := by
  decide +kernel

/-- C48: there is no bound: a deleted trace held by the finalizer of someone else gets a job each
time it is reconciled, without any fault. -/
theorem c48_unbounded_violated :
    (run (init (fresh 0 [] true) []) [calm 0 "a", { calm 1 "b" with envGet := [.delete] },
      calm 2 "c", calm 3 "d"]).jobs = ["sw-d", "sw-c", "sw-b"] := by decide +kernel

/-! ### C49 -/

/-- C49, as far as it holds: the finalizer is not released before the job is deleted. If no
generated name is used twice, no version without the finalizer has a job that exists, in every
history. Missing: jobs the status does not name (C48). -/
theorem c49_release_partial (d : Int) (sc : List String) (o : Bool) (jobs : List String)
    (ss : List Sched) (hnd : (ss.map Sched.name).Nodup) :
    ∀ t ∈ (run (init (fresh d sc o) jobs) ss).seen, t.finalizer = false → t.jobID ≠ "" →
      t.jobID ∉ (run (init (fresh d sc o) jobs) ss).jobs := by
  refine (run_clean (init_inv d sc o jobs) ⟨?_, ?_⟩ ss (fun _ _ h => nomatch h) hnd).gone
  · intro t ht _ hj
    rcases List.mem_singleton.1 ht with rfl
    exact absurd rfl hj
  · intro t ht hj
    rcases List.mem_singleton.1 ht with rfl
    exact absurd rfl hj

example : (run start [calm 0 "a", calm 1 "b", { calm 2 "c" with envGet := [.delete] }]).seen.head?.map
    (fun t => (t.finalizer, t.jobID)) = some (false, "sw-b") ∧
    (["a", "b", "c"].map (fun n => (calm 0 n).name)).Nodup := by decide +kernel

/-- C49: a reconcile that reads a deleted trace with a job creates nothing. -/
theorem c49_no_new_job_partial {w : World} {s : Sched} {k : Nat} {t : Trace}
    (hv : s.view = some k) (hk : (envs w s.envGet).seen[k]? = some t) (hd : t.deleting = true)
    (hj : t.jobID ≠ "") : (reconcile w s).1.created = w.created := by
  rcases reconcile_eq w s with ⟨k', t₀, w', t', hv', hk', h, he⟩ | ⟨h, -⟩
  · rw [hv] at hv'
    injection hv' with hv'
    subst hv'
    rw [hk] at hk'
    injection hk' with hk'
    subst hk'
    have hgo := onDelete_go (w := envs w s.envGet) (s := s) (t := t) (t' := t') (by rw [h])
    rcases hgo with ⟨hd', -⟩ | ⟨-, -, -, -, h2, -⟩
    · rw [hd] at hd'; exact nomatch hd'
    · rw [he, onState_created (by rw [(h2 hj).1]; simp)]
      have h1 := (onDelete_created (envs w s.envGet) s t).1
      rw [h] at h1
      exact h1.trans (envs_created w s.envGet).1
  · exact h

example : (envs deletedW []).seen[0]?.map (fun t => (t.deleting, t.jobID)) = some (true, "sw-b") := by
  decide +kernel

/-- C49: when a deleted trace whose job exists is reconciled and nothing goes wrong, its job is
deleted and its finalizer released; without other finalizers it is gone. -/
theorem c49_deletes {w : World} {s : Sched} {t : Trace} (ht : w.trace = some t)
    (hh : w.seen.head? = some t) (hd : t.deleting = true) (hj : t.jobID ≠ "")
    (hjob : t.jobID ∈ w.jobs) (ho : t.others = false)
    (hs : s.view = some 0 ∧ s.envGet = [] ∧ s.envDelete = [] ∧ s.fDelete = .ok ∧
      s.envUpdate₁ = [] ∧ s.fUpdate₁ = .ok) :
    (reconcile w s).1.trace = none ∧ t.jobID ∉ (reconcile w s).1.jobs ∧
      (reconcile w s).1.deleted = t.jobID :: w.deleted ∧ (reconcile w s).2 = .done := by
  obtain ⟨h1, h2, h3, h4, h5, h6⟩ := hs
  have hk : w.seen[0]? = some t := by rw [← List.head?_eq_getElem?]; exact hh
  have hod : onDelete w s t = (store
      { w with jobs := w.jobs.filter (· != t.jobID), deleted := t.jobID :: w.deleted }
      { t with rv := t.rv + 1, finalizer := false, state := .complete, start := t.start.map wire,
               completion := some (wire s.now) },
      .inr { t with rv := t.rv + 1, finalizer := false, state := .complete,
                    start := t.start.map wire, completion := some (wire s.now) }) := by
    unfold onDelete
    rw [if_pos hd, if_pos hj, h3, h4, h5, h6]
    simp only [envs, List.foldl_nil, deleteJob, update, ht]
    simp [hjob]
  unfold reconcile
  rw [h1, h2]
  simp only [envs, List.foldl_nil]
  rw [hk]
  dsimp only
  rw [hod]
  dsimp only
  unfold onState
  dsimp only
  refine ⟨?_, ?_, ?_, rfl⟩
  · unfold store; simp [hd, ho]
  · rw [(store_created _ _).2.1]; simp
  · rw [(store_created _ _).2.2]

example : ∃ t, deletedW.trace = some t ∧ deletedW.seen.head? = some t ∧ t.deleting = true ∧
    t.jobID ≠ "" ∧ t.jobID ∈ deletedW.jobs ∧ t.others = false :=
  ⟨_, rfl, rfl, by decide +kernel⟩

/-- C49: a deleted trace that has no job is gone as well once it is reconciled and nothing goes
wrong. -/
theorem c49_jobless_gone {w : World} {s : Sched} {t : Trace} (ht : w.trace = some t)
    (hh : w.seen.head? = some t) (hd : t.deleting = true) (hj : t.jobID = "")
    (ho : t.others = false)
    (hs : s.view = some 0 ∧ s.envGet = [] ∧ s.envUpdate₁ = [] ∧ s.fUpdate₁ = .ok) :
    (reconcile w s).1.trace = none := by
  obtain ⟨h1, h2, h5, h6⟩ := hs
  have hk : w.seen[0]? = some t := by rw [← List.head?_eq_getElem?]; exact hh
  have hod : onDelete w s t = (store w
      { t with rv := t.rv + 1, finalizer := false, start := t.start.map wire,
               completion := t.completion.map wire },
      .inr { t with rv := t.rv + 1, finalizer := false, start := t.start.map wire,
                    completion := t.completion.map wire }) := by
    unfold onDelete
    rw [if_pos hd, if_neg (not_not_intro hj), h5, h6]
    simp only [envs, List.foldl_nil, update, ht]
    simp
  unfold reconcile
  rw [h1, h2]
  simp only [envs, List.foldl_nil]
  rw [hk]
  dsimp only
  rw [hod]
  dsimp only
  refine onState_gone _ _ ?_
  unfold store; simp [hd, ho]

example : ∃ t, (envs pendingW [.delete]).trace = some t ∧ t.deleting = true ∧ t.jobID = "" ∧
    t.others = false := ⟨_, rfl, by decide +kernel⟩

/-- C49, but a pending trace that is deleted gets a new job, which is left behind: the branch for
deleted traces goes on into the switch over the state. No fault and no interference is needed. -/
theorem c49_pending_violated :
    let w := (reconcile (envs pendingW [.delete]) (calm 1 "b")).1
    w.trace = none ∧ w.jobs = ["sw-b"] := by decide +kernel

/-- C49, but a deleted trace whose job is gone is never released: the deletion of the job fails, and
the reconcile ends without an error and without releasing the finalizer. This goes for every
sequence of further reconciles, whatever else happens, unless a job of the same name appears. -/
theorem c49_stuck_violated {w : World} (h : Reachable w) {t : Trace} (ht : w.trace = some t)
    (hd : t.deleting = true) (hf : t.finalizer = true) (hj : t.jobID ≠ "") (hgone : t.jobID ∉ w.jobs)
    (ss : List Sched) (hn : ∀ s ∈ ss, s.name ≠ t.jobID) :
    ∃ t', (run w ss).trace = some t' ∧ t'.deleting = true ∧ t'.finalizer = true := by
  have hi := reachable_inv h
  have hr : 2 ≤ rank t.state := by
    rcases hi.good t (hi.mem ht) with h | h | h | h
    · exact absurd h.2 hj
    · exact absurd h.2 hj
    · rw [h.1]; decide
    · rw [h.1]; decide
  obtain ⟨t', h1, h2, h3, -⟩ := run_stuck hi ⟨t, ht, hd, hf, rfl, hj, hgone, hr⟩ ss hn
  exact ⟨t', h1, h2, h3⟩

/-- It comes about if the update fails after the job has been deleted. -/
theorem c49_stuck_reachable : ∃ w t, Reachable w ∧ w.trace = some t ∧ t.deleting = true ∧
    t.finalizer = true ∧ t.jobID ≠ "" ∧ t.jobID ∉ w.jobs :=
  ⟨run start [calm 0 "a", calm 1 "b", { calm 2 "c" with envGet := [.delete], fUpdate₁ := .lost }], _,
    ⟨_, _, _, _, _, rfl⟩, rfl, by decide +kernel⟩

/-! ### C50 -/

/-- C50: a running trace is not touched before its duration has passed, and looked at again after
five seconds. -/
theorem c50_waits {w : World} {s : Sched} {k : Nat} {t : Trace} {st : Int}
    (hv : s.view = some k) (hk : (envs w s.envGet).seen[k]? = some t) (hd : t.deleting = false)
    (hr : t.state = .running) (hst : t.start = some st) (hdur : 0 < t.duration)
    (hnow : s.now < st + t.duration) :
    reconcile w s = (envs w s.envGet, .requeue (5 * second)) := by
  rw [reconcile_live hv hk hd]
  simp only [onState, hr, hst, if_pos hdur, if_pos hnow, gt_iff_lt]

/-- C50: a running trace without a duration is left alone: it runs until it is deleted. -/
theorem c50_unlimited {w : World} {s : Sched} {k : Nat} {t : Trace}
    (hv : s.view = some k) (hk : (envs w s.envGet).seen[k]? = some t) (hd : t.deleting = false)
    (hr : t.state = .running) (hdur : t.duration ≤ 0) :
    reconcile w s = (envs w s.envGet, .done) := by
  rw [reconcile_live hv hk hd]
  simp only [onState, hr, gt_iff_lt, if_neg (Int.not_lt.2 hdur)]

/-- C50: once the time has come, a reconcile that nothing disturbs completes the trace. -/
theorem c50_completes {w : World} {s : Sched} {t : Trace} {st : Int} (ht : w.trace = some t)
    (hh : w.seen.head? = some t) (hd : t.deleting = false) (hr : t.state = .running)
    (hst : t.start = some st) (hdur : 0 < t.duration) (hnow : st + t.duration ≤ s.now)
    (hs : s.view = some 0 ∧ s.envGet = [] ∧ s.envUpdate = [] ∧ s.fUpdate = .ok) :
    ∃ t', (reconcile w s).1.trace = some t' ∧ t'.state = .complete ∧
      t'.completion = some (wire s.now) ∧ t'.jobID = t.jobID ∧ (reconcile w s).2 = .done := by
  obtain ⟨h1, h2, h3, h4⟩ := hs
  have hk : w.seen[0]? = some t := by rw [← List.head?_eq_getElem?]; exact hh
  have hod : onDelete w s t = (w, .inr t) := by unfold onDelete; rw [hd]; rfl
  unfold reconcile
  rw [h1, h2]
  simp only [envs, List.foldl_nil]
  rw [hk]
  dsimp only
  rw [hod]
  dsimp only
  unfold onState
  simp only [hr, hst, gt_iff_lt, if_pos hdur, if_neg (Int.not_lt.2 hnow), h3, h4, envs,
    List.foldl_nil, update, ht]
  simp [hd, store]

example : ∃ t st, runningW.trace = some t ∧ runningW.seen.head? = some t ∧ t.deleting = false ∧
    t.state = .running ∧ t.start = some st ∧ 0 < t.duration ∧ st + t.duration ≤ 15 * second ∧
    5 * second < st + t.duration :=
  ⟨_, 5 * second, rfl, rfl, by decide +kernel⟩

/-- C50: every reconcile of a running trace with a duration that is not being deleted completes it
or asks to be run again. -/
theorem c50_looked_at_again {w : World} (h : Reachable w) {s : Sched} {k : Nat} {t : Trace}
    (hv : s.view = some k) (hk : (envs w s.envGet).seen[k]? = some t) (hd : t.deleting = false)
    (hr : t.state = .running) (hdur : 0 < t.duration) :
    (reconcile w s).2 = .requeue (5 * second) ∨ (reconcile w s).2 = .err ∨
      ∃ t', (reconcile w s).1.trace = some t' ∧ t'.state = .complete := by
  have hi := reachable_inv h
  have hg := ((envs_steps (B := False) s.name w s.envGet).inv hi).good t (List.mem_of_getElem? hk)
  have hst : ∃ st, t.start = some st := by
    rcases hg with h | h | h | h
    · rw [h.1] at hr; exact nomatch hr
    · rw [h.1] at hr; exact nomatch hr
    · exact Option.isSome_iff_exists.1 h.2.2
    · rw [h.1] at hr; exact nomatch hr
  obtain ⟨st, hst⟩ := hst
  by_cases hnow : s.now < st + t.duration
  · exact .inl (by rw [c50_waits hv hk hd hr hst hdur hnow])
  · refine .inr ?_
    have he : reconcile w s = onState (envs w s.envGet) s t := reconcile_live hv hk hd
    rw [he]
    unfold onState
    simp only [hr, hst, gt_iff_lt, if_pos hdur, if_neg hnow]
    rcases update_cases (w := envs (envs w s.envGet) s.envUpdate) (f := s.fUpdate)
      (t := { t with finalizer := true, state := .complete, completion := some s.now }) with
      hu | ⟨cur, t', g1, g2, g3, g4, g5, g6⟩
    · simp only [hst] at hu
      rw [hu]; exact .inl rfl
    · simp only [hst] at g5 g6 ⊢
      generalize update _ _ _ = r at g5 g6 ⊢
      obtain ⟨w', o⟩ := r
      rcases g6 with g6 | g6 <;> dsimp only at g5 g6 <;> subst g6
      · exact .inl rfl
      · refine .inr ⟨t', ?_, by rw [g4]⟩
        dsimp only
        rw [g5, g4]
        simp [store, hd]

/-- A rounded time is less than a second early. -/
theorem c50_rounding (t : Int) : wire t ≤ t ∧ t < wire t + 1000000000 ∧ wire t % 1000000000 = 0 := by
  unfold wire second
  omega

/-- C50: when a reconcile asks to be run again, and when, in nanoseconds: five seconds later before the job
exists and while the time is not up, and five seconds before the duration is over once the job is made. -/
theorem c50_next_look {w : World} {s : Sched} {k : Nat} {t : Trace} {d : Int}
    (hv : s.view = some k) (hk : (envs w s.envGet).seen[k]? = some t) (hd : t.deleting = false)
    (hq : (reconcile w s).2 = .requeue d) :
    (t.state = .unknown ∧ d = 5000000000) ∨ (t.state = .pending ∧ d = t.duration - 5000000000) ∨
    (t.state = .running ∧ d = 5000000000 ∧ ∃ st, t.start = some st ∧ s.now < st + t.duration) := by
  rw [reconcile_live hv hk hd] at hq
  unfold onState at hq
  simp only at hq
  split at hq
  · next hs =>
    split at hq
    · cases hq
    · cases hq; exact .inl ⟨hs, rfl⟩
  · next hs =>
    split at hq
    · cases hq
    · split at hq
      · cases hq
      · cases hq
        refine .inr (.inl ⟨hs, ?_⟩)
        unfold withSyscalls second
        split <;> simp
  · next hs =>
    split at hq
    · split at hq
      · cases hq
      · next st hst =>
        split at hq
        · next hn => cases hq; exact .inr (.inr ⟨hs, rfl, st, hst, hn⟩)
        · split at hq <;> cases hq
    · cases hq
  · cases hq

/-- The controller is run again when it asked to be, or `lag` later. -/
def lookAt (now d : Int) (lag : Nat) : Int := now + max d 0 + lag

/-- C50: a trace with a duration whose job is made at `n` is completed by one of the next two looks, each of
which is late by some time, if nothing goes wrong: at the latest when the duration, or five seconds if that is
more, and the two delays have passed since `n`. -/
theorem c50_on_time {w : World} {t : Trace} (ht : w.trace = some t) (hh : w.seen.head? = some t)
    (hd : t.deleting = false) (hp : t.state = .pending) (hdur : 0 < t.duration) (n : Int) (l₁ l₂ : Nat)
    (a b c : String) (ha : "sw-" ++ a ∉ w.jobs) :
    ∃ d₁, (reconcile w (calm n a)).2 = .requeue d₁ ∧
      lookAt n d₁ l₁ ≤ n + max t.duration 5000000000 + l₁ ∧
      let w₁ := (reconcile w (calm n a)).1
      let n₁ := lookAt n d₁ l₁
      ((∃ t', (reconcile w₁ (calm n₁ b)).1.trace = some t' ∧ t'.state = .complete) ∨
       ∃ d₂, (reconcile w₁ (calm n₁ b)).2 = .requeue d₂ ∧
        lookAt n₁ d₂ l₂ ≤ n + max t.duration 5000000000 + l₁ + l₂ ∧
        ∃ t', (reconcile (reconcile w₁ (calm n₁ b)).1 (calm (lookAt n₁ d₂ l₂) c)).1.trace = some t' ∧
          t'.state = .complete) := by
  obtain ⟨w₁, u, hw1, hu, hhu, hu1, hu2, hu3, hu4⟩ : ∃ w₁ u, reconcile w (calm n a) =
      (w₁, .requeue (t.duration - 5 * second)) ∧ w₁.trace = some u ∧ w₁.seen.head? = some u ∧
      u.deleting = false ∧ u.state = .running ∧ u.start = some (wire n) ∧ u.duration = t.duration := by
    have hk : (envs w (calm n a).envGet).seen[0]? = some t := by
      simp only [calm, envs, List.foldl_nil]; rw [← List.head?_eq_getElem?]; exact hh
    rw [reconcile_live (s := calm n a) rfl hk hd]
    unfold onState
    have hws : (withSyscalls { t with finalizer := true }).deleting = false ∧
        (withSyscalls { t with finalizer := true }).rv = t.rv ∧
        (withSyscalls { t with finalizer := true }).duration = t.duration := by
      unfold withSyscalls; split <;> simp [hd]
    simp only [hp, calm, Sched.name, envs, List.foldl_nil, create, ha, or_false, reduceCtorEq, if_false,
      decide_true]
    simp only [hd, hp] at hws
    simp only [update, ht, asRunning, hws, hd, Bool.false_and, Bool.false_eq_true, if_false, ne_eq,
      not_true_eq_false, reduceCtorEq, store]
    exact ⟨_, _, rfl, rfl, rfl, rfl, rfl, rfl, rfl⟩
  have hr := c50_rounding n
  refine ⟨_, by rw [hw1], by unfold lookAt second; omega, ?_⟩
  rw [hw1]
  simp only
  generalize hn : lookAt n (t.duration - 5 * second) l₁ = n₁
  have hn1 : n + (t.duration - 5 * second) + l₁ ≤ n₁ ∧ n + l₁ ≤ n₁ ∧
      n₁ ≤ n + max (t.duration - 5 * second) 0 + l₁ := by
    rw [← hn]; unfold lookAt; omega
  by_cases hdue : wire n + t.duration ≤ n₁
  · obtain ⟨t', h1, h2, _⟩ := c50_completes (s := calm n₁ b) hu hhu hu1 hu2 hu3 (by omega) (by rw [hu4]; exact hdue)
      ⟨rfl, rfl, rfl, rfl⟩
    exact .inl ⟨t', h1, h2⟩
  · have hk : (envs w₁ (calm n₁ b).envGet).seen[0]? = some u := by
      simp only [calm, envs, List.foldl_nil]; rw [← List.head?_eq_getElem?]; exact hhu
    have hw := c50_waits (s := calm n₁ b) rfl hk hu1 hu2 hu3 (by omega) (by
      rw [hu4]; show n₁ < _; omega)
    refine .inr ⟨_, by rw [hw], ?_, ?_⟩
    · unfold lookAt second at *; omega
    · rw [hw]
      simp only [calm, envs, List.foldl_nil]
      obtain ⟨t', h1, h2, _⟩ := c50_completes (s := calm (lookAt n₁ (5 * second) l₂) c) hu hhu hu1 hu2 hu3
        (by omega) (by rw [hu4]; show _ ≤ lookAt n₁ (5 * second) l₂; unfold lookAt second at *; omega)
        ⟨rfl, rfl, rfl, rfl⟩
      exact ⟨t', h1, h2⟩

example : ∃ t, pendingW.trace = some t ∧ pendingW.seen.head? = some t ∧ t.deleting = false ∧
    t.state = .pending ∧ 0 < t.duration ∧ "sw-" ++ "x" ∉ pendingW.jobs := ⟨_, rfl, rfl, by decide +kernel⟩

/-- C50: a trace that is not being deleted completes only with a duration, and not before that has
passed since the start time in its status, in every history. (The completion time in the status is
rounded down to a second.) -/
theorem c50_never_early {w : World} (h : Reachable w) :
    History (fun older newer => older.state = .running → newer.state = .complete →
      older.deleting = false → ∃ st now, older.start = some st ∧ 0 < older.duration ∧
        st + older.duration ≤ now ∧ newer.completion = some (wire now)) w.seen :=
  history_mono (fun _ _ h => h.1) (reachable_timed h).hist

/-- C50: the start time in the status is the time of the start, rounded down to a second, and stays
as long as the trace runs. -/
theorem c50_start_time {w : World} (h : Reachable w) :
    History (fun older newer =>
      (older.state = .pending → newer.state = .running → ∃ now, newer.start = some (wire now)) ∧
      (older.state = .running → newer.start = older.start)) w.seen :=
  history_mono (fun _ _ h => h.2) (reachable_timed h).hist

example : completeW.seen.map (fun t => (t.state, t.start, t.completion)) =
    [(.complete, some (5 * second), some (15 * second)), (.running, some (5 * second), none),
     (.pending, none, none), (.unknown, none, none)] := by decide +kernel

/-- C50, but because of that a trace may be completed almost a second too early: a trace for one
second, started at 0.9 s, is completed at 1.0 s. -/
theorem c50_early_violated :
    let w := run (init (fresh second [] false) [])
      [calm 0 "a", calm 900000000 "b", calm second "c"]
    (∃ t, w.trace = some t ∧ t.state = .complete) ∧ second < 900000000 + second :=
  ⟨⟨_, rfl, by decide +kernel⟩, by decide⟩

/-- C50: completing a trace does not end its job: no reconcile that reads a version not being
deleted takes a job away, so the job of a complete trace may go on. -/
theorem c50_job_goes_on {w : World} {s : Sched} {k : Nat} {t : Trace}
    (hv : s.view = some k) (hk : (envs w s.envGet).seen[k]? = some t) (hd : t.deleting = false) :
    (reconcile w s).1.deleted = w.deleted := by
  have h0 := envs_created w s.envGet
  have he : reconcile w s = onState (envs w s.envGet) s t := reconcile_live hv hk hd
  rw [he, onState_deleted, h0.2.1]

example : (completeW.trace.map (fun t => (t.state, t.jobID))) = some (.complete, "sw-b") ∧
    completeW.jobs = ["sw-b"] := by decide +kernel

end Swoll.Props.Controller
