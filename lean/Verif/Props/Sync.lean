import Verif.Lemmas.SyncServer
/-
C79: goroutines do not touch a table at the same time.  C80: none waits for ever.
C81: a client that does not read holds up nobody else.
-/
namespace Swoll.Props.Sync
open Swoll.Sync Swoll.Spec.Sync Swoll.Lemmas.Sync

/-! ### C79 -/

/-- However many requests, watchers and jobs without sample rate a server has, and however their
goroutines are scheduled: two of them never touch the registered jobs, the subscriptions, a container
cache or the server's lists of jobs at a time when one of them writes.  (Missing: jobs with a sample
rate and the tables without a lock, see the `_violated` theorems.) -/
theorem c79_no_race_partial {gs : List Prog} (hg : ∀ p ∈ gs, Server p) {c : Cfg} (h : Reach gs c) {v : Var} (hv : Locked v) :
    ¬ Racy c v := by
  obtain ⟨held, hi⟩ := reach_inv (fun p hp => typed_server fits_guard (hg p hp)) h
  cases v <;> first | exact no_race hi rfl | cases hv

/-- With any jobs, the same but for the registered jobs. -/
theorem c79_sampled_no_race_partial {gs : List Prog} (hg : ∀ p ∈ gs, AnyServer p) {c : Cfg} (h : Reach gs c) {v : Var} (hv : Locked v)
    (hj : v ≠ .jobs) : ¬ Racy c v := by
  obtain ⟨held, hi⟩ := reach_inv (fun p hp => typed_anyServer (hg p hp)) h
  cases v <;> first | exact absurd rfl hj | exact no_race hi rfl | cases hv

/-- Goroutines that raise alerts do not touch the queue at a time. -/
theorem c79_alerts_no_race_partial {gs : List Prog} (hg : ∀ p ∈ gs, p = pushAlert .skip) {c : Cfg} (h : Reach gs c) :
    ¬ Racy c .queue := by
  obtain ⟨held, hi⟩ := reach_inv (fun p hp => by rw [hg p hp]; exact typed_pushAlert fits_guard) h
  exact no_race hi rfl

/-- A job without containers is told of one that it traces one call in. -/
theorem run_job (j : Nat) (sampled : Bool) : ∃ t, Runs (jobRun j sampled) t ∧
    t = [.write (.status j), .lock (.topo (j + 1)), .write (.cache (j + 1)), .unlock (.topo (j + 1)), .read (.hosts j),
      .write (.hosts j), .lock .hub, .read .jobs, .write .jobs, .unlock .hub] ++ (if sampled then [.read .jobs] else []) ++
      [.lock (.topo (j + 1)), .unlock (.topo (j + 1))] := by
  have hx : Runs (if sampled then .act (.read .jobs) else .skip) (if sampled then [.read .jobs] else []) := by
    cases sampled
    · exact .skip
    · exact .act _
  refine ⟨_, .seq (.act _) (runs_once (runs_locking (.left (.seq (.act _) (.seq (.act _) (.seq (.right (.left (.seq (.act _)
    (.seq (.left (.act _)) (runs_once (.seq (runs_locking (.seq (.act _) (.act _))) hx)))))) (.act _))))))), ?_⟩
  cases sampled <;> rfl

/-- Non-trivial case: a job is about to be registered while a list is being made, and two goroutines
are about to lock and to read. -/
example : ∃ c, Reach [jobRun 0 false, getJobs 9] c ∧ c.todo.map List.head? = [some (.read .jobs), some (.read (.hosts 0))] := by
  obtain ⟨t, ht, rfl⟩ := run_job 0 false
  refine ⟨_, ⟨_, _, .cons ht (.cons (runs_reading (runs_reading (.seq (.act _) (.seq (runs_once (.any 0 (.seq (.act _) (.act _))))
    (.seq (.act _) (.seq .stop (.act _))))))) .nil), stepsF_sound (is := [0, 0, 0, 0, 0, 0, 0, 1, 1, 1, 0, 0]) rfl⟩, rfl⟩

/-- VIOLATED for the containers of a job: listing the jobs reads them while the job notes a container.
(In Go this ends the process: "concurrent map iteration and map write".) -/
theorem c79_hosts_violated : ∃ c, Reach [jobRun 0 false, getJobs 9] c ∧ Racy c (.hosts 0) := by
  obtain ⟨t, ht, rfl⟩ := run_job 0 false
  refine ⟨_, ⟨_, _, .cons ht (.cons (runs_reading (runs_reading (.seq (.act _) (.seq (runs_once (.any 0 (.seq (.act _) (.act _))))
    (.seq (.act _) (.seq .stop (.act _))))))) .nil), stepsF_sound (is := [0, 0, 0, 0, 0, 0, 1, 1, 1]) rfl⟩, ?_⟩
  exact ⟨0, 1, _, _, _, _, by decide, rfl, rfl, Or.inr rfl, Or.inl rfl, Or.inl rfl⟩

/-- VIOLATED for the status of a job: the answer to the request that made it reads the status while the
job sets its start time. -/
theorem c79_status_violated : ∃ c, Reach [jobRun 0 false, createJob 0] c ∧ Racy c (.status 0) := by
  obtain ⟨t, ht, rfl⟩ := run_job 0 false
  refine ⟨_, ⟨_, _, .cons ht (.cons (.seq (.seq (runs_reading (.act _)) (.left (runs_locking (.act _)))) (.left (.act _))) .nil),
    stepsF_sound (is := [1, 1, 1, 1, 1, 1, 1]) rfl⟩, ?_⟩
  exact ⟨0, 1, _, _, _, _, by decide, rfl, rfl, Or.inr rfl, Or.inl rfl, Or.inl rfl⟩

/-- VIOLATED for connections: an event is sent to a watcher while the watcher is being pinged.  (The
websocket library panics: "concurrent write to websocket connection".) -/
theorem c79_connection_violated : ∃ c, Reach [.many (eventCallback toClient), traceWriter 0] c ∧ Racy c (.conn 0) := by
  refine ⟨_, ⟨_, _, .cons (runs_once (.seq (.right .skip) (.left (runs_locking (.seq (.act _) (.left (.seq
    (runs_reading (.seq (.act _) (runs_once (.left (.any 0 (.act _)))))) .stop))))))) (.cons (.seq (runs_locking (.act _))
    (runs_once (.act _))) .nil),
    stepsF_sound (is := [1, 1, 1, 1, 0, 0, 0, 0, 0]) rfl⟩, ?_⟩
  exact ⟨0, 1, _, _, _, _, by decide, rfl, rfl, Or.inr rfl, Or.inr rfl, Or.inl rfl⟩

/-- VIOLATED for the word clouds: one request draws them while another updates them. -/
theorem c79_clouds_violated : ∃ c, Reach [updateClouds, drawClouds] c ∧ Racy c .clouds := by
  refine ⟨_, ⟨_, _, .cons (.seq (runs_locking .skip) (runs_locking (runs_once (.seq (.right .skip) (.act _))))) (.cons (.act _) .nil),
    stepsF_sound (is := [0, 0, 0, 0, 0]) rfl⟩, ?_⟩
  exact ⟨0, 1, _, _, _, _, by decide, rfl, rfl, Or.inr rfl, Or.inl rfl, Or.inl rfl⟩

/-- VIOLATED for the registered jobs once a job has a sample rate: it looks at them while another job
is being registered.  (In Go: "concurrent map read and map write".) -/
theorem c79_sampled_violated : ∃ c, Reach [jobRun 0 true, jobRun 1 false] c ∧ Racy c .jobs := by
  obtain ⟨t, ht, rfl⟩ := run_job 0 true
  obtain ⟨t, ht', rfl⟩ := run_job 1 false
  refine ⟨_, ⟨_, _, .cons ht (.cons ht' .nil),
    stepsF_sound (is := [0, 0, 0, 0, 0, 0, 0, 0, 0, 0, 0, 0, 1, 1, 1, 1, 1, 1, 1, 1, 1, 1]) rfl⟩, ?_⟩
  exact ⟨0, 1, _, _, _, _, by decide, rfl, rfl, Or.inl rfl, Or.inr rfl, Or.inr rfl⟩

/-- The goroutines of these theorems are goroutines of servers. -/
example : (∀ p ∈ [jobRun 0 false, getJobs 9, createJob 0, .many (eventCallback toClient), traceWriter 0, updateClouds, drawClouds],
    Server p) ∧ ∀ p ∈ [jobRun 0 true, jobRun 1 false], AnyServer p := by
  refine ⟨?_, ?_⟩
  · intro p hp
    simp only [List.mem_cons, List.not_mem_nil, or_false] at hp
    rcases hp with rfl | rfl | rfl | rfl | rfl | rfl | rfl <;> constructor
  · intro p hp
    simp only [List.mem_cons, List.not_mem_nil, or_false] at hp
    rcases hp with rfl | rfl
    · exact .job 0
    · exact .server (.job 1)

/-! ### C80 -/

/-- The goroutines of a server never get into a state in which somebody is not done and nobody can go on. -/
theorem c80_no_deadlock_partial {gs : List Prog} (hg : ∀ p ∈ gs, AnyServer p) {c : Cfg} (h : Reach gs c) : ¬ Deadlock c := by
  obtain ⟨held, hi⟩ := reach_inv (fun p hp => typed_anyServer (hg p hp)) h
  exact no_deadlock hi

/-- No goroutine of a server releases a lock it does not have. -/
theorem c80_no_misuse {gs : List Prog} (hg : ∀ p ∈ gs, AnyServer p) {c : Cfg} (h : Reach gs c) (i : Nat) : ¬ Misuses c i := by
  obtain ⟨held, hi⟩ := reach_inv (fun p hp => typed_anyServer (hg p hp)) h
  exact no_misuse hi i

/-- Whatever the schedule, the goroutines of a server are done after at most twice as many steps as
they have actions, and then nobody has a lock. -/
theorem c80_all_finish {gs : List Prog} (hg : ∀ p ∈ gs, AnyServer p) {todo : List (List Act)} (he : Each gs todo) {is : List Nat}
    {c : Cfg} (hs : Steps (start todo) is c) :
    is.length ≤ 2 * (todo.map List.length).sum ∧ (Finished c ∨ ∃ i c', Step c i c') ∧ (Finished c → Free c) := by
  have hr : Reach gs c := ⟨todo, is, he, hs⟩
  obtain ⟨held, hi⟩ := reach_inv (fun p hp => typed_anyServer (hg p hp)) hr
  refine ⟨?_, ?_, finished_free hi⟩
  · have h1 := steps_load hs
    have h2 := load_start todo
    omega
  · by_cases hf : Finished c
    · exact Or.inl hf
    · right
      refine Classical.byContradiction fun hn => no_deadlock hi ⟨hf, fun i c' hst => hn ⟨i, c', hst⟩⟩

/-- Alerts: no deadlock as long as the callback raises none. -/
theorem c80_alerts_no_deadlock_partial {gs : List Prog} (hg : ∀ p ∈ gs, p = pushAlert .skip) {c : Cfg} (h : Reach gs c) :
    ¬ Deadlock c := by
  obtain ⟨held, hi⟩ := reach_inv (fun p hp => by rw [hg p hp]; exact typed_pushAlert fits_guard) h
  exact no_deadlock hi

/-- Non-trivial case: a job registers itself and waits for the lock another goroutine has, which
deletes a job. -/
example : ∃ c, Reach [jobRun 0 true, deleteJob 1] c ∧ (¬ Finished c) ∧ stepF c 0 = none ∧ (stepF c 1).isSome = true := by
  obtain ⟨t, ht, rfl⟩ := run_job 0 true
  refine ⟨_, ⟨_, _, .cons ht (.cons (.seq (runs_reading (.act _)) (.left (.seq (runs_locking (.seq (.act _) (.right .skip))) (.right .skip)))) .nil),
    stepsF_sound (is := [1, 1, 1, 1, 1, 0, 0, 0, 0, 0, 0, 0]) rfl⟩, ?_, rfl, rfl⟩
  intro hf
  have := hf _ (List.mem_cons_self)
  cases this

/-- VIOLATED for `swoll top`: drawing the table takes the lock for reading twice; if the goroutine that
reads the metrics wants to write in between, both wait for ever. -/
theorem c80_top_violated : ∃ c, Reach [topLoop, updateTable] c ∧ Deadlock c := by
  refine ⟨_, ⟨_, _, .cons (runs_once (.seq (runs_locking .skip) (runs_once (.seq (runs_reading (.act _)) (.left
    (runs_locking (.seq (.act _) (.right .skip)))))))) (.cons (runs_reading (runs_reading (.act _))) .nil),
    stepsF_sound (is := [0, 0, 0, 0, 0, 0, 1, 0]) rfl⟩, ?_, ?_⟩
  · intro hf
    have := hf _ (List.mem_cons_self)
    cases this
  · intro i c' hs
    have := stepF_complete hs
    match i with
    | 0 => cases this
    | 1 => cases this
    | i + 2 => rw [stepF_out (Nat.le_add_left 2 i)] at this; cases this

/-- VIOLATED for subscribers: one that unsubscribes when it gets an event waits for itself. -/
theorem c80_unsubscribe_violated : ∃ c, Reach [publish unsubscribe] c ∧ Deadlock c := by
  refine ⟨_, ⟨_, _, .cons (runs_reading (.seq (.act _) (runs_once (.left (runs_locking (.act _)))))) .nil,
    stepsF_sound (is := [0, 0, 0]) rfl⟩, ?_, ?_⟩
  · intro hf
    have := hf _ (List.mem_cons_self)
    cases this
  · intro i c' hs
    have := stepF_complete hs
    match i with
    | 0 => cases this
    | i + 1 => rw [stepF_out (Nat.le_add_left 1 i)] at this; cases this

/-- VIOLATED for alerts: a callback that raises an alert waits for itself. -/
theorem c80_alert_violated : ∃ c, Reach [pushAlert (pushAlert .skip)] c ∧ Deadlock c := by
  refine ⟨_, ⟨_, _, .cons (runs_locking (.seq (.act _) (.seq (.right .skip) (runs_once (runs_locking (.seq (.act _) (.seq (.right .skip) .stop))))))) .nil,
    stepsF_sound (is := [0, 0, 0]) rfl⟩, ?_, ?_⟩
  · intro hf
    have := hf _ (List.mem_cons_self)
    cases this
  · intro i c' hs
    have := stepF_complete hs
    match i with
    | 0 => cases this
    | i + 1 => rw [stepF_out (Nat.le_add_left 1 i)] at this; cases this

/-! ### C81 -/

/-- Let the server be sending to any number of clients that do not read (`S`).  However the other
goroutines are scheduled, as long as a goroutine that has nothing to do with events is not done,
somebody other than `S` can go on.  (Missing: the goroutines that have to do with events.) -/
theorem c81_quiet_partial {gs : List Prog} (hg : ∀ p ∈ gs, AnyServer p) {c : Cfg} (h : Reach gs c) {S : Nat → Prop}
    (hS : ∀ i, S i → Sending c i) {is : List Nat} {c' : Cfg} (hs : Steps c is c') (hn : ∀ i ∈ is, ¬ S i) {j : Nat} {p : Prog}
    (hj : gs[j]? = some p) (hq : Quiet p) : Done c' j ∨ ∃ k c'', ¬ S k ∧ Step c' k c'' := by
  have hr := reach_steps h hs
  obtain ⟨held, hi⟩ := reach_inv (fun p hp => typed_anyServer (hg p hp)) hr
  have hS' : ∀ i, S i → Sending c' i := by
    intro i hsi
    obtain ⟨k, rest, hk⟩ := hS i hsi
    exact ⟨k, rest, by rw [steps_others hs (fun hm => hn i hm hsi)]; exact hk⟩
  obtain ⟨t, ht, ha⟩ := reach_acts hr hj (quiet_apart hq)
  by_cases hd : Done c' j
  · exact Or.inl hd
  · right
    exact apart_steps (fun _ => rfl) hi hS' (fun hsj => quiet_not_sending hr hj hq (hS' j hsj)) ht
      (by rintro rfl; exact hd ht) ha

/-- So all of them get done while the clients still do not read. -/
theorem c81_quiet_finish_partial {gs : List Prog} (hg : ∀ p ∈ gs, AnyServer p) {c : Cfg} (h : Reach gs c) {S : Nat → Prop}
    (hS : ∀ i, S i → Sending c i) :
    ∃ is c', Steps c is c' ∧ (∀ i ∈ is, ¬ S i) ∧ ∀ (j : Nat) (p : Prog), gs[j]? = some p → Quiet p → Done c' j := by
  obtain ⟨held, hi⟩ := reach_inv (fun p hp => typed_anyServer (hg p hp)) h
  obtain ⟨is, c', h1, h2, h3⟩ := apart_finish (Q := fun j => ∃ p, gs[j]? = some p ∧ Quiet p) (fun _ => rfl) hi hS (by
    rintro j ⟨p, hp, hq⟩
    obtain ⟨t, ht, ha⟩ := reach_acts h hp (quiet_apart hq)
    exact ⟨fun hsj => quiet_not_sending h hp hq (hS j hsj), t, ht, ha⟩)
  exact ⟨is, c', h1, h2, fun j p hp hq => h3 j ⟨p, hp, hq⟩⟩

/-- An event for a client. -/
theorem run_event : ∃ t, Runs (.many (eventCallback toClient)) t ∧
    t = [.lock .hub, .read .jobs, .rlock .ps, .read .tree, .write (.conn 0), .runlock .ps, .unlock .hub] :=
  ⟨_, runs_once (.seq (.right .skip) (.left (runs_locking (.seq (.act _) (.left (.seq
    (runs_reading (.seq (.act _) (runs_once (.left (.any 0 (.act _)))))) .stop)))))), rfl⟩

/-- Non-trivial case: an event is being sent to a client that does not read, while the jobs are listed
and a job is made. -/
example : ∃ c, Reach [.many (eventCallback toClient), getJobs 9, createJob 0] c ∧ Sending c 0 ∧ ¬ Done c 1 ∧ ¬ Done c 2 ∧
    Quiet (getJobs 9) ∧ Quiet (createJob 0) := by
  obtain ⟨t, ht, rfl⟩ := run_event
  refine ⟨_, ⟨_, _, .cons ht (.cons (runs_reading (runs_reading (.seq (.act _) (.seq (runs_once (.any 0 (.seq (.act _) (.act _))))
    (.seq (.act _) (.seq .stop (.act _))))))) (.cons (.seq (.seq (runs_reading (.act _)) (.left (runs_locking (.act _)))) (.left (.act _))) .nil)),
    stepsF_sound (is := [0, 0, 0, 0, 0, 1, 1]) rfl⟩, ⟨0, _, rfl⟩, ?_, ?_, .list 9, .create 0⟩ <;>
  · intro hd; cases hd

/-- VIOLATED for everything that has to do with events: while an event is being sent to a client that
does not read, no request to delete a job, no job that finds a container and no request to watch gets
done, whatever the schedule. -/
theorem c81_slow_client_violated : ∃ c, Reach [.many (eventCallback toClient), deleteJob 0, jobRun 0 false, jobWriter 1, traceWriter 2] c ∧
    Sending c 0 ∧ ∀ is c', Steps c is c' → 0 ∉ is → ¬ Done c' 1 ∧ ¬ Done c' 2 ∧ ¬ Done c' 3 ∧ ¬ Done c' 4 := by
  obtain ⟨t, ht, rfl⟩ := run_event
  obtain ⟨t, ht', rfl⟩ := run_job 0 false
  refine ⟨_, ⟨_, _, .cons ht (.cons (.seq (runs_reading (.act _)) (.left (.seq (runs_locking (.seq (.act _) (.right .skip))) (.right .skip))))
    (.cons ht' (.cons (.seq (runs_reading (.act _)) (.left (.seq (runs_locking (.act _)) (.seq .stop (runs_locking (.act _))))))
      (.cons (.seq (runs_locking (.act _)) .stop) .nil)))),
    stepsF_sound (is := [0, 0, 0, 0, 0]) rfl⟩, ⟨0, _, rfl⟩, ?_⟩
  intro is c' hs hn
  exact ⟨kept_waiting hs (i := 0) (l := .hub) (Or.inl ⟨rfl, rfl⟩) (by decide) rfl (by decide) hn,
    kept_waiting hs (i := 0) (l := .hub) (Or.inl ⟨rfl, rfl⟩) (by decide) rfl (by decide) hn,
    kept_waiting hs (i := 0) (l := .ps) (Or.inr ⟨List.mem_cons_self, rfl⟩) (by decide) rfl (by decide) hn,
    kept_waiting hs (i := 0) (l := .ps) (Or.inr ⟨List.mem_cons_self, rfl⟩) (by decide) rfl (by decide) hn⟩

/-- VIOLATED for the list of jobs as well: while the answer to a request for the list is being sent to a
client that does not read it, no request for a new job and none to delete a job gets done. -/
theorem c81_slow_list_violated : ∃ c, Reach [getJobs 9, createJob 0, deleteJob 1] c ∧ Replying c 0 ∧
    ∀ is c', Steps c is c' → 0 ∉ is → ¬ Done c' 1 ∧ ¬ Done c' 2 := by
  refine ⟨_, ⟨_, _, .cons (runs_reading (runs_reading (.seq (.act _) (.seq .stop (.seq (.act _) (.seq .stop (.act _)))))))
    (.cons (.seq (.seq (runs_reading (.act _)) (.left (runs_locking (.act _)))) (.left (.act _)))
      (.cons (.seq (runs_reading (.act _)) (.left (.seq (runs_locking (.seq (.act _) (.right .skip)))
        (.left (.seq (.seq (runs_reading (.act _)) (.left (runs_locking (.act _)))) (.right .skip)))))) .nil)),
    stepsF_sound (is := [0, 0, 0, 0]) rfl⟩, ⟨9, _, rfl⟩, ?_⟩
  intro is c' hs hn
  exact ⟨kept_waiting hs (i := 0) (l := .running) (Or.inr ⟨List.mem_cons_self, rfl⟩) (by decide) rfl (by decide) hn,
    kept_waiting hs (i := 0) (l := .running) (Or.inr ⟨List.mem_cons_self, rfl⟩) (by decide) rfl (by decide) hn⟩

end Swoll.Props.Sync
