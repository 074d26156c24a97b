import Verif.Lemmas.Sync
/-
The server's functions keep to the lock discipline; running configurations.
-/
namespace Swoll.Lemmas.Sync
open Swoll.Sync Swoll.Spec.Sync

/-! ### The server's functions -/

theorem guard'_jobs {v : Var} (hv : v ≠ .jobs) : guard' v = guard v := by
  cases v <;> first | rfl | exact absurd rfl hv

/-- Both guards agree on everything but the hub's tables. -/
def Fits (g : Var → Option Lock) : Prop := (∀ v, v ≠ .jobs → g v = guard v) ∧ ∀ l, g .jobs = some l → l = .hub

theorem fits_guard : Fits guard := ⟨fun _ _ => rfl, fun l h => by simpa [guard] using h.symm⟩
theorem fits_guard' : Fits guard' := ⟨fun _ hv => guard'_jobs hv, fun l h => by simp [guard'] at h⟩

variable {g : Var → Option Lock}

/-- Reading with the table's lock. -/
theorem tread (hf : Fits g) {h : Held} {v : Var} (hv : ∀ l, guard v = some l → (l, true) ∈ h ∨ (l, false) ∈ h) :
    Typed g h (.act (.read v)) h := by
  apply typed_read
  intro l hl
  by_cases e : v = .jobs
  · subst e; rw [hf.2 l hl]; exact hv _ rfl
  · rw [hf.1 v e] at hl; exact hv l hl

theorem twrite (hf : Fits g) {h : Held} {v : Var} (hv : ∀ l, guard v = some l → (l, true) ∈ h)
    (hc : isConn v = true → ∀ x ∈ h, rank x.1 < 2) : Typed g h (.act (.write v)) h := by
  apply typed_write _ hc
  intro l hl
  by_cases e : v = .jobs
  · subst e; rw [hf.2 l hl]; exact hv _ rfl
  · rw [hf.1 v e] at hl; exact hv l hl

/-- The side conditions of the rules. -/
macro "side" : tactic => `(tactic| (simp [rank, guard, isConn]))

theorem typed_publish (hf : Fits g) {h : Held} {cb : Prog} (hl : ∀ x ∈ h, rank x.1 < rank .ps)
    (hcb : Typed g ((.ps, false) :: h) cb ((.ps, false) :: h)) : Typed g h (publish cb) h := by
  refine typed_reading hl (typed_seq (tread hf (by side)) (typed_many (typed_alt hcb (tread hf (by side)))))

theorem typed_subscribe (hf : Fits g) : Typed g [] subscribe [] :=
  typed_locking (by side) (twrite hf (by side) (by side))

theorem typed_unsubscribe (hf : Fits g) : Typed g [] unsubscribe [] :=
  typed_locking (by side) (twrite hf (by side) (by side))

theorem typed_lookup (hf : Fits g) {h : Held} (i : Nat) (hl : ∀ x ∈ h, rank x.1 < 3) : Typed g h (lookupContainer i) h :=
  typed_reading hl (tread hf (by side))

theorem typed_metricsCall {h : Held} (i : Nat) (hl : ∀ x ∈ h, rank x.1 < 7) : Typed g h (metricsCall i) h :=
  typed_locking hl (typed_skip _)

theorem typed_processEvent (hf : Fits g) (i : Nat) {cb : Prog} (hcb : Typed g [] cb []) : Typed g [] (processEvent i cb) [] := by
  refine typed_locking (by side) (typed_opt (typed_seq (twrite hf (by side) (by side)) (typed_seq (h1 := []) (typed_act ?_)
    (typed_seq hcb (typed_act ?_)))))
  · simp [next]
  · simp [next]

theorem typed_topologyRun (hf : Fits g) (i : Nat) {cb : Prog} (hcb : Typed g [] cb []) : Typed g [] (topologyRun i cb) [] :=
  typed_many (typed_processEvent hf i hcb)

theorem typed_pushJob (hf : Fits g) : Typed g [] pushJob [] :=
  typed_locking (by side) (typed_seq (tread hf (by side)) (twrite hf (by side) (by side)))

theorem typed_deleteTrace (hf : Fits g) (j : Nat) : Typed g [] (deleteTrace j) [] := by
  refine typed_locking (by side) (typed_seq (tread hf (by side)) (typed_opt (typed_seq (typed_many (typed_seq (tread hf (by side))
    (typed_opt (typed_seq (twrite hf (by side) (by side)) (twrite hf (by side) (by side)))))) (twrite hf (by side) (by side)))))

theorem typed_toClient (hf : Fits g) {h : Held} (hl : ∀ x ∈ h, rank x.1 < 2) : Typed g h toClient h :=
  typed_any (fun k => twrite hf (by side) (fun _ => hl))

theorem typed_events (hf : Fits g) : Typed g [] (eventCallback toClient) [] := by
  have hp : Typed g [(.hub, true)] (publish toClient) [(.hub, true)] :=
    typed_publish hf (by side) (typed_toClient hf (by side))
  refine typed_seq (typed_opt (typed_lookup hf 0 (by side))) (typed_opt (typed_locking (by side)
    (typed_seq (tread hf (by side)) (typed_opt (typed_seq hp (typed_many (typed_seq (tread hf (by side)) ?_)))))))
  exact typed_seq (typed_opt (tread hf (by side))) (typed_opt hp)

theorem typed_jobRun (hf : Fits g) (j : Nat) {sampled : Bool} (hs : sampled = true → g .jobs = none) :
    Typed g [] (jobRun j sampled) [] := by
  have hsys : Typed g [] (jobSyscall sampled) [] := by
    refine typed_seq (typed_pushJob hf) ?_
    cases sampled with
    | false => exact typed_skip _
    | true =>
      apply typed_read
      intro l hl
      rw [hs rfl] at hl; cases hl
  refine typed_seq (twrite hf (by side) (by side)) (typed_topologyRun hf _ (typed_alt (twrite hf (by side) (by side))
    (typed_opt (typed_seq (tread hf (by side)) (typed_seq (typed_opt (twrite hf (by side) (by side))) (typed_many hsys))))))

theorem typed_getLive (hf : Fits g) {l : Lock} {v : Var} (hv : guard v = some l) : Typed g [] (getLive l v) [] :=
  typed_reading (by side) (tread hf (fun m hm => by rw [hv] at hm; injection hm with hm; subst hm; simp))

theorem typed_changeLive (hf : Fits g) {l : Lock} {v : Var} (hv : guard v = some l) : Typed g [] (changeLive l v) [] :=
  typed_seq (typed_getLive hf hv) (typed_opt (typed_locking (by side)
    (twrite hf (fun m hm => by rw [hv] at hm; injection hm with hm; subst hm; simp)
      (fun hc => by cases v <;> first | (cases hc; done) | (cases hv)))))

theorem typed_getJobs (hf : Fits g) (k : Nat) : Typed g [] (getJobs k) [] := by
  have henc : ∀ h, Typed g h (.many (.any encodeJob)) h :=
    fun h => typed_many (typed_any fun j => typed_seq (tread hf (by side)) (tread hf (by side)))
  exact typed_reading (by side) (typed_reading (by side) (typed_seq (tread hf (by side)) (typed_seq (henc _)
    (typed_seq (tread hf (by side)) (typed_seq (henc _) (twrite hf (by side) (by side)))))))

theorem typed_createJob (hf : Fits g) (j : Nat) : Typed g [] (createJob j) [] :=
  typed_seq (typed_changeLive hf rfl) (typed_opt (tread hf (by side)))

theorem typed_deleteJob (hf : Fits g) (j : Nat) : Typed g [] (deleteJob j) [] :=
  typed_seq (typed_getLive hf rfl) (typed_opt (typed_seq (typed_deleteTrace hf j)
    (typed_opt (typed_seq (typed_changeLive hf rfl) (typed_opt (typed_changeLive hf rfl))))))

theorem typed_jobWriter (hf : Fits g) (k : Nat) : Typed g [] (jobWriter k) [] :=
  typed_seq (typed_getLive hf rfl) (typed_opt (typed_seq (typed_subscribe hf)
    (typed_seq (typed_many (twrite hf (by side) (by side))) (typed_unsubscribe hf))))

theorem typed_traceWriter (hf : Fits g) (k : Nat) : Typed g [] (traceWriter k) [] :=
  typed_seq (typed_subscribe hf) (typed_many (twrite hf (by side) (by side)))

theorem typed_updateClouds (hf : Fits g) : Typed g [] updateClouds [] :=
  typed_seq (typed_metricsCall 1 (by side)) (typed_locking (by side)
    (typed_many (typed_seq (typed_opt (typed_lookup hf 0 (by side))) (twrite hf (by side) (by side)))))

theorem typed_readMetrics (hf : Fits g) : Typed g [] readMetrics [] :=
  typed_seq (typed_metricsCall 1 (by side)) (typed_many (typed_lookup hf 0 (by side)))

theorem typed_server (hf : Fits g) {p : Prog} (h : Server p) : Typed g [] p [] := by
  cases h with
  | events => exact typed_many (typed_events hf)
  | containers => exact typed_topologyRun hf 0 (typed_opt (typed_metricsCall 0 (by side)))
  | stats => exact typed_many (typed_metricsCall 0 (by side))
  | job j => exact typed_jobRun hf j (fun h => by cases h)
  | list k => exact typed_getJobs hf k
  | create j => exact typed_createJob hf j
  | delete j => exact typed_deleteJob hf j
  | watchJob k => exact typed_jobWriter hf k
  | watchPath k => exact typed_traceWriter hf k
  | update => exact typed_updateClouds hf
  | draw => exact tread hf (by side)
  | collect => exact typed_readMetrics hf

theorem typed_anyServer {p : Prog} (h : AnyServer p) : Typed guard' [] p [] := by
  cases h with
  | server h => exact typed_server fits_guard' h
  | job j => exact typed_jobRun fits_guard' j (fun _ => rfl)

theorem typed_pushAlert (hf : Fits g) : Typed g [] (pushAlert .skip) [] :=
  typed_locking (by side) (typed_seq (tread hf (by side)) (typed_seq (typed_opt (twrite hf (by side) (by side)))
    (typed_many (typed_skip _))))

/-- The requests apart from events. -/
theorem quiet_apart {p : Prog} (h : Quiet p) : AllActs Apart p := by
  cases h <;> simp [topologyRun, metricsCallback, statsLoop, getJobs, createJob, updateClouds, drawClouds, readMetrics, processEvent,
    metricsCall, locking, reading, opt, changeLive, getLive, encodeJob, lookupContainer, AllActs, Apart, rank]

/-- Goroutine `i` runs what goroutine `i` may run. -/
theorem each_get {ps : List Prog} {ts : List (List Act)} (h : Each ps ts) : ∀ {i : Nat} {p : Prog}, ps[i]? = some p →
    ∃ t, ts[i]? = some t ∧ Runs p t := by
  induction h with
  | nil => intro i p hi; simp at hi
  | @cons q qs t ts hr _ ih =>
    intro i p hi
    cases i with
    | zero => simp at hi; subst hi; exact ⟨t, rfl, hr⟩
    | succ i => exact ih (i := i) (by simpa using hi)

theorem reach_acts {gs : List Prog} {c : Cfg} (h : Reach gs c) {P : Act → Prop} {i : Nat} {p : Prog} (hp : gs[i]? = some p)
    (ha : AllActs P p) : ∃ t, c.todo[i]? = some t ∧ ∀ a ∈ t, P a := by
  obtain ⟨todo, is, he, hs⟩ := h
  obtain ⟨t, ht, hr⟩ := each_get he hp
  obtain ⟨t', h1, h2⟩ := steps_suffix hs (j := i) (t := t) ht
  exact ⟨t', h1, fun a hm => allActs_runs hr ha a (h2.subset hm)⟩

/-- They send nothing to clients that watch. -/
theorem quiet_silent {p : Prog} (h : Quiet p) : AllActs (fun a => ∀ k, a ≠ .write (.conn k)) p := by
  cases h <;> simp [topologyRun, metricsCallback, statsLoop, getJobs, createJob, updateClouds, drawClouds, readMetrics, processEvent,
    metricsCall, locking, reading, opt, changeLive, getLive, encodeJob, lookupContainer, AllActs]

theorem quiet_not_sending {gs : List Prog} {c : Cfg} (h : Reach gs c) {i : Nat} {p : Prog} (hp : gs[i]? = some p) (hq : Quiet p) :
    ¬ Sending c i := by
  rintro ⟨k, rest, hk⟩
  obtain ⟨t, ht, ha⟩ := reach_acts h hp (quiet_silent hq)
  rw [hk] at ht
  injection ht with ht
  subst ht
  exact ha _ List.mem_cons_self k rfl

theorem reach_steps {gs : List Prog} {c c' : Cfg} {is : List Nat} (h : Reach gs c) (hs : Steps c is c') : Reach gs c' := by
  obtain ⟨todo, js, he, hj⟩ := h
  exact ⟨todo, js ++ is, he, steps_append hj hs⟩

theorem steps_others {c c' : Cfg} {is : List Nat} (h : Steps c is c') {j : Nat} : j ∉ is → c'.todo[j]? = c.todo[j]? := by
  induction h with
  | done => exact fun _ => rfl
  | step s _ ih =>
    intro hn
    rw [ih (fun h => hn (List.mem_cons_of_mem _ h))]
    exact step_others s (fun e => hn (e ▸ List.mem_cons_self))

/-! ### Waiting for somebody who does not move -/

/-- `i` has the lock, for writing or for reading. -/
def Has (c : Cfg) (i : Nat) (l : Lock) : Prop :=
  ((c.locks l).writer = some i ∧ (c.locks l).held = true) ∨ (i ∈ (c.locks l).readers ∧ (c.locks l).held = false)

theorem step_has {c c' : Cfg} {i k : Nat} {l : Lock} (h : Has c i l) (hk : k ≠ i) (hs : Step c k c') : Has c' i l := by
  have other : ∀ {m : Lock} {s : LState} {r : List Act}, m ≠ l → Has ((c.put m s).advance k r) i l := by
    intro m s r hm
    unfold Has
    rw [advance_locks, put_other (Ne.symm hm)]
    exact h
  cases hs with
  | read _ => exact h
  | write _ => exact h
  | @announce m rest ht hw =>
    by_cases e : m = l
    · subst e
      rcases h with ⟨h1, -⟩ | ⟨h1, h2⟩
      · rw [hw] at h1; cases h1
      · exact Or.inr (by rw [put_same]; exact ⟨h1, rfl⟩)
    · unfold Has; rw [put_other (Ne.symm e)]; exact h
  | @lock m rest ht hw hh hr =>
    by_cases e : m = l
    · subst e
      rcases h with ⟨h1, -⟩ | ⟨h1, h2⟩
      · rw [hw] at h1; injection h1 with h1; exact absurd h1 hk
      · rw [hr] at h1; cases h1
    · exact other e
  | @unlock m rest ht hw hh =>
    by_cases e : m = l
    · subst e
      rcases h with ⟨h1, -⟩ | ⟨h1, h2⟩
      · rw [hw] at h1; injection h1 with h1; exact absurd h1 hk
      · rw [hh] at h2; cases h2
    · exact other e
  | @rlock m rest ht hw =>
    by_cases e : m = l
    · subst e
      rcases h with ⟨h1, -⟩ | ⟨h1, h2⟩
      · rw [hw] at h1; cases h1
      · exact Or.inr (by rw [advance_locks, put_same]; exact ⟨List.mem_cons_of_mem _ h1, rfl⟩)
    · exact other e
  | @runlock m rest ht hr =>
    by_cases e : m = l
    · subst e
      unfold Has
      rw [advance_locks, put_same]
      rcases h with h | ⟨h1, h2⟩
      · exact Or.inl h
      · exact Or.inr ⟨(List.mem_erase_of_ne (Ne.symm hk)).2 h1, h2⟩
    · exact other e

theorem has_keeps_out {c c' : Cfg} {i k : Nat} {l : Lock} (h : Has c i l) (hk : k ≠ i) {rest : List Act}
    (ht : c.todo[k]? = some (.lock l :: rest)) (hs : Step c k c') : c'.todo[k]? = some (.lock l :: rest) := by
  cases hs with
  | announce => exact ht
  | lock h' hw hh hr =>
    rw [ht] at h'
    injection h' with h'
    injection h' with h1 _
    injection h1 with h1
    subst h1
    rcases h with ⟨h1, -⟩ | ⟨h1, -⟩
    · rw [hw] at h1; injection h1 with h1; exact absurd h1 hk
    · rw [hr] at h1; cases h1
  | read h' | write h' | unlock h' _ _ | rlock h' _ | runlock h' _ =>
    rw [ht] at h'; injection h' with h'; injection h' with h'; cases h'

/-- Who wants to lock a lock of somebody who does not move never gets done. -/
theorem kept_waiting {c c' : Cfg} {is : List Nat} (hs : Steps c is c') : ∀ {i j : Nat} {l : Lock} {t : List Act}, Has c i l → j ≠ i →
    c.todo[j]? = some t → .lock l ∈ t → i ∉ is → ¬ Done c' j := by
  induction hs with
  | done =>
    intro i j l t _ _ ht hm _ hd
    rw [Done, ht] at hd
    injection hd with hd
    subst hd
    cases hm
  | @step c c1 c2 k is s _ ih =>
    intro i j l t hh hj ht hm hn
    have hk : k ≠ i := fun e => hn (e ▸ List.mem_cons_self)
    have hh1 := step_has hh hk s
    have hn1 : i ∉ is := fun h => hn (List.mem_cons_of_mem _ h)
    by_cases e : j = k
    · subst e
      by_cases hd : ∃ rest, t = .lock l :: rest
      · obtain ⟨rest, rfl⟩ := hd
        exact ih hh1 hj (has_keeps_out hh hk ht s) List.mem_cons_self hn1
      · -- it goes past something else
        have go : ∀ {d : Cfg} {a : Act} {rest : List Act}, d.todo = c.todo → c.todo[j]? = some (a :: rest) →
            ∃ t', (d.advance j rest).todo[j]? = some t' ∧ .lock l ∈ t' := by
          intro d a rest hd' h'
          refine ⟨rest, advance_get (c := d) (a := a) (by rw [hd']; exact h'), ?_⟩
          rw [ht] at h'
          injection h' with h'
          subst h'
          rcases List.mem_cons.1 hm with e | hm
          · exact absurd ⟨rest, by rw [e]⟩ hd
          · exact hm
        have : ∃ t', c1.todo[j]? = some t' ∧ .lock l ∈ t' := by
          cases s with
          | read h' => exact go rfl h'
          | write h' => exact go rfl h'
          | announce h' _ => exact ⟨t, ht, hm⟩
          | lock h' _ _ _ => exact go rfl h'
          | unlock h' _ _ => exact go rfl h'
          | rlock h' _ => exact go rfl h'
          | runlock h' _ => exact go rfl h'
        obtain ⟨t', ht', hm'⟩ := this
        exact ih hh1 hj ht' hm' hn1
    · exact ih hh1 hj (by rw [step_others s e]; exact ht) hm hn1

/-! ### Running configurations -/

/-- `Step` as a function. -/
def stepF (c : Cfg) (i : Nat) : Option Cfg :=
  match c.todo[i]? with
  | some (.read _ :: rest) => some (c.advance i rest)
  | some (.write _ :: rest) => some (c.advance i rest)
  | some (.lock l :: rest) =>
    if (c.locks l).writer = none then some (c.put l ⟨some i, false, (c.locks l).readers⟩)
    else if (c.locks l).writer = some i ∧ (c.locks l).held = false ∧ (c.locks l).readers = [] then
      some ((c.put l ⟨some i, true, []⟩).advance i rest)
    else none
  | some (.unlock l :: rest) =>
    if (c.locks l).writer = some i ∧ (c.locks l).held = true then
      some ((c.put l ⟨none, false, (c.locks l).readers⟩).advance i rest)
    else none
  | some (.rlock l :: rest) =>
    if (c.locks l).writer = none then some ((c.put l ⟨none, false, i :: (c.locks l).readers⟩).advance i rest) else none
  | some (.runlock l :: rest) =>
    if i ∈ (c.locks l).readers then
      some ((c.put l { c.locks l with readers := (c.locks l).readers.erase i }).advance i rest)
    else none
  | _ => none

theorem stepF_sound {c c' : Cfg} {i : Nat} (h : stepF c i = some c') : Step c i c' := by
  unfold stepF at h
  split at h
  · rename_i ht; injection h with h; subst h; exact .read ht
  · rename_i ht; injection h with h; subst h; exact .write ht
  · rename_i ht
    split at h
    · rename_i hw; injection h with h; subst h; exact .announce ht hw
    · split at h
      · rename_i hw; injection h with h; subst h; exact .lock ht hw.1 hw.2.1 hw.2.2
      · cases h
  · rename_i ht
    split at h
    · rename_i hw; injection h with h; subst h; exact .unlock ht hw.1 hw.2
    · cases h
  · rename_i ht
    split at h
    · rename_i hw; injection h with h; subst h; exact .rlock ht hw
    · cases h
  · rename_i ht
    split at h
    · rename_i hw; injection h with h; subst h; exact .runlock ht hw
    · cases h
  · cases h

theorem stepF_complete {c c' : Cfg} {i : Nat} (h : Step c i c') : stepF c i = some c' := by
  cases h with
  | read ht => simp [stepF, ht]
  | write ht => simp [stepF, ht]
  | announce ht hw => simp [stepF, ht, hw]
  | lock ht hw hh hr => simp [stepF, ht, hw, hh, hr]
  | unlock ht hw hh => simp [stepF, ht, hw, hh]
  | rlock ht hw => simp [stepF, ht, hw]
  | runlock ht hr => simp [stepF, ht, hr]

/-- A whole schedule. -/
def stepsF (c : Cfg) : List Nat → Option Cfg
  | [] => some c
  | i :: is => (stepF c i).bind fun c' => stepsF c' is

theorem stepsF_sound {is : List Nat} : ∀ {c c' : Cfg}, stepsF c is = some c' → Steps c is c' := by
  induction is with
  | nil => intro c c' h; injection h with h; subst h; exact .done
  | cons i is ih =>
    intro c c' h
    simp only [stepsF] at h
    cases e : stepF c i with
    | none => rw [e] at h; cases h
    | some c1 => rw [e] at h; exact .step (stepF_sound e) (ih h)

/-- Goroutines that do not exist do not go on. -/
theorem stepF_out {c : Cfg} {i : Nat} (h : c.todo.length ≤ i) : stepF c i = none := by
  have : c.todo[i]? = none := List.getElem?_eq_none h
  simp [stepF, this]

theorem runs_locking {l : Lock} {p : Prog} {xs : List Act} (h : Runs p xs) :
    Runs (locking l p) ([.lock l] ++ (xs ++ [.unlock l])) := .seq (.act _) (.seq h (.act _))

theorem runs_reading {l : Lock} {p : Prog} {xs : List Act} (h : Runs p xs) :
    Runs (reading l p) ([.rlock l] ++ (xs ++ [.runlock l])) := .seq (.act _) (.seq h (.act _))

theorem runs_once {p : Prog} {xs : List Act} (h : Runs p xs) : Runs (.many p) (xs ++ []) := .more h .stop

end Swoll.Lemmas.Sync
