import Verif.Lemmas.Server
/-
C54: job ids are unique among running jobs. C55: a job is listed as running until it is deleted, and
as completed from then on.
-/
namespace Swoll.Props.Server
open Swoll Swoll.Server Swoll.Spec.Server Swoll.Lemmas.Server

variable {Id : Type} [DecidableEq Id]

/-- A history: two jobs are created and one deleted, their requests overlapping. -/
def someHistory : List (Action String) :=
  [.create (some "a") "u" true, .create none "b" true, .step 1 false, .step 0 false, .step 1 false,
   .step 0 false, .delete "a", .step 2 false, .step 2 true, .step 2 true, .step 2 true]

/-- The rest of it: the deletion ends. -/
def someRest : List (Action String) := [.step 2 true, .step 2 true]

example : Apart init (someHistory ++ someRest) := by
  simp [someHistory, someRest, Apart, Quiet, Active, init, step, advance, goto, GoMap.has, GoMap.get,
    GoMap.set, GoMap.del]

/-- C54, when requests about the same id do not overlap: no two jobs of the same id run, and the
running list is the list of the jobs that run. Missing: overlapping requests (below). -/
theorem c54_unique_partial {as : List (Action Id)} (h : Apart init as) (id : Id) :
    (∀ j k, Runs (run init as) j id → Runs (run init as) k id → j = k) ∧
    (∀ j, Runs (run init as) j id ↔ (run init as).running.get id = some j) := by
  have hi := inv_run inv_init h
  refine ⟨fun j k hj hk => ?_, fun j => (hi.runs j id).symm⟩
  have h1 := (hi.runs j id).2 hj
  have h2 := (hi.runs k id).2 hk
  rw [h1] at h2
  injection h2

example : Runs (run init someHistory) 1 "b" := by
  unfold Runs; decide +kernel

/-- C54, when requests about the same id do not overlap: a create request for the id of a job that
runs gets no answer but 500. -/
theorem c54_refused_partial {as bs : List (Action Id)} {q : Option Id} {u : Id} {j : Job}
    (h : Apart init (as ++ .create q u true :: bs)) (hj : Runs (run init as) j (q.getD u)) :
    ∃ pc, (run init (as ++ .create q u true :: bs)).threads[(run init as).threads.length]? =
        some ⟨q.getD u, pc⟩ ∧ ∀ c, pc = .done c → c = 500 := by
  have split : ∀ {s : State Id} {as bs : List (Action Id)}, Apart s (as ++ bs) →
      Apart s as ∧ Apart (run s as) bs := by
    intro s as bs h
    induction as generalizing s with
    | nil => exact ⟨trivial, h⟩
    | cons a as ih =>
      cases a with
      | create q u ok => exact ⟨⟨h.1, (ih h.2).1⟩, (ih h.2).2⟩
      | delete id => exact ⟨⟨h.1, (ih h.2).1⟩, (ih h.2).2⟩
      | step i hub => exact ⟨(ih h).1, (ih h).2⟩
  obtain ⟨h1, h2⟩ := split h
  have hi := inv_run inv_init h1
  have hrun : run init (as ++ .create q u true :: bs) =
      run (step (run init as) (.create q u true)) bs := by
    unfold run; rw [List.foldl_append]; rfl
  have hn : (step (run init as) (.create q u true)).threads[(run init as).threads.length]? =
      some ⟨q.getD u, .createGet⟩ := by
    show (_ ++ _)[_]? = _
    simp
  obtain ⟨pc, e, hpc⟩ := refused_run (inv_run hi (as := [.create q u true]) ⟨h2.1, trivial⟩) h2.2 hn
    (Or.inl ⟨rfl, has_iff.2 ⟨j, (hi.runs j _).2 hj⟩⟩)
  refine ⟨pc, by rw [hrun]; exact e, fun c hc => ?_⟩
  rcases hpc with hpc | hpc
  · rw [hpc] at hc; cases hc
  · rw [hpc] at hc; injection hc with hc; exact hc.symm

example : let as := someHistory.take 6
    Apart init (as ++ [.create (some "b") "v" true, .step 2 false]) ∧ Runs (run init as) 1 "b" := by
  refine ⟨?_, by unfold Runs; decide +kernel⟩
  simp [someHistory, Apart, Quiet, Active, init, step, advance, goto, GoMap.has, GoMap.get,
    GoMap.set, GoMap.del]

/-- C54, but two create requests for the same id that overlap are both answered with 201, and both
jobs run from then on: `add` looks for the id under one lock and stores the job under another. This can
happen in any state in which the id does not run. -/
theorem c54_race_violated (s : State Id) (id : Id) (h : s.running.has id = false) :
    let n := s.threads.length
    let s' := run s [.create (some id) id true, .create (some id) id true, .step n true,
      .step (n + 1) true, .step n true, .step (n + 1) true]
    .created n id ∈ s'.log ∧ .created (n + 1) id ∈ s'.log ∧
      s'.threads[n]? = some ⟨id, .done 201⟩ ∧ s'.threads[n + 1]? = some ⟨id, .done 201⟩ ∧
      s'.log = s.log ++ [.created n id, .created (n + 1) id] := by
  intro n s'
  have e : s' = { s with
      running := (s.running.set id n).set id (n + 1)
      threads := s.threads ++ [⟨id, .done 201⟩, ⟨id, .done 201⟩]
      log := s.log ++ [.created n id, .created (n + 1) id] } := by
    have g0 : ∀ a b : Thread Id, (s.threads ++ [a, b])[n]? = some a := by intro a b; simp [n]
    have g1 : ∀ a b : Thread Id, (s.threads ++ [a, b])[n + 1]? = some b := by
      intro a b
      rw [List.getElem?_append_right (by simp [n])]
      simp [n]
    have s0 : ∀ a b c : Thread Id, (s.threads ++ [a, b]).set n c = s.threads ++ [c, b] := by
      intro a b c
      rw [List.set_append_right _ _ (by simp [n])]
      simp [n]
    have s1 : ∀ a b c : Thread Id, (s.threads ++ [a, b]).set (n + 1) c = s.threads ++ [a, c] := by
      intro a b c
      rw [List.set_append_right _ _ (by simp [n])]
      simp [n]
    show run s _ = _
    simp only [run, List.foldl_cons, List.foldl_nil, step, Option.getD_some, if_true,
      List.append_assoc, List.singleton_append, g0, g1, advance, goto, h, s0, s1, Bool.false_eq_true,
      if_false]
  rw [e]
  refine ⟨by simp, by simp, ?_, ?_, rfl⟩
  · simp [n]
  · show (s.threads ++ _)[_]? = _
    rw [List.getElem?_append_right (by simp [n])]
    simp [n]

example : (init : State String).running.has "a" = false := rfl

/-- C55, when requests about the same id do not overlap: a job that was created is in the running
list; or a request is about to complete it; or it was deleted, and is in the completed list and
not in the running list; or, and only this is wrong, it left the running list while the completed
list has another job of the same id. Missing: that last case, and overlapping requests (below). -/
theorem c55_listed_partial {as : List (Action Id)} (h : Apart init as) {j : Job} {id : Id}
    (hj : .created j id ∈ (run init as).log) :
    let s := run init as
    (s.running.get id = some j ∧ .deleted j id ∉ s.log) ∨
    (∃ t ∈ s.threads, t.id = id ∧ Active t) ∨
    (.deleted j id ∈ s.log ∧ s.completed.get id = some j ∧ s.running.get id ≠ some j) ∨
    (∃ k, k ≠ j ∧ .deleted k id ∈ s.log ∧ s.completed.get id = some k) := by
  intro s
  have hi : Inv s := inv_run inv_init h
  by_cases hr : .removed j id ∈ s.log
  · right
    rcases hi.left j id hr with h1 | ⟨t, ht, e, h1⟩ | ⟨k, hk, h1⟩
    · right; left
      exact ⟨h1, (hi.del j id h1).2, fun e => ((hi.runs j id).1 e).2 hr⟩
    · left
      refine ⟨t, ht, e, fun c hc => ?_⟩
      rcases h1 with h1 | h1 <;> rw [hc] at h1 <;> cases h1
    · right; right
      exact ⟨k, hk, hi.comp k id h1, h1⟩
  · left
    exact ⟨(hi.runs j id).2 ⟨hj, hr⟩, fun hd => hr (hi.del j id hd).1⟩

/-- C55 for ids that are used once, and requests about the same id that do not overlap: whenever no
request about it is being handled, a job that was created is in the running list, or was deleted and
is in the completed list, and never in both. -/
theorem c55_once_partial {as : List (Action Id)} (h : Apart init as) {j : Job} {id : Id}
    (hj : .created j id ∈ (run init as).log)
    (honce : ∀ k, .created k id ∈ (run init as).log → k = j)
    (hquiet : Quiet (run init as) id) :
    let s := run init as
    (s.running.get id = some j ∧ .deleted j id ∉ s.log ∧ s.completed.get id = none) ∨
    (s.running.get id = none ∧ .deleted j id ∈ s.log ∧ s.completed.get id = some j) := by
  intro s
  have hi : Inv s := inv_run inv_init h
  rcases c55_listed_partial h hj with ⟨h1, h2⟩ | ⟨t, ht, e, ha⟩ | ⟨h1, h2, h3⟩ | ⟨k, hk, h1, h2⟩
  · left
    refine ⟨h1, h2, ?_⟩
    cases hc : s.completed.get id with
    | none => rfl
    | some k =>
      have hd := hi.comp k id hc
      have := honce k (hi.rem k id (hi.del k id hd).1)
      subst this
      exact absurd hd h2
  · exact absurd e (hquiet t ht ha)
  · right
    refine ⟨?_, h1, h2⟩
    cases hr : s.running.get id with
    | none => rfl
    | some k =>
      have := honce k ((hi.runs k id).1 hr).1
      subst this
      exact absurd hr h3
  · exact absurd (honce k (hi.rem k id (hi.del k id h1).1)) hk

example : let s := run init (someHistory ++ someRest)
    .created 0 "a" ∈ s.log ∧ .created 1 "b" ∈ s.log ∧ .deleted 0 "a" ∈ s.log ∧
    (∀ e ∈ s.log, ∀ k ∈ [1, 2, 3], e ≠ .created k "a") ∧ ∀ t ∈ s.threads, t.pc ≠ .deleteGet := by
  decide +kernel

/-- C55, but a job whose id was completed before leaves the running list by a request that is
answered with 500, and it does not get into the completed list. Nothing overlaps here. -/
theorem c55_reuse_violated (s : State Id) {id : Id} {j k : Job} (hr : s.running.get id = some j)
    (hc : s.completed.get id = some k) :
    let n := s.threads.length
    let s' := run s [.delete id, .step n true, .step n true, .step n true, .step n true, .step n true]
    s'.threads[n]? = some ⟨id, .done 500⟩ ∧ s'.running.get id = none ∧
      s'.completed.get id = some k := by
  intro n s'
  have g0 : ∀ a : Thread Id, (s.threads ++ [a])[n]? = some a := by intro a; simp [n]
  have s0 : ∀ a c : Thread Id, (s.threads ++ [a]).set n c = s.threads ++ [c] := by
    intro a c
    rw [List.set_append_right _ _ (by simp [n])]
    simp [n]
  have h1 : s.running.has id = true := has_iff.2 ⟨j, hr⟩
  have h2 : s.completed.has id = true := has_iff.2 ⟨k, hc⟩
  have e : s' = { s with
      running := s.running.del id
      threads := s.threads ++ [⟨id, .done 500⟩]
      log := s.log ++ [.removed j id] } := by
    show run s _ = _
    simp only [run, List.foldl_cons, List.foldl_nil, step, g0, advance, goto, hr, h1, h2, s0, if_true]
  rw [e]
  refine ⟨g0 _, ?_, hc⟩
  show GoMap.get (GoMap.del _ _) _ = none
  rw [GoMap.get_del, if_pos rfl]

/-- Such a state is reached by creating, deleting and creating a job of the same id. -/
example : let s := run init ([.create (some "a") "u" true, .step 0 true, .step 0 true, .delete "a"] ++
      List.replicate 6 (.step 1 true) ++ [.create (some "a") "u" true, .step 2 true, .step 2 true])
    s.running.get "a" = some 2 ∧ s.completed.get "a" = some 0 := by decide +kernel

/-- C55, but with two deletions that overlap a job is lost that none of them was for: it is created
between them, under the same id, and is in no list at the end, although nobody deleted it. -/
theorem c55_race_violated : ∃ (as : List (Action String)) (j : Job),
    let s := run init as
    .created j "a" ∈ s.log ∧ .deleted j "a" ∉ s.log ∧ (∀ t ∈ s.threads, ∃ c, t.pc = .done c) ∧
    s.running.get "a" = none ∧ s.completed.get "a" ≠ some j :=
  ⟨[.create (some "a") "u" true, .step 0 true, .step 0 true,
    .delete "a", .delete "a", .step 1 true, .step 1 true, .step 2 true, .step 2 true,
    .step 1 true, .step 1 true, .step 1 true, .step 1 true,
    .create (some "a") "u" true, .step 3 true, .step 3 true,
    .step 2 true, .step 2 true, .step 2 true], 3, by
    refine ⟨by decide +kernel, by decide +kernel, ?_, by decide +kernel, by decide +kernel⟩
    have : ∀ t ∈ (run init ([.create (some "a") "u" true, .step 0 true, .step 0 true,
        .delete "a", .delete "a", .step 1 true, .step 1 true, .step 2 true, .step 2 true,
        .step 1 true, .step 1 true, .step 1 true, .step 1 true,
        .create (some "a") "u" true, .step 3 true, .step 3 true,
        .step 2 true, .step 2 true, .step 2 true] : List (Action String))).threads,
        t.pc ∈ [Pc.done 201, .done 200, .done 500] := by decide +kernel
    intro t ht
    have := this t ht
    simp only [List.mem_cons, List.not_mem_nil, or_false] at this
    rcases this with h | h | h <;> exact ⟨_, h⟩⟩

/-! ### C117 -/

/-- What the log says of request `i`, by where it is. -/
def Told (log : List (Ev Id)) (i : Nat) (t : Thread Id) : Prop :=
  match t.pc with
  | .done c => c ∈ [200, 201, 400, 404, 500] ∧ (c = 201 ↔ .created i t.id ∈ log) ∧
      (c = 200 → ∃ j, .deleted j t.id ∈ log)
  | _ => .created i t.id ∉ log

/-- What holds of all requests: jobs are only created by requests that came in, under the id asked for. -/
structure Tells (s : State Id) : Prop where
  told : ∀ i t, s.threads[i]? = some t → Told s.log i t
  made : ∀ i id, .created i id ∈ s.log → ∃ t, s.threads[i]? = some t ∧ t.id = id

omit [DecidableEq Id] in
theorem told_mono {log : List (Ev Id)} {i : Nat} {t : Thread Id} (h : Told log i t) (e : Ev Id)
    (he : e ≠ .created i t.id) : Told (log ++ [e]) i t := by
  have hm : ∀ x : Ev Id, x = .created i t.id → (x ∈ log ++ [e] ↔ x ∈ log) := by
    intro x hx
    rw [List.mem_append, List.mem_singleton]
    constructor
    · rintro (h | h)
      · exact h
      · exact absurd (h.symm.trans hx) he
    · exact Or.inl
  unfold Told at h ⊢
  split at h
  · next c e' =>
    refine ⟨h.1, ?_, ?_⟩
    · rw [hm _ rfl]; exact h.2.1
    · intro hc
      obtain ⟨j, hj⟩ := h.2.2 hc
      exact ⟨j, List.mem_append_left _ hj⟩
  · rw [hm _ rfl]; exact h

omit [DecidableEq Id] in
/-- A step of request `i` to `pc` that logs at most one event. -/
theorem tells_goto {s : State Id} (h : Tells s) {i : Nat} {t : Thread Id} (hi : s.threads[i]? = some t) (pc : Pc)
    (e : Option (Ev Id)) (he : ∀ j id, e = some (.created j id) → j = i ∧ id = t.id)
    (ht : Told (s.log ++ e.toList) i { t with pc := pc }) (r c : GoMap Id Job) :
    Tells { goto s i t pc with running := r, completed := c, log := s.log ++ e.toList } := by
  have hlen : i < s.threads.length := (List.getElem?_eq_some_iff.1 hi).1
  have hget : (goto s i t pc).threads[i]? = some { t with pc := pc } := by
    unfold goto
    simp [hlen]
  refine ⟨?_, ?_⟩
  · intro k u hk
    rcases get_set_thread (s := s) (i := i) (t := t) (pc := pc) hk with ⟨h1, h2⟩ | ⟨h1, h2⟩
    · show Told (s.log ++ e.toList) k u
      cases e with
      | none => simpa using h.told k u h2
      | some e => exact told_mono (h.told k u h2) e (fun e' => h1 (he k u.id (by rw [e'])).1)
    · subst h1 h2; exact ht
  · intro j id hj
    have hj : Ev.created j id ∈ s.log ++ e.toList := hj
    rw [List.mem_append] at hj
    rcases hj with hj | hj
    · obtain ⟨u, h1, h2⟩ := h.made j id hj
      by_cases hji : j = i
      · subst hji
        rw [hi] at h1
        cases h1
        exact ⟨_, hget, h2⟩
      · refine ⟨u, ?_, h2⟩
        show (goto s i t pc).threads[j]? = _
        unfold goto
        rw [List.getElem?_set, if_neg (fun e => hji e.symm)]
        exact h1
    · obtain ⟨h1, h2⟩ := he j id (Option.mem_toList.1 hj)
      subst h1 h2
      exact ⟨_, hget, rfl⟩

theorem tells_step {s : State Id} (h : Tells s) (a : Action Id) : Tells (step s a) := by
  have new : ∀ (id : Id) (pc : Pc), (pc = .createGet ∨ pc = .deleteGet ∨ pc = .done 400) →
      Tells { s with threads := s.threads ++ [⟨id, pc⟩] } := by
    intro id pc hpc
    have hnone : ∀ id', .created s.threads.length id' ∉ s.log := by
      intro id' hm
      obtain ⟨t, ht, _⟩ := h.made _ _ hm
      have := (List.getElem?_eq_some_iff.1 ht).1
      omega
    refine ⟨?_, ?_⟩
    · intro i t hi
      have hi : (s.threads ++ [⟨id, pc⟩])[i]? = some t := hi
      rw [List.getElem?_append] at hi
      split at hi
      · exact h.told i t hi
      · next hlt =>
        have : i = s.threads.length := by
          have := (List.getElem?_eq_some_iff.1 hi).1
          simp at this
          omega
        subst this
        simp at hi
        subst hi
        rcases hpc with rfl | rfl | rfl
        · exact hnone _
        · exact hnone _
        · refine ⟨by simp, ?_, by simp⟩
          simpa using hnone id
    · intro j id' hj
      obtain ⟨t, ht, h2⟩ := h.made j id' hj
      refine ⟨t, ?_, h2⟩
      show (s.threads ++ [_])[j]? = _
      rw [List.getElem?_append_left (List.getElem?_eq_some_iff.1 ht).1]
      exact ht
  cases a with
  | create q u ok => exact new _ _ (by cases ok <;> simp)
  | delete id => exact new _ _ (by simp)
  | step i hub =>
    simp only [step]
    split
    · exact h
    · next t hi =>
      have hold := h.told i t hi
      have same : ∀ pc, Told s.log i { t with pc := pc } → Tells (goto s i t pc) := by
        intro pc hp
        have := tells_goto h hi pc none (by intro j id e; cases e) (by simpa using hp) s.running s.completed
        simpa [goto] using this
      unfold Told at hold
      unfold advance
      split
      · next hp =>
        rw [hp] at hold
        split
        · exact same _ ⟨by simp, by simpa using hold, by simp⟩
        · exact same _ hold
      · next hp =>
        rw [hp] at hold
        exact tells_goto h hi (.done 201) (some (.created i t.id)) (by intro j id e; cases e; exact ⟨rfl, rfl⟩)
          ⟨by simp, by simp, by simp⟩ _ _
      · next hp =>
        rw [hp] at hold
        split
        · exact same _ ⟨by simp, by simpa using hold, by simp⟩
        · exact same _ hold
      · next hp =>
        rw [hp] at hold
        split
        · exact same _ hold
        · exact same _ ⟨by simp, by simpa using hold, by simp⟩
      · next hp =>
        rw [hp] at hold
        split
        · exact same _ hold
        · exact same _ ⟨by simp, by simpa using hold, by simp⟩
      · next j hp =>
        rw [hp] at hold
        cases hg : s.running.get t.id with
        | none =>
          have := tells_goto h hi (.completeGet j) none (by intro j id e; cases e) (by simpa [Told] using hold)
            (s.running.del t.id) s.completed
          simpa [goto] using this
        | some k =>
          exact tells_goto h hi (.completeGet j) (some (.removed k t.id)) (by intro j id e; cases e)
            (by simpa [Told] using hold) _ _
      · next hp =>
        rw [hp] at hold
        split
        · exact same _ ⟨by simp, by simpa using hold, by simp⟩
        · exact same _ hold
      · next j hp =>
        rw [hp] at hold
        refine tells_goto h hi (.done 200) (some (.deleted j t.id)) (by intro j id e; cases e) ?_ _ _
        exact ⟨by simp, by simpa using hold, fun _ => ⟨j, by simp⟩⟩
      · exact h

/-- C117: whatever requests overlap, a request is answered with 200, 201, 400, 404 or 500: with 201 exactly if it
created a job under the id asked for, and with 200 only if a job of that id was deleted. -/
theorem c117_answers (as : List (Action Id)) (i : Nat) (t : Thread Id) (c : Nat)
    (hi : (run init as).threads[i]? = some t) (hc : t.pc = .done c) :
    c ∈ [200, 201, 400, 404, 500] ∧ (c = 201 ↔ .created i t.id ∈ (run init as).log) ∧
      (c = 200 → ∃ j, .deleted j t.id ∈ (run init as).log) := by
  have key : ∀ (as : List (Action Id)) (s : State Id), Tells s → Tells (run s as) := by
    intro as
    induction as with
    | nil => intro s h; exact h
    | cons a as ih => intro s h; exact ih _ (tells_step h a)
  have h := (key as init ⟨by intro i t h; simp [init] at h, by intro i id h; simp [init] at h⟩).told i t hi
  unfold Told at h
  rw [hc] at h
  exact h

example : (run init (someHistory ++ someRest)).threads.map (·.pc) = [.done 201, .done 201, .done 200] := by
  decide +kernel

/-- C117, but an answer of 500 does not say that nothing was done: the job is no longer listed. -/
theorem c117_error_violated : ∃ (as : List (Action String)) (i : Nat) (j : Job),
    (run init as).threads[i]? = some ⟨"a", .done 500⟩ ∧ .created j "a" ∈ (run init as).log ∧
    .removed j "a" ∈ (run init as).log ∧ (run init as).running.get "a" = none ∧
    .deleted j "a" ∉ (run init as).log :=
  ⟨[.create (some "a") "u" true, .step 0 true, .step 0 true, .delete "a"] ++
      List.replicate 6 (.step 1 true) ++ [.create (some "a") "u" true, .step 2 true, .step 2 true, .delete "a"] ++
      List.replicate 6 (.step 3 true), 3, 2, by decide +kernel⟩

end Swoll.Props.Server
