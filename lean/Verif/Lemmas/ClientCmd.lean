import Verif.Spec.ClientCmd
/-
Invariants of the commands of `swoll client`.
-/
namespace Swoll.Lemmas.ClientCmd
open Swoll.ClientCmd Swoll.Spec.ClientCmd

/-- What holds at the beginning and is kept by every action holds in the end. -/
theorem run_inv (c : Cmd) (P : St → Prop) (hstep : ∀ st a st', P st → step c st a = some st' → P st') :
    ∀ acts st st', P st → run c st acts = some st' → P st' := by
  intro acts
  induction acts with
  | nil => intro st st' h hr; simp only [run, Option.some.injEq] at hr; exact hr ▸ h
  | cons a as ih =>
    intro st st' h hr
    simp only [run] at hr
    split at hr
    · exact absurd hr (by simp)
    · rename_i st1 h1; exact ih st1 st' (hstep st a st1 h h1) hr

/-- The same, where only the actions of the history need to keep it. -/
theorem run_inv_mem (c : Cmd) (P : St → Prop) : ∀ acts,
    (∀ st a st', a ∈ acts → P st → step c st a = some st' → P st') →
    ∀ st st', P st → run c st acts = some st' → P st' := by
  intro acts
  induction acts with
  | nil => intro _ st st' h hr; simp only [run, Option.some.injEq] at hr; exact hr ▸ h
  | cons a as ih =>
    intro hstep st st' h hr
    simp only [run] at hr
    split at hr
    · exact absurd hr (by simp)
    · rename_i st1 h1
      exact ih (fun st a st' ha => hstep st a st' (List.mem_cons_of_mem _ ha)) st1 st'
        (hstep st a st1 (List.mem_cons_self) h h1) hr

theorem run_append (c : Cmd) : ∀ as bs st st', run c st (as ++ bs) = some st' ↔
    ∃ st1, run c st as = some st1 ∧ run c st1 bs = some st' := by
  intro as
  induction as with
  | nil => intro bs st st'; simp [run]
  | cons a as ih =>
    intro bs st st'
    simp only [List.cons_append, run]
    cases step c st a with
    | none => simp
    | some s1 => simp [ih]

theorem mem_add (jobs : Jobs) (s : Server) (id : Id) (t : Server) (j : Id) :
    j ∈ jobs.add s id t ↔ (t = s ∧ j = id) ∨ j ∈ jobs t := by
  unfold Jobs.add
  by_cases h : t = s <;> simp [h]

theorem mem_remove (jobs : Jobs) (s : Server) (id : Id) (t : Server) (j : Id) :
    j ∈ jobs.remove s id t ↔ j ∈ jobs t ∧ ¬ (t = s ∧ j = id) := by
  unfold Jobs.remove
  by_cases h : t = s <;> simp [h]

/-- What a request to create does. -/
theorem post_cases {jobs : Jobs} {s : Server} {id : Id} {r : Created} {p : Jobs × Bool}
    (h : post jobs s id r = some p) :
    (p = (jobs.add s id, true) ∧ r = .ok ∧ id ∉ jobs s) ∨ (p = (jobs, false) ∧ r = .refused) ∨
      (p = (jobs.add s id, false) ∧ r = .lost ∧ id ∉ jobs s) := by
  cases r <;> simp only [post] at h
  · split at h
    · exact absurd h (by simp)
    · rename_i hn; injection h with h; exact .inl ⟨h.symm, rfl, hn⟩
  · injection h with h; exact .inr (.inl ⟨h.symm, rfl⟩)
  · split at h
    · exact absurd h (by simp)
    · rename_i hn; injection h with h; exact .inr (.inr ⟨h.symm, rfl, hn⟩)

/-- What a request to delete does. -/
theorem del_cases {jobs : Jobs} {s : Server} {id : Id} {r : Deleted} {p : Jobs × Bool}
    (h : del jobs s id r = some p) :
    (p.1 = jobs.remove s id ∧ (r = .ok ∧ p.2 = true ∨ r = .lost ∧ p.2 = false) ∧ id ∈ jobs s) ∨
      (p = (jobs, false) ∧ (r = .absent ∧ id ∉ jobs s ∨ r = .failed)) := by
  cases r <;> simp only [del] at h
  · split at h
    · rename_i hn; injection h with h; subst h; exact .inl ⟨rfl, .inl ⟨rfl, rfl⟩, hn⟩
    · exact absurd h (by simp)
  · split at h
    · exact absurd h (by simp)
    · rename_i hn; injection h with h; exact .inr ⟨h.symm, .inl ⟨rfl, hn⟩⟩
  · injection h with h; exact .inr ⟨h.symm, .inr rfl⟩
  · split at h
    · rename_i hn; injection h with h; subst h; exact .inl ⟨rfl, .inr ⟨rfl, rfl⟩, hn⟩
    · exact absurd h (by simp)

/-- An answer to CreateTrace, taken apart. -/
theorem createdStep_cases {c : Cmd} {st st' : St} {r : Created} (h : createdStep c st r = some st') :
    st.phase = .posting ∧
    ((r = .ok ∧ st.cancelled = false ∧ c.id ∉ st.jobs st.ep ∧
        st' = { st with
          jobs := st.jobs.add st.ep c.id, phase := .head, idx := st.idx + 1
          workers := if c.oneshot then st.workers ++ [.ready] else st.workers }) ∨
     (r = .refused ∧ st' = { st with phase := .ended 1 }) ∨
     (r = .lost ∧ c.id ∉ st.jobs st.ep ∧
        st' = { st with jobs := st.jobs.add st.ep c.id, phase := .ended 1 })) := by
  unfold createdStep at h
  split at h
  · exact absurd h (by simp)
  · rename_i hp
    simp only [ne_eq, not_or, Decidable.not_not, not_and] at hp
    refine ⟨hp.1, ?_⟩
    cases hpost : post st.jobs st.ep c.id r with
    | none => rw [hpost] at h; exact absurd h (by simp)
    | some p =>
      rw [hpost] at h
      rcases post_cases hpost with ⟨rfl, hr, hn⟩ | ⟨rfl, hr⟩ | ⟨rfl, hr, hn⟩
      · refine .inl ⟨hr, ?_, hn, ?_⟩
        · cases hc : st.cancelled
          · rfl
          · exact absurd hr (hp.2 hc)
        · simpa using h.symm
      · exact .inr (.inl ⟨hr, by simpa using h.symm⟩)
      · exact .inr (.inr ⟨hr, hn, by simpa using h.symm⟩)

/-- A step of the main goroutine, taken apart. -/
theorem nextStep_cases {c : Cmd} {st st' : St} (h : nextStep c st = some st') :
    (∃ s, st.phase = .head ∧ c.eps[st.idx]? = some s ∧ st' = { st with phase := .posting, ep := s }) ∨
    (st.phase = .head ∧ c.eps[st.idx]? = none ∧
      st' = { st with phase := if c.oneshot then .looping else .waiting }) ∨
    (st.phase = .looping ∧ st.cancelled = true ∧ st' = { st with phase := .waiting }) ∨
    (st.phase = .waiting ∧ (∀ p ∈ st.workers, p = .finished) ∧ st' = { st with phase := .ended 0 }) := by
  unfold nextStep at h
  split at h
  · rename_i hp
    cases he : c.eps[st.idx]? with
    | none => rw [he] at h; exact .inr (.inl ⟨hp, rfl, by simpa using h.symm⟩)
    | some s => rw [he] at h; exact .inl ⟨s, hp, rfl, by simpa using h.symm⟩
  · rename_i hp
    split at h
    · rename_i hc; exact .inr (.inr (.inl ⟨hp, hc, by simpa using h.symm⟩))
    · exact absurd h (by simp)
  · rename_i hp
    split at h
    · rename_i hc
      refine .inr (.inr (.inr ⟨hp, ?_, by simpa using h.symm⟩))
      intro p hp'
      have := List.all_eq_true.mp hc p hp'
      simpa using this
    · exact absurd h (by simp)
  · exact absurd h (by simp)

/-- A goroutine deals with a message: only its place and what is printed change. -/
theorem readStep_cases {c : Cmd} {st st' : St} {k : Nat} (h : readStep c st k = some st') :
    ∃ s m queue pc printed, st.workers[k]? = some (.reading s (m :: queue)) ∧
      st' = { st with workers := st.workers.set k pc, printed := printed } ∧
      (pc = .reading s queue ∧ m ≠ .tooLong ∨ pc = .deleting ∧ m = .tooLong) ∧
      (∀ ev, m = .event ev → st.phase = .looping) := by
  unfold readStep at h
  split at h
  · rename_i s ev queue hk
    split at h
    · rename_i hp
      exact ⟨s, .event ev, queue, _, _, hk, by simpa using h.symm, .inl ⟨rfl, by simp⟩, fun _ _ => hp⟩
    · exact absurd h (by simp)
  · rename_i s queue hk
    exact ⟨s, .undecodable, queue, _, st.printed, hk, by simpa using h.symm, .inl ⟨rfl, by simp⟩,
      fun _ h => by cases h⟩
  · rename_i s queue hk
    exact ⟨s, .tooLong, queue, _, st.printed, hk, by simpa using h.symm, .inr ⟨rfl, rfl⟩,
      fun _ h => by cases h⟩
  · exact absurd h (by simp)

/-- Every action, taken apart. -/
theorem step_cases {c : Cmd} {st st' : St} {a : Act} (h : step c st a = some st') :
    st.phase.over = false ∧ (
    (a = .signal ∧ st.cancelled = true ∧ st' = { st with phase := .ended 2 }) ∨
    (a = .signal ∧ st.cancelled = false ∧ st' = { st with cancelled := true }) ∨
    (a = .next ∧ nextStep c st = some st') ∨
    (∃ r, a = .created r ∧ createdStep c st r = some st') ∨
    (∃ k, a = .connect k ∧ st.workers[k]? = some .ready ∧ c.id ∈ st.jobs st.ep ∧ st.cancelled = false ∧
      st' = { st with workers := st.workers.set k (.reading st.ep []) }) ∨
    (∃ k, a = .unconnected k ∧ st.workers[k]? = some .ready ∧
      st' = { st with workers := st.workers.set k .deleting }) ∨
    (∃ s m, a = .publish s m ∧ st' = { st with workers := st.workers.map (deliver s m) }) ∨
    (∃ k, a = .read k ∧ readStep c st k = some st') ∨
    (∃ k s q, a = .hangup k ∧ st.workers[k]? = some (.reading s q) ∧
      st' = { st with workers := st.workers.set k .deleting }) ∨
    (∃ k r p, a = .deleted k r ∧ st.workers[k]? = some .deleting ∧ del st.jobs st.ep c.id r = some p ∧
      st' = { st with jobs := p.1, workers := st.workers.set k .finished })) := by
  unfold step at h
  split at h
  · exact absurd h (by simp)
  · rename_i ho
    refine ⟨by simpa using ho, ?_⟩
    cases a with
    | signal =>
      by_cases hc : st.cancelled = true
      · exact .inl ⟨rfl, hc, by simpa [hc] using h.symm⟩
      · exact .inr (.inl ⟨rfl, by simpa using hc, by simpa [hc] using h.symm⟩)
    | next => exact .inr (.inr (.inl ⟨rfl, h⟩))
    | created r => exact .inr (.inr (.inr (.inl ⟨r, rfl, h⟩)))
    | connect k =>
      simp only at h
      split at h
      · rename_i hk
        exact .inr (.inr (.inr (.inr (.inl ⟨k, rfl, hk.1, hk.2.2, hk.2.1, by simpa using h.symm⟩))))
      · exact absurd h (by simp)
    | unconnected k =>
      simp only at h
      split at h
      · rename_i hk
        exact .inr (.inr (.inr (.inr (.inr (.inl ⟨k, rfl, hk, by simpa using h.symm⟩)))))
      · exact absurd h (by simp)
    | publish s m =>
      exact .inr (.inr (.inr (.inr (.inr (.inr (.inl ⟨s, m, rfl, by simpa using h.symm⟩))))))
    | read k => exact .inr (.inr (.inr (.inr (.inr (.inr (.inr (.inl ⟨k, rfl, h⟩)))))))
    | hangup k =>
      simp only at h
      split at h
      · rename_i s q hk
        exact .inr (.inr (.inr (.inr (.inr (.inr (.inr (.inr (.inl
          ⟨k, s, q, rfl, hk, by simpa using h.symm⟩))))))))
      · exact absurd h (by simp)
    | deleted k r =>
      simp only at h
      split at h
      · rename_i hk
        cases hd : del st.jobs st.ep c.id r with
        | none => rw [hd] at h; exact absurd h (by simp)
        | some p =>
          rw [hd] at h
          exact .inr (.inr (.inr (.inr (.inr (.inr (.inr (.inr (.inr
            ⟨k, r, p, rfl, hk, hd, by simpa using h.symm⟩))))))))
      · exact absurd h (by simp)

/-! ### Which endpoint -/

/-- The request in hand is for the endpoint whose turn it is. -/
def Turn (c : Cmd) (st : St) : Prop :=
  st.idx ≤ c.eps.length ∧ (st.phase = .posting → c.eps[st.idx]? = some st.ep) ∧
  (st.phase = .looping ∨ st.phase = .waiting ∨ st.phase = .ended 0 → st.idx = c.eps.length) ∧
  (st.workers ≠ [] → st.ep ∈ c.eps)

theorem turn_start (c : Cmd) (jobs : Jobs) : Turn c (start jobs) :=
  ⟨Nat.zero_le _, by simp [start], by simp [start], by simp [start]⟩

theorem set_ne_nil {α : Type} {l : List α} {k : Nat} {x y : α} (h : l[k]? = some x) : l ≠ [] ∧ l.set k y ≠ [] := by
  constructor
  · rintro rfl; simp at h
  · intro h'; have : l = [] := by simpa using h'
    subst this; simp at h

theorem turn_step {c : Cmd} {st st' : St} {a : Act} (hi : Turn c st) (h : step c st a = some st') :
    Turn c st' := by
  obtain ⟨h1, h2, h3, h4⟩ := hi
  obtain ⟨hov, h⟩ := step_cases h
  rcases h with ⟨_, _, rfl⟩ | ⟨_, _, rfl⟩ | ⟨_, h⟩ | ⟨r, _, h⟩ | ⟨k, _, hk, _, _, rfl⟩ | ⟨k, _, hk, rfl⟩ |
    ⟨s, m, _, rfl⟩ | ⟨k, _, h⟩ | ⟨k, s, q, _, hk, rfl⟩ | ⟨k, r, p, _, hk, _, rfl⟩
  · exact ⟨h1, by simp, by simp, h4⟩
  · exact ⟨h1, h2, h3, h4⟩
  · rcases nextStep_cases h with ⟨s, hp, he, rfl⟩ | ⟨hp, he, rfl⟩ | ⟨hp, _, rfl⟩ | ⟨hp, _, rfl⟩
    · exact ⟨h1, fun _ => he, by simp, fun _ => List.mem_of_getElem? he⟩
    · have : st.idx = c.eps.length := by
        have := List.getElem?_eq_none_iff.mp he
        omega
      exact ⟨h1, by cases c.oneshot <;> simp, fun _ => this, h4⟩
    · exact ⟨h1, by simp, fun _ => h3 (.inl hp), h4⟩
    · exact ⟨h1, by simp, fun _ => h3 (.inr (.inl hp)), h4⟩
  · obtain ⟨hp, h⟩ := createdStep_cases h
    have he := h2 hp
    have hlt : st.idx < c.eps.length := by
      rcases Nat.lt_or_ge st.idx c.eps.length with h | h
      · exact h
      · rw [List.getElem?_eq_none_iff.mpr h] at he; simp at he
    rcases h with ⟨_, _, _, rfl⟩ | ⟨_, rfl⟩ | ⟨_, _, rfl⟩
    · exact ⟨hlt, by simp, by simp, fun _ => List.mem_of_getElem? he⟩
    · exact ⟨h1, by simp, by simp, h4⟩
    · exact ⟨h1, by simp, by simp, h4⟩
  · exact ⟨h1, h2, h3, fun _ => h4 (set_ne_nil (y := Pc.ready) hk).1⟩
  · exact ⟨h1, h2, h3, fun _ => h4 (set_ne_nil (y := Pc.ready) hk).1⟩
  · exact ⟨h1, h2, h3, fun h => h4 (by simpa using h)⟩
  · obtain ⟨s, m, q, pc, pr, hk, rfl, _, _⟩ := readStep_cases h
    exact ⟨h1, h2, h3, fun _ => h4 (set_ne_nil (y := Pc.ready) hk).1⟩
  · exact ⟨h1, h2, h3, fun _ => h4 (set_ne_nil (y := Pc.ready) hk).1⟩
  · exact ⟨h1, h2, h3, fun _ => h4 (set_ne_nil (y := Pc.ready) hk).1⟩

theorem turn_run {c : Cmd} {jobs : Jobs} {acts : List Act} {st : St}
    (h : run c (start jobs) acts = some st) : Turn c st :=
  run_inv c (Turn c) (fun _ _ _ => turn_step) acts _ _ (turn_start c jobs) h

/-- No action touches a job of another name, or a server that is not an endpoint. -/
theorem untouched_step {c : Cmd} {st st' : St} {a : Act} (hi : Turn c st) (h : step c st a = some st')
    (s : Server) (j : Id) (hsj : s ∉ c.eps ∨ j ≠ c.id) : j ∈ st'.jobs s ↔ j ∈ st.jobs s := by
  obtain ⟨h1, h2, h3, h4⟩ := hi
  have hep : (st.phase = .posting ∨ st.workers ≠ []) → ¬ (s = st.ep ∧ j = c.id) := by
    intro hw hs
    have : st.ep ∈ c.eps := by
      rcases hw with hw | hw
      · exact List.mem_of_getElem? (h2 hw)
      · exact h4 hw
    rcases hsj with h | h
    · exact h (hs.1 ▸ this)
    · exact h hs.2
  obtain ⟨hov, h⟩ := step_cases h
  rcases h with ⟨_, _, rfl⟩ | ⟨_, _, rfl⟩ | ⟨_, h⟩ | ⟨r, _, h⟩ | ⟨k, _, hk, _, _, rfl⟩ | ⟨k, _, hk, rfl⟩ |
    ⟨s, m, _, rfl⟩ | ⟨k, _, h⟩ | ⟨k, s, q, _, hk, rfl⟩ | ⟨k, r, p, _, hk, hd, rfl⟩
  any_goals exact Iff.rfl
  · rcases nextStep_cases h with ⟨s, hp, he, rfl⟩ | ⟨hp, he, rfl⟩ | ⟨hp, _, rfl⟩ | ⟨hp, _, rfl⟩ <;> exact Iff.rfl
  · obtain ⟨hp, h⟩ := createdStep_cases h
    have := hep (.inl hp)
    rcases h with ⟨_, _, _, rfl⟩ | ⟨_, rfl⟩ | ⟨_, _, rfl⟩
    · simp only [mem_add]; exact ⟨fun h => h.resolve_left this, .inr⟩
    · exact Iff.rfl
    · simp only [mem_add]; exact ⟨fun h => h.resolve_left this, .inr⟩
  · obtain ⟨s, m, q, pc, pr, hk, rfl, _, _⟩ := readStep_cases h
    exact Iff.rfl
  · have := hep (.inr (set_ne_nil (y := Pc.ready) hk).1)
    rcases del_cases hd with ⟨he, _, _⟩ | ⟨rfl, _⟩
    · simp only [he, mem_remove]; exact ⟨fun h => h.1, fun h => ⟨h, this⟩⟩
    · exact Iff.rfl

/-! ### Creating -/

/-- Without `--oneshot`: which servers have the job. -/
def Made (c : Cmd) (jobs : Jobs) (st : St) : Prop :=
  st.workers = [] ∧ (∀ s ∈ c.eps.take st.idx, c.id ∈ st.jobs s) ∧
  (st.phase ≠ .ended 1 → ∀ s, s ∉ c.eps.take st.idx → st.jobs s = jobs s) ∧
  (st.phase = .ended 1 → st.idx < c.eps.length ∧ ∀ s, s ∉ c.eps.take (st.idx + 1) → st.jobs s = jobs s)

theorem made_start (c : Cmd) (jobs : Jobs) : Made c jobs (start jobs) :=
  ⟨rfl, by simp [start], by simp [start], by simp [start]⟩

theorem take_turn {c : Cmd} {i : Nat} {e : Server} (h : c.eps[i]? = some e) :
    c.eps.take (i + 1) = c.eps.take i ++ [e] := by
  rw [List.take_add_one, h]; rfl

theorem made_step {c : Cmd} {jobs : Jobs} {st st' : St} {a : Act} (ho : c.oneshot = false)
    (ht : Turn c st) (hi : Made c jobs st) (h : step c st a = some st') : Made c jobs st' := by
  obtain ⟨hw, hall, hrest, hstop⟩ := hi
  obtain ⟨hov, h⟩ := step_cases h
  have hne : ∀ code, st.phase ≠ .ended code := by
    intro code hc; rw [hc] at hov; simp [Phase.over] at hov
  have hnone : ∀ k : Nat, st.workers[k]? = none := by intro k; rw [hw]; rfl
  rcases h with ⟨_, _, rfl⟩ | ⟨_, _, rfl⟩ | ⟨_, h⟩ | ⟨r, _, h⟩ | ⟨k, _, hk, _, _, rfl⟩ | ⟨k, _, hk, rfl⟩ |
    ⟨s, m, _, rfl⟩ | ⟨k, _, h⟩ | ⟨k, s, q, _, hk, rfl⟩ | ⟨k, r, p, _, hk, hd, rfl⟩
  · exact ⟨hw, hall, fun _ => hrest (hne 1), by simp⟩
  · exact ⟨hw, hall, hrest, hstop⟩
  · rcases nextStep_cases h with ⟨s, hp, he, rfl⟩ | ⟨hp, he, rfl⟩ | ⟨hp, _, rfl⟩ | ⟨hp, _, rfl⟩
    · exact ⟨hw, hall, fun _ => hrest (hne 1), by simp⟩
    · exact ⟨hw, hall, fun _ => hrest (hne 1), by simp [ho]⟩
    · exact ⟨hw, hall, fun _ => hrest (hne 1), by simp⟩
    · exact ⟨hw, hall, fun _ => hrest (hne 1), by simp⟩
  · obtain ⟨hp, h⟩ := createdStep_cases h
    have he := ht.2.1 hp
    have hlt : st.idx < c.eps.length := by
      rcases Nat.lt_or_ge st.idx c.eps.length with h | h
      · exact h
      · rw [List.getElem?_eq_none_iff.mpr h] at he; simp at he
    have hadd : ∀ s, s ∉ c.eps.take (st.idx + 1) → st.jobs.add st.ep c.id s = jobs s := by
      intro s hs
      rw [take_turn he] at hs
      simp only [List.mem_append, List.mem_singleton, not_or] at hs
      simp only [Jobs.add, hs.2, if_false]
      exact hrest (hne 1) s hs.1
    rcases h with ⟨_, _, _, rfl⟩ | ⟨_, rfl⟩ | ⟨_, _, rfl⟩
    · refine ⟨by simp [ho, hw], ?_, fun _ => hadd, by simp⟩
      intro s hs
      simp only [take_turn he, List.mem_append, List.mem_singleton] at hs
      simp only [mem_add]
      rcases hs with hs | hs
      · exact .inr (hall s hs)
      · exact .inl ⟨hs, trivial⟩
    · refine ⟨hw, hall, by simp, fun _ => ⟨hlt, ?_⟩⟩
      intro s hs
      rw [take_turn he] at hs
      simp only [List.mem_append, not_or] at hs
      exact hrest (hne 1) s hs.1
    · refine ⟨hw, ?_, by simp, fun _ => ⟨hlt, hadd⟩⟩
      intro s hs
      simp only [mem_add]
      exact .inr (hall s hs)
  · rw [hnone] at hk; simp at hk
  · rw [hnone] at hk; simp at hk
  · exact ⟨by simp [hw], hall, hrest, hstop⟩
  · obtain ⟨s, m, q, pc, pr, hk, _⟩ := readStep_cases h
    rw [hnone] at hk; simp at hk
  · rw [hnone] at hk; simp at hk
  · rw [hnone] at hk; simp at hk

theorem made_run {c : Cmd} {jobs : Jobs} {acts : List Act} {st : St} (ho : c.oneshot = false)
    (h : run c (start jobs) acts = some st) : Turn c st ∧ Made c jobs st :=
  run_inv c (fun st => Turn c st ∧ Made c jobs st)
    (fun _ _ _ hi hs => ⟨turn_step hi.1 hs, made_step ho hi.1 hi.2 hs⟩) acts _ _
    ⟨turn_start c jobs, made_start c jobs⟩ h

/-! ### One shot -/

/-- Somebody is still going to delete the job. -/
def Pending (ws : List Pc) : Prop := ∃ p ∈ ws, p ≠ Pc.finished

theorem pending_set {ws : List Pc} {k : Nat} {p : Pc} (hk : k < ws.length) (hp : p ≠ .finished) :
    Pending (ws.set k p) := ⟨p, List.mem_set hk p, hp⟩

theorem pending_map {ws : List Pc} {s : Server} {m : Msg} (h : Pending ws) :
    Pending (ws.map (deliver s m)) := by
  obtain ⟨p, hp, hn⟩ := h
  refine ⟨_, List.mem_map_of_mem (f := deliver s m) hp, ?_⟩
  cases p <;> simp_all [deliver]

theorem lt_of_some {α : Type} {l : List α} {k : Nat} {x : α} (h : l[k]? = some x) : k < l.length := by
  rcases Nat.lt_or_ge k l.length with h' | h'
  · exact h'
  · rw [List.getElem?_eq_none_iff.mpr h'] at h; simp at h

/-- The last endpoint has the job only as long as somebody is going to delete it there. -/
def LastKept (c : Cmd) (e : Server) (st : St) : Prop :=
  (st.idx = c.eps.length → st.ep = e ∧ (c.id ∈ st.jobs e → Pending st.workers)) ∧
  (st.phase = .ended 0 → ∀ p ∈ st.workers, p = Pc.finished)

theorem last_step {c : Cmd} {init : List Server} {e : Server} (he : c.eps = init ++ [e])
    (ho : c.oneshot = true) {st st' : St} {a : Act} (ha : ∀ k, a ≠ .deleted k .failed)
    (ht : Turn c st) (hi : LastKept c e st) (h : step c st a = some st') : LastKept c e st' := by
  obtain ⟨h1, hfin⟩ := hi
  obtain ⟨hov, h⟩ := step_cases h
  have hne : ∀ code, st.phase ≠ .ended code := by
    intro code hc; rw [hc] at hov; simp [Phase.over] at hov
  rcases h with ⟨_, _, rfl⟩ | ⟨_, _, rfl⟩ | ⟨_, h⟩ | ⟨r, _, h⟩ | ⟨k, _, hk, _, _, rfl⟩ | ⟨k, _, hk, rfl⟩ |
    ⟨s, m, _, rfl⟩ | ⟨k, _, h⟩ | ⟨k, s, q, _, hk, rfl⟩ | ⟨k, r, p, rfl, hk, hd, rfl⟩
  · exact ⟨h1, by simp⟩
  · exact ⟨h1, fun h => absurd h (hne 0)⟩
  · rcases nextStep_cases h with ⟨s, hp, hs, rfl⟩ | ⟨hp, hs, rfl⟩ | ⟨hp, _, rfl⟩ | ⟨hp, hall, rfl⟩
    · refine ⟨?_, by simp⟩
      intro hidx
      have := lt_of_some hs
      simp only at hidx
      omega
    · exact ⟨h1, by simp [ho]⟩
    · exact ⟨h1, by simp⟩
    · exact ⟨h1, fun _ => hall⟩
  · obtain ⟨hp, h⟩ := createdStep_cases h
    have hs := ht.2.1 hp
    have hlt := lt_of_some hs
    rcases h with ⟨_, _, _, rfl⟩ | ⟨_, rfl⟩ | ⟨_, _, rfl⟩
    · refine ⟨fun hidx => ⟨?_, fun _ => ⟨.ready, by simp [ho], by simp⟩⟩, by simp⟩
      simp only at hidx
      have hl : st.idx = init.length := by
        have : c.eps.length = init.length + 1 := by rw [he]; simp
        omega
      have hh : c.eps[st.idx]? = some e := by rw [he, hl]; simp
      rw [hs] at hh; exact Option.some.inj hh
    · exact ⟨fun hidx => absurd hidx (by simp only; omega), by simp⟩
    · exact ⟨fun hidx => absurd hidx (by simp only; omega), by simp⟩
  · exact ⟨fun hidx => ⟨(h1 hidx).1, fun _ => pending_set (lt_of_some hk) (by simp)⟩, fun h => absurd h (hne 0)⟩
  · exact ⟨fun hidx => ⟨(h1 hidx).1, fun _ => pending_set (lt_of_some hk) (by simp)⟩, fun h => absurd h (hne 0)⟩
  · exact ⟨fun hidx => ⟨(h1 hidx).1, fun hj => pending_map ((h1 hidx).2 hj)⟩, fun h => absurd h (hne 0)⟩
  · obtain ⟨s, m, q, pc, pr, hk, rfl, hpc, _⟩ := readStep_cases h
    refine ⟨fun hidx => ⟨(h1 hidx).1, fun _ => pending_set (lt_of_some hk) ?_⟩, fun h => absurd h (hne 0)⟩
    rcases hpc with ⟨rfl, _⟩ | ⟨rfl, _⟩ <;> simp
  · exact ⟨fun hidx => ⟨(h1 hidx).1, fun _ => pending_set (lt_of_some hk) (by simp)⟩, fun h => absurd h (hne 0)⟩
  · refine ⟨fun hidx => ⟨(h1 hidx).1, ?_⟩, fun h => absurd h (hne 0)⟩
    intro hj
    simp only at hj hidx
    rcases del_cases hd with ⟨hp, _, _⟩ | ⟨rfl, ⟨_, hn⟩ | hr⟩
    · rw [hp, mem_remove] at hj
      exact absurd ⟨(h1 hidx).1.symm, rfl⟩ hj.2
    · rw [(h1 hidx).1] at hn; exact absurd hj hn
    · exact absurd (by rw [hr]) (ha k)

/-- As long as nothing has been deleted, all endpoints dealt with have the job. -/
def AllKept (c : Cmd) (st : St) : Prop :=
  (∀ p ∈ st.workers, p ≠ Pc.finished) → ∀ s ∈ c.eps.take st.idx, c.id ∈ st.jobs s

theorem not_finished_of_set {ws : List Pc} {k : Nat} {p q : Pc} (hk : ws[k]? = some q) (hq : q ≠ .finished)
    (h : ∀ x ∈ ws.set k p, x ≠ Pc.finished) : ∀ x ∈ ws, x ≠ Pc.finished := by
  intro x hx hf
  obtain ⟨i, hi⟩ := List.getElem?_of_mem hx
  by_cases hik : k = i
  · subst hik; rw [hi] at hk; exact hq (Option.some.inj hk ▸ hf)
  · refine h x (List.mem_of_getElem? (i := i) ?_) hf
    rw [List.getElem?_set_ne hik, hi]

theorem allKept_step {c : Cmd} {st st' : St} {a : Act} (ht : Turn c st) (hi : AllKept c st)
    (h : step c st a = some st') : AllKept c st' := by
  obtain ⟨hov, h⟩ := step_cases h
  rcases h with ⟨_, _, rfl⟩ | ⟨_, _, rfl⟩ | ⟨_, h⟩ | ⟨r, _, h⟩ | ⟨k, _, hk, _, _, rfl⟩ | ⟨k, _, hk, rfl⟩ |
    ⟨s, m, _, rfl⟩ | ⟨k, _, h⟩ | ⟨k, s, q, _, hk, rfl⟩ | ⟨k, r, p, rfl, hk, hd, rfl⟩
  · exact hi
  · exact hi
  · rcases nextStep_cases h with ⟨s, hp, hs, rfl⟩ | ⟨hp, hs, rfl⟩ | ⟨hp, _, rfl⟩ | ⟨hp, hall, rfl⟩ <;> exact hi
  · obtain ⟨hp, h⟩ := createdStep_cases h
    have hs := ht.2.1 hp
    rcases h with ⟨_, _, _, rfl⟩ | ⟨_, rfl⟩ | ⟨_, _, rfl⟩
    · intro hw s hs'
      simp only [take_turn hs, List.mem_append, List.mem_singleton] at hs'
      simp only [mem_add]
      rcases hs' with hs' | hs'
      · refine .inr (hi (fun p hp => hw p ?_) s hs')
        simp only; split
        · simp [hp]
        · exact hp
      · exact .inl ⟨hs', trivial⟩
    · exact hi
    · intro hw s hs'
      simp only [mem_add]
      exact .inr (hi hw s hs')
  · exact fun hw => hi (not_finished_of_set hk (by simp) hw)
  · exact fun hw => hi (not_finished_of_set hk (by simp) hw)
  · intro hw
    refine hi (fun p hp hf => hw _ (List.mem_map_of_mem (f := deliver s m) hp) ?_)
    subst hf; rfl
  · obtain ⟨s, m, q, pc, pr, hk, rfl, hpc, _⟩ := readStep_cases h
    exact fun hw => hi (not_finished_of_set hk (by simp) hw)
  · exact fun hw => hi (not_finished_of_set hk (by simp) hw)
  · intro hw
    exact absurd rfl (hw .finished (List.mem_set (lt_of_some hk) _))

/-- Once all endpoints have been dealt with, only the last one is talked to. -/
def Stranded (c : Cmd) (e : Server) (st : St) : Prop :=
  (st.phase = .looping ∨ st.phase = .waiting ∨ st.phase.over = true) ∧ st.ep = e ∧
  ∀ s ∈ c.eps, s ≠ e → c.id ∈ st.jobs s

theorem stranded_step {c : Cmd} {e : Server} {st st' : St} {a : Act} (hi : Stranded c e st)
    (h : step c st a = some st') : Stranded c e st' := by
  obtain ⟨hph, hep, hall⟩ := hi
  obtain ⟨hov, h⟩ := step_cases h
  rcases h with ⟨_, _, rfl⟩ | ⟨_, _, rfl⟩ | ⟨_, h⟩ | ⟨r, _, h⟩ | ⟨k, _, hk, _, _, rfl⟩ | ⟨k, _, hk, rfl⟩ |
    ⟨s, m, _, rfl⟩ | ⟨k, _, h⟩ | ⟨k, s, q, _, hk, rfl⟩ | ⟨k, r, p, rfl, hk, hd, rfl⟩
  · exact ⟨.inr (.inr rfl), hep, hall⟩
  · exact ⟨hph, hep, hall⟩
  · rcases nextStep_cases h with ⟨s, hp, hs, rfl⟩ | ⟨hp, hs, rfl⟩ | ⟨hp, _, rfl⟩ | ⟨hp, _, rfl⟩
    · rw [hp] at hph; simp [Phase.over] at hph
    · rw [hp] at hph; simp [Phase.over] at hph
    · exact ⟨.inr (.inl rfl), hep, hall⟩
    · exact ⟨.inr (.inr rfl), hep, hall⟩
  · obtain ⟨hp, h⟩ := createdStep_cases h
    rw [hp] at hph; simp [Phase.over] at hph
  · exact ⟨hph, hep, hall⟩
  · exact ⟨hph, hep, hall⟩
  · exact ⟨hph, hep, hall⟩
  · obtain ⟨s, m, q, pc, pr, hk, rfl, hpc, _⟩ := readStep_cases h
    exact ⟨hph, hep, hall⟩
  · exact ⟨hph, hep, hall⟩
  · refine ⟨hph, hep, ?_⟩
    intro s hs hne
    rcases del_cases hd with ⟨hp, _, _⟩ | ⟨rfl, _⟩
    · simp only [hp, mem_remove]
      exact ⟨hall s hs hne, fun h => hne (h.1.trans hep)⟩
    · exact hall s hs hne

/-- Once all endpoints have been dealt with, the variable of the loop is the last one. -/
theorem last_ep {c : Cmd} {init : List Server} {e : Server} (heps : c.eps = init ++ [e]) {jobs : Jobs}
    {acts : List Act} {st : St} (h : run c (start jobs) acts = some st) (hidx : st.idx = c.eps.length) :
    st.ep = e := by
  refine (run_inv c (fun st => Turn c st ∧ (st.idx = c.eps.length → st.ep = e)) ?_ acts _ _
    ⟨turn_start c jobs, fun h => by rw [heps] at h; simp [start] at h⟩ h).2 hidx
  intro st a st' hi hs
  refine ⟨turn_step hi.1 hs, ?_⟩
  obtain ⟨hov, hc⟩ := step_cases hs
  clear hs
  rcases hc with ⟨_, _, rfl⟩ | ⟨_, _, rfl⟩ | ⟨_, h⟩ | ⟨r, _, h⟩ | ⟨k, _, hk, _, _, rfl⟩ |
    ⟨k, _, hk, rfl⟩ | ⟨s, m, _, rfl⟩ | ⟨k, _, h⟩ | ⟨k, s, q, _, hk, rfl⟩ | ⟨k, r, p, rfl, hk, hd, rfl⟩
  any_goals exact hi.2
  · rcases nextStep_cases h with ⟨s, hp, hs, rfl⟩ | ⟨hp, hs, rfl⟩ | ⟨hp, _, rfl⟩ | ⟨hp, hall, rfl⟩
    · intro hidx
      have := lt_of_some hs
      simp only at hidx; omega
    all_goals exact hi.2
  · obtain ⟨hp, h⟩ := createdStep_cases h
    have hs := hi.1.2.1 hp
    have hlt := lt_of_some hs
    rcases h with ⟨_, _, _, rfl⟩ | ⟨_, rfl⟩ | ⟨_, _, rfl⟩
    · intro hidx
      simp only at hidx
      have hl : st.idx = init.length := by
        have : c.eps.length = init.length + 1 := by rw [heps]; simp
        omega
      have hh : c.eps[st.idx]? = some e := by rw [heps, hl]; simp
      rw [hs] at hh; exact Option.some.inj hh
    · exact hi.2
    · exact hi.2
  · obtain ⟨s, m, q, pc, pr, hk, rfl, hpc, _⟩ := readStep_cases h
    exact hi.2

end Swoll.Lemmas.ClientCmd
