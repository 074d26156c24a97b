import Verif.Spec.Task
/-
What holds of processes and namespaces in every history, and what the reads of the probe find in the memory of such a
kernel.
-/
namespace Swoll.Lemmas.Task
open Swoll Swoll.Task Swoll.Spec.Task

theorem get_app {α : Type} {l : List α} {i : Nat} {a : α} (x : List α) (h : l[i]? = some a) : (l ++ x)[i]? = some a := by
  have hl : i < l.length := (List.getElem?_eq_some_iff.mp h).1
  rw [List.getElem?_append_left hl]; exact h

theorem get_snoc {α : Type} {l : List α} {i : Nat} {a x : α} (h : (l ++ [x])[i]? = some a) :
    l[i]? = some a ∨ (i = l.length ∧ a = x) := by
  by_cases hl : i < l.length
  · rw [List.getElem?_append_left hl] at h; exact .inl h
  · rw [List.getElem?_append_right (by omega)] at h
    by_cases h0 : i - l.length = 0
    · rw [h0] at h; simp at h; exact .inr ⟨by omega, h.symm⟩
    · rw [List.getElem?_eq_none (by simp; omega)] at h; cases h

theorem get_len {α : Type} (l : List α) (x : α) : (l ++ [x])[l.length]? = some x := by simp

theorem get_lt {α : Type} {l : List α} {i : Nat} {a : α} (h : l[i]? = some a) : i < l.length :=
  (List.getElem?_eq_some_iff.mp h).1

/-- Every kernel in this state is in order. -/
structure WF (w : World) : Prop where
  last : ∀ (i : Nat) (s : Space), w.spaces[i]? = some s → s.around.getLast? = some i
  lev : ∀ (i : Nat) (s : Space), w.spaces[i]? = some s → ∀ (j a : Nat), s.around[j]? = some a →
    ∃ sa : Space, w.spaces[a]? = some sa ∧ sa.around.length = j + 1
  nums : ∀ (t : Nat) (th : Thread), w.threads[t]? = some th →
    ∃ s : Space, w.spaces[th.home]? = some s ∧ th.numbers.map (·.1) = s.around
  child : ∀ (t : Nat) (th : Thread), w.threads[t]? = some th → ∃ s : Space, w.spaces[th.childHome]? = some s
  proc : ∀ (t : Nat) (th : Thread), w.threads[t]? = some th → ∃ (pr : Process) (ld : Thread),
    w.procs[th.proc]? = some pr ∧ w.threads[pr.leader]? = some ld ∧ ld.home = th.home ∧ ld.proc = th.proc
  ses : ∀ (p : Nat) (pr : Process), w.procs[p]? = some pr →
    pr.leader < w.threads.length ∧ pr.session < w.threads.length

theorem wf_boot (i : BitVec 32) : WF (boot i) := by
  have one : ∀ {α : Type} {x a : α} {j : Nat}, [x][j]? = some a → j = 0 ∧ a = x := by
    intro α x a j h
    cases j with
    | zero => simp at h; exact ⟨rfl, h.symm⟩
    | succ n => simp at h
  refine ⟨?_, ?_, ?_, ?_, ?_, ?_⟩
  · intro j s h; obtain ⟨rfl, rfl⟩ := one h; rfl
  · intro j s h k a ha
    obtain ⟨rfl, rfl⟩ := one h
    obtain ⟨rfl, rfl⟩ := one ha
    exact ⟨_, rfl, rfl⟩
  · intro t th h; obtain ⟨rfl, rfl⟩ := one h; exact ⟨_, rfl, rfl⟩
  · intro t th h; obtain ⟨rfl, rfl⟩ := one h; exact ⟨_, rfl⟩
  · intro t th h; obtain ⟨rfl, rfl⟩ := one h; exact ⟨_, _, rfl, rfl, rfl, rfl⟩
  · intro t th h; obtain ⟨rfl, rfl⟩ := one h; exact ⟨Nat.zero_lt_one, Nat.zero_lt_one⟩

/-- A namespace more. -/
theorem wf_space {w : World} (h : WF w) {i : Nat} {sp : Space} (hs : w.spaces[i]? = some sp) (inum : BitVec 32) :
    WF { w with spaces := w.spaces ++ [w.inside sp inum] } := by
  refine ⟨?_, ?_, ?_, ?_, h.proc, h.ses⟩
  · intro j s hj
    rcases get_snoc hj with hj | ⟨rfl, rfl⟩
    · exact h.last j s hj
    · simp [World.inside]
  · intro j s hj k a ha
    rcases get_snoc hj with hj | ⟨rfl, rfl⟩
    · obtain ⟨sa, h1, h2⟩ := h.lev j s hj k a ha
      exact ⟨sa, get_app _ h1, h2⟩
    · rcases get_snoc ha with ha | ⟨rfl, rfl⟩
      · obtain ⟨sa, h1, h2⟩ := h.lev i sp hs k a ha
        exact ⟨sa, get_app _ h1, h2⟩
      · exact ⟨_, get_len _ _, by simp [World.inside]⟩
  · intro t th ht
    obtain ⟨s, h1, h2⟩ := h.nums t th ht
    exact ⟨s, get_app _ h1, h2⟩
  · intro t th ht
    obtain ⟨s, h1⟩ := h.child t th ht
    exact ⟨s, get_app _ h1⟩

theorem given_keys (sp : Space) (nrs : Nat → BitVec 32) : (given sp nrs).map (·.1) = sp.around := by
  simp [given, Function.comp_def]

/-- A process more. -/
theorem wf_birth {w : World} (h : WF w) {th : Thread} {p : Nat} {pr : Process} (hp : w.procs[p]? = some pr) {s : Nat}
    {sp : Space} (hs : w.spaces[s]? = some sp) (nrs : Nat → BitVec 32) : WF (w.birth th pr s sp nrs) := by
  refine ⟨h.last, h.lev, ?_, ?_, ?_, ?_⟩
  · intro t tt ht
    rcases get_snoc ht with ht | ⟨rfl, rfl⟩
    · exact h.nums t tt ht
    · exact ⟨sp, hs, given_keys _ _⟩
  · intro t tt ht
    rcases get_snoc ht with ht | ⟨rfl, rfl⟩
    · exact h.child t tt ht
    · exact ⟨sp, hs⟩
  · intro t tt ht
    rcases get_snoc ht with ht | ⟨rfl, rfl⟩
    · obtain ⟨q, ld, h1, h2, h3, h3'⟩ := h.proc t tt ht
      exact ⟨q, ld, get_app _ h1, get_app _ h2, h3, h3'⟩
    · exact ⟨_, _, get_len _ _, get_len _ _, rfl, rfl⟩
  · intro q qr hq
    have hl : (w.birth th pr s sp nrs).threads.length = w.threads.length + 1 := by simp [World.birth]
    rw [hl]
    rcases get_snoc hq with hq | ⟨rfl, rfl⟩
    · have := h.ses q qr hq
      omega
    · have := h.ses p pr hp
      dsimp only
      omega

/-- A thread more in a process. -/
theorem wf_thread {w : World} (h : WF w) {t : Nat} {th new : Thread} (ht : w.threads[t]? = some th)
    (hh : new.home = th.home) (hp : new.proc = th.proc) (hc : ∃ s, w.spaces[new.childHome]? = some s)
    (hn : new.numbers.map (·.1) = th.numbers.map (·.1)) : WF { w with threads := w.threads ++ [new] } := by
  refine ⟨h.last, h.lev, ?_, ?_, ?_, ?_⟩
  · intro u tt hu
    rcases get_snoc hu with hu | ⟨rfl, rfl⟩
    · exact h.nums u tt hu
    · obtain ⟨s, h1, h2⟩ := h.nums t th ht
      exact ⟨s, by rw [hh]; exact h1, by rw [hn]; exact h2⟩
  · intro u tt hu
    rcases get_snoc hu with hu | ⟨rfl, rfl⟩
    · exact h.child u tt hu
    · exact hc
  · intro u tt hu
    rcases get_snoc hu with hu | ⟨rfl, rfl⟩
    · obtain ⟨q, ld, h1, h2, h3, h3'⟩ := h.proc u tt hu
      exact ⟨q, ld, h1, get_app _ h2, h3, h3'⟩
    · obtain ⟨q, ld, h1, h2, h3, h3'⟩ := h.proc t th ht
      exact ⟨q, ld, by rw [hp]; exact h1, get_app _ h2, by rw [hh]; exact h3, by rw [hp]; exact h3'⟩
  · intro q qr hq
    have := h.ses q qr hq
    simp only [List.length_append, List.length_singleton]
    omega

theorem get_set {α : Type} {l : List α} {i t : Nat} {a x : α} (h : (l.set t x)[i]? = some a) :
    (i = t ∧ a = x ∧ t < l.length) ∨ (i ≠ t ∧ l[i]? = some a) := by
  rw [List.getElem?_set] at h
  by_cases e : t = i
  · subst e
    rw [if_pos rfl] at h
    by_cases hl : t < l.length
    · rw [if_pos hl] at h; cases h; exact .inl ⟨rfl, rfl, hl⟩
    · rw [if_neg hl] at h; cases h
  · rw [if_neg e] at h; exact .inr ⟨fun x => e x.symm, h⟩

/-- A thread that keeps its home, its numbers and its process. -/
theorem wf_set {w : World} (h : WF w) {t : Nat} {th new : Thread} (ht : w.threads[t]? = some th)
    (hh : new.home = th.home) (hp : new.proc = th.proc) (hc : ∃ s, w.spaces[new.childHome]? = some s)
    (hn : new.numbers = th.numbers) : WF { w with threads := w.threads.set t new } := by
  have keep : ∀ (u : Nat) (x : Thread), w.threads[u]? = some x → ∃ y : Thread, (w.threads.set t new)[u]? = some y ∧ y.home = x.home ∧
      y.proc = x.proc := by
    intro u x hu
    rw [List.getElem?_set]
    by_cases e : t = u
    · subst e
      rw [hu] at ht; cases ht
      exact ⟨new, by rw [if_pos rfl, if_pos (get_lt hu)], hh, hp⟩
    · exact ⟨x, by rw [if_neg e]; exact hu, rfl, rfl⟩
  refine ⟨h.last, h.lev, ?_, ?_, ?_, ?_⟩
  · intro u tt hu
    rcases get_set hu with ⟨rfl, rfl, _⟩ | ⟨_, hu⟩
    · obtain ⟨s, h1, h2⟩ := h.nums _ _ ht
      exact ⟨s, by rw [hh]; exact h1, by rw [hn]; exact h2⟩
    · exact h.nums u tt hu
  · intro u tt hu
    rcases get_set hu with ⟨rfl, rfl, _⟩ | ⟨_, hu⟩
    · exact hc
    · exact h.child u tt hu
  · intro u tt hu
    rcases get_set hu with ⟨rfl, rfl, _⟩ | ⟨_, hu⟩
    · obtain ⟨q, ld, h1, h2, h3, h3'⟩ := h.proc _ _ ht
      obtain ⟨y, h4, h5, h6⟩ := keep _ _ h2
      exact ⟨q, y, by rw [hp]; exact h1, h4, by rw [hh, h5]; exact h3, by rw [hp, h6]; exact h3'⟩
    · obtain ⟨q, ld, h1, h2, h3, h3'⟩ := h.proc _ _ hu
      obtain ⟨y, h4, h5, h6⟩ := keep _ _ h2
      exact ⟨q, y, h1, h4, by rw [h5]; exact h3, by rw [h6]; exact h3'⟩
  · intro q qr hq
    have := h.ses q qr hq
    simp only [List.length_set]
    omega

/-- A process that keeps its leader. -/
theorem wf_session {w : World} (h : WF w) {p : Nat} {pr : Process} (hp : w.procs[p]? = some pr) :
    WF { w with procs := w.procs.set p { pr with session := pr.leader } } := by
  refine ⟨h.last, h.lev, h.nums, h.child, ?_, ?_⟩
  · intro u tt hu
    obtain ⟨q, ld, h1, h2, h3, h3'⟩ := h.proc u tt hu
    by_cases e : p = tt.proc
    · subst e
      rw [hp] at h1; cases h1
      exact ⟨{ pr with session := pr.leader }, ld, by rw [List.getElem?_set, if_pos rfl, if_pos (get_lt hp)], h2, h3, h3'⟩
    · exact ⟨q, ld, by rw [List.getElem?_set, if_neg e]; exact h1, h2, h3, h3'⟩
  · intro q qr hq
    rcases get_set hq with ⟨rfl, rfl, _⟩ | ⟨_, hq⟩
    · have := h.ses _ _ hp
      exact ⟨this.1, this.1⟩
    · exact h.ses q qr hq

theorem wf_act {w : World} (h : WF w) (t : Nat) (a : Act) : WF (w.act t a) := by
  unfold World.act
  cases ht : w.threads[t]? with
  | none => exact h
  | some th =>
    obtain ⟨sc, hsc⟩ := h.child t th ht
    obtain ⟨sh, hsh, hnum⟩ := h.nums t th ht
    obtain ⟨pr, ld, hpr, -, -, -⟩ := h.proc t th ht
    cases a with
    | fork nrs => simp only [hsc, hpr]; exact wf_birth h hpr hsc nrs
    | forkNewPid inum nrs =>
      simp only [hsc, hpr]
      by_cases e : th.childHome = th.home
      · rw [if_pos e]
        exact wf_birth (wf_space h hsc inum) hpr (get_len _ _) nrs
      · rw [if_neg e]; exact h
    | newThread nrs =>
      simp only [hsh]
      by_cases e : th.childHome = th.home
      · rw [if_pos e]
        exact wf_thread h ht rfl rfl ⟨sc, hsc⟩ (by rw [hnum]; exact given_keys _ _)
      · rw [if_neg e]; exact h
    | unshareNewPid inum =>
      simp only [hsh]
      by_cases e : th.childHome = th.home
      · rw [if_pos e]
        exact wf_set (wf_space h hsh inum) ht rfl rfl ⟨_, get_len _ _⟩ rfl
      · rw [if_neg e]; exact h
    | setnsPid s =>
      cases hs : w.spaces[s]? with
      | none => simp only [hs]; exact h
      | some sp =>
        simp only [hs]
        by_cases e : th.home ∈ sp.around
        · rw [if_pos e]; exact wf_set h ht rfl rfl ⟨sp, hs⟩ rfl
        · rw [if_neg e]; exact h
    | setsid => simp only [hpr]; exact wf_session h hpr
    | moveOther u m i c => exact wf_set h ht rfl rfl ⟨sc, hsc⟩ rfl
    | switched v f => exact wf_set h ht rfl rfl ⟨sc, hsc⟩ rfl

theorem wf_run {w : World} (h : WF w) (hist : List (Nat × Act)) : WF (w.run hist) := by
  induction hist generalizing w with
  | nil => exact h
  | cons x xs ih => exact ih (wf_act h _ _)

/-! The reads of the probe. -/

theorem lookup_at {β : Type} : ∀ (l : List (Nat × β)) (s : Nat) (v : β) (L : Nat), l[L]? = some (s, v) →
    (∀ j x, l[j]? = some (s, x) → j = L) → l.lookup s = some v := by
  intro l
  induction l with
  | nil => intro s v L h _; simp at h
  | cons a l ih =>
    intro s v L h hu
    cases L with
    | zero =>
      simp at h; subst h
      simp [List.lookup]
    | succ n =>
      simp at h
      by_cases e : s = a.1
      · have := hu 0 a.2 (by simp [e])
        cases this
      · rw [List.lookup_cons]
        have e' : (s == a.1) = false := by simpa using e
        rw [e']
        exact ih s v n h (fun j x hj => by
          have := hu (j + 1) x (by simpa using hj)
          omega)

theorem lookup_none {β : Type} : ∀ (l : List (Nat × β)) (s : Nat), (∀ (j : Nat) x, l[j]? ≠ some (s, x)) →
    l.lookup s = none := by
  intro l
  induction l with
  | nil => intro s _; rfl
  | cons a l ih =>
    intro s hu
    have e : s ≠ a.1 := fun e => hu 0 a.2 (by simp [e])
    rw [List.lookup_cons]
    have e' : (s == a.1) = false := by simpa using e
    rw [e']
    exact ih s (fun j x hj => hu (j + 1) x (by simpa using hj))

/-- Where a namespace is among the numbers of a thread. -/
theorem level_of {w : World} (h : WF w) {j : Nat} {th : Thread} (hj : w.threads[j]? = some th) {s : Nat} {sp : Space}
    (hs : w.spaces[s]? = some sp) {k : Nat} {x : BitVec 32} (hk : th.numbers[k]? = some (s, x)) :
    sp.around.length = k + 1 := by
  obtain ⟨hm, h1, h2⟩ := h.nums j th hj
  have : hm.around[k]? = some s := by rw [← h2, List.getElem?_map, hk]; rfl
  obtain ⟨sa, h3, h4⟩ := h.lev _ _ h1 k s this
  rw [hs] at h3; cases h3
  exact h4

/-- `swoll__pid_nr_ns` finds the number a thread has in a namespace. -/
theorem pidNrNs_eq {w : World} (h : WF w) (lay : Layout) {j : Nat} {th : Thread} (hj : w.threads[j]? = some th)
    {s : Nat} {sp : Space} (hs : w.spaces[s]? = some sp) :
    pidNrNs (w.mem lay) (j + 1) (s + 1) = (w.numberIn j s).getD 0 := by
  have hp : (w.mem lay).pid (j + 1) =
      some ⟨th.numbers.length - 1, th.numbers.map fun x => ⟨x.2, x.1 + 1⟩⟩ := by
    show (tableAt w.threads (j + 1)).map _ = _
    simp only [tableAt, hj, Option.map_some]
  have hn : rd ((w.mem lay).pidns (s + 1)) (·.level) 0 = sp.around.length - 1 := by
    show rd ((tableAt w.spaces (s + 1)).map _) _ _ = _
    simp only [tableAt, hs, Option.map_some, rd]
  have hnum : w.numberIn j s = th.numbers.lookup s := by simp only [World.numberIn, hj]
  have hlen : 0 < th.numbers.length := by
    obtain ⟨hm, h1, h2⟩ := h.nums j th hj
    have h3 := h.last _ _ h1
    have : th.numbers.length = hm.around.length := by rw [← h2]; simp
    rw [this]
    cases hm' : hm.around with
    | nil => rw [hm'] at h3; cases h3
    | cons _ _ => simp
  have hsl : 0 < sp.around.length := by
    have h3 := h.last _ _ hs
    cases hm' : sp.around with
    | nil => rw [hm'] at h3; cases h3
    | cons _ _ => simp
  unfold pidNrNs
  simp only [hn, hp, hnum]
  show (if j + 1 ≠ 0 ∧ sp.around.length - 1 ≤ th.numbers.length - 1 then _ else _) = _
  by_cases hle : sp.around.length - 1 ≤ th.numbers.length - 1
  · rw [if_pos ⟨by omega, hle⟩]
    have hlt : sp.around.length - 1 < th.numbers.length := by omega
    obtain ⟨⟨a, v⟩, hav⟩ : ∃ y, th.numbers[sp.around.length - 1]? = some y :=
      ⟨_, List.getElem?_eq_getElem hlt⟩
    have hu : rd (some (Pid.mk (th.numbers.length - 1) (th.numbers.map fun x => ⟨x.2, x.1 + 1⟩)))
        (fun q => upidAt q (sp.around.length - 1)) ⟨0, 0⟩ = ⟨v, a + 1⟩ := by
      simp only [rd, upidAt, List.getElem?_map, hav, Option.map_some, Option.getD_some]
    rw [hu]
    dsimp only
    by_cases e : a = s
    · subst e
      rw [if_pos rfl, lookup_at th.numbers a v _ hav (fun k x hk => by
        have := level_of h hj hs hk
        omega)]
      rfl
    · rw [if_neg (show ¬ a + 1 = s + 1 from fun x => e (Nat.succ.inj x)), lookup_none th.numbers s (fun k x hk => by
        have := level_of h hj hs hk
        have hk' : k = sp.around.length - 1 := by omega
        subst hk'
        rw [hav] at hk
        cases hk
        exact e rfl)]
      rfl
  · rw [if_neg (fun x => hle x.2), lookup_none th.numbers s (fun k x hk => by
      have := level_of h hj hs hk
      have := get_lt hk
      omega)]
    rfl

theorem task_eq (w : World) (lay : Layout) {t : Nat} {th : Thread} (ht : w.threads[t]? = some th) :
    (w.mem lay).task (t + 1) = some
    { threadPid := t + 1
      groupLeader := (w.procs[th.proc]?).elim 0 fun pr => pr.leader + 1
      signalSid := (w.procs[th.proc]?).elim 0 fun pr => pr.session + 1
      word := fun off => if off = lay.proxyOff then some (t + 1) else lay.otherWord (t + 1) off
      nvcsw := th.willing
      nivcsw := th.forced } := by
  show (tableAt w.threads (t + 1)).map _ = _
  simp only [tableAt, ht, Option.map_some]

/-- The namespace a thread lives in. -/
theorem active_eq {w : World} (h : WF w) (lay : Layout) {t : Nat} {th : Thread} (ht : w.threads[t]? = some th) :
    taskActivePidNs (w.mem lay) (t + 1) = th.home + 1 := by
  have hp : (w.mem lay).pid (t + 1) =
      some ⟨th.numbers.length - 1, th.numbers.map fun x => ⟨x.2, x.1 + 1⟩⟩ := by
    show (tableAt w.threads (t + 1)).map _ = _
    simp only [tableAt, ht, Option.map_some]
  unfold taskActivePidNs taskPid
  rw [task_eq w lay ht]
  show nsOfPid _ (t + 1) = _
  unfold nsOfPid
  rw [if_pos (Nat.succ_ne_zero t), hp]
  simp only [rd, upidAt, List.getElem?_map]
  obtain ⟨hm, h1, h2⟩ := h.nums t th ht
  have h3 := h.last _ _ h1
  rw [← h2, List.getLast?_map, List.getLast?_eq_getElem?] at h3
  cases hx : th.numbers[th.numbers.length - 1]? with
  | none => rw [hx] at h3; cases h3
  | some y =>
    rw [hx] at h3
    simp only [Option.map_some, Option.some.injEq] at h3
    simp [h3]

/-- `swoll__task_pid_nr_ns` for something of the process as a whole. -/
theorem tgid_eq {w : World} (h : WF w) (lay : Layout) {t : Nat} {th : Thread} (ht : w.threads[t]? = some th)
    {pr : Process} (hp : w.procs[th.proc]? = some pr) :
    taskTgidVnr (w.mem lay) (t + 1) = (w.numberIn pr.leader th.home).getD 0 := by
  obtain ⟨q, ld, h1, h2, -, -⟩ := h.proc t th ht
  rw [hp] at h1; cases h1
  obtain ⟨hm, h3, -⟩ := h.nums t th ht
  unfold taskTgidVnr taskPidNrNs
  rw [if_pos rfl, active_eq h lay ht, if_pos (by decide), if_pos rfl, task_eq w lay ht]
  simp only [hp, rd, Option.elim]
  unfold taskPidOf
  rw [if_pos rfl, task_eq w lay h2]
  exact pidNrNs_eq h lay h2 h3

theorem session_eq {w : World} (h : WF w) (lay : Layout) {t : Nat} {th : Thread} (ht : w.threads[t]? = some th)
    {pr : Process} (hp : w.procs[th.proc]? = some pr) :
    taskSessionVnr (w.mem lay) (t + 1) = (w.numberIn pr.session th.home).getD 0 := by
  obtain ⟨q, ld, h1, h2, -, h2'⟩ := h.proc t th ht
  rw [hp] at h1; cases h1
  obtain ⟨hm, h3, -⟩ := h.nums t th ht
  obtain ⟨-, h4⟩ := h.ses _ _ hp
  obtain ⟨se, h5⟩ : ∃ se, w.threads[pr.session]? = some se := ⟨_, List.getElem?_eq_getElem h4⟩
  unfold taskSessionVnr taskPidNrNs
  rw [if_pos rfl, active_eq h lay ht, if_pos (by decide), if_neg (by decide), task_eq w lay ht]
  simp only [hp, rd, Option.elim]
  unfold taskPidOf
  rw [if_neg (by decide), task_eq w lay h2]
  simp only [rd, h2', hp, Option.elim]
  exact pidNrNs_eq h lay h5 h3

end Swoll.Lemmas.Task
