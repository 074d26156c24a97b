import Verif.Lemmas.ClientOnce
/-
C102 `client create` creates the job on every endpoint or on none, C103 a one-shot job leaves nothing
behind, C104 watching shows every endpoint's events, C105 `client delete` deletes the job everywhere, C106
a client ends when it is told to, C107 what the commands say agrees.
-/
namespace Swoll.Props.ClientCmd
open Swoll.ClientCmd Swoll.Spec.ClientCmd Swoll.Lemmas.ClientCmd Swoll.Lemmas.ClientEnd

/-! ### C102 -/

/-- If `client create` ends well, every endpoint it was given runs the job. -/
theorem c102_created_partial (c : Cmd) (ho : c.oneshot = false) (jobs : Jobs) (acts : List Act) (st : St)
    (h : run c (start jobs) acts = some st) (he : EndsWith st 0) : ∀ s ∈ c.eps, c.id ∈ st.jobs s := by
  obtain ⟨ht, hm⟩ := made_run ho h
  intro s hs
  have hidx := ht.2.2.1 (.inr (.inr he))
  exact hm.2.1 s (by rw [hidx, List.take_length]; exact hs)

/-- If it ends with an error, it had come to some endpoint: those before it run the job, those after it
are as they were. -/
theorem c102_stopped_partial (c : Cmd) (ho : c.oneshot = false) (jobs : Jobs) (acts : List Act) (st : St)
    (h : run c (start jobs) acts = some st) (he : EndsWith st 1) :
    ∃ before s after, c.eps = before ++ s :: after ∧ (∀ t ∈ before, c.id ∈ st.jobs t) ∧
      ∀ t, t ∉ before → t ≠ s → st.jobs t = jobs t := by
  obtain ⟨_, hm⟩ := made_run ho h
  obtain ⟨hlt, hrest⟩ := hm.2.2.2 he
  refine ⟨c.eps.take st.idx, c.eps[st.idx], c.eps.drop (st.idx + 1), ?_, hm.2.1, ?_⟩
  · rw [List.getElem_cons_drop, List.take_append_drop]
  · intro t ht hne
    refine hrest t ?_
    rw [List.take_add_one, List.getElem?_eq_getElem hlt]
    simp only [Option.toList_some, List.mem_append, List.mem_singleton, not_or]
    exact ⟨ht, hne⟩

/-- Whatever happens, and with `--oneshot` too, no other job and no other server is touched. -/
theorem c102_no_other (c : Cmd) (jobs : Jobs) (acts : List Act) (st : St)
    (h : run c (start jobs) acts = some st) (s : Server) (j : Id) (hsj : s ∉ c.eps ∨ j ≠ c.id) :
    j ∈ st.jobs s ↔ j ∈ jobs s :=
  (run_inv c (fun st => Turn c st ∧ (j ∈ st.jobs s ↔ j ∈ jobs s))
    (fun _ _ _ hi hs => ⟨turn_step hi.1 hs, (untouched_step hi.1 hs s j hsj).trans hi.2⟩) acts _ _
    ⟨turn_start c jobs, Iff.rfl⟩ h).2

/-- A job on three servers. -/
def three : Cmd := ⟨[1, 2, 3], 7, false, true⟩

example : ∃ st, run three (start fun s => if s = 2 then [8] else [])
    [.next, .created .ok, .next, .created .ok, .next, .created .ok, .next, .next] = some st ∧
    EndsWith st 0 ∧ st.jobs 2 = [7, 8] := ⟨_, rfl, rfl, rfl⟩

example : ∃ st, run three (start fun _ => []) [.next, .created .ok, .next, .created .lost] = some st ∧
    EndsWith st 1 ∧ st.jobs 2 = [7] ∧ st.jobs 3 = [] := ⟨_, rfl, rfl, rfl, rfl⟩

/-- VIOLATED: when an endpoint refuses, the endpoints before it are left with the job. -/
theorem c102_all_or_none_violated :
    ∃ acts st, run three (start fun _ => []) acts = some st ∧ EndsWith st 1 ∧ 7 ∈ st.jobs 1 ∧
      ¬ 7 ∈ st.jobs 2 :=
  ⟨[.next, .created .ok, .next, .created .refused], _, rfl, rfl, by decide, by decide⟩

/-- VIOLATED: with no endpoint the command ends well, and there is no job. -/
theorem c102_nowhere_violated :
    ∃ acts st, run ⟨[], 7, false, true⟩ (start fun _ => []) acts = some st ∧ EndsWith st 0 ∧
      ∀ s, st.jobs s = [] :=
  ⟨[.next, .next], _, rfl, rfl, fun _ => rfl⟩

/-! ### C103 -/

/-- When a one-shot command ends well, and every request to delete that finds the job deletes it, the
last endpoint no longer runs the job. Missing: the other endpoints. -/
theorem c103_last_partial (c : Cmd) (ho : c.oneshot = true) (init : List Server) (e : Server)
    (heps : c.eps = init ++ [e]) (jobs : Jobs) (acts : List Act) (hob : Obeyed acts) (st : St)
    (h : run c (start jobs) acts = some st) (he : EndsWith st 0) : c.id ∉ st.jobs e := by
  have hi := run_inv_mem c (fun st => Turn c st ∧ LastKept c e st) acts
    (fun st a st' ha hi hs => ⟨turn_step hi.1 hs,
      last_step heps ho (fun k hk => hob k (hk ▸ ha)) hi.1 hi.2 hs⟩) _ _
    ⟨turn_start c jobs, fun h => by rw [heps] at h; simp [start] at h, by simp [start]⟩ h
  intro hj
  have hidx := hi.1.2.2.1 (.inr (.inr he))
  obtain ⟨p, hp, hn⟩ := (hi.2.1 hidx).2 hj
  exact hn (hi.2.2 he p hp)

/-- One endpoint: the job is gone. -/
theorem c103_alone_partial (id : Id) (shows : Bool) (e : Server) (jobs : Jobs) (acts : List Act)
    (hob : Obeyed acts) (st : St) (h : run ⟨[e], id, true, shows⟩ (start jobs) acts = some st)
    (he : EndsWith st 0) : id ∉ st.jobs e :=
  c103_last_partial ⟨[e], id, true, shows⟩ rfl [] e rfl jobs acts hob st h he

/-- A one-shot job on two servers. -/
def two : Cmd := ⟨[1, 2], 7, true, true⟩

/-- Created, watched and interrupted, with every answer a good one. -/
def session : List Act :=
  [.next, .created .ok, .next, .created .ok, .next, .connect 0, .connect 1, .publish 1 (.event 10),
    .publish 2 (.event 20), .read 0, .read 1, .signal, .hangup 0, .hangup 1, .next, .deleted 0 .ok,
    .deleted 1 .absent, .next]

example : ∃ st, run two (start fun _ => []) session = some st ∧ EndsWith st 0 ∧ st.jobs 2 = [] :=
  ⟨_, rfl, rfl, rfl⟩

example : Obeyed session := by intro k; simp [session]

example : ∃ st, run ⟨[1], 7, true, true⟩ (start fun _ => [3])
    [.next, .created .ok, .connect 0, .next, .publish 1 (.event 5), .read 0, .signal, .next, .hangup 0,
      .deleted 0 .ok, .next] = some st ∧ EndsWith st 0 ∧ st.jobs 1 = [3] ∧ st.printed = [(1, 5)] :=
  ⟨_, rfl, rfl, rfl, rfl⟩

/-- VIOLATED: once all endpoints stream, every endpoint but the last keeps the job, whatever happens
then: the goroutines all use the variable of the loop. -/
theorem c103_others_violated (c : Cmd) (init : List Server) (e : Server)
    (heps : c.eps = init ++ [e]) (jobs : Jobs) (acts : List Act) (st : St)
    (h : run c (start jobs) acts = some st) (hstr : AllStreaming st) (more : List Act) (st' : St)
    (h' : run c st more = some st') : ∀ s ∈ init, s ≠ e → c.id ∈ st'.jobs s := by
  have hi := run_inv c (fun st => Turn c st ∧ AllKept c st)
    (fun _ _ _ hi hs => ⟨turn_step hi.1 hs, allKept_step hi.1 hi.2 hs⟩) acts _ _
    ⟨turn_start c jobs, by intro _ s hs; simp [start] at hs⟩ h
  have hidx := hi.1.2.2.1 (.inl hstr.1)
  have hep : st.ep = e := last_ep heps h hidx
  have hkept := hi.2 (fun p hp => (hstr.2 p hp).2)
  rw [hidx, List.take_length] at hkept
  have hs := run_inv c (Stranded c e) (fun _ _ _ => stranded_step) more _ _
    ⟨.inl hstr.1, hep, fun s hs _ => hkept s hs⟩ h'
  intro s hsi hne
  exact hs.2.2 s (by rw [heps]; simp [hsi]) hne

/-- The hypotheses are met by the session above, half-way. -/
example : ∃ st st', run two (start fun _ => []) (session.take 11) = some st ∧ AllStreaming st ∧
    run two st (session.drop 11) = some st' ∧ EndsWith st' 0 ∧ st'.jobs 1 = [7] :=
  ⟨_, _, rfl, ⟨rfl, by decide⟩, rfl, rfl, rfl⟩

/-- VIOLATED: when the second endpoint refuses, the job on the first one is not deleted. -/
theorem c103_refused_violated :
    ∃ acts st, Obeyed acts ∧ run two (start fun _ => []) acts = some st ∧ EndsWith st 1 ∧ 7 ∈ st.jobs 1 :=
  ⟨[.next, .created .ok, .next, .created .refused], _, by intro k; simp, rfl, rfl, by decide⟩

/-- VIOLATED: an interrupt while the job is being created on the second endpoint leaves it on the first. -/
theorem c103_early_interrupt_violated :
    ∃ acts st, Obeyed acts ∧ acts.count .signal = 1 ∧ run two (start fun _ => []) acts = some st ∧
      st.phase.over = true ∧ 7 ∈ st.jobs 1 :=
  ⟨[.next, .created .ok, .next, .signal, .created .refused], _, by intro k; simp, by decide, rfl, rfl,
    by decide⟩

/-- VIOLATED: a second interrupt ends the client before it has deleted the job, even of one endpoint. -/
theorem c103_impatient_violated :
    ∃ acts st, Obeyed acts ∧ run ⟨[1], 7, true, true⟩ (start fun _ => []) acts = some st ∧ EndsWith st 2 ∧
      7 ∈ st.jobs 1 :=
  ⟨[.next, .created .ok, .connect 0, .next, .signal, .signal], _, by intro k; simp, rfl, rfl, by decide⟩

/-! ### C104 -/

/-- What `watch` prints of an endpoint is the beginning of what that endpoint sent since its websocket
was opened: true events, in order, each once. -/
theorem c104_true_partial (eps : List Server) (acts : List WAct) (st : WSt)
    (h : wrun (watchStart eps) acts = some st) (k : Nat) (s : Server) (hs : eps[k]? = some s) :
    shownBy k st.printed <+: sentTo s k acts := by
  obtain ⟨⟨pc, h0⟩, h1, h2, h3⟩ := follows_run hs h
  cases pc with
  | ready => rw [(h1 h0).1]; exact List.nil_prefix
  | reading q => rw [← (h2 q h0).2]; exact List.prefix_append _ _
  | idle => exact h3 h0

/-- Nothing else is printed. -/
theorem c104_nothing_else (eps : List Server) (acts : List WAct) (st : WSt)
    (h : wrun (watchStart eps) acts = some st) : ∀ p ∈ st.printed, p.1 < eps.length := by
  have := wrun_hist (fun _ st => st.readers.length = eps.length ∧ ∀ p ∈ st.printed, p.1 < eps.length) (by
    intro as st a st' ⟨hl, hp⟩ hs
    unfold wstep at hs
    split at hs
    · exact absurd hs (by simp)
    cases a <;> simp only at hs
    case signal => injection hs with hs; subst hs; exact ⟨hl, hp⟩
    case listen => injection hs with hs; subst hs; exact ⟨hl, hp⟩
    case publish => injection hs with hs; subst hs; exact ⟨by simpa using hl, hp⟩
    case read k =>
      split at hs
      · rename_i t ev q hk
        injection hs with hs; subst hs
        refine ⟨by simpa using hl, ?_⟩
        intro p hp'
        simp only [List.mem_append, List.mem_singleton] at hp'
        rcases hp' with hp' | rfl
        · exact hp p hp'
        · exact hl ▸ lt_of_some hk
      · injection hs with hs; subst hs; exact ⟨by simpa using hl, hp⟩
      · injection hs with hs; subst hs; exact ⟨by simpa using hl, hp⟩
      · exact absurd hs (by simp)
    all_goals
      split at hs
      · injection hs with hs; subst hs; exact ⟨by simpa using hl, hp⟩
      · exact absurd hs (by simp)) acts [] _ st ⟨by simp [watchStart], by simp [watchStart]⟩ h
  exact this.2

/-- As long as the websocket of an endpoint is open and its messages are not too long, everything it sent
that can be decoded will have been printed once the client has caught up. -/
theorem c104_complete_partial (eps : List Server) (acts : List WAct) (st : WSt)
    (h : wrun (watchStart eps) acts = some st) (hov : st.over = false) (k : Nat) (s : Server)
    (hs : eps[k]? = some s) (hc : WAct.connect k ∈ acts) (hh : WAct.hangup k ∉ acts) (hsh : Short acts) :
    ∃ n st', wrun st (List.replicate n (.read k)) = some st' ∧
      shownBy k st'.printed = sentTo s k acts := by
  obtain ⟨q, hq, hn⟩ := stays_open h hs hc hh hsh
  obtain ⟨st', hr, he⟩ := drains k s q st hov hn hq
  refine ⟨q.length, st', hr, ?_⟩
  rw [he]
  exact ((follows_run hs h).2.2.1 q hq).2

/-- Two endpoints, one of which sends something before the client has connected. -/
def watching : List WAct :=
  [.listen, .connect 1, .publish 1 (.event 10), .publish 2 (.event 20), .connect 0, .publish 1 (.event 11),
    .publish 2 .undecodable, .publish 2 (.event 21), .read 1, .read 0]

example : ∃ st, wrun (watchStart [1, 2]) watching = some st ∧ st.over = false ∧
    shownBy 0 st.printed = [11] ∧ sentTo 1 0 watching = [11] ∧
    shownBy 1 st.printed = [20] ∧ sentTo 2 1 watching = [20, 21] :=
  ⟨_, rfl, rfl, rfl, by decide, rfl, by decide⟩

example : Short watching := by intro s; simp [watching]

/-- VIOLATED: after a message of more than 4096 bytes, as of a container with many labels, nothing more
is shown of that endpoint, although it goes on sending and its websocket was not ended. -/
theorem c104_long_message_violated :
    ∃ acts st, wrun (watchStart [1]) acts = some st ∧ st.over = false ∧ WAct.hangup 0 ∉ acts ∧
      sentTo 1 0 acts = [10, 11] ∧
      ∀ more st', wrun st more = some st' → shownBy 0 st'.printed = [10] := by
  refine ⟨[.connect 0, .publish 1 (.event 10), .publish 1 .tooLong, .publish 1 (.event 11), .read 0, .read 0],
    _, rfl, rfl, by decide, by decide, ?_⟩
  intro more st' h
  have := wrun_hist (fun _ st => st.readers = [⟨1, .idle⟩] ∧ st.printed = [(0, 10)]) (by
    intro as st a st' ⟨hr, hp⟩ hs
    have hk : ∀ k : Nat, st.readers[k]? = if k = 0 then some ⟨1, .idle⟩ else none := by
      intro k; rw [hr]; cases k <;> rfl
    unfold wstep at hs
    split at hs
    · exact absurd hs (by simp)
    cases a with
    | signal => simp only [Option.some.injEq] at hs; subst hs; exact ⟨hr, hp⟩
    | listen => simp only [Option.some.injEq] at hs; subst hs; exact ⟨hr, hp⟩
    | publish s m => simp only [Option.some.injEq] at hs; subst hs; exact ⟨by simp [hr, wdeliver], hp⟩
    | connect k => by_cases h : k = 0 <;> simp [hk, h] at hs
    | unconnected k => by_cases h : k = 0 <;> simp [hk, h] at hs
    | read k => by_cases h : k = 0 <;> simp [hk, h] at hs
    | hangup k => by_cases h : k = 0 <;> simp [hk, h] at hs) more [] _ st' ⟨rfl, rfl⟩ h
  rw [this.2]; rfl

/-- With `--oneshot` and one endpoint, what is printed is the beginning of what that endpoint sent since
the websocket was opened, and all that can be decoded once no message waits. -/
theorem c104_oneshot_alone_partial (id : Id) (e : Server) (jobs : Jobs) (acts : List Act) (st : St)
    (h : run ⟨[e], id, true, true⟩ (start jobs) acts = some st) :
    (∀ p ∈ st.printed, p.1 = e) ∧ st.printed.map (·.2) <+: sentOnceTo e 0 acts ∧
    (st.workers = [.reading e []] → st.printed.map (·.2) = sentOnceTo e 0 acts) := by
  obtain ⟨h0, hw⟩ := Lemmas.ClientOnce.shows_run h
  refine ⟨h0, ?_, ?_⟩
  · rcases hw with ⟨_, _, h3, _⟩ | ⟨_, ⟨_, h3, _⟩ | ⟨q, _, _, h4⟩ | ⟨_, h3⟩ | ⟨_, h3⟩⟩
    · rw [h3]; exact List.nil_prefix
    · rw [h3]; exact List.nil_prefix
    · rw [← h4]; exact List.prefix_append _ _
    · exact h3
    · exact h3
  · intro hr
    rcases hw with ⟨h1, _⟩ | ⟨_, ⟨h1, _⟩ | ⟨q, h1, _, h4⟩ | ⟨h1, _⟩ | ⟨h1, _⟩⟩ <;> rw [hr] at h1
    · simp at h1
    · simp at h1
    · simp only [List.cons.injEq, Pc.reading.injEq, true_and, and_true] at h1
      subst h1
      simpa [eventsOf] using h4
    · simp at h1
    · simp at h1

/-- Two events, one of them read. -/
def once : List Act :=
  [.next, .created .ok, .next, .connect 0, .publish 1 (.event 5), .publish 1 .undecodable,
    .publish 1 (.event 6), .read 0, .read 0]

example : ∃ st, run ⟨[1], 7, true, true⟩ (start fun _ => []) once = some st ∧ st.printed = [(1, 5)] ∧
    st.workers = [.reading 1 [.event 6]] ∧ sentOnceTo 1 0 once = [5, 6] := ⟨_, rfl, rfl, rfl, by decide⟩

/-- VIOLATED: with `--oneshot` and two endpoints, the events of the last one are shown twice and those of
the other one not at all. -/
theorem c104_oneshot_violated :
    ∃ acts st, run two (start fun _ => []) acts = some st ∧ st.printed = [(2, 20), (2, 20)] ∧
      Act.publish 1 (.event 10) ∈ acts ∧ acts.count (.publish 2 (.event 20)) = 1 :=
  ⟨session, _, rfl, rfl, by decide, by decide⟩

/-! ### C105 -/

/-- If `client delete` ends well, no endpoint runs the job, and it said so for each. -/
theorem c105_deleted_partial (id : Id) : ∀ (answers : List (Server × Deleted)) (jobs jobs' : Jobs)
    (out : List Line), deleteLoop id jobs answers = some (jobs', out, 0) →
    (∀ s ∈ answers.map (·.1), id ∉ jobs' s) ∧ out = answers.map (fun a => .success a.1) ∧
      ∀ s j, (s ∉ answers.map (·.1) ∨ j ≠ id) → (j ∈ jobs' s ↔ j ∈ jobs s) := by
  intro answers
  induction answers with
  | nil =>
    intro jobs jobs' out h
    simp only [deleteLoop, Option.some.injEq, Prod.mk.injEq] at h
    obtain ⟨rfl, rfl, _⟩ := h
    exact ⟨by simp, rfl, fun _ _ _ => Iff.rfl⟩
  | cons a rest ih =>
    intro jobs jobs' out h
    obtain ⟨s, r⟩ := a
    simp only [deleteLoop] at h
    cases hd : del jobs s id r with
    | none => rw [hd] at h; simp at h
    | some p =>
      rw [hd] at h
      obtain ⟨j1, b⟩ := p
      cases b with
      | false => simp at h
      | true =>
        simp only [Option.map_eq_some_iff] at h
        obtain ⟨⟨j2, out2, code2⟩, hr, he⟩ := h
        simp only [Prod.mk.injEq] at he
        obtain ⟨rfl, rfl, rfl⟩ := he
        obtain ⟨h1, h2, h3⟩ := ih j1 j2 out2 hr
        rcases del_cases hd with ⟨he, _, _⟩ | ⟨he, _⟩
        · simp only at he
          have gone : id ∉ j1 s := by rw [he, mem_remove]; simp
          refine ⟨?_, by simp [h2], ?_⟩
          · intro t ht
            simp only [List.map_cons, List.mem_cons] at ht
            by_cases htr : t ∈ rest.map (·.1)
            · exact h1 t htr
            · rcases ht with rfl | ht
              · rw [h3 t id (.inl htr)]; exact gone
              · exact absurd ht htr
          · intro t j htj
            have htj' : t ∉ rest.map (·.1) ∨ j ≠ id := by
              rcases htj with h | h
              · exact .inl (fun h' => h (List.mem_cons_of_mem _ h'))
              · exact .inr h
            rw [h3 t j htj', he, mem_remove]
            refine ⟨fun h => h.1, fun h => ⟨h, ?_⟩⟩
            rintro ⟨rfl, rfl⟩
            rcases htj with h | h
            · exact h (by simp)
            · exact h rfl
        · simp at he

/-- If it fails, it failed at some endpoint and said which: those before it no longer run the job, those
after it are as they were. -/
theorem c105_failed_partial (id : Id) : ∀ (answers : List (Server × Deleted)) (jobs jobs' : Jobs)
    (out : List Line) (code : Nat), deleteLoop id jobs answers = some (jobs', out, code) → code ≠ 0 →
    ∃ before s r after, answers = before ++ (s, r) :: after ∧ r ≠ .ok ∧
      out = before.map (fun a => .success a.1) ++ [.fail s] ∧
      (∀ t ∈ before.map (·.1), id ∉ jobs' t) ∧
      ∀ t, t ∉ before.map (·.1) → t ≠ s → ∀ j, j ∈ jobs' t ↔ j ∈ jobs t := by
  intro answers
  induction answers with
  | nil =>
    intro jobs jobs' out code h hc
    simp only [deleteLoop, Option.some.injEq, Prod.mk.injEq] at h
    exact absurd h.2.2.symm hc
  | cons a rest ih =>
    intro jobs jobs' out code h hc
    obtain ⟨s, r⟩ := a
    simp only [deleteLoop] at h
    cases hd : del jobs s id r with
    | none => rw [hd] at h; simp at h
    | some p =>
      rw [hd] at h
      obtain ⟨j1, b⟩ := p
      cases b with
      | false =>
        simp only [Option.some.injEq, Prod.mk.injEq] at h
        obtain ⟨rfl, rfl, _⟩ := h
        have hr : r ≠ .ok := by
          rintro rfl
          rcases del_cases hd with ⟨_, ⟨_, hb⟩ | ⟨hb, _⟩, _⟩ | ⟨_, ⟨hb, _⟩ | hb⟩ <;> simp at hb
        refine ⟨[], s, r, rest, rfl, hr, rfl, by simp, ?_⟩
        intro t _ hts j
        rcases del_cases hd with ⟨he, _, _⟩ | ⟨he, _⟩
        · simp only at he
          rw [he, mem_remove]
          exact ⟨fun h => h.1, fun h => ⟨h, fun h' => hts h'.1⟩⟩
        · simp only [Prod.mk.injEq] at he; rw [he.1]
      | true =>
        simp only [Option.map_eq_some_iff] at h
        obtain ⟨⟨j2, out2, code2⟩, hr, he⟩ := h
        simp only [Prod.mk.injEq] at he
        obtain ⟨rfl, rfl, rfl⟩ := he
        obtain ⟨before, s', r', after, rfl, hr', hout, hgone, hsame⟩ := ih j1 j2 out2 code2 hr hc
        rcases del_cases hd with ⟨he, _, _⟩ | ⟨he, _⟩
        · simp only at he
          refine ⟨(s, r) :: before, s', r', after, rfl, hr', by simp [hout], ?_, ?_⟩
          · intro t ht
            simp only [List.map_cons, List.mem_cons] at ht
            by_cases htr : t ∈ before.map (·.1)
            · exact hgone t htr
            · rcases ht with rfl | ht
              · by_cases hts : t = s'
                · subst hts
                  -- the failing request was for the same server: the job was gone before it
                  have : id ∉ j1 t := by rw [he, mem_remove]; simp
                  intro hin
                  have mono : ∀ (l : List (Server × Deleted)) (a b : Jobs) (o : List Line) (c : Nat),
                      deleteLoop id a l = some (b, o, c) → ∀ u, id ∈ b u → id ∈ a u := by
                    intro l
                    induction l with
                    | nil =>
                      intro a b o c h u hu
                      simp only [deleteLoop, Option.some.injEq, Prod.mk.injEq] at h
                      rw [h.1]; exact hu
                    | cons x l ihl =>
                      intro a b o c h u hu
                      obtain ⟨y, z⟩ := x
                      simp only [deleteLoop] at h
                      cases hy : del a y id z with
                      | none => rw [hy] at h; simp at h
                      | some w =>
                        rw [hy] at h
                        obtain ⟨w1, w2⟩ := w
                        have hw : id ∈ w1 u → id ∈ a u := by
                          intro hw
                          rcases del_cases hy with ⟨he, _, _⟩ | ⟨he, _⟩
                          · simp only at he; rw [he, mem_remove] at hw; exact hw.1
                          · simp only [Prod.mk.injEq] at he; rw [← he.1]; exact hw
                        cases w2 with
                        | false =>
                          simp only [Option.some.injEq, Prod.mk.injEq] at h
                          exact hw (by rw [h.1]; exact hu)
                        | true =>
                          simp only [Option.map_eq_some_iff] at h
                          obtain ⟨⟨b2, o2, c2⟩, hl, hq⟩ := h
                          simp only [Prod.mk.injEq] at hq
                          obtain ⟨rfl, _, _⟩ := hq
                          exact hw (ihl w1 b2 o2 c2 hl u hu)
                  exact this (mono _ _ _ _ _ hr t hin)
                · rw [hsame t htr hts id, he, mem_remove]; simp
              · exact absurd ht htr
          · intro t ht hts j
            simp only [List.map_cons, List.mem_cons, not_or] at ht
            rw [hsame t ht.2 hts j, he, mem_remove]
            exact ⟨fun h => h.1, fun h => ⟨h, fun h' => ht.1 h'.1⟩⟩
        · simp at he

example : ∃ jobs' out, deleteLoop 7 (fun _ => [7, 8]) [(1, .ok), (2, .ok)] = some (jobs', out, 0) ∧
    jobs' 1 = [8] ∧ jobs' 2 = [8] ∧ out = [.success 1, .success 2] := ⟨_, _, rfl, by decide, by decide, rfl⟩

/-- VIOLATED: when one endpoint does not know the job, the endpoints after it go on running it. -/
theorem c105_all_violated :
    ∃ jobs : Jobs, ∃ jobs' out, deleteLoop 7 jobs [(1, .ok), (2, .absent), (3, .ok)] = some (jobs', out, 1) ∧
      7 ∈ jobs 3 ∧ 7 ∈ jobs' 3 ∧ out = [.success 1, .fail 2] :=
  ⟨fun s => if s = 2 then [] else [7], _, _, rfl, by decide, by decide, rfl⟩

/-! ### C106 -/

/-- Once it has been interrupted, `client create` can always go on, and takes only so many more steps once
nothing more arrives: it comes to its end. -/
theorem c106_ends (c : Cmd) (st : St) (hc : st.cancelled = true) :
    (st.phase.over = false → ∃ a, a ≠ .signal ∧ (∀ s m, a ≠ .publish s m) ∧ (step c st a).isSome) ∧
    ∃ n, ∀ acts st', run c st acts = some st' → (∀ s m, Act.publish s m ∉ acts) → acts.length ≤ n := by
  refine ⟨goes_on hc, left st, ?_⟩
  intro acts st' h hp
  have := left_run acts st st' hc hp h
  omega

/-- The end is a good one, if all jobs had been created before the interrupt and no other followed. -/
theorem c106_ends_well_partial (c : Cmd) (st : St) (hl : st.phase = .looping) (acts : List Act)
    (hs : acts.count .signal ≤ 1) (st' : St) (h : run c st acts = some st') (hc : st.cancelled = false)
    (hov : st'.phase.over = true) : EndsWith st' 0 := by
  have key : ∀ (acts : List Act) (st : St), acts.count .signal ≤ (if st.cancelled then 0 else 1) →
      (st.phase = .looping ∨ st.phase = .waiting ∨ st.phase = .ended 0) → run c st acts = some st' →
      (st'.phase = .looping ∨ st'.phase = .waiting ∨ st'.phase = .ended 0) := by
    intro acts
    induction acts with
    | nil => intro st _ hp h; simp only [run, Option.some.injEq] at h; exact h ▸ hp
    | cons a as ih =>
      intro st hn hp h
      simp only [run] at h
      cases hs : step c st a with
      | none => rw [hs] at h; simp at h
      | some st1 =>
        rw [hs] at h
        by_cases ha : a = .signal
        · subst ha
          obtain ⟨_, hs⟩ := step_cases hs
          simp only [List.count_cons_self] at hn
          rcases hs with ⟨_, hc, rfl⟩ | ⟨_, hc, rfl⟩ | ⟨hx, _⟩ | ⟨_, hx, _⟩ | ⟨_, hx, _⟩ | ⟨_, hx, _⟩ |
            ⟨_, _, hx, _⟩ | ⟨_, hx, _⟩ | ⟨_, _, _, hx, _⟩ | ⟨_, _, _, hx, _⟩
          · rw [hc] at hn; simp at hn
          · refine ih { st with cancelled := true } ?_ hp h
            rw [hc] at hn; simp only [Bool.false_eq_true, if_false] at hn
            simp only [if_true]; omega
          all_goals exact absurd hx (by simp)
        · have hp1 := orderly_step ha hp hs
          rw [List.count_cons_of_ne (by simpa using ha)] at hn
          have hcc : st1.cancelled = st.cancelled := by
            obtain ⟨_, hs⟩ := step_cases hs
            rcases hs with ⟨rfl, _⟩ | ⟨rfl, _⟩ | ⟨_, h⟩ | ⟨r, _, h⟩ | ⟨k, _, hk, _, hf, rfl⟩ |
              ⟨k, _, hk, rfl⟩ | ⟨s, m, hm, rfl⟩ | ⟨k, _, h⟩ | ⟨k, s, q, _, hk, rfl⟩ |
              ⟨k, r, p, rfl, hk, hd, rfl⟩
            any_goals rfl
            · exact absurd rfl ha
            · exact absurd rfl ha
            · rcases nextStep_cases h with ⟨s, hq, hs, rfl⟩ | ⟨hq, hs, rfl⟩ | ⟨hq, hf, rfl⟩ | ⟨hq, _, rfl⟩ <;> rfl
            · obtain ⟨_, h⟩ := createdStep_cases h
              rcases h with ⟨_, _, _, rfl⟩ | ⟨_, rfl⟩ | ⟨_, _, rfl⟩ <;> rfl
            · obtain ⟨s, m, q, pc, pr, hk, rfl, hpc, _⟩ := readStep_cases h
              rfl
          exact ih st1 (by rw [hcc]; exact hn) hp1 h
  rcases key acts st (by simpa [hc] using hs) (.inl hl) h with h | h | h
  · rw [h] at hov; simp [Phase.over] at hov
  · rw [h] at hov; simp [Phase.over] at hov
  · exact h

/-- Once it waits for it, a signal ends `client watch` at once. -/
theorem c106_watch_partial (st : WSt) (hl : st.listening = true) (ho : st.over = false) :
    ∃ st', wstep st .signal = some st' ∧ st'.over = true :=
  ⟨{ st with over := true }, by simp [wstep, ho, hl], rfl⟩

/-- In every history of `client watch`, whatever the servers and the connections do: it has ended if, and only
if, a signal came after it had begun to wait for one, and then nothing more happens. -/
theorem c106_watch_histories (eps : List Server) (acts : List WAct) (st : WSt)
    (h : wrun (watchStart eps) acts = some st) :
    st.over = true ↔ ∃ before between, acts = before ++ [.listen] ++ between ++ [.signal] := by
  have step : ∀ (s s' : WSt) (a : WAct), wstep s a = some s' → s.over = false ∧
      (s'.listening = true ↔ s.listening = true ∨ a = .listen) ∧
      (s'.over = true ↔ s.listening = true ∧ a = .signal) := by
    intro s s' a hs
    unfold wstep at hs
    cases ho : s.over with
    | true => simp [ho] at hs
    | false =>
      rw [ho] at hs
      refine ⟨rfl, ?_⟩
      simp only [Bool.false_eq_true, if_false] at hs
      cases a with
      | signal => injection hs with hs; subst hs; simp
      | listen => injection hs with hs; subst hs; simp [ho]
      | publish q m => injection hs with hs; subst hs; simp [ho]
      | connect k =>
        dsimp only at hs
        split at hs
        · injection hs with hs; subst hs; simp [ho]
        · exact absurd hs (by simp)
      | unconnected k =>
        dsimp only at hs
        split at hs
        · injection hs with hs; subst hs; simp [ho]
        · exact absurd hs (by simp)
      | read k =>
        dsimp only at hs
        split at hs
        · injection hs with hs; subst hs; simp [ho]
        · injection hs with hs; subst hs; simp [ho]
        · injection hs with hs; subst hs; simp [ho]
        · exact absurd hs (by simp)
      | hangup k =>
        dsimp only at hs
        split at hs
        · injection hs with hs; subst hs; simp [ho]
        · exact absurd hs (by simp)
  have key : ∀ (acts : List WAct) (s : WSt), wrun s acts = some st → s.over = false →
      (st.over = true ↔ (∃ between, s.listening = true ∧ acts = between ++ [.signal]) ∨
        ∃ before between, acts = before ++ [.listen] ++ between ++ [.signal]) := by
    intro acts
    induction acts with
    | nil =>
      intro s h ho
      simp only [wrun, Option.some.injEq] at h
      subst h
      simp [ho]
    | cons a as ih =>
      intro s h ho
      simp only [wrun] at h
      cases hs : wstep s a with
      | none => rw [hs] at h; exact absurd h (by simp)
      | some s1 =>
        rw [hs] at h
        dsimp only at h
        obtain ⟨-, hl, hov⟩ := step s s1 a hs
        cases ho1 : s1.over with
        | true =>
          have : as = [] := by
            cases as with
            | nil => rfl
            | cons b bs =>
              simp only [wrun] at h
              have : wstep s1 b = none := by unfold wstep; rw [ho1]; rfl
              rw [this] at h
              exact absurd h (by simp)
          subst this
          simp only [wrun, Option.some.injEq] at h
          subst h
          obtain ⟨h1, rfl⟩ := hov.1 ho1
          exact ⟨fun _ => .inl ⟨[], h1, rfl⟩, fun _ => ho1⟩
        | false =>
          rw [ih s1 h ho1]
          constructor
          · rintro (⟨bt, h1, rfl⟩ | ⟨be, bt, rfl⟩)
            · rcases hl.1 h1 with h1 | rfl
              · exact .inl ⟨a :: bt, h1, rfl⟩
              · exact .inr ⟨[], bt, rfl⟩
            · exact .inr ⟨a :: be, bt, rfl⟩
          · rintro (⟨bt, h1, h2⟩ | ⟨be, bt, h2⟩)
            · cases bt with
              | nil =>
                simp only [List.nil_append, List.cons.injEq] at h2
                exact absurd (hov.2 ⟨h1, h2.1⟩) (by simp [ho1])
              | cons b bt =>
                simp only [List.cons_append, List.cons.injEq] at h2
                exact .inl ⟨bt, hl.2 (.inl h1), h2.2⟩
            · cases be with
              | nil =>
                simp only [List.nil_append, List.cons_append, List.cons.injEq] at h2
                exact .inl ⟨bt, hl.2 (.inr h2.1), h2.2⟩
              | cons b be =>
                simp only [List.cons_append, List.cons.injEq] at h2
                exact .inr ⟨be, bt, h2.2⟩
  rw [key acts _ h rfl]
  constructor
  · rintro (⟨_, h1, _⟩ | h1)
    · exact absurd h1 (by simp [watchStart])
    · exact h1
  · exact .inr

/-- Two servers; one hangs up, a message of the other is printed, and then the signal comes. -/
example : ∃ st, wrun (watchStart [1, 2]) [.connect 0, .listen, .connect 1, .hangup 0, .publish 2 (.event 7),
    .read 1, .signal] = some st ∧ st.over = true ∧ st.printed = [(1, 7)] := ⟨_, rfl, rfl, rfl⟩

example : ∃ st, run two (start fun _ => []) (session.take 12) = some st ∧ st.cancelled = true ∧
    st.phase = .looping ∧ st.phase.over = false := ⟨_, rfl, rfl, rfl, rfl⟩

/-- The hypotheses of c106_ends_well_partial: the session above, from the printing loop on. -/
example : ∃ st st', run two (start fun _ => []) (session.take 11) = some st ∧ st.phase = .looping ∧
    st.cancelled = false ∧ (session.drop 11).count .signal ≤ 1 ∧ run two st (session.drop 11) = some st' ∧
    st'.phase.over = true := ⟨_, _, rfl, rfl, rfl, by decide, rfl, rfl⟩

/-- VIOLATED: a one-shot command does not end well by itself, even when all streams are over and all jobs
deleted: it waits for a signal. -/
theorem c106_one_swoop_violated (c : Cmd) (ho : c.oneshot = true) (jobs : Jobs) (acts : List Act)
    (hs : Act.signal ∉ acts) (st : St) (h : run c (start jobs) acts = some st) : ¬ EndsWith st 0 := by
  have := run_inv_mem c Unsignalled acts (fun st a st' ha => unsignalled_step ho (fun e => hs (e ▸ ha)))
    _ _ ⟨rfl, .inl rfl⟩ h
  intro he
  unfold EndsWith at he
  rcases this.2 with hp | hp | hp | hp <;> rw [hp] at he <;> simp at he

/-- All is done, and the command waits. -/
example : ∃ st, run ⟨[1], 7, true, true⟩ (start fun _ => [])
    [.next, .created .ok, .next, .connect 0, .hangup 0, .deleted 0 .ok] = some st ∧
    st.workers = [.finished] ∧ st.jobs 1 = [] ∧ st.phase = .looping := ⟨_, rfl, rfl, rfl, rfl⟩

/-- VIOLATED: the second interrupt is a crash. -/
theorem c106_impatient_violated :
    ∃ acts st, run two (start fun _ => []) acts = some st ∧ EndsWith st 2 :=
  ⟨[.next, .signal, .signal], _, rfl, rfl⟩

/-- VIOLATED: a signal that arrives before `watch` waits for it is lost. -/
theorem c106_lost_signal_violated :
    ∃ acts st, WAct.signal ∈ acts ∧ wrun (watchStart [1]) acts = some st ∧ st.over = false :=
  ⟨[.connect 0, .signal, .listen], _, by decide, rfl, rfl⟩

/-! ### C107 -/

/-- What a server answers to a query. -/
def listing (jobs completed : Jobs) (s : Server) : Server × Listing := (s, .jobs (jobs s) (completed s))

/-- After `client create` has ended well, `client query running` shows the job for every endpoint given. -/
theorem c107_created_is_listed (c : Cmd) (ho : c.oneshot = false) (jobs completed : Jobs) (acts : List Act)
    (st : St) (h : run c (start jobs) acts = some st) (he : EndsWith st 0) (s : Server) (hs : s ∈ c.eps) :
    ∃ ids, Report.jobs s ids ∈ runQuery false (c.eps.map (listing st.jobs completed)) ∧ c.id ∈ ids := by
  refine ⟨st.jobs s, ?_, c102_created_partial c ho jobs acts st h he s hs⟩
  simp only [runQuery, List.map_map, List.mem_map]
  exact ⟨s, hs, rfl⟩

/-- After `client delete` has ended well, `client query running` shows it for none of them. -/
theorem c107_deleted_is_not_listed (id : Id) (jobs completed : Jobs) (answers : List (Server × Deleted))
    (jobs' : Jobs) (out : List Line) (h : deleteLoop id jobs answers = some (jobs', out, 0)) (s : Server)
    (ids : List Id)
    (hr : Report.jobs s ids ∈ runQuery false ((answers.map (·.1)).map (listing jobs' completed))) :
    id ∉ ids := by
  simp only [runQuery, List.map_map, List.mem_map, Function.comp_apply, listing] at hr
  obtain ⟨a, ha, hq⟩ := hr
  simp only [Bool.false_eq_true, if_false, Report.jobs.injEq] at hq
  obtain ⟨rfl, rfl⟩ := hq
  exact (c105_deleted_partial id answers jobs jobs' out h).1 a.1 (List.mem_map_of_mem (f := (·.1)) ha)

/-- One endpoint that cannot be reached does not hide the others: there is a report for each, in order. -/
theorem c107_each_reported (completed : Bool) (answers : List (Server × Listing)) :
    (runQuery completed answers).length = answers.length ∧
    ∀ (i : Nat) (s : Server) (a : Listing), answers[i]? = some (s, a) →
      (a = .error ∧ (runQuery completed answers)[i]? = some (.error s)) ∨
      ∃ r d, a = .jobs r d ∧ (runQuery completed answers)[i]? = some (.jobs s (if completed then d else r)) := by
  refine ⟨by simp [runQuery], ?_⟩
  intro i s a h
  cases a with
  | error => exact .inl ⟨rfl, by simp [runQuery, h]⟩
  | jobs r d => exact .inr ⟨r, d, rfl, by simp [runQuery, h]⟩

example : runQuery false [(1, .jobs [7] [3]), (2, .error), (3, .jobs [7, 8] [])] =
    [.jobs 1 [7], .error 2, .jobs 3 [7, 8]] := rfl

end Swoll.Props.ClientCmd
