import Verif.Lemmas.ClientCmd
/-
How the commands of `swoll client` end, what `watch` prints and what `delete` does.
-/
namespace Swoll.Lemmas.ClientEnd
open Swoll.ClientCmd Swoll.Spec.ClientCmd Swoll.Lemmas.ClientCmd

/-! ### Ending -/

/-- The most steps a goroutine takes once the context is cancelled. -/
def leftOf : Pc → Nat
  | .ready => 2
  | .reading _ q => q.length + 2
  | .deleting => 1
  | .finished => 0

/-- The most steps the main goroutine takes once the context is cancelled. -/
def leftMain : Phase → Nat
  | .head => 3
  | .posting => 1
  | .looping => 2
  | .waiting => 1
  | .ended _ => 0

/-- The most steps left once the context is cancelled and nothing more arrives. -/
def left (st : St) : Nat := leftMain st.phase + (st.workers.map leftOf).sum

theorem sum_set (ws : List Pc) : ∀ (k : Nat) (p q : Pc), ws[k]? = some q → leftOf p < leftOf q →
    ((ws.set k p).map leftOf).sum < (ws.map leftOf).sum := by
  induction ws with
  | nil => intro k p q h; simp at h
  | cons w ws ih =>
    intro k p q h hlt
    cases k with
    | zero =>
      simp only [List.getElem?_cons_zero, Option.some.injEq] at h
      subst h
      simp only [List.set_cons_zero, List.map_cons, List.sum_cons]; omega
    | succ k =>
      simp only [List.getElem?_cons_succ] at h
      have := ih k p q h hlt
      simp only [List.set_cons_succ, List.map_cons, List.sum_cons]; omega

theorem left_step {c : Cmd} {st st' : St} {a : Act} (hc : st.cancelled = true)
    (ha : ∀ s m, a ≠ .publish s m) (h : step c st a = some st') :
    st'.cancelled = true ∧ left st' < left st := by
  obtain ⟨hov, h⟩ := step_cases h
  rcases h with ⟨_, _, rfl⟩ | ⟨_, hf, rfl⟩ | ⟨_, h⟩ | ⟨r, _, h⟩ | ⟨k, _, hk, _, hf, rfl⟩ | ⟨k, _, hk, rfl⟩ |
    ⟨s, m, hm, rfl⟩ | ⟨k, _, h⟩ | ⟨k, s, q, _, hk, rfl⟩ | ⟨k, r, p, rfl, hk, hd, rfl⟩
  · refine ⟨hc, ?_⟩
    simp only [left]
    cases hp : st.phase <;> simp_all [leftMain, Phase.over]
  · rw [hc] at hf; exact absurd hf (by simp)
  · rcases nextStep_cases h with ⟨s, hp, hs, rfl⟩ | ⟨hp, hs, rfl⟩ | ⟨hp, _, rfl⟩ | ⟨hp, _, rfl⟩
    · exact ⟨hc, by simp [left, hp, leftMain]⟩
    · exact ⟨hc, by cases ho : c.oneshot <;> simp [left, hp, leftMain]⟩
    · exact ⟨hc, by simp [left, hp, leftMain]⟩
    · exact ⟨hc, by simp [left, hp, leftMain]⟩
  · obtain ⟨hp, h⟩ := createdStep_cases h
    rcases h with ⟨_, hf, _⟩ | ⟨_, rfl⟩ | ⟨_, _, rfl⟩
    · rw [hc] at hf; exact absurd hf (by simp)
    · exact ⟨hc, by simp [left, hp, leftMain]⟩
    · exact ⟨hc, by simp [left, hp, leftMain]⟩
  · rw [hc] at hf; exact absurd hf (by simp)
  · exact ⟨hc, Nat.add_lt_add_left (sum_set _ k _ _ hk (by simp [leftOf])) _⟩
  · exact absurd hm (ha s m)
  · obtain ⟨s, m, q, pc, pr, hk, rfl, hpc, _⟩ := readStep_cases h
    refine ⟨hc, Nat.add_lt_add_left (sum_set _ k _ _ hk ?_) _⟩
    rcases hpc with ⟨rfl, _⟩ | ⟨rfl, _⟩ <;> simp [leftOf]
  · exact ⟨hc, Nat.add_lt_add_left (sum_set _ k _ _ hk (by simp [leftOf])) _⟩
  · exact ⟨hc, Nat.add_lt_add_left (sum_set _ k _ _ hk (by simp [leftOf])) _⟩

theorem left_run {c : Cmd} : ∀ (acts : List Act) (st st' : St), st.cancelled = true →
    (∀ s m, Act.publish s m ∉ acts) → run c st acts = some st' → acts.length + left st' ≤ left st := by
  intro acts
  induction acts with
  | nil => intro st st' _ _ h; simp only [run, Option.some.injEq] at h; subst h; simp
  | cons a as ih =>
    intro st st' hc hp h
    simp only [run] at h
    split at h
    · exact absurd h (by simp)
    · rename_i st1 h1
      have hl := left_step hc (fun s m hm => hp s m (by simp [hm])) h1
      have := ih st1 st' hl.1 (fun s m hm => hp s m (List.mem_cons_of_mem _ hm)) h
      simp only [List.length_cons]; omega

/-- Once the context is cancelled the process can always go on. -/
theorem goes_on {c : Cmd} {st : St} (hc : st.cancelled = true) (hov : st.phase.over = false) :
    ∃ a, a ≠ .signal ∧ (∀ s m, a ≠ .publish s m) ∧ (step c st a).isSome := by
  cases hp : st.phase with
  | head =>
    refine ⟨.next, by simp, by simp, ?_⟩
    simp only [step, hov, Bool.false_eq_true, if_false]; simp only [nextStep, hp]; split <;> rfl
  | posting =>
    refine ⟨.created .refused, by simp, by simp, ?_⟩
    simp only [step, hov, Bool.false_eq_true, if_false]; simp [createdStep, hp, post]
  | looping =>
    refine ⟨.next, by simp, by simp, ?_⟩
    simp only [step, hov, Bool.false_eq_true, if_false]; simp [nextStep, hp, hc]
  | waiting =>
    by_cases hall : st.workers.all (· == .finished)
    · refine ⟨.next, by simp, by simp, ?_⟩
      simp only [step, hov, Bool.false_eq_true, if_false]; simp only [nextStep, hp, hall, if_true]; rfl
    · simp only [List.all_eq_true, Classical.not_forall] at hall
      obtain ⟨p, hpw, hpf⟩ := hall
      obtain ⟨k, hk⟩ := List.getElem?_of_mem hpw
      cases p with
      | ready => exact ⟨.unconnected k, by simp, by simp, by simp only [step, hov, Bool.false_eq_true, if_false]; simp [hk]⟩
      | reading s q => exact ⟨.hangup k, by simp, by simp, by simp only [step, hov, Bool.false_eq_true, if_false]; simp [hk]⟩
      | deleting => exact ⟨.deleted k .failed, by simp, by simp, by simp only [step, hov, Bool.false_eq_true, if_false]; simp [hk, del]⟩
      | finished => simp at hpf
  | ended code => rw [hp] at hov; simp [Phase.over] at hov

/-- Before a signal arrives a one-shot command prints, or has failed. -/
def Unsignalled (st : St) : Prop :=
  st.cancelled = false ∧
    (st.phase = .head ∨ st.phase = .posting ∨ st.phase = .looping ∨ st.phase = .ended 1)

theorem unsignalled_step {c : Cmd} (ho : c.oneshot = true) {st st' : St} {a : Act} (ha : a ≠ .signal)
    (hi : Unsignalled st) (h : step c st a = some st') : Unsignalled st' := by
  obtain ⟨hc, hp⟩ := hi
  obtain ⟨hov, h⟩ := step_cases h
  rcases h with ⟨rfl, _⟩ | ⟨rfl, _⟩ | ⟨_, h⟩ | ⟨r, _, h⟩ | ⟨k, _, hk, _, hf, rfl⟩ | ⟨k, _, hk, rfl⟩ |
    ⟨s, m, hm, rfl⟩ | ⟨k, _, h⟩ | ⟨k, s, q, _, hk, rfl⟩ | ⟨k, r, p, rfl, hk, hd, rfl⟩
  · exact absurd rfl ha
  · exact absurd rfl ha
  · rcases nextStep_cases h with ⟨s, hq, hs, rfl⟩ | ⟨hq, hs, rfl⟩ | ⟨hq, hf, rfl⟩ | ⟨hq, _, rfl⟩
    · exact ⟨hc, .inr (.inl rfl)⟩
    · exact ⟨hc, .inr (.inr (.inl (by simp [ho])))⟩
    · rw [hc] at hf; exact absurd hf (by simp)
    · rw [hq] at hp; simp at hp
  · obtain ⟨hq, h⟩ := createdStep_cases h
    rcases h with ⟨_, _, _, rfl⟩ | ⟨_, rfl⟩ | ⟨_, _, rfl⟩
    · exact ⟨hc, .inl rfl⟩
    · exact ⟨hc, .inr (.inr (.inr rfl))⟩
    · exact ⟨hc, .inr (.inr (.inr rfl))⟩
  · exact ⟨hc, hp⟩
  · exact ⟨hc, hp⟩
  · exact ⟨hc, hp⟩
  · obtain ⟨s, m, q, pc, pr, hk, rfl, hpc, _⟩ := readStep_cases h
    exact ⟨hc, hp⟩
  · exact ⟨hc, hp⟩
  · exact ⟨hc, hp⟩

/-- From the printing loop on, the only way out without another signal is the good one. -/
theorem orderly_step {c : Cmd} {st st' : St} {a : Act} (ha : a ≠ .signal)
    (hi : st.phase = .looping ∨ st.phase = .waiting ∨ st.phase = .ended 0) (h : step c st a = some st') :
    st'.phase = .looping ∨ st'.phase = .waiting ∨ st'.phase = .ended 0 := by
  obtain ⟨hov, h⟩ := step_cases h
  rcases h with ⟨rfl, _⟩ | ⟨rfl, _⟩ | ⟨_, h⟩ | ⟨r, _, h⟩ | ⟨k, _, hk, _, hf, rfl⟩ | ⟨k, _, hk, rfl⟩ |
    ⟨s, m, hm, rfl⟩ | ⟨k, _, h⟩ | ⟨k, s, q, _, hk, rfl⟩ | ⟨k, r, p, rfl, hk, hd, rfl⟩
  · exact absurd rfl ha
  · exact absurd rfl ha
  · rcases nextStep_cases h with ⟨s, hq, hs, rfl⟩ | ⟨hq, hs, rfl⟩ | ⟨hq, hf, rfl⟩ | ⟨hq, _, rfl⟩
    · rw [hq] at hi; simp at hi
    · rw [hq] at hi; simp at hi
    · exact .inr (.inl rfl)
    · exact .inr (.inr rfl)
  · obtain ⟨hq, h⟩ := createdStep_cases h
    rw [hq] at hi; simp at hi
  · exact hi
  · exact hi
  · exact hi
  · obtain ⟨s, m, q, pc, pr, hk, rfl, hpc, _⟩ := readStep_cases h
    exact hi
  · exact hi
  · exact hi

/-! ### Watching -/

/-- What holds at the beginning and is kept by every action, given the history so far, holds in the end. -/
theorem wrun_hist (P : List WAct → WSt → Prop) (hstep : ∀ as st a st', P as st → wstep st a = some st' →
    P (as ++ [a]) st') : ∀ acts as st st', P as st → wrun st acts = some st' → P (as ++ acts) st' := by
  intro acts
  induction acts with
  | nil => intro as st st' h hr; simp only [wrun, Option.some.injEq] at hr; simpa [← hr] using h
  | cons a acts ih =>
    intro as st st' h hr
    simp only [wrun] at hr
    split at hr
    · exact absurd hr (by simp)
    · rename_i st1 h1
      have := ih (as ++ [a]) st1 st' (hstep as st a st1 h h1) hr
      simpa using this

theorem sent_append (s : Server) (as bs : List WAct) : sent s (as ++ bs) = sent s as ++ sent s bs := by
  simp [sent, List.filterMap_append]

theorem sentTo_of_not_mem {s : Server} {k : Nat} : ∀ {as : List WAct}, WAct.connect k ∉ as →
    sentTo s k as = [] := by
  intro as
  induction as with
  | nil => intro _; rfl
  | cons a as ih =>
    intro h
    simp only [List.mem_cons, not_or] at h
    rw [sentTo, if_neg (fun e => h.1 e.symm), ih h.2]

theorem sentTo_append {s : Server} {k : Nat} : ∀ {as : List WAct} (bs : List WAct), WAct.connect k ∈ as →
    sentTo s k (as ++ bs) = sentTo s k as ++ sent s bs := by
  intro as
  induction as with
  | nil => intro _ h; simp at h
  | cons a as ih =>
    intro bs h
    by_cases ha : a = .connect k
    · simp only [List.cons_append, sentTo, if_pos ha, sent_append]
    · simp only [List.mem_cons] at h
      simp only [List.cons_append, sentTo, if_neg ha]
      exact ih bs (h.resolve_left (fun e => ha e.symm))

theorem sentTo_append_not {s : Server} {k : Nat} : ∀ {as : List WAct} (bs : List WAct), WAct.connect k ∉ as →
    sentTo s k (as ++ bs) = sentTo s k bs := by
  intro as
  induction as with
  | nil => intro _ _; rfl
  | cons a as ih =>
    intro bs h
    simp only [List.mem_cons, not_or] at h
    simp only [List.cons_append, sentTo, if_neg (fun e => h.1 (Eq.symm e))]
    exact ih bs h.2

/-- The events among the messages. -/
def eventsOf (q : List Msg) : List Nat :=
  q.filterMap (fun m => match m with | .event ev => some ev | _ => none)

theorem sent_publish (s t : Server) (m : Msg) :
    sent s [.publish t m] = if t = s then eventsOf [m] else [] := by
  cases m <;> by_cases h : t = s <;> simp [sent, eventsOf, h]

theorem shownBy_append (k : Nat) (p : List (Nat × Nat)) (j ev : Nat) :
    shownBy k (p ++ [(j, ev)]) = shownBy k p ++ (if j = k then [ev] else []) := by
  by_cases h : j = k <;> simp [shownBy, List.filter_append, h]

/-- Where goroutine `k` is and what it has got printed. -/
def Follows (s : Server) (k : Nat) (as : List WAct) (st : WSt) : Prop :=
  (∃ pc, st.readers[k]? = some ⟨s, pc⟩) ∧
  (st.readers[k]? = some ⟨s, .ready⟩ → shownBy k st.printed = [] ∧ WAct.connect k ∉ as) ∧
  (∀ q, st.readers[k]? = some ⟨s, .reading q⟩ → WAct.connect k ∈ as ∧
    shownBy k st.printed ++ eventsOf q = sentTo s k as) ∧
  (st.readers[k]? = some ⟨s, .idle⟩ → shownBy k st.printed <+: sentTo s k as)

theorem follows_start (eps : List Server) (k : Nat) (s : Server) (hs : eps[k]? = some s) :
    Follows s k [] (watchStart eps) := by
  have : (watchStart eps).readers[k]? = some ⟨s, .ready⟩ := by simp [watchStart, hs]
  refine ⟨⟨_, this⟩, ?_, ?_, ?_⟩
  · intro _; simp [watchStart, shownBy]
  · intro q h; rw [this] at h; simp at h
  · intro h; rw [this] at h; simp at h

theorem sentTo_prefix (s : Server) (k : Nat) (as bs : List WAct) :
    sentTo s k as <+: sentTo s k (as ++ bs) := by
  by_cases h : WAct.connect k ∈ as
  · rw [sentTo_append bs h]; exact List.prefix_append _ _
  · rw [sentTo_of_not_mem h]; exact List.nil_prefix

/-- An action that leaves goroutine `k` and its output alone, and is no message for it. -/
theorem follows_same {s : Server} {k : Nat} {as : List WAct} {st st' : WSt} {a : WAct}
    (hi : Follows s k as st) (hr : st'.readers[k]? = st.readers[k]?)
    (hp : shownBy k st'.printed = shownBy k st.printed) (ha : a ≠ .connect k)
    (hq : ∀ q, st.readers[k]? = some ⟨s, .reading q⟩ → sent s [a] = []) : Follows s k (as ++ [a]) st' := by
  obtain ⟨h0, h1, h2, h3⟩ := hi
  refine ⟨hr ▸ h0, ?_, ?_, ?_⟩
  · intro h; rw [hr] at h; obtain ⟨ha1, ha2⟩ := h1 h
    refine ⟨hp ▸ ha1, ?_⟩
    simp only [List.mem_append, List.mem_singleton, not_or]
    exact ⟨ha2, fun e => ha e.symm⟩
  · intro q h
    rw [hr] at h
    obtain ⟨hc, he⟩ := h2 q h
    refine ⟨by simp [hc], ?_⟩
    rw [hp, he, sentTo_append _ hc, hq q h]; simp
  · intro h
    rw [hr] at h
    rw [hp]
    exact (h3 h).trans (sentTo_prefix s k as [a])

theorem getElem?_set_self' {α : Type} {l : List α} {k : Nat} {x y : α} (h : l[k]? = some x) :
    (l.set k y)[k]? = some y := by
  rw [List.getElem?_set_self (lt_of_some h)]

theorem follows_step (s : Server) (k : Nat) (as : List WAct) (st : WSt) (a : WAct) (st' : WSt)
    (hi : Follows s k as st) (h : wstep st a = some st') : Follows s k (as ++ [a]) st' := by
  have hi' := hi
  obtain ⟨⟨pc, h0⟩, h1, h2, h3⟩ := hi
  unfold wstep at h
  split at h
  · exact absurd h (by simp)
  cases a with
  | signal =>
    simp only [Option.some.injEq] at h; subst h
    exact follows_same hi' rfl rfl (by simp) (fun _ _ => rfl)
  | listen =>
    simp only [Option.some.injEq] at h; subst h
    exact follows_same hi' rfl rfl (by simp) (fun _ _ => rfl)
  | connect j =>
    simp only at h
    split at h
    · rename_i t hj
      simp only [Option.some.injEq] at h; subst h
      by_cases hjk : j = k
      · subst hjk
        have hpc : pc = .ready ∧ t = s := by rw [h0] at hj; simpa [eq_comm, and_comm] using hj
        obtain ⟨rfl, rfl⟩ := hpc
        have hnew := getElem?_set_self' (y := (⟨t, .reading []⟩ : Reader)) hj
        obtain ⟨hp, hn⟩ := h1 h0
        refine ⟨⟨_, hnew⟩, ?_, ?_, ?_⟩
        · intro h; simp only at h; rw [hnew] at h; simp at h
        · intro q h
          simp only at h; rw [hnew] at h
          simp only [Option.some.injEq, Reader.mk.injEq, true_and, WPc.reading.injEq] at h
          subst h
          refine ⟨by simp, ?_⟩
          rw [sentTo_append_not _ hn]
          simp [hp, eventsOf, sentTo, sent]
        · intro h; simp only at h; rw [hnew] at h; simp at h
      · exact follows_same hi' (by simp only; rw [List.getElem?_set_ne hjk]) rfl
          (by simpa using hjk) (fun _ _ => rfl)
    · exact absurd h (by simp)
  | unconnected j =>
    simp only at h
    split at h
    · rename_i t hj
      simp only [Option.some.injEq] at h; subst h
      by_cases hjk : j = k
      · subst hjk
        have hpc : pc = .ready ∧ t = s := by rw [h0] at hj; simpa [eq_comm, and_comm] using hj
        obtain ⟨rfl, rfl⟩ := hpc
        have hnew := getElem?_set_self' (y := (⟨t, .idle⟩ : Reader)) hj
        obtain ⟨hp, hn⟩ := h1 h0
        refine ⟨⟨_, hnew⟩, ?_, ?_, ?_⟩
        · intro h; simp only at h; rw [hnew] at h; simp at h
        · intro q h; simp only at h; rw [hnew] at h; simp at h
        · intro _; simp [hp]
      · exact follows_same hi' (by simp only; rw [List.getElem?_set_ne hjk]) rfl
          (by simp) (fun _ _ => rfl)
    · exact absurd h (by simp)
  | publish t m =>
    simp only [Option.some.injEq] at h; subst h
    have hnew : (st.readers.map (wdeliver t m))[k]? = some (wdeliver t m ⟨s, pc⟩) := by
      rw [List.getElem?_map, h0]; rfl
    cases pc with
    | ready =>
      exact follows_same hi' (by simp only; rw [hnew, h0]; rfl) rfl (by simp)
        (fun q h => by rw [h0] at h; simp at h)
    | idle =>
      exact follows_same hi' (by simp only; rw [hnew, h0]; rfl) rfl (by simp)
        (fun q h => by rw [h0] at h; simp at h)
    | reading q =>
      obtain ⟨hc, he⟩ := h2 q h0
      by_cases hts : s = t
      · subst hts
        have hd : wdeliver s m ⟨s, .reading q⟩ = ⟨s, .reading (q ++ [m])⟩ := by simp [wdeliver]
        rw [hd] at hnew
        refine ⟨⟨_, hnew⟩, ?_, ?_, ?_⟩
        · intro h; simp only at h; rw [hnew] at h; simp at h
        · intro q' h
          simp only at h; rw [hnew] at h
          simp only [Option.some.injEq, Reader.mk.injEq, true_and, WPc.reading.injEq] at h
          subst h
          refine ⟨by simp [hc], ?_⟩
          rw [sentTo_append _ hc, ← he, sent_publish]
          simp [eventsOf, List.filterMap_append]
        · intro h; simp only at h; rw [hnew] at h; simp at h
      · have hd : wdeliver t m ⟨s, .reading q⟩ = ⟨s, .reading q⟩ := by simp [wdeliver, hts]
        rw [hd] at hnew
        exact follows_same hi' (by simp only; rw [hnew, h0]) rfl (by simp)
          (fun _ _ => by rw [sent_publish, if_neg (fun e => hts e.symm)])
  | read j =>
    simp only at h
    split at h
    · rename_i t ev queue hj
      simp only [Option.some.injEq] at h; subst h
      by_cases hjk : j = k
      · subst hjk
        have hpc : pc = .reading (.event ev :: queue) ∧ t = s := by
          rw [h0] at hj; simpa [eq_comm, and_comm] using hj
        obtain ⟨rfl, rfl⟩ := hpc
        have hnew := getElem?_set_self' (y := (⟨t, .reading queue⟩ : Reader)) hj
        obtain ⟨hc, he⟩ := h2 _ h0
        refine ⟨⟨_, hnew⟩, ?_, ?_, ?_⟩
        · intro h; simp only at h; rw [hnew] at h; simp at h
        · intro q' h
          simp only at h; rw [hnew] at h
          simp only [Option.some.injEq, Reader.mk.injEq, true_and, WPc.reading.injEq] at h
          subst h
          refine ⟨by simp [hc], ?_⟩
          rw [sentTo_append _ hc, ← he, shownBy_append]
          simp [eventsOf, sent]
        · intro h; simp only at h; rw [hnew] at h; simp at h
      · exact follows_same hi' (by simp only; rw [List.getElem?_set_ne hjk])
          (by simp only; rw [shownBy_append, if_neg hjk]; simp) (by simp) (fun _ _ => rfl)
    · rename_i t queue hj
      simp only [Option.some.injEq] at h; subst h
      by_cases hjk : j = k
      · subst hjk
        have hpc : pc = .reading (.undecodable :: queue) ∧ t = s := by
          rw [h0] at hj; simpa [eq_comm, and_comm] using hj
        obtain ⟨rfl, rfl⟩ := hpc
        have hnew := getElem?_set_self' (y := (⟨t, .reading queue⟩ : Reader)) hj
        obtain ⟨hc, he⟩ := h2 _ h0
        refine ⟨⟨_, hnew⟩, ?_, ?_, ?_⟩
        · intro h; simp only at h; rw [hnew] at h; simp at h
        · intro q' h
          simp only at h; rw [hnew] at h
          simp only [Option.some.injEq, Reader.mk.injEq, true_and, WPc.reading.injEq] at h
          subst h
          refine ⟨by simp [hc], ?_⟩
          rw [sentTo_append _ hc, ← he]
          simp [eventsOf, sent]
        · intro h; simp only at h; rw [hnew] at h; simp at h
      · exact follows_same hi' (by simp only; rw [List.getElem?_set_ne hjk]) rfl
          (by simp) (fun _ _ => rfl)
    · rename_i t queue hj
      simp only [Option.some.injEq] at h; subst h
      by_cases hjk : j = k
      · subst hjk
        have hpc : pc = .reading (.tooLong :: queue) ∧ t = s := by
          rw [h0] at hj; simpa [eq_comm, and_comm] using hj
        obtain ⟨rfl, rfl⟩ := hpc
        have hnew := getElem?_set_self' (y := (⟨t, .idle⟩ : Reader)) hj
        obtain ⟨hc, he⟩ := h2 _ h0
        refine ⟨⟨_, hnew⟩, ?_, ?_, ?_⟩
        · intro h; simp only at h; rw [hnew] at h; simp at h
        · intro q' h; simp only at h; rw [hnew] at h; simp at h
        · intro _
          refine List.IsPrefix.trans ?_ (sentTo_prefix t j as _)
          rw [← he]; exact List.prefix_append _ _
      · exact follows_same hi' (by simp only; rw [List.getElem?_set_ne hjk]) rfl
          (by simp) (fun _ _ => rfl)
    · exact absurd h (by simp)
  | hangup j =>
    simp only at h
    split at h
    · rename_i t queue hj
      simp only [Option.some.injEq] at h; subst h
      by_cases hjk : j = k
      · subst hjk
        have hpc : pc = .reading queue ∧ t = s := by
          rw [h0] at hj; simpa [eq_comm, and_comm] using hj
        obtain ⟨rfl, rfl⟩ := hpc
        have hnew := getElem?_set_self' (y := (⟨t, .idle⟩ : Reader)) hj
        obtain ⟨hc, he⟩ := h2 _ h0
        refine ⟨⟨_, hnew⟩, ?_, ?_, ?_⟩
        · intro h; simp only at h; rw [hnew] at h; simp at h
        · intro q' h; simp only at h; rw [hnew] at h; simp at h
        · intro _
          refine List.IsPrefix.trans ?_ (sentTo_prefix t j as _)
          rw [← he]; exact List.prefix_append _ _
      · exact follows_same hi' (by simp only; rw [List.getElem?_set_ne hjk]) rfl
          (by simp) (fun _ _ => rfl)
    · exact absurd h (by simp)

theorem follows_run {eps : List Server} {acts : List WAct} {st : WSt} {k : Nat} {s : Server}
    (hs : eps[k]? = some s) (h : wrun (watchStart eps) acts = some st) : Follows s k acts st := by
  have := wrun_hist (Follows s k) (follows_step s k) acts [] _ st (follows_start eps k s hs) h
  simpa using this

/-- `n` readings of goroutine `k` deal with `n` messages that are not too long. -/
theorem drains (k : Nat) (s : Server) : ∀ (q : List Msg) (st : WSt), st.over = false → Msg.tooLong ∉ q →
    st.readers[k]? = some ⟨s, .reading q⟩ →
    ∃ st', wrun st (List.replicate q.length (.read k)) = some st' ∧
      shownBy k st'.printed = shownBy k st.printed ++ eventsOf q := by
  intro q
  induction q with
  | nil => intro st _ _ _; exact ⟨st, rfl, by simp [eventsOf]⟩
  | cons m q ih =>
    intro st ho hn hk
    simp only [List.mem_cons, not_or] at hn
    have hstep : ∀ st1, wstep st (.read k) = some st1 → ∀ st', wrun st1 (List.replicate q.length (.read k)) =
        some st' → wrun st (List.replicate (m :: q).length (.read k)) = some st' := by
      intro st1 h1 st' h
      simp only [List.length_cons, List.replicate_succ, wrun, h1, h]
    cases m with
    | tooLong => exact absurd rfl hn.1
    | event ev =>
      obtain ⟨st', hr, he⟩ := ih
        { st with readers := st.readers.set k ⟨s, .reading q⟩, printed := st.printed ++ [(k, ev)] }
        ho hn.2 (getElem?_set_self' hk)
      refine ⟨st', hstep _ (by unfold wstep; rw [if_neg (by simp [ho])]; simp only; rw [hk]) _ hr, ?_⟩
      rw [he, shownBy_append]
      simp [eventsOf]
    | undecodable =>
      obtain ⟨st', hr, he⟩ := ih { st with readers := st.readers.set k ⟨s, .reading q⟩ } ho hn.2
        (getElem?_set_self' hk)
      exact ⟨st', hstep _ (by unfold wstep; rw [if_neg (by simp [ho])]; simp only; rw [hk]) _ hr,
        by rw [he]; simp [eventsOf]⟩

/-- A websocket stays open as long as nobody ends it and no message is too long. -/
theorem stays_open {eps : List Server} {acts : List WAct} {st : WSt}
    (h : wrun (watchStart eps) acts = some st) {k : Nat} {s : Server} (hks : eps[k]? = some s)
    (hc : WAct.connect k ∈ acts) (hh : WAct.hangup k ∉ acts) (hsh : Short acts) :
    ∃ q, st.readers[k]? = some ⟨s, .reading q⟩ ∧ Msg.tooLong ∉ q := by
  have key := wrun_hist (fun as st => (∀ a ∈ as, a ∈ acts) →
      (∀ a ∈ as, a ≠ .hangup k) ∧ (∀ s, WAct.publish s .tooLong ∉ as) ∧
      ((st.readers[k]? = some ⟨s, .ready⟩ ∧ WAct.connect k ∉ as) ∨
       (st.readers[k]? = some ⟨s, .idle⟩ ∧ WAct.connect k ∉ as) ∨
        ∃ q, st.readers[k]? = some ⟨s, .reading q⟩ ∧ Msg.tooLong ∉ q)) (by
    intro as st a st' hi hs hsub
    have hi := hi (fun x hx => hsub x (by simp [hx]))
    have hain : a ∈ acts := hsub a (by simp)
    have ha : a ≠ .hangup k := fun e => hh (e ▸ hain)
    refine ⟨?_, ?_, ?_⟩
    · intro x hx
      simp only [List.mem_append, List.mem_singleton] at hx
      rcases hx with hx | rfl
      · exact hi.1 x hx
      · exact ha
    · intro t ht
      exact hsh t (hsub _ ht)
    · have hst := hi.2.2
      -- an action that leaves goroutine `k` alone
      have same : st'.readers[k]? = st.readers[k]? → a ≠ .connect k →
          ((st'.readers[k]? = some ⟨s, .ready⟩ ∧ WAct.connect k ∉ as ++ [a]) ∨
           (st'.readers[k]? = some ⟨s, .idle⟩ ∧ WAct.connect k ∉ as ++ [a]) ∨
            ∃ q, st'.readers[k]? = some ⟨s, .reading q⟩ ∧ Msg.tooLong ∉ q) := by
        intro hr hne
        rw [hr]
        rcases hst with ⟨h1, h2⟩ | ⟨h1, h2⟩ | h1
        · exact .inl ⟨h1, by simp [h2, Ne.symm hne]⟩
        · exact .inr (.inl ⟨h1, by simp [h2, Ne.symm hne]⟩)
        · exact .inr (.inr h1)
      unfold wstep at hs
      split at hs
      · exact absurd hs (by simp)
      cases a with
      | signal => simp only [Option.some.injEq] at hs; subst hs; exact same rfl (by simp)
      | listen => simp only [Option.some.injEq] at hs; subst hs; exact same rfl (by simp)
      | connect j =>
        simp only at hs
        split at hs
        · rename_i t hj
          simp only [Option.some.injEq] at hs; subst hs
          by_cases hjk : j = k
          · subst hjk
            refine .inr (.inr ⟨[], ?_, by simp⟩)
            have hts : t = s := by
              rcases hst with ⟨h1, _⟩ | ⟨h1, _⟩ | ⟨q, h1, _⟩ <;> rw [h1] at hj <;> simp at hj
              exact hj.symm
            subst hts
            exact getElem?_set_self' hj
          · exact same (by simp only; rw [List.getElem?_set_ne hjk]) (by simpa using hjk)
        · exact absurd hs (by simp)
      | unconnected j =>
        simp only at hs
        split at hs
        · rename_i t hj
          simp only [Option.some.injEq] at hs; subst hs
          by_cases hjk : j = k
          · subst hjk
            rcases hst with ⟨h1, h2⟩ | ⟨h1, _⟩ | ⟨q, h1, _⟩
            · refine .inr (.inl ⟨?_, by simp [h2]⟩)
              have hts : t = s := by rw [h1] at hj; simp at hj; exact hj.symm
              subst hts
              exact getElem?_set_self' hj
            · rw [h1] at hj; simp at hj
            · rw [h1] at hj; simp at hj
          · exact same (by simp only; rw [List.getElem?_set_ne hjk]) (by simp)
        · exact absurd hs (by simp)
      | publish t m =>
        simp only [Option.some.injEq] at hs; subst hs
        have hm : m ≠ .tooLong := fun e => hsh t (e ▸ hain)
        rcases hst with ⟨h1, h2⟩ | ⟨h1, h2⟩ | ⟨q, h1, hq⟩
        · exact .inl ⟨by simp only; rw [List.getElem?_map, h1]; rfl, by simp [h2]⟩
        · exact .inr (.inl ⟨by simp only; rw [List.getElem?_map, h1]; rfl, by simp [h2]⟩)
        · by_cases hts : s = t
          · refine .inr (.inr ⟨q ++ [m], ?_, by simp [hq, Ne.symm hm]⟩)
            simp only; rw [List.getElem?_map, h1]; simp [wdeliver, hts]
          · refine .inr (.inr ⟨q, ?_, hq⟩)
            simp only; rw [List.getElem?_map, h1]; simp [wdeliver, hts]
      | read j =>
        by_cases hjk : j = k
        · subst hjk
          rcases hst with ⟨h1, h2⟩ | ⟨h1, h2⟩ | ⟨q, h1, hq⟩
          · simp [h1] at hs
          · simp [h1] at hs
          · cases q with
            | nil => simp [h1] at hs
            | cons m q =>
              simp only [List.mem_cons, not_or] at hq
              cases m with
              | tooLong => exact absurd rfl hq.1
              | event ev =>
                simp only [h1, Option.some.injEq] at hs; subst hs
                exact .inr (.inr ⟨q, getElem?_set_self' h1, hq.2⟩)
              | undecodable =>
                simp only [h1, Option.some.injEq] at hs; subst hs
                exact .inr (.inr ⟨q, getElem?_set_self' h1, hq.2⟩)
        · simp only at hs
          split at hs
          · simp only [Option.some.injEq] at hs; subst hs
            exact same (by simp only; rw [List.getElem?_set_ne hjk]) (by simp)
          · simp only [Option.some.injEq] at hs; subst hs
            exact same (by simp only; rw [List.getElem?_set_ne hjk]) (by simp)
          · simp only [Option.some.injEq] at hs; subst hs
            exact same (by simp only; rw [List.getElem?_set_ne hjk]) (by simp)
          · exact absurd hs (by simp)
      | hangup j =>
        simp only at hs
        split at hs
        · simp only [Option.some.injEq] at hs; subst hs
          have hjk : j ≠ k := fun e => ha (e ▸ rfl)
          exact same (by simp only; rw [List.getElem?_set_ne hjk]) (by simp)
        · exact absurd hs (by simp)) acts [] _ st (by
      intro _
      exact ⟨by simp, by simp, .inl ⟨by simp [watchStart, hks], by simp⟩⟩) h
  have := (key (by simp)).2.2
  rcases this with ⟨_, hn⟩ | ⟨_, hn⟩ | hq
  · exact absurd hc (by simpa using hn)
  · exact absurd hc (by simpa using hn)
  · exact hq

end Swoll.Lemmas.ClientEnd
