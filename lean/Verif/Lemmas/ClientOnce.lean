import Verif.Lemmas.ClientEnd
/-
What `client create --oneshot` prints when it has one endpoint.
-/
namespace Swoll.Lemmas.ClientOnce
open Swoll.ClientCmd Swoll.Spec.ClientCmd Swoll.Lemmas.ClientCmd Swoll.Lemmas.ClientEnd

/-- What holds at the beginning and is kept by every action, given the history so far, holds in the end. -/
theorem run_hist (c : Cmd) (P : List Act → St → Prop) (hstep : ∀ as st a st', P as st → step c st a = some st' →
    P (as ++ [a]) st') : ∀ acts as st st', P as st → run c st acts = some st' → P (as ++ acts) st' := by
  intro acts
  induction acts with
  | nil => intro as st st' h hr; simp only [run, Option.some.injEq] at hr; simpa [← hr] using h
  | cons a acts ih =>
    intro as st st' h hr
    simp only [run] at hr
    split at hr
    · exact absurd hr (by simp)
    · rename_i st1 h1
      have := ih (as ++ [a]) st1 st' (hstep as st a st1 h h1) hr
      simpa using this

theorem sent_append (s : Server) (as bs : List Act) :
    sentOnce s (as ++ bs) = sentOnce s as ++ sentOnce s bs := by
  simp [sentOnce, List.filterMap_append]

theorem sentTo_of_not_mem {s : Server} {k : Nat} : ∀ {as : List Act}, Act.connect k ∉ as →
    sentOnceTo s k as = [] := by
  intro as
  induction as with
  | nil => intro _; rfl
  | cons a as ih =>
    intro h
    simp only [List.mem_cons, not_or] at h
    rw [sentOnceTo, if_neg (fun e => h.1 e.symm), ih h.2]

theorem sentTo_append {s : Server} {k : Nat} : ∀ {as : List Act} (bs : List Act), Act.connect k ∈ as →
    sentOnceTo s k (as ++ bs) = sentOnceTo s k as ++ sentOnce s bs := by
  intro as
  induction as with
  | nil => intro _ h; simp at h
  | cons a as ih =>
    intro bs h
    by_cases ha : a = .connect k
    · simp only [List.cons_append, sentOnceTo, if_pos ha, sent_append]
    · simp only [List.mem_cons] at h
      simp only [List.cons_append, sentOnceTo, if_neg ha]
      exact ih bs (h.resolve_left (fun e => ha e.symm))

theorem sentTo_append_not {s : Server} {k : Nat} : ∀ {as : List Act} (bs : List Act), Act.connect k ∉ as →
    sentOnceTo s k (as ++ bs) = sentOnceTo s k bs := by
  intro as
  induction as with
  | nil => intro _ _; rfl
  | cons a as ih =>
    intro bs h
    simp only [List.mem_cons, not_or] at h
    simp only [List.cons_append, sentOnceTo, if_neg (fun e => h.1 (Eq.symm e))]
    exact ih bs h.2

theorem sentTo_prefix (s : Server) (k : Nat) (as bs : List Act) :
    sentOnceTo s k as <+: sentOnceTo s k (as ++ bs) := by
  by_cases h : Act.connect k ∈ as
  · rw [sentTo_append bs h]; exact List.prefix_append _ _
  · rw [sentTo_of_not_mem h]; exact List.nil_prefix

theorem sent_publish (s t : Server) (m : Msg) :
    sentOnce s [.publish t m] = if t = s then eventsOf [m] else [] := by
  cases m <;> by_cases h : t = s <;> simp [sentOnce, eventsOf, h]

/-- Where the one goroutine is and what has been printed. -/
def Shows (e : Server) (as : List Act) (st : St) : Prop :=
  (∀ p ∈ st.printed, p.1 = e) ∧
  ((st.workers = [] ∧ st.idx = 0 ∧ st.printed = [] ∧ Act.connect 0 ∉ as) ∨
   st.idx = 1 ∧ (
   (st.workers = [.ready] ∧ st.printed = [] ∧ Act.connect 0 ∉ as) ∨
   (∃ q, st.workers = [.reading e q] ∧ Act.connect 0 ∈ as ∧
      st.printed.map (·.2) ++ eventsOf q = sentOnceTo e 0 as) ∨
   (st.workers = [.deleting] ∧ st.printed.map (·.2) <+: sentOnceTo e 0 as) ∨
   (st.workers = [.finished] ∧ st.printed.map (·.2) <+: sentOnceTo e 0 as)))

theorem shows_same {e : Server} {as : List Act} {st st' : St} {a : Act} (hi : Shows e as st)
    (hw : st'.workers = st.workers) (hidx : st'.idx = st.idx) (hp : st'.printed = st.printed)
    (ha : a ≠ .connect 0) (hs : sentOnce e [a] = []) : Shows e (as ++ [a]) st' := by
  obtain ⟨h0, h⟩ := hi
  refine ⟨hp ▸ h0, ?_⟩
  rw [hw, hidx, hp]
  have hn : Act.connect 0 ∉ as → Act.connect 0 ∉ as ++ [a] := by
    intro h; simp [h, Ne.symm ha]
  rcases h with ⟨h1, h2, h3, h4⟩ | ⟨h1, ⟨h2, h3, h4⟩ | ⟨q, h2, h3, h4⟩ | ⟨h2, h3⟩ | ⟨h2, h3⟩⟩
  · exact .inl ⟨h1, h2, h3, hn h4⟩
  · exact .inr ⟨h1, .inl ⟨h2, h3, hn h4⟩⟩
  · exact .inr ⟨h1, .inr (.inl ⟨q, h2, by simp [h3], by rw [h4, sentTo_append _ h3, hs]; simp⟩)⟩
  · exact .inr ⟨h1, .inr (.inr (.inl ⟨h2, h3.trans (sentTo_prefix ..)⟩))⟩
  · exact .inr ⟨h1, .inr (.inr (.inr ⟨h2, h3.trans (sentTo_prefix ..)⟩))⟩

theorem getElem?_one {α : Type} {x y : α} {k : Nat} (h : [x][k]? = some y) : k = 0 ∧ x = y := by
  cases k with
  | zero => exact ⟨rfl, by simpa using h⟩
  | succ k => simp at h

/-- The goroutine ends its reading. -/
theorem shows_stop {e : Server} {as : List Act} {st : St} {a : Act} {k : Nat} {s : Server} {q : List Msg}
    {pr : List (Server × Nat)} (hpr : pr = st.printed)
    (hi : Shows e as st) (hk : st.workers[k]? = some (.reading s q)) :
    Shows e (as ++ [a]) { st with workers := st.workers.set k .deleting, printed := pr } := by
  subst hpr
  obtain ⟨h0, h⟩ := hi
  refine ⟨h0, ?_⟩
  rcases h with ⟨h1, _⟩ | ⟨h1, ⟨h2, _⟩ | ⟨q', h2, h3, h4⟩ | ⟨h2, _⟩ | ⟨h2, _⟩⟩
  · rw [h1] at hk; simp at hk
  · rw [h2] at hk; have := (getElem?_one hk).2; simp at this
  · rw [h2] at hk
    obtain ⟨rfl, hq⟩ := getElem?_one hk
    refine .inr ⟨h1, .inr (.inr (.inl ⟨by simp [h2], ?_⟩))⟩
    refine List.IsPrefix.trans ?_ (sentTo_prefix e 0 as _)
    rw [← h4]; exact List.prefix_append _ _
  · rw [h2] at hk; have := (getElem?_one hk).2; simp at this
  · rw [h2] at hk; have := (getElem?_one hk).2; simp at this

theorem shows_step (id : Id) (e : Server) (as : List Act) (st : St) (a : Act) (st' : St)
    (ht : Turn ⟨[e], id, true, true⟩ st) (hi : Shows e as st)
    (h : step ⟨[e], id, true, true⟩ st a = some st') : Shows e (as ++ [a]) st' := by
  obtain ⟨hov, hc⟩ := step_cases h
  clear h
  have hi' := hi
  obtain ⟨h0, hw⟩ := hi
  rcases hc with ⟨rfl, _, rfl⟩ | ⟨rfl, _, rfl⟩ | ⟨rfl, h⟩ | ⟨r, rfl, h⟩ | ⟨k, rfl, hk, _, _, rfl⟩ |
    ⟨k, rfl, hk, rfl⟩ | ⟨s, m, rfl, rfl⟩ | ⟨k, rfl, h⟩ | ⟨k, s, q, rfl, hk, rfl⟩ | ⟨k, r, p, rfl, hk, hd, rfl⟩
  · exact shows_same hi' rfl rfl rfl (by simp) rfl
  · exact shows_same hi' rfl rfl rfl (by simp) rfl
  · rcases nextStep_cases h with ⟨s, hp, hs, rfl⟩ | ⟨hp, hs, rfl⟩ | ⟨hp, _, rfl⟩ | ⟨hp, hall, rfl⟩ <;>
      exact shows_same hi' rfl rfl rfl (by simp) rfl
  · obtain ⟨hp, h⟩ := createdStep_cases h
    have hs := ht.2.1 hp
    have hlt := lt_of_some hs
    rcases h with ⟨_, _, _, rfl⟩ | ⟨_, rfl⟩ | ⟨_, _, rfl⟩
    · simp only [List.length_singleton] at hlt
      rcases hw with ⟨h1, h2, h3, h4⟩ | ⟨h1, _⟩
      · refine ⟨h0, .inr ⟨by simp [h2], .inl ⟨by simp [h1], h3, by simp [h4]⟩⟩⟩
      · omega
    · exact shows_same hi' rfl rfl rfl (by simp) rfl
    · exact shows_same hi' rfl rfl rfl (by simp) rfl
  · have hep : st.ep = e := by
      have := ht.2.2.2 (set_ne_nil (y := Pc.ready) hk).1
      simpa using this
    rcases hw with ⟨h1, _⟩ | ⟨h1, ⟨h2, h3, h4⟩ | ⟨q', h2, _⟩ | ⟨h2, _⟩ | ⟨h2, _⟩⟩
    · rw [h1] at hk; simp at hk
    · rw [h2] at hk
      obtain ⟨rfl, _⟩ := getElem?_one hk
      refine ⟨h0, .inr ⟨h1, .inr (.inl ⟨[], by simp [h2, hep], by simp, ?_⟩)⟩⟩
      rw [sentTo_append_not _ h4]
      simp [h3, eventsOf, sentOnceTo, sentOnce]
    · rw [h2] at hk; have := (getElem?_one hk).2; simp at this
    · rw [h2] at hk; have := (getElem?_one hk).2; simp at this
    · rw [h2] at hk; have := (getElem?_one hk).2; simp at this
  · rcases hw with ⟨h1, _⟩ | ⟨h1, ⟨h2, h3, h4⟩ | ⟨q', h2, _⟩ | ⟨h2, _⟩ | ⟨h2, _⟩⟩
    · rw [h1] at hk; simp at hk
    · rw [h2] at hk
      obtain ⟨rfl, _⟩ := getElem?_one hk
      exact ⟨h0, .inr ⟨h1, .inr (.inr (.inl ⟨by simp [h2], by simp [h3]⟩))⟩⟩
    · rw [h2] at hk; have := (getElem?_one hk).2; simp at this
    · rw [h2] at hk; have := (getElem?_one hk).2; simp at this
    · rw [h2] at hk; have := (getElem?_one hk).2; simp at this
  · refine ⟨h0, ?_⟩
    rcases hw with ⟨h1, h2, h3, h4⟩ | ⟨h1, ⟨h2, h3, h4⟩ | ⟨q, h2, h3, h4⟩ | ⟨h2, h3⟩ | ⟨h2, h3⟩⟩
    · exact .inl ⟨by simp [h1], h2, h3, by simp [h4]⟩
    · exact .inr ⟨h1, .inl ⟨by simp [h2, deliver], h3, by simp [h4]⟩⟩
    · refine .inr ⟨h1, .inr (.inl ⟨if e = s then q ++ [m] else q, by simp [h2, deliver], by simp [h3], ?_⟩)⟩
      rw [sentTo_append _ h3, ← h4, sent_publish]
      by_cases hes : e = s
      · simp [hes, eventsOf, List.filterMap_append]
      · simp [hes, Ne.symm hes]
    · exact .inr ⟨h1, .inr (.inr (.inl ⟨by simp [h2, deliver], h3.trans (sentTo_prefix ..)⟩))⟩
    · exact .inr ⟨h1, .inr (.inr (.inr ⟨by simp [h2, deliver], h3.trans (sentTo_prefix ..)⟩))⟩
  · unfold readStep at h
    split at h
    · rename_i s ev queue hk
      split at h
      · simp only [if_true, Option.some.injEq] at h; subst h
        rcases hw with ⟨h1, _⟩ | ⟨h1, ⟨h2, _⟩ | ⟨q', h2, h3, h4⟩ | ⟨h2, _⟩ | ⟨h2, _⟩⟩
        · rw [h1] at hk; simp at hk
        · rw [h2] at hk; have := (getElem?_one hk).2; simp at this
        · rw [h2] at hk
          obtain ⟨rfl, hq⟩ := getElem?_one hk
          simp only [Pc.reading.injEq] at hq
          obtain ⟨rfl, rfl⟩ := hq
          refine ⟨?_, .inr ⟨h1, .inr (.inl ⟨queue, by simp [h2], by simp [h3], ?_⟩)⟩⟩
          · intro p hp
            simp only [List.mem_append, List.mem_singleton] at hp
            rcases hp with hp | rfl
            · exact h0 p hp
            · rfl
          · rw [sentTo_append _ h3, ← h4]; simp [eventsOf, sentOnce]
        · rw [h2] at hk; have := (getElem?_one hk).2; simp at this
        · rw [h2] at hk; have := (getElem?_one hk).2; simp at this
      · exact absurd h (by simp)
    · rename_i s queue hk
      simp only [Option.some.injEq] at h; subst h
      rcases hw with ⟨h1, _⟩ | ⟨h1, ⟨h2, _⟩ | ⟨q', h2, h3, h4⟩ | ⟨h2, _⟩ | ⟨h2, _⟩⟩
      · rw [h1] at hk; simp at hk
      · rw [h2] at hk; have := (getElem?_one hk).2; simp at this
      · rw [h2] at hk
        obtain ⟨rfl, hq⟩ := getElem?_one hk
        simp only [Pc.reading.injEq] at hq
        obtain ⟨rfl, rfl⟩ := hq
        refine ⟨h0, .inr ⟨h1, .inr (.inl ⟨queue, by simp [h2], by simp [h3], ?_⟩)⟩⟩
        rw [sentTo_append _ h3, ← h4]; simp [eventsOf, sentOnce]
      · rw [h2] at hk; have := (getElem?_one hk).2; simp at this
      · rw [h2] at hk; have := (getElem?_one hk).2; simp at this
    · rename_i s queue hk
      simp only [Option.some.injEq] at h; subst h
      exact shows_stop rfl hi' hk
    · exact absurd h (by simp)
  · exact shows_stop rfl hi' hk
  · rcases hw with ⟨h1, _⟩ | ⟨h1, ⟨h2, _⟩ | ⟨q', h2, _⟩ | ⟨h2, h3⟩ | ⟨h2, _⟩⟩
    · rw [h1] at hk; simp at hk
    · rw [h2] at hk; have := (getElem?_one hk).2; simp at this
    · rw [h2] at hk; have := (getElem?_one hk).2; simp at this
    · rw [h2] at hk
      obtain ⟨rfl, _⟩ := getElem?_one hk
      exact ⟨h0, .inr ⟨h1, .inr (.inr (.inr ⟨by simp [h2], h3.trans (sentTo_prefix ..)⟩))⟩⟩
    · rw [h2] at hk; have := (getElem?_one hk).2; simp at this

theorem shows_run {id : Id} {e : Server} {jobs : Jobs} {acts : List Act} {st : St}
    (h : run ⟨[e], id, true, true⟩ (start jobs) acts = some st) : Shows e acts st := by
  have := run_hist ⟨[e], id, true, true⟩ (fun as st => Turn ⟨[e], id, true, true⟩ st ∧ Shows e as st)
    (fun as st a st' hi hs => ⟨turn_step hi.1 hs, shows_step id e as st a st' hi.1 hi.2 hs⟩) acts [] _ st
    ⟨turn_start _ jobs, by simp [start], .inl ⟨rfl, rfl, rfl, by simp⟩⟩ h
  simpa using this.2

end Swoll.Lemmas.ClientOnce
