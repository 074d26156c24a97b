import Verif.Spec.Shutdown
/-
C148: the server ends when it is told to, and not before.
-/
namespace Swoll.Props.Shutdown
open Swoll.Shutdown Swoll.Spec.Shutdown

theorem run_append (s : State) (a b : List Act) : run s (a ++ b) = run (run s a) b := by simp [run, List.foldl_append]

theorem run_cons (s : State) (a : Act) (l : List Act) : run s (a :: l) = run (step s a) l := rfl

theorem over_step {s : State} (h : s.phase = .over) (a : Act) : step s a = s := by
  unfold step
  rw [h]

theorem over_run {s : State} (h : s.phase = .over) (l : List Act) : run s l = s := by
  induction l with
  | nil => rfl
  | cons a l ih => rw [run_cons, over_step h, ih]

/-- In `Shutdown`, within its time. -/
structure Closing (t : Nat) (s : State) : Prop where
  phase : s.phase = .closing t
  deaf : s.listening = false
  since : t ≤ s.now
  early : s.now < t + limit

/-- One step within `Shutdown`. -/
theorem closing_step {t : Nat} {s : State} (h : Closing t s) (a : Act) :
    (step s a).phase = .over ∨ (Closing t (step s a) ∧ (step s a).now = s.now + (if a = .tick then 1 else 0)) := by
  obtain ⟨h1, h2, h3, h4⟩ := h
  unfold step
  rw [h1]
  cases a with
  | tick =>
    dsimp only
    by_cases hl : t + limit ≤ s.now + 1
    · rw [if_pos hl]; exact Or.inl rfl
    · rw [if_neg hl]
      by_cases he : (s.now + 1 - t) % every = 0
      · rw [if_pos he]
        unfold State.look
        by_cases hb : s.busy = []
        · rw [if_pos hb]; exact Or.inl rfl
        · rw [if_neg hb]; exact Or.inr ⟨⟨rfl, h2, by dsimp only; omega, by dsimp only; omega⟩, by simp⟩
      · rw [if_neg he]; exact Or.inr ⟨⟨rfl, h2, by dsimp only; omega, by dsimp only; omega⟩, by simp⟩
  | request id => dsimp only; rw [h2]; exact Or.inr ⟨⟨h1, h2, h3, h4⟩, by simp⟩
  | answer id => dsimp only; split <;> first | exact Or.inr ⟨⟨h1, h2, h3, h4⟩, by simp⟩ | exact Or.inr ⟨⟨rfl, h2, h3, h4⟩, by simp⟩
  | upgrade id => dsimp only; split <;> first | exact Or.inr ⟨⟨h1, h2, h3, h4⟩, by simp⟩ | exact Or.inr ⟨⟨rfl, h2, h3, h4⟩, by simp⟩
  | interrupt => dsimp only; rw [h1]; exact Or.inr ⟨⟨h1, h2, h3, h4⟩, by simp⟩
  | terminate => exact Or.inl rfl
  | hubFails => exact Or.inl rfl

theorem limit_pos : 0 < limit := by decide

theorem interrupt_step {s : State} (h : s.phase = .waiting) :
    (s.busy = [] ∧ step s .interrupt = ({ s with phase := .closing s.now, listening := false } : State).finish) ∨
    (s.busy ≠ [] ∧ step s .interrupt = { s with phase := .closing s.now, listening := false } ∧ Closing s.now (step s .interrupt)) := by
  have e : step s .interrupt = ({ s with phase := .closing s.now, listening := false } : State).look := by
    unfold step
    rw [h]
  have hl := limit_pos
  by_cases hb : s.busy = []
  · left
    refine ⟨hb, ?_⟩
    rw [e]
    unfold State.look
    rw [if_pos hb]
  · right
    have e2 : step s .interrupt = { s with phase := .closing s.now, listening := false } := by
      rw [e]
      unfold State.look
      rw [if_neg hb]
    refine ⟨hb, e2, ?_⟩
    rw [e2]
    exact ⟨rfl, rfl, Nat.le_refl _, by dsimp only; omega⟩

theorem ticks_cons (a : Act) (l : List Act) : ticks (a :: l) = ticks l + if a = .tick then 1 else 0 := by
  unfold ticks
  rw [List.count_cons]
  congr 1
  by_cases h : a = .tick <;> simp [h]

theorem closing_ends {t : Nat} : ∀ (l : List Act) {s : State}, Closing t s → t + limit ≤ s.now + ticks l → (run s l).phase = .over
  | [], s, h, hl => by
    have := h.early
    simp only [ticks, List.count_nil] at hl
    omega
  | a :: l, s, h, hl => by
    rw [ticks_cons] at hl
    rw [run_cons]
    rcases closing_step h a with e | ⟨e1, e2⟩
    · rw [over_run e]; exact e
    · exact closing_ends l e1 (by omega)

/-- C148: the server is gone 15 seconds after the interrupt, whatever else happens. -/
theorem c148_ends (listens : Bool) (before after : List Act) (hw : (run (start listens) before).phase = .waiting)
    (ht : 15000 ≤ ticks after) : (run (start listens) (before ++ .interrupt :: after)).phase = .over := by
  rw [run_append, run_cons]
  rcases interrupt_step hw with ⟨-, e⟩ | ⟨-, e, hc⟩
  · have : (step (run (start listens) before) .interrupt).phase = .over := by rw [e]; rfl
    rw [over_run this]; exact this
  · refine closing_ends after hc ?_
    rw [e]
    dsimp only [limit]
    omega

/-- The request is being handled, or has been answered. -/
def Safe (id : Nat) (s : State) : Prop := id ∈ s.busy ∨ id ∈ s.answered

theorem safe_step {t id : Nat} {s : State} (h : Closing t s) (hs : Safe id s) (a : Act) (ht : s.now + (if a = .tick then 1 else 0) < t + limit)
    (h1 : a ≠ .terminate) (h2 : a ≠ .hubFails) (h3 : a ≠ .upgrade id) :
    Safe id (step s a) ∧ (id ∈ (step s a).answered ∨ (step s a).phase ≠ .over) := by
  unfold step
  rw [h.phase]
  cases a with
  | tick =>
    simp only [if_true] at ht
    dsimp only
    rw [if_neg (by omega)]
    by_cases he : (s.now + 1 - t) % every = 0
    · rw [if_pos he]
      unfold State.look
      by_cases hb : s.busy = []
      · rw [if_pos hb]
        rcases hs with hs | hs
        · rw [hb] at hs; cases hs
        · exact ⟨Or.inr hs, Or.inl hs⟩
      · rw [if_neg hb]; exact ⟨hs, Or.inr (by simp)⟩
    · rw [if_neg he]; exact ⟨hs, Or.inr (by simp)⟩
  | request x => dsimp only; rw [h.deaf]; exact ⟨hs, Or.inr (by rw [if_neg (by simp), h.phase]; simp)⟩
  | answer x =>
    dsimp only
    by_cases hx : x ∈ s.busy
    · rw [if_pos hx]
      refine ⟨?_, Or.inr (by simp)⟩
      rcases hs with hs | hs
      · by_cases e : id = x
        · exact Or.inr (by rw [e]; simp)
        · exact Or.inl ((List.mem_erase_of_ne e).2 hs)
      · exact Or.inr (List.mem_append_left _ hs)
    · rw [if_neg hx]; exact ⟨hs, Or.inr (by rw [h.phase]; simp)⟩
  | upgrade x =>
    dsimp only
    by_cases hx : x ∈ s.busy
    · rw [if_pos hx]
      refine ⟨?_, Or.inr (by simp)⟩
      rcases hs with hs | hs
      · exact Or.inl ((List.mem_erase_of_ne (fun e => h3 (by rw [e]))).2 hs)
      · exact Or.inr hs
    · rw [if_neg hx]; exact ⟨hs, Or.inr (by rw [h.phase]; simp)⟩
  | interrupt => exact ⟨hs, Or.inr (by dsimp only; rw [h.phase]; simp)⟩
  | terminate => exact absurd rfl h1
  | hubFails => exact absurd rfl h2

theorem safe_run {t id : Nat} : ∀ (l : List Act) {s : State}, Closing t s → Safe id s → Calm l → .upgrade id ∉ l →
    s.now + ticks l < t + limit → id ∈ (run s l).answered ∨ (id ∈ (run s l).busy ∧ Closing t (run s l))
  | [], s, h, hs, _, _, _ => by
    rcases hs with hs | hs
    · exact Or.inr ⟨hs, h⟩
    · exact Or.inl hs
  | a :: l, s, h, hs, hc, hu, ht => by
    rw [ticks_cons] at ht
    rw [run_cons]
    obtain ⟨g1, g2⟩ := safe_step h hs a (by omega) (fun e => hc.1 (by rw [e]; simp)) (fun e => hc.2 (by rw [e]; simp))
      (fun e => hu (by rw [e]; simp))
    rcases closing_step h a with e | ⟨e1, e2⟩
    · rw [over_run e]
      rcases g2 with g2 | g2
      · exact Or.inl g2
      · exact absurd e g2
    · exact safe_run l e1 g1 ⟨fun hh => hc.1 (List.mem_cons_of_mem _ hh), fun hh => hc.2 (List.mem_cons_of_mem _ hh)⟩
        (fun hh => hu (List.mem_cons_of_mem _ hh)) (by omega)

theorem answered_step (s : State) (a : Act) : ∀ id ∈ s.answered, id ∈ (step s a).answered := by
  intro id h
  unfold step State.finish State.look State.finish
  cases s.phase <;> cases a <;> dsimp only <;> (repeat' split) <;> first | exact h | exact List.mem_append_left _ h

/-- C148: a request that came before the interrupt, and whose answer is ready within 15 seconds, is answered. -/
theorem c148_answered_partial (listens : Bool) (before mid after : List Act) (id : Nat)
    (hw : (run (start listens) before).phase = .waiting) (hb : id ∈ (run (start listens) before).busy)
    (hc : Calm mid) (hu : .upgrade id ∉ mid) (ht : ticks mid < 15000) :
    id ∈ (run (start listens) (before ++ .interrupt :: mid ++ .answer id :: after)).answered := by
  have H : id ∈ (run (start listens) (before ++ .interrupt :: mid ++ [.answer id])).answered := by
    rw [run_append, run_append, run_cons _ Act.interrupt]
    rcases interrupt_step hw with ⟨e, -⟩ | ⟨-, e, hcl⟩
    · rw [e] at hb; cases hb
    · have hs : Safe id (step (run (start listens) before) .interrupt) := by rw [e]; exact Or.inl hb
      rcases safe_run mid hcl hs hc hu (by rw [e]; dsimp only [limit]; omega) with h | ⟨h1, h2⟩
      · exact answered_step _ (.answer id) id h
      · generalize run (step (run (start listens) before) .interrupt) mid = s at h1 h2
        show id ∈ (step s (.answer id)).answered
        unfold step
        rw [h2.phase]
        dsimp only
        rw [if_pos h1]
        simp
  rw [show before ++ Act.interrupt :: mid ++ Act.answer id :: after = (before ++ Act.interrupt :: mid ++ [Act.answer id]) ++ after by simp,
    run_append]
  generalize run (start listens) (before ++ .interrupt :: mid ++ [.answer id]) = s at H
  induction after generalizing s with
  | nil => exact H
  | cons a l ih => rw [run_cons]; exact ih _ (answered_step s a id H)

theorem quiet_step {t : Nat} {s : State} (h : Closing t s) (hb : s.busy = []) (a : Act) :
    (step s a).phase = .over ∨ (Closing t (step s a) ∧ (step s a).busy = [] ∧
      (a = .tick → (step s a).now = s.now + 1 ∧ (s.now + 1 - t) % every ≠ 0) ∧ (a ≠ .tick → (step s a).now = s.now)) := by
  rcases closing_step h a with e | ⟨e1, e2⟩
  · exact Or.inl e
  · by_cases hover : (step s a).phase = .over
    · exact Or.inl hover
    right
    refine ⟨e1, ?_, ?_, fun ha => by rw [if_neg ha] at e2; exact e2⟩
    · unfold step at hover ⊢
      rw [h.phase] at hover ⊢
      cases a with
      | tick =>
        dsimp only at hover ⊢
        unfold State.look at hover ⊢
        repeat' split
        all_goals first | exact hb | rfl
      | request id => dsimp only; rw [h.deaf]; exact hb
      | answer id => dsimp only; rw [hb]; exact hb
      | upgrade id => dsimp only; rw [hb]; exact hb
      | interrupt => exact hb
      | terminate => rfl
      | hubFails => rfl
    · intro ha
      rw [if_pos ha] at e2
      refine ⟨e2, fun he => hover ?_⟩
      subst ha
      unfold step
      rw [h.phase]
      dsimp only
      by_cases hl : t + limit ≤ s.now + 1
      · rw [if_pos hl]; rfl
      · rw [if_neg hl, if_pos he]
        unfold State.look
        rw [if_pos hb]
        rfl

theorem mod_next (x n : Nat) (hn : 0 < n) (h : (x + 1) % n ≠ 0) : (x + 1) % n = x % n + 1 := by
  have h1 : x % n < n := Nat.mod_lt _ hn
  rw [Nat.add_mod] at h ⊢
  by_cases h2 : n = 1
  · subst h2; omega
  · rw [Nat.mod_eq_of_lt (show 1 < n by omega)] at h ⊢
    by_cases h3 : x % n + 1 = n
    · rw [h3, Nat.mod_self] at h; exact absurd rfl h
    · rw [Nat.mod_eq_of_lt (by omega)]

theorem quiet_ends {t : Nat} : ∀ (l : List Act) {s : State}, Closing t s → s.busy = [] → every ≤ (s.now - t) % every + ticks l →
    (run s l).phase = .over
  | [], s, h, hb, hl => by
    have := Nat.mod_lt (s.now - t) (show 0 < every by decide)
    simp only [ticks, List.count_nil] at hl
    omega
  | a :: l, s, h, hb, hl => by
    rw [ticks_cons] at hl
    rw [run_cons]
    rcases quiet_step h hb a with e | ⟨e1, e2, e3, e4⟩
    · rw [over_run e]; exact e
    · refine quiet_ends l e1 e2 ?_
      by_cases ha : a = .tick
      · obtain ⟨f1, f2⟩ := e3 ha
        rw [f1]
        have hs := h.since
        rw [show s.now + 1 - t = (s.now - t) + 1 by omega] at f2 ⊢
        rw [mod_next _ _ (by decide) f2]
        rw [if_pos ha] at hl
        omega
      · rw [e4 ha]
        rw [if_neg ha] at hl
        omega

theorem closing_run {t : Nat} : ∀ (l : List Act) {s : State}, Closing t s → (run s l).phase = .over ∨ Closing t (run s l)
  | [], _, h => Or.inr h
  | a :: l, s, h => by
    rw [run_cons]
    rcases closing_step h a with e | ⟨e, -⟩
    · rw [over_run e]; exact Or.inl e
    · exact closing_run l e

/-- C148: when no request is left the server is gone half a second later. -/
theorem c148_prompt (listens : Bool) (before mid after : List Act) (hw : (run (start listens) before).phase = .waiting)
    (hb : (run (start listens) (before ++ .interrupt :: mid)).busy = []) (ht : 500 ≤ ticks after) :
    (run (start listens) (before ++ .interrupt :: mid ++ after)).phase = .over := by
  rw [run_append]
  have H : (run (start listens) (before ++ .interrupt :: mid)).phase = .over ∨
      Closing (run (start listens) before).now (run (start listens) (before ++ .interrupt :: mid)) := by
    rw [run_append, run_cons]
    rcases interrupt_step hw with ⟨-, e⟩ | ⟨-, -, hc⟩
    · have : (step (run (start listens) before) .interrupt).phase = .over := by rw [e]; rfl
      rw [over_run this]; exact Or.inl this
    · exact closing_run mid hc
  rcases H with h | h
  · rw [over_run h]; exact h
  · exact quiet_ends after h hb (by dsimp only [every]; omega)

theorem sent_cons (a : Act) (l : List Act) (id : Nat) : id ∈ sent (a :: l) ↔ a = .request id ∨ id ∈ sent l := by
  cases a <;> simp [sent, eq_comm]

/-- Whatever is handled, answered, watched or cut off was sent. -/
theorem only_sent (listens : Bool) (l : List Act) (id : Nat)
    (h : id ∈ (run (start listens) l).busy ∨ id ∈ (run (start listens) l).answered ∨ id ∈ (run (start listens) l).socks ∨
      id ∈ (run (start listens) l).cut) : id ∈ sent l := by
  have key : ∀ (l : List Act) (s : State), (id ∈ (run s l).busy ∨ id ∈ (run s l).answered ∨ id ∈ (run s l).socks ∨ id ∈ (run s l).cut) →
      id ∈ sent l ∨ (id ∈ s.busy ∨ id ∈ s.answered ∨ id ∈ s.socks ∨ id ∈ s.cut) := by
    intro l
    induction l with
    | nil => intro s h; exact Or.inr h
    | cons a l ih =>
      intro s h
      rw [run_cons] at h
      rw [sent_cons]
      rcases ih _ h with h | h
      · exact Or.inl (Or.inr h)
      · have hs : (id ∈ (step s a).busy ∨ id ∈ (step s a).answered ∨ id ∈ (step s a).socks ∨ id ∈ (step s a).cut) →
            a = .request id ∨ (id ∈ s.busy ∨ id ∈ s.answered ∨ id ∈ s.socks ∨ id ∈ s.cut) := by
          unfold step State.look State.finish
          cases s.phase <;> cases a <;> dsimp only <;> (repeat' split) <;> intro hx <;> simp_all <;>
            grind [List.mem_of_mem_erase]
        rcases hs h with h | h
        · exact Or.inl (Or.inl h)
        · exact Or.inr h
  rcases key l (start listens) h with h | h
  · exact h
  · simp [start] at h

/-- C148: no request sent after the interrupt is answered. -/
theorem c148_no_more (listens : Bool) (before after : List Act) (hw : (run (start listens) before).phase = .waiting) (id : Nat)
    (h : id ∈ (run (start listens) (before ++ .interrupt :: after)).answered) : id ∈ sent before := by
  suffices H : id ∈ (run (start listens) before).busy ∨ id ∈ (run (start listens) before).answered by
    rcases H with H | H
    · exact only_sent listens before id (Or.inl H)
    · exact only_sent listens before id (Or.inr (Or.inl H))
  have key : ∀ (l : List Act) (s : State), s.listening = false → id ∈ (run s l).answered → id ∈ s.busy ∨ id ∈ s.answered := by
    intro l
    induction l with
    | nil => intro s _ h; exact Or.inr h
    | cons a l ih =>
      intro s hl h
      rw [run_cons] at h
      have hd : (step s a).listening = false := by
        unfold step State.look State.finish
        cases s.phase <;> cases a <;> dsimp only <;> (repeat' split) <;> first | exact hl | rfl | simp_all
      have hs : ∀ x, (x ∈ (step s a).busy ∨ x ∈ (step s a).answered) → x ∈ s.busy ∨ x ∈ s.answered := by
        intro x
        unfold step State.look State.finish
        cases s.phase <;> cases a <;> dsimp only <;> (repeat' split) <;> intro hx <;> simp_all <;>
          first
          | (rcases hx with hx | hx
             · exact Or.inl (List.mem_of_mem_erase hx)
             · first | exact Or.inr hx | (rcases hx with hx | rfl
                                          · exact Or.inr hx
                                          · exact Or.inl ‹_›))
          | exact hx
      exact hs id (ih _ hd h)
  rw [run_append, run_cons] at h
  rcases interrupt_step hw with ⟨-, e⟩ | ⟨-, e, -⟩
  · rw [e] at h
    rw [over_run rfl] at h
    exact Or.inr h
  · rw [e] at h
    exact key after { run (start listens) before with phase := .closing (run (start listens) before).now, listening := false } rfl h

/-- C148: the server goes on until it is told to end. -/
theorem c148_goes_on (listens : Bool) (acts : List Act) (hc : Calm acts) (hi : .interrupt ∉ acts) :
    (run (start listens) acts).phase = .waiting ∧ (run (start listens) acts).listening = listens := by
  have key : ∀ (l : List Act) (s : State), Calm l → .interrupt ∉ l → s.phase = .waiting →
      (run s l).phase = .waiting ∧ (run s l).listening = s.listening := by
    intro l
    induction l with
    | nil => intro s _ _ h; exact ⟨h, rfl⟩
    | cons a l ih =>
      intro s hc hi hs
      rw [run_cons]
      have h1 : (step s a).phase = .waiting ∧ (step s a).listening = s.listening := by
        unfold step
        rw [hs]
        cases a with
        | tick => exact ⟨rfl, rfl⟩
        | request id => dsimp only; split <;> first | exact ⟨hs, rfl⟩ | exact ⟨rfl, rfl⟩
        | answer id => dsimp only; split <;> first | exact ⟨hs, rfl⟩ | exact ⟨rfl, rfl⟩
        | upgrade id => dsimp only; split <;> first | exact ⟨hs, rfl⟩ | exact ⟨rfl, rfl⟩
        | interrupt => exact absurd (by simp) hi
        | terminate => exact absurd (by simp) hc.1
        | hubFails => exact absurd (by simp) hc.2
      have h2 := ih _ ⟨fun hh => hc.1 (List.mem_cons_of_mem _ hh), fun hh => hc.2 (List.mem_cons_of_mem _ hh)⟩
        (fun hh => hi (List.mem_cons_of_mem _ hh)) h1.1
      exact ⟨h2.1, h2.2.trans h1.2⟩
  exact key acts _ hc hi rfl

/-- C148: until then every request is answered when its answer is ready. -/
theorem c148_serves (a b after : List Act) (id : Nat) (hc : Calm (a ++ b)) (hi : .interrupt ∉ a ++ b) (hu : .upgrade id ∉ b) :
    id ∈ (run (start true) (a ++ .request id :: b ++ .answer id :: after)).answered := by
  have keep : ∀ (l : List Act) (s : State), id ∈ s.answered → id ∈ (run s l).answered := by
    intro l
    induction l with
    | nil => intro s h; exact h
    | cons x l ih => intro s h; rw [run_cons]; exact ih _ (answered_step s x id h)
  have mid : ∀ (l : List Act) (s : State), Calm l → .interrupt ∉ l → .upgrade id ∉ l → s.phase = .waiting → Safe id s →
      Safe id (run s l) ∧ (run s l).phase = .waiting := by
    intro l
    induction l with
    | nil => intro s _ _ _ h1 h2; exact ⟨h2, h1⟩
    | cons x l ih =>
      intro s hc hi hu h1 h2
      rw [run_cons]
      have hx : Safe id (step s x) ∧ (step s x).phase = .waiting := by
        have hn : x ≠ .upgrade id := fun e => hu (by rw [e]; simp)
        have h3 : x ≠ .interrupt := fun e => hi (by rw [e]; simp)
        have h4 : x ≠ .terminate := fun e => hc.1 (by rw [e]; simp)
        have h5 : x ≠ .hubFails := fun e => hc.2 (by rw [e]; simp)
        unfold step
        rw [h1]
        unfold Safe at *
        cases x <;> dsimp only <;> (repeat' split) <;> simp_all <;> grind [List.mem_erase_of_ne]
      exact ih _ ⟨fun hh => hc.1 (List.mem_cons_of_mem _ hh), fun hh => hc.2 (List.mem_cons_of_mem _ hh)⟩
        (fun hh => hi (List.mem_cons_of_mem _ hh)) (fun hh => hu (List.mem_cons_of_mem _ hh)) hx.2 hx.1
  obtain ⟨c1, c2⟩ := hc
  simp only [List.mem_append, not_or] at c1 c2 hi
  obtain ⟨w1, w2⟩ := c148_goes_on true a ⟨c1.1, c2.1⟩ hi.1
  have hr : step (run (start true) a) (.request id) = { run (start true) a with busy := (run (start true) a).busy ++ [id] } := by
    generalize run (start true) a = s at w1 w2
    unfold step
    rw [w1]
    dsimp only
    rw [if_pos w2]
    rw [← w1]
  rw [List.append_assoc, run_append, List.cons_append, run_cons, run_append, hr]
  obtain ⟨m1, m2⟩ := mid b { run (start true) a with busy := (run (start true) a).busy ++ [id] } ⟨c1.2, c2.2⟩ hi.2 hu w1 (Or.inl (by simp))
  rw [run_cons]
  apply keep
  generalize run { run (start true) a with busy := (run (start true) a).busy ++ [id] } b = s at m1 m2
  rcases m1 with m1 | m1
  · unfold step
    rw [m2]
    dsimp only
    rw [if_pos m1]
    simp
  · exact answered_step s _ id m1

/-- C148 fails for the signal Kubernetes sends, and when the hub fails: all requests being handled are cut off. -/
theorem c148_terminated_violated (s : State) (hs : s.phase = .waiting) (a : Act) (ha : a = .terminate ∨ a = .hubFails)
    (after : List Act) :
    (run s (a :: after)).phase = .over ∧ (run s (a :: after)).cut = s.busy ∧ (run s (a :: after)).answered = s.answered := by
  have e : step s a = s.finish := by
    unfold step
    rw [hs]
    rcases ha with rfl | rfl <;> rfl
  rw [run_cons, e, over_run rfl]
  exact ⟨rfl, rfl, rfl⟩

/-- C148 fails when the address cannot be listened on: the server goes on as if it did, and answers nothing. -/
theorem c148_deaf_violated (acts : List Act) (hc : Calm acts) (hi : .interrupt ∉ acts) :
    (run (start false) acts).phase = .waiting ∧ (run (start false) acts).answered = [] ∧ (run (start false) acts).socks = [] := by
  have key : ∀ (l : List Act) (s : State), s.listening = false → s.busy = [] → s.answered = [] → s.socks = [] →
      (run s l).answered = [] ∧ (run s l).socks = [] := by
    intro l
    induction l with
    | nil => intro s _ _ h1 h2; exact ⟨h1, h2⟩
    | cons a l ih =>
      intro s h1 h2 h3 h4
      rw [run_cons]
      refine ih _ ?_ ?_ ?_ ?_ <;> unfold step State.look State.finish <;> cases s.phase <;> cases a <;> dsimp only <;>
        (repeat' split) <;> simp_all
  exact ⟨(c148_goes_on false acts hc hi).1, (key acts _ rfl rfl rfl rfl).1, (key acts _ rfl rfl rfl rfl).2⟩

/-- C148 fails for those who watch a trace: with no other request at work the server is gone at once. -/
theorem c148_watchers_violated (s : State) (hs : s.phase = .waiting) (hb : s.busy = []) :
    (step s .interrupt).phase = .over ∧ (step s .interrupt).now = s.now ∧ (step s .interrupt).socks = [] := by
  rcases interrupt_step hs with ⟨-, e⟩ | ⟨h, -⟩
  · rw [e]; exact ⟨rfl, rfl, rfl⟩
  · exact absurd hb h

/-! Histories that meet the hypotheses. -/

/-- A watcher, and two requests of which one takes a second. -/
def demoBefore : List Act := [.request 1, .upgrade 1, .tick, .request 2, .request 3]
def demoMid : List Act := .request 4 :: .answer 3 :: List.replicate 1000 .tick

example : (run (start true) demoBefore).phase = .waiting ∧ (run (start true) demoBefore).busy = [2, 3] ∧
    (run (start true) demoBefore).socks = [1] := by decide

example : Calm ([.request 1, .upgrade 1] ++ [.tick, .request 3]) ∧ .interrupt ∉ [.request 1, .upgrade 1] ++ [Act.tick, .request 3] ∧
    .upgrade 2 ∉ [Act.tick, .request 3] := by
  unfold Calm
  decide

example : Calm demoMid ∧ .upgrade 2 ∉ demoMid ∧ ticks demoMid < 15000 := by
  unfold Calm
  decide +kernel

example : (run (start true) (demoBefore ++ .interrupt :: demoMid ++ [.answer 2])).busy = [] ∧
    (run (start true) (demoBefore ++ .interrupt :: demoMid ++ [.answer 2])).answered = [3, 2] ∧
    (run (start true) (demoBefore ++ .interrupt :: demoMid ++ [.answer 2])).phase = .closing 1 := by decide +kernel

end Swoll.Props.Shutdown
