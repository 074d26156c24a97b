import Verif.Lemmas.Controller
/-
Lemmas about sequences of runs of the trace controller.
-/
namespace Swoll.Lemmas.Controller
open Swoll.Controller Swoll.Spec.Controller

def rank : TraceState → Nat
  | .unknown => 0
  | .pending => 1
  | .running => 2
  | .complete => 3
  | .other _ => 4

theorem forward_rank {a b : TraceState} (h : Forward a b) : rank a ≤ rank b := by
  unfold Forward at h
  split at h
  all_goals first
    | exact False.elim h
    | decide

theorem hist_rank {t : Trace} {l : List Trace}
    (h : History (fun a b => b.rv = a.rv + 1 ∧ Forward a.state b.state) (t :: l)) :
    ∀ u ∈ l, rank u.state ≤ rank t.state := by
  induction l generalizing t with
  | nil => intro u hu; exact nomatch hu
  | cons x l ih =>
    intro u hu
    have h1 := forward_rank h.1.2
    rcases List.mem_cons.1 hu with rfl | hu
    · exact h1
    · exact Nat.le_trans (ih h.2 u hu) h1

theorem Inv.rank_le {w : World} (hi : Inv w) {t u : Trace} (ht : w.trace = some t)
    (hu : u ∈ w.seen) : rank u.state ≤ rank t.state := by
  have hh := hi.head t ht
  have h2 := hi.hist
  cases hs : w.seen with
  | nil => rw [hs] at hh; exact nomatch hh
  | cons x l =>
    rw [hs] at hh hu h2
    injection hh with hh
    subst hh
    rcases List.mem_cons.1 hu with rfl | hu
    · exact Nat.le_refl _
    · exact hist_rank h2 u hu

theorem Inv.mem {w : World} (hi : Inv w) {t : Trace} (ht : w.trace = some t) : t ∈ w.seen :=
  List.mem_of_head? (hi.head t ht)

/-! ### Which branches create a job -/

/-- What a run that ends with the switch over the state comes to it with. -/
theorem reconcile_eq (w : World) (s : Sched) :
    (∃ k t w' t', s.view = some k ∧ (envs w s.envGet).seen[k]? = some t ∧
      onDelete (envs w s.envGet) s t = (w', .inr t') ∧ reconcile w s = onState w' s t') ∨
    ((reconcile w s).1.created = w.created ∧ (reconcile w s).2 ≠ .panic ∧
      ∀ m, m ∈ (reconcile w s).1.jobs → m ∈ w.jobs) := by
  have h0 := envs_created w s.envGet
  unfold reconcile
  dsimp only
  split
  · exact .inr ⟨h0.1, by simp, h0.2.2⟩
  · next k hk =>
    split
    · exact .inr ⟨h0.1, by simp, h0.2.2⟩
    · next t ht =>
      split
      · next w' r h =>
        have h1 := onDelete_created (envs w s.envGet) s t
        rw [h] at h1
        refine .inr ⟨h1.1.trans h0.1, ?_, fun m hm => h0.2.2 m (h1.2 m hm)⟩
        intro hr
        dsimp only at hr
        subst hr
        unfold onDelete at h
        dsimp only at h
        split at h
        · split at h
          · split at h
            · injection h with _ h; injection h with h; exact nomatch h
            · split at h
              · injection h with _ h; injection h with h; exact nomatch h
              · injection h with _ h; exact nomatch h
          · split at h
            · injection h with _ h; injection h with h; exact nomatch h
            · injection h with _ h; exact nomatch h
        · injection h with _ h; exact nomatch h
      · next w' t' h => exact .inl ⟨k, t, w', t', hk, ht, h, rfl⟩

/-- Only a pending trace gets a job. -/
theorem onState_created {w : World} {s : Sched} {t : Trace} (h : t.state ≠ .pending) :
    (onState w s t).1.created = w.created := by
  unfold onState
  dsimp only
  split
  · next hs =>
    have h1 := update_created (envs w s.envUpdate) s.fUpdate
      { t with finalizer := true, state := .pending }
    generalize update _ _ _ = r at h1 ⊢
    obtain ⟨a, _ | b⟩ := r <;> exact h1.1.trans (envs_created w s.envUpdate).1
  · next hs => exact absurd hs h
  · next hs =>
    split
    · split
      · rfl
      · split
        · rfl
        · have h1 := update_created (envs w s.envUpdate) s.fUpdate
            { t with finalizer := true, state := .complete, completion := some s.now }
          generalize update _ _ _ = r at h1 ⊢
          obtain ⟨a, _ | b⟩ := r <;> exact h1.1.trans (envs_created w s.envUpdate).1
    · rfl
  · rfl

/-- It gets one, and then the update fails or it is running. -/
theorem onState_pending {w : World} {s : Sched} {t : Trace} (h : t.state = .pending) :
    ((onState w s t).1.created = w.created ∧ (onState w s t).2 = .err) ∨
    ((onState w s t).1.created = s.name :: w.created ∧
      ((onState w s t).2 = .err ∨
        ∃ w' cur t', (envs w' s.envUpdate).trace = some cur ∧ cur.rv = t.rv ∧
          Steps False s.name w (envs w' s.envUpdate) ∧
          (onState w s t).1 = store (envs w' s.envUpdate) t' ∧ t'.state = .running)) := by
  unfold onState
  dsimp only
  split
  next hs => rw [hs] at h; exact nomatch h
  rotate_left
  next hs => rw [hs] at h; exact nomatch h
  next h1 h2 _ => exact absurd h h2
  have h0 := envs_created w s.envCreate
  rcases create_cases (envs w s.envCreate) s.fCreate s.name with hc | ⟨hn, hc⟩
  · rw [hc]; exact .inl ⟨h0.1, rfl⟩
  · have hst := (envs_steps (B := False) s.name w s.envCreate).trans
      (create_steps (envs w s.envCreate) s.fCreate s.name False.elim)
    generalize create (envs w s.envCreate) s.fCreate s.name = r at hc hst ⊢
    obtain ⟨w1, b⟩ := r
    dsimp only at hc hst
    have hcr : w1.created = s.name :: w.created := by rw [hc]; dsimp only; rw [h0.1]
    cases b with
    | false => exact .inr ⟨hcr, .inl rfl⟩
    | true =>
      dsimp only
      have hw : (withSyscalls { t with finalizer := true }).rv = t.rv := by
        unfold withSyscalls; split <;> rfl
      have h1 := envs_created w1 s.envUpdate
      have h2 := update_created (envs w1 s.envUpdate) s.fUpdate
        (asRunning (withSyscalls { t with finalizer := true }) s.name s.now)
      rcases update_cases (w := envs w1 s.envUpdate) (f := s.fUpdate)
        (t := (asRunning (withSyscalls { t with finalizer := true }) s.name s.now)) with
        hu | ⟨cur, t', g1, g2, g3, g4, g5, g6⟩
      · rw [hu]
        exact .inr ⟨h1.1.trans hcr, .inl rfl⟩
      · generalize update _ _ _ = r at h2 g5 g6 ⊢
        obtain ⟨w2, o⟩ := r
        dsimp only at h2 g5 g6
        rcases g6 with rfl | rfl
        · exact .inr ⟨h2.1.trans (h1.1.trans hcr), .inl rfl⟩
        · refine .inr ⟨h2.1.trans (h1.1.trans hcr), .inr ⟨w1, cur, t', g1, ?_,
            hst.trans (envs_steps s.name w1 s.envUpdate), g5, by rw [g4]; rfl⟩⟩
          rw [g2]
          exact hw

/-- Some version has been running. -/
def Started (w : World) : Prop := ∃ t ∈ w.seen, 2 ≤ rank t.state

theorem Started.mono {a b : World} (h : Started a) (hs : ∀ t ∈ a.seen, t ∈ b.seen) : Started b := by
  obtain ⟨t, ht, h⟩ := h
  exact ⟨t, hs t ht, h⟩

theorem reconcile_seen {w : World} (hi : Inv w) (s : Sched) :
    ∀ t ∈ w.seen, t ∈ (reconcile w s).1.seen :=
  steps_seen (reconcile_steps (B := False) hi s False.elim)

theorem run_seen {w : World} (hi : Inv w) (ss : List Sched) : ∀ t ∈ w.seen, t ∈ (run w ss).seen := by
  induction ss generalizing w with
  | nil => exact fun _ h => h
  | cons s ss ih => exact fun t ht => ih (reconcile_inv hi s) t (reconcile_seen hi s t ht)

/-- A run creates nothing or one job. -/
theorem reconcile_created (w : World) (s : Sched) :
    (reconcile w s).1.created = w.created ∨ (reconcile w s).1.created = s.name :: w.created := by
  rcases reconcile_eq w s with ⟨k, t, w', t', -, -, h, he⟩ | ⟨h, -⟩
  · have h1 := (onDelete_created (envs w s.envGet) s t).1
    rw [h] at h1
    have h1 : w'.created = w.created := h1.trans (envs_created w s.envGet).1
    rw [he]
    by_cases hp : t'.state = .pending
    · rcases onState_pending (w := w') (s := s) hp with ⟨h, -⟩ | ⟨h, -⟩
      · exact .inl (h.trans h1)
      · exact .inr (by rw [h, h1])
    · exact .inl ((onState_created hp).trans h1)
  · exact .inl h

/-- A run that creates a job and reports no error starts a trace not yet started. -/
theorem good_create {w : World} (hi : Inv w) {s : Sched} (hc : creates w s = true)
    (hr : (reconcile w s).2 ≠ .err) : ¬ Started w ∧ Started (reconcile w s).1 := by
  have hlt : w.created.length < (reconcile w s).1.created.length := by
    unfold creates at hc; simpa using hc
  rcases reconcile_eq w s with ⟨k, t, w', t', -, hk, h, he⟩ | ⟨h, -⟩
  · have h1 := (onDelete_created (envs w s.envGet) s t).1
    rw [h] at h1
    have h1 : w'.created = w.created := h1.trans (envs_created w s.envGet).1
    have h0 := envs_steps (B := False) s.name w s.envGet
    have hi0 := h0.inv hi
    have ht : t ∈ (envs w s.envGet).seen := List.mem_of_getElem? hk
    have hd := onDelete_steps (B := False) (s := s) hi0 ht
    have hgo := onDelete_go (w := envs w s.envGet) (s := s) (t := t) (t' := t') (by rw [h])
    rw [h] at hd hgo
    have ht' : t' ∈ w'.seen := by
      rcases hgo with ⟨-, rfl, -⟩ | ⟨-, h2, -⟩
      · exact steps_seen hd _ ht
      · exact h2
    rw [he] at hr hlt ⊢
    by_cases hp : t'.state = .pending
    · rcases onState_pending (w := w') (s := s) hp with ⟨-, h⟩ | ⟨-, h | ⟨w1, cur, t2, g1, g2, g3, g4, g5⟩⟩
      · exact absurd h hr
      · exact absurd h hr
      · have hst := (h0.trans hd).trans g3
        have hi1 := hst.inv hi
        have hcur : t' = cur := hi1.same g1 (steps_seen g3 _ ht') g2
        subst hcur
        refine ⟨?_, ?_⟩
        · rintro ⟨u, hu, hr⟩
          have := hi1.rank_le g1 (steps_seen hst u hu)
          rw [hp] at this
          have e : rank .pending = 1 := rfl
          omega
        · rw [g4]
          exact ⟨t2, by rw [store_seen]; exact List.mem_cons_self .., by rw [g5]; exact Nat.le_refl 2⟩
    · rw [(onState_created hp).trans h1] at hlt
      exact absurd hlt (Nat.lt_irrefl _)
  · rw [h] at hlt
    exact absurd hlt (Nat.lt_irrefl _)

theorem goodCreates_le {w : World} (hi : Inv w) (ss : List Sched) :
    goodCreates w ss ≤ 1 ∧ (Started w → goodCreates w ss = 0) := by
  induction ss generalizing w with
  | nil => exact ⟨Nat.zero_le 1, fun _ => rfl⟩
  | cons s ss ih =>
    obtain ⟨h1, h2⟩ := ih (reconcile_inv hi s)
    have hmono : Started w → Started (reconcile w s).1 := fun h => h.mono (reconcile_seen hi s)
    unfold goodCreates
    split
    · next h =>
      simp only [Bool.and_eq_true, bne_iff_ne] at h
      obtain ⟨hns, hs⟩ := good_create hi h.1 h.2
      rw [h2 hs]
      exact ⟨Nat.le_refl 1, fun hst => absurd hst hns⟩
    · exact ⟨by omega, fun hst => by rw [h2 (hmono hst)]⟩

theorem created_eq (w : World) (ss : List Sched) :
    (run w ss).created.length = w.created.length + goodCreates w ss + badCreates w ss := by
  induction ss generalizing w with
  | nil => rfl
  | cons s ss ih =>
    have h := ih (reconcile w s).1
    rw [show run w (s :: ss) = run (reconcile w s).1 ss from rfl, h]
    simp only [goodCreates, badCreates]
    generalize goodCreates (reconcile w s).1 ss = g
    generalize badCreates (reconcile w s).1 ss = b
    rcases reconcile_created w s with hc | hc
    · have : creates w s = false := by unfold creates; rw [hc]; simp
      simp [this, hc]
    · have : creates w s = true := by unfold creates; rw [hc]; simp
      by_cases he : (reconcile w s).2 = .err
      · simp [this, he, hc]; omega
      · simp [this, he, hc]; omega

theorem reconcile_live {w : World} {s : Sched} {k : Nat} {t : Trace} (hv : s.view = some k)
    (hk : (envs w s.envGet).seen[k]? = some t) (hd : t.deleting = false) :
    reconcile w s = onState (envs w s.envGet) s t := by
  unfold reconcile
  dsimp only
  rw [hv]
  dsimp only
  rw [hk]
  dsimp only
  unfold onDelete
  rw [hd]
  rfl

theorem envs_gone {w : World} (h : w.trace = none) (es : List Env) : (envs w es).trace = none := by
  induction es generalizing w with
  | nil => exact h
  | cons e es ih =>
    refine ih ?_
    cases e with
    | jobGone n => exact h
    | delete => unfold env; dsimp only; rw [h]; exact h
    | edit d s => unfold env; dsimp only; rw [h]; exact h
    | others b => unfold env; dsimp only; rw [h]; exact h

theorem update_gone {w : World} (h : w.trace = none) (f : Fault) (t : Trace) :
    update w f t = (w, none) := by
  unfold update
  rw [h]
  cases f <;> rfl

theorem onState_gone {w : World} (s : Sched) (t : Trace) (h : w.trace = none) :
    (onState w s t).1.trace = none := by
  unfold onState
  dsimp only
  split
  · rw [update_gone (envs_gone h _)]; exact envs_gone h _
  · have h0 : (create (envs w s.envCreate) s.fCreate s.name).1.trace = none := by
      have h := envs_gone h s.envCreate
      rcases create_cases (envs w s.envCreate) s.fCreate s.name with hc | ⟨-, hc⟩ <;> rw [hc] <;>
        exact h
    generalize create (envs w s.envCreate) s.fCreate s.name = r at h0 ⊢
    obtain ⟨w', b⟩ := r
    cases b with
    | false => exact h0
    | true =>
      dsimp only at h0 ⊢
      rw [update_gone (envs_gone h0 _)]; exact envs_gone h0 _
  · split
    · split
      · exact h
      · split
        · exact h
        · rw [update_gone (envs_gone h _)]; exact envs_gone h _
    · exact h
  · exact h

theorem onState_deleted (w : World) (s : Sched) (t : Trace) :
    (onState w s t).1.deleted = w.deleted := by
  unfold onState
  dsimp only
  split
  · have h1 := update_created (envs w s.envUpdate) s.fUpdate
      { t with finalizer := true, state := .pending }
    generalize update _ _ _ = r at h1 ⊢
    obtain ⟨a, _ | b⟩ := r <;> exact h1.2.2.trans (envs_created w s.envUpdate).2.1
  · have h0 : (create (envs w s.envCreate) s.fCreate s.name).1.deleted = w.deleted := by
      have h := (envs_created w s.envCreate).2.1
      rcases create_cases (envs w s.envCreate) s.fCreate s.name with hc | ⟨-, hc⟩ <;> rw [hc] <;>
        exact h
    generalize create (envs w s.envCreate) s.fCreate s.name = r at h0 ⊢
    obtain ⟨w', b⟩ := r
    cases b with
    | false => exact h0
    | true =>
      dsimp only at h0 ⊢
      have h1 := update_created (envs w' s.envUpdate) s.fUpdate
        (asRunning (withSyscalls { t with finalizer := true }) s.name s.now)
      generalize update _ _ _ = r at h1 ⊢
      obtain ⟨a, _ | b⟩ := r <;> exact h1.2.2.trans ((envs_created w' s.envUpdate).2.1.trans h0)
  · split
    · split
      · rfl
      · split
        · rfl
        · have h1 := update_created (envs w s.envUpdate) s.fUpdate
            { t with finalizer := true, state := .complete, completion := some s.now }
          generalize update _ _ _ = r at h1 ⊢
          obtain ⟨a, _ | b⟩ := r <;> exact h1.2.2.trans (envs_created w s.envUpdate).2.1
    · rfl
  · rfl

/-! ### Runs in which nothing goes wrong -/

def Live (w : World) : Prop := ∃ t, w.trace = some t ∧ t.deleting = false

theorem store_live {w : World} {t : Trace} (h : t.deleting = false) : Live (store w t) := by
  refine ⟨t, ?_, h⟩
  unfold store
  rw [h]
  rfl

theorem envs_live {w : World} (h : Live w) (es : List Env) (hd : ∀ e ∈ es, e ≠ .delete) :
    Live (envs w es) := by
  induction es generalizing w with
  | nil => exact h
  | cons e es ih =>
    refine ih ?_ (fun e' he' => hd e' (List.mem_cons_of_mem _ he'))
    obtain ⟨t, ht, hl⟩ := h
    cases e with
    | delete => exact absurd rfl (hd _ (List.mem_cons_self ..))
    | jobGone n => exact ⟨t, ht, hl⟩
    | edit d s => unfold env; dsimp only; rw [ht]; exact store_live hl
    | others b => unfold env; dsimp only; rw [ht]; exact store_live hl

theorem update_live {w : World} {t u : Trace} (ht : w.trace = some t) (hd : t.deleting = false)
    (hrv : u.rv = t.rv) (hd' : u.deleting = false) :
    Live (update w .ok u).1 ∧ (update w .ok u).2.isSome = true := by
  simp only [update, ht, hrv, hd, ne_eq, not_true, if_false, Bool.false_and, Bool.false_eq_true,
    reduceCtorEq]
  exact ⟨store_live hd', rfl⟩

theorem withSyscalls_keeps (t : Trace) :
    (withSyscalls t).rv = t.rv ∧ (withSyscalls t).deleting = t.deleting := by
  unfold withSyscalls; split <;> exact ⟨rfl, rfl⟩

theorem quiet_step {w : World} (hi : Inv w) (hl : Live w) {s : Sched} (hv : s.view = some 0)
    (hg : ∀ e ∈ s.envGet, e ≠ .delete) (hec : s.envCreate = []) (hfc : s.fCreate = .ok)
    (heu : s.envUpdate = []) (hfu : s.fUpdate = .ok) :
    (creates w s = true → (reconcile w s).2 ≠ .err) ∧ Live (reconcile w s).1 := by
  have hi0 := (envs_steps (B := False) s.name w s.envGet).inv hi
  obtain ⟨t, ht, hd⟩ := envs_live hl s.envGet hg
  have hk : (envs w s.envGet).seen[0]? = some t := by
    rw [← List.head?_eq_getElem?]; exact hi0.head t ht
  have hcr0 := (envs_created w s.envGet).1
  have he : reconcile w s = onState (envs w s.envGet) s t :=
    reconcile_live hv hk hd
  unfold creates
  rw [he]
  generalize envs w s.envGet = w0 at *
  by_cases hp : t.state = .pending
  · rcases onState_pending (w := w0) (s := s) hp with ⟨hc, -⟩ | ⟨-, -⟩
    · refine ⟨fun h => ?_, ?_⟩
      · rw [hc, hcr0] at h
        simp at h
      · unfold onState
        dsimp only
        rw [hp, hec, hfc, heu, hfu]
        simp only [envs, List.foldl_nil, create]
        by_cases hn : s.name ∈ w0.jobs
        · simp only [hn, or_true, if_true]; exact ⟨t, ht, hd⟩
        · simp only [hn, reduceCtorEq, or_self, if_false, decide_true]
          have h2 := update_live (w := { w0 with jobs := s.name :: w0.jobs, created := s.name :: w0.created })
            (u := asRunning (withSyscalls { t with finalizer := true, state := .pending }) s.name s.now) ht hd
            (withSyscalls_keeps _).1 ((withSyscalls_keeps _).2.trans hd)
          generalize update _ _ _ = r at h2 ⊢
          obtain ⟨a, _ | b⟩ := r
          · exact nomatch h2.2
          · exact h2.1
    · unfold onState
      dsimp only
      rw [hp, hec, hfc, heu, hfu]
      simp only [envs, List.foldl_nil, create]
      by_cases hn : s.name ∈ w0.jobs
      · simp only [hn, or_true, if_true]
        rw [hcr0]
        exact ⟨fun h => by simp at h, ⟨t, ht, hd⟩⟩
      · simp only [hn, reduceCtorEq, or_self, if_false, decide_true]
        have h2 := update_live (w := { w0 with jobs := s.name :: w0.jobs, created := s.name :: w0.created })
          (u := asRunning (withSyscalls { t with finalizer := true, state := .pending }) s.name s.now) ht hd
          (withSyscalls_keeps _).1 ((withSyscalls_keeps _).2.trans hd)
        generalize update _ _ _ = r at h2 ⊢
        obtain ⟨a, _ | b⟩ := r
        · exact nomatch h2.2
        · exact ⟨fun _ => by simp, h2.1⟩
  · refine ⟨fun h => ?_, ?_⟩
    · rw [onState_created hp, hcr0] at h
      simp at h
    · unfold onState
      dsimp only
      split
      · rw [heu, hfu]
        have h2 := update_live (w := w0) (u := { t with finalizer := true, state := .pending }) ht hd rfl hd
        simp only [envs, List.foldl_nil]
        generalize update _ _ _ = r at h2 ⊢
        obtain ⟨a, _ | b⟩ := r <;> exact h2.1
      · next h => exact absurd h hp
      · split
        · split
          · exact ⟨t, ht, hd⟩
          · split
            · exact ⟨t, ht, hd⟩
            · rw [heu, hfu]
              have h2 := update_live (w := w0)
                (u := { t with finalizer := true, state := .complete, completion := some s.now }) ht hd rfl hd
              simp only [envs, List.foldl_nil]
              generalize update _ _ _ = r at h2 ⊢
              obtain ⟨a, _ | b⟩ := r <;> exact h2.1
        · exact ⟨t, ht, hd⟩
      · exact ⟨t, ht, hd⟩

/-! ### Released objects -/

/-- No version without the controller's finalizer has a job that exists; jobs of versions are jobs
that were created. -/
structure Clean (w : World) : Prop where
  gone : ∀ t ∈ w.seen, t.finalizer = false → t.jobID ≠ "" → t.jobID ∉ w.jobs
  made : ∀ t ∈ w.seen, t.jobID ≠ "" → t.jobID ∈ w.created

theorem Step.clean {n : String} {a b : World} (h : Step True n a b) (hi : Inv a) (hc : Clean a) :
    Clean b := by
  cases h with
  | jobs ht hs hcr hj =>
    exact ⟨fun t h1 h2 h3 h4 => hc.gone t (hs ▸ h1) h2 h3 (hj _ h4),
      fun t h1 h2 => by rw [hcr]; exact hc.made t (hs ▸ h1) h2⟩
  | create hn hB =>
    refine ⟨fun t h1 h2 h3 h4 => ?_, fun t h1 h2 => List.mem_cons_of_mem _ (hc.made t h1 h2)⟩
    rcases List.mem_cons.1 h4 with h4 | h4
    · exact hB trivial (h4 ▸ hc.made t h1 h3)
    · exact hc.gone t h1 h2 h3 h4
  | @store t t' ht hch hr hn =>
    refine ⟨fun u h1 h2 h3 => ?_, fun u h1 h2 => ?_⟩
    · rw [(store_created _ _).2.1]
      rw [store_seen] at h1
      rcases List.mem_cons.1 h1 with rfl | h1
      · rcases hn with hn | ⟨-, hn, -⟩
        · by_cases hf : t.finalizer = true
          · rw [hn] at h3 ⊢
            exact hr h2 hf h3
          · rw [hn] at h3 ⊢
            exact hc.gone t (hi.mem ht) (by simpa using hf) h3
        · rw [h2] at hn; exact nomatch hn
      · exact hc.gone u h1 h2 h3
    · rw [(store_created _ _).1]
      rw [store_seen] at h1
      rcases List.mem_cons.1 h1 with rfl | h1
      · rcases hn with hn | ⟨hn, -, hm⟩
        · rw [hn] at h2 ⊢
          exact hc.made t (hi.mem ht) h2
        · rw [hn]; exact hm
      · exact hc.made u h1 h2

theorem Steps.clean {n : String} {a b : World} (h : Steps True n a b) (hi : Inv a) (hc : Clean a) :
    Clean b := by
  induction h with
  | refl => exact hc
  | tail h1 h2 ih => exact h2.clean (h1.inv hi) ih

theorem run_clean {w : World} (hi : Inv w) (hc : Clean w) (ss : List Sched)
    (hnew : ∀ s ∈ ss, s.name ∉ w.created) (hnd : (ss.map Sched.name).Nodup) : Clean (run w ss) := by
  induction ss generalizing w with
  | nil => exact hc
  | cons s ss ih =>
    obtain ⟨h1, h2⟩ := List.nodup_cons.1 hnd
    have hs := reconcile_steps (B := True) hi s (fun _ => hnew s (List.mem_cons_self ..))
    refine ih (hs.inv hi) (hs.clean hi hc) (fun s' hs' => ?_) h2
    have h0 := hnew s' (List.mem_cons_of_mem _ hs')
    rcases reconcile_created w s with h | h <;> rw [h]
    · exact h0
    · intro hm
      rcases List.mem_cons.1 hm with hm | hm
      · exact h1 (List.mem_map.2 ⟨s', hs', hm⟩)
      · exact h0 hm

/-- The object waits to be deleted, and its job does not exist. -/
def Stuck (j : String) (w : World) : Prop :=
  ∃ t, w.trace = some t ∧ t.deleting = true ∧ t.finalizer = true ∧ t.jobID = j ∧
    j ≠ "" ∧ j ∉ w.jobs ∧ 2 ≤ rank t.state

/-- The whole of what can happen to a version whose job is gone, but for the release. -/
theorem store_stuck {j : String} {w : World} {t' : Trace} (hd : t'.deleting = true)
    (hf : t'.finalizer = true) (hj : t'.jobID = j) (hne : j ≠ "") (hjobs : j ∉ w.jobs)
    (hr : 2 ≤ rank t'.state) : Stuck j (store w t') := by
  refine ⟨t', ?_, hd, hf, hj, hne, by rw [(store_created _ _).2.1]; exact hjobs, hr⟩
  unfold store
  rw [hf]
  simp

theorem env_stuck {j : String} {w : World} (h : Stuck j w) (e : Env) : Stuck j (env w e) := by
  obtain ⟨t, ht, hd, hf, hj, hne, hjobs, hr⟩ := h
  cases e with
  | jobGone n => exact ⟨t, ht, hd, hf, hj, hne, fun h => hjobs (List.mem_filter.1 h).1, hr⟩
  | delete => unfold env; dsimp only; rw [ht]; exact store_stuck rfl hf hj hne hjobs hr
  | edit d s => unfold env; dsimp only; rw [ht]; exact store_stuck hd hf hj hne hjobs hr
  | others b => unfold env; dsimp only; rw [ht]; exact store_stuck hd hf hj hne hjobs hr

theorem envs_stuck {j : String} {w : World} (h : Stuck j w) (es : List Env) : Stuck j (envs w es) := by
  induction es generalizing w with
  | nil => exact h
  | cons e es ih => exact ih (env_stuck h e)

theorem update_stuck {j : String} {w : World} (hi : Inv w) (h : Stuck j w) {f : Fault} {t u : Trace}
    (hu : u ∈ w.seen) (hrv : t.rv = u.rv)
    (hk : w.trace = some u → t.deleting = u.deleting ∧ t.finalizer = true ∧ t.jobID = u.jobID ∧
      rank u.state ≤ rank t.state) : Stuck j (update w f t).1 := by
  rcases update_cases (w := w) (f := f) (t := t) with h' | ⟨cur, t', h1, h2, h3, h4, h5, -⟩
  · rw [h']; exact h
  · obtain ⟨c, hc, hd, hf, hj, hne, hjobs, hr⟩ := h
    rw [hc] at h1
    injection h1 with h1
    subst h1
    have : u = c := hi.same hc hu (h2.trans hrv)
    subst this
    obtain ⟨k1, k2, k3, k4⟩ := hk hc
    rw [h5, h4]
    exact store_stuck (k1.trans hd) k2 (k3.trans hj) hne hjobs (by dsimp only; omega)

theorem onDelete_stuck {j : String} {w : World} (hi : Inv w) (h : Stuck j w) {s : Sched} {t : Trace}
    (ht : t ∈ w.seen) : Stuck j (onDelete w s t).1 := by
  unfold onDelete
  split
  · next hdel =>
    have fin : ∀ (w' : World) (u : Trace), Inv w' → Stuck j w' → t ∈ w'.seen → u.rv = t.rv →
        t.jobID ≠ j →
        Stuck j
          (match update (envs w' s.envUpdate₁) s.fUpdate₁ { u with finalizer := false } with
            | (w, none) => ((w, .inl .err) : World × (Result ⊕ Trace))
            | (w, some t) => (w, .inr t)).1 := by
      intro w' u hi' hw hmem hrv hne
      have hs := envs_steps (B := False) s.name w' s.envUpdate₁
      have hs2 := envs_stuck hw s.envUpdate₁
      have h2 : Stuck j (update (envs w' s.envUpdate₁) s.fUpdate₁ { u with finalizer := false }).1 := by
        refine update_stuck (hs.inv hi') hs2 (steps_seen hs t hmem) hrv (fun hc => ?_)
        obtain ⟨c, hc', _, _, hj, _⟩ := hs2
        rw [hc] at hc'
        injection hc' with hc'
        subst hc'
        exact absurd hj hne
      generalize update (envs w' s.envUpdate₁) s.fUpdate₁ { u with finalizer := false } = r at h2
      obtain ⟨a, _ | b⟩ := r <;> exact h2
    dsimp only
    have hs := envs_steps (B := False) s.name w s.envDelete
    have hs2 := envs_stuck h s.envDelete
    split
    · next hjob =>
      rcases deleteJob_cases (envs w s.envDelete) s.fDelete t.jobID with hd | ⟨hmem, hd⟩
      · rw [hd]; exact hs2
      · have hne : t.jobID ≠ j := by
          obtain ⟨_, _, _, _, _, _, hjobs, _⟩ := hs2
          intro he
          exact hjobs (he ▸ hmem)
        have hst : Stuck j (deleteJob (envs w s.envDelete) s.fDelete t.jobID).1 := by
          rw [hd]
          obtain ⟨c, h1, h2, h3, h4, h5, h6, h7⟩ := hs2
          exact ⟨c, h1, h2, h3, h4, h5, fun h => h6 (List.mem_filter.1 h).1, h7⟩
        have hs3 := hs.trans (deleteJob_steps s.name (envs w s.envDelete) s.fDelete t.jobID)
        generalize deleteJob (envs w s.envDelete) s.fDelete t.jobID = r at hst hs3 ⊢
        obtain ⟨w', b⟩ := r
        cases b with
        | false => exact hst
        | true =>
          exact fin w' { t with state := .complete, completion := some s.now } (hs3.inv hi) hst (steps_seen hs3 t ht) rfl hne
    · next hjob =>
      refine fin w t hi h ht rfl (fun he => ?_)
      obtain ⟨_, _, _, _, _, hne, _⟩ := h
      exact hjob (he ▸ hne)
  · exact h

theorem onState_stuck {j : String} {w : World} (hi : Inv w) (h : Stuck j w) {s : Sched} {t : Trace}
    (ht : t ∈ w.seen) (hn : s.name ≠ j) : Stuck j (onState w s t).1 := by
  unfold onState
  dsimp only
  split
  · next hs =>
    have h1 := envs_steps (B := False) s.name w s.envUpdate
    have h2 : Stuck j (update (envs w s.envUpdate) s.fUpdate
        { t with finalizer := true, state := .pending }).1 :=
      update_stuck (h1.inv hi) (envs_stuck h _) (steps_seen h1 t ht) rfl
        (fun _ => ⟨rfl, rfl, rfl, by dsimp only; rw [hs]; decide⟩)
    generalize update _ _ _ = r at h2 ⊢
    obtain ⟨a, _ | b⟩ := r <;> exact h2
  · next hs =>
    have h0 := (envs_steps (B := False) s.name w s.envCreate).trans
      (create_steps (envs w s.envCreate) s.fCreate s.name False.elim)
    have h1 : Stuck j (create (envs w s.envCreate) s.fCreate s.name).1 := by
      have h := envs_stuck h s.envCreate
      rcases create_cases (envs w s.envCreate) s.fCreate s.name with hc | ⟨-, hc⟩
      · rw [hc]; exact h
      · rw [hc]
        obtain ⟨c, h1, h2, h3, h4, h5, h6, h7⟩ := h
        refine ⟨c, h1, h2, h3, h4, h5, fun h => ?_, h7⟩
        rcases List.mem_cons.1 h with h | h
        · exact hn h.symm
        · exact h6 h
    generalize create (envs w s.envCreate) s.fCreate s.name = r at h0 h1 ⊢
    obtain ⟨w', b⟩ := r
    cases b with
    | false => exact h1
    | true =>
      dsimp only at h0 h1 ⊢
      have h2 := h0.trans (envs_steps s.name w' s.envUpdate)
      have hw : ∀ u : Trace, (withSyscalls u).rv = u.rv := by
        intro u; unfold withSyscalls; split <;> rfl
      have hst := envs_stuck h1 s.envUpdate
      have h3 : Stuck j (update (envs w' s.envUpdate) s.fUpdate
          (asRunning (withSyscalls { t with finalizer := true }) s.name s.now)).1 := by
        refine update_stuck (h2.inv hi) hst (steps_seen h2 t ht) (hw _) (fun hc => ?_)
        obtain ⟨c, h1, _, _, _, _, _, h7⟩ := hst
        rw [hc] at h1
        injection h1 with h1
        subst h1
        rw [hs] at h7
        exact absurd h7 (by decide)
      generalize update _ _ _ = r at h3 ⊢
      obtain ⟨a, _ | b⟩ := r <;> exact h3
  · next hs =>
    split
    · split
      · exact h
      · split
        · exact h
        · have h1 := envs_steps (B := False) s.name w s.envUpdate
          have h2 : Stuck j (update (envs w s.envUpdate) s.fUpdate
              { t with finalizer := true, state := .complete, completion := some s.now }).1 :=
            update_stuck (h1.inv hi) (envs_stuck h _) (steps_seen h1 t ht) rfl
              (fun _ => ⟨rfl, rfl, rfl, by dsimp only; rw [hs]; decide⟩)
          generalize update _ _ _ = r at h2 ⊢
          obtain ⟨a, _ | b⟩ := r <;> exact h2
    · exact h
  · exact h

theorem reconcile_stuck {j : String} {w : World} (hi : Inv w) (h : Stuck j w) (s : Sched)
    (hn : s.name ≠ j) : Stuck j (reconcile w s).1 := by
  have h0 := envs_steps (B := False) s.name w s.envGet
  have hi0 := h0.inv hi
  have hs0 := envs_stuck h s.envGet
  unfold reconcile
  dsimp only
  split
  · exact hs0
  · split
    · exact hs0
    · next t hk =>
      have ht : t ∈ (envs w s.envGet).seen := List.mem_of_getElem? hk
      have h1 := onDelete_steps (B := False) (s := s) hi0 ht
      have h2 := onDelete_stuck (s := s) hi0 hs0 ht
      have hgo := fun t' => onDelete_go (w := envs w s.envGet) (s := s) (t := t) (t' := t')
      split
      · next h => rw [h] at h2; exact h2
      · next w' t' h =>
        rw [h] at h1 h2
        refine onState_stuck (h1.inv hi0) h2 ?_ hn
        have := hgo t' (by rw [h])
        rw [h] at this
        rcases this with ⟨-, rfl, -⟩ | ⟨-, h2, -⟩
        · exact steps_seen h1 _ ht
        · exact h2

theorem run_stuck {j : String} {w : World} (hi : Inv w) (h : Stuck j w) (ss : List Sched)
    (hn : ∀ s ∈ ss, s.name ≠ j) : Stuck j (run w ss) := by
  induction ss generalizing w with
  | nil => exact h
  | cons s ss ih =>
    exact ih (reconcile_inv hi s) (reconcile_stuck hi h s (hn s (List.mem_cons_self ..)))
      (fun s' hs' => hn s' (List.mem_cons_of_mem _ hs'))

/-! ### Completion -/

/-- How a trace that is not being deleted completes. -/
def Finished (a b : Trace) : Prop :=
  a.state = .running → b.state = .complete → a.deleting = false →
    ∃ st now, a.start = some st ∧ 0 < a.duration ∧ st + a.duration ≤ now ∧
      b.completion = some (wire now)

/-- How a trace starts. -/
def Begun (a b : Trace) : Prop :=
  a.state = .pending → b.state = .running → ∃ now, b.start = some (wire now)

/-- The start time of a running trace stays. -/
def Kept (a b : Trace) : Prop := a.state = .running → b.start = a.start

theorem wire_wire (t : Int) : wire (wire t) = wire t := by
  unfold wire second
  omega

/-- Start times are whole seconds. -/
def Whole (t : Trace) : Prop := ∀ st, t.start = some st → wire st = st

theorem whole_map {o : Option Int} (h : ∀ st, o = some st → wire st = st) : o.map wire = o := by
  cases o with
  | none => rfl
  | some st => rw [Option.map_some, h st rfl]

theorem Change.times {a b : Trace} (h : Change a b) (hw : Whole a) :
    Finished a b ∧ Begun a b ∧ Kept a b ∧ Whole b := by
  cases h with
  | env hrv hd hf hs hj hst hc =>
    refine ⟨fun h1 h2 => ?_, fun h1 h2 => ?_, fun _ => hst, fun st h => hw st (hst ▸ h)⟩
    · rw [hs, h1] at h2; exact nomatch h2
    · rw [hs, h1] at h2; exact nomatch h2
  | pend hrv hd hf hs hs' hj hst =>
    rw [whole_map hw] at hst
    refine ⟨fun h1 => ?_, fun h1 => ?_, fun h1 => ?_, fun st h => hw st (hst ▸ h)⟩ <;>
      (rw [hs] at h1; exact nomatch h1)
  | start n now hrv hd hf hs hs' hj hn hst =>
    refine ⟨fun h1 => ?_, fun _ _ => ⟨now, hst⟩, fun h1 => ?_, fun st h => ?_⟩
    · rw [hs] at h1; exact nomatch h1
    · rw [hs] at h1; exact nomatch h1
    · rw [hst] at h
      injection h with h
      rw [← h, wire_wire]
  | finish st now hrv hd hf hs hs' hj hst hstart hdur hnow hc =>
    rw [whole_map hw] at hst
    refine ⟨fun _ _ _ => ⟨st, now, hstart, hdur, hnow, hc⟩, fun h1 => ?_, fun _ => hst,
      fun st h => hw st (hst ▸ h)⟩
    rw [hs] at h1; exact nomatch h1
  | release hrv hd hd' hf hs hj hst =>
    rw [whole_map hw] at hst
    refine ⟨fun _ _ h3 => ?_, fun h1 h2 => ?_, fun _ => hst, fun st h => hw st (hst ▸ h)⟩
    · rw [hd] at h3; exact nomatch h3
    · rcases hs with ⟨-, hs⟩ | ⟨-, hs⟩
      · rw [hs, h1] at h2; exact nomatch h2
      · rw [hs] at h2; exact nomatch h2

/-- The invariant about times. -/
structure Timed (w : World) : Prop where
  whole : ∀ t ∈ w.seen, Whole t
  hist : History (fun a b => Finished a b ∧ Begun a b ∧ Kept a b) w.seen

theorem Step.timed {B : Prop} {n : String} {a b : World} (h : Step B n a b) (hi : Inv a)
    (ht : Timed a) : Timed b := by
  cases h with
  | jobs _ hs => exact ⟨hs ▸ ht.whole, hs ▸ ht.hist⟩
  | create _ _ => exact ⟨ht.whole, ht.hist⟩
  | @store t t' htr hc _ _ =>
    have hm := hi.mem htr
    obtain ⟨h1, h2, h3, h4⟩ := hc.times (ht.whole t hm)
    refine ⟨fun u hu => ?_, ?_⟩
    · rw [store_seen] at hu
      rcases List.mem_cons.1 hu with rfl | hu
      · exact h4
      · exact ht.whole u hu
    · rw [store_seen]
      have hh := hi.head t htr
      cases hs : a.seen with
      | nil => rw [hs] at hh; exact nomatch hh
      | cons x l =>
        rw [hs] at hh
        injection hh with hh
        subst hh
        exact ⟨⟨h1, h2, h3⟩, hs ▸ ht.hist⟩

theorem Steps.timed {B : Prop} {n : String} {a b : World} (h : Steps B n a b) (hi : Inv a)
    (ht : Timed a) : Timed b := by
  induction h with
  | refl => exact ht
  | tail h1 h2 ih => exact h2.timed (h1.inv hi) ih

theorem run_timed {w : World} (hi : Inv w) (ht : Timed w) (ss : List Sched) : Timed (run w ss) := by
  induction ss generalizing w with
  | nil => exact ht
  | cons s ss ih =>
    have hs := reconcile_steps (B := False) hi s False.elim
    exact ih (hs.inv hi) (hs.timed hi ht)

theorem history_mono {R S : Trace → Trace → Prop} (h : ∀ a b, R a b → S a b) :
    ∀ {l : List Trace}, History R l → History S l
  | [], _ => trivial
  | [_], _ => trivial
  | _ :: b :: l, hh => ⟨h _ _ hh.1, history_mono h (l := b :: l) hh.2⟩

theorem init_timed (d : Int) (sc : List String) (o : Bool) (jobs : List String) :
    Timed (init (fresh d sc o) jobs) := by
  refine ⟨fun t h => ?_, trivial⟩
  rcases List.mem_singleton.1 h with rfl
  intro st h
  exact nomatch h

theorem reachable_timed {w : World} (h : Reachable w) : Timed w := by
  obtain ⟨d, sc, o, jobs, ss, rfl⟩ := h
  exact run_timed (init_inv d sc o jobs) (init_timed d sc o jobs) ss

end Swoll.Lemmas.Controller
