import Verif.Spec.Controller
/-
Lemmas about the trace controller.
-/
namespace Swoll.Lemmas.Controller
open Swoll.Controller Swoll.Spec.Controller

/-- What a version may become. -/
inductive Change : Trace → Trace → Prop where
  /-- by others: no status, and no finalizer of the controller -/
  | env {t t' : Trace} (hrv : t'.rv = t.rv + 1) (hd : t.deleting = true → t'.deleting = true)
      (hf : t'.finalizer = t.finalizer) (hs : t'.state = t.state) (hj : t'.jobID = t.jobID)
      (hst : t'.start = t.start) (hc : t'.completion = t.completion) : Change t t'
  | pend {t t' : Trace} (hrv : t'.rv = t.rv + 1) (hd : t'.deleting = t.deleting)
      (hf : t.deleting = true → t.finalizer = true)
      (hs : t.state = .unknown) (hs' : t'.state = .pending) (hj : t'.jobID = t.jobID)
      (hst : t'.start = t.start.map wire) : Change t t'
  | start {t t' : Trace} (n : String) (now : Int) (hrv : t'.rv = t.rv + 1)
      (hd : t'.deleting = t.deleting) (hf : t.deleting = true → t.finalizer = true)
      (hs : t.state = .pending) (hs' : t'.state = .running)
      (hj : t'.jobID = n) (hn : n ≠ "") (hst : t'.start = some (wire now)) : Change t t'
  | finish {t t' : Trace} (st now : Int) (hrv : t'.rv = t.rv + 1) (hd : t'.deleting = t.deleting)
      (hf : t.deleting = true → t.finalizer = true)
      (hs : t.state = .running) (hs' : t'.state = .complete) (hj : t'.jobID = t.jobID)
      (hst : t'.start = t.start.map wire)
      (hstart : t.start = some st) (hdur : 0 < t.duration) (hnow : st + t.duration ≤ now)
      (hc : t'.completion = some (wire now)) : Change t t'
  | release {t t' : Trace} (hrv : t'.rv = t.rv + 1) (hd : t.deleting = true)
      (hd' : t'.deleting = true) (hf : t'.finalizer = false)
      (hs : (t.jobID = "" ∧ t'.state = t.state) ∨ (t.jobID ≠ "" ∧ t'.state = .complete))
      (hj : t'.jobID = t.jobID) (hst : t'.start = t.start.map wire) : Change t t'

/-- One thing that happens at the API server in a run that names its job `n`; if `B` the name is
new. -/
inductive Step (B : Prop) (n : String) : World → World → Prop where
  | jobs {w w' : World} (ht : w'.trace = w.trace) (hs : w'.seen = w.seen)
      (hc : w'.created = w.created) (hj : ∀ m, m ∈ w'.jobs → m ∈ w.jobs) : Step B n w w'
  | create {w : World} (hn : n ∉ w.jobs) (hB : B → n ∉ w.created) :
      Step B n w { w with jobs := n :: w.jobs, created := n :: w.created }
  | store {w : World} {t t' : Trace} (ht : w.trace = some t) (hc : Change t t')
      (hr : t'.finalizer = false → t.finalizer = true → t.jobID ≠ "" → t.jobID ∉ w.jobs)
      (hn : t'.jobID = t.jobID ∨ t'.jobID = n ∧ t'.finalizer = true ∧ n ∈ w.created) :
      Step B n w (store w t')

inductive Steps (B : Prop) (n : String) : World → World → Prop where
  | refl (w : World) : Steps B n w w
  | tail {a b c : World} : Steps B n a b → Step B n b c → Steps B n a c

theorem Steps.trans {B : Prop} {n : String} {a b c : World} (h₁ : Steps B n a b) (h₂ : Steps B n b c) :
    Steps B n a c := by
  induction h₂ with
  | refl => exact h₁
  | tail _ h ih => exact .tail ih h

theorem Step.one {B : Prop} {n : String} {a b : World} (h : Step B n a b) : Steps B n a b := .tail (.refl a) h

/-- A version of a trace is as the controller makes it. -/
def Good (t : Trace) : Prop :=
  (t.state = .unknown ∧ t.jobID = "") ∨ (t.state = .pending ∧ t.jobID = "") ∨
  (t.state = .running ∧ t.jobID ≠ "" ∧ t.start.isSome = true) ∨
  (t.state = .complete ∧ t.jobID ≠ "")

/-- The invariant of the API server. -/
structure Inv (w : World) : Prop where
  head : ∀ t, w.trace = some t → w.seen.head? = some t
  good : ∀ t ∈ w.seen, Good t
  hist : History (fun a b => b.rv = a.rv + 1 ∧ Forward a.state b.state) w.seen

theorem store_seen (w : World) (t : Trace) : (store w t).seen = t :: w.seen := by
  unfold store; split <;> rfl

theorem store_trace {w : World} {t u : Trace} (h : (store w t).trace = some u) : u = t := by
  unfold store at h
  split at h
  · exact nomatch h
  · injection h with h; exact h.symm

theorem store_created (w : World) (t : Trace) :
    (store w t).created = w.created ∧ (store w t).jobs = w.jobs ∧
      (store w t).deleted = w.deleted := by
  unfold store; split <;> exact ⟨rfl, rfl, rfl⟩

theorem forward_refl {t : Trace} (h : Good t) : Forward t.state t.state := by
  rcases h with h | h | h | h <;> rw [h.1] <;> trivial

theorem Change.good {t t' : Trace} (h : Change t t') (hg : Good t) :
    Good t' ∧ t'.rv = t.rv + 1 ∧ Forward t.state t'.state := by
  cases h with
  | env hrv hd hf hs hj hst hc =>
    refine ⟨?_, hrv, by rw [hs]; exact forward_refl hg⟩
    unfold Good at hg ⊢
    rw [hs, hj, hst]
    exact hg
  | pend hrv hd hf hs hs' hj hst =>
    refine ⟨.inr (.inl ⟨hs', ?_⟩), hrv, by rw [hs, hs']; trivial⟩
    unfold Good at hg
    rw [hs] at hg
    rw [hj]
    simpa using hg
  | start n now hrv hd hf hs hs' hj hn hst =>
    exact ⟨.inr (.inr (.inl ⟨hs', hj ▸ hn, by rw [hst]; rfl⟩)), hrv, by rw [hs, hs']; trivial⟩
  | finish st now hrv hd hf hs hs' hj hst hstart hdur hnow hc =>
    refine ⟨.inr (.inr (.inr ⟨hs', ?_⟩)), hrv, by rw [hs, hs']; trivial⟩
    unfold Good at hg
    rw [hs] at hg
    rw [hj]
    simp at hg
    exact hg.1
  | release hrv hd hd' hf hs hj hst =>
    rcases hs with ⟨h1, h2⟩ | ⟨h1, h2⟩
    · have : Good t' := by
        unfold Good at hg ⊢
        rw [h2, hj]
        simp only [h1, ne_eq, not_true, false_and, and_false, or_false] at hg ⊢
        exact hg
      exact ⟨this, hrv, by rw [h2]; exact forward_refl hg⟩
    · refine ⟨.inr (.inr (.inr ⟨h2, hj ▸ h1⟩)), hrv, ?_⟩
      rw [h2]
      rcases hg with h | h | h | h
      · exact absurd h.2 h1
      · exact absurd h.2 h1
      · rw [h.1]; trivial
      · rw [h.1]; trivial

theorem Step.inv {B : Prop} {n : String} {a b : World} (h : Step B n a b) (hi : Inv a) : Inv b := by
  cases h with
  | create _ _ => exact ⟨hi.head, hi.good, hi.hist⟩
  | jobs ht hs => exact ⟨fun t h => by rw [hs]; exact hi.head t (ht ▸ h), hs ▸ hi.good, hs ▸ hi.hist⟩
  | store ht hc _ _ =>
    have hh := hi.head _ ht
    cases hseen : a.seen with
    | nil => rw [hseen] at hh; exact nomatch hh
    | cons x l =>
      rw [hseen] at hh
      injection hh with hh
      subst hh
      have hgx : Good x := hi.good x (by rw [hseen]; exact List.mem_cons_self ..)
      obtain ⟨h1, h2, h3⟩ := hc.good hgx
      refine ⟨fun u hu => ?_, fun u hu => ?_, ?_⟩
      · rw [store_seen, store_trace hu]; rfl
      · rw [store_seen] at hu
        rcases List.mem_cons.1 hu with rfl | hu
        · exact h1
        · exact hi.good u hu
      · rw [store_seen, hseen]
        exact ⟨⟨h2, h3⟩, hseen ▸ hi.hist⟩

theorem Steps.inv {B : Prop} {n : String} {a b : World} (h : Steps B n a b) (hi : Inv a) : Inv b := by
  induction h with
  | refl => exact hi
  | tail _ h ih => exact h.inv ih

/-- Only the current version has its resource version. -/
theorem hist_rv {t : Trace} {l : List Trace}
    (h : History (fun a b => b.rv = a.rv + 1 ∧ Forward a.state b.state) (t :: l)) :
    ∀ u ∈ l, u.rv < t.rv := by
  induction l generalizing t with
  | nil => intro u hu; exact nomatch hu
  | cons x l ih =>
    intro u hu
    have h1 := h.1.1
    rcases List.mem_cons.1 hu with rfl | hu
    · omega
    · have := ih h.2 u hu
      omega

theorem Inv.same {w : World} (hi : Inv w) {t u : Trace} (ht : w.trace = some t) (hu : u ∈ w.seen)
    (hrv : t.rv = u.rv) : u = t := by
  have hh := hi.head t ht
  have hh2 := hi.hist
  cases hseen : w.seen with
  | nil => rw [hseen] at hh; exact nomatch hh
  | cons x l =>
    rw [hseen] at hh hu hh2
    injection hh with hh
    subst hh
    rcases List.mem_cons.1 hu with rfl | hu
    · rfl
    · have := hist_rv hh2 u hu
      omega

/-! ### What others do -/

theorem env_steps {B : Prop} (k : String) (w : World) (e : Env) : Steps B k w (env w e) := by
  cases e with
  | jobGone n => exact .tail (.refl _) (.jobs rfl rfl rfl (fun _ h => (List.mem_filter.1 h).1))
  | delete =>
    unfold env
    dsimp only
    split
    · exact .refl _
    · next t ht => exact .tail (.refl _) (.store ht (.env rfl (fun _ => rfl) rfl rfl rfl rfl rfl) (fun h h' => absurd (h'.symm.trans h) (by simp)) (.inl rfl))
  | edit d s =>
    unfold env
    dsimp only
    split
    · exact .refl _
    · next t ht => exact .tail (.refl _) (.store ht (.env rfl id rfl rfl rfl rfl rfl)
        (fun h h' => absurd (h'.symm.trans h) (by simp)) (.inl rfl))
  | others b =>
    unfold env
    dsimp only
    split
    · exact .refl _
    · next t ht => exact .tail (.refl _) (.store ht (.env rfl id rfl rfl rfl rfl rfl)
        (fun h h' => absurd (h'.symm.trans h) (by simp)) (.inl rfl))

theorem envs_steps {B : Prop} (k : String) (w : World) (es : List Env) : Steps B k w (envs w es) := by
  induction es generalizing w with
  | nil => exact .refl _
  | cons e es ih => exact (env_steps k w e).trans (ih _)

theorem env_created (w : World) (e : Env) :
    (env w e).created = w.created ∧ (env w e).deleted = w.deleted ∧ ∀ n, n ∈ (env w e).jobs → n ∈ w.jobs := by
  cases e with
  | jobGone n => exact ⟨rfl, rfl, fun m h => (List.mem_filter.1 h).1⟩
  | delete =>
    unfold env; dsimp only
    split
    · exact ⟨rfl, rfl, fun _ h => h⟩
    · rw [(store_created _ _).1, (store_created _ _).2.1, (store_created _ _).2.2]
      exact ⟨rfl, rfl, fun _ h => h⟩
  | edit d s =>
    unfold env; dsimp only
    split
    · exact ⟨rfl, rfl, fun _ h => h⟩
    · rw [(store_created _ _).1, (store_created _ _).2.1, (store_created _ _).2.2]
      exact ⟨rfl, rfl, fun _ h => h⟩
  | others b =>
    unfold env; dsimp only
    split
    · exact ⟨rfl, rfl, fun _ h => h⟩
    · rw [(store_created _ _).1, (store_created _ _).2.1, (store_created _ _).2.2]
      exact ⟨rfl, rfl, fun _ h => h⟩

theorem envs_created (w : World) (es : List Env) :
    (envs w es).created = w.created ∧ (envs w es).deleted = w.deleted ∧
      ∀ n, n ∈ (envs w es).jobs → n ∈ w.jobs := by
  induction es generalizing w with
  | nil => exact ⟨rfl, rfl, fun _ h => h⟩
  | cons e es ih =>
    obtain ⟨h1, h2, h3⟩ := ih (env w e)
    obtain ⟨g1, g2, g3⟩ := env_created w e
    exact ⟨h1.trans g1, h2.trans g2, fun n h => g3 n (h3 n h)⟩

theorem steps_seen {B : Prop} {n : String} {a b : World} (h : Steps B n a b) : ∀ t ∈ a.seen, t ∈ b.seen := by
  induction h with
  | refl => exact fun _ h => h
  | tail _ h ih =>
    intro t ht
    have := ih t ht
    cases h with
    | jobs _ hs => rw [hs]; exact this
    | create _ _ => exact this
    | store _ _ => rw [store_seen]; exact List.mem_cons_of_mem _ this

/-! ### API calls -/

/-- The outcomes of an update: nothing happens and it fails, or the current version, which is the
one given but for the changes, is replaced. -/
theorem update_cases {w : World} {f : Fault} {t : Trace} :
    (update w f t = (w, none)) ∨
    ∃ cur t', w.trace = some cur ∧ cur.rv = t.rv ∧
      (cur.deleting = true → t.finalizer = true → cur.finalizer = true) ∧
      t' = { t with rv := cur.rv + 1, start := t.start.map wire,
                    completion := t.completion.map wire } ∧
      (update w f t).1 = store w t' ∧
      ((update w f t).2 = none ∨ (update w f t).2 = some t') := by
  unfold update
  split
  · exact .inl rfl
  · exact .inl rfl
  · next cur _ hcur =>
    split
    · exact .inl rfl
    · next hrv =>
      split
      · exact .inl rfl
      · next hfin =>
        refine .inr ⟨cur, _, hcur, by simpa using hrv, ?_, rfl, rfl, ?_⟩
        · intro h1 h2
          simp only [h1, h2, Bool.true_and, Bool.not_eq_true', Bool.not_eq_false] at hfin
          simpa using hfin
        · dsimp only
          split
          · exact .inl rfl
          · exact .inr rfl

theorem update_created (w : World) (f : Fault) (t : Trace) :
    (update w f t).1.created = w.created ∧ (update w f t).1.jobs = w.jobs ∧
      (update w f t).1.deleted = w.deleted := by
  rcases update_cases (w := w) (f := f) (t := t) with h | ⟨cur, t', -, -, -, -, h, -⟩
  · rw [h]; exact ⟨rfl, rfl, rfl⟩
  · rw [h]; exact store_created w t'

theorem create_cases (w : World) (f : Fault) (n : String) :
    (create w f n = (w, false)) ∨
    (n ∉ w.jobs ∧
      (create w f n).1 = { w with jobs := n :: w.jobs, created := n :: w.created }) := by
  unfold create
  split
  · exact .inl rfl
  · next h => exact .inr ⟨fun hn => h (.inr hn), rfl⟩

theorem deleteJob_cases (w : World) (f : Fault) (n : String) :
    (deleteJob w f n = (w, false)) ∨
    (n ∈ w.jobs ∧ (deleteJob w f n).1 =
      { w with jobs := w.jobs.filter (· != n), deleted := n :: w.deleted }) := by
  unfold deleteJob
  split
  · exact .inl rfl
  · next h => exact .inr ⟨Classical.byContradiction fun hn => h (.inr hn), rfl⟩

theorem create_steps {B : Prop} (w : World) (f : Fault) (n : String)
    (hB : B → n ∉ w.created) : Steps B n w (create w f n).1 := by
  rcases create_cases w f n with h | ⟨hn, h⟩ <;> rw [h]
  · exact .refl _
  · exact .tail (.refl _) (.create hn hB)

theorem deleteJob_steps {B : Prop} (k : String) (w : World) (f : Fault) (n : String) :
    Steps B k w (deleteJob w f n).1 := by
  rcases deleteJob_cases w f n with h | ⟨-, h⟩ <;> rw [h]
  · exact .refl _
  · exact .tail (.refl _) (.jobs rfl rfl rfl (fun _ h => (List.mem_filter.1 h).1))

theorem create_true {w : World} {f : Fault} {n : String} {w' : World}
    (h : create w f n = (w', true)) : n ∈ w'.created := by
  rcases create_cases w f n with h' | ⟨-, h'⟩
  · rw [h'] at h; injection h with _ h; exact nomatch h
  · rw [h] at h'
    dsimp only at h'
    rw [h']
    exact List.mem_cons_self ..

theorem deleteJob_true {w : World} {f : Fault} {n : String} {w' : World}
    (h : deleteJob w f n = (w', true)) : n ∉ w'.jobs := by
  rcases deleteJob_cases w f n with h' | ⟨-, h'⟩
  · rw [h'] at h; injection h with _ h; exact nomatch h
  · rw [h] at h'
    dsimp only at h'
    rw [h']
    simp

theorem name_ne (s : Sched) : s.name ≠ "" := by
  unfold Sched.name
  intro h
  have := congrArg String.toList h
  rw [String.toList_append] at this
  exact absurd this (by simp)

/-- An update of a version once read. -/
theorem update_steps {B : Prop} {n : String} {w : World} (hi : Inv w) {f : Fault} {t u : Trace}
    (hu : u ∈ w.seen) (hrv : t.rv = u.rv)
    (hc : ∀ t' : Trace, w.trace = some u → t' =
        { t with rv := u.rv + 1, start := t.start.map wire, completion := t.completion.map wire } →
      (u.deleting = true → t.finalizer = true → u.finalizer = true) → Change u t')
    (hr : t.finalizer = false → u.finalizer = true → u.jobID ≠ "" → u.jobID ∉ w.jobs)
    (hn : t.jobID = u.jobID ∨ t.jobID = n ∧ t.finalizer = true ∧ n ∈ w.created) :
    Steps B n w (update w f t).1 := by
  rcases update_cases (w := w) (f := f) (t := t) with h | ⟨cur, t', h1, h2, h3, h4, h5, -⟩
  · rw [h]; exact .refl _
  · have : u = cur := hi.same h1 hu (h2.trans hrv)
    subst this
    rw [h5]
    exact (Step.store h1 (hc t' h1 h4 h3) (by rw [h4]; exact hr) (by rw [h4]; exact hn)).one

/-! ### A run of the controller -/

theorem onDelete_steps {B : Prop} {w : World} (hi : Inv w) {s : Sched} {t : Trace} (ht : t ∈ w.seen) :
    Steps B s.name w (onDelete w s t).1 := by
  unfold onDelete
  split
  · next hdel =>
    have fin : ∀ (w' : World) (u : Trace), Steps B s.name w w' → u.rv = t.rv → u.deleting = true →
        u.start = t.start → u.jobID = t.jobID →
        ((t.jobID = "" ∧ u.state = t.state) ∨
          (t.jobID ≠ "" ∧ t.jobID ∉ w'.jobs ∧ u.state = .complete)) →
        Steps B s.name w
          (match update (envs w' s.envUpdate₁) s.fUpdate₁ { u with finalizer := false } with
            | (w, none) => ((w, .inl .err) : World × (Result ⊕ Trace))
            | (w, some t) => (w, .inr t)).1 := by
      intro w' u hw hrv hd hst hj hstate
      have h1 := hw.trans (envs_steps s.name w' s.envUpdate₁)
      have h2 : Steps B s.name w
          (update (envs w' s.envUpdate₁) s.fUpdate₁ { u with finalizer := false }).1 := by
        refine h1.trans (update_steps (h1.inv hi) (steps_seen h1 t ht) hrv ?_ ?_ (.inl hj))
        · intro t' hcur he _
          subst he
          exact .release rfl hdel hd rfl (hstate.imp id fun h => ⟨h.1, h.2.2⟩) hj (by rw [hst])
        · intro _ _ hne hmem
          rcases hstate with ⟨h, -⟩ | ⟨-, h, -⟩
          · exact hne h
          · exact h ((envs_created w' s.envUpdate₁).2.2 _ hmem)
      generalize update (envs w' s.envUpdate₁) s.fUpdate₁ { u with finalizer := false } = r at h2
      obtain ⟨a, _ | b⟩ := r <;> exact h2
    dsimp only
    split
    · next hjob =>
      have h1 := (envs_steps (B := B) s.name w s.envDelete).trans
        (deleteJob_steps s.name (envs w s.envDelete) s.fDelete t.jobID)
      split
      · next h => rw [h] at h1; exact h1
      · next h =>
        rw [h] at h1
        exact fin _ { t with state := .complete, completion := some s.now } h1 rfl hdel rfl rfl (.inr ⟨hjob, deleteJob_true h, rfl⟩)
    · next hjob => exact fin w t (.refl _) rfl hdel rfl rfl (.inl ⟨by simpa using hjob, rfl⟩)
  · exact .refl _

/-- What the deletion branch leaves to the switch is a version of the object: the one read if it is
not being deleted, otherwise one just stored without the finalizer. -/
theorem onDelete_go {w : World} {s : Sched} {t t' : Trace}
    (h : (onDelete w s t).2 = .inr t') :
    (t.deleting = false ∧ t' = t ∧ (onDelete w s t).1 = w) ∨
    (t.deleting = true ∧ t' ∈ (onDelete w s t).1.seen ∧ t'.deleting = true ∧
      t'.finalizer = false ∧ (t.jobID ≠ "" → t'.state = .complete ∧ t.jobID ∉ (onDelete w s t).1.jobs) ∧
      (t.jobID = "" → t'.state = t.state)) := by
  unfold onDelete at h ⊢
  split at h
  · next hdel =>
    rw [if_pos hdel]
    have fin : ∀ (w' : World) (u : Trace), u.deleting = true →
        (match update (envs w' s.envUpdate₁) s.fUpdate₁ { u with finalizer := false } with
          | (w, none) => ((w, .inl .err) : World × (Result ⊕ Trace))
          | (w, some t) => (w, .inr t)).2 = .inr t' →
        t' ∈ (match update (envs w' s.envUpdate₁) s.fUpdate₁ { u with finalizer := false } with
          | (w, none) => ((w, .inl .err) : World × (Result ⊕ Trace))
          | (w, some t) => (w, .inr t)).1.seen ∧ t'.deleting = true ∧ t'.finalizer = false ∧
          t'.state = u.state ∧
          (∀ n, n ∉ w'.jobs → n ∉ (match update (envs w' s.envUpdate₁) s.fUpdate₁
              { u with finalizer := false } with
            | (w, none) => ((w, .inl .err) : World × (Result ⊕ Trace))
            | (w, some t) => (w, .inr t)).1.jobs) := by
      intro w' u hud hm
      rcases update_cases (w := envs w' s.envUpdate₁) (f := s.fUpdate₁)
        (t := { u with finalizer := false }) with hu | ⟨cur, t'', h1, h2, h3, h4, h5, h6⟩
      · rw [hu] at hm; exact nomatch hm
      · generalize hup : update (envs w' s.envUpdate₁) s.fUpdate₁ { u with finalizer := false } = r at *
        obtain ⟨w'', o⟩ := r
        dsimp only at h5 h6
        subst h5
        rcases h6 with rfl | rfl
        · exact nomatch hm
        · dsimp only at hm ⊢
          injection hm with hm
          subst hm
          refine ⟨by rw [store_seen]; exact List.mem_cons_self .., by rw [h4]; exact hud,
            by rw [h4], by rw [h4], fun n hn => ?_⟩
          rw [(store_created _ _).2.1]
          exact fun h => hn ((envs_created w' s.envUpdate₁).2.2 n h)
    dsimp only at h ⊢
    split at h
    · next hjob =>
      rw [if_pos hjob]
      rcases deleteJob_cases (envs w s.envDelete) s.fDelete t.jobID with hd | ⟨hmem, hd⟩
      · rw [hd] at h; exact nomatch h
      · generalize hdj : deleteJob (envs w s.envDelete) s.fDelete t.jobID = r at *
        obtain ⟨w'', b⟩ := r
        cases b with
        | false => exact nomatch h
        | true =>
          dsimp only at h hd ⊢
          obtain ⟨h1, h2, h3, h4, h5⟩ := fin w'' { t with state := .complete, completion := some s.now } hdel h
          refine .inr ⟨hdel, h1, h2, h3, fun _ => ⟨h4, h5 t.jobID ?_⟩, fun hc => absurd hc hjob⟩
          rw [hd]
          simp
    · next hjob =>
      rw [if_neg hjob]
      obtain ⟨h1, h2, h3, h4, -⟩ := fin w t hdel h
      exact .inr ⟨hdel, h1, h2, h3, fun hc => absurd hc hjob, fun _ => h4⟩
  · next hdel =>
    rw [if_neg hdel]
    injection h with h
    exact .inl ⟨by simpa using hdel, h.symm, rfl⟩

theorem onDelete_created (w : World) (s : Sched) (t : Trace) :
    (onDelete w s t).1.created = w.created ∧ ∀ m, m ∈ (onDelete w s t).1.jobs → m ∈ w.jobs := by
  unfold onDelete
  split
  · have fin : ∀ (w' : World) (u : Trace), w'.created = w.created →
        (∀ m, m ∈ w'.jobs → m ∈ w.jobs) →
        (match update (envs w' s.envUpdate₁) s.fUpdate₁ { u with finalizer := false } with
            | (w, none) => ((w, .inl .err) : World × (Result ⊕ Trace))
            | (w, some t) => (w, .inr t)).1.created = w.created ∧
        ∀ m, m ∈ (match update (envs w' s.envUpdate₁) s.fUpdate₁ { u with finalizer := false } with
            | (w, none) => ((w, .inl .err) : World × (Result ⊕ Trace))
            | (w, some t) => (w, .inr t)).1.jobs → m ∈ w.jobs := by
      intro w' u hw hj
      have h1 := update_created (envs w' s.envUpdate₁) s.fUpdate₁ { u with finalizer := false }
      have h2 := envs_created w' s.envUpdate₁
      generalize update (envs w' s.envUpdate₁) s.fUpdate₁ { u with finalizer := false } = r at h1
      obtain ⟨a, _ | b⟩ := r
      · exact ⟨h1.1.trans (h2.1.trans hw), fun m h => hj m (h2.2.2 m (h1.2.1 ▸ h))⟩
      · exact ⟨h1.1.trans (h2.1.trans hw), fun m h => hj m (h2.2.2 m (h1.2.1 ▸ h))⟩
    have h1 := envs_created w s.envDelete
    have h2 : (deleteJob (envs w s.envDelete) s.fDelete t.jobID).1.created = w.created ∧
        ∀ m, m ∈ (deleteJob (envs w s.envDelete) s.fDelete t.jobID).1.jobs → m ∈ w.jobs := by
      rcases deleteJob_cases (envs w s.envDelete) s.fDelete t.jobID with h | ⟨-, h⟩ <;> rw [h]
      · exact ⟨h1.1, h1.2.2⟩
      · exact ⟨h1.1, fun m hm => h1.2.2 m (List.mem_filter.1 hm).1⟩
    dsimp only
    split
    · split
      · next h => rw [h] at h2; exact h2
      · next h => rw [h] at h2; exact fin _ { t with state := .complete, completion := some s.now } h2.1 h2.2
    · exact fin w t rfl (fun _ h => h)
  · exact ⟨rfl, fun _ h => h⟩

theorem onState_steps {B : Prop} {w : World} (hi : Inv w) {s : Sched} {t : Trace} (ht : t ∈ w.seen)
    (hB : B → s.name ∉ w.created) :
    Steps B s.name w (onState w s t).1 := by
  unfold onState
  dsimp only
  split
  · next hs =>
    have h1 := envs_steps (B := B) s.name w s.envUpdate
    have h2 : Steps B s.name w (update (envs w s.envUpdate) s.fUpdate
        { t with finalizer := true, state := .pending }).1 := by
      refine h1.trans (update_steps (h1.inv hi) (steps_seen h1 t ht) rfl ?_
        (fun h => nomatch h) (.inl rfl))
      intro t' hcur he hf
      subst he
      exact .pend rfl rfl (fun h => hf h rfl) hs rfl rfl rfl
    generalize update _ _ _ = r at h2 ⊢
    obtain ⟨a, _ | b⟩ := r <;> exact h2
  · next hs =>
    have h0 := (envs_steps (B := B) s.name w s.envCreate).trans
      (create_steps (envs w s.envCreate) s.fCreate s.name
        (fun h => by rw [(envs_created w s.envCreate).1]; exact hB h))
    split
    · next h => rw [h] at h0; exact h0
    · next w1 h =>
      rw [h] at h0
      have h1 := h0.trans (envs_steps s.name w1 s.envUpdate)
      have h2 : Steps B s.name w (update (envs w1 s.envUpdate) s.fUpdate
          (asRunning (withSyscalls { t with finalizer := true }) s.name s.now)).1 := by
        have hw : ∀ u : Trace, (withSyscalls u).rv = u.rv ∧ (withSyscalls u).deleting = u.deleting ∧
            (withSyscalls u).finalizer = u.finalizer := by
          intro u
          unfold withSyscalls
          split <;> exact ⟨rfl, rfl, rfl⟩
        refine h1.trans (update_steps (h1.inv hi) (steps_seen h1 t ht) (hw _).1 ?_
          (fun h => absurd ((hw _).2.2.symm.trans h) (by simp)) (.inr ⟨rfl, (hw _).2.2, ?_⟩))
        rotate_left
        · rw [(envs_created _ _).1]; exact create_true h
        intro t' hcur he hf
        subst he
        refine .start s.name s.now rfl (hw _).2.1 (fun h => hf h ?_) hs rfl rfl (name_ne s) rfl
        exact (hw _).2.2
      generalize update _ _ _ = r at h2 ⊢
      obtain ⟨a, _ | b⟩ := r <;> exact h2
  · next hs =>
    split
    · next hdur =>
      split
      · exact .refl _
      · next st hst =>
        split
        · exact .refl _
        · next hnow =>
          have h1 := envs_steps (B := B) s.name w s.envUpdate
          have h2 : Steps B s.name w (update (envs w s.envUpdate) s.fUpdate
              { t with finalizer := true, state := .complete, completion := some s.now }).1 := by
            refine h1.trans (update_steps (h1.inv hi) (steps_seen h1 t ht) rfl ?_
        (fun h => nomatch h) (.inl rfl))
            intro t' hcur he hf
            subst he
            exact .finish st s.now rfl rfl (fun h => hf h rfl) hs rfl rfl rfl hst hdur
              (by omega) rfl
          generalize update _ _ _ = r at h2 ⊢
          obtain ⟨a, _ | b⟩ := r <;> exact h2
    · exact .refl _
  · exact .refl _

theorem reconcile_steps {B : Prop} {w : World} (hi : Inv w) (s : Sched)
    (hB : B → s.name ∉ w.created) : Steps B s.name w (reconcile w s).1 := by
  unfold reconcile
  have h0 := envs_steps (B := B) s.name w s.envGet
  have hi0 := h0.inv hi
  dsimp only
  split
  · exact h0
  · split
    · exact h0
    · next k _ t hk =>
      have ht : t ∈ (envs w s.envGet).seen := List.mem_of_getElem? hk
      have h1 := onDelete_steps (B := B) (s := s) hi0 ht
      split
      · next h => rw [h] at h1; exact h0.trans h1
      · next w' t' h =>
        rw [h] at h1
        refine (h0.trans h1).trans (onState_steps (h1.inv hi0) ?_ ?_)
        rotate_left
        · intro hb
          have h2 := (onDelete_created (envs w s.envGet) s t).1
          rw [h] at h2
          rw [show w'.created = _ from h2, (envs_created w s.envGet).1]
          exact hB hb
        have hgo := onDelete_go (w := envs w s.envGet) (s := s) (t := t) (t' := t') (by rw [h])
        rw [h] at hgo
        rcases hgo with ⟨-, rfl, -⟩ | ⟨-, h2, -⟩
        · exact steps_seen h1 _ ht
        · exact h2

theorem reconcile_inv {w : World} (hi : Inv w) (s : Sched) : Inv (reconcile w s).1 :=
  (reconcile_steps (B := False) hi s False.elim).inv hi

theorem run_inv {w : World} (hi : Inv w) (ss : List Sched) : Inv (run w ss) := by
  induction ss generalizing w with
  | nil => exact hi
  | cons s ss ih => exact ih (reconcile_inv hi s)

theorem init_inv (d : Int) (sc : List String) (o : Bool) (jobs : List String) :
    Inv (init (fresh d sc o) jobs) := by
  refine ⟨fun t h => ?_, fun t h => ?_, trivial⟩
  · injection h with h; subst h; rfl
  · rcases List.mem_singleton.1 h with rfl
    exact .inl ⟨rfl, rfl⟩

theorem reachable_inv {w : World} (h : Reachable w) : Inv w := by
  obtain ⟨d, sc, o, jobs, ss, rfl⟩ := h
  exact run_inv (init_inv d sc o jobs) ss

end Swoll.Lemmas.Controller
