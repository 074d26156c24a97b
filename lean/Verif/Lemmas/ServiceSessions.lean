import Verif.Lemmas.Service
import Verif.Spec.Service
import Verif.Lemmas.DaemonDeliver
/-
The websockets of the service and the subscriptions they hold.
-/
namespace Swoll.Lemmas.Service
open Swoll Swoll.Service
open Swoll.Daemon (Daemon Delivery)
open Swoll.Spec.Service
open Swoll.Spec.Daemon (users userStep detaches DetachOnce User Target)

variable {tbl : Syscalls.Syscalls} {crc : String → BitVec 64} {srt : List PubSub.Env → List PubSub.Env}

/-- The session has let its subscription go. -/
def Gone (se : Session) : Prop := se.over = true ∧ ∃ id, se.watch = .job id

/-- Sessions and subscriptions agree. -/
structure SInv (s : Service) : Prop where
  count : (s.log.foldl userStep (0, [])).1 = s.attached
  lt : ∀ (k : Nat) se t, s.sessions[k]? = some se → se.tok = some t → t < s.attached
  inj : ∀ (k k' : Nat) se se' t, s.sessions[k]? = some se → s.sessions[k']? = some se' → se.tok = some t →
    se'.tok = some t → k = k'
  over : ∀ (k : Nat) se, s.sessions[k]? = some se → se.over = true → se.closed = true ∧ ∃ t, se.tok = some t
  users : ∀ u, u ∈ users s.log ↔ ∃ (k : Nat) (se : Session), s.sessions[k]? = some se ∧ se.tok = some u.token ∧
    u.target = target se.watch ∧ ¬ Gone se
  det : ∀ t ∈ s.log.filterMap detaches, ∃ (k : Nat) (se : Session), s.sessions[k]? = some se ∧ se.tok = some t ∧ Gone se
  once : DetachOnce s.log

/-- The operation has nothing to do with subscriptions. -/
def Neutral (o : Daemon.Op) : Prop := (∀ x, userStep x o = x) ∧ detaches o = none

theorem neutral_outside {o : Daemon.Op} (h : isOutside o = true) : Neutral o := by
  cases o <;> first | exact ⟨fun _ => rfl, rfl⟩ | cases h

theorem neutral_act {j : Hub.Job} {f : Filter.Faults} {a : Act} {o : Daemon.Op} (h : actOp j f a = some o) :
    Neutral o := by
  cases a <;> simp only [actOp, Option.some.injEq, reduceCtorEq] at h <;> subst h <;> exact ⟨fun _ => rfl, rfl⟩

theorem sinv_neutral {s s' : Service} (h : SInv s) {o : Daemon.Op} (hn : Neutral o) (hl : s'.log = s.log ++ [o])
    (hs : s'.sessions = s.sessions) (ha : s'.attached = s.attached) : SInv s' := by
  have hf : s'.log.foldl userStep (0, []) = s.log.foldl userStep (0, []) := by
    rw [hl, List.foldl_append]; exact hn.1 _
  have hu : users s'.log = users s.log := by unfold users; rw [hf]
  have hd : s'.log.filterMap detaches = s.log.filterMap detaches := by
    rw [hl, List.filterMap_append]; simp [hn.2]
  refine ⟨by rw [hf, ha]; exact h.count, by rw [hs, ha]; exact h.lt, by rw [hs]; exact h.inj, by rw [hs]; exact h.over,
    by rw [hs, hu]; exact h.users, by rw [hs, hd]; exact h.det, ?_⟩
  unfold DetachOnce; rw [hd]; exact h.once

theorem sinv_same {s s' : Service} (h : SInv s) (hl : s'.log = s.log)
    (hs : s'.sessions = s.sessions) (ha : s'.attached = s.attached) : SInv s' :=
  ⟨by rw [hl, ha]; exact h.count, by rw [hs, ha]; exact h.lt, by rw [hs]; exact h.inj, by rw [hs]; exact h.over,
    by rw [hs, hl]; exact h.users, by rw [hs, hl]; exact h.det, by rw [hl]; exact h.once⟩

theorem get_set {α : Type} {l : List α} {k k' : Nat} {a b : α} (hk : k < l.length) (h : (l.set k a)[k']? = some b) :
    (k' = k ∧ b = a) ∨ (k' ≠ k ∧ l[k']? = some b) := by
  rw [List.getElem?_set] at h
  split at h
  · rename_i e; subst e
    injection h with h
    exact Or.inl ⟨rfl, h.symm⟩
  · rename_i e; exact Or.inr ⟨fun x => e x.symm, h⟩

theorem lt_of_get {α : Type} {l : List α} {k : Nat} {a : α} (h : l[k]? = some a) : k < l.length :=
  (List.getElem?_eq_some_iff.1 h).1

theorem set_get {α : Type} {l : List α} {k : Nat} {a b : α} (h : l[k]? = some a) : (l.set k b)[k]? = some b := by
  rw [List.getElem?_set, if_pos rfl, if_pos (lt_of_get h)]

theorem set_get_ne {α : Type} {l : List α} {k k' : Nat} {b : α} (h : k' ≠ k) : (l.set k b)[k']? = l[k']? := by
  rw [List.getElem?_set, if_neg (fun e => h e.symm)]

theorem sinv_step {s s' : Service} {op : Op} {out : List Delivery} (hm : Moves tbl crc srt s op s' out)
    (h : SInv s) : SInv s' := by
  cases hm with
  | idle op => exact h
  | outside o d out ho hd => exact sinv_neutral h (neutral_outside ho) rfl rfl rfl
  | create q u ok b => exact sinv_same h rfl rfl rfl
  | delete id => exact sinv_same h rfl rfl rfl
  | handleDelete i t j d out ht hp hd =>
    exact sinv_neutral h (o := .delete t.id) ⟨fun _ => rfl, rfl⟩ rfl rfl rfl
  | handleCreate i t ht hp => exact sinv_same h rfl rfl rfl
  | handleOther i t ht h1 h2 => exact sinv_same h rfl rfl rfl
  | notice p ev pr hp ht => exact sinv_same h rfl rfl rfl
  | work p f pr a rest o d out hp ht ha hd => exact sinv_neutral h (neutral_act ha) rfl rfl rfl
  | watch w hw =>
    have get : ∀ {k : Nat} {se : Session}, (s.sessions ++ [⟨w, none, false, false⟩])[k]? = some se →
        s.sessions[k]? = some se ∨ (k = s.sessions.length ∧ se = ⟨w, none, false, false⟩) := by
      intro k se hk
      rw [List.getElem?_append] at hk
      split at hk
      · exact Or.inl hk
      · rw [List.getElem?_singleton] at hk
        split at hk
        · injection hk with hk; exact Or.inr ⟨by omega, hk.symm⟩
        · cases hk
    have put : ∀ {k : Nat} {se : Session}, s.sessions[k]? = some se →
        (s.sessions ++ [⟨w, none, false, false⟩])[k]? = some se := by
      intro k se hk
      rw [List.getElem?_append_left (lt_of_get hk)]; exact hk
    refine ⟨h.count, ?_, ?_, ?_, ?_, ?_, h.once⟩
    · intro k se t hk ht
      rcases get hk with hk | ⟨-, rfl⟩
      · exact h.lt k se t hk ht
      · cases ht
    · intro k k' se se' t hk hk' ht ht'
      rcases get hk with hk | ⟨-, rfl⟩
      · rcases get hk' with hk' | ⟨-, rfl⟩
        · exact h.inj k k' se se' t hk hk' ht ht'
        · cases ht'
      · cases ht
    · intro k se hk ho
      rcases get hk with hk | ⟨-, rfl⟩
      · exact h.over k se hk ho
      · cases ho
    · intro u
      rw [h.users]
      constructor
      · rintro ⟨k, se, hk, hr⟩; exact ⟨k, se, put hk, hr⟩
      · rintro ⟨k, se, hk, hr⟩
        rcases get hk with hk | ⟨-, rfl⟩
        · exact ⟨k, se, hk, hr⟩
        · cases hr.1
    · intro t ht
      obtain ⟨k, se, hk, hr⟩ := h.det t ht
      exact ⟨k, se, put hk, hr⟩
  | attach k draw se d out hk ht hd =>
    have hne : ∀ {k' : Nat} {se' : Session} {t : Nat}, s.sessions[k']? = some se' → se'.tok = some t → k' ≠ k := by
      intro k' se' t hk' ht' e
      subst e
      rw [hk] at hk'; injection hk' with hk'; subst hk'
      rw [ht] at ht'; cases ht'
    have hf : (s.log ++ [attachOp draw se.watch]).foldl userStep (0, []) =
        (s.attached + 1, users s.log ++ [⟨s.attached, target se.watch⟩]) := by
      rw [List.foldl_append]
      have e : s.log.foldl userStep (0, []) = (s.attached, users s.log) := Prod.ext h.count rfl
      rw [e]
      cases hw : se.watch <;> rfl
    have hdet : (s.log ++ [attachOp draw se.watch]).filterMap detaches = s.log.filterMap detaches := by
      rw [List.filterMap_append]
      cases hw : se.watch <;> simp [attachOp, detaches]
    have hover : se.over = false := by
      cases ho : se.over with
      | false => rfl
      | true => obtain ⟨-, t, e⟩ := h.over k se hk ho; rw [ht] at e; cases e
    refine ⟨?_, ?_, ?_, ?_, ?_, ?_, ?_⟩
    · exact congrArg (·.1) hf
    · intro k' se' t hk' ht'
      rcases get_set (lt_of_get hk) hk' with ⟨rfl, rfl⟩ | ⟨-, hk'⟩
      · simp only [Option.some.injEq] at ht'; subst ht'; exact Nat.lt_succ_self _
      · exact Nat.lt_succ_of_lt (h.lt k' se' t hk' ht')
    · intro k1 k2 se1 se2 t h1 h2 t1 t2
      rcases get_set (lt_of_get hk) h1 with ⟨rfl, rfl⟩ | ⟨n1, g1⟩ <;>
        rcases get_set (lt_of_get hk) h2 with ⟨rfl, rfl⟩ | ⟨n2, g2⟩
      · rfl
      · simp only [Option.some.injEq] at t1; subst t1
        exact absurd (h.lt _ _ _ g2 t2) (Nat.lt_irrefl _)
      · simp only [Option.some.injEq] at t2; subst t2
        exact absurd (h.lt _ _ _ g1 t1) (Nat.lt_irrefl _)
      · exact h.inj k1 k2 se1 se2 t g1 g2 t1 t2
    · intro k' se' hk' ho
      rcases get_set (lt_of_get hk) hk' with ⟨rfl, rfl⟩ | ⟨-, hk'⟩
      · dsimp only at ho; rw [hover] at ho; cases ho
      · exact h.over k' se' hk' ho
    · intro u
      have hu : users (s.log ++ [attachOp draw se.watch]) = users s.log ++ [⟨s.attached, target se.watch⟩] := by
        unfold Spec.Daemon.users
        exact congrArg (·.2) hf
      show u ∈ users (s.log ++ [attachOp draw se.watch]) ↔ _
      rw [hu, List.mem_append, List.mem_singleton, h.users]
      constructor
      · rintro (⟨k', se', hk', ht', hr⟩ | rfl)
        · exact ⟨k', se', by rw [set_get_ne (hne hk' ht')]; exact hk', ht', hr⟩
        · exact ⟨k, _, set_get hk, rfl, rfl, fun g => by have : se.over = true := g.1; rw [hover] at this; cases this⟩
      · rintro ⟨k', se', hk', ht', hr1, hr2⟩
        rcases get_set (lt_of_get hk) hk' with ⟨rfl, rfl⟩ | ⟨-, hk'⟩
        · right
          simp only [Option.some.injEq] at ht'
          cases u; simp only at ht' hr1; subst ht'; subst hr1; rfl
        · exact Or.inl ⟨k', se', hk', ht', hr1, hr2⟩
    · intro t htd
      rw [hdet] at htd
      obtain ⟨k', se', hk', ht', hg⟩ := h.det t htd
      exact ⟨k', se', by rw [set_get_ne (hne hk' ht')]; exact hk', ht', hg⟩
    · show DetachOnce (s.log ++ [attachOp draw se.watch])
      unfold DetachOnce; rw [hdet]; exact h.once
  | close k se hk =>
    refine ⟨h.count, ?_, ?_, ?_, ?_, ?_, h.once⟩
    · intro k' se' t hk' ht'
      rcases get_set (lt_of_get hk) hk' with ⟨rfl, rfl⟩ | ⟨-, hk'⟩
      · exact h.lt k' se t hk ht'
      · exact h.lt k' se' t hk' ht'
    · intro k1 k2 se1 se2 t h1 h2 t1 t2
      rcases get_set (lt_of_get hk) h1 with ⟨rfl, rfl⟩ | ⟨n1, g1⟩ <;>
        rcases get_set (lt_of_get hk) h2 with ⟨rfl, rfl⟩ | ⟨n2, g2⟩
      · rfl
      · exact h.inj _ _ _ _ t hk g2 t1 t2
      · exact h.inj _ _ _ _ t g1 hk t1 t2
      · exact h.inj _ _ _ _ t g1 g2 t1 t2
    · intro k' se' hk' ho
      rcases get_set (lt_of_get hk) hk' with ⟨rfl, rfl⟩ | ⟨-, hk'⟩
      · exact ⟨rfl, (h.over _ se hk ho).2⟩
      · exact h.over k' se' hk' ho
    · intro u
      rw [h.users]
      constructor
      · rintro ⟨k', se', hk', hr⟩
        by_cases e : k' = k
        · subst e; rw [hk] at hk'; injection hk' with hk'; subst hk'
          exact ⟨_, _, set_get hk, hr⟩
        · exact ⟨k', se', by rw [set_get_ne e]; exact hk', hr⟩
      · rintro ⟨k', se', hk', hr⟩
        rcases get_set (lt_of_get hk) hk' with ⟨rfl, rfl⟩ | ⟨-, hk'⟩
        · exact ⟨_, _, hk, hr⟩
        · exact ⟨k', se', hk', hr⟩
    · intro t ht
      obtain ⟨k', se', hk', hr⟩ := h.det t ht
      by_cases e : k' = k
      · subst e; rw [hk] at hk'; injection hk' with hk'; subst hk'
        exact ⟨_, _, set_get hk, hr⟩
      · exact ⟨k', se', by rw [set_get_ne e]; exact hk', hr⟩
  | hangPath k fails se t ns pod c hk ht ho hc hw =>
    have ng : ∀ x : Session, x.watch = se.watch → ¬ Gone x := by
      intro x e g
      obtain ⟨-, id, e'⟩ := g
      rw [e, hw] at e'; cases e'
    refine ⟨h.count, ?_, ?_, ?_, ?_, ?_, h.once⟩
    · intro k' se' t hk' ht'
      rcases get_set (lt_of_get hk) hk' with ⟨rfl, rfl⟩ | ⟨-, hk'⟩
      · exact h.lt k' se t hk ht'
      · exact h.lt k' se' t hk' ht'
    · intro k1 k2 se1 se2 t h1 h2 t1 t2
      rcases get_set (lt_of_get hk) h1 with ⟨rfl, rfl⟩ | ⟨n1, g1⟩ <;>
        rcases get_set (lt_of_get hk) h2 with ⟨rfl, rfl⟩ | ⟨n2, g2⟩
      · rfl
      · exact h.inj _ _ _ _ t hk g2 t1 t2
      · exact h.inj _ _ _ _ t g1 hk t1 t2
      · exact h.inj _ _ _ _ t g1 g2 t1 t2
    · intro k' se' hk' ho
      rcases get_set (lt_of_get hk) hk' with ⟨rfl, rfl⟩ | ⟨-, hk'⟩
      · exact ⟨rfl, t, ht⟩
      · exact h.over k' se' hk' ho
    · intro u
      rw [h.users]
      constructor
      · rintro ⟨k', se', hk', hr1, hr2, hr3⟩
        by_cases e : k' = k
        · subst e; rw [hk] at hk'; injection hk' with hk'; subst hk'
          exact ⟨_, _, set_get hk, hr1, hr2, ng _ rfl⟩
        · exact ⟨k', se', by rw [set_get_ne e]; exact hk', hr1, hr2, hr3⟩
      · rintro ⟨k', se', hk', hr1, hr2, hr3⟩
        rcases get_set (lt_of_get hk) hk' with ⟨rfl, rfl⟩ | ⟨-, hk'⟩
        · exact ⟨_, _, hk, hr1, hr2, ng _ rfl⟩
        · exact ⟨k', se', hk', hr1, hr2, hr3⟩
    · intro t' ht'
      obtain ⟨k', se', hk', hr⟩ := h.det t' ht'
      by_cases e : k' = k
      · subst e; rw [hk] at hk'; injection hk' with hk'; subst hk'
        exact absurd hr.2 (ng _ rfl)
      · exact ⟨k', se', by rw [set_get_ne e]; exact hk', hr⟩
  | hangJob k fails se t id d out hk ht ho hc hw hd =>
    have hf : (s.log ++ [Daemon.Op.detach t]).foldl userStep (0, []) =
        (s.attached, (users s.log).filter (fun u => u.token ≠ t)) := by
      rw [List.foldl_append]
      have e : s.log.foldl userStep (0, []) = (s.attached, users s.log) := Prod.ext h.count rfl
      rw [e]; rfl
    have hdet : (s.log ++ [Daemon.Op.detach t]).filterMap detaches = s.log.filterMap detaches ++ [t] := by
      rw [List.filterMap_append]; rfl
    have hg : ¬ Gone se := fun g => by have := g.1; rw [ho] at this; cases this
    have hnew : Gone { se with closed := true, over := true } := ⟨rfl, id, hw⟩
    refine ⟨congrArg (·.1) hf, ?_, ?_, ?_, ?_, ?_, ?_⟩
    · intro k' se' t hk' ht'
      rcases get_set (lt_of_get hk) hk' with ⟨rfl, rfl⟩ | ⟨-, hk'⟩
      · exact h.lt k' se t hk ht'
      · exact h.lt k' se' t hk' ht'
    · intro k1 k2 se1 se2 t h1 h2 t1 t2
      rcases get_set (lt_of_get hk) h1 with ⟨rfl, rfl⟩ | ⟨n1, g1⟩ <;>
        rcases get_set (lt_of_get hk) h2 with ⟨rfl, rfl⟩ | ⟨n2, g2⟩
      · rfl
      · exact h.inj _ _ _ _ t hk g2 t1 t2
      · exact h.inj _ _ _ _ t g1 hk t1 t2
      · exact h.inj _ _ _ _ t g1 g2 t1 t2
    · intro k' se' hk' ho
      rcases get_set (lt_of_get hk) hk' with ⟨rfl, rfl⟩ | ⟨-, hk'⟩
      · exact ⟨rfl, t, ht⟩
      · exact h.over k' se' hk' ho
    · intro u
      have hu : users (s.log ++ [Daemon.Op.detach t]) = (users s.log).filter (fun u => u.token ≠ t) := by
        unfold Spec.Daemon.users
        exact congrArg (·.2) hf
      show u ∈ users (s.log ++ [Daemon.Op.detach t]) ↔ _
      rw [hu, List.mem_filter, h.users, decide_eq_true_eq]
      constructor
      · rintro ⟨⟨k', se', hk', hr1, hr2, hr3⟩, hn⟩
        have e : k' ≠ k := by
          rintro rfl
          rw [hk] at hk'; injection hk' with hk'; subst hk'
          rw [ht] at hr1; injection hr1 with hr1; exact hn hr1.symm
        exact ⟨k', se', by rw [set_get_ne e]; exact hk', hr1, hr2, hr3⟩
      · rintro ⟨k', se', hk', hr1, hr2, hr3⟩
        rcases get_set (lt_of_get hk) hk' with ⟨rfl, rfl⟩ | ⟨e, hk'⟩
        · exact absurd hnew hr3
        · refine ⟨⟨k', se', hk', hr1, hr2, hr3⟩, ?_⟩
          intro e'
          rw [e'] at hr1
          exact e (h.inj _ _ _ _ t hk' hk hr1 ht)
    · intro t' ht'
      rw [hdet, List.mem_append, List.mem_singleton] at ht'
      rcases ht' with ht' | rfl
      · obtain ⟨k', se', hk', hr⟩ := h.det t' ht'
        have e : k' ≠ k := by
          rintro rfl
          rw [hk] at hk'; injection hk' with hk'; subst hk'
          exact hg hr.2
        exact ⟨k', se', by rw [set_get_ne e]; exact hk', hr⟩
      · exact ⟨k, _, set_get hk, ht, hnew⟩
    · show DetachOnce (s.log ++ [Daemon.Op.detach t])
      unfold DetachOnce
      rw [hdet, List.nodup_append]
      refine ⟨h.once, by simp, ?_⟩
      intro a ha b hb e
      rw [List.mem_singleton] at hb
      subst hb; subst e
      obtain ⟨k', se', hk', hr1, hr2⟩ := h.det a ha
      have e := h.inj _ _ _ _ a hk' hk hr1 ht
      subst e
      rw [hk] at hk'; injection hk' with hk'; subst hk'
      exact hg hr2

theorem sinv_fresh : SInv (fresh tbl) := by
  refine ⟨rfl, ?_, ?_, ?_, ?_, ?_, List.nodup_nil⟩
  · intro k se t h; simp [fresh] at h
  · intro k k' se se' t h; simp [fresh] at h
  · intro k se h; simp [fresh] at h
  · intro u; constructor
    · intro h; cases h
    · rintro ⟨k, se, h, -⟩; simp [fresh] at h
  · intro t h; cases h

theorem sinv_run {s : Service} {ops : List Op} (h : run tbl crc srt (fresh tbl) ops = some s) : SInv s :=
  run_induct h sinv_fresh (fun _ _ _ _ _ hm hi => sinv_step hm hi)

/-! ### Sessions last -/

theorem session_step {s s' : Service} {op : Op} {out : List Delivery} (hm : Moves tbl crc srt s op s' out)
    {k : Nat} {se : Session} (h : s.sessions[k]? = some se) :
    ∃ se', s'.sessions[k]? = some se' ∧ se'.watch = se.watch ∧ (∀ t, se.tok = some t → se'.tok = some t) ∧
      (se.over = true → se'.over = true) ∧ (se.closed = true → se'.closed = true) := by
  have same : ∀ se : Session, se.watch = se.watch ∧ (∀ t, se.tok = some t → se.tok = some t) ∧
      (se.over = true → se.over = true) ∧ (se.closed = true → se.closed = true) :=
    fun se => ⟨rfl, fun _ e => e, fun e => e, fun e => e⟩
  have put : ∀ (k' : Nat) (a b : Session), s.sessions[k']? = some a → b.watch = a.watch →
      (∀ t, a.tok = some t → b.tok = some t) → (a.over = true → b.over = true) →
      (a.closed = true → b.closed = true) →
      ∃ se', (s.sessions.set k' b)[k]? = some se' ∧ se'.watch = se.watch ∧ (∀ t, se.tok = some t → se'.tok = some t) ∧
        (se.over = true → se'.over = true) ∧ (se.closed = true → se'.closed = true) := by
    intro k' a b ha h1 h2 h3 h4
    by_cases e : k = k'
    · subst e
      rw [ha] at h
      injection h with h
      subst h
      exact ⟨b, set_get ha, h1, h2, h3, h4⟩
    · exact ⟨se, by rw [set_get_ne e]; exact h, same se⟩
  cases hm with
  | watch w hw => exact ⟨se, by rw [List.getElem?_append_left (lt_of_get h)]; exact h, same se⟩
  | attach k' draw a d out hk ht hd =>
    exact put k' a _ hk rfl (fun t e => by rw [ht] at e; cases e) (fun e => e) (fun e => e)
  | close k' a hk => exact put k' a _ hk rfl (fun _ e => e) (fun e => e) (fun _ => rfl)
  | hangJob k' fails a t id d out hk ht ho hc hw hd =>
    exact put k' a _ hk rfl (fun _ e => e) (fun _ => rfl) (fun _ => rfl)
  | hangPath k' fails a t ns pod c hk ht ho hc hw =>
    exact put k' a _ hk rfl (fun _ e => e) (fun _ => rfl) (fun _ => rfl)
  | _ => exact ⟨se, h, same se⟩

theorem session_run {s s' : Service} {ops : List Op} (hr : run tbl crc srt s ops = some s')
    {k : Nat} {se : Session} (h : s.sessions[k]? = some se) :
    ∃ se', s'.sessions[k]? = some se' ∧ se'.watch = se.watch ∧ (∀ t, se.tok = some t → se'.tok = some t) ∧
      (se.over = true → se'.over = true) ∧ (se.closed = true → se'.closed = true) := by
  refine run_induct (P := fun x => ∃ se', x.sessions[k]? = some se' ∧ se'.watch = se.watch ∧
    (∀ t, se.tok = some t → se'.tok = some t) ∧ (se.over = true → se'.over = true) ∧
    (se.closed = true → se'.closed = true)) hr ⟨se, h, rfl, fun _ e => e, fun e => e, fun e => e⟩ ?_
  rintro x op x' out - hm ⟨a, h1, h2, h3, h4, h5⟩
  obtain ⟨b, g1, g2, g3, g4, g5⟩ := session_step hm h1
  exact ⟨b, g1, by rw [g2, h2], fun t e => g3 t (h3 t e), fun e => g4 (h4 e), fun e => g5 (h5 e)⟩

/-- A session that nobody closes stays open. -/
theorem session_open {s s' : Service} {ops : List Op} (hr : run tbl crc srt s ops = some s')
    {k : Nat} {se : Session} (h : s.sessions[k]? = some se) (ho : se.over = false) (hc : se.closed = false)
    (hp : ∀ op ∈ ops, op ≠ .close k ∧ op ≠ .ping k true) :
    ∃ se', s'.sessions[k]? = some se' ∧ se'.watch = se.watch ∧ (∀ t, se.tok = some t → se'.tok = some t) ∧
      se'.over = false ∧ se'.closed = false := by
  refine run_induct (P := fun x => ∃ se', x.sessions[k]? = some se' ∧ se'.watch = se.watch ∧
    (∀ t, se.tok = some t → se'.tok = some t) ∧ se'.over = false ∧ se'.closed = false) hr
    ⟨se, h, rfl, fun _ e => e, ho, hc⟩ ?_
  rintro x op x' out hop hm ⟨a, h1, h2, h3, h4, h5⟩
  have keep : ∀ (k' : Nat) (b : Session), k ≠ k' → ∃ se', (x.sessions.set k' b)[k]? = some se' ∧ se'.watch = se.watch ∧
      (∀ t, se.tok = some t → se'.tok = some t) ∧ se'.over = false ∧ se'.closed = false :=
    fun k' b e => ⟨a, by rw [set_get_ne e]; exact h1, h2, h3, h4, h5⟩
  cases hm with
  | watch w hw => exact ⟨a, by rw [List.getElem?_append_left (lt_of_get h1)]; exact h1, h2, h3, h4, h5⟩
  | attach k' draw b d out hk ht hd =>
    by_cases e : k = k'
    · subst e
      rw [h1] at hk
      injection hk with hk
      subst hk
      exact ⟨_, set_get h1, h2, (fun t et => by have := h3 t et; rw [ht] at this; cases this), h4, h5⟩
    · exact keep k' _ e
  | close k' b hk =>
    refine keep k' _ ?_
    rintro rfl
    exact (hp _ hop).1 rfl
  | hangJob k' fails b t id d out hk ht hov hcl hw hd =>
    refine keep k' _ ?_
    rintro rfl
    rw [h1] at hk
    injection hk with hk
    subst hk
    rw [h5, Bool.false_or] at hcl
    subst hcl
    exact (hp _ hop).2 rfl
  | hangPath k' fails b t ns pod c hk ht hov hcl hw =>
    refine keep k' _ ?_
    rintro rfl
    rw [h1] at hk
    injection hk with hk
    subst hk
    rw [h5, Bool.false_or] at hcl
    subst hcl
    exact (hp _ hop).2 rfl
  | _ => exact ⟨a, h1, h2, h3, h4, h5⟩

end Swoll.Lemmas.Service
