import Verif.Spec.Alert
import Verif.Util.ListX
/-
Facts about the alert queue used in Props.Alert.
-/
namespace Swoll.Lemmas.Alert
open Swoll Swoll.Alert Swoll.Spec.Alert

/-- The pointer stored for a pair. -/
def entry (q : Table) (s : Source) (sc : String) : Option Nat := (GoMap.get q s).bind (fun t => GoMap.get t sc)

theorem fires_snoc (as : List Alert) (a : Alert) (s : Source) (sc : String) :
    fires (as ++ [a]) s sc = if concerns a s sc then decide (a.info.status = .firing) else fires as s sc := by
  unfold fires
  rw [List.filter_append]
  by_cases h : concerns a s sc
  · simp [h]
  · simp [h]

theorem fires_mem {as : List Alert} {s : Source} {sc : String} (h : fires as s sc = true) :
    ∃ a ∈ as, a.source = s ∧ a.info.syscall = sc := by
  unfold fires at h
  split at h
  · rename_i a ha
    have := List.mem_filter.1 (List.mem_of_getLast? ha)
    have hc : concerns a s sc := by simpa using this.2
    exact ⟨a, this.1, hc.1, hc.2.1⟩
  · cases h

theorem active_iff (as : List Alert) (s : Source) (ex : List String) :
    active as s ex = true ↔ ∃ sc, sc ∉ ex ∧ fires as s sc = true := by
  unfold active
  rw [List.any_eq_true]
  constructor
  · rintro ⟨a, _, h⟩
    simp only [Bool.and_eq_true, Bool.not_eq_true', List.contains_eq_mem, decide_eq_false_iff_not] at h
    exact ⟨_, h⟩
  · rintro ⟨sc, h1, h2⟩
    obtain ⟨a, ha, _, rfl⟩ := fires_mem h2
    refine ⟨a, ha, ?_⟩
    simp [h1, h2]

structure Inv (h : Heap) (q : Table) (as : List Alert) : Prop where
  full : ∀ s t, GoMap.get q s = some t → t ≠ []
  val : ∀ s sc p, entry q s sc = some p → (h p).info.syscall = sc ∧ (h p).info.status = .firing
  fir : ∀ s sc, (entry q s sc).isSome = fires as s sc

theorem inv_nil (h : Heap) : Inv h [] [] :=
  ⟨fun _ _ h => (nomatch h), fun _ _ _ h => (nomatch h), fun _ _ => rfl⟩

theorem entry_set (q : Table) (s s' : Source) (t : GoMap String Nat) (sc : String) :
    entry (GoMap.set q s t) s' sc = if s = s' then GoMap.get t sc else entry q s' sc := by
  unfold entry
  rw [GoMap.get_set]
  split <;> rfl

theorem entry_del (q : Table) (s s' : Source) (sc : String) :
    entry (GoMap.del q s) s' sc = if s = s' then none else entry q s' sc := by
  unfold entry
  rw [GoMap.get_del]
  split <;> rfl

theorem nonempty_of_set {K V : Type} [DecidableEq K] (m : GoMap K V) (k : K) (v : V) : GoMap.set m k v ≠ [] := by
  intro h
  have := GoMap.get_set_same m k v
  rw [h] at this; cases this

theorem exists_get {K V : Type} [DecidableEq K] {m : GoMap K V} (h : m ≠ []) : ∃ k v, GoMap.get m k = some v := by
  cases m with
  | nil => exact absurd rfl h
  | cons e m =>
    have : e.1 ∈ GoMap.keys (e :: m) := by simp
    obtain ⟨v, hv⟩ := Option.isSome_iff_exists.1 ((GoMap.mem_keys_iff _ _).1 this)
    exact ⟨e.1, v, hv⟩

/-- A source has a table exactly when something fires for it. -/
theorem has_iff {h : Heap} {q : Table} {as : List Alert} (hi : Inv h q as) (s : Source) :
    GoMap.has q s = active as s := by
  rw [Bool.eq_iff_iff, active_iff]
  constructor
  · intro hh
    obtain ⟨t, ht⟩ := Option.isSome_iff_exists.1 hh
    obtain ⟨sc, p, hp⟩ := exists_get (hi.full s t ht)
    refine ⟨sc, by simp, ?_⟩
    rw [← hi.fir, entry, ht]
    simp [hp]
  · rintro ⟨sc, _, hf⟩
    rw [← hi.fir] at hf
    unfold entry at hf
    unfold GoMap.has
    cases hg : GoMap.get q s with
    | none => rw [hg] at hf; cases hf
    | some t => rfl

/-- What `Push` does, in terms of what fires. -/
theorem push_spec {h : Heap} {q : Table} {as : List Alert} (hi : Inv h q as) (r : Nat) :
    Inv h (push h q r).1 (as ++ [h r]) ∧
    (push h q r).2 =
      match (h r).info.status with
      | .firing => (if active as (h r).source then [] else [.new (h r).source]) ++
          (if fires as (h r).source (h r).info.syscall then [] else [.add (h r).source (h r).info])
      | .resolved => if fires as (h r).source (h r).info.syscall then
          .del (h r).source (h r).info ::
            (if active as (h r).source [(h r).info.syscall] then [] else [.drop (h r).source])
        else []
      | .unknown => [] := by
  generalize ha : h r = a
  have hfs := fun s sc => fires_snoc as a s sc
  unfold push
  simp only [ha]
  cases hst : a.info.status with
  | unknown =>
    simp only [and_true]
    refine ⟨hi.full, hi.val, ?_⟩
    intro s sc
    rw [hfs, if_neg (by unfold concerns; simp [hst])]; exact hi.fir s sc
  | firing =>
    simp only
    have hget : ∀ sc, GoMap.get ((GoMap.get q a.source).getD []) sc = entry q a.source sc := by
      intro sc; unfold entry; cases GoMap.get q a.source <;> rfl
    have hhas : GoMap.has ((GoMap.get q a.source).getD []) a.info.syscall = fires as a.source a.info.syscall := by
      unfold GoMap.has; rw [hget, hi.fir]
    rw [hhas, has_iff hi]
    cases hf : fires as a.source a.info.syscall with
    | true =>
      simp only [if_true, List.append_nil]
      refine ⟨⟨hi.full, hi.val, ?_⟩, by cases active as a.source <;> rfl⟩
      intro s sc
      rw [hfs, hi.fir]
      by_cases hc : concerns a s sc
      · rw [if_pos hc, hst, ← hc.1, ← hc.2.1, hf]; rfl
      · rw [if_neg hc]
    | false =>
      simp only [Bool.false_eq_true, if_false]
      refine ⟨⟨?_, ?_, ?_⟩, by cases active as a.source <;> rfl⟩
      · intro s t ht
        rw [GoMap.get_set] at ht
        split at ht
        · injection ht with ht; rw [← ht]; exact nonempty_of_set _ _ _
        · exact hi.full s t ht
      · intro s sc p hp
        rw [entry_set] at hp
        split at hp
        · rw [GoMap.get_set] at hp
          split at hp
          · rename_i hsc
            injection hp with hp
            rw [← hp, ha]; exact ⟨hsc, hst⟩
          · rename_i hs _
            rw [hget, hs] at hp
            exact hi.val s sc p hp
        · exact hi.val s sc p hp
      · intro s sc
        rw [hfs, entry_set]
        by_cases hs : a.source = s
        · rw [if_pos hs, GoMap.get_set]
          by_cases hsc : a.info.syscall = sc
          · rw [if_pos hsc, if_pos ⟨hs, hsc, by rw [hst]; simp⟩, hst]; rfl
          · rw [if_neg hsc, if_neg (fun hc => hsc hc.2.1), hget, hs]; exact hi.fir s sc
        · rw [if_neg hs, if_neg (fun hc => hs hc.1)]; exact hi.fir s sc
  | resolved =>
    simp only
    cases hq : GoMap.get q a.source with
    | none =>
      have he : ∀ sc, entry q a.source sc = none := by intro sc; unfold entry; rw [hq]; rfl
      have hf : fires as a.source a.info.syscall = false := by rw [← hi.fir, he]; rfl
      simp only [hf, Bool.false_eq_true, if_false, and_true]
      refine ⟨hi.full, hi.val, ?_⟩
      intro s sc
      rw [hfs, hi.fir]
      by_cases hc : concerns a s sc
      · rw [if_pos hc, hst, ← hc.1, ← hc.2.1, hf]; rfl
      · rw [if_neg hc]
    | some tbl =>
      have he : ∀ sc, entry q a.source sc = GoMap.get tbl sc := by intro sc; unfold entry; rw [hq]; rfl
      simp only
      cases ht : GoMap.get tbl a.info.syscall with
      | none =>
        have hf : fires as a.source a.info.syscall = false := by rw [← hi.fir, he, ht]; rfl
        simp only [hf, Bool.false_eq_true, if_false, and_true]
        refine ⟨hi.full, hi.val, ?_⟩
        intro s sc
        rw [hfs, hi.fir]
        by_cases hc : concerns a s sc
        · rw [if_pos hc, hst, ← hc.1, ← hc.2.1, hf]; rfl
        · rw [if_neg hc]
      | some p =>
        have hf : fires as a.source a.info.syscall = true := by rw [← hi.fir, he, ht]; rfl
        obtain ⟨v1, v2⟩ := hi.val a.source a.info.syscall p (by rw [he]; exact ht)
        simp only [hf, if_true, v1, v2, ne_eq, reduceCtorEq, not_false_eq_true]
        have hother : ∀ sc, GoMap.get (GoMap.del tbl a.info.syscall) sc =
            if a.info.syscall = sc then none else entry q a.source sc := by
          intro sc; rw [GoMap.get_del, he]
        have hlen : (GoMap.del tbl a.info.syscall).length = 0 ↔ active as a.source [a.info.syscall] = false := by
          rw [← Bool.not_eq_true, active_iff]
          constructor
          · rintro h0 ⟨sc, hne, hfi⟩
            rw [List.length_eq_zero_iff] at h0
            have h1 := hother sc
            rw [h0, if_neg (fun e => hne (by simp [e]))] at h1
            rw [← hi.fir, ← h1] at hfi
            cases hfi
          · intro h0
            rw [List.length_eq_zero_iff]
            apply Classical.byContradiction
            intro hne
            obtain ⟨sc, v, hv⟩ := exists_get hne
            rw [hother] at hv
            split at hv
            · cases hv
            · rename_i hx
              exact h0 ⟨sc, by simpa using fun e => hx e.symm, by rw [← hi.fir, hv]; rfl⟩
        have hnew : ∀ q' : Table, (∀ s sc, entry q' s sc = if a.source = s then
              (if a.info.syscall = sc then none else entry q s sc) else entry q s sc) →
            (∀ s t, GoMap.get q' s = some t → t ≠ []) → Inv h q' (as ++ [a]) := by
          intro q' hq' hful
          refine ⟨hful, ?_, ?_⟩
          · intro s sc p hp
            rw [hq'] at hp
            split at hp
            · split at hp
              · cases hp
              · exact hi.val s sc p hp
            · exact hi.val s sc p hp
          · intro s sc
            rw [hfs, hq']
            by_cases hs : a.source = s
            · rw [if_pos hs]
              by_cases hsc : a.info.syscall = sc
              · rw [if_pos hsc, if_pos ⟨hs, hsc, by rw [hst]; simp⟩, hst]; rfl
              · rw [if_neg hsc, if_neg (fun hc => hsc hc.2.1)]; exact hi.fir s sc
            · rw [if_neg hs, if_neg (fun hc => hs hc.1)]; exact hi.fir s sc
        by_cases hl : (GoMap.del tbl a.info.syscall).length = 0
        · rw [if_pos hl, hlen.1 hl]
          refine ⟨hnew _ ?_ ?_, rfl⟩
          · intro s sc
            rw [entry_del]
            by_cases hs : a.source = s
            · rw [if_pos hs, if_pos hs]
              have h1 := hother sc
              rw [List.length_eq_zero_iff.1 hl, hs] at h1
              exact h1
            · rw [if_neg hs, if_neg hs]
          · intro s t hx
            rw [GoMap.get_del] at hx
            split at hx
            · cases hx
            · exact hi.full s t hx
        · rw [if_neg hl]
          have hact : active as a.source [a.info.syscall] = true := by
            cases hx : active as a.source [a.info.syscall] with
            | true => rfl
            | false => exact absurd (hlen.2 hx) hl
          rw [hact]
          refine ⟨hnew _ ?_ ?_, rfl⟩
          · intro s sc
            rw [entry_set]
            by_cases hs : a.source = s
            · rw [if_pos hs, if_pos hs, hother, hs]
            · rw [if_neg hs, if_neg hs]
          · intro s t hx
            rw [GoMap.get_set] at hx
            split at hx
            · injection hx with hx
              intro h0
              rw [h0] at hx
              exact hl (by rw [hx]; rfl)
            · exact hi.full s t hx

theorem untouched_append : ∀ (a b : List Op), Untouched (a ++ b) → Untouched a ∧ Untouched b ∧
    ∀ r, .push r ∈ a → ∀ x, .write r x ∉ b := by
  intro a
  induction a with
  | nil => intro b h; exact ⟨trivial, h, by simp⟩
  | cons o os ih =>
    intro b h
    cases o with
    | write r x =>
      obtain ⟨h1, h2, h3⟩ := ih b h
      exact ⟨h1, h2, fun r hr => h3 r (by simpa using hr)⟩
    | push r =>
      obtain ⟨h0, h⟩ := h
      obtain ⟨h1, h2, h3⟩ := ih b h
      refine ⟨⟨fun a ha => h0 a (by simp [ha]), h1⟩, h2, ?_⟩
      intro r' hr'
      rw [List.mem_cons] at hr'
      rcases hr' with hr' | hr'
      · injection hr' with hr'; subst hr'; exact fun x hx => h0 x (by simp [hx])
      · exact h3 r' hr'

theorem run_append : ∀ (a b : List Op) (s : State),
    run s (a ++ b) = ((run (run s a).1 b).1, (run s a).2 ++ (run (run s a).1 b).2) := by
  intro a
  induction a with
  | nil => intro b s; simp [run]
  | cons o os ih => intro b s; simp [run, ih]

theorem pushed_append : ∀ (a b : List Op) (s : State),
    pushed s.heap (a ++ b) = pushed s.heap a ++ pushed (run s a).1.heap b := by
  intro a
  induction a with
  | nil => intro b s; rfl
  | cons o os ih =>
    intro b s
    cases o with
    | write r x => exact ih b (step s (.write r x)).1
    | push r =>
      simp only [List.cons_append, pushed, run]
      exact congrArg _ (ih b (step s (.push r)).1)

/-- Pointers in the table come from pushes. -/
theorem entry_pushed (heap : Heap) (ops : List Op) (s : Source) (sc : String) (p : Nat)
    (h : entry (run (init heap) ops).1.q s sc = some p) : .push p ∈ ops := by
  induction ops using Swoll.ListX.snoc_induction with
  | h0 => cases h
  | h1 ops o ih =>
    rw [run_append] at h
    cases o with
    | write r x => exact List.mem_append_left _ (ih h)
    | push r =>
      simp only [run, step] at h
      unfold push at h
      dsimp only at h
      split at h
      · split at h
        · exact List.mem_append_left _ (ih h)
        · rw [entry_set] at h
          split at h
          · rw [GoMap.get_set] at h
            split at h
            · injection h with h; subst h; simp
            · rename_i hs _
              refine List.mem_append_left _ (ih ?_)
              rw [← h, ← hs]; unfold entry
              cases GoMap.get (run (init heap) ops).1.q ((run (init heap) ops).1.heap r).source <;> rfl
          · exact List.mem_append_left _ (ih h)
      · split at h
        · exact List.mem_append_left _ (ih h)
        · rename_i tbl htbl
          split at h
          · exact List.mem_append_left _ (ih h)
          · split at h
            · rw [entry_del] at h
              split at h
              · cases h
              · exact List.mem_append_left _ (ih h)
            · rw [entry_set] at h
              split at h
              · rename_i hs
                rw [GoMap.get_del] at h
                split at h
                · cases h
                · refine List.mem_append_left _ (ih ?_)
                  rw [← h, ← hs]; unfold entry; rw [htbl]; rfl
              · exact List.mem_append_left _ (ih h)
      · exact List.mem_append_left _ (ih h)

/-- The invariant of every history that respects the contract. -/
theorem inv_run (heap : Heap) (ops : List Op) (hu : Untouched ops) :
    Inv (run (init heap) ops).1.heap (run (init heap) ops).1.q (pushed heap ops) := by
  induction ops using Swoll.ListX.snoc_induction with
  | h0 => exact inv_nil heap
  | h1 ops o ih =>
    obtain ⟨h1, _, h3⟩ := untouched_append ops [o] hu
    have hi := ih h1
    rw [run_append, show heap = (init heap).heap from rfl, pushed_append]
    cases o with
    | write r x =>
      simp only [run, step, pushed, List.append_nil]
      refine ⟨hi.full, ?_, hi.fir⟩
      intro s sc p hp
      have hne : p ≠ r := by
        intro e
        exact h3 p (entry_pushed heap ops s sc p hp) x (by rw [e]; simp)
      simp only [hne, if_false]
      exact hi.val s sc p hp
    | push r =>
      simp only [run, step, pushed]
      exact (push_spec hi r).1

/-- A mirror that agrees with what fires. -/
def Agrees (m : List (Source × List String)) (as : List Alert) : Prop :=
  (∀ s, GoMap.has m s = active as s) ∧
  ∀ s l, GoMap.get m s = some l → ∀ sc, sc ∈ l ↔ fires as s sc = true

theorem active_snoc (as : List Alert) (a : Alert) (s : Source) (h : a.source ≠ s ∨ a.info.status = .unknown) :
    (∀ sc, fires (as ++ [a]) s sc = fires as s sc) ∧ active (as ++ [a]) s = active as s := by
  have hf : ∀ sc, fires (as ++ [a]) s sc = fires as s sc := by
    intro sc
    rw [fires_snoc, if_neg]
    rintro ⟨h1, _, h3⟩
    rcases h with h | h
    · exact h h1
    · exact h3 h
  refine ⟨hf, ?_⟩
  rw [Bool.eq_iff_iff, active_iff, active_iff]
  simp [hf]

/-- Callbacks of one push, seen by the mirror. -/
theorem mirror_push {h : Heap} {q : Table} {as : List Alert} (hi : Inv h q as) (r : Nat)
    (m : List (Source × List String)) (hm : Agrees m as) :
    ∃ m', mirrorAll m (push h q r).2 = some m' ∧ Agrees m' (as ++ [h r]) := by
  rw [(push_spec hi r).2]
  generalize h r = a
  obtain ⟨hm1, hm2⟩ := hm
  -- it is enough to look at the source of the alert
  have frame : ∀ m' : List (Source × List String), (∀ s, a.source ≠ s → GoMap.get m' s = GoMap.get m s) →
      (GoMap.has m' a.source = active (as ++ [a]) a.source) →
      (∀ l, GoMap.get m' a.source = some l → ∀ sc, sc ∈ l ↔ fires (as ++ [a]) a.source sc = true) →
      Agrees m' (as ++ [a]) := by
    intro m' h1 h2 h3
    constructor
    · intro s
      by_cases hs : a.source = s
      · rw [← hs]; exact h2
      · rw [(active_snoc as a s (Or.inl hs)).2, ← hm1]; unfold GoMap.has; rw [h1 s hs]
    · intro s l hl sc
      by_cases hs : a.source = s
      · subst hs; exact h3 l hl sc
      · rw [(active_snoc as a s (Or.inl hs)).1]; exact hm2 s l (by rw [← h1 s hs]; exact hl) sc
  have hfs : ∀ sc, fires (as ++ [a]) a.source sc =
      if a.info.syscall = sc ∧ a.info.status ≠ .unknown then decide (a.info.status = .firing) else fires as a.source sc := by
    intro sc
    rw [fires_snoc]
    unfold concerns
    simp only [true_and]
  cases hst : a.info.status with
  | unknown =>
    refine ⟨m, rfl, ?_⟩
    constructor
    · intro s; rw [(active_snoc as a s (Or.inr hst)).2]; exact hm1 s
    · intro s l hl sc; rw [(active_snoc as a s (Or.inr hst)).1]; exact hm2 s l hl sc
  | firing =>
    simp only
    have hnowf : ∀ sc, fires (as ++ [a]) a.source sc = true ↔ (sc = a.info.syscall ∨ fires as a.source sc = true) := by
      intro sc
      rw [hfs, hst]
      by_cases e : a.info.syscall = sc
      · simp [e]
      · have e' : sc ≠ a.info.syscall := fun h => e h.symm
        simp [e, e']
    have hnow : active (as ++ [a]) a.source = true := by
      rw [active_iff]; exact ⟨a.info.syscall, by simp, (hnowf _).2 (Or.inl rfl)⟩
    cases hact : active as a.source with
    | true =>
      have hx := hm1 a.source
      rw [hact] at hx
      obtain ⟨l, hl⟩ := Option.isSome_iff_exists.1 hx
      simp only [if_true, List.nil_append]
      cases hf : fires as a.source a.info.syscall with
      | true =>
        refine ⟨m, rfl, frame m (fun _ _ => rfl) (by rw [hnow, hx]) ?_⟩
        intro l' hl' sc
        rw [hm2 _ _ hl', hnowf]
        constructor
        · exact Or.inr
        · rintro (rfl | h)
          · exact hf
          · exact h
      | false =>
        have hnl : a.info.syscall ∉ l := by
          rw [hm2 _ _ hl]; simp [hf]
        simp only [Bool.false_eq_true, if_false, mirrorAll, mirror, hl, hnl]
        refine ⟨_, rfl, frame _ (fun s hs => GoMap.get_set_other _ _ hs) ?_ ?_⟩
        · rw [hnow]; unfold GoMap.has; rw [GoMap.get_set_same]; rfl
        · intro l' hl' sc
          rw [GoMap.get_set_same] at hl'
          injection hl' with hl'; subst hl'
          rw [List.mem_cons, hm2 _ _ hl, hnowf]
    | false =>
      have hx := hm1 a.source
      rw [hact] at hx
      have hno : ∀ sc, fires as a.source sc = false := by
        intro sc
        cases hc : fires as a.source sc with
        | false => rfl
        | true =>
          have : active as a.source = true := (active_iff _ _ _).2 ⟨sc, by simp, hc⟩
          rw [hact] at this; cases this
      simp only [Bool.false_eq_true, if_false, hno, List.cons_append, List.nil_append, mirrorAll, mirror, hx,
        GoMap.get_set_same, List.not_mem_nil]
      refine ⟨_, rfl, frame _ ?_ ?_ ?_⟩
      · intro s hs; rw [GoMap.get_set_other _ _ hs, GoMap.get_set_other _ _ hs]
      · rw [hnow]; unfold GoMap.has; rw [GoMap.get_set_same]; rfl
      · intro l' hl' sc
        rw [GoMap.get_set_same] at hl'
        injection hl' with hl'; subst hl'
        rw [List.mem_singleton, hnowf, hno]; simp
  | resolved =>
    simp only
    have hnowf : ∀ sc, fires (as ++ [a]) a.source sc = true ↔ (sc ≠ a.info.syscall ∧ fires as a.source sc = true) := by
      intro sc
      rw [hfs, hst]
      by_cases e : a.info.syscall = sc
      · simp [e]
      · have e' : sc ≠ a.info.syscall := fun h => e h.symm
        simp [e, e']
    cases hf : fires as a.source a.info.syscall with
    | false =>
      simp only [Bool.false_eq_true, if_false]
      have hsame : ∀ sc, fires (as ++ [a]) a.source sc = fires as a.source sc := by
        intro sc
        rw [Bool.eq_iff_iff, hnowf]
        constructor
        · exact And.right
        · intro h; exact ⟨fun e => (by rw [e, hf] at h; cases h), h⟩
      refine ⟨m, rfl, frame m (fun _ _ => rfl) ?_ ?_⟩
      · rw [hm1, Bool.eq_iff_iff, active_iff, active_iff]; simp [hsame]
      · intro l hl sc; rw [hsame]; exact hm2 _ _ hl sc
    | true =>
      have hx : GoMap.has m a.source = true := by
        rw [hm1, active_iff]; exact ⟨_, by simp, hf⟩
      obtain ⟨l, hl⟩ := Option.isSome_iff_exists.1 hx
      have hml : a.info.syscall ∈ l := (hm2 _ _ hl _).2 hf
      simp only [if_true, mirrorAll, mirror, hl, hml]
      cases hact : active as a.source [a.info.syscall] with
      | true =>
        simp only [if_true, mirrorAll]
        obtain ⟨sc0, h0, h1⟩ := (active_iff _ _ _).1 hact
        have h0' : sc0 ≠ a.info.syscall := by simpa using h0
        refine ⟨_, rfl, frame _ (fun s hs => GoMap.get_set_other _ _ hs) ?_ ?_⟩
        · have : active (as ++ [a]) a.source = true := by
            rw [active_iff]; exact ⟨sc0, by simp, (hnowf sc0).2 ⟨h0', h1⟩⟩
          rw [this]; unfold GoMap.has; rw [GoMap.get_set_same]; rfl
        · intro l' hl' sc
          rw [GoMap.get_set_same] at hl'
          injection hl' with hl'; subst hl'
          rw [List.mem_filter, hnowf, hm2 _ _ hl]
          simp [and_comm]
      | false =>
        have hno : ∀ sc, sc ≠ a.info.syscall → fires as a.source sc = false := by
          intro sc hne
          cases hc : fires as a.source sc with
          | false => rfl
          | true =>
            have : active as a.source [a.info.syscall] = true := (active_iff _ _ _).2 ⟨sc, by simpa using hne, hc⟩
            rw [hact] at this; cases this
        have hemp : l.filter (fun x => decide (x ≠ a.info.syscall)) = [] := by
          rw [List.filter_eq_nil_iff]
          intro x hxl hd
          have h1 := (hm2 _ _ hl x).1 hxl
          rw [hno x (by simpa using hd)] at h1; cases h1
        simp only [Bool.false_eq_true, if_false, mirrorAll, mirror, GoMap.get_set_same, hemp, if_true]
        have hnot : active (as ++ [a]) a.source = false := by
          rw [← Bool.not_eq_true, active_iff]
          rintro ⟨sc, _, h⟩
          obtain ⟨h1, h2⟩ := (hnowf sc).1 h
          rw [hno sc h1] at h2; cases h2
        refine ⟨_, rfl, frame _ ?_ ?_ ?_⟩
        · intro s hs; rw [GoMap.get_del_other _ hs, GoMap.get_set_other _ _ hs]
        · rw [hnot]; unfold GoMap.has; rw [GoMap.get_del_same]; rfl
        · intro l' hl'; rw [GoMap.get_del_same] at hl'; cases hl'

theorem mirrorAll_append : ∀ (a b : List Call) (m : List (Source × List String)),
    mirrorAll m (a ++ b) = (mirrorAll m a).bind (fun m' => mirrorAll m' b) := by
  intro a
  induction a with
  | nil => intro b m; rfl
  | cons c cs ih =>
    intro b m
    simp only [List.cons_append, mirrorAll]
    cases mirror m c with
    | none => rfl
    | some m1 => exact ih b m1

end Swoll.Lemmas.Alert
