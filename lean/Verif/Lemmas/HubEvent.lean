import Verif.Lemmas.Hub
namespace Swoll.Lemmas.Hub
open Swoll.Filter hiding Op step run
open Swoll Swoll.Syscalls Swoll.Hub Swoll.Spec.Hub

/-! ### The lowest-rate context -/

theorem lowestFrom_spec : ∀ (cs : List Ctx) (pre : List Ctx) (mid : List Ctx) (m : Ctx),
    (∀ x ∈ pre, m.job.rate < x.job.rate) → (∀ x ∈ mid, m.job.rate ≤ x.job.rate) →
    ∃ pre' post', pre ++ m :: mid ++ cs = pre' ++ lowestFrom m cs :: post' ∧
      (∀ x ∈ pre', (lowestFrom m cs).job.rate < x.job.rate) ∧
      (∀ x ∈ post', (lowestFrom m cs).job.rate ≤ x.job.rate) := by
  intro cs
  induction cs with
  | nil =>
    intro pre mid m h1 h2
    exact ⟨pre, mid, by simp [lowestFrom], h1, h2⟩
  | cons c cs ih =>
    intro pre mid m h1 h2
    unfold lowestFrom
    by_cases h : c.job.rate < m.job.rate
    · rw [if_pos h]
      obtain ⟨p, q, e, a, b⟩ := ih (pre ++ m :: mid) [] c
        (by
          intro x hx
          rw [List.mem_append, List.mem_cons] at hx
          rcases hx with hx | rfl | hx
          · have := h1 x hx; omega
          · exact h
          · have := h2 x hx; omega)
        (by simp)
      exact ⟨p, q, by rw [← e]; simp, a, b⟩
    · rw [if_neg h]
      obtain ⟨p, q, e, a, b⟩ := ih pre (mid ++ [c]) m h1
        (by
          intro x hx
          rw [List.mem_append, List.mem_singleton] at hx
          rcases hx with hx | rfl
          · exact h2 x hx
          · omega)
      exact ⟨p, q, by rw [← e]; simp, a, b⟩

theorem lowestFrom_head (c : Ctx) (cs : List Ctx) : lowestFrom c (c :: cs) = lowestFrom c cs := by
  rw [lowestFrom, if_neg (by omega)]

/-- The lowest context of a pair, as the event path sees it. -/
theorem findLowest_spec {h : Hub} {R : List Ctx} (hi : Inv h R) (ns nr : Int) :
    (pairOf R ns nr = [] ∧ findLowestSampleJob h ns nr = some none) ∨
    (∃ m, findLowestSampleJob h ns nr = some (some m) ∧ ∃ pre post, pairOf R ns nr = pre ++ m :: post ∧
      (∀ x ∈ pre, m.job.rate < x.job.rate) ∧ (∀ x ∈ post, m.job.rate ≤ x.job.rate)) := by
  unfold findLowestSampleJob
  rw [find_eq, hi.ns.find]
  cases hl : pairOf R ns nr with
  | nil => left; exact ⟨rfl, rfl⟩
  | cons c cs =>
    right
    refine ⟨lowestFrom c (c :: cs), rfl, ?_⟩
    rw [lowestFrom_head]
    obtain ⟨p, q, e, a, b⟩ := lowestFrom_spec cs [] [] c (by simp) (by simp)
    exact ⟨p, q, by simpa using e, a, b⟩

/-! ### Delivery -/

/-- Two states that differ only in the sample counters. -/
structure SameIdx (h h' : Hub) : Prop where
  nsmap : h'.nsmap = h.nsmap
  idmap : h'.idmap = h.idmap
  maps : h'.maps = h.maps
  next : h'.next = h.next

theorem SameIdx.refl (h : Hub) : SameIdx h h := ⟨rfl, rfl, rfl, rfl⟩
theorem SameIdx.trans {a b c : Hub} (h : SameIdx a b) (k : SameIdx b c) : SameIdx a c :=
  ⟨k.nsmap.trans h.nsmap, k.idmap.trans h.idmap, k.maps.trans h.maps, k.next.trans h.next⟩

theorem SameIdx.inv {h h' : Hub} (hs : SameIdx h h') {R : List Ctx} (hi : Inv h R) : Inv h' R :=
  ⟨hs.nsmap ▸ hi.ns, fun id => by rw [hs.idmap]; exact hi.id id, hi.nodup,
    fun c hc => by rw [hs.next]; exact hi.fresh c hc⟩

theorem findLowest_same {h h' : Hub} (hs : SameIdx h h') (ns nr : Int) :
    findLowestSampleJob h' ns nr = findLowestSampleJob h ns nr := by
  unfold findLowestSampleJob findJobList
  rw [hs.nsmap]

/-- The divisor applied to the counter of a sampled context. -/
def period (m c : Ctx) : Int :=
  if m.job.ref = c.job.ref then c.job.rate else c.job.rate - m.job.rate

/-- Counter of a context's job after it was handed the event. -/
def bump (h : Hub) (c : Ctx) : Nat → Int :=
  fun r => if r = c.job.ref ∧ c.job.rate > 0 then h.sampled r + 1 else h.sampled r

theorem writeEvent_spec (h : Hub) (c m : Ctx) (ns nr : Int)
    (hm : findLowestSampleJob h ns nr = some (some m)) :
    writeEvent h c ns nr =
      if c.job.rate > 0 ∧ period m c = 0 then none
      else some ({ h with sampled := bump h c },
        if c.job.rate > 0 → period m c ∣ h.sampled c.job.ref + 1 then [.jobStream c.job.id] else []) := by
  unfold writeEvent
  by_cases hr : c.job.rate > 0
  · simp only [if_pos hr]
    have hsame : SameIdx h { h with sampled := fun r => if r = c.job.ref then h.sampled c.job.ref + 1 else h.sampled r } :=
      ⟨rfl, rfl, rfl, rfl⟩
    rw [findLowest_same hsame, hm]
    dsimp only
    have hb : (fun r => if r = c.job.ref then h.sampled c.job.ref + 1 else h.sampled r) = bump h c := by
      funext r
      unfold bump
      by_cases hx : r = c.job.ref
      · subst hx; simp [hr]
      · simp [hx]
    rw [hb]
    unfold period
    by_cases hj : m.job.ref = c.job.ref
    · simp only [if_pos hj]
      have h0 : ¬ c.job.rate = 0 := by omega
      simp only [hr, h0, and_false, if_false, true_imp_iff, Int.dvd_iff_tmod_eq_zero]
    · simp only [if_neg hj]
      by_cases h0 : c.job.rate - m.job.rate = 0
      · rw [if_pos h0, if_pos ⟨hr, h0⟩]
      · simp only [hr, h0, and_false, if_false, true_imp_iff, Int.dvd_iff_tmod_eq_zero]
  · rw [if_neg hr, if_neg (fun x => hr x.1), if_pos (fun x => absurd x hr)]
    have hb : bump h c = h.sampled := by
      funext r; unfold bump; rw [if_neg (fun x => hr x.2)]
    rw [hb]

/-- Number of sampled contexts of a job. -/
def hits (l : List Ctx) (ref : Nat) : Nat :=
  (l.filter (fun c => decide (c.job.ref = ref ∧ c.job.rate > 0))).length

theorem writeAll_spec (ns nr : Int) (m : Ctx) : ∀ (l : List Ctx) (h : Hub),
    findLowestSampleJob h ns nr = some (some m) →
    ((∃ c ∈ l, c.job.rate > 0 ∧ period m c = 0) → writeAll ns nr h l = none) ∧
    ((∀ c ∈ l, ¬ (c.job.rate > 0 ∧ period m c = 0)) → ∃ h' o, writeAll ns nr h l = some (h', o) ∧
      SameIdx h h' ∧ (∀ ref, h'.sampled ref = h.sampled ref + hits l ref) ∧
      o.Sublist (l.map (fun c => Out.jobStream c.job.id)) ∧
      (∀ id, (∀ c ∈ l, c.job.id = id → ¬ c.job.rate > 0) →
        o.count (.jobStream id) = (l.filter (fun c => decide (c.job.id = id))).length)) := by
  intro l
  induction l with
  | nil =>
    intro h _
    refine ⟨by simp, fun _ => ⟨h, [], rfl, SameIdx.refl h, by simp [hits], by simp, by simp⟩⟩
  | cons c cs ih =>
    intro h hm
    have hw := writeEvent_spec h c m ns nr hm
    by_cases hc : c.job.rate > 0 ∧ period m c = 0
    · rw [if_pos hc] at hw
      refine ⟨fun _ => ?_, fun hall => absurd hc (hall c (by simp))⟩
      unfold writeAll; rw [hw]
    · rw [if_neg hc] at hw
      have hs1 : SameIdx h { h with sampled := bump h c } := ⟨rfl, rfl, rfl, rfl⟩
      obtain ⟨i1, i2⟩ := ih { h with sampled := bump h c } (by rw [findLowest_same hs1]; exact hm)
      constructor
      · rintro ⟨x, hx, hbad⟩
        rw [List.mem_cons] at hx
        rcases hx with rfl | hx
        · exact absurd hbad hc
        · unfold writeAll; rw [hw]; dsimp only
          rw [i1 ⟨x, hx, hbad⟩]
      · intro hall
        obtain ⟨h', o, e, s, k, sub, cnt⟩ := i2 (fun x hx => hall x (by simp [hx]))
        unfold writeAll; rw [hw]; dsimp only
        rw [e]
        refine ⟨h', _, rfl, hs1.trans s, ?_, ?_, ?_⟩
        · intro ref
          rw [k]
          show bump h c ref + _ = _
          unfold bump hits
          simp only [List.filter_cons]
          by_cases hx : c.job.ref = ref ∧ c.job.rate > 0
          · have hd : decide (c.job.ref = ref ∧ c.job.rate > 0) = true := decide_eq_true hx
            rw [if_pos ⟨hx.1.symm, hx.2⟩, hd, if_pos rfl, List.length_cons]
            push_cast; omega
          · have hd : decide (c.job.ref = ref ∧ c.job.rate > 0) = false := decide_eq_false hx
            rw [if_neg (fun y => hx ⟨y.1.symm, y.2⟩), hd]; rfl
        · rw [List.map_cons]
          by_cases hp : (c.job.rate > 0 → period m c ∣ h.sampled c.job.ref + 1)
          · rw [if_pos hp]; exact List.Sublist.cons_cons _ sub
          · rw [if_neg hp]; exact List.Sublist.cons _ sub
        · intro id hid
          have hcs := cnt id (fun x hx => hid x (by simp [hx]))
          rw [List.count_append, hcs, List.filter_cons]
          by_cases hx : c.job.id = id
          · have hr := hid c (by simp) hx
            rw [if_pos (fun y => absurd y hr), hx]
            simp; omega
          · have : (if (c.job.rate > 0 → period m c ∣ h.sampled c.job.ref + 1) then [Out.jobStream c.job.id] else []).count (.jobStream id) = 0 := by
              split
              · rw [List.count_eq_zero]; simp [Ne.symm hx]
              · rfl
            rw [this]; simp [hx]

theorem handleEvent_same {h h' : Hub} {R : List Ctx} (hi : Inv h R) {e : Event} {o : List Out}
    (he : handleEvent h e = some (h', o)) : SameIdx h h' := by
  unfold handleEvent at he
  split at he
  · rw [find_eq, hi.ns.find] at he
    split at he
    · injection he with he; injection he with he _; rw [← he]; exact SameIdx.refl h
    · rename_i l hl
      obtain ⟨rfl, hne⟩ := ne_some hl
      rcases findLowest_spec hi e.ns e.nr with ⟨hnil, _⟩ | ⟨m, hm, _⟩
      · exact absurd hnil hne
      · obtain ⟨w1, w2⟩ := writeAll_spec e.ns e.nr m (pairOf R e.ns e.nr) h hm
        by_cases hb : ∃ c ∈ pairOf R e.ns e.nr, c.job.rate > 0 ∧ period m c = 0
        · rw [w1 hb] at he; cases he
        · obtain ⟨h1, o1, e1, s, _⟩ := w2 (fun c hc hx => hb ⟨c, hc, hx⟩)
          rw [e1] at he
          injection he with he; injection he with he _; rw [← he]; exact s
  · injection he with he; injection he with he _; rw [← he]; exact SameIdx.refl h

theorem swap_same {tbl : Syscalls} {h h' : Hub} {rate ns nr : Int} (hs : swapSample tbl h rate ns nr = some h') :
    h'.nsmap = h.nsmap ∧ h'.idmap = h.idmap ∧ h'.next = h.next ∧ h'.sampled = h.sampled := by
  unfold swapSample at hs
  split at hs
  · cases hs
  · injection hs with hs; subst hs; exact ⟨rfl, rfl, rfl, rfl⟩
  · split at hs <;> (injection hs with hs; subst hs; exact ⟨rfl, rfl, rfl, rfl⟩)

/-! ### Histories -/

theorem inv_step (tbl : Syscalls) {h h' : Hub} {R : List Ctx} (hi : Inv h R) {op : Op} {b : Bool} {o : List Out}
    (hs : step tbl h op = some (h', b, o)) :
    ∃ R', Inv h' R' ∧ R'.map reg = regStep (R.map reg) op ∧
      (match op with
       | .push _ _ _ => ∃ c, R' = R ++ [c]
       | .delete id => R' = R.filter (fun c => decide (c.job.id ≠ id))
       | _ => R' = R) := by
  cases op with
  | push j ns nr =>
    simp only [step, Option.some.injEq, Prod.mk.injEq] at hs
    refine ⟨_, hs.1 ▸ inv_push hi j ns nr, by simp [reg, regStep], _, rfl⟩
  | swap rate ns nr =>
    simp only [step, Option.map_eq_some_iff, Prod.mk.injEq] at hs
    obtain ⟨x, hx, rfl, _⟩ := hs
    obtain ⟨a, b, c, _⟩ := swap_same hx
    exact ⟨R, ⟨a ▸ hi.ns, fun id => by rw [b]; exact hi.id id, hi.nodup, fun y hy => by rw [c]; exact hi.fresh y hy⟩, rfl, rfl⟩
  | filter o =>
    simp only [step, Option.some.injEq, Prod.mk.injEq] at hs
    obtain ⟨rfl, _⟩ := hs
    exact ⟨R, ⟨hi.ns, hi.id, hi.nodup, hi.fresh⟩, rfl, rfl⟩
  | delete id =>
    have hmap : ∀ R : List Ctx, (R.filter (fun c => decide (c.job.id ≠ id))).map reg =
        (R.map reg).filter (fun r => r.job.id ≠ id) := by
      intro R; rw [List.filter_map]; rfl
    rcases delete_spec tbl hi id with ⟨he, hd⟩ | ⟨he, h1, hd, hi1, _⟩
    · simp only [step, hd, Option.some.injEq, Prod.mk.injEq] at hs
      obtain ⟨rfl, _⟩ := hs
      have : R.filter (fun c => decide (c.job.id ≠ id)) = R := by
        rw [List.filter_eq_self]
        intro c hc
        have h1 : c ∉ idOf R id := by rw [he]; simp
        unfold idOf at h1
        rw [List.mem_filter] at h1
        simp only [decide_eq_true_eq]
        intro hx
        exact h1 ⟨hc, by simpa using hx⟩
      exact ⟨_, by rw [this]; exact hi, hmap R, rfl⟩
    · simp only [step, hd, Option.some.injEq, Prod.mk.injEq] at hs
      obtain ⟨rfl, _⟩ := hs
      exact ⟨_, hi1, hmap R, rfl⟩
  | event e =>
    simp only [step, Option.map_eq_some_iff, Prod.mk.injEq] at hs
    obtain ⟨⟨h1, o1⟩, hx, rfl, _⟩ := hs
    exact ⟨R, (handleEvent_same hi hx).inv hi, rfl, rfl⟩

theorem inv_run (tbl : Syscalls) : ∀ (ops : List Op) (h h' : Hub) (R : List Ctx), Inv h R →
    run tbl h ops = some h' → ∃ R', Inv h' R' ∧ R'.map reg = ops.foldl regStep (R.map reg) := by
  intro ops
  induction ops with
  | nil => intro h h' R hi hr; simp only [run, Option.some.injEq] at hr; subst hr; exact ⟨R, hi, rfl⟩
  | cons o os ih =>
    intro h h' R hi hr
    unfold run at hr
    cases hs : step tbl h o with
    | none => rw [hs] at hr; cases hr
    | some r =>
      obtain ⟨h1, b, out⟩ := r
      rw [hs] at hr
      obtain ⟨R1, hi1, e1, _⟩ := inv_step tbl hi hs
      obtain ⟨R2, hi2, e2⟩ := ih h1 h' R1 hi1 hr
      exact ⟨R2, hi2, by rw [e2, e1]; rfl⟩

theorem inv_reach (tbl : Syscalls) {m : KMaps} {ops : List Op} {h : Hub} (hr : run tbl (Hub.init m) ops = some h) :
    ∃ R, Inv h R ∧ R.map reg = registered ops := by
  obtain ⟨R, hi, e⟩ := inv_run tbl ops _ _ [] (inv_init m) hr
  exact ⟨R, hi, e⟩

theorem map_pairOf (R : List Ctx) (ns nr : Int) : (pairOf R ns nr).map reg = ofPair (R.map reg) ns nr := by
  unfold pairOf ofPair; rw [List.filter_map]; rfl

theorem map_idOf (R : List Ctx) (id : String) : (idOf R id).map reg = ofId (R.map reg) id := by
  unfold idOf ofId; rw [List.filter_map]; rfl

end Swoll.Lemmas.Hub
