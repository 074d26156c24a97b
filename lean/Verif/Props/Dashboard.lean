import Verif.Lemmas.Dashboard
import Verif.Props.Views
/-
C159: the dashboard shows every call of what was chosen, once.
-/
namespace Swoll.Props.Dashboard
open Swoll Swoll.Dashboard Swoll.Spec.Dashboard Swoll.Lemmas.Dashboard
open Swoll.JobArgs (Str)
open Swoll.Views (Desc Sample)

/-! ### The panels -/

/-- The matchers a panel may have. -/
def allowed (id : Nat) (m : Meaning) : List Matcher :=
  [re "namespace", re "pod", re "container"] ++
  (match m.outcome with | .any => [] | .ok => [ok] | .failed => [failed]) ++
  (if m.cls then [re "class"] else []) ++ (if m.group then [re "group"] else []) ++
  (if id ∈ oneClass then [eqv "class"] else []) ++ (if id ∈ oneGroup then [eqv "group"] else [])

/-- The matchers a panel must have; those of the panels of one class or group have either form. -/
def has (id : Nat) (m : Meaning) (q : Query) : Bool :=
  q.matchers.contains (re "namespace") && q.matchers.contains (re "pod") && q.matchers.contains (re "container") &&
  (match m.outcome with | .any => true | .ok => q.matchers.contains ok | .failed => q.matchers.contains failed) &&
  (!m.cls || if id ∈ oneClass then q.matchers.contains (eqv "class") else q.matchers.contains (re "class")) &&
  (!m.group || if id ∈ oneGroup then q.matchers.contains (eqv "group") else q.matchers.contains (re "group"))

def fits (id : Nat) (m : Meaning) (q : Query) : Bool :=
  (q.metric = fqName m.desc) && (q.by_ = m.lines.map String.toList) && (q.top = m.room) &&
  (q.matchers.all fun x => (allowed id m).contains x) && has id m q &&
  (!(oneClass.contains id) || m.cls) && (!(oneGroup.contains id) || m.group) && (!(oneGroup.contains id) || oneClass.contains id) &&
  (q.agg = .sum || id = 29) && (!m.group || m.cls)

theorem table {id : Nat} {q : Query} {m : Meaning} (hp : (id, q) ∈ panels) (hm : (id, m) ∈ meanings) : fits id m q = true := by
  have h : (panels.all fun p => meanings.all fun x => p.1 ≠ x.1 || fits x.1 x.2 p.2) = true := by decide +kernel
  have := List.all_eq_true.1 (List.all_eq_true.1 h _ hp) _ hm
  simpa using this

/-- All the panels have a meaning. -/
theorem c159_panels : panels.map (·.1) = meanings.map (·.1) := by decide +kernel

theorem name_inj : ∀ a b : Desc, fqName a = fqName b → a = b
  | .count, .count, _ => rfl
  | .time, .time, _ => rfl
  | .count, .time, h => absurd h (by decide +kernel)
  | .time, .count, h => absurd h (by decide +kernel)

theorem resc_plain : ∀ {v : Str}, Plain v → resc v = v
  | [], _ => rfl
  | c :: v, h => by
    unfold resc
    rw [List.flatMap_cons, show List.flatMap resc1 v = v from resc_plain fun x hx => h x (List.mem_cons_of_mem _ hx)]
    obtain ⟨h1, h2⟩ := h c List.mem_cons_self
    rw [show resc1 c = [c] from if_neg (fun e => e.elim h1 h2)]
    rfl

theorem usual {id : Nat} {m : Meaning} {x : Matcher} (h : x ∈ allowed id m) : Usual x := by
  unfold allowed at h
  simp only [List.mem_append] at h
  rcases h with ((((h | h) | h) | h) | h) | h
  · simp only [List.mem_cons, List.not_mem_nil, or_false] at h
    rcases h with rfl | rfl | rfl <;> exact .inr ⟨_, rfl⟩
  · split at h
    · cases h
    · rw [List.mem_singleton.1 h]; exact .inl ⟨by decide, rfl⟩
    · rw [List.mem_singleton.1 h]; exact .inl ⟨by decide, rfl⟩
  · split at h
    · rw [List.mem_singleton.1 h]; exact .inr ⟨_, rfl⟩
    · cases h
  · split at h
    · rw [List.mem_singleton.1 h]; exact .inr ⟨_, rfl⟩
    · cases h
  · split at h
    · rw [List.mem_singleton.1 h]; exact .inr ⟨_, rfl⟩
    · cases h
  · split at h
    · rw [List.mem_singleton.1 h]; exact .inr ⟨_, rfl⟩
    · cases h

/-- What was chosen of the classes and groups suits a panel of one class, or of one class and group. -/
def Single (id : Nat) (ch : Str → Choice) : Prop :=
  (id ∈ oneClass → ∃ v, ch "class".toList = .one v ∧ Plain v) ∧ (id ∈ oneGroup → ∃ g, ch "group".toList = .one g ∧ Plain g)

theorem re_tests (e : Env) (l : String) (x : Str) : tests e (re l) x = (orEmpty (e.get l.toList)).contains x := rfl

theorem selected {ss : List Series} (hx : Exported ss) {ch : Str → Choice} (hc : ∀ v, CleanChoice (ch v)) {id : Nat} {q : Query}
    {m : Meaning} (hf : fits id m q = true) (h1 : Single id ch) {s : Series} (hs : s ∈ ss) :
    (fqName s.desc = q.metric && q.matchers.all fun x => tests (resolve ss ch) x (s.get x.label)) = wanted m ch s := by
  obtain ⟨-, hr, hr4, hr5⟩ := resolve_facts hx hc
  obtain ⟨r1, r2, r3, r4, r5⟩ := hr s hs
  simp only [fits, Bool.and_eq_true, decide_eq_true_eq, List.all_eq_true] at hf
  obtain ⟨⟨⟨⟨⟨⟨⟨⟨⟨f1, -⟩, -⟩, f4⟩, f5⟩, f6⟩, f7⟩, f8⟩, -⟩, f9⟩ := hf
  have n1 := (hx.named s hs "namespace" (by decide)).1
  have n2 := (hx.named s hs "pod" (by decide)).1
  have n3 := (hx.named s hs "container" (by decide)).1
  have n4 := (hx.named s hs "class" (by decide)).1
  have n5 := (hx.named s hs "group" (by decide)).1
  have tre : ∀ l : String, s.get l.toList ≠ [] → (tests (resolve ss ch) (re l) (s.get l.toList) = true ↔
      s.get l.toList ∈ (resolve ss ch).get l.toList) := by
    intro l hl
    rw [re_tests, List.contains_iff_mem, mem_orEmpty hl]
  -- the panels of one class and of one group
  have teq : ∀ (l : String) (v : Str), (resolve ss ch).get l.toList = [v] → Plain v →
      (tests (resolve ss ch) (eqv l) (s.get l.toList) = true ↔ s.get l.toList ∈ (resolve ss ch).get l.toList) := by
    intro l v hv hp
    show decide (s.get l.toList = bar (((resolve ss ch).get l.toList).map resc)) = true ↔ _
    rw [hv]
    simp [bar, resc_plain hp]
  have tc : id ∈ oneClass → (tests (resolve ss ch) (eqv "class") (s.get "class".toList) = true ↔
      s.get "class".toList ∈ (resolve ss ch).get "class".toList) := by
    intro hi
    obtain ⟨v, hv, hp⟩ := h1.1 hi
    exact teq "class" v (by rw [hr4, hv]; rfl) hp
  have tg : id ∈ oneGroup → (tests (resolve ss ch) (eqv "group") (s.get "group".toList) = true ↔
      s.get "group".toList ∈ (resolve ss ch).get "group".toList) := by
    intro hi
    obtain ⟨v, hv, hp⟩ := h1.2 hi
    exact teq "group" v (by rw [hr5, hv]; rfl) hp
  unfold has at f5
  simp only [Bool.and_eq_true, List.contains_iff_mem] at f5
  obtain ⟨⟨⟨⟨⟨a1, a2⟩, a3⟩, a4⟩, a5⟩, a6⟩ := f5
  rw [Bool.eq_iff_iff, Bool.and_eq_true, List.all_eq_true, decide_eq_true_eq, f1]
  unfold wanted
  simp only [Bool.and_eq_true, decide_eq_true_eq]
  constructor
  · rintro ⟨hd, ha⟩
    have b1 := (tre "namespace" n1).1 (ha _ a1)
    have b2 := (tre "pod" n2).1 (ha _ a2)
    have b3 := (tre "container" n3).1 (ha _ a3)
    have b4 : m.cls = true → s.get "class".toList ∈ (resolve ss ch).get "class".toList := by
      intro hcl
      rw [hcl, Bool.not_true, Bool.false_or] at a5
      split at a5
      · rename_i hi; exact (tc hi).1 (ha _ (List.contains_iff_mem.1 a5))
      · exact (tre "class" n4).1 (ha _ (List.contains_iff_mem.1 a5))
    have b5 : m.group = true → s.get "group".toList ∈ (resolve ss ch).get "group".toList := by
      intro hcl
      rw [hcl, Bool.not_true, Bool.false_or] at a6
      split at a6
      · rename_i hi; exact (tg hi).1 (ha _ (List.contains_iff_mem.1 a6))
      · exact (tre "group" n5).1 (ha _ (List.contains_iff_mem.1 a6))
    refine ⟨⟨⟨⟨⟨⟨name_inj _ _ hd, ?_⟩, r1.1 b1⟩, (r2 b1).1 b2⟩, (r3 b1 b2).1 b3⟩, ?_⟩, ?_⟩
    · cases ho : m.outcome with
      | any => rfl
      | ok => rw [ho] at a4; exact ha _ (List.contains_iff_mem.1 a4)
      | failed => rw [ho] at a4; exact ha _ (List.contains_iff_mem.1 a4)
    · cases hcl : m.cls with
      | false => rfl
      | true => exact r4.1 (b4 hcl)
    · cases hg : m.group with
      | false => rfl
      | true => exact (r5 (b4 (by simpa [hg] using f9))).1 (b5 hg)
  · rintro ⟨⟨⟨⟨⟨⟨w1, w2⟩, w3⟩, w4⟩, w5⟩, w6⟩, w7⟩
    have b1 := r1.2 w3
    have b2 := (r2 b1).2 w4
    have b3 := (r3 b1 b2).2 w5
    have b4 : m.cls = true → s.get "class".toList ∈ (resolve ss ch).get "class".toList := by
      intro hcl; rw [hcl, Bool.not_true, Bool.false_or] at w6; exact r4.2 w6
    have b5 : m.group = true → s.get "group".toList ∈ (resolve ss ch).get "group".toList := by
      intro hcl
      have := b4 (by simpa [hcl] using f9)
      rw [hcl, Bool.not_true, Bool.false_or] at w7
      exact (r5 this).2 w7
    refine ⟨by rw [w1], ?_⟩
    intro x hxm
    have := List.contains_iff_mem.1 (f4 x hxm)
    unfold allowed at this
    simp only [List.mem_append] at this
    rcases this with ((((h | h) | h) | h) | h) | h
    · simp only [List.mem_cons, List.not_mem_nil, or_false] at h
      rcases h with rfl | rfl | rfl
      · exact (tre "namespace" n1).2 b1
      · exact (tre "pod" n2).2 b2
      · exact (tre "container" n3).2 b3
    · split at h
      · cases h
      · rename_i ho; rw [ho] at w2; rw [List.mem_singleton.1 h]; exact w2
      · rename_i ho; rw [ho] at w2; rw [List.mem_singleton.1 h]; exact w2
    · split at h
      · rename_i hcl; rw [List.mem_singleton.1 h]; exact (tre "class" n4).2 (b4 hcl)
      · cases h
    · split at h
      · rename_i hcl; rw [List.mem_singleton.1 h]; exact (tre "group" n5).2 (b5 hcl)
      · cases h
    · split at h
      · rename_i hi; rw [List.mem_singleton.1 h]; exact (tc hi).2 (b4 (by simpa [hi] using f6))
      · cases h
    · split at h
      · rename_i hi; rw [List.mem_singleton.1 h]; exact (tg hi).2 (b5 (by simpa [hi] using f7))
      · cases h

/-- The lines of a panel: one for each there is a series of, with the sum of the rates. -/
def Right (m : Meaning) (ch : Str → Choice) (ss : List Series) (rows : List (List Str × Nat)) : Prop :=
  (rows.map (·.1)).Nodup ∧ (∀ k, k ∈ rows.map (·.1) ↔ ∃ s ∈ ss, wanted m ch s = true ∧ line m s = k) ∧
  ∀ r ∈ rows, r.2 = total m ch ss r.1

theorem eval_eq {ss : List Series} (hx : Exported ss) {ch : Str → Choice} (hc : ∀ v, CleanChoice (ch v)) {id : Nat} {q : Query}
    {m : Meaning} (hf : fits id m q = true) (h1 : Single id ch) :
    shown ss ch q = some (cut m.room ((group (m.lines.map String.toList) (ss.filter (wanted m ch))).map fun r => (r.1, q.agg.value r.2))) := by
  have hf' := hf
  simp only [fits, Bool.and_eq_true, decide_eq_true_eq, List.all_eq_true] at hf'
  obtain ⟨⟨⟨⟨⟨⟨⟨⟨⟨f1, f2⟩, f3⟩, f4⟩, f5⟩, f6⟩, f7⟩, f8⟩, -⟩, f9⟩ := hf'
  unfold shown Query.eval
  rw [select_eq (resolve_facts hx hc).1 (fun x hxm => usual (List.contains_iff_mem.1 (f4 x hxm))), Option.map_some, f2, f3]
  rw [List.filter_congr (fun s hs => selected hx hc hf h1 hs)]

theorem right_group (m : Meaning) (ch : Str → Choice) (ss : List Series) :
    Right m ch ss ((group (m.lines.map String.toList) (ss.filter (wanted m ch))).map fun r => (r.1, Agg.sum.value r.2)) := by
  obtain ⟨h1, h2, h3⟩ := group_facts (m.lines.map String.toList) (ss.filter (wanted m ch))
  have hk : ∀ s, keyOf (m.lines.map String.toList) s = line m s := by
    intro s; unfold keyOf line; rw [List.map_map]; rfl
  refine ⟨by rw [List.map_map]; exact h1, ?_, ?_⟩
  · intro k
    rw [List.map_map]
    refine (h2 k).trans ?_
    constructor
    · rintro ⟨s, hs, e⟩
      obtain ⟨a, b⟩ := List.mem_filter.1 hs
      exact ⟨s, a, b, by rw [← hk]; exact e⟩
    · rintro ⟨s, a, b, e⟩
      exact ⟨s, List.mem_filter.2 ⟨a, b⟩, by rw [hk]; exact e⟩
  · intro r hr
    obtain ⟨r', hr', rfl⟩ := List.mem_map.1 hr
    show r'.2.1 = _
    rw [h3 r' hr', List.filter_filter]
    unfold total
    congr 2
    apply List.filter_congr
    intro s _
    rw [hk, Bool.and_comm]

/-- C159: whatever the series and whatever is chosen, a panel without a limit has one line for each thing there is a call of, and
the line is the sum over all the calls that were asked for, each counted once. (Not panel 29; the panels of one class or of one
group, if one is chosen.) -/
theorem c159_panel_partial {ss : List Series} (hx : Exported ss) {ch : Str → Choice} (hc : ∀ v, CleanChoice (ch v)) {id : Nat}
    {q : Query} {m : Meaning} (hp : (id, q) ∈ panels) (hm : (id, m) ∈ meanings) (h1 : Single id ch) (h29 : id ≠ 29)
    (hr : m.room = none) : ∃ rows, shown ss ch q = some rows ∧ Right m ch ss rows := by
  have hf := table hp hm
  refine ⟨_, eval_eq hx hc hf h1, ?_⟩
  have ha : q.agg = .sum := by
    simp only [fits, Bool.and_eq_true, Bool.or_eq_true, decide_eq_true_eq] at hf
    exact hf.1.2.resolve_right h29
  rw [hr, ha]
  exact right_group m ch ss

/-- C159: and with a limit, the largest of those lines, as many as there is room for. -/
theorem c159_top_partial {ss : List Series} (hx : Exported ss) {ch : Str → Choice} (hc : ∀ v, CleanChoice (ch v)) {id : Nat}
    {q : Query} {m : Meaning} (hp : (id, q) ∈ panels) (hm : (id, m) ∈ meanings) (h1 : Single id ch) (h29 : id ≠ 29) {n : Nat}
    (hr : m.room = some n) : ∃ full rows, shown ss ch q = some rows ∧ Right m ch ss full ∧ (∀ r ∈ rows, r ∈ full) ∧
      rows.length = min n full.length ∧ ∀ r ∈ rows, ∀ r' ∈ full, r' ∉ rows → r'.2 ≤ r.2 := by
  have hf := table hp hm
  have ha : q.agg = .sum := by
    simp only [fits, Bool.and_eq_true, Bool.or_eq_true, decide_eq_true_eq] at hf
    exact hf.1.2.resolve_right h29
  refine ⟨_, _, eval_eq hx hc hf h1, right_group m ch ss, ?_⟩
  rw [hr, ha]
  generalize ((group (m.lines.map String.toList) (ss.filter (wanted m ch))).map fun r => (r.1, Agg.sum.value r.2)) = full
  have hperm := List.mergeSort_perm full (fun a b => decide (b.2 ≤ a.2))
  have hsorted := List.pairwise_mergeSort (le := fun (a b : List Str × Nat) => decide (b.2 ≤ a.2))
    (by intro a b c; simp only [decide_eq_true_eq]; omega) (by intro a b; simp only [Bool.or_eq_true, decide_eq_true_eq]; omega) full
  unfold cut
  refine ⟨fun r h => hperm.mem_iff.1 (List.mem_of_mem_take h), by rw [List.length_take, hperm.length_eq], ?_⟩
  intro r h r' h' hn
  rw [← hperm.mem_iff] at h'
  generalize full.mergeSort (fun a b => decide (b.2 ≤ a.2)) = l at *
  rw [← List.take_append_drop n l] at h' hsorted
  rcases List.mem_append.1 h' with h' | h'
  · exact absurd h' hn
  · simpa using (List.pairwise_append.1 hsorted).2.2 r h r' h'

/-! ### The panels that are empty -/

theorem bar_mem : ∀ {vs : List Str}, 2 ≤ vs.length → '|' ∈ bar vs
  | [], h => by simp at h
  | [_], h => by simp at h
  | v :: w :: vs, _ => by rw [bar_cons]; simp

theorem blank {ss : List Series} (hx : Exported ss) {ch : Str → Choice} (hc : ∀ v, CleanChoice (ch v)) {id : Nat} {q : Query}
    {m : Meaning} (hf : fits id m q = true) {l : String} (hl : l = "class" ∨ l = "group") (hq : eqv l ∈ q.matchers)
    (h2 : 2 ≤ ((resolve ss ch).get l.toList).length) : shown ss ch q = some [] := by
  simp only [fits, Bool.and_eq_true, decide_eq_true_eq, List.all_eq_true] at hf
  obtain ⟨⟨⟨⟨⟨⟨⟨⟨⟨f1, f2⟩, f3⟩, f4⟩, f5⟩, f6⟩, f7⟩, f8⟩, -⟩, f9⟩ := hf
  unfold shown Query.eval
  rw [select_eq (resolve_facts hx hc).1 (fun x hxm => usual (List.contains_iff_mem.1 (f4 x hxm))), Option.map_some]
  have : (ss.filter fun s => fqName s.desc = q.metric && q.matchers.all fun m => tests (resolve ss ch) m (s.get m.label)) = [] := by
    rw [List.filter_eq_nil_iff]
    intro s hs h
    rw [Bool.and_eq_true, List.all_eq_true] at h
    have := h.2 _ hq
    have e : s.get l.toList = bar (((resolve ss ch).get l.toList).map resc) := of_decide_eq_true (p := s.get l.toList = _) this
    have hb := bar_mem (vs := ((resolve ss ch).get l.toList).map resc) (by simpa using h2)
    rw [← e] at hb
    have hp : Plain (s.get l.toList) := by
      rcases hl with rfl | rfl
      · exact (hx.plain s hs).1
      · exact (hx.plain s hs).2
    exact (hp '|' hb).2 (by decide +kernel)
  rw [this]
  cases q.top with
  | none => rfl
  | some k => simp [group, cut]

theorem two_of {α : Type} {l : List α} {a b : α} (ha : a ∈ l) (hb : b ∈ l) (h : a ≠ b) : 2 ≤ l.length := by
  match l, ha, hb with
  | [x], ha, hb => exact absurd ((List.mem_singleton.1 ha).trans (List.mem_singleton.1 hb).symm) h
  | _ :: _ :: _, _, _ => simp

/-- C159 fails for eight panels: if more than one class is chosen, or all are and there is more than one, these panels are empty,
whatever was called. -/
theorem c159_class_violated {ss : List Series} (hx : Exported ss) {ch : Str → Choice} (hc : ∀ v, CleanChoice (ch v)) {id : Nat}
    {q : Query} (hp : (id, q) ∈ panels) (hi : id ∈ oneClass)
    (h2 : (∃ vs, ch "class".toList = .many vs ∧ 2 ≤ vs.length) ∨
      (ch "class".toList = .all ∧ ∃ s ∈ ss, ∃ t ∈ ss, s.get "class".toList ≠ t.get "class".toList)) : shown ss ch q = some [] := by
  obtain ⟨m, hm⟩ : ∃ m, (id, m) ∈ meanings := by
    have : id ∈ meanings.map (·.1) := by rw [← c159_panels]; exact List.mem_map_of_mem hp
    obtain ⟨x, hx, rfl⟩ := List.mem_map.1 this
    exact ⟨x.2, hx⟩
  have hf := table hp hm
  obtain ⟨-, hr, hr4, -⟩ := resolve_facts hx hc
  have hq : eqv "class" ∈ q.matchers := by
    simp only [fits, has, Bool.and_eq_true, decide_eq_true_eq] at hf
    have a := hf.1.1.1.1.1.2.1.2
    have b := hf.1.1.1.1.2
    rw [List.contains_iff_mem.2 hi, Bool.not_true, Bool.false_or] at b
    rw [b, Bool.not_true, Bool.false_or, if_pos hi] at a
    exact List.contains_iff_mem.1 a
  refine blank hx hc hf (.inl rfl) hq ?_
  rcases h2 with ⟨vs, hv, h2⟩ | ⟨hv, s, hs, t, ht, hne⟩
  · rw [hr4, hv]; exact h2
  · refine two_of ((hr s hs).2.2.2.1.2 ?_) ((hr t ht).2.2.2.1.2 ?_) hne
    · rw [hv]; rfl
    · rw [hv]; rfl

/-- C159 fails for four panels: if all groups are chosen, and there is more than one in the classes chosen, they are empty. -/
theorem c159_group_violated {ss : List Series} (hx : Exported ss) {ch : Str → Choice} (hc : ∀ v, CleanChoice (ch v)) {id : Nat}
    {q : Query} (hp : (id, q) ∈ panels) (hi : id ∈ oneGroup) (hv : ch "group".toList = .all)
    (h2 : ∃ s ∈ ss, ∃ t ∈ ss, meets (ch "class".toList) (s.get "class".toList) = true ∧
      meets (ch "class".toList) (t.get "class".toList) = true ∧ s.get "group".toList ≠ t.get "group".toList) : shown ss ch q = some [] := by
  obtain ⟨m, hm⟩ : ∃ m, (id, m) ∈ meanings := by
    have : id ∈ meanings.map (·.1) := by rw [← c159_panels]; exact List.mem_map_of_mem hp
    obtain ⟨x, hx, rfl⟩ := List.mem_map.1 this
    exact ⟨x.2, hx⟩
  have hf := table hp hm
  obtain ⟨-, hr, -, -⟩ := resolve_facts hx hc
  have hq : eqv "group" ∈ q.matchers := by
    simp only [fits, has, Bool.and_eq_true, decide_eq_true_eq] at hf
    have a := hf.1.1.1.1.1.2.2
    have b := hf.1.1.1.2
    rw [List.contains_iff_mem.2 hi, Bool.not_true, Bool.false_or] at b
    rw [b, Bool.not_true, Bool.false_or, if_pos hi] at a
    exact List.contains_iff_mem.1 a
  refine blank hx hc hf (.inr rfl) hq ?_
  obtain ⟨s, hs, t, ht, hc1, hc2, hne⟩ := h2
  obtain ⟨-, -, -, s4, s5⟩ := hr s hs
  obtain ⟨-, -, -, t4, t5⟩ := hr t ht
  refine two_of ((s5 (s4.2 hc1)).2 ?_) ((t5 (t4.2 hc2)).2 ?_) hne
  · rw [hv]; rfl
  · rw [hv]; rfl

/-- C159 fails for the panels 51 and 29: their titles name the class and the group that were chosen, and what they show is the same
whatever was chosen. -/
theorem c159_title_violated {ss : List Series} (hx : Exported ss) {ch ch' : Str → Choice} (hc : ∀ v, CleanChoice (ch v))
    (hc' : ∀ v, CleanChoice (ch' v)) (he : ∀ v ∈ ["namespace", "pod", "container"], ch v.toList = ch' v.toList) {id : Nat} {q : Query}
    (hp : (id, q) ∈ panels) (hi : id = 51 ∨ id = 29) : shown ss ch q = shown ss ch' q := by
  have hm : (id, (⟨.count, if id = 51 then .any else .failed, false, false, ["syscall"], some 15⟩ : Meaning)) ∈ meanings := by
    rcases hi with rfl | rfl <;> decide +kernel
  have hs : ∀ c, Single id c := by
    intro c
    rcases hi with rfl | rfl <;> exact ⟨fun h => absurd h (by decide), fun h => absurd h (by decide)⟩
  rw [eval_eq hx hc (table hp hm) (hs ch), eval_eq hx hc' (table hp hm) (hs ch')]
  have hw : ∀ s, wanted (⟨.count, if id = 51 then .any else .failed, false, false, ["syscall"], some 15⟩ : Meaning) ch s =
      wanted (⟨.count, if id = 51 then .any else .failed, false, false, ["syscall"], some 15⟩ : Meaning) ch' s := by
    intro s
    unfold wanted
    rw [he "namespace" (by simp), he "pod" (by simp), he "container" (by simp)]
    rfl
  rw [List.filter_congr fun s _ => hw s]

/-! ### From the kernel to the dashboard -/

open Swoll.Views (Metric collect) in
/-- C159: the series are of the calls that the kernel counted: each with the container the call was made in, and counted among the
calls that succeeded if the error was 0, and among those that failed otherwise. -/
theorem c159_outcome (tbl : Syscalls.Syscalls) (cache : Topology.Cache) (ms : List Metric) (samples : List Sample)
    (h : collect tbl (some cache) ms = some samples) (rate : Sample → Nat) : ∀ s ∈ samples, ∃ m ∈ ms, ∃ c sc,
      GoMap.get cache (m.1.pidNs.toNat : Int) = some c ∧ Syscalls.lookup tbl (.int (m.1.syscall.toNat : Int)) = some sc ∧
      (ofSample s (rate s)).get "namespace".toList = c.ns.toList ∧ (ofSample s (rate s)).get "pod".toList = c.pod.toList ∧
      (ofSample s (rate s)).get "container".toList = c.name.toList ∧ (ofSample s (rate s)).get "class".toList = sc.cls.toList ∧
      (ofSample s (rate s)).get "group".toList = sc.group.toList ∧ (ofSample s (rate s)).get "syscall".toList = sc.name.toList ∧
      ((ofSample s (rate s)).get "err".toList = "OK".toList ↔ m.1.errno = 0) ∧
      ∃ t ∈ samples, t.desc = .count ∧ t.labels = s.labels := by
  have hk : ∀ x ∈ Spec.Views.resolved cache "" ms, Spec.Views.Known tbl x.2 := by
    intro x hx
    by_cases hk : Spec.Views.Known tbl x.2
    · exact hk
    · rw [Views.c61_crash_violated tbl cache ms x hx hk] at h; cases h
  rw [Views.collect_eq tbl cache ms hk] at h
  injection h with h
  intro s hs
  rw [← h] at hs
  obtain ⟨x, hx, hs⟩ := List.mem_flatMap.1 hs
  obtain ⟨sc, hsc⟩ := hk x hx
  have hs' := hs
  unfold Views.emitted at hs'
  rw [hsc] at hs'
  have hl : s.labels = Swoll.Views.labels sc x.1 x.2 := by
    simp only [List.mem_cons, List.not_mem_nil, or_false] at hs'
    rcases hs' with rfl | rfl <;> rfl
  obtain ⟨m, hm, hg⟩ := List.mem_filterMap.1 hx
  cases hgc : GoMap.get cache (m.1.pidNs.toNat : Int) with
  | none => rw [hgc] at hg; cases hg
  | some c =>
    rw [hgc] at hg
    simp only [Option.bind_some, true_or, if_true, Option.some.injEq] at hg
    subst hg
    refine ⟨m, hm, c, sc, hgc, hsc, ?_⟩
    have hget : ∀ n, (ofSample s (rate s)).get n = (⟨s.desc, (Swoll.Views.labels sc c m).map String.toList, rate s⟩ : Series).get n := by
      intro n; unfold ofSample; rw [hl]
    simp only [hget]
    refine ⟨rfl, rfl, rfl, rfl, rfl, rfl, ?_, ?_⟩
    · show (Flags.errnoToString (m.1.errno.toNat : Int)).toList = "OK".toList ↔ _
      rw [String.toList_inj]
      constructor
      · intro he
        have hz : ∀ e : Int, Flags.errnoToString e = "OK" → e = 0 := by
          intro e he
          unfold Flags.errnoToString at he
          split at he
          · rename_i v hv
            have ht : ∀ p ∈ Flags.errnoVals, p.2 = "OK" → p.1 = 0 := by decide +kernel
            exact ht (e, v) (GoMap.mem_of_get hv) he
          · exact absurd he (by decide)
        have := hz _ he
        apply BitVec.eq_of_toNat_eq
        simp only [BitVec.ofNat_eq_ofNat, BitVec.toNat_ofNat, Nat.zero_mod]
        omega
      · intro he
        rw [he]
        decide +kernel
    · refine ⟨⟨.count, Swoll.Views.f64 m.2.count.toNat, Swoll.Views.labels sc c m⟩, ?_, rfl, hl.symm⟩
      · rw [← h]
        refine List.mem_flatMap.2 ⟨_, hx, ?_⟩
        unfold Views.emitted
        rw [hsc]
        exact List.mem_cons_self

open Swoll.Views (Metric collect) in
/-- C159: if the containers have names, as those of Kubernetes do, what a server exports is as the panels need it. -/
theorem c159_exported (order : List (String × String × String)) (ho : order.Perm Syscalls.gClassMap) (tbl : Syscalls.Syscalls)
    (ht : Syscalls.new order = some tbl) (cache : Topology.Cache) (hn : ∀ n c, GoMap.get cache n = some c →
      ∀ x ∈ [c.ns, c.pod, c.name], x.toList ≠ [] ∧ Clean x.toList) (ms : List Metric) (samples : List Sample)
    (h : collect tbl (some cache) ms = some samples) (rate : Sample → Nat) : Exported (samples.map fun s => ofSample s (rate s)) := by
  have hcls : ∀ g ∈ Syscalls.gClassMap, (g.1.toList ≠ [] ∧ '"' ∉ g.1.toList ∧ '\n' ∉ g.1.toList ∧ ∀ c ∈ g.1.toList, c ≠ '\\' ∧ c ∉ special) ∧
      (g.2.1.toList ≠ [] ∧ '"' ∉ g.2.1.toList ∧ '\n' ∉ g.2.1.toList ∧ ∀ c ∈ g.2.1.toList, c ≠ '\\' ∧ c ∉ special) := by
    decide +kernel
  have key := c159_outcome tbl cache ms samples h rate
  refine ⟨?_, ?_, ?_⟩
  · intro s hs
    obtain ⟨s', hs', rfl⟩ := List.mem_map.1 hs
    obtain ⟨m, -, c, sc, hc, hsc, e1, e2, e3, e4, e5, -⟩ := key s' hs'
    have hg := hcls _ (Props.Syscalls.c43_lookup_sound order ho tbl ht _ sc hsc).1.2
    intro n hn'
    simp only [List.mem_cons, List.not_mem_nil, or_false] at hn'
    rcases hn' with rfl | rfl | rfl | rfl | rfl
    · rw [e1]; exact hn _ c hc _ (by simp)
    · rw [e2]; exact hn _ c hc _ (by simp)
    · rw [e3]; exact hn _ c hc _ (by simp)
    · rw [e4]; exact ⟨hg.1.1, hg.1.2.1, hg.1.2.2.1⟩
    · rw [e5]; exact ⟨hg.2.1, hg.2.2.1, hg.2.2.2.1⟩
  · intro s hs
    obtain ⟨s', hs', rfl⟩ := List.mem_map.1 hs
    obtain ⟨m, -, c, sc, hc, hsc, e1, e2, e3, e4, e5, -⟩ := key s' hs'
    have hg := hcls _ (Props.Syscalls.c43_lookup_sound order ho tbl ht _ sc hsc).1.2
    rw [e4, e5]
    exact ⟨hg.1.2.2.2, hg.2.2.2.2⟩
  · intro s hs
    obtain ⟨s', hs', rfl⟩ := List.mem_map.1 hs
    obtain ⟨m, -, c, sc, hc, hsc, -, -, -, -, -, -, -, t, ht', hd, hlab⟩ := key s' hs'
    exact ⟨_, List.mem_map_of_mem ht', hd, by unfold ofSample; rw [hlab]⟩

/-! ### Cases -/

/-- Two containers, a file opened in each, and a socket in one. -/
def demo : List Series :=
  let l := fun (sc pod cls grp err : String) => [sc, pod, "main", "default", cls, grp, err, "7"].map String.toList
  [⟨.count, l "sys_open" "a" "FileSystem" "Files" "ENOENT", 10⟩, ⟨.time, l "sys_open" "a" "FileSystem" "Files" "ENOENT", 70⟩,
    ⟨.count, l "sys_open" "b" "FileSystem" "Files" "ENOENT", 10⟩, ⟨.time, l "sys_open" "b" "FileSystem" "Files" "ENOENT", 80⟩,
    ⟨.count, l "sys_socket" "b" "Network" "Sockets" "OK", 3⟩, ⟨.time, l "sys_socket" "b" "Network" "Sockets" "OK", 9⟩]

/-- All of everything, as the dashboard starts. -/
def demoAll : Str → Choice := fun _ => .all

/-- C159 fails for panel 29: it shows the average over the containers and errors, not what was called. -/
theorem c159_average_violated : ∃ q m, (29, q) ∈ panels ∧ (29, m) ∈ meanings ∧
    shown demo demoAll q = some [(["sys_open".toList], 10)] ∧ total m demoAll demo ["sys_open".toList] = 20 := by
  have hp : (29, (⟨countName, [re "container", re "pod", re "namespace", failed], ["syscall".toList], .avg, some 15⟩ : Query)) ∈ panels := by
    decide +kernel
  refine ⟨_, ⟨.count, .failed, false, false, ["syscall"], some 15⟩, hp, by decide +kernel, ?_, by decide +kernel⟩
  have hg : (select (resolve demo demoAll) demo countName [re "container", re "pod", re "namespace", failed]).map
      (fun sel => (group ["syscall".toList] sel).map fun r => (r.1, Agg.avg.value r.2)) = some [(["sys_open".toList], 10)] := by decide +kernel
  unfold shown Query.eval
  cases hs : select (resolve demo demoAll) demo countName [re "container", re "pod", re "namespace", failed] with
  | none => rw [hs] at hg; cases hg
  | some sel =>
    rw [hs] at hg
    simp only [Option.map_some, Option.some.injEq] at hg ⊢
    rw [hg]
    simp [cut]

theorem demo_exported : Exported demo := by
  have h1 : ∀ s ∈ demo, ∀ n ∈ ["namespace", "pod", "container", "class", "group"], s.get n.toList ≠ [] ∧ '"' ∉ s.get n.toList ∧ '\n' ∉ s.get n.toList := by
    decide +kernel
  have h2 : ∀ s ∈ demo, (∀ c ∈ s.get "class".toList, c ≠ '\\' ∧ c ∉ special) ∧ (∀ c ∈ s.get "group".toList, c ≠ '\\' ∧ c ∉ special) := by
    decide +kernel
  have h3 : ∀ s ∈ demo, ∃ t ∈ demo, t.desc = .count ∧ t.labels = s.labels := by decide +kernel
  exact ⟨h1, h2, h3⟩

/-- The hypotheses, for all and for one class and group; what is shown then. -/
example : Exported demo ∧ (∀ v, CleanChoice (demoAll v)) ∧ Single 28 demoAll ∧ ¬ Single 2 demoAll ∧
    (∃ s ∈ demo, ∃ t ∈ demo, s.get "class".toList ≠ t.get "class".toList) ∧
    (panels.find? (·.1 = 28)).map (fun p => shown demo demoAll p.2) = some (some [(["ENOENT".toList], 20)]) ∧
    (panels.find? (·.1 = 2)).map (fun p => shown demo demoAll p.2) = some (some []) ∧
    (panels.find? (·.1 = 2)).map (fun p => shown demo (fun v => if v = "class".toList then .one "Network".toList else .all) p.2) =
      some (some [(["Sockets".toList], 3)]) ∧
    (panels.find? (·.1 = 31)).map (fun p => shown demo demoAll p.2) = some (some [(["main".toList], 23)]) ∧
    (panels.find? (·.1 = 14)).map (fun p => shown demo demoAll p.2) = some (some [(["sys_socket".toList], 9)]) := by
  refine ⟨demo_exported, fun _ => trivial, ⟨fun h => absurd h (by decide), fun h => absurd h (by decide)⟩, ?_, by decide +kernel, by decide +kernel,
    by decide +kernel, by decide +kernel, by decide +kernel, by decide +kernel⟩
  rintro ⟨h, -⟩
  obtain ⟨v, hv, -⟩ := h (by decide)
  cases hv

end Swoll.Props.Dashboard
