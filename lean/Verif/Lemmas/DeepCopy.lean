import Verif.Spec.DeepCopy
/- Helper lemmas for the copies of the custom resource: separation of two holders, and what a copy keeps. -/
namespace Swoll.Lemmas.DeepCopy
open Swoll.DeepCopy Swoll.Spec.DeepCopy

/-! What is seen depends on known cells only. -/

section agree
variable {h h' : Heap} {K : Nat → Prop}

theorem at_agree (e : h'[a]? = h[a]?) : stringsAt h' a = stringsAt h a ∧ labelsAt h' a = labelsAt h a ∧
    reqsAt h' a = reqsAt h a ∧ timeAt h' a = timeAt h a ∧ countAt h' a = countAt h a ∧
    tracesAt h' a = tracesAt h a := by
  simp only [stringsAt, labelsAt, reqsAt, timeAt, countAt, tracesAt, e, and_self]

theorem seeStrings_agree (ag : ∀ a, K a → h'[a]? = h[a]?) (hk : ∀ r ∈ sliceRefs s, K r) :
    seeStrings h' s = seeStrings h s := by
  cases s with
  | none => rfl
  | some s => simp only [seeStrings, Option.map_some, (at_agree (ag s.arr (hk _ (by simp [sliceRefs])))).1]

theorem map_agree {f g : Nat → β} {m : Option Nat} (hk : ∀ r ∈ m.toList, f r = g r) : m.map f = m.map g := by
  cases m with
  | none => rfl
  | some m => simp [hk m (by simp)]

theorem labels_agree (ag : ∀ a, K a → h'[a]? = h[a]?) {m : Option Nat} (hk : ∀ r ∈ m.toList, K r) :
    m.map (labelsAt h') = m.map (labelsAt h) := map_agree fun r hr => (at_agree (ag r (hk r hr))).2.1

theorem times_agree (ag : ∀ a, K a → h'[a]? = h[a]?) {m : Option Nat} (hk : ∀ r ∈ m.toList, K r) :
    m.map (timeAt h') = m.map (timeAt h) := map_agree fun r hr => (at_agree (ag r (hk r hr))).2.2.2.1

theorem mem_of_window {s : Slice} {l : List α} (hx : x ∈ window s l) : x ∈ l :=
  List.mem_of_mem_drop (List.mem_of_mem_take hx)

variable (ag : ∀ a, K a → h'[a]? = h[a]?) (cl : ∀ a c, K a → h[a]? = some c → ∀ r ∈ refs c, K r)
include ag cl

theorem seeSelector_agree (hk : ∀ r ∈ selectorRefs s, K r) : seeSelector h' s = seeSelector h s := by
  simp only [selectorRefs, List.mem_append] at hk
  simp only [seeSelector, labels_agree ag fun r hr => hk r (.inl hr)]
  congr 1
  cases hs : s.matchExpressions with
  | none => rfl
  | some x =>
    have hx : K x.arr := hk _ (.inr (by simp [sliceRefs, hs]))
    simp only [Option.map_some, (at_agree (ag _ hx)).2.2.1, Option.some.injEq]
    refine List.map_congr_left fun r hr => ?_
    have hr := mem_of_window hr
    unfold reqsAt at hr
    split at hr
    · next l hl =>
      simp only [seeReq]
      rw [seeStrings_agree ag fun q hq => cl _ _ hx hl q (by
        simp only [refs, List.mem_flatMap]; exact ⟨r, hr, hq⟩)]
    · cases hr

theorem seeSpec_agree (hk : ∀ r ∈ specRefs s, K r) : seeSpec h' s = seeSpec h s := by
  simp only [specRefs, List.mem_append] at hk
  simp only [seeSpec, seeSelector_agree ag cl fun r hr => hk r (.inl (.inl (.inl hr))),
    seeSelector_agree ag cl fun r hr => hk r (.inl (.inl (.inr hr))),
    seeStrings_agree ag fun r hr => hk r (.inl (.inr hr)), seeStrings_agree ag fun r hr => hk r (.inr hr)]

omit cl in
theorem seeStatus_agree (hk : ∀ r ∈ statusRefs s, K r) : seeStatus h' s = seeStatus h s := by
  simp only [statusRefs, List.mem_append] at hk
  simp only [seeStatus, times_agree ag fun r hr => hk r (.inl hr), times_agree ag fun r hr => hk r (.inr hr)]

omit cl in
theorem seeMeta_agree (hk : ∀ r ∈ metaRefs s, K r) : seeMeta h' s = seeMeta h s := by
  simp only [metaRefs, List.mem_append] at hk
  simp only [seeMeta, labels_agree ag fun r hr => hk r (.inl (.inl (.inl hr))),
    labels_agree ag fun r hr => hk r (.inl (.inl (.inr hr))),
    times_agree ag fun r hr => hk r (.inl (.inr hr)), seeStrings_agree ag fun r hr => hk r (.inr hr)]

theorem seeTrace_agree (hk : ∀ r ∈ traceRefs t, K r) : seeTrace h' t = seeTrace h t := by
  simp only [traceRefs, List.mem_append] at hk
  simp only [seeTrace, seeMeta_agree ag fun r hr => hk r (.inl (.inl hr)),
    seeSpec_agree ag cl fun r hr => hk r (.inl (.inr hr)), seeStatus_agree ag fun r hr => hk r (.inr hr)]

theorem seeList_agree (hk : ∀ r ∈ l.listMeta.remaining.toList ++ sliceRefs l.items, K r) :
    seeList h' l = seeList h l := by
  simp only [List.mem_append] at hk
  simp only [seeList, map_agree fun r hr => (at_agree (ag r (hk r (.inl hr)))).2.2.2.2.1]
  congr 1
  cases hs : l.items with
  | none => rfl
  | some x =>
    have hx : K x.arr := hk _ (.inr (by simp [sliceRefs, hs]))
    simp only [Option.map_some, (at_agree (ag _ hx)).2.2.2.2.2, Option.some.injEq]
    refine List.map_congr_left fun r hr => ?_
    have hr := mem_of_window hr
    unfold tracesAt at hr
    split at hr
    · next l hl =>
      exact seeTrace_agree ag cl fun q hq => cl _ _ hx hl q (by
        simp only [refs, List.mem_flatMap]; exact ⟨r, hr, hq⟩)
    · cases hr

theorem see_agree (hb : K b) : see h' b = see h b := by
  unfold see
  rw [ag b hb]
  split
  · next t ht => rw [seeTrace_agree ag cl (cl _ _ hb ht)]
  · next t ht => rw [seeList_agree ag cl (cl _ _ hb ht)]
  · next t ht => rw [seeSpec_agree ag cl (cl _ _ hb ht)]
  · next t ht => rw [seeStatus_agree ag (cl _ _ hb ht)]
  · rfl

end agree

/-! Two holders who know different things stay so. -/

structure Apart (s : Both) : Prop where
  disjoint : ∀ a, s.first a → s.second a → False
  bounded₁ : ∀ a, s.first a → a < s.heap.length
  bounded₂ : ∀ a, s.second a → a < s.heap.length
  closed₁ : ∀ a c, s.first a → s.heap[a]? = some c → ∀ r ∈ refs c, s.first r
  closed₂ : ∀ a c, s.second a → s.heap[a]? = some c → ∀ r ∈ refs c, s.second r

theorem Apart.swap (h : Apart s) : Apart ⟨s.heap, s.second, s.first⟩ :=
  ⟨fun a h1 h2 => h.disjoint a h2 h1, h.bounded₂, h.bounded₁, h.closed₂, h.closed₁⟩

theorem act_same (ap : Apart s) (a : Act s.heap s.first h k) :
    ∀ b, s.second b → h[b]? = s.heap[b]? := by
  intro b hb
  generalize hh : s.heap = g at a
  generalize hk : s.first = f at a
  cases a with
  | new _ => rw [List.getElem?_append_left (by rw [← hh]; exact ap.bounded₂ b hb)]
  | write ha _ =>
    rw [List.getElem?_set_ne]
    intro e; subst e; subst hk
    exact ap.disjoint _ ha hb

theorem apart_act (ap : Apart s) (a : Act s.heap s.first h k) : Apart ⟨h, k, s.second⟩ := by
  have sm := act_same ap a
  have c2 : ∀ a c, s.second a → h[a]? = some c → ∀ r ∈ refs c, s.second r := by
    intro a c ha hc
    exact ap.closed₂ a c ha (by rw [← sm a ha]; exact hc)
  obtain ⟨hp, f, g⟩ := s
  simp only at a ap sm c2
  cases a with
  | @new c _ _ hr =>
    refine ⟨?_, ?_, ?_, ?_, c2⟩
    · rintro a (h1 | rfl) h2
      · exact ap.disjoint a h1 h2
      · exact Nat.lt_irrefl _ (ap.bounded₂ _ h2)
    · rintro a (h1 | rfl)
      · have := ap.bounded₁ a h1; simp only [List.length_append] at *; omega
      · simp
    · intro a h1; have := ap.bounded₂ a h1; simp only [List.length_append] at *; omega
    · rintro a c' h1 hc r hr'
      simp only at hc
      rcases Nat.lt_or_ge a hp.length with hl | hl
      · rw [List.getElem?_append_left hl] at hc
        rcases h1 with h1 | h1
        · exact .inl (ap.closed₁ a c' h1 hc r hr')
        · omega
      · rw [List.getElem?_append_right hl] at hc
        cases hd : a - hp.length with
        | zero => rw [hd] at hc; simp at hc; subst hc; exact .inl (hr r hr')
        | succ d => rw [hd] at hc; simp at hc
  | @write a c _ _ ha hr =>
    refine ⟨ap.disjoint, ?_, ?_, ?_, c2⟩
    · intro a h1; have := ap.bounded₁ a h1; simpa only [List.length_set] using this
    · intro a h1; have := ap.bounded₂ a h1; simpa only [List.length_set] using this
    · intro b c' h1 hc r hr'
      simp only at hc
      rw [List.getElem?_set] at hc
      split at hc
      · split at hc
        · cases hc; exact hr r hr'
        · cases hc
      · exact ap.closed₁ b c' h1 hc r hr'

theorem apart_later (ap : Apart s) (l : Later s t) : Apart t := by
  induction l with
  | start => exact ap
  | first _ a ih => exact apart_act ih a
  | second _ a ih => exact (apart_act ih.swap a).swap

theorem separate_of (ap : Apart (holders h p q)) : Separate h p q := by
  intro s hs
  have ap := apart_later ap hs
  exact ⟨fun h' k a b hb => see_agree (act_same ap a) ap.closed₂ hb,
    fun h' k a b hb => see_agree (act_same ap.swap a) ap.closed₁ hb⟩

/-! A cell that is in order mentions addresses that exist. -/

theorem lt_of_get {h : Heap} (e : h[a]? = some c) : a < h.length := by
  have := (List.getElem?_eq_some_iff.1 e).1; exact this

theorem stringsOk_lt (k : StringsOk h s) : ∀ r ∈ sliceRefs s, r < h.length := by
  intro r hr
  cases s with
  | none => simp [sliceRefs] at hr
  | some x =>
    obtain ⟨l, hl, _⟩ := k x rfl
    simp [sliceRefs] at hr; subst hr; exact lt_of_get hl

theorem labelsOk_lt (k : LabelsOk h m) : ∀ r ∈ m.toList, r < h.length := by
  intro r hr
  obtain ⟨l, hl⟩ := k r (by simpa using hr)
  exact lt_of_get hl

theorem timeOk_lt (k : TimeOk h m) : ∀ r ∈ m.toList, r < h.length := by
  intro r hr
  obtain ⟨l, hl⟩ := k r (by simpa using hr)
  exact lt_of_get hl

theorem selectorOk_lt (k : SelectorOk h s) : ∀ r ∈ selectorRefs s, r < h.length := by
  intro r hr
  simp only [selectorRefs, List.mem_append] at hr
  rcases hr with hr | hr
  · exact labelsOk_lt k.1 r hr
  · cases hs : s.matchExpressions with
    | none => simp [sliceRefs, hs] at hr
    | some x =>
      obtain ⟨l, hl, _⟩ := k.2 x hs
      simp [sliceRefs, hs] at hr; subst hr; exact lt_of_get hl

theorem specOk_lt (k : SpecOk h s) : ∀ r ∈ specRefs s, r < h.length := by
  intro r hr
  simp only [specRefs, List.mem_append] at hr
  rcases hr with ((hr | hr) | hr) | hr
  · exact selectorOk_lt k.1 r hr
  · exact selectorOk_lt k.2.1 r hr
  · exact stringsOk_lt k.2.2.1 r hr
  · exact stringsOk_lt k.2.2.2 r hr

theorem statusOk_lt (k : StatusOk h s) : ∀ r ∈ statusRefs s, r < h.length := by
  intro r hr
  simp only [statusRefs, List.mem_append] at hr
  rcases hr with hr | hr
  · exact timeOk_lt k.1 r hr
  · exact timeOk_lt k.2 r hr

theorem traceOk_lt (k : TraceOk h s) : ∀ r ∈ traceRefs s, r < h.length := by
  intro r hr
  simp only [traceRefs, metaRefs, List.mem_append] at hr
  rcases hr with ((((hr | hr) | hr) | hr) | hr) | hr
  · exact labelsOk_lt k.1.1 r hr
  · exact labelsOk_lt k.1.2.1 r hr
  · exact timeOk_lt k.1.2.2.1 r hr
  · exact stringsOk_lt k.1.2.2.2 r hr
  · exact specOk_lt k.2.1 r hr
  · exact statusOk_lt k.2.2 r hr

theorem cellOk_lt (k : CellOk h c) : ∀ r ∈ refs c, r < h.length := by
  intro r hr
  cases c with
  | strings _ | labels _ | time _ | count _ => cases hr
  | reqs l =>
    simp only [refs, List.mem_flatMap] at hr
    obtain ⟨q, hq, hr⟩ := hr
    exact stringsOk_lt (k q hq) r hr
  | traces l =>
    simp only [refs, List.mem_flatMap] at hr
    obtain ⟨q, hq, hr⟩ := hr
    exact traceOk_lt (k q hq) r hr
  | trace t => exact traceOk_lt k r hr
  | spec t => exact specOk_lt k r hr
  | status t => exact statusOk_lt k r hr
  | list l =>
    simp only [refs, List.mem_append] at hr
    rcases hr with hr | hr
    · obtain ⟨n, hn⟩ := k.1 r (by simpa using hr)
      exact lt_of_get hn
    · cases hs : l.items with
      | none => simp [sliceRefs, hs] at hr
      | some x =>
        obtain ⟨l, hl, _⟩ := k.2 x hs
        simp [sliceRefs, hs] at hr; subst hr; exact lt_of_get hl

/-! The heap while a copy is made: `n` cells were there before. -/

structure Making (n : Nat) (h₀ g : Heap) : Prop where
  len : n ≤ g.length
  old : ∀ a : Nat, a < n → g[a]? = h₀[a]?
  ok : HeapOk g
  new : ∀ (a : Nat) (c : Cell), n ≤ a → g[a]? = some c → ∀ r ∈ refs c, n ≤ r

theorem making_start (ok : HeapOk h) : Making h.length h h :=
  ⟨Nat.le_refl _, fun _ _ => rfl, ok, fun a c ha hc => absurd (lt_of_get hc) (by omega)⟩

theorem making_apart (ok : HeapOk h) (mk : Making h.length h g) (hp : p < h.length) (hq : h.length ≤ q)
    (hq' : q < g.length) : Apart (holders g p q) := by
  have r1 : ∀ a, Reach g p a → a < h.length := by
    intro a ha
    induction ha with
    | here => exact hp
    | step _ hc hb ih => rw [mk.old _ ih] at hc; exact cellOk_lt (ok _ _ hc) _ hb
  have r2 : ∀ a, Reach g q a → h.length ≤ a ∧ a < g.length := by
    intro a ha
    induction ha with
    | here => exact ⟨hq, hq'⟩
    | step _ hc hb ih => exact ⟨mk.new _ _ ih.1 hc _ hb, cellOk_lt (mk.ok _ _ hc) _ hb⟩
  refine ⟨?_, ?_, ?_, ?_, ?_⟩
  · intro a h1 h2; have := r1 a h1; have := r2 a h2; omega
  · intro a h1; have := r1 a h1; have := mk.len; simp only [holders]; omega
  · intro a h1; exact (r2 a h1).2
  · intro a c h1 hc r hr; exact .step h1 hc hr
  · intro a c h1 hc r hr; exact .step h1 hc hr

theorem copy_of (ok : HeapOk h) (mk : Making h.length h g) (hp : p < h.length) (hq : h.length ≤ q)
    (hq' : q < g.length) (hs : see g q = see h p) : Copy h p g q :=
  ⟨hs, mk.old, separate_of (making_apart ok mk hp hq hq')⟩

/-- Cells that are never written again. -/
def leaf : Cell → Bool
  | .strings _ | .labels _ | .reqs _ | .time _ | .count _ => true
  | _ => false

structure Ext (g g' : Heap) : Prop where
  keep : ∀ (a : Nat) (c : Cell), leaf c = true → g[a]? = some c → g'[a]? = some c
  arr : ∀ (a : Nat) (l : List Trace), g[a]? = some (.traces l) →
    ∃ l', g'[a]? = some (.traces l') ∧ l'.length = l.length
  top : ∀ (a : Nat) (l : TraceList), g[a]? = some (.list l) → ∃ l', g'[a]? = some (.list l')

theorem Ext.refl : Ext g g := ⟨fun _ _ _ h => h, fun _ l h => ⟨l, h, rfl⟩, fun _ l h => ⟨l, h⟩⟩

theorem Ext.trans (e : Ext g g') (e' : Ext g' g'') : Ext g g'' :=
  ⟨fun a c hc h => e'.keep a c hc (e.keep a c hc h), fun a l h => by
    obtain ⟨l', h', q⟩ := e.arr a l h
    obtain ⟨l'', h'', q'⟩ := e'.arr a l' h'
    exact ⟨l'', h'', q'.trans q⟩, fun a l h => by
    obtain ⟨l', h'⟩ := e.top a l h
    exact e'.top a l' h'⟩

theorem get_append {g : Heap} {a : Nat} (h : g[a]? = some c) : (g ++ [x])[a]? = some c := by
  rw [List.getElem?_append_left (lt_of_get h), h]

theorem ext_append : Ext g (g ++ [c]) :=
  ⟨fun _ _ _ h => get_append h, fun _ l h => ⟨l, get_append h, rfl⟩, fun _ l h => ⟨l, get_append h⟩⟩

theorem ext_set {g : Heap} (h : g[a]? = some c₀) (hl : leaf c₀ = false)
    (ht : ∀ l, c₀ = .traces l → ∃ l', c = .traces l' ∧ l'.length = l.length)
    (hi : ∀ l, c₀ = .list l → ∃ l', c = .list l') : Ext g (g.set a c) := by
  constructor
  · intro b d hd hb
    rw [List.getElem?_set_ne]
    · exact hb
    · intro e; subst e; rw [h] at hb; cases hb; rw [hl] at hd; cases hd
  · intro b l hb
    by_cases e : a = b
    · subst e
      rw [h] at hb; cases hb
      obtain ⟨l', rfl, q⟩ := ht l rfl
      exact ⟨l', by rw [List.getElem?_set_self (lt_of_get h)], q⟩
    · exact ⟨l, by rw [List.getElem?_set_ne e]; exact hb, rfl⟩
  · intro b l hb
    by_cases e : a = b
    · subst e
      rw [h] at hb; cases hb
      obtain ⟨l', rfl⟩ := hi l rfl
      exact ⟨l', by rw [List.getElem?_set_self (lt_of_get h)]⟩
    · exact ⟨l, by rw [List.getElem?_set_ne e]; exact hb⟩

section ext
variable {g g' : Heap} (e : Ext g g')
include e

theorem stringsOk_ext (k : StringsOk g s) : StringsOk g' s := by
  intro x hx
  obtain ⟨l, hl, q⟩ := k x hx
  exact ⟨l, e.keep _ _ rfl hl, q⟩
theorem labelsOk_ext (k : LabelsOk g m) : LabelsOk g' m := by
  intro x hx
  obtain ⟨l, hl⟩ := k x hx
  exact ⟨l, e.keep _ _ rfl hl⟩
theorem timeOk_ext (k : TimeOk g m) : TimeOk g' m := by
  intro x hx
  obtain ⟨l, hl⟩ := k x hx
  exact ⟨l, e.keep _ _ rfl hl⟩
theorem selectorOk_ext (k : SelectorOk g s) : SelectorOk g' s := by
  refine ⟨labelsOk_ext e k.1, fun x hx => ?_⟩
  obtain ⟨l, hl, q⟩ := k.2 x hx
  exact ⟨l, e.keep _ _ rfl hl, q⟩
theorem metaOk_ext (k : MetaOk g s) : MetaOk g' s :=
  ⟨labelsOk_ext e k.1, labelsOk_ext e k.2.1, timeOk_ext e k.2.2.1, stringsOk_ext e k.2.2.2⟩
theorem specOk_ext (k : SpecOk g s) : SpecOk g' s :=
  ⟨selectorOk_ext e k.1, selectorOk_ext e k.2.1, stringsOk_ext e k.2.2.1, stringsOk_ext e k.2.2.2⟩
theorem statusOk_ext (k : StatusOk g s) : StatusOk g' s := ⟨timeOk_ext e k.1, timeOk_ext e k.2⟩
theorem traceOk_ext (k : TraceOk g s) : TraceOk g' s :=
  ⟨metaOk_ext e k.1, specOk_ext e k.2.1, statusOk_ext e k.2.2⟩
theorem listOk_ext (k : ListOk g s) : ListOk g' s := by
  refine ⟨fun x hx => ?_, fun x hx => ?_⟩
  · obtain ⟨l, hl⟩ := k.1 x hx
    exact ⟨l, e.keep _ _ rfl hl⟩
  · obtain ⟨l, hl, q⟩ := k.2 x hx
    obtain ⟨l', hl', q'⟩ := e.arr _ _ hl
    exact ⟨l', hl', by omega⟩
theorem cellOk_ext (k : CellOk g c) : CellOk g' c := by
  cases c with
  | strings _ | labels _ | time _ | count _ => trivial
  | reqs l => exact fun r hr => stringsOk_ext e (k r hr)
  | traces l => exact fun r hr => traceOk_ext e (k r hr)
  | trace t => exact traceOk_ext e k
  | list t => exact listOk_ext e k
  | spec t => exact specOk_ext e k
  | status t => exact statusOk_ext e k

theorem seeStrings_ext (k : StringsOk g s) : seeStrings g' s = seeStrings g s := by
  cases s with
  | none => rfl
  | some x =>
    obtain ⟨l, hl, _⟩ := k x rfl
    simp only [seeStrings, Option.map_some, stringsAt, hl, e.keep _ _ rfl hl]
theorem labels_ext (k : LabelsOk g m) : m.map (labelsAt g') = m.map (labelsAt g) := by
  cases m with
  | none => rfl
  | some x =>
    obtain ⟨l, hl⟩ := k x rfl
    simp only [Option.map_some, labelsAt, hl, e.keep _ _ rfl hl]
theorem times_ext (k : TimeOk g m) : m.map (timeAt g') = m.map (timeAt g) := by
  cases m with
  | none => rfl
  | some x =>
    obtain ⟨l, hl⟩ := k x rfl
    simp only [Option.map_some, timeAt, hl, e.keep _ _ rfl hl]
theorem seeSelector_ext (ok : HeapOk g) (k : SelectorOk g s) : seeSelector g' s = seeSelector g s := by
  simp only [seeSelector, labels_ext e k.1]
  congr 1
  cases hs : s.matchExpressions with
  | none => rfl
  | some x =>
    obtain ⟨l, hl, _⟩ := k.2 x hs
    simp only [Option.map_some, reqsAt, hl, e.keep _ _ rfl hl, Option.some.injEq]
    refine List.map_congr_left fun r hr => ?_
    simp only [seeReq, seeStrings_ext e (ok _ _ hl r (mem_of_window hr))]
theorem seeMeta_ext (k : MetaOk g s) : seeMeta g' s = seeMeta g s := by
  simp only [seeMeta, labels_ext e k.1, labels_ext e k.2.1, times_ext e k.2.2.1, seeStrings_ext e k.2.2.2]
theorem seeSpec_ext (ok : HeapOk g) (k : SpecOk g s) : seeSpec g' s = seeSpec g s := by
  simp only [seeSpec, seeSelector_ext e ok k.1, seeSelector_ext e ok k.2.1, seeStrings_ext e k.2.2.1,
    seeStrings_ext e k.2.2.2]
theorem seeStatus_ext (k : StatusOk g s) : seeStatus g' s = seeStatus g s := by
  simp only [seeStatus, times_ext e k.1, times_ext e k.2]
theorem seeTrace_ext (ok : HeapOk g) (k : TraceOk g s) : seeTrace g' s = seeTrace g s := by
  simp only [seeTrace, seeMeta_ext e k.1, seeSpec_ext e ok k.2.1, seeStatus_ext e k.2.2]

end ext

theorem making_append (mk : Making n h₀ g) (ck : CellOk g c) (hr : ∀ r ∈ refs c, n ≤ r) :
    Making n h₀ (g ++ [c]) := by
  have hget : ∀ (a : Nat) d, (g ++ [c])[a]? = some d → g[a]? = some d ∨ d = c := by
    intro a d hd
    rcases Nat.lt_or_ge a g.length with hl | hl
    · rw [List.getElem?_append_left hl] at hd; exact .inl hd
    · rw [List.getElem?_append_right hl] at hd
      cases hx : a - g.length with
      | zero => rw [hx] at hd; simp at hd; exact .inr hd.symm
      | succ d => rw [hx] at hd; simp at hd
  refine ⟨?_, ?_, ?_, ?_⟩
  · have := mk.len; simp only [List.length_append]; omega
  · intro a ha; rw [List.getElem?_append_left (by have := mk.len; omega)]; exact mk.old a ha
  · intro a d hd
    rcases hget a d hd with h | rfl
    · exact cellOk_ext ext_append (mk.ok a d h)
    · exact cellOk_ext ext_append ck
  · intro a d ha hd
    rcases hget a d hd with h | rfl
    · exact mk.new a d ha h
    · exact hr

theorem making_set {g : Heap} (mk : Making n h₀ g) (ha : n ≤ a) (hg : g[a]? = some c₀) (hl : leaf c₀ = false)
    (ht : ∀ l, c₀ = .traces l → ∃ l', c = .traces l' ∧ l'.length = l.length)
    (hi : ∀ l, c₀ = .list l → ∃ l', c = .list l') (ck : CellOk g c)
    (hr : ∀ r ∈ refs c, n ≤ r) : Making n h₀ (g.set a c) := by
  have e := ext_set hg hl ht hi
  have hget : ∀ (b : Nat) d, (g.set a c)[b]? = some d → g[b]? = some d ∨ d = c := by
    intro b d hd
    rw [List.getElem?_set] at hd
    split at hd
    · split at hd
      · cases hd; exact .inr rfl
      · cases hd
    · exact .inl hd
  refine ⟨?_, ?_, ?_, ?_⟩
  · simpa using mk.len
  · intro b hb; rw [List.getElem?_set_ne (by omega)]; exact mk.old b hb
  · intro b d hd
    rcases hget b d hd with h | rfl
    · exact cellOk_ext e (mk.ok b d h)
    · exact cellOk_ext e ck
  · intro b d hb hd
    rcases hget b d hd with h | rfl
    · exact mk.new b d hb h
    · exact hr

/-! Each function. -/

/-- What a step of copying leaves: a heap still in order, and nothing overwritten. -/
structure Step (n : Nat) (h₀ g g' : Heap) : Prop where
  made : Making n h₀ g'
  keep : ∀ (a : Nat) (c : Cell), g[a]? = some c → g'[a]? = some c

theorem Step.ext (s : Step n h₀ g g') : Ext g g' :=
  ⟨fun a c _ h => s.keep a c h, fun a l h => ⟨l, s.keep a _ h, rfl⟩,
    fun a l h => ⟨l, s.keep a _ h⟩⟩
theorem Step.refl (mk : Making n h₀ g) : Step n h₀ g g := ⟨mk, fun _ _ h => h⟩
theorem Step.trans (s : Step n h₀ g g') (s' : Step n h₀ g' g'') : Step n h₀ g g'' :=
  ⟨s'.made, fun a c h => s'.keep a c (s.keep a c h)⟩

theorem step_append (mk : Making n h₀ g) (ck : CellOk g c) (hr : ∀ r ∈ refs c, n ≤ r) :
    Step n h₀ g (g ++ [c]) := ⟨making_append mk ck hr, fun _ _ h => get_append h⟩

theorem window_length {l : List α} {s : Slice} (h : s.off + s.len ≤ l.length) :
    (window s l).length = s.len := by
  simp only [window, List.length_take, List.length_drop]; omega

theorem window_all {l : List α} (h : l.length = n) : window ⟨a, 0, n⟩ l = l := by
  subst h; simp [window]

theorem stringsInto_spec (mk : Making n h₀ g) (k : StringsOk g s) :
    Step n h₀ g (stringsInto g s).1 ∧ StringsOk (stringsInto g s).1 (stringsInto g s).2 ∧
    seeStrings (stringsInto g s).1 (stringsInto g s).2 = seeStrings g s ∧
    ∀ r ∈ sliceRefs (stringsInto g s).2, n ≤ r := by
  cases s with
  | none => exact ⟨.refl mk, fun _ h => (by cases h), rfl, fun _ h => (by simp [stringsInto, sliceRefs] at h)⟩
  | some s =>
    obtain ⟨l, hl, hb⟩ := k s rfl
    have hw := window_length hb
    have e : stringsInto g (some s) = (g ++ [.strings (window s l)], some ⟨g.length, 0, s.len⟩) := by
      have h2 : stringsAt (g ++ [.strings (List.replicate s.len "")]) s.arr = l := by
        simp only [stringsAt, get_append hl]
      simp only [stringsInto, alloc, h2, List.drop_eq_nil_of_le, hw, List.length_replicate, Nat.le_refl,
        List.append_nil]
      rw [List.take_of_length_le (by omega)]
      congr 1
      apply List.ext_getElem?
      intro i
      rw [List.getElem?_set]
      split
      · next hi => subst hi; simp
      · next hi =>
        rw [List.getElem?_append, List.getElem?_append]
        split
        · rfl
        · next hi' =>
          obtain ⟨d, hd⟩ : ∃ d, i - g.length = d + 1 := ⟨i - g.length - 1, by omega⟩
          simp [hd]
    rw [e]
    refine ⟨step_append mk trivial (by intro r hr; cases hr), ?_, ?_, ?_⟩
    · intro x hx; cases hx
      exact ⟨window s l, by simp, by simp [hw]⟩
    · simp only [seeStrings, Option.map_some, stringsAt, hl]
      rw [List.getElem?_append_right (Nat.le_refl _)]
      simp [window_all hw]
    · intro r hr; simp [sliceRefs] at hr; subst hr; exact mk.len

theorem labelsInto_spec (mk : Making n h₀ g) (k : LabelsOk g m) :
    Step n h₀ g (labelsInto g m).1 ∧ LabelsOk (labelsInto g m).1 (labelsInto g m).2 ∧
    (labelsInto g m).2.map (labelsAt (labelsInto g m).1) = m.map (labelsAt g) ∧
    ∀ r ∈ (labelsInto g m).2.toList, n ≤ r := by
  cases m with
  | none => exact ⟨.refl mk, fun _ h => (by cases h), rfl, fun _ h => (by simp [labelsInto] at h)⟩
  | some a =>
    obtain ⟨l, hl⟩ := k a rfl
    have e : labelsInto g (some a) = (g ++ [.labels l], some g.length) := by
      simp only [labelsInto, alloc, labelsAt, hl]
    rw [e]
    refine ⟨step_append mk trivial (by intro r hr; cases hr), ?_, ?_, ?_⟩
    · intro x hx; cases hx; exact ⟨l, by simp⟩
    · simp [labelsAt, hl]
    · intro r hr; simp at hr; subst hr; exact mk.len

theorem timeInto_spec (mk : Making n h₀ g) (k : TimeOk g m) :
    Step n h₀ g (timeInto g m).1 ∧ TimeOk (timeInto g m).1 (timeInto g m).2 ∧
    (timeInto g m).2.map (timeAt (timeInto g m).1) = m.map (timeAt g) ∧
    ∀ r ∈ (timeInto g m).2.toList, n ≤ r := by
  cases m with
  | none => exact ⟨.refl mk, fun _ h => (by cases h), rfl, fun _ h => (by simp [timeInto] at h)⟩
  | some a =>
    obtain ⟨l, hl⟩ := k a rfl
    have e : timeInto g (some a) = (g ++ [.time l], some g.length) := by
      simp only [timeInto, alloc, timeAt, hl]
    rw [e]
    refine ⟨step_append mk trivial (by intro r hr; cases hr), ?_, ?_, ?_⟩
    · intro x hx; cases hx; exact ⟨l, by simp⟩
    · simp [timeAt, hl]
    · intro r hr; simp at hr; subst hr; exact mk.len

theorem countInto_spec (mk : Making n h₀ g) (k : ∀ a, m = some a → ∃ t, g[a]? = some (.count t)) :
    Step n h₀ g (countInto g m).1 ∧
    (∀ a, (countInto g m).2 = some a → ∃ t, (countInto g m).1[a]? = some (.count t)) ∧
    (countInto g m).2.map (countAt (countInto g m).1) = m.map (countAt g) ∧
    ∀ r ∈ (countInto g m).2.toList, n ≤ r := by
  cases m with
  | none => exact ⟨.refl mk, fun _ h => (by cases h), rfl, fun _ h => (by simp [countInto] at h)⟩
  | some a =>
    obtain ⟨l, hl⟩ := k a rfl
    have e : countInto g (some a) = (g ++ [.count l], some g.length) := by
      simp only [countInto, alloc, countAt, hl]
    rw [e]
    refine ⟨step_append mk trivial (by intro r hr; cases hr), ?_, ?_, ?_⟩
    · intro x hx; cases hx; exact ⟨l, by simp⟩
    · simp [countAt, hl]
    · intro r hr; simp at hr; subst hr; exact mk.len

theorem reqsLoop_spec (l : List Req) : ∀ (g : Heap), Making n h₀ g → (∀ r ∈ l, StringsOk g r.values) →
    Step n h₀ g (reqsLoop g l).1 ∧ (∀ r ∈ (reqsLoop g l).2, StringsOk (reqsLoop g l).1 r.values) ∧
    (reqsLoop g l).2.map (seeReq (reqsLoop g l).1) = l.map (seeReq g) ∧
    ∀ r ∈ (reqsLoop g l).2, ∀ q ∈ sliceRefs r.values, n ≤ q := by
  induction l with
  | nil => exact fun g mk _ => ⟨.refl mk, by simp [reqsLoop], rfl, by simp [reqsLoop]⟩
  | cons r rs ih =>
    intro g mk k
    obtain ⟨s1, k1, v1, f1⟩ := stringsInto_spec mk (k r (by simp))
    obtain ⟨s2, k2, v2, f2⟩ := ih _ s1.made fun r hr => stringsOk_ext s1.ext (k r (List.mem_cons_of_mem _ hr))
    simp only [reqsLoop]
    refine ⟨s1.trans s2, ?_, ?_, ?_⟩
    · intro q hq
      rcases List.mem_cons.1 hq with rfl | hq
      · exact stringsOk_ext s2.ext k1
      · exact k2 q hq
    · simp only [List.map_cons, v2, seeReq, seeStrings_ext s2.ext k1, v1]
      congr 1
      refine List.map_congr_left fun q hq => ?_
      simp only [seeReq, seeStrings_ext s1.ext (k q (List.mem_cons_of_mem _ hq))]
    · intro q hq
      rcases List.mem_cons.1 hq with rfl | hq
      · exact f1
      · exact f2 q hq

theorem selectorInto_spec (mk : Making n h₀ g) (k : SelectorOk g s) :
    Step n h₀ g (selectorInto g s).1 ∧ SelectorOk (selectorInto g s).1 (selectorInto g s).2 ∧
    seeSelector (selectorInto g s).1 (selectorInto g s).2 = seeSelector g s ∧
    ∀ r ∈ selectorRefs (selectorInto g s).2, n ≤ r := by
  obtain ⟨s1, k1, v1, f1⟩ := labelsInto_spec mk k.1
  have ke := (selectorOk_ext s1.ext k).2
  have se := seeSelector_ext s1.ext mk.ok k
  simp only [seeSelector, SelectorView.mk.injEq] at se
  cases hs : s.matchExpressions with
  | none =>
    simp only [selectorInto, hs, reqsInto]
    refine ⟨s1, ⟨k1, fun _ h => (by cases h)⟩, ?_, ?_⟩
    · simp only [seeSelector, v1, hs, Option.map_none]
    · intro r hr; simp only [selectorRefs, sliceRefs, List.mem_append] at hr
      rcases hr with hr | hr
      · exact f1 r hr
      · simp at hr
  | some x =>
    obtain ⟨l, hl, hb⟩ := ke x hs
    have hw := window_length hb
    obtain ⟨s2, k2, v2, f2⟩ := reqsLoop_spec (n := n) (h₀ := h₀) (window x l) _ s1.made
      fun r hr => s1.made.ok _ _ hl r (mem_of_window hr)
    have e : selectorInto g s = ((reqsLoop (labelsInto g s.matchLabels).1 (window x l)).1 ++
        [.reqs (reqsLoop (labelsInto g s.matchLabels).1 (window x l)).2],
        ⟨(labelsInto g s.matchLabels).2,
          some ⟨(reqsLoop (labelsInto g s.matchLabels).1 (window x l)).1.length, 0, x.len⟩⟩) := by
      simp only [selectorInto, hs, reqsInto, reqsAt, hl, alloc]
    have hlen : (reqsLoop (labelsInto g s.matchLabels).1 (window x l)).2.length = x.len := by
      have := congrArg List.length v2
      simpa [hw] using this
    rw [e]
    generalize reqsLoop (labelsInto g s.matchLabels).1 (window x l) = rl at *
    have s3 : Step n h₀ rl.1 (rl.1 ++ [.reqs rl.2]) := step_append s2.made k2 (by
      intro r hr; simp only [refs, List.mem_flatMap] at hr
      obtain ⟨q, hq, hr⟩ := hr; exact f2 q hq r hr)
    refine ⟨(s1.trans s2).trans s3, ⟨labelsOk_ext (s2.trans s3).ext k1, ?_⟩, ?_, ?_⟩
    · intro y hy; cases hy
      exact ⟨rl.2, by simp, by simp [hlen]⟩
    · simp only [seeSelector, labels_ext (s2.trans s3).ext k1, v1, hs, Option.map_some]
      rw [hs] at se
      simp only [Option.map_some, Option.some.injEq] at se
      congr 1
      rw [← se.2]
      simp only [reqsAt, hl, ← v2]
      simp only [List.getElem?_append_right (Nat.le_refl _), Nat.sub_self, List.getElem?_cons_zero,
        window_all hlen, Option.some.injEq]
      refine List.map_congr_left fun q hq => ?_
      simp only [seeReq, seeStrings_ext s3.ext (k2 q hq)]
    · intro r hr
      simp only [selectorRefs, sliceRefs, List.mem_append] at hr
      rcases hr with hr | hr
      · exact f1 r hr
      · simp at hr; subst hr; exact s2.made.len

theorem metaInto_spec (mk : Making n h₀ g) (k : MetaOk g s) :
    Step n h₀ g (objectMetaInto g s).1 ∧ MetaOk (objectMetaInto g s).1 (objectMetaInto g s).2 ∧
    seeMeta (objectMetaInto g s).1 (objectMetaInto g s).2 = seeMeta g s ∧
    ∀ r ∈ metaRefs (objectMetaInto g s).2, n ≤ r := by
  obtain ⟨kl, ka, kd, kf⟩ := k
  obtain ⟨s1, k1, v1, f1⟩ := timeInto_spec mk kd
  obtain ⟨s2, k2, v2, f2⟩ := labelsInto_spec s1.made (labelsOk_ext s1.ext kl)
  have s12 := s1.trans s2
  obtain ⟨s3, k3, v3, f3⟩ := labelsInto_spec s12.made (labelsOk_ext s12.ext ka)
  have s13 := s12.trans s3
  obtain ⟨s4, k4, v4, f4⟩ := stringsInto_spec s13.made (stringsOk_ext s13.ext kf)
  have s34 := s3.trans s4
  have s24 := s2.trans s34
  simp only [objectMetaInto]
  refine ⟨s13.trans s4, ⟨labelsOk_ext s34.ext k2, labelsOk_ext s4.ext k3, timeOk_ext s24.ext k1, k4⟩, ?_, ?_⟩
  · simp only [seeMeta, labels_ext s34.ext k2, labels_ext s4.ext k3, times_ext s24.ext k1, v1, v2, v3, v4,
      labels_ext s1.ext kl, labels_ext s12.ext ka, seeStrings_ext s13.ext kf]
  · intro r hr
    simp only [metaRefs, List.mem_append] at hr
    rcases hr with ((hr | hr) | hr) | hr
    · exact f2 r hr
    · exact f3 r hr
    · exact f1 r hr
    · exact f4 r hr

theorem specInto_spec (mk : Making n h₀ g) (k : SpecOk g s) :
    Step n h₀ g (specInto g s).1 ∧ SpecOk (specInto g s).1 (specInto g s).2 ∧
    seeSpec (specInto g s).1 (specInto g s).2 = seeSpec g s ∧
    ∀ r ∈ specRefs (specInto g s).2, n ≤ r := by
  obtain ⟨kl, kf, kh, kc⟩ := k
  obtain ⟨s1, k1, v1, f1⟩ := selectorInto_spec mk kl
  obtain ⟨s2, k2, v2, f2⟩ := selectorInto_spec s1.made (selectorOk_ext s1.ext kf)
  have s12 := s1.trans s2
  obtain ⟨s3, k3, v3, f3⟩ := stringsInto_spec s12.made (stringsOk_ext s12.ext kh)
  have s13 := s12.trans s3
  obtain ⟨s4, k4, v4, f4⟩ := stringsInto_spec s13.made (stringsOk_ext s13.ext kc)
  have s34 := s3.trans s4
  have s24 := s2.trans s34
  simp only [specInto]
  refine ⟨s13.trans s4,
    ⟨selectorOk_ext s24.ext k1, selectorOk_ext s34.ext k2, stringsOk_ext s4.ext k3, k4⟩, ?_, ?_⟩
  · simp only [seeSpec, seeSelector_ext s24.ext s1.made.ok k1, seeSelector_ext s34.ext s2.made.ok k2,
      seeStrings_ext s4.ext k3, v1, v2, v3, v4, seeSelector_ext s1.ext mk.ok kf,
      seeStrings_ext s12.ext kh, seeStrings_ext s13.ext kc]
  · intro r hr
    simp only [specRefs, List.mem_append] at hr
    rcases hr with ((hr | hr) | hr) | hr
    · exact f1 r hr
    · exact f2 r hr
    · exact f3 r hr
    · exact f4 r hr

theorem statusInto_spec (mk : Making n h₀ g) (k : StatusOk g s) :
    Step n h₀ g (statusInto g s).1 ∧ StatusOk (statusInto g s).1 (statusInto g s).2 ∧
    seeStatus (statusInto g s).1 (statusInto g s).2 = seeStatus g s ∧
    ∀ r ∈ statusRefs (statusInto g s).2, n ≤ r := by
  obtain ⟨ks, kc⟩ := k
  obtain ⟨s1, k1, v1, f1⟩ := timeInto_spec mk ks
  obtain ⟨s2, k2, v2, f2⟩ := timeInto_spec s1.made (timeOk_ext s1.ext kc)
  simp only [statusInto]
  refine ⟨s1.trans s2, ⟨timeOk_ext s2.ext k1, k2⟩, ?_, ?_⟩
  · simp only [seeStatus, times_ext s2.ext k1, v1, v2, times_ext s1.ext kc]
  · intro r hr
    simp only [statusRefs, List.mem_append] at hr
    rcases hr with hr | hr
    · exact f1 r hr
    · exact f2 r hr

theorem traceInto_spec (mk : Making n h₀ g) (k : TraceOk g s) :
    Step n h₀ g (traceInto g s).1 ∧ TraceOk (traceInto g s).1 (traceInto g s).2 ∧
    seeTrace (traceInto g s).1 (traceInto g s).2 = seeTrace g s ∧
    ∀ r ∈ traceRefs (traceInto g s).2, n ≤ r := by
  obtain ⟨km, ks, kt⟩ := k
  obtain ⟨s1, k1, v1, f1⟩ := metaInto_spec mk km
  obtain ⟨s2, k2, v2, f2⟩ := specInto_spec s1.made (specOk_ext s1.ext ks)
  have s12 := s1.trans s2
  obtain ⟨s3, k3, v3, f3⟩ := statusInto_spec s12.made (statusOk_ext s12.ext kt)
  have s23 := s2.trans s3
  simp only [traceInto]
  refine ⟨s12.trans s3, ⟨metaOk_ext s23.ext k1, specOk_ext s3.ext k2, k3⟩, ?_, ?_⟩
  · simp only [seeTrace, seeMeta_ext s23.ext k1, seeSpec_ext s3.ext s2.made.ok k2, v1, v2, v3,
      seeSpec_ext s1.ext mk.ok ks, seeStatus_ext s12.ext kt]
  · intro r hr
    simp only [traceRefs, List.mem_append] at hr
    rcases hr with (hr | hr) | hr
    · exact f1 r hr
    · exact f2 r hr
    · exact f3 r hr

theorem itemsLoop_spec {s : Slice} {src : List Trace} (hs : h₀[s.arr]? = some (.traces src))
    (hsn : s.arr < n) (hb : s.off + s.len ≤ src.length) (han : n ≤ a) :
    ∀ (m i : Nat) (g : Heap) (ts : List Trace), Making n h₀ g → g[a]? = some (.traces ts) → ts.length = s.len →
    i + m = s.len → (ts.take i).map (seeTrace g) = ((src.drop s.off).take i).map (seeTrace g) →
    ∃ ts', (Making n h₀ (itemsLoop s a i m g) ∧ Ext g (itemsLoop s a i m g)) ∧ (itemsLoop s a i m g)[a]? = some (.traces ts') ∧
      ts'.length = s.len ∧ ts'.map (seeTrace (itemsLoop s a i m g)) =
        (window s src).map (seeTrace (itemsLoop s a i m g)) := by
  intro m
  induction m with
  | zero =>
    intro i g ts mk ha hl him hv
    refine ⟨ts, ⟨mk, .refl⟩, ha, hl, ?_⟩
    have : i = s.len := by omega
    subst this
    rw [List.take_of_length_le (by omega)] at hv
    exact hv
  | succ m ih =>
    intro i g ts mk ha hl him hv
    have hsrc : g[s.arr]? = some (.traces src) := by rw [mk.old _ hsn, hs]
    have hi : s.off + i < src.length := by omega
    have hx : (tracesAt g s.arr)[s.off + i]?.getD .zero = src[s.off + i] := by
      simp only [tracesAt, hsrc, List.getElem?_eq_getElem hi, Option.getD_some]
    have okx : ∀ x ∈ src, TraceOk g x := mk.ok _ _ hsrc
    have okt : ∀ x ∈ ts, TraceOk g x := mk.ok _ _ ha
    obtain ⟨s1, k1, v1, f1⟩ := traceInto_spec mk (okx src[s.off + i] (List.getElem_mem _))
    simp only [itemsLoop, hx]
    generalize traceInto g src[s.off + i] = r at *
    have ha' := s1.keep _ _ ha
    have hta : tracesAt r.1 a = ts := by simp only [tracesAt, ha']
    rw [hta]
    have ht : ∀ l, Cell.traces ts = .traces l → ∃ l', Cell.traces (ts.set i r.2) = .traces l' ∧
        l'.length = l.length := by
      intro l hl; cases hl; exact ⟨_, rfl, by simp⟩
    have hnew := s1.made.new a _ han ha'
    have mk2 : Making n h₀ (r.1.set a (.traces (ts.set i r.2))) := by
      refine making_set s1.made han ha' rfl ht (fun _ h => by cases h) ?_ ?_
      · intro x hx
        rcases List.mem_or_eq_of_mem_set hx with hx | rfl
        · exact traceOk_ext s1.ext (okt x hx)
        · exact k1
      · intro q hq
        simp only [refs, List.mem_flatMap] at hq hnew
        obtain ⟨x, hx, hq⟩ := hq
        rcases List.mem_or_eq_of_mem_set hx with hx | rfl
        · exact hnew q ⟨x, hx, hq⟩
        · exact f1 q hq
    have e2 : Ext r.1 (r.1.set a (.traces (ts.set i r.2))) := ext_set ha' rfl ht (fun _ h => by cases h)
    have e12 := s1.ext.trans e2
    have get2 : (r.1.set a (.traces (ts.set i r.2)))[a]? = some (.traces (ts.set i r.2)) := by
      rw [List.getElem?_set_self (lt_of_get ha')]
    have hv2 : ((ts.set i r.2).take (i + 1)).map (seeTrace (r.1.set a (.traces (ts.set i r.2)))) =
        ((src.drop s.off).take (i + 1)).map (seeTrace (r.1.set a (.traces (ts.set i r.2)))) := by
      generalize r.1.set a (.traces (ts.set i r.2)) = g2 at *
      have h1 : (ts.set i r.2).take (i + 1) = ts.take i ++ [r.2] := by
        rw [List.take_succ_eq_append_getElem (by simp; omega), List.take_set_of_le (Nat.le_refl _)]
        simp
      have h2 : (src.drop s.off).take (i + 1) = (src.drop s.off).take i ++ [src[s.off + i]] := by
        rw [List.take_succ_eq_append_getElem (by simp; omega)]
        simp
      rw [h1, h2, List.map_append, List.map_append]
      congr 1
      · rw [List.map_congr_left (g := seeTrace g) fun x hx => seeTrace_ext e12 mk.ok
            (okt x (List.mem_of_mem_take hx)), hv]
        exact List.map_congr_left fun x hx => (seeTrace_ext e12 mk.ok
          (okx x (List.mem_of_mem_drop (List.mem_of_mem_take hx)))).symm
      · simp only [List.map_cons, List.map_nil]
        rw [seeTrace_ext e2 s1.made.ok k1, v1, seeTrace_ext e12 mk.ok (okx _ (List.getElem_mem _))]
    obtain ⟨ts', mk3, h3, l3, v3⟩ := ih (i + 1) _ (ts.set i r.2) mk2 get2 (by simpa using hl) (by omega) hv2
    exact ⟨ts', ⟨mk3.1, e12.trans mk3.2⟩, h3, l3, v3⟩

/-- What is left of the cells that are not items. -/
theorem listInto_spec (hn : n = h₀.length) (mk : Making n h₀ g) (k : ListOk h₀ l) (e0 : Ext h₀ g)
    (ok : HeapOk h₀) (hg : ∀ (a : Nat) (c : Cell), h₀[a]? = some c → g[a]? = some c) :
    Making n h₀ (listInto g l).1 ∧ Ext g (listInto g l).1 ∧ ListOk (listInto g l).1 (listInto g l).2 ∧
    seeList (listInto g l).1 (listInto g l).2 = seeList h₀ l ∧
    ∀ r ∈ refs (.list (listInto g l).2), n ≤ r := by
  obtain ⟨s1, k1, v1, f1⟩ := countInto_spec mk (listOk_ext e0 k).1
  have vc : l.listMeta.remaining.map (countAt g) = l.listMeta.remaining.map (countAt h₀) := by
    cases hr : l.listMeta.remaining with
    | none => rfl
    | some a =>
      obtain ⟨t, ht⟩ := k.1 a hr
      simp only [Option.map_some, countAt, ht, hg _ _ ht]
  cases hs : l.items with
  | none =>
    simp only [listInto, listMetaInto, hs]
    refine ⟨s1.made, s1.ext, ⟨k1, fun _ h => ?_⟩, ?_, ?_⟩
    · simp only at h; cases h
    · simp only [seeList, v1, vc, hs, Option.map_none]
    · intro r hr
      simp only [refs, List.mem_append, sliceRefs] at hr
      rcases hr with hr | hr
      · exact f1 r hr
      · simp at hr
  | some s =>
    obtain ⟨src, hsrc, hb⟩ := k.2 s hs
    simp only [listInto, listMetaInto, hs, alloc]
    generalize countInto g l.listMeta.remaining = r at *
    have mk1 : Making n h₀ (r.1 ++ [.traces (List.replicate s.len .zero)]) := by
      refine making_append s1.made ?_ ?_
      · intro t ht
        rw [List.eq_of_mem_replicate ht]
        refine ⟨⟨?_, ?_, ?_, ?_⟩, ⟨⟨?_, ?_⟩, ⟨?_, ?_⟩, ?_, ?_⟩, ?_, ?_⟩ <;> intro _ h <;> cases h
      · intro q hq
        simp only [refs, List.mem_flatMap] at hq
        obtain ⟨t, ht, hq⟩ := hq
        rw [List.eq_of_mem_replicate ht] at hq
        cases hq
    obtain ⟨ts', ⟨mk2, e2⟩, h2, l2, v2⟩ := itemsLoop_spec (n := n) (a := r.1.length) hsrc
      (by rw [hn]; exact lt_of_get hsrc) hb s1.made.len s.len 0 _ (List.replicate s.len .zero) mk1
      (by rw [List.getElem?_append_right (Nat.le_refl _)]; simp) (by simp) (by omega) (by simp)
    have e1 : Ext r.1 (r.1 ++ [Cell.traces (List.replicate s.len Trace.zero)]) := ext_append
    generalize itemsLoop s r.1.length 0 s.len (r.1 ++ [Cell.traces (List.replicate s.len .zero)]) = g3 at *
    have e3 : Ext h₀ g3 := ((e0.trans s1.ext).trans e1).trans e2
    refine ⟨mk2, (s1.ext.trans e1).trans e2, ⟨?_, ?_⟩, ?_, ?_⟩
    · intro a ha
      obtain ⟨t, ht⟩ := k1 a ha
      exact ⟨t, (e1.trans e2).keep _ _ rfl ht⟩
    · intro x hx; cases hx
      exact ⟨ts', h2, by simp [l2]⟩
    · have vr : r.2.map (countAt g3) = r.2.map (countAt r.1) := by
        cases hr : r.2 with
        | none => rfl
        | some a =>
          obtain ⟨t, ht⟩ := k1 a hr
          simp only [Option.map_some, countAt, ht, (e1.trans e2).keep _ _ rfl ht]
      simp only [seeList, vr, v1, vc, hs, Option.map_some]
      congr 2
      simp only [tracesAt, h2, hsrc, window_all l2, v2]
      exact List.map_congr_left fun x hx => seeTrace_ext e3 ok (ok _ _ hsrc x (mem_of_window hx))
    · intro q hq
      simp only [refs, List.mem_append, sliceRefs] at hq
      rcases hq with hq | hq
      · exact f1 q hq
      · simp at hq; subst hq; exact s1.made.len

/-! The pointers. -/

/-- The last step of `DeepCopy`: what was made is put at the address that was new. -/
theorem top {h g : Heap} (ok : HeapOk h) (mk : Making h.length h g) (hg : g[h.length]? = some c₀)
    (hl : leaf c₀ = false) (ht : ∀ l, c₀ ≠ .traces l) (hi : ∀ l, c₀ = .list l → ∃ l', c = .list l')
    (ck : CellOk g c) (hr : ∀ r ∈ refs c, h.length ≤ r) (hp : p < h.length)
    (hs : Ext g (g.set h.length c) → see (g.set h.length c) h.length = see h p) :
    Copy h p (g.set h.length c) h.length := by
  have ht' : ∀ l, c₀ = .traces l → ∃ l', c = .traces l' ∧ l'.length = l.length := fun l h => absurd h (ht l)
  refine copy_of ok (making_set mk (Nat.le_refl _) hg hl ht' hi ck hr) hp (Nat.le_refl _) ?_
    (hs (ext_set hg hl ht' hi))
  rw [List.length_set]; exact lt_of_get hg

theorem new_get {h : Heap} : (h ++ [c])[h.length]? = some c := by simp

theorem set_get {g : Heap} {q : Nat} (hg : g[q]? = some c₀) : (g.set q c)[q]? = some c := by
  rw [List.getElem?_set_self (lt_of_get hg)]

theorem zero_ok : TraceOk h .zero := by
  refine ⟨⟨?_, ?_, ?_, ?_⟩, ⟨⟨?_, ?_⟩, ⟨?_, ?_⟩, ?_, ?_⟩, ?_, ?_⟩ <;> intro _ h <;> cases h

theorem copySpec_spec {h : Heap} (ok : HeapOk h) (hp : h[p]? = some (.spec s)) :
    ∃ g, copySpec h (some p) = (g, some h.length) ∧ Copy h p g h.length := by
  have mk : Making h.length h (h ++ [.spec .zero]) := making_append (making_start ok)
    zero_ok.2.1 (by intro r hr; cases hr)
  have k := ok _ _ hp
  have e : copySpec h (some p) = ((specInto (h ++ [.spec .zero]) s).1.set h.length
      (.spec (specInto (h ++ [.spec .zero]) s).2), some h.length) := by
    simp only [copySpec, alloc, specAt, get_append hp]
  obtain ⟨s1, k1, v1, f1⟩ := specInto_spec mk (specOk_ext ext_append k)
  have hg := s1.keep _ _ (new_get (h := h) (c := .spec .zero))
  rw [seeSpec_ext ext_append ok k] at v1
  rw [e]
  generalize specInto (h ++ [.spec .zero]) s = r at *
  refine ⟨_, rfl, top ok s1.made hg rfl
    (fun _ h => by cases h) (fun _ h => by cases h) k1 f1 (lt_of_get hp) fun e => ?_⟩
  simp only [see, set_get hg, hp, seeSpec_ext e s1.made.ok k1, v1]

theorem copyStatus_spec {h : Heap} (ok : HeapOk h) (hp : h[p]? = some (.status s)) :
    ∃ g, copyStatus h (some p) = (g, some h.length) ∧ Copy h p g h.length := by
  have mk : Making h.length h (h ++ [.status .zero]) := making_append (making_start ok)
    zero_ok.2.2 (by intro r hr; cases hr)
  have k := ok _ _ hp
  have e : copyStatus h (some p) = ((statusInto (h ++ [.status .zero]) s).1.set h.length
      (.status (statusInto (h ++ [.status .zero]) s).2), some h.length) := by
    simp only [copyStatus, alloc, statusAt, get_append hp]
  obtain ⟨s1, k1, v1, f1⟩ := statusInto_spec mk (statusOk_ext ext_append k)
  have hg := s1.keep _ _ (new_get (h := h) (c := .status .zero))
  rw [seeStatus_ext ext_append k] at v1
  rw [e]
  generalize statusInto (h ++ [.status .zero]) s = r at *
  refine ⟨_, rfl, top ok s1.made hg rfl
    (fun _ h => by cases h) (fun _ h => by cases h) k1 f1 (lt_of_get hp) fun e => ?_⟩
  simp only [see, set_get hg, hp, seeStatus_ext e k1, v1]

theorem copyTrace_spec {h : Heap} (ok : HeapOk h) (hp : h[p]? = some (.trace s)) :
    ∃ g, copyTrace h (some p) = (g, some h.length) ∧ Copy h p g h.length := by
  have mk : Making h.length h (h ++ [.trace .zero]) := making_append (making_start ok) zero_ok
    (by intro r hr; cases hr)
  have k := ok _ _ hp
  have e : copyTrace h (some p) = ((traceInto (h ++ [.trace .zero]) s).1.set h.length
      (.trace (traceInto (h ++ [.trace .zero]) s).2), some h.length) := by
    simp only [copyTrace, alloc, traceAt, get_append hp]
  obtain ⟨s1, k1, v1, f1⟩ := traceInto_spec mk (traceOk_ext ext_append k)
  have hg := s1.keep _ _ (new_get (h := h) (c := .trace .zero))
  rw [seeTrace_ext ext_append ok k] at v1
  rw [e]
  generalize traceInto (h ++ [.trace .zero]) s = r at *
  refine ⟨_, rfl, top ok s1.made hg rfl
    (fun _ h => by cases h) (fun _ h => by cases h) k1 f1 (lt_of_get hp) fun e => ?_⟩
  simp only [see, set_get hg, hp, seeTrace_ext e s1.made.ok k1, v1]

/-- Writing a list over a list touches none of the things a list leads to. -/
theorem seeList_set {g : Heap} {q : Nat} (hg : g[q]? = some (.list l₀)) :
    seeList (g.set q (.list x)) l = seeList g l := by
  have hget : ∀ a : Nat, (g.set q (Cell.list x))[a]? = g[a]? ∨ ((g.set q (Cell.list x))[a]? = some (.list x) ∧
      g[a]? = some (.list l₀)) := by
    intro a
    by_cases e : q = a
    · subst e; exact .inr ⟨set_get hg, hg⟩
    · exact .inl (List.getElem?_set_ne e)
  have e1 : stringsAt (g.set q (.list x)) = stringsAt g := by
    funext a; rcases hget a with h | ⟨h, h'⟩ <;> simp only [stringsAt, *]
  have e2 : labelsAt (g.set q (.list x)) = labelsAt g := by
    funext a; rcases hget a with h | ⟨h, h'⟩ <;> simp only [labelsAt, *]
  have e3 : reqsAt (g.set q (.list x)) = reqsAt g := by
    funext a; rcases hget a with h | ⟨h, h'⟩ <;> simp only [reqsAt, *]
  have e4 : timeAt (g.set q (.list x)) = timeAt g := by
    funext a; rcases hget a with h | ⟨h, h'⟩ <;> simp only [timeAt, *]
  have e5 : countAt (g.set q (.list x)) = countAt g := by
    funext a; rcases hget a with h | ⟨h, h'⟩ <;> simp only [countAt, *]
  have e6 : tracesAt (g.set q (.list x)) = tracesAt g := by
    funext a; rcases hget a with h | ⟨h, h'⟩ <;> simp only [tracesAt, *]
  have f1 : seeStrings (g.set q (.list x)) = seeStrings g := by funext s; simp only [seeStrings, e1]
  have f2 : seeReq (g.set q (.list x)) = seeReq g := by funext s; simp only [seeReq, f1]
  have f3 : seeTrace (g.set q (.list x)) = seeTrace g := by
    funext s
    simp only [seeTrace, seeMeta, seeSpec, seeStatus, seeSelector, e2, e3, e4, f1, f2]
  simp only [seeList, e5, e6, f3]

theorem copyList_spec {h : Heap} (ok : HeapOk h) (hp : h[p]? = some (.list s)) :
    ∃ g, copyList h (some p) = (g, some h.length) ∧ Copy h p g h.length := by
  have mk : Making h.length h (h ++ [.list .zero]) := making_append (making_start ok)
    (by refine ⟨?_, ?_⟩ <;> intro _ h <;> cases h) (by intro r hr; cases hr)
  have k := ok _ _ hp
  have e : copyList h (some p) = ((listInto (h ++ [.list .zero]) s).1.set h.length
      (.list (listInto (h ++ [.list .zero]) s).2), some h.length) := by
    simp only [copyList, alloc, listAt, get_append hp]
  obtain ⟨m1, e1, k1, v1, f1⟩ := listInto_spec rfl mk k ext_append ok fun _ _ h => get_append h
  obtain ⟨l', hg⟩ := e1.top _ _ (new_get (h := h) (c := .list .zero))
  rw [e]
  generalize listInto (h ++ [.list .zero]) s = r at *
  refine ⟨_, rfl, top ok m1 hg rfl
    (fun _ h => by cases h) (fun _ _ => ⟨_, rfl⟩) k1 f1 (lt_of_get hp) fun e => ?_⟩
  simp only [see, set_get hg, hp, seeList_set hg, v1]

end Swoll.Lemmas.DeepCopy
