import Verif.Spec.Admit
import Verif.Lemmas.WireShape
/-
C150: a trace resource is stored as it is written.
C151: a trace that cannot be understood does no harm to the others.
-/
namespace Swoll.Props.Admit
open Swoll Swoll.Admit Swoll.Spec.Admit
open Swoll.Json (Str Json)
open Swoll.Spec.Json (Says)
open Swoll.Wire (struct specMember)

/-! ### Schemas -/

theorem pruneProp_eq (k : Str) (v : Json) : ∀ ps, pruneProp ps k v = (ps.lookup k).map (prune · v)
  | [] => rfl
  | (n, s) :: ps => by
    rw [pruneProp, List.lookup_cons]
    by_cases h : n = k
    · rw [if_pos h, h, beq_self_eq_true]
      rfl
    · have : (k == n) = false := beq_eq_false_iff_ne.2 fun e => h e.symm
      rw [if_neg h, this, pruneProp_eq k v ps]

theorem validProp_eq (k : Str) (v : Json) : ∀ ps, validProp ps k v = ((ps.lookup k).map (valid · v)).getD true
  | [] => rfl
  | (n, s) :: ps => by
    rw [validProp, List.lookup_cons]
    by_cases h : n = k
    · rw [if_pos h, h, beq_self_eq_true]
      rfl
    · have : (k == n) = false := beq_eq_false_iff_ne.2 fun e => h e.symm
      rw [if_neg h, this, validProp_eq k v ps]

theorem mem_of_lookup {β : Type} {k : Str} {b : β} : ∀ {l : List (Str × β)}, l.lookup k = some b → (k, b) ∈ l
  | (n, s) :: l, h => by
    rw [List.lookup_cons] at h
    by_cases hk : k = n
    · subst hk
      rw [beq_self_eq_true] at h
      injection h with h
      rw [h]
      exact .head _
    · rw [beq_eq_false_iff_ne.2 hk] at h
      exact .tail _ (mem_of_lookup h)

theorem filterMap_same {α β : Type} {f g : α → Option β} : ∀ {l : List α}, (∀ x ∈ l, f x = g x) → l.filterMap f = l.filterMap g
  | [], _ => rfl
  | x :: l, h => by
    rw [List.filterMap_cons, List.filterMap_cons, h x (.head _), filterMap_same fun y hy => h y (List.mem_cons_of_mem _ hy)]

/-- Stored as it is. -/
def Keeps (s : Schema) (v : Json) : Prop := prune s v = v ∧ valid s v = true

theorem keeps_text {v : Json} (h : Text v) : Keeps .text v := by
  obtain ⟨s, rfl⟩ := h
  exact ⟨rfl, rfl⟩

theorem map_id {α : Type} {f : α → α} : ∀ {l : List α}, (∀ x ∈ l, f x = x) → l.map f = l
  | [], _ => rfl
  | x :: l, h => by rw [List.map_cons, h x (.head _), map_id fun y hy => h y (List.mem_cons_of_mem _ hy)]

theorem keeps_array {s : Schema} {l : List Json} (h : ∀ x ∈ l, Keeps s x) : Keeps (.array s) (.arr l) := by
  constructor
  · rw [prune, map_id fun x hx => (h x hx).1]
  · rw [valid, List.all_eq_true]
    exact fun x hx => (h x hx).2

theorem keeps_texts {v : Json} (h : Texts v) : Keeps (.array .text) v := by
  obtain ⟨l, rfl, h⟩ := h
  exact keeps_array fun x hx => keeps_text (h x hx)

theorem keeps_labels {v : Json} (h : Labels v) : Keeps (.map .text) v := by
  obtain ⟨l, rfl, h⟩ := h
  constructor
  · rw [prune, map_id fun x hx => by rw [(keeps_text (h x hx)).1]]
  · rw [valid, List.all_eq_true]
    exact fun x hx => (keeps_text (h x hx)).2

theorem filterMap_id {α : Type} {f : α → Option α} : ∀ {l : List α}, (∀ x ∈ l, f x = some x) → l.filterMap f = l
  | [], _ => rfl
  | x :: l, h => by
    rw [List.filterMap_cons, h x (.head _)]
    show x :: _ = _
    rw [filterMap_id fun y hy => h y (List.mem_cons_of_mem _ hy)]

theorem keeps_object {req : List Str} {ps : List (Str × Schema)} {l : List (Str × Json)}
    (hr : ∀ k ∈ req, ∃ x, (k, x) ∈ l) (h : ∀ e ∈ l, ∃ s, ps.lookup e.1 = some s ∧ Keeps s e.2) :
    Keeps (.object req ps) (.obj l) := by
  constructor
  · rw [prune, filterMap_id]
    intro e he
    obtain ⟨s, h1, h2, -⟩ := h e he
    rw [pruneProp_eq, h1]
    show some (e.1, prune s e.2) = _
    rw [h2]
  · rw [valid, Bool.and_eq_true, List.all_eq_true, List.all_eq_true]
    constructor
    · intro k hk
      obtain ⟨x, hx⟩ := hr k hk
      exact List.any_eq_true.2 ⟨_, hx, beq_self_eq_true _⟩
    · intro e he
      obtain ⟨s, h1, -, h3⟩ := h e he
      rw [validProp_eq, h1]
      exact h3

theorem keeps_condition {v : Json} (h : Condition v) : Keeps expr v := by
  obtain ⟨l, rfl, h1, h2, h⟩ := h
  refine keeps_object ?_ ?_
  · intro k hk
    rcases List.mem_cons.1 hk with rfl | hk
    · exact h1
    · rw [List.mem_singleton.1 hk]
      exact h2
  · intro e he
    rcases h e he with ⟨e1, h⟩ | ⟨e1, h⟩ | ⟨e1, h⟩ <;> rw [e1]
    · exact ⟨_, rfl, keeps_text h⟩
    · exact ⟨_, rfl, keeps_text h⟩
    · exact ⟨_, rfl, keeps_texts h⟩

theorem keeps_selector {v : Json} (h : Selector v) : Keeps selector v := by
  obtain ⟨l, rfl, h⟩ := h
  refine keeps_object (fun k hk => nomatch hk) ?_
  intro e he
  rcases h e he with ⟨e1, h⟩ | ⟨e1, xs, e2, h⟩ <;> rw [e1]
  · exact ⟨_, rfl, keeps_labels h⟩
  · rw [e2]
    exact ⟨_, rfl, keeps_array fun x hx => keeps_condition (h x hx)⟩

theorem keeps_integer {v : Json} (h : Integer v) : Keeps .integer v := by
  obtain ⟨s, rfl, h1, h2, h3⟩ := h
  refine ⟨rfl, ?_⟩
  rw [valid, whole, Bool.not_eq_true', List.any_eq_false]
  intro c hc
  simp only [Bool.or_eq_true, beq_iff_eq]
  rintro ((rfl | rfl) | rfl) <;> contradiction

/-- The properties of a request. -/
def props (rate : Bool) : List (Str × Schema) := [("duration".toList, .text), ("fieldSelector".toList, selector),
  ("hostSelector".toList, .array .text), ("labelSelector".toList, selector)] ++
  (if rate then [("sampleRate".toList, .integer)] else []) ++ [("syscalls".toList, .array .text)]

theorem keeps_field {rate : Bool} {e : Str × Json} (h : Field e) (hr : rate = true ∨ e.1 ≠ "sampleRate".toList) :
    ∃ s, (props rate).lookup e.1 = some s ∧ Keeps s e.2 := by
  rcases h with ⟨e1 | e1, h⟩ | ⟨e1 | e1, h⟩ | ⟨e1, h⟩ | ⟨e1, h⟩
  · rw [e1]; exact ⟨_, by cases rate <;> rfl, keeps_selector h⟩
  · rw [e1]; exact ⟨_, by cases rate <;> rfl, keeps_selector h⟩
  · rw [e1]; exact ⟨_, by cases rate <;> rfl, keeps_texts h⟩
  · rw [e1]; exact ⟨_, by cases rate <;> rfl, keeps_texts h⟩
  · rw [e1]; exact ⟨_, by cases rate <;> rfl, keeps_text h⟩
  · rcases hr with rfl | hr
    · rw [e1]; exact ⟨_, rfl, keeps_integer h⟩
    · exact absurd e1 hr

theorem submit_keeps {s : Schema} {v : Json} (h : Keeps s v) : submit s v = some v := by
  unfold submit
  rw [h.1, if_pos h.2]

/-- What the API server makes of a trace is what it makes of its request. -/
theorem submit_doc (rate : Bool) (about sp : List (Str × Json)) : submit (trace (spec rate)) (doc about sp) =
    (submit (spec rate) (.obj sp)).bind fun
      | .obj sp' => some (doc about sp')
      | _ => none := by
  have hp : prune (trace (spec rate)) (doc about sp) = .obj [("apiVersion".toList, .str "tools.swoll.criticalstack.com/v1alpha1".toList),
      ("kind".toList, .str "Trace".toList), ("metadata".toList, .obj about), ("spec".toList, prune (spec rate) (.obj sp))] := by
    unfold trace doc
    rw [prune]
    simp only [List.filterMap_cons, List.filterMap_nil, pruneProp_eq]
    rfl
  have hv : ∀ w, valid (trace (spec rate)) (.obj [("apiVersion".toList, .str "tools.swoll.criticalstack.com/v1alpha1".toList),
      ("kind".toList, .str "Trace".toList), ("metadata".toList, .obj about), ("spec".toList, w)]) = valid (spec rate) w := by
    intro w
    unfold trace
    rw [valid]
    simp only [List.all_cons, List.all_nil, validProp_eq, Bool.and_true, Bool.true_and]
    rfl
  unfold submit
  rw [hp, hv]
  cases hw : valid (spec rate) (prune (spec rate) (.obj sp)) with
  | false => rfl
  | true =>
    rw [if_pos rfl, if_pos rfl]
    unfold spec
    rw [prune]
    rfl

/-- C150: with the repository's manifests, a trace that is well written is stored as it is. -/
theorem c150_stored (about sp : List (Str × Json)) (h : ∀ e ∈ sp, Field e) :
    submit manifests (doc about sp) = some (doc about sp) := by
  unfold manifests
  rw [submit_doc, submit_keeps (s := spec true) (v := .obj sp)]
  · rfl
  · exact keeps_object (ps := props true) (fun k hk => nomatch hk) fun e he => keeps_field (h e he) (.inl rfl)

/-- C150 for the Helm chart: a trace that is well written and has no sample rate is stored as it is. -/
theorem c150_chart_partial (about sp : List (Str × Json)) (h : ∀ e ∈ sp, Field e) (hr : ∀ e ∈ sp, e.1 ≠ "sampleRate".toList) :
    submit chart (doc about sp) = some (doc about sp) := by
  unfold chart
  rw [submit_doc, submit_keeps (s := spec false) (v := .obj sp)]
  · rfl
  · exact keeps_object (ps := props false) (fun k hk => nomatch hk) fun e he => keeps_field (h e he) (.inr (hr e he))

/-- C150 fails for the Helm chart: every sample rate is left out, and nobody is told. -/
theorem c150_chart_violated (about sp : List (Str × Json)) (h : ∀ e ∈ sp, Field e) :
    submit chart (doc about sp) = some (doc about (sp.filter fun e => e.1 ≠ "sampleRate".toList)) := by
  rw [← c150_chart_partial about (sp.filter fun e => e.1 ≠ "sampleRate".toList)
    (fun e he => h e (List.mem_filter.1 he).1) (fun e he => of_decide_eq_true (List.mem_filter.1 he).2)]
  unfold chart
  rw [submit_doc, submit_doc]
  congr 1
  have hp : prune (spec false) (.obj sp) = prune (spec false) (.obj (sp.filter fun e => e.1 ≠ "sampleRate".toList)) := by
    unfold spec
    rw [prune, prune, List.filterMap_filter]
    congr 1
    refine filterMap_same fun e _ => ?_
    by_cases hn : e.1 = "sampleRate".toList
    · rw [pruneProp_eq, hn]
      rfl
    · rw [if_pos (decide_eq_true hn)]
  unfold submit
  rw [hp]

/-! ### What is not well written -/

theorem text_of_valid {v : Json} (h : valid .text v = true) : Text v := by
  cases v <;> first | exact ⟨_, rfl⟩ | cases h

theorem texts_of_valid {v : Json} (h : valid (.array .text) v = true) : Texts v := by
  cases v with
  | arr l =>
    rw [valid, List.all_eq_true] at h
    exact ⟨l, rfl, fun x hx => text_of_valid (h x hx)⟩
  | _ => cases h

theorem labels_of_valid {v : Json} (h : valid (.map .text) v = true) : Labels v := by
  cases v with
  | obj l =>
    rw [valid, List.all_eq_true] at h
    exact ⟨l, rfl, fun x hx => text_of_valid (h x hx)⟩
  | _ => cases h

theorem integer_of_valid {v : Json} (h : valid .integer v = true) : Integer v := by
  cases v with
  | num s =>
    rw [valid, whole, Bool.not_eq_true', List.any_eq_false] at h
    exact ⟨s, rfl, fun hc => h _ hc rfl, fun hc => h _ hc rfl, fun hc => h _ hc rfl⟩
  | _ => cases h

/-- A field that is kept by an object is one of its properties, and of its type. -/
theorem pruned_member {req : List Str} {ps : List (Str × Schema)} {v : Json} (h : valid (.object req ps) (prune (.object req ps) v) = true) :
    ∃ l, prune (.object req ps) v = .obj l ∧ (∀ k ∈ req, ∃ x, (k, x) ∈ l) ∧
      ∀ e ∈ l, ∃ s w, ps.lookup e.1 = some s ∧ e.2 = prune s w ∧ valid s e.2 = true := by
  cases v with
  | obj l =>
    rw [prune] at h ⊢
    rw [valid, Bool.and_eq_true, List.all_eq_true, List.all_eq_true] at h
    refine ⟨_, rfl, ?_, ?_⟩
    · intro k hk
      obtain ⟨x, hx, he⟩ := List.any_eq_true.1 (h.1 k hk)
      exact ⟨x.2, by rw [← beq_iff_eq.1 he]; exact hx⟩
    · intro e he
      have hv := h.2 e he
      obtain ⟨x, hx, hxe⟩ := List.mem_filterMap.1 he
      rw [pruneProp_eq] at hxe
      cases hs : ps.lookup x.1 with
      | none => rw [hs] at hxe; cases hxe
      | some s =>
        rw [hs] at hxe
        injection hxe with hxe
        subst hxe
        rw [validProp_eq, hs] at hv
        exact ⟨s, x.2, hs, rfl, hv⟩
  | _ => rw [prune] at h <;> first | (intros; contradiction) | cases h

theorem condition_of_valid {v : Json} (h : valid expr (prune expr v) = true) : Condition (prune expr v) := by
  obtain ⟨l, e1, hr, hl⟩ := pruned_member h
  refine ⟨l, e1, hr _ (.head _), hr _ (.tail _ (.head _)), ?_⟩
  intro e he
  obtain ⟨s, w, h1, h2, h3⟩ := hl e he
  have hm := mem_of_lookup h1
  simp only [List.mem_cons, List.not_mem_nil, or_false, Prod.mk.injEq] at hm
  rcases hm with ⟨n, rfl⟩ | ⟨n, rfl⟩ | ⟨n, rfl⟩
  · exact .inl ⟨n, text_of_valid h3⟩
  · exact .inr (.inl ⟨n, text_of_valid h3⟩)
  · exact .inr (.inr ⟨n, texts_of_valid h3⟩)

theorem selector_of_valid {v : Json} (h : valid selector (prune selector v) = true) : Selector (prune selector v) := by
  obtain ⟨l, e1, -, hl⟩ := pruned_member h
  refine ⟨l, e1, ?_⟩
  intro e he
  obtain ⟨s, w, h1, h2, h3⟩ := hl e he
  have hm := mem_of_lookup h1
  simp only [List.mem_cons, List.not_mem_nil, or_false, Prod.mk.injEq] at hm
  rcases hm with ⟨n, rfl⟩ | ⟨n, rfl⟩
  · refine .inr ⟨n, ?_⟩
    rw [h2] at h3 ⊢
    cases w with
    | arr xs =>
      rw [prune] at h3 ⊢
      rw [valid, List.all_eq_true] at h3
      refine ⟨_, rfl, fun x hx => ?_⟩
      obtain ⟨y, -, rfl⟩ := List.mem_map.1 hx
      exact condition_of_valid (h3 _ hx)
    | _ => rw [prune] at h3 <;> first | (intros; contradiction) | cases h3
  · exact .inl ⟨n, labels_of_valid h3⟩

theorem field_of_valid {rate : Bool} {e : Str × Json} {s : Schema} {w : Json} (h1 : (props rate).lookup e.1 = some s)
    (h2 : e.2 = prune s w) (h3 : valid s e.2 = true) : Field e := by
  have hm : (e.1, s) ∈ props true := by
    have := mem_of_lookup h1
    cases rate with
    | true => exact this
    | false =>
      simp only [props, Bool.false_eq_true, if_false, List.append_nil, List.cons_append, List.nil_append, List.mem_cons,
        List.not_mem_nil, or_false] at this
      simp only [props, if_true, List.cons_append, List.nil_append, List.mem_cons, List.not_mem_nil, or_false]
      rcases this with h | h | h | h | h <;> simp only [h, true_or, or_true]
  simp only [props, if_true, List.cons_append, List.nil_append, List.mem_cons, List.not_mem_nil, or_false, Prod.mk.injEq] at hm
  rcases hm with ⟨n, rfl⟩ | ⟨n, rfl⟩ | ⟨n, rfl⟩ | ⟨n, rfl⟩ | ⟨n, rfl⟩ | ⟨n, rfl⟩
  · exact .inr (.inr (.inl ⟨n, text_of_valid h3⟩))
  · exact .inl ⟨.inr n, by rw [h2] at h3 ⊢; exact selector_of_valid h3⟩
  · exact .inr (.inl ⟨.inl n, texts_of_valid h3⟩)
  · exact .inl ⟨.inl n, by rw [h2] at h3 ⊢; exact selector_of_valid h3⟩
  · exact .inr (.inr (.inr ⟨n, integer_of_valid h3⟩))
  · exact .inr (.inl ⟨.inr n, texts_of_valid h3⟩)

/-- C150: whatever is stored is well written. -/
theorem c150_checked (crd : Schema) (hc : crd = manifests ∨ crd = chart) (about sp : List (Str × Json)) (d : Json)
    (h : submit crd (doc about sp) = some d) : ∃ sp', d = doc about sp' ∧ ∀ e ∈ sp', Field e := by
  obtain ⟨rate, rfl⟩ : ∃ rate, crd = trace (spec rate) := by
    rcases hc with rfl | rfl
    · exact ⟨true, rfl⟩
    · exact ⟨false, rfl⟩
  rw [submit_doc] at h
  unfold submit at h
  by_cases hv : valid (spec rate) (prune (spec rate) (.obj sp)) = true
  · rw [if_pos hv, Option.bind_some] at h
    obtain ⟨l, e1, -, hl⟩ := pruned_member (ps := props rate) (req := []) hv
    have e1 : prune (spec rate) (.obj sp) = .obj l := e1
    rw [e1] at h
    injection h with h
    refine ⟨l, h.symm, fun e he => ?_⟩
    obtain ⟨s, w, h1, h2, h3⟩ := hl e he
    exact field_of_valid h1 h2 h3
  · rw [if_neg hv] at h
    cases h

/-- C150 fails for a misspelt field: the trace is accepted, without it, and asks for something else. -/
theorem c150_misspelt_violated (about sp : List (Str × Json)) (h : ∀ e ∈ sp, Field e) (v : Json) :
    submit manifests (doc about (("syscals".toList, v) :: sp)) = some (doc about sp) := by
  rw [← c150_stored about sp h]
  unfold manifests
  rw [submit_doc, submit_doc]
  have hp : prune (spec true) (.obj (("syscals".toList, v) :: sp)) = prune (spec true) (.obj sp) := by
    unfold spec
    rw [prune, prune, List.filterMap_cons, pruneProp_eq]
    rfl
  unfold submit
  rw [hp]

/-! ### The controller's cache -/

theorem read_last (a b c : Str × Json) (v : Json) (ha : a.1 ≠ "spec".toList) (hb : b.1 ≠ "spec".toList) (hc : c.1 ≠ "spec".toList) :
    Admit.read (.obj [a, b, c, ("spec".toList, v)]) = struct specMember .zero v := by
  have other : ∀ s e, e.1 ≠ "spec".toList → readMember s e = some s := fun s e h => if_neg h
  have own : ∀ s, readMember s ("spec".toList, v) = struct specMember s v := fun s => if_pos rfl
  generalize "spec".toList = n at *
  show List.foldlM readMember .zero [a, b, c, (n, v)] = _
  rw [List.foldlM_cons, other _ a ha, Option.bind_eq_bind, Option.bind_some, List.foldlM_cons, other _ b hb, Option.bind_eq_bind,
    Option.bind_some, List.foldlM_cons, other _ c hc, Option.bind_eq_bind, Option.bind_some, List.foldlM_cons, own]
  cases struct specMember .zero v <;> rfl

theorem read_doc (about sp : List (Str × Json)) : Admit.read (doc about sp) = struct specMember .zero (.obj sp) := by
  have h1 : "apiVersion".toList ≠ "spec".toList := by decide
  have h2 : "kind".toList ≠ "spec".toList := by decide
  have h3 : "metadata".toList ≠ "spec".toList := by decide
  exact read_last _ _ _ _ h1 h2 h3

theorem mapM_isSome {α β : Type} (f : α → Option β) : ∀ l : List α, (l.mapM f).isSome ↔ ∀ x ∈ l, (f x).isSome
  | [] => by simp
  | x :: l => by
    have ih := mapM_isSome f l
    rw [List.mapM_cons]
    cases hx : f x with
    | none => simp [hx]
    | some y =>
      cases hl : l.mapM f with
      | none =>
        rw [hl] at ih
        simp only [Option.isSome_none, Bool.false_eq_true, false_iff] at ih
        simp only [Option.bind_eq_bind, Option.bind_some, Option.bind_none, Option.isSome_none, Bool.false_eq_true, false_iff]
        exact fun h => ih fun z hz => h z (List.mem_cons_of_mem _ hz)
      | some ys =>
        rw [hl] at ih
        simp only [Option.bind_eq_bind, Option.bind_some, Option.pure_def, Option.isSome_some, true_iff] at ih ⊢
        intro z hz
        rcases List.mem_cons.1 hz with rfl | hz
        · rw [hx]; rfl
        · exact ih z hz

/-- Names that are those of fields, and are fields up to their case, are the fields. -/
theorem names_only (n k : Str) (hn : n ∈ (props true).map (·.1)) (hk : k ∈ (props true).map (·.1))
    (h : k.map Spec.Wire.lower = n.map Spec.Wire.lower) : k = n := by
  have key : ((props true).map (·.1)).all (fun k => ((props true).map (·.1)).all fun n =>
    !(k.map Spec.Wire.lower == n.map Spec.Wire.lower) || k == n) = true := by decide +kernel
  have := List.all_eq_true.1 (List.all_eq_true.1 key k hk) n hn
  rw [h, beq_self_eq_true, Bool.not_true, Bool.false_or] at this
  exact beq_iff_eq.1 this

theorem field_name {e : Str × Json} (h : Field e) : e.1 ∈ (props true).map (·.1) := by
  obtain ⟨s, h1, -⟩ := keeps_field h (.inl rfl)
  exact List.mem_map.2 ⟨_, mem_of_lookup h1, rfl⟩

theorem wire_texts {v : Json} (h : Texts v) : Spec.Wire.Texts v := by
  obtain ⟨l, rfl, h⟩ := h
  exact .inr ⟨l, rfl, fun x hx => .inr (h x hx)⟩

theorem names_expr (n k : Str) (hn : n ∈ ["key".toList, "operator".toList, "values".toList])
    (hk : k ∈ ["key".toList, "operator".toList, "values".toList]) (h : k.map Spec.Wire.lower = n.map Spec.Wire.lower) : k = n := by
  have key : ["key".toList, "operator".toList, "values".toList].all (fun k => ["key".toList, "operator".toList, "values".toList].all fun n =>
    !(k.map Spec.Wire.lower == n.map Spec.Wire.lower) || k == n) = true := by decide +kernel
  have := List.all_eq_true.1 (List.all_eq_true.1 key k hk) n hn
  rw [h, beq_self_eq_true, Bool.not_true, Bool.false_or] at this
  exact beq_iff_eq.1 this

theorem wire_condition {v : Json} (h : Condition v) : Spec.Wire.ExprJson v := by
  obtain ⟨l, rfl, -, -, h⟩ := h
  refine .inr ⟨l, rfl, fun e he => ?_⟩
  have hk : e.1 ∈ ["key".toList, "operator".toList, "values".toList] := by
    rcases h e he with ⟨n, -⟩ | ⟨n, -⟩ | ⟨n, -⟩ <;> rw [n]
    · exact .head _
    · exact .tail _ (.head _)
    · exact .tail _ (.tail _ (.head _))
  refine ⟨fun hn => ?_, fun hn => ?_, fun hn => ?_⟩
  · have hn := names_expr _ _ (.head _) hk hn
    rcases h e he with ⟨n, h⟩ | ⟨n, h⟩ | ⟨n, h⟩
    · exact .inr h
    · exact .inr h
    · exact absurd (n.symm.trans hn) (by decide)
  · have hn := names_expr _ _ (.tail _ (.head _)) hk hn
    rcases h e he with ⟨n, h⟩ | ⟨n, h⟩ | ⟨n, h⟩
    · exact .inr h
    · exact .inr h
    · exact absurd (n.symm.trans hn) (by decide)
  · have hn := names_expr _ _ (.tail _ (.tail _ (.head _))) hk hn
    rcases h e he with ⟨n, h⟩ | ⟨n, h⟩ | ⟨n, h⟩
    · exact absurd (n.symm.trans hn) (by decide)
    · exact absurd (n.symm.trans hn) (by decide)
    · exact wire_texts h

theorem names_selector (n k : Str) (hn : n ∈ ["matchLabels".toList, "matchExpressions".toList])
    (hk : k ∈ ["matchLabels".toList, "matchExpressions".toList]) (h : k.map Spec.Wire.lower = n.map Spec.Wire.lower) : k = n := by
  have key : ["matchLabels".toList, "matchExpressions".toList].all (fun k => ["matchLabels".toList, "matchExpressions".toList].all fun n =>
    !(k.map Spec.Wire.lower == n.map Spec.Wire.lower) || k == n) = true := by decide +kernel
  have := List.all_eq_true.1 (List.all_eq_true.1 key k hk) n hn
  rw [h, beq_self_eq_true, Bool.not_true, Bool.false_or] at this
  exact beq_iff_eq.1 this

theorem wire_selector {v : Json} (h : Selector v) : Spec.Wire.SelectorJson v := by
  obtain ⟨l, rfl, h⟩ := h
  refine .inr ⟨l, rfl, fun e he => ?_⟩
  have hk : e.1 ∈ ["matchLabels".toList, "matchExpressions".toList] := by
    rcases h e he with ⟨n, -⟩ | ⟨n, -⟩ <;> rw [n]
    · exact .head _
    · exact .tail _ (.head _)
  refine ⟨fun hn => ?_, fun hn => ?_⟩
  · have hn := names_selector _ _ (.head _) hk hn
    rcases h e he with ⟨n, l', e2, h⟩ | ⟨n, h⟩
    · exact .inr ⟨l', e2, fun x hx => .inr (h x hx)⟩
    · exact absurd (n.symm.trans hn) (by decide)
  · have hn := names_selector _ _ (.tail _ (.head _)) hk hn
    rcases h e he with ⟨n, h⟩ | ⟨n, xs, e2, h⟩
    · exact absurd (n.symm.trans hn) (by decide)
    · exact .inr ⟨xs, e2, fun x hx => wire_condition (h x hx)⟩

/-- A request that is well written is understood just if its duration is one and its sample rate has 64 bits. -/
theorem readable_iff {sp : List (Str × Json)} (h : ∀ e ∈ sp, Field e) :
    Spec.Wire.SpecJson (.obj sp) ↔ ∀ e ∈ sp, Readable e := by
  have name : ∀ (n : Str), n ∈ (props true).map (·.1) → ∀ e ∈ sp, e.1.map Spec.Wire.lower = n.map Spec.Wire.lower → e.1 = n :=
    fun n hn e he hl => names_only n e.1 hn (field_name (h e he)) hl
  constructor
  · rintro (h0 | ⟨l, h0, hl⟩)
    · cases h0
    · injection h0 with h0
      subst h0
      intro e he
      obtain ⟨-, -, -, -, h5, h6⟩ := hl e he
      refine ⟨fun hn => h5 (by rw [hn]; rfl), fun hn => ?_⟩
      rcases h6 (by rw [hn]; rfl) with h0 | h0
      · rcases h e he with ⟨n | n, -⟩ | ⟨n | n, -⟩ | ⟨n, -⟩ | ⟨-, s, e2, -⟩
        · exact absurd (n.symm.trans hn) (by decide)
        · exact absurd (n.symm.trans hn) (by decide)
        · exact absurd (n.symm.trans hn) (by decide)
        · exact absurd (n.symm.trans hn) (by decide)
        · exact absurd (n.symm.trans hn) (by decide)
        · rw [e2] at h0; cases h0
      · exact h0
  · intro hr
    refine .inr ⟨sp, rfl, fun e he => ?_⟩
    obtain ⟨hd, hs⟩ := hr e he
    have kind : ∀ n : Str, e.1 = n → (Selector e.2 ∧ (n = "labelSelector".toList ∨ n = "fieldSelector".toList)) ∨
        (Texts e.2 ∧ (n = "hostSelector".toList ∨ n = "syscalls".toList)) ∨ n = "duration".toList ∨ n = "sampleRate".toList := by
      rintro n rfl
      rcases h e he with ⟨n, h⟩ | ⟨n, h⟩ | ⟨n, h⟩ | ⟨n, h⟩
      · exact .inl ⟨h, n⟩
      · exact .inr (.inl ⟨h, n⟩)
      · exact .inr (.inr (.inl n))
      · exact .inr (.inr (.inr n))
    refine ⟨fun hn => ?_, fun hn => ?_, fun hn => ?_, fun hn => ?_, fun hn => ?_, fun hn => ?_⟩
    · have hn := name _ (by decide) e he hn
      rcases kind _ hn with ⟨h, -⟩ | ⟨-, n | n⟩ | n | n
      · exact wire_selector h
      all_goals exact absurd n (by decide)
    · have hn := name _ (by decide) e he hn
      rcases kind _ hn with ⟨h, -⟩ | ⟨-, n | n⟩ | n | n
      · exact wire_selector h
      all_goals exact absurd n (by decide)
    · have hn := name _ (by decide) e he hn
      rcases kind _ hn with ⟨-, n | n⟩ | ⟨h, -⟩ | n | n
      · exact absurd n (by decide)
      · exact absurd n (by decide)
      · exact wire_texts h
      all_goals exact absurd n (by decide)
    · have hn := name _ (by decide) e he hn
      rcases kind _ hn with ⟨-, n | n⟩ | ⟨h, -⟩ | n | n
      · exact absurd n (by decide)
      · exact absurd n (by decide)
      · exact wire_texts h
      all_goals exact absurd n (by decide)
    · exact hd (name _ (by decide) e he hn)
    · exact .inr (hs (name _ (by decide) e he hn))

/-- C151: the controller is told of the traces just if all of them can be understood: if every duration is one, and
every sample rate has 64 bits. Traces are given by their metadata and their requests. -/
theorem c151_exact (l : List (List (Str × Json) × List (Str × Json))) (hf : ∀ x ∈ l, ∀ e ∈ x.2, Field e)
    (ht : ∀ x ∈ l, ∃ t, Says t (.obj x.2)) :
    (view (l.map fun x => doc x.1 x.2)).isSome ↔ ∀ x ∈ l, ∀ e ∈ x.2, Readable e := by
  unfold view
  rw [mapM_isSome]
  constructor
  · intro h x hx
    have := h _ (List.mem_map.2 ⟨x, hx, rfl⟩)
    rw [read_doc] at this
    obtain ⟨t, ht⟩ := ht x hx
    exact (readable_iff (hf x hx)).1 ((Lemmas.Wire.spec_isSome ht .zero).1 this)
  · intro h d hd
    obtain ⟨x, hx, rfl⟩ := List.mem_map.1 hd
    obtain ⟨t, ht⟩ := ht x hx
    rw [read_doc]
    exact (Lemmas.Wire.spec_isSome ht .zero).2 ((readable_iff (hf x hx)).2 (h x hx))

/-- C151 where it holds: if all can be understood, the controller is told of each of them, in order, as if it were the
only one. -/
theorem c151_each_partial (l : List (List (Str × Json) × List (Str × Json))) (hf : ∀ x ∈ l, ∀ e ∈ x.2, Field e)
    (ht : ∀ x ∈ l, ∃ t, Says t (.obj x.2)) (hr : ∀ x ∈ l, ∀ e ∈ x.2, Readable e) :
    ∃ ss, view (l.map fun x => doc x.1 x.2) = some ss ∧ l.map (fun x => Admit.read (doc x.1 x.2)) = ss.map some := by
  obtain ⟨ss, hs⟩ := Option.isSome_iff_exists.1 ((c151_exact l hf ht).2 hr)
  refine ⟨ss, hs, ?_⟩
  clear hf ht hr
  unfold view at hs
  induction l generalizing ss with
  | nil =>
    injection hs with hs
    rw [← hs]
    rfl
  | cons x l ih =>
    rw [List.map_cons, List.mapM_cons] at hs
    cases hx : Admit.read (doc x.1 x.2) with
    | none => rw [hx] at hs; cases hs
    | some y =>
      cases hl : (l.map fun x => doc x.1 x.2).mapM Admit.read with
      | none => rw [hx, hl] at hs; cases hs
      | some ys =>
        rw [hx, hl] at hs
        injection hs with hs
        subst hs
        rw [List.map_cons, List.map_cons, hx, ih ys hl]

theorem opt_mem {b : Bool} {name : String} {v : Json} {e : Str × Json} (h : e ∈ Wire.opt b name v) : e = (name.toList, v) ∧ b = false := by
  unfold Wire.opt at h
  cases b with
  | true => rw [if_pos rfl] at h; cases h
  | false => exact ⟨List.mem_singleton.1 h, rfl⟩

theorem ofStrs_texts (l : List Str) : Texts (Wire.ofStrs l) :=
  ⟨_, rfl, fun x hx => by obtain ⟨s, -, rfl⟩ := List.mem_map.1 hx; exact ⟨s, rfl⟩⟩

theorem ofExpr_condition (e : Wire.Expr) : Condition (Wire.ofExpr e) := by
  refine ⟨_, rfl, ⟨.str e.key, List.mem_append_left _ (.head _)⟩, ⟨.str e.op, List.mem_append_left _ (.tail _ (.head _))⟩, ?_⟩
  intro m hm
  rcases List.mem_append.1 hm with hm | hm
  · rcases List.mem_cons.1 hm with rfl | hm
    · exact .inl ⟨rfl, _, rfl⟩
    · rw [List.mem_singleton.1 hm]
      exact .inr (.inl ⟨rfl, _, rfl⟩)
  · rw [(opt_mem hm).1]
    exact .inr (.inr ⟨rfl, ofStrs_texts _⟩)

theorem ofSelector_selector (s : Wire.Selector) : Selector (Wire.ofSelector s) := by
  refine ⟨_, rfl, fun m hm => ?_⟩
  rcases List.mem_append.1 hm with hm | hm
  · rw [(opt_mem hm).1]
    refine .inl ⟨rfl, _, rfl, fun x hx => ?_⟩
    obtain ⟨y, -, rfl⟩ := List.mem_map.1 hx
    exact ⟨_, rfl⟩
  · rw [(opt_mem hm).1]
    refine .inr ⟨rfl, _, rfl, fun x hx => ?_⟩
    obtain ⟨y, -, rfl⟩ := List.mem_map.1 hx
    exact ofExpr_condition y

theorem digits_plain (n : Nat) : ∀ c ∈ Flags.digits n, c ≠ '.' ∧ c ≠ 'e' ∧ c ≠ 'E' := by
  intro c hc
  have := Lemmas.Flags.digits_all n c hc
  refine ⟨?_, ?_, ?_⟩ <;> rintro rfl <;> exact absurd this (by decide)

theorem ofInt_integer (n : Int) : Integer (Wire.ofInt n) := by
  refine ⟨_, rfl, ?_⟩
  have : ∀ c ∈ Flags.itoa n, c ≠ '.' ∧ c ≠ 'e' ∧ c ≠ 'E' := by
    intro c hc
    unfold Flags.itoa at hc
    split at hc
    · rcases List.mem_cons.1 hc with rfl | hc
      · decide
      · exact digits_plain _ c hc
    · exact digits_plain _ c hc
  exact ⟨fun h => (this _ h).1 rfl, fun h => (this _ h).2.1 rfl, fun h => (this _ h).2.2 rfl⟩

/-- The fields of a request, as Go's library and `kubectl` write them. -/
def fields (s : Wire.Spec) : List (Str × Json) :=
  [("labelSelector".toList, Wire.ofSelector s.label), ("fieldSelector".toList, Wire.ofSelector s.field)] ++
    Wire.opt s.hosts.isEmpty "hostSelector" (Wire.ofStrs s.hosts) ++
    Wire.opt s.calls.isEmpty "syscalls" (Wire.ofStrs s.calls) ++
    [("duration".toList, .str (Duration.text s.duration))] ++
    Wire.opt (s.rate == 0) "sampleRate" (Wire.ofInt s.rate)

theorem fields_ok (s : Wire.Spec) : ∀ e ∈ fields s, Field e := by
  intro e he
  unfold fields at he
  rcases List.mem_append.1 he with he | he
  · rcases List.mem_append.1 he with he | he
    · rcases List.mem_append.1 he with he | he
      · rcases List.mem_append.1 he with he | he
        · rcases List.mem_cons.1 he with rfl | he
          · exact .inl ⟨.inl rfl, ofSelector_selector _⟩
          · rw [List.mem_singleton.1 he]
            exact .inl ⟨.inr rfl, ofSelector_selector _⟩
        · rw [(opt_mem he).1]
          exact .inr (.inl ⟨.inl rfl, ofStrs_texts _⟩)
      · rw [(opt_mem he).1]
        exact .inr (.inl ⟨.inr rfl, ofStrs_texts _⟩)
    · rw [List.mem_singleton.1 he]
      exact .inr (.inr (.inl ⟨rfl, _, rfl⟩))
  · rw [(opt_mem he).1]
    exact .inr (.inr (.inr ⟨rfl, ofInt_integer _⟩))

theorem opt_filter {b : Bool} {name : String} {v : Json} {n : Str} (h : name.toList ≠ n) :
    (Wire.opt b name v).filter (fun e => decide (e.1 ≠ n)) = Wire.opt b name v := by
  cases b with
  | true => rfl
  | false =>
    show List.filter _ [(name.toList, v)] = [(name.toList, v)]
    rw [List.filter_cons, if_pos (decide_eq_true h)]
    rfl

theorem opt_gone {b : Bool} {name : String} {v : Json} {n : Str} (h : name.toList = n) :
    (Wire.opt b name v).filter (fun e => decide (e.1 ≠ n)) = [] := by
  rw [List.filter_eq_nil_iff]
  intro e he
  rw [(opt_mem he).1]
  exact fun hh => of_decide_eq_true hh h

theorem filter_parts {n n1 n2 n5 : Str} {v1 v2 v5 : Json} {o3 o4 o6 : List (Str × Json)} (h1 : n1 ≠ n) (h2 : n2 ≠ n) (h5 : n5 ≠ n)
    (h3 : o3.filter (fun e => decide (e.1 ≠ n)) = o3) (h4 : o4.filter (fun e => decide (e.1 ≠ n)) = o4)
    (h6 : o6.filter (fun e => decide (e.1 ≠ n)) = []) :
    ([(n1, v1), (n2, v2)] ++ o3 ++ o4 ++ [(n5, v5)] ++ o6).filter (fun e => decide (e.1 ≠ n)) =
      [(n1, v1), (n2, v2)] ++ o3 ++ o4 ++ [(n5, v5)] ++ [] := by
  rw [List.filter_append, List.filter_append, List.filter_append, List.filter_append, h3, h4, h6,
    List.filter_cons, if_pos (decide_eq_true h1), List.filter_cons, if_pos (decide_eq_true h2), List.filter_cons, if_pos (decide_eq_true h5),
    List.filter_nil]

theorem fields_filter (s : Wire.Spec) : (fields s).filter (fun e => decide (e.1 ≠ "sampleRate".toList)) = fields { s with rate := 0 } :=
  filter_parts (by decide) (by decide) (by decide) (opt_filter (by decide)) (opt_filter (by decide)) (opt_gone rfl)

/-- C150: what the controller is told of is what was asked for; of the Helm chart, without the sample rate. -/
theorem c150_told (about : List (Str × Json)) (s : Wire.Spec) (hs : Spec.Wire.Values s) :
    (∃ d s', submit manifests (doc about (fields s)) = some d ∧ view [d] = some [s'] ∧ Spec.Wire.SameSpec s s') ∧
    (∃ d s', submit chart (doc about (fields s)) = some d ∧ view [d] = some [s'] ∧ Spec.Wire.SameSpec { s with rate := 0 } s') := by
  have key : ∀ s, Spec.Wire.Values s → view [doc about (fields s)] = some [Lemmas.Wire.canonSpec s] := by
    intro s hs
    show (do let y ← Admit.read (doc about (fields s)); _) = _
    rw [read_doc]
    show (do let y ← struct specMember .zero (Wire.ofSpec s); _) = _
    rw [Lemmas.Wire.spec_ofSpec hs]
    rfl
  refine ⟨⟨_, _, c150_stored about _ (fields_ok s), key s hs, Lemmas.Wire.same_spec hs⟩, ?_⟩
  have h0 : Spec.Wire.Values { s with rate := 0 } :=
    ⟨hs.1, hs.2.1, hs.2.2.1, hs.2.2.2.1, by show -(2 ^ 63 : Int) ≤ 0; decide, by show (0 : Int) < 2 ^ 63; decide⟩
  refine ⟨_, _, c150_chart_violated about _ (fields_ok s), ?_, Lemmas.Wire.same_spec h0⟩
  rw [fields_filter]
  exact key _ h0

/-- A trace for "1 hour", as no duration is written. -/
def hour : List (Str × Json) := [("duration".toList, .str "1 hour".toList)]

/-- C151 fails: a trace for "1 hour" is stored as it is, and while it is, the controller is told of no trace at all. -/
theorem c151_violated (about : List (Str × Json)) :
    submit manifests (doc about hour) = some (doc about hour) ∧ submit chart (doc about hour) = some (doc about hour) ∧
    ∀ stored, doc about hour ∈ stored → view stored = none := by
  have hf : ∀ e ∈ hour, Field e := by
    intro e he
    rw [List.mem_singleton.1 he]
    exact .inr (.inr (.inl ⟨rfl, _, rfl⟩))
  refine ⟨c150_stored about hour hf, c150_chart_partial about hour hf ?_, ?_⟩
  · intro e he
    rw [List.mem_singleton.1 he]
    decide
  · intro stored hm
    have hn : Admit.read (doc about hour) = none := by
      rw [read_doc]
      decide +kernel
    have := mapM_isSome Admit.read stored
    unfold view
    cases hv : stored.mapM Admit.read with
    | none => rfl
    | some ss =>
      rw [hv] at this
      have := this.1 rfl _ hm
      rw [hn] at this
      cases this

/-! ### Cases that meet the hypotheses -/

/-- A trace with all of its fields. -/
def full : List (Str × Json) := [("syscalls".toList, .arr [.str "open".toList, .str "close".toList]),
  ("labelSelector".toList, .obj [("matchLabels".toList, .obj [("app".toList, .str "web".toList)]),
    ("matchExpressions".toList, .arr [.obj [("operator".toList, .str "In".toList), ("key".toList, .str "tier".toList),
      ("values".toList, .arr [.str "front".toList])]])]),
  ("duration".toList, .str "1h30m".toList), ("sampleRate".toList, .num "10".toList)]

theorem full_fields : ∀ e ∈ full, Field e := by
  intro e he
  simp only [full, List.mem_cons, List.not_mem_nil, or_false] at he
  rcases he with rfl | rfl | rfl | rfl
  · refine .inr (.inl ⟨.inr rfl, _, rfl, fun x hx => ?_⟩)
    rcases List.mem_cons.1 hx with rfl | hx
    · exact ⟨_, rfl⟩
    · rw [List.mem_singleton.1 hx]
      exact ⟨_, rfl⟩
  · refine .inl ⟨.inl rfl, _, rfl, fun x hx => ?_⟩
    rcases List.mem_cons.1 hx with rfl | hx
    · exact .inl ⟨rfl, _, rfl, fun y hy => by rw [List.mem_singleton.1 hy]; exact ⟨_, rfl⟩⟩
    · rw [List.mem_singleton.1 hx]
      refine .inr ⟨rfl, _, rfl, fun y hy => ?_⟩
      rw [List.mem_singleton.1 hy]
      refine ⟨_, rfl, ⟨_, .tail _ (.head _)⟩, ⟨_, .head _⟩, fun z hz => ?_⟩
      rcases List.mem_cons.1 hz with rfl | hz
      · exact .inr (.inl ⟨rfl, _, rfl⟩)
      rcases List.mem_cons.1 hz with rfl | hz
      · exact .inl ⟨rfl, _, rfl⟩
      rw [List.mem_singleton.1 hz]
      exact .inr (.inr ⟨rfl, _, rfl, fun u hu => by rw [List.mem_singleton.1 hu]; exact ⟨_, rfl⟩⟩)
  · exact .inr (.inr (.inl ⟨rfl, _, rfl⟩))
  · exact .inr (.inr (.inr ⟨rfl, _, rfl, by decide, by decide, by decide⟩))

/-- It is stored whole, and by the chart without its sample rate. -/
example : submit manifests (doc [] full) = some (doc [] full) ∧ submit chart (doc [] full) = some (doc [] (full.take 3)) :=
  ⟨c150_stored [] full full_fields, c150_chart_violated [] full full_fields⟩

/-- A list where a text should be is refused. -/
example : submit manifests (doc [] [("duration".toList, .arr [])]) = none := by rfl

/-- What is well written is JSON, and this one can be understood. -/
example : (∃ t, Says t (.obj full)) ∧ (Admit.read (doc [] full)).isSome := by
  constructor
  · refine ⟨_, Lemmas.Json.text_says _ ?_⟩
    simp only [full, Lemmas.Json.Fine, Lemmas.Json.FineMembers, Lemmas.Json.FineElems, true_and, and_true]
    exact ⟨[], "10".toList, [], [], rfl, .inl rfl, ⟨by decide, by unfold Spec.Json.Digit; decide⟩, by decide, .inl rfl, .inl rfl⟩
  · rw [read_doc]
    decide +kernel

end Swoll.Props.Admit
