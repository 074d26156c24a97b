import Verif.Lemmas.DeepCopy
/-
C112: a copy of a trace, of a list of traces, of a specification or of a status is equal to the original and
shares nothing with it.
-/
namespace Swoll.Props.DeepCopy
open Swoll.DeepCopy Swoll.Spec.DeepCopy Swoll.Lemmas.DeepCopy

/-- C112, for `(*Trace).DeepCopy`: a pointer that is not nil gives one that is not nil, through which the same is
seen, nothing that was there changes, and whatever is done through one of the two pointers afterwards is
never seen through the other. -/
theorem c112_trace (h : Heap) (ok : HeapOk h) (p : Nat) (t : Trace) (hp : h[p]? = some (.trace t)) :
    ∃ h' q, copyTrace h (some p) = (h', some q) ∧ Copy h p h' q := by
  obtain ⟨g, hg, hc⟩ := copyTrace_spec ok hp
  exact ⟨g, _, hg, hc⟩

/-- C112, for `(*TraceList).DeepCopy`, with all of its items. -/
theorem c112_list (h : Heap) (ok : HeapOk h) (p : Nat) (l : TraceList) (hp : h[p]? = some (.list l)) :
    ∃ h' q, copyList h (some p) = (h', some q) ∧ Copy h p h' q := by
  obtain ⟨g, hg, hc⟩ := copyList_spec ok hp
  exact ⟨g, _, hg, hc⟩

/-- C112, for `(*TraceSpec).DeepCopy`. -/
theorem c112_spec (h : Heap) (ok : HeapOk h) (p : Nat) (s : TraceSpec) (hp : h[p]? = some (.spec s)) :
    ∃ h' q, copySpec h (some p) = (h', some q) ∧ Copy h p h' q := by
  obtain ⟨g, hg, hc⟩ := copySpec_spec ok hp
  exact ⟨g, _, hg, hc⟩

/-- C112, for `(*TraceStatus).DeepCopy`. -/
theorem c112_status (h : Heap) (ok : HeapOk h) (p : Nat) (s : TraceStatus) (hp : h[p]? = some (.status s)) :
    ∃ h' q, copyStatus h (some p) = (h', some q) ∧ Copy h p h' q := by
  obtain ⟨g, hg, hc⟩ := copyStatus_spec ok hp
  exact ⟨g, _, hg, hc⟩

/-- C112, for `DeepCopyObject`: what is returned holds such a copy. -/
theorem c112_object (h : Heap) (ok : HeapOk h) (p : Nat) :
    (∀ t, h[p]? = some (.trace t) →
      ∃ h' q, copyTraceObject h (some p) = (h', .trace (some q)) ∧ Copy h p h' q) ∧
    (∀ l, h[p]? = some (.list l) →
      ∃ h' q, copyListObject h (some p) = (h', .list (some q)) ∧ Copy h p h' q) := by
  refine ⟨fun t hp => ?_, fun l hp => ?_⟩
  · obtain ⟨g, hg, hc⟩ := copyTrace_spec ok hp
    exact ⟨g, _, by simp only [copyTraceObject, hg], hc⟩
  · obtain ⟨g, hg, hc⟩ := copyList_spec ok hp
    exact ⟨g, _, by simp only [copyListObject, hg], hc⟩

/-- C112, for nil: the copy of nil is nil and costs nothing, and as an object it is the nil interface, not an
interface that holds a nil pointer. -/
theorem c112_nil (h : Heap) :
    copyTrace h none = (h, none) ∧ copyList h none = (h, none) ∧ copySpec h none = (h, none) ∧
    copyStatus h none = (h, none) ∧ copyTraceObject h none = (h, .nil) ∧ copyListObject h none = (h, .nil) :=
  ⟨rfl, rfl, rfl, rfl, rfl, rfl⟩

/-! A heap with a list of two traces that share a selector, and slices that lie within their arrays. -/

def sel : Selector := ⟨some 0, some ⟨2, 1, 1⟩⟩
def tr : Trace := ⟨("Trace", "v1"), ⟨"a", some 0, none, some 4, some ⟨1, 0, 1⟩⟩,
  ⟨sel, ⟨none, none⟩, none, some ⟨1, 1, 2⟩, 60, 0⟩, ⟨"Running", some 3, none, "sw-1"⟩⟩
def sample : Heap :=
  [.labels [("app", "x")], .strings ["f", "openat", "execve"],
   .reqs [⟨"k", "Exists", none⟩, ⟨"tier", "In", some ⟨1, 0, 2⟩⟩], .time 7, .time 9,
   .traces [tr, .zero, tr], .list ⟨("TraceList", "v1"), ⟨"", none⟩, some ⟨5, 1, 2⟩⟩, .trace tr]

theorem sample_ok : HeapOk sample := by
  have str : ∀ s ∈ [none, some ⟨1, 0, 1⟩, some ⟨1, 1, 2⟩, some (⟨1, 0, 2⟩ : Slice)], StringsOk sample s := by
    intro s hs x hx
    subst hx
    refine ⟨["f", "openat", "execve"], ?_⟩
    simp at hs
    rcases hs with rfl | rfl | rfl <;> exact ⟨rfl, by decide⟩
  have okt : TraceOk sample tr := by
    refine ⟨⟨?_, ?_, ?_, str _ (by simp [tr])⟩, ⟨⟨?_, ?_⟩, ⟨?_, ?_⟩, str _ (by simp [tr]), str _ (by simp [tr])⟩,
      ?_, ?_⟩ <;> intro x hx <;> cases hx
    · exact ⟨_, rfl⟩
    · exact ⟨_, rfl⟩
    · exact ⟨_, rfl⟩
    · exact ⟨_, rfl, by decide⟩
    · exact ⟨_, rfl⟩
  intro a c hc
  match a, hc with
  | 0, hc => cases hc; trivial
  | 1, hc => cases hc; trivial
  | 2, hc =>
    cases hc
    intro r hr
    simp at hr
    rcases hr with rfl | rfl
    · exact str _ (by simp)
    · exact str _ (by simp)
  | 3, hc => cases hc; trivial
  | 4, hc => cases hc; trivial
  | 5, hc =>
    cases hc
    intro r hr
    simp at hr
    rcases hr with rfl | rfl | rfl
    · exact okt
    · exact zero_ok
    · exact okt
  | 6, hc =>
    cases hc
    refine ⟨?_, ?_⟩ <;> intro x hx <;> cases hx
    exact ⟨_, rfl, by decide⟩
  | 7, hc => cases hc; exact okt
  | n + 8, hc => simp [sample] at hc

/-- The hypotheses of `c112_list` and of `c112_trace` hold of it. -/
example : (∃ h' q, copyList sample (some 6) = (h', some q) ∧ Copy sample 6 h' q) ∧
    (∃ h' q, copyTrace sample (some 7) = (h', some q) ∧ Copy sample 7 h' q) :=
  ⟨c112_list sample sample_ok 6 _ rfl, c112_trace sample sample_ok 7 _ rfl⟩

/-- What is seen is not trivial, and the copy does not lie where the original does. -/
example : see sample 7 ≠ .other ∧ (copyTrace sample (some 7)).2 = some 8 := by decide

/-- Being separate says something: the two items of the list share their selector, and so do not pass it. -/
example : ¬ Separate (sample ++ [.trace tr]) 7 8 := by
  intro h
  have r : ∀ p, (sample ++ [.trace tr])[p]? = some (.trace tr) → Reach (sample ++ [.trace tr]) p 0 :=
    fun p hp => .step .here hp (by decide)
  have := (h _ .start).1 _ _ (.write (c := .labels []) (r 7 rfl) (by intro r hr; cases hr)) 8 .here
  exact absurd this (by decide)

end Swoll.Props.DeepCopy
