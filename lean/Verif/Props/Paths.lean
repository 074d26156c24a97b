import Verif.Spec.Paths
import Verif.Props.PubSub
/-
C140: combined paths visit every path of every part.
-/
namespace Swoll.Props.Paths
open Swoll Swoll.PubSub Swoll.Paths Swoll.Spec.PubSub Swoll.Spec.Paths

/-! ### Helpers -/

/-- Calling with `i`, `i + 1`, … gives these and then no more. -/
inductive Drains : Paths → Int → List Entry → Prop where
  | nil {p p' : Paths} {i : Int} : call p i = (some none, p') → Drains p i []
  | cons {p p' : Paths} {i : Int} {e : Entry} {l : List Entry} : call p i = (some (some e), p') → Drains p' (i + 1) l →
      Drains p i (e :: l)

theorem visit_of {p : Paths} {i : Int} {l : List Entry} (h : Drains p i l) :
    ∀ n, l.length < n → ∃ p', visit n p i = some (l, p') := by
  induction h with
  | @nil p p' i h =>
    intro n hn
    cases n with
    | zero => cases hn
    | succ n => exact ⟨p', by rw [visit, h]⟩
  | @cons p p' i e l h _ ih =>
    intro n hn
    cases n with
    | zero => cases hn
    | succ n =>
      obtain ⟨q, hq⟩ := ih n (by simpa using hn)
      exact ⟨q, by rw [visit, h]; simp only [hq]; rfl⟩

theorem drains_of : ∀ (n : Nat) {p p' : Paths} {i : Int} {l : List Entry}, visit n p i = some (l, p') → Drains p i l := by
  intro n
  induction n with
  | zero => intro p p' i l h; cases h
  | succ n ih =>
    intro p p' i l h
    rw [visit] at h
    split at h
    · cases h
    · rename_i q hq
      cases h
      exact .nil hq
    · rename_i e q hq
      obtain ⟨r, hr, h'⟩ := Option.map_eq_some_iff.1 h
      cases h'
      exact .cons hq (ih hr)

theorem follows_iff (p : Paths) (l : List Entry) : Follows p l ↔ Drains p 0 l :=
  ⟨fun h => (h _ (Nat.lt_succ_self _)).elim fun _ h => drains_of _ h, fun h => visit_of h⟩

theorem drains_slice (l : List Entry) : ∀ (k : Nat), k ≤ l.length → Drains (.slice l) k (l.drop k) := by
  intro k hk
  induction h : l.length - k generalizing k with
  | zero =>
    have : k = l.length := by omega
    subst this
    rw [List.drop_length]
    exact .nil (p' := .slice l) (by rw [call, if_pos (by omega)])
  | succ d ih =>
    have hlt : k < l.length := by omega
    rw [List.drop_eq_getElem_cons hlt]
    refine .cons (p' := .slice l) ?_ ?_
    · rw [call, if_neg (by omega), if_neg (by omega)]
      simp [hlt]
    · exact ih (k + 1) hlt (by omega)

theorem drains_combined {p : Paths} {j : Int} {l : List Entry} (h : Drains p j l) : ∀ (ps : List Paths) (ls : List Entry) (s i : Int),
    i = s + j → (∀ s', Drains (.combined s' ps) s' ls) → Drains (.combined s (p :: ps)) i (l ++ ls) := by
  induction h with
  | @nil p p' j h =>
    intro ps ls s i hi hps
    have hc : call (.combined s (p :: ps)) i = call (.combined i ps) i := by
      rw [call, calls, show i - s = j by omega, h, call]
    have := hps i
    cases this with
    | nil h' => exact .nil (hc.trans h')
    | cons h' h'' => exact .cons (hc.trans h') h''
  | @cons p p' j e l h _ ih =>
    intro ps ls s i hi hps
    refine .cons (p' := .combined s (p' :: ps)) ?_ (ih ps ls s (i + 1) (by omega) hps)
    rw [call, calls, show i - s = j by omega, h]

/-! ### C140 -/

/-- Paths over a slice follow its elements. -/
theorem c140_slices (keys : List Key) (a : Trav) (t : List (Key × Trav)) :
    Follows (flatPaths keys) (keys.map (·, none)) ∧ Follows (pathsWithTraverser keys a) (keys.map (·, some a)) ∧
    Follows (pathAndTraversers t) (t.map fun e => (e.1, some e.2)) :=
  ⟨(follows_iff _ _).2 (drains_slice _ 0 (Nat.zero_le _)), (follows_iff _ _).2 (drains_slice _ 0 (Nat.zero_le _)),
    (follows_iff _ _).2 (drains_slice _ 0 (Nat.zero_le _))⟩

/-- Combined paths follow the paths of the first part, then those of the second, and so on; the parts may themselves be
combined. -/
theorem c140_combine : ∀ (parts : List (Paths × List Entry)), (∀ e ∈ parts, Follows e.1 e.2) →
    Follows (combinePaths (parts.map (·.1))) (parts.flatMap (·.2)) := by
  intro parts h
  rw [follows_iff]
  have key : ∀ s, Drains (.combined s (parts.map (·.1))) s (parts.flatMap (·.2)) := by
    induction parts with
    | nil => intro s; exact .nil (p' := .combined s []) rfl
    | cons e parts ih =>
      intro s
      rw [List.map_cons, List.flatMap_cons]
      exact drains_combined ((follows_iff _ _).1 (h e List.mem_cons_self)) _ _ s s (by omega)
        (ih (fun x hx => h x (List.mem_cons_of_mem _ hx)))
  exact key 0

/-- So an event that is published with combined paths reaches each subscriber once for each way that one of the parts
spells its path. -/
theorem c140_publish {D : Type} {srt : List Env → List Env} (hs : Node.IsSort srt) (hist : List Op) (hu : UnsubOnce hist) :
    ∃ s, run srt PS.new hist = some s ∧
    ∀ (parts : List (List (Key × Trav))) (a : Trav),
      Follows (combinePaths (parts.map pathAndTraversers)) a.paths →
      ∀ (hasher : Option (D → BitVec 64)) (o : Oracle) (_ho : o.Valid) (d : D), ∀ x ∈ active hist, x.shard = "" → x.path ≠ [] →
        (publish hasher o s d a).count x.token =
          (parts.map fun part => ways (.mk (part.map fun e => (e.1, some e.2))) x.path).sum := by
  obtain ⟨s, hrun, hc⟩ := PubSub.c01_traverser (D := D) hs hist hu
  refine ⟨s, hrun, ?_⟩
  intro parts a ha hasher o ho d x hx hsh hp
  rw [(hc hasher o ho d a).1 x hx hsh]
  have hf := c140_combine (parts.map fun part => (pathAndTraversers part, part.map fun e => (e.1, some e.2))) (by
    intro e he
    obtain ⟨part, -, rfl⟩ := List.mem_map.1 he
    exact (c140_slices [] (.mk []) part).2.2)
  rw [List.map_map, List.flatMap_map] at hf
  have hpaths : a.paths = parts.flatMap fun part => part.map fun e => (e.1, some e.2) := by
    obtain ⟨p1, h1⟩ := ha _ (Nat.lt_succ_of_le (Nat.le_max_left _ (parts.flatMap fun part => part.map fun e => (e.1, some e.2)).length))
    obtain ⟨p2, h2⟩ := hf _ (Nat.lt_succ_of_le (Nat.le_max_right a.paths.length _))
    have h3 : combinePaths (parts.map pathAndTraversers) =
      combinePaths (parts.map ((fun e => e.1) ∘ fun part => (pathAndTraversers part, part.map fun e => ((e.1, some e.2) : Entry)))) := rfl
    rw [h3, h2] at h1
    exact (congrArg Prod.fst (Option.some.inj h1)).symm
  cases hxp : x.path with
  | nil => exact absurd hxp hp
  | cons k ks =>
    rw [ways, hpaths]
    clear hf ha hpaths
    induction parts with
    | nil => rfl
    | cons part parts ih =>
      rw [List.flatMap_cons, List.filter_append, List.map_append, List.sum_append, List.map_cons, List.sum_cons, ← ih]
      congr 1
      rw [ways]
      congr 1
      apply List.map_congr_left
      intro e he
      obtain ⟨f, -, rfl⟩ := List.mem_map.1 (List.mem_filter.1 he).1
      rfl

/-- Combined paths can be followed once: a traverser that hands out the same combined paths again, for a second event or
further down, has no paths. -/
theorem c140_reuse_violated :
    ∃ (p p' : Paths) (e : Entry), p = combinePaths [.slice [e]] ∧ visit 2 p 0 = some ([e], p') ∧
      Follows p [e] ∧ ¬ Follows p' [e] ∧ Follows p' [] := by
  refine ⟨combinePaths [.slice [(1, none)]], .combined 1 [], (1, none), rfl, rfl,
    (follows_iff _ _).2 (.cons (p' := .combined 0 [.slice [(1, none)]]) rfl (.nil (p' := .combined 1 []) rfl)), fun h => ?_,
    (follows_iff _ _).2 (.nil (p' := .combined 1 []) rfl)⟩
  obtain ⟨q, hq⟩ := h 2 (by decide)
  have hq' : some 0 = some 1 := congrArg (fun r => r.map (fun r => r.1.length)) hq
  exact absurd hq' (by decide)

/-- The hypotheses are met: a traverser with two parts. -/
example : ∃ a : Trav, Follows (combinePaths ([[(1, linear [2])], [], [(3, linear []), (1, linear [])]].map pathAndTraversers)) a.paths :=
  ⟨.mk [(1, some (linear [2])), (3, some (linear [])), (1, some (linear []))],
    c140_combine [(pathAndTraversers [(1, linear [2])], [(1, some (linear [2]))]), (pathAndTraversers [], []),
      (pathAndTraversers [(3, linear []), (1, linear [])], [(3, some (linear [])), (1, some (linear []))])] (by
    intro e he
    simp only [List.mem_cons, List.not_mem_nil, or_false] at he
    rcases he with rfl | rfl | rfl <;> exact (c140_slices [] (.mk []) _).2.2)⟩

end Swoll.Props.Paths
