import Verif.Lemmas.Client
import Verif.Model.Pages
import Verif.Spec.Pages
/-
Paths that are not redirected consist of plain names.
-/
namespace Swoll.Lemmas.Pages
open Swoll.Client Swoll.Spec.Client Swoll.Lemmas.Client Swoll.Pages

theorem cleanSegs_plain (l : List Str) : ∀ acc : List Str,
    (∀ s ∈ acc, s ≠ [] ∧ s ≠ ascii "." ∧ s ≠ ascii "..") →
    ∀ s ∈ cleanSegs acc l, s ≠ [] ∧ s ≠ ascii "." ∧ s ≠ ascii ".." := by
  induction l with
  | nil => intro acc h; exact h
  | cons x l ih =>
    intro acc h
    rw [cleanSegs]
    split
    · exact ih acc h
    · rename_i h1
      split
      · exact ih _ fun s hs => h s (List.dropLast_subset _ hs)
      · rename_i h2
        apply ih
        intro s hs
        rcases List.mem_append.1 hs with hs | hs
        · exact h s hs
        · rw [List.mem_singleton] at hs
          subst hs
          exact ⟨fun e => h1 (.inl e), fun e => h1 (.inr e), h2⟩

/-- The parts of a clean path that does not end with a slash. -/
theorem plain_of_clean {l : List Str} (hn : ∀ s ∈ l, (47 : Byte) ∉ s) (hc : cleanPath (joinSegs l) = joinSegs l)
    (hl : ∃ s, l.getLast? = some s ∧ s ≠ []) : ∀ s ∈ l, PlainName s := by
  obtain ⟨z, hz, hz0⟩ := hl
  have hsplit : split 47 (joinSegs l) = [] :: l := by
    have := split_join l [] (by
      intro t ht
      rcases List.mem_cons.1 ht with rfl | ht
      · simp
      · exact hn t ht)
    simpa using this
  have hlast : (joinSegs l).getLast? ≠ some 47 := by
    obtain ⟨l', rfl⟩ : ∃ l', l = l' ++ [z] := by
      obtain ⟨h1, h2⟩ := List.getLast?_eq_some_iff.1 hz
      exact ⟨h1, h2⟩
    have : joinSegs (l' ++ [z]) = (joinSegs l' ++ [47]) ++ z := by simp [joinSegs]
    rw [this]
    rw [List.getLast?_append]
    cases hzz : z.getLast? with
    | none => rw [List.getLast?_eq_none_iff] at hzz; exact absurd hzz hz0
    | some c =>
      have hm := List.mem_of_getLast? hzz
      intro h
      simp only [Option.some_or, Option.some.injEq] at h
      subst h
      exact hn z (by simp) hm
  unfold cleanPath at hc
  rw [if_neg (fun h => hlast h.1), hsplit] at hc
  have h0 : cleanSegs [] ([] :: l) = cleanSegs [] l := by rw [cleanSegs, if_pos (.inl rfl)]
  rw [h0] at hc
  have hp := cleanSegs_plain l [] (by simp)
  split at hc
  · rename_i h1
    exfalso
    have : (joinSegs l).getLast? = some 47 := by rw [← hc]; rfl
    exact hlast this
  · have hsub : ∀ s ∈ cleanSegs [] l, (47 : Byte) ∉ s := by
      have key : ∀ (l acc : List Str), (∀ s ∈ acc, (47 : Byte) ∉ s) → (∀ s ∈ l, (47 : Byte) ∉ s) →
          ∀ s ∈ cleanSegs acc l, (47 : Byte) ∉ s := by
        intro l
        induction l with
        | nil => intro acc h _; exact h
        | cons x l ih =>
          intro acc h hx
          rw [cleanSegs]
          have hl' : ∀ s ∈ l, (47 : Byte) ∉ s := fun s hs => hx s (.tail _ hs)
          split
          · exact ih acc h hl'
          · split
            · exact ih _ (fun s hs => h s (List.dropLast_subset _ hs)) hl'
            · apply ih _ _ hl'
              intro s hs
              rcases List.mem_append.1 hs with hs | hs
              · exact h s hs
              · rw [List.mem_singleton] at hs; subst hs; exact hx _ (.head _)
      exact key l [] (by simp) hn
    have h2 := congrArg (split 47) hc
    have hs2 : split 47 (joinSegs (cleanSegs [] l)) = [] :: cleanSegs [] l := by
      have := split_join (cleanSegs [] l) [] (by
        intro t ht
        rcases List.mem_cons.1 ht with rfl | ht
        · simp
        · exact hsub t ht)
      simpa using this
    have h3 : joinSegs (cleanSegs [] l) = joinSegs l := hc
    rw [h3, hsplit] at hs2
    have h4 : l = cleanSegs [] l := (List.cons.inj hs2).2
    intro s hs
    have h5 := hp s (h4 ▸ hs)
    exact ⟨h5.1, hn s hs, h5.2.1, h5.2.2⟩

/-- A path that is handled is one of slashes and parts. -/
theorem path_eq {m : Method} {path : Str} {x : Handler} (h : route m path = .handle x) :
    ∃ l, path = joinSegs l ∧ (split 47 path).drop 1 = l ∧ (∀ s ∈ l, (47 : Byte) ∉ s) := by
  have hj := joinSegs_split path
  have hc := (route_handle m path x h).1
  cases hs : split 47 path with
  | nil => exact absurd hs (split_ne_nil _ _)
  | cons a l =>
    rw [hs] at hj
    have hno := split_noslash path
    rw [hs] at hno
    have ha : a = [] := by
      -- a clean path begins with a slash
      have hhead : path.head? = some 47 := by
        rw [← hc]
        unfold cleanPath
        dsimp only
        cases hx : cleanSegs [] (split 47 path) with
        | nil => simp
        | cons y ys =>
          simp only [reduceCtorEq, if_false]
          split <;> rfl
      cases path with
      | nil => cases hhead
      | cons c cs =>
        simp only [List.head?_cons, Option.some.injEq] at hhead
        subst hhead
        rw [split, if_pos rfl] at hs
        exact (List.cons.inj hs).1.symm
    subst ha
    refine ⟨l, ?_, rfl, fun s hs' => hno s (.tail _ hs')⟩
    have : joinSegs ([] :: l) = 47 :: joinSegs l := rfl
    rw [this] at hj
    exact (List.cons.inj hj).2.symm

theorem unescape_ws : ∀ (s p : Str), unescape .path s = some p → unescape .path (s ++ ascii "/ws") = some (p ++ ascii "/ws") := by
  intro s
  have hws : unescape .path (ascii "/ws") = some (ascii "/ws") := by decide
  induction hn : s.length using Nat.strongRecOn generalizing s with
  | ind n ih =>
    intro p h
    cases s with
    | nil =>
      rw [unescape] at h
      injection h with h
      subst h
      exact hws
    | cons c rest =>
      rw [List.cons_append]
      rw [unescape.eq_def] at h ⊢
      dsimp only at h ⊢
      by_cases hc : c = 37
      · rw [if_pos hc] at h ⊢
        match rest, h with
        | [], h => cases h
        | [_], h => cases h
        | a :: b :: rest', h =>
          dsimp only [List.cons_append] at h ⊢
          cases hx : unhex a with
          | none => rw [hx] at h; cases h
          | some x =>
            cases hy : unhex b with
            | none => rw [hx, hy] at h; cases h
            | some y =>
              rw [hx, hy] at h
              dsimp only at h ⊢
              simp only [show (Part.path = Part.host) = False by simp, decide_false, Bool.false_and, Bool.false_eq_true,
                if_false] at h ⊢
              cases hr : unescape .path rest' with
              | none => rw [hr] at h; cases h
              | some r =>
                rw [hr] at h
                rw [ih rest'.length (by subst hn; simp only [List.length_cons]; omega) rest' rfl r hr]
                injection h with h
                subst h
                rfl
      · rw [if_neg hc] at h ⊢
        have hlt : rest.length < n := by subst hn; simp
        by_cases h43 : c = 43
        · rw [if_pos h43] at h ⊢
          cases hr : unescape .path rest with
          | none => rw [hr] at h; cases h
          | some r =>
            rw [hr] at h
            rw [ih _ hlt rest rfl r hr]
            injection h with h
            subst h
            rfl
        · rw [if_neg h43] at h ⊢
          simp only [show (Part.path = Part.host) = False by simp, decide_false, Bool.false_and, Bool.false_eq_true,
            if_false] at h ⊢
          cases hr : unescape .path rest with
          | none => rw [hr] at h; cases h
          | some r =>
            rw [hr] at h
            rw [ih _ hlt rest rfl r hr]
            injection h with h
            subst h
            rfl

end Swoll.Lemmas.Pages
