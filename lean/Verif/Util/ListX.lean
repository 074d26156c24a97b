/-
List facts used by several areas.
-/
namespace Swoll.ListX

theorem inj_on_of_nodup_map {α β : Type} {f : α → β} : ∀ {l : List α}, (l.map f).Nodup →
    ∀ {x y : α}, x ∈ l → y ∈ l → f x = f y → x = y := by
  intro l
  induction l with
  | nil => intro _ x y hx; cases hx
  | cons a l ih =>
    intro hn x y hx hy e
    rw [List.map_cons, List.nodup_cons] at hn
    rcases List.mem_cons.1 hx with hxa | hxl
    · rcases List.mem_cons.1 hy with hya | hyl
      · rw [hxa, hya]
      · subst hxa
        exact absurd (by rw [e]; exact List.mem_map_of_mem hyl) hn.1
    · rcases List.mem_cons.1 hy with hya | hyl
      · subst hya
        exact absurd (by rw [← e]; exact List.mem_map_of_mem hxl) hn.1
      · exact ih hn.2 hxl hyl e

/-- Induction from the right end. -/
theorem snoc_induction {α : Type} {P : List α → Prop} (l : List α) (h0 : P [])
    (h1 : ∀ l a, P l → P (l ++ [a])) : P l := by
  have : ∀ r : List α, P r.reverse := by
    intro r
    induction r with
    | nil => exact h0
    | cons a r ih => rw [List.reverse_cons]; exact h1 _ _ ih
  simpa using this l.reverse

end Swoll.ListX
