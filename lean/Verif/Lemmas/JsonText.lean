import Verif.Lemmas.Json
/-
Writing JSON: what is written says what was to be written.
-/
namespace Swoll.Lemmas.Json
open Swoll.Json Swoll.Spec.Json

mutual
/-- The numbers in it are numbers. -/
def Fine : Json → Prop
  | .null => True
  | .bool _ => True
  | .num l => Number l
  | .str _ => True
  | .arr l => FineElems l
  | .obj l => FineMembers l
/-- As above. -/
def FineElems : List Json → Prop
  | [] => True
  | v :: l => Fine v ∧ FineElems l
/-- As above. -/
def FineMembers : List (Str × Json) → Prop
  | [] => True
  | (_, v) :: l => Fine v ∧ FineMembers l
end

theorem hex_digit {n : Nat} (h : n < 16) : Hex (hexDigit n) n := by
  unfold hexDigit
  split
  · next h1 => exact .dec n h1
  · next h1 =>
    have := Hex.low (n - 10) (by omega)
    rw [show 'a'.toNat + (n - 10) = 87 + n by simp; omega, show 10 + (n - 10) = n by omega] at this
    exact this

theorem body_escape (c : Char) {s t : Str} (h : Body s t) : Body (c :: s) (escape c ++ t) := by
  unfold escape
  split
  · next e => subst e; exact .two (by decide) h
  · split
    · next e => subst e; exact .two (by decide) h
    · split
      · next e => subst e; exact .two (by decide) h
      · split
        · next e => subst e; exact .two (by decide) h
        · split
          · next e => subst e; exact .two (by decide) h
          · split
            · next e =>
              have hc : c.toNat < 65536 := by
                rcases e with e | rfl | rfl | rfl | e | e
                · omega
                · decide
                · decide
                · decide
                · omega
                · omega
              have := Body.unicode (c := c) (h := [hexDigit (c.toNat / 4096 % 16), hexDigit (c.toNat / 256 % 16),
                hexDigit (c.toNat / 16 % 16), hexDigit (c.toNat % 16)]) ⟨_, _, _, _, _, _, _, _, rfl,
                hex_digit (Nat.mod_lt _ (by decide)), hex_digit (Nat.mod_lt _ (by decide)),
                hex_digit (Nat.mod_lt _ (by decide)), hex_digit (Nat.mod_lt _ (by decide)), by omega⟩ h
              exact this
            · next h1 h2 _ _ _ h3 =>
              rw [not_or] at h3
              exact .plain (by omega) h1 h2 h

theorem quoted_quote (s : Str) : Quoted s (quote s) := by
  refine ⟨s.flatMap escape, ?_, rfl⟩
  induction s with
  | nil => exact .nil
  | cons c s ih => rw [List.flatMap_cons]; exact body_escape c ih

theorem space_nil : Space [] := fun _ h => by cases h

theorem space_newline (d : Nat) : Space (newline d) := by
  intro c hc
  rcases List.mem_cons.1 hc with rfl | hc
  · decide
  · rw [List.mem_replicate] at hc
    exact Or.inl hc.2

mutual
theorem text_says : ∀ (v : Json), Fine v → Says v.text v
  | .null, _ => .null
  | .bool true, _ => .yes
  | .bool false, _ => .no
  | .num l, h => .num h
  | .str s, _ => .str (quoted_quote s)
  | .arr [], _ => .empty space_nil
  | .arr (v :: l), h => .arr (textElems_says (v :: l) (by simp) h)
  | .obj [], _ => .none space_nil
  | .obj (e :: l), h => .obj (textMembers_says (e :: l) (by simp) h)
theorem textElems_says : ∀ (l : List Json), l ≠ [] → FineElems l → Lists (textElems l) l
  | [], h, _ => absurd rfl h
  | [v], _, h => by
    have := Lists.last space_nil (text_says v h.1) space_nil
    simpa [textElems] using this
  | v :: w :: l, _, h => by
    have := Lists.more space_nil (text_says v h.1) space_nil (textElems_says (w :: l) (by simp) h.2)
    rw [textElems]
    simpa using this
theorem textMembers_says : ∀ (l : List (Str × Json)), l ≠ [] → FineMembers l → Maps (textMembers l) l
  | [], h, _ => absurd rfl h
  | [(k, v)], _, h => by
    have := Maps.last space_nil (quoted_quote k) space_nil space_nil (text_says v h.1) space_nil
    simpa [textMembers] using this
  | (k, v) :: e :: l, _, h => by
    have := Maps.more space_nil (quoted_quote k) space_nil space_nil (text_says v h.1) space_nil
      (textMembers_says (e :: l) (by simp) h.2)
    rw [textMembers]
    simpa using this
end

theorem space_one : Space [' '] := by
  intro c hc
  rw [List.mem_singleton] at hc
  exact Or.inl hc

mutual
theorem pretty_says (d : Nat) : ∀ (v : Json), Fine v → Says (v.pretty d) v
  | .null, _ => .null
  | .bool true, _ => .yes
  | .bool false, _ => .no
  | .num l, h => .num h
  | .str s, _ => .str (quoted_quote s)
  | .arr [], _ => .empty space_nil
  | .arr (v :: l), h => by
    have := Says.arr (prettyElems_says (d + 1) (newline d) (space_newline d) (v :: l) (by simp) h)
    rw [Json.pretty]
    simpa using this
  | .obj [], _ => .none space_nil
  | .obj (e :: l), h => by
    have := Says.obj (prettyMembers_says (d + 1) (newline d) (space_newline d) (e :: l) (by simp) h)
    rw [Json.pretty]
    simpa using this
theorem prettyElems_says (d : Nat) (w : Str) (hw : Space w) : ∀ (l : List Json), l ≠ [] → FineElems l →
    Lists (prettyElems d l ++ w) l
  | [], h, _ => absurd rfl h
  | [v], _, h => by
    have := Lists.last (space_newline d) (pretty_says d v h.1) hw
    simpa [prettyElems] using this
  | v :: x :: l, _, h => by
    have := Lists.more (space_newline d) (pretty_says d v h.1) space_nil (prettyElems_says d w hw (x :: l) (by simp) h.2)
    rw [prettyElems]
    simpa using this
theorem prettyMembers_says (d : Nat) (w : Str) (hw : Space w) : ∀ (l : List (Str × Json)), l ≠ [] →
    FineMembers l → Maps (prettyMembers d l ++ w) l
  | [], h, _ => absurd rfl h
  | [(k, v)], _, h => by
    have := Maps.last (space_newline d) (quoted_quote k) space_nil space_one (pretty_says d v h.1) hw
    simpa [prettyMembers] using this
  | (k, v) :: e :: l, _, h => by
    have := Maps.more (space_newline d) (quoted_quote k) space_nil space_one (pretty_says d v h.1) space_nil
      (prettyMembers_says d w hw (e :: l) (by simp) h.2)
    rw [prettyMembers]
    simpa using this
end

end Swoll.Lemmas.Json
