import Verif.Lemmas.Json
/-
What is read is JSON.
-/
namespace Swoll.Lemmas.Json
open Swoll.Json Swoll.Spec.Json

theorem skip_split (s : Str) : ∃ w, s = w ++ skip s ∧ Space w := by
  induction s with
  | nil => exact ⟨[], rfl, fun _ h => by cases h⟩
  | cons c s ih =>
    cases hc : isSpace c with
    | false => exact ⟨[], by rw [skip_cons hc]; rfl, fun _ h => by cases h⟩
    | true =>
      obtain ⟨w, h1, h2⟩ := ih
      refine ⟨c :: w, ?_, ?_⟩
      · have : skip (c :: s) = skip s := by simp [skip, hc]
        rw [this, List.cons_append, ← h1]
      · intro x hx
        rcases List.mem_cons.1 hx with rfl | hx
        · exact isSpace_iff.1 hc
        · exact h2 x hx

theorem space_append {a b : Str} (ha : Space a) (hb : Space b) : Space (a ++ b) := by
  intro c hc
  rcases List.mem_append.1 hc with h | h
  · exact ha c h
  · exact hb c h

theorem body_escaped {s r k b : Str} {c : Char} (h : escaped s = some (c, r)) (hb : Body k b) {rest : Str}
    (hr : r = b ++ '"' :: rest) : ∃ e, s = e ++ r ∧ Body (c :: k) ('\\' :: e ++ b) := by
  unfold escaped at h
  split at h
  · cases h
  · next e s =>
    split at h
    · next he =>
      subst he
      unfold hexed at h
      split at h
      · next x y z w s =>
        split at h
        · cases h
        · next u hu =>
          have h4 := hex4_getu4 hu
          split at h
          · next hs =>
            split at h
            · next p hp =>
              obtain ⟨p1, p2⟩ := p
              simp only [Option.some.injEq, Prod.mk.injEq] at h
              obtain ⟨rfl, rfl⟩ := h
              obtain ⟨l, lo, e, hl, a1, a2, a3, a4, a5⟩ := second_shape hp
              refine ⟨'u' :: x :: y :: z :: w :: '\\' :: 'u' :: l, ?_, ?_⟩
              · rw [e]; simp
              · have := Body.pair (c := Char.ofNat p1) h4 hl a1 a2 a3 a4 (by
                  rw [← a5]
                  unfold Char.ofNat
                  rw [dif_pos (show p1.isValidChar from Or.inr ⟨by omega, by omega⟩)]
                  rfl) hb
                simpa using this
            · next hp =>
              simp only [Option.some.injEq, Prod.mk.injEq] at h
              obtain ⟨rfl, rfl⟩ := h
              refine ⟨['u', x, y, z, w], rfl, ?_⟩
              have := Body.half h4 hs.1 hs.2 (by
                intro l lo r hbr hl hcon
                obtain ⟨a', b', c', d', w', x', y', z', rfl, g1, g2, g3, g4, g5⟩ := hl
                rw [hr, hbr] at hp
                simp only [List.cons_append, second, getu4_hex g1 g2 g3 g4, ← g5] at hp
                rw [if_pos ⟨hs.1, hcon⟩] at hp
                cases hp) hb
              simpa using this
          · next hs =>
            simp only [Option.some.injEq, Prod.mk.injEq] at h
            obtain ⟨rfl, rfl⟩ := h
            refine ⟨['u', x, y, z, w], rfl, ?_⟩
            have hlt : u < 0x10000 := by
              obtain ⟨a', b', c', d', w', x', y', z', -, g1, g2, g3, g4, g5⟩ := h4
              have key : ∀ {c : Char} {n : Nat}, Hex c n → n < 16 := by
                intro c n h
                cases h <;> omega
              have := key g1
              have := key g2
              have := key g3
              have := key g4
              omega
            have := Body.unicode (c := Char.ofNat u) (h := [x, y, z, w]) (by
              have : (Char.ofNat u).toNat = u := by
                unfold Char.ofNat
                rw [dif_pos (show u.isValidChar from by unfold Nat.isValidChar; omega)]
                rfl
              rw [this]; exact h4) hb
            simpa using this
      · cases h
    · next he =>
      cases hsh : short e with
      | none => rw [hsh] at h; cases h
      | some d =>
        rw [hsh] at h
        simp only [Option.map_some, Option.some.injEq, Prod.mk.injEq] at h
        obtain ⟨rfl, rfl⟩ := h
        refine ⟨[e], rfl, Body.two ?_ hb⟩
        unfold short at hsh
        simp only [twoChar, List.mem_cons, Prod.mk.injEq, List.not_mem_nil, or_false]
        repeat' split at hsh
        all_goals first
          | (injection hsh with hsh; subst hsh; simp_all)
          | cases hsh

/-- Strings. -/
theorem chars_sound : ∀ (n : Nat) {s k rest : Str}, chars n s = some (k, rest) →
    ∃ b, s = b ++ '"' :: rest ∧ Body k b := by
  intro n
  induction n with
  | zero => intro s k rest h; simp [chars] at h
  | succ n ih =>
    intro s k rest h
    cases s with
    | nil => simp [chars] at h
    | cons c s =>
      rw [chars_cons] at h
      split at h
      · next hc =>
        subst hc
        simp only [Option.some.injEq, Prod.mk.injEq] at h
        obtain ⟨rfl, rfl⟩ := h
        exact ⟨[], rfl, Body.nil⟩
      · next hq =>
        split at h
        · next hc =>
          subst hc
          split at h
          · cases h
          · next d r he =>
            cases hch : chars n r with
            | none => rw [hch] at h; cases h
            | some p =>
              obtain ⟨k', rest'⟩ := p
              rw [hch] at h
              simp only [Option.map_some, Option.some.injEq, Prod.mk.injEq] at h
              obtain ⟨rfl, rfl⟩ := h
              obtain ⟨b, hb1, hb2⟩ := ih hch
              obtain ⟨e, he1, he2⟩ := body_escaped he hb2 hb1
              refine ⟨'\\' :: e ++ b, ?_, he2⟩
              rw [he1, hb1]
              simp
        · next hb =>
          split at h
          · cases h
          · next hl =>
            cases hch : chars n s with
            | none => rw [hch] at h; cases h
            | some p =>
              obtain ⟨k', rest'⟩ := p
              rw [hch] at h
              simp only [Option.map_some, Option.some.injEq, Prod.mk.injEq] at h
              obtain ⟨rfl, rfl⟩ := h
              obtain ⟨b, hb1, hb2⟩ := ih hch
              exact ⟨c :: b, by rw [hb1]; rfl, Body.plain (by omega) hq hb hb2⟩

/-! ### Numbers -/

theorem digits1_sound {s a r : Str} (h : digits1 s = some (a, r)) : s = a ++ r ∧ Digits a := by
  unfold digits1 at h
  split at h
  · cases h
  · next d ds hd =>
    simp only [Option.some.injEq, Prod.mk.injEq] at h
    obtain ⟨rfl, rfl⟩ := h
    refine ⟨?_, by simp, ?_⟩
    · rw [← hd, List.takeWhile_append_dropWhile]
    · intro c hc
      rw [← hd] at hc
      have : ∀ {l : Str} {c}, c ∈ l.takeWhile isDigit → isDigit c = true := by
        intro l
        induction l with
        | nil => intro c hc; cases hc
        | cons a l ih =>
          intro c hc
          rw [List.takeWhile_cons] at hc
          split at hc
          · rcases List.mem_cons.1 hc with rfl | hc
            · assumption
            · exact ih hc
          · cases hc
      exact isDigit_iff.1 (this hc)

theorem whole_sound {s a r : Str} (h : whole s = some (a, r)) :
    s = a ++ r ∧ Digits a ∧ (a.head? = some '0' → a = ['0']) := by
  unfold whole at h
  split at h
  · simp only [Option.some.injEq, Prod.mk.injEq] at h
    obtain ⟨rfl, rfl⟩ := h
    refine ⟨rfl, ⟨by simp, ?_⟩, fun _ => rfl⟩
    intro c hc
    rw [List.mem_singleton.1 hc]
    exact ⟨by decide, by decide⟩
  · next hne =>
    obtain ⟨h1, h2⟩ := digits1_sound h
    refine ⟨h1, h2, ?_⟩
    intro h0
    cases a with
    | nil => cases h0
    | cons c a =>
      injection h0 with h0
      subst h0
      exact absurd h1 (hne (a ++ r))

theorem fraction_sound {s a r : Str} (h : fraction s = some (a, r)) :
    s = a ++ r ∧ (a = [] ∨ ∃ ds, a = '.' :: ds ∧ Digits ds) := by
  unfold fraction at h
  split at h
  · next s =>
    cases hd : digits1 s with
    | none => rw [hd] at h; cases h
    | some p =>
      rw [hd] at h
      simp only [Option.map_some, Option.some.injEq, Prod.mk.injEq] at h
      obtain ⟨rfl, rfl⟩ := h
      obtain ⟨h1, h2⟩ := digits1_sound hd
      exact ⟨by rw [h1]; rfl, Or.inr ⟨_, rfl, h2⟩⟩
  · simp only [Option.some.injEq, Prod.mk.injEq] at h
    obtain ⟨rfl, rfl⟩ := h
    exact ⟨rfl, Or.inl rfl⟩

theorem exponent_sound {s a r : Str} (h : exponent s = some (a, r)) :
    s = a ++ r ∧ (a = [] ∨ ∃ e g ds, a = e :: g ++ ds ∧ (e = 'e' ∨ e = 'E') ∧ (g = [] ∨ g = ['+'] ∨ g = ['-']) ∧ Digits ds) := by
  unfold exponent at h
  split at h
  · next e s =>
    split at h
    · next he =>
      split at h
      · next s' =>
        cases hd : digits1 s' with
        | none => rw [hd] at h; cases h
        | some p =>
          rw [hd] at h
          simp only [Option.map_some, Option.some.injEq, Prod.mk.injEq] at h
          obtain ⟨rfl, rfl⟩ := h
          obtain ⟨h1, h2⟩ := digits1_sound hd
          exact ⟨by rw [h1]; rfl, Or.inr ⟨e, ['+'], p.1, rfl, he, by simp, h2⟩⟩
      · next s' =>
        cases hd : digits1 s' with
        | none => rw [hd] at h; cases h
        | some p =>
          rw [hd] at h
          simp only [Option.map_some, Option.some.injEq, Prod.mk.injEq] at h
          obtain ⟨rfl, rfl⟩ := h
          obtain ⟨h1, h2⟩ := digits1_sound hd
          exact ⟨by rw [h1]; rfl, Or.inr ⟨e, ['-'], p.1, rfl, he, by simp, h2⟩⟩
      · cases hd : digits1 s with
        | none => rw [hd] at h; cases h
        | some p =>
          rw [hd] at h
          simp only [Option.map_some, Option.some.injEq, Prod.mk.injEq] at h
          obtain ⟨rfl, rfl⟩ := h
          obtain ⟨h1, h2⟩ := digits1_sound hd
          exact ⟨by rw [h1]; rfl, Or.inr ⟨e, [], p.1, rfl, he, by simp, h2⟩⟩
    · simp only [Option.some.injEq, Prod.mk.injEq] at h
      obtain ⟨rfl, rfl⟩ := h
      exact ⟨rfl, Or.inl rfl⟩
  · simp only [Option.some.injEq, Prod.mk.injEq] at h
    obtain ⟨rfl, rfl⟩ := h
    exact ⟨rfl, Or.inl rfl⟩

theorem unsigned_sound {s a r : Str} (h : unsigned s = some (a, r)) :
    s = a ++ r ∧ ∃ int frac exp, a = int ++ frac ++ exp ∧ Digits int ∧ (int.head? = some '0' → int = ['0']) ∧
      (frac = [] ∨ ∃ ds, frac = '.' :: ds ∧ Digits ds) ∧
      (exp = [] ∨ ∃ e g ds, exp = e :: g ++ ds ∧ (e = 'e' ∨ e = 'E') ∧ (g = [] ∨ g = ['+'] ∨ g = ['-']) ∧ Digits ds) := by
  unfold unsigned at h
  split at h
  · cases h
  · next a s1 h1 =>
    split at h
    · cases h
    · next b s2 h2 =>
      split at h
      · cases h
      · next c s3 h3 =>
        simp only [Option.some.injEq, Prod.mk.injEq] at h
        obtain ⟨rfl, rfl⟩ := h
        obtain ⟨e1, d1, d2⟩ := whole_sound h1
        obtain ⟨e2, d3⟩ := fraction_sound h2
        obtain ⟨e3, d4⟩ := exponent_sound h3
        exact ⟨by rw [e1, e2, e3]; simp, a, b, c, rfl, d1, d2, d3, d4⟩

theorem number_sound {s a r : Str} (h : number s = some (a, r)) : s = a ++ r ∧ Number a := by
  unfold number at h
  split at h
  · next s =>
    cases hd : unsigned s with
    | none => rw [hd] at h; cases h
    | some p =>
      rw [hd] at h
      simp only [Option.map_some, Option.some.injEq, Prod.mk.injEq] at h
      obtain ⟨rfl, rfl⟩ := h
      obtain ⟨e, i, f, x, h1, h2⟩ := unsigned_sound hd
      exact ⟨by rw [e]; rfl, ['-'], i, f, x, by rw [h1]; rfl, Or.inr rfl, h2⟩
  · obtain ⟨e, i, f, x, h1, h2⟩ := unsigned_sound h
    exact ⟨e, [], i, f, x, h1, Or.inl rfl, h2⟩

/-! ### Values -/

theorem lists_space {w t : Str} {l : List Json} (hw : Space w) (h : Lists t l) : Lists (w ++ t) l := by
  cases h with
  | @last w0 t w' v h1 h2 h3 =>
    have := Lists.last (space_append hw h1) h2 h3
    simpa using this
  | @more w0 t w' u v l h1 h2 h3 h4 =>
    have := Lists.more (space_append hw h1) h2 h3 h4
    simpa using this

theorem maps_space {w t : Str} {l : List (Str × Json)} (hw : Space w) (h : Maps t l) : Maps (w ++ t) l := by
  cases h with
  | @last w0 q w1 w2 t w' k v h1 h2 h3 h4 h5 h6 =>
    have := Maps.last (space_append hw h1) h2 h3 h4 h5 h6
    simpa using this
  | @more w0 q w1 w2 t w' u k v l h1 h2 h3 h4 h5 h6 h7 =>
    have := Maps.more (space_append hw h1) h2 h3 h4 h5 h6 h7
    simpa using this

theorem space_none : Space [] := fun _ h => by cases h

/-- Whatever is read is said by the text that was read. -/
theorem value_sound : ∀ (n : Nat),
    (∀ {s r : Str} {v : Json}, value n s = some (v, r) → ∃ t, s = t ++ r ∧ Says t v) ∧
    (∀ {s r : Str} {l : List Json}, elems n s = some (l, r) → ∃ t, s = t ++ ']' :: r ∧ Lists t l) ∧
    (∀ {s r : Str} {l : List (Str × Json)}, members n s = some (l, r) → ∃ t, s = t ++ '}' :: r ∧ Maps t l) := by
  intro n
  induction n with
  | zero =>
    refine ⟨?_, ?_, ?_⟩
    · intro s r v h; simp [value] at h
    · intro s r v h; simp [elems] at h
    · intro s r v h; simp [members] at h
  | succ n ih =>
    obtain ⟨ih1, ih2, ih3⟩ := ih
    refine ⟨?_, ?_, ?_⟩
    · intro s r v h
      unfold value at h
      split at h
      · next s =>
        cases hc : chars (s.length + 1) s with
        | none => rw [hc] at h; cases h
        | some p =>
          rw [hc] at h
          simp only [Option.map_some, Option.some.injEq, Prod.mk.injEq] at h
          obtain ⟨rfl, rfl⟩ := h
          obtain ⟨b, h1, h2⟩ := chars_sound _ hc
          exact ⟨'"' :: b ++ ['"'], by simpa using h1, .str ⟨b, h2, rfl⟩⟩
      · next s =>
        obtain ⟨w, e, hw⟩ := skip_split s
        split at h
        · next s' hs =>
          simp only [Option.some.injEq, Prod.mk.injEq] at h
          obtain ⟨rfl, rfl⟩ := h
          exact ⟨'[' :: w ++ [']'], by rw [e, hs]; simp, .empty hw⟩
        · cases hc : elems n (skip s) with
          | none => rw [hc] at h; cases h
          | some p =>
            rw [hc] at h
            simp only [Option.map_some, Option.some.injEq, Prod.mk.injEq] at h
            obtain ⟨rfl, rfl⟩ := h
            obtain ⟨t, h1, h2⟩ := ih2 hc
            exact ⟨'[' :: (w ++ t) ++ [']'], by rw [e, h1]; simp, .arr (lists_space hw h2)⟩
      · next s =>
        obtain ⟨w, e, hw⟩ := skip_split s
        split at h
        · next s' hs =>
          simp only [Option.some.injEq, Prod.mk.injEq] at h
          obtain ⟨rfl, rfl⟩ := h
          exact ⟨'{' :: w ++ ['}'], by rw [e, hs]; simp, .none hw⟩
        · cases hc : members n (skip s) with
          | none => rw [hc] at h; cases h
          | some p =>
            rw [hc] at h
            simp only [Option.map_some, Option.some.injEq, Prod.mk.injEq] at h
            obtain ⟨rfl, rfl⟩ := h
            obtain ⟨t, h1, h2⟩ := ih3 hc
            exact ⟨'{' :: (w ++ t) ++ ['}'], by rw [e, h1]; simp, .obj (maps_space hw h2)⟩
      · simp only [Option.some.injEq, Prod.mk.injEq] at h
        obtain ⟨rfl, rfl⟩ := h
        exact ⟨['n', 'u', 'l', 'l'], rfl, .null⟩
      · simp only [Option.some.injEq, Prod.mk.injEq] at h
        obtain ⟨rfl, rfl⟩ := h
        exact ⟨['t', 'r', 'u', 'e'], rfl, .yes⟩
      · simp only [Option.some.injEq, Prod.mk.injEq] at h
        obtain ⟨rfl, rfl⟩ := h
        exact ⟨['f', 'a', 'l', 's', 'e'], rfl, .no⟩
      · cases hc : number s with
        | none => rw [hc] at h; cases h
        | some p =>
          rw [hc] at h
          simp only [Option.map_some, Option.some.injEq, Prod.mk.injEq] at h
          obtain ⟨rfl, rfl⟩ := h
          obtain ⟨h1, h2⟩ := number_sound hc
          exact ⟨p.1, h1, .num h2⟩
    · intro s r l h
      rw [elems] at h
      split at h
      · cases h
      · next v s1 hv =>
        obtain ⟨t, e, ht⟩ := ih1 hv
        obtain ⟨w, e2, hw⟩ := skip_split s1
        split at h
        · next s2 hs =>
          simp only [Option.some.injEq, Prod.mk.injEq] at h
          obtain ⟨rfl, rfl⟩ := h
          exact ⟨[] ++ t ++ w, by rw [e, e2, hs]; simp, .last space_none ht hw⟩
        · next s2 hs =>
          cases hc : elems n (skip s2) with
          | none => rw [hc] at h; cases h
          | some p =>
            rw [hc] at h
            simp only [Option.map_some, Option.some.injEq, Prod.mk.injEq] at h
            obtain ⟨rfl, rfl⟩ := h
            obtain ⟨u, h1, h2⟩ := ih2 hc
            obtain ⟨w2, e3, hw2⟩ := skip_split s2
            refine ⟨[] ++ t ++ w ++ ',' :: (w2 ++ u), ?_, .more space_none ht hw (lists_space hw2 h2)⟩
            rw [e, e2, hs, e3, h1]
            simp
        · cases h
    · intro s r l h
      unfold members at h
      split at h
      · next s =>
        split at h
        · cases h
        · next k s1 hk =>
          obtain ⟨b, e1, hb⟩ := chars_sound _ hk
          obtain ⟨w1, e2, hw1⟩ := skip_split s1
          have hq : Quoted k ('"' :: b ++ ['"']) := ⟨b, hb, rfl⟩
          split at h
          · next s2 hs2 =>
            obtain ⟨w2, e3, hw2⟩ := skip_split s2
            split at h
            · cases h
            · next v s3 hv =>
              obtain ⟨t, e4, ht⟩ := ih1 hv
              obtain ⟨w3, e5, hw3⟩ := skip_split s3
              split at h
              · next s4 hs4 =>
                simp only [Option.some.injEq, Prod.mk.injEq] at h
                obtain ⟨rfl, rfl⟩ := h
                refine ⟨[] ++ ('"' :: b ++ ['"']) ++ w1 ++ ':' :: w2 ++ t ++ w3, ?_,
                  .last space_none hq hw1 hw2 ht hw3⟩
                rw [e1, e2, hs2, e3, e4, e5, hs4]
                simp
              · next s4 hs4 =>
                cases hc : members n (skip s4) with
                | none => rw [hc] at h; cases h
                | some p =>
                  rw [hc] at h
                  simp only [Option.map_some, Option.some.injEq, Prod.mk.injEq] at h
                  obtain ⟨rfl, rfl⟩ := h
                  obtain ⟨u, h1, h2⟩ := ih3 hc
                  obtain ⟨w4, e6, hw4⟩ := skip_split s4
                  refine ⟨[] ++ ('"' :: b ++ ['"']) ++ w1 ++ ':' :: w2 ++ t ++ w3 ++ ',' :: (w4 ++ u), ?_,
                    .more space_none hq hw1 hw2 ht hw3 (maps_space hw4 h2)⟩
                  rw [e1, e2, hs2, e3, e4, e5, hs4, e6, h1]
                  simp
              · cases h
          · cases h
      · cases h

/-- The first value of a text. -/
theorem first_sound {s : Str} {v : Json} (h : first s = some v) :
    ∃ w t rest, s = w ++ t ++ rest ∧ Space w ∧ Says t v := by
  unfold first at h
  obtain ⟨w, e, hw⟩ := skip_split s
  cases hv : value (2 * s.length + 2) (skip s) with
  | none => rw [hv] at h; cases h
  | some p =>
    rw [hv] at h
    simp only [Option.map_some, Option.some.injEq] at h
    subst h
    obtain ⟨t, h1, h2⟩ := (value_sound _).1 hv
    exact ⟨w, t, p.2, by rw [List.append_assoc, ← h1, ← e], hw, h2⟩

/-- A whole text. -/
theorem only_iff {s : Str} {v : Json} :
    only s = some v ↔ ∃ w t w', s = w ++ t ++ w' ∧ Space w ∧ Says t v ∧ Space w' := by
  constructor
  · intro h
    unfold only at h
    obtain ⟨w, e, hw⟩ := skip_split s
    split at h
    · cases h
    · next v' r hv =>
      split at h
      · next hr =>
        injection h with h
        subst h
        obtain ⟨t, h1, h2⟩ := (value_sound _).1 hv
        obtain ⟨w', e', hw'⟩ := skip_split r
        rw [hr, List.append_nil] at e'
        exact ⟨w, t, r, by rw [List.append_assoc, ← h1, ← e], hw, h2, by rw [e']; exact hw'⟩
      · cases h
  · rintro ⟨w, t, w', rfl, h1, h2, h3⟩
    exact only_says h1 h2 h3

/-- A text says one thing. -/
theorem says_unique {t : Str} {v v' : Json} (h : Says t v) (h' : Says t v') : v = v' := by
  have h1 := only_says (w := []) (w' := []) space_none h space_none
  have h2 := only_says (w := []) (w' := []) space_none h' space_none
  rw [h1] at h2
  injection h2

/-! ### Comparing two values -/

mutual
/-- Whether two values are the same. -/
def same : Json → Json → Bool
  | .null, .null => true
  | .bool a, .bool b => a == b
  | .num a, .num b => a == b
  | .str a, .str b => a == b
  | .arr a, .arr b => sameList a b
  | .obj a, .obj b => sameMembers a b
  | _, _ => false
def sameList : List Json → List Json → Bool
  | [], [] => true
  | a :: l, b :: m => same a b && sameList l m
  | _, _ => false
def sameMembers : List (Str × Json) → List (Str × Json) → Bool
  | [], [] => true
  | (k, a) :: l, (j, b) :: m => (k == j && same a b) && sameMembers l m
  | _, _ => false
end
mutual
theorem eq_of_same : ∀ {a b : Json}, same a b = true → a = b
  | .null, b, h => by cases b <;> simp_all [same]
  | .bool _, b, h => by cases b <;> simp_all [same]
  | .num _, b, h => by cases b <;> simp_all [same]
  | .str _, b, h => by cases b <;> simp_all [same]
  | .arr l, b, h => by
    cases b <;> simp only [same, Bool.false_eq_true] at h
    rw [eq_of_sameList h]
  | .obj l, b, h => by
    cases b <;> simp only [same, Bool.false_eq_true] at h
    rw [eq_of_sameMembers h]
theorem eq_of_sameList : ∀ {a b : List Json}, sameList a b = true → a = b
  | [], b, h => by cases b <;> simp_all [sameList]
  | a :: l, b, h => by
    cases b <;> simp only [sameList, Bool.false_eq_true, Bool.and_eq_true] at h
    rw [eq_of_same h.1, eq_of_sameList h.2]
theorem eq_of_sameMembers : ∀ {a b : List (Str × Json)}, sameMembers a b = true → a = b
  | [], b, h => by cases b <;> simp_all [sameMembers]
  | (k, a) :: l, b, h => by
    cases b <;> simp only [sameMembers, Bool.false_eq_true, Bool.and_eq_true, beq_iff_eq] at h
    rw [h.1.1, eq_of_same h.1.2, eq_of_sameMembers h.2]
end

theorem some_of_same {o : Option Json} {v : Json} (h : (o.elim false fun a => same a v) = true) : o = some v := by
  cases o with
  | none => cases h
  | some a => rw [eq_of_same (a := a) (b := v) h]

end Swoll.Lemmas.Json
