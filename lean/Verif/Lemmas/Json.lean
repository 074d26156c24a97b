import Verif.Spec.Json
/-
Reading JSON: every text that says something is read as what it says.
-/
namespace Swoll.Lemmas.Json
open Swoll.Json Swoll.Spec.Json

/-! ### White space -/

theorem isSpace_iff {c : Char} : isSpace c = true ↔ c = ' ' ∨ c = '\t' ∨ c = '\r' ∨ c = '\n' := by
  simp [isSpace, or_assoc]

theorem skip_space {w : Str} (h : Space w) (s : Str) : skip (w ++ s) = skip s := by
  unfold skip
  induction w with
  | nil => rfl
  | cons c w ih =>
    have hc := isSpace_iff.2 (h c List.mem_cons_self)
    rw [List.cons_append, List.dropWhile_cons_of_pos hc]
    exact ih (fun c hc => h c (List.mem_cons_of_mem _ hc))

theorem skip_cons {c : Char} (h : isSpace c = false) (s : Str) : skip (c :: s) = c :: s := by
  unfold skip
  rw [List.dropWhile_cons_of_neg (by simp [h])]

theorem skip_all {w : Str} (h : Space w) : skip w = [] := by
  have := skip_space h []
  simpa [skip] using this

/-! ### Characters -/

theorem toNat_ofNat {n : Nat} (h : n < 0xd800) : (Char.ofNat n).toNat = n := by
  have hv : n.isValidChar := Or.inl h
  simp [Char.ofNat, hv, Char.ofNatAux, Char.toNat]

theorem unhex_hex {c : Char} {n : Nat} (h : Hex c n) : unhex c = some n := by
  cases h with
  | dec _ hi =>
    have : (Char.ofNat ('0'.toNat + n)).toNat = 48 + n := toNat_ofNat (by simp; omega)
    unfold unhex
    rw [this, if_pos (by omega)]
    simp
  | low i hi =>
    have : (Char.ofNat ('a'.toNat + i)).toNat = 97 + i := toNat_ofNat (by simp; omega)
    unfold unhex
    rw [this, if_neg (by omega), if_pos (by omega)]
    simp; omega
  | up i hi =>
    have : (Char.ofNat ('A'.toNat + i)).toNat = 65 + i := toNat_ofNat (by simp; omega)
    unfold unhex
    rw [this, if_neg (by omega), if_neg (by omega), if_pos (by omega)]
    simp; omega

theorem getu4_hex {a b c d : Char} {w x y z : Nat} (h1 : Hex a w) (h2 : Hex b x) (h3 : Hex c y) (h4 : Hex d z) :
    getu4 a b c d = some (w * 4096 + x * 256 + y * 16 + z) := by
  unfold getu4
  rw [unhex_hex h1, unhex_hex h2, unhex_hex h3, unhex_hex h4]
  simp only [Option.some.injEq]
  omega

theorem char_eq {c : Char} {n : Nat} (h : c.toNat = n) : Char.ofNat n = c := by
  rw [← h, Char.ofNat_toNat]

theorem char_not_surrogate (c : Char) : ¬ (0xd800 ≤ c.toNat ∧ c.toNat < 0xe000) := by
  have := c.valid
  rintro ⟨h1, h2⟩
  rcases this with h | ⟨h, -⟩
  · exact absurd h (Nat.not_lt.2 h1)
  · exact absurd h (by have : c.val.toNat < 0xe000 := h2; omega)

theorem chars_cons (n : Nat) (c : Char) (s : Str) : chars (n + 1) (c :: s) =
    if c = '"' then some ([], s)
    else if c = '\\' then
      match escaped s with
      | none => none
      | some (c, s) => (chars n s).map (fun r => (c :: r.1, r.2))
    else if c.toNat < 0x20 then none
    else (chars n s).map (fun r => (c :: r.1, r.2)) := rfl

theorem chars_escaped {n : Nat} {s s' : Str} {c : Char} (h : escaped s = some (c, s')) :
    chars (n + 1) ('\\' :: s) = (chars n s').map (fun r => (c :: r.1, r.2)) := by
  rw [chars_cons, if_neg (by decide), if_pos rfl, h]

theorem hex_unhex {c : Char} {n : Nat} (h : unhex c = some n) : Hex c n := by
  unfold unhex at h
  have e := Char.ofNat_toNat c
  split at h
  · injection h with h
    subst h
    have := Hex.dec (c.toNat - 48) (by omega)
    rwa [show '0'.toNat + (c.toNat - 48) = c.toNat by simp; omega, e] at this
  split at h
  · injection h with h
    subst h
    have := Hex.low (c.toNat - 97) (by omega)
    rwa [show 'a'.toNat + (c.toNat - 97) = c.toNat by simp; omega, e, show 10 + (c.toNat - 97) = c.toNat - 87 by omega] at this
  split at h
  · injection h with h
    subst h
    have := Hex.up (c.toNat - 65) (by omega)
    rwa [show 'A'.toNat + (c.toNat - 65) = c.toNat by simp; omega, e, show 10 + (c.toNat - 65) = c.toNat - 55 by omega] at this
  · cases h

theorem hex4_getu4 {a b c d : Char} {n : Nat} (h : getu4 a b c d = some n) : Hex4 [a, b, c, d] n := by
  unfold getu4 at h
  split at h
  · next w x y z h1 h2 h3 h4 =>
    injection h with h
    exact ⟨a, b, c, d, w, x, y, z, rfl, hex_unhex h1, hex_unhex h2, hex_unhex h3, hex_unhex h4, by omega⟩
  · cases h

/-- What the second half of a pair looks like. -/
theorem second_shape {hi c : Nat} {s r : Str} (h : second hi s = some (c, r)) :
    ∃ l lo, s = '\\' :: 'u' :: l ++ r ∧ Hex4 l lo ∧ 0xd800 ≤ hi ∧ hi < 0xdc00 ∧ 0xdc00 ≤ lo ∧ lo < 0xe000 ∧
      c = 0x10000 + (hi - 0xd800) * 0x400 + (lo - 0xdc00) := by
  unfold second at h
  split at h
  · next x y z w rest =>
    split at h
    · next lo hlo =>
      split at h
      · next hc =>
        simp only [Option.some.injEq, Prod.mk.injEq] at h
        obtain ⟨h1, rfl⟩ := h
        exact ⟨[x, y, z, w], lo, rfl, hex4_getu4 hlo, hc.1, hc.2.1, hc.2.2.1, hc.2.2.2, by omega⟩
      · cases h
    · cases h
  · cases h

theorem hex_ne_quote {n : Nat} : ¬ Hex '"' n := by
  intro h
  have := unhex_hex h
  exact absurd this (by simp [show unhex '"' = none by decide])

theorem second_none {n : Nat} {t : Str} (k1 : 0xd800 ≤ n)
    (h : ∀ l lo r, t = '\\' :: 'u' :: l ++ r → Hex4 l lo → ¬ (n < 0xdc00 ∧ 0xdc00 ≤ lo ∧ lo < 0xe000)) (rest : Str) :
    second n (t ++ '"' :: rest) = none := by
  clear k1
  cases hs : second n (t ++ '"' :: rest) with
  | none => rfl
  | some r =>
    exfalso
    obtain ⟨c, r⟩ := r
    obtain ⟨l, lo, e, hl, -, h2, h3, h4, -⟩ := second_shape hs
    have hl' := hl
    obtain ⟨a, b, c', d, w, x, y, z, rfl, g1, g2, g3, g4, -⟩ := hl'
    match t, e, h with
    | [], e, _ => simp at e
    | [_], e, _ => simp at e
    | [_, _], e, _ => simp at e; rw [← e.2.2.1] at g1; exact hex_ne_quote g1
    | [_, _, _], e, _ => simp at e; rw [← e.2.2.2.1] at g2; exact hex_ne_quote g2
    | [_, _, _, _], e, _ => simp at e; rw [← e.2.2.2.2.1] at g3; exact hex_ne_quote g3
    | [_, _, _, _, _], e, _ => simp at e; rw [← e.2.2.2.2.2.1] at g4; exact hex_ne_quote g4
    | t1 :: t2 :: t3 :: t4 :: t5 :: t6 :: t, e, h =>
      simp only [List.cons_append, List.cons.injEq, List.nil_append] at e
      obtain ⟨rfl, rfl, rfl, rfl, rfl, rfl, -⟩ := e
      exact h _ lo t rfl hl ⟨h2, h3, h4⟩

/-- Strings. -/
theorem chars_body {s b : Str} (h : Body s b) : ∀ (n : Nat) (rest : Str), b.length < n →
    chars n (b ++ '"' :: rest) = some (s, rest) := by
  induction h with
  | nil =>
    intro n rest hn
    cases n with
    | zero => omega
    | succ n => rw [List.nil_append, chars_cons, if_pos rfl]
  | @plain c s t h1 h2 h3 _ ih =>
    intro n rest hn
    cases n with
    | zero => omega
    | succ n =>
      simp only [List.length_cons] at hn
      rw [List.cons_append, chars_cons, if_neg h2, if_neg h3, if_neg (by omega), ih n rest (by omega)]
      rfl
  | @two e c s t h1 _ ih =>
    intro n rest hn
    cases n with
    | zero => omega
    | succ n =>
      simp only [List.length_cons] at hn
      have hs : short e = some c ∧ e ≠ 'u' := by
        simp only [twoChar, List.mem_cons, Prod.mk.injEq, List.not_mem_nil, or_false] at h1
        rcases h1 with ⟨rfl, rfl⟩ | ⟨rfl, rfl⟩ | ⟨rfl, rfl⟩ | ⟨rfl, rfl⟩ | ⟨rfl, rfl⟩ | ⟨rfl, rfl⟩ | ⟨rfl, rfl⟩ | ⟨rfl, rfl⟩ <;>
          exact ⟨by decide, by decide⟩
      have he : escaped (e :: (t ++ '"' :: rest)) = some (c, t ++ '"' :: rest) := by
        simp only [escaped, if_neg hs.2, hs.1]
        rfl
      rw [List.cons_append, List.cons_append, chars_escaped he, ih n rest (by omega)]
      rfl
  | @unicode c h s t h1 _ ih =>
    intro n rest hn
    cases n with
    | zero => omega
    | succ n =>
      obtain ⟨a', b', c', d', w, x, y, z, rfl, g1, g2, g3, g4, g5⟩ := h1
      simp only [List.length_cons, List.length_append, List.length_nil] at hn
      have he : escaped ('u' :: a' :: b' :: c' :: d' :: (t ++ '"' :: rest)) = some (c, t ++ '"' :: rest) := by
        simp only [escaped, if_true, hexed, getu4_hex g1 g2 g3 g4, ← g5]
        rw [if_neg (char_not_surrogate c), Char.ofNat_toNat]
      simp only [List.cons_append, List.nil_append]
      rw [chars_escaped he, ih n rest (by omega)]
      rfl
  | @pair c hi lo h l s t h1 h2 k1 k2 k3 k4 k5 _ ih =>
    intro n rest hn
    cases n with
    | zero => omega
    | succ n =>
      obtain ⟨a', b', c', d', w, x, y, z, rfl, g1, g2, g3, g4, g5⟩ := h1
      obtain ⟨a2, b2, c2, d2, w2, x2, y2, z2, rfl, i1, i2, i3, i4, i5⟩ := h2
      simp only [List.length_cons, List.length_append, List.length_nil] at hn
      have hs : second hi ('\\' :: 'u' :: a2 :: b2 :: c2 :: d2 :: (t ++ '"' :: rest)) = some (c.toNat, t ++ '"' :: rest) := by
        simp only [second, getu4_hex i1 i2 i3 i4, ← i5]
        rw [if_pos ⟨k1, k2, k3, k4⟩, k5, show (hi - 0xd800) * 1024 + (lo - 0xdc00) + 0x10000 =
          0x10000 + (hi - 0xd800) * 0x400 + (lo - 0xdc00) by omega]
      have he : escaped ('u' :: a' :: b' :: c' :: d' :: '\\' :: 'u' :: a2 :: b2 :: c2 :: d2 :: (t ++ '"' :: rest)) =
          some (c, t ++ '"' :: rest) := by
        simp only [escaped, if_true, hexed, getu4_hex g1 g2 g3 g4, ← g5]
        rw [if_pos ⟨k1, by omega⟩, hs]
        dsimp only
        rw [Char.ofNat_toNat]
      simp only [List.cons_append, List.nil_append]
      rw [chars_escaped he, ih n rest (by omega)]
      rfl
  | @half m h s t h1 k1 k2 k3 _ ih =>
    intro n rest hn
    cases n with
    | zero => omega
    | succ n =>
      obtain ⟨a', b', c', d', w, x, y, z, rfl, g1, g2, g3, g4, g5⟩ := h1
      simp only [List.length_cons, List.length_append, List.length_nil] at hn
      have he : escaped ('u' :: a' :: b' :: c' :: d' :: (t ++ '"' :: rest)) = some ('\ufffd', t ++ '"' :: rest) := by
        simp only [escaped, if_true, hexed, getu4_hex g1 g2 g3 g4, ← g5]
        rw [if_pos ⟨k1, k2⟩, second_none k1 k3 rest]
      simp only [List.cons_append, List.nil_append]
      rw [chars_escaped he, ih n rest (by omega)]
      rfl

theorem chars_quoted {k q : Str} (h : Quoted k q) (rest : Str) :
    ∃ r, q ++ rest = '"' :: r ∧ chars (r.length + 1) r = some (k, rest) := by
  obtain ⟨b, hb, rfl⟩ := h
  refine ⟨b ++ '"' :: rest, by simp, chars_body hb _ rest ?_⟩
  simp; omega

/-! ### Numbers -/

theorem isDigit_iff {c : Char} : isDigit c = true ↔ Digit c := by
  unfold isDigit Digit
  rw [decide_eq_true_eq, Char.le_def, Char.le_def, UInt32.le_iff_toNat_le, UInt32.le_iff_toNat_le]
  exact Iff.rfl

/-- Nothing that goes on with a number. -/
def Ends (rest : Str) : Prop :=
  ∀ c, rest.head? = some c → isDigit c = false ∧ c ≠ '.' ∧ c ≠ 'e' ∧ c ≠ 'E'

theorem digits1_read {ds rest : Str} (h : Digits ds) (hr : ∀ c, rest.head? = some c → isDigit c = false) :
    digits1 (ds ++ rest) = some (ds, rest) := by
  obtain ⟨hne, hd⟩ := h
  have h1 : (ds ++ rest).takeWhile isDigit = ds ∧ (ds ++ rest).dropWhile isDigit = rest := by
    clear hne
    induction ds with
    | nil =>
      cases rest with
      | nil => exact ⟨rfl, rfl⟩
      | cons c rest => have := hr c rfl; simp [this]
    | cons d ds ih =>
      have hd' := isDigit_iff.2 (hd d List.mem_cons_self)
      obtain ⟨h1, h2⟩ := ih (fun c hc => hd c (List.mem_cons_of_mem _ hc))
      simp [hd', h1, h2]
  unfold digits1
  rw [h1.1, h1.2]
  cases ds with
  | nil => exact absurd rfl hne
  | cons d ds => rfl

theorem digits_head {ds rest : Str} (h : Digits ds) {c : Char} (hc : (ds ++ rest).head? = some c) : isDigit c = true := by
  cases ds with
  | nil => exact absurd rfl h.1
  | cons d ds =>
    injection hc with hc
    subst hc
    exact isDigit_iff.2 (h.2 d List.mem_cons_self)

theorem whole_read {int rest : Str} (h : Digits int) (h0 : int.head? = some '0' → int = ['0'])
    (hr : ∀ c, rest.head? = some c → isDigit c = false) : whole (int ++ rest) = some (int, rest) := by
  cases int with
  | nil => exact absurd rfl h.1
  | cons d ds =>
    by_cases hd : d = '0'
    · subst hd
      have := h0 rfl
      injection this with _ this
      subst this
      rfl
    · have : whole (d :: (ds ++ rest)) = digits1 (d :: (ds ++ rest)) := by
        unfold whole
        split
        · next heq => injection heq with heq; exact absurd heq hd
        · rfl
      rw [List.cons_append, this]
      exact digits1_read (ds := d :: ds) h hr

theorem exponent_read {exp rest : Str} (hr : Ends rest)
    (h : exp = [] ∨ ∃ e g ds, exp = e :: g ++ ds ∧ (e = 'e' ∨ e = 'E') ∧ (g = [] ∨ g = ['+'] ∨ g = ['-']) ∧ Digits ds) :
    exponent (exp ++ rest) = some (exp, rest) := by
  rcases h with rfl | ⟨e, g, ds, rfl, he, hg, hd⟩
  · cases rest with
    | nil => rfl
    | cons c rest =>
      obtain ⟨-, -, h1, h2⟩ := hr c rfl
      simp [exponent, h1, h2]
  · have hr' : ∀ c, rest.head? = some c → isDigit c = false := fun c hc => (hr c hc).1
    have hds := digits1_read hd hr'
    rcases hg with rfl | rfl | rfl
    · cases ds with
      | nil => exact absurd rfl hd.1
      | cons d ds =>
        have hd1 : ¬ (d = '+' ∨ d = '-') := by
          have := isDigit_iff.2 (hd.2 d List.mem_cons_self)
          rintro (rfl | rfl) <;> exact absurd this (by decide)
        rw [not_or] at hd1
        simp only [List.nil_append, List.cons_append] at hds ⊢
        unfold exponent
        dsimp only
        rw [if_pos he]
        split
        · next heq => injection heq with heq; exact absurd heq hd1.1
        · next heq => injection heq with heq; exact absurd heq hd1.2
        · rw [hds]
          rfl
    · simp only [List.cons_append, List.nil_append, exponent]
      rw [if_pos he, hds]
      rfl
    · simp only [List.cons_append, List.nil_append, exponent]
      rw [if_pos he, hds]
      rfl

theorem fraction_read {frac rest : Str} (hr : ∀ c, rest.head? = some c → isDigit c = false ∧ c ≠ '.')
    (h : frac = [] ∨ ∃ ds, frac = '.' :: ds ∧ Digits ds) : fraction (frac ++ rest) = some (frac, rest) := by
  rcases h with rfl | ⟨ds, rfl, hd⟩
  · cases rest with
    | nil => rfl
    | cons c rest =>
      obtain ⟨-, h1⟩ := hr c rfl
      rw [List.nil_append]
      unfold fraction
      split
      · next heq => injection heq with heq; exact absurd heq h1
      · rfl
  · simp only [List.cons_append, fraction]
    rw [digits1_read hd (fun c hc => (hr c hc).1)]
    rfl

theorem number_read {l rest : Str} (h : Number l) (hr : Ends rest) : number (l ++ rest) = some (l, rest) := by
  obtain ⟨sign, int, frac, exp, rfl, hs, hi, h0, hf, he⟩ := h
  have he1 : ∀ c, (exp ++ rest).head? = some c → isDigit c = false ∧ c ≠ '.' := by
    intro c hc
    rcases he with rfl | ⟨e, g, ds, rfl, he, -, -⟩
    · exact ⟨(hr c hc).1, (hr c hc).2.1⟩
    · injection hc with hc
      subst hc
      rcases he with rfl | rfl <;> exact ⟨by decide, by decide⟩
  have hf1 : ∀ c, (frac ++ (exp ++ rest)).head? = some c → isDigit c = false := by
    intro c hc
    rcases hf with rfl | ⟨ds, rfl, -⟩
    · exact (he1 c hc).1
    · injection hc with hc
      subst hc
      decide
  have hu : unsigned (int ++ (frac ++ (exp ++ rest))) = some (int ++ frac ++ exp, rest) := by
    unfold unsigned
    rw [whole_read hi h0 hf1]
    dsimp only
    rw [fraction_read he1 hf]
    dsimp only
    rw [exponent_read hr he]
  rcases hs with rfl | rfl
  · simp only [List.nil_append, List.append_assoc] at hu ⊢
    rw [← hu]
    unfold number
    split
    · next heq =>
      exfalso
      have := digits_head (rest := frac ++ (exp ++ rest)) hi (c := '-') (by rw [heq]; rfl)
      exact absurd this (by decide)
    · rfl
  · simp only [List.append_assoc, List.cons_append, List.nil_append] at hu ⊢
    simp only [number, hu]
    rfl

theorem number_head {l : Str} (h : Number l) : ∃ c r, l = c :: r ∧ (c = '-' ∨ isDigit c = true) := by
  obtain ⟨sign, int, frac, exp, rfl, hs, hi, -, -, -⟩ := h
  rcases hs with rfl | rfl
  · cases int with
    | nil => exact absurd rfl hi.1
    | cons d ds => exact ⟨d, _, rfl, Or.inr (isDigit_iff.2 (hi.2 d List.mem_cons_self))⟩
  · exact ⟨'-', _, rfl, Or.inl rfl⟩

/-! ### Values -/

theorem ends_space {w rest : Str} (hw : Space w) (hr : Ends rest) : Ends (w ++ rest) := by
  cases w with
  | nil => exact hr
  | cons c w =>
    intro c' hc
    injection hc with hc
    subst hc
    rcases hw c List.mem_cons_self with rfl | rfl | rfl | rfl <;> decide

theorem ends_cons {c : Char} (h : isDigit c = false ∧ c ≠ '.' ∧ c ≠ 'e' ∧ c ≠ 'E') (rest : Str) : Ends (c :: rest) := by
  intro c' hc
  injection hc with hc
  subst hc
  exact h

/-- A value starts with something other than white space and the ends of lists. -/
theorem says_head {t : Str} {v : Json} (h : Says t v) :
    ∃ c r, t = c :: r ∧ isSpace c = false ∧ c ≠ ']' := by
  cases h with
  | null => exact ⟨_, _, rfl, by decide, by decide⟩
  | yes => exact ⟨_, _, rfl, by decide, by decide⟩
  | no => exact ⟨_, _, rfl, by decide, by decide⟩
  | num hn =>
    obtain ⟨c, r, rfl, h⟩ := number_head hn
    clear hn
    refine ⟨c, r, rfl, ?_, ?_⟩
    · rcases h with rfl | h
      · decide
      · cases hc : isSpace c with
        | false => rfl
        | true => rcases isSpace_iff.1 hc with rfl | rfl | rfl | rfl <;> cases h
    · rcases h with rfl | h
      · decide
      · rintro rfl; cases h
  | str h => obtain ⟨b, -, rfl⟩ := h; exact ⟨_, _, rfl, by decide, by decide⟩
  | empty => exact ⟨_, _, rfl, by decide, by decide⟩
  | arr => exact ⟨_, _, rfl, by decide, by decide⟩
  | none => exact ⟨_, _, rfl, by decide, by decide⟩
  | obj => exact ⟨_, _, rfl, by decide, by decide⟩

theorem value_str (n : Nat) (s : Str) : value (n + 1) ('"' :: s) = (chars (s.length + 1) s).map (fun r => (.str r.1, r.2)) := by
  rw [value]

theorem value_arr0 {n : Nat} {s r : Str} (h : skip s = ']' :: r) : value (n + 1) ('[' :: s) = some (.arr [], r) := by
  rw [value]; simp only [h]

theorem value_arr {n : Nat} {s : Str} (h : ∀ r, skip s ≠ ']' :: r) :
    value (n + 1) ('[' :: s) = (elems n (skip s)).map (fun r => (.arr r.1, r.2)) := by
  rw [value]
  split
  · next heq => exact absurd heq (h _)
  · rfl

theorem value_obj0 {n : Nat} {s r : Str} (h : skip s = '}' :: r) : value (n + 1) ('{' :: s) = some (.obj [], r) := by
  rw [value]; simp only [h]

theorem value_obj {n : Nat} {s : Str} (h : ∀ r, skip s ≠ '}' :: r) :
    value (n + 1) ('{' :: s) = (members n (skip s)).map (fun r => (.obj r.1, r.2)) := by
  rw [value]
  split
  · next heq => exact absurd heq (h _)
  · rfl

theorem value_num {n : Nat} {c : Char} {s : Str} (h : c = '-' ∨ isDigit c = true) :
    value (n + 1) (c :: s) = (number (c :: s)).map (fun r => (.num r.1, r.2)) := by
  have hc : ∀ x ∈ ['"', '[', '{', 'n', 't', 'f'], c ≠ x := by
    intro x hx e
    subst e
    simp only [List.mem_cons, List.not_mem_nil, or_false] at hx
    rcases hx with rfl | rfl | rfl | rfl | rfl | rfl <;> exact absurd h (by decide)
  rw [value]
  all_goals
    intros
    first
      | (rename_i heq; injection heq with heq; exact hc _ (by simp) heq)
      | skip


theorem elems_last {n : Nat} {s s' r : Str} {v : Json} (h : value n s = some (v, s')) (h' : skip s' = ']' :: r) :
    elems (n + 1) s = some ([v], r) := by
  rw [elems, h]; simp only [h']

theorem elems_more {n : Nat} {s s' r : Str} {v : Json} (h : value n s = some (v, s')) (h' : skip s' = ',' :: r) :
    elems (n + 1) s = (elems n (skip r)).map (fun r => (v :: r.1, r.2)) := by
  rw [elems, h]; simp only [h']

theorem members_last {n : Nat} {s s1 s2 s3 r k : Str} {v : Json} (h : chars (s.length + 1) s = some (k, s1))
    (h1 : skip s1 = ':' :: s2) (h2 : value n (skip s2) = some (v, s3)) (h3 : skip s3 = '}' :: r) :
    members (n + 1) ('"' :: s) = some ([(k, v)], r) := by
  rw [members, h]; simp only [h1, h2, h3]

theorem members_more {n : Nat} {s s1 s2 s3 r k : Str} {v : Json} (h : chars (s.length + 1) s = some (k, s1))
    (h1 : skip s1 = ':' :: s2) (h2 : value n (skip s2) = some (v, s3)) (h3 : skip s3 = ',' :: r) :
    members (n + 1) ('"' :: s) = (members n (skip r)).map (fun r => ((k, v) :: r.1, r.2)) := by
  rw [members, h]; simp only [h1, h2, h3]

theorem skip_says {t : Str} {v : Json} (h : Says t v) (rest : Str) : skip (t ++ rest) = t ++ rest := by
  obtain ⟨c, r, rfl, hc, -⟩ := says_head h
  exact skip_cons hc _

theorem lists_head {t : Str} {l : List Json} (h : Lists t l) (rest r : Str) : skip (t ++ rest) ≠ ']' :: r := by
  have main : ∀ {w t : Str} {v : Json} (x : Str), Space w → Says t v → skip (w ++ (t ++ x)) ≠ ']' :: r := by
    intro w t v x hw ht
    rw [skip_space hw, skip_says ht]
    obtain ⟨c, r, rfl, -, hc⟩ := says_head ht
    intro e
    injection e with e
    exact hc e
  cases h with
  | last h1 h2 h3 => simp only [List.append_assoc]; exact main _ h1 h2
  | more h1 h2 h3 h4 => simp only [List.append_assoc]; exact main _ h1 h2

theorem maps_head {t : Str} {l : List (Str × Json)} (h : Maps t l) (rest r : Str) : skip (t ++ rest) ≠ '}' :: r := by
  have main : ∀ {w q k : Str} (x : Str), Space w → Quoted k q → skip (w ++ (q ++ x)) ≠ '}' :: r := by
    intro w q k x hw hq
    obtain ⟨b, -, rfl⟩ := hq
    rw [skip_space hw, List.cons_append, List.cons_append, skip_cons (by decide)]
    intro e
    injection e with e
    exact absurd e (by decide)
  cases h with
  | last h1 h2 => simp only [List.append_assoc]; exact main _ h1 h2
  | more h1 h2 => simp only [List.append_assoc]; exact main _ h1 h2

/-- Every text is read as what it says. -/
theorem value_says {t : Str} {v : Json} (h : Says t v) : ∀ (n : Nat) (rest : Str), 2 * t.length ≤ n → (∀ l, v = .num l → Ends rest) →
    value n (t ++ rest) = some (v, rest) := by
  refine Says.rec
    (motive_1 := fun t v _ => ∀ (n : Nat) (rest : Str), 2 * t.length ≤ n → (∀ l, v = .num l → Ends rest) → value n (t ++ rest) = some (v, rest))
    (motive_2 := fun t l _ => ∀ (n : Nat) (rest : Str), 2 * t.length + 1 ≤ n →
      elems n (skip (t ++ ']' :: rest)) = some (l, rest))
    (motive_3 := fun t l _ => ∀ (n : Nat) (rest : Str), 2 * t.length + 1 ≤ n →
      members n (skip (t ++ '}' :: rest)) = some (l, rest)) ?_ ?_ ?_ ?_ ?_ ?_ ?_ ?_ ?_ ?_ ?_ ?_ ?_ h
  · intro n rest hn _
    cases n with
    | zero => cases hn
    | succ n => rfl
  · intro n rest hn _
    cases n with
    | zero => cases hn
    | succ n => rfl
  · intro n rest hn _
    cases n with
    | zero => cases hn
    | succ n => rfl
  · intro l hl n rest hn hr
    have hread := number_read hl (hr _ rfl)
    obtain ⟨c, r, rfl, hc⟩ := number_head hl
    cases n with
    | zero => simp at hn
    | succ n =>
      rw [List.cons_append, value_num hc, ← List.cons_append, hread]
      rfl
  · intro t s hq n rest hn hr
    obtain ⟨r, e, hc⟩ := chars_quoted hq rest
    cases n with
    | zero =>
      obtain ⟨b, -, rfl⟩ := hq
      simp at hn
    | succ n =>
      rw [e, value_str, hc]
      rfl
  · intro w hw n rest hn hr
    cases n with
    | zero => simp at hn
    | succ n =>
      rw [List.cons_append, List.cons_append, List.append_assoc]
      exact value_arr0 (by rw [skip_space hw]; exact skip_cons (by decide) _)
  · intro t l hl ih n rest hn hr
    cases n with
    | zero => simp at hn
    | succ n =>
      simp only [List.length_append, List.length_cons, List.length_nil] at hn
      rw [List.cons_append, List.cons_append, List.append_assoc, List.singleton_append, value_arr (lists_head hl _),
        ih n rest (by omega)]
      rfl
  · intro w hw n rest hn hr
    cases n with
    | zero => simp at hn
    | succ n =>
      rw [List.cons_append, List.cons_append, List.append_assoc]
      exact value_obj0 (by rw [skip_space hw]; exact skip_cons (by decide) _)
  · intro t l hl ih n rest hn hr
    cases n with
    | zero => simp at hn
    | succ n =>
      simp only [List.length_append, List.length_cons, List.length_nil] at hn
      rw [List.cons_append, List.cons_append, List.append_assoc, List.singleton_append, value_obj (maps_head hl _),
        ih n rest (by omega)]
      rfl
  · intro w t w' v hw ht hw' ih n rest hn
    simp only [List.length_append] at hn
    cases n with
    | zero => omega
    | succ n =>
      rw [List.append_assoc, List.append_assoc, skip_space hw, skip_says ht]
      exact elems_last (ih n _ (by omega) (fun _ _ => ends_space hw' (ends_cons (by decide) _)))
        (by rw [skip_space hw']; exact skip_cons (by decide) _)
  · intro w t w' u v l hw ht hw' hu ih ih2 n rest hn
    simp only [List.length_append, List.length_cons] at hn
    cases n with
    | zero => omega
    | succ n =>
      simp only [List.append_assoc, List.cons_append]
      rw [skip_space hw, skip_says ht, elems_more
        (ih n (w' ++ ',' :: (u ++ ']' :: rest)) (by omega) (fun _ _ => ends_space hw' (ends_cons (by decide) _)))
        (by rw [skip_space hw']; exact skip_cons (by decide) _), ih2 n rest (by omega)]
      rfl
  · intro w q w1 w2 t w' k v hw hq hw1 hw2 ht hw' ih n rest hn
    simp only [List.length_append, List.length_cons] at hn
    cases n with
    | zero => omega
    | succ n =>
      simp only [List.append_assoc, List.cons_append]
      obtain ⟨r, e, hc⟩ := chars_quoted hq (w1 ++ ':' :: (w2 ++ (t ++ (w' ++ '}' :: rest))))
      rw [skip_space hw, e, skip_cons (by decide)]
      exact members_last hc (by rw [skip_space hw1]; exact skip_cons (by decide) _)
        (by rw [skip_space hw2, skip_says ht]; exact ih n _ (by omega) (fun _ _ => ends_space hw' (ends_cons (by decide) _)))
        (by rw [skip_space hw']; exact skip_cons (by decide) _)
  · intro w q w1 w2 t w' u k v l hw hq hw1 hw2 ht hw' hu ih ih2 n rest hn
    simp only [List.length_append, List.length_cons] at hn
    cases n with
    | zero => omega
    | succ n =>
      simp only [List.append_assoc, List.cons_append]
      obtain ⟨r, e, hc⟩ := chars_quoted hq (w1 ++ ':' :: (w2 ++ (t ++ (w' ++ ',' :: (u ++ '}' :: rest)))))
      rw [skip_space hw, e, skip_cons (by decide)]
      rw [members_more hc (by rw [skip_space hw1]; exact skip_cons (by decide) _)
        (by rw [skip_space hw2, skip_says ht]; exact ih n _ (by omega) (fun _ _ => ends_space hw' (ends_cons (by decide) _)))
        (by rw [skip_space hw']; exact skip_cons (by decide) _), ih2 n rest (by omega)]
      rfl

/-- Read as the first value of a text. -/
theorem first_says {w t rest : Str} {v : Json} (hw : Space w) (h : Says t v) (hr : ∀ l, v = .num l → Ends rest) :
    first (w ++ t ++ rest) = some v := by
  unfold first
  rw [List.append_assoc, skip_space hw, skip_says h, value_says h _ _ _ hr]
  · rfl
  · simp only [List.length_append]; omega

/-- Read as a whole text. -/
theorem only_says {w t w' : Str} {v : Json} (hw : Space w) (h : Says t v) (hw' : Space w') :
    only (w ++ t ++ w') = some v := by
  unfold only
  rw [List.append_assoc, skip_space hw, skip_says h, value_says h]
  · dsimp only
    rw [skip_all hw', if_pos rfl]
  · simp only [List.length_append]; omega
  · intro _ _
    have : Ends ([] : Str) := fun c hc => by cases hc
    have := ends_space hw' this
    simpa using this

end Swoll.Lemmas.Json
