import Verif.Model.EventJSON
import Verif.Spec.EventJSON
/-
Lemmas about `jsonText`: it keeps exactly the well-formed strings.
-/
namespace Swoll.Lemmas.EventJSON
open Swoll.Bytes Swoll.EventJSON Swoll.Spec.EventJSON

theorem isIn_iff {lo hi : Nat} {b : Byte} : isIn lo hi b = true ↔ lo ≤ b.toNat ∧ b.toNat ≤ hi := by
  simp [isIn]

theorem char_range (c : Char) :
    c.val.toNat < 0xd800 ∨ (0xdfff < c.val.toNat ∧ c.val.toNat < 0x110000) := by
  have h := c.valid
  simpa [UInt32.isValidChar, Nat.isValidChar] using h

theorem toNat_ofNat {n : Nat} (h : n < 256) : (UInt8.ofNat n).toNat = n := by
  simp [UInt8.toNat_ofNat']; omega

/-- A well-formed sequence is recognised, with its length. -/
theorem runeLen_encode (c : Char) (rest : List Byte) :
    runeLen (String.utf8EncodeChar c ++ rest) = some (String.utf8EncodeChar c).length := by
  have hc := char_range c
  unfold String.utf8EncodeChar
  dsimp only
  generalize c.val.toNat = v at hc
  split
  · have h0 : (UInt8.ofNat v).toNat = v := toNat_ofNat (by omega)
    simp only [List.cons_append, List.nil_append, runeLen, h0]
    rw [if_pos (by omega)]
    rfl
  split
  · have h0 : (UInt8.ofNat (v / 64 % 0x20 + 0xc0)).toNat = v / 64 % 0x20 + 0xc0 :=
      toNat_ofNat (by omega)
    have h1 : (UInt8.ofNat (v % 0x40 + 0x80)).toNat = v % 0x40 + 0x80 := toNat_ofNat (by omega)
    simp only [List.cons_append, List.nil_append, runeLen, isIn_iff, h0, h1]
    rw [if_neg (by omega), if_pos (by omega), if_pos (by omega)]
    rfl
  split
  · have h0 : (UInt8.ofNat (v / 4096 % 0x10 + 0xe0)).toNat = v / 4096 % 0x10 + 0xe0 :=
      toNat_ofNat (by omega)
    have h1 : (UInt8.ofNat (v / 64 % 0x40 + 0x80)).toNat = v / 64 % 0x40 + 0x80 :=
      toNat_ofNat (by omega)
    have h2 : (UInt8.ofNat (v % 0x40 + 0x80)).toNat = v % 0x40 + 0x80 := toNat_ofNat (by omega)
    simp only [List.cons_append, List.nil_append, runeLen, isIn_iff, Bool.and_eq_true, h0, h1, h2]
    rw [if_neg (by omega), if_neg (by omega), if_pos (by omega), if_pos]
    · rfl
    · refine ⟨⟨?_, ?_⟩, by omega⟩
      · split <;> omega
      · split <;> omega
  · have h0 : (UInt8.ofNat (v / 262144 % 0x08 + 0xf0)).toNat = v / 262144 % 0x08 + 0xf0 :=
      toNat_ofNat (by omega)
    have h1 : (UInt8.ofNat (v / 4096 % 0x40 + 0x80)).toNat = v / 4096 % 0x40 + 0x80 :=
      toNat_ofNat (by omega)
    have h2 : (UInt8.ofNat (v / 64 % 0x40 + 0x80)).toNat = v / 64 % 0x40 + 0x80 :=
      toNat_ofNat (by omega)
    have h3 : (UInt8.ofNat (v % 0x40 + 0x80)).toNat = v % 0x40 + 0x80 := toNat_ofNat (by omega)
    simp only [List.cons_append, List.nil_append, runeLen, isIn_iff, Bool.and_eq_true, h0, h1, h2,
      h3]
    rw [if_neg (by omega), if_neg (by omega), if_neg (by omega), if_pos (by omega), if_pos]
    · rfl
    · refine ⟨⟨⟨?_, ?_⟩, by omega⟩, by omega⟩
      · split <;> omega
      · split <;> omega

/-- The character with the given number. -/
def charOf (v : Nat) (h : v < 0xd800 ∨ (0xdfff < v ∧ v < 0x110000)) : Char :=
  ⟨UInt32.ofNat v, by
    have : (UInt32.ofNat v).toNat = v := by
      simp [UInt32.toNat_ofNat']; omega
    simp only [UInt32.isValidChar, Nat.isValidChar, this]
    omega⟩

theorem charOf_val (v : Nat) (h : v < 0xd800 ∨ (0xdfff < v ∧ v < 0x110000)) :
    (charOf v h).val.toNat = v := by
  simp [charOf, UInt32.toNat_ofNat']; omega

theorem ofNat_eq {n : Nat} {b : Byte} (h : n = b.toNat) : UInt8.ofNat n = b := by
  rw [h]; simp

theorem ite_some {p : Prop} [Decidable p] {x n : Nat}
    (h : (if p then some x else none) = some n) : p ∧ x = n := by
  by_cases hp : p
  · rw [if_pos hp] at h
    exact ⟨hp, Option.some.inj h⟩
  · rw [if_neg hp] at h
    exact nomatch h

/-- What is recognised is a well-formed sequence. -/
theorem runeLen_some {bs : List Byte} {n : Nat} (h : runeLen bs = some n) :
    ∃ c : Char, n = (String.utf8EncodeChar c).length ∧ bs.take n = String.utf8EncodeChar c := by
  match bs with
  | [] => simp [runeLen] at h
  | b :: rest =>
    have hb := b.toNat_lt
    simp only [runeLen] at h
    split at h
    · next h1 =>
      injection h with h; subst h
      have he : String.utf8EncodeChar (charOf b.toNat (by omega)) = [b] := by
        unfold String.utf8EncodeChar
        dsimp only
        rw [charOf_val, if_pos (by omega), ofNat_eq rfl]
      exact ⟨_, by rw [he]; rfl, by rw [he]; rfl⟩
    split at h
    · next h1 h2 =>
      rw [isIn_iff] at h2
      split at h
      · next c _ =>
        split at h
        · next h3 =>
          rw [isIn_iff] at h3
          injection h with h; subst h
          have hc := c.toNat_lt
          have he : String.utf8EncodeChar
              (charOf ((b.toNat - 0xc0) * 64 + (c.toNat - 0x80)) (by omega)) = [b, c] := by
            unfold String.utf8EncodeChar
            dsimp only
            rw [charOf_val, if_neg (by omega), if_pos (by omega),
              ofNat_eq (b := b) (by omega), ofNat_eq (b := c) (by omega)]
          exact ⟨_, by rw [he]; rfl, by rw [he]; rfl⟩
        · exact nomatch h
      · exact nomatch h
    split at h
    · next h1 h2 h2' =>
      rw [isIn_iff] at h2'
      split at h
      · next c d _ =>
        obtain ⟨h3, rfl⟩ := ite_some h
        simp only [isIn_iff, Bool.and_eq_true] at h3
        have hc := c.toNat_lt
        have hd := d.toNat_lt
        obtain ⟨⟨h3a, h3b⟩, h3c⟩ := h3
        have hl : 0x80 ≤ c.toNat ∧ (b.toNat = 0xe0 → 0xa0 ≤ c.toNat) := by
          split at h3a
          · exact ⟨by omega, fun _ => h3a⟩
          · exact ⟨h3a, fun h => by omega⟩
        have hu : c.toNat ≤ 0xbf ∧ (b.toNat = 0xed → c.toNat ≤ 0x9f) := by
          split at h3b
          · exact ⟨by omega, fun _ => h3b⟩
          · exact ⟨h3b, fun h => by omega⟩
        have he : String.utf8EncodeChar (charOf ((b.toNat - 0xe0) * 4096 +
            (c.toNat - 0x80) * 64 + (d.toNat - 0x80)) (by omega)) = [b, c, d] := by
          unfold String.utf8EncodeChar
          dsimp only
          rw [charOf_val, if_neg (by omega), if_neg (by omega), if_pos (by omega),
            ofNat_eq (b := b) (by omega), ofNat_eq (b := c) (by omega),
            ofNat_eq (b := d) (by omega)]
        exact ⟨_, by rw [he]; rfl, by rw [he]; rfl⟩
      · exact nomatch h
    split at h
    · next h1 h2 h2' h2'' =>
      rw [isIn_iff] at h2''
      split at h
      · next c d e _ =>
        obtain ⟨h3, rfl⟩ := ite_some h
        simp only [isIn_iff, Bool.and_eq_true] at h3
        have hc := c.toNat_lt
        have hd := d.toNat_lt
        have he := e.toNat_lt
        obtain ⟨⟨⟨h3a, h3b⟩, h3c⟩, h3d⟩ := h3
        have hl : 0x80 ≤ c.toNat ∧ (b.toNat = 0xf0 → 0x90 ≤ c.toNat) := by
          split at h3a
          · exact ⟨by omega, fun _ => h3a⟩
          · exact ⟨h3a, fun h => by omega⟩
        have hu : c.toNat ≤ 0xbf ∧ (b.toNat = 0xf4 → c.toNat ≤ 0x8f) := by
          split at h3b
          · exact ⟨by omega, fun _ => h3b⟩
          · exact ⟨h3b, fun h => by omega⟩
        have he : String.utf8EncodeChar (charOf ((b.toNat - 0xf0) * 262144 +
            (c.toNat - 0x80) * 4096 + (d.toNat - 0x80) * 64 + (e.toNat - 0x80)) (by omega))
            = [b, c, d, e] := by
          unfold String.utf8EncodeChar
          dsimp only
          rw [charOf_val, if_neg (by omega), if_neg (by omega), if_neg (by omega),
            ofNat_eq (b := b) (by omega), ofNat_eq (b := c) (by omega),
            ofNat_eq (b := d) (by omega), ofNat_eq (b := e) (by omega)]
        exact ⟨_, by rw [he]; rfl, by rw [he]; rfl⟩
      · exact nomatch h
    · exact nomatch h

theorem encode_length_pos (c : Char) : 0 < (String.utf8EncodeChar c).length := by
  unfold String.utf8EncodeChar
  dsimp only
  split
  · exact Nat.succ_pos _
  split
  · exact Nat.succ_pos _
  split
  · exact Nat.succ_pos _
  · exact Nat.succ_pos _

/-- The result is well-formed. -/
theorem utf8_loop (fuel : Nat) (s : List Byte) : Utf8 (jsonTextLoop fuel s) := by
  induction fuel generalizing s with
  | zero => exact ⟨[], rfl⟩
  | succ fuel ih =>
    match s with
    | [] => exact ⟨[], rfl⟩
    | b :: rest =>
      unfold jsonTextLoop
      split
      · next n h =>
        obtain ⟨c, -, hc⟩ := runeLen_some h
        obtain ⟨cs, hcs⟩ := ih ((b :: rest).drop n)
        exact ⟨c :: cs, by rw [hc, hcs]; rfl⟩
      · obtain ⟨cs, hcs⟩ := ih rest
        refine ⟨'�' :: cs, ?_⟩
        rw [hcs, List.flatMap_cons]
        rfl

theorem utf8_jsonText (s : List Byte) : Utf8 (jsonText s) := utf8_loop _ _

theorem loop_encode (cs : List Char) (fuel : Nat)
    (h : (cs.flatMap String.utf8EncodeChar).length ≤ fuel) :
    jsonTextLoop fuel (cs.flatMap String.utf8EncodeChar) = cs.flatMap String.utf8EncodeChar := by
  induction cs generalizing fuel with
  | nil => cases fuel <;> rfl
  | cons c cs ih =>
    rw [List.flatMap_cons] at h ⊢
    rw [List.length_append] at h
    have hpos := encode_length_pos c
    have hr := runeLen_encode c (cs.flatMap String.utf8EncodeChar)
    cases fuel with
    | zero => omega
    | succ fuel =>
      generalize he : String.utf8EncodeChar c = e at *
      match e, hpos with
      | b :: e, _ =>
        rw [List.cons_append] at hr ⊢
        unfold jsonTextLoop
        rw [hr]
        dsimp only
        rw [← List.cons_append, List.take_left, List.drop_left, ih]
        simp only [List.length_cons] at h
        omega

/-- Exactly the well-formed strings survive. -/
theorem jsonText_eq_iff (s : List Byte) : jsonText s = s ↔ Utf8 s := by
  constructor
  · intro h
    rw [← h]
    exact utf8_jsonText s
  · rintro ⟨cs, rfl⟩
    exact loop_encode cs _ (Nat.le_refl _)

theorem utf8_ascii {s : List Byte} (h : ∀ b ∈ s, b.toNat < 128) : Utf8 s := by
  induction s with
  | nil => exact ⟨[], rfl⟩
  | cons b s ih =>
    obtain ⟨cs, hcs⟩ := ih fun x hx => h x (List.mem_cons_of_mem _ hx)
    have hb := h b (List.mem_cons_self ..)
    refine ⟨charOf b.toNat (by omega) :: cs, ?_⟩
    have he : String.utf8EncodeChar (charOf b.toNat (by omega)) = [b] := by
      unfold String.utf8EncodeChar
      dsimp only
      rw [charOf_val, if_pos (by omega), ofNat_eq rfl]
    rw [List.flatMap_cons, he, ← hcs]
    rfl

end Swoll.Lemmas.EventJSON
