import Verif.Model.EventRead
import Verif.Lemmas.EventText
import Verif.Lemmas.Utf8
import Verif.Lemmas.JsonText
import Verif.Lemmas.JsonSound
import Verif.Lemmas.Wire
/-
Reading what is written: characters, base 64, numbers and texts.
-/
namespace Swoll.Lemmas.EventRead
open Swoll Swoll.Bytes Swoll.Event Swoll.Flags Swoll.EventJSON Swoll.EventText Swoll.EventRead
open Swoll.Json (Str Json)
open Swoll.Lemmas.EventText Swoll.Lemmas.EventJSON
open Swoll.Spec.Json

/-! ### Characters -/

theorem rune_encode (c : Char) (rest : List Byte) :
    rune (String.utf8EncodeChar c ++ rest) = some ((String.utf8EncodeChar c).length, c) := by
  unfold rune
  rw [Lemmas.EventJSON.runeLen_encode, Option.map_some]
  have hc := Lemmas.EventJSON.char_range c
  have hch : ∀ n, n = c.val.toNat → Char.ofNat n = c := fun n h => by
    rw [h]; exact Char.ofNat_toNat c
  refine congrArg some (Prod.ext rfl ?_)
  dsimp only
  refine hch _ ?_
  have t : ∀ n, n < 256 → (UInt8.ofNat n).toNat = n := fun n h => Lemmas.EventJSON.toNat_ofNat h
  unfold String.utf8EncodeChar
  dsimp only
  split
  · simp only [List.cons_append, List.getD_cons_zero, List.length_cons, List.length_nil]
    rw [if_pos trivial, t _ (by omega)]
  · split
    · simp only [List.cons_append, List.getD_cons_zero, List.getD_cons_succ, List.length_cons, List.length_nil]
      rw [if_neg (by decide : ¬ 0 + 1 + 1 = 1), if_pos trivial, t _ (by omega), t _ (by omega)]
      omega
    · split
      · simp only [List.cons_append, List.getD_cons_zero, List.getD_cons_succ, List.length_cons, List.length_nil]
        rw [if_neg (by decide : ¬ 0 + 1 + 1 + 1 = 1), if_neg (by decide : ¬ 0 + 1 + 1 + 1 = 2), if_pos trivial,
          t _ (by omega), t _ (by omega), t _ (by omega)]
        omega
      · simp only [List.cons_append, List.getD_cons_zero, List.getD_cons_succ, List.length_cons, List.length_nil]
        rw [if_neg (by decide : ¬ 0 + 1 + 1 + 1 + 1 = 1), if_neg (by decide : ¬ 0 + 1 + 1 + 1 + 1 = 2),
          if_neg (by decide : ¬ 0 + 1 + 1 + 1 + 1 = 3), t _ (by omega), t _ (by omega), t _ (by omega),
          t _ (by omega)]
        omega

theorem rune_some {bs : List Byte} {k : Nat} {c : Char} (h : rune bs = some (k, c)) :
    runeLen bs = some k ∧ bs.take k = String.utf8EncodeChar c := by
  have hr : ∃ n, runeLen bs = some n := by
    unfold rune at h
    cases hr : runeLen bs with
    | none => rw [hr] at h; cases h
    | some n => exact ⟨n, rfl⟩
  obtain ⟨n, hr⟩ := hr
  obtain ⟨c', h1, h2⟩ := Lemmas.EventJSON.runeLen_some hr
  have h3 := rune_encode c' (bs.drop n)
  rw [← h2, List.take_append_drop] at h3
  rw [h] at h3
  injection h3 with h3
  injection h3 with h3 h4
  subst h4
  rw [h2, ← h1] at h3
  subst h3
  exact ⟨hr, h2⟩

theorem rune_none {bs : List Byte} (h : rune bs = none) : runeLen bs = none := by
  unfold rune at h
  cases hr : runeLen bs with
  | none => rfl
  | some n => rw [hr] at h; cases h

/-- The characters of a string of bytes; what is not UTF-8 is U+FFFD. -/
def runes : Nat → List Byte → Str
  | 0, _ => []
  | _, [] => []
  | n + 1, b :: bs =>
    match rune (b :: bs) with
    | some (k, c) => c :: runes n ((b :: bs).drop k)
    | none => '�' :: runes n bs

theorem runes_utf8 : ∀ (n : Nat) (bs : List Byte), utf8 (runes n bs) = jsonTextLoop n bs := by
  intro n
  induction n with
  | zero => intro bs; rfl
  | succ n ih =>
    intro bs
    cases bs with
    | nil => rfl
    | cons b bs =>
      rw [runes, jsonTextLoop]
      cases hr : rune (b :: bs) with
      | none =>
        rw [rune_none hr]
        dsimp only
        unfold utf8
        rw [List.flatMap_cons]
        show _ ++ utf8 _ = _
        rw [ih]
        congr 1
      | some p =>
        obtain ⟨k, c⟩ := p
        obtain ⟨h1, h2⟩ := rune_some hr
        rw [h1]
        dsimp only
        unfold utf8
        rw [List.flatMap_cons]
        show _ ++ utf8 _ = _
        rw [ih, h2]

theorem runes_body : ∀ (n : Nat) (bs : List Byte), Body (runes n bs) (body n bs) := by
  intro n
  induction n with
  | zero => intro bs; exact .nil
  | succ n ih =>
    intro bs
    cases bs with
    | nil => exact .nil
    | cons b bs =>
      rw [runes, body]
      cases hr : rune (b :: bs) with
      | none =>
        dsimp only
        refine Body.unicode (c := '�') (h := ['f', 'f', 'f', 'd']) ?_ (ih bs)
        have h : Json.getu4 'f' 'f' 'f' 'd' = some 0xfffd := by decide
        exact Lemmas.Json.hex4_getu4 h
      | some p =>
        obtain ⟨k, c⟩ := p
        exact Lemmas.Json.body_escape c (ih _)

theorem quoted_bytes (bs : List Byte) : Quoted (runes bs.length bs) (quoteBytes bs) :=
  ⟨_, runes_body _ _, rfl⟩

theorem utf8_ofBytes (bs : List Byte) : utf8 (runes bs.length bs) = jsonText bs := runes_utf8 _ _

/-! ### Base 64 -/

theorem value64_digit : ∀ n < 64, value64 (digit64 n) = some n := by decide

theorem digit64_not : ∀ n < 64, digit64 n ≠ '=' ∧ digit64 n ≠ '\r' ∧ digit64 n ≠ '\n' := by decide

theorem ofNat_byte {n : Nat} {b : Byte} (h : n % 256 = b.toNat) : UInt8.ofNat n = b := by
  apply UInt8.toNat_inj.1
  rw [UInt8.toNat_ofNat']
  exact h

theorem quads_base64 : ∀ bs : List Byte, quads (base64 bs) = some bs
  | [] => rfl
  | [a] => by
    have ha := a.toNat_lt
    rw [base64, quads, value64_digit _ (by omega), value64_digit _ (by omega)]
    dsimp only
    rw [if_pos rfl, if_pos ⟨rfl, rfl⟩, ofNat_byte (b := a) (by omega)]
  | [a, b] => by
    have ha := a.toNat_lt
    have hb := b.toNat_lt
    rw [base64, quads, value64_digit _ (by omega), value64_digit _ (by omega)]
    dsimp only
    rw [if_neg (digit64_not _ (by omega)).1, value64_digit _ (by omega)]
    dsimp only
    rw [if_pos rfl, if_pos rfl, ofNat_byte (b := a) (by omega), ofNat_byte (b := b) (by omega)]
  | a :: b :: c :: bs => by
    have ha := a.toNat_lt
    have hb := b.toNat_lt
    have hc := c.toNat_lt
    rw [base64, quads, value64_digit _ (by omega), value64_digit _ (by omega)]
    dsimp only
    rw [if_neg (digit64_not _ (by omega)).1, value64_digit _ (by omega)]
    dsimp only
    rw [if_neg (digit64_not _ (by omega)).1, value64_digit _ (by omega)]
    dsimp only
    rw [quads_base64 bs, Option.map_some, ofNat_byte (b := a) (by omega), ofNat_byte (b := b) (by omega),
      ofNat_byte (b := c) (by omega)]

theorem plain_not_newline {c : Char} (h : Plain c) : c ≠ '\r' ∧ c ≠ '\n' := by
  refine ⟨fun hc => ?_, fun hc => ?_⟩
  · subst hc; exact absurd h.2 (by decide)
  · subst hc; exact absurd h.2 (by decide)

theorem unbase64_base64 (bs : List Byte) : unbase64 (base64 bs) = some bs := by
  unfold unbase64
  rw [List.filter_eq_self.2, quads_base64]
  intro c hc
  obtain ⟨h1, h2⟩ := plain_not_newline (base64_plain bs c hc)
  simp [h1, h2]

/-! ### Numbers -/

theorem natural_itoa {n : Nat} (h : n < 2 ^ 64) : natural (itoa n) = some n := by
  unfold natural itoa
  rw [if_neg (show ¬ ((n : Int) < 0) by omega)]
  have hn : (n : Int).natAbs = n := by omega
  rw [hn, Flags.digitsVal_digits]
  have : digits n ≠ [] := by
    have := Lemmas.Duration.digits_ne n []
    rwa [List.append_nil] at this
  rw [if_neg this]
  dsimp only
  rw [if_pos h]

theorem integer_itoa {i : Int} (h : EventText.Word i) : integer (itoa i) = some i := by
  unfold EventText.Word at h
  unfold integer
  by_cases h' : i < 2 ^ 63
  · rw [Flags.atoi_itoa ⟨h.1, h'⟩]
  · have hi : i = ((i.toNat : Nat) : Int) := by omega
    cases ha : atoi (itoa i) with
    | some j =>
      exfalso
      rw [hi] at ha
      have h2 := Flags.digitsVal_digits i.toNat
      obtain ⟨c, cs, h3, h4⟩ := Flags.digits_head i.toNat
      unfold itoa at ha
      rw [if_neg (by omega), show ((i.toNat : Nat) : Int).natAbs = i.toNat by omega] at ha
      unfold atoi splitSign at ha
      rw [h3] at ha h2
      split at ha
      next neg ds hsp =>
      split at hsp
      · next hh => injection hh with hh1; subst hh1; exact absurd h4.1 (by decide)
      · next hh => injection hh with hh1; subst hh1; exact absurd h4.1 (by decide)
      · injection hsp with hs1 hs2
        subst hs1 hs2
        rw [if_neg (by simp), h2] at ha
        dsimp only at ha
        rw [if_neg (by simp only [Bool.false_eq_true, if_false]; omega)] at ha
        cases ha
    | none =>
      dsimp only
      rw [hi, natural_itoa (by omega)]
      rfl

/-! ### Texts -/

mutual
/-- What a text says. -/
def jsonOf : Doc → Json
  | .null => .null
  | .num i => .num (itoa i)
  | .str s => .str s
  | .bytes bs => .str (runes bs.length bs)
  | .arr l => .arr (jsonElems l)
  | .obj l => .obj (jsonMembers l)
def jsonElems : List Doc → List Json
  | [] => []
  | v :: l => jsonOf v :: jsonElems l
def jsonMembers : List (String × Doc) → List (Str × Json)
  | [] => []
  | (k, v) :: l => (k.toList, jsonOf v) :: jsonMembers l
end

open Swoll.Lemmas.Json (space_nil quoted_quote) in
mutual
theorem doc_says : ∀ (d : Doc), Says d.text (jsonOf d)
  | .null => by rw [Doc.text, jsonOf]; exact .null
  | .num i => by rw [Doc.text, jsonOf]; exact .num (Lemmas.Wire.fine_ofInt i)
  | .str s => by rw [Doc.text, jsonOf]; exact .str (quoted_quote s)
  | .bytes bs => by rw [Doc.text, jsonOf]; exact .str (quoted_bytes bs)
  | .arr [] => by rw [Doc.text, jsonOf, elems, jsonElems]; exact .empty space_nil
  | .arr (v :: l) => by rw [Doc.text, jsonOf]; exact .arr (elems_says (v :: l) (by simp))
  | .obj [] => by rw [Doc.text, jsonOf, members, jsonMembers]; exact .none space_nil
  | .obj (e :: l) => by rw [Doc.text, jsonOf]; exact .obj (members_says (e :: l) (by simp))
theorem elems_says : ∀ (l : List Doc), l ≠ [] → Lists (elems l) (jsonElems l)
  | [], h => absurd rfl h
  | [v], _ => by
    have := Lists.last space_nil (doc_says v) space_nil
    simpa [elems, jsonElems] using this
  | v :: w :: l, _ => by
    have := Lists.more space_nil (doc_says v) space_nil (elems_says (w :: l) (by simp))
    rw [elems.eq_def, jsonElems]
    simpa using this
theorem members_says : ∀ (l : List (String × Doc)), l ≠ [] → Maps (members l) (jsonMembers l)
  | [], h => absurd rfl h
  | [(k, v)], _ => by
    have := Maps.last space_nil (quoted_quote k.toList) space_nil space_nil (doc_says v) space_nil
    simpa [members, jsonMembers] using this
  | (k, v) :: e :: l, _ => by
    have := Maps.more space_nil (quoted_quote k.toList) space_nil space_nil (doc_says v) space_nil
      (members_says (e :: l) (by simp))
    rw [members.eq_def, jsonMembers]
    simpa using this
end

theorem only_doc (d : Doc) : Json.only (d.text ++ ['\n']) = some (jsonOf d) := by
  have := Lemmas.Json.only_says (w := []) (w' := ['\n']) Lemmas.Json.space_nil (doc_says d)
    (fun c hc => by rw [List.mem_singleton.1 hc]; simp)
  simpa using this

end Swoll.Lemmas.EventRead
