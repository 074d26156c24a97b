import Verif.Model.EventText
import Verif.Lemmas.EventJSONFull
import Verif.Spec.EventText
/-
How long the texts of events can be.
-/
namespace Swoll.Lemmas.EventText
open Swoll Swoll.Bytes Swoll.Event Swoll.Flags Swoll.EventJSON Swoll.EventText
open Swoll.Json (Str)
open Swoll.Lemmas.EventJSON

/-! ### Texts -/

theorem size_nil : size [] = 0 := rfl

theorem size_cons (c : Char) (s : Str) : size (c :: s) = c.utf8Size + size s := by
  unfold size; rw [List.map_cons, List.sum_cons]

theorem size_append (a b : Str) : size (a ++ b) = size a + size b := by
  unfold size; rw [List.map_append, List.sum_append_nat]

theorem utf8Size_ascii {c : Char} (h : c.toNat < 128) : c.utf8Size = 1 := by
  rw [Char.utf8Size_eq_one_iff]
  rw [UInt32.le_iff_toNat_le]
  show c.toNat ≤ 127
  omega

/-- All characters are ASCII. -/
def Ascii (s : Str) : Prop := ∀ c ∈ s, c.toNat < 128

theorem size_ascii : ∀ {s : Str}, Ascii s → size s = s.length
  | [], _ => rfl
  | c :: s, h => by
    rw [size_cons, utf8Size_ascii (h c (.head _)), size_ascii (fun c hc => h c (.tail _ hc)), List.length_cons]
    omega

theorem hexDigit_lt (n : Nat) : (Json.hexDigit (n % 16)).toNat < 128 := by
  have h : n % 16 < 16 := Nat.mod_lt _ (by decide)
  generalize n % 16 = k at h
  revert k; decide

theorem size_unicode (n : Nat) : size (Json.unicode n) = 6 := by
  rw [size_ascii]
  · rfl
  · intro c hc
    simp only [Json.unicode, List.mem_cons, List.not_mem_nil, or_false] at hc
    rcases hc with rfl | rfl | rfl | rfl | rfl | rfl
    · decide
    · decide
    all_goals exact hexDigit_lt _

theorem size_escape (c : Char) : size (Json.escape c) ≤ 6 := by
  unfold Json.escape
  by_cases h : c = '"'
  · rw [if_pos h]; decide
  rw [if_neg h]
  by_cases h : c = '\\'
  · rw [if_pos h]; decide
  rw [if_neg h]
  by_cases h : c = '\n'
  · rw [if_pos h]; decide
  rw [if_neg h]
  by_cases h : c = '\r'
  · rw [if_pos h]; decide
  rw [if_neg h]
  by_cases h : c = '\t'
  · rw [if_pos h]; decide
  rw [if_neg h]
  split
  · exact Nat.le_of_eq (size_unicode _)
  · rw [size_cons, size_nil]; have := Char.utf8Size_le_four c; omega

theorem runeLen_pos {b : Byte} {bs : List Byte} {n : Nat} (h : runeLen (b :: bs) = some n) : 0 < n := by
  unfold runeLen at h
  repeat' split at h
  all_goals first
    | (injection h with h; omega)
    | cases h

theorem size_body : ∀ (n : Nat) (bs : List Byte), bs.length ≤ n → size (body n bs) ≤ 6 * bs.length := by
  intro n
  induction n with
  | zero => intro bs _; exact Nat.zero_le _
  | succ n ih =>
    intro bs hn
    cases bs with
    | nil => exact Nat.zero_le _
    | cons b bs =>
      rw [List.length_cons] at hn
      unfold body
      split
      · next k c h =>
        unfold rune at h
        obtain ⟨k', h1, h2⟩ := Option.map_eq_some_iff.1 h
        have hk : k' = k := congrArg Prod.fst h2
        subst hk
        have hp := runeLen_pos h1
        have hl : ((b :: bs).drop k').length ≤ bs.length := by
          rw [List.length_drop, List.length_cons]; omega
        have := ih ((b :: bs).drop k') (by omega)
        rw [size_append]
        have := size_escape c
        rw [List.length_cons]
        omega
      · have := ih bs (by omega)
        rw [size_append, size_unicode, List.length_cons]
        omega

theorem size_quoteBytes (bs : List Byte) : size (quoteBytes bs) ≤ 6 * bs.length + 2 := by
  unfold quoteBytes
  rw [size_append, size_cons]
  have := size_body bs.length bs (Nat.le_refl _)
  have h : ('"' : Char).utf8Size = 1 := by decide
  have h' : size ['"'] = 1 := by decide
  omega

theorem digits_length (k : Nat) : ∀ n, n < 10 ^ (k + 1) → (digits n).length ≤ k + 1 := by
  induction k with
  | zero => intro n h; unfold digits; rw [dif_pos (by omega)]; exact Nat.le_refl _
  | succ k ih =>
    intro n h
    unfold digits
    split
    · exact Nat.succ_le_succ (Nat.zero_le _)
    · rw [List.length_append]
      have := ih (n / 10) (by rw [Nat.pow_succ] at h; omega)
      simp only [List.length_cons, List.length_nil]
      omega

theorem digits_ascii : ∀ n, Ascii (digits n) := by
  intro n
  induction n using Nat.strongRecOn with
  | ind n ih =>
    have hd : ∀ d < 10, (digit d).toNat < 128 := by decide
    unfold digits
    split
    · next h => intro c hc; rw [List.mem_singleton] at hc; rw [hc]; exact hd n h
    · intro c hc
      rcases List.mem_append.1 hc with hc | hc
      · exact ih (n / 10) (by omega) c hc
      · rw [List.mem_singleton] at hc; rw [hc]; exact hd _ (Nat.mod_lt _ (by decide))

theorem itoa_ascii (i : Int) : Ascii (itoa i) := by
  unfold itoa
  split
  · intro c hc
    rcases List.mem_cons.1 hc with rfl | hc
    · decide
    · exact digits_ascii _ c hc
  · exact digits_ascii _

/-- The integers of Go's types. -/
def Word (i : Int) : Prop := -(2 ^ 63 : Int) ≤ i ∧ i < 2 ^ 64

instance (i : Int) : Decidable (Word i) := by unfold Word; infer_instance

theorem itoa_length {i : Int} (h : Word i) : (itoa i).length ≤ 20 := by
  unfold Word at h
  unfold itoa
  split
  · rw [List.length_cons]
    have := digits_length 18 i.natAbs (by omega)
    omega
  · exact digits_length 19 i.natAbs (by omega)

theorem size_itoa {i : Int} (h : Word i) : size (itoa i) ≤ 20 := by
  rw [size_ascii (itoa_ascii i)]; exact itoa_length h

/-- The integers of 32 bits. -/
def Half (i : Int) : Prop := -(2 ^ 31 : Int) ≤ i ∧ i < 2 ^ 32

theorem size_itoa_half {i : Int} (h : Half i) : size (itoa i) ≤ 11 := by
  rw [size_ascii (itoa_ascii i)]
  unfold Half at h
  unfold itoa
  split
  · rw [List.length_cons]
    have := digits_length 9 i.natAbs (by omega)
    omega
  · have := digits_length 9 i.natAbs (by omega)
    omega

/-- A character that is written as it is. -/
def Plain (c : Char) : Prop := c.toNat < 128 ∧ Json.escape c = [c]

instance (c : Char) : Decidable (Plain c) := by unfold Plain; infer_instance

theorem flatMap_plain : ∀ {s : Str}, (∀ c ∈ s, Plain c) → s.flatMap Json.escape = s
  | [], _ => rfl
  | c :: s, h => by
    rw [List.flatMap_cons, (h c (.head _)).2, flatMap_plain (fun c hc => h c (.tail _ hc))]; rfl

theorem size_quote_plain {s : Str} (h : ∀ c ∈ s, Plain c) : size (Json.quote s) = s.length + 2 := by
  unfold Json.quote
  rw [flatMap_plain h, size_append, size_cons, size_ascii (fun c hc => (h c hc).1)]
  have h : ('"' : Char).utf8Size = 1 := by decide
  have h' : size ['"'] = 1 := by decide
  omega

theorem digit_plain : ∀ d < 10, Plain (digit d) := by decide

theorem digits_plain : ∀ n, ∀ c ∈ digits n, Plain c := by
  intro n
  induction n using Nat.strongRecOn with
  | ind n ih =>
    unfold digits
    split
    · next h => intro c hc; rw [List.mem_singleton] at hc; rw [hc]; exact digit_plain n h
    · intro c hc
      rcases List.mem_append.1 hc with hc | hc
      · exact ih (n / 10) (by omega) c hc
      · rw [List.mem_singleton] at hc; rw [hc]; exact digit_plain _ (Nat.mod_lt _ (by decide))

theorem itoa_plain (i : Int) : ∀ c ∈ itoa i, Plain c := by
  unfold itoa
  split
  · intro c hc
    rcases List.mem_cons.1 hc with rfl | hc
    · decide
    · exact digits_plain _ c hc
  · exact digits_plain _

theorem digit64_plain : ∀ n < 64, Plain (digit64 n) := by decide

theorem base64_plain : ∀ bs : List Byte, ∀ c ∈ base64 bs, Plain c
  | [] => fun c h => by cases h
  | [a] => fun c h => by
    have ha := a.toNat_lt
    simp only [base64, List.mem_cons, List.not_mem_nil, or_false] at h
    rcases h with rfl | rfl | rfl | rfl
    · exact digit64_plain _ (by omega)
    · exact digit64_plain _ (by omega)
    · decide
    · decide
  | [a, b] => fun c h => by
    have ha := a.toNat_lt
    have hb := b.toNat_lt
    simp only [base64, List.mem_cons, List.not_mem_nil, or_false] at h
    rcases h with rfl | rfl | rfl | rfl
    · exact digit64_plain _ (by omega)
    · exact digit64_plain _ (by omega)
    · exact digit64_plain _ (by omega)
    · decide
  | a :: b :: d :: bs => fun c h => by
    have ha := a.toNat_lt
    have hb := b.toNat_lt
    have hd := d.toNat_lt
    rw [base64] at h
    simp only [List.mem_cons] at h
    rcases h with rfl | rfl | rfl | rfl | h
    · exact digit64_plain _ (by omega)
    · exact digit64_plain _ (by omega)
    · exact digit64_plain _ (by omega)
    · exact digit64_plain _ (by omega)
    · exact base64_plain bs c h

theorem base64_length : ∀ bs : List Byte, (base64 bs).length = 4 * ((bs.length + 2) / 3)
  | [] => rfl
  | [_] => by rw [base64]; simp only [List.length_cons, List.length_nil]
  | [_, _] => by rw [base64]; simp only [List.length_cons, List.length_nil]
  | a :: b :: c :: bs => by
    rw [base64]
    simp only [List.length_cons]
    rw [base64_length bs]
    omega

/-! ### Documents -/

theorem size_one (c : Char) (h : c.toNat < 128) : size [c] = 1 := by
  rw [size_cons, utf8Size_ascii h, size_nil]

theorem size_arr (l : List Doc) : size (Doc.text (.arr l)) = size (elems l) + 2 := by
  rw [Doc.text, size_append, size_cons, size_one ']' (by decide), utf8Size_ascii (c := '[') (by decide)]
  omega

theorem size_obj (l : List (String × Doc)) : size (Doc.text (.obj l)) = size (members l) + 2 := by
  rw [Doc.text, size_append, size_cons, size_one '}' (by decide), utf8Size_ascii (c := '{') (by decide)]
  omega

theorem size_elems_cons (v : Doc) (l : List Doc) : size (elems (v :: l)) ≤ size v.text + 1 + size (elems l) := by
  cases l with
  | nil => simp only [elems, size_append, size_nil]; omega
  | cons w l => rw [elems.eq_def]; simp only [size_append, size_cons]; rw [utf8Size_ascii (c := ',') (by decide)]; omega

theorem size_members_cons (k : String) (v : Doc) (l : List (String × Doc)) :
    size (members ((k, v) :: l)) ≤ size (Json.quote k.toList) + size v.text + 2 + size (members l) := by
  cases l with
  | nil => simp only [members, size_append, size_nil, size_cons]; rw [utf8Size_ascii (c := ':') (by decide)]; omega
  | cons w l => rw [members.eq_def]; simp only [size_append, size_cons]; rw [utf8Size_ascii (c := ':') (by decide)]; rw [utf8Size_ascii (c := ',') (by decide)]; omega

/-- Members with limits. -/
def limit (l : List (String × Nat)) : Nat := (l.map fun e => size (Json.quote e.1.toList) + 2 + e.2).sum

theorem size_elems_map {α : Type} (f : α → Doc) (g : α → Nat) : ∀ (l : List α), (∀ a ∈ l, size (f a).text ≤ g a) →
    size (elems (l.map f)) ≤ (l.map fun a => g a + 1).sum
  | [], _ => Nat.zero_le _
  | a :: l, h => by
    rw [List.map_cons, List.map_cons, List.sum_cons]
    have := size_elems_cons (f a) (l.map f)
    have := h a (.head _)
    have := size_elems_map f g l (fun a ha => h a (.tail _ ha))
    omega

theorem sum_perm {l l' : List Nat} (h : l.Perm l') : l.sum = l'.sum := by
  induction h with
  | nil => rfl
  | cons a _ ih => rw [List.sum_cons, List.sum_cons, ih]
  | swap a b l => simp only [List.sum_cons]; omega
  | trans _ _ h1 h2 => rw [h1, h2]

theorem sum_filter {α : Type} (p : α → Bool) (f : α → Nat) : ∀ (l : List α), ((l.filter p).map f).sum ≤ (l.map f).sum
  | [] => Nat.le_refl _
  | a :: l => by
    have := sum_filter p f l
    rw [List.filter_cons]
    split
    · simp only [List.map_cons, List.sum_cons]; omega
    · simp only [List.map_cons, List.sum_cons]; omega

/-! ### Names -/

/-- The room of a list of names. -/
def namesCost (l : List String) : Nat := 2 + (l.map fun s => size (Json.quote s.toList) + 1).sum

theorem size_names (l : List String) : size (names l).text ≤ namesCost l := by
  unfold names namesCost
  rw [size_arr]
  have := size_elems_map (fun s : String => Doc.str s.toList) (fun s => size (Json.quote s.toList)) l
    (fun a _ => by rw [Doc.text]; exact Nat.le_refl _)
  omega

/-- The room of a set of flags. -/
def flagCost (s : FlagSort) : Nat :=
  2 + (s.type.masks.map fun e => size (Json.quote e.2.toList) + 1).sum +
    (match s.type.special with | some e => size (Json.quote e.2.toList) + 1 | none => 0)

theorem size_flags {env : Env} (he : EnvOk env) (s : FlagSort) (w : BitVec 64) :
    size (names (parse s.type (env.order s) w)).text ≤ flagCost s := by
  refine Nat.le_trans (size_names _) ?_
  have key : namesCost (((env.order s).filter fun e => e.1 &&& w ≠ 0).map (·.2)) ≤
      2 + (s.type.masks.map fun e => size (Json.quote e.2.toList) + 1).sum := by
    unfold namesCost
    rw [List.map_map]
    have h1 := sum_filter (fun e : Flags.Word × String => decide (e.1 &&& w ≠ 0))
      (fun e => size (Json.quote e.2.toList) + 1) (env.order s)
    have h2 := sum_perm ((he.order s).map fun e => size (Json.quote e.2.toList) + 1)
    simp only [Function.comp_def]
    omega
  unfold flagCost parse
  split
  · next v name hs =>
    split
    · simp only [namesCost, List.map_cons, List.map_nil, List.sum_cons, List.sum_nil, hs]
      omega
    · simp only [hs]; omega
  · next hs => simp only [hs]; omega

theorem size_nameOf {tbl : GoMap Int String} {n : Nat} (h : tbl.all (fun e => size (Json.quote e.2.toList) ≤ n) = true)
    (hn : 22 ≤ n) {i : Int} (hi : Word i) : size (Json.quote (nameOf tbl i).toList) ≤ n := by
  unfold nameOf
  split
  · next s hs =>
    have hm := GoMap.mem_of_get hs
    have := List.all_eq_true.1 h _ hm
    exact of_decide_eq_true this
  · rw [String.toList_ofList, size_quote_plain (itoa_plain i)]
    have := itoa_length hi
    omega

/-! ### Fields -/

theorem size_base64 (bs : List Byte) : size (Json.quote (base64 bs)) = 4 * ((bs.length + 2) / 3) + 2 := by
  rw [size_quote_plain (base64_plain bs), base64_length]

theorem window_le (a : List Byte) (off n : Nat) : (window a off n).length ≤ n := by
  unfold window; rw [List.length_take]; omega

theorem leVal_lt : ∀ (bs : List Byte), leVal bs < 256 ^ bs.length
  | [] => by decide
  | b :: bs => by
    have h1 := leVal_lt bs
    have h2 := b.toNat_lt
    simp only [leVal, List.length_cons, Nat.pow_succ]
    omega

theorem cstr_le (a : List Byte) (off n : Nat) : (makeCString a off n).length ≤ n := by
  unfold makeCString
  rw [List.length_take]
  have := window_le a off n
  omega

theorem leVal_le {a : List Byte} {off n : Nat} : leVal (window a off n) < 256 ^ n :=
  Nat.lt_of_lt_of_le (leVal_lt _) (Nat.pow_le_pow_right (by decide) (window_le _ _ _))

theorem toInt_word (b : BitVec 64) : Word b.toInt := by
  have h1 := b.toInt_lt
  have h2 := b.le_toInt
  unfold Word; omega

theorem toNat_word (b : BitVec 64) : Word (b.toNat : Int) := by
  have h1 := b.isLt
  unfold Word; omega

theorem toInt_half (b : BitVec 32) : Half b.toInt := by
  have h1 := b.toInt_lt
  have h2 := b.le_toInt
  unfold Half; omega

theorem toNat_half (b : BitVec 32) : Half (b.toNat : Int) := by
  have h1 := b.isLt
  unfold Half; omega

theorem Half.word {i : Int} (h : Half i) : Word i := by
  unfold Half at h; unfold Word; omega

theorem size_intAt8 (bs : List Byte) (o : Nat) (s : Bool) : size (itoa (EventText.intAt bs o 8 s)) ≤ 20 := by
  unfold EventText.intAt
  have h := leVal_le (a := bs) (off := o) (n := 8)
  split
  · exact size_itoa (toInt_word _)
  · exact size_itoa (by unfold Word; omega)

theorem size_intAt4 (bs : List Byte) (o : Nat) (s : Bool) : size (itoa (EventText.intAt bs o 4 s)) ≤ 11 := by
  unfold EventText.intAt
  have h := leVal_le (a := bs) (off := o) (n := 4)
  split
  · exact size_itoa_half (toInt_half _)
  · exact size_itoa_half (by unfold Half; omega)

theorem size_itoa_byte {i : Int} (h : -999 ≤ i ∧ i ≤ 9999) : size (itoa i) ≤ 4 := by
  rw [size_ascii (itoa_ascii i)]
  unfold itoa
  split
  · rw [List.length_cons]
    have := digits_length 2 i.natAbs (by omega)
    omega
  · exact digits_length 3 i.natAbs (by omega)

theorem size_intAt1 (bs : List Byte) (o : Nat) : size (itoa (EventText.intAt bs o 1 true)) ≤ 4 := by
  unfold EventText.intAt
  rw [if_pos rfl]
  refine size_itoa_byte ?_
  have h1 := (BitVec.ofNat (8 * 1) (leVal (window bs o 1))).toInt_lt
  have h2 := (BitVec.ofNat (8 * 1) (leVal (window bs o 1))).le_toInt
  omega

theorem size_intAt2 (bs : List Byte) (o : Nat) : size (itoa (EventText.intAt bs o 2 false)) ≤ 11 := by
  unfold EventText.intAt
  have h := leVal_le (a := bs) (off := o) (n := 2)
  exact size_itoa_half (by unfold Half; simp only [Bool.false_eq_true, if_false]; omega)

theorem flatten_intersperse_le {n : Nat} (c : Char) : ∀ (l : List (List Char)), (∀ x ∈ l, x.length ≤ n) →
    (l.intersperse [c]).flatten.length ≤ (n + 1) * l.length
  | [], _ => Nat.zero_le _
  | [x], h => by
    have := h x (.head _)
    simp only [List.intersperse_singleton, List.flatten_cons, List.flatten_nil, List.append_nil, List.length_cons,
      List.length_nil]
    omega
  | x :: y :: l, h => by
    have h1 := h x (.head _)
    have h2 := flatten_intersperse_le c (y :: l) (fun z hz => h z (.tail _ hz))
    rw [List.intersperse_cons_cons, List.flatten_cons, List.flatten_cons, List.length_append, List.length_append]
    simp only [List.length_cons, List.length_nil] at h2 ⊢
    rw [Nat.mul_add (n + 1) (l.length + 1) 1]
    omega

theorem itoa_short {i : Int} (h : -999 ≤ i ∧ i ≤ 9999) : (itoa i).length ≤ 4 := by
  rw [← size_ascii (itoa_ascii i)]; exact size_itoa_byte h

theorem itoa_port {n : Nat} (h : n < 65536) : (itoa n).length ≤ 11 := by
  rw [← size_ascii (itoa_ascii n)]; exact size_itoa_half (by unfold Half; omega)

theorem ntohs_lt (n : Nat) : ntohs n < 65536 := by
  have := leVal_lt [UInt8.ofNat (n / 256), UInt8.ofNat n]
  unfold ntohs
  simp only [List.length_cons, List.length_nil] at this
  omega

theorem sockAddrString_le (mem : List Byte) : (sockAddrString mem).length ≤ 125 := by
  unfold sockAddrString parseSockAddr
  have hz : (itoa ((0 : Nat) : Int)).length ≤ 11 := itoa_port (by decide)
  have h2 := leVal_le (a := mem) (off := 2) (n := 2)
  have h0 := leVal_le (a := mem) (off := 0) (n := 2)
  dsimp only
  repeat' split
  · have h1 := itoa_port (ntohs_lt (leVal (window mem 2 2)))
    have h3 := flatten_intersperse_le '.' ((window mem 4 4).map fun b => itoa b.toNat) (n := 4) (by
      intro x hx
      obtain ⟨b, -, rfl⟩ := List.mem_map.1 hx
      have := b.toNat_lt
      exact itoa_short (by omega))
    rw [List.length_map] at h3
    have h4 := window_le mem 4 4
    unfold dotted
    dsimp only
    rw [List.length_append, List.length_append, List.length_cons]
    have : ("ipv4:".toList).length = 5 := by decide
    omega
  · have h1 := itoa_port h2
    have h3 := flatten_intersperse_le ':' ((List.range 8).map fun i => (window (window mem 8 16) (2 * i) 2).flatMap hex2) (n := 4) (by
      intro x hx
      obtain ⟨i, -, rfl⟩ := List.mem_map.1 hx
      have hw := window_le (window mem 8 16) (2 * i) 2
      match window (window mem 8 16) (2 * i) 2, hw with
      | [], _ => exact Nat.zero_le _
      | [_], _ => simp only [List.flatMap_cons, List.flatMap_nil, List.append_nil, hex2, List.length_cons, List.length_nil]; omega
      | [_, _], _ => simp only [List.flatMap_cons, List.flatMap_nil, List.append_nil, hex2, List.length_append, List.length_cons, List.length_nil]; omega)
    rw [List.length_map, List.length_range] at h3
    unfold colonHex
    dsimp only
    rw [List.length_append, List.length_append, List.length_cons]
    have : ("ipv6:".toList).length = 5 := by decide
    omega
  · have h4 := cstr_le mem 2 108
    dsimp only
    rw [List.length_append, List.length_append, List.length_cons, List.length_map]
    have : ("unix:".toList).length = 5 := by decide
    omega
  · have h3 := flatten_intersperse_le ' ' ((window mem 2 14).map fun b => itoa b.toBitVec.toInt) (n := 4) (by
      intro x hx
      obtain ⟨b, -, rfl⟩ := List.mem_map.1 hx
      have h1 := b.toBitVec.toInt_lt
      have h2 := b.toBitVec.le_toInt
      exact itoa_short (by omega))
    rw [List.length_map] at h3
    have h4 := window_le mem 2 14
    unfold bracketed
    dsimp only
    rw [List.length_append, List.length_append, List.length_cons, List.length_append, List.length_cons]
    have : ("unspec:".toList).length = 7 := by decide
    simp only [List.length_cons, List.length_nil]
    omega
  · have h1 := itoa_port h0
    dsimp only
    rw [List.length_append, List.length_cons]
    omega

/-- The room of an address. -/
def sockCost : Nat := 2 + 21 + (8 + 72) + (11 + 752)

theorem size_sockDoc (mem : List Byte) : size (sockDoc mem).text ≤ sockCost := by
  unfold sockDoc sockCost
  rw [size_obj]
  have h1 := size_members_cons "Family" (.num (EventText.intAt mem 0 2 false)) [
    ("Data", .arr ((List.range 14).map fun i => .num (EventText.intAt mem (2 + i) 1 true))),
    ("decoded", .bytes ((sockAddrString mem).map fun c => UInt8.ofNat c.toNat))]
  have h2 := size_members_cons "Data" (.arr ((List.range 14).map fun i => .num (EventText.intAt mem (2 + i) 1 true))) [
    ("decoded", .bytes ((sockAddrString mem).map fun c => UInt8.ofNat c.toNat))]
  have h3 := size_members_cons "decoded" (.bytes ((sockAddrString mem).map fun c => UInt8.ofNat c.toNat)) []
  have h4 := size_intAt2 mem 0
  have h5 := size_elems_map (fun i => Doc.num (EventText.intAt mem (2 + i) 1 true)) (fun _ => 4) (List.range 14)
    (fun i _ => by rw [Doc.text]; exact size_intAt1 mem (2 + i))
  have h6 := size_quoteBytes ((sockAddrString mem).map fun c => UInt8.ofNat c.toNat)
  have h7 := sockAddrString_le mem
  rw [List.length_map] at h6
  have k1 : size (Json.quote "Family".toList) = 8 := by decide
  have k2 : size (Json.quote "Data".toList) = 6 := by decide
  have k3 : size (Json.quote "decoded".toList) = 9 := by decide
  have k4 : size (members []) = 0 := by rw [members]; rfl
  have k5 : ((List.range 14).map fun _ => 4 + 1).sum = 70 := by decide
  rw [Doc.text] at h1
  rw [size_arr] at h2
  rw [Doc.text] at h3
  omega

/-- Tables of names hold no long name. -/
theorem short_names : sockFamilyMap.all (fun e => size (Json.quote e.2.toList) ≤ 40) = true ∧
    sockProtoMap.all (fun e => size (Json.quote e.2.toList) ≤ 40) = true ∧
    sockLevelMap.all (fun e => size (Json.quote e.2.toList) ≤ 40) = true ∧
    socketOpMasks.all (fun e => size (Json.quote e.2.toList) ≤ 40) = true ∧
    tcpOpMasks.all (fun e => size (Json.quote e.2.toList) ≤ 40) = true ∧
    ipOpMasks.all (fun e => size (Json.quote e.2.toList) ≤ 40) = true ∧
    ip6OpMasks.all (fun e => size (Json.quote e.2.toList) ≤ 40) = true ∧
    rlimitNames.all (fun e => size (Json.quote e.2.toList) ≤ 40) = true ∧
    errnoVals.all (fun e => size (Json.quote e.2.toList) ≤ 40) = true := by decide +kernel

theorem all_short {l : List (Int × String)} {n : Nat} (h : l.all (fun e => size (Json.quote e.2.toList) ≤ n) = true)
    {e : Int × String} (he : e ∈ l) : size (Json.quote e.2.toList) ≤ n := by
  have := List.all_eq_true.1 h _ he
  exact of_decide_eq_true this

theorem size_rlimit {i : Int} (hi : Word i) : size (Json.quote (rlimitName i).toList) ≤ 40 := by
  unfold rlimitName
  split
  · next s hs =>
    have hm := mem_of_lookup hs
    obtain ⟨-, -, -, -, -, -, -, h, -⟩ := short_names
    have h2 := all_short (l := rlimitNames) (n := 40) h hm
    exact h2
  · rw [String.toList_ofList, size_quote_plain (itoa_plain i)]
    have := itoa_length hi
    omega

theorem size_errno (i : Int) : size (Json.quote (errnoToString i).toList) ≤ 40 := by
  unfold errnoToString
  split
  · next s hs =>
    have hm := GoMap.mem_of_get hs
    obtain ⟨-, -, -, -, -, -, -, -, h⟩ := short_names
    have h2 := all_short (l := errnoVals) (n := 40) h hm
    exact h2
  · decide

theorem size_sockopt (s : SockoptName) (h : Word s.tp) : size (Json.quote s.parse.toList) ≤ 40 := by
  obtain ⟨-, -, -, h4, h5, h6, h7, -, -⟩ := short_names
  unfold SockoptName.parse
  repeat' split
  · exact size_nameOf h4 (by decide) h
  · exact size_nameOf h5 (by decide) h
  · exact size_nameOf h6 (by decide) h
  · exact size_nameOf h7 (by decide) h
  · rw [String.toList_ofList, size_quote_plain (itoa_plain _)]
    have := itoa_length h
    omega

theorem namesCost_append (a b : List String) : namesCost (a ++ b) + 2 = namesCost a + namesCost b := by
  unfold namesCost
  rw [List.map_append, List.sum_append_nat]
  omega

theorem three_names {a b c : List String} (ha : namesCost a ≤ 22) (hb : namesCost b ≤ 17) (hc : namesCost c ≤ 18) :
    namesCost (a ++ b ++ c) ≤ 60 := by
  have h1 := namesCost_append (a ++ b) c
  have h2 := namesCost_append a b
  omega

theorem sockType_first : ∀ k < 16, namesCost (match sockTypeNames.lookup (BitVec.ofNat 64 k) with
    | some s => [s]
    | none => [String.ofList ('<' :: itoa (BitVec.ofNat 64 k).toInt ++ ['>'])]) ≤ 22 := by decide +kernel

theorem size_sockType (t : Flags.Word) : size (names (sockTypeParse t)).text ≤ 60 := by
  refine Nat.le_trans (size_names _) ?_
  unfold sockTypeParse
  have hk : t &&& 0xf = BitVec.ofNat 64 ((t &&& 0xf).toNat) := by rw [BitVec.ofNat_toNat, BitVec.setWidth_eq]
  have hlt : (t &&& 0xf).toNat < 16 := by
    rw [BitVec.toNat_and]
    exact Nat.lt_of_le_of_lt (Nat.and_le_right) (by decide)
  have h1 := sockType_first _ hlt
  rw [← hk] at h1
  have h4 : namesCost (if t &&& ~~~0xf &&& 0x80000 ≠ 0 then ["SOCK_CLOEXEC"] else []) ≤ 17 := by split <;> decide
  have h5 : namesCost (if t &&& ~~~0xf &&& 0x800 ≠ 0 then ["SOCK_NONBLOCK"] else []) ≤ 18 := by split <;> decide
  exact three_names h1 h4 h5

theorem evalRd_int {a : List Byte} {rd : Rd} {i : Int} (h : evalRd a rd = .int i) : Word i := by
  have hb : ∀ off len, makeCBytes a off len ≠ .int i := by
    intro off len; unfold makeCBytes; split <;> exact nofun
  cases rd <;> simp only [evalRd] at h
  case c32 s => injection h with h; subst h; exact (toInt_half _).word
  case cu32 s => injection h with h; subst h; exact (toNat_half _).word
  case c64 s => injection h with h; subst h; exact toInt_word _
  case cu64 s => injection h with h; subst h; exact toNat_word _
  case zero => injection h with h; subst h; decide
  all_goals first
    | exact absurd h (hb _ _)
    | exact nomatch h

/-- The room of a field. -/
def fieldCost : Kind → Rd → Nat
  | .num, _ => 20
  | .text, .empty => 2
  | .text, _ => 770
  | .raw, .bytes _ n | .raw, .mem _ n | .raw, .memAt _ _ n => 4 * ((n + 2) / 3) + 2
  | .raw, .bufMin .. => 174
  | .raw, .bufMax s _ => 4 * ((640 - 128 * s + 2) / 3) + 2
  | .raw, _ => 2
  | .ptrs, _ => 58
  | .sock, _ => sockCost
  | .flags s, _ => flagCost s
  | .sockType, _ => 60
  | _, _ => 40

theorem intAt_word {fields : List (String × Rd)} (a : List Byte) (n : String) :
    Word (EventJSON.intAt (fields.map fun f => (f.1, evalRd a f.2)) n) := by
  unfold EventJSON.intAt
  rw [lookup_argv]
  have h0 : Word 0 := by decide
  cases fields.lookup n with
  | none => exact h0
  | some rd =>
    cases h : evalRd a rd with
    | int i => simp only [Option.map_some, h]; exact evalRd_int h
    | _ => simp only [Option.map_some, h]; exact h0

theorem buf_le {a bs : List Byte} {off : Nat} {len : Int} (h : makeCBytes a off len = .buf bs) :
    (bs.length : Int) ≤ len ∧ off + bs.length ≤ a.length := by
  unfold makeCBytes at h
  split at h
  · next hc =>
    injection h with h
    subst h
    rw [length_window _ _ _ (by omega)]
    omega
  · exact nomatch h

theorem size_field {env : Env} (he : EnvOk env) (m : Memory) {fields : List (String × Rd)} {a : List Byte}
    (ha : a.length = 640) {k : Kind} {rd : Rd} (hk : kindOk k rd = true) (ho : isOutside (evalRd a rd) = false) :
    size (fieldDoc env m (fields.map fun f => (f.1, evalRd a f.2)) k (evalRd a rd)).text ≤ fieldCost k rd := by
  have hraw : ∀ {off : Nat} {len : Int}, isOutside (makeCBytes a off len) = false →
      ∃ bs, makeCBytes a off len = .buf bs ∧ (bs.length : Int) ≤ len ∧ off + bs.length ≤ 640 := by
    intro off len h
    cases hb : makeCBytes a off len with
    | buf bs => exact ⟨bs, rfl, ha ▸ buf_le hb⟩
    | outside => rw [hb] at h; exact nomatch h
    | _ => unfold makeCBytes at hb; split at hb <;> exact nomatch hb
  have hint : ∀ i, (evalRd a rd = .int i → Word i) := fun i h => evalRd_int h
  cases k with
  | num =>
    cases rd <;> first
      | exact Bool.noConfusion hk
      | exact size_itoa (hint _ rfl)
  | text =>
    have hs : ∀ bs : List Byte, size (fieldDoc env m (fields.map fun f => (f.1, evalRd a f.2)) .text (.str bs)).text ≤
        6 * bs.length + 2 := by
      intro bs
      show size (Doc.text (.bytes bs)) ≤ _
      rw [Doc.text]
      exact size_quoteBytes bs
    cases rd <;> first
      | exact Bool.noConfusion hk
      | exact hs []
      | (next s =>
         have h2 := cstr_le a (s * argLen) argLen
         refine Nat.le_trans (hs (makeCString a (s * argLen) argLen)) ?_
         simp only [fieldCost]
         have : argLen = 128 := rfl
         omega)
  | raw =>
    have hs : ∀ {v : Val} {bs : List Byte}, v = .buf bs → size (fieldDoc env m (fields.map fun f => (f.1, evalRd a f.2)) .raw v).text =
        4 * ((bs.length + 2) / 3) + 2 := by
      rintro v bs rfl
      show size (Doc.text (.str (base64 bs))) = _
      rw [Doc.text]; exact size_base64 bs
    cases rd <;> simp only [evalRd] at ho <;> first
      | exact Bool.noConfusion hk
      | (obtain ⟨bs, hb, h1, h2⟩ := hraw ho
         refine Nat.le_trans (Nat.le_of_eq (hs hb)) ?_
         simp only [fieldCost]
         unfold argLen at *
         try split at h1
         all_goals omega)
  | ptrs =>
    cases rd <;> first
      | exact Bool.noConfusion hk
      | (next i n =>
         show size (Doc.text (.obj _)) ≤ 58
         rw [size_obj]
         have h1 := size_members_cons "Sec" (.num (m.slot i).toInt) [("Nsec", .num (m.slot (i + 1)).toInt)]
         have h2 := size_members_cons "Nsec" (.num (m.slot (i + 1)).toInt) []
         have h3 := size_itoa (toInt_word (m.slot i))
         have h4 := size_itoa (toInt_word (m.slot (i + 1)))
         have k1 : size (Json.quote "Sec".toList) = 5 := by decide
         have k2 : size (Json.quote "Nsec".toList) = 6 := by decide
         have k3 : size (members []) = 0 := by rw [members]; rfl
         rw [Doc.text] at h1 h2
         omega)
  | sock => exact size_sockDoc _
  | flags s =>
    cases rd <;> first
      | exact Bool.noConfusion hk
      | exact size_flags he s _
  | family =>
    cases rd <;> first
      | exact Bool.noConfusion hk
      | (show size (Doc.text (.str _)) ≤ 40; rw [Doc.text]; exact size_nameOf short_names.1 (by decide) (hint _ rfl))
  | proto =>
    cases rd <;> first
      | exact Bool.noConfusion hk
      | (show size (Doc.text (.str _)) ≤ 40; rw [Doc.text]; exact size_nameOf short_names.2.1 (by decide) (hint _ rfl))
  | level =>
    cases rd <;> first
      | exact Bool.noConfusion hk
      | (show size (Doc.text (.str _)) ≤ 40; rw [Doc.text]; exact size_nameOf short_names.2.2.1 (by decide) (hint _ rfl))
  | rlimit =>
    cases rd <;> first
      | exact Bool.noConfusion hk
      | (show size (Doc.text (.str _)) ≤ 40; rw [Doc.text]; exact size_rlimit (hint _ rfl))
  | sockType =>
    cases rd <;> first
      | exact Bool.noConfusion hk
      | exact size_sockType _
  | optTp =>
    cases rd <;> first
      | exact Bool.noConfusion hk
      | (show size (Doc.text (.str _)) ≤ 40; rw [Doc.text]; exact size_sockopt _ (intAt_word a _))
  | optLv =>
    cases rd <;> first
      | exact Bool.noConfusion hk
      | (show size (Doc.text (.str _)) ≤ 40; rw [Doc.text]; exact size_sockopt _ (intAt_word a _))

/-! ### Arguments -/

mutual
/-- The room of a part, given that of each field. -/
def layCost (c : String → Nat) : Lay → Nat
  | .field f => c f
  | .int _ _ w _ => 3 * w + 2
  | .arr l => 2 + elemCosts c l
  | .obj l => 2 + memberCosts c l
/-- Of elements. -/
def elemCosts (c : String → Nat) : List Lay → Nat
  | [] => 0
  | v :: l => layCost c v + 1 + elemCosts c l
/-- Of members. -/
def memberCosts (c : String → Nat) : List (String × Lay) → Nat
  | [] => 0
  | (k, v) :: l => size (Json.quote k.toList) + 2 + layCost c v + memberCosts c l
end

theorem pow_le (w : Nat) : 256 ^ w < 10 ^ (3 * w + 1) := by
  rw [Nat.pow_succ, Nat.pow_mul]
  have h : 256 ^ w ≤ (10 ^ 3) ^ w := Nat.pow_le_pow_left (by decide) w
  have h' : 0 < (10 ^ 3) ^ w := Nat.pow_pos (by decide)
  omega

theorem size_intAt (bs : List Byte) (o w : Nat) (s : Bool) : size (itoa (EventText.intAt bs o w s)) ≤ 3 * w + 2 := by
  have key : ∀ i : Int, i.natAbs < 10 ^ (3 * w + 1) → size (itoa i) ≤ 3 * w + 2 := by
    intro i h
    have := digits_length _ _ h
    rw [size_ascii (itoa_ascii i)]
    unfold itoa
    split
    · rw [List.length_cons]; omega
    · omega
  have hp := pow_le w
  unfold EventText.intAt
  split
  · refine key _ ?_
    have h1 : (256 : Nat) ^ w = 2 ^ (8 * w) := by rw [Nat.pow_mul]
    have h2 : (BitVec.ofNat (8 * w) (leVal (window bs o w))).toNat < 2 ^ (8 * w) := BitVec.isLt _
    rw [BitVec.toInt_eq_toNat_cond]
    split
    · omega
    · omega
  · refine key _ ?_
    have h := leVal_le (a := bs) (off := o) (n := w)
    omega

section
set_option linter.unusedSectionVars false
variable {env : Env} {m : Memory} {ks : List (String × Kind)} {argv : List (String × Val)} {c : String → Nat}
  (h : ∀ f, size (fieldDoc env m argv ((ks.lookup f).getD .num) ((argv.lookup f).getD (.str []))).text ≤ c f)
include h

mutual
theorem size_lay : ∀ l : Lay, size (l.doc env m ks argv).text ≤ layCost c l
  | .field f => by rw [Lay.doc, layCost]; exact h f
  | .int f o w s => by rw [Lay.doc, layCost, Doc.text]; exact size_intAt _ _ _ _
  | .arr l => by
    rw [Lay.doc, layCost, size_arr]
    have := size_elems l
    omega
  | .obj l => by
    rw [Lay.doc, layCost, size_obj]
    have := size_members l
    omega
theorem size_elems : ∀ l : List Lay, size (elems (elemDocs env m ks argv l)) ≤ elemCosts c l
  | [] => by rw [elemDocs, elems]; exact Nat.zero_le _
  | v :: l => by
    rw [elemDocs, elemCosts]
    have h1 := size_elems_cons (v.doc env m ks argv) (elemDocs env m ks argv l)
    have h2 := size_lay v
    have h3 := size_elems l
    omega
theorem size_members : ∀ l : List (String × Lay), size (members (memberDocs env m ks argv l)) ≤ memberCosts c l
  | [] => by rw [memberDocs, members]; exact Nat.zero_le _
  | (k, v) :: l => by
    rw [memberDocs, memberCosts]
    have h1 := size_members_cons k (v.doc env m ks argv) (memberDocs env m ks argv l)
    have h2 := size_lay v
    have h3 := size_members l
    omega
end
end

/-- The room of a field of a structure, by its name. -/
def nameCost (ks : List (String × Kind)) (fields : List (String × Rd)) (f : String) : Nat :=
  match ks.lookup f, fields.lookup f with
  | some k, some rd => fieldCost k rd
  | _, _ => 4

/-- The room of the arguments. -/
def argsCost (nr : Nat) (fields : List (String × Rd)) : Nat :=
  2 + memberCosts (nameCost ((fieldKinds.lookup ((decodeTypes.lookup nr).getD "")).getD []) fields)
    (layout ((decodeTypes.lookup nr).getD ""))

theorem lookup_none_of_names {α β γ : Type} [BEq α] [LawfulBEq α] {l : List (α × β)} {l' : List (α × γ)}
    (h : l.map (·.1) = l'.map (·.1)) (a : α) (hn : l.lookup a = none) : l'.lookup a = none := by
  rw [List.lookup_eq_none_iff] at hn ⊢
  intro p hp
  have : p.1 ∈ l.map (·.1) := h ▸ List.mem_map.2 ⟨p, hp, rfl⟩
  obtain ⟨q, hq, hqp⟩ := List.mem_map.1 this
  rw [← hqp]
  exact hn q hq

theorem size_args {env : Env} (he : EnvOk env) (m : Memory) {nr : Nat} {fields : List (String × Rd)}
    (hd : decoders.lookup nr = some fields) {a : List Byte} (ha : a.length = 640)
    (hout : ∀ f ∈ fields, isOutside (evalRd a f.2) = false) :
    size (argsDoc env m ((decodeTypes.lookup nr).getD "") (fields.map fun f => (f.1, evalRd a f.2))).text ≤
      argsCost nr fields := by
  obtain ⟨t, ks, h1, -, h2, hn, hnd, hf⟩ := row hd
  unfold argsDoc argsCost
  rw [size_obj, h1, Option.getD_some, h2]
  have := size_members (env := env) (m := m) (ks := ks) (argv := fields.map fun f => (f.1, evalRd a f.2))
    (c := nameCost ks fields) (fun f => by
      unfold nameCost
      rw [lookup_argv]
      cases hl : fields.lookup f with
      | none =>
        rw [lookup_none_of_names hn.symm f hl]
        show size (Doc.text .null) ≤ 4
        rw [Doc.text]
        decide
      | some rd =>
        have hm := mem_of_lookup hl
        obtain ⟨k, hk, hok, -, -⟩ := hf _ hm
        rw [hk]
        exact size_field he m ha hok (hout _ hm)) (layout t)
  omega

/-! ### Containers -/

open Swoll.Spec.EventText (Printable Described strings Ordinary)

/-- The members of an object, each with its comma. -/
def total (l : List (String × Doc)) : Nat := (l.map fun e => size (Json.quote e.1.toList) + 2 + size e.2.text).sum

theorem size_members_total : ∀ l : List (String × Doc), size (members l) ≤ total l
  | [] => by rw [members]; exact Nat.zero_le _
  | (k, v) :: l => by
    have h1 := size_members_cons k v l
    have h2 := size_members_total l
    unfold total at h2 ⊢
    rw [List.map_cons, List.sum_cons]
    dsimp only
    omega

theorem size_members_ge (k : String) (v : Doc) (l : List (String × Doc)) :
    size v.text + size (members l) ≤ size (members ((k, v) :: l)) := by
  cases l with
  | nil => simp only [members, size_append, size_nil, size_cons]; omega
  | cons w l => rw [members.eq_def ((k, v) :: w :: l)]; simp only [size_append, size_cons]; omega

theorem total_append (a b : List (String × Doc)) : total (a ++ b) = total a + total b := by
  unfold total; rw [List.map_append, List.sum_append_nat]

theorem plain_of {c : Char} (h : Printable c) : Plain c := by
  obtain ⟨h1, h2, h3, h4, h5, h6, h7⟩ := h
  refine ⟨by omega, ?_⟩
  unfold Json.escape
  have hn : ∀ d : Char, d.toNat < 0x20 → c ≠ d := by rintro d hd rfl; omega
  rw [if_neg h3, if_neg h4, if_neg (hn _ (by decide)), if_neg (hn _ (by decide)), if_neg (hn _ (by decide)), if_neg]
  rintro (h | h | h | h | h | h)
  · omega
  · exact h5 h
  · exact h6 h
  · exact h7 h
  · omega
  · omega

theorem total_optStr {n s : String} {k : Nat} (hk : size (Json.quote n.toList) = k)
    (h : ∀ x ∈ s.toList, Printable x) : total (optStr n s) ≤ k + 4 + s.toList.length := by
  unfold optStr
  split
  · exact Nat.zero_le _
  · simp only [total, List.map_cons, List.map_nil, List.sum_cons, List.sum_nil]
    rw [Doc.text, size_quote_plain fun c hc => plain_of (h c hc), hk]
    omega

theorem total_optInt {n : String} {i : Int} {k : Nat} (hk : size (Json.quote n.toList) = k) (h : Word i) :
    total (optInt n i) ≤ k + 22 := by
  unfold optInt
  split
  · exact Nat.zero_le _
  · simp only [total, List.map_cons, List.map_nil, List.sum_cons, List.sum_nil]
    rw [Doc.text, hk]
    have := size_itoa h
    omega

theorem total_labels : ∀ (l : GoMap String String), (∀ s ∈ l.flatMap fun e => [e.1, e.2], ∀ x ∈ s.toList, Printable x) →
    total (l.map fun e => (e.1, Doc.str e.2.toList)) =
      ((l.flatMap fun e => [e.1, e.2]).map fun s => s.toList.length).sum + 6 * l.length
  | [], _ => rfl
  | e :: l, h => by
    have h2 := total_labels l (fun s hs => h s (by rw [List.flatMap_cons]; exact List.mem_append_right _ hs))
    have ha := h e.1 (by rw [List.flatMap_cons]; exact List.mem_append_left _ (.head _))
    have hb := h e.2 (by rw [List.flatMap_cons]; exact List.mem_append_left _ (.tail _ (.head _)))
    unfold total at h2 ⊢
    rw [List.flatMap_cons, List.map_append, List.sum_append_nat]
    simp only [List.map_cons, List.map_nil, List.sum_cons, List.sum_nil, List.length_cons]
    rw [h2, Doc.text, size_quote_plain fun c hc => plain_of (ha c hc), size_quote_plain fun c hc => plain_of (hb c hc)]
    omega

theorem total_perm {l l' : List (String × Doc)} (h : l.Perm l') : total l = total l' := sum_perm (h.map _)

theorem size_container {n : Nat} {c : Topology.Container} (h : Described n c) : size (containerDoc c).text ≤ n := by
  obtain ⟨h1, h2, h3, h4⟩ := h
  have hw : ∀ i : Int, -2 ^ 63 ≤ i ∧ i < 2 ^ 63 → Word i := by intro i h; unfold Word; omega
  have hs : ∀ s ∈ [c.id, c.pod, c.sandbox, c.name, c.image, c.ns], ∀ x ∈ s.toList, Printable x :=
    fun s hs => h1 s (List.mem_append_left _ hs)
  unfold containerDoc
  rw [size_obj]
  refine Nat.le_trans (Nat.add_le_add_right (size_members_total _) 2) ?_
  simp only [total_append]
  have a1 := total_optStr (n := "id") (k := 4) (by decide) (hs c.id (by simp))
  have a2 := total_optStr (n := "pod") (k := 5) (by decide) (hs c.pod (by simp))
  have a3 := total_optStr (n := "sandbox-id") (k := 12) (by decide) (hs c.sandbox (by simp))
  have a4 := total_optStr (n := "name") (k := 6) (by decide) (hs c.name (by simp))
  have a5 := total_optStr (n := "image") (k := 7) (by decide) (hs c.image (by simp))
  have a6 := total_optStr (n := "namespace") (k := 11) (by decide) (hs c.ns (by simp))
  have a7 := total_optInt (n := "pid") (k := 5) (by decide) (hw _ h3)
  have a8 := total_optInt (n := "pid-namespace") (k := 15) (by decide) (hw _ h4)
  have a9 : total (optLabels (c.labels.getD [])) ≤
      (((c.labels.getD []).flatMap fun e => [e.1, e.2]).map fun s => s.toList.length).sum +
        6 * (c.labels.getD []).length + 12 := by
    have hl := total_labels (c.labels.getD []) (fun s hs => h1 s (List.mem_append_right _ hs))
    cases he : c.labels.getD [] with
    | nil => exact Nat.zero_le _
    | cons e l =>
      simp only [optLabels, total, List.map_cons, List.map_nil, List.sum_cons, List.sum_nil]
      unfold labelsDoc
      rw [size_obj]
      have hp := total_perm ((List.mergeSort_perm (c.labels.getD [])
        (fun a b => JobArgs.strLE a.1.toList b.1.toList)).map fun e => (e.1, Doc.str e.2.toList))
      have ht := size_members_total (((c.labels.getD []).mergeSort
        (fun a b => JobArgs.strLE a.1.toList b.1.toList)).map fun e => (e.1, Doc.str e.2.toList))
      have hq : size (Json.quote "labels".toList) = 8 := by decide
      simp only [he] at *
      omega
  simp only [strings, List.map_append, List.sum_append_nat, List.map_cons, List.map_nil, List.sum_cons, List.sum_nil] at h2
  omega

/-! ### Events -/

theorem short_calls : Syscalls.gClassMap.all (fun e => decide (size (Json.quote e.1.toList) + size (Json.quote e.2.1.toList) +
    size (Json.quote e.2.2.toList) ≤ 60)) = true := by decide +kernel

theorem size_syscall {s : Syscalls.Syscall} (h : Spec.Syscalls.Entry s.name s.nr s.cls s.group) :
    size (syscallDoc s).text ≤ 110 := by
  obtain ⟨hn, hc⟩ := h
  have h1 := List.all_eq_true.1 short_calls _ hc
  have h1 := of_decide_eq_true h1
  dsimp only at h1
  have h2 : s.nr < 333 := by
    have : s.nr ∈ Syscalls.gSyscallMap.map (·.2) := List.mem_map.2 ⟨_, hn, rfl⟩
    rw [Lemmas.Syscalls.nrs_eq_range, List.mem_range] at this
    exact this
  have h3 : size (itoa (s.nr : Int)) ≤ 4 := size_itoa_byte (by omega)
  unfold syscallDoc
  rw [size_obj]
  have ht := size_members_total [("nr", .num s.nr), ("name", .str s.name.toList), ("class", .str s.cls.toList),
    ("group", .str s.group.toList)]
  set_option simprocs false in
  simp only [total, List.map_cons, List.map_nil, List.sum_cons, List.sum_nil, Doc.text] at ht
  have k1 : size (Json.quote "nr".toList) = 4 := by decide
  have k2 : size (Json.quote "name".toList) = 6 := by decide
  have k3 : size (Json.quote "class".toList) = 7 := by decide
  have k4 : size (Json.quote "group".toList) = 7 := by decide
  omega

/-- A message has room for an event when its arguments and its container leave room for the rest. -/
theorem size_message {env : Env} {order : List (String × String × String)} (ho : order.Perm Syscalls.gClassMap)
    {tbl : Syscalls.Syscalls} (hs : Syscalls.new order = some tbl) (m : Memory) {e : KEvent} (hw : e.WF)
    (lk : Option (Int → Option Topology.Container)) (argv : List (String × Val)) {n k : Nat}
    (hc : ∀ c, (lk.bind fun f => f e.pidNs.toNat) = some c → Described n c) (hn : 4 ≤ n)
    (ha : size (argsDoc env m ((decodeTypes.lookup e.syscall.toNat).getD "") argv).text ≤ k) :
    size (message env m e.syscall.toNat (Lemmas.Event.eventOf tbl lk e argv)) ≤ n + k + 590 := by
  unfold message
  rw [size_append]
  unfold eventDoc
  rw [size_obj]
  have hsys : size (((Lemmas.Event.eventOf tbl lk e argv).syscall.map syscallDoc).getD .null).text ≤ 110 := by
    show size (((Syscalls.lookup tbl (.int e.syscall.toNat)).map syscallDoc).getD .null).text ≤ 110
    cases hl : Syscalls.lookup tbl (.int e.syscall.toNat) with
    | none => show size (Doc.text .null) ≤ 110; rw [Doc.text]; decide
    | some s => exact size_syscall (Props.Syscalls.c43_lookup_sound order ho tbl hs _ s hl).1
  have hcon : size (((Lemmas.Event.eventOf tbl lk e argv).container.map containerDoc).getD .null).text ≤ n := by
    show size (((lk.bind fun f => f e.pidNs.toNat).map containerDoc).getD .null).text ≤ n
    cases hl : lk.bind fun f => f e.pidNs.toNat with
    | none => show size (Doc.text .null) ≤ n; rw [Doc.text]; exact hn
    | some c => exact size_container (hc c hl)
  have hcomm : size (quoteBytes (e.comm.take (cstrCount e.comm))) ≤ 98 := by
    refine Nat.le_trans (size_quoteBytes _) ?_
    have := hw.1
    rw [List.length_take]
    omega
  have herr := size_errno (Lemmas.Event.eventOf tbl lk e argv).error
  refine Nat.le_trans (Nat.add_le_add_right (Nat.add_le_add_right (size_members_total _) 2) _) ?_
  set_option simprocs false in
  simp only [total, List.map_cons, List.map_nil, List.sum_cons, List.sum_nil]
  have h1 : size (Doc.num (Lemmas.Event.eventOf tbl lk e argv).pid).text ≤ 11 := by
    rw [Doc.text]; exact size_itoa_half (toNat_half _)
  have h2 : size (Doc.num (Lemmas.Event.eventOf tbl lk e argv).tid).text ≤ 11 := by
    rw [Doc.text]; exact size_itoa_half (toNat_half _)
  have h3 : size (Doc.num (Lemmas.Event.eventOf tbl lk e argv).cpid).text ≤ 11 := by
    rw [Doc.text]; exact size_itoa_half (toNat_half _)
  have h4 : size (Doc.num (Lemmas.Event.eventOf tbl lk e argv).uid).text ≤ 11 := by
    rw [Doc.text]; exact size_itoa_half (toNat_half _)
  have h5 : size (Doc.num (Lemmas.Event.eventOf tbl lk e argv).gid).text ≤ 11 := by
    rw [Doc.text]; exact size_itoa_half (toNat_half _)
  have h6 : size (Doc.num (Lemmas.Event.eventOf tbl lk e argv).sid).text ≤ 11 := by
    rw [Doc.text]; exact size_itoa_half (toInt_half _)
  have h7 : size (Doc.num (Lemmas.Event.eventOf tbl lk e argv).ret).text ≤ 11 := by
    rw [Doc.text]; exact size_itoa_half (toNat_half _)
  have h8 : size (Doc.num (Lemmas.Event.eventOf tbl lk e argv).pidNs).text ≤ 11 := by
    rw [Doc.text]; exact size_itoa_half (toNat_half _)
  have h9 : size (Doc.num (Lemmas.Event.eventOf tbl lk e argv).utsNs).text ≤ 11 := by
    rw [Doc.text]; exact size_itoa_half (toNat_half _)
  have h10 : size (Doc.num (Lemmas.Event.eventOf tbl lk e argv).mntNs).text ≤ 11 := by
    rw [Doc.text]; exact size_itoa_half (toNat_half _)
  have h11 : size (Doc.num (Lemmas.Event.eventOf tbl lk e argv).start).text ≤ 20 := by
    rw [Doc.text]; exact size_itoa (toInt_word _)
  have h12 : size (Doc.num (Lemmas.Event.eventOf tbl lk e argv).finish).text ≤ 20 := by
    rw [Doc.text]; exact size_itoa (toInt_word _)
  have h13 : size (Doc.bytes (Lemmas.Event.eventOf tbl lk e argv).comm).text ≤ 98 := by rw [Doc.text]; exact hcomm
  have h14 : size (Doc.str (errnoToString (Lemmas.Event.eventOf tbl lk e argv).error).toList).text ≤ 40 := by
    rw [Doc.text]; exact herr
  have h15 : size (argsDoc env m ((decodeTypes.lookup e.syscall.toNat).getD "")
      (Lemmas.Event.eventOf tbl lk e argv).argv).text ≤ k := ha
  have hk : [size (Json.quote "syscall".toList), size (Json.quote "pid".toList), size (Json.quote "tid".toList),
      size (Json.quote "container_pid".toList), size (Json.quote "uid".toList), size (Json.quote "gid".toList),
      size (Json.quote "comm".toList), size (Json.quote "session".toList), size (Json.quote "container".toList),
      size (Json.quote "error".toList), size (Json.quote "return".toList), size (Json.quote "pid_ns".toList),
      size (Json.quote "uts_ns".toList), size (Json.quote "mount_ns".toList), size (Json.quote "start".toList),
      size (Json.quote "finish".toList), size (Json.quote "args".toList), size ['\n']] =
      [9, 5, 5, 15, 5, 5, 6, 9, 11, 7, 8, 8, 8, 10, 7, 8, 6, 1] := by decide
  set_option simprocs false in
  simp only [List.cons.injEq] at hk
  omega

/-! ### Ordinary text -/

theorem escape_ordinary : ∀ n < 128, 0x20 ≤ n → n ≠ 0x3c → n ≠ 0x3e → n ≠ 0x26 → size (Json.escape (Char.ofNat n)) ≤ 2 := by
  decide +kernel

theorem size_body_ordinary : ∀ (n : Nat) (bs : List Byte), (∀ b ∈ bs, Ordinary b) → size (body n bs) ≤ 2 * bs.length
  | 0, _, _ => Nat.zero_le _
  | _ + 1, [], _ => Nat.zero_le _
  | n + 1, b :: bs, h => by
    obtain ⟨h1, h2, h3, h4, h5⟩ := h b (.head _)
    have hr : rune (b :: bs) = some (1, Char.ofNat b.toNat) := by
      have : runeLen (b :: bs) = some 1 := if_pos (show b.toNat < 0x80 by omega)
      unfold rune
      rw [this]
      rfl
    unfold body
    rw [hr]
    have ih := size_body_ordinary n bs (fun b hb => h b (.tail _ hb))
    have hne : ∀ k : Nat, k < 256 → b ≠ UInt8.ofNat k → b.toNat ≠ k := by
      intro k hk hb heq
      exact hb (by rw [← heq, UInt8.ofNat_toNat])
    have he := escape_ordinary b.toNat (by omega) h1 (hne 0x3c (by decide) h3) (hne 0x3e (by decide) h4) (hne 0x26 (by decide) h5)
    simp only [List.drop_succ_cons, List.drop_zero, size_append, List.length_cons]
    omega

theorem size_execve_text {env : Env} (m : Memory) {fields : List (String × Rd)}
    (hd : decoders.lookup 59 = some fields) {a : List Byte}
    (ht : ∀ f bs, (fields.map fun f => (f.1, evalRd a f.2)).lookup f = some (.str bs) → ∀ b ∈ bs, Ordinary b) :
    size (argsDoc env m ((decodeTypes.lookup 59).getD "") (fields.map fun f => (f.1, evalRd a f.2))).text ≤ 1400 := by
  obtain ⟨t, ks, h1, -, h2, hn, hnd, hf⟩ := row hd
  have htt : t = "Execve" := by
    have : decodeTypes.lookup 59 = some "Execve" := by decide +kernel
    rw [h1] at this; injection this
  subst htt
  have hk : ∀ k ∈ ((fieldKinds.lookup "Execve").getD []).map (·.2), k = .text := by decide +kernel
  rw [h2] at hk
  unfold argsDoc
  rw [size_obj, h1, Option.getD_some, h2]
  have hm := size_members (env := env) (m := m) (ks := ks) (argv := fields.map fun f => (f.1, evalRd a f.2))
    (c := fun _ => 258) (fun f => by
      cases hl : fields.lookup f with
      | none =>
        rw [lookup_none_of_names hn.symm f hl, lookup_argv, hl]
        show size (Doc.text .null) ≤ 258
        rw [Doc.text]
        decide
      | some rd =>
        have hm := mem_of_lookup hl
        obtain ⟨k, hk', hok, -, -⟩ := hf _ hm
        have hkt : k = .text := hk k (List.mem_map.2 ⟨_, mem_of_lookup hk', rfl⟩)
        subst hkt
        have hlook : (fields.map fun f => (f.1, evalRd a f.2)).lookup f = some (evalRd a rd) := by rw [lookup_argv, hl]; rfl
        have key : ∀ bs : List Byte, bs.length ≤ 128 → (∀ b ∈ bs, Ordinary b) → size (Doc.text (.bytes bs)) ≤ 258 := by
          intro bs hb ho
          rw [Doc.text]
          unfold quoteBytes
          rw [size_append, size_cons]
          have h3 := size_body_ordinary bs.length bs ho
          have h4 : ('"' : Char).utf8Size = 1 := by decide
          have h5 : size ['"'] = 1 := by decide
          omega
        rw [hk', hlook]
        cases rd <;> first
          | exact Bool.noConfusion hok
          | exact key [] (by decide) nofun
          | exact key _ (cstr_le a _ argLen) (ht _ _ hlook)) (layout "Execve")
  have : memberCosts (fun _ => 258) (layout "Execve") ≤ 1398 := by decide +kernel
  omega

/-- What a text takes is the length of its UTF-8 form. -/
theorem size_utf8 : ∀ s : Str, size s = (s.flatMap String.utf8EncodeChar).length
  | [] => rfl
  | c :: s => by rw [size_cons, List.flatMap_cons, List.length_append, String.length_utf8EncodeChar, size_utf8 s]

/-! ### What a text depends on -/

section
set_option linter.unusedSectionVars false
variable {env : Env} {m m' : Memory} {ks : List (String × Kind)} {argv : List (String × Val)}
  (h : ∀ f, fieldDoc env m argv ((ks.lookup f).getD .num) ((argv.lookup f).getD (.str [])) =
    fieldDoc env m' argv ((ks.lookup f).getD .num) ((argv.lookup f).getD (.str [])))
  (h' : ∀ f, bytesOf m ((argv.lookup f).getD (.str [])) = bytesOf m' ((argv.lookup f).getD (.str [])))
include h h'

mutual
theorem lay_memory : ∀ l : Lay, l.doc env m ks argv = l.doc env m' ks argv
  | .field f => by rw [Lay.doc, Lay.doc]; exact h f
  | .int f o w s => by rw [Lay.doc, Lay.doc, h' f]
  | .arr l => by rw [Lay.doc, Lay.doc, elems_memory l]
  | .obj l => by rw [Lay.doc, Lay.doc, members_memory l]
theorem elems_memory : ∀ l : List Lay, elemDocs env m ks argv l = elemDocs env m' ks argv l
  | [] => by rw [elemDocs, elemDocs]
  | v :: l => by rw [elemDocs, elemDocs, lay_memory v, elems_memory l]
theorem members_memory : ∀ l : List (String × Lay), memberDocs env m ks argv l = memberDocs env m' ks argv l
  | [] => by rw [memberDocs, memberDocs]
  | (k, v) :: l => by rw [memberDocs, memberDocs, lay_memory v, members_memory l]
end
end

/-- Only nanosleep takes the addresses of its arguments. -/
theorem ptrs_nanosleep : decoders.all (fun d => decide (d.1 = 35) || d.2.all fun f =>
    match f.2 with | .ptrs .. => false | _ => true) = true := by decide +kernel

theorem args_memory {env : Env} (m m' : Memory) {nr : Nat} (h35 : nr ≠ 35) {fields : List (String × Rd)}
    (hd : decoders.lookup nr = some fields) {a : List Byte}
    (hout : ∀ f ∈ fields, isOutside (evalRd a f.2) = false) (t : String) :
    argsDoc env m t (fields.map fun f => (f.1, evalRd a f.2)) =
      argsDoc env m' t (fields.map fun f => (f.1, evalRd a f.2)) := by
  have hp := List.all_eq_true.1 ptrs_nanosleep _ (mem_of_lookup hd)
  rw [Bool.or_eq_true] at hp
  have hp : fields.all (fun f => match f.2 with | .ptrs .. => false | _ => true) = true := by
    rcases hp with hp | hp
    · exact absurd (of_decide_eq_true hp) h35
    · exact hp
  have hb : ∀ f, bytesOf m (((fields.map fun f => (f.1, evalRd a f.2)).lookup f).getD (.str [])) =
      bytesOf m' (((fields.map fun f => (f.1, evalRd a f.2)).lookup f).getD (.str [])) := by
    intro f
    rw [lookup_argv]
    cases hl : fields.lookup f with
    | none => rfl
    | some rd =>
      have := hout _ (mem_of_lookup hl)
      show bytesOf m (evalRd a rd) = bytesOf m' (evalRd a rd)
      cases hv : evalRd a rd with
      | outside => rw [hv] at this; exact nomatch this
      | _ => rfl
  unfold argsDoc
  rw [members_memory (m' := m') ?_ hb]
  intro f
  have hbf := hb f
  revert hbf
  rw [lookup_argv]
  cases hl : fields.lookup f with
  | none =>
    intro _
    generalize (List.lookup f ((List.lookup t fieldKinds).getD [])).getD .num = k
    cases k <;> rfl
  | some rd =>
    have h1 := hout _ (mem_of_lookup hl)
    have h2 := List.all_eq_true.1 hp _ (mem_of_lookup hl)
    intro hbf
    have hbf : bytesOf m (evalRd a rd) = bytesOf m' (evalRd a rd) := hbf
    show fieldDoc env m _ _ (evalRd a rd) = fieldDoc env m' _ _ (evalRd a rd)
    generalize (List.lookup f ((List.lookup t fieldKinds).getD [])).getD .num = k
    have hv : ∀ i n, evalRd a rd ≠ .ptrs i n := by
      intro i n
      have hmk : ∀ off len, makeCBytes a off len ≠ .ptrs i n := by
        intro off len; unfold makeCBytes; split <;> exact nofun
      cases rd <;> first
        | exact hmk _ _
        | exact Bool.noConfusion h2
        | (intro h; simp only [evalRd] at h; exact nomatch h)
    generalize evalRd a rd = v at *
    cases k <;> cases v <;> first
      | rfl
      | exact Bool.noConfusion h1
      | exact absurd rfl (hv _ _)

/-! ### What does not fit -/

theorem size_member {k : String} {v : Doc} : ∀ {l : List (String × Doc)}, (k, v) ∈ l → size v.text ≤ size (members l)
  | (k', v') :: l, h => by
    have h1 := size_members_ge k' v' l
    rcases List.mem_cons.1 h with h | h
    · injection h with ha hb; subst hb; omega
    · have := size_member h; omega

/-! ### Parts of a text -/

theorem infix_obj (l : List (String × Doc)) : members l <:+: Doc.text (.obj l) :=
  ⟨['{'], ['}'], by rw [Doc.text]; rfl⟩

theorem infix_member {k : String} {v : Doc} : ∀ {l : List (String × Doc)}, (k, v) ∈ l → v.text <:+: members l
  | (k', v') :: l, h => by
    rcases List.mem_cons.1 h with h | h
    · injection h with ha hb
      subst ha hb
      cases l with
      | nil => exact ⟨Json.quote k.toList ++ [':'], [], by simp only [members, List.append_assoc, List.append_nil, List.cons_append, List.nil_append]⟩
      | cons w l =>
        refine ⟨Json.quote k.toList ++ [':'], ',' :: members (w :: l), ?_⟩
        rw [members.eq_def ((k, v) :: w :: l)]
        simp only [List.append_assoc, List.cons_append, List.nil_append]
    · cases l with
      | nil => cases h
      | cons w l =>
        refine (infix_member h).trans ⟨Json.quote k'.toList ++ ':' :: v'.text ++ [','], [], ?_⟩
        rw [members.eq_def ((k', v') :: w :: l)]
        simp only [List.append_assoc, List.cons_append, List.nil_append, List.append_nil]

/-- The arguments are part of the message. -/
theorem infix_args (env : Env) (m : Memory) (nr : Nat) (ev : TraceEvent Topology.Container) :
    (argsDoc env m ((decodeTypes.lookup nr).getD "") ev.argv).text <:+: message env m nr ev := by
  unfold message
  refine List.IsInfix.trans ?_ (List.prefix_append _ _).isInfix
  unfold eventDoc
  refine List.IsInfix.trans ?_ (infix_obj _)
  exact infix_member (k := "args") (by simp)

end Swoll.Lemmas.EventText
