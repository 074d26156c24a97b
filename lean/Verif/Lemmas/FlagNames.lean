import Verif.Lemmas.Flags
/- Helper lemmas about decimal numbers and name tables. -/
namespace Swoll.Lemmas.Flags
open Swoll.Flags Swoll.Bytes
open Swoll.Spec.Flags (FitsInt)

/-! ### Decimal numbers -/

theorem digitVal_digit {d : Nat} (h : d < 10) : digitVal (digit d) = some d := by
  have : ∀ d, d < 10 → digitVal (digit d) = some d := by decide
  exact this d h

theorem digitsVal_snoc (acc : Nat) (cs : List Char) (c : Char) :
    digitsVal acc (cs ++ [c]) =
      (digitsVal acc cs).bind fun a => (digitVal c).map fun d => a * 10 + d := by
  induction cs generalizing acc with
  | nil =>
    simp only [List.nil_append, digitsVal, Option.bind_some]
    cases digitVal c <;> rfl
  | cons x xs ih =>
    simp only [List.cons_append, digitsVal]
    cases digitVal x with
    | none => rfl
    | some d => exact ih _

theorem digitsVal_digits (n : Nat) : digitsVal 0 (digits n) = some n := by
  induction n using Nat.strongRecOn with
  | ind n ih =>
    unfold digits
    split
    · next h => simp [digitsVal, digitVal_digit h]
    · next h =>
      rw [digitsVal_snoc, ih (n / 10) (by omega), Option.bind_some,
        digitVal_digit (by omega), Option.map_some]
      congr 1
      omega

/-- What a decimal number starts with. -/
def numeric (c : Char) : Bool := c = '-' || (48 ≤ c.toNat && c.toNat ≤ 57)

theorem digits_head (n : Nat) : ∃ c cs, digits n = c :: cs ∧ 48 ≤ c.toNat ∧ c.toNat ≤ 57 := by
  have hd : ∀ d, d < 10 → 48 ≤ (digit d).toNat ∧ (digit d).toNat ≤ 57 := by decide
  induction n using Nat.strongRecOn with
  | ind n ih =>
    unfold digits
    split
    · next h => exact ⟨_, _, rfl, hd n h⟩
    · next h =>
      obtain ⟨c, cs, h1, h2⟩ := ih (n / 10) (by omega)
      exact ⟨c, cs ++ [digit (n % 10)], by rw [h1]; rfl, h2⟩

theorem itoa_head (n : Int) : ∃ c cs, itoa n = c :: cs ∧ numeric c = true := by
  obtain ⟨c, cs, h1, h2⟩ := digits_head n.natAbs
  unfold itoa
  split
  · exact ⟨_, _, rfl, rfl⟩
  · refine ⟨c, cs, h1, ?_⟩
    simp [numeric, h2]

theorem atoi_itoa {n : Int} (h : FitsInt n) : atoi (itoa n) = some n := by
  obtain ⟨c, cs, h1, h2⟩ := digits_head n.natAbs
  have hv := digitsVal_digits n.natAbs
  unfold FitsInt at h
  unfold itoa
  split
  · next hn =>
    rw [h1] at hv ⊢
    unfold atoi
    rw [show splitSign ('-' :: c :: cs) = (true, c :: cs) from rfl]
    dsimp only
    rw [if_neg (by simp), hv]
    dsimp only
    rw [if_pos]
    · simp only [if_true]; congr 1; omega
    · simp only [if_true]; omega
  · next hn =>
    rw [h1] at hv ⊢
    have hc1 : c ≠ '-' := by rintro rfl; exact absurd h2.1 (by decide)
    have hc2 : c ≠ '+' := by rintro rfl; exact absurd h2.1 (by decide)
    have hm : splitSign (c :: cs) = (false, c :: cs) := by
      unfold splitSign
      split
      · next heq => exact absurd (List.cons.inj heq).1 hc1
      · next heq => exact absurd (List.cons.inj heq).1 hc2
      · rfl
    unfold atoi
    rw [hm]
    dsimp only
    rw [if_neg (by simp), hv]
    dsimp only
    rw [if_pos]
    · simp only [Bool.false_eq_true, if_false]; congr 1; omega
    · simp only [Bool.false_eq_true, if_false]; omega

/-- A string that does not read as a number: it starts with something else. -/
theorem atoi_letter {c : Char} {cs : List Char} (h : numeric c = false) (hp : c ≠ '+') :
    atoi (c :: cs) = none := by
  simp only [numeric, Bool.or_eq_false_iff, decide_eq_false_iff_not, Bool.and_eq_false_iff] at h
  have hm : splitSign (c :: cs) = (false, c :: cs) := by
    unfold splitSign
    split
    · next heq => exact absurd (List.cons.inj heq).1 h.1
    · next heq => exact absurd (List.cons.inj heq).1 hp
    · rfl
  have hd : digitVal c = none := by
    unfold digitVal
    rw [if_neg]
    rintro ⟨h1, h2⟩
    rcases h.2 with h3 | h3
    · exact h3 h1
    · exact h3 h2
  unfold atoi
  rw [hm]
  simp [digitsVal, hd]

/-! ### Name tables -/

/-- The string does not look like a number. -/
def wordy (s : String) : Bool :=
  match s.toList with
  | c :: _ => !numeric c && decide (c ≠ '+')
  | [] => false

theorem not_wordy_itoa (n : Int) : wordy (String.ofList (itoa n)) = false := by
  obtain ⟨c, cs, h1, h2⟩ := itoa_head n
  unfold wordy
  rw [String.toList_ofList, h1]
  simp [h2]

theorem atoi_wordy {s : String} (h : wordy s = true) : atoi s.toList = none := by
  unfold wordy at h
  split at h
  · next c cs heq =>
    simp only [Bool.and_eq_true, Bool.not_eq_true', decide_eq_true_eq] at h
    rw [heq]
    exact atoi_letter h.1 h.2
  · exact absurd h (by simp)

/-- A usable name table: no value and no name twice, and no name that looks like a number. -/
def tableOk (tbl : List (Int × String)) : Bool :=
  decide (tbl.map (·.1)).Nodup && decide (tbl.map (·.2)).Nodup && tbl.all fun e => wordy e.2

theorem keysOf_fold {order : List (Int × String)} (m : GoMap String Int) (s : String) :
    (∀ e ∈ order, e.2 ≠ s) →
      GoMap.get (order.foldl (fun m e => GoMap.set m e.2 e.1) m) s = GoMap.get m s := by
  induction order generalizing m with
  | nil => intro _; rfl
  | cons e es ih =>
    intro h
    rw [List.foldl_cons, ih _ (fun x hx => h x (List.mem_cons_of_mem _ hx)),
      GoMap.get_set_other _ _ (h e (List.mem_cons_self ..))]

theorem keysOf_fold_mem {order : List (Int × String)} (m : GoMap String Int) {k : Int} {s : String}
    (hn : (order.map (·.2)).Nodup) (h : (k, s) ∈ order) :
    GoMap.get (order.foldl (fun m e => GoMap.set m e.2 e.1) m) s = some k := by
  induction order generalizing m with
  | nil => simp at h
  | cons e es ih =>
    rw [List.map_cons, List.nodup_cons] at hn
    rw [List.foldl_cons]
    rcases List.mem_cons.1 h with rfl | h
    · rw [keysOf_fold]
      · exact GoMap.get_set_same ..
      · intro x hx heq
        exact hn.1 (List.mem_map.2 ⟨x, hx, heq⟩)
    · exact ih _ hn.2 h

theorem get_keysOf {tbl order : List (Int × String)} (hp : order.Perm tbl) (ht : tableOk tbl = true)
    {k : Int} {s : String} (h : (k, s) ∈ tbl) : GoMap.get (keysOf order) s = some k := by
  simp only [tableOk, Bool.and_eq_true, decide_eq_true_eq] at ht
  exact keysOf_fold_mem [] ((hp.map (·.2)).nodup_iff.2 ht.1.2) (hp.mem_iff.2 h)

theorem get_keysOf_none {tbl order : List (Int × String)} (hp : order.Perm tbl) {s : String}
    (h : ∀ e ∈ tbl, e.2 ≠ s) : GoMap.get (keysOf order) s = none :=
  keysOf_fold [] s fun e he => h e (hp.mem_iff.1 he)

theorem get_table {tbl : List (Int × String)} (ht : tableOk tbl = true) {k : Int} {s : String} :
    GoMap.get tbl k = some s ↔ (k, s) ∈ tbl := by
  simp only [tableOk, Bool.and_eq_true, decide_eq_true_eq] at ht
  constructor
  · exact GoMap.mem_of_get
  · exact GoMap.get_of_mem (m := tbl) ht.1.1

theorem nameOf_mem {tbl : List (Int × String)} (ht : tableOk tbl = true) {k : Int} {s : String}
    (h : (k, s) ∈ tbl) : nameOf tbl k = s := by
  unfold nameOf
  rw [(get_table ht).2 h]

theorem nameOf_not_mem {tbl : List (Int × String)} {k : Int} (h : ∀ s, (k, s) ∉ tbl) :
    nameOf tbl k = String.ofList (itoa k) := by
  unfold nameOf
  cases hg : GoMap.get tbl k with
  | none => rfl
  | some s => exact absurd (GoMap.mem_of_get hg) (h s)

theorem names_wordy {tbl : List (Int × String)} (ht : tableOk tbl = true) {e : Int × String}
    (h : e ∈ tbl) : wordy e.2 = true := by
  simp only [tableOk, Bool.and_eq_true, List.all_eq_true] at ht
  exact ht.2 e h

theorem keysOf_itoa {tbl order : List (Int × String)} (hp : order.Perm tbl)
    (ht : tableOk tbl = true) (n : Int) :
    GoMap.get (keysOf order) (String.ofList (itoa n)) = none := by
  refine get_keysOf_none hp fun e he heq => ?_
  have := names_wordy ht he
  rw [heq, not_wordy_itoa] at this
  exact absurd this (by simp)

theorem valueOf_nameOf {tbl order : List (Int × String)} (hp : order.Perm tbl)
    (ht : tableOk tbl = true) {n : Int} (hn : FitsInt n) :
    valueOf (keysOf order) (nameOf tbl n) = some n := by
  by_cases h : ∃ s, (n, s) ∈ tbl
  · obtain ⟨s, hs⟩ := h
    rw [nameOf_mem ht hs]
    unfold valueOf
    rw [get_keysOf hp ht hs]
  · rw [nameOf_not_mem fun s hs => h ⟨s, hs⟩]
    unfold valueOf
    rw [keysOf_itoa hp ht]
    dsimp only
    rw [String.toList_ofList, atoi_itoa hn]

end Swoll.Lemmas.Flags

namespace Swoll.Lemmas.Flags
open Swoll.Flags Swoll.Bytes
open Swoll.Spec.Flags (FitsInt bigEndian16)

theorem errno_ok : tableOk errnoVals = true := by decide +kernel

theorem not_named {tbl : List (Int × String)} {s : String} (h : s ∉ tbl.map (·.2)) :
    ∀ e ∈ tbl, e.2 ≠ s := fun e he heq => h (List.mem_map.2 ⟨e, he, heq⟩)

/-! ### Socket types -/

/-- `Parse` in terms of the type number and the two flags. -/
def sockTypePieces (n : Word) (a b : Bool) : List String :=
  (match sockTypeNames.lookup n with
    | some s => [s]
    | none => [String.ofList ('<' :: itoa n.toInt ++ ['>'])])
  ++ (if a then ["SOCK_CLOEXEC"] else [])
  ++ (if b then ["SOCK_NONBLOCK"] else [])

theorem flag_bit (t : Word) (k : Nat) (hk : k < 64) :
    t &&& wordOf [k] ≠ 0 ↔ t.getLsbD k = true := by
  rw [BitVec.and_comm, single_spec (m := wordOf [k]) (bs := [k]) (by simp [single, hk])]
  simp [Spec.Flags.IsSet]

theorem sockType_unmarshal_parse (t : Word) :
    sockTypeParse t = sockTypePieces (t &&& 0xf) (t.getLsbD 19) (t.getLsbD 11) := by
  have h1 : (t &&& ~~~0xf) &&& 0x80000 ≠ 0 ↔ t.getLsbD 19 = true := by
    rw [BitVec.and_assoc, show (~~~0xf &&& 0x80000 : Word) = wordOf [19] by decide +kernel]
    exact flag_bit t 19 (by omega)
  have h2 : (t &&& ~~~0xf) &&& 0x800 ≠ 0 ↔ t.getLsbD 11 = true := by
    rw [BitVec.and_assoc, show (~~~0xf &&& 0x800 : Word) = wordOf [11] by decide +kernel]
    exact flag_bit t 11 (by omega)
  unfold sockTypeParse sockTypePieces
  dsimp only
  congr 1
  · congr 1
    by_cases h : t.getLsbD 19 = true
    · rw [if_pos (h1.2 h), if_pos h]
    · rw [if_neg (fun h' => h (h1.1 h')), if_neg h]
  · by_cases h : t.getLsbD 11 = true
    · rw [if_pos (h2.2 h), if_pos h]
    · rw [if_neg (fun h' => h (h2.1 h')), if_neg h]

theorem and_wordOf (t : Word) (k : Nat) :
    t &&& wordOf [k] = if t.getLsbD k then wordOf [k] else 0 := by
  refine BitVec.eq_of_getLsbD_eq fun i hi => ?_
  rw [Bool.eq_iff_iff, BitVec.getLsbD_and, Bool.and_eq_true, getLsbD_wordOf _ _ hi]
  split
  · next h =>
    rw [getLsbD_wordOf _ _ hi]
    constructor
    · exact And.right
    · intro hm; exact ⟨by rw [List.mem_singleton.1 hm]; exact h, hm⟩
  · next h =>
    constructor
    · rintro ⟨h1, hm⟩; rw [List.mem_singleton.1 hm] at h1; exact absurd h1 h
    · intro h; simp at h

theorem sockType_split (t : Word) :
    t &&& 0x8080f = (t &&& 0xf) ||| (if t.getLsbD 19 then 0x80000 else 0) |||
      (if t.getLsbD 11 then 0x800 else 0) := by
  have h1 := and_wordOf t 19
  have h2 := and_wordOf t 11
  rw [show wordOf [19] = (0x80000 : Word) by decide +kernel] at h1
  rw [show wordOf [11] = (0x800 : Word) by decide +kernel] at h2
  rw [← h1, ← h2, ← BitVec.and_or_distrib_left, ← BitVec.and_or_distrib_left]
  congr 1

theorem sockType_nibble (t : Word) : ∃ k, k < 16 ∧ t &&& 0xf = BitVec.ofNat 64 k := by
  refine ⟨(t &&& 0xf).toNat, ?_, by simp⟩
  rw [BitVec.toNat_and]
  exact Nat.lt_of_le_of_lt Nat.and_le_right (by decide)

theorem sockType_mod {t : Word} {k : Nat} (hk : k < 16) (h : t &&& 0xf = BitVec.ofNat 64 k) :
    t.toNat % 16 = k := by
  have h1 := congrArg BitVec.toNat h
  rw [BitVec.toNat_and, BitVec.toNat_ofNat] at h1
  have h2 : t.toNat &&& 15 = t.toNat % 16 := Nat.and_two_pow_sub_one_eq_mod t.toNat 4
  have h3 : ((15 : Word)).toNat = 15 := rfl
  have h4 : ((0xf : Word)).toNat = 15 := rfl
  rw [h4, h2] at h1
  rw [h1]
  exact Nat.mod_eq_of_lt (by omega)

/-! ### Addresses -/

theorem ntohs_leVal (hi lo : Byte) : ntohs (leVal [hi, lo]) = bigEndian16 hi lo := by
  have h1 := hi.toNat_lt
  have h2 := lo.toNat_lt
  unfold ntohs bigEndian16
  simp only [leVal, UInt8.toNat_ofNat']
  omega

/-- Every character of a decimal number of a natural number is a digit. -/
theorem digits_all (n : Nat) : ∀ c ∈ digits n, 48 ≤ c.toNat ∧ c.toNat ≤ 57 := by
  have hd : ∀ d, d < 10 → 48 ≤ (digit d).toNat ∧ (digit d).toNat ≤ 57 := by decide
  induction n using Nat.strongRecOn with
  | ind n ih =>
    unfold digits
    split
    · next h =>
      intro c hc
      rw [List.mem_singleton.1 hc]
      exact hd n h
    · next h =>
      intro c hc
      rcases List.mem_append.1 hc with hc | hc
      · exact ih (n / 10) (by omega) c hc
      · rw [List.mem_singleton.1 hc]
        exact hd _ (by omega)

theorem digits_inj {a b : Nat} (h : digits a = digits b) : a = b := by
  have h1 := digitsVal_digits a
  rw [h, digitsVal_digits b] at h1
  exact (Option.some.inj h1).symm

theorem itoa_nat (n : Nat) : itoa (n : Int) = digits n := by
  unfold itoa
  rw [if_neg (by omega)]
  rfl

theorem itoa_inj {a b : Nat} (h : itoa (a : Int) = itoa (b : Int)) : a = b := by
  rw [itoa_nat, itoa_nat] at h
  exact digits_inj h

theorem append_sep {xs ys xs' ys' : List Char} {c : Char} (hx : c ∉ xs) (hx' : c ∉ xs')
    (h : xs ++ c :: ys = xs' ++ c :: ys') : xs = xs' ∧ ys = ys' := by
  induction xs generalizing xs' with
  | nil =>
    cases xs' with
    | nil => exact ⟨rfl, (List.cons.inj h).2⟩
    | cons x' xs' =>
      have := (List.cons.inj h).1
      exact absurd (this ▸ List.mem_cons_self ..) hx'
  | cons x xs ih =>
    cases xs' with
    | nil =>
      have := (List.cons.inj h).1
      exact absurd (this ▸ List.mem_cons_self ..) hx
    | cons x' xs' =>
      obtain ⟨h1, h2⟩ := List.cons.inj h
      obtain ⟨h3, h4⟩ := ih (fun hm => hx (List.mem_cons_of_mem _ hm))
        (fun hm => hx' (List.mem_cons_of_mem _ hm)) h2
      exact ⟨by rw [h1, h3], h4⟩

/-- A number followed by a separator can be told from what follows. -/
theorem itoa_sep {a b : Nat} {c : Char} {xs ys : List Char} (hc : numeric c = false)
    (h : itoa (a : Int) ++ ([c] ++ xs) = itoa (b : Int) ++ ([c] ++ ys)) :
    (a : Int) = (b : Int) ∧ xs = ys := by
  have hno : ∀ n : Nat, c ∉ itoa (n : Int) := by
    intro n hm
    rw [itoa_nat] at hm
    have := digits_all n c hm
    simp [numeric, this] at hc
  obtain ⟨h1, h2⟩ := append_sep (hno a) (hno b) h
  exact ⟨by rw [itoa_inj h1], h2⟩

theorem hexDigit_no_colon : ∀ d, d < 16 → hexDigit d ≠ ':' := by decide

theorem hex2_no_colon (x y : Byte) : ∀ c ∈ hex2 x ++ hex2 y, decide (c ≠ ':') = true := by
  have hx := x.toNat_lt
  have hy := y.toNat_lt
  intro c hc
  simp only [hex2, List.cons_append, List.nil_append, List.mem_cons, List.not_mem_nil,
    or_false] at hc
  rw [decide_eq_true_eq]
  rcases hc with rfl | rfl | rfl | rfl <;> exact hexDigit_no_colon _ (by omega)

theorem hex2_eq (x : Byte) : hex2 x = Spec.Flags.hexByte x := by
  have hx := x.toNat_lt
  have key : ∀ d, d < 16 → hexDigit d = "0123456789abcdef".toList.getD d ' ' := by decide
  unfold hex2 Spec.Flags.hexByte
  rw [key _ (by omega), key _ (by omega)]

theorem sixteen {α : Type} {l : List α} (h : l.length = 16) :
    ∃ a0 a1 a2 a3 a4 a5 a6 a7 a8 a9 a10 a11 a12 a13 a14 a15,
      l = [a0, a1, a2, a3, a4, a5, a6, a7, a8, a9, a10, a11, a12, a13, a14, a15] := by
  match l, h with
  | [a0, a1, a2, a3, a4, a5, a6, a7, a8, a9, a10, a11, a12, a13, a14, a15], _ =>
    exact ⟨a0, a1, a2, a3, a4, a5, a6, a7, a8, a9, a10, a11, a12, a13, a14, a15, rfl⟩

/-! ### Addresses cut to 16 bytes -/

theorem window_cut (mem : List Byte) (off n : Nat) (h : off + n ≤ 16) :
    window (sockAddrThroughJSON mem) off n = window mem off n := by
  unfold sockAddrThroughJSON window
  rw [List.drop_zero, List.drop_take, List.take_take]
  congr 1
  omega

theorem cstrCount_take (l : List Byte) (n : Nat) :
    Event.cstrCount (l.take n) = (Event.cstrCount l).min n := by
  induction l generalizing n with
  | nil => simp [Event.cstrCount]
  | cons b bs ih =>
    cases n with
    | zero => simp [Event.cstrCount]
    | succ n =>
      simp only [List.take_succ_cons, Event.cstrCount]
      split
      · simp
      · rw [ih]
        show (Event.cstrCount bs).min n + 1 = (Event.cstrCount bs + 1).min (n + 1)
        simp only [Nat.min_def]
        split <;> split <;> omega

theorem cstrCount_le (l : List Byte) : Event.cstrCount l ≤ l.length := by
  induction l with
  | nil => simp [Event.cstrCount]
  | cons b bs ih =>
    simp only [Event.cstrCount, List.length_cons]
    split <;> omega

theorem window_unix (mem : List Byte) :
    window (sockAddrThroughJSON mem) 2 108 = (window mem 2 108).take 14 := by
  unfold sockAddrThroughJSON window
  rw [List.drop_zero, List.drop_take, List.take_take, List.take_take]
  congr 1

theorem sockAddr_short {mem : List Byte} (h : sockAddrReads mem ≤ 16) :
    sockAddrString (sockAddrThroughJSON mem) = sockAddrString mem := by
  have h02 := window_cut mem 0 2 (by omega)
  have h22 := window_cut mem 2 2 (by omega)
  have h44 := window_cut mem 4 4 (by omega)
  have h214 := window_cut mem 2 14 (by omega)
  have key : parseSockAddr (sockAddrThroughJSON mem) = parseSockAddr mem := by
    unfold parseSockAddr
    rw [h02]
    unfold sockAddrReads at h
    dsimp only at h ⊢
    by_cases f2 : leVal (window mem 0 2) = 2
    · rw [if_pos f2, if_pos f2, h44, h22]
    rw [if_neg f2] at h ⊢
    rw [if_neg f2]
    by_cases f10 : leVal (window mem 0 2) = 10
    · rw [if_pos f10] at h; omega
    rw [if_neg f10] at h ⊢
    rw [if_neg f10]
    by_cases f1 : leVal (window mem 0 2) = 1
    · rw [if_pos f1] at h ⊢
      rw [if_pos f1]
      have hlt : Event.cstrCount (window mem 2 108) < 14 := by
        simp only [Nat.min_def] at h
        split at h <;> omega
      unfold Event.makeCString
      rw [window_unix, cstrCount_take, List.take_take]
      have hm : (Event.cstrCount (window mem 2 108)).min 14 =
          Event.cstrCount (window mem 2 108) := by
        simp only [Nat.min_def]; split <;> omega
      rw [hm]
      congr 4
    rw [if_neg f1, if_neg f1]
    by_cases f0 : leVal (window mem 0 2) = 0
    · rw [if_pos f0, if_pos f0, h214]
    rw [if_neg f0, if_neg f0]
  unfold sockAddrString
  rw [key]

theorem sockAddr_json_inet6 (mem : List Byte) (h : leVal (window mem 0 2) = 10) :
    16 < sockAddrReads (sockAddrThroughJSON mem) := by
  unfold sockAddrReads
  rw [window_cut mem 0 2 (by omega), h]
  dsimp only
  rw [if_neg (by decide), if_pos rfl]
  decide

theorem cstrCount_full {l : List Byte} (h : ∀ b ∈ l, b ≠ 0) : Event.cstrCount l = l.length := by
  induction l with
  | nil => rfl
  | cons b bs ih =>
    simp only [Event.cstrCount, List.length_cons]
    rw [if_neg (h b (List.mem_cons_self ..)), ih fun x hx => h x (List.mem_cons_of_mem _ hx)]

theorem sockAddr_json_unix (mem : List Byte) (hl : 110 ≤ mem.length)
    (h : leVal (window mem 0 2) = 1) (hn : ∀ i, 2 ≤ i → i < 16 → mem.getD i 0 ≠ 0) :
    (sockAddrThroughJSON mem).length < sockAddrReads (sockAddrThroughJSON mem) := by
  have hlen : (sockAddrThroughJSON mem).length = 16 := by
    simp [sockAddrThroughJSON, window]; omega
  have hw : ((window mem 2 108).take 14).length = 14 := by
    simp [window]; omega
  have hc : Event.cstrCount ((window mem 2 108).take 14) = 14 := by
    rw [cstrCount_full, hw]
    intro b hb
    obtain ⟨i, hi, rfl⟩ := List.getElem_of_mem hb
    rw [hw] at hi
    have := hn (2 + i) (by omega) (by omega)
    rw [List.getD_eq_getElem?_getD, List.getElem?_eq_getElem (by omega)] at this
    simpa [window] using this
  unfold sockAddrReads
  rw [window_cut mem 0 2 (by omega), window_unix, hc, hlen, h]
  decide

end Swoll.Lemmas.Flags
