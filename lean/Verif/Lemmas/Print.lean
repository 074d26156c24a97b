import Verif.Model.Print
import Verif.Spec.Print
import Verif.Lemmas.EventArgs
import Verif.Props.Flags
/- Helper lemmas about printed values. -/
namespace Swoll.Lemmas.Print
open Swoll.Bytes Swoll.Event Swoll.Flags Swoll.Print Swoll.Spec.Event Swoll.Spec.Print
open Swoll.Lemmas.Flags Swoll.Lemmas.Event

/-! ### Numbers and lists -/

theorem digits_eq (n : Nat) : digits n = Nat.toDigits 10 n := by
  have hd : ∀ d, d < 10 → digit d = Nat.digitChar d := by decide
  induction n using Nat.strongRecOn with
  | ind n ih =>
    unfold digits
    rw [Nat.toDigits_eq_if (by decide)]
    split
    · next h => rw [hd n h]
    · next h => rw [ih (n / 10) (by omega), hd _ (by omega)]

theorem itoa_eq (v : Int) : itoa v = decimal v := by
  unfold itoa decimal
  show _ = (Int.repr v).toList
  cases v with
  | ofNat n =>
    rw [if_neg (by simp)]
    show _ = n.repr.toList
    rw [Nat.toList_repr, digits_eq]; rfl
  | negSucc n =>
    rw [if_pos (Int.negSucc_lt_zero n)]
    simp only [Int.repr]
    rw [String.toList_append, Nat.toList_repr, digits_eq]; rfl

theorem join_eq (c : Char) (l : List (List Char)) : join [c] l = separated c l := by
  unfold separated
  induction l with
  | nil => rfl
  | cons x xs ih =>
    cases xs with
    | nil => simp [join, List.intercalate]
    | cons y ys =>
      rw [join, ih]
      · simp [List.intercalate, List.intersperse]
      · simp

/-! ### Flags and names -/

/-- The manual's name for a kind of flags. -/
def bitsOf : Names → Bits
  | .file => .open
  | .msg => .msg
  | .timer => .timer
  | .umount => .umount
  | .accept => .accept
  | .inotify => .inotify
  | .mount => .mount
  | .clone => .clone
  | .xmode => .access
  | .prot => .prot

theorem parse_describes {env : Env} (he : ∀ n, (env.order n).Perm n.type.masks) (n : Names)
    (f : Word) (hr : (bitsOf n).Regular f) (x : String) :
    x ∈ parse n.type (env.order n) f ↔ Spec.Flags.Describes (bitsOf n).doc f x := by
  have plain : (n.type, (bitsOf n).doc) ∈ Props.Flags.plainTypes →
      (x ∈ parse n.type (env.order n) f ↔ Spec.Flags.Describes (bitsOf n).doc f x) := fun h =>
    Props.Flags.c41_names_are_set_flags_partial h (he n) f x
  cases n with
  | file => exact (Props.Flags.c41_file_names_iff (he .file) f).2 hr x
  | mount => exact (Props.Flags.c41_mount_names_iff (he .mount) f).2 hr x
  | _ => exact plain (by simp [Props.Flags.plainTypes, Props.Flags.jsonTypes, Names.type, bitsOf,
      Bits.doc])

theorem parse_once {env : Env} (he : ∀ n, (env.order n).Perm n.type.masks) (n : Names)
    (f : Word) : (parse n.type (env.order n) f).Nodup := by
  refine Props.Flags.c41_each_name_once (p := (n.type, (bitsOf n).doc)) ?_ (he n) f
  cases n <;> simp [Props.Flags.allTypes, Props.Flags.plainTypes, Props.Flags.jsonTypes,
    Names.type, bitsOf, Bits.doc]

theorem flagText_names {env : Env} (he : ∀ n, (env.order n).Perm n.type.masks) (n : Names)
    (i : Int) (hr : (bitsOf n).Regular (BitVec.ofInt 64 i)) :
    FlagNames (bitsOf n).doc i (flagText env n i) := by
  have hd := parse_describes he n (BitVec.ofInt 64 i) hr
  unfold flagText
  dsimp only
  split
  · next h =>
    right
    refine ⟨fun x hx => ?_, itoa_eq i⟩
    have := (hd x).2 hx
    rw [h.2] at this
    exact absurd this (by simp)
  · left
    exact ⟨_, parse_once he n _, hd, join_eq _ _⟩

theorem nameOf_named {tbl lt : List (Int × String)} (h : ∀ e ∈ tbl, e ∈ lt) (v : Int) :
    NameOrNumber lt v (nameOf tbl v).toList := by
  unfold nameOf
  cases hg : GoMap.get tbl v with
  | none => right; rw [String.toList_ofList, itoa_eq]
  | some s => exact .inl ⟨s, h _ (GoMap.mem_of_get hg), rfl⟩

theorem rlimitName_named (v : Int) : NameOrNumber Spec.Linux.limits v (rlimitName v).toList := by
  have h : ∀ e ∈ rlimitNames, e ∈ Spec.Linux.limits := by decide +kernel
  unfold rlimitName
  cases hg : rlimitNames.lookup v with
  | none => right; rw [String.toList_ofList, itoa_eq]
  | some s => exact .inl ⟨s, h _ (lookup_mem hg), rfl⟩

theorem option_named (tp lv : Int) :
    NameOrNumber (optionNames lv) tp (SockoptName.parse { tp := tp, lv := lv }).toList := by
  have h1 : ∀ e ∈ socketOpMasks, e ∈ Spec.Linux.socketOptions := by decide +kernel
  have h2 : ∀ e ∈ tcpOpMasks, e ∈ Spec.Linux.tcpOptions := by decide +kernel
  have h3 : ∀ e ∈ ipOpMasks, e ∈ Spec.Linux.ipOptions := by decide +kernel
  have h4 : ∀ e ∈ ip6OpMasks, e ∈ Spec.Linux.ipv6Options := by decide +kernel
  unfold SockoptName.parse optionNames
  dsimp only
  split
  · exact nameOf_named h1 tp
  · split
    · exact nameOf_named h2 tp
    · split
      · exact nameOf_named h3 tp
      · split
        · exact nameOf_named h4 tp
        · right; rw [String.toList_ofList, itoa_eq]

/-! ### Modes, socket types, addresses -/

theorem modeText_permissions (w : BitVec 32) :
    ∃ kind, modeText w = kind ++ permissions w.toNat := by
  have h : ((List.range 9).zip "rwxrwxrwx".toList).map (fun (i, c) =>
      if w.getLsbD (8 - i) then c else '-') = permissions w.toNat := rfl
  refine ⟨if ((List.range 13).zip "dalTLDpSugct?".toList).filterMap (fun (i, c) =>
      if w.getLsbD (31 - i) then some c else none) = [] then ['-'] else
      ((List.range 13).zip "dalTLDpSugct?".toList).filterMap fun (i, c) =>
        if w.getLsbD (31 - i) then some c else none, ?_⟩
  rw [← h]
  rfl

theorem sockType_reads (v : Int) : ∃ ns : List String, ns.Nodup ∧
      (∀ n, n ∈ ns ↔ (n = "SOCK_CLOEXEC" ∧ (BitVec.ofInt 64 v).getLsbD 19 = true) ∨
        (n = "SOCK_NONBLOCK" ∧ (BitVec.ofInt 64 v).getLsbD 11 = true)) ∧
      join ['|'] ((sockTypeParse (BitVec.ofInt 64 v)).map (·.toList)) =
        separated '|' (socketTypeName (v % 16).toNat :: ns.map (·.toList)) := by
  obtain ⟨k, hk, hn⟩ := sockType_nibble (BitVec.ofInt 64 v)
  have hmod := sockType_mod hk hn
  have hv : (v % 16).toNat = k := by
    rw [BitVec.toNat_ofInt] at hmod
    have : ((v % (2 ^ 64 : Nat)).toNat : Int) = v % (2 ^ 64 : Nat) :=
      Int.toNat_of_nonneg (Int.emod_nonneg _ (by decide))
    omega
  rw [sockType_unmarshal_parse, hn, hv, join_eq]
  have hname : ∀ k, k < 16 → ∀ a b, (sockTypePieces (BitVec.ofNat 64 k) a b).map (·.toList) =
      socketTypeName k ::
        ((if a then ["SOCK_CLOEXEC"] else []) ++ (if b then ["SOCK_NONBLOCK"] else [])).map
          (·.toList) := by decide +kernel
  rw [hname k hk]
  refine ⟨_, ?_, ?_, rfl⟩
  · cases BitVec.getLsbD (BitVec.ofInt 64 v) 19 <;> cases BitVec.getLsbD (BitVec.ofInt 64 v) 11 <;>
      decide
  · intro n
    cases BitVec.getLsbD (BitVec.ofInt 64 v) 19 <;> cases BitVec.getLsbD (BitVec.ofInt 64 v) 11 <;>
      simp

theorem cstrCount_path {path : List Byte} (rest : List Byte) (h : (0 : Byte) ∉ path) :
    cstrCount (path ++ 0 :: rest) = path.length := by
  induction path with
  | nil => simp [cstrCount]
  | cons b bs ih =>
    rw [List.mem_cons, not_or] at h
    rw [List.cons_append, cstrCount, if_neg (fun e => h.1 e.symm), ih h.2]
    rfl

theorem sock_reads (bs : List Byte) : AddressText bs (sockAddrString bs) := by
  constructor
  · rintro hi lo a b c d rest rfl
    rw [Props.Flags.c44_ipv4_partial]
    simp [itoa_eq, separated, List.intercalate, List.intersperse]
  · rintro path rest rfl hp hl
    have hfam : leVal (window ([1, 0] ++ path ++ [0] ++ rest) 0 2) = 1 := rfl
    have hw : window ([1, 0] ++ path ++ [0] ++ rest) 2 108 = path ++ 0 :: rest.take (107 - path.length) := by
      unfold window
      show List.take 108 (path ++ [0] ++ rest) = _
      rw [List.append_assoc, List.take_append, List.take_of_length_le (by omega),
        show 108 - path.length = (107 - path.length) + 1 by omega]
      rfl
    have hc : makeCString ([1, 0] ++ path ++ [0] ++ rest) 2 108 = path := by
      unfold makeCString
      rw [hw, cstrCount_path _ hp, List.take_append_of_le_length (Nat.le_refl _),
        List.take_length]
    unfold sockAddrString parseSockAddr
    rw [hfam, hc]
    simp only [show ¬ (1 = 2) by decide, show ¬ (1 = 10) by decide, if_false, if_true]
    have h0 : ':' :: itoa ((0 : Nat) : Int) = ":0".toList := by decide +kernel
    rw [List.append_assoc, List.append_assoc, h0]
    rfl

/-! ### Structures -/

/-- Bytes a token takes. -/
def Tok.width : Tok → Nat
  | .lit _ => 0
  | .u w => w
  | .s w => w

/-- Bytes a layout takes. -/
def layWidth (ts : List Tok) : Nat := (ts.map Tok.width).sum

/-- A layout as members with offsets; `pre` is fixed text that has come before. -/
def pieces : List Tok → Nat → String → List (String × Nat × Nat × Bool) × String
  | [], _, pre => ([], pre)
  | .lit s :: ts, off, pre => pieces ts off (pre ++ s)
  | .u w :: ts, off, pre =>
    let r := pieces ts (off + w) ""
    ((pre, off, w, false) :: r.1, r.2)
  | .s w :: ts, off, pre =>
    let r := pieces ts (off + w) ""
    ((pre, off, w, true) :: r.1, r.2)

theorem layText_append (ts us : List Tok) (bs : List Byte) :
    layText (ts ++ us) bs = layText ts bs ++ layText us (bs.drop (layWidth ts)) := by
  induction ts generalizing bs with
  | nil => simp [layText, layWidth]
  | cons t ts ih =>
    cases t with
    | lit s =>
      simp only [List.cons_append, layText, ih, List.append_assoc]
      simp [layWidth, Tok.width]
    | u w =>
      simp only [List.cons_append, layText, ih, List.append_assoc, List.drop_drop]
      simp [layWidth, Tok.width]
    | s w =>
      simp only [List.cons_append, layText, ih, List.append_assoc, List.drop_drop]
      simp [layWidth, Tok.width]

theorem signed_member (bs : List Byte) (off w : Nat) (hw : 0 < w) :
    (BitVec.ofNat (8 * w) (leVal (window bs off w))).toInt = member bs off w true := by
  have hlt : leVal (window bs off w) < 2 ^ (8 * w) := by
    refine Nat.lt_of_lt_of_le (leVal_lt _) ?_
    rw [show (256 : Nat) = 2 ^ 8 by rfl, ← Nat.pow_mul]
    refine Nat.pow_le_pow_right (by decide) ?_
    have : (window bs off w).length ≤ w := by unfold window; rw [List.length_take]; omega
    omega
  unfold member
  dsimp only
  rw [BitVec.toInt_eq_toNat_cond, BitVec.toNat_ofNat, Nat.mod_eq_of_lt hlt]
  have hp : 2 ^ (8 * w) = 2 * 2 ^ (8 * w - 1) := by
    obtain ⟨m, hm⟩ : ∃ m, 8 * w = m + 1 := ⟨8 * w - 1, by omega⟩
    rw [hm, Nat.pow_succ, Nat.add_sub_cancel]; omega
  by_cases h : 2 * leVal (window bs off w) < 2 ^ (8 * w)
  · rw [if_pos h, if_neg]; omega
  · rw [if_neg h, if_pos]
    · simp
    · exact ⟨rfl, by omega⟩

theorem layText_pieces {ts : List Tok} {off : Nat} {pre : String}
    (hw : ∀ t ∈ ts, ∀ w, t = .s w → 0 < w) (bs : List Byte) :
    pre.toList ++ layText ts (bs.drop off) = record (pieces ts off pre).1 (pieces ts off pre).2 bs := by
  induction ts generalizing off pre with
  | nil => simp [layText, pieces, record]
  | cons t ts ih =>
    have ih := fun o p => ih (off := o) (pre := p) (fun t ht => hw t (List.mem_cons_of_mem _ ht))
    cases t with
    | lit s =>
      rw [layText, pieces, ← ih, String.toList_append, List.append_assoc]
    | u w =>
      rw [layText, pieces, List.drop_drop]
      have := ih (off + w) ""
      rw [show "".toList = ([] : List Char) from rfl, List.nil_append] at this
      rw [this, itoa_eq]
      simp only [record, List.flatMap_cons, List.append_assoc]
      rfl
    | s w =>
      rw [layText, pieces, List.drop_drop]
      have := ih (off + w) ""
      rw [show "".toList = ([] : List Char) from rfl, List.nil_append] at this
      rw [this, itoa_eq, show List.take w (List.drop off bs) = window bs off w from rfl,
        signed_member _ _ _ (hw _ (List.mem_cons_self ..) w rfl)]
      simp only [record, List.flatMap_cons, List.append_assoc]

theorem layText_prefix {ts : List Tok} {bs : List Byte} (more : List Byte)
    (h : layWidth ts ≤ bs.length) : layText ts (bs ++ more) = layText ts bs := by
  induction ts generalizing bs with
  | nil => rfl
  | cons t ts ih =>
    cases t with
    | lit s =>
      simp only [layText]
      rw [ih (by simpa [layWidth, Tok.width] using h)]
    | u w =>
      simp only [layWidth, List.map_cons, Tok.width, List.sum_cons] at h
      simp only [layText]
      rw [List.take_append_of_le_length (by omega), List.drop_append_of_le_length (by omega),
        ih (by rw [List.length_drop]; unfold layWidth; omega)]
    | s w =>
      simp only [layWidth, List.map_cons, Tok.width, List.sum_cons] at h
      simp only [layText]
      rw [List.take_append_of_le_length (by omega), List.drop_append_of_le_length (by omega),
        ih (by rw [List.length_drop]; unfold layWidth; omega)]

/-- Signed members have a width. -/
def widthsOk (ts : List Tok) : Bool := ts.all fun t => t ≠ .s 0

theorem widthsOk_spec {ts : List Tok} (h : widthsOk ts = true) :
    ∀ t ∈ ts, ∀ w, t = .s w → 0 < w := by
  intro t ht w hw
  have := List.all_eq_true.1 h t ht
  rw [hw] at this
  simp at this
  omega

/-- A layout prints as the given members. -/
theorem layText_record {ts : List Tok} {ms : List (String × Nat × Nat × Bool)} {close : String}
    (hp : pieces ts 0 "" = (ms, close)) (hw : widthsOk ts = true) (bs : List Byte) :
    layText ts bs = record ms close bs := by
  have := layText_pieces (off := 0) (pre := "") (widthsOk_spec hw) bs
  rw [hp] at this
  simpa using this

/-- A layout starts with the given members, possibly behind `&`. -/
def startsWith (ts : List Tok) (ms : List (String × Nat × Nat × Bool)) (close : String)
    (len : Nat) : Bool :=
  match ts with
  | .lit "&" :: rest => go rest
  | _ => go ts
where
  go (ts : List Tok) : Bool :=
    (List.range (ts.length + 1)).any fun i =>
      decide (pieces (ts.take i) 0 "" = (ms, close)) && widthsOk (ts.take i) &&
        decide (layWidth (ts.take i) ≤ len)

theorem startsWith_go {ts : List Tok} {ms : List (String × Nat × Nat × Bool)} {close : String}
    {bs : List Byte} (more : List Byte) (h : startsWith.go ms close bs.length ts = true) :
    ∃ rest, layText ts (bs ++ more) = record ms close bs ++ rest := by
  unfold startsWith.go at h
  obtain ⟨i, -, hi⟩ := List.any_eq_true.1 h
  simp only [Bool.and_eq_true, decide_eq_true_eq] at hi
  refine ⟨layText (ts.drop i) ((bs ++ more).drop (layWidth (ts.take i))), ?_⟩
  conv => lhs; rw [← List.take_append_drop i ts]
  rw [layText_append, layText_prefix more hi.2, layText_record hi.1.1 hi.1.2]

theorem startsWith_text {ts : List Tok} {ms : List (String × Nat × Nat × Bool)} {close : String}
    {bs : List Byte} (more : List Byte) (h : startsWith ts ms close bs.length = true) :
    ∃ pre rest, (pre = [] ∨ pre = ['&']) ∧
      layText ts (bs ++ more) = pre ++ record ms close bs ++ rest := by
  unfold startsWith at h
  split at h
  · obtain ⟨rest, hr⟩ := startsWith_go more h
    exact ⟨['&'], rest, .inr rfl, by rw [layText, hr, List.append_assoc]; rfl⟩
  · obtain ⟨rest, hr⟩ := startsWith_go more h
    exact ⟨[], rest, .inl rfl, by rw [hr]; rfl⟩

/-! ### The table -/

/-- Kinds that hold numbers. -/
def isNum : Arg → Bool
  | .int | .uint | .long | .addr | .intAt => true
  | _ => false

/-- Kinds that hold bytes. -/
def isBuf : Arg → Bool
  | .object _ | .buffer _ | .buffer32 _ | .bufferAt _ => true
  | _ => false

theorem means_num {c : Call} {a : Arg} {k : Nat} {v : Val} (h : isNum a = true)
    (hm : Means c (a.at k) v) : ∃ i, v = .int i := by
  cases a <;> cases v <;> first | exact ⟨_, rfl⟩ | exact hm.elim | exact Bool.noConfusion h

theorem means_buf {c : Call} {a : Arg} {k : Nat} {v : Val} (h : isBuf a = true)
    (hm : Means c (a.at k) v) : ∃ bs, v = .buf bs := by
  cases a <;> cases v <;> first | exact ⟨_, rfl⟩ | exact hm.elim | exact Bool.noConfusion h

/-- The decoded field is what the argument should be. -/
def fieldOk (n : Nat) (f : String) (m : Meaning) : Bool :=
  decide (meaning n f = some m) && decide ((n, f) ∉ mismatches)

/-- The way a value is printed suits the argument at position `k`. -/
def agreeHow (n k : Nat) (p : Param) : How → Bool
  | .num f => fieldOk n f (p.kind.at k) && isNum p.kind && decide (p.reading = .number)
  | .text f => fieldOk n f (p.kind.at k) && decide (p.kind = .path) && decide (p.reading = .text)
  | .dirfd f => fieldOk n f (p.kind.at k) && isNum p.kind && decide (p.reading = .directory)
  | .mode f => fieldOk n f (p.kind.at k) && decide (p.kind = .uint) &&
    decide (p.reading = .permissions)
  | .flags nm f => fieldOk n f (p.kind.at k) && isNum p.kind &&
    decide (p.reading = .flags (bitsOf nm))
  | .request f => fieldOk n f (p.kind.at k) && isNum p.kind && decide (p.reading = .request)
  | .family f => fieldOk n f (p.kind.at k) && isNum p.kind && decide (p.reading = .family)
  | .sockType f => fieldOk n f (p.kind.at k) && isNum p.kind && decide (p.reading = .socketType)
  | .proto f => fieldOk n f (p.kind.at k) && isNum p.kind && decide (p.reading = .protocol)
  | .level f => fieldOk n f (p.kind.at k) && isNum p.kind && decide (p.reading = .level)
  | .rlimit f => fieldOk n f (p.kind.at k) && isNum p.kind && decide (p.reading = .limit)
  | .option tp lv => fieldOk n tp (p.kind.at k) && isNum p.kind && fieldOk n lv (.s32 1) &&
    decide (p.reading = .option)
  | .sock f => fieldOk n f (p.kind.at k) && isBuf p.kind && decide (p.reading = .address)
  | .raw f => fieldOk n f (p.kind.at k) && isBuf p.kind && decide (p.reading = .bytes)
  | .struct (f :: fs) ts =>
    match p.kind, p.reading with
    | .object _, .record ms close =>
      fieldOk n f (p.kind.at k) && decide (fs = []) && decide (pieces ts 0 "" = (ms, close)) &&
        widthsOk ts
    | .object len, .start ms close =>
      fieldOk n f (p.kind.at k) && startsWith ts ms close len
    | _, _ => false
  | _ => false

/-- Every printed argument outside the list suits an argument of the system call. -/
theorem table_suits : ∀ row ∈ shown, row.1 ≠ nr.sys_execve → ∀ s ∈ row.2.2,
    (row.1, s.name) ∉ misprinted →
    ∃ kp ∈ paramOf row.1 s.name, agreeHow row.1 kp.1 kp.2 s.how = true := by decide +kernel

theorem fieldOk_iff {n : Nat} {f : String} {m : Meaning} :
    fieldOk n f m = true ↔ meaning n f = some m ∧ (n, f) ∉ mismatches := by
  simp [fieldOk]

/-- What is printed reads as the argument. -/
theorem render_reads {env : Env} (he : ∀ n, (env.order n).Perm n.type.masks) {c : Call}
    {argv : List (String × Val)} {n k : Nat} {p : Param} {how : How}
    (hf : ∀ f m, fieldOk n f m = true → Sane c m → ∃ v, argv.lookup f = some v ∧ Means c m v)
    (ha : agreeHow n k p how = true) (hs : Sane c (p.kind.at k)) :
    ∃ v, Means c (p.kind.at k) v ∧ Reads c p.reading v (render env argv how) := by
  have num : ∀ f r, fieldOk n f (p.kind.at k) = true → isNum p.kind = true → p.reading = r →
      (∀ i, Reads c r (.int i) (render env [(f, .int i)] how)) →
      (∀ i, argv.lookup f = some (.int i) →
        render env argv how = render env [(f, .int i)] how) →
      ∃ v, Means c (p.kind.at k) v ∧ Reads c p.reading v (render env argv how) := by
    intro f r h1 h2 h3 h4 h5
    obtain ⟨v, hv, hm⟩ := hf f _ h1 hs
    obtain ⟨i, rfl⟩ := means_num h2 hm
    exact ⟨_, hm, by rw [h3, h5 i hv]; exact h4 i⟩
  have look : ∀ f i, argv.lookup f = some (.int i) → intOf argv f = intOf [(f, .int i)] f := by
    intro f i h
    unfold intOf
    rw [h]
    simp
  have one : ∀ f i, intOf [(f, .int i)] f = i := by intro f i; simp [intOf]
  have buf : ∀ f, fieldOk n f (p.kind.at k) = true → isBuf p.kind = true →
      ∃ bs, argv.lookup f = some (.buf bs) ∧ bytesOf env argv f = bs ∧
        Means c (p.kind.at k) (.buf bs) := by
    intro f h1 h2
    obtain ⟨v, hv, hm⟩ := hf f _ h1 hs
    obtain ⟨bs, rfl⟩ := means_buf h2 hm
    exact ⟨bs, hv, by unfold bytesOf; rw [hv], hm⟩
  cases how with
  | num f =>
    simp only [agreeHow, Bool.and_eq_true, decide_eq_true_eq] at ha
    refine num f _ ha.1.1 ha.1.2 ha.2 (fun i => ?_) (fun i h => ?_)
    · simp only [render, Reads, one, itoa_eq]
    · simp only [render, look f i h]
  | text f =>
    simp only [agreeHow, Bool.and_eq_true, decide_eq_true_eq] at ha
    obtain ⟨v, hv, hm⟩ := hf f _ ha.1.1 hs
    refine ⟨v, hm, ?_⟩
    rw [ha.1.2] at hm
    cases v with
    | str s => rw [ha.2]; simp only [render, Reads, strOf, hv]; rfl
    | _ => exact hm.elim
  | dirfd f =>
    simp only [agreeHow, Bool.and_eq_true, decide_eq_true_eq] at ha
    refine num f _ ha.1.1 ha.1.2 ha.2 (fun i => ?_) (fun i h => ?_)
    · simp only [render, Reads, one, dirfdText, itoa_eq]
    · simp only [render, look f i h]
  | mode f =>
    simp only [agreeHow, Bool.and_eq_true, decide_eq_true_eq] at ha
    obtain ⟨v, hv, hm⟩ := hf f _ ha.1.1 hs
    refine ⟨v, hm, ?_⟩
    rw [ha.1.2] at hm
    rw [ha.2]
    cases v with
    | int i =>
      have hi : i = ((c.args k).setWidth 32).toNat := hm
      simp only [render, Reads, intOf, hv]
      obtain ⟨kind, hk⟩ := modeText_permissions (BitVec.ofInt 32 i)
      refine ⟨kind, ?_⟩
      rw [hk, hi]
      congr 2
      simp [BitVec.toNat_ofInt]
    | _ => exact hm.elim
  | flags nm f =>
    simp only [agreeHow, Bool.and_eq_true, decide_eq_true_eq] at ha
    refine num f _ ha.1.1 ha.1.2 ha.2 (fun i => ?_) (fun i h => ?_)
    · simp only [render, Reads, one]
      exact flagText_names he nm i
    · simp only [render, look f i h]
  | request f =>
    simp only [agreeHow, Bool.and_eq_true, decide_eq_true_eq] at ha
    refine num f _ ha.1.1 ha.1.2 ha.2 (fun i => ?_) (fun i h => ?_)
    · simp only [render, Reads, one]
      exact nameOf_named (by decide +kernel) i
    · simp only [render, look f i h]
  | family f =>
    simp only [agreeHow, Bool.and_eq_true, decide_eq_true_eq] at ha
    refine num f _ ha.1.1 ha.1.2 ha.2 (fun i => ?_) (fun i h => ?_)
    · simp only [render, Reads, one]
      exact nameOf_named (by decide +kernel) i
    · simp only [render, look f i h]
  | sockType f =>
    simp only [agreeHow, Bool.and_eq_true, decide_eq_true_eq] at ha
    refine num f _ ha.1.1 ha.1.2 ha.2 (fun i => ?_) (fun i h => ?_)
    · simp only [render, Reads, one]
      exact sockType_reads i
    · simp only [render, look f i h]
  | proto f =>
    simp only [agreeHow, Bool.and_eq_true, decide_eq_true_eq] at ha
    refine num f _ ha.1.1 ha.1.2 ha.2 (fun i => ?_) (fun i h => ?_)
    · simp only [render, Reads, one]
      exact fun _ => nameOf_named (by decide +kernel) i
    · simp only [render, look f i h]
  | level f =>
    simp only [agreeHow, Bool.and_eq_true, decide_eq_true_eq] at ha
    refine num f _ ha.1.1 ha.1.2 ha.2 (fun i => ?_) (fun i h => ?_)
    · simp only [render, Reads, one]
      exact nameOf_named (by decide +kernel) i
    · simp only [render, look f i h]
  | rlimit f =>
    simp only [agreeHow, Bool.and_eq_true, decide_eq_true_eq] at ha
    refine num f _ ha.1.1 ha.1.2 ha.2 (fun i => ?_) (fun i h => ?_)
    · simp only [render, Reads, one]
      exact rlimitName_named i
    · simp only [render, look f i h]
  | option tp lv =>
    simp only [agreeHow, Bool.and_eq_true, decide_eq_true_eq] at ha
    obtain ⟨v, hv, hm⟩ := hf tp _ ha.1.1.1 hs
    obtain ⟨i, rfl⟩ := means_num ha.1.1.2 hm
    obtain ⟨w, hw, hl⟩ := hf lv _ ha.1.2 ⟨by simp [Meaning.ptrs], by simp [Meaning.sizes]⟩
    refine ⟨_, hm, ?_⟩
    rw [ha.2]
    cases w with
    | int j =>
      have hj : j = ((c.args 1).setWidth 32).toInt := hl
      simp only [render, Reads, intOf, hv, hw]
      rw [hj]
      exact option_named i _
    | _ => exact hl.elim
  | sock f =>
    simp only [agreeHow, Bool.and_eq_true, decide_eq_true_eq] at ha
    obtain ⟨bs, -, hb, hm⟩ := buf f ha.1.1 ha.1.2
    refine ⟨_, hm, ?_⟩
    rw [ha.2]
    simp only [render, Reads, hb]
    exact sock_reads bs
  | raw f =>
    simp only [agreeHow, Bool.and_eq_true, decide_eq_true_eq] at ha
    obtain ⟨bs, -, hb, hm⟩ := buf f ha.1.1 ha.1.2
    refine ⟨_, hm, ?_⟩
    rw [ha.2]
    simp only [render, Reads, hb, rawText, join_eq, itoa_eq]
    rfl
  | struct fs ts =>
    cases fs with
    | nil => exact absurd ha (by simp [agreeHow])
    | cons f fs =>
      simp only [agreeHow] at ha
      split at ha
      · next len ms close hk hr =>
        simp only [Bool.and_eq_true, decide_eq_true_eq] at ha
        obtain ⟨bs, -, hb, hm⟩ := buf f ha.1.1.1 (by rw [hk]; rfl)
        refine ⟨_, hm, ?_⟩
        rw [hr, ha.1.1.2]
        simp only [render, Reads, List.flatMap_cons, List.flatMap_nil, hb, List.append_nil]
        exact layText_record ha.1.2 ha.2 bs
      · next len ms close hk hr =>
        simp only [Bool.and_eq_true] at ha
        obtain ⟨bs, -, hb, hm⟩ := buf f ha.1 (by rw [hk]; rfl)
        refine ⟨_, hm, ?_⟩
        rw [hk] at hm
        have hlen : bs.length = len := hm.1
        rw [hr]
        simp only [render, Reads, List.flatMap_cons, hb]
        exact startsWith_text _ (by rw [hlen]; exact ha.2)
      · exact absurd ha (by simp)
  | hex f => exact absurd ha (by simp [agreeHow])
  | words fs => exact absurd ha (by simp [agreeHow])

end Swoll.Lemmas.Print
