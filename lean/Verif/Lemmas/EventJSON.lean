import Verif.Lemmas.Utf8
import Verif.Lemmas.EventArgs
import Verif.Props.Flags
/-
Lemmas about events through JSON.
-/
namespace Swoll.Lemmas.EventJSON
open Swoll.Bytes Swoll.Event Swoll.Flags Swoll.EventJSON Swoll.Spec.EventJSON
open Swoll.Spec.Flags (FitsInt)

/-- The tables are as the initialisers may have built them, and iteration goes through each flag
table. -/
structure EnvOk (env : Env) : Prop where
  errno : ∃ o, o.Perm errnoVals ∧ env.errno = keysOf o
  family : ∃ o, o.Perm sockFamilyMap ∧ env.family = keysOf o
  proto : ∃ o, o.Perm sockProtoMap ∧ env.proto = keysOf o
  level : ∃ o, o.Perm sockLevelMap ∧ env.level = keysOf o
  opt : Props.Flags.KeysBuilt env.opt
  order : ∀ s, (env.order s).Perm s.type.masks

/-! ### Lists of steps -/

theorem allOk_ok {α β : Type} {f : α → Res β} {g : α → β} {l : List α}
    (h : ∀ a ∈ l, f a = .ok (g a)) : allOk f l = .ok (l.map g) := by
  induction l with
  | nil => rfl
  | cons a l ih =>
    simp only [allOk, h a (List.mem_cons_self ..), ih fun x hx => h x (List.mem_cons_of_mem _ hx),
      List.map_cons]

theorem allOk_cases {α β : Type} {f : α → Res β} {l : List α} (h : ∀ a ∈ l, f a ≠ .panic) :
    (allOk f l = .err ∧ ∃ a ∈ l, f a = .err) ∨
    (∃ bs, allOk f l = .ok bs ∧ ∀ a ∈ l, f a ≠ .err) := by
  induction l with
  | nil => exact .inr ⟨[], rfl, by simp⟩
  | cons a l ih =>
    have hp := h a (List.mem_cons_self ..)
    have ih := ih fun x hx => h x (List.mem_cons_of_mem _ hx)
    cases hf : f a with
    | panic => exact absurd hf hp
    | err => exact .inl ⟨by simp only [allOk, hf], a, List.mem_cons_self .., hf⟩
    | ok b =>
      rcases ih with ⟨h1, x, hx, h2⟩ | ⟨bs, h1, h2⟩
      · exact .inl ⟨by simp only [allOk, hf, h1], x, List.mem_cons_of_mem _ hx, h2⟩
      · refine .inr ⟨b :: bs, by simp only [allOk, hf, h1], fun x hx => ?_⟩
        rcases List.mem_cons.1 hx with rfl | hx
        · rw [hf]; exact nofun
        · exact h2 x hx

theorem allOk_mem {α β : Type} {f : α → Res β} {l : List α} {bs : List β}
    (h : allOk f l = .ok bs) : ∀ b ∈ bs, ∃ a ∈ l, f a = .ok b := by
  induction l generalizing bs with
  | nil => injection h with h; subst h; simp
  | cons a l ih =>
    simp only [allOk] at h
    cases hf : f a with
    | panic => rw [hf] at h; exact nomatch h
    | err => rw [hf] at h; exact nomatch h
    | ok b =>
      rw [hf] at h
      cases hl : allOk f l with
      | panic => rw [hl] at h; exact nomatch h
      | err => rw [hl] at h; exact nomatch h
      | ok bs' =>
        rw [hl] at h
        injection h with h; subst h
        intro x hx
        rcases List.mem_cons.1 hx with rfl | hx
        · exact ⟨a, List.mem_cons_self .., hf⟩
        · obtain ⟨y, hy, hy'⟩ := ih hl x hx
          exact ⟨y, List.mem_cons_of_mem _ hy, hy'⟩

theorem allOk_map {α β γ : Type} {f : α → Res β} {l : List α} {bs : List β}
    (p : α → γ) (q : β → γ) (hpq : ∀ a b, f a = .ok b → q b = p a)
    (h : allOk f l = .ok bs) : bs.map q = l.map p := by
  induction l generalizing bs with
  | nil => injection h with h; subst h; rfl
  | cons a l ih =>
    simp only [allOk] at h
    cases hf : f a with
    | panic => rw [hf] at h; exact nomatch h
    | err => rw [hf] at h; exact nomatch h
    | ok b =>
      rw [hf] at h
      cases hl : allOk f l with
      | panic => rw [hl] at h; exact nomatch h
      | err => rw [hl] at h; exact nomatch h
      | ok bs' =>
        rw [hl] at h
        injection h with h; subst h
        rw [List.map_cons, List.map_cons, ih hl, hpq a b hf]

/-! ### The tables agree -/

/-- A field reader produces values the JSON method of that kind takes. -/
def kindOk : Kind → Rd → Bool
  | .num, .c32 _ | .num, .cu32 _ | .num, .c64 _ | .num, .cu64 _ | .num, .zero => true
  | .text, .cstr _ | .text, .empty => true
  | .raw, .bytes .. | .raw, .bufMin .. | .raw, .bufMax .. | .raw, .mem .. | .raw, .memAt .. => true
  | .ptrs, .ptrs .. => true
  | .sock, .sock _ => true
  | .flags _, .c32 _ | .flags _, .cu32 _ | .flags _, .c64 _ => true
  | .family, .c32 _ | .proto, .c32 _ | .level, .c32 _ | .rlimit, .c32 _ | .sockType, .c32 _
  | .optTp, .c32 _ | .optLv, .c32 _ => true
  | _, _ => false

/-- The kind fits what the specification says of the argument. -/
def specOk : Kind → Option Special → Bool
  | .flags .file, some .file | .flags .msg, some .msg | .flags .timer, some .timer
  | .flags .umount, some .umount | .flags .accept, some .accept | .flags .inotify, some .inotify
  | .flags .mount, some .mount | .sock, some .address | .sockType, some .sockType
  | .optTp, some .option | .optLv, some .option => true
  | .num, none | .text, none | .raw, none | .ptrs, none | .family, none | .proto, none
  | .level, none | .rlimit, none => true
  | _, _ => false

/-- The reader of an option part, and that only the two option calls have one. -/
def optOk (nr : Nat) (n : String) : Kind → Bool
  | .optTp => decide (n = "name.tp") && (nr == 54 || nr == 55)
  | .optLv => decide (n = "name.lv") && (nr == 54 || nr == 55)
  | _ => true

/-- Everything a case of the two switches has to satisfy. -/
def rowOk (d : Nat × List (String × Rd)) : Bool :=
  match decodeTypes.lookup d.1, jsonTypes.lookup d.1 with
  | some t, some t' =>
    let ks := (fieldKinds.lookup t).getD []
    decide (t = t') && decide (ks.map (·.1) = d.2.map (·.1)) && decide ((d.2.map (·.1)).Nodup)
      && (d.2.all fun f => match ks.lookup f.1 with
        | some k => kindOk k f.2 && specOk k (specials.lookup (d.1, f.1)) && optOk d.1 f.1 k
        | none => false)
  | _, _ => false

theorem rows_ok : decoders.all rowOk = true := by decide +kernel

theorem mem_of_lookup {α β : Type} [BEq α] [LawfulBEq α] {l : List (α × β)} {a : α} {b : β}
    (h : l.lookup a = some b) : (a, b) ∈ l := by
  obtain ⟨l₁, l₂, heq, -⟩ := List.lookup_eq_some_iff.1 h
  rw [heq]
  simp

theorem lookup_of_mem {α β : Type} [BEq α] [LawfulBEq α] {l : List (α × β)} {a : α} {b : β}
    (hn : (l.map (·.1)).Nodup) (h : (a, b) ∈ l) : l.lookup a = some b := by
  induction l with
  | nil => simp at h
  | cons e l ih =>
    rw [List.map_cons, List.nodup_cons] at hn
    rw [List.lookup_cons]
    rcases List.mem_cons.1 h with rfl | h
    · simp
    · have : a ≠ e.1 := fun heq => hn.1 (heq ▸ List.mem_map.2 ⟨_, h, rfl⟩)
      have hb : (a == e.1) = false := by simpa using this
      rw [hb]
      exact ih hn.2 h

/-! ### One field -/

theorem ofInt_toInt (w : Word) : BitVec.ofInt 64 w.toInt = w := BitVec.ofInt_toInt

theorem fits_c32 (a : List Byte) (s : Nat) : FitsInt (makeC32 a s) := by
  unfold makeC32 FitsInt
  have h1 := BitVec.le_toInt (makeCU32 a s)
  have h2 := BitVec.toInt_lt (x := makeCU32 a s)
  constructor <;> omega

theorem fits_word (w : Word) : FitsInt w.toInt := by
  have h1 := BitVec.le_toInt w
  have h2 := BitVec.toInt_lt (x := w)
  unfold FitsInt
  constructor <;> omega

/-- Two numbers of 64 bits are the same if their bits are. -/
theorem same_bits {i i' : Int} (h : FitsInt i) (h' : FitsInt i') (hb : BitVec.ofInt 64 i' = BitVec.ofInt 64 i) : i' = i := by
  have key : ∀ j : Int, FitsInt j → (BitVec.ofInt 64 j).toInt = j := by
    intro j hj
    unfold FitsInt at hj
    rw [BitVec.toInt_ofInt]
    exact Int.bmod_eq_of_le (by omega) (by omega)
  rw [← key i h, ← key i' h', hb]

/-- The value of a field after writing and reading. -/
def after (env : Env) (argv : List (String × Val)) (k : Kind) (v : Val) : Res Val :=
  match marshal env argv k v with
  | .ok j => unmarshal env k j
  | .err => .err
  | .panic => .panic

/-- Bytes outside the event. -/
def isOutside : Val → Bool
  | .outside .. => true
  | _ => false

/-- The pair of option numbers of a structure. -/
def optOf (argv : List (String × Val)) : SockoptName :=
  { tp := intAt argv "name.tp", lv := intAt argv "name.lv" }

theorem marshal_ok (env : Env) (argv : List (String × Val)) {k : Kind} {rd : Rd} (a : List Byte)
    (h : kindOk k rd = true) (ho : isOutside (evalRd a rd) = false) :
    ∃ j, marshal env argv k (evalRd a rd) = .ok j := by
  have hb : ∀ off len, isOutside (makeCBytes a off len) = false →
      ∃ bs, makeCBytes a off len = .buf bs := by
    intro off len h
    unfold makeCBytes at h ⊢
    split
    · exact ⟨_, rfl⟩
    · next hn => rw [if_neg hn] at h; exact nomatch h
  cases k <;> cases rd <;> first
    | exact (Bool.false_ne_true h).elim
    | exact ⟨_, rfl⟩
    | (obtain ⟨bs, hbs⟩ := hb _ _ ho
       simp only [evalRd, hbs, marshal]
       exact ⟨_, rfl⟩)

/-- Reading a field back fails only for the parts of an option name that has no number. -/
theorem after_not_panic (env : Env) (k : Kind) (j : JVal) : unmarshal env k j ≠ .panic := by
  have hr : ∀ o, resInt o ≠ .panic := by intro o; cases o <;> exact nofun
  cases k <;> cases j <;> first
    | exact hr _
    | (intro h; cases h; done)

theorem flags_plain {env : Env} (he : EnvOk env) {s : FlagSort} {d : Spec.Flags.Doc}
    (h : (s.type, d) ∈ Props.Flags.jsonTypes) (argv : List (String × Val)) (i : Int) :
    ∃ i', after env argv (.flags s) (.int i) = .ok (.int i') ∧ FitsInt i' ∧ SameFlags d i i' := by
  refine ⟨_, rfl, fits_word _, ?_⟩
  have := Props.Flags.c40_json_roundtrip_partial h (he.order s) (BitVec.ofInt 64 i)
  unfold SameFlags
  rw [ofInt_toInt]
  exact this

theorem flags_kept {env : Env} (he : EnvOk env) (argv : List (String × Val)) {s : FlagSort} {sp : Option Special} {i : Int}
    (hfit : FitsInt i) (hs : specOk (.flags s) sp = true) {v' : Val}
    (h : after env argv (.flags s) (.int i) = .ok v') : Kept sp (.int i) v' := by
  have hplain : ∀ {s : FlagSort} {d : Spec.Flags.Doc} (i : Int), FitsInt i →
      (s.type, d) ∈ Props.Flags.jsonTypes → after env argv (.flags s) (.int i) = .ok v' →
      Reads i v' fun i' => SameFlags d i i' := by
    intro s d i hi hm h
    obtain ⟨i', h1, hf, h2⟩ := flags_plain he hm argv i
    rw [h1] at h
    injection h with h
    exact ⟨i', h.symm, same_bits hi hf, h2⟩
  have hfile : ∀ i : Int, FitsInt i → after env argv (.flags .file) (.int i) = .ok v' →
      Kept (some .file) (.int i) v' := by
    intro i hi h
    injection h with h
    refine ⟨_, h.symm, same_bits hi (fits_word _), ?_⟩
    unfold SameFlags
    dsimp only
    rw [ofInt_toInt]
    exact Props.Flags.c40_file_roundtrip_iff (he.order .file) _ _
  have hmount : ∀ i : Int, FitsInt i → after env argv (.flags .mount) (.int i) = .ok v' →
      Kept (some .mount) (.int i) v' := by
    intro i hi h
    injection h with h
    refine ⟨_, h.symm, same_bits hi (fits_word _), ?_⟩
    unfold SameFlags
    dsimp only
    rw [ofInt_toInt]
    exact Props.Flags.c40_mount_roundtrip_iff (he.order .mount) _
  cases sp with
  | none => cases s <;> exact (Bool.false_ne_true hs).elim
  | some sp =>
    cases s with
    | file =>
      cases sp <;> first
        | exact (Bool.false_ne_true hs).elim
        | exact hfile _ hfit h
    | mount =>
      cases sp <;> first
        | exact (Bool.false_ne_true hs).elim
        | exact hmount _ hfit h
    | msg =>
      cases sp <;> first
        | exact (Bool.false_ne_true hs).elim
        | exact hplain (d := Spec.Flags.msgFlags) i hfit (by simp [Props.Flags.jsonTypes, FlagSort.type]) h
    | timer =>
      cases sp <;> first
        | exact (Bool.false_ne_true hs).elim
        | exact hplain (d := Spec.Flags.timerFlags) i hfit (by simp [Props.Flags.jsonTypes, FlagSort.type]) h
    | umount =>
      cases sp <;> first
        | exact (Bool.false_ne_true hs).elim
        | exact hplain (d := Spec.Flags.umountFlags) i hfit (by simp [Props.Flags.jsonTypes, FlagSort.type]) h
    | accept =>
      cases sp <;> first
        | exact (Bool.false_ne_true hs).elim
        | exact hplain (d := Spec.Flags.acceptFlags) i hfit (by simp [Props.Flags.jsonTypes, FlagSort.type]) h
    | inotify =>
      cases sp <;> first
        | exact (Bool.false_ne_true hs).elim
        | exact hplain (d := Spec.Flags.inotifyMask) i hfit (by simp [Props.Flags.jsonTypes, FlagSort.type]) h

theorem after_kept {env : Env} (he : EnvOk env) (argv : List (String × Val)) {k : Kind} {rd : Rd}
    {sp : Option Special} (a : List Byte) (hk : kindOk k rd = true) (hs : specOk k sp = true)
    (ho : isOutside (evalRd a rd) = false) {v' : Val}
    (h : after env argv k (evalRd a rd) = .ok v') : Kept sp (evalRd a rd) v' := by
  have hb : ∀ off len, isOutside (makeCBytes a off len) = false →
      ∃ bs, makeCBytes a off len = .buf bs := by
    intro off len h
    unfold makeCBytes at h ⊢
    split
    · exact ⟨_, rfl⟩
    · next hn => rw [if_neg hn] at h; exact nomatch h
  have hres : ∀ o : Option Int, resInt o = .ok v' → ∃ i', v' = .int i' := by
    intro o h
    cases o with
    | none => exact nomatch h
    | some i => injection h with h; exact ⟨i, h.symm⟩
  have hsock : ∀ i : Int, FitsInt i → after env argv .sockType (.int i) = .ok v' →
      Kept (some .sockType) (.int i) v' := by
    intro i hi h
    injection h with h
    refine ⟨_, h.symm, same_bits hi (fits_word _), ?_⟩
    dsimp only
    rw [ofInt_toInt]
    have h1 := Props.Flags.c69_socktype_flags (BitVec.ofInt 64 i)
    exact ⟨h1.1, h1.2, Props.Flags.c69_socktype_iff _⟩
  have htext : ∀ bs : List Byte, after env argv .text (.str bs) = .ok v' →
      Kept none (.str bs) v' := by
    intro bs h
    injection h with h
    exact ⟨_, h.symm, utf8_jsonText bs, jsonText_eq_iff bs⟩
  have hconst : ∀ {kk : Kind} (i : Int), FitsInt i →
      (kk = .family ∨ kk = .proto ∨ kk = .level ∨ kk = .rlimit) →
      after env argv kk (.int i) = .ok v' → v' = .int i := by
    intro kk i hi hkk h
    have key : ∀ o : Option Int, o = some i → resInt o = .ok v' → v' = .int i := by
      rintro o rfl h
      injection h with h
      exact h.symm
    rcases hkk with rfl | rfl | rfl | rfl
    · obtain ⟨o, ho, heq⟩ := he.family
      refine key (valueOf env.family (nameOf sockFamilyMap i)) ?_ h
      rw [heq]
      exact Props.Flags.c69_constants_roundtrip (by simp [Props.Flags.constTables]) ho hi
    · obtain ⟨o, ho, heq⟩ := he.proto
      refine key (valueOf env.proto (nameOf sockProtoMap i)) ?_ h
      rw [heq]
      exact Props.Flags.c69_constants_roundtrip (by simp [Props.Flags.constTables]) ho hi
    · obtain ⟨o, ho, heq⟩ := he.level
      refine key (valueOf env.level (nameOf sockLevelMap i)) ?_ h
      rw [heq]
      exact Props.Flags.c69_constants_roundtrip (by simp [Props.Flags.constTables]) ho hi
    · exact key _ (Props.Flags.c69_rlimit_roundtrip hi) h
  cases k with
  | num =>
    cases sp with
    | some _ => exact (Bool.false_ne_true hs).elim
    | none => cases rd <;> first
      | exact (Bool.false_ne_true hk).elim
      | (injection h with h; exact h.symm)
  | text =>
    cases sp with
    | some _ => exact (Bool.false_ne_true hs).elim
    | none => cases rd <;> first
      | exact (Bool.false_ne_true hk).elim
      | exact htext _ h
  | raw =>
    cases sp with
    | some _ => exact (Bool.false_ne_true hs).elim
    | none => cases rd <;> first
      | exact (Bool.false_ne_true hk).elim
      | (obtain ⟨bs, hbs⟩ := hb _ _ ho
         simp only [evalRd, hbs] at h ⊢
         injection h with h
         exact h.symm)
  | ptrs =>
    cases sp with
    | some _ => exact (Bool.false_ne_true hs).elim
    | none => cases rd <;> first
      | exact (Bool.false_ne_true hk).elim
      | (injection h with h; exact h.symm)
  | sock =>
    cases sp with
    | none => exact (Bool.false_ne_true hs).elim
    | some sp => cases sp <;> first
      | exact (Bool.false_ne_true hs).elim
      | (cases rd <;> first
          | exact (Bool.false_ne_true hk).elim
          | (obtain ⟨bs, hbs⟩ := hb _ _ ho
             simp only [evalRd, hbs] at h ⊢
             injection h with h
             exact h.symm))
  | flags s =>
    have hint : ∃ i, evalRd a rd = .int i ∧ FitsInt i := by
      cases rd with
      | c32 k => exact ⟨_, rfl, fits_c32 _ _⟩
      | c64 k => exact ⟨_, rfl, fits_word _⟩
      | cu32 k =>
        refine ⟨_, rfl, ?_⟩
        unfold FitsInt
        have := (makeCU32 a (k * argLen)).isLt
        omega
      | _ => exact (Bool.false_ne_true hk).elim
    obtain ⟨i, hi, hfit⟩ := hint
    rw [hi] at h ⊢
    exact flags_kept he argv hfit hs h
  | family =>
    cases sp with
    | some _ => exact (Bool.false_ne_true hs).elim
    | none => cases rd <;> first
      | exact (Bool.false_ne_true hk).elim
      | exact hconst _ (fits_c32 _ _) (.inl rfl) h
  | proto =>
    cases sp with
    | some _ => exact (Bool.false_ne_true hs).elim
    | none => cases rd <;> first
      | exact (Bool.false_ne_true hk).elim
      | exact hconst _ (fits_c32 _ _) (.inr (.inl rfl)) h
  | level =>
    cases sp with
    | some _ => exact (Bool.false_ne_true hs).elim
    | none => cases rd <;> first
      | exact (Bool.false_ne_true hk).elim
      | exact hconst _ (fits_c32 _ _) (.inr (.inr (.inl rfl))) h
  | rlimit =>
    cases sp with
    | some _ => exact (Bool.false_ne_true hs).elim
    | none => cases rd <;> first
      | exact (Bool.false_ne_true hk).elim
      | exact hconst _ (fits_c32 _ _) (.inr (.inr (.inr rfl))) h
  | sockType =>
    cases sp with
    | none => exact (Bool.false_ne_true hs).elim
    | some sp => cases sp <;> first
      | exact (Bool.false_ne_true hs).elim
      | (cases rd <;> first
          | exact (Bool.false_ne_true hk).elim
          | exact hsock _ (fits_c32 _ _) h)
  | optTp =>
    cases sp with
    | none => exact (Bool.false_ne_true hs).elim
    | some sp => cases sp <;> first
      | exact (Bool.false_ne_true hs).elim
      | (cases rd <;> first
          | exact (Bool.false_ne_true hk).elim
          | exact hres _ h)
  | optLv =>
    cases sp with
    | none => exact (Bool.false_ne_true hs).elim
    | some sp => cases sp <;> first
      | exact (Bool.false_ne_true hs).elim
      | (cases rd <;> first
          | exact (Bool.false_ne_true hk).elim
          | exact hres _ h)

/-- A flag set with names for all its bits is read back as the same bits. -/
theorem same_named {d : Spec.Flags.Doc} {i i' : Int} (h : SameFlags d i i') (hn : Spec.EventJSON.OnlyNamed d i) :
    BitVec.ofInt 64 i' = BitVec.ofInt 64 i := by
  refine BitVec.eq_of_getLsbD_eq fun b hb => ?_
  have h := h b hb
  have hn := hn b hb
  cases hc : (BitVec.ofInt 64 i).getLsbD b with
  | true => exact h.2 ⟨hc, hn hc⟩
  | false =>
    cases hd : (BitVec.ofInt 64 i').getLsbD b with
    | false => rfl
    | true => rw [hc] at h; exact absurd (h.1 hd).1 (by decide)

/-- An argument that is whole, and is no part of an option, is read back, an address cut. -/
theorem kept_whole {sp : Option Special} {v v' : Val} (h : Kept sp v v') (hw : Spec.EventJSON.Whole sp v)
    (ho : sp ≠ some .option) : v' = Spec.EventJSON.cutAddress sp v := by
  have hflags : ∀ {d : Spec.Flags.Doc} {i : Int}, Reads i v' (fun i' => SameFlags d i i') →
      Spec.EventJSON.OnlyNamed d i → v' = .int i := by
    rintro d i ⟨i', rfl, h1, h2⟩ hn
    rw [h1 (same_named h2 hn)]
  cases sp with
  | none =>
    cases v with
    | str bs =>
      obtain ⟨bs', rfl, -, hiff⟩ := h
      rw [hiff.2 hw]
      rfl
    | int i => exact h
    | buf bs => exact h
    | outside o l => exact h
    | ptrs i n => exact h
  | some sp =>
    cases sp <;> cases v <;> first
      | exact h.elim
      | exact absurd rfl ho
      | exact hflags h hw
      | skip
    · obtain ⟨i', rfl, h1, h2⟩ := h
      rw [h1 (same_named (h2.2 hw.2) hw.1)]
      rfl
    · obtain ⟨i', rfl, h1, h2⟩ := h
      rw [h1 (same_named (h2.2 hw.2) hw.1)]
      rfl
    · exact h
    · obtain ⟨i', rfl, h1, -, -, h2⟩ := h
      rw [h1 ((h2.2 hw.2).trans hw.1)]
      rfl

/-! ### Option names -/

theorem sockopt_none_iff {k : OptKeys} (hk : Props.Flags.KeysBuilt k) {s : SockoptName}
    (hs : FitsInt s.tp) :
    sockoptUnmarshal k s.parse = none ↔ s.lv = 41 ∧ s.tp ∈ ip6OpMasks.map (·.1) := by
  constructor
  · intro h
    have hnot := mt (Props.Flags.c69_sockopt_iff hk hs).2 (by rw [h]; exact nofun)
    have hnum : sockoptUnmarshal k (String.ofList (itoa s.tp)) ≠ none := by
      unfold sockoptUnmarshal
      split
      · exact nofun
      · split
        · exact nofun
        · split
          · exact nofun
          · rw [String.toList_ofList, Lemmas.Flags.atoi_itoa hs]
            exact nofun
    unfold SockoptName.parse at h
    have hnm : ∀ t : GoMap Int String, sockoptUnmarshal k (nameOf t s.tp) = none →
        s.tp ∈ t.map (·.1) := by
      intro t h
      refine Classical.byContradiction fun hc => ?_
      rw [Lemmas.Flags.nameOf_not_mem fun nm h => hc (List.mem_map.2 ⟨_, h, rfl⟩)] at h
      exact hnum h
    split at h
    · next h1 => exact absurd (.inr (.inl ⟨h1, hnm _ h⟩)) hnot
    · split at h
      · next h6 => exact absurd (.inr (.inr ⟨h6, hnm _ h⟩)) hnot
      · split at h
        · next h0 => exact absurd (.inl h0) hnot
        · split at h
          · next h41 => exact ⟨h41, hnm _ h⟩
          · exact absurd h hnum
  · obtain ⟨tp, lv⟩ := s
    rintro ⟨rfl, h⟩
    exact Props.Flags.c69_sockopt_ipv6_violated hk h

/-! ### Argument lists -/

/-- What the decoder, the two type switches and the structure types say of a system call. -/
theorem row {nr : Nat} {fields : List (String × Rd)} (h : decoders.lookup nr = some fields) :
    ∃ t ks, decodeTypes.lookup nr = some t ∧ jsonTypes.lookup nr = some t ∧
      (fieldKinds.lookup t).getD [] = ks ∧ ks.map (·.1) = fields.map (·.1) ∧
      (fields.map (·.1)).Nodup ∧
      ∀ f ∈ fields, ∃ k, ks.lookup f.1 = some k ∧ kindOk k f.2 = true ∧
        specOk k (specials.lookup (nr, f.1)) = true ∧ optOk nr f.1 k = true := by
  have hr := List.all_eq_true.1 rows_ok _ (mem_of_lookup h)
  unfold rowOk at hr
  split at hr
  · next t t' h1 h2 =>
    simp only [Bool.and_eq_true, decide_eq_true_eq, List.all_eq_true] at hr
    obtain ⟨⟨⟨ht, hn⟩, hd⟩, ha⟩ := hr
    subst ht
    refine ⟨t, _, h1, h2, rfl, hn, hd, fun f hf => ?_⟩
    have := ha f hf
    split at this
    · next k hk =>
      simp only [Bool.and_eq_true] at this
      exact ⟨k, hk, this.1.1, this.1.2, this.2⟩
    · exact nomatch this
  · exact nomatch hr

theorem key_mem {α β γ : Type} {l : List (α × β)} {m : List (α × γ)}
    (h : l.map (·.1) = m.map (·.1)) {a : α} {b : β} (hm : (a, b) ∈ l) : ∃ c, (a, c) ∈ m := by
  have : a ∈ m.map (·.1) := h ▸ List.mem_map.2 ⟨_, hm, rfl⟩
  obtain ⟨e, he, rfl⟩ := List.mem_map.1 this
  exact ⟨e.2, he⟩

/-- The written arguments, when none lies outside the event. -/
theorem writeArgs_ok (env : Env) {nr : Nat} {fields : List (String × Rd)}
    {t : String} {ks : List (String × Kind)} (hks : (fieldKinds.lookup t).getD [] = ks)
    (hf : ∀ f ∈ fields, ∃ k, ks.lookup f.1 = some k ∧ kindOk k f.2 = true ∧
        specOk k (specials.lookup (nr, f.1)) = true ∧ optOk nr f.1 k = true)
    (a : List Byte) (ho : ∀ f ∈ fields, isOutside (evalRd a f.2) = false) :
    ∃ js, writeArgs env t (fields.map fun f => (f.1, evalRd a f.2)) = .ok js ∧
      js.map (·.1) = fields.map (·.1) ∧
      ∀ f j, f ∈ fields → (f.1, j) ∈ js → (fields.map (·.1)).Nodup → ∃ k, ks.lookup f.1 = some k ∧
        marshal env (fields.map fun f => (f.1, evalRd a f.2)) k (evalRd a f.2) = .ok j := by
  generalize hargv : (fields.map fun f => (f.1, evalRd a f.2)) = argv
  have hstep : ∀ f ∈ fields, ∃ k j, ks.lookup f.1 = some k ∧
      marshal env argv k (evalRd a f.2) = .ok j := by
    intro f hm
    obtain ⟨k, hk, hko, -, -⟩ := hf f hm
    obtain ⟨j, hj⟩ := marshal_ok env argv a hko (ho f hm)
    exact ⟨k, j, hk, hj⟩
  unfold writeArgs
  rw [hks]
  have hbad : ∀ x ∈ argv, writeField env ks argv x ≠ .panic ∧ writeField env ks argv x ≠ .err := by
    intro x hx
    rw [← hargv] at hx
    obtain ⟨f, hm, rfl⟩ := List.mem_map.1 hx
    obtain ⟨k, j, hk, hj⟩ := hstep f hm
    unfold writeField
    dsimp only
    rw [hk]
    dsimp only
    rw [hj]
    exact ⟨nofun, nofun⟩
  rcases allOk_cases fun x hx => (hbad x hx).1 with ⟨-, x, hx, he⟩ | ⟨js, hjs, -⟩
  · exact absurd he (hbad x hx).2
  · refine ⟨js, hjs, ?_, ?_⟩
    · have := allOk_map (·.1) (·.1) ?_ hjs
      · rw [this, ← hargv, List.map_map]; rfl
      · intro x b hb
        unfold writeField at hb
        split at hb
        · split at hb
          · injection hb with hb; subst hb; rfl
          · exact nomatch hb
          · exact nomatch hb
        · exact nomatch hb
    · intro f j hm hj hnd
      obtain ⟨x, hx, hxb⟩ := allOk_mem hjs _ hj
      rw [← hargv] at hx
      obtain ⟨g, hg, rfl⟩ := List.mem_map.1 hx
      obtain ⟨k, j', hk, hj'⟩ := hstep g hg
      unfold writeField at hxb
      dsimp only at hxb
      rw [hk] at hxb
      dsimp only at hxb
      rw [hj'] at hxb
      injection hxb with hxb
      injection hxb with h1 h2
      have hfg : f = g := by
        have e1 := lookup_of_mem hnd (show (f.1, f.2) ∈ fields from hm)
        have e2 := lookup_of_mem hnd (show (g.1, g.2) ∈ fields from hg)
        rw [h1, e1] at e2
        injection e2 with e2
        exact Prod.ext h1.symm e2
      subst hfg
      subst h2
      exact ⟨k, hk, hj'⟩

/-- What reading the written arguments gives. -/
theorem readArgs_cases {env : Env} {t : String} {ks : List (String × Kind)}
    (hks : (fieldKinds.lookup t).getD [] = ks) {js : List (String × JVal)}
    (hn : js.map (·.1) = ks.map (·.1)) (hd : (ks.map (·.1)).Nodup) :
    readArgs env t js ≠ .panic ∧
    (readArgs env t js = .err ↔
      ∃ n k j, ks.lookup n = some k ∧ (n, j) ∈ js ∧ unmarshal env k j = .err) ∧
    (∀ argv, readArgs env t js = .ok argv → argv.map (·.1) = ks.map (·.1) ∧
      ∀ n v, (n, v) ∈ argv → ∃ k j, ks.lookup n = some k ∧ (n, j) ∈ js ∧
        unmarshal env k j = .ok v) := by
  have hdj : (js.map (·.1)).Nodup := hn ▸ hd
  have hstep : ∀ f ∈ ks, ∃ j, (f.1, j) ∈ js ∧ js.lookup f.1 = some j := by
    intro f hf
    obtain ⟨j, hj⟩ := key_mem hn.symm (show (f.1, f.2) ∈ ks from hf)
    exact ⟨j, hj, lookup_of_mem hdj hj⟩
  unfold readArgs
  rw [hks]
  have hnp : ∀ f ∈ ks, readField env js f ≠ .panic := by
    intro f hf
    obtain ⟨j, -, hl⟩ := hstep f hf
    unfold readField
    rw [hl]
    dsimp only
    cases hu : unmarshal env f.2 j with
    | panic => exact absurd hu (after_not_panic env f.2 j)
    | err => exact nofun
    | ok w => exact nofun
  have herr : ∀ f ∈ ks, readField env js f = .err ↔
      ∃ j, (f.1, j) ∈ js ∧ unmarshal env f.2 j = .err := by
    intro f hf
    obtain ⟨j, hj, hl⟩ := hstep f hf
    unfold readField
    rw [hl]
    dsimp only
    constructor
    · intro h
      refine ⟨j, hj, ?_⟩
      split at h
      · exact nomatch h
      · assumption
      · exact nomatch h
    · rintro ⟨j', hj', hu⟩
      have := lookup_of_mem hdj hj'
      rw [hl] at this
      injection this with this
      subst this
      rw [hu]
  rcases allOk_cases hnp with ⟨h, f, hf, he⟩ | ⟨bs, h, hne⟩
  · refine ⟨by rw [h]; exact nofun, iff_of_true h ?_, fun argv ha => by rw [h] at ha; exact nomatch ha⟩
    obtain ⟨j, hj, hu⟩ := (herr f hf).1 he
    exact ⟨f.1, f.2, j, lookup_of_mem hd hf, hj, hu⟩
  · refine ⟨by rw [h]; exact nofun, iff_of_false (by rw [h]; exact nofun) ?_, ?_⟩
    · rintro ⟨n, k, j, hl, hj, hu⟩
      have hm := mem_of_lookup hl
      exact hne _ hm ((herr _ hm).2 ⟨j, hj, hu⟩)
    · intro argv ha
      rw [h] at ha
      injection ha with ha
      subst ha
      constructor
      · refine allOk_map (·.1) (·.1) ?_ h
        intro f b hb
        unfold readField at hb
        split at hb
        · injection hb with hb; subst hb; rfl
        · split at hb
          · injection hb with hb; subst hb; rfl
          · exact nomatch hb
          · exact nomatch hb
      · intro n v hv
        obtain ⟨f, hf, hb⟩ := allOk_mem h _ hv
        obtain ⟨j, hj, hl⟩ := hstep f hf
        unfold readField at hb
        rw [hl] at hb
        dsimp only at hb
        split at hb
        · next w hw =>
          injection hb with hb
          injection hb with h1 h2
          subst h1 h2
          exact ⟨f.2, j, lookup_of_mem hd hf, hj, hw⟩
        · exact nomatch hb
        · exact nomatch hb

/-- Reading a written field back fails only for an option name that cannot be read. -/
theorem after_err {env : Env} (he : EnvOk env) {nr : Nat} {argv : List (String × Val)} {n : String}
    {k : Kind} {rd : Rd} (a : List Byte) (hk : kindOk k rd = true) (ho : optOk nr n k = true)
    {j : JVal} (hm : marshal env argv k (evalRd a rd) = .ok j) :
    unmarshal env k j = .err ↔ (n = "name.tp" ∨ n = "name.lv") ∧ (k = .optTp ∨ k = .optLv) ∧
      (nr = 54 ∨ nr = 55) ∧ sockoptUnmarshal env.opt (optOf argv).parse = none := by
  have hnum : ∀ {kk : Kind}, (kk = .family ∨ kk = .proto ∨ kk = .level ∨ kk = .rlimit) →
      ∀ i, FitsInt i → ∀ j, marshal env argv kk (.int i) = .ok j → unmarshal env kk j ≠ .err := by
    intro kk hkk i hi j hm
    have key : ∀ o : Option Int, o = some i → resInt o ≠ .err := by rintro o rfl; exact nofun
    rcases hkk with rfl | rfl | rfl | rfl
    · obtain ⟨o, ho, heq⟩ := he.family
      injection hm with hm; subst hm
      refine key (valueOf env.family _) ?_
      rw [heq]
      exact Props.Flags.c69_constants_roundtrip (by simp [Props.Flags.constTables]) ho hi
    · obtain ⟨o, ho, heq⟩ := he.proto
      injection hm with hm; subst hm
      refine key (valueOf env.proto _) ?_
      rw [heq]
      exact Props.Flags.c69_constants_roundtrip (by simp [Props.Flags.constTables]) ho hi
    · obtain ⟨o, ho, heq⟩ := he.level
      injection hm with hm; subst hm
      refine key (valueOf env.level _) ?_
      rw [heq]
      exact Props.Flags.c69_constants_roundtrip (by simp [Props.Flags.constTables]) ho hi
    · injection hm with hm; subst hm
      exact key _ (Props.Flags.c69_rlimit_roundtrip hi)
  have hfin : k ≠ .optTp → k ≠ .optLv → unmarshal env k j ≠ .err →
      (unmarshal env k j = .err ↔ (n = "name.tp" ∨ n = "name.lv") ∧ (k = .optTp ∨ k = .optLv) ∧
      (nr = 54 ∨ nr = 55) ∧ sockoptUnmarshal env.opt (optOf argv).parse = none) := by
    intro h1 h2 h3
    refine iff_of_false h3 ?_
    rintro ⟨-, h | h, -⟩
    · exact h1 h
    · exact h2 h
  have hopt : ∀ (g : SockoptName → Int), resInt ((sockoptUnmarshal env.opt (optOf argv).parse).map g)
      = .err ↔ sockoptUnmarshal env.opt (optOf argv).parse = none := by
    intro g
    cases sockoptUnmarshal env.opt (optOf argv).parse with
    | none => exact ⟨fun _ => rfl, fun _ => rfl⟩
    | some s => exact ⟨nofun, nofun⟩
  have hint : ∀ kk, (kk = .family ∨ kk = .proto ∨ kk = .level ∨ kk = .rlimit ∨ kk = .optTp ∨
      kk = .optLv) → kindOk kk rd = true → ∃ i, evalRd a rd = .int i ∧ FitsInt i := by
    intro kk hkk hko
    rcases hkk with rfl | rfl | rfl | rfl | rfl | rfl <;> cases rd <;> first
      | exact (Bool.false_ne_true hko).elim
      | exact ⟨_, rfl, fits_c32 _ _⟩
  have hval : ∀ v : Val, evalRd a rd = v → (k = .num ∨ k = .text ∨ k = .raw ∨ k = .ptrs ∨
      k = .sock ∨ k = .sockType ∨ ∃ s, k = .flags s) → unmarshal env k j ≠ .err := by
    intro v hv hkk
    rw [hv] at hm
    rcases hkk with rfl | rfl | rfl | rfl | rfl | rfl | ⟨s, rfl⟩ <;> cases v <;> first
      | (injection hm with hm; subst hm; intro h; cases h; done)
      | (cases hm; done)
  cases k with
  | num => exact hfin nofun nofun (hval _ rfl (by simp))
  | text => exact hfin nofun nofun (hval _ rfl (by simp))
  | raw => exact hfin nofun nofun (hval _ rfl (by simp))
  | ptrs => exact hfin nofun nofun (hval _ rfl (by simp))
  | sock => exact hfin nofun nofun (hval _ rfl (by simp))
  | flags s => exact hfin nofun nofun (hval _ rfl (by simp))
  | sockType => exact hfin nofun nofun (hval _ rfl (by simp))
  | family =>
    obtain ⟨i, hi, hf⟩ := hint _ (by simp) hk
    rw [hi] at hm
    exact hfin nofun nofun (hnum (by simp) i hf j hm)
  | proto =>
    obtain ⟨i, hi, hf⟩ := hint _ (by simp) hk
    rw [hi] at hm
    exact hfin nofun nofun (hnum (by simp) i hf j hm)
  | level =>
    obtain ⟨i, hi, hf⟩ := hint _ (by simp) hk
    rw [hi] at hm
    exact hfin nofun nofun (hnum (by simp) i hf j hm)
  | rlimit =>
    obtain ⟨i, hi, hf⟩ := hint _ (by simp) hk
    rw [hi] at hm
    exact hfin nofun nofun (hnum (by simp) i hf j hm)
  | optTp =>
    obtain ⟨i, hi, -⟩ := hint _ (by simp) hk
    rw [hi] at hm
    injection hm with hm; subst hm
    simp only [optOk, Bool.and_eq_true, decide_eq_true_eq, Bool.or_eq_true, beq_iff_eq] at ho
    refine (hopt (·.tp)).trans ⟨fun h => ⟨.inl ho.1, .inl rfl, ho.2, h⟩, fun h => h.2.2.2⟩
  | optLv =>
    obtain ⟨i, hi, -⟩ := hint _ (by simp) hk
    rw [hi] at hm
    injection hm with hm; subst hm
    simp only [optOk, Bool.and_eq_true, decide_eq_true_eq, Bool.or_eq_true, beq_iff_eq] at ho
    refine (hopt (·.lv)).trans ⟨fun h => ⟨.inr ho.1, .inr rfl, ho.2, h⟩, fun h => h.2.2.2⟩

/-- The two option calls decode a level and an option number. -/
theorem opt_fields {nr : Nat} (h : nr = 54 ∨ nr = 55) {fields : List (String × Rd)}
    (hf : decoders.lookup nr = some fields) :
    ∃ s, fields.lookup "name.tp" = some (.c32 s) ∧ ∃ s', fields.lookup "name.lv" = some (.c32 s') := by
  have key : ∀ n ∈ [54, 55], ∃ fs ∈ decoders.lookup n, (∃ s ∈ [0, 1, 2, 3, 4], fs.lookup "name.tp" =
      some (.c32 s)) ∧ ∃ s ∈ [0, 1, 2, 3, 4], fs.lookup "name.lv" = some (.c32 s) := by
    decide +kernel
  obtain ⟨fs, hfs, ⟨s, -, h1⟩, s', -, h2⟩ := key nr (by simpa using h)
  have : fs = fields := by
    have : decoders.lookup nr = some fs := hfs
    rw [hf] at this
    injection this with this
    exact this.symm
  subst this
  exact ⟨s, h1, s', h2⟩

end Swoll.Lemmas.EventJSON
