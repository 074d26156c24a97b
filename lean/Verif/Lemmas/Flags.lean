import Verif.Model.Flags
import Verif.Spec.Flags
import Verif.Util.ListX
/- Helper lemmas about flags, decimal numbers, name tables and socket addresses. -/
namespace Swoll.Lemmas.Flags
open Swoll.Flags Swoll.Bytes
open Swoll.Spec.Flags (Doc OnlyBits IsSet Describes SameNamedBits)

/-! ### Words and bits -/

theorem ne_zero_iff {w : Word} : w ≠ 0 ↔ ∃ i, i < 64 ∧ w.getLsbD i = true := by
  constructor
  · intro h
    refine Classical.byContradiction fun hn => h ?_
    refine BitVec.eq_of_getLsbD_eq fun i hi => ?_
    have : ¬ w.getLsbD i = true := fun hw => hn ⟨i, hi, hw⟩
    simp [this]
  · rintro ⟨i, _, h⟩ rfl
    simp at h

/-- The word with the listed bits. -/
def wordOf : List Nat → Word
  | [] => 0
  | b :: bs => BitVec.twoPow 64 b ||| wordOf bs

theorem getLsbD_wordOf (bs : List Nat) (i : Nat) (hi : i < 64) :
    (wordOf bs).getLsbD i = true ↔ i ∈ bs := by
  induction bs with
  | nil => simp [wordOf]
  | cons b bs ih =>
    simp only [wordOf, BitVec.getLsbD_or, Bool.or_eq_true, ih, List.mem_cons, BitVec.getLsbD_twoPow]
    constructor
    · rintro (h | h)
      · left; simp at h; omega
      · exact .inr h
    · rintro (h | h)
      · left; subst h; simp [hi]
      · exact .inr h

theorem onlyBits_iff (f : Word) (bs : List Nat) : OnlyBits f bs ↔ f = wordOf bs := by
  constructor
  · intro h
    refine BitVec.eq_of_getLsbD_eq fun i hi => ?_
    rw [Bool.eq_iff_iff, h i hi, getLsbD_wordOf bs i hi]
  · rintro rfl i hi
    exact getLsbD_wordOf bs i hi

/-! ### `Parse` -/

/-- `e` is visited and one of its bits is set. -/
theorem mem_filter_names {order : List (Word × String)} {f : Word} {n : String} :
    n ∈ (order.filter fun e => e.1 &&& f ≠ 0).map (·.2) ↔
      ∃ e ∈ order, e.2 = n ∧ e.1 &&& f ≠ 0 := by
  simp only [List.mem_map, List.mem_filter, decide_eq_true_eq]
  constructor
  · rintro ⟨e, ⟨h1, h2⟩, h3⟩; exact ⟨e, h1, h3, h2⟩
  · rintro ⟨e, h1, h3, h2⟩; exact ⟨e, ⟨h1, h2⟩, h3⟩

/-- A mask and a list of bits that agree on every value: none, or a single bit. -/
def single (m : Word) (bs : List Nat) : Bool :=
  match bs with
  | [] => m = 0
  | [k] => decide (k < 64) && decide (m = wordOf [k])
  | _ => false

theorem single_spec {m : Word} {bs : List Nat} (h : single m bs = true) (f : Word) :
    m &&& f ≠ 0 ↔ IsSet f bs := by
  match bs with
  | [] =>
    simp only [single, decide_eq_true_eq] at h
    subst h
    simp [IsSet]
  | [k] =>
    simp only [single, Bool.and_eq_true, decide_eq_true_eq] at h
    obtain ⟨hk, rfl⟩ := h
    rw [ne_zero_iff]
    constructor
    · rintro ⟨i, hi, h⟩
      rw [BitVec.getLsbD_and, Bool.and_eq_true, getLsbD_wordOf _ _ hi] at h
      obtain ⟨h1, h2⟩ := h
      have := List.mem_singleton.1 h1
      subst this
      exact ⟨by simp, by simpa using h2⟩
    · rintro ⟨-, h⟩
      refine ⟨k, hk, ?_⟩
      rw [BitVec.getLsbD_and, Bool.and_eq_true, getLsbD_wordOf _ _ hk]
      exact ⟨by simp, h k (by simp)⟩

/-- The value treated apart by `Parse` is the documented one. -/
def specialOk (ft : FlagType) (d : Doc) : Bool :=
  match ft.special, d.whole with
  | none, none => true
  | some (v, n), some (bs, n') => decide (n = n') && decide (v = wordOf bs)
  | _, _ => false

/-- Rows of two tables match, by `ok`. -/
def covers (ok : Word → List Nat → String → Bool) (ft : FlagType) (d : Doc) : Bool :=
  ft.masks.all (fun e => d.flags.any fun p => decide (p.1 = e.2) && ok e.1 p.2 e.2) &&
  d.flags.all (fun p => ft.masks.any fun e => decide (p.1 = e.2) && ok e.1 p.2 e.2)

theorem mem_parse {ft : FlagType} {d : Doc} {order : List (Word × String)} {f : Word}
    (hp : order.Perm ft.masks) (hs : specialOk ft d = true)
    (ok : Word → List Nat → String → Bool) (hc : covers ok ft d = true)
    (hok : ∀ m bs n, ok m bs n = true → (m &&& f ≠ 0 ↔ IsSet f bs)) (n : String) :
    n ∈ parse ft order f ↔ Describes d f n := by
  simp only [covers, Bool.and_eq_true, List.all_eq_true, List.any_eq_true, decide_eq_true_eq] at hc
  have key : n ∈ (order.filter fun e => e.1 &&& f ≠ 0).map (·.2) ↔
      ∃ e ∈ d.flags, e.1 = n ∧ IsSet f e.2 := by
    rw [mem_filter_names]
    constructor
    · rintro ⟨e, he, rfl, hm⟩
      obtain ⟨p, hp1, hp2, hp3⟩ := hc.1 e (hp.mem_iff.1 he)
      exact ⟨p, hp1, hp2, (hok _ _ _ hp3).1 hm⟩
    · rintro ⟨p, hpd, rfl, hset⟩
      obtain ⟨e, he1, he2, he3⟩ := hc.2 p hpd
      exact ⟨e, hp.mem_iff.2 he1, he2.symm, (hok _ _ _ he3).2 hset⟩
  unfold parse Describes
  unfold specialOk at hs
  cases h1 : ft.special with
  | none =>
    cases h2 : d.whole with
    | none => exact key
    | some q => rw [h1, h2] at hs; simp at hs
  | some v =>
    cases h2 : d.whole with
    | none => rw [h1, h2] at hs; simp at hs
    | some q =>
      obtain ⟨v, nm⟩ := v
      obtain ⟨bs, nm'⟩ := q
      rw [h1, h2] at hs
      simp only [Bool.and_eq_true, decide_eq_true_eq] at hs
      obtain ⟨rfl, rfl⟩ := hs
      dsimp only
      rw [onlyBits_iff]
      by_cases hf : f = wordOf bs
      · simp [hf]
      · simp only [hf, if_false, false_and, not_false_eq_true, true_and, false_or]
        exact key

theorem parse_perm {ft : FlagType} {o₁ o₂ : List (Word × String)} (h : o₁.Perm o₂) (f : Word) :
    (parse ft o₁ f).Perm (parse ft o₂ f) := by
  unfold parse
  split
  · split
    · exact .refl _
    · exact (h.filter _).map _
  · exact (h.filter _).map _

theorem parse_nodup {ft : FlagType} {order : List (Word × String)} (hp : order.Perm ft.masks)
    (hn : (ft.masks.map (·.2)).Nodup) (f : Word) : (parse ft order f).Nodup := by
  have key : ((order.filter fun e => e.1 &&& f ≠ 0).map (·.2)).Nodup :=
    ((hp.map (·.2)).nodup_iff.2 hn).sublist (List.filter_sublist.map _)
  unfold parse
  split
  · split
    · simp
    · exact key
  · exact key

/-! ### `UnmarshalJSON` -/

/-- A name contributes bit `i`. -/
def contributes (ft : FlagType) (i : Nat) (n : String) : Bool :=
  match ft.sets.lookup n with
  | some v => v.getLsbD i
  | none => false

theorem getLsbD_fold {ft : FlagType} {names : List String} (h : ∀ n ∈ names, n ∉ ft.resets)
    (w : Word) (i : Nat) :
    (names.foldl (unmarshalStep ft) w).getLsbD i = true ↔
      w.getLsbD i = true ∨ ∃ n ∈ names, contributes ft i n = true := by
  induction names generalizing w with
  | nil => simp
  | cons n ns ih =>
    rw [List.foldl_cons, ih (fun m hm => h m (List.mem_cons_of_mem _ hm))]
    have hstep : (unmarshalStep ft w n).getLsbD i = true ↔
        w.getLsbD i = true ∨ contributes ft i n = true := by
      unfold unmarshalStep contributes
      rw [if_neg (h n (List.mem_cons_self ..))]
      cases ft.sets.lookup n with
      | none => simp
      | some v => simp [BitVec.getLsbD_or]
    rw [hstep]
    constructor
    · rintro ((h1 | h1) | ⟨m, hm, h1⟩)
      · exact .inl h1
      · exact .inr ⟨n, List.mem_cons_self .., h1⟩
      · exact .inr ⟨m, List.mem_cons_of_mem _ hm, h1⟩
    · rintro (h1 | ⟨m, hm, h1⟩)
      · exact .inl (.inl h1)
      · rcases List.mem_cons.1 hm with rfl | hm
        · exact .inl (.inr h1)
        · exact .inr ⟨m, hm, h1⟩

/-- Every mask is read back as itself, and no mask's name resets the value. -/
def setsMatch (ft : FlagType) : Bool :=
  ft.masks.all fun e => decide (ft.sets.lookup e.2 = some e.1) && decide (e.2 ∉ ft.resets)

/-- Bits read back from the names of the masks touching `f`. -/
theorem getLsbD_unmarshal_masks {ft : FlagType} {order : List (Word × String)}
    (hp : order.Perm ft.masks) (hm : setsMatch ft = true) (f prev : Word) (i : Nat) :
    (unmarshal ft prev ((order.filter fun e => e.1 &&& f ≠ 0).map (·.2))).getLsbD i = true ↔
      (ft.clears = false ∧ prev.getLsbD i = true) ∨
        ∃ e ∈ ft.masks, e.1 &&& f ≠ 0 ∧ e.1.getLsbD i = true := by
  simp only [setsMatch, List.all_eq_true, Bool.and_eq_true, decide_eq_true_eq] at hm
  unfold unmarshal
  rw [getLsbD_fold]
  · have h0 : (if ft.clears = true then (0 : Word) else prev).getLsbD i = true ↔
        ft.clears = false ∧ prev.getLsbD i = true := by
      cases ft.clears <;> simp
    rw [h0]
    refine or_congr Iff.rfl ?_
    constructor
    · rintro ⟨n, hn, hc⟩
      obtain ⟨e, he, rfl, hne⟩ := mem_filter_names.1 hn
      have hem := hp.mem_iff.1 he
      unfold contributes at hc
      rw [(hm e hem).1] at hc
      exact ⟨e, hem, hne, hc⟩
    · rintro ⟨e, hem, hne, hb⟩
      refine ⟨e.2, mem_filter_names.2 ⟨e, hp.mem_iff.2 hem, rfl, hne⟩, ?_⟩
      unfold contributes
      rw [(hm e hem).1]
      exact hb
  · intro n hn
    obtain ⟨e, he, rfl, -⟩ := mem_filter_names.1 hn
    exact (hm e (hp.mem_iff.1 he)).2

/-- The special value is read back as itself when starting from nothing. -/
def specialReads (ft : FlagType) : Bool :=
  match ft.special with
  | none => true
  | some (v, n) => decide (unmarshal ft 0 [n] = v)

/-- The special value touches exactly the masks it is made of. -/
def specialWhole (ft : FlagType) : Bool :=
  match ft.special with
  | none => true
  | some (v, _) => decide (v = (ft.masks.filter fun e => e.1 &&& v ≠ 0).foldr (·.1 ||| ·) 0)

theorem getLsbD_foldr_or (l : List (Word × String)) (i : Nat) :
    (l.foldr (·.1 ||| ·) (0 : Word)).getLsbD i = true ↔ ∃ e ∈ l, e.1.getLsbD i = true := by
  induction l with
  | nil => simp
  | cons e l ih =>
    rw [List.foldr_cons, BitVec.getLsbD_or, Bool.or_eq_true, ih]
    simp only [List.mem_cons, exists_eq_or_imp]

/-- The bits of a value that went through its names: those of all masks it touches. -/
theorem getLsbD_roundtrip {ft : FlagType} {order : List (Word × String)}
    (hp : order.Perm ft.masks) (hm : setsMatch ft = true) (hr : specialReads ft = true)
    (hw : specialWhole ft = true) (f : Word) (i : Nat) :
    (unmarshal ft 0 (parse ft order f)).getLsbD i = true ↔
      ∃ e ∈ ft.masks, e.1 &&& f ≠ 0 ∧ e.1.getLsbD i = true := by
  have key := getLsbD_unmarshal_masks hp hm f 0 i
  have h0 : (0 : Word).getLsbD i = false := by simp
  rw [h0] at key
  simp only [Bool.false_eq_true, and_false, false_or] at key
  unfold parse
  cases hs : ft.special with
  | none => exact key
  | some q =>
    obtain ⟨v, n⟩ := q
    dsimp only
    by_cases hf : f = v
    · rw [if_pos hf]
      unfold specialReads at hr
      unfold specialWhole at hw
      rw [hs] at hr hw
      simp only [decide_eq_true_eq] at hr hw
      rw [hr]
      subst hf
      conv => lhs; rw [hw]
      rw [getLsbD_foldr_or]
      constructor
      · rintro ⟨e, he, hb⟩
        rw [List.mem_filter, decide_eq_true_eq] at he
        exact ⟨e, he.1, he.2, hb⟩
      · rintro ⟨e, he, h1, hb⟩
        exact ⟨e, List.mem_filter.2 ⟨he, by rw [decide_eq_true_eq]; exact h1⟩, hb⟩
    · rw [if_neg hf]
      exact key

/-- The named bits of the documentation are the bits of the masks. -/
def sameBits (ft : FlagType) (d : Doc) : Bool :=
  (List.range 64).all fun i => decide (i ∈ d.named) == ft.masks.any fun e => e.1.getLsbD i

theorem mem_named {ft : FlagType} {d : Doc} (h : sameBits ft d = true) {i : Nat} (hi : i < 64) :
    i ∈ d.named ↔ ∃ e ∈ ft.masks, e.1.getLsbD i = true := by
  simp only [sameBits, List.all_eq_true, List.mem_range, beq_iff_eq] at h
  have := h i hi
  rw [Bool.eq_iff_iff, decide_eq_true_eq, List.any_eq_true] at this
  exact this

/-- If `f` has all or none of the bits of each mask, its named bits survive. -/
theorem roundtrip_of_whole {ft : FlagType} {d : Doc} {order : List (Word × String)}
    (hp : order.Perm ft.masks) (hm : setsMatch ft = true) (hr : specialReads ft = true)
    (hw : specialWhole ft = true) (hb : sameBits ft d = true) (f : Word)
    (hf : ∀ e ∈ ft.masks, e.1 &&& f = 0 ∨ e.1 &&& f = e.1) :
    SameNamedBits d f (unmarshal ft 0 (parse ft order f)) := by
  intro i hi
  rw [getLsbD_roundtrip hp hm hr hw, mem_named hb hi]
  constructor
  · rintro ⟨e, he, hne, hbit⟩
    refine ⟨?_, e, he, hbit⟩
    have := (hf e he).resolve_left hne
    rw [← this, BitVec.getLsbD_and, Bool.and_eq_true] at hbit
    exact hbit.2
  · rintro ⟨h1, e, he, hbit⟩
    refine ⟨e, he, ne_zero_iff.2 ⟨i, hi, ?_⟩, hbit⟩
    rw [BitVec.getLsbD_and, h1, hbit]; rfl

/-- The mask has at most one bit. -/
def oneBit (m : Word) : Bool := (m = 0) || (List.range 64).any fun k => decide (m = wordOf [k])

theorem oneBit_whole {m : Word} (h : oneBit m = true) (f : Word) : m &&& f = 0 ∨ m &&& f = m := by
  simp only [oneBit, Bool.or_eq_true, decide_eq_true_eq, List.any_eq_true, List.mem_range] at h
  rcases h with rfl | ⟨k, hk, rfl⟩
  · left; simp
  · by_cases hb : f.getLsbD k = true
    · right
      refine BitVec.eq_of_getLsbD_eq fun i hi => ?_
      rw [BitVec.getLsbD_and, Bool.eq_iff_iff, Bool.and_eq_true, getLsbD_wordOf _ _ hi]
      constructor
      · exact And.left
      · intro h; exact ⟨h, by rw [List.mem_singleton.1 h]; exact hb⟩
    · left
      refine BitVec.eq_of_getLsbD_eq fun i hi => ?_
      rw [BitVec.getLsbD_and, Bool.eq_iff_iff, Bool.and_eq_true, getLsbD_wordOf _ _ hi]
      constructor
      · rintro ⟨h, h2⟩
        rw [List.mem_singleton.1 h] at h2
        exact absurd h2 hb
      · intro h; simp at h

end Swoll.Lemmas.Flags

namespace Swoll.Lemmas.Flags
open Swoll.Flags Swoll.Bytes
open Swoll.Spec.Flags (Doc OnlyBits IsSet Describes SameNamedBits)

/-! ### File and mount flags, where a mask has several bits -/

theorem touches_iff (m f : Word) :
    m &&& f ≠ 0 ↔ ∃ i, i < 64 ∧ m.getLsbD i = true ∧ f.getLsbD i = true := by
  rw [ne_zero_iff]
  simp only [BitVec.getLsbD_and, Bool.and_eq_true]

theorem touches_sync (f : Word) :
    (0x101000 : Word) &&& f ≠ 0 ↔ f.getLsbD 12 = true ∨ f.getLsbD 20 = true := by
  rw [touches_iff, show (0x101000 : Word) = wordOf [12, 20] by decide +kernel]
  constructor
  · rintro ⟨i, hi, h1, h2⟩
    rw [getLsbD_wordOf _ _ hi] at h1
    simp only [List.mem_cons, List.not_mem_nil, or_false] at h1
    rcases h1 with rfl | rfl
    · exact .inl h2
    · exact .inr h2
  · rintro (h | h)
    · exact ⟨12, by omega, (getLsbD_wordOf _ _ (by omega)).2 (by simp), h⟩
    · exact ⟨20, by omega, (getLsbD_wordOf _ _ (by omega)).2 (by simp), h⟩

/-- Rows of the file flags: single bits, or `O_SYNC`. -/
def fileOk (m : Word) (bs : List Nat) (_ : String) : Bool :=
  single m bs || (decide (m = 0x101000) && decide (bs = [12, 20]))

theorem fileOk_spec {f : Word} (h : f.getLsbD 12 = f.getLsbD 20) (m : Word) (bs : List Nat)
    (n : String) (hok : fileOk m bs n = true) : m &&& f ≠ 0 ↔ IsSet f bs := by
  simp only [fileOk, Bool.or_eq_true, Bool.and_eq_true, decide_eq_true_eq] at hok
  rcases hok with hs | ⟨rfl, rfl⟩
  · exact single_spec hs f
  · rw [touches_sync]
    simp only [IsSet, ne_eq, reduceCtorEq, not_false_eq_true, true_and, List.mem_cons,
      List.not_mem_nil, or_false, forall_eq_or_imp, forall_eq]
    rw [h]; simp

theorem nouser_bits (i : Nat) (hi : i < 64) :
    (0xffffffff80000000 : Word).getLsbD i = true ↔ 31 ≤ i := by
  have : ∀ i, i < 64 → ((0xffffffff80000000 : Word).getLsbD i = true ↔ 31 ≤ i) := by
    decide +kernel
  exact this i hi

theorem touches_nouser (f : Word) :
    (0xffffffff80000000 : Word) &&& f ≠ 0 ↔ ∃ i, i < 64 ∧ 31 ≤ i ∧ f.getLsbD i = true := by
  rw [touches_iff]
  constructor
  · rintro ⟨i, hi, h1, h2⟩; exact ⟨i, hi, (nouser_bits i hi).1 h1, h2⟩
  · rintro ⟨i, hi, h1, h2⟩; exact ⟨i, hi, (nouser_bits i hi).2 h1, h2⟩

/-- Rows of the mount flags: single bits, or `MS_NOUSER`. -/
def mountOk (m : Word) (bs : List Nat) (_ : String) : Bool :=
  single m bs || (decide (m = 0xffffffff80000000) && decide (bs = [31]))

theorem mountOk_spec {f : Word}
    (h : f.getLsbD 31 = true ∨ ∀ i, 32 ≤ i → i < 64 → f.getLsbD i = false)
    (m : Word) (bs : List Nat) (n : String) (hok : mountOk m bs n = true) :
    m &&& f ≠ 0 ↔ IsSet f bs := by
  simp only [mountOk, Bool.or_eq_true, Bool.and_eq_true, decide_eq_true_eq] at hok
  rcases hok with hs | ⟨rfl, rfl⟩
  · exact single_spec hs f
  · rw [touches_nouser]
    simp only [IsSet, ne_eq, reduceCtorEq, not_false_eq_true, true_and, List.mem_cons,
      List.not_mem_nil, or_false, forall_eq]
    constructor
    · rintro ⟨i, hi, h1, h2⟩
      rcases h with h | h
      · exact h
      · rcases Nat.lt_or_ge i 32 with h3 | h3
        · have : i = 31 := by omega
          rw [← this]; exact h2
        · rw [h i h3 hi] at h2; exact absurd h2 (by simp)
    · intro h1; exact ⟨31, by omega, by omega, h1⟩

end Swoll.Lemmas.Flags
