import Verif.Lemmas.Flags
import Verif.Lemmas.FlagNames
/-
Property theorems about flag names, error names, socket constants and socket addresses:
C40, C41, C42, C44, C69, C71.
-/
namespace Swoll.Props.Flags
open Swoll.Flags Swoll.Bytes Swoll.Lemmas.Flags
open Swoll.Spec.Flags (Doc OnlyBits IsSet Describes SameNamedBits FitsInt bigEndian16)

/-! ### C40: flag sets survive JSON -/

/-- The flag types with JSON methods whose flags are all single bits, with their
documentation. -/
def jsonTypes : List (FlagType × Doc) := [
  (msgFlags, Spec.Flags.msgFlags), (timerFlags, Spec.Flags.timerFlags),
  (umountFlags, Spec.Flags.umountFlags), (acceptFlags, Spec.Flags.acceptFlags),
  (inotifyMask, Spec.Flags.inotifyMask)]

/-- Message, timer, umount, accept and inotify flags: whatever the value and whatever order the
names are written in, the reader gets the named bits and nothing else. -/
theorem c40_json_roundtrip_partial {p : FlagType × Doc} (hp : p ∈ jsonTypes)
    {order : List (Word × String)} (ho : order.Perm p.1.masks) (f : Word) :
    SameNamedBits p.2 f (unmarshal p.1 0 (parse p.1 order f)) := by
  have h : ∀ p ∈ jsonTypes, setsMatch p.1 = true ∧ specialReads p.1 = true ∧
      specialWhole p.1 = true ∧ sameBits p.1 p.2 = true ∧
      (p.1.masks.all fun e => oneBit e.1) = true := by decide +kernel
  obtain ⟨h1, h2, h3, h4, h5⟩ := h p hp
  exact roundtrip_of_whole ho h1 h2 h3 h4 f fun e he => oneBit_whole (List.all_eq_true.1 h5 e he) f

example : SameNamedBits Spec.Flags.msgFlags 0x4142
    (unmarshal msgFlags 0 (parse msgFlags msgFlags.masks.reverse 0x4142)) :=
  c40_json_roundtrip_partial (p := (msgFlags, Spec.Flags.msgFlags)) (by simp [jsonTypes])
    (List.reverse_perm _) _

example : unmarshal inotifyMask 0 (parse inotifyMask inotifyMask.masks 0x80000fff) = 0x80000fff := by
  decide +kernel

/-- File flags survive exactly when the two bits of `O_SYNC` are both set or both clear. -/
theorem c40_file_roundtrip_iff {order : List (Word × String)} (ho : order.Perm fileFlags.masks)
    (f prev : Word) :
    SameNamedBits Spec.Flags.fileFlags f (unmarshal fileFlags prev (parse fileFlags order f)) ↔
      f.getLsbD 12 = f.getLsbD 20 := by
  have hprev : unmarshal fileFlags prev (parse fileFlags order f) =
      unmarshal fileFlags 0 (parse fileFlags order f) := rfl
  have h1 : setsMatch fileFlags = true := by decide +kernel
  have h2 : specialReads fileFlags = true := by decide +kernel
  have h3 : specialWhole fileFlags = true := by decide +kernel
  have h4 : sameBits fileFlags Spec.Flags.fileFlags = true := by decide +kernel
  have h5 : (fileFlags.masks.all fun e => oneBit e.1 || decide (e.1 = 0x101000)) = true := by
    decide +kernel
  have hsync : ((0x101000 : Word), "O_SYNC") ∈ fileFlags.masks := by decide +kernel
  rw [hprev]
  constructor
  · intro h
    have key : ∀ i, i < 64 → (0x101000 : Word).getLsbD i = true → (0x101000 : Word) &&& f ≠ 0 →
        f.getLsbD i = true := fun i hi hb hne =>
      ((h i hi).1 ((getLsbD_roundtrip ho h1 h2 h3 f i).2 ⟨_, hsync, hne, hb⟩)).1
    have k12 := key 12 (by omega) (by decide +kernel)
    have k20 := key 20 (by omega) (by decide +kernel)
    rw [touches_sync] at k12 k20
    rw [Bool.eq_iff_iff]
    exact ⟨fun h => k20 (.inl h), fun h => k12 (.inr h)⟩
  · intro h
    refine roundtrip_of_whole ho h1 h2 h3 h4 f fun e he => ?_
    have := List.all_eq_true.1 h5 e he
    simp only [Bool.or_eq_true, decide_eq_true_eq] at this
    rcases this with hb | hb
    · exact oneBit_whole hb f
    · rw [hb]
      by_cases hne : (0x101000 : Word) &&& f = 0
      · exact .inl hne
      · right
        have ht := (touches_sync f).1 hne
        rw [h] at ht
        have h20 : f.getLsbD 20 = true := by simpa using ht
        have h12 : f.getLsbD 12 = true := by rw [h]; exact h20
        refine BitVec.eq_of_getLsbD_eq fun i hi => ?_
        rw [BitVec.getLsbD_and, Bool.eq_iff_iff, Bool.and_eq_true,
          show (0x101000 : Word) = wordOf [12, 20] by decide +kernel, getLsbD_wordOf _ _ hi]
        constructor
        · exact And.left
        · intro hm
          refine ⟨hm, ?_⟩
          simp only [List.mem_cons, List.not_mem_nil, or_false] at hm
          rcases hm with rfl | rfl
          · exact h12
          · exact h20

/-- A file opened with `O_DSYNC` is read back as opened with `O_SYNC`. -/
theorem c40_file_violated :
    unmarshal fileFlags 0 (parse fileFlags fileFlags.masks 0x1001) = 0x101001 ∧
      ¬ SameNamedBits Spec.Flags.fileFlags 0x1001
        (unmarshal fileFlags 0 (parse fileFlags fileFlags.masks 0x1001)) := by
  refine ⟨by decide +kernel, ?_⟩
  rw [c40_file_roundtrip_iff (.refl _)]
  decide +kernel

example : SameNamedBits Spec.Flags.fileFlags 0x80241
    (unmarshal fileFlags 7 (parse fileFlags fileFlags.masks 0x80241)) :=
  (c40_file_roundtrip_iff (.refl _) _ _).2 (by decide +kernel)

/-- Mount flags survive exactly when no bit from 31 up is set: the mask of `MS_NOUSER` is
sign-extended, so it is listed for any of the upper bits and sets all of them. -/
theorem c40_mount_roundtrip_iff {order : List (Word × String)} (ho : order.Perm mountFlags.masks)
    (f : Word) :
    SameNamedBits Spec.Flags.mountFlags f (unmarshal mountFlags 0 (parse mountFlags order f)) ↔
      ∀ i, 31 ≤ i → i < 64 → f.getLsbD i = false := by
  have h1 : setsMatch mountFlags = true := by decide +kernel
  have h2 : specialReads mountFlags = true := by decide +kernel
  have h3 : specialWhole mountFlags = true := by decide +kernel
  have h5 : (mountFlags.masks.all fun e =>
      oneBit e.1 || decide (e.1 = 0xffffffff80000000)) = true := by decide +kernel
  have hno : ((0xffffffff80000000 : Word), "MS_NOUSER") ∈ mountFlags.masks := by decide +kernel
  have h32 : 32 ∉ Spec.Flags.mountFlags.named := by decide +kernel
  constructor
  · intro h i h31 hi
    refine Classical.byContradiction fun hb => ?_
    have hb : f.getLsbD i = true := by simpa using hb
    have hne := (touches_nouser f).2 ⟨i, hi, h31, hb⟩
    exact h32 ((h 32 (by omega)).1 ((getLsbD_roundtrip ho h1 h2 h3 f 32).2
      ⟨_, hno, hne, (nouser_bits 32 (by omega)).2 (by omega)⟩)).2
  · intro h
    have hzero : (0xffffffff80000000 : Word) &&& f = 0 := by
      refine Classical.byContradiction fun hne => ?_
      obtain ⟨i, hi, h31, hb⟩ := (touches_nouser f).1 hne
      rw [h i h31 hi] at hb
      exact absurd hb (by simp)
    intro i hi
    rw [getLsbD_roundtrip ho h1 h2 h3]
    constructor
    · rintro ⟨e, he, hne, hbit⟩
      have := List.all_eq_true.1 h5 e he
      simp only [Bool.or_eq_true, decide_eq_true_eq] at this
      rcases this with hb | hb
      · have hw := (oneBit_whole hb f).resolve_left hne
        have hfi : f.getLsbD i = true := by
          rw [← hw, BitVec.getLsbD_and, Bool.and_eq_true] at hbit
          exact hbit.2
        have hi31 : i < 31 := by
          refine Classical.byContradiction fun hge => ?_
          rw [h i (by omega) hi] at hfi
          exact absurd hfi (by simp)
        refine ⟨hfi, ?_⟩
        have hn : ∀ i, i < 31 → (mountFlags.masks.any fun e => e.1.getLsbD i) = true →
            i ∈ Spec.Flags.mountFlags.named := by decide +kernel
        exact hn i hi31 (List.any_eq_true.2 ⟨e, he, hbit⟩)
      · rw [hb] at hne
        exact absurd hzero hne
    · rintro ⟨hfi, hnm⟩
      have hn : ∀ i, i < 64 → i ∈ Spec.Flags.mountFlags.named →
          (mountFlags.masks.any fun e => e.1.getLsbD i) = true := by decide +kernel
      obtain ⟨e, he, hbit⟩ := List.any_eq_true.1 (hn i hi hnm)
      exact ⟨e, he, (touches_iff _ _).2 ⟨i, hi, hbit, hfi⟩, hbit⟩

theorem c40_mount_violated :
    unmarshal mountFlags 0 (parse mountFlags mountFlags.masks 0x80000001) = 0xffffffff80000001 ∧
      ¬ SameNamedBits Spec.Flags.mountFlags 0x80000001
        (unmarshal mountFlags 0 (parse mountFlags mountFlags.masks 0x80000001)) := by
  refine ⟨by decide +kernel, ?_⟩
  rw [c40_mount_roundtrip_iff (.refl _)]
  intro h
  exact absurd (h 31 (by omega) (by omega)) (by decide +kernel)

example : SameNamedBits Spec.Flags.mountFlags 0x8007
    (unmarshal mountFlags 0 (parse mountFlags mountFlags.masks 0x8007)) :=
  (c40_mount_roundtrip_iff (.refl _) _).2 (by
    have : ∀ i, i < 64 → 31 ≤ i → (0x8007 : Word).getLsbD i = false := by decide +kernel
    exact fun i h1 h2 => this i h2 h1)

/-- Reading flags into a variable that already holds some keeps the old ones, for every type
but file flags. -/
theorem c40_into_used_variable_violated {p : FlagType × Doc} (hp : p ∈ jsonTypes)
    (order : List (Word × String)) (f prev : Word) (i : Nat)
    (hi : prev.getLsbD i = true) :
    (unmarshal p.1 prev (parse p.1 order f)).getLsbD i = true := by
  have h : ∀ p ∈ jsonTypes, p.1.clears = false ∧ p.1.resets = [] := by decide +kernel
  obtain ⟨h1, h2⟩ := h p hp
  unfold unmarshal
  rw [getLsbD_fold (by simp [h2]), h1]
  exact .inl hi

example : unmarshal msgFlags 1 (parse msgFlags msgFlags.masks 2) = 3 := by decide +kernel

/-! ### C41: the printed names are exactly the flags that are set -/

/-- The flag types whose flags are all single bits. -/
def plainTypes : List (FlagType × Doc) := jsonTypes ++ [
  (cloneFlags, Spec.Flags.cloneFlags), (ptraceFlags, Spec.Flags.ptraceFlags),
  (xmodeFlags, Spec.Flags.xmodeFlags), (protFlags, Spec.Flags.protFlags)]

/-- All flag types. -/
def allTypes : List (FlagType × Doc) := plainTypes ++ [
  (fileFlags, Spec.Flags.fileFlags), (mountFlags, Spec.Flags.mountFlags)]

theorem c41_names_are_set_flags_partial {p : FlagType × Doc} (hp : p ∈ plainTypes)
    {order : List (Word × String)} (ho : order.Perm p.1.masks) (f : Word) (n : String) :
    n ∈ parse p.1 order f ↔ Describes p.2 f n := by
  have h : ∀ p ∈ plainTypes, specialOk p.1 p.2 = true ∧
      covers (fun m bs _ => single m bs) p.1 p.2 = true := by decide +kernel
  obtain ⟨h1, h2⟩ := h p hp
  exact mem_parse ho h1 _ h2 (fun m bs _ hs => single_spec hs f) n

example : parse cloneFlags cloneFlags.masks 0x60000011 = ["CLONE_NEWNET", "CLONE_NEWPID"] := by
  decide +kernel
example : parse xmodeFlags xmodeFlags.masks 0 = ["F_OK"] := by decide +kernel

/-- No name is listed twice. -/
theorem c41_each_name_once {p : FlagType × Doc} (hp : p ∈ allTypes)
    {order : List (Word × String)} (ho : order.Perm p.1.masks) (f : Word) :
    (parse p.1 order f).Nodup := by
  have h : ∀ p ∈ allTypes, (p.1.masks.map (·.2)).Nodup := by decide +kernel
  exact parse_nodup ho (h p hp) f

/-- Up to order, the result does not depend on how the runtime iterates the table. -/
theorem c41_order_irrelevant (ft : FlagType) {o₁ o₂ : List (Word × String)}
    (h₁ : o₁.Perm ft.masks) (h₂ : o₂.Perm ft.masks) (f : Word) :
    (parse ft o₁ f).Perm (parse ft o₂ f) :=
  parse_perm (h₁.trans h₂.symm) f

example : parse msgFlags msgFlags.masks 3 = ["MSG_OOB", "MSG_PEEK"] ∧
    parse msgFlags msgFlags.masks.reverse 3 = ["MSG_PEEK", "MSG_OOB"] := by decide +kernel

/-- File flags are described correctly exactly when the bits of `O_SYNC` are both set or both
clear. -/
theorem c41_file_names_iff {order : List (Word × String)} (ho : order.Perm fileFlags.masks)
    (f : Word) :
    (∀ n, n ∈ parse fileFlags order f ↔ Describes Spec.Flags.fileFlags f n) ↔
      f.getLsbD 12 = f.getLsbD 20 := by
  have h1 : specialOk fileFlags Spec.Flags.fileFlags = true := by decide +kernel
  have h2 : covers fileOk fileFlags Spec.Flags.fileFlags = true := by decide +kernel
  constructor
  · intro h
    have hsync : ((0x101000 : Word), "O_SYNC") ∈ fileFlags.masks := by decide +kernel
    have key : (0x101000 : Word) &&& f ≠ 0 → f.getLsbD 12 = true ∧ f.getLsbD 20 = true := by
      intro hne
      have hf : f ≠ 0 := by rintro rfl; exact hne (by simp)
      have hm : "O_SYNC" ∈ parse fileFlags order f := by
        show "O_SYNC" ∈ (if f = 0 then ["O_RDONLY"] else _)
        rw [if_neg hf]
        exact mem_filter_names.2 ⟨_, ho.mem_iff.2 hsync, rfl, hne⟩
      have hd := (h _).1 hm
      have hrow : ∀ e ∈ Spec.Flags.fileFlags.flags, e.1 = "O_SYNC" → e.2 = [12, 20] := by
        decide +kernel
      have hbits : IsSet f [12, 20] := by
        rcases hd with ⟨-, hc⟩ | ⟨-, e, he, hn, hs⟩
        · exact absurd hc (by decide)
        · rw [hrow e he hn] at hs; exact hs
      exact ⟨hbits.2 12 (by simp), hbits.2 20 (by simp)⟩
    rw [touches_sync] at key
    rw [Bool.eq_iff_iff]
    exact ⟨fun h => (key (.inl h)).2, fun h => (key (.inr h)).1⟩
  · intro h n
    exact mem_parse ho h1 _ h2 (fileOk_spec h) n

/-- `O_DSYNC` alone is printed as `O_DSYNC|O_SYNC`. -/
theorem c41_file_violated :
    "O_SYNC" ∈ parse fileFlags fileFlags.masks 0x1000 ∧
      ¬ Describes Spec.Flags.fileFlags 0x1000 "O_SYNC" := by
  refine ⟨by decide +kernel, ?_⟩
  rintro (⟨-, h⟩ | ⟨-, e, he, hn, hs⟩)
  · exact absurd h (by decide)
  · have hrow : ∀ e ∈ Spec.Flags.fileFlags.flags, e.1 = "O_SYNC" → e.2 = [12, 20] := by
      decide +kernel
    rw [hrow e he hn] at hs
    exact absurd (hs.2 20 (by simp)) (by decide +kernel)

/-- Mount flags are described correctly exactly when `MS_NOUSER` is set or no bit above it
is. -/
theorem c41_mount_names_iff {order : List (Word × String)} (ho : order.Perm mountFlags.masks)
    (f : Word) :
    (∀ n, n ∈ parse mountFlags order f ↔ Describes Spec.Flags.mountFlags f n) ↔
      (f.getLsbD 31 = true ∨ ∀ i, 32 ≤ i → i < 64 → f.getLsbD i = false) := by
  have h1 : specialOk mountFlags Spec.Flags.mountFlags = true := by decide +kernel
  have h2 : covers mountOk mountFlags Spec.Flags.mountFlags = true := by decide +kernel
  constructor
  · intro h
    by_cases h31 : f.getLsbD 31 = true
    · exact .inl h31
    · right
      intro i hi1 hi2
      refine Classical.byContradiction fun hb => ?_
      have hb : f.getLsbD i = true := by simpa using hb
      have hne := (touches_nouser f).2 ⟨i, hi2, by omega, hb⟩
      have hno : ((0xffffffff80000000 : Word), "MS_NOUSER") ∈ mountFlags.masks := by
        decide +kernel
      have hf : f ≠ 0 := by rintro rfl; exact hne (by simp)
      have hm : "MS_NOUSER" ∈ parse mountFlags order f := by
        show "MS_NOUSER" ∈ (if f = 0 then ["MS_NONE"] else _)
        rw [if_neg hf]
        exact mem_filter_names.2 ⟨_, ho.mem_iff.2 hno, rfl, hne⟩
      have hrow : ∀ e ∈ Spec.Flags.mountFlags.flags, e.1 = "MS_NOUSER" → e.2 = [31] := by
        decide +kernel
      rcases (h _).1 hm with ⟨-, hc⟩ | ⟨-, e, he, hn, hs⟩
      · exact absurd hc (by decide)
      · rw [hrow e he hn] at hs
        exact h31 (hs.2 31 (by simp))
  · intro h n
    exact mem_parse ho h1 _ h2 (mountOk_spec h) n

example (n : String) : n ∈ parse mountFlags mountFlags.masks 0x8000001f ↔
    Describes Spec.Flags.mountFlags 0x8000001f n :=
  (c41_mount_names_iff (.refl _) _).2 (.inl (by decide +kernel)) n

example (n : String) : n ∈ parse fileFlags fileFlags.masks 0x101042 ↔
    Describes Spec.Flags.fileFlags 0x101042 n :=
  (c41_file_names_iff (.refl _) _).2 (by decide +kernel) n

/-! ### C42: error numbers and names -/

/-- Every error number of Linux prints as its name, and the name is read back as the number. -/
theorem c42_linux_errors {order : List (Int × String)} (ho : order.Perm errnoVals)
    {e : Int × String} (he : e ∈ (0, "OK") :: Spec.Flags.errnos) :
    errnoToString e.1 = e.2 ∧ stringToErrno (keysOf order) e.2 = e.1 := by
  have ht := errno_ok
  have hsub : ∀ e ∈ (0, "OK") :: Spec.Flags.errnos, e ∈ errnoVals := by decide +kernel
  have hm : (e.1, e.2) ∈ errnoVals := hsub e he
  unfold errnoToString stringToErrno
  rw [(get_table ht).2 hm, get_keysOf ho ht hm]
  exact ⟨rfl, rfl⟩

example : errnoToString 13 = "EACCES" ∧ stringToErrno (keysOf errnoVals) "EACCES" = 13 :=
  c42_linux_errors (.refl _) (e := (13, "EACCES")) (by decide +kernel)

/-- No two error numbers of Linux share a name in this table. -/
theorem c42_names_distinct {a b : Int} (ha : a ∈ Spec.Flags.errnos.map (·.1))
    (hb : b ∈ Spec.Flags.errnos.map (·.1)) (h : errnoToString a = errnoToString b) : a = b := by
  obtain ⟨e, he, rfl⟩ := List.mem_map.1 ha
  obtain ⟨e', he', rfl⟩ := List.mem_map.1 hb
  have h1 := c42_linux_errors (.refl errnoVals) (List.mem_cons_of_mem _ he)
  have h2 := c42_linux_errors (.refl errnoVals) (List.mem_cons_of_mem _ he')
  rw [← h1.2, ← h2.2, ← h1.1, ← h2.1, h]

/-- Any other number but 512, the kernel's internal ERESTARTSYS, prints as `UNK` and is read
back as -1. -/
theorem c42_unknown {order : List (Int × String)} (ho : order.Perm errnoVals) {n : Int}
    (h0 : n ≠ 0) (h512 : n ≠ 512) (hn : n ∉ Spec.Flags.errnos.map (·.1)) :
    errnoToString n = "UNK" ∧ stringToErrno (keysOf order) (errnoToString n) = -1 := by
  have ht := errno_ok
  have hsub : ∀ e ∈ errnoVals, e.1 = 0 ∨ e.1 = 512 ∨ e = (-1, "UNK") ∨
      e.1 ∈ Spec.Flags.errnos.map (·.1) := by decide +kernel
  have hunk : ((-1 : Int), "UNK") ∈ errnoVals := by decide +kernel
  have h1 : errnoToString n = "UNK" := by
    unfold errnoToString
    cases hg : GoMap.get errnoVals n with
    | none => rfl
    | some s =>
      rcases hsub _ (GoMap.mem_of_get hg) with h | h | h | h
      · exact absurd h h0
      · exact absurd h h512
      · exact (Prod.mk.inj h).2
      · exact absurd h hn
  refine ⟨h1, ?_⟩
  rw [h1]
  unfold stringToErrno
  rw [get_keysOf ho ht hunk]

example : errnoToString 4095 = "UNK" := (c42_unknown (.refl _) (by decide) (by decide)
  (by decide +kernel)).1

/-- The numbers that survive JSON. -/
theorem c42_roundtrip_iff {order : List (Int × String)} (ho : order.Perm errnoVals) (n : Int) :
    stringToErrno (keysOf order) (errnoToString n) = n ↔
      n = -1 ∨ n = 0 ∨ n = 512 ∨ n ∈ Spec.Flags.errnos.map (·.1) := by
  constructor
  · intro h
    refine Classical.byContradiction fun hc => ?_
    simp only [not_or] at hc
    have := (c42_unknown ho hc.2.1 hc.2.2.1 hc.2.2.2).2
    rw [h] at this
    exact hc.1 this
  · have ht := errno_ok
    have key : ∀ s, (n, s) ∈ errnoVals →
        stringToErrno (keysOf order) (errnoToString n) = n := by
      intro s hs
      unfold errnoToString stringToErrno
      rw [(get_table ht).2 hs]
      dsimp only
      rw [get_keysOf ho ht hs]
    rintro (rfl | rfl | rfl | h)
    · exact key "UNK" (by decide +kernel)
    · exact key "OK" (by decide +kernel)
    · exact key "ERESTARTSYS" (by decide +kernel)
    · obtain ⟨e, he, rfl⟩ := List.mem_map.1 h
      have h := c42_linux_errors ho (List.mem_cons_of_mem _ he)
      rw [h.1, h.2]

/-! ### C69: socket and resource constants survive JSON -/

/-- The name tables of socket families, protocols and option levels. -/
def constTables : List (GoMap Int String) := [sockFamilyMap, sockProtoMap, sockLevelMap]

/-- Socket families, protocols and option levels: any integer survives. -/
theorem c69_constants_roundtrip {tbl : GoMap Int String} (ht : tbl ∈ constTables)
    {order : List (Int × String)} (ho : order.Perm tbl) {n : Int} (hn : FitsInt n) :
    valueOf (keysOf order) (nameOf tbl n) = some n := by
  have h : ∀ t ∈ constTables, tableOk t = true := by decide +kernel
  exact valueOf_nameOf ho (h tbl ht) hn

example : valueOf (keysOf sockFamilyMap) (nameOf sockFamilyMap (-77)) = some (-77) :=
  c69_constants_roundtrip (by simp [constTables]) (.refl _) (by unfold FitsInt; decide)
example : nameOf sockFamilyMap 10 = "AF_INET6" := by decide +kernel

/-- Resource limits: any integer survives. -/
theorem c69_rlimit_roundtrip {n : Int} (hn : FitsInt n) :
    rlimitValue (rlimitName n) = some n := by
  have ht : tableOk rlimitNames = true := by decide +kernel
  have hback : ∀ e ∈ rlimitNames, rlimitValues.lookup e.2 = some e.1 := by decide +kernel
  have hw : ∀ e ∈ rlimitValues, wordy e.1 = true := by decide +kernel
  unfold rlimitName
  cases hl : rlimitNames.lookup n with
  | some s =>
    have hm : (n, s) ∈ rlimitNames := by
      rw [List.lookup_eq_some_iff] at hl
      obtain ⟨l₁, l₂, heq, -⟩ := hl
      rw [heq]; simp
    unfold rlimitValue
    rw [hback _ hm]
  | none =>
    have : rlimitValues.lookup (String.ofList (itoa n)) = none := by
      rw [List.lookup_eq_none_iff]
      intro e he
      have h1 := hw e he
      rw [bne_iff_ne]
      intro heq
      rw [← heq, not_wordy_itoa] at h1
      exact absurd h1 (by simp)
    show rlimitValue (String.ofList (itoa n)) = some n
    unfold rlimitValue
    rw [this]
    dsimp only
    rw [String.toList_ofList, atoi_itoa hn]

example : rlimitValue (rlimitName 7) = some 7 ∧ rlimitName 7 = "RLIMIT_NOFILE" := by
  decide +kernel

/-- Socket types: the two flags survive; the type number does exactly when it is 0 or one of
socket(2). -/
theorem c69_socktype_iff (t : Word) :
    sockTypeUnmarshal (sockTypeParse t) = t &&& 0x8080f ↔
      t.toNat % 16 ∈ 0 :: Spec.Flags.sockTypes := by
  rw [sockType_unmarshal_parse, sockType_split]
  obtain ⟨k, hk, hn⟩ := sockType_nibble t
  rw [hn]
  have hmod : t.toNat % 16 = k := sockType_mod hk hn
  rw [hmod]
  have : ∀ k, k < 16 → ∀ a b, (sockTypeUnmarshal (sockTypePieces (BitVec.ofNat 64 k) a b) =
      BitVec.ofNat 64 k ||| (if a then 0x80000 else 0) ||| (if b then 0x800 else 0) ↔
      k ∈ 0 :: Spec.Flags.sockTypes) := by decide +kernel
  exact this k hk _ _

theorem c69_socktype_flags (t : Word) :
    (sockTypeUnmarshal (sockTypeParse t)).getLsbD 19 = t.getLsbD 19 ∧
    (sockTypeUnmarshal (sockTypeParse t)).getLsbD 11 = t.getLsbD 11 := by
  rw [sockType_unmarshal_parse]
  obtain ⟨k, hk, hn⟩ := sockType_nibble t
  rw [hn]
  have : ∀ k, k < 16 → ∀ a b,
      (sockTypeUnmarshal (sockTypePieces (BitVec.ofNat 64 k) a b)).getLsbD 19 = a ∧
      (sockTypeUnmarshal (sockTypePieces (BitVec.ofNat 64 k) a b)).getLsbD 11 = b := by
    decide +kernel
  exact this k hk _ _

/-- Type 6 (`SOCK_DCCP`) is read back as 0. -/
theorem c69_socktype_violated : sockTypeUnmarshal (sockTypeParse 6) = 0 := by decide +kernel

example : sockTypeUnmarshal (sockTypeParse 0x80801) = 0x80801 ∧
    sockTypeParse 0x80801 = ["SOCK_STREAM", "SOCK_CLOEXEC", "SOCK_NONBLOCK"] := by decide +kernel

/-- Reverse maps as the initialiser may have built them. -/
def KeysBuilt (k : OptKeys) : Prop :=
  (∃ o, o.Perm socketOpMasks ∧ k.sock = keysOf o) ∧ (∃ o, o.Perm tcpOpMasks ∧ k.tcp = keysOf o) ∧
  (∃ o, o.Perm ipOpMasks ∧ k.ip = keysOf o) ∧ (∃ o, o.Perm ip6OpMasks ∧ k.ip6 = keysOf o)

/-- Socket option names: which pairs of level and option survive. Every IP option does, and
named socket and TCP options do; no IPv6 option and no unnamed option of another level does. -/
theorem c69_sockopt_iff {k : OptKeys} (hk : KeysBuilt k) {s : SockoptName} (hs : FitsInt s.tp) :
    sockoptUnmarshal k s.parse = some s ↔
      s.lv = 0 ∨ (s.lv = 1 ∧ s.tp ∈ socketOpMasks.map (·.1)) ∨
        (s.lv = 6 ∧ s.tp ∈ tcpOpMasks.map (·.1)) := by
  obtain ⟨⟨o1, p1, e1⟩, ⟨o2, p2, e2⟩, ⟨o3, p3, e3⟩, -⟩ := hk
  have t1 : tableOk socketOpMasks = true := by decide +kernel
  have t2 : tableOk tcpOpMasks = true := by decide +kernel
  have t3 : tableOk ipOpMasks = true := by decide +kernel
  have t4 : tableOk ip6OpMasks = true := by decide +kernel
  have d12 : ∀ n ∈ tcpOpMasks.map (·.2), n ∉ socketOpMasks.map (·.2) := by decide +kernel
  have d13 : ∀ n ∈ ipOpMasks.map (·.2), n ∉ socketOpMasks.map (·.2) := by decide +kernel
  have d23 : ∀ n ∈ ipOpMasks.map (·.2), n ∉ tcpOpMasks.map (·.2) := by decide +kernel
  have d14 : ∀ n ∈ ip6OpMasks.map (·.2), n ∉ socketOpMasks.map (·.2) := by decide +kernel
  have d24 : ∀ n ∈ ip6OpMasks.map (·.2), n ∉ tcpOpMasks.map (·.2) := by decide +kernel
  have d34 : ∀ n ∈ ip6OpMasks.map (·.2), n ∉ ipOpMasks.map (·.2) := by decide +kernel
  obtain ⟨tp, lv⟩ := s
  dsimp only at hs ⊢
  have hnum : sockoptUnmarshal k (String.ofList (itoa tp)) = some { tp := tp, lv := 0 } := by
    unfold sockoptUnmarshal
    rw [e1, e2, e3, keysOf_itoa p1 t1, keysOf_itoa p2 t2, keysOf_itoa p3 t3]
    dsimp only
    rw [String.toList_ofList, atoi_itoa hs]
  unfold SockoptName.parse
  dsimp only
  by_cases h1 : lv = 1
  · subst h1
    rw [if_pos rfl]
    by_cases hm : ∃ nm, (tp, nm) ∈ socketOpMasks
    · obtain ⟨nm, hm⟩ := hm
      rw [nameOf_mem t1 hm]
      have : sockoptUnmarshal k nm = some { tp := tp, lv := 1 } := by
        unfold sockoptUnmarshal
        rw [e1, get_keysOf p1 t1 hm]
      exact iff_of_true this (.inr (.inl ⟨rfl, List.mem_map.2 ⟨_, hm, rfl⟩⟩))
    · rw [nameOf_not_mem fun nm h => hm ⟨nm, h⟩, hnum]
      refine iff_of_false (by simp) ?_
      rintro (h | ⟨-, h⟩ | ⟨h, -⟩)
      · exact absurd h (by decide)
      · obtain ⟨e, he, rfl⟩ := List.mem_map.1 h; exact hm ⟨e.2, he⟩
      · exact absurd h (by decide)
  rw [if_neg h1]
  by_cases h6 : lv = 6
  · subst h6
    rw [if_pos rfl]
    by_cases hm : ∃ nm, (tp, nm) ∈ tcpOpMasks
    · obtain ⟨nm, hm⟩ := hm
      rw [nameOf_mem t2 hm]
      have hnm : nm ∈ tcpOpMasks.map (·.2) := List.mem_map.2 ⟨_, hm, rfl⟩
      have : sockoptUnmarshal k nm = some { tp := tp, lv := 6 } := by
        unfold sockoptUnmarshal
        rw [e1, e2, get_keysOf_none p1 (not_named (d12 nm hnm)), get_keysOf p2 t2 hm]
      exact iff_of_true this (.inr (.inr ⟨rfl, List.mem_map.2 ⟨_, hm, rfl⟩⟩))
    · rw [nameOf_not_mem fun nm h => hm ⟨nm, h⟩, hnum]
      refine iff_of_false (by simp) ?_
      rintro (h | ⟨h, -⟩ | ⟨-, h⟩)
      · exact absurd h (by decide)
      · exact absurd h (by decide)
      · obtain ⟨e, he, rfl⟩ := List.mem_map.1 h; exact hm ⟨e.2, he⟩
  rw [if_neg h6]
  by_cases h0 : lv = 0
  · subst h0
    rw [if_pos rfl]
    refine iff_of_true ?_ (.inl rfl)
    by_cases hm : ∃ nm, (tp, nm) ∈ ipOpMasks
    · obtain ⟨nm, hm⟩ := hm
      rw [nameOf_mem t3 hm]
      have hnm : nm ∈ ipOpMasks.map (·.2) := List.mem_map.2 ⟨_, hm, rfl⟩
      unfold sockoptUnmarshal
      rw [e1, e2, e3, get_keysOf_none p1 (not_named (d13 nm hnm)),
        get_keysOf_none p2 (not_named (d23 nm hnm)), get_keysOf p3 t3 hm]
    · rw [nameOf_not_mem fun nm h => hm ⟨nm, h⟩, hnum]
  rw [if_neg h0]
  have hno : ¬ (lv = 0 ∨ (lv = 1 ∧ tp ∈ socketOpMasks.map (·.1)) ∨
      (lv = 6 ∧ tp ∈ tcpOpMasks.map (·.1))) := by
    rintro (h | ⟨h, -⟩ | ⟨h, -⟩)
    · exact h0 h
    · exact h1 h
    · exact h6 h
  have hne : (some { tp := tp, lv := 0 } : Option SockoptName) ≠ some { tp := tp, lv := lv } := by
    intro h
    exact h0 (SockoptName.mk.inj (Option.some.inj h)).2.symm
  refine iff_of_false ?_ hno
  by_cases h41 : lv = 41
  · rw [if_pos h41]
    by_cases hm : ∃ nm, (tp, nm) ∈ ip6OpMasks
    · obtain ⟨nm, hm⟩ := hm
      rw [nameOf_mem t4 hm]
      have hnm : nm ∈ ip6OpMasks.map (·.2) := List.mem_map.2 ⟨_, hm, rfl⟩
      unfold sockoptUnmarshal
      rw [e1, e2, e3, get_keysOf_none p1 (not_named (d14 nm hnm)),
        get_keysOf_none p2 (not_named (d24 nm hnm)), get_keysOf_none p3 (not_named (d34 nm hnm))]
      dsimp only
      rw [atoi_wordy (names_wordy t4 hm)]
      simp
    · rw [nameOf_not_mem fun nm h => hm ⟨nm, h⟩, hnum]
      exact hne
  · rw [if_neg h41, hnum]
    exact hne

/-- Reading back a named IPv6 option is an error, so the event holding it cannot be read. -/
theorem c69_sockopt_ipv6_violated {k : OptKeys} (hk : KeysBuilt k) {tp : Int}
    (h : tp ∈ ip6OpMasks.map (·.1)) :
    sockoptUnmarshal k (SockoptName.parse { tp := tp, lv := 41 }) = none := by
  obtain ⟨⟨o1, p1, e1⟩, ⟨o2, p2, e2⟩, ⟨o3, p3, e3⟩, -⟩ := hk
  have t4 : tableOk ip6OpMasks = true := by decide +kernel
  have d : ∀ n ∈ ip6OpMasks.map (·.2), n ∉ socketOpMasks.map (·.2) ∧ n ∉ tcpOpMasks.map (·.2) ∧
      n ∉ ipOpMasks.map (·.2) := by decide +kernel
  obtain ⟨e, he, rfl⟩ := List.mem_map.1 h
  have hnm := d e.2 (List.mem_map.2 ⟨_, he, rfl⟩)
  show sockoptUnmarshal k (nameOf ip6OpMasks e.1) = none
  rw [nameOf_mem t4 he]
  unfold sockoptUnmarshal
  rw [e1, e2, e3, get_keysOf_none p1 (not_named hnm.1), get_keysOf_none p2 (not_named hnm.2.1),
    get_keysOf_none p3 (not_named hnm.2.2)]
  dsimp only
  rw [atoi_wordy (names_wordy t4 he)]

/-- The reverse maps, filled in table order. -/
def someKeys : OptKeys :=
  ⟨keysOf socketOpMasks, keysOf tcpOpMasks, keysOf ipOpMasks, keysOf ip6OpMasks⟩

theorem someKeys_built : KeysBuilt someKeys :=
  ⟨⟨_, .refl _, rfl⟩, ⟨_, .refl _, rfl⟩, ⟨_, .refl _, rfl⟩, ⟨_, .refl _, rfl⟩⟩

example : sockoptUnmarshal someKeys (SockoptName.parse { tp := 2, lv := 1 }) =
    some { tp := 2, lv := 1 } :=
  (c69_sockopt_iff someKeys_built (by unfold FitsInt; decide)).2
    (.inr (.inl ⟨rfl, by decide +kernel⟩))
example : sockoptUnmarshal someKeys (SockoptName.parse { tp := 26, lv := 41 }) = none :=
  c69_sockopt_ipv6_violated someKeys_built (by decide +kernel)

/-! ### C44: socket addresses -/

/-- An IPv4 address is printed in dotted form with the port in host order. `rest` is whatever
memory follows. -/
theorem c44_ipv4_partial (hi lo a b c d : Byte) (rest : List Byte) :
    sockAddrString ([2, 0, hi, lo, a, b, c, d] ++ rest) =
      "ipv4:".toList ++ itoa a.toNat ++ ['.'] ++ itoa b.toNat ++ ['.'] ++ itoa c.toNat ++ ['.'] ++
        itoa d.toNat ++ [':'] ++ itoa (bigEndian16 hi lo) := by
  have hfam : leVal (window ([2, 0, hi, lo, a, b, c, d] ++ rest) 0 2) = 2 := rfl
  have hport : ntohs (leVal (window ([2, 0, hi, lo, a, b, c, d] ++ rest) 2 2)) =
      bigEndian16 hi lo := ntohs_leVal hi lo
  have haddr : window ([2, 0, hi, lo, a, b, c, d] ++ rest) 4 4 = [a, b, c, d] := rfl
  unfold sockAddrString parseSockAddr
  rw [hfam]
  dsimp only
  rw [if_pos rfl, hport, haddr]
  simp [dotted]

/-- 127.0.0.1 port 8080 -/
example : sockAddrString ([2, 0, 0x1f, 0x90, 127, 0, 0, 1] ++ List.replicate 102 0) =
    "ipv4:127.0.0.1:8080".toList := by decide +kernel

/-- Two IPv4 addresses that print alike are the same address and port. -/
theorem c44_ipv4_faithful {hi lo a b c d hi' lo' a' b' c' d' : Byte} {rest rest' : List Byte}
    (h : sockAddrString ([2, 0, hi, lo, a, b, c, d] ++ rest) =
      sockAddrString ([2, 0, hi', lo', a', b', c', d'] ++ rest')) :
    [hi, lo, a, b, c, d] = [hi', lo', a', b', c', d'] := by
  rw [c44_ipv4_partial, c44_ipv4_partial] at h
  simp only [List.append_assoc, List.append_cancel_left_eq] at h
  obtain ⟨ha, h⟩ := itoa_sep (by decide) h
  obtain ⟨hb, h⟩ := itoa_sep (by decide) h
  obtain ⟨hc, h⟩ := itoa_sep (by decide) h
  obtain ⟨hd, h⟩ := itoa_sep (by decide) h
  have hp := itoa_inj h
  have := hi.toNat_lt; have := lo.toNat_lt; have := hi'.toNat_lt; have := lo'.toNat_lt
  unfold bigEndian16 at hp
  have h1 : hi = hi' := UInt8.toNat_inj.1 (by omega)
  have h2 : lo = lo' := UInt8.toNat_inj.1 (by omega)
  rw [h1, h2, UInt8.toNat_inj.1 (Int.ofNat.inj ha), UInt8.toNat_inj.1 (Int.ofNat.inj hb),
    UInt8.toNat_inj.1 (Int.ofNat.inj hc), UInt8.toNat_inj.1 (Int.ofNat.inj hd)]

/-- For IPv6 the printed port is the byte-swapped one, right only if both bytes agree. -/
theorem c44_ipv6_port_iff (hi lo : Byte) (rest : List Byte) :
    (parseSockAddr ([10, 0, hi, lo] ++ rest)).2 = bigEndian16 hi lo ↔ hi = lo := by
  have hp : (parseSockAddr ([10, 0, hi, lo] ++ rest)).2 = leVal [hi, lo] := rfl
  rw [hp]
  unfold bigEndian16
  simp only [leVal]
  have h1 := hi.toNat_lt; have h2 := lo.toNat_lt
  constructor
  · intro h; exact UInt8.toNat_inj.1 (by omega)
  · rintro rfl; omega

theorem c44_ipv6_violated :
    (parseSockAddr ([10, 0, 0x1f, 0x90] ++ List.replicate 24 0)).2 = 36895 ∧
      bigEndian16 0x1f 0x90 = 8080 := by decide +kernel

/-- The text of an IPv6 address lists its sixteen bytes in order, two hexadecimal digits
each. -/
theorem c44_ipv6_text (hi lo f0 f1 f2 f3 : Byte) (addr rest : List Byte) (h : addr.length = 16) :
    ((parseSockAddr ([10, 0, hi, lo, f0, f1, f2, f3] ++ addr ++ rest)).1.filter (· ≠ ':')) =
      "ipv6".toList ++ addr.flatMap Spec.Flags.hexByte := by
  rw [show Spec.Flags.hexByte = hex2 from funext fun x => (hex2_eq x).symm]
  obtain ⟨a0, a1, a2, a3, a4, a5, a6, a7, a8, a9, a10, a11, a12, a13, a14, a15, rfl⟩ :=
    sixteen h
  have hw : window ([10, 0, hi, lo, f0, f1, f2, f3] ++ [a0, a1, a2, a3, a4, a5, a6, a7, a8, a9,
      a10, a11, a12, a13, a14, a15] ++ rest) 8 16 = [a0, a1, a2, a3, a4, a5, a6, a7, a8, a9,
      a10, a11, a12, a13, a14, a15] := rfl
  have hfst : (parseSockAddr ([10, 0, hi, lo, f0, f1, f2, f3] ++ [a0, a1, a2, a3, a4, a5, a6, a7,
      a8, a9, a10, a11, a12, a13, a14, a15] ++ rest)).1 = "ipv6:".toList ++ colonHex [a0, a1, a2,
      a3, a4, a5, a6, a7, a8, a9, a10, a11, a12, a13, a14, a15] := rfl
  rw [hfst]
  have e : ∀ x : Byte, (hex2 x).filter (fun c => !decide (c = ':')) = hex2 x := fun x =>
    List.filter_eq_self.2 fun c hc => by
      simpa using hex2_no_colon x x c (List.mem_append_left _ hc)
  simp only [colonHex, List.range, List.range.loop, List.map_cons, List.map_nil, window,
    List.drop_succ_cons, List.drop_zero, List.take_succ_cons, List.take_zero, List.flatMap_cons,
    List.flatMap_nil, List.intersperse, List.flatten_cons, List.flatten_nil, List.append_nil,
    List.filter_append, Nat.mul_zero, Nat.reduceMul, List.append_assoc]
  simp [e]

/-! ### C71: socket addresses through JSON -/

/-- An address whose text uses only the first 16 bytes prints the same after JSON. -/
theorem c71_sockaddr_json_partial {mem : List Byte} (h : sockAddrReads mem ≤ 16) :
    sockAddrString (sockAddrThroughJSON mem) = sockAddrString mem :=
  sockAddr_short h

theorem cstr_same : ∀ l l' : List Byte, l.take (Event.cstrCount l + 1) = l'.take (Event.cstrCount l + 1) →
    l.length = l'.length → l'.take (Event.cstrCount l') = l.take (Event.cstrCount l)
  | [], [], _, _ => rfl
  | b :: bs, b' :: bs', h, hl => by
    simp only [Event.cstrCount] at h ⊢
    by_cases hb : b = 0
    · subst hb
      simp only [if_pos, List.take_succ_cons, List.cons.injEq] at h
      rw [← h.1]
      simp
    · rw [if_neg hb] at h ⊢
      simp only [List.take_succ_cons, List.cons.injEq] at h
      rw [← h.1, if_neg hb]
      simp only [List.take_succ_cons]
      rw [cstr_same bs bs' h.2 (by simpa using hl)]

/-- How many bytes the text uses, `sockAddrReads`, is what it says: the text is the same for two memories
whose first that many bytes agree, -/
theorem c71_reads_enough {mem mem' : List Byte} (h : mem.take (sockAddrReads mem) = mem'.take (sockAddrReads mem))
    (hl : 110 ≤ mem.length) (hl' : 110 ≤ mem'.length) : sockAddrString mem' = sockAddrString mem := by
  have hw : ∀ i n, i + n ≤ sockAddrReads mem → window mem' i n = window mem i n := by
    intro i n hi
    unfold window
    have e := congrArg (fun l => (l.drop i).take n) h
    simp only [List.drop_take, List.take_take] at e
    rw [Nat.min_eq_left (by omega)] at e
    exact e.symm
  have hr2 : 2 ≤ sockAddrReads mem := by
    unfold sockAddrReads
    simp only
    repeat' split
    all_goals omega
  have h02 := hw 0 2 (by omega)
  unfold sockAddrString
  suffices parseSockAddr mem' = parseSockAddr mem by rw [this]
  unfold parseSockAddr
  rw [h02]
  unfold sockAddrReads at hw
  dsimp only at hw ⊢
  by_cases f2 : leVal (window mem 0 2) = 2
  · rw [if_pos f2] at hw
    rw [if_pos f2, if_pos f2, hw 4 4 (by omega), hw 2 2 (by omega)]
  rw [if_neg f2] at hw ⊢
  rw [if_neg f2]
  by_cases f10 : leVal (window mem 0 2) = 10
  · rw [if_pos f10] at hw
    rw [if_pos f10, if_pos f10, hw 8 16 (by omega), hw 2 2 (by omega)]
  rw [if_neg f10] at hw ⊢
  rw [if_neg f10]
  by_cases f1 : leVal (window mem 0 2) = 1
  · rw [if_pos f1] at hw
    rw [if_pos f1, if_pos f1]
    have hm : Event.makeCString mem' 2 108 = Event.makeCString mem 2 108 := by
      unfold Event.makeCString
      refine cstr_same _ _ ?_ (by simp [window]; omega)
      have e := hw 2 ((Event.cstrCount (window mem 2 108) + 1).min 108) (Nat.le_refl _)
      have hc : ∀ (m : List Byte) (k : Nat), (window m 2 108).take k = window m 2 (k.min 108) := by
        intro m k; unfold window; rw [List.take_take]
      rw [hc, hc, e]
    rw [hm]
  rw [if_neg f1] at hw ⊢
  rw [if_neg f1]
  by_cases f0 : leVal (window mem 0 2) = 0
  · rw [if_pos f0] at hw
    rw [if_pos f0, if_pos f0, hw 2 14 (by omega)]
  rw [if_neg f0, if_neg f0]

/-- and in every family there is a memory for which changing the last of these bytes changes the text. -/
theorem c71_reads_needed : ∀ family ∈ [2, 10, 1, 0, 17], ∃ (mem : List Byte) (x : Byte),
    leVal (window mem 0 2) = family ∧ mem.length = 110 ∧
    sockAddrString (mem.set (sockAddrReads mem - 1) x) ≠ sockAddrString mem := by
  intro f hf
  simp only [List.mem_cons, List.not_mem_nil, or_false] at hf
  rcases hf with rfl | rfl | rfl | rfl | rfl
  · exact ⟨2 :: List.replicate 109 0, 1, by decide +kernel⟩
  · exact ⟨10 :: List.replicate 109 0, 1, by decide +kernel⟩
  · exact ⟨[1, 0, 47, 97] ++ List.replicate 106 0, 98, by decide +kernel⟩
  · exact ⟨0 :: List.replicate 109 0, 1, by decide +kernel⟩
  · exact ⟨17 :: List.replicate 109 0, 1, by decide +kernel⟩

/-- IPv4 addresses do. -/
theorem c71_ipv4_survives (rest : List Byte) :
    sockAddrString (sockAddrThroughJSON ([2, 0] ++ rest)) = sockAddrString ([2, 0] ++ rest) :=
  c71_sockaddr_json_partial (mem := [2, 0] ++ rest)
    (show (8 : Nat) ≤ 16 by omega)

example : sockAddrReads ([2, 0, 0x1f, 0x90, 127, 0, 0, 1] ++ List.replicate 102 0) = 8 := by
  decide +kernel

/-- For any other IPv6 or long Unix address the text is computed from bytes beyond the 16 that
JSON carried. -/
theorem c71_sockaddr_json_violated (mem : List Byte) (hl : 110 ≤ mem.length) :
    (leVal (window mem 0 2) = 10 → 16 < sockAddrReads (sockAddrThroughJSON mem)) ∧
    (leVal (window mem 0 2) = 1 → (∀ i, 2 ≤ i → i < 16 → mem.getD i 0 ≠ 0) →
      (sockAddrThroughJSON mem).length < sockAddrReads (sockAddrThroughJSON mem)) :=
  ⟨sockAddr_json_inet6 mem, sockAddr_json_unix mem hl⟩

example : ∃ m : List Byte, 110 ≤ m.length ∧ leVal (window m 0 2) = 10 :=
  ⟨10 :: List.replicate 109 0, by decide, by decide +kernel⟩

end Swoll.Props.Flags
