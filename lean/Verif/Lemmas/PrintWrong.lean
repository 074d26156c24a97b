import Verif.Lemmas.Print
/- Helper lemmas to show that a printed value is wrong. -/
namespace Swoll.Lemmas.Print
open Swoll.Bytes Swoll.Event Swoll.Flags Swoll.Print Swoll.Spec.Event Swoll.Spec.Print
open Swoll.Lemmas.Flags Swoll.Lemmas.Event

/-- The value an argument has, for kinds that determine it. -/
def denote (c : Call) : Meaning → Option Val
  | .s32 k => some (.int ((c.args k).setWidth 32).toInt)
  | .u32 k => some (.int ((c.args k).setWidth 32).toNat)
  | .s64 k => some (.int (c.args k).toInt)
  | .u64 k => some (.int (c.args k).toNat)
  | .obj k o n => (rdMem c.mem ((c.args k).toNat + o) n).map .buf
  | .buf k n => (rdMem c.mem (c.args k).toNat (min (c.args n).toNat 128)).map .buf
  | .buf32 k n =>
    (rdMem c.mem (c.args k).toNat (min ((c.args n).setWidth 32).toNat 128)).map .buf
  | .bufAt k n => (rdMem c.mem (c.args n).toNat 4).bind fun l =>
    (rdMem c.mem (c.args k).toNat (min (leVal l) 128)).map .buf
  | _ => none

theorem holds_unique {m : Mem} {a : Nat} {bs cs : List Byte} (h : Holds m a bs)
    (h' : Holds m a cs) (hl : bs.length = cs.length) : bs = cs := by
  refine List.ext_getElem? fun i => ?_
  by_cases hi : i < bs.length
  · rw [← h i hi, ← h' i (hl ▸ hi)]
  · rw [List.getElem?_eq_none (by omega), List.getElem?_eq_none (by omega)]

theorem denote_unique {c : Call} {m : Meaning} {v w : Val} (hd : denote c m = some w)
    (hm : Means c m v) : v = w := by
  have key : ∀ {a n : Nat} {bs : List Byte}, (rdMem c.mem a n).map Val.buf = some w →
      bs.length = n → Holds c.mem a bs → Val.buf bs = w := by
    intro a n bs h hl hh
    cases hr : rdMem c.mem a n with
    | none => rw [hr] at h; cases h
    | some cs =>
      rw [hr] at h
      obtain ⟨hl', hh'⟩ := rdMem_spec _ _ _ _ hr
      rw [holds_unique hh hh' (by omega)]
      exact Option.some.inj h
  cases m <;> cases v <;> first
    | exact hm.elim
    | (simp only [denote, Option.some.injEq] at hd; rw [← hd]; exact congrArg Val.int hm)
    | (simp only [denote] at hd; exact key hd hm.1 hm.2)
    | (simp only [denote] at hd; exact key hd hm.2 hm.1)
    | (simp only [denote] at hd; cases hd)
    | skip
  · next k n bs =>
    simp only [denote] at hd
    cases hl : rdMem c.mem (c.args n).toNat 4 with
    | none => rw [hl] at hd; cases hd
    | some l =>
      rw [hl, Option.bind_some] at hd
      have := hm l hl
      exact key hd this.2 this.1

/-- Some flag is set whose name is not in the text. -/
def lacksName (d : Spec.Flags.Doc) (v : Int) (t : List Char) : Bool :=
  (match d.whole with
    | none => true
    | some (bs, _) => (List.range 64).any fun i =>
        decide ((BitVec.ofInt 64 v).getLsbD i ≠ decide (i ∈ bs))) &&
  d.flags.any fun e => decide (e.2 ≠ []) && (e.2.all fun b => (BitVec.ofInt 64 v).getLsbD b) &&
    !(decide (e.1.toList <:+: t))

theorem mem_separated {s : Char} {l : List (List Char)} {x : List Char} (h : x ∈ l) :
    x <:+: separated s l := by
  induction l with
  | nil => cases h
  | cons y ys ih =>
    cases ys with
    | nil =>
      rw [List.mem_singleton.1 h]
      simp [separated, List.intercalate]
    | cons z zs =>
      have e : separated s (y :: z :: zs) = y ++ ([s] ++ separated s (z :: zs)) := by
        simp [separated, List.intercalate, List.intersperse]
      rw [e]
      rcases List.mem_cons.1 h with rfl | h
      · exact ⟨[], _, rfl⟩
      · obtain ⟨a, b, hab⟩ := ih h
        exact ⟨y ++ [s] ++ a, b, by simp [← hab]⟩

theorem lacksName_spec {d : Spec.Flags.Doc} {v : Int} {t : List Char}
    (h : lacksName d v t = true) : ¬ FlagNames d v t := by
  unfold lacksName at h
  rw [Bool.and_eq_true] at h
  obtain ⟨hw, hf⟩ := h
  obtain ⟨e, he, hx⟩ := List.any_eq_true.1 hf
  simp only [Bool.and_eq_true, decide_eq_true_eq, Bool.not_eq_true', decide_eq_false_iff_not,
    List.all_eq_true] at hx
  have hd : Spec.Flags.Describes d (BitVec.ofInt 64 v) e.1 := by
    have hset : ∃ e' ∈ d.flags, e'.1 = e.1 ∧ Spec.Flags.IsSet (BitVec.ofInt 64 v) e'.2 :=
      ⟨e, he, rfl, hx.1.1, hx.1.2⟩
    unfold Spec.Flags.Describes
    cases hwh : d.whole with
    | none => exact hset
    | some p =>
      obtain ⟨bs, nm⟩ := p
      refine .inr ⟨fun ho => ?_, hset⟩
      rw [hwh] at hw
      obtain ⟨i, hi, hne⟩ := List.any_eq_true.1 hw
      have hi := List.mem_range.1 hi
      have := ho i hi
      rw [decide_eq_true_eq] at hne
      apply hne
      rw [Bool.eq_iff_iff, decide_eq_true_eq]
      exact this
  rintro (⟨ns, -, hns, ht⟩ | ⟨hno, -⟩)
  · refine hx.2 ?_
    rw [ht]
    exact mem_separated (List.mem_map_of_mem ((hns _).2 hd))
  · exact hno _ hd

/-- The text does not read as the value: enough for the cases below. -/
def misreads : Reading → Val → List Char → Bool
  | .number, .int v, t => decide (t ≠ decimal v)
  | .bytes, .buf bs, t =>
    decide (t ≠ ['['] ++ separated ' ' (bs.map fun b => decimal b.toNat) ++ [']'])
  | .flags b, .int v, t =>
    decide (b ≠ .open) && decide (b ≠ .mount) && lacksName b.doc v t
  | .record ms close, .buf bs, t => decide (t ≠ record ms close bs)
  | .start ms close, .buf bs, t =>
    !decide (record ms close bs <+: t) && !decide ('&' :: record ms close bs <+: t)
  | _, _, _ => false

theorem misreads_spec {c : Call} {r : Reading} {v : Val} {t : List Char}
    (h : misreads r v t = true) : ¬ Reads c r v t := by
  unfold misreads at h
  split at h
  · exact fun hr => of_decide_eq_true h hr
  · exact fun hr => of_decide_eq_true h hr
  · next _ b _ =>
    simp only [Bool.and_eq_true, decide_eq_true_eq] at h
    intro hr
    refine lacksName_spec h.2 (hr ?_)
    cases b <;> first | trivial | exact (h.1.1 rfl).elim | exact (h.1.2 rfl).elim
  · exact fun hr => of_decide_eq_true h hr
  · simp only [Bool.and_eq_true, Bool.not_eq_true', decide_eq_false_iff_not] at h
    rintro ⟨pre, rest, rfl | rfl, ht⟩
    · exact h.1 ⟨rest, by rw [ht]; rfl⟩
    · exact h.2 ⟨rest, by rw [ht]; rfl⟩
  · cases h

end Swoll.Lemmas.Print
