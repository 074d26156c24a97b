import Verif.Spec.Event
/-
Helper lemmas for Props/Event.lean.
-/
namespace Swoll.Lemmas.Event
open Swoll.Bytes Swoll.Event Swoll.Spec.Event

/-! ### Bytes -/

theorem leBytes_add (m n v : Nat) :
    leBytes (m + n) v = leBytes m v ++ leBytes n (v / 256 ^ m) := by
  induction m generalizing v with
  | zero => simp [leBytes]
  | succ m ih =>
    rw [show m + 1 + n = (m + n) + 1 by omega]
    simp only [leBytes, List.cons_append, ih, Nat.div_div_eq_div_mul]
    rw [show 256 * 256 ^ m = 256 ^ (m + 1) by rw [Nat.pow_succ, Nat.mul_comm]]

theorem le_leBytes32 (v : BitVec 32) : le 32 (leBytes 4 v.toNat) = v := by
  apply BitVec.eq_of_toNat_eq
  have := v.isLt
  simp [le, leVal_leBytes]
  omega

theorem le_leBytes64 (v : BitVec 64) : le 64 (leBytes 8 v.toNat) = v := by
  apply BitVec.eq_of_toNat_eq
  have := v.isLt
  simp [le, leVal_leBytes]
  omega

theorem le32_leBytes8 (v : BitVec 64) : le 32 ((leBytes 8 v.toNat).take 4) = v.setWidth 32 := by
  rw [leBytes_take 4 8 _ (by omega)]
  apply BitVec.eq_of_toNat_eq
  simp [le, leVal_leBytes]

theorem window_flatten (l : List (List Byte)) (i : Nat) (h : i < l.length) :
    window l.flatten ((l.map List.length).take i).sum (l[i]).length = l[i] := by
  induction l generalizing i with
  | nil => simp at h
  | cons x xs ih =>
    cases i with
    | zero => simp [window]
    | succ i =>
      simp only [List.map_cons, List.take_succ_cons, List.sum_cons, List.flatten_cons,
        List.getElem_cons_succ]
      rw [window_append_right _ _ _ _ (by omega), Nat.add_sub_cancel_left]
      exact ih i (by simpa using h)

/-! ### Layout -/

def chunks (e : KEvent) : List (List Byte) := [
  leBytes 4 (e.pidTid.setWidth 32).toNat, leBytes 4 (e.pidTid.extractLsb' 32 32).toNat,
  leBytes 4 (e.uidGid.setWidth 32).toNat, leBytes 4 (e.uidGid.extractLsb' 32 32).toNat,
  leBytes 4 e.syscall.toNat, leBytes 4 e.nsPid.toNat, leBytes 8 e.entr.toNat,
  leBytes 8 e.exit.toNat, leBytes 4 e.session.toNat, leBytes 4 e.pidNs.toNat,
  leBytes 4 e.utsNs.toNat, leBytes 4 e.mntNs.toNat, leBytes 4 e.ipcNs.toNat,
  leBytes 4 e.cgrNs.toNat, leBytes 8 e.contextSw.toNat, leBytes 4 e.errno.toNat,
  leBytes 4 e.ret.toNat, e.comm, e.args]

theorem leBytes_mod (n v : Nat) : leBytes n (v % 256 ^ n) = leBytes n v := by
  have h1 := leBytes_leVal (leBytes n v)
  rw [length_leBytes, leVal_leBytes] at h1
  exact h1

theorem leBytes8_split (v : BitVec 64) : leBytes 8 v.toNat =
    leBytes 4 (v.setWidth 32).toNat ++ leBytes 4 (v.extractLsb' 32 32).toNat := by
  rw [show (8 : Nat) = 4 + 4 from rfl, leBytes_add]
  congr 1
  · rw [← leBytes_mod 4 v.toNat]; simp
  · rw [← leBytes_mod 4 (v.toNat / 256 ^ 4)]; simp [BitVec.extractLsb'_toNat, Nat.shiftRight_eq_div_pow]

theorem encode_eq (e : KEvent) (h : e.WF) : encode e = (chunks e).flatten := by
  obtain ⟨h1, h2⟩ := h
  simp [encode, cStruct, chunks, h1, h2, leBytes8_split]

theorem chunks_lengths (e : KEvent) (h : e.WF) : (chunks e).map List.length = widths := by
  obtain ⟨h1, h2⟩ := h
  simp [chunks, widths, h1, h2]

theorem length_encode (e : KEvent) (h : e.WF) : (encode e).length = 736 := by
  rw [encode_eq e h, List.length_flatten, chunks_lengths e h]; rfl

theorem rawField_encode (e : KEvent) (h : e.WF) (extra : List Byte) (i : Nat) (hi : i < 19) :
    rawField (encode e ++ extra) i = (chunks e)[i]'(by simpa [chunks] using hi) := by
  have hl := chunks_lengths e h
  have hlen : (chunks e).length = 19 := by simp [chunks]
  have hw : widths.getD i 0 = ((chunks e)[i]'(by omega)).length := by
    rw [← hl]; simp [List.getD_eq_getElem?_getD, hlen, hi]
  unfold rawField
  rw [hw, window_append_left]
  · rw [encode_eq e h, ← hl]; exact window_flatten _ _ _
  · rw [length_encode e h, ← hl]
    have := window_flatten (chunks e) i (by omega)
    have hlt : ((List.map List.length (chunks e)).take (i+1)).sum ≤ 736 := by
      rw [hl]
      have : ∀ j < 20, (widths.take j).sum ≤ 736 := by decide
      exact this _ (by omega)
    rw [List.take_add_one] at hlt
    simpa [hlen, hi] using hlt

theorem rawField_encode' (e : KEvent) (h : e.WF) (extra : List Byte) (i : Nat) (c : List Byte)
    (hc : (chunks e)[i]? = some c) : rawField (encode e ++ extra) i = c := by
  obtain ⟨hi, rfl⟩ := List.getElem?_eq_some_iff.1 hc
  exact rawField_encode e h extra i (by simpa [chunks] using hi)

theorem ingest_encode (e : KEvent) (h : e.WF) (extra : List Byte) :
    ingestBytes (encode e ++ extra) = some (rawOf e) := by
  have hlen : ¬ (encode e ++ extra).length < widths.sum := by
    rw [List.length_append, length_encode e h]; simp [widths]
  have f := rawField_encode' e h extra
  unfold ingestBytes
  rw [if_neg hlen]
  simp only [f 0 _ rfl, f 1 _ rfl, f 2 _ rfl, f 3 _ rfl, f 4 _ rfl, f 5 _ rfl, f 6 _ rfl,
    f 7 _ rfl, f 8 _ rfl, f 9 _ rfl, f 10 _ rfl, f 11 _ rfl, f 12 _ rfl, f 13 _ rfl,
    f 14 _ rfl, f 15 _ rfl, f 16 _ rfl, f 17 _ rfl, f 18 _ rfl, rawOf, le_leBytes32,
    le_leBytes64]

/-- The kernel event a raw event says. -/
def kOf (r : RawEvent) : KEvent :=
  { pidTid := r.tid ++ r.pid, uidGid := r.gid ++ r.uid, syscall := r.syscall,
    nsPid := r.nsPid, entr := r.start, exit := r.finish, session := r.session,
    pidNs := r.pidNs, utsNs := r.utsNs, mntNs := r.mntNs, ipcNs := r.ipcNs, cgrNs := r.cgrNs,
    contextSw := r.contextSw, errno := r.errno, ret := r.ret, comm := r.comm, args := r.args }

theorem lo_append (a b : BitVec 32) : BitVec.setWidth 32 (a ++ b : BitVec 64) = b := by
  apply BitVec.eq_of_getLsbD_eq
  intro i hi
  rw [BitVec.getLsbD_setWidth]
  have := BitVec.getLsbD_append (x := a) (y := b) (i := i)
  rw [if_pos hi] at this
  simp only [hi, decide_true, Bool.true_and]
  exact this

theorem hi_append (a b : BitVec 32) : BitVec.extractLsb' 32 32 (a ++ b : BitVec 64) = a := by
  apply BitVec.eq_of_getLsbD_eq
  intro i hi
  rw [BitVec.getLsbD_extractLsb']
  have := BitVec.getLsbD_append (x := a) (y := b) (i := 32 + i)
  rw [if_neg (by omega), show 32 + i - 32 = i by omega] at this
  simp only [hi, decide_true, Bool.true_and]
  exact this

theorem rawOf_kOf (r : RawEvent) : rawOf (kOf r) = r := by
  simp only [rawOf, kOf, lo_append, hi_append]

theorem window_cons_flatten (data : List Byte) (off : Nat) (w : Nat) (rest : List Byte)
    (tot : Nat) (h : rest = window data (off + w) tot) :
    window data off w ++ rest = window data off (w + tot) := by
  subst h
  simp only [window, List.take_add, List.drop_drop]

theorem leBytes_le32 (bs : List Byte) (h : bs.length = 4) : leBytes 4 (le 32 bs).toNat = bs := by
  have h1 := leBytes_leVal bs
  have h2 := leVal_lt bs
  rw [h] at h1 h2
  rw [le, BitVec.toNat_ofNat, Nat.mod_eq_of_lt (by simpa using h2), h1]

theorem leBytes_le64 (bs : List Byte) (h : bs.length = 8) : leBytes 8 (le 64 bs).toNat = bs := by
  have h1 := leBytes_leVal bs
  have h2 := leVal_lt bs
  rw [h] at h1 h2
  rw [le, BitVec.toNat_ofNat, Nat.mod_eq_of_lt (by simpa using h2), h1]

theorem encode_ingest (data : List Byte) (r : RawEvent) (h : ingestBytes data = some r) :
    (kOf r).WF ∧ encode (kOf r) = data.take 736 := by
  unfold ingestBytes at h
  split at h
  · simp at h
  · rename_i hlen
    simp only [Option.some.injEq] at h
    have hsum : widths.sum = 736 := by decide
    rw [hsum] at hlen
    have hf : ∀ i < 19, (rawField data i).length = widths.getD i 0 := by
      intro i hi
      have : ∀ j < 19, (widths.take j).sum + widths.getD j 0 ≤ 736 := by decide
      exact length_window _ _ _ (by have := this i hi; omega)
    have hwf : (kOf r).WF := by
      subst h; exact ⟨hf 17 (by omega), hf 18 (by omega)⟩
    refine ⟨hwf, ?_⟩
    rw [encode_eq _ hwf]
    have hk := rawOf_kOf r
    have hp : (kOf r).pidTid.setWidth 32 = r.pid := congrArg RawEvent.pid hk
    have ht : (kOf r).pidTid.extractLsb' 32 32 = r.tid := congrArg RawEvent.tid hk
    have hu : (kOf r).uidGid.setWidth 32 = r.uid := congrArg RawEvent.uid hk
    have hg : (kOf r).uidGid.extractLsb' 32 32 = r.gid := congrArg RawEvent.gid hk
    simp only [chunks, hp, ht, hu, hg]
    subst h
    simp only [kOf]
    have l4 : ∀ i, i < 19 → widths.getD i 0 = 4 →
        leBytes 4 (le 32 (rawField data i)).toNat = rawField data i :=
      fun i hi hw => leBytes_le32 _ (by rw [hf i hi, hw])
    have l8 : ∀ i, i < 19 → widths.getD i 0 = 8 →
        leBytes 8 (le 64 (rawField data i)).toNat = rawField data i :=
      fun i hi hw => leBytes_le64 _ (by rw [hf i hi, hw])
    rw [l4 0 (by decide) rfl, l4 1 (by decide) rfl, l4 2 (by decide) rfl, l4 3 (by decide) rfl,
      l4 4 (by decide) rfl, l4 5 (by decide) rfl, l8 6 (by decide) rfl, l8 7 (by decide) rfl,
      l4 8 (by decide) rfl, l4 9 (by decide) rfl, l4 10 (by decide) rfl, l4 11 (by decide) rfl,
      l4 12 (by decide) rfl, l4 13 (by decide) rfl, l8 14 (by decide) rfl,
      l4 15 (by decide) rfl, l4 16 (by decide) rfl]
    simp only [List.flatten_cons, List.flatten_nil, List.append_nil]
    have wc := fun off w rest tot => window_cons_flatten data off w rest tot
    have e : ∀ i, rawField data i = window data ((widths.take i).sum) (widths.getD i 0) :=
      fun _ => rfl
    rw [show data.take 736 = window data 0 736 by simp [window]]
    refine wc 0 4 _ 732 (wc 4 4 _ 728 (wc 8 4 _ 724 (wc 12 4 _ 720 (wc 16 4 _ 716
      (wc 20 4 _ 712 (wc 24 8 _ 704 (wc 32 8 _ 696 (wc 40 4 _ 692 (wc 44 4 _ 688
      (wc 48 4 _ 684 (wc 52 4 _ 680 (wc 56 4 _ 676 (wc 60 4 _ 672 (wc 64 8 _ 664
      (wc 72 4 _ 660 (wc 76 4 _ 656 (wc 80 16 _ 640 ?_)))))))))))))))))
    rfl

/-! ### Memory -/

theorem rdMem_of_readable (m : Mem) (a n : Nat) (h : ∀ i < n, (m (a + i)).isSome) :
    ∃ bs, rdMem m a n = some bs := by
  induction n generalizing a with
  | zero => exact ⟨[], rfl⟩
  | succ n ih =>
    obtain ⟨b, hb⟩ := Option.isSome_iff_exists.1 (h 0 (by omega))
    obtain ⟨bs, hbs⟩ := ih (a + 1) (fun i hi => by
      have := h (i + 1) (by omega)
      rwa [show a + 1 + i = a + (i + 1) by omega])
    refine ⟨b :: bs, ?_⟩
    simp only [Nat.add_zero] at hb
    simp [rdMem, hb, hbs]

theorem rdMem_spec (m : Mem) (a n : Nat) (bs : List Byte) (h : rdMem m a n = some bs) :
    bs.length = n ∧ Holds m a bs := by
  induction n generalizing a bs with
  | zero =>
    simp only [rdMem, Option.some.injEq] at h; subst h
    exact ⟨rfl, fun i hi => by simp at hi⟩
  | succ n ih =>
    simp only [rdMem, Option.bind_eq_bind, Option.bind_eq_some_iff, Option.pure_def,
      Option.some.injEq] at h
    obtain ⟨b, hb, bs', hbs, rfl⟩ := h
    obtain ⟨h1, h2⟩ := ih _ _ hbs
    refine ⟨by simp [h1], ?_⟩
    intro i hi
    cases i with
    | zero => simpa using hb
    | succ i =>
      have := h2 i (by simpa using hi)
      rw [show a + (i + 1) = a + 1 + i by omega, this]; simp

theorem rdMem_take (m : Mem) (a n k : Nat) (bs : List Byte) (h : rdMem m a n = some bs)
    (hk : k ≤ n) : rdMem m a k = some (bs.take k) := by
  induction n generalizing a k bs with
  | zero =>
    obtain rfl : k = 0 := by omega
    simp [rdMem]
  | succ n ih =>
    cases k with
    | zero => simp [rdMem]
    | succ k =>
      simp only [rdMem, Option.bind_eq_bind, Option.bind_eq_some_iff, Option.pure_def,
        Option.some.injEq] at h
      obtain ⟨b, hb, bs', hbs, rfl⟩ := h
      simp [rdMem, hb, ih _ _ _ hbs (by omega : k ≤ n)]

theorem length_probeRead (m : Mem) (a n : Nat) : (probeRead m a n).length = n := by
  unfold probeRead
  cases h : rdMem m a n with
  | none => simp
  | some bs => exact (rdMem_spec m a n bs h).1

theorem Holds_take (m : Mem) (a k : Nat) (bs : List Byte) (h : Holds m a bs) :
    Holds m a (bs.take k) := by
  intro i hi
  simp only [List.length_take] at hi
  rw [h i (by omega), List.getElem?_take, if_pos (by omega)]

theorem Holds_drop (m : Mem) (a k : Nat) (bs : List Byte) (h : Holds m a bs) :
    Holds m (a + k) (bs.drop k) := by
  intro i hi
  simp only [List.length_drop] at hi
  rw [List.getElem?_drop, ← h (k + i) (by omega), Nat.add_assoc]

/-! ### C strings -/

theorem cstrCount_le (bs : List Byte) : cstrCount bs ≤ bs.length := by
  induction bs with
  | nil => simp [cstrCount]
  | cons b bs ih => simp only [cstrCount]; split <;> simp <;> omega

theorem cstr_no_nul (bs : List Byte) : (0 : Byte) ∉ bs.take (cstrCount bs) := by
  induction bs with
  | nil => simp
  | cons b bs ih =>
    simp only [cstrCount]
    split
    · simp
    · rename_i hb
      simp only [List.take_succ_cons, List.mem_cons, not_or]
      exact ⟨fun h => hb h.symm, ih⟩

theorem cstr_nul_after (bs : List Byte) (h : cstrCount bs < bs.length) :
    bs[cstrCount bs]? = some 0 := by
  induction bs with
  | nil => simp at h
  | cons b bs ih =>
    simp only [cstrCount] at h ⊢
    split
    · rename_i hb; simp [hb]
    · rename_i hb
      rw [if_neg hb] at h
      simp only [List.length_cons] at h
      simpa using ih (by omega)

theorem beforeNul_cstr (bs : List Byte) : BeforeNul bs (bs.take (cstrCount bs)) := by
  refine ⟨cstr_no_nul bs, ?_⟩
  have hle := cstrCount_le bs
  by_cases h : cstrCount bs < bs.length
  · right
    have := cstr_nul_after bs h
    have h2 := List.take_add_one (l := bs) (i := cstrCount bs)
    rw [this] at h2
    simp only [Option.toList_some] at h2
    rw [← h2]
    exact List.take_prefix _ _
  · left
    rw [List.take_of_length_le (by omega)]

/-! ### Fillers -/

def Act.slot : Act → Nat
  | .reg s _ => s
  | .user s _ => s
  | .user8 s _ => s

/-- The bytes an action writes. -/
def written (regs : Nat → BitVec 64) (m : Mem) : Act → List Byte
  | .reg _ k => leBytes 8 (regs k).toNat
  | .user _ k => probeRead m (regs k).toNat 128
  | .user8 _ k => probeRead m (regs k).toNat 8

theorem doAct_eq (regs : Nat → BitVec 64) (m : Mem) (a : List Byte) (x : Act) :
    doAct regs m a x = overwrite a (128 * Act.slot x) (written regs m x) := by
  cases x <;> rfl

theorem length_written (regs : Nat → BitVec 64) (m : Mem) (x : Act) :
    (written regs m x).length ≤ 128 := by
  cases x <;> simp [written, length_probeRead]

theorem length_doAct (regs : Nat → BitVec 64) (m : Mem) (a : List Byte) (x : Act)
    (ha : a.length = 640) (hs : Act.slot x < 5) : (doAct regs m a x).length = 640 := by
  have := length_written regs m x
  rw [doAct_eq, length_overwrite _ _ _ (by omega), ha]

theorem length_acts (regs : Nat → BitVec 64) (m : Mem) (l : List Act) (a : List Byte)
    (ha : a.length = 640) (hs : ∀ x ∈ l, Act.slot x < 5) :
    (l.foldl (doAct regs m) a).length = 640 := by
  induction l generalizing a with
  | nil => exact ha
  | cons x l ih =>
    exact ih _ (length_doAct regs m a x ha (hs x (by simp))) (fun y hy => hs y (by simp [hy]))

/-- Bytes of a slot no action writes to are left alone. -/
theorem acts_other (regs : Nat → BitVec 64) (m : Mem) (l : List Act) (a : List Byte)
    (s o n : Nat) (ha : a.length = 640) (hs : ∀ x ∈ l, Act.slot x < 5)
    (hn : ∀ x ∈ l, Act.slot x ≠ s) (hon : o + n ≤ 128) :
    window (l.foldl (doAct regs m) a) (128 * s + o) n = window a (128 * s + o) n := by
  induction l generalizing a with
  | nil => rfl
  | cons x l ih =>
    have hx := hs x (by simp)
    have hne := hn x (by simp)
    have hw := length_written regs m x
    rw [List.foldl_cons, ih _ (length_doAct regs m a x ha hx) (fun y hy => hs y (by simp [hy]))
      (fun y hy => hn y (by simp [hy])), doAct_eq]
    apply window_overwrite_other
    · omega
    · rcases Nat.lt_or_gt_of_ne hne with h | h <;> omega

/-- What an action wrote is what a reader of its slot sees. -/
theorem acts_written (regs : Nat → BitVec 64) (m : Mem) (l : List Act) (a : List Byte) (x : Act)
    (n : Nat) (ha : a.length = 640) (hs : ∀ y ∈ l, Act.slot y < 5)
    (hd : (l.map Act.slot).Nodup) (hx : x ∈ l) (hn : n ≤ (written regs m x).length) :
    window (l.foldl (doAct regs m) a) (128 * Act.slot x) n = (written regs m x).take n := by
  induction l generalizing a with
  | nil => simp at hx
  | cons y l ih =>
    simp only [List.map_cons, List.nodup_cons] at hd
    have hy := hs y (by simp)
    have hl := length_doAct regs m a y ha hy
    have hw := length_written regs m x
    rw [List.foldl_cons]
    rcases List.mem_cons.1 hx with rfl | hx
    · have := acts_other regs m l (doAct regs m a x) (Act.slot x) 0 n hl
        (fun z hz => hs z (by simp [hz]))
        (fun z hz h => hd.1 (h ▸ List.mem_map_of_mem hz)) (by omega)
      rw [Nat.add_zero] at this
      rw [this, doAct_eq, window_overwrite_same _ _ _ _ (by omega) hn]
    · exact ih _ hl (fun z hz => hs z (by simp [hz])) hd.2 hx

end Swoll.Lemmas.Event
