import Verif.Lemmas.Event
/-
Agreement of the probe's fillers with the decoders, field by field.
-/
namespace Swoll.Lemmas.Event
open Swoll.Bytes Swoll.Event Swoll.Spec.Event

/-- A filler `acts` and a field reader `rd` deliver meaning `m`. -/
def agrees (acts : List Act) : Rd → Meaning → Bool
  | .c32 s, .s32 k => acts.contains (.reg s k)
  | .cu32 s, .u32 k => acts.contains (.reg s k)
  | .c64 s, .s64 k => acts.contains (.reg s k)
  | .cu64 s, .u64 k => acts.contains (.reg s k)
  | .c32 s, .deref k => acts.contains (.user8 s k)
  | .cstr s, .cstr k => acts.contains (.user s k)
  | .mem s n, .obj k o n' => acts.contains (.user s k) && o == 0 && n == n' && n ≤ 128
  | .sock s, .obj k o n' => acts.contains (.user s k) && o == 0 && n' == 110
  | .bufMin s c, .buf k c' => acts.contains (.user s k) && acts.contains (.reg c c')
  | _, _ => false

def okFiller (acts : List Act) : Bool :=
  acts.all (fun x => Act.slot x < 5) && decide ((acts.map Act.slot).Nodup)

theorem okFiller_iff {acts : List Act} (h : okFiller acts = true) :
    (∀ x ∈ acts, Act.slot x < 5) ∧ (acts.map Act.slot).Nodup := by
  simpa [okFiller] using h

variable {regs : Nat → BitVec 64} {m : Mem} {acts : List Act} {a : List Byte}

theorem window_reg8 (ha : a.length = 640) (hok : okFiller acts = true) {s k : Nat}
    (hm : Act.reg s k ∈ acts) :
    window (acts.foldl (doAct regs m) a) (s * argLen) 8 = leBytes 8 (regs k).toNat := by
  obtain ⟨h1, h2⟩ := okFiller_iff hok
  have := acts_written regs m acts a (.reg s k) 8 ha h1 h2 hm (by simp [written])
  rw [Nat.mul_comm]
  simpa [Act.slot, written, argLen, List.take_of_length_le] using this

theorem window_reg4 (ha : a.length = 640) (hok : okFiller acts = true) {s k : Nat}
    (hm : Act.reg s k ∈ acts) :
    window (acts.foldl (doAct regs m) a) (s * argLen) 4 = (leBytes 8 (regs k).toNat).take 4 := by
  rw [← window_reg8 (m := m) ha hok hm, window_take _ _ _ _ (by omega)]

theorem makeCU64_reg (ha : a.length = 640) (hok : okFiller acts = true) {s k : Nat}
    (hm : Act.reg s k ∈ acts) :
    makeCU64 (acts.foldl (doAct regs m) a) (s * argLen) = regs k := by
  rw [makeCU64, window_reg8 ha hok hm, le_leBytes64]

theorem makeCU32_reg (ha : a.length = 640) (hok : okFiller acts = true) {s k : Nat}
    (hm : Act.reg s k ∈ acts) :
    makeCU32 (acts.foldl (doAct regs m) a) (s * argLen) = (regs k).setWidth 32 := by
  rw [makeCU32, window_reg4 ha hok hm, le32_leBytes8]

theorem window_user (ha : a.length = 640) (hok : okFiller acts = true) {s k n : Nat}
    (hm : Act.user s k ∈ acts) (hn : n ≤ 128) :
    window (acts.foldl (doAct regs m) a) (s * argLen) n
      = (probeRead m (regs k).toNat 128).take n := by
  obtain ⟨h1, h2⟩ := okFiller_iff hok
  have := acts_written regs m acts a (.user s k) n ha h1 h2 hm
    (by simpa [written, length_probeRead] using hn)
  rw [Nat.mul_comm]
  simpa [Act.slot, written, argLen] using this

theorem makeCBytes_in (b : List Byte) (off : Nat) (len : Int) (h0 : 0 ≤ len)
    (h : (off : Int) + len ≤ b.length) : makeCBytes b off len = .buf (window b off len.toNat) := by
  rw [makeCBytes, if_pos ⟨h0, h⟩]

theorem toInt_of_lt (v : BitVec 64) (h : v.toNat < 2 ^ 63) : v.toInt = v.toNat := by
  rw [BitVec.toInt_eq_toNat_of_lt]; omega

/-- The probe and the decoder agree on a field whenever the tables do. -/
theorem agrees_sound (c : Call) (rd : Rd) (mean : Meaning) (ha : a.length = 640)
    (hok : okFiller acts = true) (h : agrees acts rd mean = true) (hs : Sane c mean) :
    Means c mean (evalRd (acts.foldl (doAct c.args c.mem) a) rd) := by
  have hlen : (acts.foldl (doAct c.args c.mem) a).length = 640 :=
    length_acts _ _ _ _ ha (okFiller_iff hok).1
  have slotlt : ∀ x ∈ acts, Act.slot x < 5 := (okFiller_iff hok).1
  unfold agrees at h
  split at h
  · simp only [List.contains_iff_mem] at h
    simp only [evalRd, Means, makeC32, makeCU32_reg ha hok h]
  · simp only [List.contains_iff_mem] at h
    simp only [evalRd, Means, makeCU32_reg ha hok h]
  · simp only [List.contains_iff_mem] at h
    simp only [evalRd, Means, makeC64, makeCU64_reg ha hok h]
  · simp only [List.contains_iff_mem] at h
    simp only [evalRd, Means, makeCU64_reg ha hok h]
  · rename_i s k
    simp only [List.contains_iff_mem] at h
    simp only [evalRd, Means]
    intro l hl
    obtain ⟨h1, h2⟩ := okFiller_iff hok
    obtain ⟨bs, hbs⟩ := rdMem_of_readable c.mem (c.args k).toNat 8
      (fun i hi => hs.1 k (by simp [Meaning.ptrs]) i (by omega))
    have := acts_written c.args c.mem acts a (.user8 s k) 4 ha h1 h2 h
      (by simp [written, length_probeRead])
    have h4 := rdMem_take _ _ _ 4 _ hbs (by omega)
    rw [hl] at h4
    simp only [Option.some.injEq] at h4
    simp only [Act.slot, written, probeRead, hbs, Option.getD_some] at this
    rw [makeC32, makeCU32, Nat.mul_comm, argLen, this, ← h4]
    rfl
  · rename_i s k
    simp only [List.contains_iff_mem] at h
    simp only [evalRd, Means]
    obtain ⟨bs, hbs⟩ := rdMem_of_readable c.mem (c.args k).toNat 128
      (fun i hi => hs.1 k (by simp [Meaning.ptrs]) i hi)
    obtain ⟨hl, hh⟩ := rdMem_spec _ _ _ _ hbs
    have hw : window (acts.foldl (doAct c.args c.mem) a) (s * argLen) argLen = bs := by
      have := window_user (regs := c.args) (m := c.mem) ha hok h (n := 128) (by omega)
      rw [probeRead, hbs] at this
      simpa [argLen, hl, List.take_of_length_le] using this
    rw [makeCString, hw]
    have hle := cstrCount_le bs
    refine ⟨Holds_take _ _ _ _ hh, cstr_no_nul bs, by simp; omega, ?_⟩
    intro hlt
    simp only [List.length_take] at hlt ⊢
    rw [Nat.min_eq_left hle] at hlt ⊢
    rw [hh _ (by omega)]
    exact cstr_nul_after bs (by omega)
  · rename_i s n k o n'
    simp only [Bool.and_eq_true, List.contains_iff_mem, beq_iff_eq, decide_eq_true_eq] at h
    obtain ⟨⟨⟨h, rfl⟩, rfl⟩, hn⟩ := h
    have hs5 := slotlt _ h
    simp only [Act.slot] at hs5
    obtain ⟨bs, hbs⟩ := rdMem_of_readable c.mem (c.args k).toNat 128
      (fun i hi => hs.1 k (by simp [Meaning.ptrs]) i hi)
    obtain ⟨hl, hh⟩ := rdMem_spec _ _ _ _ hbs
    simp only [evalRd]
    rw [makeCBytes_in _ _ _ (by omega) (by rw [hlen]; simp only [argLen]; omega)]
    simp only [Int.toNat_natCast, Means]
    rw [window_user ha hok h hn, probeRead, hbs]
    simp only [Option.getD_some, List.length_take, hl, Nat.add_zero]
    exact ⟨by omega, Holds_take _ _ _ _ hh⟩
  · rename_i s k o n'
    simp only [Bool.and_eq_true, List.contains_iff_mem, beq_iff_eq] at h
    obtain ⟨⟨h, rfl⟩, rfl⟩ := h
    have hs5 := slotlt _ h
    simp only [Act.slot] at hs5
    obtain ⟨bs, hbs⟩ := rdMem_of_readable c.mem (c.args k).toNat 128
      (fun i hi => hs.1 k (by simp [Meaning.ptrs]) i hi)
    obtain ⟨hl, hh⟩ := rdMem_spec _ _ _ _ hbs
    simp only [evalRd]
    rw [makeCBytes_in _ _ _ (by omega) (by rw [hlen]; simp only [argLen]; omega)]
    simp only [Means]
    rw [show Int.toNat 110 = 110 from rfl, window_user ha hok h (by omega), probeRead, hbs]
    simp only [Option.getD_some, List.length_take, hl, Nat.add_zero]
    exact ⟨by omega, Holds_take _ _ _ _ hh⟩
  · rename_i s cn k c'
    simp only [Bool.and_eq_true, List.contains_iff_mem] at h
    obtain ⟨h, hr⟩ := h
    have hs5 := slotlt _ h
    simp only [Act.slot] at hs5
    obtain ⟨bs, hbs⟩ := rdMem_of_readable c.mem (c.args k).toNat 128
      (fun i hi => hs.1 k (by simp [Meaning.ptrs]) i hi)
    obtain ⟨hl, hh⟩ := rdMem_spec _ _ _ _ hbs
    have hc : makeC64 (acts.foldl (doAct c.args c.mem) a) (cn * argLen) = (c.args c').toNat := by
      rw [makeC64, makeCU64_reg ha hok hr, toInt_of_lt]
      exact hs.2 c' (by simp [Meaning.sizes])
    simp only [evalRd, hc]
    have hmin : (if ((c.args c').toNat : Int) < argLen then ((c.args c').toNat : Int) else argLen)
        = ((min (c.args c').toNat 128 : Nat) : Int) := by
      have h128 : (argLen : Int) = 128 := rfl
      split <;> omega
    rw [hmin, makeCBytes_in _ _ _ (by omega) (by rw [hlen]; simp only [argLen]; omega)]
    simp only [Int.toNat_natCast, Means, BufAt]
    rw [window_user ha hok h (by omega), probeRead, hbs]
    simp only [Option.getD_some, List.length_take, hl]
    exact ⟨Holds_take _ _ _ _ hh, by omega⟩
  · simp at h

/-! ### Independence of the previous event -/

/-- How many bytes of slot `s` a filler writes. -/
def writtenLen (acts : List Act) (s : Nat) : Nat :=
  match acts.find? (fun x => Act.slot x == s) with
  | some (.reg _ _) => 8
  | some (.user _ _) => 128
  | some (.user8 _ _) => 8
  | none => 0

/-- The field reads only bytes the filler wrote. -/
def covered (acts : List Act) : Rd → Bool
  | .c32 s | .cu32 s => 4 ≤ writtenLen acts s
  | .c64 s | .cu64 s => 8 ≤ writtenLen acts s
  | .cstr s => 128 ≤ writtenLen acts s
  | .bytes s n | .mem s n => n ≤ writtenLen acts s
  | .bufMin s c => 128 ≤ writtenLen acts s && 8 ≤ writtenLen acts c
  | .sock s => 110 ≤ writtenLen acts s
  | .bufMax _ _ | .memAt _ _ _ => false
  | .ptrs _ _ | .zero | .empty => true

theorem window_indep (regs : Nat → BitVec 64) (m : Mem) {acts : List Act} (a b : List Byte)
    (ha : a.length = 640) (hb : b.length = 640) (hok : okFiller acts = true) (s n : Nat)
    (h : n ≤ writtenLen acts s) :
    window (acts.foldl (doAct regs m) a) (s * argLen) n =
      window (acts.foldl (doAct regs m) b) (s * argLen) n := by
  obtain ⟨h1, h2⟩ := okFiller_iff hok
  unfold writtenLen at h
  cases hf : acts.find? (fun x => Act.slot x == s) with
  | none =>
    rw [hf] at h
    obtain rfl : n = 0 := by simpa using h
    simp [window]
  | some x =>
    have hm := List.mem_of_find?_eq_some hf
    have hx : Act.slot x = s := by simpa using List.find?_some hf
    have hn : n ≤ (written regs m x).length := by
      rw [hf] at h
      cases x <;> simpa [written, length_probeRead] using h
    rw [Nat.mul_comm, argLen, ← hx, acts_written regs m acts a x n ha h1 h2 hm hn,
      acts_written regs m acts b x n hb h1 h2 hm hn]

theorem covered_indep (regs : Nat → BitVec 64) (m : Mem) {acts : List Act} (a b : List Byte)
    (ha : a.length = 640) (hb : b.length = 640) (hok : okFiller acts = true) (rd : Rd)
    (h : covered acts rd = true) :
    evalRd (acts.foldl (doAct regs m) a) rd = evalRd (acts.foldl (doAct regs m) b) rd := by
  have hla := length_acts regs m acts a ha (okFiller_iff hok).1
  have hlb := length_acts regs m acts b hb (okFiller_iff hok).1
  have w := window_indep regs m a b ha hb hok
  have c64 : ∀ s, 8 ≤ writtenLen acts s → makeC64 (acts.foldl (doAct regs m) a) (s * argLen)
      = makeC64 (acts.foldl (doAct regs m) b) (s * argLen) := fun s hs => by
    simp only [makeC64, makeCU64, w s 8 hs]
  have cb : ∀ s (n : Int), n.toNat ≤ writtenLen acts s →
      makeCBytes (acts.foldl (doAct regs m) a) (s * argLen) n
      = makeCBytes (acts.foldl (doAct regs m) b) (s * argLen) n := fun s n hs => by
    simp only [makeCBytes, hla, hlb, w s _ hs]
  cases rd with
  | c32 s =>
    simp only [covered, decide_eq_true_eq] at h
    simp only [evalRd, makeC32, makeCU32, w s 4 h]
  | cu32 s =>
    simp only [covered, decide_eq_true_eq] at h
    simp only [evalRd, makeCU32, w s 4 h]
  | c64 s =>
    simp only [covered, decide_eq_true_eq] at h
    simp only [evalRd, c64 s h]
  | cu64 s =>
    simp only [covered, decide_eq_true_eq] at h
    simp only [evalRd, makeCU64, w s 8 h]
  | cstr s =>
    simp only [covered, decide_eq_true_eq] at h
    simp only [evalRd, makeCString, w s argLen h]
  | bytes s n =>
    simp only [covered, decide_eq_true_eq] at h
    exact cb s n (by simpa using h)
  | bufMin s c =>
    simp only [covered, Bool.and_eq_true, decide_eq_true_eq] at h
    simp only [evalRd, c64 c h.2]
    apply cb
    have h128 : (argLen : Int) = 128 := rfl
    split <;> omega
  | bufMax s c => simp [covered] at h
  | mem s n =>
    simp only [covered, decide_eq_true_eq] at h
    exact cb s n (by simpa using h)
  | memAt s o n => simp [covered] at h
  | sock s =>
    simp only [covered, decide_eq_true_eq] at h
    exact cb s 110 (by simpa using h)
  | ptrs i n => rfl
  | zero => rfl
  | empty => rfl

/-! ### The event of an exit -/

theorem onExit_args (scratch : KEvent) (t : Task) (c : Call) (fl : Filler)
    (h : fillers.lookup c.nr.toNat = some fl) :
    (onExit scratch t c).args = fl.acts.foldl (doAct c.args c.mem) scratch.args := by
  simp [onExit, fillInit, h]

theorem length_setSlot0 (a : List Byte) (l : List Nat) (ha : a.length = 640)
    (hl : ∀ s ∈ l, s < 5) : (l.foldl (fun a s => setSlot a s [0]) a).length = 640 := by
  induction l generalizing a with
  | nil => exact ha
  | cons s l ih =>
    have := hl s (by simp)
    refine ih _ ?_ (fun x hx => hl x (by simp [hx]))
    show (overwrite a (128 * s) [0]).length = 640
    rw [length_overwrite _ _ _ (by simp; omega), ha]

theorem lookup_mem {α β : Type} [BEq α] [LawfulBEq α] {l : List (α × β)} {k : α} {v : β}
    (h : l.lookup k = some v) : (k, v) ∈ l := by
  induction l with
  | nil => simp at h
  | cons x l ih =>
    rw [List.lookup_cons] at h
    split at h
    · rename_i hk
      simp only [beq_iff_eq] at hk
      simp only [Option.some.injEq] at h
      subst h; subst hk; simp
    · simp [ih h]

theorem lookup_map {α β γ : Type} [BEq α] (l : List (α × β)) (k : α) (g : β → γ) :
    (l.map fun f => (f.1, g f.2)).lookup k = (l.lookup k).map g := by
  induction l with
  | nil => rfl
  | cons x l ih =>
    obtain ⟨a, b⟩ := x
    simp only [List.map_cons, List.lookup_cons]
    cases k == a
    · exact ih
    · rfl

/-! ### Whole-table checks -/

theorem table_ok : ∀ row ∈ fillers, okFiller row.2.acts = true := by decide +kernel

/-- Every field with a stated meaning either is a listed mismatch or agrees. -/
theorem table_agrees : ∀ row ∈ meanings, ∀ f ∈ row.2, (row.1, f.1) ∉ mismatches →
    ∃ fl ∈ fillers.lookup row.1, ∃ rds ∈ decoders.lookup row.1, ∃ rd ∈ rds.lookup f.1,
      agrees fl.acts rd f.2 = true := by decide +kernel

theorem wf_onExit (scratch : KEvent) (t : Task) (c : Call) (hw : scratch.WF)
    (hc : t.comm.length = 16) : (onExit scratch t c).WF := by
  cases h : fillers.lookup c.nr.toNat with
  | some fl =>
    have hok := table_ok _ (lookup_mem h)
    refine ⟨by simp [onExit, fillInit, h, hc], ?_⟩
    rw [onExit_args _ _ _ _ h]
    exact length_acts _ _ _ _ hw.2 (okFiller_iff hok).1
  | none =>
    refine ⟨by simp [onExit, fillInit, h, hc], ?_⟩
    have : (onExit scratch t c).args
        = [0, 1, 2, 3, 4].foldl (fun a s => setSlot a s [0]) scratch.args := by
      simp [onExit, fillInit, h]
    rw [this]
    exact length_setSlot0 _ _ hw.2 (by decide)

theorem onExit_syscall (scratch : KEvent) (t : Task) (c : Call) :
    (onExit scratch t c).syscall = c.nr := by
  simp only [onExit]; split <;> rfl

/-- Only the arguments depend on the scratch buffer. -/
theorem onExit_header (s₁ s₂ : KEvent) (t : Task) (c : Call) :
    onExit s₁ t c = { onExit s₂ t c with args := (onExit s₁ t c).args } := by
  unfold onExit fillInit
  dsimp only
  generalize fillers.lookup c.nr.toNat = o
  cases o <;> rfl

/-- Every decodable syscall has a filler. -/
theorem decoders_have_fillers : ∀ row ∈ decoders, (fillers.lookup row.1).isSome := by
  decide +kernel

/-- Decoded fields not listed as stale read only what the filler wrote. -/
theorem table_covered : ∀ row ∈ decoders, ∀ f ∈ row.2, (row.1, f.1) ∉ stale →
    ∃ fl ∈ fillers.lookup row.1, covered fl.acts f.2 = true := by decide +kernel

theorem table_slots : ∀ row ∈ decoders,
    (row.2.all fun f => f.2.slots.all (· < argCount)) = true := by decide +kernel

theorem decodeSyscall_ok (n : Nat) (fields : List (String × Rd)) (a : List Byte)
    (h : decoders.lookup n = some fields) :
    decodeSyscall n a = .ok (fields.map fun f => (f.1, evalRd a f.2)) := by
  simp only [decodeSyscall, h, table_slots _ (lookup_mem h), if_true]

theorem decodeSyscall_none (n : Nat) (a : List Byte) (h : decoders.lookup n = none) :
    decodeSyscall n a = .err := by
  simp [decodeSyscall, h]

theorem lookup_isSome {β : Type} (l : List (Nat × β)) (n : Nat) :
    (l.lookup n).isSome ↔ n ∈ l.map (·.1) := by
  induction l with
  | nil => simp
  | cons x l ih =>
    obtain ⟨k, v⟩ := x
    simp only [List.lookup_cons, List.map_cons, List.mem_cons]
    by_cases h : n = k
    · simp [h]
    · have : (n == k) = false := by simpa using h
      simp [this, ih, h]

theorem decodable_iff (n : Nat) : n ∈ decodable ↔ ∃ fields, decoders.lookup n = some fields := by
  have h1 : ∀ x ∈ decodable, x ∈ decoders.map (·.1) := by decide +kernel
  have h2 : ∀ x ∈ decoders.map (·.1), x ∈ decodable := by decide +kernel
  rw [← Option.isSome_iff_exists, lookup_isSome]
  exact ⟨h1 n, h2 n⟩

/-- What `Ingest` makes of a well-formed kernel event. -/
def eventOf {κ : Type} (tbl : Syscalls.Syscalls) (lk : Option (Int → Option κ)) (e : KEvent)
    (argv : List (String × Val)) : TraceEvent κ :=
  { syscall := Syscalls.lookup tbl (.int e.syscall.toNat)
    pid := (e.pidTid.setWidth 32).toNat, tid := (e.pidTid.extractLsb' 32 32).toNat
    cpid := e.nsPid.toNat
    uid := (e.uidGid.setWidth 32).toNat, gid := (e.uidGid.extractLsb' 32 32).toNat
    comm := e.comm.take (cstrCount e.comm), sid := e.session.toInt
    container := lk.bind fun f => f e.pidNs.toNat
    error := e.errno.toNat, ret := e.ret.toNat
    pidNs := e.pidNs.toNat, utsNs := e.utsNs.toNat, mntNs := e.mntNs.toNat
    start := e.entr.toInt, finish := e.exit.toInt
    argv := argv }

variable {κ : Type}

theorem ingest_ok (tbl : Syscalls.Syscalls) (lk : Option (Int → Option κ)) (e : KEvent)
    (hw : e.WF) (extra : List Byte) (fields : List (String × Rd))
    (h : decoders.lookup e.syscall.toNat = some fields) :
    ingest tbl lk (.bytes (encode e ++ extra))
      = .ok (eventOf tbl lk e (fields.map fun f => (f.1, evalRd e.args f.2))) := by
  have hd : decodeSyscall (rawOf e).syscall.toNat (rawOf e).args
      = .ok (fields.map fun f => (f.1, evalRd e.args f.2)) := decodeSyscall_ok _ _ _ h
  simp only [ingest, ingest_encode e hw extra, hd]
  rfl

theorem argv_eventOf (tbl : Syscalls.Syscalls) (lk : Option (Int → Option κ)) (e : KEvent)
    (a : List (String × Val)) : (eventOf tbl lk e a).argv = a := rfl

theorem header_indep (tbl : Syscalls.Syscalls) (lk : Option (Int → Option κ)) (s₁ s₂ : KEvent)
    (t : Task) (c : Call) (a b : List (String × Val)) :
    { eventOf tbl lk (onExit s₁ t c) a with argv := [] }
      = { eventOf tbl lk (onExit s₂ t c) b with argv := [] } := by
  rw [onExit_header s₁ s₂ t c]
  generalize onExit s₂ t c = e
  generalize (onExit s₁ t c).args = x
  rfl

theorem field_indep (s₁ s₂ : KEvent) (t : Task) (c : Call) (h₁ : s₁.WF) (h₂ : s₂.WF)
    {fields : List (String × Rd)} {f : String} {rd : Rd} (hd : (c.nr.toNat, fields) ∈ decoders)
    (hr : (f, rd) ∈ fields) (hf : (c.nr.toNat, f) ∉ stale) :
    evalRd (onExit s₁ t c).args rd = evalRd (onExit s₂ t c).args rd := by
  obtain ⟨fl', hfl', hcov⟩ := table_covered _ hd _ hr hf
  rw [onExit_args _ _ _ _ hfl', onExit_args _ _ _ _ hfl']
  exact covered_indep c.args c.mem s₁.args s₂.args h₁.2 h₂.2 (table_ok _ (lookup_mem hfl')) rd hcov

theorem ingest_kernelEvent (tbl : Syscalls.Syscalls) (lk : Option (Int → Option κ))
    (bs : List Byte) : ingest tbl lk (.kernelEvent bs) = ingest tbl lk (.bytes bs) := rfl

theorem lookup_argv (fields : List (String × Rd)) (a : List Byte) (f : String) (rd : Rd)
    (h : fields.lookup f = some rd) :
    (fields.map fun f => (f.1, evalRd a f.2)).lookup f = some (evalRd a rd) := by
  rw [lookup_map, h]; rfl

/-! ### Values outside the event -/

def bounded : Rd → Bool
  | .memAt s o n => decide (o + n ≤ 256) && decide (s < 2)
  | .mem _ n => decide (n ≤ 128)
  | .bytes _ n => decide (n ≤ 128)
  | .bufMax s _ => s == 3
  | _ => true

theorem not_inside_iff (a : List Byte) (ha : a.length = 640) (rd : Rd)
    (hs : rd.slots.all (· < argCount) = true) (hb : bounded rd = true) :
    ¬ Inside (evalRd a rd) ↔
      (∃ s c, rd = .bufMin s c ∧ makeC64 a (c * argLen) < 0) ∨
      (∃ c, rd = .bufMax 3 c ∧ 256 < makeC64 a (c * argLen)) ∨ ∃ i n, rd = .ptrs i n := by
  have h128 : (argLen : Int) = 128 := rfl
  have h5 : argCount = 5 := rfl
  have hq : ∀ s, s * argLen = s * 128 := fun _ => rfl
  have key : ∀ (off : Nat) (len : Int), (¬ Inside (makeCBytes a off len)) ↔
      (len < 0 ∨ (640 : Int) < off + len) := by
    intro off len
    unfold makeCBytes
    split
    · simp only [Inside, not_true, false_iff]; omega
    · simp only [Inside, not_false_eq_true, true_iff]; omega
  cases rd with
  | bytes s n =>
    simp only [Rd.slots, List.all_cons, List.all_nil, Bool.and_true, decide_eq_true_eq] at hs
    simp only [bounded, decide_eq_true_eq] at hb
    have := hq s
    simp only [evalRd, key]; simp; omega
  | mem s n =>
    simp only [Rd.slots, List.all_cons, List.all_nil, Bool.and_true, decide_eq_true_eq] at hs
    simp only [bounded, decide_eq_true_eq] at hb
    have := hq s
    simp only [evalRd, key]; simp; omega
  | memAt s o n =>
    simp only [bounded, Bool.and_eq_true, decide_eq_true_eq] at hb
    have := hq s
    simp only [evalRd, key]; simp; omega
  | sock s =>
    simp only [Rd.slots, List.all_cons, List.all_nil, Bool.and_true, decide_eq_true_eq] at hs
    have := hq s
    simp only [evalRd, key]; simp; omega
  | bufMin s c =>
    simp only [Rd.slots, List.all_cons, List.all_nil, Bool.and_true, Bool.and_eq_true,
      decide_eq_true_eq] at hs
    have := hq s
    simp only [evalRd, key]
    simp only [Rd.bufMin.injEq, reduceCtorEq, false_and, exists_false, or_false]
    constructor
    · intro h
      refine ⟨s, c, ⟨rfl, rfl⟩, ?_⟩
      split at h <;> omega
    · rintro ⟨_, _, ⟨rfl, rfl⟩, h⟩
      split <;> omega
  | bufMax s c =>
    simp only [bounded, beq_iff_eq] at hb
    subst hb
    have := hq 3
    simp only [evalRd, key]
    simp only [Rd.bufMax.injEq, true_and, reduceCtorEq, false_and, exists_false, or_false, false_or]
    constructor
    · intro h
      refine ⟨c, rfl, ?_⟩
      split at h <;> omega
    · rintro ⟨_, rfl, h⟩
      split <;> omega
  | ptrs i n => simp [evalRd, Inside]
  | _ => simp [evalRd, Inside]

theorem table_bounds : ∀ row ∈ decoders, ∀ f ∈ row.2, bounded f.2 = true := by decide +kernel

/-- The decoders that can leave the event. -/
def risky : Rd → Bool
  | .bufMin _ _ | .bufMax _ _ | .ptrs _ _ => true
  | _ => false

theorem table_risky : ∀ row ∈ decoders, ∀ f ∈ row.2, risky f.2 = true →
    row.1 ∈ [nr.sys_read, nr.sys_write, nr.sys_readlink, nr.sys_readlinkat, nr.sys_mprotect,
      nr.sys_nanosleep] := by decide +kernel

theorem inside_of_not_risky (a : List Byte) (ha : a.length = 640) (rd : Rd)
    (hs : rd.slots.all (· < argCount) = true) (hb : bounded rd = true) (hr : risky rd = false) :
    Inside (evalRd a rd) := by
  apply Decidable.byContradiction
  intro h
  rcases (not_inside_iff a ha rd hs hb).1 h with ⟨s, c, rfl, _⟩ | ⟨c, rfl, _⟩ | ⟨i, n, rfl⟩ <;>
    simp [risky] at hr

theorem inside_makeCBytes (a : List Byte) (off : Nat) (len : Int) :
    Inside (makeCBytes a off len) ↔ 0 ≤ len ∧ (off : Int) + len ≤ a.length := by
  unfold makeCBytes
  split <;> rename_i h <;> simp [Inside, h]

theorem inside_bufMin (a : List Byte) (ha : a.length = 640) (s c : Nat) (hs : s < 5) :
    Inside (evalRd a (.bufMin s c)) ↔ 0 ≤ makeC64 a (c * argLen) := by
  have h128 : (argLen : Int) = 128 := rfl
  have hoff : s * argLen = 128 * s := by simp [argLen, Nat.mul_comm]
  simp only [evalRd, inside_makeCBytes, ha, hoff]
  split <;> omega

theorem inside_bufMax (a : List Byte) (ha : a.length = 640) (c : Nat) :
    Inside (evalRd a (.bufMax 3 c)) ↔ makeC64 a (c * argLen) ≤ 256 := by
  have h128 : (argLen : Int) = 128 := rfl
  have hoff : 3 * argLen = 384 := rfl
  simp only [evalRd, inside_makeCBytes, ha, hoff]
  split <;> omega

/-- Every long enough buffer starts with an event. -/
theorem event_of_data (data : List Byte) (h : 736 ≤ data.length) : ∃ e : KEvent, e.WF ∧ encode e = data.take 736 ∧
      e.syscall.toNat = leVal (window data 16 4) := by
  have hs : widths.sum = 736 := by decide
  cases hd : ingestBytes data with
  | none =>
    unfold ingestBytes at hd
    rw [hs, if_neg (by omega)] at hd
    exact absurd hd (by simp)
  | some r =>
    obtain ⟨hw, he⟩ := encode_ingest data r hd
    refine ⟨kOf r, hw, he, ?_⟩
    unfold ingestBytes at hd
    rw [hs, if_neg (by omega)] at hd
    simp only [Option.some.injEq] at hd
    subst hd
    have h2 := leVal_lt (window data 16 4)
    rw [length_window _ _ _ (by omega)] at h2
    show (le 32 (rawField data 4)).toNat = _
    rw [show rawField data 4 = window data 16 4 from rfl, le, BitVec.toNat_ofNat,
      Nat.mod_eq_of_lt (by simpa using h2)]

/-- Where the readers that can leave the event occur, and which field tells. -/
def riskyRow (n : Nat) (fields : List (String × Rd)) : Rd → Bool
  | .bufMin _ c =>
    (n ∈ [nr.sys_read, nr.sys_write] && fields.lookup "count" == some (.c64 c)) ||
    (n ∈ [nr.sys_readlink, nr.sys_readlinkat] && fields.lookup "size" == some (.c64 c))
  | .bufMax _ c => n == nr.sys_mprotect && fields.lookup "len" == some (.c64 c)
  | .ptrs _ _ => n == nr.sys_nanosleep
  | _ => true

theorem table_riskyRow : ∀ row ∈ decoders, ∀ f ∈ row.2, riskyRow row.1 row.2 f.2 = true := by
  decide +kernel

theorem rows_risky :
    decoders.lookup nr.sys_read = some [("fd", .c32 0), ("buf", .bufMin 1 2), ("count", .c64 2)] ∧
    decoders.lookup nr.sys_write = some [("fd", .c32 0), ("buf", .bufMin 1 2), ("count", .c64 2)] ∧
    decoders.lookup nr.sys_readlink
      = some [("pathname", .cstr 0), ("buf", .bufMin 1 2), ("size", .c64 2)] ∧
    decoders.lookup nr.sys_readlinkat
      = some [("dir_fd", .c32 0), ("pathname", .cstr 1), ("buf", .bufMin 2 3), ("size", .c64 3)] ∧
    decoders.lookup nr.sys_mprotect = some [("addr", .cu64 0), ("len", .c64 1), ("prot", .c32 2),
      ("addr_data", .bufMax 3 1)] ∧
    decoders.lookup nr.sys_nanosleep = some [("req", .ptrs 0 16), ("rem", .ptrs 1 16)] := by
  decide +kernel

/-! ### execve -/

theorem execve_args (scratch : KEvent) (t : Task) (m : Mem) (fn av now : BitVec 64)
    (hw : scratch.WF) (hc : t.comm.length = 16) :
    (onExecve scratch t m fn av now).WF ∧
    window (onExecve scratch t m fn av now).args 0 128 = probeRead m fn.toNat 128 ∧
    ∀ i, i < 4 → window (onExecve scratch t m fn av now).args (128 * (i + 1)) 128
      = probeRead m (derefPtr m (av.toNat + 8 * (i + 1))) 128 := by
  have l : ∀ a, (probeRead m a 128).length = 128 := fun a => length_probeRead m a 128
  have h640 := hw.2
  simp only [onExecve, fillInit, setSlot, List.foldl_cons, List.foldl_nil, KEvent.WF, hc, true_and]
  have L0 : (overwrite scratch.args (128 * 0) (probeRead m fn.toNat 128)).length = 640 := by
    rw [length_overwrite _ _ _ (by rw [l]; omega), h640]
  generalize hA0 : overwrite scratch.args (128 * 0) (probeRead m fn.toNat 128) = A0 at L0 ⊢
  have L1 : (overwrite A0 (128 * 1) (probeRead m (derefPtr m (av.toNat + 8 * 1)) 128)).length = 640 := by
    rw [length_overwrite _ _ _ (by rw [l]; omega), L0]
  generalize hA1 : overwrite A0 (128 * 1) (probeRead m (derefPtr m (av.toNat + 8 * 1)) 128) = A1 at L1 ⊢
  have L2 : (overwrite A1 (128 * 2) (probeRead m (derefPtr m (av.toNat + 8 * 2)) 128)).length = 640 := by
    rw [length_overwrite _ _ _ (by rw [l]; omega), L1]
  generalize hA2 : overwrite A1 (128 * 2) (probeRead m (derefPtr m (av.toNat + 8 * 2)) 128) = A2 at L2 ⊢
  have L3 : (overwrite A2 (128 * 3) (probeRead m (derefPtr m (av.toNat + 8 * 3)) 128)).length = 640 := by
    rw [length_overwrite _ _ _ (by rw [l]; omega), L2]
  generalize hA3 : overwrite A2 (128 * 3) (probeRead m (derefPtr m (av.toNat + 8 * 3)) 128) = A3 at L3 ⊢
  have L4 : (overwrite A3 (128 * 4) (probeRead m (derefPtr m (av.toNat + 8 * 4)) 128)).length = 640 := by
    rw [length_overwrite _ _ _ (by rw [l]; omega), L3]
  have same : ∀ (b : List Byte) (x i : Nat), b.length = 640 → i < 5 →
      window (overwrite b (128 * i) (probeRead m x 128)) (128 * i) 128 = probeRead m x 128 := by
    intro b x i hb hi
    rw [window_overwrite_same _ _ _ _ (by rw [l]; omega) (by rw [l]; omega),
      List.take_of_length_le (by rw [l]; omega)]
  have other : ∀ (b : List Byte) (x i j : Nat), b.length = 640 → i < 5 → j ≠ i →
      window (overwrite b (128 * i) (probeRead m x 128)) (128 * j) 128 = window b (128 * j) 128 := by
    intro b x i j hb hi hj
    exact window_overwrite_other _ _ _ _ _ (by rw [l]; omega) (by rw [l]; omega)
  refine ⟨L4, ?_, ?_⟩
  · rw [show (0 : Nat) = 128 * 0 from rfl, other _ _ _ _ L3 (by omega) (by omega), ← hA3,
      other _ _ _ _ L2 (by omega) (by omega), ← hA2, other _ _ _ _ L1 (by omega) (by omega), ← hA1,
      other _ _ _ _ L0 (by omega) (by omega), ← hA0, same _ _ _ h640 (by omega)]
  · intro i hi
    have : i = 0 ∨ i = 1 ∨ i = 2 ∨ i = 3 := by omega
    rcases this with rfl | rfl | rfl | rfl
    · rw [other _ _ _ _ L3 (by omega) (by omega), ← hA3,
        other _ _ _ _ L2 (by omega) (by omega), ← hA2, other _ _ _ _ L1 (by omega) (by omega), ← hA1,
        same _ _ _ L0 (by omega)]
    · rw [other _ _ _ _ L3 (by omega) (by omega), ← hA3,
        other _ _ _ _ L2 (by omega) (by omega), ← hA2, same _ _ _ L1 (by omega)]
    · rw [other _ _ _ _ L3 (by omega) (by omega), ← hA3, same _ _ _ L2 (by omega)]
    · rw [same _ _ _ L3 (by omega)]

/-- A readable pointer is the string's address. -/
theorem cstringAt_probeRead (m : Mem) (a : Nat) (h : ∀ i < 128, (m (a + i)).isSome) :
    CStringAt m a 128 ((probeRead m a 128).take (cstrCount (probeRead m a 128))) := by
  obtain ⟨bs, hbs⟩ := rdMem_of_readable m a 128 h
  obtain ⟨hl, hh⟩ := rdMem_spec m a 128 bs hbs
  rw [probeRead, hbs, Option.getD_some]
  have hle := cstrCount_le bs
  have hlt : (bs.take (cstrCount bs)).length = cstrCount bs := by simp; omega
  refine ⟨Holds_take _ _ _ _ hh, cstr_no_nul bs, by omega, fun h' => ?_⟩
  rw [hlt] at h' ⊢
  rw [hh _ (by omega)]
  exact cstr_nul_after bs (by omega)

/-! ### Results -/

theorem result_facts (r : BitVec 64) :
    (0 ≤ r.toInt → r.toInt < 2 ^ 31 → ((r.setWidth 32).toNat : Int) = r.toInt ∧
      (((if (r.setWidth 32).toInt < 0 then -(r.setWidth 32) else 0 : BitVec 32).toNat : Nat) : Int) = 0) ∧
    (-4095 ≤ r.toInt → r.toInt < 2 ^ 31 →
      (((if (r.setWidth 32).toInt < 0 then -(r.setWidth 32) else 0 : BitVec 32).toNat : Nat) : Int)
        = errorOf r.toInt) := by
  have hlt := r.isLt
  have h32 : (r.setWidth 32).toNat = r.toNat % 2 ^ 32 := BitVec.toNat_setWidth ..
  have hi : (r.setWidth 32).toInt
      = if 2 * (r.toNat % 2 ^ 32) < 2 ^ 32 then (r.toNat % 2 ^ 32 : Int)
        else (r.toNat % 2 ^ 32 : Int) - 2 ^ 32 := by
    rw [BitVec.toInt_eq_toNat_cond, h32]; split <;> omega
  have hr : r.toInt = if 2 * r.toNat < 2 ^ 64 then (r.toNat : Int) else (r.toNat : Int) - 2 ^ 64 := by
    rw [BitVec.toInt_eq_toNat_cond]; split <;> omega
  have hneg : (-(r.setWidth 32)).toNat = (2 ^ 32 - r.toNat % 2 ^ 32) % 2 ^ 32 := by
    rw [BitVec.toNat_neg, h32]
  constructor
  · intro h0 h31
    have e1 : r.toNat % 2 ^ 32 = r.toNat := by split at hr <;> omega
    have e2 : ¬ (r.setWidth 32).toInt < 0 := by
      rw [hi]; split at hr <;> split <;> omega
    rw [if_neg e2, h32, e1]
    refine ⟨?_, by simp⟩
    split at hr <;> omega
  · intro h0 h31
    by_cases hp : 0 ≤ r.toInt
    · have e2 : ¬ (r.setWidth 32).toInt < 0 := by
        rw [hi]; split at hr <;> split <;> omega
      rw [if_neg e2, errorOf, if_neg (by omega)]
      simp
    · have e2 : (r.setWidth 32).toInt < 0 := by
        rw [hi]; split at hr <;> split <;> omega
      rw [if_pos e2, hneg, errorOf, if_pos (by omega)]
      split at hr <;> omega

end Swoll.Lemmas.Event
