import Verif.Lemmas.EventArgs
import Verif.Props.Syscalls
/-
Properties C34-C39, C67, C68: what an event says about the system call it reports.
-/
namespace Swoll.Props.Event
open Swoll.Bytes Swoll.Event Swoll.Spec.Event Swoll.Lemmas.Event

/-! ### Sample values for the examples and the counterexamples -/

/-- The per-CPU scratch event after other events have gone through it. -/
def sampleScratch : KEvent :=
  { pidTid := 0, uidGid := 0, syscall := 0, nsPid := 0, entr := 0, exit := 0, session := 0,
    pidNs := 0, utsNs := 0, mntNs := 0, ipcNs := 0, cgrNs := 0, contextSw := 0, errno := 0,
    ret := 0, comm := List.replicate 16 0, args := List.replicate 640 255 }

/-- Thread 101 of process 100, running "sh". -/
def sampleTask : Task :=
  { tgid := 100, pid := 101, uid := 1000, gid := 1000, sid := 7, nsPid := 1,
    pidNs := 4026531836, utsNs := 2, mntNs := 3, ipcNs := 4, cgrNs := 5, nvcsw := 6, nivcsw := 7,
    comm := [115, 104] ++ List.replicate 14 0 }

/-- A memory in which every byte is readable and none is 255. -/
def sampleMem : Mem := fun a => some (UInt8.ofNat (a % 200))

/-- System call `n`, with small arguments where they are sizes and large ones elsewhere. -/
def sampleCall (n : Nat) : Call :=
  { nr := BitVec.ofNat 32 n
    args := fun k =>
      if n ∈ [nr.sys_mprotect, nr.sys_recvfrom, nr.sys_sendto, nr.sys_setsockopt] then
        BitVec.ofNat 64 (16 + k)
      else BitVec.ofNat 64 (2 ^ 32 * (k + 1) + 300 * k + 7)
    uid := 1000, gid := 1000, start := 1, ret := 3, mem := sampleMem, finish := 2 }

theorem sampleScratch_wf : sampleScratch.WF := by unfold KEvent.WF; decide +kernel

/-- `unlink("ab")`, the string being the last three readable bytes of a page. -/
def pageEndCall : Call :=
  { nr := BitVec.ofNat 32 nr.sys_unlink, args := fun _ => 4093
    uid := 0, gid := 0, start := 0, ret := 0, finish := 0
    mem := fun a => if a = 4093 then some 97 else if a = 4094 then some 98
      else if a = 4095 then some 0 else none }

/-! ### C34: raw events -/

/-- The bytes the probe writes for an event, with anything after them, are read back as the
same event. -/
theorem c34_bytes_of_event_decode (e : KEvent) (h : e.WF) (extra : List Byte) :
    ingestBytes (encode e ++ extra) = some (rawOf e) := ingest_encode e h extra

/-- The event structure has no padding: it is 736 bytes long. -/
theorem c34_event_size (e : KEvent) (h : e.WF) : (encode e).length = 736 := length_encode e h

/-- A buffer is rejected exactly when it is shorter than an event. -/
theorem c34_rejects_short (data : List Byte) : ingestBytes data = none ↔ data.length < 736 := by
  have : widths.sum = 736 := by decide
  unfold ingestBytes
  rw [this]
  split <;> simp_all

/-- Trailing bytes do not matter. -/
theorem c34_trailing_ignored (data extra : List Byte) (h : 736 ≤ data.length) :
    ingestBytes (data ++ extra) = ingestBytes data := by
  cases hd : ingestBytes data with
  | none => rw [c34_rejects_short] at hd; omega
  | some r =>
    obtain ⟨hw, he⟩ := encode_ingest data r hd
    rw [← List.take_append_drop 736 data, ← he, List.append_assoc, ingest_encode _ hw, rawOf_kOf]

/-- Nothing is lost: any accepted buffer starts with the encoding of an event that says what
was read. So two buffers that decode to the same event agree on their first 736 bytes. -/
theorem c34_decode_bytes_back (data : List Byte) (r : RawEvent) (h : ingestBytes data = some r) :
    ∃ e : KEvent, e.WF ∧ rawOf e = r ∧ encode e = data.take 736 := by
  obtain ⟨hw, he⟩ := encode_ingest data r h
  exact ⟨kOf r, hw, rawOf_kOf r, he⟩

example : ingestBytes (encode (onExit sampleScratch sampleTask (sampleCall nr.sys_kill))) ≠ none := by
  rw [Ne, c34_rejects_short, c34_event_size _ (wf_onExit _ _ _ sampleScratch_wf rfl)]; omega

/-! ### C35: C strings and integers -/

/-- A C string is read up to its NUL or to the end of the slot. -/
theorem c35_cstring (a : List Byte) (off len : Nat) :
    BeforeNul (window a off len) (makeCString a off len) := beforeNul_cstr _

/-- The task name is read up to its NUL. -/
theorem c35_commstr (r : RawEvent) : BeforeNul r.comm r.commstr := beforeNul_cstr _

/-- 64-bit integers, signed and unsigned, are read back from their little-endian bytes. -/
theorem c35_int64 (pre post : List Byte) (v : BitVec 64) :
    makeCU64 (pre ++ leBytes 8 v.toNat ++ post) pre.length = v ∧
    makeC64 (pre ++ leBytes 8 v.toNat ++ post) pre.length = v.toInt := by
  have h : makeCU64 (pre ++ leBytes 8 v.toNat ++ post) pre.length = v := by
    rw [makeCU64, List.append_assoc, window_append_right _ _ _ _ (by omega), Nat.sub_self,
      window_append_left _ _ _ _ (by simp)]
    have := window_all (leBytes 8 v.toNat)
    rw [length_leBytes] at this
    rw [this, le_leBytes64]
  exact ⟨h, by rw [makeC64, h]⟩

/-- 32-bit integers likewise. -/
theorem c35_int32 (pre post : List Byte) (v : BitVec 32) :
    makeCU32 (pre ++ leBytes 4 v.toNat ++ post) pre.length = v ∧
    makeC32 (pre ++ leBytes 4 v.toNat ++ post) pre.length = v.toInt := by
  have h : makeCU32 (pre ++ leBytes 4 v.toNat ++ post) pre.length = v := by
    rw [makeCU32, List.append_assoc, window_append_right _ _ _ _ (by omega), Nat.sub_self,
      window_append_left _ _ _ _ (by simp)]
    have := window_all (leBytes 4 v.toNat)
    rw [length_leBytes] at this
    rw [this, le_leBytes32]
  exact ⟨h, by rw [makeC32, h]⟩

/-- A 32-bit read of a 64-bit register gives its low half (x86 is little-endian). -/
theorem c35_low_half (pre post : List Byte) (v : BitVec 64) :
    makeCU32 (pre ++ leBytes 8 v.toNat ++ post) pre.length = v.setWidth 32 := by
  rw [makeCU32, List.append_assoc, window_append_right _ _ _ _ (by omega), Nat.sub_self,
    window_append_left _ _ _ _ (by simp)]
  have : window (leBytes 8 v.toNat) 0 4 = (leBytes 8 v.toNat).take 4 := by simp [window]
  rw [this, le32_leBytes8]

example : makeCString [47, 116, 0, 255, 1] 0 5 = [47, 116] := by decide
example : makeC32 [254, 255, 255, 255] 0 = -2 := by decide
example : makeCU32 [1, 2, 3, 4] 0 = 0x04030201 := by decide

/-! ### C36: decoded arguments -/

/-- For every decodable system call (other than `execve`, below) and every field of its decoded
arguments that is not one of the listed mismatches, the value user space reports is the one the
program passed, whatever was in the scratch buffer and whoever made the call.

Partial: 21 of the 140 fields are wrong (`c36_mismatches_are_real`), and memory is only captured
if all 128 bytes at a pointer are readable (`c36_page_end_violated`). -/
theorem c36_decoded_arguments_partial {κ : Type} (tbl : Syscalls.Syscalls)
    (lk : Option (Int → Option κ)) (scratch : KEvent) (t : Task) (c : Call) (extra : List Byte)
    (hw : scratch.WF) (hc : t.comm.length = 16) (f : String) (m : Meaning)
    (hm : meaning c.nr.toNat f = some m) (hx : (c.nr.toNat, f) ∉ mismatches) (hs : Sane c m) :
    ∃ ev v, ingest tbl lk (.bytes (encode (onExit scratch t c) ++ extra)) = .ok ev ∧
      ev.argv.lookup f = some v ∧ Means c m v := by
  unfold meaning at hm
  rw [Option.bind_eq_some_iff] at hm
  obtain ⟨ms, hms, hf⟩ := hm
  obtain ⟨fl, hfl, rds, hrds, rd, hrd, hag⟩ :=
    table_agrees _ (lookup_mem hms) _ (lookup_mem hf) hx
  simp only [Option.mem_def] at hfl hrds hrd
  have hwf := wf_onExit scratch t c hw hc
  refine ⟨_, _, ingest_ok tbl lk _ hwf extra rds (by rw [onExit_syscall]; exact hrds),
    lookup_argv _ _ _ _ hrd, ?_⟩
  rw [onExit_args _ _ _ _ hfl]
  exact agrees_sound c rd m hw.2 (table_ok _ (lookup_mem hfl)) hag hs

/-- The table of meanings covers every decoded field except those of `execve` and two without
a meaning. -/
theorem c36_meanings_cover :
    ∀ row ∈ decoders, ∀ f ∈ row.2, row.1 ≠ nr.sys_execve →
      (row.1, f.1) ∈ [(nr.sys_recvfrom, "o_size"), (nr.sys_statfs, "stat_buf.unused")] ∨
      (meaning row.1 f.1).isSome := by decide +kernel

/-- Every listed mismatch is real: there is a call, with readable memory and sensible sizes, for
which user space reports something else than what the program passed. -/
theorem c36_mismatches_are_real : ∀ x ∈ mismatches, ∃ (c : Call) (m : Meaning),
    c.nr.toNat = x.1 ∧ meaning x.1 x.2 = some m ∧ Sane c m ∧
    ∃ (scratch : KEvent) (t : Task), scratch.WF ∧ t.comm.length = 16 ∧
    ∀ (tbl : Syscalls.Syscalls) (lk : Option (Int → Option Unit)), ∃ ev v,
      ingest tbl lk (.bytes (encode (onExit scratch t c))) = .ok ev ∧
      ev.argv.lookup x.2 = some v ∧ ¬ Means c m v := by
  have key : ∀ x ∈ mismatches, ∃ m ∈ meaning x.1 x.2, ∃ rds ∈ decoders.lookup x.1,
      ∃ rd ∈ rds.lookup x.2, (sampleCall x.1).nr.toNat = x.1 ∧ Sane (sampleCall x.1) m ∧
      ¬ Means (sampleCall x.1) m
        (evalRd (onExit sampleScratch sampleTask (sampleCall x.1)).args rd) := by
    decide +kernel
  intro x hx
  obtain ⟨m, hm, rds, hrds, rd, hrd, hn, hs, hbad⟩ := key x hx
  simp only [Option.mem_def] at hm hrds hrd
  refine ⟨sampleCall x.1, m, hn, hm, hs, sampleScratch, sampleTask, sampleScratch_wf, rfl, ?_⟩
  intro tbl lk
  have hwf := wf_onExit sampleScratch sampleTask (sampleCall x.1) sampleScratch_wf rfl
  have hok := ingest_ok tbl lk _ hwf [] rds (by rw [onExit_syscall, hn]; exact hrds)
  rw [List.append_nil] at hok
  exact ⟨_, _, hok, lookup_argv _ _ _ _ hrd, hbad⟩

/-- A string near the end of a readable page is reported as empty: `unlink("ab")` with the
string's NUL in the last readable byte. -/
theorem c36_page_end_violated : ∃ (c : Call), c.nr.toNat = nr.sys_unlink ∧
    CStringAt c.mem (c.args 0).toNat 128 [97, 98] ∧
    ∀ (tbl : Syscalls.Syscalls) (lk : Option (Int → Option Unit)) (scratch : KEvent) (t : Task),
      scratch.WF → t.comm.length = 16 → ∃ ev,
      ingest tbl lk (.bytes (encode (onExit scratch t c))) = .ok ev ∧
      ev.argv.lookup "pathname" = some (.str []) := by
  refine ⟨pageEndCall, by decide, by decide, ?_⟩
  intro tbl lk scratch t hw hc
  have hfl : fillers.lookup pageEndCall.nr.toNat = some ⟨[.user 0 0], .ltzero⟩ := by decide +kernel
  have hok := table_ok _ (lookup_mem hfl)
  have hwf := wf_onExit scratch t pageEndCall hw hc
  have h := ingest_ok tbl lk _ hwf [] [("pathname", .cstr 0)]
    (by rw [onExit_syscall]; decide +kernel)
  rw [List.append_nil] at h
  refine ⟨_, h, ?_⟩
  rw [onExit_args scratch t _ _ hfl]
  simp only [eventOf, List.map_cons, List.map_nil, List.lookup_cons, BEq.rfl, evalRd, makeCString]
  have hwu := window_user (regs := pageEndCall.args) (m := pageEndCall.mem) hw.2 hok (s := 0) (k := 0) (n := 128) (by simp) (by omega)
  rw [show argLen = 128 from rfl] at hwu ⊢
  rw [hwu]
  decide +kernel

/-- `kill(2^32 - 1, 9)`: the pid is reported as -1. -/
example : ∃ m, meaning nr.sys_kill "pid" = some m ∧ Sane (sampleCall nr.sys_kill) m ∧
    (nr.sys_kill, "pid") ∉ mismatches := ⟨.s32 0, by decide +kernel, by decide +kernel, by decide +kernel⟩
example : ∃ m, meaning nr.sys_read "buf" = some m ∧ Sane (sampleCall nr.sys_read) m ∧
    (nr.sys_read, "buf") ∉ mismatches := ⟨.buf 1 2, by decide +kernel, by decide +kernel, by decide +kernel⟩

/-- The event sent when a program calls `execve`: the file name is the program's, and the decoded
`argv[i]`, for `i` below 3, is the program's `argv[i+1]`.

Partial: it should be the program's `argv[i]`, up to `argv[3]`, and nothing past the end of the
vector (`c36_execve_violated`). -/
theorem c36_execve_partial {κ : Type} (tbl : Syscalls.Syscalls) (lk : Option (Int → Option κ))
    (scratch : KEvent) (t : Task) (m : Mem) (filename argv now : BitVec 64) (extra : List Byte)
    (hw : scratch.WF) (hc : t.comm.length = 16)
    (hf : ∀ i < 128, (m (filename.toNat + i)).isSome) :
    ∃ ev, ingest tbl lk (.bytes (encode (onExecve scratch t m filename argv now) ++ extra)) = .ok ev ∧
      (∃ s, ev.argv.lookup "filename" = some (.str s) ∧ CStringAt m filename.toNat 128 s) ∧
      ∀ i, i < 3 → ∀ p : Nat, Holds m (argv.toNat + 8 * (i + 1)) (leBytes 8 p) → p < 2 ^ 64 →
        (∀ j < 128, (m (p + j)).isSome) →
        ∃ s, ev.argv.lookup (["argv[0]", "argv[1]", "argv[2]"].getD i "") = some (.str s) ∧
          CStringAt m p 128 s := by
  obtain ⟨hwf, h0, hi⟩ := execve_args scratch t m filename argv now hw hc
  have hok := ingest_ok tbl lk _ hwf extra
    [("filename", .cstr 0), ("argv[0]", .cstr 1), ("argv[1]", .cstr 2), ("argv[2]", .cstr 3),
      ("argv[3]", .empty)] (by show decoders.lookup nr.sys_execve = _; decide +kernel)
  refine ⟨_, hok, ?_, ?_⟩
  · refine ⟨_, rfl, ?_⟩
    rw [makeCString, show (0 * argLen) = 0 from rfl, show argLen = 128 from rfl, h0]
    exact cstringAt_probeRead m _ hf
  · intro i hi3 p hp hp64 hr
    have hd : derefPtr m (argv.toNat + 8 * (i + 1)) = p := by
      obtain ⟨bs, hbs⟩ := rdMem_of_readable m (argv.toNat + 8 * (i + 1)) 8 (fun j hj => by
        rw [hp j (by simpa using hj)]; simp [hj])
      obtain ⟨hl, hh⟩ := rdMem_spec _ _ _ _ hbs
      have : bs = leBytes 8 p := by
        apply List.ext_getElem?
        intro j
        by_cases hj : j < 8
        · rw [← hh j (by omega), hp j (by simpa using hj)]
        · rw [List.getElem?_eq_none (by omega), List.getElem?_eq_none (by simp; omega)]
      rw [derefPtr, probeRead, hbs, Option.getD_some, this, leVal_leBytes,
        Nat.mod_eq_of_lt (by simpa using hp64)]
    have hwin := hi i (by omega)
    rw [hd] at hwin
    refine ⟨makeCString (onExecve scratch t m filename argv now).args (128 * (i + 1)) 128, ?_, ?_⟩
    · have : i = 0 ∨ i = 1 ∨ i = 2 := by omega
      rcases this with rfl | rfl | rfl <;> rfl
    · rw [makeCString, hwin]
      exact cstringAt_probeRead m p hr

/-- Memory of a program about to run `execve("/a", {"a", "-b", NULL})`: the vector is at 8, "a" at
300, "-b" at 600, "/a" at 900. -/
def execMem : Mem := fun a =>
  if 8 ≤ a ∧ a < 32 then (leBytes 8 300 ++ leBytes 8 600 ++ leBytes 8 0)[a - 8]?
  else if 300 ≤ a ∧ a < 302 then [(97 : Byte), 0][a - 300]?
  else if 600 ≤ a ∧ a < 603 then [(45 : Byte), 98, 0][a - 600]?
  else if 900 ≤ a ∧ a < 903 then [(47 : Byte), 97, 0][a - 900]?
  else if a < 4096 then some 120 else none

/-- `execve("/a", {"a", "-b", NULL})` is reported with "-b" as `argv[0]`. -/
theorem c36_execve_violated : Holds execMem 8 (leBytes 8 300) ∧ CStringAt execMem 300 128 [97] ∧
    Holds execMem 16 (leBytes 8 600) ∧ CStringAt execMem 600 128 [45, 98] ∧
    Holds execMem 24 (leBytes 8 0) ∧
    ∀ (tbl : Syscalls.Syscalls) (lk : Option (Int → Option Unit)) (scratch : KEvent) (t : Task)
      (now : BitVec 64), scratch.WF → t.comm.length = 16 → ∃ ev,
      ingest tbl lk (.bytes (encode (onExecve scratch t execMem 900 8 now))) = .ok ev ∧
      ev.argv.lookup "argv[0]" = some (.str [45, 98]) := by
  refine ⟨by decide +kernel, by decide +kernel, by decide +kernel, by decide +kernel,
    by decide +kernel, ?_⟩
  intro tbl lk scratch t now hw hc
  obtain ⟨hwf, h0, hi⟩ := execve_args scratch t execMem 900 8 now hw hc
  have hok := ingest_ok tbl lk _ hwf []
    [("filename", .cstr 0), ("argv[0]", .cstr 1), ("argv[1]", .cstr 2), ("argv[2]", .cstr 3),
      ("argv[3]", .empty)] (by show decoders.lookup nr.sys_execve = _; decide +kernel)
  rw [List.append_nil] at hok
  refine ⟨_, hok, ?_⟩
  have h1 := hi 0 (by omega)
  show some (Val.str (makeCString _ (1 * argLen) argLen)) = _
  rw [makeCString, show 1 * argLen = 128 * (0 + 1) from rfl, show argLen = 128 from rfl, h1]
  decide +kernel

/-- The hypotheses of `c36_execve_partial` are met by that call. -/
example : (∀ i < 128, (execMem ((900 : BitVec 64).toNat + i)).isSome) ∧
    Holds execMem ((8 : BitVec 64).toNat + 8 * (0 + 1)) (leBytes 8 600) ∧
    (∀ j < 128, (execMem (600 + j)).isSome) := by decide +kernel

/-! ### C37: decoding stays inside the event -/

/-- Exactly when a decoded event exposes memory that is not part of the event: for `read`,
`write`, `readlink` and `readlinkat` when the reported size is negative, for `mprotect` when the
reported length exceeds 256, for `nanosleep` always, and for no other system call. -/
theorem c37_outside_iff {κ : Type} (tbl : Syscalls.Syscalls) (lk : Option (Int → Option κ))
    (e : KEvent) (hw : e.WF) (extra : List Byte) (ev : TraceEvent κ)
    (h : ingest tbl lk (.bytes (encode e ++ extra)) = .ok ev) :
    (∃ f v, ev.argv.lookup f = some v ∧ ¬ Inside v) ↔
      (e.syscall.toNat ∈ [nr.sys_read, nr.sys_write] ∧
        ∃ n, ev.argv.lookup "count" = some (.int n) ∧ n < 0) ∨
      (e.syscall.toNat ∈ [nr.sys_readlink, nr.sys_readlinkat] ∧
        ∃ n, ev.argv.lookup "size" = some (.int n) ∧ n < 0) ∨
      (e.syscall.toNat = nr.sys_mprotect ∧
        ∃ n, ev.argv.lookup "len" = some (.int n) ∧ 256 < n) ∨
      e.syscall.toNat = nr.sys_nanosleep := by
  cases hd : decoders.lookup e.syscall.toNat with
  | none =>
    have hp : ingest tbl lk (.bytes (encode e ++ extra)) = .panic := by
      simp only [ingest, ingest_encode e hw extra]
      rw [decodeSyscall_none _ _ (show decoders.lookup (rawOf e).syscall.toNat = none from hd)]
    rw [hp] at h; cases h
  | some fields =>
    have hok := ingest_ok tbl lk e hw extra fields hd
    rw [h] at hok
    injection hok with hev
    have hargv : ev.argv = fields.map fun f => (f.1, evalRd e.args f.2) := by rw [hev]; rfl
    rw [hargv]
    simp only [lookup_map]
    have mem : ∀ f rd, fields.lookup f = some rd → bounded rd = true ∧
        rd.slots.all (· < argCount) = true := by
      intro f rd hf
      refine ⟨table_bounds _ (lookup_mem hd) _ (lookup_mem hf), ?_⟩
      have := table_slots _ (lookup_mem hd)
      rw [List.all_eq_true] at this
      exact this _ (lookup_mem hf)
    have hrow : ∀ f rd, fields.lookup f = some rd → riskyRow e.syscall.toNat fields rd = true :=
      fun f rd hf => table_riskyRow _ (lookup_mem hd) _ (lookup_mem hf)
    constructor
    · rintro ⟨f, v, hv, hin⟩
      obtain ⟨rd, hrd, rfl⟩ := Option.map_eq_some_iff.1 hv
      have hrr := hrow f rd hrd
      rcases (not_inside_iff e.args hw.2 rd (mem f rd hrd).2 (mem f rd hrd).1).1 hin with
        ⟨s, c, rfl, hneg⟩ | ⟨c, rfl, hbig⟩ | ⟨i, n, rfl⟩
      · simp only [riskyRow, Bool.or_eq_true, Bool.and_eq_true, decide_eq_true_eq,
          beq_iff_eq] at hrr
        rcases hrr with ⟨h1, h2⟩ | ⟨h1, h2⟩
        · exact .inl ⟨h1, _, by rw [h2]; rfl, hneg⟩
        · exact .inr (.inl ⟨h1, _, by rw [h2]; rfl, hneg⟩)
      · simp only [riskyRow, Bool.and_eq_true, beq_iff_eq] at hrr
        exact .inr (.inr (.inl ⟨hrr.1, _, by rw [hrr.2]; rfl, hbig⟩))
      · simp only [riskyRow, beq_iff_eq] at hrr
        exact .inr (.inr (.inr hrr))
    · obtain ⟨r1, r2, r3, r4, r5, r6⟩ := rows_risky
      simp only [List.mem_cons, List.not_mem_nil, or_false]
      rintro (⟨hn | hn, n, hl, hneg⟩ | ⟨hn | hn, n, hl, hneg⟩ | ⟨hn, n, hl, hbig⟩ | hn) <;>
        rw [hn] at hd
      · rw [r1] at hd; cases hd
        refine ⟨"buf", _, rfl, ?_⟩
        rw [inside_bufMin _ hw.2 _ _ (by omega)]
        cases hl; omega
      · rw [r2] at hd; cases hd
        refine ⟨"buf", _, rfl, ?_⟩
        rw [inside_bufMin _ hw.2 _ _ (by omega)]
        cases hl; omega
      · rw [r3] at hd; cases hd
        refine ⟨"buf", _, rfl, ?_⟩
        rw [inside_bufMin _ hw.2 _ _ (by omega)]
        cases hl; omega
      · rw [r4] at hd; cases hd
        refine ⟨"buf", _, rfl, ?_⟩
        rw [inside_bufMin _ hw.2 _ _ (by omega)]
        cases hl; omega
      · rw [r5] at hd; cases hd
        refine ⟨"addr_data", _, rfl, ?_⟩
        rw [inside_bufMax _ hw.2]
        cases hl; omega
      · rw [r6] at hd; cases hd
        exact ⟨"req", _, rfl, fun h => h⟩

/-- Partial: events of the other system calls are decoded from their own bytes only, whatever
those bytes are. Missing: the six system calls of `c37_outside_iff`. -/
theorem c37_inside_partial {κ : Type} (tbl : Syscalls.Syscalls) (lk : Option (Int → Option κ))
    (e : KEvent) (hw : e.WF) (extra : List Byte) (ev : TraceEvent κ)
    (h : ingest tbl lk (.bytes (encode e ++ extra)) = .ok ev)
    (hn : e.syscall.toNat ∉ [nr.sys_read, nr.sys_write, nr.sys_readlink, nr.sys_readlinkat,
      nr.sys_mprotect, nr.sys_nanosleep]) (f : String) (v : Val)
    (hv : ev.argv.lookup f = some v) : Inside v := by
  apply Decidable.byContradiction
  intro hi
  rcases (c37_outside_iff tbl lk e hw extra ev h).1 ⟨f, v, hv, hi⟩ with h | h | h | h <;>
    simp_all

/-- `mprotect` of one page: the agent exposes 4096 bytes starting in a 640-byte area. -/
theorem c37_violated : ∃ c : Call, c.nr.toNat = nr.sys_mprotect ∧ c.args 1 = 4096 ∧
    ∀ (tbl : Syscalls.Syscalls) (lk : Option (Int → Option Unit)) (scratch : KEvent) (t : Task),
      scratch.WF → t.comm.length = 16 → ∃ ev,
      ingest tbl lk (.bytes (encode (onExit scratch t c))) = .ok ev ∧
      ev.argv.lookup "addr_data" = some (.outside 384 4096) := by
  let c : Call := { sampleCall nr.sys_mprotect with args := fun k => if k = 1 then 4096 else 8192 }
  refine ⟨c, by decide, rfl, ?_⟩
  intro tbl lk scratch t hw hc
  have hwf := wf_onExit scratch t c hw hc
  have hok := ingest_ok tbl lk _ hwf [] _ (by
    rw [onExit_syscall]; exact rows_risky.2.2.2.2.1)
  rw [List.append_nil] at hok
  refine ⟨_, hok, ?_⟩
  have hfl : fillers.lookup c.nr.toNat
    = some ⟨[.reg 0 0, .reg 1 1, .reg 2 2, .user 3 0], .ltzero⟩ := by decide +kernel
  rw [onExit_args scratch t c _ hfl]
  have h1 := makeCU64_reg (regs := c.args) (m := c.mem) hw.2 (table_ok _ (lookup_mem hfl))
    (s := 1) (k := 1) (by simp)
  have hlen := length_acts c.args c.mem _ _ hw.2 (okFiller_iff (table_ok _ (lookup_mem hfl))).1
  simp only at h1 hlen
  have h4096 : (c.args 1).toInt = 4096 := by decide
  have h128 : (argLen : Int) = 128 := rfl
  refine (show _ = some (evalRd _ (.bufMax 3 1)) from rfl).trans ?_
  rw [evalRd, makeC64, h1, h4096, if_pos (by omega), makeCBytes,
    if_neg (by rw [hlen]; omega)]
  rfl

example : ∃ e : KEvent, e.WF ∧ e.syscall.toNat = nr.sys_kill :=
  ⟨{ sampleScratch with syscall := BitVec.ofNat 32 nr.sys_kill }, sampleScratch_wf, rfl⟩

/-! ### C38: no input crashes the decoder -/

/-- Exactly which inputs crash `Ingest`: buffers long enough to be an event whose system call
number, in bytes 16 to 19, is not one of the decodable ones. -/
theorem c38_panics_iff {κ : Type} (tbl : Syscalls.Syscalls) (lk : Option (Int → Option κ))
    (data : List Byte) : ingest tbl lk (.bytes data) = .panic ↔
      736 ≤ data.length ∧ leVal (window data 16 4) ∉ decodable := by
  by_cases hl : 736 ≤ data.length
  · obtain ⟨e, hw, he, hn⟩ := event_of_data data hl
    have hdata : data = encode e ++ data.drop 736 := by rw [he, List.take_append_drop]
    rw [← hn, hdata]
    cases hd : decoders.lookup e.syscall.toNat with
    | none =>
      have hp : ingest tbl lk (.bytes (encode e ++ data.drop 736)) = .panic := by
        simp only [ingest, ingest_encode e hw _]
        rw [decodeSyscall_none _ _ (show decoders.lookup (rawOf e).syscall.toNat = none from hd)]
      rw [hp, decodable_iff, hd, ← hdata]
      simp [hl]
    | some fields =>
      rw [ingest_ok tbl lk e hw _ fields hd, decodable_iff, hd]
      simp
  · have : ingestBytes data = none := (c34_rejects_short data).2 (by omega)
    simp [ingest, this, hl]

/-- Partial: on every other input `Ingest` returns. Missing: the inputs of `c38_panics_iff`. -/
theorem c38_no_panic_partial {κ : Type} (tbl : Syscalls.Syscalls) (lk : Option (Int → Option κ)) :
    (∀ data, leVal (window data 16 4) ∈ decodable → ingest tbl lk (.bytes data) ≠ .panic) ∧
    (∀ data, leVal (window data 16 4) ∈ decodable → ingest tbl lk (.kernelEvent data) ≠ .panic) ∧
    ingest tbl lk .other = .err := by
  have h : ∀ data, leVal (window data 16 4) ∈ decodable → ingest tbl lk (.bytes data) ≠ .panic :=
    fun data h hp => ((c38_panics_iff tbl lk data).1 hp).2 h
  exact ⟨h, h, rfl⟩

/-- The event of any traced system call that is not decodable, `getpid` for one, crashes the
agent. -/
theorem c38_violated {κ : Type} : (39 ∉ decodable) ∧
    ∀ (tbl : Syscalls.Syscalls) (lk : Option (Int → Option κ)) (scratch : KEvent) (t : Task)
      (c : Call), scratch.WF → t.comm.length = 16 → c.nr.toNat ∉ decodable →
      ingest tbl lk (.bytes (encode (onExit scratch t c))) = .panic := by
  refine ⟨by decide +kernel, ?_⟩
  intro tbl lk scratch t c hw hc hn
  have hwf := wf_onExit scratch t c hw hc
  have hie := ingest_encode _ hwf []
  rw [List.append_nil] at hie
  have hd : decoders.lookup (rawOf (onExit scratch t c)).syscall.toNat = none := by
    show decoders.lookup (onExit scratch t c).syscall.toNat = none
    rw [onExit_syscall]
    cases hd : decoders.lookup c.nr.toNat with
    | none => rfl
    | some f => exact absurd ((decodable_iff _).2 ⟨f, hd⟩) hn
  simp only [ingest, hie, decodeSyscall_none _ _ hd]

/-- Events of decodable system calls are decoded. -/
theorem c38_decodable_ok {κ : Type} (tbl : Syscalls.Syscalls) (lk : Option (Int → Option κ))
    (scratch : KEvent) (t : Task) (c : Call) (hw : scratch.WF) (hc : t.comm.length = 16)
    (hn : c.nr.toNat ∈ decodable) (extra : List Byte) :
    ∃ ev, ingest tbl lk (.bytes (encode (onExit scratch t c) ++ extra)) = .ok ev := by
  obtain ⟨fields, hf⟩ := (decodable_iff _).1 hn
  exact ⟨_, ingest_ok tbl lk _ (wf_onExit scratch t c hw hc) extra fields
    (by rw [onExit_syscall]; exact hf)⟩

example : nr.sys_openat ∈ decodable ∧ (sampleCall nr.sys_openat).nr.toNat = nr.sys_openat := by
  decide +kernel

/-! ### C39: the header -/

/-- The header of a decoded event: who made the call, where and when.

Partial: `pid` holds the thread id and `tid` the process id (`c39_pid_violated`); timestamps are
exact below 2^63. -/
theorem c39_header_partial {κ : Type} (tbl : Syscalls.Syscalls) (lk : Option (Int → Option κ))
    (scratch : KEvent) (t : Task) (c : Call) (extra : List Byte) (hw : scratch.WF)
    (hc : t.comm.length = 16) (hn : c.nr.toNat ∈ decodable) :
    ∃ ev, ingest tbl lk (.bytes (encode (onExit scratch t c) ++ extra)) = .ok ev ∧
      ev.syscall = Syscalls.lookup tbl (.int c.nr.toNat) ∧
      ev.pid = t.pid.toNat ∧ ev.tid = t.tgid.toNat ∧ ev.cpid = t.nsPid.toNat ∧
      ev.uid = c.uid.toNat ∧ ev.gid = c.gid.toNat ∧ ev.sid = t.sid.toInt ∧
      ev.pidNs = t.pidNs.toNat ∧ ev.utsNs = t.utsNs.toNat ∧ ev.mntNs = t.mntNs.toNat ∧
      BeforeNul t.comm ev.comm ∧
      ev.container = lk.bind (fun f => f t.pidNs.toNat) ∧
      (c.start.toNat < 2 ^ 63 → ev.start = c.start.toNat) ∧
      (c.finish.toNat < 2 ^ 63 → ev.finish = c.finish.toNat) := by
  obtain ⟨fields, hf⟩ := (decodable_iff _).1 hn
  refine ⟨_, ingest_ok tbl lk _ (wf_onExit scratch t c hw hc) extra fields
    (by rw [onExit_syscall]; exact hf), ?_⟩
  have hfl := decoders_have_fillers _ (lookup_mem hf)
  obtain ⟨fl, hfl⟩ := Option.isSome_iff_exists.1 hfl
  simp only [eventOf, onExit, fillInit, hfl, pack, lo_append, hi_append, true_and]
  exact ⟨beforeNul_cstr _, toInt_of_lt _, toInt_of_lt _⟩

/-- The reported process id is not the process id, for every thread but the first. -/
theorem c39_pid_violated (tbl : Syscalls.Syscalls) (lk : Option (Int → Option Unit))
    (scratch : KEvent) (t : Task) (c : Call) (hw : scratch.WF) (hc : t.comm.length = 16)
    (hn : c.nr.toNat ∈ decodable) (ht : t.pid ≠ t.tgid) :
    ∃ ev, ingest tbl lk (.bytes (encode (onExit scratch t c))) = .ok ev ∧
      ev.pid ≠ t.tgid.toNat ∧ ev.tid ≠ t.pid.toNat := by
  obtain ⟨ev, he, _, hp, ht', _⟩ := c39_header_partial tbl lk scratch t c [] hw hc hn
  rw [List.append_nil] at he
  have : t.pid.toNat ≠ t.tgid.toNat := fun h => ht (BitVec.eq_of_toNat_eq h)
  exact ⟨ev, he, by omega, by omega⟩

example : sampleTask.pid ≠ sampleTask.tgid ∧ sampleTask.comm.length = 16 ∧
    (sampleCall nr.sys_kill).nr.toNat ∈ decodable := by decide +kernel

/-! ### C67: nothing of an earlier event shows -/

/-- Two events of the same call by the same task are decoded alike, whatever earlier events left
in the scratch buffer.

Partial: except for the fields listed in `stale` (`c67_stale_fields_are_real`). -/
theorem c67_no_stale_data_partial {κ : Type} (tbl : Syscalls.Syscalls)
    (lk : Option (Int → Option κ)) (s₁ s₂ : KEvent) (t : Task) (c : Call) (h₁ : s₁.WF) (h₂ : s₂.WF)
    (hc : t.comm.length = 16) (ev₁ ev₂ : TraceEvent κ)
    (he₁ : ingest tbl lk (.bytes (encode (onExit s₁ t c))) = .ok ev₁)
    (he₂ : ingest tbl lk (.bytes (encode (onExit s₂ t c))) = .ok ev₂) :
    { ev₁ with argv := [] } = { ev₂ with argv := [] } ∧
    ∀ f, (c.nr.toNat, f) ∉ stale → ev₁.argv.lookup f = ev₂.argv.lookup f := by
  cases hd : decoders.lookup c.nr.toNat with
  | none =>
    have := c38_violated.2 tbl lk s₁ t c h₁ hc (fun h => by
      obtain ⟨f, hf⟩ := (decodable_iff _).1 h
      rw [hd] at hf; cases hf)
    rw [this] at he₁; cases he₁
  | some fields =>
    have k₁ := ingest_ok tbl lk _ (wf_onExit s₁ t c h₁ hc) [] fields
      (by rw [onExit_syscall]; exact hd)
    have k₂ := ingest_ok tbl lk _ (wf_onExit s₂ t c h₂ hc) [] fields
      (by rw [onExit_syscall]; exact hd)
    rw [List.append_nil] at k₁ k₂
    have e₁ := Res.ok.inj (k₁.symm.trans he₁)
    have e₂ := Res.ok.inj (k₂.symm.trans he₂)
    rw [← e₁, ← e₂]
    refine ⟨header_indep tbl lk s₁ s₂ t c _ _, ?_⟩
    intro f hf
    rw [argv_eventOf, argv_eventOf, lookup_map, lookup_map]
    cases hr : fields.lookup f with
    | none => rw [Option.map_none, Option.map_none]
    | some rd =>
      rw [Option.map_some, Option.map_some,
        field_indep s₁ s₂ t c h₁ h₂ (lookup_mem hd) (lookup_mem hr) hf]

/-- A call with a length of 200 where it is a length. -/
def staleCall (n : Nat) : Call :=
  { sampleCall n with args := fun k => if k = 1 then 200 else BitVec.ofNat 64 (16 + k) }

/-- Every field listed as stale does show bytes of an earlier event, for some call. -/
theorem c67_stale_fields_are_real : ∀ x ∈ stale, ∃ (c : Call) (t : Task) (s₁ s₂ : KEvent),
    c.nr.toNat = x.1 ∧ t.comm.length = 16 ∧ s₁.WF ∧ s₂.WF ∧
    ∀ (tbl : Syscalls.Syscalls) (lk : Option (Int → Option Unit)), ∃ ev₁ ev₂,
      ingest tbl lk (.bytes (encode (onExit s₁ t c))) = .ok ev₁ ∧
      ingest tbl lk (.bytes (encode (onExit s₂ t c))) = .ok ev₂ ∧
      ev₁.argv.lookup x.2 ≠ ev₂.argv.lookup x.2 := by
  have key : ∀ x ∈ stale, ∃ rds ∈ decoders.lookup x.1, ∃ rd ∈ rds.lookup x.2,
      (staleCall x.1).nr.toNat = x.1 ∧
      evalRd (onExit sampleScratch sampleTask (staleCall x.1)).args rd ≠
        evalRd (onExit { sampleScratch with args := List.replicate 640 254 } sampleTask
          (staleCall x.1)).args rd := by
    decide +kernel
  intro x hx
  obtain ⟨rds, hrds, rd, hrd, hn, hne⟩ := key x hx
  simp only [Option.mem_def] at hrds hrd
  have w2 : KEvent.WF { sampleScratch with args := List.replicate 640 254 } := by
    unfold KEvent.WF; decide +kernel
  refine ⟨staleCall x.1, sampleTask, sampleScratch,
    { sampleScratch with args := List.replicate 640 254 }, hn, rfl, sampleScratch_wf, w2, ?_⟩
  intro tbl lk
  have k₁ := ingest_ok tbl lk _ (wf_onExit _ sampleTask (staleCall x.1) sampleScratch_wf rfl) [] rds
    (by rw [onExit_syscall, hn]; exact hrds)
  have k₂ := ingest_ok tbl lk _ (wf_onExit _ sampleTask (staleCall x.1) w2 rfl) [] rds
    (by rw [onExit_syscall, hn]; exact hrds)
  rw [List.append_nil] at k₁ k₂
  refine ⟨_, _, k₁, k₂, ?_⟩
  simp only [eventOf, lookup_map, hrd, Option.map_some, ne_eq, Option.some.injEq]
  exact hne

example : (nr.sys_openat, "pathname") ∉ stale ∧ sampleScratch.WF := ⟨by decide, sampleScratch_wf⟩

/-! ### C68: return value and error -/

/-- Results that fit 31 bits are reported unchanged and without an error, and error results give
their error number.

Partial: not for `getcwd`, nor for large or negative results as such (the three `violated`
theorems). -/
theorem c68_result_partial {κ : Type} (tbl : Syscalls.Syscalls) (lk : Option (Int → Option κ))
    (scratch : KEvent) (t : Task) (c : Call) (extra : List Byte) (hw : scratch.WF)
    (hc : t.comm.length = 16) (hn : c.nr.toNat ∈ decodable) (hg : c.nr.toNat ≠ nr.sys_getcwd) :
    ∃ ev, ingest tbl lk (.bytes (encode (onExit scratch t c) ++ extra)) = .ok ev ∧
      (0 ≤ c.ret.toInt → c.ret.toInt < 2 ^ 31 → ev.ret = c.ret.toInt ∧ ev.error = 0) ∧
      (-4095 ≤ c.ret.toInt → c.ret.toInt < 2 ^ 31 → ev.error = errorOf c.ret.toInt) := by
  obtain ⟨fields, hf⟩ := (decodable_iff _).1 hn
  refine ⟨_, ingest_ok tbl lk _ (wf_onExit scratch t c hw hc) extra fields
    (by rw [onExit_syscall]; exact hf), ?_⟩
  have hkind : ∀ row ∈ decoders, row.1 ≠ nr.sys_getcwd →
      ∃ fl ∈ fillers.lookup row.1, fl.err = .ltzero := by decide +kernel
  obtain ⟨fl, hfl, hk⟩ := hkind _ (lookup_mem hf) hg
  simp only [Option.mem_def] at hfl
  simp only [eventOf, onExit, fillInit, hfl, hk, errOf]
  exact result_facts c.ret

/-- A failed call's return value is reported as a positive number: -2 becomes 4294967294. -/
theorem c68_negative_violated {κ : Type} (tbl : Syscalls.Syscalls) (lk : Option (Int → Option κ))
    (scratch : KEvent) (t : Task) (c : Call) (hw : scratch.WF)
    (hc : t.comm.length = 16) (hn : c.nr.toNat ∈ decodable) (hneg : c.ret.toInt < 0) :
    ∃ ev, ingest tbl lk (.bytes (encode (onExit scratch t c))) = .ok ev ∧
      0 ≤ ev.ret ∧ ev.ret ≠ c.ret.toInt := by
  obtain ⟨fields, hf⟩ := (decodable_iff _).1 hn
  have h := ingest_ok tbl lk _ (wf_onExit scratch t c hw hc) [] fields
    (by rw [onExit_syscall]; exact hf)
  rw [List.append_nil] at h
  refine ⟨_, h, ?_⟩
  simp only [eventOf]
  omega

/-- `getcwd` failing with ERANGE (34) is reported as a success. -/
theorem c68_getcwd_violated {κ : Type} (tbl : Syscalls.Syscalls) (lk : Option (Int → Option κ))
    (scratch : KEvent) (t : Task) (c : Call) (hw : scratch.WF) (hc : t.comm.length = 16)
    (hn : c.nr.toNat = nr.sys_getcwd) (hr : c.ret = BitVec.ofInt 64 (-34)) :
    errorOf c.ret.toInt = 34 ∧
    ∃ ev, ingest tbl lk (.bytes (encode (onExit scratch t c))) = .ok ev ∧ ev.error = 0 := by
  refine ⟨by rw [hr]; decide, ?_⟩
  have hf : decoders.lookup c.nr.toNat = some [("buf", .cstr 0), ("size", .c64 1)] := by
    rw [hn]; decide +kernel
  have h := ingest_ok tbl lk _ (wf_onExit scratch t c hw hc) [] _
    (by rw [onExit_syscall]; exact hf)
  rw [List.append_nil] at h
  have hfl : ∃ fl ∈ fillers.lookup c.nr.toNat, fl.err = .null := by rw [hn]; decide +kernel
  obtain ⟨fl, hfl, hk⟩ := hfl
  simp only [Option.mem_def] at hfl
  refine ⟨_, h, ?_⟩
  simp only [eventOf, onExit, fillInit, hfl, hk, errOf, hr]
  decide

/-- A successful `brk` returning the address 0x80001000 is reported as an error. -/
theorem c68_large_violated {κ : Type} (tbl : Syscalls.Syscalls) (lk : Option (Int → Option κ))
    (scratch : KEvent) (t : Task) (c : Call) (hw : scratch.WF) (hc : t.comm.length = 16)
    (hn : c.nr.toNat = nr.sys_brk) (hr : c.ret = 0x80001000) :
    errorOf c.ret.toInt = 0 ∧
    ∃ ev, ingest tbl lk (.bytes (encode (onExit scratch t c))) = .ok ev ∧ ev.error = 0x7ffff000 := by
  refine ⟨by rw [hr]; decide, ?_⟩
  have hf : decoders.lookup c.nr.toNat = some [("addr", .cu64 0)] := by
    rw [hn]; decide +kernel
  have h := ingest_ok tbl lk _ (wf_onExit scratch t c hw hc) [] _
    (by rw [onExit_syscall]; exact hf)
  rw [List.append_nil] at h
  have hfl : ∃ fl ∈ fillers.lookup c.nr.toNat, fl.err = .ltzero := by rw [hn]; decide +kernel
  obtain ⟨fl, hfl, hk⟩ := hfl
  simp only [Option.mem_def] at hfl
  refine ⟨_, h, ?_⟩
  simp only [eventOf, onExit, fillInit, hfl, hk, errOf, hr]
  decide

example : ∃ c : Call, c.nr.toNat = nr.sys_getcwd ∧ c.ret = BitVec.ofInt 64 (-34) :=
  ⟨{ sampleCall nr.sys_getcwd with ret := BitVec.ofInt 64 (-34) }, by decide, rfl⟩
example : ∃ c : Call, c.nr.toNat = nr.sys_brk ∧ c.ret = 0x80001000 :=
  ⟨{ sampleCall nr.sys_brk with ret := 0x80001000 }, by decide, rfl⟩
example : (0 ≤ (sampleCall nr.sys_open).ret.toInt ∧ (sampleCall nr.sys_open).ret.toInt < 2 ^ 31) ∧
    errorOf (-2) = 2 := by decide +kernel

end Swoll.Props.Event
