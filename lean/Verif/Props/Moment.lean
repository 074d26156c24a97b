import Verif.Props.Event
/-
Property C118: an event shows the memory of the moment the call was made. The probe copies what pointers point to
when the call returns (internal/bpf/probe.c:2580-2732), and other threads may have written to it meanwhile.
-/
namespace Swoll.Props.Moment
open Swoll.Bytes Swoll.Event Swoll.Spec.Event Swoll.Lemmas.Event

theorem rdMem_congr {m m' : Mem} : ∀ (n a : Nat), (∀ i < n, m (a + i) = m' (a + i)) → rdMem m a n = rdMem m' a n
  | 0, _, _ => rfl
  | n + 1, a, h => by
    have h0 := h 0 (by omega)
    rw [Nat.add_zero] at h0
    unfold rdMem
    have h1 : rdMem m (a + 1) n = rdMem m' (a + 1) n := rdMem_congr n (a + 1) (fun i hi => by
      have := h (i + 1) (by omega)
      rwa [show a + (i + 1) = a + 1 + i by omega] at this)
    rw [h0, h1]

theorem holds_congr {m m' : Mem} {a : Nat} {bs : List Byte} (h : ∀ i < bs.length, m (a + i) = m' (a + i))
    (hh : Holds m a bs) : Holds m' a bs := fun i hi => by rw [← h i hi]; exact hh i hi

/-- The objects of the specification lie in the 128 bytes that are copied. -/
def fits : Meaning → Bool
  | .obj _ o n => o + n ≤ 128
  | _ => true

theorem table_fits : ∀ row ∈ meanings, ∀ f ∈ row.2, (row.1, f.1) ∉ mismatches → fits f.2 = true := by decide +kernel

/-- C118: a field that is not one of the listed mismatches says what the program passed, in the registers and in the
memory as it was when the call was made, if the 128 bytes at each pointer the field depends on are the same when
the call returns. A field that depends on no pointer is always right: the registers kept at entry are reported.

Partial: memory that another thread writes in between is reported as it is then (`c118_changed_violated`). -/
theorem c118_unchanged_partial {κ : Type} (tbl : Syscalls.Syscalls) (lk : Option (Int → Option κ))
    (scratch : KEvent) (t : Task) (c : Call) (atEntry : Mem) (extra : List Byte)
    (hw : scratch.WF) (hc : t.comm.length = 16) (f : String) (m : Meaning)
    (hm : meaning c.nr.toNat f = some m) (hx : (c.nr.toNat, f) ∉ mismatches) (hs : Sane c m)
    (hsame : ∀ k ∈ m.ptrs, ∀ i < 128, c.mem ((c.args k).toNat + i) = atEntry ((c.args k).toNat + i)) :
    ∃ ev v, ingest tbl lk (.bytes (encode (onExit scratch t c) ++ extra)) = .ok ev ∧
      ev.argv.lookup f = some v ∧ Means { c with mem := atEntry } m v := by
  obtain ⟨ev, v, h1, h2, h3⟩ :=
    Event.c36_decoded_arguments_partial tbl lk scratch t c extra hw hc f m hm hx hs
  refine ⟨ev, v, h1, h2, ?_⟩
  have hfit : fits m = true := by
    unfold meaning at hm
    rw [Option.bind_eq_some_iff] at hm
    obtain ⟨ms, hms, hf⟩ := hm
    exact table_fits _ (lookup_mem hms) _ (lookup_mem hf) hx
  clear h1 h2 hm hx hs
  cases m <;> cases v <;> simp only [Means] at h3 ⊢ <;> try exact h3
  case cstr k s =>
    have hk := hsame k (by simp [Meaning.ptrs])
    obtain ⟨a, b, d, e⟩ := h3
    exact ⟨holds_congr (fun i hi => hk i (by omega)) a, b, d, fun hl => by rw [← hk _ hl]; exact e hl⟩
  case obj k o n bs =>
    have hk := hsame k (by simp [Meaning.ptrs])
    simp only [fits, decide_eq_true_eq] at hfit
    refine ⟨h3.1, holds_congr (fun i hi => ?_) h3.2⟩
    rw [Nat.add_assoc]
    exact hk (o + i) (by omega)
  case buf k n bs =>
    have hk := hsame k (by simp [Meaning.ptrs])
    exact ⟨holds_congr (fun i hi => hk i (by have := h3.2; omega)) h3.1, h3.2⟩
  case buf32 k n bs =>
    have hk := hsame k (by simp [Meaning.ptrs])
    exact ⟨holds_congr (fun i hi => hk i (by have := h3.2; omega)) h3.1, h3.2⟩
  case bufAt k n bs =>
    have hk := hsame k (by simp [Meaning.ptrs])
    have hn := hsame n (by simp [Meaning.ptrs])
    intro l hl
    have h := h3 l (by rw [rdMem_congr 4 _ (fun i hi => hn i (by omega))]; exact hl)
    exact ⟨holds_congr (fun i hi => hk i (by have := h.2; omega)) h.1, h.2⟩
  case deref k v =>
    have hk := hsame k (by simp [Meaning.ptrs])
    intro l hl
    exact h3 l (by rw [rdMem_congr 4 _ (fun i hi => hk i (by omega))]; exact hl)

/-- The string `s` at address 4096 and zeros everywhere else. -/
def holding (s : List Byte) : Mem := fun a => some (if 4096 ≤ a then s.getD (a - 4096) 0 else 0)

theorem holding_cstring (s : List Byte) (h : (0 : Byte) ∉ s) (hl : s.length < 128) :
    CStringAt (holding s) 4096 128 s := by
  refine ⟨fun i hi => ?_, h, by omega, fun _ => ?_⟩
  · simp [holding, List.getD_eq_getElem?_getD, List.getElem?_eq_getElem hi]
  · simp [holding, List.getD_eq_getElem?_getD]

/-- A memory has at most one string at an address. -/
theorem cstring_unique {m : Mem} {a lim : Nat} {s s' : List Byte} (h : CStringAt m a lim s)
    (h' : CStringAt m a lim s') : s = s' := by
  have key : ∀ {s s' : List Byte}, CStringAt m a lim s → CStringAt m a lim s' → ¬ s.length < s'.length := by
    intro s s' h h' hlt
    obtain ⟨a1, _, c1, d1⟩ := h
    obtain ⟨a2, b2, c2, _⟩ := h'
    have := d1 (by omega)
    rw [a2 s.length hlt, List.getElem?_eq_getElem hlt] at this
    exact b2 (by rw [← Option.some.inj this]; exact List.getElem_mem hlt)
  have hl : s.length = s'.length := by have := key h h'; have := key h' h; omega
  apply List.ext_getElem?
  intro i
  by_cases hi : i < s.length
  · rw [← h.1 i hi, ← h'.1 i (by omega)]
  · rw [List.getElem?_eq_none (by omega), List.getElem?_eq_none (by omega)]

/-- C118 fails for every string of every call: whatever path the kernel was given, if another thread puts another
in its place before the call returns, that one is reported, with any result. -/
theorem c118_changed_violated (n k : Nat) (f : String) (hm : meaning n f = some (.cstr k))
    (hx : (n, f) ∉ mismatches) (p q : List Byte) (hp : (0 : Byte) ∉ p) (hq : (0 : Byte) ∉ q) (hpl : p.length < 128)
    (hql : q.length < 128) (ret : BitVec 64) :
    ∃ (c : Call) (atEntry : Mem), c.nr.toNat = n ∧ c.ret = ret ∧ CStringAt atEntry (c.args k).toNat 128 p ∧
      ∀ (tbl : Syscalls.Syscalls) (lk : Option (Int → Option Unit)) (scratch : KEvent) (t : Task),
        scratch.WF → t.comm.length = 16 → ∃ ev,
          ingest tbl lk (.bytes (encode (onExit scratch t c))) = .ok ev ∧
          ev.argv.lookup f = some (.str q) := by
  have hn : n < 2 ^ 32 := by
    have : ∀ row ∈ meanings, row.1 < 2 ^ 32 := by decide +kernel
    unfold meaning at hm
    rw [Option.bind_eq_some_iff] at hm
    obtain ⟨ms, hms, -⟩ := hm
    exact this _ (lookup_mem hms)
  have e : (BitVec.ofNat 32 n).toNat = n := by rw [BitVec.toNat_ofNat]; exact Nat.mod_eq_of_lt hn
  refine ⟨{ nr := BitVec.ofNat 32 n, args := fun _ => 4096, uid := 0, gid := 0, start := 0, ret := ret,
            mem := holding q, finish := 1 }, holding p, e, rfl, holding_cstring p hp hpl, ?_⟩
  intro tbl lk scratch t hw hc
  obtain ⟨ev, v, h1, h2, h3⟩ := Event.c36_decoded_arguments_partial tbl lk scratch t
    { nr := BitVec.ofNat 32 n, args := fun _ => 4096, uid := 0, gid := 0, start := 0, ret := ret,
      mem := holding q, finish := 1 } [] hw hc f (.cstr k) (by rw [e]; exact hm) (by rw [e]; exact hx)
    ⟨fun k _ i _ => rfl, fun k hk => by simp [Meaning.sizes] at hk⟩
  rw [List.append_nil] at h1
  refine ⟨ev, h1, ?_⟩
  cases v <;> simp only [Means] at h3
  rw [h2, cstring_unique h3 (holding_cstring q hq hql)]

/-- `unlink("/tmp/x")` that is reported as `unlink("/etc/passwd")`. -/
example : meaning nr.sys_unlink "pathname" = some (.cstr 0) ∧ (nr.sys_unlink, "pathname") ∉ mismatches ∧
    (0 : Byte) ∉ "/tmp/x".toUTF8.data.toList ∧ (0 : Byte) ∉ "/etc/passwd".toUTF8.data.toList ∧
    "/etc/passwd".toUTF8.data.toList.length < 128 := by decide +kernel

/-- A call whose memory did not change, and a field with a string. -/
example : Sane { Event.sampleCall nr.sys_unlink with mem := holding [47, 120], args := fun _ => 4096 } (.cstr 0) := by
  decide +kernel

end Swoll.Props.Moment
