import Verif.Lemmas.EventJSON
import Verif.Props.Syscalls
/-
Whole events through JSON.
-/
namespace Swoll.Lemmas.EventJSON
open Swoll.Bytes Swoll.Event Swoll.Flags Swoll.EventJSON Swoll.Spec.EventJSON
open Swoll.Spec.Flags (FitsInt)

/-- Every system call that can be decoded is in both tables of system calls. -/
theorem decodable_entry : decoders.all (fun d => Syscalls.gSyscallMap.any fun p => p.2 == d.1 &&
    Syscalls.gClassMap.any fun q => q.2.2 == p.1) = true := by decide +kernel

theorem lookup_decodable {order : List (String × String × String)}
    (ho : order.Perm Syscalls.gClassMap) {tbl : Syscalls.Syscalls}
    (hs : Syscalls.new order = some tbl) {nr : Nat} {fields : List (String × Rd)}
    (h : decoders.lookup nr = some fields) :
    ∃ s, Syscalls.lookup tbl (.int nr) = some s ∧ s.nr = nr := by
  have h1 := List.all_eq_true.1 decodable_entry _ (mem_of_lookup h)
  obtain ⟨p, hp, h2⟩ := List.any_eq_true.1 h1
  rw [Bool.and_eq_true, beq_iff_eq] at h2
  obtain ⟨q, hq, h3⟩ := List.any_eq_true.1 h2.2
  rw [beq_iff_eq] at h3
  have he : Spec.Syscalls.Entry p.1 nr q.1 q.2.1 := by
    refine ⟨?_, ?_⟩
    · have : (p.1, p.2) ∈ Syscalls.gSyscallMap := hp
      rw [h2.1] at this
      exact this
    · have : (q.1, q.2.1, q.2.2) ∈ Syscalls.gClassMap := hq
      rw [h3] at this
      exact this
  exact ⟨_, (Props.Syscalls.c43_lookup_complete order ho tbl hs _ _ _ _ he).1, rfl⟩

theorem lookup_argv {fields : List (String × Rd)} (a : List Byte) (n : String) :
    (fields.map fun f => (f.1, evalRd a f.2)).lookup n = (fields.lookup n).map (evalRd a) :=
  Lemmas.Event.lookup_map fields n (evalRd a)

/-- Everything about an event through JSON. -/
theorem json_spec {env : Env} (he : EnvOk env) {order : List (String × String × String)}
    (ho : order.Perm Syscalls.gClassMap) {tbl : Syscalls.Syscalls}
    (hs : Syscalls.new order = some tbl) (lk : Option (Int → Option Topology.Container))
    (e : KEvent) {fields : List (String × Rd)}
    (hd : decoders.lookup e.syscall.toNat = some fields)
    (hout : ∀ f ∈ fields, isOutside (evalRd e.args f.2) = false) {ev : TraceEvent Topology.Container}
    (hev : ev = Lemmas.Event.eventOf tbl lk e (fields.map fun f => (f.1, evalRd e.args f.2))) :
    throughJSON env e.syscall.toNat ev ≠ .panic ∧
    (throughJSON env e.syscall.toNat ev = .err ↔ (e.syscall.toNat = 54 ∨ e.syscall.toNat = 55) ∧
      sockoptUnmarshal env.opt (optOf ev.argv).parse = none) ∧
    ∀ ev', throughJSON env e.syscall.toNat ev = .ok ev' →
      ev' = { ev with
        container := ev.container.map containerThroughJSON, comm := jsonText ev.comm
        error := stringToErrno env.errno (errnoToString ev.error), argv := ev'.argv } ∧
      ev'.argv.map (·.1) = ev.argv.map (·.1) ∧ (ev.argv.map (·.1)).Nodup ∧
      (∀ n v v', (n, v) ∈ ev.argv → (n, v') ∈ ev'.argv →
        Kept (specials.lookup (e.syscall.toNat, n)) v v') ∧
      (e.syscall.toNat = 54 ∨ e.syscall.toNat = 55 → ∃ o,
        sockoptUnmarshal env.opt (optOf ev.argv).parse = some o ∧
        ev'.argv.lookup "name.tp" = some (.int o.tp) ∧
        ev'.argv.lookup "name.lv" = some (.int o.lv)) := by
  generalize hnr : e.syscall.toNat = nr at *
  obtain ⟨t, ks, ht, ht', hks, hnames, hnd, hf⟩ := row hd
  obtain ⟨js, hjs, hjn, hjm⟩ := writeArgs_ok env hks hf e.args hout
  obtain ⟨sc, hsc, hscn⟩ := lookup_decodable ho hs hd
  have hargv : ev.argv = fields.map fun f => (f.1, evalRd e.args f.2) := by rw [hev]; rfl
  have hargvn : ev.argv.map (·.1) = fields.map (·.1) := by rw [hargv, List.map_map]; rfl
  rw [← hargv] at hjs hjm
  have hsys : ev.syscall = some sc := by
    rw [hev]
    show Syscalls.lookup tbl (.int e.syscall.toNat) = some sc
    rw [hnr]
    exact hsc
  obtain ⟨hrp, hre, hrok⟩ := readArgs_cases (env := env) hks (hjn.trans hnames.symm)
    (hnames ▸ hnd)
  have hthrough : throughJSON env nr ev = match readArgs env t js with
      | .ok a => .ok { ev with
          container := ev.container.map containerThroughJSON, comm := jsonText ev.comm
          error := stringToErrno env.errno (errnoToString ev.error), argv := a }
      | .err => .err
      | .panic => .panic := by
    unfold throughJSON write
    rw [ht]
    dsimp only
    rw [hjs]
    dsimp only
    unfold EventJSON.read
    dsimp only
    rw [hsys]
    dsimp only
    rw [hscn, ht']
    dsimp only
    cases readArgs env t js <;> rfl
  have herr : readArgs env t js = .err ↔ (nr = 54 ∨ nr = 55) ∧
      sockoptUnmarshal env.opt (optOf ev.argv).parse = none := by
    rw [hre]
    constructor
    · rintro ⟨n, k, j, hl, hj, hu⟩
      obtain ⟨rd, hrd⟩ := key_mem hjn hj
      obtain ⟨k', hk', hko, -, hoo⟩ := hf _ hrd
      obtain ⟨k'', hk'', hm⟩ := hjm (n, rd) j hrd hj hnd
      obtain rfl : k' = k := Option.some.inj (hk'.symm.trans hl)
      obtain rfl : k'' = k' := Option.some.inj (hk''.symm.trans hl)
      have := (after_err he e.args hko hoo hm).1 hu
      exact this.2.2
    · rintro ⟨h54, hnone⟩
      obtain ⟨s, h1, -⟩ := opt_fields h54 hd
      have hmem := mem_of_lookup h1
      obtain ⟨k, hk, hko, hsp, hoo⟩ := hf _ hmem
      obtain ⟨j, hj⟩ := key_mem hjn.symm hmem
      obtain ⟨k', hk', hm⟩ := hjm _ j hmem hj hnd
      obtain rfl : k' = k := Option.some.inj (hk'.symm.trans hk)
      refine ⟨"name.tp", k', j, hk, hj, (after_err he e.args hko hoo hm).2
        ⟨.inl rfl, ?_, h54, hnone⟩⟩
      have hspec : specials.lookup (nr, "name.tp") = some .option := by
        rcases h54 with rfl | rfl <;> decide
      rw [hspec] at hsp
      revert hsp
      cases k' <;> simp [specOk]
  rw [hthrough]
  cases hr : readArgs env t js with
  | panic => exact absurd hr hrp
  | err =>
    dsimp only
    refine ⟨by simp, iff_of_true rfl (herr.1 hr), fun ev' h => absurd h (by simp)⟩
  | ok argv' =>
    dsimp only
    refine ⟨by simp, iff_of_false (by simp) fun h => ?_, ?_⟩
    · have := herr.2 h
      rw [hr] at this
      exact nomatch this
    intro ev' hok
    injection hok with hok
    obtain ⟨hn', hv'⟩ := hrok argv' hr
    have hev' : ev'.argv = argv' := by rw [← hok]
    have hfield : ∀ n v', (n, v') ∈ argv' → ∃ rd k, (n, rd) ∈ fields ∧ ks.lookup n = some k ∧
        kindOk k rd = true ∧ specOk k (specials.lookup (nr, n)) = true ∧ optOk nr n k = true ∧
        ∃ j, marshal env ev.argv k (evalRd e.args rd) = .ok j ∧ unmarshal env k j = .ok v' := by
      intro n v' hm'
      obtain ⟨k, j, hl, hj, hu⟩ := hv' n v' hm'
      obtain ⟨rd, hrd⟩ := key_mem hjn hj
      obtain ⟨k', hk', hko, hsp, hoo⟩ := hf _ hrd
      obtain ⟨k'', hk'', hm⟩ := hjm (n, rd) j hrd hj hnd
      obtain rfl : k' = k := Option.some.inj (hk'.symm.trans hl)
      obtain rfl : k'' = k' := Option.some.inj (hk''.symm.trans hl)
      exact ⟨rd, k'', hrd, hl, hko, hsp, hoo, j, hm, hu⟩
    refine ⟨?_, ?_, hargvn ▸ hnd, ?_, ?_⟩
    · rw [hev', ← hok]
    · rw [hev', hn', hnames, hargvn]
    · intro n v v' hm hm'
      rw [hev'] at hm'
      obtain ⟨rd, k, hrd, hl, hko, hsp, hoo, j, hma, hu⟩ := hfield n v' hm'
      have hvv : v = evalRd e.args rd := by
        rw [hargv] at hm
        obtain ⟨g, hg, hge⟩ := List.mem_map.1 hm
        injection hge with h1 h2
        have e1 := lookup_of_mem hnd hrd
        have e2 := lookup_of_mem hnd (show (g.1, g.2) ∈ fields from hg)
        rw [h1, e1] at e2
        injection e2 with e2
        rw [← h2, e2]
      rw [hvv]
      refine after_kept he ev.argv e.args hko hsp (hout _ hrd) ?_
      unfold after
      rw [hma]
      exact hu
    · intro h54
      have hndv : (argv'.map (·.1)).Nodup := by rw [hn', hnames]; exact hnd
      cases hopt : sockoptUnmarshal env.opt (optOf ev.argv).parse with
      | none =>
        have := herr.2 ⟨h54, hopt⟩
        rw [hr] at this
        exact nomatch this
      | some o =>
        refine ⟨o, rfl, ?_, ?_⟩
        · obtain ⟨s, h1, -⟩ := opt_fields h54 hd
          obtain ⟨v', hm'⟩ := key_mem ((hn'.trans hnames).symm) (mem_of_lookup h1)
          obtain ⟨rd, k, hrd, hl, hko, hsp, hoo, j, hma, hu⟩ := hfield _ v' hm'
          obtain rfl : rd = .c32 s := Option.some.inj ((lookup_of_mem hnd hrd).symm.trans h1)
          rw [hev', lookup_of_mem hndv hm']
          have hspec : specials.lookup (nr, "name.tp") = some .option := by
            rcases h54 with rfl | rfl <;> decide
          rw [hspec] at hsp
          have hk : k = .optTp := by
            revert hsp hoo
            cases k <;> simp [specOk, optOk]
          subst hk
          injection hma with hma
          subst hma
          have : resInt ((sockoptUnmarshal env.opt (optOf ev.argv).parse).map (·.tp)) = .ok v' := hu
          rw [hopt] at this
          injection this with this
          rw [← this]
        · obtain ⟨-, -, s, h1⟩ := opt_fields h54 hd
          obtain ⟨v', hm'⟩ := key_mem ((hn'.trans hnames).symm) (mem_of_lookup h1)
          obtain ⟨rd, k, hrd, hl, hko, hsp, hoo, j, hma, hu⟩ := hfield _ v' hm'
          obtain rfl : rd = .c32 s := Option.some.inj ((lookup_of_mem hnd hrd).symm.trans h1)
          rw [hev', lookup_of_mem hndv hm']
          have hspec : specials.lookup (nr, "name.lv") = some .option := by
            rcases h54 with rfl | rfl <;> decide
          rw [hspec] at hsp
          have hk : k = .optLv := by
            revert hsp hoo
            cases k <;> simp [specOk, optOk]
          subst hk
          injection hma with hma
          subst hma
          have : resInt ((sockoptUnmarshal env.opt (optOf ev.argv).parse).map (·.lv)) = .ok v' := hu
          rw [hopt] at this
          injection this with this
          rw [← this]

/-- An event read from bytes the probe may have written. -/
theorem ingest_inv (tbl : Syscalls.Syscalls) (lk : Option (Int → Option Topology.Container))
    (e : KEvent) (hw : e.WF) (extra : List Byte) (ev : TraceEvent Topology.Container)
    (h : ingest tbl lk (.bytes (encode e ++ extra)) = .ok ev) :
    ∃ fields, decoders.lookup e.syscall.toNat = some fields ∧
      ev = Lemmas.Event.eventOf tbl lk e (fields.map fun f => (f.1, evalRd e.args f.2)) := by
  cases hd : decoders.lookup e.syscall.toNat with
  | none =>
    have hr : decodeSyscall (Spec.Event.rawOf e).syscall.toNat (Spec.Event.rawOf e).args = .err := by
      show decodeSyscall e.syscall.toNat e.args = .err
      unfold decodeSyscall
      rw [hd]
    simp only [ingest, Lemmas.Event.ingest_encode e hw extra, hr] at h
    exact nomatch h
  | some fields =>
    rw [Lemmas.Event.ingest_ok tbl lk e hw extra fields hd] at h
    injection h with h
    exact ⟨fields, rfl, h.symm⟩

end Swoll.Lemmas.EventJSON
