import Verif.Lemmas.EventText
import Verif.Props.EventJSON
/-
C132: every event reaches a client in a message it accepts.

The server sends an event as one message; a client reads messages of at most 4096 bytes, a longer one ends its stream.
C133: a client is sent what is in the events, and nothing else.

An event is what user space makes of the bytes of a kernel event `e`; `m` is what its decoders see beside the event,
`env` the name tables.
-/
namespace Swoll.Props.EventText
open Swoll Swoll.Bytes Swoll.Event Swoll.EventJSON Swoll.EventText
open Swoll.Lemmas.EventText Swoll.Lemmas.EventJSON
open Swoll.Props.EventJSON (Decoded Built someEnv filled built_exists)
open Swoll.Spec.EventText (Described Ordinary strings Printable)

/-- A message is accepted when its UTF-8 form has at most 4096 bytes. -/
theorem c132_limit (msg : Json.Str) : accepts msg = true ↔ (msg.flatMap String.utf8EncodeChar).length ≤ 4096 := by
  rw [← size_utf8]
  exact decide_eq_true_iff

/-- The bytes left for the container, by the number of the system call: execve, mount and any other. -/
def room (nr : Nat) : Nat := if nr = 59 then 390 else if nr = 165 then 740 else 1850

theorem rooms : decoders.all (fun d => decide (room d.1 + argsCost d.1 d.2 + 590 ≤ 4096)) = true := by decide +kernel

/-- An event whose arguments lie inside the event is accepted, whatever they are, when its container is described by
at most 1850 bytes; 740 for mount and 390 for execve. -/
theorem c132_fits_partial {tbl : Syscalls.Syscalls} {env : Env} (hb : Built tbl env) (m : Memory) {e : KEvent}
    {ev : TraceEvent Topology.Container} (h : Decoded tbl e ev)
    (hc : ∀ c, ev.container = some c → Described (room e.syscall.toNat) c) :
    accepts (message env m e.syscall.toNat ev) = true := by
  obtain ⟨⟨order, ho, hs⟩, he⟩ := hb
  obtain ⟨lk, extra, hi⟩ := h.ingested
  obtain ⟨fields, hf, hev⟩ := ingest_inv tbl lk e h.wf extra ev hi
  have hout : ∀ f ∈ fields, isOutside (evalRd e.args f.2) = false := by
    intro f hm
    obtain ⟨-, -, -, -, -, -, hnd, -⟩ := row hf
    have hl : ev.argv.lookup f.1 = some (evalRd e.args f.2) := by
      rw [hev]
      show (fields.map fun f => (f.1, evalRd e.args f.2)).lookup f.1 = _
      rw [lookup_argv, lookup_of_mem hnd (show (f.1, f.2) ∈ fields from hm)]
      rfl
    cases hv : evalRd e.args f.2 with
    | outside o l => exact absurd hv (h.inside _ _ hl o l)
    | _ => rfl
  subst hev
  have h1 := size_message ho hs (env := env) m h.wf lk _ (n := room e.syscall.toNat) hc
    (by unfold room; repeat' split
        all_goals decide) (size_args he m hf h.wf.2 hout)
  have h2 := List.all_eq_true.1 rooms _ (mem_of_lookup hf)
  have h2 := of_decide_eq_true h2
  dsimp only at h2
  refine decide_eq_true_iff.2 ?_
  show _ ≤ 4096
  omega

/-- An event of execve whose arguments are ordinary text is accepted when its container is described by at most 1850
bytes. -/
theorem c132_execve_text {tbl : Syscalls.Syscalls} {env : Env} (hb : Built tbl env) (m : Memory) {e : KEvent}
    {ev : TraceEvent Topology.Container} (h : Decoded tbl e ev) (hn : e.syscall.toNat = 59)
    (ht : ∀ f bs, ev.argv.lookup f = some (.str bs) → ∀ b ∈ bs, Ordinary b)
    (hc : ∀ c, ev.container = some c → Described 1850 c) :
    accepts (message env m e.syscall.toNat ev) = true := by
  obtain ⟨⟨order, ho, hs⟩, he⟩ := hb
  obtain ⟨lk, extra, hi⟩ := h.ingested
  obtain ⟨fields, hf, hev⟩ := ingest_inv tbl lk e h.wf extra ev hi
  subst hev
  have h2 : size (argsDoc env m ((decodeTypes.lookup e.syscall.toNat).getD "")
      (fields.map fun f => (f.1, evalRd e.args f.2))).text ≤ 1400 := by
    rw [hn] at hf ⊢
    exact size_execve_text m hf ht
  have h1 := size_message ho hs (env := env) m h.wf lk _ hc (by decide) h2
  refine decide_eq_true_iff.2 ?_
  show _ ≤ 4096
  omega

/-- What an event of mprotect of more than 256 bytes carries: the bytes that follow its last argument, as many as are
protected. -/
theorem mprotect_data (tbl : Syscalls.Syscalls) (env : Env) (m : Memory) {e : KEvent} (hw : e.WF)
    (hn : e.syscall.toNat = 10) (lk : Option (Int → Option Topology.Container)) (extra : List Byte)
    {ev : TraceEvent Topology.Container} (h : ingest tbl lk (.bytes (encode e ++ extra)) = .ok ev) {len : Int}
    (hl : ev.argv.lookup "len" = some (.int len)) (hlen : 256 < len) :
    Json.quote (base64 (m.beyond 384 len)) <:+: message env m e.syscall.toNat ev := by
  obtain ⟨fields, hf, hev⟩ := ingest_inv tbl lk e hw extra ev h
  refine List.IsInfix.trans ?_ (infix_args env m e.syscall.toNat ev)
  rw [hn] at hf ⊢
  have hd : decoders.lookup 10 = some [("addr", .cu64 0), ("len", .c64 1), ("prot", .c32 2), ("addr_data", .bufMax 3 1)] := by
    decide +kernel
  have hf := Option.some.inj (hf.symm.trans hd)
  subst hf
  have ht : (decodeTypes.lookup 10).getD "" = "Mprotect" := by decide +kernel
  have hk : (fieldKinds.lookup "Mprotect").getD [] = [("addr", .num), ("len", .num), ("prot", .num), ("addr_data", .raw)] := by
    decide +kernel
  have hlay : layouts.lookup "Mprotect" = none := by decide +kernel
  have hargv : ∀ f, ev.argv.lookup f = ([("addr", Rd.cu64 0), ("len", .c64 1), ("prot", .c32 2),
      ("addr_data", .bufMax 3 1)].lookup f).map (evalRd e.args) := by
    intro f
    rw [hev]
    exact lookup_argv e.args f
  have hl1 : makeC64 e.args (1 * argLen) = len := by
    rw [hargv, show [("addr", Rd.cu64 0), ("len", .c64 1), ("prot", .c32 2),
      ("addr_data", .bufMax 3 1)].lookup "len" = some (.c64 1) by decide +kernel, Option.map_some] at hl
    have hl := Option.some.inj hl
    exact Val.int.inj hl
  have hdata : evalRd e.args (.bufMax 3 1) = .outside 384 len := by
    show makeCBytes e.args (3 * argLen) (if (argLen : Int) < makeC64 e.args (1 * argLen)
      then makeC64 e.args (1 * argLen) else argLen) = _
    rw [hl1, if_pos (by show ((128 : Nat) : Int) < len; omega)]
    unfold makeCBytes
    rw [if_neg]
    · rfl
    · rw [hw.2]
      show ¬ (0 ≤ len ∧ ((384 : Nat) : Int) + len ≤ ((640 : Nat) : Int))
      omega
  have hmem : ("addr_data", Doc.str (base64 (m.beyond 384 len))) ∈ memberDocs env m
      [("addr", .num), ("len", .num), ("prot", .num), ("addr_data", .raw)] ev.argv (layout "Mprotect") := by
    have hlay' : layout "Mprotect" = [("addr", .field "addr"), ("len", .field "len"), ("prot", .field "prot"),
        ("addr_data", .field "addr_data")] := by
      unfold layout
      rw [hlay, hk]
      rfl
    rw [hlay']
    simp only [memberDocs]
    refine .tail _ (.tail _ (.tail _ ?_))
    rw [Lay.doc]
    have h2 : ev.argv.lookup "addr_data" = some (.outside 384 len) := by
      rw [hargv, show [("addr", Rd.cu64 0), ("len", .c64 1), ("prot", .c32 2),
        ("addr_data", .bufMax 3 1)].lookup "addr_data" = some (.bufMax 3 1) by decide +kernel, Option.map_some, hdata]
    rw [h2]
    exact .head _
  rw [ht]
  unfold argsDoc
  rw [hk]
  refine List.IsInfix.trans ?_ (infix_obj _)
  have := infix_member hmem
  rw [Doc.text] at this
  exact this

/-- An event of mprotect of 3072 bytes or more is never accepted: what follows it in memory is sent along. -/
theorem c132_mprotect_violated (tbl : Syscalls.Syscalls) (env : Env) (m : Memory)
    (hm : ∀ (off : Int) (len : Nat), (m.beyond off len).length = len) {e : KEvent} (hw : e.WF)
    (hn : e.syscall.toNat = 10) (lk : Option (Int → Option Topology.Container)) (extra : List Byte)
    {ev : TraceEvent Topology.Container} (h : ingest tbl lk (.bytes (encode e ++ extra)) = .ok ev) {len : Int}
    (hl : ev.argv.lookup "len" = some (.int len)) (hlen : 3072 ≤ len) :
    accepts (message env m e.syscall.toNat ev) = false := by
  obtain ⟨a, b, hab⟩ := mprotect_data tbl env m hw hn lk extra h hl (by omega)
  have h2 := size_base64 (m.beyond 384 len)
  have hbl := hm 384 len.toNat
  rw [Int.toNat_of_nonneg (by omega)] at hbl
  refine decide_eq_false ?_
  show ¬ _ ≤ 4096
  rw [← hab, size_append, size_append]
  omega

/-- What is sent for an event whose arguments lie inside the event depends on nothing that lies beside it in memory,
unless it is of nanosleep. -/
theorem c133_nothing_else_partial {tbl : Syscalls.Syscalls} (env : Env) (m m' : Memory) {e : KEvent}
    {ev : TraceEvent Topology.Container} (h : Decoded tbl e ev) (hn : e.syscall.toNat ≠ 35) :
    message env m e.syscall.toNat ev = message env m' e.syscall.toNat ev := by
  obtain ⟨lk, extra, hi⟩ := h.ingested
  obtain ⟨fields, hf, hev⟩ := ingest_inv tbl lk e h.wf extra ev hi
  have hout : ∀ f ∈ fields, isOutside (evalRd e.args f.2) = false := by
    intro f hm
    obtain ⟨-, -, -, -, -, -, hnd, -⟩ := row hf
    have hl : ev.argv.lookup f.1 = some (evalRd e.args f.2) := by
      rw [hev]
      show (fields.map fun f => (f.1, evalRd e.args f.2)).lookup f.1 = _
      rw [lookup_argv, lookup_of_mem hnd (show (f.1, f.2) ∈ fields from hm)]
      rfl
    cases hv : evalRd e.args f.2 with
    | outside o l => exact absurd hv (h.inside _ _ hl o l)
    | _ => rfl
  subst hev
  unfold message eventDoc
  have := args_memory (env := env) m m' hn hf hout ((decodeTypes.lookup e.syscall.toNat).getD "")
  show (Doc.text (.obj [_, _, _, _, _, _, _, _, _, _, _, _, _, _, _, _, ("args", argsDoc env m _ _)])) ++ _ = _
  simp only [Lemmas.Event.eventOf, this]

/-- An event of mprotect of more than 256 bytes carries what follows it in the daemon's memory. -/
theorem c133_mprotect_violated (tbl : Syscalls.Syscalls) (env : Env) (m : Memory) {e : KEvent} (hw : e.WF)
    (hn : e.syscall.toNat = 10) (lk : Option (Int → Option Topology.Container)) (extra : List Byte)
    {ev : TraceEvent Topology.Container} (h : ingest tbl lk (.bytes (encode e ++ extra)) = .ok ev) {len : Int}
    (hl : ev.argv.lookup "len" = some (.int len)) (hlen : 256 < len) :
    base64 (m.beyond 384 len) <:+: message env m e.syscall.toNat ev := by
  refine List.IsInfix.trans ?_ (mprotect_data tbl env m hw hn lk extra h hl hlen)
  unfold Json.quote
  rw [flatMap_plain (base64_plain _)]
  exact ⟨['"'], ['"'], rfl⟩

/-- An event of nanosleep carries the address of its argument area in the daemon's memory. -/
theorem c133_nanosleep_violated (tbl : Syscalls.Syscalls) (env : Env) (m : Memory) {e : KEvent} (hw : e.WF)
    (hn : e.syscall.toNat = 35) (lk : Option (Int → Option Topology.Container)) (extra : List Byte)
    {ev : TraceEvent Topology.Container} (h : ingest tbl lk (.bytes (encode e ++ extra)) = .ok ev) :
    Flags.itoa (m.slot 0).toInt <:+: message env m e.syscall.toNat ev := by
  obtain ⟨fields, hf, hev⟩ := ingest_inv tbl lk e hw extra ev h
  refine List.IsInfix.trans ?_ (infix_args env m e.syscall.toNat ev)
  rw [hn] at hf ⊢
  have hd : decoders.lookup 35 = some [("req", .ptrs 0 16), ("rem", .ptrs 1 16)] := by decide +kernel
  have hf := Option.some.inj (hf.symm.trans hd)
  subst hf
  have ht : (decodeTypes.lookup 35).getD "" = "Nanosleep" := by decide +kernel
  have hk : (fieldKinds.lookup "Nanosleep").getD [] = [("req", .ptrs), ("rem", .ptrs)] := by decide +kernel
  have hlay : layouts.lookup "Nanosleep" = none := by decide +kernel
  have hlay' : layout "Nanosleep" = [("req", .field "req"), ("rem", .field "rem")] := by
    unfold layout
    rw [hlay, hk]
    rfl
  have hargv : ev.argv.lookup "req" = some (.ptrs 0 16) := by
    rw [hev]
    refine (lookup_argv e.args "req").trans ?_
    rw [show [("req", Rd.ptrs 0 16), ("rem", .ptrs 1 16)].lookup "req" = some (.ptrs 0 16) by decide +kernel]
    rfl
  have hmem : ("req", Doc.obj [("Sec", .num (m.slot 0).toInt), ("Nsec", .num (m.slot 1).toInt)]) ∈ memberDocs env m
      [("req", .ptrs), ("rem", .ptrs)] ev.argv (layout "Nanosleep") := by
    rw [hlay']
    simp only [memberDocs]
    rw [Lay.doc, hargv]
    exact .head _
  rw [ht]
  unfold argsDoc
  rw [hk]
  refine List.IsInfix.trans ?_ (infix_obj _)
  refine List.IsInfix.trans ?_ (infix_member hmem)
  refine List.IsInfix.trans ?_ (infix_obj _)
  have := infix_member (k := "Sec") (v := .num (m.slot 0).toInt) (l := [("Sec", .num (m.slot 0).toInt), ("Nsec", .num (m.slot 1).toInt)])
    (.head _)
  rw [Doc.text] at this
  exact this

/-! ### Cases that meet the hypotheses, and the ones that do not fit -/

/-- A container as Kubernetes describes one. -/
def worker : Topology.Container where
  id := String.ofList (List.replicate 64 'a')
  pod := "reconciliation-worker-7d9c5b8f6d-x2k4q"
  sandbox := String.ofList (List.replicate 64 'b')
  name := "reconciliation-worker"
  image := String.ofList ("sha256:".toList ++ List.replicate 64 'c')
  ns := "payments-production"
  labels := some [("io.kubernetes.container.name", "reconciliation-worker"),
    ("io.kubernetes.pod.name", "reconciliation-worker-7d9c5b8f6d-x2k4q"),
    ("io.kubernetes.pod.namespace", "payments-production"),
    ("io.kubernetes.pod.uid", "5f2b1a9c-5a5e-4d0e-9a43-0d4b8d1c6e11")]
  pid := 31337
  pidns := 4026532840

/-- An event as `filled` makes it, in that container. -/
def inWorker (n : Nat) (b : Byte) (words : List (Nat × Nat)) : KEvent :=
  { filled n b words with comm := List.replicate 16 b, entr := BitVec.ofNat 64 (10 ^ 16), exit := BitVec.ofNat 64 (10 ^ 16) }

/-- What user space makes of it. -/
def evWorker (tbl : Syscalls.Syscalls) (n : Nat) (b : Byte) (words : List (Nat × Nat)) (fields : List (String × Rd)) :
    TraceEvent Topology.Container :=
  Lemmas.Event.eventOf tbl (some fun _ => some worker) (inWorker n b words)
    (fields.map fun f => (f.1, evalRd (inWorker n b words).args f.2))

theorem worker_decoded {tbl : Syscalls.Syscalls} {n : Nat} {b : Byte} {words : List (Nat × Nat)}
    (hw : (inWorker n b words).args.length = 640) {fields : List (String × Rd)}
    (hd : decoders.lookup (inWorker n b words).syscall.toNat = some fields)
    (hin : fields.all (fun f => !isOutside (evalRd (inWorker n b words).args f.2)) = true) :
    Decoded tbl (inWorker n b words) (evWorker tbl n b words fields) := by
  have hwf : (inWorker n b words).WF := ⟨by simp [inWorker], hw⟩
  refine ⟨hwf, ⟨some fun _ => some worker, [], Lemmas.Event.ingest_ok tbl _ _ hwf [] fields hd⟩, ?_⟩
  intro f v hl off len hv
  subst hv
  have hl : (fields.map fun f => (f.1, evalRd (inWorker n b words).args f.2)).lookup f
      = some (.outside off len) := hl
  obtain ⟨g, hg, hge⟩ := List.mem_map.1 (mem_of_lookup hl)
  injection hge with h1 h2
  have := List.all_eq_true.1 hin g hg
  rw [h2] at this
  exact nomatch this

theorem worker_doc : containerDoc worker = .obj (optStr "id" worker.id ++ optStr "pod" worker.pod ++
    optStr "sandbox-id" worker.sandbox ++ optStr "name" worker.name ++ optStr "image" worker.image ++
    optStr "namespace" worker.ns ++ [("labels", .obj ((worker.labels.getD []).map fun e => (e.1, .str e.2.toList)))] ++
    optInt "pid" worker.pid ++ optInt "pid-namespace" worker.pidns) := by
  have h : labelsDoc (worker.labels.getD []) = .obj ((worker.labels.getD []).map fun e => (e.1, .str e.2.toList)) := by
    unfold labelsDoc
    rw [List.mergeSort_of_pairwise (by decide +kernel)]
  rw [← h]
  rfl

instance (c : Char) : Decidable (Printable c) := by unfold Printable; infer_instance

theorem worker_described : Described 740 worker := by
  refine ⟨?_, by decide +kernel, by decide +kernel, by decide +kernel⟩
  have : (strings worker).all (fun s => s.toList.all fun x => decide (Printable x)) = true := by decide +kernel
  intro s hs x hx
  exact of_decide_eq_true (List.all_eq_true.1 (List.all_eq_true.1 this s hs) x hx)

/-- A call to mount whose three strings are control characters. -/
example (m : Memory) : ∃ tbl e ev, Built tbl someEnv ∧ Decoded tbl e ev ∧ e.syscall.toNat = 165 ∧
    (∀ c, ev.container = some c → Described (room e.syscall.toNat) c) ∧
    accepts (message someEnv m e.syscall.toNat ev) = true := by
  obtain ⟨tbl, hb⟩ := built_exists
  have hn : (inWorker 165 1 []).syscall.toNat = 165 := by decide +kernel
  obtain ⟨fields, hd⟩ : ∃ fields, decoders.lookup (inWorker 165 1 []).syscall.toNat = some fields :=
    Option.isSome_iff_exists.1 (by decide +kernel)
  have hdec := worker_decoded (tbl := tbl) (n := 165) (b := 1) (words := []) (by decide +kernel) hd (by
    have : ∀ fs ∈ decoders.lookup (inWorker 165 1 []).syscall.toNat,
        fs.all (fun f => !isOutside (evalRd (inWorker 165 1 []).args f.2)) = true := by decide +kernel
    exact this fields hd)
  have hc : ∀ c, (evWorker tbl 165 1 [] fields).container = some c → Described (room (inWorker 165 1 []).syscall.toNat) c := by
    intro c hc
    have hc : some worker = some c := hc
    injection hc with hc
    subst hc
    rw [hn]
    exact worker_described
  exact ⟨tbl, _, _, hb, hdec, hn, hc, c132_fits_partial hb m hdec hc⟩

/-- The same program can keep its calls to execve from a client: one whose path and arguments are 128 control
characters each ends the client's stream. -/
theorem c132_execve_violated (m : Memory) : ∃ tbl e ev, Built tbl someEnv ∧ Decoded tbl e ev ∧ e.syscall.toNat = 59 ∧
    (∀ c, ev.container = some c → Described 740 c) ∧
    accepts (message someEnv m e.syscall.toNat ev) = false := by
  obtain ⟨tbl, hb⟩ := built_exists
  have hn : (inWorker 59 1 []).syscall.toNat = 59 := by decide +kernel
  have hd : decoders.lookup (inWorker 59 1 []).syscall.toNat = some [("filename", .cstr 0), ("argv[0]", .cstr 1),
      ("argv[1]", .cstr 2), ("argv[2]", .cstr 3), ("argv[3]", .empty)] := by decide +kernel
  have hdec := worker_decoded (tbl := tbl) (n := 59) (b := 1) (words := []) (by decide +kernel) hd (by decide +kernel)
  refine ⟨tbl, _, _, hb, hdec, hn, ?_, ?_⟩
  · intro c hc
    have hc : some worker = some c := hc
    injection hc with hc
    subst hc
    exact worker_described
  · obtain ⟨⟨order, ho, hs⟩, -⟩ := hb
    have hl := (Props.Syscalls.c43_lookup_complete order ho tbl hs "sys_execve" 59 "ProcessManagement" "Execution"
      (by unfold Spec.Syscalls.Entry; decide +kernel)).1
    refine decide_eq_false ?_
    rw [c133_nothing_else_partial someEnv m ⟨fun _ => 0, fun _ _ => []⟩ hdec (by rw [hn]; decide), hn]
    have : evWorker tbl 59 1 [] [("filename", .cstr 0), ("argv[0]", .cstr 1),
      ("argv[1]", .cstr 2), ("argv[2]", .cstr 3), ("argv[3]", .empty)] = { evWorker ⟨[], []⟩ 59 1 [] [("filename", .cstr 0), ("argv[0]", .cstr 1),
      ("argv[1]", .cstr 2), ("argv[2]", .cstr 3), ("argv[3]", .empty)] with syscall := some ⟨59, "sys_execve", "ProcessManagement", "Execution"⟩ } := by
      unfold evWorker Lemmas.Event.eventOf
      rw [hn, hl]
    rw [this]
    generalize hs : some (⟨59, "sys_execve", "ProcessManagement", "Execution"⟩ : Syscalls.Syscall) = sc
    unfold message eventDoc
    have hc : (some worker).map containerDoc = some (.obj (optStr "id" worker.id ++ optStr "pod" worker.pod ++
      optStr "sandbox-id" worker.sandbox ++ optStr "name" worker.name ++ optStr "image" worker.image ++
      optStr "namespace" worker.ns ++ [("labels", .obj ((worker.labels.getD []).map fun e => (e.1, .str e.2.toList)))] ++
      optInt "pid" worker.pid ++ optInt "pid-namespace" worker.pidns)) := congrArg some worker_doc
    show ¬ size (Doc.text (.obj [_, _, _, _, _, _, _, _, ("container", ((some worker).map containerDoc).getD .null),
      _, _, _, _, _, _, _, _]) ++ ['\n']) ≤ _
    rw [hc, ← hs]
    decide +kernel

/-- The execve of the violation with text for its arguments. -/
example (m : Memory) : ∃ tbl e ev, Built tbl someEnv ∧ Decoded tbl e ev ∧ e.syscall.toNat = 59 ∧
    (∀ f bs, ev.argv.lookup f = some (.str bs) → ∀ b ∈ bs, Ordinary b) ∧
    (∀ c, ev.container = some c → Described 1850 c) ∧
    accepts (message someEnv m e.syscall.toNat ev) = true := by
  obtain ⟨tbl, hb⟩ := built_exists
  have hn : (inWorker 59 47 []).syscall.toNat = 59 := by decide +kernel
  have hd : decoders.lookup (inWorker 59 47 []).syscall.toNat = some [("filename", .cstr 0), ("argv[0]", .cstr 1),
      ("argv[1]", .cstr 2), ("argv[2]", .cstr 3), ("argv[3]", .empty)] := by decide +kernel
  have hdec := worker_decoded (tbl := tbl) (n := 59) (b := 47) (words := []) (by decide +kernel) hd (by decide +kernel)
  have ht : ∀ f bs, (evWorker tbl 59 47 [] [("filename", .cstr 0), ("argv[0]", .cstr 1), ("argv[1]", .cstr 2),
      ("argv[2]", .cstr 3), ("argv[3]", .empty)]).argv.lookup f = some (.str bs) → ∀ b ∈ bs, Ordinary b := by
    intro f bs hl
    have hm := mem_of_lookup hl
    have key : (evWorker ⟨[], []⟩ 59 47 [] [("filename", .cstr 0), ("argv[0]", .cstr 1), ("argv[1]", .cstr 2),
      ("argv[2]", .cstr 3), ("argv[3]", .empty)]).argv.all (fun v => match v.2 with
        | .str bs => bs.all (· == 47) | _ => false) = true := by decide +kernel
    have h1 := List.all_eq_true.1 key _ hm
    intro b hb
    have h2 := List.all_eq_true.1 h1 b hb
    rw [beq_iff_eq] at h2
    rw [h2]
    unfold Ordinary
    decide
  have hc : ∀ c, (evWorker tbl 59 47 [] [("filename", .cstr 0), ("argv[0]", .cstr 1), ("argv[1]", .cstr 2),
      ("argv[2]", .cstr 3), ("argv[3]", .empty)]).container = some c → Described 1850 c := by
    intro c hc
    have hc : some worker = some c := hc
    injection hc with hc
    subst hc
    exact ⟨worker_described.1, Nat.le_trans worker_described.2 (by decide), worker_described.3, worker_described.4⟩
  exact ⟨tbl, _, _, hb, hdec, hn, ht, hc, c132_execve_text hb m hdec hn ht hc⟩

/-- The call a dynamic linker makes to protect one page. -/
example (m : Memory) (hm : ∀ (off : Int) (len : Nat), (m.beyond off len).length = len) :
    ∃ tbl e ev, e.WF ∧ e.syscall.toNat = 10 ∧ ingest tbl none (.bytes (encode e ++ [])) = .ok ev ∧
      ev.argv.lookup "len" = some (.int 4096) ∧ accepts (message someEnv m e.syscall.toNat ev) = false := by
  have hn : (inWorker 10 0 [(1, 4096)]).syscall.toNat = 10 := by decide +kernel
  have hw : (inWorker 10 0 [(1, 4096)]).WF := ⟨by simp [inWorker], by decide +kernel⟩
  have hd : decoders.lookup (inWorker 10 0 [(1, 4096)]).syscall.toNat = some [("addr", .cu64 0), ("len", .c64 1),
      ("prot", .c32 2), ("addr_data", .bufMax 3 1)] := by decide +kernel
  have hi := Lemmas.Event.ingest_ok (κ := Topology.Container) ⟨[], []⟩ none _ hw [] _ hd
  have hl : (Lemmas.Event.eventOf (κ := Topology.Container) ⟨[], []⟩ none (inWorker 10 0 [(1, 4096)])
      ([("addr", Rd.cu64 0), ("len", .c64 1), ("prot", .c32 2), ("addr_data", .bufMax 3 1)].map fun f =>
        (f.1, evalRd (inWorker 10 0 [(1, 4096)]).args f.2))).argv.lookup "len" = some (.int 4096) := by
    show ([("addr", Rd.cu64 0), ("len", .c64 1), ("prot", .c32 2), ("addr_data", .bufMax 3 1)].map fun f =>
        (f.1, evalRd (inWorker 10 0 [(1, 4096)]).args f.2)).lookup "len" = _
    decide +kernel
  exact ⟨_, _, _, hw, hn, hi, hl, c132_mprotect_violated _ someEnv m hm hw hn none [] hi hl (by decide)⟩

/-- A nanosleep. -/
example (m : Memory) : ∃ tbl e ev, e.WF ∧ e.syscall.toNat = 35 ∧ ingest tbl none (.bytes (encode e ++ [])) = .ok ev ∧
    Flags.itoa (m.slot 0).toInt <:+: message someEnv m e.syscall.toNat ev := by
  have hn : (inWorker 35 0 []).syscall.toNat = 35 := by decide +kernel
  have hw : (inWorker 35 0 []).WF := ⟨by simp [inWorker], by decide +kernel⟩
  have hd : decoders.lookup (inWorker 35 0 []).syscall.toNat = some [("req", .ptrs 0 16), ("rem", .ptrs 1 16)] := by
    decide +kernel
  have hi := Lemmas.Event.ingest_ok (κ := Topology.Container) ⟨[], []⟩ none _ hw [] _ hd
  exact ⟨_, _, _, hw, hn, hi, c133_nanosleep_violated _ someEnv m hw hn none [] hi⟩

end Swoll.Props.EventText
