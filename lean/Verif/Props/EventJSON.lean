import Verif.Lemmas.EventJSONFull
import Verif.Props.Event
/-
C70: a client can read back every event the server writes.

An event is what user space makes of the bytes of a kernel event `e` (`ingest`); `tbl` is the
table of system calls, `lk` the container lookup. `env` holds the name tables of writer and reader,
filled in any order, and the orders the writer goes through the flag tables in.
-/
namespace Swoll.Props.EventJSON
open Swoll.Bytes Swoll.Event Swoll.Flags Swoll.EventJSON Swoll.Spec.EventJSON
open Swoll.Lemmas.EventJSON
open Swoll.Spec.Event (rawOf)

/-- An event decoded from `e` with no argument lying outside the event (see C37). -/
structure Decoded (tbl : Syscalls.Syscalls) (e : KEvent) (ev : TraceEvent Topology.Container) :
    Prop where
  wf : e.WF
  ingested : ∃ lk extra, ingest tbl lk (.bytes (encode e ++ extra)) = .ok ev
  inside : ∀ f v, ev.argv.lookup f = some v → ∀ off len, v ≠ .outside off len

/-- The tables as any run of their initialisers leaves them. -/
def Built (tbl : Syscalls.Syscalls) (env : Env) : Prop :=
  (∃ order : List (String × String × String), order.Perm Syscalls.gClassMap ∧
    Syscalls.new order = some tbl) ∧ EnvOk env

theorem Decoded.spec {tbl : Syscalls.Syscalls} {env : Env} (hb : Built tbl env) {e : KEvent}
    {ev : TraceEvent Topology.Container} (h : Decoded tbl e ev) :
    throughJSON env e.syscall.toNat ev ≠ .panic ∧
    (throughJSON env e.syscall.toNat ev = .err ↔ (e.syscall.toNat = 54 ∨ e.syscall.toNat = 55) ∧
      sockoptUnmarshal env.opt (optOf ev.argv).parse = none) ∧
    ∀ ev', throughJSON env e.syscall.toNat ev = .ok ev' →
      ev' = { ev with
        container := ev.container.map containerThroughJSON, comm := jsonText ev.comm
        error := stringToErrno env.errno (errnoToString ev.error), argv := ev'.argv } ∧
      ev'.argv.map (·.1) = ev.argv.map (·.1) ∧ (ev.argv.map (·.1)).Nodup ∧
      (∀ n v v', (n, v) ∈ ev.argv → (n, v') ∈ ev'.argv →
        Kept (specials.lookup (e.syscall.toNat, n)) v v') ∧
      (e.syscall.toNat = 54 ∨ e.syscall.toNat = 55 → ∃ o,
        sockoptUnmarshal env.opt (optOf ev.argv).parse = some o ∧
        ev'.argv.lookup "name.tp" = some (.int o.tp) ∧
        ev'.argv.lookup "name.lv" = some (.int o.lv)) := by
  obtain ⟨⟨order, ho, hs⟩, he⟩ := hb
  obtain ⟨lk, extra, hi⟩ := h.ingested
  obtain ⟨fields, hf, hev⟩ := ingest_inv tbl lk e h.wf extra ev hi
  refine json_spec he ho hs lk e hf ?_ hev
  intro f hm
  obtain ⟨-, -, -, -, -, -, hnd, -⟩ := row hf
  have hl : ev.argv.lookup f.1 = some (evalRd e.args f.2) := by
    rw [hev]
    show (fields.map fun f => (f.1, evalRd e.args f.2)).lookup f.1 = _
    rw [lookup_argv, lookup_of_mem hnd (show (f.1, f.2) ∈ fields from hm)]
    rfl
  cases hv : evalRd e.args f.2 with
  | outside o l => exact absurd hv (h.inside _ _ hl o l)
  | _ => rfl

/-- The numbers of a socket option call. -/
theorem Decoded.option {tbl : Syscalls.Syscalls} {e : KEvent} {ev : TraceEvent Topology.Container}
    (h : Decoded tbl e ev) (hn : e.syscall.toNat = 54 ∨ e.syscall.toNat = 55) :
    ev.argv.lookup "name.tp" = some (.int (optOf ev.argv).tp) ∧
    ev.argv.lookup "name.lv" = some (.int (optOf ev.argv).lv) ∧
    Spec.Flags.FitsInt (optOf ev.argv).tp := by
  obtain ⟨lk, extra, hi⟩ := h.ingested
  obtain ⟨fields, hf, hev⟩ := ingest_inv tbl lk e h.wf extra ev hi
  obtain ⟨s, h1, s', h2⟩ := opt_fields hn hf
  have hargv : ev.argv = fields.map fun f => (f.1, evalRd e.args f.2) := by rw [hev]; rfl
  have l1 : ev.argv.lookup "name.tp" = some (.int (makeC32 e.args (s * argLen))) := by
    rw [hargv, lookup_argv, h1]; rfl
  have l2 : ev.argv.lookup "name.lv" = some (.int (makeC32 e.args (s' * argLen))) := by
    rw [hargv, lookup_argv, h2]; rfl
  have e1 : (optOf ev.argv).tp = makeC32 e.args (s * argLen) := by
    show intAt ev.argv "name.tp" = _
    unfold intAt
    rw [l1]
  have e2 : (optOf ev.argv).lv = makeC32 e.args (s' * argLen) := by
    show intAt ev.argv "name.lv" = _
    unfold intAt
    rw [l2]
  rw [e1, e2]
  exact ⟨l1, l2, fits_c32 _ _⟩

/-! ### Reading succeeds -/

/-- The writer and the reader choose the same structure for every system call. -/
theorem c70_same_types (nr : Nat) : jsonTypes.lookup nr = decodeTypes.lookup nr := by
  have : jsonTypes = decodeTypes := by decide +kernel
  rw [this]

/-- Every event can be written and read back without a panic, and without an error unless it is of
setsockopt or getsockopt with level IPPROTO_IPV6 (41) and an option that has a name. -/
theorem c70_readable_partial {tbl : Syscalls.Syscalls} {env : Env} (hb : Built tbl env) {e : KEvent}
    {ev : TraceEvent Topology.Container} (h : Decoded tbl e ev) :
    throughJSON env e.syscall.toNat ev ≠ .panic ∧
    (throughJSON env e.syscall.toNat ev = .err ↔ e.syscall.toNat ∈ [54, 55] ∧
      ev.argv.lookup "name.lv" = some (.int 41) ∧
      ∃ o ∈ ip6OpMasks.map (·.1), ev.argv.lookup "name.tp" = some (.int o)) := by
  obtain ⟨hp, herr, -⟩ := h.spec hb
  refine ⟨hp, herr.trans ?_⟩
  have hmem : e.syscall.toNat ∈ [54, 55] ↔ e.syscall.toNat = 54 ∨ e.syscall.toNat = 55 := by simp
  rw [hmem]
  refine and_congr_right fun hn => ?_
  obtain ⟨h1, h2, h3⟩ := h.option hn
  rw [sockopt_none_iff hb.2.opt h3, h1, h2]
  constructor
  · rintro ⟨ha, hb⟩
    exact ⟨by rw [ha], _, hb, rfl⟩
  · rintro ⟨ha, o, ho, hc⟩
    injection ha with ha; injection ha with ha
    injection hc with hc; injection hc with hc
    exact ⟨ha, hc ▸ ho⟩

/-! ### What is read -/

/-- The header: all numbers and the system call are read back; the command is when it is
well-formed text, and is well-formed in any case; the error is when it is one of Linux's; the
container is, an empty set of labels being the same as none. -/
theorem c70_header_partial {tbl : Syscalls.Syscalls} {env : Env} (hb : Built tbl env) {e : KEvent}
    {ev ev' : TraceEvent Topology.Container} (h : Decoded tbl e ev)
    (hj : throughJSON env e.syscall.toNat ev = .ok ev') :
    ev'.syscall = ev.syscall ∧ ev'.pid = ev.pid ∧ ev'.tid = ev.tid ∧ ev'.cpid = ev.cpid ∧
    ev'.uid = ev.uid ∧ ev'.gid = ev.gid ∧ ev'.sid = ev.sid ∧ ev'.ret = ev.ret ∧
    ev'.pidNs = ev.pidNs ∧ ev'.utsNs = ev.utsNs ∧ ev'.mntNs = ev.mntNs ∧
    ev'.start = ev.start ∧ ev'.finish = ev.finish ∧
    (Utf8 ev'.comm ∧ (ev'.comm = ev.comm ↔ Utf8 ev.comm)) ∧
    (ev'.error = ev.error ↔ ev.error = 0 ∨ ev.error = 512 ∨
      ev.error ∈ Spec.Flags.errnos.map (·.1)) ∧
    (ev.container = none → ev'.container = none) ∧
    (∀ c, ev.container = some c → ∃ c', ev'.container = some c' ∧
      c' = { c with labels := c'.labels } ∧ c'.labels.getD [] = c.labels.getD []) := by
  obtain ⟨-, -, hok⟩ := h.spec hb
  obtain ⟨heq, -⟩ := hok ev' hj
  obtain ⟨lk, extra, hi⟩ := h.ingested
  obtain ⟨fields, -, hev⟩ := ingest_inv tbl lk e h.wf extra ev hi
  have hnn : ev.error ≠ -1 := by
    rw [hev]
    show ((e.errno.toNat : Nat) : Int) ≠ -1
    omega
  have hcomm : ev'.comm = jsonText ev.comm := by rw [heq]
  have hcont : ev'.container = ev.container.map containerThroughJSON := by rw [heq]
  have herror : ev'.error = stringToErrno env.errno (errnoToString ev.error) := by rw [heq]
  refine ⟨by rw [heq], by rw [heq], by rw [heq], by rw [heq], by rw [heq], by rw [heq], by rw [heq],
    by rw [heq], by rw [heq], by rw [heq], by rw [heq], by rw [heq], by rw [heq], ?_, ?_, ?_, ?_⟩
  · rw [hcomm]
    exact ⟨utf8_jsonText _, jsonText_eq_iff _⟩
  · obtain ⟨o, ho, hk⟩ := hb.2.errno
    rw [herror, hk, Props.Flags.c42_roundtrip_iff ho]
    exact ⟨fun h => h.resolve_left hnn, .inr⟩
  · intro hc
    rw [hcont, hc]
    rfl
  · intro c hc
    refine ⟨containerThroughJSON c, by rw [hcont, hc]; rfl, rfl, ?_⟩
    unfold containerThroughJSON
    dsimp only
    split
    · next h => rw [h]; rfl
    · rfl

/-- The arguments: the same ones in the same order, each once, and of each what the specification
says. -/
theorem c70_arguments_partial {tbl : Syscalls.Syscalls} {env : Env} (hb : Built tbl env)
    {e : KEvent} {ev ev' : TraceEvent Topology.Container} (h : Decoded tbl e ev)
    (hj : throughJSON env e.syscall.toNat ev = .ok ev') :
    ev'.argv.map (·.1) = ev.argv.map (·.1) ∧ (ev.argv.map (·.1)).Nodup ∧
    ∀ n v v', (n, v) ∈ ev.argv → (n, v') ∈ ev'.argv →
      Kept (specials.lookup (e.syscall.toNat, n)) v v' := by
  obtain ⟨-, -, hok⟩ := h.spec hb
  obtain ⟨-, h1, h2, h3, -⟩ := hok ev' hj
  exact ⟨h1, h2, h3⟩

/-- The option of setsockopt and getsockopt: read back with its level exactly when it is an IP
option, or a named socket or TCP option. -/
theorem c70_option_iff {tbl : Syscalls.Syscalls} {env : Env} (hb : Built tbl env)
    {e : KEvent} {ev ev' : TraceEvent Topology.Container} (h : Decoded tbl e ev)
    (hn : e.syscall.toNat ∈ [54, 55]) (hj : throughJSON env e.syscall.toNat ev = .ok ev') :
    ∃ tp lv, ev.argv.lookup "name.tp" = some (.int tp) ∧ ev.argv.lookup "name.lv" = some (.int lv) ∧
      ((ev'.argv.lookup "name.tp" = some (.int tp) ∧ ev'.argv.lookup "name.lv" = some (.int lv)) ↔
        lv = 0 ∨ (lv = 1 ∧ tp ∈ socketOpMasks.map (·.1)) ∨
          (lv = 6 ∧ tp ∈ tcpOpMasks.map (·.1))) := by
  have hn : e.syscall.toNat = 54 ∨ e.syscall.toNat = 55 := by simpa using hn
  obtain ⟨-, -, hok⟩ := h.spec hb
  obtain ⟨-, -, -, -, ho⟩ := hok ev' hj
  obtain ⟨o, ho, o1, o2⟩ := ho hn
  obtain ⟨h1, h2, h3⟩ := h.option hn
  refine ⟨_, _, h1, h2, ?_⟩
  rw [o1, o2, ← Props.Flags.c69_sockopt_iff hb.2.opt h3, ho]
  generalize optOf ev.argv = s
  obtain ⟨a, b⟩ := o
  obtain ⟨c, d⟩ := s
  simp

/-- Lists of pairs with the same names and the same values are the same. -/
theorem same_pairs : ∀ (l l' : List (String × Val)), l'.map (·.1) = l.map (·.1) →
    (∀ n v v', (n, v) ∈ l → (n, v') ∈ l' → v' = v) → l' = l := by
  intro l
  induction l with
  | nil => intro l' h1 _; simpa using h1
  | cons x l ih =>
    intro l' h1 h2
    cases l' with
    | nil => exact nomatch h1
    | cons x' l' =>
      injection h1 with ha hb
      have ha : x'.1 = x.1 := ha
      have hx : x' = x := Prod.ext ha (h2 x.1 x.2 x'.2 (List.mem_cons_self ..)
        (by rw [← ha]; exact List.mem_cons_self ..))
      rw [hx, ih l' hb fun n v v' hv hv' => h2 n v v' (List.mem_cons_of_mem _ hv)
        (List.mem_cons_of_mem _ hv')]

/-- The parts of an option are arguments of setsockopt and getsockopt. -/
theorem option_of {nr : Nat} {n : String} (h : specials.lookup (nr, n) = some .option) :
    nr ∈ [54, 55] ∧ (n = "name.tp" ∨ n = "name.lv") := by
  have hm := mem_of_lookup h
  have : ∀ p ∈ specials, p.2 = .option → p.1.1 ∈ [54, 55] ∧ (p.1.2 = "name.tp" ∨ p.1.2 = "name.lv") := by decide
  exact this _ hm rfl

theorem cut_plain {nr : Nat} (hn : ∀ n, specials.lookup (nr, n) = none) (argv : List (String × Val)) : cut nr argv = argv := by
  refine (List.map_congr_left fun a _ => ?_).trans (List.map_id _)
  rw [hn a.1]
  rfl

/-- Arguments that are whole are read back, all of them, an address cut to 16 bytes. -/
theorem c70_intact_arguments {tbl : Syscalls.Syscalls} {env : Env} (hb : Built tbl env) {e : KEvent}
    {ev ev' : TraceEvent Topology.Container} (h : Decoded tbl e ev) (hi : Intact e.syscall.toNat ev.argv)
    (hj : throughJSON env e.syscall.toNat ev = .ok ev') : ev'.argv = cut e.syscall.toNat ev.argv := by
  obtain ⟨hnames, hnd, hkept⟩ := c70_arguments_partial hb h hj
  refine same_pairs _ _ (by rw [hnames]; unfold cut; rw [List.map_map]; rfl) fun n w v' hw hv' => ?_
  obtain ⟨⟨n₀, v⟩, hv, heq⟩ := List.mem_map.1 hw
  obtain ⟨rfl, rfl⟩ := Prod.mk.inj heq
  dsimp only at hv' ⊢
  by_cases ho : specials.lookup (e.syscall.toNat, n₀) = some .option
  · obtain ⟨hn, hnm⟩ := option_of ho
    obtain ⟨tp, lv, h1, h2, h3⟩ := hi.option hn
    obtain ⟨tp', lv', g1, g2, g3⟩ := c70_option_iff hb h hn hj
    rw [h1] at g1
    rw [h2] at g2
    injection g1 with g1
    injection g1 with g1
    injection g2 with g2
    injection g2 with g2
    subst g1 g2
    obtain ⟨f1, f2⟩ := g3.2 h3
    have e1 := lookup_of_mem hnd hv
    have e2 := lookup_of_mem (by rw [hnames]; exact hnd) hv'
    rcases hnm with rfl | rfl
    · rw [h1] at e1
      rw [f1] at e2
      injection e1 with e1
      injection e2 with e2
      rw [← e1, ← e2, ho]
      rfl
    · rw [h2] at e1
      rw [f2] at e2
      injection e1 with e1
      injection e2 with e2
      rw [← e1, ← e2, ho]
      rfl
  · exact kept_whole (hkept n₀ v v' hv hv') (hi.args n₀ v hv) ho

/-- All of an event is read back if its text is well-formed, its arguments are whole, which
is to say that they are plain numbers, well-formed text and buffers, flags that have names, addresses, the types of
socket(2) and the options that have names, and its container, if any, has no empty label map. Of an address
the first 16 bytes are read back, and of an error that is not one of Linux's that it is unknown. -/
theorem c70_whole_event {tbl : Syscalls.Syscalls} {env : Env} (hb : Built tbl env) {e : KEvent}
    {ev : TraceEvent Topology.Container} (h : Decoded tbl e ev)
    (hi : Intact e.syscall.toNat ev.argv) (hc : Utf8 ev.comm)
    (hl : ∀ c, ev.container = some c → c.labels ≠ some []) :
    throughJSON env e.syscall.toNat ev = .ok
      { ev with argv := cut e.syscall.toNat ev.argv, error := toldError ev.error } := by
  obtain ⟨hp, herr, hok⟩ := h.spec hb
  cases hj : throughJSON env e.syscall.toNat ev with
  | panic => exact absurd hj hp
  | err =>
    obtain ⟨hn, hlv, -⟩ := (c70_readable_partial hb h).2.1 hj
    obtain ⟨tp, lv, -, h2, h3⟩ := hi.option hn
    rw [hlv] at h2
    injection h2 with h2
    injection h2 with h2
    subst h2
    rcases h3 with h3 | ⟨h3, -⟩ | ⟨h3, -⟩ <;> exact absurd h3 (by decide)
  | ok ev' =>
    obtain ⟨heq, -⟩ := hok ev' hj
    have hargv := c70_intact_arguments hb h hi hj
    have hcomm : jsonText ev.comm = ev.comm := (jsonText_eq_iff _).2 hc
    have herr : stringToErrno env.errno (errnoToString ev.error) = toldError ev.error := by
      obtain ⟨o, ho, hk⟩ := hb.2.errno
      unfold toldError
      split
      · next he =>
        rw [hk, Props.Flags.c42_roundtrip_iff ho]
        exact .inr he
      · next he =>
        simp only [not_or] at he
        rw [hk]
        exact (Props.Flags.c42_unknown ho he.1 he.2.1 he.2.2).2
    have hcont : ev.container.map containerThroughJSON = ev.container := by
      cases hcc : ev.container with
      | none => rfl
      | some c =>
        show some (containerThroughJSON c) = some c
        unfold containerThroughJSON
        rw [if_neg (hl c hcc)]
    rw [hargv, hcomm, herr, hcont] at heq
    rw [heq]

/-- In particular if none of its arguments is a flag set, a socket address, a socket type or an option. -/
theorem intact_plain {nr : Nat} {argv : List (String × Val)} (hn : ∀ n, specials.lookup (nr, n) = none)
    (ha : ∀ n bs, (n, Val.str bs) ∈ argv → Utf8 bs) : Intact nr argv := by
  constructor
  · intro n v hv
    rw [hn n]
    cases v with
    | str bs => exact ha n bs hv
    | _ => trivial
  · intro hm
    have := hn "name.tp"
    have h54 : nr = 54 ∨ nr = 55 := by simpa using hm
    rcases h54 with h54 | h54 <;> rw [h54] at this <;> exact absurd this (by decide)

theorem c70_plain_event {tbl : Syscalls.Syscalls} {env : Env} (hb : Built tbl env) {e : KEvent}
    {ev : TraceEvent Topology.Container} (h : Decoded tbl e ev)
    (hn : ∀ n, specials.lookup (e.syscall.toNat, n) = none) (hc : Utf8 ev.comm)
    (he : ev.error = 0 ∨ ev.error ∈ Spec.Flags.errnos.map (·.1))
    (hl : ∀ c, ev.container = some c → c.labels ≠ some [])
    (ha : ∀ n bs, (n, Val.str bs) ∈ ev.argv → Utf8 bs) :
    throughJSON env e.syscall.toNat ev = .ok ev := by
  have : toldError ev.error = ev.error := if_pos (he.imp id .inr)
  rw [c70_whole_event hb h (intact_plain hn ha) hc hl, cut_plain hn, this]

/-! ### Cases that meet the hypotheses, and the ones that are lost -/

/-- The tables filled in table order. -/
def someEnv : Env :=
  { errno := keysOf errnoVals, family := keysOf sockFamilyMap, proto := keysOf sockProtoMap
    level := keysOf sockLevelMap, opt := Props.Flags.someKeys, order := fun s => s.type.masks }

theorem someEnv_ok : EnvOk someEnv :=
  ⟨⟨_, .refl _, rfl⟩, ⟨_, .refl _, rfl⟩, ⟨_, .refl _, rfl⟩, ⟨_, .refl _, rfl⟩,
    Props.Flags.someKeys_built, fun _ => .refl _⟩

/-- The kernel event of a call `n` whose argument area is filled with byte `b`, but for the words
given. -/
def filled (n : Nat) (b : Byte) (words : List (Nat × Nat)) : KEvent :=
  { Props.Event.sampleScratch with
    syscall := BitVec.ofNat 32 n
    args := words.foldl (fun a w => overwrite a (w.1 * 128) (leBytes 8 w.2))
      (List.replicate 640 b) }

theorem filled_decoded {tbl : Syscalls.Syscalls} {n : Nat} {b : Byte} {words : List (Nat × Nat)}
    (hw : (filled n b words).args.length = 640) {fields : List (String × Rd)}
    (hd : decoders.lookup (filled n b words).syscall.toNat = some fields)
    (hin : fields.all (fun f => !isOutside (evalRd (filled n b words).args f.2)) = true) :
    Decoded tbl (filled n b words) (Lemmas.Event.eventOf tbl none (filled n b words)
      (fields.map fun f => (f.1, evalRd (filled n b words).args f.2))) := by
  have hwf : (filled n b words).WF := ⟨rfl, hw⟩
  refine ⟨hwf, ⟨none, [], Lemmas.Event.ingest_ok tbl none _ hwf [] fields hd⟩, ?_⟩
  intro f v hl off len hv
  subst hv
  have hl : (fields.map fun f => (f.1, evalRd (filled n b words).args f.2)).lookup f
      = some (.outside off len) := hl
  obtain ⟨g, hg, hge⟩ := List.mem_map.1 (mem_of_lookup hl)
  injection hge with h1 h2
  have := List.all_eq_true.1 hin g hg
  rw [h2] at this
  exact nomatch this

/-- `Syscalls.new` succeeds, so tables as assumed exist. -/
theorem built_exists : ∃ tbl, Built tbl someEnv := by
  obtain ⟨tbl, h⟩ := Props.Syscalls.c43_init_succeeds _ (.refl Syscalls.gClassMap)
  exact ⟨tbl, ⟨_, .refl _, h⟩, someEnv_ok⟩

/-- A call to unlink with a path of 128 letters is read back whole. -/
example : ∃ tbl e ev, Built tbl someEnv ∧ Decoded tbl e ev ∧
    throughJSON someEnv e.syscall.toNat ev = .ok ev := by
  obtain ⟨tbl, hb⟩ := built_exists
  have hd : decoders.lookup (filled 87 97 []).syscall.toNat = some [("pathname", .cstr 0)] := by
    decide +kernel
  have hdec := filled_decoded (tbl := tbl) (n := 87) (b := 97) (words := []) (by decide +kernel) hd
    (by decide +kernel)
  refine ⟨tbl, _, _, hb, hdec, c70_plain_event hb hdec ?_ ?_ (.inl rfl) (fun c hc => nomatch hc) ?_⟩
  · intro n
    have h87 : (filled 87 97 []).syscall.toNat = 87 := by decide
    rw [h87]
    refine List.lookup_eq_none_iff.2 fun p hp => ?_
    have : ∀ p ∈ specials, p.1.1 ≠ 87 := by decide
    have := this p hp
    simp only [bne_iff_ne, ne_eq]
    intro heq
    exact this (by rw [← heq])
  · refine ⟨[], ?_⟩
    show (filled 87 97 []).comm.take (cstrCount (filled 87 97 []).comm) = _
    decide
  · intro n bs hm
    have hval : evalRd (filled 87 97 []).args (.cstr 0) = .str (List.replicate 128 97) := by
      decide +kernel
    obtain ⟨g, hg, hge⟩ := List.mem_map.1 hm
    rw [List.mem_singleton.1 hg] at hge
    injection hge with _ h2
    dsimp only at h2
    rw [hval] at h2
    injection h2 with h2
    rw [← h2]
    exact utf8_ascii fun b hb => by rw [List.eq_of_mem_replicate hb]; decide

/-- openat of a path of 128 letters, to be written, created and truncated. -/
theorem openat_intact : ∃ fields, decoders.lookup (filled 257 97 [(2, 0x241)]).syscall.toNat = some fields ∧
    (∀ tbl, Decoded tbl (filled 257 97 [(2, 0x241)]) (Lemmas.Event.eventOf tbl none (filled 257 97 [(2, 0x241)])
      (fields.map fun f => (f.1, evalRd (filled 257 97 [(2, 0x241)]).args f.2)))) ∧
    Intact 257 (fields.map fun f => (f.1, evalRd (filled 257 97 [(2, 0x241)]).args f.2)) := by
  have hd : decoders.lookup (filled 257 97 [(2, 0x241)]).syscall.toNat =
      some [("dir_fd", .c32 0), ("pathname", .cstr 1), ("flags", .c32 2)] := by decide +kernel
  refine ⟨_, hd, fun tbl => filled_decoded (by decide +kernel) hd (by decide +kernel), ?_, fun h => absurd h (by decide)⟩
  intro n v hm
  have hm : (n, v) ∈ [("dir_fd", evalRd (filled 257 97 [(2, 0x241)]).args (.c32 0)),
    ("pathname", evalRd (filled 257 97 [(2, 0x241)]).args (.cstr 1)),
    ("flags", evalRd (filled 257 97 [(2, 0x241)]).args (.c32 2))] := hm
  have h0 : evalRd (filled 257 97 [(2, 0x241)]).args (.c32 0) = .int 0x61616161 := by decide +kernel
  have h1 : evalRd (filled 257 97 [(2, 0x241)]).args (.cstr 1) = .str (List.replicate 128 97) := by decide +kernel
  have h2 : evalRd (filled 257 97 [(2, 0x241)]).args (.c32 2) = .int 0x241 := by decide +kernel
  rw [h0, h1, h2] at hm
  rcases List.mem_cons.1 hm with hm | hm
  · obtain ⟨rfl, rfl⟩ := Prod.mk.inj hm
    trivial
  rcases List.mem_cons.1 hm with hm | hm
  · obtain ⟨rfl, rfl⟩ := Prod.mk.inj hm
    show Utf8 _
    exact utf8_ascii fun b hb => by rw [List.eq_of_mem_replicate hb]; decide
  · obtain ⟨rfl, rfl⟩ := Prod.mk.inj (List.mem_singleton.1 hm)
    show Spec.EventJSON.OnlyNamed _ _ ∧ _
    unfold Spec.EventJSON.OnlyNamed
    decide +kernel

/-- It is read back whole. -/
example : ∃ tbl e ev, Built tbl someEnv ∧ Decoded tbl e ev ∧ e.syscall.toNat = 257 ∧
    throughJSON someEnv e.syscall.toNat ev = .ok ev := by
  obtain ⟨tbl, hb⟩ := built_exists
  obtain ⟨fields, hd, hdec, hi⟩ := openat_intact
  have hnr : (filled 257 97 [(2, 0x241)]).syscall.toNat = 257 := by decide
  refine ⟨tbl, _, _, hb, hdec tbl, hnr, (c70_whole_event hb (hdec tbl) (by rw [hnr]; exact hi) ⟨[], ?_⟩
    (fun c hc => nomatch hc)).trans ?_⟩
  · show (filled 257 97 [(2, 0x241)]).comm.take (cstrCount (filled 257 97 [(2, 0x241)]).comm) = _
    decide
  · congr 1
    have : ∀ argv, cut (filled 257 97 [(2, 0x241)]).syscall.toNat argv = argv := by
      intro argv
      refine (List.map_congr_left fun a _ => ?_).trans (List.map_id _)
      have hne : specials.lookup ((filled 257 97 [(2, 0x241)]).syscall.toNat, a.1) ≠ some .address := by
        rw [hnr]
        intro h
        have : ∀ p ∈ specials, p.2 = .address → p.1.1 ≠ 257 := by decide
        exact this _ (mem_of_lookup h) rfl rfl
      generalize specials.lookup ((filled 257 97 [(2, 0x241)]).syscall.toNat, a.1) = sp at hne
      refine Prod.ext rfl ?_
      show Spec.EventJSON.cutAddress sp a.2 = a.2
      unfold Spec.EventJSON.cutAddress
      split
      · exact absurd rfl hne
      · rfl
    rw [this]
    rfl

/-- setsockopt with SOL_SOCKET, SO_REUSEADDR is read back. -/
example : ∃ tbl e ev ev', Built tbl someEnv ∧ Decoded tbl e ev ∧ e.syscall.toNat ∈ [54, 55] ∧
    throughJSON someEnv e.syscall.toNat ev = .ok ev' ∧
    ev'.argv.lookup "name.tp" = some (.int 2) ∧ ev'.argv.lookup "name.lv" = some (.int 1) := by
  obtain ⟨tbl, hb⟩ := built_exists
  let e := filled 54 0 [(1, 1), (2, 2)]
  obtain ⟨fields, hd⟩ : ∃ fields, decoders.lookup e.syscall.toNat = some fields :=
    Option.isSome_iff_exists.1 (by decide +kernel)
  have hdec := filled_decoded (tbl := tbl) (n := 54) (b := 0) (words := [(1, 1), (2, 2)])
    (by decide +kernel) hd (by
      have : ∀ fs ∈ decoders.lookup (filled 54 0 [(1, 1), (2, 2)]).syscall.toNat,
          fs.all (fun f => !isOutside (evalRd (filled 54 0 [(1, 1), (2, 2)]).args f.2)) = true := by
        decide +kernel
      exact this fields hd)
  have hlv : (Lemmas.Event.eventOf (κ := Topology.Container) tbl none e (fields.map fun f =>
      (f.1, evalRd e.args f.2))).argv.lookup "name.lv" = some (.int 1) := by
    show (fields.map fun f => (f.1, evalRd e.args f.2)).lookup "name.lv" = _
    rw [lookup_argv]
    have : ∀ fs ∈ decoders.lookup e.syscall.toNat,
        (fs.lookup "name.lv").map (evalRd e.args) = some (.int 1) := by decide +kernel
    exact this fields hd
  have htp : (Lemmas.Event.eventOf (κ := Topology.Container) tbl none e (fields.map fun f =>
      (f.1, evalRd e.args f.2))).argv.lookup "name.tp" = some (.int 2) := by
    show (fields.map fun f => (f.1, evalRd e.args f.2)).lookup "name.tp" = _
    rw [lookup_argv]
    have : ∀ fs ∈ decoders.lookup e.syscall.toNat,
        (fs.lookup "name.tp").map (evalRd e.args) = some (.int 2) := by decide +kernel
    exact this fields hd
  obtain ⟨hp, herr⟩ := c70_readable_partial hb hdec
  cases hj : throughJSON someEnv e.syscall.toNat (Lemmas.Event.eventOf tbl none e
      (fields.map fun f => (f.1, evalRd e.args f.2))) with
  | panic => exact absurd hj hp
  | err =>
    have := (herr.1 hj).2.1
    rw [hlv] at this
    exact absurd this (by decide)
  | ok ev' =>
    refine ⟨tbl, e, _, ev', hb, hdec, by decide, hj, ?_⟩
    obtain ⟨tp, lv, h1, h2, h3⟩ := c70_option_iff hb hdec (by decide) hj
    rw [htp] at h1
    rw [hlv] at h2
    injection h1 with h1
    injection h1 with h1
    injection h2 with h2
    injection h2 with h2
    subst h1 h2
    exact h3.2 (.inr (.inl ⟨rfl, by decide +kernel⟩))

/-- An IPv6 option: the reader fails. -/
theorem c70_ipv6_option_violated : ∃ tbl e ev, Built tbl someEnv ∧ Decoded tbl e ev ∧
    throughJSON someEnv e.syscall.toNat ev = .err := by
  obtain ⟨tbl, hb⟩ := built_exists
  let e := filled 54 0 [(1, 41), (2, 26)]
  obtain ⟨fields, hd⟩ : ∃ fields, decoders.lookup e.syscall.toNat = some fields :=
    Option.isSome_iff_exists.1 (by decide +kernel)
  have hdec := filled_decoded (tbl := tbl) (n := 54) (b := 0) (words := [(1, 41), (2, 26)])
    (by decide +kernel) hd (by
      have : ∀ fs ∈ decoders.lookup (filled 54 0 [(1, 41), (2, 26)]).syscall.toNat,
          fs.all (fun f => !isOutside (evalRd (filled 54 0 [(1, 41), (2, 26)]).args f.2)) = true := by
        decide +kernel
      exact this fields hd)
  refine ⟨tbl, _, _, hb, hdec, ((c70_readable_partial hb hdec).2).2 ⟨by decide, ?_, 26, ?_, ?_⟩⟩
  · show (fields.map fun f => (f.1, evalRd e.args f.2)).lookup "name.lv" = _
    rw [lookup_argv]
    have : ∀ fs ∈ decoders.lookup e.syscall.toNat,
        (fs.lookup "name.lv").map (evalRd e.args) = some (.int 41) := by decide +kernel
    exact this fields hd
  · decide +kernel
  · show (fields.map fun f => (f.1, evalRd e.args f.2)).lookup "name.tp" = _
    rw [lookup_argv]
    have : ∀ fs ∈ decoders.lookup e.syscall.toNat,
        (fs.lookup "name.tp").map (evalRd e.args) = some (.int 26) := by decide +kernel
    exact this fields hd

/-- A path that is not well-formed text: the reader gets another path. -/
theorem c70_path_violated : ∃ tbl e ev, Built tbl someEnv ∧ Decoded tbl e ev ∧
    ∃ ev' v, throughJSON someEnv e.syscall.toNat ev = .ok ev' ∧
      ("pathname", v) ∈ ev.argv ∧ ("pathname", v) ∉ ev'.argv := by
  obtain ⟨tbl, hb⟩ := built_exists
  have hd : decoders.lookup (filled 87 255 []).syscall.toNat = some [("pathname", .cstr 0)] := by
    decide +kernel
  have hdec := filled_decoded (tbl := tbl) (n := 87) (b := 255) (words := []) (by decide +kernel) hd
    (by decide +kernel)
  have h87 : (filled 87 255 []).syscall.toNat = 87 := by decide
  obtain ⟨hp, herr⟩ := c70_readable_partial hb hdec
  refine ⟨tbl, _, _, hb, hdec, ?_⟩
  cases hj : throughJSON someEnv (filled 87 255 []).syscall.toNat
    (Lemmas.Event.eventOf tbl none (filled 87 255 [])
      ([("pathname", Rd.cstr 0)].map fun f => (f.1, evalRd (filled 87 255 []).args f.2))) with
  | panic => exact absurd hj hp
  | err =>
    have := (herr.1 hj).1
    rw [h87] at this
    exact absurd this (by decide)
  | ok ev' =>
    refine ⟨ev', _, rfl, List.mem_cons_self .., fun hm => ?_⟩
    have := (c70_arguments_partial hb hdec hj).2.2 "pathname" _ _ (List.mem_cons_self ..) hm
    rw [h87, show specials.lookup (87, "pathname") = none by decide] at this
    obtain ⟨bs', hbs, h1, h2⟩ := this
    injection hbs with hbs
    have hu := h2.1 hbs.symm
    rw [← jsonText_eq_iff] at hu
    exact absurd hu (by decide +kernel)

end Swoll.Props.EventJSON
