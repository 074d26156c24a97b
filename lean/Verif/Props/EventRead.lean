import Verif.Lemmas.EventHead
import Verif.Props.EventJSON
/-
C134: a client reads from the message of an event what the server put into it.
C135: no message can crash a client.

The server writes an event as a text, `message`; `receive` is what a client makes of any text: an event, nothing if the
text is refused, or a crash. An event is what user space makes of the bytes of a kernel event `e`; `m` is what its
decoders see beside the event, `env` the name tables.
-/
namespace Swoll.Props.EventRead
open Swoll Swoll.Bytes Swoll.Event Swoll.Flags Swoll.EventJSON Swoll.EventText Swoll.EventRead
open Swoll.Json (Str Json)
open Swoll.Lemmas.EventRead Swoll.Lemmas.EventJSON
open Swoll.Props.EventJSON (Decoded Built someEnv filled filled_decoded built_exists)
open Swoll.Spec.EventRead
open Swoll.Spec.EventJSON (Utf8 Kept specials Intact cut)

/-! ### C134 -/

/-- What was decoded, and how it was. -/
theorem decoded_inv {tbl : Syscalls.Syscalls} {env : Env} (hb : Built tbl env) {e : KEvent}
    {ev : TraceEvent Topology.Container} (h : Decoded tbl e ev) : ∃ fields s,
      decoders.lookup e.syscall.toNat = some fields ∧ ev.argv = fields.map (fun f => (f.1, evalRd e.args f.2)) ∧
      (∀ f ∈ fields, isOutside (evalRd e.args f.2) = false) ∧ ev.syscall = some s ∧ s.nr = e.syscall.toNat ∧
      Numbers ev := by
  obtain ⟨⟨order, ho, hs⟩, -⟩ := hb
  obtain ⟨lk, extra, hi⟩ := h.ingested
  obtain ⟨fields, hf, hev⟩ := ingest_inv tbl lk e h.wf extra ev hi
  obtain ⟨s, hl, hsn⟩ := lookup_decodable ho hs hf
  have hargv : ev.argv = fields.map (fun f => (f.1, evalRd e.args f.2)) := by rw [hev]; rfl
  refine ⟨fields, s, hf, hargv, ?_, by rw [hev]; exact hl, hsn, by rw [hev]; exact numbers_eventOf tbl lk e _⟩
  intro f hm
  obtain ⟨-, -, -, -, -, -, hnd, -⟩ := row hf
  have hl : ev.argv.lookup f.1 = some (evalRd e.args f.2) := by
    rw [hargv, lookup_argv, lookup_of_mem hnd (show (f.1, f.2) ∈ fields from hm)]
    rfl
  cases hv : evalRd e.args f.2 with
  | outside o l => exact absurd hv (h.inside _ _ hl o l)
  | _ => rfl

/-- The client refuses a message exactly when `throughJSON` (C70) does, and otherwise has the event of `throughJSON`. -/
theorem c134_receive {tbl : Syscalls.Syscalls} {env : Env} (hb : Built tbl env) (m : Memory) {e : KEvent}
    {ev : TraceEvent Topology.Container} (h : Decoded tbl e ev) (h35 : e.syscall.toNat ≠ 35)
    (hc : ∀ c, ev.container = some c → Carried c) :
    (throughJSON env e.syscall.toNat ev = .err ∧ receive env (message env m e.syscall.toNat ev) = .err) ∨
    ∃ ev₁ ev₂, throughJSON env e.syscall.toNat ev = .ok ev₁ ∧
      receive env (message env m e.syscall.toNat ev) = .ok (some ev₂) ∧ SameEvent ev₁ ev₂ := by
  obtain ⟨fields, s, hf, hargv, ho, hs, hsn, hn⟩ := decoded_inv hb h
  obtain ⟨t, js, ht, ht', hw, hr⟩ := args_read env m h35 hf h.wf.2 ho
  rw [← hargv] at hw hr
  have hfit : Spec.Flags.FitsInt (e.syscall.toNat : Int) := fits_nat _ (by decide)
  rw [message_read hs hsn hfit hn hc ht ht', hr]
  have hthrough : throughJSON env e.syscall.toNat ev = match readArgs env t js with
      | .ok a => .ok { ev with
          container := ev.container.map containerThroughJSON, comm := jsonText ev.comm
          error := stringToErrno env.errno (errnoToString ev.error), argv := a }
      | .err => .err
      | .panic => .panic := by
    unfold throughJSON write
    rw [ht]
    dsimp only
    rw [hw]
    dsimp only
    unfold EventJSON.read
    dsimp only
    rw [hs]
    dsimp only
    rw [hsn, ht']
    dsimp only
    cases readArgs env t js <;> rfl
  rw [hthrough]
  cases hra : readArgs env t js with
  | panic => exact absurd hra (readArgs_not_panic env t js)
  | err => exact .inl ⟨rfl, rfl⟩
  | ok a =>
    refine .inr ⟨_, _, rfl, rfl, ?_, ?_⟩
    · unfold readHead
      rw [← hs]
    · show SameOptional (ev.container.map containerThroughJSON) (ev.container.map readContainer)
      cases hcc : ev.container with
      | none => exact trivial
      | some c =>
        have hsame := readContainer_same (hc c hcc)
        have hlab : (containerThroughJSON c).labels.getD [] = c.labels.getD [] := by
          unfold containerThroughJSON
          dsimp only
          split
          · next h => rw [h]; rfl
          · rfl
        exact ⟨rfl, rfl, rfl, rfl, rfl, rfl, rfl, rfl, fun k => by rw [hlab]; exact hsame.labels k⟩

/-- Nanosleep: the message is read, with everything but the two times. -/
theorem c134_nanosleep {tbl : Syscalls.Syscalls} {env : Env} (hb : Built tbl env) (m : Memory) {e : KEvent}
    {ev : TraceEvent Topology.Container} (h : Decoded tbl e ev) (h35 : e.syscall.toNat = 35)
    (hc : ∀ c, ev.container = some c → Carried c) :
    ∃ ev', receive env (message env m e.syscall.toNat ev) = .ok (some ev') ∧ SameOptional ev.container ev'.container ∧
      ev' = { ev with
        container := ev'.container, comm := jsonText ev.comm
        error := stringToErrno env.errno (errnoToString ev.error), argv := ev'.argv } := by
  obtain ⟨fields, s, hf, hargv, ho, hs, hsn, hn⟩ := decoded_inv hb h
  have hfit : Spec.Flags.FitsInt (e.syscall.toNat : Int) := fits_nat _ (by decide)
  have ht : decodeTypes.lookup e.syscall.toNat = some "Nanosleep" := by rw [h35]; decide +kernel
  have ht' : jsonTypes.lookup e.syscall.toNat = some "Nanosleep" := by rw [h35]; decide +kernel
  have hd : decoders.lookup e.syscall.toNat = some [("req", .ptrs 0 16), ("rem", .ptrs 1 16)] := by
    rw [h35]; decide +kernel
  have hf := Option.some.inj (hf.symm.trans hd)
  subst hf
  rw [message_read hs hsn hfit hn hc ht ht', nanosleep_read env m (i := 0) (n := 16) (j := 1) (n' := 16)
    (by rw [hargv]; rfl) (by rw [hargv]; rfl)]
  refine ⟨_, rfl, ?_, ?_⟩
  · show SameOptional ev.container (ev.container.map readContainer)
    cases hcc : ev.container with
    | none => exact trivial
    | some c => exact readContainer_same (hc c hcc)
  · unfold readHead
    rw [← hs]

/-- The client makes an event of every message but those of setsockopt and getsockopt with level IPPROTO_IPV6 (41) and
an option that has a name, which it refuses. -/
theorem c134_readable_partial {tbl : Syscalls.Syscalls} {env : Env} (hb : Built tbl env) (m : Memory) {e : KEvent}
    {ev : TraceEvent Topology.Container} (h : Decoded tbl e ev) (hc : ∀ c, ev.container = some c → Carried c) :
    ((∃ ev', receive env (message env m e.syscall.toNat ev) = .ok (some ev')) ∨
      receive env (message env m e.syscall.toNat ev) = .err) ∧
    (receive env (message env m e.syscall.toNat ev) = .err ↔ e.syscall.toNat ∈ [54, 55] ∧
      ev.argv.lookup "name.lv" = some (.int 41) ∧
      ∃ o ∈ ip6OpMasks.map (·.1), ev.argv.lookup "name.tp" = some (.int o)) := by
  by_cases h35 : e.syscall.toNat = 35
  · obtain ⟨ev', hr, -⟩ := c134_nanosleep hb m h h35 hc
    rw [hr]
    refine ⟨.inl ⟨ev', rfl⟩, iff_of_false nofun ?_⟩
    rintro ⟨h1, -⟩
    rw [h35] at h1
    exact absurd h1 (by decide)
  · have h70 := (Props.EventJSON.c70_readable_partial hb h).2
    rcases c134_receive hb m h h35 hc with ⟨h1, h2⟩ | ⟨ev₁, ev₂, h1, h2, -⟩
    · rw [h2]
      exact ⟨.inr rfl, iff_of_true rfl (h70.1 h1)⟩
    · rw [h2]
      refine ⟨.inl ⟨ev₂, rfl⟩, iff_of_false nofun fun hn => ?_⟩
      rw [h70.2 hn] at h1
      cases h1

/-- The header of the event a client has: all numbers and the system call are those of the server; the command is when it
is well-formed text; the error is when it is one of Linux's; the container is the same. -/
theorem c134_header_partial {tbl : Syscalls.Syscalls} {env : Env} (hb : Built tbl env) (m : Memory) {e : KEvent}
    {ev ev' : TraceEvent Topology.Container} (h : Decoded tbl e ev) (hc : ∀ c, ev.container = some c → Carried c)
    (hr : receive env (message env m e.syscall.toNat ev) = .ok (some ev')) :
    ev'.syscall = ev.syscall ∧ ev'.pid = ev.pid ∧ ev'.tid = ev.tid ∧ ev'.cpid = ev.cpid ∧
    ev'.uid = ev.uid ∧ ev'.gid = ev.gid ∧ ev'.sid = ev.sid ∧ ev'.ret = ev.ret ∧
    ev'.pidNs = ev.pidNs ∧ ev'.utsNs = ev.utsNs ∧ ev'.mntNs = ev.mntNs ∧
    ev'.start = ev.start ∧ ev'.finish = ev.finish ∧
    (Utf8 ev'.comm ∧ (ev'.comm = ev.comm ↔ Utf8 ev.comm)) ∧
    (ev'.error = ev.error ↔ ev.error = 0 ∨ ev.error = 512 ∨ ev.error ∈ Spec.Flags.errnos.map (·.1)) ∧
    SameOptional ev.container ev'.container := by
  obtain ⟨heq, hcont⟩ : ev' = { ev with
        container := ev'.container, comm := jsonText ev.comm
        error := stringToErrno env.errno (errnoToString ev.error), argv := ev'.argv } ∧
      SameOptional ev.container ev'.container := by
    by_cases h35 : e.syscall.toNat = 35
    · obtain ⟨ev₁, h1, h2, h3⟩ := c134_nanosleep hb m h h35 hc
      rw [h1] at hr
      injection hr with hr
      injection hr with hr
      subst hr
      exact ⟨h3, h2⟩
    · rcases c134_receive hb m h h35 hc with ⟨-, h2⟩ | ⟨ev₁, ev₂, h1, h2, h3, h4⟩
      · rw [h2] at hr; cases hr
      · rw [h2] at hr
        injection hr with hr
        injection hr with hr
        subst hr
        obtain ⟨h5, -⟩ := (h.spec hb).2.2 ev₁ h1
        have ha : ev₁.container = ev.container.map containerThroughJSON := by rw [h5]
        refine ⟨?_, ?_⟩
        · have hargv : ev₂.argv = ev₁.argv := by rw [h3]
          rw [hargv, h3]
          conv => lhs; rw [h5]
        · rw [ha] at h4
          cases hcc : ev.container with
          | none => rw [hcc] at h4; exact h4
          | some c =>
            rw [hcc] at h4
            cases hcc' : ev₂.container with
            | none => rw [hcc'] at h4; exact h4
            | some c' =>
              rw [hcc'] at h4
              have h4 : SameContainer (containerThroughJSON c) c' := h4
              have hlab : (containerThroughJSON c).labels.getD [] = c.labels.getD [] := by
                unfold containerThroughJSON
                dsimp only
                split
                · next h => rw [h]; rfl
                · rfl
              exact ⟨h4.id, h4.pod, h4.sandbox, h4.name, h4.image, h4.ns, h4.pid, h4.pidns,
                fun k => hlab ▸ h4.labels k⟩
  obtain ⟨lk, extra, hi⟩ := h.ingested
  obtain ⟨fields, -, hev⟩ := ingest_inv tbl lk e h.wf extra ev hi
  have hnn : ev.error ≠ -1 := by
    rw [hev]
    show ((e.errno.toNat : Nat) : Int) ≠ -1
    omega
  have hcomm : ev'.comm = jsonText ev.comm := by rw [heq]
  have herror : ev'.error = stringToErrno env.errno (errnoToString ev.error) := by rw [heq]
  refine ⟨by rw [heq], by rw [heq], by rw [heq], by rw [heq], by rw [heq], by rw [heq], by rw [heq],
    by rw [heq], by rw [heq], by rw [heq], by rw [heq], by rw [heq], by rw [heq], ?_, ?_, hcont⟩
  · rw [hcomm]
    exact ⟨utf8_jsonText _, jsonText_eq_iff _⟩
  · obtain ⟨o, ho, hk⟩ := hb.2.errno
    rw [herror, hk, Props.Flags.c42_roundtrip_iff ho]
    exact ⟨fun h => h.resolve_left hnn, .inr⟩

/-- The arguments of the event a client has: the same ones in the same order, each once, and of each what the
specification says. -/
theorem c134_arguments_partial {tbl : Syscalls.Syscalls} {env : Env} (hb : Built tbl env) (m : Memory) {e : KEvent}
    {ev ev' : TraceEvent Topology.Container} (h : Decoded tbl e ev) (h35 : e.syscall.toNat ≠ 35)
    (hc : ∀ c, ev.container = some c → Carried c)
    (hr : receive env (message env m e.syscall.toNat ev) = .ok (some ev')) :
    ev'.argv.map (·.1) = ev.argv.map (·.1) ∧ (ev.argv.map (·.1)).Nodup ∧
    ∀ n v v', (n, v) ∈ ev.argv → (n, v') ∈ ev'.argv → Kept (specials.lookup (e.syscall.toNat, n)) v v' := by
  rcases c134_receive hb m h h35 hc with ⟨-, h2⟩ | ⟨ev₁, ev₂, h1, h2, h3, -⟩
  · rw [h2] at hr; cases hr
  · rw [h2] at hr
    injection hr with hr
    injection hr with hr
    subst hr
    have hargv : ev₂.argv = ev₁.argv := by rw [h3]
    rw [hargv]
    exact Props.EventJSON.c70_arguments_partial hb h h1

/-- The client has the event of the server if its text is well-formed, its error is one of Linux's, and its arguments
are whole: plain numbers, well-formed text and buffers, flags that have names, addresses, the types of
socket(2) and the options that have names. Of an address it has the first 16 bytes. -/
theorem c134_whole {tbl : Syscalls.Syscalls} {env : Env} (hb : Built tbl env) (m : Memory) {e : KEvent}
    {ev : TraceEvent Topology.Container} (h : Decoded tbl e ev) (h35 : e.syscall.toNat ≠ 35)
    (hc : ∀ c, ev.container = some c → Carried c)
    (hi : Intact e.syscall.toNat ev.argv) (hu : Utf8 ev.comm)
    (he : ev.error = 0 ∨ ev.error = 512 ∨ ev.error ∈ Spec.Flags.errnos.map (·.1)) :
    ∃ ev', receive env (message env m e.syscall.toNat ev) = .ok (some ev') ∧
      SameEvent { ev with argv := cut e.syscall.toNat ev.argv } ev' := by
  have hok := (c134_readable_partial hb m h hc)
  rcases hok.1 with ⟨ev', hr⟩ | herr
  · refine ⟨ev', hr, ?_⟩
    obtain ⟨a1, a2, a3, a4, a5, a6, a7, a8, a9, a10, a11, a12, a13, a14, a15, a16⟩ := c134_header_partial hb m h hc hr
    refine ⟨?_, a16⟩
    have hargv : ev'.argv = cut e.syscall.toNat ev.argv := by
      rcases c134_receive hb m h h35 hc with ⟨-, h1⟩ | ⟨ev₁, ev₂, h1, h2, h3⟩
      · rw [hr] at h1; cases h1
      · rw [hr] at h2
        injection h2 with h2
        injection h2 with h2
        subst h2
        rw [← Props.EventJSON.c70_intact_arguments hb h hi h1, h3.1]
    have hcomm : ev'.comm = ev.comm := a14.2.2 hu
    have herror : ev'.error = ev.error := a15.2 he
    cases ev'
    cases ev
    simp_all
  · obtain ⟨h54, hlv, -⟩ := hok.2.1 herr
    obtain ⟨tp, lv, -, h2, h3⟩ := hi.option h54
    rw [hlv] at h2
    injection h2 with h2
    injection h2 with h2
    subst h2
    rcases h3 with h3 | ⟨h3, -⟩ | ⟨h3, -⟩ <;> exact absurd h3 (by decide)

/-! ### C135 -/

/-- A message crashes a client only if it is an object, and has no system call: no member of that name, in upper or lower
case, or the last of them is null. -/
theorem c135_crash_only_partial {env : Env} {msg : Str} (h : receive env msg = .panic) :
    ∃ l, Json.only msg = some (.obj l) ∧
      ∀ k v, (l.filter fun e => Wire.named "syscall" e.1).getLast? = some (k, v) → v = .null := by
  unfold receive at h
  cases ho : Json.only msg with
  | none => rw [ho] at h; cases h
  | some j =>
    rw [ho] at h
    dsimp only at h
    unfold EventRead.eventOf at h
    split at h
    · cases h
    · next l =>
      refine ⟨l, rfl, fun k v hl => ?_⟩
      cases hs : structOf (eventFields env) { ev := noEvent } l with
      | none => rw [hs] at h; cases h
      | some d =>
        rw [hs] at h
        dsimp only at h
        have hp : finish env d = .panic := by
          cases hf : finish env d with
          | panic => rfl
          | ok _ => rw [hf] at h; cases h
          | err => rw [hf] at h; cases h
        exact ((struct_call env l _ d hs).2 k v hl).1 (finish_panic.1 hp)
    · cases h

/-- A message with a system call does not crash a client. -/
theorem c135_with_call_partial {env : Env} {msg : Str} {l : List (Str × Json)} (h : Json.only msg = some (.obj l))
    {k : Str} {v : Json} (hl : (l.filter fun e => Wire.named "syscall" e.1).getLast? = some (k, v)) (hv : v ≠ .null) :
    receive env msg ≠ .panic := by
  intro hp
  obtain ⟨l', h', hn⟩ := c135_crash_only_partial hp
  rw [h] at h'
  injection h' with h'
  injection h' with h'
  subst h'
  exact hv (hn k v hl)

/-- A message that is no JSON text, or neither an object nor null, is refused. -/
theorem c135_refused {env : Env} {msg : Str} (h : ∀ l, Json.only msg ≠ some (.obj l)) (h' : Json.only msg ≠ some .null) :
    receive env msg = .err := by
  unfold receive
  cases ho : Json.only msg with
  | none => rfl
  | some j =>
    cases j with
    | null => exact absurd ho h'
    | obj l => exact absurd ho (h l)
    | _ => rfl

/-- A message of the server does not crash a client, and carries an event if it is not refused. -/
theorem c135_server {tbl : Syscalls.Syscalls} {env : Env} (hb : Built tbl env) (m : Memory) {e : KEvent}
    {ev : TraceEvent Topology.Container} (h : Decoded tbl e ev) (hc : ∀ c, ev.container = some c → Carried c) :
    receive env (message env m e.syscall.toNat ev) ≠ .panic ∧ receive env (message env m e.syscall.toNat ev) ≠ .ok none := by
  rcases (c134_readable_partial hb m h hc).1 with ⟨ev', hr⟩ | hr <;> rw [hr] <;> exact ⟨nofun, nofun⟩

/-- An object without any member of an event crashes a client. -/
theorem c135_object_violated {env : Env} {msg : Str} {l : List (Str × Json)} (h : Json.only msg = some (.obj l))
    (hl : ∀ e ∈ l, ∀ n ∈ memberNames, Wire.named n e.1 = false) : receive env msg = .panic := by
  have hs : ∀ (l : List (Str × Json)), (∀ e ∈ l, ∀ n ∈ memberNames, Wire.named n e.1 = false) → ∀ d,
      structOf (eventFields env) d l = some d := by
    intro l
    induction l with
    | nil => intro _ d; rfl
    | cons e l ih =>
      intro hl d
      rw [structOf_cons]
      unfold member
      rw [fieldNamed_none fun x hx => hl e (.head _) x.1 (by
        have : (eventFields env).map (·.1) = memberNames := rfl
        rw [← this]
        exact List.mem_map.2 ⟨x, hx, rfl⟩)]
      exact ih (fun e he => hl e (.tail _ he)) d
  unfold receive
  rw [h]
  dsimp only
  unfold EventRead.eventOf
  dsimp only
  rw [hs l hl]
  rfl

/-- The message `null` is handed on with no event in it. -/
theorem c135_null_violated (env : Env) : receive env "null".toList = .ok none := by
  have h : Json.only "null".toList = some .null := by
    have := only_doc .null
    rw [Doc.text] at this
    exact Lemmas.Json.only_says (w := []) (w' := []) Lemmas.Json.space_nil (by
      have := doc_says .null
      rwa [Doc.text, jsonOf] at this) Lemmas.Json.space_nil
  unfold receive
  rw [h]
  rfl

/-! ### Cases that meet the hypotheses -/

/-- A call to unlink with a path of 128 letters reaches the client whole. -/
example (m : Memory) : ∃ tbl e ev ev', Built tbl someEnv ∧ Decoded tbl e ev ∧
    receive someEnv (message someEnv m e.syscall.toNat ev) = .ok (some ev') ∧ SameEvent ev ev' := by
  obtain ⟨tbl, hb⟩ := built_exists
  have hd : decoders.lookup (filled 87 97 []).syscall.toNat = some [("pathname", .cstr 0)] := by
    decide +kernel
  have hdec := filled_decoded (tbl := tbl) (n := 87) (b := 97) (words := []) (by decide +kernel) hd
    (by decide +kernel)
  have h87 : (filled 87 97 []).syscall.toNat = 87 := by decide
  have h0 : ∀ n, specials.lookup ((filled 87 97 []).syscall.toNat, n) = none := by
    intro n
    rw [h87]
    refine List.lookup_eq_none_iff.2 fun p hp => ?_
    have : ∀ p ∈ specials, p.1.1 ≠ 87 := by decide
    have := this p hp
    simp only [bne_iff_ne, ne_eq]
    intro heq
    exact this (by rw [← heq])
  obtain ⟨ev', hr, hs⟩ := c134_whole hb m hdec (by rw [h87]; decide) (fun c hc => nomatch hc) (Props.EventJSON.intact_plain h0 (by
    intro n bs hm
    have hval : evalRd (filled 87 97 []).args (.cstr 0) = .str (List.replicate 128 97) := by
      decide +kernel
    obtain ⟨g, hg, hge⟩ := List.mem_map.1 hm
    rw [List.mem_singleton.1 hg] at hge
    injection hge with _ h2
    dsimp only at h2
    rw [hval] at h2
    injection h2 with h2
    rw [← h2]
    exact utf8_ascii fun b hb => by rw [List.eq_of_mem_replicate hb]; decide)) (by
    refine ⟨[], ?_⟩
    show (filled 87 97 []).comm.take (cstrCount (filled 87 97 []).comm) = _
    decide) (.inl rfl)
  rw [Props.EventJSON.cut_plain h0] at hs
  exact ⟨tbl, _, _, ev', hb, hdec, hr, hs⟩

/-- A container with labels as they are carried. -/
example : Carried ⟨"c1", "web", "", "nginx", "", "default", some [("app", "web"), ("tier", "front")], 4242, 4026531836⟩ :=
  ⟨by decide, by decide, by decide⟩

/-- A call to nanosleep. -/
example : ∃ tbl e ev, Built tbl someEnv ∧ Decoded tbl e ev ∧ e.syscall.toNat = 35 := by
  obtain ⟨tbl, hb⟩ := built_exists
  have hd : decoders.lookup (filled 35 97 []).syscall.toNat = some [("req", .ptrs 0 16), ("rem", .ptrs 1 16)] := by
    decide +kernel
  exact ⟨tbl, _, _, hb, filled_decoded (tbl := tbl) (n := 35) (b := 97) (words := []) (by decide +kernel) hd
    (by decide +kernel), by decide⟩

/-- Objects without members, and with others. -/
example (env : Env) : receive env "{}".toList = .panic := by
  exact c135_object_violated (l := []) only_empty (by simp)

/-- A message with a system call only is refused. -/
example (env : Env) : receive env "{\"syscall\":{}}".toList ≠ .panic := by
  refine c135_with_call_partial (l := [("syscall".toList, .obj [])]) (k := "syscall".toList) (v := .obj []) ?_ ?_ nofun
  · have := Lemmas.Json.only_says (w := []) (w' := []) Lemmas.Json.space_nil
      (doc_says (.obj [("syscall", .obj [])])) Lemmas.Json.space_nil
    simpa [Doc.text, members, jsonOf, jsonMembers, Json.quote, Json.escape] using this
  · rfl

end Swoll.Props.EventRead
