import Verif.Model.WatchStream
import Verif.Spec.WatchStream
import Verif.Props.Watch
import Verif.Props.EventText
import Verif.Props.EventRead
import Verif.Props.ClientCmd
/-
C136: from the call to the terminal of `swoll client watch`.

A call `x` is made somewhere in a cluster; the probe of its node writes an event, the server of the node sends the event as
a text (`messages`), and a client that watches prints lines. `tbl` and `js` are the tables of names, `env` the orders the
client goes through its flag tables in.
-/
namespace Swoll.Props.WatchStream
open Swoll Swoll.Bytes Swoll.Event Swoll.Flags Swoll.Print Swoll.Watch Swoll.WatchStream
open Swoll.EventRead (receive)
open Swoll.EventText (message accepts)
open Swoll.Spec.Event Swoll.Spec.Print Swoll.Spec.Watch Swoll.Spec.WatchStream
open Swoll.Lemmas.Flags Swoll.Lemmas.Event Swoll.Lemmas.Print
open Swoll.Props.EventJSON (Decoded Built)
open Swoll.Spec.EventJSON (Utf8 Kept specials)
open Swoll.Spec.EventRead (Carried SameOptional)
open Swoll.Json (Str)

/-- What the server sends for a call. -/
def messages (tbl : Syscalls.Syscalls) (js : EventJSON.Env) (x : Traced) : List Str :=
  sent tbl js x.lookup x.memory x.call.nr.toNat (encode (onExit x.scratch x.task x.call) ++ x.extra)

/-- An integer argument is decoded as it was passed. -/
theorem number_of {tbl : Syscalls.Syscalls} {x : Traced} (h : Ordinary x) {ev : TraceEvent Topology.Container}
    (hi : ingest tbl x.lookup (.bytes (encode (onExit x.scratch x.task x.call) ++ x.extra)) = .ok ev)
    {f : String} {k : Nat} (hm : meaning x.call.nr.toNat f = some (.s64 k)) (hx : (x.call.nr.toNat, f) ∉ mismatches)
    {n : Int} (hl : ev.argv.lookup f = some (.int n)) : n = (x.call.args k).toInt := by
  obtain ⟨ev₁, v, h1, h2, h3⟩ := Props.Event.c36_decoded_arguments_partial tbl x.lookup x.scratch x.task x.call x.extra
    h.scratch h.comm f _ hm hx ⟨(fun k hk => nomatch hk), fun k hk => nomatch hk⟩
  obtain rfl : ev₁ = ev := Res.ok.inj (h1.symm.trans hi)
  obtain rfl : v = .int n := Option.some.inj (h2.symm.trans hl)
  exact h3

/-- The event of an ordinary call is decoded, from its own bytes. -/
theorem decoded_of {tbl : Syscalls.Syscalls} {x : Traced} (h : Ordinary x) :
    ∃ ev, ingest tbl x.lookup (.bytes (encode (onExit x.scratch x.task x.call) ++ x.extra)) = .ok ev ∧
      Decoded tbl (onExit x.scratch x.task x.call) ev := by
  have hwf := wf_onExit x.scratch x.task x.call h.scratch h.comm
  obtain ⟨ev, hi, -⟩ := Props.Event.c39_header_partial tbl x.lookup x.scratch x.task x.call x.extra h.scratch h.comm
    h.decodable
  refine ⟨ev, hi, hwf, ⟨x.lookup, x.extra, hi⟩, fun f v hl off len hv => ?_⟩
  have hnr : (onExit x.scratch x.task x.call).syscall.toNat = x.call.nr.toNat := by rw [onExit_syscall]
  rcases (Props.Event.c37_outside_iff tbl x.lookup _ hwf x.extra ev hi).1 ⟨f, v, hl, by rw [hv]; exact id⟩ with
    ⟨hn, n, hl', hneg⟩ | ⟨hn, n, hl', hneg⟩ | ⟨hn, n, hl', hbig⟩ | hn <;> rw [hnr] at hn
  · have h2 : n = (x.call.args 2).toInt := by
      rcases List.mem_cons.1 hn with hn | hn
      · exact number_of h hi (f := "count") (by rw [hn]; decide +kernel) (by rw [hn]; decide +kernel) hl'
      · have hn := List.mem_singleton.1 hn
        exact number_of h hi (f := "count") (by rw [hn]; decide +kernel) (by rw [hn]; decide +kernel) hl'
    have := h.sizes (by
      rcases List.mem_cons.1 hn with hn | hn
      · rw [hn]; decide
      · rw [List.mem_singleton.1 hn]; decide)
    omega
  · rcases List.mem_cons.1 hn with hn | hn
    · have h2 := number_of h hi (f := "size") (k := 2) (by rw [hn]; decide +kernel) (by rw [hn]; decide +kernel) hl'
      have := h.sizes (by rw [hn]; decide)
      omega
    · have hn := List.mem_singleton.1 hn
      have h2 := number_of h hi (f := "size") (k := 3) (by rw [hn]; decide +kernel) (by rw [hn]; decide +kernel) hl'
      have := h.size hn
      omega
  · have h2 := number_of h hi (f := "len") (k := 1) (by rw [hn]; decide +kernel) (by rw [hn]; decide +kernel) hl'
    have := h.length hn
    omega
  · subst hv
    obtain ⟨fields, hf, hev⟩ := Lemmas.EventJSON.ingest_inv tbl x.lookup _ hwf x.extra ev hi
    rw [hnr, hn] at hf
    have hd : decoders.lookup nr.sys_nanosleep = some [("req", .ptrs 0 16), ("rem", .ptrs 1 16)] := by decide +kernel
    have hf := Option.some.inj (hf.symm.trans hd)
    subst hf
    have hm := lookup_mem hl
    rw [hev] at hm
    obtain ⟨g, hg, hge⟩ := List.mem_map.1 hm
    rcases List.mem_cons.1 hg with hg | hg
    · rw [hg] at hge; cases hge
    · rw [List.mem_singleton.1 hg] at hge; cases hge

/-- What a client makes of the message of an ordinary call: the header of C70, and the container. -/
theorem received_of {tbl : Syscalls.Syscalls} {js : EventJSON.Env} (hb : Built tbl js) {x : Traced} (h : Ordinary x) :
    ∃ ev, ingest tbl x.lookup (.bytes (encode (onExit x.scratch x.task x.call) ++ x.extra)) = .ok ev ∧
      Decoded tbl (onExit x.scratch x.task x.call) ev ∧ messages tbl js x = [message js x.memory x.call.nr.toNat ev] ∧
      accepts (message js x.memory x.call.nr.toNat ev) = true ∧ ev.container = x.container ∧
      ∀ c, ev.container = some c → Carried c := by
  obtain ⟨ev, hi, hd⟩ := decoded_of (tbl := tbl) h
  have hnr : (onExit x.scratch x.task x.call).syscall.toNat = x.call.nr.toNat := by rw [onExit_syscall]
  obtain ⟨ev₁, h1, -, -, -, -, -, -, -, -, -, -, -, hcont, -⟩ := Props.Event.c39_header_partial tbl x.lookup x.scratch
    x.task x.call x.extra h.scratch h.comm h.decodable
  obtain rfl : ev₁ = ev := Res.ok.inj (h1.symm.trans hi)
  have hcont : ev₁.container = x.container := hcont
  have hroom : Props.EventText.room x.call.nr.toNat = room x.call.nr.toNat := rfl
  refine ⟨ev₁, hi, hd, ?_, ?_, hcont, ?_⟩
  · unfold messages sent
    rw [hi]
  · have := Props.EventText.c132_fits_partial hb x.memory hd fun c hc => by
      rw [hnr, hroom]
      exact (h.container c (hcont ▸ hc)).1
    rwa [hnr] at this
  · intro c hc
    obtain ⟨h1, h2⟩ := h.container c (hcont ▸ hc)
    exact ⟨h1.pid, h1.pidns, h2⟩

/-- Whether the call is refused is a matter of its arguments. -/
theorem refused_iff {tbl : Syscalls.Syscalls} {js : EventJSON.Env} (hb : Built tbl js) {x : Traced} (h : Ordinary x)
    {ev : TraceEvent Topology.Container}
    (hi : ingest tbl x.lookup (.bytes (encode (onExit x.scratch x.task x.call) ++ x.extra)) = .ok ev)
    (hd : Decoded tbl (onExit x.scratch x.task x.call) ev) (hc : ∀ c, ev.container = some c → Carried c) :
    receive js (message js x.memory x.call.nr.toNat ev) = .err ↔ Refused x := by
  have hnr : (onExit x.scratch x.task x.call).syscall.toNat = x.call.nr.toNat := by rw [onExit_syscall]
  have h1 := (Props.EventRead.c134_readable_partial hb x.memory hd hc).2
  rw [hnr] at h1
  rw [h1]
  unfold Refused
  have num : ∀ f k, meaning x.call.nr.toNat f = some (.s32 k) → (x.call.nr.toNat, f) ∉ mismatches →
      ev.argv.lookup f = some (.int ((x.call.args k).setWidth 32).toInt) := by
    intro f k hm hx
    obtain ⟨ev₁, v, h1, h2, h3⟩ := Props.Event.c36_decoded_arguments_partial tbl x.lookup x.scratch x.task x.call x.extra
      h.scratch h.comm f _ hm hx ⟨(fun k hk => nomatch hk), fun k hk => nomatch hk⟩
    obtain rfl : ev₁ = ev := Res.ok.inj (h1.symm.trans hi)
    rw [h2]
    cases v with
    | int n => have : n = _ := h3; rw [this]
    | _ => exact h3.elim
  have key : ∀ n, n ∈ [nr.sys_setsockopt, nr.sys_getsockopt] → meaning n "name.lv" = some (.s32 1) ∧
      meaning n "name.tp" = some (.s32 2) ∧ (n, "name.lv") ∉ mismatches ∧ (n, "name.tp") ∉ mismatches := by
    decide +kernel
  constructor
  · rintro ⟨hn, h2, o, ho, h3⟩
    have hn : x.call.nr.toNat ∈ [nr.sys_setsockopt, nr.sys_getsockopt] := hn
    obtain ⟨k1, k2, k3, k4⟩ := key _ hn
    rw [num _ _ k1 k3] at h2
    rw [num _ _ k2 k4] at h3
    injection h2 with h2
    injection h2 with h2
    injection h3 with h3
    injection h3 with h3
    exact ⟨hn, h2, h3 ▸ ho⟩
  · rintro ⟨hn, h2, h3⟩
    obtain ⟨k1, k2, k3, k4⟩ := key _ hn
    refine ⟨hn, ?_, _, h3, ?_⟩
    · rw [num _ _ k1 k3, h2]
    · rw [num _ _ k2 k4]

/-- The error a client has. -/
theorem error_of {tbl : Syscalls.Syscalls} {js : EventJSON.Env} (hb : Built tbl js) {m : EventText.Memory} {e : KEvent}
    {ev ev' : TraceEvent Topology.Container} (hd : Decoded tbl e ev) (hc : ∀ c, ev.container = some c → Carried c)
    (hrec : receive js (message js m e.syscall.toNat ev) = .ok (some ev')) :
    ev'.error = stringToErrno js.errno (errnoToString ev.error) := by
  by_cases h35 : e.syscall.toNat = 35
  · obtain ⟨ev₁, k1, -, k3⟩ := Props.EventRead.c134_nanosleep hb m hd h35 hc
    obtain rfl : ev' = ev₁ := Option.some.inj (Res.ok.inj (hrec.symm.trans k1))
    exact congrArg TraceEvent.error k3
  · rcases Props.EventRead.c134_receive hb m hd h35 hc with ⟨-, k2⟩ | ⟨ev₁, ev₂, k1, k2, k3, -⟩
    · exact nomatch hrec.symm.trans k2
    · obtain rfl : ev' = ev₂ := Option.some.inj (Res.ok.inj (hrec.symm.trans k2))
      obtain ⟨k4, -⟩ := (hd.spec hb).2.2 ev₁ k1
      exact (congrArg TraceEvent.error k3).trans (congrArg TraceEvent.error k4)

/-- An ordinary call is one message, which a client accepts. It prints one line for it: the line of the call; none if the
call is about an option of IPv6 that has a name. -/
theorem c136_line_partial (env : Env) {tbl : Syscalls.Syscalls} {js : EventJSON.Env} (hb : Built tbl js) {x : Traced}
    (h : Ordinary x) :
    ∃ text, messages tbl js x = [text] ∧ accepts text = true ∧
      (Refused x → printed js env text = some []) ∧
      (¬ Refused x → ∃ line argv, printed js env text = some [line] ∧
        LineFor x (argvText env x.call.nr.toNat argv) line ∧ ArgumentsOf x argv) := by
  obtain ⟨ev, hi, hd, hm, ha, hcont, hc⟩ := received_of hb h
  have hnr : (onExit x.scratch x.task x.call).syscall.toNat = x.call.nr.toNat := by rw [onExit_syscall]
  have hrf := refused_iff hb h hi hd hc
  refine ⟨_, hm, ha, fun hr => ?_, fun hr => ?_⟩
  · unfold printed
    rw [hrf.2 hr]
  · have hread := (Props.EventRead.c134_readable_partial hb x.memory hd hc).1
    rw [hnr] at hread
    obtain ⟨ev', hrec⟩ : ∃ ev', receive js (message js x.memory x.call.nr.toNat ev) = .ok (some ev') :=
      hread.resolve_right fun he => hr (hrf.1 he)
    have hhead := Props.EventRead.c134_header_partial hb x.memory hd hc (by rw [hnr]; exact hrec)
    obtain ⟨a1, -, -, -, -, -, a7, -, -, -, -, -, -, a14, -, a16⟩ := hhead
    have herrs := error_of hb hd hc (by rw [hnr]; exact hrec)
    obtain ⟨ev₁, hev₁, hsys, -, -, -, -, -, hsid, -, -, -, hcomm, -, -⟩ :=
      Props.Event.c39_header_partial tbl x.lookup x.scratch x.task x.call x.extra h.scratch h.comm h.decodable
    obtain rfl : ev₁ = ev := Res.ok.inj (hev₁.symm.trans hi)
    obtain ⟨ev₂, hev₂, -, herr⟩ :=
      Props.Event.c68_result_partial tbl x.lookup x.scratch x.task x.call x.extra h.scratch h.comm h.decodable h.getcwd
    obtain rfl : ev₂ = ev₁ := Res.ok.inj (hev₂.symm.trans hi)
    have herr := herr h.result.1 h.result.2
    have hargs : ArgumentsOf x ev'.argv := by
      intro h35 f m hmn hx hs
      obtain ⟨ev₁, v, k1, k2, k3⟩ := Props.Event.c36_decoded_arguments_partial tbl x.lookup x.scratch x.task x.call x.extra
        h.scratch h.comm f m hmn hx hs
      obtain rfl : ev₁ = ev₂ := Res.ok.inj (k1.symm.trans hi)
      obtain ⟨b1, b2, b3⟩ := Props.EventRead.c134_arguments_partial hb x.memory hd (by rw [hnr]; exact h35) hc
        (by rw [hnr]; exact hrec)
      have hmem := lookup_mem k2
      have hf : f ∈ ev'.argv.map (·.1) := by
        rw [b1]; exact List.mem_map.2 ⟨_, hmem, rfl⟩
      obtain ⟨⟨f', v'⟩, hm', hf'⟩ := List.mem_map.1 hf
      have hf' : f' = f := hf'
      subst hf'
      refine ⟨v, v', k3, Lemmas.EventJSON.lookup_of_mem (b1 ▸ b2) hm', ?_⟩
      have := b3 _ _ _ hmem hm'
      rwa [hnr] at this
    obtain ⟨⟨order, ho, hs⟩, hok⟩ := hb
    obtain ⟨fields, hf⟩ := (decodable_iff _).1 h.decodable
    obtain ⟨sc, hsc, hscn⟩ := Lemmas.EventJSON.lookup_decodable ho hs hf
    obtain ⟨name, hname, hlinux⟩ := Props.PrintLine.c93_names_are_linux order ho tbl hs _ sc hsc
    have hnn : errorOf x.call.ret.toInt ≠ -1 := by
      unfold errorOf
      split <;> omega
    obtain ⟨hk1, hk2⟩ := Props.Watch.error_kept hok.errno (errorOf x.call.ret.toInt) hnn
    have e0 : ev'.syscall = some sc := a1.trans (hsys.trans hsc)
    have e1 : fqdn ev'.container = containerName (x.container.map fun k => (k.name, k.pod, k.ns)) := by
      rw [fqdn_eq, ← hcont]
      cases hcc : ev₂.container with
      | none =>
        rw [hcc] at a16
        cases hcc' : ev'.container with
        | none => rfl
        | some c' => rw [hcc'] at a16; exact a16.elim
      | some c =>
        rw [hcc] at a16
        cases hcc' : ev'.container with
        | none => rw [hcc'] at a16; exact a16.elim
        | some c' =>
          rw [hcc'] at a16
          have a16 : Spec.EventRead.SameContainer c c' := a16
          show containerName (some (c'.name, c'.pod, c'.ns)) = containerName (some (c.name, c.pod, c.ns))
          rw [a16.name, a16.pod, a16.ns]
    have e2 : errText ev'.error = verdict (errorOf x.call.ret.toInt == 0) (errnoText (errorOf x.call.ret.toInt)) := by
      rw [Props.Watch.errText_eq, Props.Watch.errnoText_eq, Props.Watch.errnoText_eq, herrs, herr, hk1]
      have : (stringToErrno js.errno (errnoToString (errorOf x.call.ret.toInt)) == 0) =
          (errorOf x.call.ret.toInt == 0) := by
        rw [Bool.eq_iff_iff, beq_iff_eq, beq_iff_eq]
        exact hk2
      rw [this]
    have e3 : itoa ev'.sid = decimal x.task.sid.toInt := by rw [a7, hsid, itoa_eq]
    have e4 : sc.name.toList = "sys_".toList ++ name.toList := by rw [hname, String.toList_append]
    have hline := Props.Watch.watchLine_eq env e0
    generalize hl : _ ++ ['\n'] = line at hline
    refine ⟨line, ev'.argv, ?_, ⟨ev₂.comm, chars ev'.comm, name, errnoText (errorOf x.call.ret.toInt), ?_, hscn ▸ hlinux,
      hcomm, ?_, errorText_ok _⟩, hargs⟩
    · unfold printed
      rw [hrec]
      dsimp only
      rw [hline]
      rfl
    · rw [← hl, e1, e2, e3, e4, hscn]
      simp only [List.append_assoc]
    · intro hu
      rw [a14.2.2 hu]
      rfl

/-- The same of a stream: for any number of ordinary calls the client stays, and the lines it prints are those of the
calls, in their order, one for each that is not refused. -/
theorem c136_stream_partial (env : Env) {tbl : Syscalls.Syscalls} {js : EventJSON.Env} (hb : Built tbl js) :
    ∀ (l : List Traced), (∀ x ∈ l, Ordinary x) →
    ∃ lines : List (List Char), watch js env (l.flatMap (messages tbl js)) = (lines, .going) ∧
      lines.length = (l.filter fun x => ¬ Refused x).length ∧
      ∀ (i : Nat) (x : Traced) (line : List Char), (l.filter fun x => ¬ Refused x)[i]? = some x → lines[i]? = some line →
        ∃ argv, LineFor x (argvText env x.call.nr.toNat argv) line ∧ ArgumentsOf x argv
  | [], _ => ⟨[], rfl, rfl, fun i x line h => by cases h⟩
  | x :: l, h => by
    obtain ⟨lines, h1, h2, h3⟩ := c136_stream_partial env hb l fun y hy => h y (.tail _ hy)
    obtain ⟨text, t1, t2, t3, t4⟩ := c136_line_partial env hb (h x (.head _))
    have hw : watch js env ((x :: l).flatMap (messages tbl js)) = match printed js env text with
        | none => ([], .crashed)
        | some ls => (ls ++ lines, .going) := by
      rw [List.flatMap_cons, t1, List.singleton_append, watch, if_pos t2, h1]
      cases printed js env text <;> rfl
    by_cases hr : Refused x
    · rw [t3 hr] at hw
      rw [List.filter_cons_of_neg (by simpa using hr)]
      exact ⟨lines, hw, h2, h3⟩
    · obtain ⟨line, argv, hp, hl⟩ := t4 hr
      rw [hp] at hw
      rw [List.filter_cons_of_pos (by simpa using hr)]
      refine ⟨line :: lines, hw, by rw [List.length_cons, List.length_cons, h2], ?_⟩
      intro i y line' hy hline
      cases i with
      | zero =>
        injection hy with hy
        injection hline with hline
        subst hy hline
        exact ⟨argv, hl⟩
      | succ i => exact h3 i y line' hy hline

/-- Several endpoints at once, and messages that wait: in every history of `watch` in which the servers send what they send
for ordinary calls (call `i` is `calls i`), as long as the websocket of an endpoint is not ended, the client will have
printed, for the calls sent since it was opened that are not refused, in their order, the lines of these calls. -/
theorem c136_history_partial (env : Env) {tbl : Syscalls.Syscalls} {js : EventJSON.Env} (hb : Built tbl js)
    (calls : Nat → Traced) (ho : ∀ i, Ordinary (calls i))
    (eps : List ClientCmd.Server) (acts : List ClientCmd.WAct) (st : ClientCmd.WSt)
    (hp : ∀ s m, ClientCmd.WAct.publish s m ∈ acts → ∃ i, ∃ text ∈ messages tbl js (calls i), m = seen js i text)
    (h : ClientCmd.wrun (ClientCmd.watchStart eps) acts = some st) (hov : st.over = false) (k : Nat)
    (s : ClientCmd.Server) (hs : eps[k]? = some s) (hc : ClientCmd.WAct.connect k ∈ acts)
    (hh : ClientCmd.WAct.hangup k ∉ acts) :
    (∃ n st', ClientCmd.wrun st (List.replicate n (.read k)) = some st' ∧
      Spec.ClientCmd.shownBy k st'.printed = Spec.ClientCmd.sentTo s k acts) ∧
    (∀ s i, ClientCmd.WAct.publish s (.event i) ∈ acts → ¬ Refused (calls i) ∧
      ∃ text ∈ messages tbl js (calls i), ∃ line argv, printed js env text = some [line] ∧
        LineFor (calls i) (argvText env (calls i).call.nr.toNat argv) line ∧ ArgumentsOf (calls i) argv) ∧
    ∀ s m, ClientCmd.WAct.publish s m ∈ acts → (∀ i, m ≠ .event i) → ∃ i, Refused (calls i) := by
  have hseen : ∀ i, ∀ text ∈ messages tbl js (calls i),
      (Refused (calls i) → seen js i text = .undecodable) ∧ (¬ Refused (calls i) → seen js i text = .event i) := by
    intro i text ht
    obtain ⟨ev, hi, hd, hm, ha, -, hcar⟩ := received_of hb (ho i)
    rw [hm] at ht
    obtain rfl := List.mem_singleton.1 ht
    have hrf := refused_iff hb (ho i) hi hd hcar
    have hnr : (onExit (calls i).scratch (calls i).task (calls i).call).syscall.toNat = (calls i).call.nr.toNat := by
      rw [onExit_syscall]
    have hread := (Props.EventRead.c134_readable_partial hb (calls i).memory hd hcar).1
    rw [hnr] at hread
    unfold seen
    rw [if_pos ha]
    refine ⟨fun hr => by rw [hrf.2 hr], fun hr => ?_⟩
    obtain ⟨ev', hrec⟩ := hread.resolve_right fun he => hr (hrf.1 he)
    rw [hrec]
  refine ⟨?_, ?_, ?_⟩
  · refine Props.ClientCmd.c104_complete_partial eps acts st h hov k s hs hc hh fun s hm => ?_
    obtain ⟨i, text, ht, he⟩ := hp s _ hm
    obtain ⟨h1, h2⟩ := hseen i text ht
    by_cases hr : Refused (calls i)
    · rw [h1 hr] at he; cases he
    · rw [h2 hr] at he; cases he
  · intro s i hm
    obtain ⟨j, text, ht, he⟩ := hp s _ hm
    obtain ⟨h1, h2⟩ := hseen j text ht
    by_cases hr : Refused (calls j)
    · rw [h1 hr] at he; cases he
    · rw [h2 hr] at he
      injection he with he
      subst he
      obtain ⟨text', t1, -, -, t4⟩ := c136_line_partial env hb (ho i)
      rw [t1]
      obtain ⟨line, argv, hl⟩ := t4 hr
      exact ⟨hr, text', .head _, line, argv, hl⟩
  · intro s m hm hne
    obtain ⟨i, text, ht, he⟩ := hp s m hm
    by_cases hr : Refused (calls i)
    · exact ⟨i, hr⟩
    · exact absurd (he.trans ((hseen i text ht).2 hr)) (hne i)

/-- VIOLATED for any text that is no event: after it nothing more is printed, whatever is sent. -/
theorem c136_crash_violated (env : Env) (js : EventJSON.Env) (rest : List Str) :
    watch js env ("{}".toList :: rest) = ([], .crashed) ∧ watch js env ("null".toList :: rest) = ([], .crashed) := by
  have h1 : printed js env "{}".toList = none := by
    unfold printed
    rw [Props.EventRead.c135_object_violated (l := []) (Lemmas.EventRead.only_empty) (by simp)]
  have h2 : printed js env "null".toList = none := by
    unfold printed
    rw [Props.EventRead.c135_null_violated]
  constructor
  · rw [watch, if_pos (by decide), h1]
  · rw [watch, if_pos (by decide), h2]

/-! ### Cases that meet the hypotheses -/

open Swoll.Props.Event (sampleScratch sampleScratch_wf sampleTask sampleCall)

/-- A call to kill in a container. -/
def someCall : Traced where
  task := sampleTask
  call := sampleCall nr.sys_kill
  lookup := some fun _ => some ⟨"c1", "web-0", "s1", "nginx", "nginx:1.19", "default", some [("app", "web")], 4242, 4026531836⟩
  scratch := sampleScratch
  extra := []
  memory := ⟨fun _ => 0, fun _ _ => []⟩

theorem someCall_ordinary : Ordinary someCall where
  scratch := sampleScratch_wf
  comm := rfl
  decodable := by decide +kernel
  getcwd := by decide
  result := by decide
  sizes := by decide
  size := by decide
  length := by decide
  container c hc := by
    injection hc with hc
    subst hc
    refine ⟨⟨?_, ?_, by decide, by decide⟩, by decide⟩
    · unfold Spec.EventText.strings Spec.EventText.Printable
      decide +kernel
    · decide +kernel

example : ¬ Refused someCall := by decide +kernel

/-- An option of IPv6. -/
example : ∃ x, Ordinary x ∧ Refused x :=
  ⟨{ someCall with call := { sampleCall nr.sys_setsockopt with args := fun k => if k = 1 then 41 else if k = 2 then 26 else 0 } },
    ⟨sampleScratch_wf, rfl, by decide +kernel, by decide, by decide, by decide, by decide, by decide, someCall_ordinary.container⟩,
    by decide +kernel⟩

/-- A history of two endpoints. -/
example : ∃ tbl acts st, Built tbl Props.EventJSON.someEnv ∧
    (∀ s m, ClientCmd.WAct.publish s m ∈ acts →
      ∃ i, ∃ text ∈ messages tbl Props.EventJSON.someEnv someCall, m = seen Props.EventJSON.someEnv i text) ∧
    ClientCmd.wrun (ClientCmd.watchStart [1, 2]) acts = some st ∧ st.over = false ∧
    ClientCmd.WAct.connect 0 ∈ acts ∧ ClientCmd.WAct.hangup 0 ∉ acts ∧
    Spec.ClientCmd.sentTo 1 0 acts = [3, 4] := by
  obtain ⟨tbl, hb⟩ := Props.EventJSON.built_exists
  obtain ⟨ev, hi, hd, hm, ha, -, hcar⟩ := received_of hb someCall_ordinary
  have hrf := refused_iff hb someCall_ordinary hi hd hcar
  have hread := (Props.EventRead.c134_readable_partial hb someCall.memory hd hcar).1
  have hnr : (onExit someCall.scratch someCall.task someCall.call).syscall.toNat = someCall.call.nr.toNat := by
    rw [onExit_syscall]
  rw [hnr] at hread
  obtain ⟨ev', hrec⟩ := hread.resolve_right fun he => absurd (hrf.1 he) (by decide +kernel)
  have hseen : ∀ i, seen Props.EventJSON.someEnv i (message Props.EventJSON.someEnv someCall.memory someCall.call.nr.toNat ev) =
      .event i := by
    intro i
    unfold seen
    rw [if_pos ha, hrec]
  refine ⟨tbl, [.listen, .publish 1 (.event 2), .connect 0, .publish 1 (.event 3), .publish 2 (.event 7),
    .publish 1 (.event 4), .read 0], _, hb, ?_, rfl, rfl, by simp, by simp, by decide⟩
  intro s m hmem
  have : ∃ i, m = .event i := by
    simp only [List.mem_cons, List.not_mem_nil, or_false, reduceCtorEq, false_or, ClientCmd.WAct.publish.injEq] at hmem
    rcases hmem with ⟨-, rfl⟩ | ⟨-, rfl⟩ | ⟨-, rfl⟩ | ⟨-, rfl⟩ <;> exact ⟨_, rfl⟩
  obtain ⟨i, rfl⟩ := this
  exact ⟨i, _, by rw [hm]; exact .head _, (hseen i).symm⟩

end Swoll.Props.WatchStream
