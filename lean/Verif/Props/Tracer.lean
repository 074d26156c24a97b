import Verif.Lemmas.TracerServe
/-
C109–C111: what `swoll trace` prints for containers, that it prints all of it, and that it goes on.
-/
namespace Swoll.Props.Tracer
open Swoll Swoll.Tracer
open Swoll.Daemon (Daemon Delivery)
open Swoll.Event (TraceEvent)
open Swoll.Host (Format)
open Swoll.Hash (crcString)
open Swoll.Spec.Hub (TableOK)
open Swoll.Spec.Daemon (TrueOf Made Reports ReportsExec containerOf BeginsCallOf Covers Disturbs Served Delivered)
open Swoll.Spec.Tracer
open Swoll.Lemmas.Tracer (Printed prefix_run printed_run printed_delivered delivered_wanted handed_once run_append
  like_history like_run like_step like_move prelude tr tr_sane tr_placed tr_numbered prelude_ok log_sane log_once log_users
  apart_free regs_run removing_run log_run log_outside outsides shown_lines covered attached_log served_printed showMsg_some lines_some
  move_out other_run)

variable {tbl : Syscalls.Syscalls} {crc : String → BitVec 64} {srt : List PubSub.Env → List PubSub.Env}
variable {fmt : Format} {json : TraceEvent Topology.Container → List Char}

/-! ### C109: every line is true -/

/-- C109 (partial): whatever `swoll trace` prints, in whatever format, whatever happened, is a sequence of lines each of which
shows an event that truly reports a call: a call some thread made, of a system call that was asked for, in a
container the observer had announced to the job; the container shown is the one that lived in that namespace when
the call was decoded.  The lines are in the order in which the calls ended, and two lines about the same call show
the same event.  Missing: the fields that events misreport (C36, C39, C76). -/
theorem c109_true_partial (hsrt : PubSub.Node.IsSort srt) {id : String} {given : List String} {ops : List Op} {t : Tracer}
    (h : run tbl crcString srt fmt json (start tbl id given) ops = some t) (hs : ∀ o ∈ ops, Sane o) :
    ∃ ls : List Line, t.out.map some = ls.map (fun x => showMsg fmt x.env json x.ev) ∧
      (∀ x ∈ ls, TrueOf tbl t.log x.call x.ev ∧ Announced ops x.ev.pidNs ∧
        (∃ i co, x.call < i ∧ t.log[i]? = some .ingest ∧ containerOf (t.log.take i) x.ev.pidNs = some co ∧
          x.ev.container = some co.copy) ∧
        ∃ sc, x.ev.syscall = some sc ∧ Named tbl given sc.nr) ∧
      ls.Pairwise (fun x y => x.call ≤ y.call ∧ (x.call = y.call → x.ev = y.ev)) := by
  obtain ⟨sh, call, hp, h1, h2⟩ := shown_lines hsrt h hs
  refine ⟨sh.map (fun x => ⟨call x.k, x.del.2, x.env⟩), ?_, ?_, ?_⟩
  · rw [hp.text, List.map_map]; rfl
  · intro x hx
    obtain ⟨y, hy, rfl⟩ := List.mem_map.1 hx
    exact h1 y hy
  · rw [List.pairwise_map]
    refine (List.Pairwise.and hp.sorted h2).imp ?_
    rintro x y ⟨hle, hlt, heq⟩
    rcases Nat.lt_or_eq_of_le hle with hk | hk
    · have := hlt hk
      exact ⟨Nat.le_of_lt this, fun e => absurd e (Nat.ne_of_lt this)⟩
    · exact ⟨by rw [hk]; exact Nat.le_refl _, fun _ => heq hk⟩

/-- C109: the calls, containers and steps of the hub that the daemon went through are those of the history, in
order. -/
theorem c109_history {id : String} {given : List String} {ops : List Op} {t : Tracer}
    (h : run tbl crc srt fmt json (start tbl id given) ops = some t) :
    t.log.filter Service.isOutside = ops.filterMap (fun op => match op with
      | .outside o _ => if Service.isOutside o then some o else none
      | _ => none) := log_outside h

/-- C109: for the format `cli` the line is the time the call took, the container, the command, the error, the name of
the call and its arguments, of that event. -/
theorem c109_cli {env : Print.Env} {ev : TraceEvent Topology.Container} {line : List Char}
    (h : showMsg .cli env json ev = some line) :
    ∃ sc name as, ev.syscall = some sc ∧ Print.callName sc.nr = some name ∧ Print.arguments env sc.nr ev.argv = some as ∧
      line = ['('] ++ Print.latencyText ev.start ev.finish ++ "ms) ".toList ++
        (Print.padLeft 35 (Print.fqdn ev.container).length (Print.fqdn ev.container) ++ ": [".toList ++
          Print.padLeft 9 (Print.runes ev.comm) (Print.chars ev.comm) ++ "] (".toList) ++
        Print.padLeft 11 (Print.errnoText ev.error).length (Print.errnoText ev.error) ++ ") ".toList ++ name.toList ++
        ['('] ++ Print.argsText as := by
  simp only [showMsg] at h
  split at h
  · cases h
  · rename_i sc hsc
    unfold Print.cliLine at h
    split at h
    · rename_i name as h1 h2
      injection h with h
      exact ⟨sc, name, as, hsc, h1, h2, h.symm⟩
    · cases h

/-! ### C110: every call once -/

/-- C110 (partial): if the names given stand for different calls, and the observer announces each namespace once,
no call is printed twice.  Missing: names that stand for the same call, and containers that are announced again
(`c110_once_violated`). -/
theorem c110_once_partial (hsrt : PubSub.Node.IsSort srt) {id : String} (hid : id ≠ "") {given : List String}
    {ops : List Op} {t : Tracer} (h : run tbl crcString srt fmt json (start tbl id given) ops = some t)
    (hs : ∀ o ∈ ops, Sane o) (ha : Apart tbl given) (hn : (announced ops).Nodup) :
    ∃ ls : List Line, t.out.map some = ls.map (fun x => showMsg fmt x.env json x.ev) ∧
      (∀ x ∈ ls, TrueOf tbl t.log x.call x.ev) ∧ ls.Pairwise (fun x y => x.call < y.call) := by
  obtain ⟨sh, call, hp, h1, h2⟩ := shown_lines hsrt h hs
  refine ⟨sh.map (fun x => ⟨call x.k, x.del.2, x.env⟩), ?_, ?_, ?_⟩
  · rw [hp.text, List.map_map]; rfl
  · intro x hx
    obtain ⟨y, hy, rfl⟩ := List.mem_map.1 hx
    exact (h1 y hy).1
  · rw [List.pairwise_map]
    have hlen : ∀ k, (sh.filter (fun x => x.k = k)).length ≤ 1 := by
      intro k
      by_cases hk : k < t.log.length
      · have hl := hp.logged
        rw [← List.take_append_drop k t.log] at hl
        obtain ⟨d, g1, g2⟩ := Lemmas.Daemon.run_split hl
        rw [List.drop_eq_getElem_cons hk] at g2
        obtain ⟨d', out, g3, -⟩ := Lemmas.Daemon.run_cons_some g2
        have := hp.at_ k _ d d' out (List.getElem?_eq_getElem hk) g1 g3
        have hle := handed_once hsrt hid h hs ha hn (List.getElem?_eq_getElem hk) g1 g3
        rw [← this, List.length_map] at hle
        exact hle
      · have : sh.filter (fun x => x.k = k) = [] := by
          rw [List.filter_eq_nil_iff]
          intro x hx
          have := hp.below x hx
          simp only [decide_eq_true_eq]
          omega
        rw [this]; simp
    have hne : sh.Pairwise (fun x y => x.k ≠ y.k) := by
      clear h1 h2 hp
      induction sh with
      | nil => exact .nil
      | cons a sh ih =>
        refine List.Pairwise.cons ?_ (ih ?_)
        · intro b hb e
          have := hlen a.k
          rw [List.filter_cons_of_pos (by simp)] at this
          have hpos : 0 < (sh.filter (fun x => x.k = a.k)).length :=
            List.length_pos_of_mem (List.mem_filter.2 ⟨hb, by simp [e]⟩)
          simp only [List.length_cons] at this
          omega
        · intro k
          refine Nat.le_trans ?_ (hlen k)
          rw [List.filter_cons]
          split
          · exact Nat.le_succ _
          · exact Nat.le_refl _
    refine ((List.Pairwise.and hp.sorted h2).and hne).imp ?_
    rintro x y ⟨⟨hle, hlt, -⟩, hne⟩
    exact hlt (by omega)

/-- C110 (partial): the observer announces a container to the job; the job registers for it and is refused nothing;
the callback is attached.  Then a thread in that container makes a call of a kind that was asked for, other than
execve.  When the queues of the daemon are empty again the call has been decoded, and if a container was known in
the namespace at that time, a line that shows what the call did has been printed.  Missing: rules the kernel
refuses; calls made before the container is known or while it stops; what the kernel loses (C77). -/
theorem c110_complete_partial (hT : TableOK tbl) (hsrt : PubSub.Node.IsSort srt) {id : String} (hid : id ≠ "")
    {given : List String} {pre mid post : List Op} {s y z : Tracer} {co : Topology.Container}
    (hs : run tbl crcString srt fmt json (start tbl id given) pre = some s) (hi : s.proc.todo = [])
    (hpos : 0 < co.pidns) (hy : run tbl crcString srt fmt json s (.notice (some ⟨0, some co⟩) :: mid) = some y)
    (hf : ∀ f, .work f ∈ mid → f = {}) (hdone : y.proc.todo = []) (hat : y.attached = true)
    (hz : run tbl crcString srt fmt json y post = some z) (hidle : z.daemon.ring = [] ∧ z.daemon.msg = none)
    (hops : ∀ op ∈ pre ++ .notice (some ⟨0, some co⟩) :: mid ++ post, Sane op ∧ Numbered op)
    (hstop : ∀ c, .notice (some ⟨1, some c⟩) ∈ mid ++ post → c.pidns ≠ co.pidns)
    {e : Nat} {before : List Daemon.Op} {t0 t : Event.Task} {call : Event.Call} {scratch : Event.KEvent}
    (hm : Made z.log e before t0 t call scratch) (hpre : y.log <+: before)
    (hone : ∀ o ∈ (z.log.take e).drop (before.length + 1), ¬ BeginsCallOf t.tgid t.pid o)
    (hns : t0.pidNs = t.pidNs) (hco : (t.pidNs.toNat : Int) = co.pidns) (hne : call.nr ≠ 59)
    (hdec : call.nr.toNat ∈ Spec.Event.decodable) (hnamed : Named tbl given call.nr.toNat) :
    ∃ i, e < i ∧ z.log[i]? = some .ingest ∧ ∀ c, containerOf (z.log.take i) t.pidNs.toNat = some c →
      ∃ ev env line, Reports tbl t call ev ∧ ev.container = some c.copy ∧
        showMsg fmt env json ev = some line ∧ line ∈ z.out := by
  obtain ⟨name, hname, sc, hl, hnr⟩ := hnamed
  have hfull : run tbl crcString srt fmt json (start tbl id given) (pre ++ .notice (some ⟨0, some co⟩) :: mid ++ post) = some z := by
    rw [run_append, run_append, hs]
    simp only [Option.bind_some, hy, hz]
  have hb : z.log.take e = before ++ (z.log.take e).drop before.length := by
    obtain ⟨_, _, _, _, _, q, _⟩ := hm
    rw [q, List.drop_left]
  have hbz : before <+: z.log := by
    refine List.IsPrefix.trans ⟨_, hb.symm⟩ (List.take_prefix _ _)
  obtain ⟨hcov, hdel⟩ := covered hT hs hi hpos hy hf hdone hz (fun o ho => (hops o ho).2) hstop hname hl hpre hbz
  rw [← hco, hnr] at hcov
  obtain ⟨sops, s', g1, g2, g3⟩ := like_history hfull
  have hpairs := (Lemmas.Service.pairs_run hT g1 (by
    intro o ho
    rcases List.mem_append.1 ho with ho | ho
    · exact (prelude_ok ho).2.2
    · obtain ⟨op, q1, b, q2⟩ := g3 o ho
      exact tr_numbered q2 (hops op q1).2)).2
  rw [g2.log] at hpairs
  have hlog := (printed_run hfull).choose_spec.logged
  have hsv := Props.Daemon.c77_complete_partial hT hsrt hlog hidle (log_once hfull)
    (log_sane hfull (fun o ho => (hops o ho).1)) hpairs hm hone hns hne hdec
    (by rw [← hnr]; exact (hT.1 _ _ hl).1) hcov hdel
  refine served_printed hid hfull ?_ hsv
  have hysub : run tbl crcString srt fmt json (start tbl id given) (pre ++ .notice (some ⟨0, some co⟩) :: mid) = some y := by
    rw [run_append, hs]; exact hy
  obtain ⟨draw, hd⟩ := (attached_log hysub).1 hat
  refine ⟨draw, ?_⟩
  rw [hb]
  exact List.mem_append_left _ (hpre.subset hd)

/-- C110 (partial): the same for execve, which is what is traced if no names are given. -/
theorem c110_execve_partial (hT : TableOK tbl) (hsrt : PubSub.Node.IsSort srt) {id : String} (hid : id ≠ "")
    {given : List String} {pre mid post : List Op} {s y z : Tracer} {co : Topology.Container}
    (hs : run tbl crcString srt fmt json (start tbl id given) pre = some s) (hi : s.proc.todo = [])
    (hpos : 0 < co.pidns) (hy : run tbl crcString srt fmt json s (.notice (some ⟨0, some co⟩) :: mid) = some y)
    (hf : ∀ f, .work f ∈ mid → f = {}) (hdone : y.proc.todo = []) (hat : y.attached = true)
    (hz : run tbl crcString srt fmt json y post = some z) (hidle : z.daemon.ring = [] ∧ z.daemon.msg = none)
    (hops : ∀ op ∈ pre ++ .notice (some ⟨0, some co⟩) :: mid ++ post, Sane op ∧ Numbered op)
    (hstop : ∀ c, .notice (some ⟨1, some c⟩) ∈ mid ++ post → c.pidns ≠ co.pidns)
    {e : Nat} {t : Event.Task} {time : BitVec 64} {mem : Event.Mem} {filename argv : BitVec 64} {scratch : Event.KEvent}
    (hm : z.log[e]? = some (.execve t time mem filename argv (some scratch) false)) (hpre : y.log.length ≤ e)
    (hco : (t.pidNs.toNat : Int) = co.pidns) (hnamed : Named tbl given 59) :
    ∃ i, e < i ∧ z.log[i]? = some .ingest ∧ ∀ c, containerOf (z.log.take i) t.pidNs.toNat = some c →
      ∃ ev env line, ReportsExec tbl t time mem filename ev ∧ ev.container = some c.copy ∧
        showMsg fmt env json ev = some line ∧ line ∈ z.out := by
  obtain ⟨name, hname, sc, hl, hnr⟩ := hnamed
  have hfull : run tbl crcString srt fmt json (start tbl id given) (pre ++ .notice (some ⟨0, some co⟩) :: mid ++ post) = some z := by
    rw [run_append, run_append, hs]
    simp only [Option.bind_some, hy, hz]
  have hlt := (List.getElem?_eq_some_iff.1 hm).1
  have hb : y.log <+: z.log.take e := by
    obtain ⟨more, e1⟩ := log_run hz
    refine ⟨more.take (e - y.log.length), ?_⟩
    rw [e1, List.take_append, List.take_of_length_le hpre]
  obtain ⟨hcov, hdel⟩ := covered hT hs hi hpos hy hf hdone hz (fun o ho => (hops o ho).2) hstop hname hl hb (List.take_prefix _ _)
  rw [← hco, hnr] at hcov
  obtain ⟨sops, s', g1, g2, g3⟩ := like_history hfull
  have hpairs := (Lemmas.Service.pairs_run hT g1 (by
    intro o ho
    rcases List.mem_append.1 ho with ho | ho
    · exact (prelude_ok ho).2.2
    · obtain ⟨op, q1, b, q2⟩ := g3 o ho
      exact tr_numbered q2 (hops op q1).2)).2
  rw [g2.log] at hpairs
  have hlog := (printed_run hfull).choose_spec.logged
  have hlen : (z.log.take e).length = e := by rw [List.length_take]; omega
  rw [hlen] at hdel
  have hsv := Props.Daemon.c77_execve_partial hT hsrt hlog hidle (log_once hfull)
    (log_sane hfull (fun o ho => (hops o ho).1)) hpairs hm
    (by have := (hT.1 _ _ hl).1; rw [hnr] at this; exact this) hcov hdel
  refine served_printed hid hfull ?_ hsv
  have hysub : run tbl crcString srt fmt json (start tbl id given) (pre ++ .notice (some ⟨0, some co⟩) :: mid) = some y := by
    rw [run_append, hs]; exact hy
  obtain ⟨draw, hd⟩ := (attached_log hysub).1 hat
  exact ⟨draw, hb.subset hd⟩

/-! ### C111: it goes on -/

/-- C111 (partial): if every name given is one of a call that can be decoded, nothing that happens ends the program.
Missing: other names, which are not rejected (`c111_unknown_violated`, `c111_undecodable_violated`). -/
theorem c111_survives_partial (hsrt : PubSub.Node.IsSort srt) (hT : TableOK tbl) {id : String} {given : List String}
    (hd : Decodable tbl given) (ops : List Op) (hs : ∀ o ∈ ops, Sane o) (hp : ∀ o ∈ ops, Placed o) :
    run tbl crcString srt fmt json (start tbl id given) ops ≠ none := by
  suffices H : ∀ (ys xs : List Op) (t : Tracer), ops = xs ++ ys → run tbl crcString srt fmt json (start tbl id given) xs = some t →
      run tbl crcString srt fmt json t ys ≠ none from H ops [] _ rfl rfl
  intro ys
  induction ys with
  | nil => intro xs t _ _ h; cases h
  | cons op ys ih =>
    intro xs t he hx h
    have hin : ∀ o ∈ xs ++ [op], o ∈ ops := by
      intro o ho; rw [he]
      rcases List.mem_append.1 ho with ho | ho
      · exact List.mem_append_left _ ho
      · rw [List.mem_singleton] at ho; subst ho; simp
    -- the server survives the same operation
    have hmove : ∃ t1 ds, move tbl crcString srt t op = some (t1, ds) := by
      cases hm : move tbl crcString srt t op with
      | some r => exact ⟨r.1, r.2, rfl⟩
      | none =>
        exfalso
        obtain ⟨sops, s, g1, g2, g3⟩ := like_history hx
        have hnone := (like_move (tbl := tbl) (crc := crcString) (srt := srt) g2 op).1 hm
        have hall : ∀ o ∈ prelude id given ++ sops ++ tr id t.attached op, Spec.Service.Sane o ∧ Spec.Service.Placed o := by
          intro o ho
          rcases List.mem_append.1 ho with ho | ho
          · rcases List.mem_append.1 ho with ho | ho
            · exact ⟨(prelude_ok ho).1, (prelude_ok ho).2.1⟩
            · obtain ⟨op', q1, b, q2⟩ := g3 o ho
              exact ⟨tr_sane q2 (hs op' (hin op' (by simp [q1]))), tr_placed q2 (hp op' (hin op' (by simp [q1])))⟩
          · exact ⟨tr_sane ho (hs op (hin op (by simp))), tr_placed ho (hp op (hin op (by simp)))⟩
        have hreq : Spec.Service.requests (prelude id given ++ sops ++ tr id t.attached op) =
            [{ hosts := [], calls := Host.namesOf given, rate := 0 }] := by
          have hno : ∀ b op', Spec.Service.requests (tr id b op') = [] := by
            intro b op'
            cases op' with
            | attach d => simp only [tr]; split <;> rfl
            | _ => rfl
          have hno' : Spec.Service.requests sops = [] := by
            unfold Spec.Service.requests
            rw [List.filterMap_eq_nil_iff]
            intro o ho
            obtain ⟨op', -, b, q2⟩ := g3 o ho
            have := hno b op'
            unfold Spec.Service.requests at this
            rw [List.filterMap_eq_nil_iff] at this
            exact this o q2
          have happ : ∀ a b, Spec.Service.requests (a ++ b) = Spec.Service.requests a ++ Spec.Service.requests b := by
            intro a b; unfold Spec.Service.requests; exact List.filterMap_append
          rw [happ, happ, hno', hno]
          rfl
        refine Props.Serving.c86_survives_partial (crc := crcString) hsrt hT (prelude id given ++ sops ++ tr id t.attached op)
          (fun o ho => (hall o ho).1) (fun o ho => (hall o ho).2) ?_ ?_ ?_
        · intro b hb name hname
          rw [hreq, List.mem_singleton] at hb
          subst hb
          exact hd name hname
        · intro i j b c hi hj hb
          rw [hreq] at hi
          have := List.mem_of_getElem? hi
          rw [List.mem_singleton] at this
          subst this
          exact absurd hb (Int.lt_irrefl 0)
        · rw [Lemmas.Service.run_append, g1]; exact hnone
    obtain ⟨t1, ds, hm⟩ := hmove
    -- what it hands out can be printed
    have hstep : ∃ t2, step tbl crcString srt fmt json t op = some t2 := by
      unfold step
      rw [hm]
      dsimp only
      split
      · rename_i o env
        have hprint : ∀ d ∈ ds, ∃ x, showMsg fmt env json d.2 = some x := by
          intro d hdd
          cases hfmt : fmt with
          | json => exact ⟨_, rfl⟩
          | other => exact ⟨_, rfl⟩
          | cli =>
            -- the same step of a tracer that prints nothing
            cases Lemmas.Tracer.move_goes hm with
            | idle => cases hdd
            | outside _ _ d' out ho hstep =>
              obtain ⟨x, y, hgo⟩ : ∃ x y, (x, y) = d := ⟨d.1, d.2, rfl⟩
              subst hgo
              have hlogd := (printed_run hx).choose_spec.logged
              obtain ⟨ls0, hx'⟩ := other_run hx
              have hs' : ∃ t2, run tbl crcString srt .other json (start tbl id given) (xs ++ [.outside o env]) = some t2 ∧ t2.log = t.log ++ [o] := by
                obtain ⟨ls, hls⟩ := lines_some (fmt := .other) (json := json) (env := env) (ds := ds) (fun d _ => ⟨_, rfl⟩)
                refine ⟨{ t with daemon := d', log := t.log ++ [o], out := ls0 ++ ls }, ?_, rfl⟩
                rw [run_append, hx']
                simp only [Option.bind_some, run, step, move_out, hm, hls, Option.map_some]
              obtain ⟨t2, r1, r2⟩ := hs'
              have hdel : Delivered tbl crcString srt t2.log t.log.length x y := by
                rw [r2]
                exact ⟨o, t.daemon, d', ds, by simp, by rw [List.take_left]; exact hlogd, hstep, hdd⟩
              obtain ⟨-, -, c, sc, -, hsc, name, hn, sc', hl, hnr⟩ := delivered_wanted hsrt r1
                (fun o ho => hs o (hin o ho)) hdel
              obtain ⟨sc'', hl', hdec⟩ := hd name hn
              rw [hl] at hl'
              injection hl' with hl'
              subst hl'
              rw [hnr] at hdec
              exact showMsg_some hsc hdec env
        obtain ⟨ls, hls⟩ := lines_some hprint
        exact ⟨_, by rw [hls]; rfl⟩
      · exact ⟨_, rfl⟩
    obtain ⟨t2, ht2⟩ := hstep
    simp only [run, ht2] at h
    refine ih (xs ++ [op]) t2 (by rw [he]; simp) ?_ h
    rw [run_append, hx]
    simp only [Option.bind_some, run, ht2]

/-- C111 violated: names are not checked when the program starts.  Whatever has happened, if the first name is
unknown, the next container ends the program. -/
theorem c111_unknown_violated {id : String} {given : List String} {ops : List Op} {t : Tracer}
    (h : run tbl crc srt fmt json (start tbl id given) ops = some t) (hi : t.proc.todo = []) {name : String}
    {rest : List String} (hc : names given = name :: rest) (hl : Syscalls.lookup tbl (.str name) = none)
    {c : Topology.Container} (hpos : 0 < c.pidns) :
    run tbl crc srt fmt json t [.notice (some ⟨0, some c⟩), .work {}] = none := by
  have hspec := (regs_run h).spec
  have hneg : ¬ c.pidns ≤ 0 := by omega
  obtain ⟨more, hacts⟩ : ∃ more, Service.acts tbl t.proc.spec ⟨Topology.typeStart, c, GoMap.set t.proc.cache c.pidns c⟩ = .crash :: more := by
    unfold Service.acts
    rw [if_neg (show ¬ Topology.typeStart = Topology.typeStop by decide), if_pos rfl, hspec]
    have : (spec id given).calls = name :: rest := hc
    simp only [this, List.flatMap_cons, Service.startActs, hl]
    exact ⟨_, rfl⟩
  have hpe : Topology.processEvent true t.proc.cache (some ⟨0, some c⟩) =
      (GoMap.set t.proc.cache c.pidns c, [⟨Topology.typeStart, c, GoMap.set t.proc.cache c.pidns c⟩], none) := by
    simp only [Topology.processEvent, if_neg hneg]
    rfl
  have h1 : step tbl crc srt fmt json t (.notice (some ⟨0, some c⟩)) =
      some { t with proc := ⟨t.proc.spec, GoMap.set t.proc.cache c.pidns c, .crash :: more⟩ } := by
    simp only [step, move, hi, hpe, List.flatMap_cons, List.flatMap_nil, List.append_nil, hacts]
  simp only [run, h1]
  rfl

/-- C111 violated: an `--output` that is neither `cli` nor `json` is not rejected; nothing is ever printed. -/
theorem c111_format_violated {id : String} {given : List String} {ops : List Op} {t : Tracer}
    (h : run tbl crc srt .other json (start tbl id given) ops = some t) : t.out.flatten = [] := by
  obtain ⟨sh, hp⟩ := printed_run h
  rw [List.flatten_eq_nil_iff]
  intro l hl
  have := List.mem_map_of_mem (f := some) hl
  rw [hp.text] at this
  obtain ⟨x, -, e⟩ := List.mem_map.1 this
  simp only [showMsg, Option.some.injEq] at e
  exact e.symm

/-! ### Histories that meet the hypotheses -/

open Swoll.Props.Hub (demoTbl demo_ok)
open Swoll.Props.Daemon (web calm)
open Swoll.Props.Event (sampleTask sampleScratch sampleScratch_wf sampleMem)
open Swoll.Props.PubSub (isort isort_isSort)
open Swoll.Props.Print (sampleEnv)
open Swoll.Props.Service (of_facts)

/-- Something happens outside. -/
def out (o : Daemon.Op) : Op := .outside o sampleEnv

/-- The container starts and the job registers for it; the callback is attached. -/
def opening : List Op :=
  [.notice (some ⟨0, some web⟩), .work {}, .work {}, out (.topo (some ⟨0, some web⟩)), out (.act {}), .attach 9]

/-- The container calls `openat`. -/
def calling : List Op :=
  [out (.enter sampleTask 257 1 1 [1, 2, 3] false),
   out (.exit sampleTask 257 3 1 2 sampleMem (some sampleScratch) false), out .ingest, out (.route calm)]

def tale : List Op := opening ++ calling

/-- What is printed as JSON, for these examples: the number of the call. -/
def brief (ev : TraceEvent Topology.Container) : List Char := (toString ev.pidNs).toList

theorem tale_ok : ∀ o ∈ tale, Sane o ∧ Placed o ∧ Numbered o := by
  intro o ho
  simp only [tale, opening, calling, out, List.mem_append, List.mem_cons, List.not_mem_nil, or_false] at ho
  have h16 : sampleTask.comm.length = 16 := by decide
  have hns : sampleTask.pidNs ≠ 0 := by decide
  have hwf : ∀ s, some sampleScratch = some s → s.WF := by
    intro s e; injection e with e; subst e; exact sampleScratch_wf
  have hcalm : ∀ i, (calm i).Valid := fun _ _ m => List.Perm.refl m
  rcases ho with (rfl | rfl | rfl | rfl | rfl | rfl) | (rfl | rfl | rfl | rfl)
  all_goals first
    | exact ⟨trivial, trivial, trivial⟩
    | exact ⟨trivial, trivial, fun _ => by decide⟩
    | exact ⟨trivial, hns, trivial⟩
    | exact ⟨⟨h16, hwf⟩, trivial, trivial⟩
    | exact ⟨hcalm, trivial, trivial⟩

/-- `c109_true_partial`, `c110_once_partial` and `c111_survives_partial`: the tale meets the hypotheses, and one line is
printed. -/
example : (run demoTbl crcString isort .json brief (start demoTbl "a" ["openat"]) tale).map (fun t => t.out.length) = some 1 ∧
    (∀ o ∈ tale, Sane o) ∧ Apart demoTbl ["openat"] ∧ (announced tale).Nodup ∧ Decodable demoTbl ["openat"] := by
  refine ⟨by decide +kernel, fun o ho => (tale_ok o ho).1, by unfold Apart; decide, by decide, ?_⟩
  intro name hn
  have : name = "openat" := by simpa [names] using hn
  subst this
  exact ⟨⟨257, "sys_openat", "FileSystem", "Files"⟩, by decide, by decide +kernel⟩

/-- The line itself. -/
example : (run demoTbl crcString isort .cli brief (start demoTbl "a" ["openat"]) tale).map (fun t => t.out.length) = some 1 := by
  decide +kernel

/-- C110 violated: the same call named twice, or the same container announced twice, and every call is printed
twice. -/
theorem c110_once_violated :
    (run demoTbl crcString isort .json brief (start demoTbl "a" ["openat", "sys_openat"])
      ([.notice (some ⟨0, some web⟩), .work {}, .work {}, .work {}, .work {}, out (.topo (some ⟨0, some web⟩)), out (.act {}), .attach 9] ++
        calling)).map (fun t => (t.out.length, t.log.countP (fun o => match o with | .exit .. => true | _ => false))) = some (2, 1) ∧
    (run demoTbl crcString isort .json brief (start demoTbl "a" ["openat"])
      ([.notice (some ⟨0, some web⟩), .work {}, .work {}] ++ tale)).map
        (fun t => (t.out.length, t.log.countP (fun o => match o with | .exit .. => true | _ => false))) = some (2, 1) := by
  exact ⟨by decide +kernel, by decide +kernel⟩

/-- C111 violated: a name of a call that cannot be decoded is accepted, and the first such call ends the program. -/
theorem c111_undecodable_violated :
    ∃ tbl : Syscalls.Syscalls, Syscalls.lookup tbl (.str "getpid") = some ⟨39, "sys_getpid", "", ""⟩ ∧
    (run tbl crcString isort .json brief (start tbl "a" ["getpid"])
      (opening ++ [out (.enter sampleTask 39 1 1 [] false),
        out (.exit sampleTask 39 100 1 2 sampleMem (some sampleScratch) false)])).isSome = true ∧
    (run tbl crcString isort .json brief (start tbl "a" ["getpid"])
      (opening ++ [out (.enter sampleTask 39 1 1 [] false),
        out (.exit sampleTask 39 100 1 2 sampleMem (some sampleScratch) false), out .ingest])).isNone = true := by
  exact ⟨⟨[(39, ⟨39, "sys_getpid", "", ""⟩)], [("sys_getpid", ⟨39, "sys_getpid", "", ""⟩)]⟩, by decide, by decide +kernel,
    by decide +kernel⟩

/-- `c111_unknown_violated`, on a history: nothing is wrong until a container starts. -/
example : (run demoTbl crcString isort .cli brief (start demoTbl "a" ["opneat"]) [.attach 9]).isSome = true ∧
    Syscalls.lookup demoTbl (.str "opneat") = none ∧
    (run demoTbl crcString isort .cli brief (start demoTbl "a" ["opneat"])
      [.attach 9, .notice (some ⟨0, some web⟩), .work {}]).isNone = true := by
  exact ⟨by decide +kernel, by decide, by decide +kernel⟩

def openLog : List Daemon.Op :=
  [.push ⟨0, "a", 0⟩ 4026531836 257, .addSyscall (.int 257) 4026531836 {}, .topo (some ⟨0, some web⟩), .act {},
   .attachTrace "a" 9]

def callLog : List Daemon.Op :=
  [.enter sampleTask 257 1 1 [1, 2, 3] false, .exit sampleTask 257 3 1 2 sampleMem (some sampleScratch) false,
   .ingest, .route calm]

set_option maxRecDepth 1000000 in
theorem open_log : (run demoTbl crcString isort .json brief (start demoTbl "a" ["openat"]) opening).map (·.log) = some openLog := by rfl

theorem log_outs : ∀ {xs : List Daemon.Op} {t t' : Tracer}, (∀ o ∈ xs, Service.isOutside o = true) →
    run tbl crc srt fmt json t (xs.map out) = some t' → t'.log = t.log ++ xs
  | [], t, t', _, h => by simp only [List.map_nil, run, Option.some.injEq] at h; subst h; simp
  | o :: xs, t, t', ho, h => by
    rw [List.map_cons] at h
    obtain ⟨t1, h1, h2⟩ := Lemmas.Tracer.run_cons_some h
    rw [log_outs (fun o h => ho o (List.mem_cons_of_mem _ h)) h2]
    obtain ⟨t2, ds, hm, hq⟩ := Lemmas.Tracer.step_elim h1
    simp only [out, move, ho o (by simp), if_true] at hm
    obtain ⟨d, -, rfl⟩ := Lemmas.Tracer.perform_elim hm
    rcases hq with ⟨rfl, -⟩ | ⟨_, env, ls, -, -, rfl⟩ <;> simp

/-- `c110_complete_partial`: the tale meets all hypotheses, so the call is printed. -/
example : ∃ z, run demoTbl crcString isort .json brief (start demoTbl "a" ["openat"]) (opening ++ calling) = some z ∧
    ∃ i, 6 < i ∧ z.log[i]? = some .ingest ∧ ∀ c, containerOf (z.log.take i) 4026531836 = some c →
      ∃ ev env line, Reports demoTbl sampleTask ⟨257, fun i => [1, 2, 3].getD i 0, 1000, 1000, 1, 3, sampleMem, 2⟩ ev ∧
        ev.container = some c.copy ∧ showMsg .json env brief ev = some line ∧ line ∈ z.out := by
  obtain ⟨t0, ht0, f0⟩ : ∃ t0, run demoTbl crcString isort .json brief (start demoTbl "a" ["openat"]) opening = some t0 ∧
      (t0.proc.todo = [] ∧ t0.attached = true) := by
    have : (run demoTbl crcString isort .json brief (start demoTbl "a" ["openat"]) opening).map (fun t => (t.proc.todo, t.attached)) = some ([], true) := by
      decide +kernel
    rw [Option.map_eq_some_iff] at this
    obtain ⟨t, h1, h2⟩ := this
    simp only [Prod.mk.injEq] at h2
    exact ⟨t, h1, h2⟩
  obtain ⟨y, hy, fy⟩ := Option.map_eq_some_iff.1 open_log
  obtain rfl : y = t0 := Option.some.inj (hy.symm.trans ht0)
  obtain ⟨z, hz, fz'⟩ := Option.map_eq_some_iff.1 (show (run demoTbl crcString isort .json brief (start demoTbl "a" ["openat"]) (opening ++ calling)).map
    (fun t => (t.daemon.ring.length, t.daemon.msg.isNone)) = some (0, true) by decide +kernel)
  simp only [Prod.mk.injEq] at fz'
  refine ⟨z, hz, ?_⟩
  have hzy : run demoTbl crcString isort .json brief y calling = some z := by
    rw [run_append, hy, Option.bind_some] at hz; exact hz
  have fz : z.log = openLog ++ callLog := by
    rw [log_outs (xs := callLog) (by decide) hzy, fy]
  refine c110_complete_partial (id := "a") (given := ["openat"]) (pre := []) (s := start demoTbl "a" ["openat"]) (mid := opening.tail) (post := calling) (co := web)
    demo_ok isort_isSort (by decide) rfl rfl (by decide) hy ?_ f0.1 f0.2 hzy
    ⟨List.length_eq_zero_iff.1 fz'.1, Option.isNone_iff_eq_none.1 fz'.2⟩ ?_ ?_ (before := openLog) (t0 := sampleTask) (t := sampleTask)
    (scratch := sampleScratch) ?_ (by rw [fy]; exact List.prefix_refl _) ?_ rfl (by decide) (by decide) (by decide +kernel) ?_
  · intro f hf
    simp only [opening, out, List.tail_cons, List.mem_cons, List.not_mem_nil, or_false, Op.work.injEq, reduceCtorEq] at hf
    rcases hf with rfl | rfl <;> rfl
  · intro op hop
    have := tale_ok op (by simpa [tale, opening] using hop)
    exact ⟨this.1, this.2.2⟩
  · intro c hc
    simp [opening, calling, out] at hc
  · rw [fz]
    exact ⟨257, 1, [1, 2, 3], [], 1, rfl, rfl, rfl, rfl, by simp, by decide, rfl, rfl, rfl⟩
  · intro o ho
    rw [fz] at ho
    simp [openLog, callLog] at ho
  · exact ⟨"openat", by decide, ⟨257, "sys_openat", "FileSystem", "Files"⟩, by decide, rfl⟩

/-- `c110_execve_partial`: without names, an execve of the container is printed. -/
example : (run Props.Daemon.execTbl crcString isort .json brief (start Props.Daemon.execTbl "a" [])
      (opening ++ [out (.execve sampleTask 1 sampleMem 64 128 (some sampleScratch) false), out .ingest, out (.route calm)])).map
        (fun t => (t.out.length, t.proc.todo, t.attached, t.daemon.ring.length, t.daemon.msg.isNone)) = some (1, [], true, 0, true) ∧
    Named Props.Daemon.execTbl [] 59 := by
  exact ⟨by decide +kernel, "execve", by decide, ⟨59, "sys_execve", "Process", "Process"⟩, by decide, rfl⟩

end Swoll.Props.Tracer
