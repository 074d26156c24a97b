import Verif.Lemmas.TracerShow
import Verif.Props.Print
/-
What a job of `swoll trace` covers, and what of it gets printed.
-/
namespace Swoll.Lemmas.Tracer
open Swoll Swoll.Tracer
open Swoll.Daemon (Daemon Delivery)
open Swoll.Event (TraceEvent)
open Swoll.Host (Format)
open Swoll.Hash (crcString)
open Swoll.Spec.Hub (TableOK)
open Swoll.Spec.Daemon (TrueOf Made Reports ReportsExec containerOf BeginsCallOf Covers Disturbs Served Delivered)
open Swoll.Spec.Tracer

variable {tbl : Syscalls.Syscalls} {crc : String → BitVec 64} {srt : List PubSub.Env → List PubSub.Env}
variable {fmt : Format} {json : TraceEvent Topology.Container → List Char}

/-- The lines, one by one, with what they are about. -/
theorem shown_lines (hsrt : PubSub.Node.IsSort srt) {id : String} {given : List String} {ops : List Op} {t : Tracer}
    (h : run tbl crcString srt fmt json (start tbl id given) ops = some t) (hs : ∀ o ∈ ops, Sane o) :
    ∃ (sh : List Shown) (call : Nat → Nat), Printed tbl crcString srt fmt json t sh ∧
      (∀ x ∈ sh, TrueOf tbl t.log (call x.k) x.del.2 ∧ Announced ops x.del.2.pidNs ∧
        (∃ i co, call x.k < i ∧ t.log[i]? = some .ingest ∧ containerOf (t.log.take i) x.del.2.pidNs = some co ∧
          x.del.2.container = some co.copy) ∧
        ∃ sc, x.del.2.syscall = some sc ∧ Named tbl given sc.nr) ∧
      sh.Pairwise (fun x y => (x.k < y.k → call x.k < call y.k) ∧ (x.k = y.k → x.del.2 = y.del.2)) := by
  obtain ⟨sh, hp⟩ := printed_run h
  obtain ⟨call, seen, h1, h2⟩ := Props.Daemon.c76_true_partial hp.logged (log_sane h hs)
  refine ⟨sh, call, hp, ?_, ?_⟩
  · intro x hx
    have hd := printed_delivered hp hx
    obtain ⟨c1, -, c3, c4, c5⟩ := h1 x.k x.del.1 x.del.2 hd
    obtain ⟨-, ha, c, sc, -, hsc, name, hn, sc', hl, hnr⟩ := delivered_wanted hsrt h hs hd
    obtain ⟨co, c6, c7⟩ := c5
    exact ⟨c4, ha, ⟨seen x.k, co, c1, c3, c6, c7⟩, sc, hsc, name, hn, sc', hl, hnr⟩
  · refine List.Pairwise.imp_of_mem ?_ hp.sorted
    intro x y hx hy _
    exact h2 x.k x.del.1 x.del.2 y.k y.del.1 y.del.2 (printed_delivered hp hx) (printed_delivered hp hy)

/-- Once the job has registered for a container, it covers the calls asked for until the container stops. -/
theorem covered (hT : TableOK tbl) {id : String} {given : List String} {pre mid post : List Op} {s y z : Tracer}
    {co : Topology.Container} (hs : run tbl crc srt fmt json (start tbl id given) pre = some s) (hi : s.proc.todo = [])
    (hpos : 0 < co.pidns) (hy : run tbl crc srt fmt json s (.notice (some ⟨0, some co⟩) :: mid) = some y)
    (hf : ∀ f, .work f ∈ mid → f = {}) (hdone : y.proc.todo = []) (hz : run tbl crc srt fmt json y post = some z)
    (hops : ∀ op ∈ pre ++ .notice (some ⟨0, some co⟩) :: mid ++ post, Numbered op)
    (hstop : ∀ c, .notice (some ⟨1, some c⟩) ∈ mid ++ post → c.pidns ≠ co.pidns)
    {name : String} (hname : name ∈ names given) {sc : Syscalls.Syscall} (hl : Syscalls.lookup tbl (.str name) = some sc)
    {before : List Daemon.Op} (h1 : y.log <+: before) (h2 : before <+: z.log) :
    Covers tbl before ⟨0, id, 0⟩ co.pidns sc.nr ∧ ∀ o ∈ z.log.drop before.length, o ≠ .delete id := by
  have hrate : s.proc.spec.job.rate ≤ 0 := by rw [(regs_run hs).spec]; exact Int.le_refl _
  have hfull : run tbl crc srt fmt json s (.notice (some ⟨0, some co⟩) :: mid ++ post) = some z := by
    rw [run_append, hy]; exact hz
  obtain ⟨more, e1, e2⟩ := (removing_run hfull hrate hi).grown
  have hnum : ∀ c : Topology.Container, Op.notice (some ⟨0, some c⟩) ∈ pre ++ .notice (some ⟨0, some co⟩) :: mid ++ post ∨
      Op.notice (some ⟨1, some c⟩) ∈ pre ++ .notice (some ⟨0, some co⟩) :: mid ++ post → 0 < c.pidns → 333 ≤ c.pidns ∧ c.pidns < 2 ^ 32 := by
    intro c hc
    rcases hc with hc | hc
    · exact hops _ hc
    · exact hops _ hc
  have hdis : ∀ o ∈ more, ¬ Disturbs tbl co.pidns sc.nr o := by
    intro o ho hd
    unfold Disturbs at hd
    split at hd
    · rename_i k n
      obtain ⟨sc', -, -, hbv⟩ := hd
      obtain ⟨c, c1, c2, rfl⟩ := (e2 _ ho).1 k n rfl
      have c1' : Op.notice (some ⟨1, some c⟩) ∈ mid ++ post := by
        simp only [List.cons_append, List.mem_cons, Op.notice.injEq, Option.some.injEq, Topology.Event.mk.injEq] at c1
        rcases c1 with c1 | c1
        · exact absurd c1.1 (by decide)
        · exact c1
      apply hstop c c1'
      obtain ⟨a1, a2⟩ := hnum c (Or.inr (by simp only [List.append_assoc, List.cons_append, List.mem_append, List.mem_cons]; exact Or.inr (Or.inr (List.mem_append.1 c1')))) c2
      obtain ⟨b1, b2⟩ := hnum co (Or.inl (by simp)) hpos
      have := congrArg BitVec.toNat hbv
      simp only [BitVec.toNat_ofInt] at this
      omega
    · exact absurd rfl ((e2 _ ho).2.1 _ _ _ _)
    · exact hd
  obtain ⟨sops, s', g1, g2, -⟩ := like_history hs
  obtain ⟨t1, r1, r2⟩ := Lemmas.Tracer.run_cons_some hy
  obtain ⟨s1, q1, q2⟩ := like_step g2 r1
  obtain ⟨mops, y', m1, m2, m3⟩ := like_run q2 r2
  have hserves : Spec.Service.Serves s' 0 0 id { hosts := [], calls := Host.namesOf given, rate := 0 } :=
    ⟨s.proc, by rw [g2.procs]; rfl, by rw [g2.spec]; rfl⟩
  have hyr : Service.run tbl crc srt s' (.notice 0 (some ⟨0, some co⟩) :: mops) = some y' := by
    have : Service.run tbl crc srt s' ([.notice 0 (some ⟨0, some co⟩)] ++ mops) = some y' := by
      rw [Lemmas.Service.run_append]
      rw [show tr id s.attached (.notice (some ⟨0, some co⟩)) = [.notice 0 (some ⟨0, some co⟩)] from rfl] at q1
      rw [q1]; exact m1
    exact this
  obtain ⟨w1, e3⟩ := log_run hy
  obtain ⟨w2, e4⟩ := log_run hz
  obtain ⟨w3, e5⟩ := h1
  obtain ⟨w4, e6⟩ := h2
  have hmore : more = w1 ++ w3 ++ w4 := by
    have : s.log ++ more = s.log ++ (w1 ++ w3 ++ w4) := by
      rw [← e1, ← e6, ← e5, e3]; simp
    exact List.append_cancel_left this
  have hdrop : y'.log.drop s'.log.length = w1 := by rw [m2.log, g2.log, e3, List.drop_left]
  have hcov := Props.Serving.c87_covered_partial hT hserves
    (by intro pr hp; rw [g2.procs] at hp; simp only [List.getElem?_cons_zero, Option.some.injEq] at hp; rw [← hp]; exact hi)
    hpos (Or.inl rfl) hyr
    (by
      intro f hf'
      obtain ⟨op, o1, b, o2⟩ := m3 _ hf'
      cases op with
      | work f' =>
        simp only [tr, List.mem_singleton, Service.Op.work.injEq, true_and] at o2
        subst o2; exact hf _ o1
      | attach d => simp only [tr] at o2; split at o2 <;> simp at o2
      | outside => simp [tr] at o2
      | notice => simp [tr] at o2)
    (by intro pr hp; rw [m2.procs] at hp; simp only [List.getElem?_cons_zero, Option.some.injEq] at hp; rw [← hp]; exact hdone)
    (name := name) (by show name ∈ Host.namesOf given; exact hname) hl
    (by rw [hdrop]; intro o ho; exact (e2 o (by rw [hmore]; simp [ho])).2.2 id)
    (by rw [hdrop]; intro o ho; exact hdis o (by rw [hmore]; simp [ho]))
  rw [m2.log] at hcov
  obtain ⟨a1, a2, a3, c1, c2, c3⟩ := hcov
  refine ⟨⟨a1, a2, a3 ++ w3, ?_, ?_, ?_⟩, ?_⟩
  · rw [← e5, c1]; simp
  · intro o ho
    simp only [List.mem_append] at ho c2
    rcases ho with ho | ho | ho
    · exact c2 o (Or.inl ho)
    · exact c2 o (Or.inr ho)
    · exact (e2 o (by rw [hmore]; simp [ho])).2.2 id
  · intro o ho
    rcases List.mem_append.1 ho with ho | ho
    · exact c3 o ho
    · exact hdis o (by rw [hmore]; simp [ho])
  · intro o ho
    rw [← e6, List.drop_left] at ho
    exact (e2 o (by rw [hmore]; simp [ho])).2.2 id

theorem attached_log {id : String} {given : List String} {ops : List Op} {t : Tracer}
    (h : run tbl crc srt fmt json (start tbl id given) ops = some t) :
    t.attached = true ↔ ∃ draw, .attachTrace id draw ∈ t.log := by
  have hspec := (regs_run h).spec
  refine (Lemmas.Tracer.run_induct (P := fun xs t => t.proc.spec = spec id given ∧ (t.attached = true ↔ ∃ draw, .attachTrace id draw ∈ t.log)) h
    ⟨rfl, by simp [start]⟩ ?_).2
  intro xs t op t' _ hs ⟨hsp, hp⟩
  obtain ⟨t1, ds, hm, hq⟩ := Lemmas.Tracer.step_elim hs
  suffices H : t1.proc.spec = spec id given ∧ (t1.attached = true ↔ ∃ draw, .attachTrace id draw ∈ t1.log) by
    rcases hq with ⟨rfl, -⟩ | ⟨o, env, ls, -, -, rfl⟩ <;> exact H
  cases Lemmas.Tracer.move_goes hm with
  | idle => exact ⟨hsp, hp⟩
  | notice => exact ⟨hsp, hp⟩
  | outside o env d out ho hd =>
    refine ⟨hsp, ?_⟩
    dsimp only
    rw [hp]
    constructor
    · rintro ⟨draw, hd⟩; exact ⟨draw, List.mem_append_left _ hd⟩
    · rintro ⟨draw, hd⟩
      rcases List.mem_append.1 hd with hd | hd
      · exact ⟨draw, hd⟩
      · rw [List.mem_singleton] at hd; subst hd; cases ho
  | work f a rest o d out ht ha hd =>
    refine ⟨hsp, ?_⟩
    dsimp only
    rw [hp]
    constructor
    · rintro ⟨draw, hd⟩; exact ⟨draw, List.mem_append_left _ hd⟩
    · rintro ⟨draw, hd⟩
      rcases List.mem_append.1 hd with hd | hd
      · exact ⟨draw, hd⟩
      · rw [List.mem_singleton] at hd; subst hd
        cases a <;> simp [Service.actOp] at ha
  | attach draw d out hn hd =>
    refine ⟨hsp, ?_⟩
    dsimp only
    refine ⟨fun _ => ⟨draw, ?_⟩, fun _ => rfl⟩
    rw [hsp]
    simp [spec]

/-- What has been served to the job's users has been printed, if the callback was attached in time. -/
theorem served_printed {id : String} (hid : id ≠ "") {given : List String} {ops : List Op} {z : Tracer}
    (h : run tbl crcString srt fmt json (start tbl id given) ops = some z) {e ns nr : Nat} {sc : Syscalls.Syscall}
    {Says : TraceEvent Topology.Container → Prop} (hat : ∃ draw, .attachTrace id draw ∈ z.log.take e)
    (hsv : Served tbl crcString srt z.log e ns nr sc ⟨0, id, 0⟩ Says) :
    ∃ i, e < i ∧ z.log[i]? = some .ingest ∧ ∀ c, containerOf (z.log.take i) ns = some c →
      ∃ ev env line, Says ev ∧ ev.container = some c.copy ∧ showMsg fmt env json ev = some line ∧ line ∈ z.out := by
  obtain ⟨i, h1, h2, h3⟩ := hsv
  refine ⟨i, h1, h2, ?_⟩
  intro c hc
  obtain ⟨k, ev, g1, -, g2, g3, g4, g5⟩ := h3 c hc
  have hki : e ≤ k := by omega
  have hall : ∀ u, u ∈ Spec.Daemon.users (z.log.take k) → ∃ xs t1, run tbl crcString srt fmt json (start tbl id given) xs = some t1 ∧ t1.log = z.log.take k := by
    intro u _
    by_cases hk : k ≤ z.log.length
    · obtain ⟨xs, ys, t1, -, e2, e3⟩ := prefix_run h k hk
      exact ⟨xs, t1, e2, e3⟩
    · exact ⟨ops, z, h, by rw [List.take_of_length_le (by omega)]⟩
  obtain ⟨xs, t1, e2, e3⟩ : ∃ xs t1, run tbl crcString srt fmt json (start tbl id given) xs = some t1 ∧ t1.log = z.log.take k := by
    by_cases hk : k ≤ z.log.length
    · obtain ⟨xs, ys, t1, -, e2, e3⟩ := prefix_run h k hk
      exact ⟨xs, t1, e2, e3⟩
    · exact ⟨ops, z, h, by rw [List.take_of_length_le (by omega)]⟩
  have hatt : t1.attached = true := by
    rw [attached_log e2, e3]
    obtain ⟨draw, hd⟩ := hat
    exact ⟨draw, (List.take_subset_take_left z.log hki) hd⟩
  have hu : (⟨0, .job id⟩ : Spec.Daemon.User) ∈ Spec.Daemon.users (z.log.take k) := by
    rw [← e3]; exact (log_users e2 _).2 ⟨hatt, rfl⟩
  obtain ⟨o, d, d', out, q1, q2, q3, q4⟩ := (g5 (by rw [← e3]; exact apart_free e2 _ _) _ hu).2 id rfl hid (by
    intro r hr _
    rw [← e3] at hr
    rw [(regs_run e2).jobs r (List.mem_filter.1 hr).1]
    exact Int.le_refl _)
  have hpos : 0 < out.count (0, ev) := by
    rw [q4]
    refine List.length_pos_of_mem (a := ⟨⟨0, id, 0⟩, ns, nr⟩) (List.mem_filter.2 ⟨g4, by simp⟩)
  have hmem : (0, ev) ∈ out := List.count_pos_iff.1 hpos
  obtain ⟨sh, hp⟩ := printed_run h
  rw [← hp.at_ k o d d' out q1 q2 q3] at hmem
  obtain ⟨x, hx, hxe⟩ := List.mem_map.1 hmem
  have hx := (List.mem_filter.1 hx).1
  have hline : showMsg fmt x.env json ev ∈ z.out.map some := by
    rw [hp.text]
    have := List.mem_map_of_mem (f := fun x : Shown => showMsg fmt x.env json x.del.2) hx
    rw [hxe] at this
    exact this
  obtain ⟨line, hl1, hl2⟩ := List.mem_map.1 hline
  exact ⟨ev, x.env, line, g2, g3, hl2.symm, hl1⟩

theorem showMsg_some {ev : TraceEvent Topology.Container} {sc : Syscalls.Syscall} (h : ev.syscall = some sc)
    (hd : sc.nr ∈ Spec.Event.decodable) (env : Print.Env) : ∃ x, showMsg fmt env json ev = some x := by
  cases fmt with
  | json => exact ⟨_, rfl⟩
  | other => exact ⟨_, rfl⟩
  | cli =>
    obtain ⟨h1, h2⟩ := (Props.Print.c89_every_decoded_call_prints env ev.argv).1 hd
    obtain ⟨a, h1⟩ := Option.isSome_iff_exists.1 h1
    obtain ⟨b, h2⟩ := Option.isSome_iff_exists.1 h2
    simp only [showMsg, h, Print.cliLine, h1, h2]
    exact ⟨_, rfl⟩

theorem lines_some {env : Print.Env} : ∀ {ds : List Delivery}, (∀ d ∈ ds, ∃ x, showMsg fmt env json d.2 = some x) →
    ∃ ls, lines fmt env json ds = some ls
  | [], _ => ⟨[], rfl⟩
  | d :: ds, h => by
    obtain ⟨x, hx⟩ := h d (by simp)
    obtain ⟨ls, hl⟩ := lines_some (fun d hd => h d (List.mem_cons_of_mem _ hd))
    exact ⟨x :: ls, by simp only [lines, hx, hl, Option.map_some]⟩

theorem move_out (t : Tracer) (ls : List (List Char)) (op : Op) :
    move tbl crc srt { t with out := ls } op = (move tbl crc srt t op).map (fun r => ({ r.1 with out := ls }, r.2)) := by
  cases op with
  | outside o env =>
    simp only [move, perform]
    split
    · cases Daemon.step tbl crc srt t.daemon o <;> rfl
    · rfl
  | notice ev =>
    simp only [move]
    split <;> rfl
  | work f =>
    simp only [move]
    split
    · rfl
    · split
      · rfl
      · rename_i o _
        simp only [perform]
        cases Daemon.step tbl crc srt t.daemon o <;> rfl
  | attach draw =>
    simp only [move, perform]
    split
    · rfl
    · cases Daemon.step tbl crc srt t.daemon (.attachTrace t.proc.spec.job.id draw) <;> rfl

/-- Whoever prints nothing gets as far. -/
theorem other_run {id : String} {given : List String} {ops : List Op} {t : Tracer}
    (h : run tbl crc srt fmt json (start tbl id given) ops = some t) :
    ∃ ls, run tbl crc srt .other json (start tbl id given) ops = some { t with out := ls } := by
  refine Lemmas.Tracer.run_induct (P := fun xs t => ∃ ls, run tbl crc srt .other json (start tbl id given) xs = some { t with out := ls })
    h ⟨[], rfl⟩ ?_
  rintro xs t op t' - hs ⟨ls, hp⟩
  obtain ⟨t1, ds, hm, hq⟩ := Lemmas.Tracer.step_elim hs
  have hl : ∀ env, ∃ more, lines .other env json ds = some more := fun env => lines_some (fun d _ => ⟨_, rfl⟩)
  have hm' : move tbl crc srt { t with out := ls } op = some ({ t1 with out := ls }, ds) := by rw [move_out, hm]; rfl
  rcases hq with ⟨rfl, hne⟩ | ⟨o, env, ls', rfl, -, rfl⟩
  · refine ⟨ls, ?_⟩
    rw [run_append, hp]
    simp only [Option.bind_some, run, step, hm']
  · obtain ⟨more, hmore⟩ := hl env
    refine ⟨ls ++ more, ?_⟩
    rw [run_append, hp]
    simp only [Option.bind_some, run, step, hm', hmore, Option.map_some]

end Swoll.Lemmas.Tracer
