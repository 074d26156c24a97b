import Verif.Lemmas.TracerRegs
/-
The lines `swoll trace` prints and the calls they report.
-/
namespace Swoll.Lemmas.Tracer
open Swoll Swoll.Tracer
open Swoll.Daemon (Daemon Delivery)
open Swoll.Event (TraceEvent)
open Swoll.Host (Format)
open Swoll.Hash (crcString)
open Swoll.Spec.Daemon (Delivered registrations regStep users wanting TrueOf)
open Swoll.Spec.Tracer (announced)

variable {tbl : Syscalls.Syscalls} {crc : String → BitVec 64} {srt : List PubSub.Env → List PubSub.Env}
variable {fmt : Format} {json : TraceEvent Topology.Container → List Char}

/-- Whatever the daemon had gone through at some time, it had gone through after some of the operations. -/
theorem prefix_run {id : String} {given : List String} {t : Tracer} {ops : List Op}
    (h : run tbl crc srt fmt json (start tbl id given) ops = some t) :
    ∀ k ≤ t.log.length, ∃ xs ys t1, ops = xs ++ ys ∧ run tbl crc srt fmt json (start tbl id given) xs = some t1 ∧
      t1.log = t.log.take k := by
  refine (run_induct (P := fun xs t => run tbl crc srt fmt json (start tbl id given) xs = some t ∧
    ∀ k ≤ t.log.length, ∃ us vs t1, xs = us ++ vs ∧ run tbl crc srt fmt json (start tbl id given) us = some t1 ∧
      t1.log = t.log.take k) h ⟨rfl, ?_⟩ ?_).2
  · intro k hk
    exact ⟨[], [], _, rfl, rfl, by simp [start]⟩
  · intro xs t op t' _ hs ⟨h1, h2⟩
    have h3 : run tbl crc srt fmt json (start tbl id given) (xs ++ [op]) = some t' := by
      rw [run_append, h1]; simp only [Option.bind_some, run, hs]
    refine ⟨h3, ?_⟩
    intro k hk
    by_cases hle : k ≤ t.log.length
    · obtain ⟨us, vs, t1, e1, e2, e3⟩ := h2 k hle
      refine ⟨us, vs ++ [op], t1, by rw [e1, List.append_assoc], e2, ?_⟩
      rcases step_log hs with ⟨g, -, -⟩ | ⟨o, ds, g, -, -⟩
      · rw [g]; exact e3
      · rw [g, List.take_append_of_le_length hle]; exact e3
    · refine ⟨xs ++ [op], [], t', by simp, h3, ?_⟩
      rcases step_log hs with ⟨g, -, -⟩ | ⟨o, ds, g, -, -⟩
      · rw [g] at hk; exact absurd hk hle
      · rw [g, List.length_append, List.length_singleton] at hk
        have : k = t'.log.length := by rw [g, List.length_append, List.length_singleton]; omega
        rw [this, List.take_length]

/-- What the daemon goes through by itself. -/
def outsides (ops : List Op) : List Daemon.Op :=
  ops.filterMap (fun op => match op with
    | .outside o _ => if Service.isOutside o then some o else none
    | _ => none)

/-- The daemon goes through what happens outside, in order. -/
theorem log_outside {id : String} {given : List String} {t : Tracer} {ops : List Op}
    (h : run tbl crc srt fmt json (start tbl id given) ops = some t) : t.log.filter Service.isOutside = outsides ops := by
  refine run_induct (P := fun xs t => t.log.filter Service.isOutside = outsides xs) h rfl ?_
  intro xs t op t' _ hs hp
  have happ : outsides (xs ++ [op]) = outsides xs ++ outsides [op] := by unfold outsides; exact List.filterMap_append
  rw [happ, ← hp]
  obtain ⟨t1, ds, hm, hp'⟩ := step_elim hs
  have hlog : t'.log = t1.log := by
    rcases hp' with ⟨rfl, -⟩ | ⟨o, env, ls, -, -, rfl⟩ <;> rfl
  rw [hlog]
  cases op with
  | outside o env =>
    simp only [move] at hm
    split at hm
    · rename_i ho
      obtain ⟨d, -, rfl⟩ := perform_elim hm
      simp [outsides, ho]
    · rename_i ho
      obtain ⟨rfl, -⟩ := Lemmas.Service.done_elim hm
      simp [outsides, ho]
  | notice ev =>
    cases move_goes hm with
    | idle => simp [outsides]
    | notice => simp [outsides]
  | work f =>
    cases move_goes hm with
    | idle => simp [outsides]
    | work _ a rest o d out ht ha hd =>
      have : Service.isOutside o = false := by
        cases a <;> simp only [Service.actOp, Option.some.injEq, reduceCtorEq] at ha <;> subst ha <;> rfl
      simp [outsides, this]
  | attach draw =>
    cases move_goes hm with
    | idle => simp [outsides]
    | attach _ d out hn hd => simp [outsides, Service.isOutside]

theorem apart_free {id : String} {given : List String} {t : Tracer} {ops : List Op}
    (h : run tbl crc srt fmt json (start tbl id given) ops = some t) (c : Topology.Container) (sc : Syscalls.Syscall) :
    Spec.Daemon.KeepsApart crcString t.log c sc := by
  intro u hu
  obtain ⟨-, rfl⟩ := (log_users h u).1 hu
  intro r hr
  rw [(regs_run h).jobs r hr]
  intro x hx y hy e
  simp only [List.mem_cons, List.not_mem_nil, or_false, or_self] at hx hy
  rw [hx, hy]

/-- What an event that is handed out is about. -/
theorem delivered_wanted (hsrt : PubSub.Node.IsSort srt) {id : String} {given : List String} {t : Tracer} {ops : List Op}
    (h : run tbl crcString srt fmt json (start tbl id given) ops = some t) (hs : ∀ o ∈ ops, Spec.Tracer.Sane o)
    {k tok : Nat} {ev : TraceEvent Topology.Container} (hd : Delivered tbl crcString srt t.log k tok ev) :
    tok = 0 ∧ Spec.Tracer.Announced ops ev.pidNs ∧ ∃ c sc, ev.container = some c ∧ ev.syscall = some sc ∧
      ∃ name ∈ Spec.Tracer.names given, ∃ sc', Syscalls.lookup tbl (.str name) = some sc' ∧ sc'.nr = sc.nr := by
  obtain ⟨c, sc, h1, h2, h3, u, h4, h5, -⟩ := Props.Daemon.c76_recipients hsrt (log_once h) (log_sane h hs) hd
  have hk : k ≤ t.log.length := by
    obtain ⟨o, -, -, -, ho, -⟩ := hd
    exact Nat.le_of_lt (List.getElem?_eq_some_iff.1 ho).1
  obtain ⟨xs, ys, t1, e1, e2, e3⟩ := prefix_run h k hk
  rw [← e3] at h3 h4
  obtain ⟨-, rfl⟩ := (log_users e2 u).1 h4
  obtain ⟨r, hr⟩ := List.exists_mem_of_ne_nil _ h3
  unfold wanting at hr
  rw [List.mem_filter] at hr
  obtain ⟨hr, hp⟩ := hr
  simp only [Bool.decide_and, Bool.and_eq_true, decide_eq_true_eq] at hp
  obtain ⟨⟨co, c1, c2, c3⟩, name, hn, sc', hl, hnr⟩ := reg_wanted (regs_run e2) hr
  refine ⟨h5.symm, ⟨co, by rw [e1]; exact List.mem_append_left _ c1, c2, by rw [c3, hp.1]⟩, c, sc, h1, h2, name, hn, sc', hl, ?_⟩
  rw [hp.2] at hnr
  omega

/-- At each position one event at most is handed out, and only once. -/
theorem handed_once (hsrt : PubSub.Node.IsSort srt) {id : String} (hid : id ≠ "") {given : List String} {t : Tracer} {ops : List Op}
    (h : run tbl crcString srt fmt json (start tbl id given) ops = some t) (hs : ∀ o ∈ ops, Spec.Tracer.Sane o)
    (ha : Spec.Tracer.Apart tbl given) (hn : (announced ops).Nodup)
    {k : Nat} {o : Daemon.Op} {d d' : Daemon} {out : List Delivery} (h1 : t.log[k]? = some o)
    (h2 : Daemon.run tbl crcString srt (Daemon.fresh tbl) (t.log.take k) = some d)
    (h3 : Daemon.step tbl crcString srt d o = some (d', out)) : out.length ≤ 1 := by
  cases out with
  | nil => simp
  | cons x rest =>
    have hdel : ∀ y ∈ x :: rest, Delivered tbl crcString srt t.log k y.1 y.2 := fun y hy => ⟨o, d, d', _, h1, h2, h3, hy⟩
    obtain ⟨hz, -, c, sc, hc, hsc, -⟩ := delivered_wanted hsrt h hs (hdel x (by simp))
    have hlog := (printed_run h).choose_spec.logged
    obtain ⟨call, seen, -, q2⟩ := Props.Daemon.c76_true_partial hlog (log_sane h hs)
    have hall : ∀ y ∈ x :: rest, y = (0, x.2) := by
      intro y hy
      have e1 := (delivered_wanted hsrt h hs (hdel y hy)).1
      have e2 := (q2 k x.1 x.2 k y.1 y.2 (hdel x (by simp)) (hdel y hy)).2 rfl
      cases y
      simp only at e1 e2
      rw [e1, e2]
    have hk : k ≤ t.log.length := Nat.le_of_lt (List.getElem?_eq_some_iff.1 h1).1
    obtain ⟨xs, ys, t1, e1, e2, e3⟩ := prefix_run h k hk
    obtain ⟨-, -, -, -, -, u, hu, -⟩ := Props.Daemon.c76_recipients hsrt (log_once h) (log_sane h hs) (hdel x (by simp))
    have hu' := hu
    rw [← e3] at hu'
    obtain ⟨-, rfl⟩ := (log_users e2 u).1 hu'
    have hr := regs_run e2
    have hev := (Props.Daemon.c76_everyone hsrt (log_once h) (log_sane h hs) (hdel x (by simp)) hc hsc
      (by rw [← e3]; exact apart_free e2 c sc) hu).2 id rfl hid (by
        intro r hrw _
        rw [← e3] at hrw
        rw [hr.jobs r (List.mem_filter.1 hrw).1]
        exact Int.le_refl _)
    obtain ⟨o', dd, dd', out', g1, g2, g3, g4⟩ := hev
    rw [h1] at g1; injection g1 with g1; subst g1
    rw [h2] at g2; injection g2 with g2; subst g2
    rw [h3] at g3
    injection g3 with g3
    injection g3 with _ g3
    subst g3
    have hcount : (x :: rest).count (0, x.2) = (x :: rest).length := by
      rw [List.count_eq_length]
      intro y hy
      exact (hall y hy).symm
    rw [← hcount, g4, ← e3]
    refine Nat.le_trans (List.length_filter_le _ _) ?_
    have hnd : ((registrations t1.log).map (fun r => (r.ns, r.nr))).Nodup := by
      have hsub : (announced xs).Nodup := by
        rw [e1, announced_append, List.nodup_append] at hn
        exact hn.1
      exact ((List.sublist_append_left _ _).trans hr.sub).nodup (nodup_all ha hsub)
    have hw : wanting t1.log x.2.pidNs sc.nr =
        (registrations t1.log).filter (fun r => decide ((r.ns, r.nr) = ((x.2.pidNs : Int), (sc.nr : Int)))) := by
      unfold wanting
      congr 1
      funext r
      simp [Prod.mk.injEq]
    rw [hw]
    exact filter_le_one _ hnd

/-! ### Rules are taken out when the container stops -/

theorem start_acts {rate ns : Int} (hr : rate ≤ 0) {names : List String} {a : Service.Act}
    (h : a ∈ names.flatMap (Service.startActs tbl rate ns)) :
    (∀ n nr, a ≠ .removeSyscall n nr) ∧ ∀ n nr, a ≠ .addSampled n nr := by
  rw [List.mem_flatMap] at h
  obtain ⟨n, -, h⟩ := h
  unfold Service.startActs at h
  split at h
  · rw [List.mem_singleton] at h; subst h; exact ⟨fun _ _ e => (by cases e), fun _ _ e => (by cases e)⟩
  · rw [if_neg (by omega)] at h
    simp only [List.nil_append, List.mem_cons, List.not_mem_nil, or_false] at h
    rcases h with rfl | rfl <;> exact ⟨fun _ _ e => (by cases e), fun _ _ e => (by cases e)⟩

theorem stop_acts {ns : Int} {names : List String} {a : Service.Act}
    (h : a ∈ names.flatMap (Service.stopActs tbl ns)) :
    (∀ n nr, a = .removeSyscall n nr → n = ns) ∧ ∀ n nr, a ≠ .addSampled n nr := by
  rw [List.mem_flatMap] at h
  obtain ⟨n, -, h⟩ := h
  unfold Service.stopActs at h
  split at h <;> rw [List.mem_singleton] at h <;> subst h
  · exact ⟨fun _ _ e => (by cases e), fun _ _ e => (by cases e)⟩
  · exact ⟨fun _ _ e => (by cases e; rfl), fun _ _ e => (by cases e)⟩

/-- A rule is taken out of a namespace only when a container of it has stopped. -/
theorem notice_removes {pr : Service.Proc} (hr : pr.spec.job.rate ≤ 0) {ev : Option Topology.Event} {a : Service.Act}
    (h : a ∈ (Topology.processEvent true pr.cache ev).2.1.flatMap (Service.acts tbl pr.spec)) :
    (∀ n nr, a = .removeSyscall n nr → ∃ c, ev = some ⟨1, some c⟩ ∧ 0 < c.pidns ∧ c.pidns = n) ∧ ∀ n nr, a ≠ .addSampled n nr := by
  unfold Topology.processEvent at h
  split at h
  · cases h
  · rename_i e
    split at h
    · cases h
    · rename_i c hc
      split at h
      · cases h
      · split at h
        · simp only [if_true, List.flatMap_cons, List.flatMap_nil, List.append_nil] at h
          unfold Service.acts at h
          rw [if_neg (show ¬ Topology.typeStart = Topology.typeStop by decide), if_pos rfl] at h
          split at h
          · obtain ⟨h1, h2⟩ := start_acts hr h
            exact ⟨fun n nr e => absurd e (h1 n nr), h2⟩
          · cases h
        · split at h
          · rename_i ht
            simp only [if_true, List.flatMap_cons, List.flatMap_nil, List.append_nil] at h
            unfold Service.acts at h
            rw [if_pos rfl] at h
            obtain ⟨h1, h2⟩ := stop_acts h
            refine ⟨?_, h2⟩
            intro n nr ha
            have := h1 n nr ha
            refine ⟨c, ?_, by omega, this.symm⟩
            cases e
            simp only at hc ht
            subst hc ht
            rfl
          · cases h

/-- What the job takes out of the kernel's filter after a time when it rested. -/
structure Removing (ops : List Op) (start : Tracer) (t : Tracer) : Prop where
  spec : t.proc.spec.job.rate ≤ 0
  grown : ∃ more, t.log = start.log ++ more ∧
    ∀ o ∈ more, (∀ k n, o = .removeSyscall k n → ∃ c, .notice (some ⟨1, some c⟩) ∈ ops ∧ 0 < c.pidns ∧ c.pidns = n) ∧
      (∀ k n r f, o ≠ .addSampled k n r f) ∧ ∀ i, o ≠ .delete i
  left : ∀ a ∈ t.proc.todo, (∀ n nr, a = .removeSyscall n nr → ∃ c, .notice (some ⟨1, some c⟩) ∈ ops ∧ 0 < c.pidns ∧ c.pidns = n) ∧
      ∀ n nr, a ≠ .addSampled n nr

theorem removing_run {s t : Tracer} {ops : List Op} (h : run tbl crc srt fmt json s ops = some t)
    (hr : s.proc.spec.job.rate ≤ 0) (hi : s.proc.todo = []) : Removing ops s t := by
  refine run_induct (P := fun xs t => Removing xs s t) h ⟨hr, ⟨[], by simp, fun o ho => (by cases ho)⟩, ?_⟩ ?_
  · rw [hi]; intro a ha; cases ha
  · intro xs t op t' _ hs hp
    obtain ⟨t1, ds, hm, hq⟩ := step_elim hs
    suffices H : Removing (xs ++ [op]) s t1 by
      rcases hq with ⟨rfl, -⟩ | ⟨o, env, ls, -, -, rfl⟩
      · exact H
      · exact ⟨H.spec, H.grown, H.left⟩
    have mono : ∀ n : Int, (∃ c : Topology.Container, Op.notice (some ⟨1, some c⟩) ∈ xs ∧ 0 < c.pidns ∧ c.pidns = n) →
        ∃ c : Topology.Container, Op.notice (some ⟨1, some c⟩) ∈ xs ++ [op] ∧ 0 < c.pidns ∧ c.pidns = n := by
      rintro n ⟨c, h1, h2⟩
      exact ⟨c, List.mem_append_left _ h1, h2⟩
    obtain ⟨more, e1, e2⟩ := hp.grown
    have left' : ∀ a ∈ t.proc.todo, (∀ n nr, a = .removeSyscall n nr →
        ∃ c : Topology.Container, Op.notice (some ⟨1, some c⟩) ∈ xs ++ [op] ∧ 0 < c.pidns ∧ c.pidns = n) ∧ ∀ n nr, a ≠ .addSampled n nr :=
      fun a ha => ⟨fun n nr e => mono n ((hp.left a ha).1 n nr e), (hp.left a ha).2⟩
    have grown' : ∀ o : Daemon.Op, ((∀ k n, o = .removeSyscall k n →
          ∃ c : Topology.Container, Op.notice (some ⟨1, some c⟩) ∈ xs ++ [op] ∧ 0 < c.pidns ∧ c.pidns = n) ∧
        (∀ k n r f, o ≠ .addSampled k n r f) ∧ ∀ i, o ≠ .delete i) →
        ∃ more, t.log ++ [o] = s.log ++ more ∧
          ∀ o ∈ more, (∀ k n, o = .removeSyscall k n → ∃ c : Topology.Container, Op.notice (some ⟨1, some c⟩) ∈ xs ++ [op] ∧ 0 < c.pidns ∧ c.pidns = n) ∧
            (∀ k n r f, o ≠ .addSampled k n r f) ∧ ∀ i, o ≠ .delete i := by
      intro o ho
      refine ⟨more ++ [o], by rw [e1, List.append_assoc], ?_⟩
      intro x hx
      rcases List.mem_append.1 hx with hx | hx
      · exact ⟨fun k n e => mono n ((e2 x hx).1 k n e), (e2 x hx).2⟩
      · rw [List.mem_singleton] at hx; subst hx; exact ho
    have same : ∃ more, t.log = s.log ++ more ∧
          ∀ o ∈ more, (∀ k n, o = .removeSyscall k n → ∃ c : Topology.Container, Op.notice (some ⟨1, some c⟩) ∈ xs ++ [op] ∧ 0 < c.pidns ∧ c.pidns = n) ∧
            (∀ k n r f, o ≠ .addSampled k n r f) ∧ ∀ i, o ≠ .delete i :=
      ⟨more, e1, fun x hx => ⟨fun k n e => mono n ((e2 x hx).1 k n e), (e2 x hx).2⟩⟩
    cases move_goes hm with
    | idle op => exact ⟨hp.spec, same, left'⟩
    | outside o env d out ho hd =>
      refine ⟨hp.spec, grown' o ?_, left'⟩
      refine ⟨?_, ?_, ?_⟩
      · rintro k n rfl; cases ho
      · rintro k n r f rfl; cases ho
      · rintro i rfl; cases ho
    | notice ev ht =>
      refine ⟨hp.spec, same, ?_⟩
      intro a ha
      obtain ⟨h1, h2⟩ := notice_removes hp.spec ha
      refine ⟨?_, h2⟩
      intro n nr e
      obtain ⟨c, rfl, h3⟩ := h1 n nr e
      exact ⟨c, by simp, h3⟩
    | work f a rest o d out ht ha hd =>
      have haL := left' a (by rw [ht]; simp)
      refine ⟨hp.spec, grown' o ?_, ?_⟩
      · cases a <;> simp only [Service.actOp, Option.some.injEq, reduceCtorEq] at ha <;> subst ha <;>
          refine ⟨fun k n e => ?_, fun k n r f e => ?_, fun i e => ?_⟩ <;> try (cases e; done)
        · exact absurd rfl (haL.2 _ _)
        · cases e; exact haL.1 _ _ rfl
      · intro b hb
        dsimp only at hb
        split at hb
        · exact left' b (by rw [ht]; exact List.mem_cons_of_mem _ hb)
        · cases hb
    | attach draw d out hn hd =>
      refine ⟨hp.spec, grown' _ ⟨fun k n e => ?_, fun k n r f e => ?_, fun i e => ?_⟩, left'⟩ <;> cases e

theorem log_run {s t : Tracer} {ops : List Op} (h : run tbl crc srt fmt json s ops = some t) : ∃ more, t.log = s.log ++ more := by
  refine run_induct (P := fun _ t => ∃ more, t.log = s.log ++ more) h ⟨[], by simp⟩ ?_
  rintro xs t op t' - hs ⟨more, e⟩
  rcases step_log hs with ⟨g, -, -⟩ | ⟨o, ds, g, -, -⟩
  · exact ⟨more, by rw [g, e]⟩
  · exact ⟨more ++ [o], by rw [g, e, List.append_assoc]⟩

theorem attached_run {s t : Tracer} {ops : List Op} (h : run tbl crc srt fmt json s ops = some t) (ha : s.attached = true) :
    t.attached = true := by
  refine run_induct (P := fun _ t => t.attached = true) h ha ?_
  intro xs t op t' _ hs hp
  obtain ⟨t1, ds, hm, hq⟩ := step_elim hs
  have h1 : t1.attached = true := by
    cases move_goes hm with
    | attach => rfl
    | _ => exact hp
  rcases hq with ⟨rfl, -⟩ | ⟨o, env, ls, -, -, rfl⟩ <;> exact h1

end Swoll.Lemmas.Tracer
