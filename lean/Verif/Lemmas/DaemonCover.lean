import Verif.Lemmas.DaemonRoute
import Verif.Props.Hub
/-
A covered call reaches its users.
-/
namespace Swoll.Lemmas.Daemon
open Swoll Swoll.Daemon Swoll.Spec.Daemon
open Swoll.Event (Task Mem KEvent TraceEvent pack)
open Swoll.Spec.Hub (TableOK)
open Swoll.Hash (crcString)

variable {tbl : Syscalls.Syscalls} {crc : String → BitVec 64} {srt : List PubSub.Env → List PubSub.Env}

theorem sane_hubOps {d : Daemon} {o : Op} (h : SanePairs o) : ∀ x ∈ hubOps d o, Spec.Hub.SaneOp x := by
  intro x hx
  cases o with
  | enter t id mtime time args full =>
    simp only [hubOps] at hx
    split at hx
    · simp only [List.mem_cons, List.not_mem_nil, or_false] at hx; subst hx; trivial
    · simp only [List.mem_cons, List.not_mem_nil, or_false] at hx
      rcases hx with rfl | rfl <;> trivial
  | push j ns nr => simp only [hubOps, List.mem_singleton] at hx; subst hx; exact h
  | swap rate ns nr => simp only [hubOps, List.mem_singleton] at hx; subst hx; exact h
  | act f =>
    simp only [hubOps] at hx
    split at hx
    · simp only [List.mem_singleton] at hx; subst hx; trivial
    · simp only [List.mem_singleton] at hx; subst hx; trivial
    · cases hx
  | route oo =>
    simp only [hubOps] at hx
    split at hx
    · split at hx
      · simp only [List.mem_singleton] at hx; subst hx; trivial
      · cases hx
    · cases hx
  | _ => simp only [hubOps, List.mem_singleton, List.not_mem_nil] at hx <;> first | exact hx.elim | (subst hx; trivial)

theorem delete_hubOps {d : Daemon} {o : Op} {id : String} (h : Hub.Op.delete id ∈ hubOps d o) : o = .delete id := by
  cases o with
  | enter t id mtime time args full =>
    simp only [hubOps] at h
    split at h <;> simp at h
  | act f =>
    simp only [hubOps] at h
    split at h <;> simp at h
  | route oo =>
    simp only [hubOps] at h
    split at h
    · split at h <;> simp at h
    · simp at h
  | delete id' => simp only [hubOps, List.mem_singleton, Hub.Op.delete.injEq] at h; subst h; rfl
  | _ => simp [hubOps] at h

theorem removeSyscall_hubOps {d : Daemon} {o : Op} {k : Syscalls.Key} {n : Int}
    (h : Hub.Op.filter (.removeSyscall k n) ∈ hubOps d o) : o = .removeSyscall k n := by
  cases o with
  | enter t id mtime time args full =>
    simp only [hubOps] at h
    split at h <;> simp at h
  | act f =>
    simp only [hubOps] at h
    split at h <;> simp at h
  | route oo =>
    simp only [hubOps] at h
    split at h
    · split at h <;> simp at h
    · simp at h
  | removeSyscall k' n' =>
    simp only [hubOps, List.mem_singleton, Hub.Op.filter.injEq, Filter.Op.removeSyscall.injEq] at h
    obtain ⟨rfl, rfl⟩ := h; rfl
  | _ => simp [hubOps] at h

theorem addSampled_hubOps {d : Daemon} {o : Op} {k : Syscalls.Key} {n : Int} {r : BitVec 64} {f : Filter.Faults}
    (h : Hub.Op.filter (.addSampled k n r f) ∈ hubOps d o) : o = .addSampled k n r f := by
  cases o with
  | enter t id mtime time args full =>
    simp only [hubOps] at h
    split at h <;> simp at h
  | act f =>
    simp only [hubOps] at h
    split at h <;> simp at h
  | route oo =>
    simp only [hubOps] at h
    split at h
    · split at h <;> simp at h
    · simp at h
  | addSampled k' n' r' f' =>
    simp only [hubOps, List.mem_singleton, Hub.Op.filter.injEq, Filter.Op.addSampled.injEq] at h
    obtain ⟨rfl, rfl, rfl, rfl⟩ := h; rfl
  | _ => simp [hubOps] at h

theorem ruleKey_eq (hT : TableOK tbl) {ns ns' nr nr' : Int} {k : Filter.FilterKey} (hns : 0 < ns) (hns' : ns < 2 ^ 32)
    (h : Spec.Hub.ruleKey tbl ns nr = some k) (h' : Spec.Hub.ruleKey tbl ns' nr' = some k) :
    nr' = nr ∧ BitVec.ofInt 32 ns' = BitVec.ofInt 32 ns := by
  unfold Spec.Hub.ruleKey at h h'
  rw [Option.map_eq_some_iff] at h h'
  obtain ⟨s, hs, rfl⟩ := h
  obtain ⟨s', hs', h'⟩ := h'
  have hn1 : ns ≠ -1 := by omega
  simp only [if_neg hn1, Filter.FilterKey.mk.injEq] at h'
  obtain ⟨h1, h2, -, h4⟩ := h'
  have hne : ns' ≠ -1 := by
    intro e; rw [if_pos e] at h1; revert h1; decide
  rw [if_neg hne] at h2
  refine ⟨?_, h2⟩
  have e1 := hT.2 nr s hs
  have e2 := hT.2 nr' s' hs'
  have l1 := (hT.1 _ s hs).2
  have l2 := (hT.1 _ s' hs').2
  have := congrArg BitVec.toNat h4
  rw [BitVec.toNat_ofNat, BitVec.toNat_ofNat, Nat.mod_eq_of_lt (by omega), Nat.mod_eq_of_lt (by omega)] at this
  omega

theorem disturbs_stops (hT : TableOK tbl) {ns nr : Int} (hns : 0 < ns) (hns' : ns < 2 ^ 32) {d : Daemon} {o : Op}
    (h : ¬ Disturbs tbl ns nr o) :
    ∀ x ∈ hubOps d o, ¬ Spec.Hub.Stops tbl ns nr x ∧ ¬ Spec.Hub.Samples tbl ns nr x := by
  intro x hx
  constructor
  · intro hs
    unfold Spec.Hub.Stops at hs
    split at hs
    · rename_i k n
      obtain ⟨s, k', h1, h2, h3⟩ := hs
      have e := removeSyscall_hubOps hx
      subst e
      obtain ⟨e1, e2⟩ := ruleKey_eq hT hns hns' h3 h2
      exact h ⟨s, h1, e1, e2⟩
    · exact hs
  · intro hs
    unfold Spec.Hub.Samples at hs
    split at hs
    · rename_i k n r f
      obtain ⟨s, k', h1, h2, h3⟩ := hs
      have e := addSampled_hubOps hx
      subst e
      obtain ⟨e1, e2⟩ := ruleKey_eq hT hns hns' h3 h2
      exact h ⟨s, h1, e1, e2⟩
    · exact hs

/-- The kernel lets a covered call through, whatever kernel activity follows. -/
theorem covered_passes (hT : TableOK tbl) {hist : List Op} {d : Daemon} (h : run tbl crc srt (fresh tbl) hist = some d)
    (hp : ∀ o ∈ hist, SanePairs o) {j : Hub.Job} {ns nr : Int} (hc : Covers tbl hist j ns nr) {sc : Syscalls.Syscall}
    (hl : Syscalls.lookup tbl (.int nr) = some sc) (tid : BitVec 32) (extra : Option (BitVec 32 × BitVec 32 × BitVec 32)) :
    (Filter.step tbl (match extra with
        | some (a, b, c) => (Filter.step tbl d.hub.maps (.metricsEvent a b c)).1
        | none => d.hub.maps) (.callEvent (BitVec.ofInt 32 ns) tid (BitVec.ofNat 32 sc.nr))).2 = true := by
  obtain ⟨pre, mid, post, e, hdel, hst⟩ := hc
  subst e
  obtain ⟨hns, hns', -⟩ : Spec.Hub.SanePair ns nr := hp (.push j ns nr) (by simp)
  obtain ⟨d1, r1, hrest⟩ := run_split h
  obtain ⟨d2, o2, s2, hrest⟩ := run_cons_some hrest
  obtain ⟨d3, r3, hrest⟩ := run_split hrest
  obtain ⟨d4, o4, s4, r4⟩ := run_cons_some hrest
  have a1 := hub_run r1
  have a2 := hub_step s2
  have a3 := hub_run r3
  have a4 := hub_step s4
  have a5 := hub_run r4
  simp only [hubOps] at a2 a4
  let tail : List Hub.Op := match extra with
    | some (a, b, c) => [.filter (.metricsEvent a b c)]
    | none => []
  let hub' : Hub.Hub := match extra with
    | some (a, b, c) => { d.hub with maps := (Filter.step tbl d.hub.maps (.metricsEvent a b c)).1 }
    | none => d.hub
  have a6 : Hub.run tbl d.hub tail = some hub' := by
    cases extra with
    | none => rfl
    | some x => obtain ⟨a, b, c⟩ := x; rfl
  have happ : ∀ {x y z : Hub.Hub} {l m : List Hub.Op}, Hub.run tbl x l = some y → Hub.run tbl y m = some z →
      Hub.run tbl x (l ++ m) = some z := by
    intro x y z l m h1 h2
    rw [Lemmas.Hub.run_append_eq tbl l m x y h1]; exact h2
  have hall : Hub.run tbl (Props.Hub.start tbl) (hubTrace tbl crc srt (fresh tbl) pre ++ .push j ns nr ::
      (hubTrace tbl crc srt d2 mid ++ .filter (.addSyscall (.int nr) ns {}) :: (hubTrace tbl crc srt d4 post ++ tail))) =
      some hub' := by
    have := happ a1 (happ a2 (happ a3 (happ a4 (happ a5 a6))))
    rw [show Props.Hub.start tbl = (fresh tbl).hub from rfl]
    simpa using this
  have htrace : ∀ (l : List Op) (x : Daemon) (y : Hub.Op), y ∈ hubTrace tbl crc srt x l → ∃ z, ∃ o ∈ l, y ∈ hubOps z o :=
    fun l x y hy => mem_hubTrace hy
  have htail : ∀ y ∈ tail, ∃ a b c, y = .filter (.metricsEvent a b c) := by
    intro y hy
    cases extra with
    | none => simp [tail] at hy
    | some x =>
      obtain ⟨a, b, c⟩ := x
      exact ⟨a, b, c, by simpa [tail] using hy⟩
  have hsane : ∀ o ∈ hubTrace tbl crc srt (fresh tbl) pre ++ .push j ns nr ::
      (hubTrace tbl crc srt d2 mid ++ .filter (.addSyscall (.int nr) ns {}) :: (hubTrace tbl crc srt d4 post ++ tail)),
      Spec.Hub.SaneOp o := by
    intro y hy
    simp only [List.mem_append, List.mem_cons] at hy
    rcases hy with hy | rfl | hy | rfl | hy | hy
    · obtain ⟨z, o, ho, hy⟩ := htrace _ _ _ hy
      exact sane_hubOps (hp o (by simp [ho])) y hy
    · exact hp (.push j ns nr) (by simp)
    · obtain ⟨z, o, ho, hy⟩ := htrace _ _ _ hy
      exact sane_hubOps (hp o (by simp [ho])) y hy
    · trivial
    · obtain ⟨z, o, ho, hy⟩ := htrace _ _ _ hy
      exact sane_hubOps (hp o (by simp [ho])) y hy
    · obtain ⟨a, b, c, rfl⟩ := htail y hy
      trivial
  have hdel' : ∀ o ∈ hubTrace tbl crc srt d2 mid ++ (hubTrace tbl crc srt d4 post ++ tail), o ≠ .delete j.id := by
    intro y hy e
    subst e
    simp only [List.mem_append] at hy
    rcases hy with hy | hy | hy
    · obtain ⟨z, o, ho, hy⟩ := htrace _ _ _ hy
      exact hdel o (by simp [ho]) (delete_hubOps hy)
    · obtain ⟨z, o, ho, hy⟩ := htrace _ _ _ hy
      exact hdel o (by simp [ho]) (delete_hubOps hy)
    · obtain ⟨a, b, c, e⟩ := htail _ hy
      cases e
  have hdist : ∀ o ∈ hubTrace tbl crc srt d4 post ++ tail, ¬ Spec.Hub.Stops tbl ns nr o ∧ ¬ Spec.Hub.Samples tbl ns nr o := by
    intro y hy
    simp only [List.mem_append] at hy
    rcases hy with hy | hy
    · obtain ⟨z, o, ho, hy⟩ := htrace _ _ _ hy
      exact disturbs_stops hT hns hns' (hst o ho) y hy
    · obtain ⟨a, b, c, rfl⟩ := htail y hy
      exact ⟨fun x => x, fun x => x⟩
  obtain ⟨k, v, -, -, -, -, hpass⟩ := Props.Hub.c16_coverage_partial tbl hT j ns nr sc hl _ _ _ _ hall hsane hdel'
    (fun o ho => (hdist o ho).1)
  have := (hpass (fun o ho => (hdist o ho).2)).2 tid
  cases extra with
  | none => exact this
  | some x => obtain ⟨a, b, c⟩ := x; exact this

/-! ### The record of a call -/

/-- Entering a covered call records it. -/
theorem enter_records {s : Probe.PState} {c : Probe.Ctx} (args : List (BitVec 64)) (hne : c.nr ≠ Probe.nrExecve)
    (hp : (Filter.step tbl (Filter.step tbl s.maps (.metricsEvent c.ns c.proc c.nr)).1 (.callEvent c.ns c.proc c.nr)).2 = true) :
    (Probe.enter s c args false).state = GoMap.set s.state c.pidTgid ⟨c.id, args, c.uidGid, c.time⟩ := by
  have hst := fillMetrics_state s c none
  have hmaps := fillMetrics_maps (tbl := tbl) s c none
  rw [← hmaps] at hp
  unfold Probe.enter
  dsimp only
  have hd : (Filter.runNfilter (Probe.fillMetrics s c none).maps Filter.fmodeSyscall c.ns c.proc c.nr).2 ≠ Filter.factionDrop := by
    simp only [Filter.step] at hp; simpa using hp
  rw [if_neg hne, if_neg hd, ← hst]
  rfl

/-- The record stays until the thread begins or ends a call. -/
theorem record_keeps {tgid pid : BitVec 32} {ek : Probe.EvKey} : ∀ (ops : List Op) {d d' : Daemon},
    run tbl crc srt d ops = some d' → (∀ o ∈ ops, ¬ EndsCallOf tgid pid o ∧ ¬ BeginsCallOf tgid pid o) →
    GoMap.get d.state (pack tgid pid) = some ek → GoMap.get d'.state (pack tgid pid) = some ek := by
  intro ops
  induction ops with
  | nil =>
    intro d d' h _ hg
    simp only [run, Option.some.injEq] at h
    subst h; exact hg
  | cons o os ih =>
    intro d d' h hno hg
    obtain ⟨d1, out, h1, h2⟩ := run_cons_some h
    refine ih h2 (fun x hx => hno x (by simp [hx])) ?_
    obtain ⟨n1, n2⟩ := hno o (by simp)
    rcases state_step h1 with ⟨t, id, m0, time, args, rfl, -, -, he⟩ | ⟨t, id, ret, m1, time, mem, scr, lost, rfl, he⟩ | ⟨-, he⟩
    · rw [he, GoMap.get_set_other]
      · exact hg
      · intro e
        exact n2 (pack_inj e)
    · rw [he, if_neg]
      · exact hg
      · intro e; exact n1 (pack_inj e)
    · rw [he]; exact hg

/-! ### The perf buffer -/

/-- A decoded event waits until it is routed. -/
theorem msg_routed : ∀ (ops : List Op) {d d' : Daemon} {ev : TraceEvent Topology.Container},
    run tbl crc srt d ops = some d' → d.msg = some ev → d'.msg = none →
    ∃ xs o ys d1, ops = xs ++ .route o :: ys ∧ run tbl crc srt d xs = some d1 ∧ d1.msg = some ev := by
  intro ops
  induction ops with
  | nil =>
    intro d d' ev h hm hn
    simp only [run, Option.some.injEq] at h
    subst h; rw [hm] at hn; cases hn
  | cons o os ih =>
    intro d d' ev h hm hn
    obtain ⟨d1, out, h1, h2⟩ := run_cons_some h
    have step : (∃ oo, o = .route oo) ∨ d1.msg = some ev := by
      rcases ring_step h1 with ⟨-, e, -⟩ | ⟨t, id, ret, m1, time, mem, s, e, -, -, -, e', -⟩ |
        ⟨t, time, mem, filename, argv, s, e, -, -, -, e', -⟩ | ⟨bs, rest, -, e, -⟩ | ⟨oo, e, -⟩
      · right; rw [e, hm]
      · right; rw [e', hm]
      · right; rw [e', hm]
      · rw [e] at hm; cases hm
      · exact Or.inl ⟨oo, e⟩
    rcases step with ⟨oo, rfl⟩ | hm1
    · exact ⟨[], oo, os, d, rfl, rfl, hm⟩
    · obtain ⟨xs, oo, ys, d2, e1, e2, e3⟩ := ih h2 hm1 hn
      refine ⟨o :: xs, oo, ys, d2, by rw [e1]; rfl, ?_, e3⟩
      simp only [run, h1]; exact e2

/-- A sample waits until it is decoded. -/
theorem sample_decoded {bs : List Bytes.Byte} : ∀ (ops : List Op) {d d' : Daemon} {xs ys : List (List Bytes.Byte)},
    run tbl crc srt d ops = some d' → d.ring = xs ++ bs :: ys → d'.ring = [] →
    ∃ ps qs d1 zs, ops = ps ++ .ingest :: qs ∧ run tbl crc srt d ps = some d1 ∧ d1.msg = none ∧ d1.ring = bs :: zs := by
  intro ops
  induction ops with
  | nil =>
    intro d d' xs ys h hm hn
    simp only [run, Option.some.injEq] at h
    subst h; rw [hm] at hn; simp at hn
  | cons o os ih =>
    intro d d' xs ys h hm hn
    obtain ⟨d1, out, h1, h2⟩ := run_cons_some h
    have again : ∀ xs ys, d1.ring = xs ++ bs :: ys → ∃ ps qs d2 zs, o :: os = ps ++ .ingest :: qs ∧
        run tbl crc srt d ps = some d2 ∧ d2.msg = none ∧ d2.ring = bs :: zs := by
      intro xs ys hm1
      obtain ⟨ps, qs, d2, zs, e1, e2, e3⟩ := ih h2 hm1 hn
      refine ⟨o :: ps, qs, d2, zs, by rw [e1]; rfl, ?_, e3⟩
      simp only [run, h1]; exact e2
    rcases ring_step h1 with ⟨e, -, -⟩ | ⟨t, id, ret, m1, time, mem, s, e, -, -, e', -, -⟩ |
        ⟨t, time, mem, filename, argv, s, e, -, -, e', -, -⟩ | ⟨b, rest, eo, e0, e1, e2, -, -⟩ | ⟨oo, -, e, -⟩
    · exact again xs ys (by rw [e, hm])
    · exact again xs (ys ++ [Event.encode (Event.onExit s t (callOf e ret mem))]) (by rw [e', hm]; simp)
    · exact again xs (ys ++ [Event.encode (Event.onExecve s t mem filename argv time)]) (by rw [e', hm]; simp)
    · cases xs with
      | nil =>
        subst eo
        exact ⟨[], os, d, ys, rfl, rfl, e0, hm⟩
      | cons x xs =>
        rw [hm] at e1
        injection e1 with e1 e3
        exact again xs ys (by rw [e2, ← e3]; rfl)
    · exact again xs ys (by rw [e, hm])

/-- Registrations last until the job is deleted. -/
theorem registered_keeps (hist : List Op) (r : Spec.Hub.Reg) (rs : List Spec.Hub.Reg) (h : r ∈ rs)
    (hd : ∀ o ∈ hist, o ≠ .delete r.job.id) : r ∈ hist.foldl regStep rs := by
  induction hist generalizing rs with
  | nil => exact h
  | cons o os ih =>
    rw [List.foldl_cons]
    apply ih
    · cases o with
      | push j ns nr => simp only [regStep]; simp [h]
      | delete id =>
        simp only [regStep, List.mem_filter, decide_eq_true_eq]
        exact ⟨h, fun e => hd (.delete id) (by simp) (by rw [e])⟩
      | _ => exact h
    · intro o' ho'; exact hd o' (by simp [ho'])

theorem take_at {α : Type} {l xs ys : List α} {x : α} (h : l = xs ++ x :: ys) :
    l.take xs.length = xs ∧ l[xs.length]? = some x := by
  subst h
  simp

/-- The way of a sample. -/
theorem sample_way {P C : List Op} {d1 d : Daemon} (h1 : run tbl crc srt (fresh tbl) P = some d1)
    (h : run tbl crc srt (fresh tbl) (P ++ C) = some d) (hr : d.ring = []) (hm : d.msg = none)
    {xs : List (List Bytes.Byte)} {bs : List Bytes.Byte} (hb : d1.ring = xs ++ [bs]) :
    ∃ i, P.length ≤ i ∧ (P ++ C)[i]? = some .ingest ∧ ∀ ev, 
      Event.ingest tbl (some (fun ns => (containerOf ((P ++ C).take i) ns).map Topology.Container.copy)) (.bytes bs) = .ok ev →
      ev.container.isSome = true →
      ∃ k o d2 d3 out, i < k ∧ (P ++ C)[k]? = some (.route o) ∧
        run tbl crc srt (fresh tbl) ((P ++ C).take k) = some d2 ∧ d2.msg = some ev ∧
        step tbl crc srt d2 (.route o) = some (d3, out) := by
  have hC : run tbl crc srt d1 C = some d := by
    obtain ⟨dx, e1, e2⟩ := run_split h
    rw [h1] at e1
    injection e1 with e1
    subst e1; exact e2
  obtain ⟨ps, qs, d2, zs, e1, e2, e3, e4⟩ := sample_decoded C hC (xs := xs) (ys := []) hb hr
  have hP2 : run tbl crc srt (fresh tbl) (P ++ ps) = some d2 := by
    rw [run_append, h1]; exact e2
  obtain ⟨t1, t2⟩ := take_at (l := P ++ C) (xs := P ++ ps) (x := .ingest) (ys := qs) (by rw [e1]; simp)
  refine ⟨(P ++ ps).length, by simp, t2, ?_⟩
  intro ev hev hcont
  have hq : run tbl crc srt d2 (.ingest :: qs) = some d := by
    rw [e1] at hC
    obtain ⟨dx, f1, f2⟩ := run_split hC
    rw [e2] at f1
    injection f1 with f1
    subst f1; exact f2
  obtain ⟨d4, out4, s4, r4⟩ := run_cons_some hq
  have hlk : (fun ns => Topology.lookupContainer d2.cache ns) =
      (fun ns => (containerOf ((P ++ C).take (P ++ ps).length) ns).map Topology.Container.copy) := by
    funext ns
    rw [t1]
    exact lookup_run hP2 ns
  have hm4 : d4.msg = some ev := by
    rcases (ingest_elim s4).2 with ⟨-, e | e⟩ | ⟨b, rest, -, g2, ⟨g3, -⟩ | ⟨ev', g3, g4⟩⟩
    · exact absurd e3 e
    · rw [e4] at e; cases e
    · rw [e4] at g2; injection g2 with g2; subst g2
      rw [hlk, hev] at g3; cases g3
    · rw [e4] at g2; injection g2 with g2; subst g2
      rw [hlk, hev] at g3
      rw [ok_inj g3, g4]
      have : ev'.container.isSome = true := by rw [← ok_inj g3]; exact hcont
      simp only [this, if_true]
  obtain ⟨us, o, vs, d5, f1, f2, f3⟩ := msg_routed qs r4 hm4 hm
  have hall : P ++ C = (P ++ ps ++ .ingest :: us) ++ .route o :: vs := by rw [e1, f1]; simp
  obtain ⟨t3, t4⟩ := take_at hall
  have h5 : run tbl crc srt (fresh tbl) (P ++ ps ++ .ingest :: us) = some d5 := by
    rw [run_append, hP2]
    simp only [Option.bind_some, run, s4]
    exact f2
  have h6 : ∃ d6 out, step tbl crc srt d5 (.route o) = some (d6, out) := by
    rw [hall] at h
    obtain ⟨dx, g1, g2⟩ := run_split h
    rw [h5] at g1
    injection g1 with g1
    subst g1
    obtain ⟨d6, out6, g3, -⟩ := run_cons_some g2
    exact ⟨d6, out6, g3⟩
  obtain ⟨d6, out6, g3⟩ := h6
  refine ⟨(P ++ ps ++ .ingest :: us).length, o, d5, d6, out6, ?_, t4, by rw [t3]; exact h5, f3, g3⟩
  simp only [List.length_append, List.length_cons]
  omega

/-- What happens to a covered sample in a history after which the daemon is idle. -/
theorem way_of {P C : List Op} {d1 d : Daemon} (hsrt : PubSub.Node.IsSort srt) (hT : TableOK tbl)
    (h1 : run tbl crcString srt (fresh tbl) P = some d1)
    (h : run tbl crcString srt (fresh tbl) (P ++ C) = some d) (hidle : d.ring = [] ∧ d.msg = none)
    (hd : DetachOnce (P ++ C)) (hs : ∀ o ∈ P ++ C, SaneOp o)
    {xs : List (List Bytes.Byte)} {bs : List Bytes.Byte} (hb : d1.ring = xs ++ [bs])
    {ns nr : Nat} {sc : Syscalls.Syscall} (hl : Syscalls.lookup tbl (.int nr) = some sc)
    (Says : TraceEvent Topology.Container → Prop)
    (hsays : ∀ lk, ∃ ev, Event.ingest tbl (some lk) (.bytes bs) = .ok ev ∧ Says ev ∧ ev.pidNs = ns ∧
      ev.syscall = some sc ∧ ev.container = lk ev.pidNs)
    {j : Hub.Job} (hreg : (⟨j, ns, nr⟩ : Spec.Hub.Reg) ∈ registrations P)
    (hdel : ∀ o ∈ C, o ≠ .delete j.id) {e : Nat} (he : e < P.length) :
    Served tbl crcString srt (P ++ C) e ns nr sc j Says := by
  obtain ⟨i, hi, hi2, hway⟩ := sample_way h1 h hidle.1 hidle.2 hb
  refine ⟨i, by omega, hi2, ?_⟩
  intro c hc
  obtain ⟨ev, e1, e2, e3, e4, e5⟩ := hsays (fun ns => (containerOf ((P ++ C).take i) ns).map Topology.Container.copy)
  have hcont : ev.container = some c.copy := by rw [e5, e3, hc]; rfl
  obtain ⟨k, o, d2, d3, out, k1, k2, k3, k4, k5⟩ := hway ev e1 (by rw [hcont]; rfl)
  have hscnr : (sc.nr : Int) = nr := hT.2 nr sc hl
  have hw : (⟨j, ns, nr⟩ : Spec.Hub.Reg) ∈ wanting ((P ++ C).take k) ns nr := by
    unfold wanting
    rw [List.mem_filter]
    refine ⟨?_, by simp⟩
    have hk : P.length ≤ k := by omega
    rw [List.take_append, List.take_of_length_le hk]
    unfold registrations
    rw [List.foldl_append]
    apply registered_keeps
    · exact hreg
    · intro o ho
      exact hdel o (List.mem_of_mem_take ho)
  refine ⟨k, ev, k1, ⟨o, d2, k2, k3, k4⟩, e2, hcont, hw, ?_⟩
  intro ha u hu
  have hv : ∀ i, (o i).Valid := hs (.route o) (List.mem_of_getElem? k2)
  rcases route_elim k5 with ⟨-, -, g⟩ | ⟨ev', c', sc', hub, outs, g1, g2, g3, g4, g5, g6⟩
  · have := g ev k4; rw [hcont] at this; cases this
  · rw [k4] at g1; injection g1 with g1; subst g1
    rw [hcont] at g2; injection g2 with g2; subst g2
    rw [e4] at g3; injection g3 with g3; subst g3
    have hpair : wanting ((P ++ C).take k) ev.pidNs sc.nr = wanting ((P ++ C).take k) ns nr := by
      rw [e3, hscnr]
    have key := count_user hsrt (detachOnce_take hd k) k3 hv g4 (by rw [hpair]; exact List.ne_nil_of_mem hw) ha hu
    rw [hpair] at key
    subst g6
    constructor
    · intro ps ht
      rw [ht] at key
      exact ⟨_, d2, d3, _, k2, k3, k5, key⟩
    · intro id ht hid hrate
      rw [ht] at key
      exact ⟨_, d2, d3, _, k2, k3, k5, key hid hrate⟩

theorem covers_registered {hist : List Op} {j : Hub.Job} {ns nr : Int} (h : Covers tbl hist j ns nr) (rest : List Op)
    (hd : ∀ o ∈ rest, o ≠ .delete j.id) : (⟨j, ns, nr⟩ : Spec.Hub.Reg) ∈ registrations (hist ++ rest) := by
  obtain ⟨pre, mid, post, e, hdel, -⟩ := h
  subst e
  unfold registrations
  rw [List.append_assoc, List.foldl_append, List.cons_append, List.foldl_cons]
  apply registered_keeps
  · simp [regStep]
  · intro o ho
    simp only [List.mem_append, List.mem_cons, List.append_assoc, List.cons_append] at ho
    rcases ho with ho | rfl | ho | ho
    · exact hdel o (by simp [ho])
    · intro e; cases e
    · exact hdel o (by simp [ho])
    · exact hd o ho

/-- The exit of a recorded call writes its sample. -/
theorem exit_writes {d d' : Daemon} {t : Task} {id ret m1 time : BitVec 64} {mem : Mem} {s : KEvent} {out : List Delivery}
    {ek : Probe.EvKey} (hg : GoMap.get d.state (pack t.tgid t.pid) = some ek) (hid : id = ek.id)
    (h : step tbl crc srt d (.exit t id ret m1 time mem (some s) false) = some (d', out)) :
    d'.ring = d.ring ++ [Event.encode (Event.onExit s t
      { nr := id.setWidth 32, args := fun i => ek.args.getD i 0, uid := ek.uidGid.setWidth 32,
        gid := (ek.uidGid >>> 32).setWidth 32, start := ek.entr, ret := ret, mem := mem, finish := time })] := by
  obtain ⟨e, he⟩ := exit_emits (s := d.probe) (c := ctxOf t id m1 time) (ret := ret) hg hid
  obtain ⟨ek', g1, g2, g3, g4, g5, g6, g7⟩ := exit_event he
  rw [show GoMap.get d.probe.state (ctxOf t id m1 time).pidTgid = some ek from hg] at g1
  injection g1 with g1
  subst g1
  rcases (exit_elim h).2 with ⟨-, hx | hx⟩ | ⟨e', s', hx, hs, rfl⟩
  · rw [show (Probe.exit hasFiller d.probe (ctxOf t id m1 time) ret (some s).isSome).2 = some e from he] at hx; cases hx
  · cases hx
  · rw [show (Probe.exit hasFiller d.probe (ctxOf t id m1 time) ret (some s).isSome).2 = some e from he] at hx
    injection hx with hx
    subst hx
    injection hs with hs
    subst hs
    simp only [emit, Daemon.withProbe, callOf, g3, g4, g5, g6, g7, hid, Bool.false_eq_true, if_false]
    rfl

theorem execve_writes {d d' : Daemon} {t : Task} {time : BitVec 64} {mem : Mem} {filename argv : BitVec 64}
    {s : KEvent} {out : List Delivery}
    (hp : (Filter.step tbl d.hub.maps (.callEvent t.pidNs (ctxOf t 59 0 time).proc 59)).2 = true)
    (h : step tbl crc srt d (.execve t time mem filename argv (some s) false) = some (d', out)) :
    d'.ring = d.ring ++ [Event.encode (Event.onExecve s t mem filename argv time)] := by
  have he : ∃ e, (Probe.execve d.probe (ctxOf t 59 0 time) true).2 = some e := by
    unfold Probe.execve
    dsimp only
    have hd : (Filter.runNfilter d.probe.maps Filter.fmodeSyscall (ctxOf t 59 0 time).ns (ctxOf t 59 0 time).proc
        (ctxOf t 59 0 time).nr).2 ≠ Filter.factionDrop := by
      simp only [Filter.step] at hp
      have hp : ¬ (Filter.runNfilter d.hub.maps Filter.fmodeSyscall t.pidNs (ctxOf t 59 0 time).proc 59).2 =
        Filter.factionDrop := by simpa using hp
      exact hp
    rw [if_neg hd]
    exact ⟨_, rfl⟩
  obtain ⟨e, he⟩ := he
  rcases (execve_elim h).2 with ⟨-, hx | hx⟩ | ⟨e', s', hx, hs, rfl⟩
  · rw [show (Probe.execve d.probe (ctxOf t 59 0 time) (some s).isSome).2 = some e from he] at hx; cases hx
  · cases hx
  · injection hs with hs
    subst hs
    simp only [emit, Daemon.withProbe, Bool.false_eq_true, if_false]

theorem execve_ok (tbl : Syscalls.Syscalls) (lk : Int → Option Topology.Container) {s : KEvent} {t : Task} {mem : Mem}
    {filename argv time : BitVec 64} (hw : s.WF) (hc : t.comm.length = 16) :
    ∃ ev, Event.ingest tbl (some lk) (.bytes (Event.encode (Event.onExecve s t mem filename argv time))) = .ok ev := by
  obtain ⟨hwf, -, -⟩ := Lemmas.Event.execve_args s t mem filename argv time hw hc
  have hok := Lemmas.Event.ingest_ok tbl (some lk) _ hwf []
    [("filename", .cstr 0), ("argv[0]", .cstr 1), ("argv[1]", .cstr 2), ("argv[2]", .cstr 3),
      ("argv[3]", .empty)] (by show Event.decoders.lookup Event.nr.sys_execve = _; decide +kernel)
  rw [List.append_nil] at hok
  exact ⟨_, hok⟩

end Swoll.Lemmas.Daemon
