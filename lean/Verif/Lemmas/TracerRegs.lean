import Verif.Lemmas.TracerService
/-
What the job of `swoll trace` is registered for.
-/
namespace Swoll.Lemmas.Tracer
open Swoll Swoll.Tracer
open Swoll.Daemon (Daemon Delivery)
open Swoll.Event (TraceEvent)
open Swoll.Host (Format)
open Swoll.Spec.Daemon (Delivered registrations regStep users)
open Swoll.Spec.Tracer (announced)

variable {tbl : Syscalls.Syscalls} {crc : String → BitVec 64} {srt : List PubSub.Env → List PubSub.Env}
variable {fmt : Format} {json : TraceEvent Topology.Container → List Char}

/-- The registrations still to be made. -/
def pushes (as : List Service.Act) : List (Int × Int) :=
  as.filterMap (fun a => match a with | .push ns nr => some (ns, nr) | _ => none)

/-- What one container is to be registered for. -/
def pairs (tbl : Syscalls.Syscalls) (given : List String) (ns : Int) : List (Int × Int) :=
  (Spec.Tracer.names given).filterMap (fun n => (Syscalls.lookup tbl (.str n)).map (fun sc => (ns, (sc.nr : Int))))

theorem pushes_append (a b : List Service.Act) : pushes (a ++ b) = pushes a ++ pushes b := by
  unfold pushes; exact List.filterMap_append

theorem pushes_start (ns : Int) : ∀ names : List String, pushes (names.flatMap (Service.startActs tbl 0 ns)) =
    names.filterMap (fun n => (Syscalls.lookup tbl (.str n)).map (fun sc => (ns, (sc.nr : Int))))
  | [] => rfl
  | n :: names => by
    rw [List.flatMap_cons, pushes_append, pushes_start ns names, List.filterMap_cons]
    unfold Service.startActs
    cases Syscalls.lookup tbl (.str n) with
    | none => rfl
    | some sc => rfl

theorem pushes_none {as : List Service.Act} (h : ∀ ns nr, Service.Act.push ns nr ∉ as) : pushes as = [] := by
  unfold pushes
  rw [List.filterMap_eq_nil_iff]
  intro a ha
  cases a with
  | push ns nr => exact absurd ha (h ns nr)
  | _ => rfl

/-- What the callback is to register after a notice. -/
theorem pushes_notice {pr : Service.Proc} {id : String} {given : List String} (hs : pr.spec = spec id given)
    (ev : Option Topology.Event) :
    pushes ((Topology.processEvent true pr.cache ev).2.1.flatMap (Service.acts tbl pr.spec)) =
      (announced [.notice ev]).flatMap (pairs tbl given) := by
  by_cases h : ∃ c, ev = some ⟨0, some c⟩
  · obtain ⟨c, rfl⟩ := h
    by_cases hpos : 0 < c.pidns
    · have hneg : ¬ c.pidns ≤ 0 := by omega
      have hpe : (Topology.processEvent true pr.cache (some ⟨0, some c⟩)).2.1 =
          [⟨Topology.typeStart, c, GoMap.set pr.cache c.pidns c⟩] := by
        simp only [Topology.processEvent, if_neg hneg]
        rfl
      rw [hpe]
      simp only [announced, List.filterMap_cons, hpos, if_true, List.filterMap_nil, List.flatMap_cons, List.flatMap_nil, List.append_nil]
      unfold Service.acts
      rw [if_neg (show ¬ Topology.typeStart = Topology.typeStop by decide), if_pos rfl, hs]
      show pushes (List.flatMap (Service.startActs tbl 0 c.pidns) (Host.namesOf given)) = _
      rw [pushes_start]
      rfl
    · have hpe : (Topology.processEvent true pr.cache (some ⟨0, some c⟩)).2.1 = [] := by
        simp only [Topology.processEvent, if_pos (show c.pidns ≤ 0 by omega)]
      rw [hpe]
      simp [announced, hpos, pushes]
  · rw [pushes_none (fun ns nr => Lemmas.Service.notice_no_push (fun c e => h ⟨c, e⟩) ns nr)]
    have : announced [.notice ev] = [] := by
      unfold announced
      rw [List.filterMap_eq_nil_iff]
      intro a ha
      rw [List.mem_singleton] at ha
      subst ha
      split
      · rename_i heq
        injection heq with e
        exact absurd ⟨_, e⟩ h
      · rfl
    rw [this]; rfl

/-- The registrations made and to be made are some of those wanted, each no more often than wanted. -/
structure Regs (tbl : Syscalls.Syscalls) (id : String) (given : List String) (ops : List Op) (t : Tracer) : Prop where
  spec : t.proc.spec = spec id given
  jobs : ∀ r ∈ registrations t.log, r.job = ⟨0, id, 0⟩
  sub : ((registrations t.log).map (fun r => (r.ns, r.nr)) ++ pushes t.proc.todo).Sublist
    ((announced ops).flatMap (pairs tbl given))

theorem announced_append (a b : List Op) : announced (a ++ b) = announced a ++ announced b := by
  unfold announced; exact List.filterMap_append

theorem regs_step {id : String} {given : List String} {xs : List Op} {t t' : Tracer} {op : Op}
    (h : step tbl crc srt fmt json t op = some t') (hr : Regs tbl id given xs t) : Regs tbl id given (xs ++ [op]) t' := by
  obtain ⟨t1, ds, hm, hp⟩ := step_elim h
  suffices H : Regs tbl id given (xs ++ [op]) t1 by
    rcases hp with ⟨rfl, -⟩ | ⟨o, env, ls, -, -, rfl⟩
    · exact H
    · exact ⟨H.spec, H.jobs, H.sub⟩
  have grow : ∀ l : List (Int × Int), l.Sublist ((announced xs).flatMap (pairs tbl given)) →
      l.Sublist ((announced (xs ++ [op])).flatMap (pairs tbl given)) := by
    intro l hl
    rw [announced_append, List.flatMap_append]
    exact hl.trans (List.sublist_append_left _ _)
  cases move_goes hm with
  | idle op => exact ⟨hr.spec, hr.jobs, grow _ hr.sub⟩
  | outside o env d out ho hd =>
    have ha := (Lemmas.Service.aside_outside (tbl := tbl) ho).1
    refine ⟨hr.spec, ?_, ?_⟩ <;> dsimp only <;> rw [Lemmas.Service.regs_snoc, ha]
    · exact hr.jobs
    · exact grow _ hr.sub
  | notice ev ht =>
    refine ⟨hr.spec, hr.jobs, ?_⟩
    have := hr.sub
    rw [ht] at this
    dsimp only
    rw [pushes_notice hr.spec, announced_append, List.flatMap_append]
    refine List.Sublist.append ?_ (List.Sublist.refl _)
    simpa [pushes] using this
  | work f a rest o d out ht ha hd =>
    have hsub := hr.sub
    rw [ht] at hsub
    have hrest : (pushes (if Service.goesOn tbl t.daemon.hub.maps t.proc.spec.job f a then rest else [])).Sublist (pushes rest) := by
      split
      · exact List.Sublist.refl _
      · exact List.nil_sublist _
    have hj : t.proc.spec.job = ⟨0, id, 0⟩ := by rw [hr.spec]; rfl
    cases a with
    | push ns nr =>
      simp only [Service.actOp, Option.some.injEq] at ha
      subst ha
      refine ⟨hr.spec, ?_, ?_⟩ <;> dsimp only <;> rw [Lemmas.Service.regs_snoc]
      · intro r hx
        rcases List.mem_append.1 hx with hx | hx
        · exact hr.jobs r hx
        · rw [List.mem_singleton] at hx; subst hx; exact hj
      · refine grow _ (List.Sublist.trans ?_ hsub)
        simp only [regStep, List.map_append, List.map_cons, List.map_nil, List.append_assoc, List.cons_append, List.nil_append]
        refine List.Sublist.append (List.Sublist.refl _) ?_
        exact List.Sublist.cons_cons _ hrest
    | crash => simp [Service.actOp] at ha
    | swap ns nr =>
      simp only [Service.actOp, Option.some.injEq] at ha
      subst ha
      refine ⟨hr.spec, ?_, ?_⟩ <;> dsimp only <;> rw [Lemmas.Service.regs_snoc]
      · exact hr.jobs
      · exact grow _ (List.Sublist.trans (List.Sublist.append (List.Sublist.refl _) hrest) hsub)
    | addSampled ns nr =>
      simp only [Service.actOp, Option.some.injEq] at ha
      subst ha
      refine ⟨hr.spec, ?_, ?_⟩ <;> dsimp only <;> rw [Lemmas.Service.regs_snoc]
      · exact hr.jobs
      · exact grow _ (List.Sublist.trans (List.Sublist.append (List.Sublist.refl _) hrest) hsub)
    | addSyscall ns nr =>
      simp only [Service.actOp, Option.some.injEq] at ha
      subst ha
      refine ⟨hr.spec, ?_, ?_⟩ <;> dsimp only <;> rw [Lemmas.Service.regs_snoc]
      · exact hr.jobs
      · exact grow _ (List.Sublist.trans (List.Sublist.append (List.Sublist.refl _) hrest) hsub)
    | removeSyscall ns nr =>
      simp only [Service.actOp, Option.some.injEq] at ha
      subst ha
      refine ⟨hr.spec, ?_, ?_⟩ <;> dsimp only <;> rw [Lemmas.Service.regs_snoc]
      · exact hr.jobs
      · exact grow _ (List.Sublist.trans (List.Sublist.append (List.Sublist.refl _) hrest) hsub)
  | attach draw d out hn hd =>
    refine ⟨hr.spec, ?_, ?_⟩ <;> dsimp only <;> rw [Lemmas.Service.regs_snoc]
    · exact hr.jobs
    · exact grow _ hr.sub

theorem regs_run {id : String} {given : List String} {t : Tracer} {ops : List Op}
    (h : run tbl crc srt fmt json (start tbl id given) ops = some t) : Regs tbl id given ops t :=
  run_induct (P := Regs tbl id given) h ⟨rfl, fun r hr => (by cases hr), List.nil_sublist _⟩
    (fun _ _ _ _ _ hs hp => regs_step hs hp)

theorem nodup_pairs {given : List String} (ha : Spec.Tracer.Apart tbl given) (ns : Int) : (pairs tbl given ns).Nodup := by
  unfold Spec.Tracer.Apart at ha
  unfold pairs
  generalize Spec.Tracer.names given = l at *
  induction l with
  | nil => exact .nil
  | cons n l ih =>
    rw [List.map_cons, List.nodup_cons] at ha
    rw [List.filterMap_cons]
    cases hn : Syscalls.lookup tbl (.str n) with
    | none => exact ih ha.2
    | some sc =>
      simp only [Option.map_some]
      rw [List.nodup_cons]
      refine ⟨?_, ih ha.2⟩
      rw [List.mem_filterMap]
      rintro ⟨m, hm, e⟩
      apply ha.1
      rw [hn]
      rw [Option.map_eq_some_iff] at e
      obtain ⟨sc', e1, e2⟩ := e
      simp only [Prod.mk.injEq, true_and] at e2
      refine List.mem_map.2 ⟨m, hm, ?_⟩
      rw [e1]
      simp only [Option.map_some]
      congr 1
      omega

theorem fst_pairs {given : List String} {ns : Int} {x : Int × Int} (h : x ∈ pairs tbl given ns) :
    x.1 = ns ∧ ∃ name ∈ Spec.Tracer.names given, ∃ sc, Syscalls.lookup tbl (.str name) = some sc ∧ (sc.nr : Int) = x.2 := by
  unfold pairs at h
  rw [List.mem_filterMap] at h
  obtain ⟨n, hn, e⟩ := h
  rw [Option.map_eq_some_iff] at e
  obtain ⟨sc, e1, rfl⟩ := e
  exact ⟨rfl, n, hn, sc, e1, rfl⟩

theorem nodup_all {given : List String} (ha : Spec.Tracer.Apart tbl given) : ∀ {l : List Int}, l.Nodup →
    (l.flatMap (pairs tbl given)).Nodup
  | [], _ => .nil
  | ns :: l, h => by
    rw [List.nodup_cons] at h
    rw [List.flatMap_cons, List.nodup_append]
    refine ⟨nodup_pairs ha ns, nodup_all ha h.2, ?_⟩
    intro x hx y hy e
    subst e
    rw [List.mem_flatMap] at hy
    obtain ⟨ns', h1, h2⟩ := hy
    have := (fst_pairs hx).1
    rw [(fst_pairs h2).1] at this
    subst this
    exact h.1 h1

theorem mem_announced {ops : List Op} {ns : Int} (h : ns ∈ announced ops) : Spec.Tracer.Announced ops ns := by
  unfold announced at h
  rw [List.mem_filterMap] at h
  obtain ⟨op, ho, e⟩ := h
  split at e
  · rename_i c
    split at e
    · rename_i hpos
      injection e with e
      exact ⟨c, ho, hpos, e⟩
    · cases e
  · cases e

/-- A registration is for a container announced and a call named. -/
theorem reg_wanted {id : String} {given : List String} {ops : List Op} {t : Tracer} (hr : Regs tbl id given ops t)
    {r : Spec.Hub.Reg} (h : r ∈ registrations t.log) :
    Spec.Tracer.Announced ops r.ns ∧ ∃ name ∈ Spec.Tracer.names given, ∃ sc, Syscalls.lookup tbl (.str name) = some sc ∧ (sc.nr : Int) = r.nr := by
  have hm : (r.ns, r.nr) ∈ (announced ops).flatMap (pairs tbl given) :=
    hr.sub.subset (List.mem_append_left _ (List.mem_map_of_mem (f := fun r : Spec.Hub.Reg => (r.ns, r.nr)) h))
  rw [List.mem_flatMap] at hm
  obtain ⟨ns, h1, h2⟩ := hm
  obtain ⟨e, h3⟩ := fst_pairs h2
  simp only at e
  subst e
  exact ⟨mem_announced h1, h3⟩

/-- In a list without duplicates a value occurs once at most. -/
theorem filter_le_one {α β : Type} [DecidableEq β] {f : α → β} : ∀ {l : List α} (b : β), (l.map f).Nodup →
    (l.filter (fun a => decide (f a = b))).length ≤ 1
  | [], _, _ => by simp
  | a :: l, b, h => by
    rw [List.map_cons, List.nodup_cons] at h
    rw [List.filter_cons]
    split
    · rename_i e
      have e : f a = b := of_decide_eq_true e
      have : l.filter (fun a => decide (f a = b)) = [] := by
        rw [List.filter_eq_nil_iff]
        intro x hx e'
        apply h.1
        rw [e, ← of_decide_eq_true e']
        exact List.mem_map_of_mem (f := f) hx
      rw [this]; simp
    · exact filter_le_one b h.2

end Swoll.Lemmas.Tracer
