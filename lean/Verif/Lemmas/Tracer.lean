import Verif.Spec.Tracer
import Verif.Props.Serving
/-
`swoll trace` as a server with one job and one client, and the lines it prints as deliveries.
-/
namespace Swoll.Lemmas.Tracer
open Swoll Swoll.Tracer
open Swoll.Daemon (Daemon Delivery)
open Swoll.Event (TraceEvent)
open Swoll.Host (Format)
open Swoll.Spec.Daemon (Delivered registrations regStep users)

variable {tbl : Syscalls.Syscalls} {crc : String → BitVec 64} {srt : List PubSub.Env → List PubSub.Env}
variable {fmt : Format} {json : TraceEvent Topology.Container → List Char}

/-- The moves. -/
inductive Goes (tbl : Syscalls.Syscalls) (crc : String → BitVec 64) (srt : List PubSub.Env → List PubSub.Env)
    (t : Tracer) : Op → Tracer → List Delivery → Prop
  | idle (op : Op) : Goes tbl crc srt t op t []
  | outside (o : Daemon.Op) (env : Print.Env) (d : Daemon) (out : List Delivery) (ho : Service.isOutside o = true)
      (h : Daemon.step tbl crc srt t.daemon o = some (d, out)) :
      Goes tbl crc srt t (.outside o env) { t with daemon := d, log := t.log ++ [o] } out
  | notice (ev : Option Topology.Event) (ht : t.proc.todo = []) :
      Goes tbl crc srt t (.notice ev)
        { t with proc := ⟨t.proc.spec, (Topology.processEvent true t.proc.cache ev).1,
          (Topology.processEvent true t.proc.cache ev).2.1.flatMap (Service.acts tbl t.proc.spec)⟩ } []
  | work (f : Filter.Faults) (a : Service.Act) (rest : List Service.Act) (o : Daemon.Op) (d : Daemon)
      (out : List Delivery) (ht : t.proc.todo = a :: rest) (ha : Service.actOp t.proc.spec.job f a = some o)
      (h : Daemon.step tbl crc srt t.daemon o = some (d, out)) :
      Goes tbl crc srt t (.work f)
        { t with daemon := d, log := t.log ++ [o],
                 proc := { t.proc with todo := if Service.goesOn tbl t.daemon.hub.maps t.proc.spec.job f a then rest else [] } } out
  | attach (draw : Int) (d : Daemon) (out : List Delivery) (hn : t.attached = false)
      (h : Daemon.step tbl crc srt t.daemon (.attachTrace t.proc.spec.job.id draw) = some (d, out)) :
      Goes tbl crc srt t (.attach draw)
        { t with daemon := d, log := t.log ++ [.attachTrace t.proc.spec.job.id draw], attached := true } out

theorem perform_elim {t t' : Tracer} {o : Daemon.Op} {out : List Delivery}
    (h : perform tbl crc srt t o = some (t', out)) :
    ∃ d, Daemon.step tbl crc srt t.daemon o = some (d, out) ∧ t' = { t with daemon := d, log := t.log ++ [o] } := by
  unfold perform at h
  rw [Option.map_eq_some_iff] at h
  obtain ⟨⟨d, out'⟩, h1, h2⟩ := h
  simp only [Prod.mk.injEq] at h2
  obtain ⟨h2, rfl⟩ := h2
  exact ⟨d, h1, h2.symm⟩

theorem move_goes {t t' : Tracer} {op : Op} {out : List Delivery} (h : move tbl crc srt t op = some (t', out)) :
    Goes tbl crc srt t op t' out := by
  cases op with
  | outside o env =>
    simp only [move] at h
    split at h
    · obtain ⟨d, h1, rfl⟩ := perform_elim h
      exact .outside o env d out (by assumption) h1
    · obtain ⟨rfl, rfl⟩ := Lemmas.Service.done_elim h; exact .idle _
  | notice ev =>
    simp only [move] at h
    split at h
    · obtain ⟨rfl, rfl⟩ := Lemmas.Service.done_elim h; exact .idle _
    · obtain ⟨rfl, rfl⟩ := Lemmas.Service.done_elim h; exact .notice ev (by assumption)
  | work f =>
    simp only [move] at h
    split at h
    · obtain ⟨rfl, rfl⟩ := Lemmas.Service.done_elim h; exact .idle _
    · rename_i a rest ht
      split at h
      · cases h
      · rename_i o ha
        rw [Option.map_eq_some_iff] at h
        obtain ⟨⟨t1, out1⟩, h1, h2⟩ := h
        obtain ⟨d, h3, rfl⟩ := perform_elim h1
        simp only [Prod.mk.injEq] at h2
        obtain ⟨rfl, rfl⟩ := h2
        exact .work f a rest o d _ ht ha h3
  | attach draw =>
    simp only [move] at h
    split at h
    · obtain ⟨rfl, rfl⟩ := Lemmas.Service.done_elim h; exact .idle _
    · rename_i hn
      rw [Option.map_eq_some_iff] at h
      obtain ⟨⟨t1, out1⟩, h1, h2⟩ := h
      obtain ⟨d, h3, rfl⟩ := perform_elim h1
      simp only [Prod.mk.injEq] at h2
      obtain ⟨rfl, rfl⟩ := h2
      exact .attach draw d _ (by simpa using hn) h3

/-- A step is a move, and prints what the move hands out. -/
theorem step_elim {t t' : Tracer} {op : Op} (h : step tbl crc srt fmt json t op = some t') :
    ∃ t1 ds, move tbl crc srt t op = some (t1, ds) ∧
      ((t' = t1 ∧ ∀ o env, op ≠ .outside o env) ∨
        ∃ o env ls, op = .outside o env ∧ lines fmt env json ds = some ls ∧ t' = { t1 with out := t1.out ++ ls }) := by
  unfold step at h
  split at h
  · cases h
  · rename_i t1 ds hm
    refine ⟨t1, ds, hm, ?_⟩
    split at h
    · rename_i o env
      rw [Option.map_eq_some_iff] at h
      obtain ⟨ls, h1, h2⟩ := h
      exact Or.inr ⟨o, env, ls, rfl, h1, h2.symm⟩
    · rename_i hne
      injection h with h
      exact Or.inl ⟨h.symm, fun o env e => hne o env e⟩

theorem run_append (xs ys : List Op) (t : Tracer) :
    run tbl crc srt fmt json t (xs ++ ys) = (run tbl crc srt fmt json t xs).bind (fun t' => run tbl crc srt fmt json t' ys) := by
  induction xs generalizing t with
  | nil => rfl
  | cons x xs ih =>
    simp only [List.cons_append, run]
    cases step tbl crc srt fmt json t x with
    | none => rfl
    | some r => exact ih _

theorem run_cons_some {o : Op} {os : List Op} {t t' : Tracer} (h : run tbl crc srt fmt json t (o :: os) = some t') :
    ∃ t1, step tbl crc srt fmt json t o = some t1 ∧ run tbl crc srt fmt json t1 os = some t' := by
  simp only [run] at h
  cases hs : step tbl crc srt fmt json t o with
  | none => rw [hs] at h; cases h
  | some r => rw [hs] at h; exact ⟨r, rfl, h⟩

/-- Something that every step preserves holds after every history. -/
theorem run_induct {P : List Op → Tracer → Prop} {t0 t' : Tracer} {ops : List Op} (h : run tbl crc srt fmt json t0 ops = some t')
    (h0 : P [] t0) (hs : ∀ xs t op t', op ∈ ops → step tbl crc srt fmt json t op = some t' → P xs t → P (xs ++ [op]) t') : P ops t' := by
  suffices H : ∀ (ys xs : List Op) (t : Tracer), (∀ o ∈ ys, o ∈ ops) → P xs t → run tbl crc srt fmt json t ys = some t' → P (xs ++ ys) t' by
    exact H ops [] t0 (fun _ h => h) h0 h
  intro ys
  induction ys with
  | nil => intro xs t _ hp h; simp only [run, Option.some.injEq] at h; subst h; rw [List.append_nil]; exact hp
  | cons y ys ih =>
    intro xs t hsub hp h
    obtain ⟨t1, h1, h2⟩ := run_cons_some h
    have := ih (xs ++ [y]) t1 (fun o ho => hsub o (by simp [ho])) (hs xs t y t1 (hsub y (by simp)) h1 hp) h2
    rwa [List.append_assoc] at this

/-! ### The lines are the deliveries -/

/-- A step of the tracer is at most one step of the daemon, and what is handed out is printed. -/
theorem step_log {t t' : Tracer} {op : Op} (h : step tbl crc srt fmt json t op = some t') :
    (t'.log = t.log ∧ t'.daemon = t.daemon ∧ t'.out = t.out) ∨
    ∃ o ds, t'.log = t.log ++ [o] ∧ Daemon.step tbl crc srt t.daemon o = some (t'.daemon, ds) ∧
      ((ds = [] ∧ t'.out = t.out) ∨ ∃ env ls, lines fmt env json ds = some ls ∧ t'.out = t.out ++ ls) := by
  obtain ⟨t1, ds, hm, hp⟩ := step_elim h
  have hg := move_goes hm
  cases hg with
  | idle op =>
    rcases hp with ⟨rfl, -⟩ | ⟨o, env, ls, -, hl, rfl⟩
    · exact Or.inl ⟨rfl, rfl, rfl⟩
    · simp only [lines, Option.some.injEq] at hl
      subst hl
      exact Or.inl ⟨rfl, rfl, by simp⟩
  | outside o env d out ho hd =>
    rcases hp with ⟨-, hne⟩ | ⟨o', env', ls, e, hl, rfl⟩
    · exact absurd rfl (hne o env)
    · exact Or.inr ⟨o, ds, rfl, hd, Or.inr ⟨env', ls, hl, rfl⟩⟩
  | notice ev ht =>
    rcases hp with ⟨rfl, -⟩ | ⟨o, env, ls, e, -, -⟩
    · exact Or.inl ⟨rfl, rfl, rfl⟩
    · cases e
  | work f a rest o d out ht ha hd =>
    rcases hp with ⟨rfl, -⟩ | ⟨o, env, ls, e, -, -⟩
    · refine Or.inr ⟨o, ds, rfl, hd, Or.inl ⟨?_, rfl⟩⟩
      cases a <;> simp only [Service.actOp, Option.some.injEq, reduceCtorEq] at ha <;> subst ha <;>
        simp only [Daemon.step, Option.some.injEq, Prod.mk.injEq, Option.map_eq_some_iff] at hd
      · exact hd.2.symm
      · obtain ⟨_, -, -, e⟩ := hd; exact e.symm
      · exact hd.2.symm
      · exact hd.2.symm
      · exact hd.2.symm
    · cases e
  | attach draw d out hn hd =>
    rcases hp with ⟨rfl, -⟩ | ⟨o, env, ls, e, -, -⟩
    · refine Or.inr ⟨_, ds, rfl, hd, Or.inl ⟨?_, rfl⟩⟩
      simp only [Daemon.step, Option.map_eq_some_iff, Prod.mk.injEq] at hd
      obtain ⟨_, -, -, e⟩ := hd; exact e.symm
    · cases e

/-- One line printed, with the position in the log at which it was. -/
structure Shown where
  k : Nat
  del : Delivery
  env : Print.Env

theorem lines_map {env : Print.Env} : ∀ {ds : List Delivery} {ls : List (List Char)}, lines fmt env json ds = some ls →
    ls.map some = ds.map (fun d => showMsg fmt env json d.2)
  | [], ls, h => by simp only [lines, Option.some.injEq] at h; subst h; rfl
  | d :: ds, ls, h => by
    simp only [lines] at h
    split at h
    · cases h
    · rename_i l hl
      rw [Option.map_eq_some_iff] at h
      obtain ⟨ls', h1, rfl⟩ := h
      simp only [List.map_cons, lines_map h1, hl]

/-- What was printed is what was handed out, in order. -/
structure Printed (tbl : Syscalls.Syscalls) (crc : String → BitVec 64) (srt : List PubSub.Env → List PubSub.Env)
    (fmt : Format) (json : TraceEvent Topology.Container → List Char) (t : Tracer) (sh : List Shown) : Prop where
  logged : Daemon.run tbl crc srt (Daemon.fresh tbl) t.log = some t.daemon
  text : t.out.map some = sh.map (fun x => showMsg fmt x.env json x.del.2)
  below : ∀ x ∈ sh, x.k < t.log.length
  sorted : sh.Pairwise (fun x y => x.k ≤ y.k)
  at_ : ∀ (k : Nat) o d d' out, t.log[k]? = some o → Daemon.run tbl crc srt (Daemon.fresh tbl) (t.log.take k) = some d →
    Daemon.step tbl crc srt d o = some (d', out) → (sh.filter (fun x => x.k = k)).map (·.del) = out

theorem printed_start (id : String) (given : List String) : Printed tbl crc srt fmt json (start tbl id given) [] where
  logged := rfl
  text := rfl
  below := by simp
  sorted := .nil
  at_ := by intro k o d d' out h; simp [start] at h

theorem printed_step {t t' : Tracer} {op : Op} (h : step tbl crc srt fmt json t op = some t') {sh : List Shown}
    (hp : Printed tbl crc srt fmt json t sh) : ∃ sh', Printed tbl crc srt fmt json t' sh' := by
  rcases step_log h with ⟨h1, h2, h3⟩ | ⟨o, ds, h1, h2, h3⟩
  · exact ⟨sh, by rw [h1, h2]; exact hp.logged, by rw [h3]; exact hp.text, by rw [h1]; exact hp.below, hp.sorted,
      by rw [h1]; exact hp.at_⟩
  · have hlog : Daemon.run tbl crc srt (Daemon.fresh tbl) t'.log = some t'.daemon := by
      rw [h1, Lemmas.Daemon.run_append, hp.logged]
      simp only [Option.bind_some, Daemon.run, h2]
    obtain ⟨env, ls, e1, e2, e3⟩ : ∃ env ls, ls.map some = ds.map (fun d => showMsg fmt env json d.2) ∧
        t'.out = t.out ++ ls ∧ True := by
      rcases h3 with ⟨rfl, h3⟩ | ⟨env, ls, g1, g2⟩
      · exact ⟨⟨fun _ => [], fun _ _ => [], fun _ _ => []⟩, [], rfl, by simpa using h3, trivial⟩
      · exact ⟨env, ls, lines_map g1, g2, trivial⟩
    refine ⟨sh ++ ds.map (fun d => ⟨t.log.length, d, env⟩), hlog, ?_, ?_, ?_, ?_⟩
    · rw [e2, List.map_append, List.map_append, hp.text, e1, List.map_map]; rfl
    · intro x hx
      rw [h1, List.length_append, List.length_singleton]
      rcases List.mem_append.1 hx with hx | hx
      · exact Nat.lt_succ_of_lt (hp.below x hx)
      · obtain ⟨d, -, rfl⟩ := List.mem_map.1 hx
        exact Nat.lt_succ_self _
    · refine List.pairwise_append.2 ⟨hp.sorted, ?_, ?_⟩
      · rw [List.pairwise_map]
        exact List.pairwise_of_forall (fun _ _ => Nat.le_refl _)
      · intro x hx y hy
        obtain ⟨d, -, rfl⟩ := List.mem_map.1 hy
        exact Nat.le_of_lt (hp.below x hx)
    · intro k o' d d' out g1 g2 g3
      rw [List.filter_append, List.map_append]
      by_cases hk : k < t.log.length
      · rw [h1, List.getElem?_append_left hk] at g1
        rw [h1, List.take_append_of_le_length (Nat.le_of_lt hk)] at g2
        have hnil : (ds.map (fun d => (⟨t.log.length, d, env⟩ : Shown))).filter (fun x => x.k = k) = [] := by
          rw [List.filter_eq_nil_iff]
          intro x hx
          obtain ⟨d, -, rfl⟩ := List.mem_map.1 hx
          simp only [decide_eq_true_eq]
          omega
        rw [hnil, List.map_nil, List.append_nil]
        exact hp.at_ k o' d d' out g1 g2 g3
      · have hk' : k = t.log.length := by
          have := (List.getElem?_eq_some_iff.1 g1).1
          rw [h1, List.length_append, List.length_singleton] at this
          omega
        subst hk'
        rw [h1, List.getElem?_append_right (Nat.le_refl _), Nat.sub_self] at g1
        injection g1 with g1
        subst g1
        rw [h1, List.take_left, hp.logged] at g2
        injection g2 with g2
        subst g2
        rw [h2] at g3
        injection g3 with g3
        injection g3 with _ g3
        subst g3
        have hnil : sh.filter (fun x => x.k = t.log.length) = [] := by
          rw [List.filter_eq_nil_iff]
          intro x hx
          simp only [decide_eq_true_eq]
          exact Nat.ne_of_lt (hp.below x hx)
        have hall : (ds.map (fun d => (⟨t.log.length, d, env⟩ : Shown))).filter (fun x => x.k = t.log.length) =
            ds.map (fun d => ⟨t.log.length, d, env⟩) := by
          rw [List.filter_eq_self]
          intro x hx
          obtain ⟨d, -, rfl⟩ := List.mem_map.1 hx
          simp
        rw [hnil, hall, List.map_nil, List.nil_append, List.map_map]
        exact List.map_id _

theorem printed_run {id : String} {given : List String} {t : Tracer} {ops : List Op}
    (h : run tbl crc srt fmt json (start tbl id given) ops = some t) : ∃ sh, Printed tbl crc srt fmt json t sh :=
  run_induct (P := fun _ x => ∃ sh, Printed tbl crc srt fmt json x sh) h ⟨[], printed_start id given⟩
    (fun _ _ _ _ _ hs ⟨_, hp⟩ => printed_step hs hp)

/-- A line was handed out at its position. -/
theorem printed_delivered {t : Tracer} {sh : List Shown} (hp : Printed tbl crc srt fmt json t sh) {x : Shown} (hx : x ∈ sh) :
    Delivered tbl crc srt t.log x.k x.del.1 x.del.2 := by
  have hk := hp.below x hx
  obtain ⟨o, ho⟩ : ∃ o, t.log[x.k]? = some o := ⟨_, List.getElem?_eq_getElem hk⟩
  have hl := hp.logged
  rw [← List.take_append_drop x.k t.log] at hl
  obtain ⟨d, h1, h2⟩ := Lemmas.Daemon.run_split hl
  rw [List.drop_eq_getElem_cons hk] at h2
  obtain ⟨d', out, h3, -⟩ := Lemmas.Daemon.run_cons_some h2
  rw [List.getElem?_eq_getElem hk] at ho
  refine ⟨_, d, d', out, List.getElem?_eq_getElem hk, h1, h3, ?_⟩
  rw [← hp.at_ x.k _ d d' out (List.getElem?_eq_getElem hk) h1 h3]
  exact List.mem_map_of_mem (f := fun x : Shown => x.del) (List.mem_filter.2 ⟨hx, by simp⟩)

end Swoll.Lemmas.Tracer
