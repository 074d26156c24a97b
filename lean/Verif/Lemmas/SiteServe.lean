import Verif.Lemmas.SiteSync
import Verif.Lemmas.DaemonSample
/-
Lemmas about a pod that stays as it is: nobody says its containers stopped, and nobody takes their rules away.
-/
namespace Swoll.Lemmas.SiteServe
open Swoll Swoll.Site Swoll.Spec.Site Swoll.Lemmas.Site Swoll.Lemmas.SiteSync
open Swoll.Cluster (Key Pod Api Watcher Sel Change selected)
open Swoll.Lemmas.Service

variable {a : Api} {tbl : Syscalls.Syscalls} {crc : String → BitVec 64} {srt : List PubSub.Env → List PubSub.Env}

theorem run_snoc {ops : List Op} {op : Op} {s s' : Site} (h : run a tbl crc srt s (ops ++ [op]) = some s') :
    ∃ s1 out, run a tbl crc srt s ops = some s1 ∧ step a tbl crc srt s1 op = some (s', out) := by
  induction ops generalizing s with
  | nil =>
    simp only [List.nil_append, run] at h
    split at h
    · cases h
    · next s1 out h1 => injection h with h; subst h; exact ⟨s, out, rfl, h1⟩
  | cons x xs ih =>
    simp only [List.cons_append, run] at h
    split at h
    · cases h
    · next s1 out h1 =>
      obtain ⟨s2, out2, g1, g2⟩ := ih h
      exact ⟨s2, out2, by simp only [run, h1]; exact g1, g2⟩

theorem run_append {xs ys : List Op} {s s1 : Site} (h : run a tbl crc srt s xs = some s1) :
    run a tbl crc srt s (xs ++ ys) = run a tbl crc srt s1 ys := by
  induction xs generalizing s with
  | nil => injection h with h; subst h; rfl
  | cons x xs ih =>
    simp only [run] at h
    split at h
    · cases h
    · next s2 out h1 => simp only [List.cons_append, run, h1]; exact ih h

/-! ### The server's side -/

/-- Rules are taken away only for containers that a goroutine was told stopped; without sampled requests no rule
is a sampled one. -/
structure Quiet (ops : List Service.Op) (x : Service.Service) : Prop where
  bodies : ∀ b ∈ x.bodies, b.rate ≤ 0
  rate : ∀ pr ∈ x.procs, pr.spec.job.rate ≤ 0
  todo : ∀ pr ∈ x.procs, ∀ act ∈ pr.todo, (∀ ns nr, act ≠ .addSampled ns nr) ∧
    ∀ ns nr, act = .removeSyscall ns nr → ∃ p c, .notice p (some ⟨1, some c⟩) ∈ ops ∧ c.pidns = ns
  log : ∀ o ∈ x.log, (∀ k ns r f, o ≠ .addSampled k ns r f) ∧ (∀ j ns nr, o = .push j ns nr → j.rate ≤ 0) ∧
    ∀ k ns, o = .removeSyscall k ns → ∃ p c, .notice p (some ⟨1, some c⟩) ∈ ops ∧ c.pidns = ns

theorem acts_quiet {s : Hub.Spec} (hr : s.job.rate ≤ 0) {c : Topology.Call} {act : Service.Act}
    (h : act ∈ Service.acts tbl s c) : (∀ ns nr, act ≠ .addSampled ns nr) ∧
    ∀ ns nr, act = .removeSyscall ns nr → c.type = 1 ∧ c.container.pidns = ns := by
  unfold Service.acts at h
  split at h
  · next ht =>
    obtain ⟨name, -, h2⟩ := List.mem_flatMap.1 h
    unfold Service.stopActs at h2
    split at h2
    · rw [List.mem_singleton] at h2; subst h2
      exact ⟨(fun _ _ e => by cases e), (fun _ _ e => by cases e)⟩
    · rw [List.mem_singleton] at h2; subst h2
      exact ⟨(fun _ _ e => by cases e), (fun _ _ e => by injection e with e1 e2; exact ⟨ht, e1⟩)⟩
  · split at h
    · split at h
      · obtain ⟨name, -, h2⟩ := List.mem_flatMap.1 h
        unfold Service.startActs at h2
        split at h2
        · rw [List.mem_singleton] at h2; subst h2
          exact ⟨(fun _ _ e => by cases e), (fun _ _ e => by cases e)⟩
        · rw [if_neg (by omega)] at h2
          simp only [List.nil_append, List.mem_cons, List.not_mem_nil, or_false] at h2
          rcases h2 with rfl | rfl <;> exact ⟨(fun _ _ e => by cases e), (fun _ _ e => by cases e)⟩
      · cases h
    · cases h

theorem quiet_run {s : Service.Service} {ops : List Service.Op}
    (h : Service.run tbl crc srt (Service.fresh tbl) ops = some s)
    (hb : ∀ q u ok b, .create q u ok b ∈ ops → b.rate ≤ 0) : Quiet ops s := by
  refine run_induct (P := Quiet ops) h ⟨(fun b h => by cases h), (fun b h => by cases h), (fun b h => by cases h), (fun b h => by cases h)⟩ ?_
  intro x op x' out hop hm hq
  have snoc : ∀ o : Daemon.Op, (∀ k ns r f, o ≠ .addSampled k ns r f) → (∀ j ns nr, o ≠ .push j ns nr) →
      (∀ k ns, o ≠ .removeSyscall k ns) →
      ∀ o' ∈ x.log ++ [o], (∀ k ns r f, o' ≠ .addSampled k ns r f) ∧ (∀ j ns nr, o' = .push j ns nr → j.rate ≤ 0) ∧
        ∀ k ns, o' = .removeSyscall k ns → ∃ p c, .notice p (some ⟨1, some c⟩) ∈ ops ∧ c.pidns = ns := by
    intro o h1 h2 h3 o' ho'
    rcases List.mem_append.1 ho' with ho' | ho'
    · exact hq.log o' ho'
    · rw [List.mem_singleton] at ho'; subst ho'
      exact ⟨h1, (fun j ns nr e => absurd e (h2 j ns nr)), (fun k ns e => absurd e (h3 k ns))⟩
  cases hm with
  | idle => exact hq
  | outside o d out ho hd =>
    refine ⟨hq.bodies, hq.rate, hq.todo, snoc o ?_ ?_ ?_⟩ <;> (intros; rintro rfl; cases ho)
  | create q u ok b =>
    refine ⟨?_, hq.rate, hq.todo, hq.log⟩
    intro b' hb'
    rcases List.mem_append.1 hb' with hb' | hb'
    · exact hq.bodies b' hb'
    · rw [List.mem_singleton] at hb'; subst hb'; exact hb _ _ _ _ hop
  | delete id =>
    refine ⟨?_, hq.rate, hq.todo, hq.log⟩
    intro b' hb'
    rcases List.mem_append.1 hb' with hb' | hb'
    · exact hq.bodies b' hb'
    · rw [List.mem_singleton] at hb'; subst hb'; decide
  | handleDelete i t j d out ht hp hd =>
    refine ⟨hq.bodies, hq.rate, hq.todo, snoc _ ?_ ?_ ?_⟩ <;> (intros; intro e; cases e)
  | handleCreate i t ht hp =>
    have hr : (x.bodies.getD i Service.noBody).rate ≤ 0 := by
      rw [List.getD_eq_getElem?_getD]
      cases e : x.bodies[i]? with
      | none => decide
      | some b => exact hq.bodies b (List.mem_of_getElem? e)
    refine ⟨hq.bodies, ?_, ?_, hq.log⟩
    · intro pr hpr
      rcases List.mem_append.1 hpr with hpr | hpr
      · exact hq.rate pr hpr
      · rw [List.mem_singleton] at hpr; subst hpr; exact hr
    · intro pr hpr
      rcases List.mem_append.1 hpr with hpr | hpr
      · exact hq.todo pr hpr
      · rw [List.mem_singleton] at hpr; subst hpr; intro act hact; cases hact
  | handleOther i t ht h1 h2 => exact ⟨hq.bodies, hq.rate, hq.todo, hq.log⟩
  | notice p ev pr hp ht =>
    have hpr := List.mem_of_getElem? hp
    refine ⟨hq.bodies, ?_, ?_, hq.log⟩
    · intro q hq'
      rcases List.mem_or_eq_of_mem_set hq' with hq' | rfl
      · exact hq.rate q hq'
      · exact hq.rate pr hpr
    · intro q hq'
      rcases List.mem_or_eq_of_mem_set hq' with hq' | rfl
      · exact hq.todo q hq'
      · intro act hact
        obtain ⟨c, hc, hac⟩ := List.mem_flatMap.1 hact
        have he := event_type hc
        obtain ⟨g1, g2⟩ := acts_quiet (hq.rate pr hpr) hac
        refine ⟨g1, ?_⟩
        intro ns nr e
        obtain ⟨e1, e2⟩ := g2 ns nr e
        rw [he, e1] at hop
        exact ⟨p, c.container, hop, e2⟩
  | work p f pr act rest o d out hp ht ha hd =>
    have hpr := List.mem_of_getElem? hp
    have htodo := hq.todo pr hpr
    rw [ht] at htodo
    refine ⟨hq.bodies, ?_, ?_, ?_⟩
    · intro q hq'
      rcases List.mem_or_eq_of_mem_set hq' with hq' | rfl
      · exact hq.rate q hq'
      · exact hq.rate pr hpr
    · intro q hq'
      rcases List.mem_or_eq_of_mem_set hq' with hq' | rfl
      · exact hq.todo q hq'
      · intro act' hact'
        dsimp only at hact'
        split at hact'
        · exact htodo act' (List.mem_cons_of_mem _ hact')
        · cases hact'
    · intro o' ho'
      rcases List.mem_append.1 ho' with ho' | ho'
      · exact hq.log o' ho'
      · rw [List.mem_singleton] at ho'; subst ho'
        obtain ⟨t1, t2⟩ := htodo act List.mem_cons_self
        cases act with
        | addSampled ns nr => exact absurd rfl (t1 ns nr)
        | removeSyscall ns nr =>
          simp only [Service.actOp, Option.some.injEq] at ha
          subst ha
          refine ⟨(fun _ _ _ _ e => by cases e), (fun _ _ _ e => by cases e), ?_⟩
          intro k n e
          injection e with e1 e2
          subst e2
          exact t2 _ _ rfl
        | push ns nr =>
          simp only [Service.actOp, Option.some.injEq] at ha
          subst ha
          refine ⟨(fun _ _ _ _ e => by cases e), ?_, (fun _ _ e => by cases e)⟩
          intro j n m e
          injection e with e1 e2
          subst e1
          exact hq.rate pr hpr
        | crash => cases ha
        | _ =>
          simp only [Service.actOp, Option.some.injEq] at ha
          subst ha
          exact ⟨(fun _ _ _ _ e => by cases e), (fun _ _ _ e => by cases e), (fun _ _ e => by cases e)⟩
  | watch w hw => exact ⟨hq.bodies, hq.rate, hq.todo, hq.log⟩
  | attach k draw se d out hk ht hd =>
    refine ⟨hq.bodies, hq.rate, hq.todo, snoc _ ?_ ?_ ?_⟩ <;>
      (cases se.watch <;> (intros; intro e; cases e))
  | close k se hk => exact ⟨hq.bodies, hq.rate, hq.todo, hq.log⟩
  | hangJob k fails se t id d out hk ht ho hc hw hd =>
    refine ⟨hq.bodies, hq.rate, hq.todo, snoc _ ?_ ?_ ?_⟩ <;> (intros; intro e; cases e)
  | hangPath => exact ⟨hq.bodies, hq.rate, hq.todo, hq.log⟩

/-- Is the handler one of a delete request? -/
def deleting : Server.Pc → Bool
  | .createGet => false
  | .createSet => false
  | .done _ => false
  | _ => true

/-- Jobs are deleted because somebody asks for it. -/
theorem deleted_run {s : Service.Service} {ops : List Service.Op}
    (h : Service.run tbl crc srt (Service.fresh tbl) ops = some s) :
    (∀ t ∈ s.server.threads, deleting t.pc = true → .delete t.id ∈ ops) ∧ ∀ id, .delete id ∈ s.log → .delete id ∈ ops := by
  refine run_induct (P := fun x => (∀ t ∈ x.server.threads, deleting t.pc = true → .delete t.id ∈ ops) ∧
    ∀ id, .delete id ∈ x.log → .delete id ∈ ops) h ⟨(fun t h => by cases h), (fun t h => by cases h)⟩ ?_
  rintro x op x' out hop hm ⟨h1, h2⟩
  have snoc : ∀ o : Daemon.Op, (∀ id, o = .delete id → .delete id ∈ ops) → ∀ id, Daemon.Op.delete id ∈ x.log ++ [o] → .delete id ∈ ops := by
    intro o ho id hid
    rcases List.mem_append.1 hid with hid | hid
    · exact h2 id hid
    · rw [List.mem_singleton] at hid; exact ho id hid.symm
  have adv : ∀ (i : Nat) (b : Bool), ∀ t ∈ (Server.step x.server (.step i b)).threads, deleting t.pc = true → .delete t.id ∈ ops := by
    intro i b t ht hd
    simp only [Server.step] at ht
    split at ht
    · exact h1 t ht hd
    · next u hu =>
      have hum := List.mem_of_getElem? hu
      have go : ∀ pc, t ∈ x.server.threads.set i ⟨u.id, pc⟩ → (deleting pc = true → deleting u.pc = true) → .delete t.id ∈ ops := by
        intro pc hm hpc
        rcases List.mem_or_eq_of_mem_set hm with hm | rfl
        · exact h1 t hm hd
        · exact h1 u hum (hpc hd)
      unfold Server.advance at ht
      split at ht <;> (try split at ht) <;> first
        | exact h1 t ht hd
        | (refine go _ ht ?_
           intro hx
           first
             | (simp_all [deleting]; done)
             | (split at hx <;> simp_all [deleting]))
  cases hm with
  | idle => exact ⟨h1, h2⟩
  | outside o d out ho hd => exact ⟨h1, snoc o (by rintro id rfl; cases ho)⟩
  | create q u ok b =>
    refine ⟨?_, h2⟩
    intro t ht hd
    rcases List.mem_append.1 ht with ht | ht
    · exact h1 t ht hd
    · rw [List.mem_singleton] at ht; subst ht; cases ok <;> cases hd
  | delete id =>
    refine ⟨?_, h2⟩
    intro t ht hd
    rcases List.mem_append.1 ht with ht | ht
    · exact h1 t ht hd
    · rw [List.mem_singleton] at ht; subst ht; exact hop
  | handleDelete i t j d out ht hp hd =>
    refine ⟨adv _ _, snoc _ ?_⟩
    intro id e
    injection e with e
    subst e
    exact h1 t (List.mem_of_getElem? ht) (by rw [hp]; rfl)
  | handleCreate i t ht hp => exact ⟨adv _ _, h2⟩
  | handleOther i t ht g1 g2 => exact ⟨adv _ _, h2⟩
  | work p f pr act rest o d out hp ht ha hd =>
    refine ⟨h1, snoc o ?_⟩
    rintro id rfl
    cases act <;> simp [Service.actOp] at ha
  | attach k draw se d out hk ht hd => exact ⟨h1, snoc _ (by cases se.watch <;> (intro id e; cases e))⟩
  | hangJob k fails se t id d out hk ht ho hc hw hd => exact ⟨h1, snoc _ (by intro id e; cases e)⟩
  | _ => exact ⟨h1, h2⟩

/-! ### What the server goes through -/

theorem log_step {s s' : Site} {op : Op} {out : List Daemon.Delivery} (h : step a tbl crc srt s op = some (s', out)) :
    s'.log = s.log ∨ ∃ x, s'.log = s.log ++ [x] ∧ ((op = .service x ∧ reserved x = false) ∨
      (∃ ns sel q u ok b, op = .create ns sel q u ok b ∧ x = .create q u ok b) ∨ (∃ ev, x = .outside (.topo ev)) ∨
      (∃ p ev pr, x = .notice p ev ∧ s.service.procs[p]? = some pr ∧ pr.todo = [])) := by
  have sv : ∀ {t : Site} {x : Service.Op}, serve tbl crc srt t x = some (s', out) → t.log = s.log →
      s'.log = s.log ++ [x] := by
    intro t x h e
    unfold serve at h
    rw [Option.map_eq_some_iff] at h
    obtain ⟨⟨v, out'⟩, g1, g2⟩ := h
    injection g2 with g2 g3
    subst g2
    simp only [e]
  have ob : ∀ {w : Option Nat} {f : Watcher → Option Watcher}, (observer s w f).map (·, ([] : List Daemon.Delivery)) = some (s', out) →
      s'.log = s.log := by
    intro w f h
    rw [Option.map_eq_some_iff] at h
    obtain ⟨t, g1, g2⟩ := h
    injection g2 with g2 g3
    subst g2
    unfold observer at g1
    split at g1
    · rw [Option.map_eq_some_iff] at g1
      obtain ⟨u, -, rfl⟩ := g1
      rfl
    · split at g1
      · injection g1 with g1; subst g1; rfl
      · rw [Option.map_eq_some_iff] at g1
        obtain ⟨u, -, rfl⟩ := g1
        rfl
  cases op with
  | put p => simp only [step, Option.some.injEq, Prod.mk.injEq] at h; obtain ⟨rfl, -⟩ := h; exact Or.inl rfl
  | remove k => simp only [step, Option.some.injEq, Prod.mk.injEq] at h; obtain ⟨rfl, -⟩ := h; exact Or.inl rfl
  | runtime l => simp only [step, Option.some.injEq, Prod.mk.injEq] at h; obtain ⟨rfl, -⟩ := h; exact Or.inl rfl
  | lose w => exact Or.inl (ob h)
  | list w => exact Or.inl (ob h)
  | handle w k => exact Or.inl (ob h)
  | tell w =>
    cases w with
    | none =>
      simp only [step] at h
      split at h
      · injection h with h; injection h with h1 h2; subst h1; exact Or.inl rfl
      · exact Or.inr ⟨_, sv h rfl, Or.inr (Or.inr (Or.inl ⟨_, rfl⟩))⟩
    | some p =>
      simp only [step] at h
      split at h
      · next w pr hw hpr =>
        split at h
        · next ev rest hch htd =>
          exact Or.inr ⟨_, sv h rfl, Or.inr (Or.inr (Or.inr ⟨p, _, pr, rfl, hpr, htd⟩))⟩
        · injection h with h; injection h with h1 h2; subst h1; exact Or.inl rfl
      · injection h with h; injection h with h1 h2; subst h1; exact Or.inl rfl
  | create ns sel q u ok b =>
    simp only [step] at h
    exact Or.inr ⟨_, sv h rfl, Or.inr (Or.inl ⟨ns, sel, q, u, ok, b, rfl, rfl⟩)⟩
  | service x =>
    simp only [step] at h
    split at h
    · injection h with h; injection h with h1 h2; subst h1; exact Or.inl rfl
    · next hres =>
      simp only [Bool.not_eq_true] at hres
      split at h
      · exact Or.inr ⟨_, sv h rfl, Or.inl ⟨rfl, hres⟩⟩
      · exact Or.inr ⟨_, sv h rfl, Or.inl ⟨rfl, hres⟩⟩

theorem logged_from {o : Topology.Observer} {ops : List Op} {s : Site} (h : run a tbl crc srt (fresh tbl o) ops = some s) :
    ∀ x ∈ s.log, (.service x ∈ ops ∧ reserved x = false) ∨ (∃ ns sel q u ok b, .create ns sel q u ok b ∈ ops ∧ x = .create q u ok b) ∨
      (∃ ev, x = .outside (.topo ev)) ∨ ∃ p ev, x = .notice p ev := by
  induction ops using ListX.snoc_induction generalizing s with
  | h0 => injection h with h; subst h; intro x hx; cases hx
  | h1 xs op ih =>
    obtain ⟨s1, out, g1, g2⟩ := run_snoc h
    have old : ∀ x ∈ s1.log, (.service x ∈ xs ++ [op] ∧ reserved x = false) ∨ (∃ ns sel q u ok b, .create ns sel q u ok b ∈ xs ++ [op] ∧ x = .create q u ok b) ∨
      (∃ ev, x = .outside (.topo ev)) ∨ ∃ p ev, x = .notice p ev := by
      intro x hx
      rcases ih g1 x hx with ⟨e, e'⟩ | ⟨ns, sel, q, u, ok, b, e, e'⟩ | e
      · exact Or.inl ⟨List.mem_append_left _ e, e'⟩
      · exact Or.inr (Or.inl ⟨ns, sel, q, u, ok, b, List.mem_append_left _ e, e'⟩)
      · exact Or.inr (Or.inr e)
    rcases log_step g2 with e | ⟨y, e, hy⟩
    · rw [e]; exact old
    · rw [e]
      intro x hx
      rcases List.mem_append.1 hx with hx | hx
      · exact old x hx
      · rw [List.mem_singleton] at hx
        subst hx
        rcases hy with ⟨rfl, hres⟩ | ⟨ns, sel, q, u, ok, b, rfl, rfl⟩ | ⟨ev, rfl⟩ | ⟨p, ev, pr, rfl, -⟩
        · exact Or.inl ⟨by simp, hres⟩
        · exact Or.inr (Or.inl ⟨ns, sel, q, u, ok, b, by simp, rfl⟩)
        · exact Or.inr (Or.inr (Or.inl ⟨ev, rfl⟩))
        · exact Or.inr (Or.inr (Or.inr ⟨p, ev, rfl⟩))

/-- Goroutines are told of containers when they have nothing else to do. -/
theorem notice_at {o : Topology.Observer} {ops : List Op} {s : Site} (h : run a tbl crc srt (fresh tbl o) ops = some s)
    {pre post : List Service.Op} {p : Nat} {ev : Option Topology.Event} (hl : s.log = pre ++ .notice p ev :: post) :
    ∃ x pr, Service.run tbl crc srt (Service.fresh tbl) pre = some x ∧ x.procs[p]? = some pr ∧ pr.todo = [] := by
  induction ops using ListX.snoc_induction generalizing s post with
  | h0 => injection h with h; subst h; simp [fresh] at hl
  | h1 xs op ih =>
    obtain ⟨s1, out, g1, g2⟩ := run_snoc h
    rcases log_step g2 with e | ⟨y, e, hy⟩
    · exact ih g1 (by rw [← e]; exact hl)
    · rw [e] at hl
      rcases List.eq_nil_or_concat post with rfl | ⟨post', z, rfl⟩
      · obtain ⟨e1, e2⟩ := List.append_inj' hl rfl
        injection e2 with e2
        rcases hy with ⟨rfl, hres⟩ | ⟨ns, sel, q, u, ok, b, rfl, rfl⟩ | ⟨ev', rfl⟩ | ⟨p', ev', pr, rfl, g3, g4⟩
        · subst e2; cases hres
        · cases e2
        · cases e2
        · injection e2 with e2 e3
          subst e2
          exact ⟨s1.service, pr, by rw [← e1]; exact (inv_run g1).1.log, g3, g4⟩
      · rw [List.concat_eq_append, ← List.cons_append, ← List.append_assoc] at hl
        obtain ⟨e1, e2⟩ := List.append_inj' hl rfl
        exact ih g1 e1

theorem log_prefix {ops : List Op} {s s' : Site} (h : run a tbl crc srt s ops = some s') : ∃ more, s'.log = s.log ++ more := by
  induction ops generalizing s with
  | nil => injection h with h; subst h; exact ⟨[], by simp⟩
  | cons op ops ih =>
    unfold run at h
    split at h
    · cases h
    · next s1 out h1 =>
      obtain ⟨more, e⟩ := ih h
      rcases log_step h1 with e1 | ⟨x, e1, -⟩
      · exact ⟨more, by rw [e, e1]⟩
      · exact ⟨x :: more, by rw [e, e1]; simp⟩

theorem asked_mem {ops : List Op} {ns : String} {sel : Sel} {q : Option String} {u : String} {ok : Bool} {b : Service.Body}
    (h : .create ns sel q u ok b ∈ ops) : (ns, sel, b) ∈ asked ops :=
  List.mem_filterMap.2 ⟨_, h, rfl⟩

/-! ### A pod that stays -/

theorem selected_same {o : Topology.Observer} {p q : Pod} (hk : q.key = p.key) (hl : q.labels = p.labels)
    (hf : q.fields = p.fields) : selected a o q = selected a o p := by
  have hn : q.ns = p.ns := congrArg Prod.fst hk
  unfold selected Cluster.selects
  generalize Cluster.reqs (Cluster.labelReq a.rules) o.labelSelector.toList = x
  generalize Cluster.reqs (Cluster.fieldReq a) o.fieldSelector.toList = y
  cases x with
  | none => rfl
  | some x =>
    cases y with
    | none => rfl
    | some y => simp only [hn, hl, hf]

/-- The observer has nothing to say about the container but that it is there. -/
structure Hush (k : Key) (c : Topology.Container) (w : Watcher) (E : List (Option Topology.Event)) : Prop where
  queue : ∀ p, .del p ∈ w.queue → p.key ≠ k
  only : ∀ t c', some ⟨t, some c'⟩ ∈ E → c'.pidns = c.pidns → t = 0 ∧ c' = c

theorem hush_handle {cc : Topology.CriContainer} {k : Key} {c : Topology.Container} (hl : Lives cc k c)
    (hk : '.' ∉ k.1.toList) {cri : Option (List Topology.CriContainer)} (hcri : Lists cc cri) {w w' : Watcher}
    {T : List (Option Topology.Event)} (h : Hush k c w (T ++ w.chan.map some))
    (hs : Speaks k c w (T ++ w.chan.map some))
    (hq : ∀ p, (.upd p ∈ w.queue ∨ .del p ∈ w.queue) → '.' ∉ p.ns.toList) {k' : Key} (hh : w.handle cri k' = some w') :
    Hush k c w' (T ++ w'.chan.map some) := by
  have more : ∀ (L : List Topology.Event), (∀ t c', (⟨t, some c'⟩ : Topology.Event) ∈ L → c'.pidns = c.pidns → t = 0 ∧ c' = c) →
      ∀ t c', some (⟨t, some c'⟩ : Topology.Event) ∈ T ++ (w.chan ++ L).map some → c'.pidns = c.pidns → t = 0 ∧ c' = c := by
    intro L hL t c' hm
    rw [List.map_append, ← List.append_assoc] at hm
    rcases List.mem_append.1 hm with hm | hm
    · exact h.only t c' hm
    · obtain ⟨e, he, e1⟩ := List.mem_map.1 hm
      injection e1 with e1
      subst e1
      exact hL t c' he
  have starts : ∀ p : Pod, ∀ t c', (⟨t, some c'⟩ : Topology.Event) ∈
      (Topology.containersForPod p.view cri).map (fun c => ⟨Topology.typeStart, some c⟩) → c'.pidns = c.pidns → t = 0 ∧ c' = c := by
    intro p t c' hm he
    obtain ⟨x, hx, e⟩ := List.mem_map.1 hm
    injection e with e1 e2
    injection e2 with e2
    subst e2
    exact ⟨e1.symm, ((lists_mem hl hcri).1 x hx he).1⟩
  unfold Watcher.handle at hh
  split at hh
  · injection hh with hh; subst hh; exact h
  · next p q hpop =>
    injection hh with hh
    subst hh
    refine ⟨?_, ?_⟩
    · intro r hr
      exact h.queue r ((pop_mem hpop).2 _ hr)
    · rw [note_chan]
      apply more
      split
      · simp only [Topology.observe]
        split
        · exact starts p
        · intro t c' hm; cases hm
      · simp only [Topology.observe]; exact starts p
  · next p q hpop =>
    have hmem := (pop_mem hpop).1
    have hdot := hq p (Or.inr hmem)
    have hne := h.queue p hmem
    injection hh with hh
    subst hh
    refine ⟨?_, ?_⟩
    · intro r hr
      exact h.queue r ((pop_mem hpop).2 _ hr)
    · rw [note_chan]
      apply more
      simp only [Topology.observe]
      split
      · next l hp =>
        intro t c' hm he
        obtain ⟨x, hx, e⟩ := List.mem_map.1 hm
        injection e with e1 e2
        injection e2 with e2
        subst e2
        exact absurd (hs.phased _ l hp x hx he).2 (key_ne hne hdot hk)
      · intro t c' hm he
        obtain ⟨x, hx, e⟩ := List.mem_map.1 hm
        injection e with e1 e2
        injection e2 with e2
        subst e2
        exact absurd ((lists_mem hl hcri).1 x hx he).2 hne
  · cases hh

/-- What is listed at any time is what was listed. -/
theorem lists_steady {ops : List Op} {cc : Topology.CriContainer} (hst : Steady ops cc) :
    ∀ x, .runtime x ∈ ops → Lists cc x := by
  intro x hx
  obtain ⟨l, rfl, hm⟩ := hst.listed x hx
  exact ⟨l, rfl, hm, fun cc' h1 h2 => hst.alone l cc' hx h1 h2⟩

theorem told_new {o : Topology.Observer} {ops : List Op} {s : Site} (hi : Inv a tbl crc srt o ops s) {i : Option Nat}
    (hw : watcher s i = none) : told s i = [] := by
  cases i with
  | none => cases hw
  | some p =>
    unfold told
    rw [List.filterMap_eq_nil_iff]
    intro x hx
    cases x with
    | notice q ev =>
      obtain ⟨z, e, c, e1, -⟩ := hi.told q ev hx
      by_cases e2 : q = p
      · subst e2
        simp only [watcher] at hw
        rw [hw] at e1; cases e1
      · simp [e2]
    | _ => rfl

theorem hush_run {cc : Topology.CriContainer} {pod : Pod} {c : Topology.Container} (hl : Lives cc pod.key c)
    (hk : '.' ∉ pod.ns.toList) {o : Topology.Observer} {all ops : List Op} {s s' : Site}
    (h : run a tbl crc srt s ops = some s') (hi : Inv a tbl crc srt o all s)
    (hlen : s.sels.length = s.service.bodies.length) (hsub : ∀ op ∈ ops, op ∈ all)
    (hlist : ∀ x, .runtime x ∈ all → Lists cc x) (hdot : Dotless all) (hstay : Stays all pod) (hcri : Lists cc s.cri)
    (hpods : PodsOK s.pods)
    (hsp : ∀ i w, watcher s i = some w → Speaks pod.key c w (said s i w))
    (hw : ∀ i w, watcher s i = some w → Hush pod.key c w (said s i w)) :
    ∀ i w, watcher s' i = some w → Hush pod.key c w (said s' i w) := by
  induction ops generalizing s with
  | nil => injection h with h; subst h; exact hw
  | cons op ops ih =>
    unfold run at h
    split at h
    · cases h
    · next s1 out h1 =>
      have g := asked_step h1
      have hl1 : s1.sels.length = s1.service.bodies.length := by rw [g.1, g.2]; simp [hlen]
      have hi1 := inv_step hi hlen (hsub op (by simp)) h1
      have hone : run a tbl crc srt s [op] = some s1 := by simp only [run, h1]
      have hsp1 := speaks_run hl hk hone hi hlen (fun x hx => hsub x (by rw [List.mem_singleton] at hx; subst hx; simp))
        hlist hdot hcri hsp
      refine ih h hi1 hl1 (fun x hx => hsub x (List.mem_cons_of_mem _ hx)) ?_ (podsOK_step h1 hpods) hsp1 ?_
      · rcases cri_step h1 with e | ⟨l, rfl, e⟩
        · rw [e]; exact hcri
        · rw [e]; exact hlist l (hsub _ (by simp))
      · intro i w' hw'
        rcases turn_step h1 hw' with ⟨w, g1, ht⟩ | ⟨g1, ⟨ob, rfl⟩, g3⟩
        · have hs := hw i w g1
          have hss := hsp i w g1
          unfold said at hs hss ⊢
          have winv : WInv a all w := by
            cases i with
            | none => injection g1 with g1; subst g1; exact hi.hub
            | some p => exact hi.jobs w (List.mem_of_getElem? g1)
          cases ht with
          | same ew ep et => rw [ew, et]; exact hs
          | change k' new hch hn hr ew ep et =>
            rw [ew, et]
            have keep : ∀ x, (∀ p, x = .del p → p.key ≠ pod.key) →
                Hush pod.key c { w with queue := w.queue ++ [x] } (told s i ++ w.chan.map some) := by
              intro x hx
              refine ⟨?_, hs.only⟩
              intro p hp
              rcases List.mem_append.1 hp with hp | hp
              · exact hs.queue p hp
              · rw [List.mem_singleton] at hp; exact hx p hp.symm
            unfold Watcher.hears
            split
            · split
              · exact keep _ (fun p e => by cases e)
              · next p hp hnone =>
                refine keep _ ?_
                intro q e hqk
                injection e with e
                subst e
                rw [Option.filter_eq_some_iff] at hp
                obtain ⟨hp1, hp2⟩ := hp
                have hpk := get_key hpods hp1
                have hput : .put p ∈ all := hi.pods (k', p) (GoMap.mem_of_get hp1)
                cases hnew : new with
                | none =>
                  have := hr hnew
                  subst this
                  exact hstay.1 (by rw [← hqk, hpk]; exact hsub _ (by simp))
                | some n =>
                  obtain ⟨f1, f2⟩ := hn n hnew
                  subst f1
                  have hnk : n.key = pod.key := by rw [f2, ← hpk, hqk]
                  obtain ⟨e1, e2⟩ := hstay.2 n (hsub _ (by simp)) hnk
                  obtain ⟨e3, e4⟩ := hstay.2 p hput hqk
                  rw [hnew, Option.filter_some, if_pos] at hnone
                  · cases hnone
                  · rw [selected_same hnk e1 e2, ← selected_same hqk e3 e4]; exact hp2
              · exact hs
            · exact hs
          | lose ew ep et => rw [ew, et]; exact ⟨hs.queue, hs.only⟩
          | list ew ep et =>
            rw [ew, et]
            unfold Watcher.list
            split
            · exact hs
            · refine ⟨?_, hs.only⟩
              intro p hp
              simp only [List.mem_append, List.mem_map, reduceCtorEq, and_false, exists_false, or_false] at hp
              exact hs.queue p hp
          | handle k' ew ep et =>
            rw [et]
            exact hush_handle hl hk hcri hs hss (fun p hp => hdot p (winv.queue p hp).1) ew
          | tell ev hch ew ep et =>
            rw [et]
            have e : told s i ++ [some ev] ++ w'.chan.map some = told s i ++ w.chan.map some := by
              rw [hch]; simp
            rw [e, ew]
            exact ⟨hs.queue, hs.only⟩
        · unfold said
          rw [g3, told_new hi g1]
          exact ⟨(fun p h => by cases h), (fun t c' h => by cases h)⟩

theorem hush_fresh {cc : Topology.CriContainer} {pod : Pod} {c : Topology.Container} (hl : Lives cc pod.key c)
    (hk : '.' ∉ pod.ns.toList) {o : Topology.Observer} {ops : List Op} {s : Site}
    (h : run a tbl crc srt (fresh tbl o) ops = some s) (hst : Steady ops cc) (hd : Dotless ops) (hstay : Stays ops pod) :
    ∀ i w, watcher s i = some w → Hush pod.key c w (said s i w) := by
  have hlist := lists_steady hst
  obtain ⟨l, rest, rfl⟩ := hst.first
  have hrun := h
  unfold run at hrun
  simp only [step] at hrun
  have hi1 : Inv a tbl crc srt o (.runtime (some l) :: rest) { fresh tbl o with cri := some l } :=
    inv_step (inv_fresh o _) rfl List.mem_cons_self (show step a tbl crc srt (fresh tbl o) (.runtime (some l)) = some (_, []) from rfl)
  refine hush_run hl hk hrun hi1 rfl (fun x hx => List.mem_cons_of_mem _ hx) hlist hd hstay
    (hlist _ List.mem_cons_self) ⟨GoMap.nodupKeys_nil, fun e he => by cases he⟩ ?_ ?_
  · intro j v hv
    cases j with
    | none => injection hv with hv; subst hv; exact speaks_new _ c o
    | some p => cases hv
  · intro j v hv
    cases j with
    | none => injection hv with hv; subst hv; exact ⟨(fun p h => by cases h), (fun t c' h => by cases h)⟩
    | some p => cases hv

/-- Nobody is told that a container of a pod that stays has stopped, or that another is in its pid namespace. -/
theorem told_only {cc : Topology.CriContainer} {pod : Pod} {c : Topology.Container} (hl : Lives cc pod.key c)
    (hk : '.' ∉ pod.ns.toList) {o : Topology.Observer} {ops : List Op} {s : Site}
    (h : run a tbl crc srt (fresh tbl o) ops = some s) (hst : Steady ops cc) (hd : Dotless ops) (hstay : Stays ops pod)
    {i : Option Nat} {t : Int} {c' : Topology.Container} (hm : some ⟨t, some c'⟩ ∈ told s i) (he : c'.pidns = c.pidns) :
    t = 0 ∧ c' = c := by
  cases hw : watcher s i with
  | none => rw [told_new (inv_run h).1 hw] at hm; cases hm
  | some w => exact (hush_fresh hl hk h hst hd hstay i w hw).only t c' (List.mem_append_left _ hm) he

/-- If nothing else is said of a pid namespace than that a container is in it, it is. -/
theorem resident_only {E : List (Option Topology.Event)} {c : Topology.Container} (hpos : 0 < c.pidns)
    (h1 : ∀ t c', some ⟨t, some c'⟩ ∈ E → c'.pidns = c.pidns → t = 0 ∧ c' = c) (h2 : some ⟨0, some c⟩ ∈ E) :
    Spec.Topology.resident E c.pidns = some c := by
  unfold Spec.Topology.resident
  have hmean : Spec.Topology.meaning (some ⟨0, some c⟩) = some (true, c) := by
    simp [Spec.Topology.meaning, hpos]
  have hm : (true, c) ∈ (E.filterMap Spec.Topology.meaning).filter (fun m => m.2.pidns = c.pidns) := by
    rw [List.mem_filter]
    exact ⟨List.mem_filterMap.2 ⟨_, h2, hmean⟩, by simp⟩
  have hall : ∀ m ∈ (E.filterMap Spec.Topology.meaning).filter (fun m => m.2.pidns = c.pidns), m = (true, c) := by
    intro m hm
    rw [List.mem_filter] at hm
    obtain ⟨hm1, hm2⟩ := hm
    simp only [decide_eq_true_eq] at hm2
    obtain ⟨ev, he, hev⟩ := List.mem_filterMap.1 hm1
    unfold Spec.Topology.meaning at hev
    split at hev
    · next t c' =>
      split at hev
      · injection hev with hev
        subst hev
        obtain ⟨e1, e2⟩ := h1 t c' he hm2
        subst e1; subst e2; rfl
      · cases hev
    · cases hev
  cases hg : ((E.filterMap Spec.Topology.meaning).filter (fun m => m.2.pidns = c.pidns)).getLast? with
  | none => rw [List.getLast?_eq_none_iff] at hg; rw [hg] at hm; cases hm
  | some m => rw [hall m (List.mem_of_getLast? hg)]

end Swoll.Lemmas.SiteServe
