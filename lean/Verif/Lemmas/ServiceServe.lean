import Verif.Lemmas.ServiceAlive
import Verif.Lemmas.HubJob
/-
From the request to the rules in the kernel.
-/
namespace Swoll.Lemmas.Service
open Swoll Swoll.Service
open Swoll.Daemon (Daemon Delivery)
open Swoll.Spec.Service
open Swoll.Spec.Hub (TableOK SanePair)

variable {tbl : Syscalls.Syscalls} {crc : String → BitVec 64} {srt : List PubSub.Env → List PubSub.Env}

/-! ### Goroutines last -/

theorem proc_step {s s' : Service} {op : Op} {out : List Delivery} (hm : Moves tbl crc srt s op s' out)
    {p : Nat} {pr : Proc} (h : s.procs[p]? = some pr) : ∃ pr', s'.procs[p]? = some pr' ∧ pr'.spec = pr.spec := by
  cases hm with
  | handleCreate i t ht hp => exact ⟨pr, by rw [List.getElem?_append_left (lt_of_get h)]; exact h, rfl⟩
  | notice q ev pr' hp ht =>
    by_cases e : p = q
    · subst e
      rw [hp] at h
      injection h with h
      subst h
      exact ⟨_, set_get hp, rfl⟩
    · exact ⟨pr, by rw [set_get_ne e]; exact h, rfl⟩
  | work q f pr' a rest o d out hp ht ha hd =>
    by_cases e : p = q
    · subst e
      rw [hp] at h
      injection h with h
      subst h
      exact ⟨_, set_get hp, rfl⟩
    · exact ⟨pr, by rw [set_get_ne e]; exact h, rfl⟩
  | _ => exact ⟨pr, h, rfl⟩

theorem proc_run {s s' : Service} {ops : List Op} (hr : run tbl crc srt s ops = some s') {p : Nat} {pr : Proc}
    (h : s.procs[p]? = some pr) : ∃ pr', s'.procs[p]? = some pr' ∧ pr'.spec = pr.spec := by
  refine run_induct (P := fun x => ∃ pr', x.procs[p]? = some pr' ∧ pr'.spec = pr.spec) hr ⟨pr, h, rfl⟩ ?_
  rintro x op x' out - hm ⟨a, h1, h2⟩
  obtain ⟨b, g1, g2⟩ := proc_step hm h1
  exact ⟨b, g1, by rw [g2, h2]⟩

/-! ### Accepted requests have goroutines -/

theorem status_step {s : Server.State String} {i : Nat} {b : Bool} {k : Nat} {t' : Server.Thread String}
    (h : (Server.step s (.step i b)).threads[k]? = some t') :
    (∃ t, s.threads[k]? = some t ∧ t = t') ∨
    (k = i ∧ ∃ t, s.threads[i]? = some t ∧ t'.id = t.id ∧ (t'.pc = .done 201 → t.pc = .createSet ∨ t.pc = .done 201)) := by
  simp only [Server.step] at h
  split at h
  · exact Or.inl ⟨t', h, rfl⟩
  · rename_i t ht
    by_cases hk : k = i
    · subst hk
      right
      refine ⟨rfl, t, ht, ?_⟩
      unfold Server.advance at h
      repeat' split at h
      all_goals
        try simp only [Server.goto] at h
        first
        | (rw [set_get ht] at h
           injection h with h
           subst h
           simp_all)
        | (rw [ht] at h
           injection h with h
           subst h
           simp_all)
    · left
      refine ⟨t', ?_, rfl⟩
      unfold Server.advance at h
      repeat' split at h
      all_goals
        try simp only [Server.goto] at h
        first
        | (rw [set_get_ne hk] at h; exact h)
        | exact h

/-- A create request that was answered 201 has its goroutine. -/
def Staffed (s : Service) : Prop :=
  ∀ (i : Nat) id, s.server.threads[i]? = some ⟨id, .done 201⟩ →
    ∃ b, s.bodies[i]? = some b ∧ ∃ p, Serves s p i id b

theorem staffed_step {s s' : Service} {op : Op} {out : List Delivery} (hm : Moves tbl crc srt s op s' out)
    (ht : Tame tbl s) (h : Staffed s) : Staffed s' := by
  have same : s'.server = s.server → s'.bodies = s.bodies → Staffed s' := by
    intro e1 e2 i id hi
    rw [e1] at hi
    obtain ⟨b, h1, p, pr, h2, h3⟩ := h i id hi
    obtain ⟨pr', g1, g2⟩ := proc_step hm h2
    exact ⟨b, by rw [e2]; exact h1, p, pr', g1, by rw [g2, h3]⟩
  have grow : ∀ (t : Server.Thread String) (b : Body), s'.server.threads = s.server.threads ++ [t] →
      t.pc ≠ .done 201 → s'.bodies = s.bodies ++ [b] → Staffed s' := by
    intro t b e1 e2 e3 i id hi
    rw [e1, List.getElem?_append] at hi
    split at hi
    · obtain ⟨c, h1, p, pr, h2, h3⟩ := h i id hi
      obtain ⟨pr', g1, g2⟩ := proc_step hm h2
      exact ⟨c, by rw [e3, List.getElem?_append_left (lt_of_get h1)]; exact h1, p, pr', g1, by rw [g2, h3]⟩
    · rw [List.getElem?_singleton] at hi
      split at hi
      · injection hi with hi
        subst hi
        exact absurd rfl e2
      · cases hi
  have other : ∀ (i : Nat) (t : Server.Thread String) (b : Bool), s.server.threads[i]? = some t → t.pc ≠ .createSet →
      s'.server = Server.step s.server (.step i b) → s'.bodies = s.bodies → Staffed s' := by
    intro i t b e1 e2 e3 e4 k id hk
    rw [e3] at hk
    have hk' : s.server.threads[k]? = some ⟨id, .done 201⟩ := by
      rcases status_step hk with ⟨t1, h1, rfl⟩ | ⟨rfl, t1, h1, h2, h3⟩
      · exact h1
      · rcases h3 rfl with h3 | h3
        · rw [e1] at h1; injection h1 with h1; subst h1; exact absurd h3 e2
        · rw [h1, show t1 = ⟨t1.id, t1.pc⟩ from rfl, h3, ← h2]
    obtain ⟨c, h1, p, pr, h2, h3⟩ := h k id hk'
    obtain ⟨pr', g1, g2⟩ := proc_step hm h2
    exact ⟨c, by rw [e4]; exact h1, p, pr', g1, by rw [g2, h3]⟩
  cases hm with
  | create q u ok b =>
    refine grow ⟨q.getD u, if ok then .createGet else .done 400⟩ b rfl ?_ rfl
    cases ok <;> simp
  | delete id => exact grow ⟨id, .deleteGet⟩ noBody rfl (by simp) rfl
  | handleDelete i t j d out ht hp hd => exact other i t _ ht (by rw [hp]; simp) rfl rfl
  | handleOther i t ht h1 h2 => exact other i t _ ht h2 rfl rfl
  | handleCreate i t hti hp =>
    intro k id hk
    have hpush : ∀ (q : Nat) (x : Proc), s.procs[q]? = some x → ∀ y, (s.procs ++ [y])[q]? = some x := by
      intro q x hx y
      rw [List.getElem?_append_left (lt_of_get hx)]; exact hx
    have old : s.server.threads[k]? = some ⟨id, .done 201⟩ → _ := fun hk' => h k id hk'
    rcases status_step hk with ⟨t1, h1, rfl⟩ | ⟨rfl, t1, h1, h2, h3⟩
    · obtain ⟨b, h1, p, pr, h2, h3⟩ := old h1
      exact ⟨b, h1, p, pr, hpush _ _ h2 _, h3⟩
    · have hi : k < s.bodies.length := by rw [ht.len]; exact lt_of_get hti
      have e : s.bodies[k]? = some (s.bodies.getD k noBody) := by
        rw [List.getElem?_eq_getElem hi, List.getD_eq_getElem?_getD, List.getElem?_eq_getElem hi]; rfl
      rw [hti] at h1
      injection h1 with h1
      subst h1
      simp only at h2
      subst h2
      exact ⟨_, e, s.procs.length, _, by simp; rfl, rfl⟩
  | _ => exact same rfl rfl

theorem staffed_run {s : Service} {ops : List Op} (h : run tbl crc srt (fresh tbl) ops = some s) : Staffed s := by
  have : Tame tbl s ∧ Staffed s := by
    refine run_induct (P := fun x => Tame tbl x ∧ Staffed x) h ⟨tame_run (ops := []) (crc := crc) (srt := srt) rfl, ?_⟩ ?_
    · intro i id hi; simp [fresh, Server.init] at hi
    · rintro x op x' out - hm ⟨h1, h2⟩
      exact ⟨tame_step hm h1, staffed_step hm h1 h2⟩
  exact this.2

/-! ### Pairs are sane -/

def SaneAct : Act → Prop
  | .push ns nr => SanePair ns nr
  | .swap ns nr => SanePair ns nr
  | _ => True

theorem sane_acts (hT : TableOK tbl) {s : Hub.Spec} {c : Topology.Call} (h1 : 333 ≤ c.container.pidns)
    (h2 : c.container.pidns < 2 ^ 32) : ∀ a ∈ acts tbl s c, SaneAct a := by
  intro a ha
  unfold acts at ha
  split at ha
  · obtain ⟨name, -, h⟩ := List.mem_flatMap.1 ha
    unfold stopActs at h
    split at h <;> rw [List.mem_singleton] at h <;> subst h <;> trivial
  · split at ha
    · split at ha
      · obtain ⟨name, -, h⟩ := List.mem_flatMap.1 ha
        unfold startActs at h
        split at h
        · rw [List.mem_singleton] at h; subst h; trivial
        · rename_i sc hl
          have hlt := (hT.1 _ _ hl).2
          have hp : SanePair c.container.pidns sc.nr := ⟨by omega, h2, by omega⟩
          rcases List.mem_cons.1 h with rfl | h
          · exact hp
          · rcases List.mem_append.1 h with h | h
            · split at h
              · simp only [List.mem_cons, List.not_mem_nil, or_false] at h
                rcases h with rfl | rfl
                · exact hp
                · trivial
              · cases h
            · rw [List.mem_singleton] at h; subst h; trivial
      · cases ha
    · cases ha

theorem processEvent_mem {cache : Topology.Cache} {ev : Option Topology.Event} {c : Topology.Call}
    (hc : c ∈ (Topology.processEvent true cache ev).2.1) :
    ∃ e, ev = some e ∧ e.container = some c.container ∧ 0 < c.container.pidns := by
  unfold Topology.processEvent at hc
  split at hc
  · cases hc
  · rename_i e
    split at hc
    · cases hc
    · rename_i x hx
      split at hc
      · cases hc
      · rename_i hpos
        split at hc
        · simp only [if_true, List.mem_singleton] at hc; subst hc; exact ⟨e, rfl, hx, by dsimp only; omega⟩
        · split at hc
          · simp only [if_true, List.mem_singleton] at hc; subst hc; exact ⟨e, rfl, hx, by dsimp only; omega⟩
          · cases hc

/-- All pairs are sane, in the log and in what goroutines have still to do. -/
theorem pairs_run (hT : TableOK tbl) {s : Service} {ops : List Op} (h : run tbl crc srt (fresh tbl) ops = some s)
    (hn : ∀ op ∈ ops, Numbered op) :
    (∀ pr ∈ s.procs, ∀ a ∈ pr.todo, SaneAct a) ∧ ∀ o ∈ s.log, Spec.Daemon.SanePairs o := by
  refine run_induct (P := fun x => (∀ pr ∈ x.procs, ∀ a ∈ pr.todo, SaneAct a) ∧ ∀ o ∈ x.log, Spec.Daemon.SanePairs o) h
    ⟨(fun pr hpr => by cases hpr), (fun o ho => by cases ho)⟩ ?_
  rintro x op x' out hop hm ⟨h1, h2⟩
  have snoc : ∀ o, Spec.Daemon.SanePairs o → ∀ y ∈ x.log ++ [o], Spec.Daemon.SanePairs y := by
    intro o h3 y hy
    rcases List.mem_append.1 hy with hy | hy
    · exact h2 y hy
    · rw [List.mem_singleton] at hy; subst hy; exact h3
  cases hm with
  | outside o d out ho hd => exact ⟨h1, snoc o (by cases o <;> first | trivial | cases ho)⟩
  | handleDelete i t j d out ht hp hd => exact ⟨h1, snoc _ trivial⟩
  | handleCreate i t ht hp =>
    refine ⟨?_, h2⟩
    intro pr hpr
    rcases List.mem_append.1 hpr with hpr | hpr
    · exact h1 pr hpr
    · rw [List.mem_singleton] at hpr; subst hpr; intro a ha; cases ha
  | notice p ev pr hp ht =>
    refine ⟨?_, h2⟩
    intro q hq
    rcases List.mem_or_eq_of_mem_set hq with hq | rfl
    · exact h1 q hq
    · intro a ha
      obtain ⟨c, hc, hac⟩ := List.mem_flatMap.1 ha
      obtain ⟨e, rfl, he, hpos⟩ := processEvent_mem hc
      have hnum := hn _ hop
      obtain ⟨ty, co⟩ := e
      simp only at he
      subst he
      have := hnum hpos
      exact sane_acts hT this.1 this.2 a hac
  | work p f pr a rest o d out hp ht ha hd =>
    have hpr := h1 pr (List.mem_of_getElem? hp)
    rw [ht] at hpr
    refine ⟨?_, snoc o ?_⟩
    · intro q hq
      rcases List.mem_or_eq_of_mem_set hq with hq | rfl
      · exact h1 q hq
      · intro b hb
        dsimp only at hb
        split at hb
        · exact hpr b (List.mem_cons_of_mem _ hb)
        · cases hb
    · have := hpr a List.mem_cons_self
      cases a <;> simp only [actOp, Option.some.injEq, reduceCtorEq] at ha <;> subst ha <;> exact this
  | attach k draw se d out hk ht hd => exact ⟨h1, snoc _ (by cases se.watch <;> trivial)⟩
  | hangJob k fails se t id d out hk ht ho hc hw hd => exact ⟨h1, snoc _ trivial⟩
  | _ => exact ⟨h1, h2⟩

/-! ### A callback puts the job and its rules in place -/

/-- The calls a callback makes when a container starts. -/
def Plain (tbl : Syscalls.Syscalls) : Act → Prop
  | .push _ nr => ∃ sc, Syscalls.lookup tbl (.int nr) = some sc
  | .swap _ _ => True
  | .addSampled _ nr => ∃ sc, Syscalls.lookup tbl (.int nr) = some sc
  | .addSyscall _ nr => ∃ sc, Syscalls.lookup tbl (.int nr) = some sc
  | .crash => True
  | _ => False

/-- How far the callback has come with one syscall. -/
inductive Stage (tbl : Syscalls.Syscalls) (j : Hub.Job) (ns nr : Int) (l0 log : List Daemon.Op) (todo : List Act) : Prop
  | before (h : [.push ns nr, .addSyscall ns nr].Sublist todo) (hp : ∀ a ∈ todo, Plain tbl a) (more : List Daemon.Op)
      (hl : log = l0 ++ more)
  | between (a b : List Daemon.Op) (hl : log = (l0 ++ a) ++ .push j ns nr :: b) (h : .addSyscall ns nr ∈ todo)
      (hp : ∀ a ∈ todo, Plain tbl a)
  | after (a b c : List Daemon.Op) (hl : log = (l0 ++ a) ++ .push j ns nr :: (b ++ .addSyscall (.int nr) ns {} :: c))

theorem stage_log {j : Hub.Job} {ns nr : Int} {l0 log : List Daemon.Op} {todo : List Act}
    (h : Stage tbl j ns nr l0 log todo) (o : Daemon.Op) : Stage tbl j ns nr l0 (log ++ [o]) todo := by
  cases h with
  | before h hp more hl => exact .before h hp (more ++ [o]) (by rw [hl, List.append_assoc])
  | between a b hl h hp => exact .between a (b ++ [o]) (by rw [hl]; simp) h hp
  | after a b c hl => exact .after a b (c ++ [o]) (by rw [hl]; simp)

theorem stage_work {j : Hub.Job} {ns nr : Int} {l0 log : List Daemon.Op} {a : Act} {rest : List Act}
    (h : Stage tbl j ns nr l0 log (a :: rest)) {o : Daemon.Op} (ha : actOp j {} a = some o) (m : Filter.KMaps) :
    Stage tbl j ns nr l0 (log ++ [o]) (if goesOn tbl m j {} a then rest else []) := by
  cases h with
  | after x y z hl => exact .after x y (z ++ [o]) (by rw [hl]; simp)
  | before h hp more hl =>
    have hpa := hp a List.mem_cons_self
    have hpr : ∀ b ∈ rest, Plain tbl b := fun b hb => hp b (List.mem_cons_of_mem _ hb)
    have hgo : goesOn tbl m j {} a = true := by
      cases a with
      | addSyscall ns' nr' => obtain ⟨sc, e⟩ := hpa; exact Lemmas.Hub.filterStep_add_ok tbl m ns' nr' sc e
      | addSampled ns' nr' => obtain ⟨sc, e⟩ := hpa; exact Lemmas.Hub.filterStep_sampled_ok tbl m ns' nr' _ sc e
      | _ => rfl
    rw [hgo, if_pos rfl]
    by_cases e : a = .push ns nr
    · subst e
      simp only [actOp, Option.some.injEq] at ha
      subst ha
      refine .between more [] (by rw [hl]) ?_ hpr
      cases h with
      | cons _ h' => exact h'.subset (by simp)
      | cons_cons _ h' => exact h'.subset (by simp)
    · refine .before ?_ hpr (more ++ [o]) (by rw [hl, List.append_assoc])
      cases h with
      | cons _ h' => exact h'
      | cons_cons _ h' => exact absurd rfl e
  | between x y hl h hp =>
    have hpa := hp a List.mem_cons_self
    have hpr : ∀ b ∈ rest, Plain tbl b := fun b hb => hp b (List.mem_cons_of_mem _ hb)
    have hgo : goesOn tbl m j {} a = true := by
      cases a with
      | addSyscall ns' nr' => obtain ⟨sc, e⟩ := hpa; exact Lemmas.Hub.filterStep_add_ok tbl m ns' nr' sc e
      | addSampled ns' nr' => obtain ⟨sc, e⟩ := hpa; exact Lemmas.Hub.filterStep_sampled_ok tbl m ns' nr' _ sc e
      | _ => rfl
    rw [hgo, if_pos rfl]
    by_cases e : a = .addSyscall ns nr
    · subst e
      simp only [actOp, Option.some.injEq] at ha
      subst ha
      exact .after x y [] (by rw [hl]; simp)
    · refine .between x (y ++ [o]) (by rw [hl]; simp) ?_ hpr
      rcases List.mem_cons.1 h with h | h
      · exact absurd h.symm e
      · exact h

theorem stage_start (hT : TableOK tbl) {pr : Proc} {c : Topology.Container}
    (hpos : 0 < c.pidns) (hsel : Hub.hostMatch pr.spec c.name = true) {name : String} (hname : name ∈ pr.spec.calls)
    {sc : Syscalls.Syscall} (hl : Syscalls.lookup tbl (.str name) = some sc) (log : List Daemon.Op) :
    Stage tbl pr.spec.job c.pidns sc.nr log log
      ((Topology.processEvent true pr.cache (some ⟨0, some c⟩)).2.1.flatMap (acts tbl pr.spec)) := by
  have hneg : ¬ c.pidns ≤ 0 := by omega
  have hpe : (Topology.processEvent true pr.cache (some ⟨0, some c⟩)).2.1 =
      [⟨Topology.typeStart, c, GoMap.set pr.cache c.pidns c⟩] := by
    simp only [Topology.processEvent, if_neg hneg]
    rfl
  have hacts : acts tbl pr.spec ⟨Topology.typeStart, c, GoMap.set pr.cache c.pidns c⟩ =
      pr.spec.calls.flatMap (startActs tbl pr.spec.job.rate c.pidns) := by
    unfold acts
    rw [if_neg (show ¬ Topology.typeStart = Topology.typeStop by decide), if_pos rfl]
    simp only [hsel, if_true]
  rw [hpe, List.flatMap_cons, List.flatMap_nil, List.append_nil, hacts]
  have hst : ∀ n, startActs tbl pr.spec.job.rate c.pidns n = match Syscalls.lookup tbl (.str n) with
      | none => [.crash]
      | some sc => .push c.pidns sc.nr :: ((if pr.spec.job.rate > 0 then [.swap c.pidns sc.nr, .addSampled c.pidns sc.nr]
          else []) ++ [.addSyscall c.pidns sc.nr]) := by
    intro n
    unfold startActs
    split <;> rename_i e <;> rw [e]
  refine .before ?_ ?_ [] (by simp)
  · obtain ⟨l1, l2, e⟩ := List.append_of_mem hname
    rw [e, List.flatMap_append, List.flatMap_cons, hst name, hl]
    refine List.Sublist.trans ?_ ((List.sublist_append_left _ _).trans (List.sublist_append_right _ _))
    exact List.Sublist.cons_cons _ (List.sublist_append_right _ _)
  · intro a ha
    obtain ⟨n, -, hn⟩ := List.mem_flatMap.1 ha
    rw [hst n] at hn
    split at hn
    · rw [List.mem_singleton] at hn; subst hn; trivial
    · rename_i x hx
      have := (hT.1 _ _ hx).1
      simp only [List.mem_cons, List.mem_append, List.not_mem_nil, or_false] at hn
      rcases hn with rfl | hn | rfl
      · exact ⟨x, this⟩
      · split at hn
        · simp only [List.mem_cons, List.not_mem_nil, or_false] at hn
          rcases hn with rfl | rfl
          · trivial
          · exact ⟨x, this⟩
        · cases hn
      · exact ⟨x, this⟩

theorem stage_run (hT : TableOK tbl) {s s' : Service} {p : Nat} {pr : Proc} (hp : s.procs[p]? = some pr)
    (hi : pr.todo = []) {c : Topology.Container} (hpos : 0 < c.pidns)
    (hsel : Hub.hostMatch pr.spec c.name = true) {name : String} (hname : name ∈ pr.spec.calls)
    {sc : Syscalls.Syscall} (hl : Syscalls.lookup tbl (.str name) = some sc) {post : List Op}
    (hf : ∀ f, .work p f ∈ post → f = {})
    (h : run tbl crc srt s (.notice p (some ⟨0, some c⟩) :: post) = some s') :
    ∃ pr', s'.procs[p]? = some pr' ∧ pr'.spec = pr.spec ∧
      Stage tbl pr.spec.job c.pidns sc.nr s.log s'.log pr'.todo := by
  obtain ⟨s1, out, h1, h2⟩ := run_cons_some h
  have hs1 : s1 = { s with procs := s.procs.set p ⟨pr.spec, (Topology.processEvent true pr.cache (some ⟨0, some c⟩)).1,
      (Topology.processEvent true pr.cache (some ⟨0, some c⟩)).2.1.flatMap (acts tbl pr.spec)⟩ } := by
    simp only [step, hp, hi] at h1
    exact (done_elim h1).1
  refine run_induct (P := fun x => ∃ pr', x.procs[p]? = some pr' ∧ pr'.spec = pr.spec ∧
      Stage tbl pr.spec.job c.pidns sc.nr s.log x.log pr'.todo) h2 ?_ ?_
  · rw [hs1]
    exact ⟨_, set_get hp, rfl, stage_start hT hpos hsel hname hl _⟩
  · rintro x op x' out hop hm ⟨q, q1, q2, q3⟩
    cases hm with
    | idle op => exact ⟨q, q1, q2, q3⟩
    | outside o d out ho hd => exact ⟨q, q1, q2, stage_log q3 o⟩
    | create => exact ⟨q, q1, q2, q3⟩
    | delete => exact ⟨q, q1, q2, q3⟩
    | handleDelete i t j d out ht hp hd => exact ⟨q, q1, q2, stage_log q3 _⟩
    | handleCreate i t ht hp => exact ⟨q, by rw [List.getElem?_append_left (lt_of_get q1)]; exact q1, q2, q3⟩
    | handleOther => exact ⟨q, q1, q2, q3⟩
    | notice p' ev pr' hp' ht' =>
      by_cases e : p = p'
      · subst e
        rw [q1] at hp'
        injection hp' with hp'
        subst hp'
        refine ⟨_, set_get q1, q2, ?_⟩
        rw [ht'] at q3
        cases q3 with
        | before h => cases h
        | between a b hl h => cases h
        | after a b c hl => exact .after a b c hl
      · exact ⟨q, by rw [set_get_ne e]; exact q1, q2, q3⟩
    | work p' f pr' a rest o d out hp' ht' ha hd =>
      by_cases e : p = p'
      · subst e
        rw [q1] at hp'
        injection hp' with hp'
        subst hp'
        have := hf f hop
        subst this
        refine ⟨_, set_get q1, q2, ?_⟩
        rw [ht'] at q3
        rw [q2] at ha
        show Stage tbl pr.spec.job c.pidns sc.nr s.log (x.log ++ [o]) (if goesOn tbl x.daemon.hub.maps q.spec.job {} a then rest else [])
        rw [q2]
        exact stage_work q3 ha _
      · exact ⟨q, by rw [set_get_ne e]; exact q1, q2, stage_log q3 o⟩
    | watch => exact ⟨q, q1, q2, q3⟩
    | attach k draw se d out hk ht hd => exact ⟨q, q1, q2, stage_log q3 _⟩
    | close => exact ⟨q, q1, q2, q3⟩
    | hangJob k fails se t id d out hk ht ho hc hw hd => exact ⟨q, q1, q2, stage_log q3 _⟩
    | hangPath => exact ⟨q, q1, q2, q3⟩

/-! ### Durations -/

/-- The service without durations. -/
abbrev bare (s : Service) : Service := { s with bodies := s.bodies.map undatedBody }

theorem perform_bare (s : Service) (o : Daemon.Op) :
    perform tbl crc srt (bare s) o = (perform tbl crc srt s o).map (fun r => (bare r.1, r.2)) := by
  unfold perform
  cases Daemon.step tbl crc srt s.daemon o <;> rfl

theorem bare_getD (s : Service) (i : Nat) :
    (bare s).bodies.getD i noBody = undatedBody (s.bodies.getD i noBody) := by
  simp only [List.getD_eq_getElem?_getD, List.getElem?_map]
  cases s.bodies[i]? <;> rfl

theorem undated_step (s : Service) (op : Op) :
    step tbl crc srt (bare s) (undated op) = (step tbl crc srt s op).map (fun r => (bare r.1, r.2)) := by
  cases op with
  | outside o =>
    simp only [undated, step]
    split
    · exact perform_bare s o
    · rfl
  | create q u ok b => simp [undated, step, bare, undatedBody]
  | delete id => simp [undated, step, bare, undatedBody]
  | handle i =>
    simp only [undated, step, handle]
    cases s.server.threads[i]? with
    | none => rfl
    | some t =>
      cases hpc : t.pc <;> simp only [hpc]
      case createSet =>
        have := bare_getD s i
        simp only [noBody] at this
        rw [this]
        rfl
      case deleteHub j =>
        rw [perform_bare]
        cases perform tbl crc srt s (.delete t.id) <;> rfl
      all_goals rfl
  | notice p ev =>
    simp only [undated, step]
    cases s.procs[p]? with
    | none => rfl
    | some pr => dsimp only; cases pr.todo <;> rfl
  | work p f =>
    simp only [undated, step]
    cases s.procs[p]? with
    | none => rfl
    | some pr =>
      dsimp only
      cases pr.todo with
      | nil => rfl
      | cons a rest =>
        dsimp only
        cases actOp pr.spec.job f a with
        | none => rfl
        | some o =>
          dsimp only
          rw [perform_bare]
          cases perform tbl crc srt s o <;> rfl
  | watch w =>
    cases w with
    | job id => simp only [undated, step]; split <;> rfl
    | path => rfl
  | attach k draw =>
    simp only [undated, step]
    cases s.sessions[k]? with
    | none => rfl
    | some se =>
      dsimp only
      cases se.tok with
      | some t => rfl
      | none =>
        dsimp only
        rw [perform_bare]
        cases perform tbl crc srt s (attachOp draw se.watch) <;> rfl
  | close k =>
    simp only [undated, step]
    cases s.sessions[k]? <;> rfl
  | ping k fails =>
    simp only [undated, step]
    cases s.sessions[k]? with
    | none => rfl
    | some se =>
      dsimp only
      cases se.tok with
      | none => rfl
      | some t =>
        dsimp only
        split
        · rfl
        · split
          · cases se.watch with
            | job id =>
              dsimp only
              unfold perform
              cases Daemon.step tbl crc srt s.daemon (.detach t) <;> rfl
            | path => rfl
          · rfl

theorem undated_run (ops : List Op) (s : Service) :
    run tbl crc srt (bare s) (ops.map undated) = (run tbl crc srt s ops).map bare := by
  induction ops generalizing s with
  | nil => rfl
  | cons o os ih =>
    simp only [List.map_cons, run]
    rw [undated_step]
    cases step tbl crc srt s o with
    | none => rfl
    | some r => exact ih r.1

end Swoll.Lemmas.Service
