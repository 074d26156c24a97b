import Verif.Lemmas.ServiceRules
import Verif.Lemmas.DaemonAlive
/-
The service stays alive.
-/
namespace Swoll.Lemmas.Service
open Swoll Swoll.Service
open Swoll.Daemon (Daemon Delivery)
open Swoll.Spec.Service
open Swoll.Spec.Hub (TableOK)

variable {tbl : Syscalls.Syscalls} {crc : String → BitVec 64} {srt : List PubSub.Env → List PubSub.Env}

/-- `nr` is the number of a call the body names. -/
def Names (tbl : Syscalls.Syscalls) (b : Body) (nr : Int) : Prop :=
  ∃ name ∈ b.calls, ∃ sc, Syscalls.lookup tbl (.str name) = some sc ∧ (sc.nr : Int) = nr

/-- What a callback may do for a request with this body. -/
def Makes (tbl : Syscalls.Syscalls) (b : Body) : Act → Prop
  | .push _ nr => Names tbl b nr
  | .addSampled _ nr => Names tbl b nr
  | .addSyscall _ nr => Names tbl b nr
  | .swap _ _ => True
  | .removeSyscall _ _ => True
  | .crash => ¬ ∀ name ∈ b.calls, ∃ sc, Syscalls.lookup tbl (.str name) = some sc

/-- The operation of the daemon comes from one of the requests. -/
def From (tbl : Syscalls.Syscalls) (bs : List Body) : Daemon.Op → Prop
  | .push j _ nr => ∃ b, bs[j.ref]? = some b ∧ j.rate = b.rate ∧ Names tbl b nr
  | .addSampled k _ _ _ => ∃ nr, k = .int nr ∧ ∃ b ∈ bs, Names tbl b nr
  | .addSyscall k _ _ => ∃ nr, k = .int nr ∧ ∃ b ∈ bs, Names tbl b nr
  | _ => True

/-- All that is done is done for requests. -/
structure Tame (tbl : Syscalls.Syscalls) (s : Service) : Prop where
  len : s.bodies.length = s.server.threads.length
  procs : ∀ pr ∈ s.procs, ∃ b, s.bodies[pr.spec.job.ref]? = some b ∧ pr.spec.job.rate = b.rate ∧ pr.spec.calls = b.calls ∧
    ∀ a ∈ pr.todo, Makes tbl b a
  log : ∀ o ∈ s.log, From tbl s.bodies o

theorem from_mono {bs bs' : List Body} (h : ∀ (i : Nat) b, bs[i]? = some b → bs'[i]? = some b) {o : Daemon.Op}
    (ho : From tbl bs o) : From tbl bs' o := by
  have hm : ∀ b ∈ bs, b ∈ bs' := by
    intro b hb
    obtain ⟨i, hi⟩ := List.getElem?_of_mem hb
    exact List.mem_of_getElem? (h i b hi)
  cases o with
  | push j ns nr => obtain ⟨b, h1, h2⟩ := ho; exact ⟨b, h _ _ h1, h2⟩
  | addSampled k n r f => obtain ⟨nr, h1, b, h2, h3⟩ := ho; exact ⟨nr, h1, b, hm b h2, h3⟩
  | addSyscall k n f => obtain ⟨nr, h1, b, h2, h3⟩ := ho; exact ⟨nr, h1, b, hm b h2, h3⟩
  | _ => trivial

theorem makes_acts {s : Hub.Spec} {b : Body} (hb : s.calls = b.calls) {c : Topology.Call} {a : Act}
    (ha : a ∈ acts tbl s c) : Makes tbl b a := by
  unfold acts at ha
  split at ha
  · obtain ⟨name, h1, h2⟩ := List.mem_flatMap.1 ha
    unfold stopActs at h2
    split at h2
    · rename_i hl
      rw [List.mem_singleton] at h2
      subst h2
      intro hall
      obtain ⟨sc, e⟩ := hall name (hb ▸ h1)
      rw [hl] at e; cases e
    · rw [List.mem_singleton] at h2
      subst h2
      trivial
  · split at ha
    · split at ha
      · obtain ⟨name, h1, h2⟩ := List.mem_flatMap.1 ha
        unfold startActs at h2
        split at h2
        · rename_i hl
          rw [List.mem_singleton] at h2
          subst h2
          intro hall
          obtain ⟨sc, e⟩ := hall name (hb ▸ h1)
          rw [hl] at e; cases e
        · rename_i sc hl
          have hn : Names tbl b sc.nr := ⟨name, hb ▸ h1, sc, hl, rfl⟩
          rcases List.mem_cons.1 h2 with rfl | h2
          · exact hn
          · rcases List.mem_append.1 h2 with h2 | h2
            · split at h2
              · simp only [List.mem_cons, List.not_mem_nil, or_false] at h2
                rcases h2 with rfl | rfl
                · trivial
                · exact hn
              · cases h2
            · rw [List.mem_singleton] at h2
              subst h2
              exact hn
      · cases ha
    · cases ha

theorem server_length (s : Server.State String) (i : Nat) (b : Bool) :
    (Server.step s (.step i b)).threads.length = s.threads.length := by
  simp only [Server.step]
  split
  · rfl
  · unfold Server.advance
    repeat' split
    all_goals simp [Server.goto]

theorem tame_same {s s' : Service} (h : Tame tbl s) (h1 : s'.bodies = s.bodies)
    (h2 : s'.server.threads.length = s.server.threads.length) (h3 : s'.procs = s.procs)
    (h4 : s'.log = s.log ∨ ∃ o, From tbl s.bodies o ∧ s'.log = s.log ++ [o]) : Tame tbl s' := by
  refine ⟨by rw [h1, h2]; exact h.len, by rw [h3, h1]; exact h.procs, ?_⟩
  rw [h1]
  rcases h4 with h4 | ⟨o, ho, h4⟩
  · rw [h4]; exact h.log
  · rw [h4]
    intro x hx
    rcases List.mem_append.1 hx with hx | hx
    · exact h.log x hx
    · rw [List.mem_singleton] at hx; subst hx; exact ho

theorem tame_grow {s s' : Service} (h : Tame tbl s) {b : Body} (h1 : s'.bodies = s.bodies ++ [b])
    (h2 : s'.server.threads.length = s.server.threads.length + 1) (h3 : s'.procs = s.procs) (h4 : s'.log = s.log) :
    Tame tbl s' := by
  have hm : ∀ (i : Nat) c, s.bodies[i]? = some c → s'.bodies[i]? = some c := by
    intro i c hc
    rw [h1, List.getElem?_append_left (lt_of_get hc)]; exact hc
  refine ⟨by rw [h1, h2, List.length_append, h.len]; rfl, ?_, ?_⟩
  · rw [h3]
    intro pr hpr
    obtain ⟨c, g1, g2⟩ := h.procs pr hpr
    exact ⟨c, hm _ _ g1, g2⟩
  · rw [h4]
    intro o ho
    exact from_mono hm (h.log o ho)

theorem from_act {bs : List Body} {j : Hub.Job} {b : Body} (hb : bs[j.ref]? = some b) (hr : j.rate = b.rate) {a : Act}
    (hm : Makes tbl b a) {f : Filter.Faults} {o : Daemon.Op} (ho : actOp j f a = some o) : From tbl bs o := by
  cases a <;> simp only [actOp, Option.some.injEq, reduceCtorEq] at ho <;> subst ho
  · exact ⟨b, hb, hr, hm⟩
  · trivial
  · exact ⟨_, rfl, b, List.mem_of_getElem? hb, hm⟩
  · exact ⟨_, rfl, b, List.mem_of_getElem? hb, hm⟩
  · trivial

theorem tame_step {s s' : Service} {op : Op} {out : List Delivery} (hm : Moves tbl crc srt s op s' out)
    (h : Tame tbl s) : Tame tbl s' := by
  cases hm with
  | idle op => exact h
  | outside o d out ho hd =>
    exact tame_same h rfl rfl rfl (Or.inr ⟨o, by cases o <;> first | trivial | cases ho, rfl⟩)
  | create q u ok b =>
    refine tame_grow h (b := b) rfl ?_ rfl rfl
    simp only [Server.step]
    repeat' split
    all_goals simp
  | delete id =>
    refine tame_grow h (b := noBody) rfl ?_ rfl rfl
    simp only [Server.step]
    repeat' split
    all_goals simp
  | handleDelete i t j d out ht hp hd =>
    exact tame_same h rfl (server_length _ _ _) rfl (Or.inr ⟨.delete t.id, trivial, rfl⟩)
  | handleOther i t ht h1 h2 => exact tame_same h rfl (server_length _ _ _) rfl (Or.inl rfl)
  | handleCreate i t ht hp =>
    refine ⟨?_, ?_, h.log⟩
    · show s.bodies.length = _
      rw [server_length]; exact h.len
    · intro pr hpr
      rcases List.mem_append.1 hpr with hpr | hpr
      · exact h.procs pr hpr
      · rw [List.mem_singleton] at hpr
        subst hpr
        have hi : i < s.bodies.length := by rw [h.len]; exact lt_of_get ht
        have e : s.bodies[i]? = some (s.bodies.getD i noBody) := by
          rw [List.getElem?_eq_getElem hi, List.getD_eq_getElem?_getD, List.getElem?_eq_getElem hi]; rfl
        exact ⟨_, e, rfl, rfl, fun a ha => by cases ha⟩
  | notice p ev pr hp ht =>
    refine ⟨h.len, ?_, h.log⟩
    intro q hq
    rcases List.mem_or_eq_of_mem_set hq with hq | rfl
    · exact h.procs q hq
    · obtain ⟨b, g1, g2, g3, -⟩ := h.procs pr (List.mem_of_getElem? hp)
      refine ⟨b, g1, g2, g3, ?_⟩
      intro a ha
      obtain ⟨c, -, hc⟩ := List.mem_flatMap.1 ha
      exact makes_acts g3 hc
  | work p f pr a rest o d out hp ht ha hd =>
    obtain ⟨b, g1, g2, g3, g4⟩ := h.procs pr (List.mem_of_getElem? hp)
    rw [ht] at g4
    refine ⟨h.len, ?_, ?_⟩
    · intro q hq
      rcases List.mem_or_eq_of_mem_set hq with hq | rfl
      · exact h.procs q hq
      · refine ⟨b, g1, g2, g3, ?_⟩
        intro x hx
        dsimp only at hx
        split at hx
        · exact g4 x (List.mem_cons_of_mem _ hx)
        · cases hx
    · intro x hx
      rcases List.mem_append.1 hx with hx | hx
      · exact h.log x hx
      · rw [List.mem_singleton] at hx
        subst hx
        exact from_act g1 g2 (g4 a List.mem_cons_self) ha
  | watch w hw => exact tame_same h rfl rfl rfl (Or.inl rfl)
  | attach k draw se d out hk ht hd =>
    exact tame_same h rfl rfl rfl (Or.inr ⟨_, by cases se.watch <;> trivial, rfl⟩)
  | close k se hk => exact tame_same h rfl rfl rfl (Or.inl rfl)
  | hangJob k fails se t id d out hk ht ho hc hw hd =>
    exact tame_same h rfl rfl rfl (Or.inr ⟨.detach t, trivial, rfl⟩)
  | hangPath k fails se t ns pod c hk ht ho hc hw => exact tame_same h rfl rfl rfl (Or.inl rfl)

theorem tame_run {s : Service} {ops : List Op} (h : run tbl crc srt (fresh tbl) ops = some s) : Tame tbl s :=
  run_induct h ⟨rfl, (fun pr hpr => by cases hpr), (fun o ho => by cases ho)⟩ (fun _ _ _ _ _ hm hi => tame_step hm hi)

theorem bodies_step {s s' : Service} {op : Op} {out : List Delivery} (h : step tbl crc srt s op = some (s', out)) :
    s'.bodies = s.bodies ++ requests [op] := by
  cases op with
  | create q u ok b => simp only [step] at h; obtain ⟨rfl, -⟩ := done_elim h; rfl
  | delete id => simp only [step] at h; obtain ⟨rfl, -⟩ := done_elim h; rfl
  | _ =>
    have hr : ∀ o : Op, (∀ q u ok b, o ≠ .create q u ok b) → (∀ id, o ≠ .delete id) → requests [o] = [] := by
      intro o h1 h2
      cases o with
      | create q u ok b => exact absurd rfl (h1 q u ok b)
      | delete id => exact absurd rfl (h2 id)
      | _ => rfl
    rw [hr _ (fun _ _ _ _ e => by cases e) (fun _ e => by cases e), List.append_nil]
    have hm := step_moves h
    cases hm <;> rfl

theorem bodies_run {s s' : Service} {ops : List Op} (h : run tbl crc srt s ops = some s') :
    s'.bodies = s.bodies ++ requests ops := by
  induction ops generalizing s with
  | nil => injection h with h; subst h; simp [requests]
  | cons o os ih =>
    obtain ⟨s1, out, h1, h2⟩ := run_cons_some h
    rw [ih h2, bodies_step h1, List.append_assoc]
    congr 1
    unfold requests
    rw [← List.filterMap_append]; rfl

/-- If no task is in pid namespace 0, none is in the log. -/
theorem placed_run {s : Service} {ops : List Op} (h : run tbl crc srt (fresh tbl) ops = some s)
    (ho : ∀ op ∈ ops, Placed op) : ∀ o ∈ s.log, Spec.Daemon.Placed o := by
  refine run_induct (P := fun x => ∀ o ∈ x.log, Spec.Daemon.Placed o) h (fun o h => by cases h) ?_
  intro x op x' out hop hm hx
  have snoc : ∀ o, Spec.Daemon.Placed o → ∀ y ∈ x.log ++ [o], Spec.Daemon.Placed y := by
    intro o h1 y hy
    rcases List.mem_append.1 hy with hy | hy
    · exact hx y hy
    · rw [List.mem_singleton] at hy; subst hy; exact h1
  cases hm with
  | outside o d out _ hd => exact snoc o (ho _ hop)
  | handleDelete i t j d out ht hp hd => exact snoc _ trivial
  | work p f pr a rest o d out hp ht ha hd =>
    refine snoc o ?_
    cases a <;> simp only [actOp, Option.some.injEq, reduceCtorEq] at ha <;> subst ha <;> exact trivial
  | attach k draw se d out hk ht hd =>
    refine snoc _ ?_
    cases se.watch <;> exact trivial
  | hangJob k fails se t id d out hk ht ho hc hw hd => exact snoc _ trivial
  | _ => exact hx

/-- The service takes any step. -/
theorem service_alive (hsrt : PubSub.Node.IsSort srt) (hT : TableOK tbl) {ops : List Op} {s : Service} {op : Op}
    (h : run tbl crc srt (fresh tbl) ops = some s) (hs : ∀ o ∈ ops, Sane o) (hp : ∀ o ∈ ops, Placed o)
    (hd : Decodable tbl ops) (hr : RatesDiffer tbl ops) : ∃ r, step tbl crc srt s op = some r := by
  have htame := tame_run h
  have hbod : s.bodies = requests ops := by
    have := bodies_run h; rw [this]; rfl
  have hinv := sinv_run h
  have hlog := logged_run h
  have hsn : ∀ o ∈ s.log, Spec.Daemon.SaneOp o := sane_run h hs (fun o ho => by cases ho)
  have hpl : ∀ o ∈ s.log, Spec.Daemon.Placed o := placed_run h hp
  have hreq : ∀ ns nr, Spec.Daemon.Requested tbl s.log ns nr → nr.toNat ∈ Spec.Event.decodable := by
    rintro ns nr ⟨k, n, sc, hk, hl, hn, -⟩
    obtain ⟨m, rfl, b, hb, name, hname, sc', hl', hm⟩ : ∃ m, k = .int m ∧ ∃ b ∈ s.bodies, Names tbl b m := by
      rcases hk with ⟨f, hk⟩ | ⟨r, f, hk⟩
      · exact htame.log _ hk
      · exact htame.log _ hk
    rw [hbod] at hb
    obtain ⟨sc2, e1, e2⟩ := hd b hb name hname
    rw [hl'] at e1
    injection e1 with e1
    subst e1
    have := hT.2 _ _ hl
    have e : sc.nr = sc'.nr := by omega
    rw [← hn, e]
    have hlt : ∀ x ∈ Spec.Event.decodable, x < 2 ^ 32 := by decide +kernel
    rw [BitVec.toNat_ofNat, Nat.mod_eq_of_lt (hlt _ e2)]
    exact e2
  have hrates : Spec.Daemon.RatesApart s.log := by
    intro j j' ns nr h1 h2 h3 h4
    obtain ⟨b, b1, b2, n, hn, x, hx, ex⟩ := htame.log _ h1
    obtain ⟨c, c1, c2, m, hm, y, hy, ey⟩ := htame.log _ h2
    rw [hbod] at b1 c1
    exact hr _ _ b c b1 c1 (by rw [← b2]; exact h3) (by rw [← b2, ← c2]; exact h4) n hn m hm x y hx hy (by omega)
  have go : ∀ o, Spec.Daemon.DetachOnce (s.log ++ [o]) → ∃ r, perform tbl crc srt s o = some r := by
    intro o ho
    obtain ⟨r, e⟩ := Lemmas.Daemon.step_alive hsrt hT hlog ho hsn hpl hreq hrates
    exact ⟨_, by unfold perform; rw [e]; rfl⟩
  have neutral : ∀ o, Spec.Daemon.detaches o = none → Spec.Daemon.DetachOnce (s.log ++ [o]) := by
    intro o ho
    unfold Spec.Daemon.DetachOnce
    rw [List.filterMap_append]
    simp only [List.filterMap_cons, ho, List.filterMap_nil, List.append_nil]
    exact hinv.once
  cases op with
  | outside o =>
    simp only [step]
    split
    · exact go o (neutral o (neutral_outside (by assumption)).2)
    · exact ⟨_, rfl⟩
  | create q u ok b => exact ⟨_, rfl⟩
  | delete id => exact ⟨_, rfl⟩
  | handle i =>
    simp only [step, handle]
    split
    · exact ⟨_, rfl⟩
    · rename_i t ht
      split
      · obtain ⟨r, e⟩ := go (.delete t.id) (neutral _ rfl)
        rw [e]; exact ⟨_, rfl⟩
      · exact ⟨_, rfl⟩
      · exact ⟨_, rfl⟩
  | notice p ev =>
    simp only [step]
    split
    · exact ⟨_, rfl⟩
    · split <;> exact ⟨_, rfl⟩
  | work p f =>
    simp only [step]
    split
    · exact ⟨_, rfl⟩
    · rename_i pr hpr
      split
      · exact ⟨_, rfl⟩
      · rename_i a rest ht
        split
        · rename_i ha
          obtain ⟨b, g1, g2, g3, g4⟩ := htame.procs pr (List.mem_of_getElem? hpr)
          have hc : a = .crash := by cases a <;> first | rfl | cases ha
          subst hc
          have := g4 .crash (by rw [ht]; exact List.mem_cons_self)
          refine absurd ?_ this
          intro name hname
          obtain ⟨sc, e, -⟩ := hd b (hbod ▸ List.mem_of_getElem? g1) name hname
          exact ⟨sc, e⟩
        · rename_i o ho
          obtain ⟨r, e⟩ := go o (neutral o (neutral_act ho).2)
          rw [e]; exact ⟨_, rfl⟩
  | watch w =>
    cases w with
    | job id => simp only [step]; split <;> exact ⟨_, rfl⟩
    | path a b c => exact ⟨_, rfl⟩
  | attach k draw =>
    simp only [step]
    split
    · exact ⟨_, rfl⟩
    · rename_i se hk
      split
      · exact ⟨_, rfl⟩
      · obtain ⟨r, e⟩ := go (attachOp draw se.watch) (neutral _ (by cases se.watch <;> rfl))
        rw [e]; exact ⟨_, rfl⟩
  | close k => simp only [step]; split <;> exact ⟨_, rfl⟩
  | ping k fails =>
    simp only [step]
    split
    · exact ⟨_, rfl⟩
    · rename_i se hk
      split
      · exact ⟨_, rfl⟩
      · rename_i t ht
        split
        · exact ⟨_, rfl⟩
        · rename_i hover
          split
          · split
            · rename_i id hw
              have hdo : Spec.Daemon.DetachOnce (s.log ++ [.detach t]) := by
                unfold Spec.Daemon.DetachOnce
                rw [List.filterMap_append]
                show (s.log.filterMap Spec.Daemon.detaches ++ [t]).Nodup
                rw [List.nodup_append]
                refine ⟨hinv.once, by simp, ?_⟩
                intro a ha b hb e
                rw [List.mem_singleton] at hb
                subst hb; subst e
                obtain ⟨k', se', hk', e1, e2⟩ := hinv.det a ha
                have := hinv.inj _ _ _ _ a hk' hk e1 ht
                subst this
                rw [hk] at hk'
                injection hk' with hk'
                subst hk'
                exact hover e2.1
              obtain ⟨r, e⟩ := Lemmas.Daemon.step_alive hsrt hT hlog hdo hsn hpl hreq hrates
              unfold perform
              rw [e]
              exact ⟨_, rfl⟩
            · exact ⟨_, rfl⟩
          · exact ⟨_, rfl⟩

end Swoll.Lemmas.Service
