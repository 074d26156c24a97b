import Verif.Spec.Site
import Verif.Lemmas.Cluster
import Verif.Lemmas.ServiceServe
import Verif.Lemmas.ServiceDeleted
import Verif.Lemmas.Topology
/-
Lemmas about a node of a cluster: what its observers say is about pods they watch.
-/
namespace Swoll.Lemmas.Site
open Swoll Swoll.Site Swoll.Spec.Site
open Swoll.Cluster (Key Pod Api Watcher Sel Change selected)
open Swoll.Lemmas.Service

variable {a : Api} {tbl : Syscalls.Syscalls} {crc : String → BitVec 64} {srt : List PubSub.Env → List PubSub.Env}

theorem getD_lt {α : Type} {l : List α} {i : Nat} (h : i < l.length) {d : α} : l.getD i d = l[i] := by
  rw [List.getD_eq_getElem?_getD, List.getElem?_eq_getElem h]; rfl

/-! ### What a job registers for, it was told of -/

/-- The goroutine `p` was told of a started container, and its request is about the container and the call. -/
def Heard (tbl : Syscalls.Syscalls) (ops : List Service.Op) (p : Nat) (spec : Hub.Spec) (ns nr : Int) : Prop :=
  ∃ c name sc, .notice p (some ⟨0, some c⟩) ∈ ops ∧ c.pidns = ns ∧ (spec.hosts = [] ∨ c.name ∈ spec.hosts) ∧
    name ∈ spec.calls ∧ Syscalls.lookup tbl (.str name) = some sc ∧ (sc.nr : Int) = nr

theorem acts_push {s : Hub.Spec} {c : Topology.Call} {ns nr : Int} (h : .push ns nr ∈ Service.acts tbl s c) :
    c.type = Topology.typeStart ∧ c.container.pidns = ns ∧ (s.hosts = [] ∨ c.container.name ∈ s.hosts) ∧
    ∃ name ∈ s.calls, ∃ sc, Syscalls.lookup tbl (.str name) = some sc ∧ (sc.nr : Int) = nr := by
  unfold Service.acts at h
  split at h
  · obtain ⟨name, h1, h2⟩ := List.mem_flatMap.1 h
    unfold Service.stopActs at h2
    split at h2 <;> simp at h2
  · split at h
    · next hty =>
      split at h
      · next hh =>
        obtain ⟨name, h1, h2⟩ := List.mem_flatMap.1 h
        unfold Service.startActs at h2
        split at h2
        · simp at h2
        · next sc hsc =>
          have h3 : ns = c.container.pidns ∧ nr = sc.nr := by
            rcases List.mem_cons.1 h2 with e | e
            · injection e with e1 e2; exact ⟨e1, e2⟩
            · split at e <;> simp at e
          refine ⟨hty, h3.1.symm, ?_, name, h1, sc, hsc, h3.2.symm⟩
          unfold Hub.hostMatch at hh
          split at hh
          · right
            simpa using hh
          · left
            next hn => exact List.eq_nil_of_length_eq_zero (by omega)
      · cases h
    · cases h

theorem event_type {cache : Topology.Cache} {ev : Option Topology.Event} {c : Topology.Call}
    (hc : c ∈ (Topology.processEvent true cache ev).2.1) :
    ev = some ⟨c.type, some c.container⟩ := by
  unfold Topology.processEvent at hc
  split at hc
  · cases hc
  · next e =>
    split at hc
    · cases hc
    · next x hx =>
      split at hc
      · cases hc
      · split at hc
        · next ht =>
          simp only [if_true, List.mem_singleton] at hc
          subst hc
          cases e; simp only at hx ht; subst hx ht; rfl
        · split at hc
          · next ht =>
            simp only [if_true, List.mem_singleton] at hc
            subst hc
            cases e; simp only at hx ht; subst hx ht; rfl
          · cases hc

theorem heard_run {s : Service.Service} {ops : List Service.Op}
    (h : Service.run tbl crc srt (Service.fresh tbl) ops = some s) :
    (∀ p pr, s.procs[p]? = some pr → ∀ ns nr, .push ns nr ∈ pr.todo → Heard tbl ops p pr.spec ns nr) ∧
    ∀ j ns nr, .push j ns nr ∈ s.log → ∃ p pr, s.procs[p]? = some pr ∧ pr.spec.job = j ∧ Heard tbl ops p pr.spec ns nr := by
  refine run_induct (P := fun x =>
    (∀ p pr, x.procs[p]? = some pr → ∀ ns nr, .push ns nr ∈ pr.todo → Heard tbl ops p pr.spec ns nr) ∧
    ∀ j ns nr, .push j ns nr ∈ x.log → ∃ p pr, x.procs[p]? = some pr ∧ pr.spec.job = j ∧ Heard tbl ops p pr.spec ns nr) h
    ⟨(fun p pr hpr => by simp [Service.fresh] at hpr), (fun j ns nr ho => by cases ho)⟩ ?_
  rintro x op x' out hop hm ⟨h1, h2⟩
  have keep : ∀ (j : Hub.Job) (ns nr : Int), Daemon.Op.push j ns nr ∈ x.log →
      ∃ p pr, x'.procs[p]? = some pr ∧ pr.spec.job = j ∧ Heard tbl ops p pr.spec ns nr := by
    intro j ns nr ho
    obtain ⟨p, pr, e1, e2, e3⟩ := h2 j ns nr ho
    obtain ⟨pr', f1, f2⟩ := proc_step hm e1
    exact ⟨p, pr', f1, by rw [f2, e2], by rw [f2]; exact e3⟩
  have snoc : ∀ o : Daemon.Op, (∀ j ns nr, o ≠ .push j ns nr) → ∀ j ns nr, Daemon.Op.push j ns nr ∈ x.log ++ [o] →
      ∃ p pr, x'.procs[p]? = some pr ∧ pr.spec.job = j ∧ Heard tbl ops p pr.spec ns nr := by
    intro o ho j ns nr hy
    rcases List.mem_append.1 hy with hy | hy
    · exact keep j ns nr hy
    · rw [List.mem_singleton] at hy; exact absurd hy.symm (ho j ns nr)
  cases hm with
  | outside o d out ho hd =>
    exact ⟨h1, snoc o (by rintro j ns nr rfl; cases ho)⟩
  | handleDelete i t j d out ht hp hd => exact ⟨h1, snoc _ (by rintro j ns nr e; cases e)⟩
  | handleCreate i t ht hp =>
    refine ⟨?_, keep⟩
    intro p pr hpr
    rcases Nat.lt_or_ge p x.procs.length with hl | hl
    · rw [List.getElem?_append_left hl] at hpr
      exact h1 p pr hpr
    · rw [List.getElem?_append_right hl] at hpr
      have := List.mem_of_getElem? hpr
      rw [List.mem_singleton] at this
      subst this
      intro ns nr e; cases e
  | notice p ev pr hp ht =>
    refine ⟨?_, keep⟩
    intro q qr hq ns nr hn
    by_cases e : q = p
    · subst e
      rw [set_get hp] at hq
      injection hq with hq
      subst hq
      obtain ⟨c, hc, hac⟩ := List.mem_flatMap.1 hn
      have he := event_type hc
      obtain ⟨t1, t2, t3, name, t4, sc, t5, t6⟩ := acts_push hac
      rw [he, t1] at hop
      exact ⟨c.container, name, sc, hop, t2, t3, t4, t5, t6⟩
    · rw [set_get_ne e] at hq
      exact h1 q qr hq ns nr hn
  | work p f pr a rest o d out hp ht ha hd =>
    have hpr := h1 p pr hp
    rw [ht] at hpr
    refine ⟨?_, ?_⟩
    · intro q qr hq ns nr hn
      by_cases e : q = p
      · subst e
        rw [set_get hp] at hq
        injection hq with hq
        subst hq
        dsimp only at hn ⊢
        split at hn
        · exact hpr ns nr (List.mem_cons_of_mem _ hn)
        · cases hn
      · rw [set_get_ne e] at hq
        exact h1 q qr hq ns nr hn
    · intro j ns nr hy
      rcases List.mem_append.1 hy with hy | hy
      · exact keep j ns nr hy
      · rw [List.mem_singleton] at hy
        subst hy
        cases a with
        | push ns' nr' =>
          simp only [Service.actOp, Option.some.injEq, Daemon.Op.push.injEq] at ha
          obtain ⟨rfl, rfl, rfl⟩ := ha
          exact ⟨p, _, set_get hp, rfl, hpr _ _ List.mem_cons_self⟩
        | _ => simp [Service.actOp] at ha
  | attach k draw se d out hk ht hd =>
    exact ⟨h1, snoc _ (by cases se.watch <;> (intro j ns nr e; cases e))⟩
  | hangJob k fails se t id d out hk ht ho hc hw hd => exact ⟨h1, snoc _ (by rintro j ns nr e; cases e)⟩
  | _ => exact ⟨h1, keep⟩

/-- The goroutines are those of requests: with their numbers and names, and what they ask for. -/
theorem named_run {s : Service.Service} {ops : List Service.Op}
    (h : Service.run tbl crc srt (Service.fresh tbl) ops = some s) :
    ∀ pr ∈ s.procs, ∃ t b, s.server.threads[pr.spec.job.ref]? = some t ∧ t.id = pr.spec.job.id ∧
      s.bodies[pr.spec.job.ref]? = some b ∧ pr.spec.hosts = b.hosts ∧ pr.spec.calls = b.calls := by
  refine (run_induct (P := fun x => Tame tbl x ∧
    ∀ pr ∈ x.procs, ∃ t b, x.server.threads[pr.spec.job.ref]? = some t ∧ t.id = pr.spec.job.id ∧
      x.bodies[pr.spec.job.ref]? = some b ∧ pr.spec.hosts = b.hosts ∧ pr.spec.calls = b.calls) h
    ⟨tame_run (crc := crc) (srt := srt) (ops := []) rfl, (fun pr hpr => by cases hpr)⟩ ?_).2
  rintro x op x' out - hm ⟨ht, h1⟩
  refine ⟨tame_step hm ht, ?_⟩
  have grow : ∀ (i : Nat) (t : Server.Thread String), x.server.threads[i]? = some t →
      ∃ t', x'.server.threads[i]? = some t' ∧ t'.id = t.id := by
    intro i t hi
    have adv : ∀ (k : Nat) (b : Bool), ∃ t', (Server.step x.server (.step k b)).threads[i]? = some t' ∧ t'.id = t.id := by
      intro k b
      simp only [Server.step]
      split
      · exact ⟨t, hi, rfl⟩
      · next u hu =>
        have hset : ∀ pc, ∃ t', (x.server.threads.set k ⟨u.id, pc⟩)[i]? = some t' ∧ t'.id = t.id := by
          intro pc
          by_cases e : i = k
          · subst e
            rw [hi] at hu
            injection hu with hu
            subst hu
            exact ⟨_, set_get hi, rfl⟩
          · exact ⟨t, by rw [set_get_ne e]; exact hi, rfl⟩
        unfold Server.advance
        split <;> (try split) <;> first
          | exact hset _
          | exact ⟨t, hi, rfl⟩
    cases hm with
    | create q u ok b =>
      exact ⟨t, by simp only [Server.step]; rw [List.getElem?_append_left (lt_of_get hi)]; exact hi, rfl⟩
    | delete id =>
      exact ⟨t, by simp only [Server.step]; rw [List.getElem?_append_left (lt_of_get hi)]; exact hi, rfl⟩
    | handleDelete k t' j d out _ _ _ => exact adv _ _
    | handleCreate k t' _ _ => exact adv _ _
    | handleOther k t' _ _ _ => exact adv _ _
    | _ => exact ⟨t, hi, rfl⟩
  have growB : ∀ (i : Nat) (b : Service.Body), x.bodies[i]? = some b → x'.bodies[i]? = some b := by
    intro i b hi
    cases hm with
    | create q u ok b => exact (by rw [List.getElem?_append_left (lt_of_get hi)]; exact hi)
    | delete id => exact (by rw [List.getElem?_append_left (lt_of_get hi)]; exact hi)
    | _ => exact hi
  have old : ∀ pr ∈ x.procs, ∀ pr' : Service.Proc, pr'.spec = pr.spec →
      ∃ t b, x'.server.threads[pr'.spec.job.ref]? = some t ∧ t.id = pr'.spec.job.id ∧
      x'.bodies[pr'.spec.job.ref]? = some b ∧ pr'.spec.hosts = b.hosts ∧ pr'.spec.calls = b.calls := by
    intro pr hpr pr' e
    obtain ⟨t, b, e1, e2, e3, e4⟩ := h1 pr hpr
    obtain ⟨t', f1, f2⟩ := grow _ t e1
    rw [e]
    exact ⟨t', b, f1, by rw [f2, e2], growB _ b e3, e4⟩
  intro pr' hpr'
  obtain ⟨p, hp⟩ := List.getElem?_of_mem hpr'
  rcases Nat.lt_or_ge p x.procs.length with hl | hl
  · obtain ⟨pr'', g1, g2⟩ := proc_step hm (List.getElem?_eq_getElem hl)
    rw [hp] at g1
    injection g1 with g1
    subst g1
    exact old _ (List.getElem_mem hl) _ g2
  · cases hm with
    | handleCreate i t hti hpc =>
      rw [List.getElem?_append_right hl] at hp
      have := List.mem_of_getElem? hp
      rw [List.mem_singleton] at this
      subst this
      dsimp only
      obtain ⟨t', f1, f2⟩ := grow i t hti
      have hlt : i < x.bodies.length := by rw [ht.len]; exact lt_of_get hti
      refine ⟨t', x.bodies[i], f1, f2, List.getElem?_eq_getElem hlt, ?_⟩
      rw [getD_lt hlt]
      exact ⟨rfl, rfl⟩
    | notice q ev pr hq htd => have := lt_of_get hp; rw [List.length_set] at this; omega
    | work q f pr a rest o d out hq htd ha hd => have := lt_of_get hp; rw [List.length_set] at this; omega
    | _ => exact absurd (lt_of_get hp) (Nat.not_lt.2 hl)

/-! ### What an observer says is about pods it watches -/

/-- The pods an observer watches. -/
abbrev Watched (a : Api) (o : Topology.Observer) (p : Pod) : Prop := selected a o p = true

structure WInv (a : Api) (ops : List Op) (w : Watcher) : Prop where
  queue : ∀ p, (.upd p ∈ w.queue ∨ .del p ∈ w.queue) → .put p ∈ ops ∧ Watched a w.obs p
  phased : ∀ k l, w.phased.get k = some l → ∀ c ∈ l, Found ops (Watched a w.obs) c
  chan : ∀ ev ∈ w.chan, ∃ c, ev.container = some c ∧ Found ops (Watched a w.obs) c

/-- What the runtime says was said. -/
def Known (ops : List Op) (cri : Option (List Topology.CriContainer)) : Prop :=
  ∀ l, cri = some l → ∀ cc ∈ l, ∃ l', .runtime (some l') ∈ ops ∧ cc ∈ l'

theorem winv_new (o : Topology.Observer) (ops : List Op) : WInv a ops (Watcher.new o) :=
  ⟨(fun p h => by rcases h with h | h <;> cases h), (fun k l h => by cases h), (fun ev h => by cases h)⟩

theorem winv_hears {ops : List Op} {w : Watcher} (h : WInv a ops w) {old new : Option Pod}
    (ho : ∀ p, old = some p → .put p ∈ ops) (hn : ∀ p, new = some p → .put p ∈ ops) :
    WInv a ops (w.hears a old new) := by
  have key : ∀ (x : Option Pod) (p : Pod), x.filter (selected a w.obs) = some p → x = some p ∧ Watched a w.obs p := by
    intro x p hx
    rw [Option.filter_eq_some_iff] at hx
    exact hx
  have app : ∀ c, (∀ p, (c = .upd p ∨ c = .del p) → .put p ∈ ops ∧ Watched a w.obs p) →
      WInv a ops { w with queue := w.queue ++ [c] } := by
    intro c hc
    refine ⟨?_, h.phased, h.chan⟩
    intro p hp
    simp only [List.mem_append, List.mem_singleton] at hp
    rcases hp with (hp | hp) | (hp | hp)
    · exact h.queue p (Or.inl hp)
    · exact hc p (Or.inl hp.symm)
    · exact h.queue p (Or.inr hp)
    · exact hc p (Or.inr hp.symm)
  unfold Watcher.hears
  split
  · split
    · next p hp =>
      obtain ⟨e1, e2⟩ := key _ _ hp
      refine app _ ?_
      rintro q (e | e) <;> cases e
      exact ⟨hn _ e1, e2⟩
    · next p hp _ =>
      obtain ⟨e1, e2⟩ := key _ _ hp
      refine app _ ?_
      rintro q (e | e) <;> cases e
      exact ⟨ho _ e1, e2⟩
    · exact h
  · exact h

theorem winv_list {ops : List Op} {w : Watcher} (h : WInv a ops w) {pods : GoMap Key Pod}
    (hp : ∀ e ∈ pods, .put e.2 ∈ ops) : WInv a ops (w.list a pods) := by
  unfold Watcher.list
  split
  · exact h
  · refine ⟨?_, h.phased, h.chan⟩
    intro p hm
    simp only [List.mem_append, List.mem_map, List.mem_filter, Change.upd.injEq, reduceCtorEq, and_false, exists_false,
      or_false, exists_eq_right] at hm
    rcases hm with (hm | ⟨⟨e, he, rfl⟩, hs⟩) | hm
    · exact h.queue p (Or.inl hm)
    · exact ⟨hp e he, hs⟩
    · exact h.queue p (Or.inr hm)

theorem listed {ops : List Op} {cri : Option (List Topology.CriContainer)} (hc : Known ops cri) {o : Topology.Observer}
    {p : Pod} (hp : .put p ∈ ops) (hs : Watched a o p) {c : Topology.Container}
    (h : c ∈ Topology.containersForPod p.view cri) : Found ops (Watched a o) c := by
  unfold Topology.containersForPod Topology.criContainers at h
  cases cri with
  | none => cases h
  | some l =>
    simp only [Option.map_some, Option.getD_some, List.mem_filterMap] at h
    obtain ⟨cc, h1, h2⟩ := h
    have hne : p.view.name ≠ "" ∧ p.view.ns ≠ "" := by
      unfold Topology.criOne at h2
      dsimp only at h2
      split at h2
      · cases h2
      · next hsk =>
        simp only [Bool.or_eq_true, beq_iff_eq, bne_iff_ne, ne_eq, not_or, Classical.not_not] at hsk
        exact ⟨by rw [hsk.2.1]; exact hsk.1.1, by rw [hsk.2.2]; exact hsk.1.2⟩
    obtain ⟨h3, pid, pidns, h4, h5, rfl⟩ := (Lemmas.Topology.criOne_some p.view cc c hne.1 hne.2).1 h2
    obtain ⟨l', h6, h7⟩ := hc l rfl cc h1
    exact ⟨p, hp, hs, rfl, rfl, l', cc, h6, h7, h3, rfl, h5⟩

theorem winv_note {ops : List Op} {w : Watcher} (h : WInv a ops w) {cri : Option (List Topology.CriContainer)}
    (hc : Known ops cri) {p : Pod} (hp : .put p ∈ ops) (hs : Watched a w.obs p) {n : Topology.Note}
    (hn : n = .add p.view cri ∨ (∃ old, n = .update old p.view cri) ∨ n = .delete p.view cri) : WInv a ops (w.note n) := by
  have events : ∀ t : Int, ∀ ev ∈ (Topology.containersForPod p.view cri).map (fun c => (⟨t, some c⟩ : Topology.Event)),
      ∃ c, ev.container = some c ∧ Found ops (Watched a w.obs) c := by
    intro t ev hev
    obtain ⟨c, h1, rfl⟩ := List.mem_map.1 hev
    exact ⟨c, rfl, listed hc hp hs h1⟩
  have chan : ∀ out : List Topology.Event, (∀ ev ∈ out, ∃ c, ev.container = some c ∧ Found ops (Watched a w.obs) c) →
      ∀ ev ∈ w.chan ++ out, ∃ c, ev.container = some c ∧ Found ops (Watched a w.obs) c := by
    intro out ho ev hev
    rcases List.mem_append.1 hev with hev | hev
    · exact h.chan ev hev
    · exact ho ev hev
  unfold Watcher.note
  rcases hn with rfl | ⟨old, rfl⟩ | rfl
  · exact ⟨h.queue, h.phased, chan _ (events _)⟩
  · refine ⟨h.queue, ?_, chan _ ?_⟩
    · intro k l hk
      simp only [Topology.observe] at hk
      split at hk
      · split at hk
        · exact h.phased k l hk
        · split at hk
          · rw [GoMap.get_set] at hk
            split at hk
            · injection hk with hk
              subst hk
              exact fun c hcm => listed hc hp hs hcm
            · exact h.phased k l hk
          · exact h.phased k l hk
      · exact h.phased k l hk
    · intro ev hev
      simp only [Topology.observe] at hev
      split at hev
      · exact events _ ev hev
      · cases hev
  · refine ⟨h.queue, ?_, chan _ ?_⟩
    · intro k l hk
      simp only [Topology.observe] at hk
      split at hk
      · rw [GoMap.get_del] at hk
        split at hk
        · cases hk
        · exact h.phased k l hk
      · exact h.phased k l hk
    · intro ev hev
      simp only [Topology.observe] at hev
      split at hev
      · next l hl =>
        obtain ⟨c, h1, rfl⟩ := List.mem_map.1 hev
        exact ⟨c, rfl, h.phased _ l hl c h1⟩
      · exact events _ ev hev

theorem pop_mem {k : Key} {q q' : List Change} {c : Change} (h : Cluster.pop k q = some (c, q')) :
    c ∈ q ∧ ∀ x ∈ q', x ∈ q := by
  induction q generalizing q' with
  | nil => cases h
  | cons y ys ih =>
    unfold Cluster.pop at h
    split at h
    · injection h with h
      injection h with h1 h2
      subst h1 h2
      exact ⟨List.mem_cons_self, fun x hx => List.mem_cons_of_mem _ hx⟩
    · split at h
      · cases h
      · next d ds hd =>
        injection h with h
        injection h with h1 h2
        subst h1 h2
        obtain ⟨g1, g2⟩ := ih hd
        refine ⟨List.mem_cons_of_mem _ g1, ?_⟩
        intro x hx
        rcases List.mem_cons.1 hx with rfl | hx
        · exact List.mem_cons_self
        · exact List.mem_cons_of_mem _ (g2 x hx)

theorem note_obs (w : Watcher) (n : Topology.Note) : (w.note n).obs = w.obs := rfl

theorem winv_handle {ops : List Op} {w w' : Watcher} (h : WInv a ops w) {cri : Option (List Topology.CriContainer)}
    (hc : Known ops cri) {k : Key} (hh : w.handle cri k = some w') : WInv a ops w' ∧ w'.obs = w.obs := by
  unfold Watcher.handle at hh
  split at hh
  · injection hh with hh; subst hh; exact ⟨h, rfl⟩
  · next p q hq =>
    obtain ⟨g1, g2⟩ := pop_mem hq
    obtain ⟨e1, e2⟩ := h.queue p (Or.inl g1)
    injection hh with hh
    subst hh
    refine ⟨?_, rfl⟩
    refine winv_note (w := { w with store := w.store.set k p, queue := q }) (p := p) (cri := cri)
      ⟨?_, h.phased, h.chan⟩ hc e1 e2 ?_
    · exact fun p' hp' => h.queue p' (hp'.imp (g2 _) (g2 _))
    · split
      · exact Or.inr (Or.inl ⟨_, rfl⟩)
      · exact Or.inl rfl
  · next p q hq =>
    obtain ⟨g1, g2⟩ := pop_mem hq
    obtain ⟨e1, e2⟩ := h.queue p (Or.inr g1)
    injection hh with hh
    subst hh
    refine ⟨?_, rfl⟩
    refine winv_note (w := { w with store := w.store.del k, queue := q }) (p := p) (cri := cri)
      ⟨?_, h.phased, h.chan⟩ hc e1 e2 (Or.inr (Or.inr rfl))
    exact fun p' hp' => h.queue p' (hp'.imp (g2 _) (g2 _))
  · cases hh

/-! ### The node -/

structure Inv (a : Api) (tbl : Syscalls.Syscalls) (crc : String → BitVec 64) (srt : List PubSub.Env → List PubSub.Env)
    (o : Topology.Observer) (ops : List Op) (s : Site) : Prop where
  log : Service.run tbl crc srt (Service.fresh tbl) s.log = some s.service
  obs : s.hub.obs = o
  pods : ∀ e ∈ s.pods, .put e.2 ∈ ops
  cri : Known ops s.cri
  hub : WInv a ops s.hub
  jobs : ∀ w ∈ s.jobs, WInv a ops w
  len : s.jobs.length = s.service.procs.length
  topo : ∀ ev, .outside (.topo ev) ∈ s.log → ∃ e c, ev = some e ∧ e.container = some c ∧ Found ops (Watched a o) c
  told : ∀ p ev, .notice p ev ∈ s.log → ∃ w e c, s.jobs[p]? = some w ∧ ev = some e ∧ e.container = some c ∧
    Found ops (Watched a w.obs) c
  watch : ∀ (p : Nat) pr, s.service.procs[p]? = some pr → ∃ w sel, s.jobs[p]? = some w ∧
    s.sels[pr.spec.job.ref]? = some sel ∧ w.obs = (Cluster.jobObserver o sel.1 sel.2).getD o

theorem inv_fresh (o : Topology.Observer) (ops : List Op) : Inv a tbl crc srt o ops (fresh tbl o) where
  log := rfl
  obs := rfl
  pods := fun e he => by cases he
  cri := fun l hl cc hcc => by injection hl with hl; subst hl; cases hcc
  hub := winv_new o ops
  jobs := fun w hw => by cases hw
  len := rfl
  topo := fun ev he => by cases he
  told := fun p ev he => by cases he
  watch := fun p pr hp => by simp [fresh, Service.fresh] at hp

theorem run_snoc {s : Service.Service} {ops : List Service.Op} {s' : Service.Service} {o : Service.Op}
    {out : List Daemon.Delivery} (h : Service.run tbl crc srt (Service.fresh tbl) ops = some s)
    (hs : Service.step tbl crc srt s o = some (s', out)) :
    Service.run tbl crc srt (Service.fresh tbl) (ops ++ [o]) = some s' := by
  rw [run_append, h]
  simp [Service.run, hs]

theorem inv_serve {o : Topology.Observer} {ops : List Op} {s s' : Site} {x : Service.Op} {out : List Daemon.Delivery}
    (h : Inv a tbl crc srt o ops s) (hle : s.service.bodies.length ≤ s.sels.length)
    (ht : ∀ ev, x = .outside (.topo ev) → ∃ e c, ev = some e ∧ e.container = some c ∧ Found ops (Watched a o) c)
    (hn : ∀ p ev, x = .notice p ev → ∃ w e c, s.jobs[p]? = some w ∧ ev = some e ∧ e.container = some c ∧
      Found ops (Watched a w.obs) c)
    (hs : serve tbl crc srt s x = some (s', out)) : Inv a tbl crc srt o ops s' := by
  unfold serve at hs
  rw [Option.map_eq_some_iff] at hs
  obtain ⟨⟨v, out'⟩, h1, h2⟩ := hs
  injection h2 with h2 h3
  subst h2
  dsimp only at h3
  have hm := step_moves h1
  have tame := tame_run h.log
  have grow : ∀ (p : Nat) (w : Watcher), s.jobs[p]? = some w → ∀ more, (s.jobs ++ more)[p]? = some w := by
    intro p w hp more
    rw [List.getElem?_append_left (lt_of_get hp)]; exact hp
  refine ⟨run_snoc h.log h1, h.obs, h.pods, h.cri, h.hub, ?_, ?_, ?_, ?_, ?_⟩
  · intro w hw
    rcases List.mem_append.1 hw with hw | hw
    · exact h.jobs w hw
    · obtain ⟨pr, -, rfl⟩ := List.mem_map.1 hw
      exact winv_new _ _
  · have : s.service.procs.length ≤ v.procs.length := by cases hm <;> simp
    simp only [List.length_append, List.length_map, List.length_drop]
    rw [h.len]
    omega
  · intro ev hev
    rcases List.mem_append.1 hev with hev | hev
    · exact h.topo ev hev
    · rw [List.mem_singleton] at hev
      exact ht ev hev.symm
  · intro p ev hev
    rcases List.mem_append.1 hev with hev | hev
    · obtain ⟨w, e, c, e1, e2⟩ := h.told p ev hev
      exact ⟨w, e, c, grow p w e1 _, e2⟩
    · rw [List.mem_singleton] at hev
      obtain ⟨w, e, c, e1, e2⟩ := hn p ev hev.symm
      exact ⟨w, e, c, grow p w e1 _, e2⟩
  · intro p pr hp
    dsimp only at hp ⊢
    rcases Nat.lt_or_ge p s.service.procs.length with hl | hl
    · obtain ⟨pr', g1, g2⟩ := proc_step hm (List.getElem?_eq_getElem hl)
      rw [hp] at g1
      injection g1 with g1
      subst g1
      obtain ⟨w, sel, e1, e2, e3⟩ := h.watch p _ (List.getElem?_eq_getElem hl)
      exact ⟨w, sel, grow p w e1 _, by rw [g2]; exact e2, e3⟩
    · cases hm with
      | handleCreate i t hti hpc =>
        have hpl : p = s.service.procs.length := by
          have := lt_of_get hp
          simp at this
          omega
        have hlt : i < s.sels.length := by
          have := lt_of_get hti
          have := tame.len
          omega
        subst hpl
        rw [List.getElem?_append_right (Nat.le_refl _)] at hp
        simp only [Nat.sub_self, List.getElem?_cons_zero, Option.some.injEq] at hp
        subst hp
        refine ⟨Watcher.new (observerFor s ⟨⟨⟨i, t.id, (s.service.bodies.getD i noBody).rate⟩,
          (s.service.bodies.getD i noBody).hosts, (s.service.bodies.getD i noBody).calls⟩, [], []⟩), s.sels[i], ?_,
          List.getElem?_eq_getElem hlt, ?_⟩
        · rw [List.getElem?_append_right (by rw [h.len]; exact Nat.le_refl _), h.len]
          simp only [Nat.sub_self, List.drop_left, List.map_cons, List.map_nil, List.getElem?_cons_zero]
        · show observerFor _ _ = _
          unfold observerFor
          simp only [getD_lt hlt, h.obs]
      | notice q ev pr hq htd => have := lt_of_get hp; rw [List.length_set] at this; omega
      | work q f pr a rest o d out hq htd ha hd => have := lt_of_get hp; rw [List.length_set] at this; omega
      | _ => exact absurd (lt_of_get hp) (Nat.not_lt.2 hl)

/-- An observer does something. -/
theorem inv_observer {o : Topology.Observer} {ops : List Op} {s s' : Site} {w : Option Nat} {f : Watcher → Option Watcher}
    (h : Inv a tbl crc srt o ops s)
    (hf : ∀ x y, WInv a ops x → f x = some y → WInv a ops y ∧ y.obs = x.obs)
    (hs : observer s w f = some s') : Inv a tbl crc srt o ops s' := by
  unfold observer at hs
  split at hs
  · rw [Option.map_eq_some_iff] at hs
    obtain ⟨y, h1, rfl⟩ := hs
    obtain ⟨g1, g2⟩ := hf _ _ h.hub h1
    exact ⟨h.log, by rw [← h.obs]; exact g2, h.pods, h.cri, g1, h.jobs, h.len, h.topo, h.told, h.watch⟩
  · next p =>
    split at hs
    · injection hs with hs; subst hs; exact h
    · next x hx =>
      rw [Option.map_eq_some_iff] at hs
      obtain ⟨y, h1, rfl⟩ := hs
      obtain ⟨g1, g2⟩ := hf _ _ (h.jobs x (List.mem_of_getElem? hx)) h1
      have get : ∀ (q : Nat) (z : Watcher), s.jobs[q]? = some z → ∃ z', (s.jobs.set p y)[q]? = some z' ∧ z'.obs = z.obs := by
        intro q z hq
        by_cases e : q = p
        · subst e
          rw [hx] at hq
          injection hq with hq
          subst hq
          exact ⟨y, set_get hx, g2⟩
        · exact ⟨z, by rw [set_get_ne e]; exact hq, rfl⟩
      refine ⟨h.log, h.obs, h.pods, h.cri, h.hub, ?_, by rw [List.length_set]; exact h.len, h.topo, ?_, ?_⟩
      · intro z hz
        rcases List.mem_or_eq_of_mem_set hz with hz | rfl
        · exact h.jobs z hz
        · exact g1
      · intro q ev hev
        obtain ⟨z, e, c, e1, e2, e3, e4⟩ := h.told q ev hev
        obtain ⟨z', f1, f2⟩ := get q z e1
        exact ⟨z', e, c, f1, e2, e3, by rw [f2]; exact e4⟩
      · intro q pr hq
        obtain ⟨z, sel, e1, e2, e3⟩ := h.watch q pr hq
        obtain ⟨z', f1, f2⟩ := get q z e1
        exact ⟨z', sel, f1, e2, by rw [f2]; exact e3⟩

theorem inv_change {o : Topology.Observer} {ops : List Op} {s : Site} (h : Inv a tbl crc srt o ops s) {k : Key}
    {new : Option Pod} (hn : ∀ p, new = some p → .put p ∈ ops) : Inv a tbl crc srt o ops (change a s k new) := by
  have hold : ∀ p, s.pods.get k = some p → .put p ∈ ops := fun p hp => h.pods _ (GoMap.mem_of_get hp)
  have obs : ∀ w : Watcher, (w.hears a (s.pods.get k) new).obs = w.obs := by
    intro w
    unfold Watcher.hears
    repeat' split
    all_goals rfl
  refine ⟨h.log, by rw [← h.obs]; exact obs _, ?_, h.cri, winv_hears h.hub hold hn, ?_, by simp [change, h.len], h.topo, ?_, ?_⟩
  · intro e he
    unfold change at he
    split at he
    · next p =>
      unfold GoMap.set at he
      rcases List.mem_cons.1 he with rfl | he
      · exact hn _ rfl
      · exact h.pods e ((List.mem_filter.1 he).1)
    · exact h.pods e ((List.mem_filter.1 he).1)
  · intro w hw
    obtain ⟨w', hw', rfl⟩ := List.mem_map.1 hw
    exact winv_hears (h.jobs w' hw') hold hn
  · intro p ev hev
    obtain ⟨w, e, c, e1, e2, e3, e4⟩ := h.told p ev hev
    exact ⟨w.hears a (s.pods.get k) new, e, c, by simp [change, e1], e2, e3, by rw [obs]; exact e4⟩
  · intro p pr hp
    obtain ⟨w, sel, e1, e2, e3⟩ := h.watch p pr hp
    exact ⟨w.hears a (s.pods.get k) new, sel, by simp [change, e1], e2, by rw [obs]; exact e3⟩

theorem inv_step {o : Topology.Observer} {ops : List Op} {s s' : Site} {op : Op} {out : List Daemon.Delivery}
    (h : Inv a tbl crc srt o ops s) (hlen : s.sels.length = s.service.bodies.length) (hop : op ∈ ops)
    (hs : step a tbl crc srt s op = some (s', out)) : Inv a tbl crc srt o ops s' := by
  cases op with
  | put p =>
    simp only [step, Option.some.injEq, Prod.mk.injEq] at hs
    obtain ⟨rfl, -⟩ := hs
    exact inv_change h (by rintro q e; injection e with e; subst e; exact hop)
  | remove k =>
    simp only [step, Option.some.injEq, Prod.mk.injEq] at hs
    obtain ⟨rfl, -⟩ := hs
    exact inv_change h (by rintro q e; cases e)
  | runtime l =>
    simp only [step, Option.some.injEq, Prod.mk.injEq] at hs
    obtain ⟨rfl, -⟩ := hs
    refine ⟨h.log, h.obs, h.pods, ?_, h.hub, h.jobs, h.len, h.topo, h.told, h.watch⟩
    rintro l' rfl cc hcc
    exact ⟨l', hop, hcc⟩
  | lose w =>
    simp only [step, Option.map_eq_some_iff, Prod.mk.injEq] at hs
    obtain ⟨y, h1, rfl, -⟩ := hs
    refine inv_observer h ?_ h1
    rintro x y hx e
    injection e with e
    subst e
    exact ⟨⟨hx.queue, hx.phased, hx.chan⟩, rfl⟩
  | list w =>
    simp only [step, Option.map_eq_some_iff, Prod.mk.injEq] at hs
    obtain ⟨y, h1, rfl, -⟩ := hs
    refine inv_observer h ?_ h1
    rintro x y hx e
    injection e with e
    subst e
    exact ⟨winv_list hx h.pods, by unfold Watcher.list; split <;> rfl⟩
  | handle w k =>
    simp only [step, Option.map_eq_some_iff, Prod.mk.injEq] at hs
    obtain ⟨y, h1, rfl, -⟩ := hs
    exact inv_observer h (fun x y hx e => winv_handle hx h.cri e) h1
  | tell w =>
    cases w with
    | none =>
      simp only [step] at hs
      split at hs
      · injection hs with hs; injection hs with hs; subst hs; exact h
      · next ev rest hch =>
        obtain ⟨c, hc1, hc2⟩ := h.hub.chan ev (by rw [hch]; simp)
        rw [h.obs] at hc2
        have hi : Inv a tbl crc srt o ops { s with hub := { s.hub with chan := rest } } :=
          ⟨h.log, h.obs, h.pods, h.cri,
            ⟨h.hub.queue, h.hub.phased, fun e he => h.hub.chan e (by rw [hch]; exact List.mem_cons_of_mem _ he)⟩,
            h.jobs, h.len, h.topo, h.told, h.watch⟩
        refine inv_serve hi (Nat.le_of_eq hlen.symm) ?_ (by intro p ev e; cases e) hs
        intro ev' e
        injection e with e
        injection e with e
        subst e
        exact ⟨ev, c, rfl, hc1, hc2⟩
    | some p =>
      simp only [step] at hs
      split at hs
      · next w pr hw hpr =>
        split at hs
        · next ev rest hch htd =>
          obtain ⟨c, hc1, hc2⟩ := (h.jobs w (List.mem_of_getElem? hw)).chan ev (by rw [hch]; simp)
          have hi : Inv a tbl crc srt o ops { s with jobs := s.jobs.set p { w with chan := rest } } := by
            refine inv_observer (w := some p) (f := fun x => if x = w then some { w with chan := rest } else some x) h ?_ ?_
            · intro x y hx e
              split at e
              · next e2 =>
                subst e2
                injection e with e
                subst e
                exact ⟨⟨hx.queue, hx.phased, fun e he => hx.chan e (by rw [hch]; exact List.mem_cons_of_mem _ he)⟩, rfl⟩
              · injection e with e; subst e; exact ⟨hx, rfl⟩
            · simp [observer, hw]
          refine inv_serve hi (Nat.le_of_eq hlen.symm) (by intro ev e; cases e) ?_ hs
          intro q ev' e
          injection e with e1 e2
          subst e1 e2
          exact ⟨_, ev, c, set_get hw, rfl, hc1, hc2⟩
        · injection hs with hs; injection hs with hs; subst hs; exact h
      · injection hs with hs; injection hs with hs; subst hs; exact h
  | create ns sel q u ok b =>
    simp only [step] at hs
    have hi : Inv a tbl crc srt o ops { s with sels := s.sels ++ [(ns, sel)] } := by
      refine ⟨h.log, h.obs, h.pods, h.cri, h.hub, h.jobs, h.len, h.topo, h.told, ?_⟩
      intro p pr hp
      obtain ⟨w, sl, e1, e2, e3⟩ := h.watch p pr hp
      exact ⟨w, sl, e1, by rw [List.getElem?_append_left (lt_of_get e2)]; exact e2, e3⟩
    exact inv_serve hi (by simp; omega) (by intro ev e; cases e) (by intro p ev e; cases e) hs
  | service x =>
    simp only [step] at hs
    split at hs
    · injection hs with hs; injection hs with hs; subst hs; exact h
    · next hr =>
      have h1 : ∀ ev, x = .outside (.topo ev) → ∃ e c, ev = some e ∧ e.container = some c ∧ Found ops (Watched a o) c := by
        rintro ev rfl; exact absurd rfl hr
      have h2 : ∀ p ev, x ≠ .notice p ev := by rintro p ev rfl; exact absurd rfl hr
      split at hs
      · next id =>
        have hi : Inv a tbl crc srt o ops { s with sels := s.sels ++ [noSel] } := by
          refine ⟨h.log, h.obs, h.pods, h.cri, h.hub, h.jobs, h.len, h.topo, h.told, ?_⟩
          intro p pr hp
          obtain ⟨w, sl, e1, e2, e3⟩ := h.watch p pr hp
          exact ⟨w, sl, e1, by rw [List.getElem?_append_left (lt_of_get e2)]; exact e2, e3⟩
        exact inv_serve hi (by simp; omega) h1 (fun p ev e => absurd e (h2 p ev)) hs
      · exact inv_serve h (Nat.le_of_eq hlen.symm) h1 (fun p ev e => absurd e (h2 p ev)) hs

/-! ### Requests -/

theorem serve_fields {s s' : Site} {x : Service.Op} {out : List Daemon.Delivery} (h : serve tbl crc srt s x = some (s', out)) :
    s'.sels = s.sels ∧ s'.service.bodies = s.service.bodies ++ Spec.Service.requests [x] := by
  unfold serve at h
  rw [Option.map_eq_some_iff] at h
  obtain ⟨⟨v, out'⟩, h1, h2⟩ := h
  injection h2 with h2 h3
  subst h2
  exact ⟨rfl, bodies_step h1⟩

theorem asked_step {s s' : Site} {op : Op} {out : List Daemon.Delivery} (h : step a tbl crc srt s op = some (s', out)) :
    s'.sels = s.sels ++ (asked [op]).map (fun x => (x.1, x.2.1)) ∧
    s'.service.bodies = s.service.bodies ++ (asked [op]).map (·.2.2) := by
  have obs : ∀ {w f}, observer s w f = some s' → s'.sels = s.sels ∧ s'.service.bodies = s.service.bodies := by
    intro w f ho
    unfold observer at ho
    repeat' split at ho
    all_goals first
      | (rw [Option.map_eq_some_iff] at ho; obtain ⟨y, -, rfl⟩ := ho; exact ⟨rfl, rfl⟩)
      | (injection ho with ho; subst ho; exact ⟨rfl, rfl⟩)
  cases op with
  | put p => simp only [step, Option.some.injEq, Prod.mk.injEq] at h; obtain ⟨rfl, -⟩ := h; simp [asked, change]
  | remove k => simp only [step, Option.some.injEq, Prod.mk.injEq] at h; obtain ⟨rfl, -⟩ := h; simp [asked, change]
  | runtime l => simp only [step, Option.some.injEq, Prod.mk.injEq] at h; obtain ⟨rfl, -⟩ := h; simp [asked]
  | lose w =>
    simp only [step, Option.map_eq_some_iff, Prod.mk.injEq] at h
    obtain ⟨y, h1, rfl, -⟩ := h
    simpa [asked] using obs h1
  | list w =>
    simp only [step, Option.map_eq_some_iff, Prod.mk.injEq] at h
    obtain ⟨y, h1, rfl, -⟩ := h
    simpa [asked] using obs h1
  | handle w k =>
    simp only [step, Option.map_eq_some_iff, Prod.mk.injEq] at h
    obtain ⟨y, h1, rfl, -⟩ := h
    simpa [asked] using obs h1
  | tell w =>
    cases w with
    | none =>
      simp only [step] at h
      split at h
      · injection h with h; injection h with h; subst h; simp [asked]
      · simpa [asked, Spec.Service.requests] using serve_fields h
    | some p =>
      simp only [step] at h
      repeat' split at h
      all_goals first
        | (injection h with h; injection h with h; subst h; simp [asked]; done)
        | simpa [asked, Spec.Service.requests] using serve_fields h
  | create ns sel q u ok b =>
    simp only [step] at h
    simpa [asked, Spec.Service.requests] using serve_fields h
  | service x =>
    simp only [step] at h
    split at h
    · next hr =>
      injection h with h
      injection h with h
      subst h
      cases x <;> first
        | (simp [asked]; done)
        | cases hr
    · next hr =>
      split at h
      · simpa [asked, Spec.Service.requests, noSel] using serve_fields h
      · next hx =>
        have := serve_fields h
        cases x with
        | create => exact absurd rfl hr
        | delete id => exact absurd rfl (hx id)
        | _ => simpa [asked, Spec.Service.requests] using this

theorem asked_append (xs ys : List Op) : asked (xs ++ ys) = asked xs ++ asked ys := by
  unfold asked; rw [List.filterMap_append]

theorem run_inv {o : Topology.Observer} {all ops : List Op} {s s' : Site} (h : run a tbl crc srt s ops = some s')
    (hi : Inv a tbl crc srt o all s) (hl : s.sels.length = s.service.bodies.length) (hsub : ∀ op ∈ ops, op ∈ all) :
    Inv a tbl crc srt o all s' ∧ s'.sels = s.sels ++ (asked ops).map (fun x => (x.1, x.2.1)) ∧
    s'.service.bodies = s.service.bodies ++ (asked ops).map (·.2.2) := by
  induction ops generalizing s with
  | nil => injection h with h; subst h; simpa [asked] using hi
  | cons op ops ih =>
    unfold run at h
    split at h
    · cases h
    · next s1 out h1 =>
      have g := asked_step h1
      have hl1 : s1.sels.length = s1.service.bodies.length := by rw [g.1, g.2]; simp [hl]
      obtain ⟨k1, k2, k3⟩ := ih h (inv_step hi hl (hsub op (by simp)) h1) hl1 (fun x hx => hsub x (List.mem_cons_of_mem _ hx))
      have e : asked (op :: ops) = asked [op] ++ asked ops := asked_append [op] ops
      refine ⟨k1, ?_, ?_⟩
      · rw [k2, g.1, e]; simp
      · rw [k3, g.2, e]; simp

theorem inv_run {o : Topology.Observer} {ops : List Op} {s : Site} (h : run a tbl crc srt (fresh tbl o) ops = some s) :
    Inv a tbl crc srt o ops s ∧ s.sels = (asked ops).map (fun x => (x.1, x.2.1)) ∧
    s.service.bodies = (asked ops).map (·.2.2) := by
  have := run_inv h (inv_fresh o ops) rfl (fun _ hx => hx)
  simpa [fresh, Service.fresh] using this

end Swoll.Lemmas.Site
