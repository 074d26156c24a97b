import Verif.Lemmas.Daemon
import Verif.Lemmas.DaemonRules
/-
Where the samples in the perf buffer and the decoded event come from.
-/
namespace Swoll.Lemmas.Daemon
open Swoll Swoll.Daemon Swoll.Spec.Daemon
open Swoll.Event (Task Mem KEvent TraceEvent pack)
open Swoll.Spec.Filter (scope Abs Sample)
open Swoll.Lemmas.Filter (Rel rel_step)

variable {tbl : Syscalls.Syscalls} {crc : String → BitVec 64} {srt : List PubSub.Env → List PubSub.Env}

/-! ### Rules -/

theorem mem_hubTrace {hist : List Op} {d : Daemon} {x : Hub.Op} (h : x ∈ hubTrace tbl crc srt d hist) :
    ∃ d1, ∃ o ∈ hist, x ∈ hubOps d1 o := by
  induction hist generalizing d with
  | nil => simp [hubTrace] at h
  | cons o os ih =>
    simp only [hubTrace, List.mem_append] at h
    rcases h with h | h
    · exact ⟨d, o, by simp, h⟩
    · split at h
      · simp at h
      · obtain ⟨d1, o1, ho, hx⟩ := ih h
        exact ⟨d1, o1, by simp [ho], hx⟩

theorem asks_hubOps {d : Daemon} {o : Op} {x : Hub.Op} (hx : x ∈ hubOps d o) {sc : Option (BitVec 32)} {nr : BitVec 32}
    (ha : HubAsks tbl sc nr x) : ∃ k n s, ((∃ f, o = .addSyscall k n f) ∨ (∃ r f, o = .addSampled k n r f)) ∧
      Syscalls.lookup tbl k = some s ∧ BitVec.ofNat 32 s.nr = nr ∧ scope n = sc := by
  obtain ⟨f, rfl, k, n, s, hk, hl, hn, hsc⟩ := ha
  refine ⟨k, n, s, ?_, hl, hn, hsc⟩
  cases o with
  | enter t id mtime time args full =>
    simp only [hubOps] at hx
    split at hx <;> rcases hk with ⟨f', rfl⟩ | ⟨r, f', rfl⟩ <;> simp at hx
  | act fa =>
    simp only [hubOps] at hx
    split at hx <;> rcases hk with ⟨f', rfl⟩ | ⟨r, f', rfl⟩ <;> simp at hx
  | route oo =>
    simp only [hubOps] at hx
    split at hx
    · split at hx <;> simp at hx
    · simp at hx
  | addSyscall k' n' f' =>
    simp only [hubOps, List.mem_singleton, Hub.Op.filter.injEq] at hx
    rcases hk with ⟨g, e⟩ | ⟨r, g, e⟩
    · rw [e] at hx; injection hx with h1 h2 h3; exact Or.inl ⟨f', by rw [h1, h2]⟩
    · rw [e] at hx; cases hx
  | addSampled k' n' r' f' =>
    simp only [hubOps, List.mem_singleton, Hub.Op.filter.injEq] at hx
    rcases hk with ⟨g, e⟩ | ⟨r, g, e⟩
    · rw [e] at hx; cases hx
    · rw [e] at hx; injection hx with h1 h2 h3 h4; exact Or.inr ⟨r', f', by rw [h1, h2]⟩
  | _ => rcases hk with ⟨f', rfl⟩ | ⟨r, f', rfl⟩ <;> simp [hubOps] at hx

/-- The rule set after a history. -/
theorem rules_run {hist : List Op} {d : Daemon} (h : run tbl crc srt (fresh tbl) hist = some d) :
    ∃ a, Rel d.hub.maps a ∧ a.enabled = true ∧
      (∀ sc nr s, a.sys sc nr = some s → ∀ ns, sc = some ns ∨ sc = none → Requested tbl hist ns nr ∨ Stub tbl ns nr) := by
  obtain ⟨a0, r0, e0, s0, -⟩ := rules_new tbl
  obtain ⟨a, r, t⟩ := track_run tbl _ _ _ [] (Lemmas.Hub.inv_init _) (hub_run h) a0 r0
  refine ⟨a, r, t.en e0, ?_⟩
  intro sc nr s hs ns hns
  rcases t.sys sc nr s hs with ⟨s1, h1⟩ | ⟨x, hx, ha⟩
  · obtain ⟨h2, h3⟩ := s0 sc nr s1 h1
    rcases hns with rfl | rfl
    · injection h2 with h2; exact Or.inr ⟨h2, h3⟩
    · cases h2
  · obtain ⟨d1, o, ho, hx⟩ := mem_hubTrace hx
    obtain ⟨k, n, sy, hk, hl, hn, hsc⟩ := asks_hubOps hx ha
    refine Or.inl ⟨k, n, sy, ?_, hl, hn, ?_⟩
    · rcases hk with ⟨f, rfl⟩ | ⟨r, f, rfl⟩
      · exact Or.inl ⟨f, ho⟩
      · exact Or.inr ⟨r, f, ho⟩
    · unfold scope at hsc
      split at hsc
      · exact Or.inl (by assumption)
      · rcases hns with rfl | rfl
        · injection hsc with hsc; exact Or.inr hsc
        · cases hsc

theorem step_passes {m : Filter.KMaps} {a : Abs} (hr : Rel m a) {ns tid nr : BitVec 32}
    (hp : (Filter.step tbl m (.callEvent ns tid nr)).2 = true) :
    ∃ sc s, a.sys sc nr = some s ∧ (sc = some ns ∨ sc = none) := by
  rw [(rel_step tbl hr _).2] at hp
  simp only [Abs.step] at hp
  split at hp
  · split at hp
    · cases hp
    · rename_i sc s hd
      obtain ⟨h1, h2⟩ := decider_sys hd
      exact ⟨sc, s, h1, h2⟩
  · cases hp

theorem passes_requested {hist : List Op} {d : Daemon} (h : run tbl crc srt (fresh tbl) hist = some d)
    {ns tid nr : BitVec 32} (hp : (Filter.step tbl d.hub.maps (.callEvent ns tid nr)).2 = true) :
    Requested tbl hist ns nr ∨ Stub tbl ns nr := by
  obtain ⟨a, r, -, hs⟩ := rules_run h
  obtain ⟨sc, s, h1, h2⟩ := step_passes r hp
  exact hs sc nr s h1 ns h2

theorem passes_requested' {hist : List Op} {d : Daemon} (h : run tbl crc srt (fresh tbl) hist = some d)
    {ns tid nr ns' tid' nr' : BitVec 32}
    (hp : (Filter.step tbl (Filter.step tbl d.hub.maps (.metricsEvent ns' tid' nr')).1 (.callEvent ns tid nr)).2 = true) :
    Requested tbl hist ns nr ∨ Stub tbl ns nr := by
  obtain ⟨a, r, -, hs⟩ := rules_run h
  obtain ⟨sc, s, h1, h2⟩ := step_passes (rel_step tbl r (.metricsEvent ns' tid' nr')).1 hp
  exact hs sc nr s h1 ns h2

/-! ### The handlers -/

theorem fillMetrics_state (s : Probe.PState) (c : Probe.Ctx) (r : Option (BitVec 64)) :
    (Probe.fillMetrics s c r).state = s.state := by
  unfold Probe.fillMetrics
  dsimp only
  split
  · rfl
  · split
    · rfl
    · cases r <;> rfl

theorem enter_state (s : Probe.PState) (c : Probe.Ctx) (args : List (BitVec 64)) (full : Bool) :
    (Probe.enter s c args full).state = s.state ∨
    (full = false ∧ c.nr ≠ Probe.nrExecve ∧
      (Filter.step tbl (Filter.step tbl s.maps (.metricsEvent c.ns c.proc c.nr)).1 (.callEvent c.ns c.proc c.nr)).2 = true ∧
      (Probe.enter s c args full).state = GoMap.set s.state c.pidTgid ⟨c.id, args, c.uidGid, c.time⟩) := by
  have hst := fillMetrics_state s c none
  have hmaps := fillMetrics_maps (tbl := tbl) s c none
  unfold Probe.enter
  dsimp only
  rw [← hmaps]
  by_cases hn : c.nr = Probe.nrExecve
  · rw [if_pos hn]; exact Or.inl hst
  · rw [if_neg hn]
    by_cases hd : (Filter.runNfilter (Probe.fillMetrics s c none).maps Filter.fmodeSyscall c.ns c.proc c.nr).2 = Filter.factionDrop
    · rw [if_pos hd]; exact Or.inl hst
    · rw [if_neg hd]
      cases full with
      | true => exact Or.inl hst
      | false =>
        refine Or.inr ⟨rfl, hn, ?_, ?_⟩
        · simp only [Filter.step]; simpa using hd
        · rw [← hst]; rfl

theorem exit_state (s : Probe.PState) (c : Probe.Ctx) (ret : BitVec 64) (scr : Bool) (p : BitVec 64) :
    GoMap.get (Probe.exit hasFiller s c ret scr).1.state p = if c.pidTgid = p then none else GoMap.get s.state p := by
  have hst := fillMetrics_state s c (some ret)
  unfold Probe.exit
  dsimp only
  rw [hst]
  cases hg : GoMap.get s.state c.pidTgid with
  | none =>
    dsimp only
    rw [hst]
    by_cases hp : c.pidTgid = p
    · rw [if_pos hp, ← hp, hg]
    · rw [if_neg hp]
  | some ek =>
    dsimp only
    split
    · exact GoMap.get_del _ _ _
    · split <;> exact GoMap.get_del _ _ _

theorem exit_event {s : Probe.PState} {c : Probe.Ctx} {ret : BitVec 64} {scr : Bool} {e : Probe.Event}
    (h : (Probe.exit hasFiller s c ret scr).2 = some e) :
    ∃ ek, GoMap.get s.state c.pidTgid = some ek ∧ c.id = ek.id ∧ e.syscall = ek.id.setWidth 32 ∧
      e.uidGid = ek.uidGid ∧ e.args = ek.args ∧ e.entr = ek.entr ∧ e.exit = c.time := by
  have hst := fillMetrics_state s c (some ret)
  unfold Probe.exit at h
  dsimp only at h
  rw [hst] at h
  cases hg : GoMap.get s.state c.pidTgid with
  | none => rw [hg] at h; cases h
  | some ek =>
    rw [hg] at h
    dsimp only at h
    split at h
    · cases h
    · split at h
      · cases h
      · rename_i hne
        injection h with h
        refine ⟨ek, rfl, by simpa using hne, ?_⟩
        subst h
        exact ⟨rfl, rfl, rfl, rfl, rfl⟩

theorem exit_emits {s : Probe.PState} {c : Probe.Ctx} {ret : BitVec 64} {ek : Probe.EvKey}
    (hg : GoMap.get s.state c.pidTgid = some ek) (hid : c.id = ek.id) :
    ∃ e, (Probe.exit hasFiller s c ret true).2 = some e := by
  have hst := fillMetrics_state s c (some ret)
  unfold Probe.exit
  dsimp only
  rw [hst, hg]
  simp [hid]

theorem execve_passes {s : Probe.PState} {c : Probe.Ctx} {scr : Bool} {e : Probe.Event}
    (h : (Probe.execve s c scr).2 = some e) : (Filter.step tbl s.maps (.callEvent c.ns c.proc c.nr)).2 = true := by
  unfold Probe.execve at h
  dsimp only at h
  split at h
  · cases h
  · rename_i hd
    simp only [Filter.step]
    simpa using hd

theorem unpack_lo (a b : BitVec 32) : (pack a b).setWidth 32 = b := by
  apply BitVec.eq_of_toNat_eq
  have hb := b.isLt
  show ((a ++ b : BitVec (32 + 32)).setWidth 32).toNat = _
  rw [BitVec.toNat_setWidth, BitVec.toNat_append, Nat.shiftLeft_eq, Nat.mul_comm,
    ← Nat.two_pow_add_eq_or_of_lt hb]
  omega

theorem unpack_hi (a b : BitVec 32) : ((pack a b) >>> 32).setWidth 32 = a := by
  apply BitVec.eq_of_toNat_eq
  have hb := b.isLt
  have ha := a.isLt
  show (((a ++ b : BitVec (32 + 32)) >>> 32).setWidth 32).toNat = _
  rw [BitVec.toNat_setWidth, BitVec.toNat_ushiftRight, BitVec.toNat_append, Nat.shiftLeft_eq, Nat.mul_comm,
    ← Nat.two_pow_add_eq_or_of_lt hb, Nat.shiftRight_eq_div_pow]
  omega

theorem pack_inj {a b c d : BitVec 32} (h : pack a b = pack c d) : a = c ∧ b = d := by
  constructor
  · rw [← unpack_hi a b, h, unpack_hi]
  · rw [← unpack_lo a b, h, unpack_lo]

/-! ### The record of an unfinished call -/

theorem emit_state (d : Daemon) (e : KEvent) (lost : Bool) : (emit d e lost).state = d.state := by
  unfold emit; split <;> rfl

theorem doAct_state (f : Filter.Faults) (d : Daemon) (a : Act) : (doAct f d a).state = d.state := by
  cases a with
  | prune ns => simp only [doAct]; split <;> rfl
  | _ => rfl

/-- The thread's call is open. -/
def Open (tbl : Syscalls.Syscalls) (hist : List Op) (p : BitVec 64) (ek : Probe.EvKey) : Prop :=
  ∃ t0 before m0 after, hist = before ++ .enter t0 ek.id m0 ek.entr ek.args false :: after ∧
    pack t0.tgid t0.pid = p ∧ ek.uidGid = pack t0.gid t0.uid ∧ (∀ o ∈ after, ¬ EndsCallOf t0.tgid t0.pid o) ∧
    (Requested tbl before t0.pidNs (ek.id.setWidth 32) ∨ Stub tbl t0.pidNs (ek.id.setWidth 32))

theorem Open.snoc {hist : List Op} {p : BitVec 64} {ek : Probe.EvKey} (h : Open tbl hist p ek) (o : Op)
    (ho : ∀ tgid pid, pack tgid pid = p → ¬ EndsCallOf tgid pid o) : Open tbl (hist ++ [o]) p ek := by
  obtain ⟨t0, before, m0, after, h1, h2, h3, h4, h5⟩ := h
  refine ⟨t0, before, m0, after ++ [o], by rw [h1]; simp, h2, h3, ?_, h5⟩
  intro x hx
  rw [List.mem_append, List.mem_singleton] at hx
  rcases hx with hx | rfl
  · exact h4 x hx
  · exact ho _ _ h2

/-- What an operation does to the record of a thread. -/
theorem state_step {d d' : Daemon} {o : Op} {out : List Delivery} (h : step tbl crc srt d o = some (d', out)) :
    (∃ t id m0 time args, o = .enter t id m0 time args false ∧
      (Filter.step tbl (Filter.step tbl d.hub.maps (.metricsEvent (ctxOf t id m0 time).ns (ctxOf t id m0 time).proc (ctxOf t id m0 time).nr)).1
        (.callEvent (ctxOf t id m0 time).ns (ctxOf t id m0 time).proc (ctxOf t id m0 time).nr)).2 = true ∧
      (ctxOf t id m0 time).nr ≠ Probe.nrExecve ∧
      d'.state = GoMap.set d.state (pack t.tgid t.pid) ⟨id, args, pack t.gid t.uid, time⟩) ∨
    (∃ t id ret m1 time mem scr lost, o = .exit t id ret m1 time mem scr lost ∧
      ∀ p, GoMap.get d'.state p = if pack t.tgid t.pid = p then none else GoMap.get d.state p) ∨
    ((∀ tgid pid, ¬ EndsCallOf tgid pid o) ∧ d'.state = d.state) := by
  cases o with
  | enter t id mtime time args full =>
    simp only [step, Option.some.injEq, Prod.mk.injEq] at h
    obtain ⟨rfl, -⟩ := h
    rcases enter_state (tbl := tbl) d.probe (ctxOf t id mtime time) args full with hs | ⟨hf, hn, hp, hs⟩
    · exact Or.inr (Or.inr ⟨fun _ _ hx => hx, hs⟩)
    · subst hf
      exact Or.inl ⟨t, id, mtime, time, args, rfl, hp, hn, hs⟩
  | exit t id ret mtime time mem scratch lost =>
    refine Or.inr (Or.inl ⟨t, id, ret, mtime, time, mem, scratch, lost, rfl, ?_⟩)
    intro p
    have hs := exit_state d.probe (ctxOf t id mtime time) ret scratch.isSome p
    rcases (exit_elim h).2 with ⟨rfl, -⟩ | ⟨e, s, -, -, rfl⟩
    · exact hs
    · rw [emit_state]; exact hs
  | execve t time mem filename argv scratch lost =>
    have hs : (Probe.execve d.probe (ctxOf t 59 0 time) scratch.isSome).1.state = d.state := by
      unfold Probe.execve
      dsimp only
      split
      · rfl
      · split <;> rfl
    refine Or.inr (Or.inr ⟨fun _ _ hx => hx, ?_⟩)
    rcases (execve_elim h).2 with ⟨rfl, -⟩ | ⟨e, s, -, -, rfl⟩
    · exact hs
    · rw [emit_state]; exact hs
  | push j ns nr =>
    simp only [step, Option.some.injEq, Prod.mk.injEq] at h; obtain ⟨rfl, -⟩ := h
    exact Or.inr (Or.inr ⟨fun _ _ hx => hx, rfl⟩)
  | swap rate ns nr => obtain ⟨-, x, rfl⟩ := swap_elim h; exact Or.inr (Or.inr ⟨fun _ _ hx => hx, rfl⟩)
  | addSyscall k ns f =>
    simp only [step, Option.some.injEq, Prod.mk.injEq] at h; obtain ⟨rfl, -⟩ := h
    exact Or.inr (Or.inr ⟨fun _ _ hx => hx, rfl⟩)
  | addSampled k ns rate f =>
    simp only [step, Option.some.injEq, Prod.mk.injEq] at h; obtain ⟨rfl, -⟩ := h
    exact Or.inr (Or.inr ⟨fun _ _ hx => hx, rfl⟩)
  | removeSyscall k ns =>
    simp only [step, Option.some.injEq, Prod.mk.injEq] at h; obtain ⟨rfl, -⟩ := h
    exact Or.inr (Or.inr ⟨fun _ _ hx => hx, rfl⟩)
  | delete id => obtain ⟨-, x, rfl⟩ := delete_elim h; exact Or.inr (Or.inr ⟨fun _ _ hx => hx, rfl⟩)
  | topo ev =>
    simp only [step, Option.some.injEq, Prod.mk.injEq] at h; obtain ⟨rfl, -⟩ := h
    exact Or.inr (Or.inr ⟨fun _ _ hx => hx, rfl⟩)
  | act f =>
    refine Or.inr (Or.inr ⟨fun _ _ hx => hx, ?_⟩)
    rcases (act_elim h).2 with ⟨-, rfl⟩ | ⟨a, rest, -, rfl⟩
    · rfl
    · exact doAct_state f d a
  | attachPath paths draw =>
    simp only [step, Option.map_eq_some_iff, Prod.mk.injEq] at h
    obtain ⟨x, hx, rfl, -⟩ := h; exact Or.inr (Or.inr ⟨fun _ _ hx => hx, rfl⟩)
  | attachTrace id draw =>
    simp only [step, Option.map_eq_some_iff, Prod.mk.injEq] at h
    obtain ⟨x, hx, rfl, -⟩ := h; exact Or.inr (Or.inr ⟨fun _ _ hx => hx, rfl⟩)
  | detach n =>
    simp only [step, Option.map_eq_some_iff, Prod.mk.injEq] at h
    obtain ⟨x, hx, rfl, -⟩ := h; exact Or.inr (Or.inr ⟨fun _ _ hx => hx, rfl⟩)
  | ingest =>
    refine Or.inr (Or.inr ⟨fun _ _ hx => hx, ?_⟩)
    rcases (ingest_elim h).2 with ⟨rfl, -⟩ | ⟨bs, rest, -, -, ⟨-, rfl⟩ | ⟨ev, -, rfl⟩⟩ <;> rfl
  | route o =>
    refine Or.inr (Or.inr ⟨fun _ _ hx => hx, ?_⟩)
    rcases route_elim h with ⟨-, rfl, -⟩ | ⟨ev, c, sc, hub, outs, -, -, -, -, rfl, -⟩ <;> rfl

theorem open_run (hist : List Op) : ∀ {d : Daemon}, run tbl crc srt (fresh tbl) hist = some d →
    ∀ {p : BitVec 64} {ek : Probe.EvKey}, GoMap.get d.state p = some ek → Open tbl hist p ek := by
  induction hist using Swoll.ListX.snoc_induction with
  | h0 =>
    intro d h p ek hg
    simp only [run, Option.some.injEq] at h
    subst h
    simp [fresh] at hg
  | h1 xs o ih =>
    intro d h p ek hg
    obtain ⟨d1, out, h1, h2⟩ := run_snoc h
    rcases state_step h2 with ⟨t, id, m0, time, args, rfl, hp, hn, hs⟩ | ⟨t, id, ret, m1, time, mem, scr, lost, rfl, hs⟩ | ⟨ho, hs⟩
    · rw [hs, GoMap.get_set] at hg
      split at hg
      · rename_i hpp
        injection hg with hg
        subst hg
        exact ⟨t, xs, m0, [], rfl, hpp, rfl, by simp, passes_requested' h1 hp⟩
      · exact (ih h1 hg).snoc _ (fun _ _ _ hx => hx)
    · rw [hs] at hg
      split at hg
      · cases hg
      · rename_i hne
        refine (ih h1 hg).snoc _ ?_
        rintro tgid pid hpp ⟨e1, e2⟩
        exact hne (by rw [e1, e2, hpp])
    · rw [hs] at hg
      exact (ih h1 hg).snoc _ (fun a b _ => ho a b)

/-! ### Samples -/

/-- The bytes are the sample of a call or of an execve that the operation at `e` completed. -/
def Sampled (tbl : Syscalls.Syscalls) (hist : List Op) (e : Nat) (bs : List Bytes.Byte) : Prop :=
  (∃ before t0 t c scratch, Made hist e before t0 t c scratch ∧
    (Requested tbl before t0.pidNs c.nr ∨ Stub tbl t0.pidNs c.nr) ∧ bs = Event.encode (Event.onExit scratch t c)) ∨
  (∃ t time mem filename argv scratch, hist[e]? = some (.execve t time mem filename argv (some scratch) false) ∧
    (Requested tbl (hist.take e) t.pidNs 59 ∨ Stub tbl t.pidNs 59) ∧
    bs = Event.encode (Event.onExecve scratch t mem filename argv time))

theorem Sampled.lt {hist : List Op} {e : Nat} {bs : List Bytes.Byte} (h : Sampled tbl hist e bs) : e < hist.length := by
  rcases h with ⟨before, t0, t, c, scratch, ⟨id, m0, args, between, m1, h1, h2, h3⟩, hr, hb⟩ |
    ⟨t, time, mem, filename, argv, scratch, h2, hr, hb⟩
  · exact (List.getElem?_eq_some_iff.1 h2).1
  · exact (List.getElem?_eq_some_iff.1 h2).1

theorem Sampled.append {hist : List Op} {e : Nat} {bs : List Bytes.Byte} (h : Sampled tbl hist e bs) (os : List Op) :
    Sampled tbl (hist ++ os) e bs := by
  have hl := h.lt
  have ht : (hist ++ os).take e = hist.take e := List.take_append_of_le_length (by omega)
  have hg : (hist ++ os)[e]? = hist[e]? := List.getElem?_append_left hl
  unfold Sampled Made at h ⊢
  rw [ht, hg]
  exact h

theorem doAct_ring (f : Filter.Faults) (d : Daemon) (a : Act) : (doAct f d a).ring = d.ring ∧ (doAct f d a).msg = d.msg := by
  cases a with
  | prune ns => simp only [doAct]; split <;> exact ⟨rfl, rfl⟩
  | _ => exact ⟨rfl, rfl⟩

/-- What an operation does to the buffer and the decoded event. -/
theorem ring_step {d d' : Daemon} {o : Op} {out : List Delivery} (h : step tbl crc srt d o = some (d', out)) :
    (d'.ring = d.ring ∧ d'.msg = d.msg ∧ out = []) ∨
    (∃ t id ret m1 time mem s e, o = .exit t id ret m1 time mem (some s) false ∧
      (Probe.exit hasFiller d.probe (ctxOf t id m1 time) ret true).2 = some e ∧
      d'.ring = d.ring ++ [Event.encode (Event.onExit s t (callOf e ret mem))] ∧ d'.msg = d.msg ∧ out = []) ∨
    (∃ t time mem filename argv s e, o = .execve t time mem filename argv (some s) false ∧
      (Probe.execve d.probe (ctxOf t 59 0 time) true).2 = some e ∧
      d'.ring = d.ring ++ [Event.encode (Event.onExecve s t mem filename argv time)] ∧ d'.msg = d.msg ∧ out = []) ∨
    (∃ bs rest, o = .ingest ∧ d.msg = none ∧ d.ring = bs :: rest ∧ d'.ring = rest ∧ out = [] ∧
      (d'.msg = none ∨ ∃ ev, d'.msg = some ev ∧ ev.container.isSome = true ∧
        Event.ingest tbl (some (fun ns => Topology.lookupContainer d.cache ns)) (.bytes bs) = .ok ev)) ∨
    (∃ oo, o = .route oo ∧ d'.ring = d.ring ∧ d'.msg = none) := by
  cases o with
  | enter t id mtime time args full =>
    simp only [step, Option.some.injEq, Prod.mk.injEq] at h
    obtain ⟨rfl, rfl⟩ := h; exact Or.inl ⟨rfl, rfl, rfl⟩
  | exit t id ret mtime time mem scratch lost =>
    obtain ⟨ho, hd⟩ := exit_elim h
    rcases hd with ⟨rfl, -⟩ | ⟨e, s, he, rfl, rfl⟩
    · exact Or.inl ⟨rfl, rfl, ho⟩
    · cases lost with
      | true => exact Or.inl ⟨rfl, rfl, ho⟩
      | false => exact Or.inr (Or.inl ⟨t, id, ret, mtime, time, mem, s, e, rfl, he, rfl, rfl, ho⟩)
  | execve t time mem filename argv scratch lost =>
    obtain ⟨ho, hd⟩ := execve_elim h
    rcases hd with ⟨rfl, -⟩ | ⟨e, s, he, rfl, rfl⟩
    · exact Or.inl ⟨rfl, rfl, ho⟩
    · cases lost with
      | true => exact Or.inl ⟨rfl, rfl, ho⟩
      | false => exact Or.inr (Or.inr (Or.inl ⟨t, time, mem, filename, argv, s, e, rfl, he, rfl, rfl, ho⟩))
  | push j ns nr =>
    simp only [step, Option.some.injEq, Prod.mk.injEq] at h; obtain ⟨rfl, rfl⟩ := h; exact Or.inl ⟨rfl, rfl, rfl⟩
  | swap rate ns nr => obtain ⟨ho, x, rfl⟩ := swap_elim h; exact Or.inl ⟨rfl, rfl, ho⟩
  | addSyscall k ns f =>
    simp only [step, Option.some.injEq, Prod.mk.injEq] at h; obtain ⟨rfl, rfl⟩ := h; exact Or.inl ⟨rfl, rfl, rfl⟩
  | addSampled k ns rate f =>
    simp only [step, Option.some.injEq, Prod.mk.injEq] at h; obtain ⟨rfl, rfl⟩ := h; exact Or.inl ⟨rfl, rfl, rfl⟩
  | removeSyscall k ns =>
    simp only [step, Option.some.injEq, Prod.mk.injEq] at h; obtain ⟨rfl, rfl⟩ := h; exact Or.inl ⟨rfl, rfl, rfl⟩
  | delete id => obtain ⟨ho, x, rfl⟩ := delete_elim h; exact Or.inl ⟨rfl, rfl, ho⟩
  | topo ev =>
    simp only [step, Option.some.injEq, Prod.mk.injEq] at h; obtain ⟨rfl, rfl⟩ := h; exact Or.inl ⟨rfl, rfl, rfl⟩
  | act f =>
    obtain ⟨ho, hd⟩ := act_elim h
    rcases hd with ⟨-, rfl⟩ | ⟨a, rest, -, rfl⟩
    · exact Or.inl ⟨rfl, rfl, ho⟩
    · exact Or.inl ⟨(doAct_ring f d a).1, (doAct_ring f d a).2, ho⟩
  | attachPath paths draw =>
    simp only [step, Option.map_eq_some_iff, Prod.mk.injEq] at h
    obtain ⟨x, hx, rfl, rfl⟩ := h; exact Or.inl ⟨rfl, rfl, rfl⟩
  | attachTrace id draw =>
    simp only [step, Option.map_eq_some_iff, Prod.mk.injEq] at h
    obtain ⟨x, hx, rfl, rfl⟩ := h; exact Or.inl ⟨rfl, rfl, rfl⟩
  | detach n =>
    simp only [step, Option.map_eq_some_iff, Prod.mk.injEq] at h
    obtain ⟨x, hx, rfl, rfl⟩ := h; exact Or.inl ⟨rfl, rfl, rfl⟩
  | ingest =>
    obtain ⟨ho, hd⟩ := ingest_elim h
    rcases hd with ⟨rfl, -⟩ | ⟨bs, rest, hm, hr, ⟨-, rfl⟩ | ⟨ev, he, rfl⟩⟩
    · exact Or.inl ⟨rfl, rfl, ho⟩
    · exact Or.inr (Or.inr (Or.inr (Or.inl ⟨bs, rest, rfl, hm, hr, rfl, ho, Or.inl hm⟩)))
    · refine Or.inr (Or.inr (Or.inr (Or.inl ⟨bs, rest, rfl, hm, hr, rfl, ho, ?_⟩)))
      cases hc : ev.container.isSome with
      | false => exact Or.inl rfl
      | true => exact Or.inr ⟨ev, rfl, hc, he⟩
  | route o =>
    refine Or.inr (Or.inr (Or.inr (Or.inr ⟨o, rfl, ?_⟩)))
    rcases route_elim h with ⟨-, rfl, -⟩ | ⟨ev, c, sc, hub, outs, -, -, -, -, rfl, -⟩ <;> exact ⟨rfl, rfl⟩

theorem ctxOf_pid (t : Task) (id m time : BitVec 64) : (ctxOf t id m time).pidTgid = pack t.tgid t.pid := rfl

/-- The sample written at the end of a call. -/
theorem sampled_exit {xs : List Op} {d : Daemon} (h : run tbl crc srt (fresh tbl) xs = some d) {t : Task}
    {id ret m1 time : BitVec 64} {mem : Mem} {s : KEvent} {e : Probe.Event}
    (he : (Probe.exit hasFiller d.probe (ctxOf t id m1 time) ret true).2 = some e) :
    Sampled tbl (xs ++ [.exit t id ret m1 time mem (some s) false]) xs.length
      (Event.encode (Event.onExit s t (callOf e ret mem))) := by
  obtain ⟨ek, hg, hid, h1, h2, h3, h4, h5⟩ := exit_event he
  obtain ⟨t0, before, m0, after, hx, hp, hu, ha, hr⟩ := open_run xs h hg
  obtain ⟨e1, e2⟩ := pack_inj (hp.trans (ctxOf_pid t id m1 time))
  have hid : id = ek.id := hid
  refine Or.inl ⟨before, t0, t, callOf e ret mem, s, ⟨ek.id, m0, ek.args, after, m1, ?_, ?_, e1, e2, ?_, ?_, ?_, ?_, ?_⟩, ?_, rfl⟩
  · rw [List.take_left']
    · rw [hx]; simp only [callOf, h4]
    · rfl
  · simp only [callOf, h5, hid]
    simp [ctxOf]
  · rw [← e1, ← e2]; exact ha
  · exact h1
  · simp only [callOf, h3]
  · simp only [callOf, h2, hu, unpack_lo]
  · simp only [callOf, h2, hu, unpack_hi]
  · simp only [callOf, h1]; exact hr

/-- The sample written at an execve. -/
theorem sampled_execve {xs : List Op} {d : Daemon} (h : run tbl crc srt (fresh tbl) xs = some d) {t : Task}
    {time : BitVec 64} {mem : Mem} {filename argv : BitVec 64} {s : KEvent} {e : Probe.Event}
    (he : (Probe.execve d.probe (ctxOf t 59 0 time) true).2 = some e) :
    Sampled tbl (xs ++ [.execve t time mem filename argv (some s) false]) xs.length
      (Event.encode (Event.onExecve s t mem filename argv time)) := by
  refine Or.inr ⟨t, time, mem, filename, argv, s, by simp, ?_, rfl⟩
  rw [List.take_left' rfl]
  exact passes_requested h (execve_passes (tbl := tbl) he)

/-- The samples in the buffer, oldest first, are those of the operations at the positions `is`. -/
inductive Queue (tbl : Syscalls.Syscalls) (hist : List Op) : Nat → List Nat → List (List Bytes.Byte) → Prop where
  | nil (lo : Nat) : Queue tbl hist lo [] []
  | cons (lo i : Nat) (is : List Nat) (bs : List Bytes.Byte) (ring : List (List Bytes.Byte)) :
      lo ≤ i → Sampled tbl hist i bs → Queue tbl hist (i + 1) is ring → Queue tbl hist lo (i :: is) (bs :: ring)

theorem Queue.append {hist : List Op} {lo : Nat} {is : List Nat} {ring : List (List Bytes.Byte)}
    (h : Queue tbl hist lo is ring) (os : List Op) : Queue tbl (hist ++ os) lo is ring := by
  induction h with
  | nil lo => exact .nil lo
  | cons lo i is bs ring h1 h2 _ ih => exact .cons lo i is bs ring h1 (h2.append os) ih

theorem Queue.mono {hist : List Op} {lo lo' : Nat} {is : List Nat} {ring : List (List Bytes.Byte)}
    (h : Queue tbl hist lo is ring) (hl : lo' ≤ lo) : Queue tbl hist lo' is ring := by
  cases h with
  | nil lo => exact .nil lo'
  | cons lo i is bs ring h1 h2 h3 => exact .cons lo' i is bs ring (by omega) h2 h3

theorem Queue.snoc {hist : List Op} {lo : Nat} {is : List Nat} {ring : List (List Bytes.Byte)}
    (h : Queue tbl hist lo is ring) {i : Nat} {bs : List Bytes.Byte} (hb : ∀ j ∈ is, j < i) (hlo : lo ≤ i)
    (hs : Sampled tbl hist i bs) : Queue tbl hist lo (is ++ [i]) (ring ++ [bs]) := by
  induction h with
  | nil lo => exact .cons lo i [] bs [] hlo hs (.nil _)
  | cons lo j is b ring h1 h2 _ ih =>
    exact .cons lo j _ b _ h1 h2 (ih (fun x hx => hb x (by simp [hx])) (hb j (by simp)))

theorem Queue.lt {hist : List Op} {lo : Nat} {is : List Nat} {ring : List (List Bytes.Byte)}
    (h : Queue tbl hist lo is ring) : ∀ j ∈ is, j < hist.length := by
  induction h with
  | nil lo => intro j hj; cases hj
  | cons lo i is bs ring h1 h2 _ ih =>
    intro j hj
    rcases List.mem_cons.1 hj with rfl | hj
    · exact h2.lt
    · exact ih j hj

/-- An event decoded at position `i` from the sample of the operation at `e`. -/
def Decoded (tbl : Syscalls.Syscalls) (hist : List Op) (e i : Nat) (ev : TraceEvent Topology.Container) : Prop :=
  e < i ∧ hist[i]? = some .ingest ∧ ∃ bs, Sampled tbl hist e bs ∧
    Event.ingest tbl (some (fun ns => (containerOf (hist.take i) ns).map Topology.Container.copy)) (.bytes bs) = .ok ev

theorem Decoded.append {hist : List Op} {e i : Nat} {ev : TraceEvent Topology.Container}
    (h : Decoded tbl hist e i ev) (os : List Op) : Decoded tbl (hist ++ os) e i ev := by
  obtain ⟨h1, h2, bs, h3, h4⟩ := h
  have hl := (List.getElem?_eq_some_iff.1 h2).1
  refine ⟨h1, by rw [List.getElem?_append_left hl]; exact h2, bs, h3.append os, ?_⟩
  rw [List.take_append_of_le_length (by omega)]
  exact h4

theorem _root_.Swoll.Spec.Daemon.Routes.lt {hist : List Op} {k : Nat} {ev : TraceEvent Topology.Container}
    (h : Routes tbl crc srt hist k ev) : k < hist.length := by
  obtain ⟨o, d, h1, -⟩ := h
  exact (List.getElem?_eq_some_iff.1 h1).1

theorem _root_.Swoll.Spec.Daemon.Routes.cut {hist os : List Op} {k : Nat} {ev : TraceEvent Topology.Container}
    (h : Routes tbl crc srt (hist ++ os) k ev) (hk : k < hist.length) : Routes tbl crc srt hist k ev := by
  obtain ⟨o, d, h1, h2, h3⟩ := h
  rw [List.getElem?_append_left hk] at h1
  rw [List.take_append_of_le_length (by omega)] at h2
  exact ⟨o, d, h1, h2, h3⟩

/-- What is known after a history: where the waiting samples come from, where the event in hand
comes from, and where the events handed out came from, in order. -/
structure Origins (tbl : Syscalls.Syscalls) (crc : String → BitVec 64) (srt : List PubSub.Env → List PubSub.Env)
    (hist : List Op) (d : Daemon) (src ing : Nat → Nat) (is : List Nat) (lo : Nat) : Prop where
  hand : ∀ ev, d.msg = some ev → Decoded tbl hist (src hist.length) (ing hist.length) ev ∧ lo ≤ src hist.length ∧
    Queue tbl hist (src hist.length + 1) is d.ring
  wait : Queue tbl hist lo is d.ring
  bound : lo ≤ hist.length
  gone : ∀ k ev, Routes tbl crc srt hist k ev → ing k < k ∧ Decoded tbl hist (src k) (ing k) ev ∧ src k < lo
  order : ∀ k ev k' ev', Routes tbl crc srt hist k ev → Routes tbl crc srt hist k' ev' → k < k' → src k < src k'

theorem upd_ne {f : Nat → Nat} {n m v : Nat} (h : m ≠ n) : (fun x => if x = n then v else f x) m = f m := if_neg h

theorem origins_keep {xs : List Op} {d1 d : Daemon} {o : Op} {src ing : Nat → Nat} {is is' : List Nat} {lo : Nat}
    (h : Origins tbl crc srt xs d1 src ing is lo) (hmsg : d.msg = d1.msg) (hne : ∀ oo, o ≠ .route oo)
    (hq : ∀ lo, lo ≤ xs.length → Queue tbl xs lo is d1.ring → Queue tbl (xs ++ [o]) lo is' d.ring) :
    Origins tbl crc srt (xs ++ [o]) d (fun x => if x = xs.length + 1 then src xs.length else src x)
      (fun x => if x = xs.length + 1 then ing xs.length else ing x) is' lo := by
  have cut : ∀ k ev, Routes tbl crc srt (xs ++ [o]) k ev → Routes tbl crc srt xs k ev ∧ k ≠ xs.length + 1 := by
    intro k ev hr
    have hk := hr.lt
    simp only [List.length_append, List.length_singleton] at hk
    refine ⟨?_, by omega⟩
    apply hr.cut
    rcases Nat.lt_or_ge k xs.length with hk' | hk'
    · exact hk'
    · have : k = xs.length := by omega
      subst this
      obtain ⟨oo, d0, h1, -⟩ := hr
      simp at h1
      exact absurd h1 (hne oo)
  constructor
  · intro ev hm
    rw [hmsg] at hm
    obtain ⟨h1, h2, h3⟩ := h.hand ev hm
    simp only [List.length_append, List.length_singleton, if_true]
    refine ⟨h1.append _, h2, hq _ ?_ h3⟩
    obtain ⟨e1, e2, -⟩ := h1
    have := (List.getElem?_eq_some_iff.1 e2).1
    omega
  · exact hq _ h.bound h.wait
  · have := h.bound
    simp only [List.length_append, List.length_singleton]; omega
  · intro k ev hr
    obtain ⟨hr, hk⟩ := cut k ev hr
    obtain ⟨h0, h1, h2⟩ := h.gone k ev hr
    simp only [if_neg hk]
    exact ⟨h0, h1.append _, h2⟩
  · intro k ev k' ev' hr hr' hlt
    obtain ⟨hr, hk⟩ := cut k ev hr
    obtain ⟨hr', hk'⟩ := cut k' ev' hr'
    simp only [if_neg hk, if_neg hk']
    exact h.order k ev k' ev' hr hr' hlt

theorem origins_run (hist : List Op) : ∀ {d : Daemon}, run tbl crc srt (fresh tbl) hist = some d →
    ∃ src ing is lo, Origins tbl crc srt hist d src ing is lo := by
  induction hist using Swoll.ListX.snoc_induction with
  | h0 =>
    intro d h
    simp only [run, Option.some.injEq] at h
    subst h
    refine ⟨id, id, [], 0, ?_, .nil 0, Nat.zero_le _, ?_, ?_⟩
    · intro ev hm; simp [fresh] at hm
    · intro k ev hr; have := hr.lt; simp at this
    · intro k ev k' ev' hr; have := hr.lt; simp at this
  | h1 xs o ih =>
    intro d h
    obtain ⟨d1, out, h1, h2⟩ := run_snoc h
    obtain ⟨src, ing, is, lo, org⟩ := ih h1
    have nroute : (∃ oo, o = .route oo) ∨ ∀ oo, o ≠ .route oo := by
      cases o <;> first | exact Or.inl ⟨_, rfl⟩ | exact Or.inr (fun _ e => by cases e)
    rcases nroute with ⟨oo, rfl⟩ | nroute
    · -- handing out
      have hd : d.ring = d1.ring ∧ d.msg = none := by
        rcases route_elim h2 with ⟨-, rfl, -⟩ | ⟨_, _, _, _, _, -, -, -, -, rfl, -⟩ <;> exact ⟨rfl, rfl⟩
      have last : ∀ k ev, Routes tbl crc srt (xs ++ [.route oo]) k ev →
          (Routes tbl crc srt xs k ev) ∨ (k = xs.length ∧ d1.msg = some ev) := by
        intro k ev hr
        have hk := hr.lt
        simp only [List.length_append, List.length_singleton] at hk
        rcases Nat.lt_or_ge k xs.length with hk' | hk'
        · exact Or.inl (hr.cut hk')
        · have : k = xs.length := by omega
          subst this
          obtain ⟨_, d0, -, hr0, hm⟩ := hr
          rw [List.take_left' rfl, h1] at hr0
          injection hr0 with hr0
          exact Or.inr ⟨rfl, by rw [hr0]; exact hm⟩
      have hing : ∀ ev, d1.msg = some ev → ing xs.length < xs.length := by
        intro ev hm
        exact (List.getElem?_eq_some_iff.1 (org.hand ev hm).1.2.1).1
      refine ⟨src, ing, is, if d1.msg.isSome then src xs.length + 1 else lo, ?_, ?_, ?_, ?_, ?_⟩
      · intro ev hm; rw [hd.2] at hm; cases hm
      · rw [hd.1]
        cases hm : d1.msg with
        | none => exact org.wait.append _
        | some ev => exact (org.hand ev hm).2.2.append _
      · have := org.bound
        simp only [List.length_append, List.length_singleton]
        cases hm : d1.msg with
        | none => simp only [Option.isSome_none, Bool.false_eq_true, if_false]; omega
        | some ev =>
          simp only [Option.isSome_some, if_true]
          have e1 := (org.hand ev hm).1.1
          have e2 := hing ev hm
          omega
      · intro k ev hr
        rcases last k ev hr with hr | ⟨rfl, hm⟩
        · obtain ⟨g0, g1, g2⟩ := org.gone k ev hr
          refine ⟨g0, g1.append _, ?_⟩
          cases hm : d1.msg with
          | none => simpa using g2
          | some ev' =>
            have := (org.hand ev' hm).2.1
            simp only [Option.isSome_some, if_true]; omega
        · refine ⟨hing ev hm, (org.hand ev hm).1.append _, ?_⟩
          rw [hm]; simp
      · intro k ev k' ev' hr hr' hlt
        rcases last k ev hr with hr | ⟨rfl, hm⟩
        · rcases last k' ev' hr' with hr' | ⟨rfl, hm'⟩
          · exact org.order k ev k' ev' hr hr' hlt
          · have a := (org.gone k ev hr).2.2
            have b := (org.hand ev' hm').2.1
            omega
        · rcases last k' ev' hr' with hr' | ⟨rfl, hm'⟩
          · have := hr'.lt; omega
          · omega
    · rcases ring_step h2 with ⟨hr, hm, -⟩ | ⟨t, id, ret, m1, time, mem, s, e, rfl, he, hr, hm, -⟩ |
        ⟨t, time, mem, fn, av, s, e, rfl, he, hr, hm, -⟩ | ⟨b, rest, rfl, hn, hb, hr, -, hm⟩ | ⟨oo, rfl, -⟩
      · exact ⟨_, _, is, lo, origins_keep org hm nroute (fun lo _ hq => by rw [hr]; exact hq.append _)⟩
      · refine ⟨_, _, is ++ [xs.length], lo, origins_keep org hm nroute (fun lo hlo hq => ?_)⟩
        rw [hr]
        exact (hq.append _).snoc hq.lt hlo (sampled_exit h1 he)
      · refine ⟨_, _, is ++ [xs.length], lo, origins_keep org hm nroute (fun lo hlo hq => ?_)⟩
        rw [hr]
        exact (hq.append _).snoc hq.lt hlo (sampled_execve h1 he)
      · -- decoding
        have hw := org.wait
        rw [hb] at hw
        cases hw with
        | cons lo i is' bs ring hlo hs hq =>
          have cut : ∀ k ev, Routes tbl crc srt (xs ++ [.ingest]) k ev → Routes tbl crc srt xs k ev ∧ k ≠ xs.length + 1 := by
            intro k ev hr
            have hk := hr.lt
            simp only [List.length_append, List.length_singleton] at hk
            refine ⟨?_, by omega⟩
            apply hr.cut
            rcases Nat.lt_or_ge k xs.length with hk' | hk'
            · exact hk'
            · have : k = xs.length := by omega
              subst this
              obtain ⟨oo, d0, h1, -⟩ := hr
              simp at h1
          refine ⟨fun x => if x = xs.length + 1 then i else src x, fun x => if x = xs.length + 1 then xs.length else ing x,
            is', lo, ?_, ?_, ?_, ?_, ?_⟩
          · intro ev hm'
            rcases hm with hm | ⟨ev', hm, -, hi⟩
            · rw [hm] at hm'; cases hm'
            · rw [hm] at hm'
              injection hm' with hm'
              subst hm'
              simp only [List.length_append, List.length_singleton, if_true]
              refine ⟨⟨hs.lt, by simp, b, hs.append _, ?_⟩, hlo, by rw [hr]; exact hq.append _⟩
              rw [List.take_left' rfl]
              have : (fun ns => Topology.lookupContainer d1.cache ns) =
                  (fun ns => (containerOf xs ns).map Topology.Container.copy) := by
                funext ns; exact lookup_run h1 ns
              rw [← this]; exact hi
          · rw [hr]; exact (hq.mono (by omega)).append _
          · have := org.bound
            simp only [List.length_append, List.length_singleton]; omega
          · intro k ev hr
            obtain ⟨hr, hk⟩ := cut k ev hr
            obtain ⟨g0, g1, g2⟩ := org.gone k ev hr
            simp only [if_neg hk]
            exact ⟨g0, g1.append _, g2⟩
          · intro k ev k' ev' hr hr' hlt
            obtain ⟨hr, hk⟩ := cut k ev hr
            obtain ⟨hr', hk'⟩ := cut k' ev' hr'
            simp only [if_neg hk, if_neg hk']
            exact org.order k ev k' ev' hr hr' hlt
      · exact absurd rfl (nroute oo)

end Swoll.Lemmas.Daemon
