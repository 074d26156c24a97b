import Verif.Lemmas.DaemonTrace
import Verif.Props.Hash
import Verif.Props.Event
/-
Who is handed an event, and what the event says.
-/
namespace Swoll.Lemmas.Daemon
open Swoll Swoll.Daemon Swoll.Spec.Daemon
open Swoll.Event (Task Mem KEvent TraceEvent pack)

variable {tbl : Syscalls.Syscalls} {crc : String → BitVec 64} {srt : List PubSub.Env → List PubSub.Env}

/-! ### Users -/

/-- The path a user is subscribed to. -/
def pathOf (crc : String → BitVec 64) : Target → List PubSub.Key
  | .path ps => Hash.attachPath crc ps
  | .job id => Hash.tracePath crc id

def toSub (crc : String → BitVec 64) (u : User) : Spec.PubSub.Sub := ⟨u.token, pathOf crc u.target, "", ""⟩

theorem users_fold (hist : List Op) (n : Nat) (us : List User) :
    (hist.filterMap (psOp crc)).foldl Spec.PubSub.specStep (n, us.map (toSub crc)) =
      ((hist.foldl userStep (n, us)).1, (hist.foldl userStep (n, us)).2.map (toSub crc)) := by
  induction hist generalizing n us with
  | nil => rfl
  | cons o os ih =>
    cases o with
    | attachPath ps draw =>
      simp only [List.filterMap_cons, psOp, List.foldl_cons, Spec.PubSub.specStep, userStep]
      rw [← ih]; simp [toSub, pathOf]
    | attachTrace id draw =>
      simp only [List.filterMap_cons, psOp, List.foldl_cons, Spec.PubSub.specStep, userStep]
      rw [← ih]; simp [toSub, pathOf]
    | detach h =>
      simp only [List.filterMap_cons, psOp, List.foldl_cons, Spec.PubSub.specStep, userStep]
      rw [← ih, List.filter_map]; rfl
    | _ => simp only [List.filterMap_cons, psOp, List.foldl_cons, userStep]; exact ih n us

theorem active_users (hist : List Op) :
    Spec.PubSub.active (hist.filterMap (psOp crc)) = (users hist).map (toSub crc) := by
  have := users_fold (crc := crc) hist 0 []
  unfold Spec.PubSub.active users
  rw [show ([] : List Spec.PubSub.Sub) = ([] : List User).map (toSub crc) from rfl, this]

theorem unsubOnce_of {hist : List Op} (h : DetachOnce hist) : Spec.PubSub.UnsubOnce (hist.filterMap (psOp crc)) := by
  unfold Spec.PubSub.UnsubOnce
  unfold DetachOnce at h
  rw [List.filterMap_filterMap]
  have : (fun x => (psOp crc x).bind Spec.PubSub.cancels) = detaches := by
    funext o; cases o <;> rfl
  rw [this]; exact h

/-- What one publication does. -/
theorem publish_users (hs : PubSub.Node.IsSort srt) {hist : List Op} (hu : DetachOnce hist) {d : Daemon}
    (h : run tbl crc srt (fresh tbl) hist = some d) (o : PubSub.Oracle) (ho : o.Valid)
    (ev : TraceEvent Topology.Container) (path : List PubSub.Key) :
    (∀ u ∈ users hist, (PubSub.publish none o d.ps ev (PubSub.linear path)).count u.token =
      if pathOf crc u.target <+: path then 1 else 0) ∧
    (∀ t ∈ PubSub.publish none o d.ps ev (PubSub.linear path), ∃ u ∈ users hist, u.token = t ∧ pathOf crc u.target <+: path) := by
  obtain ⟨s, hr, hp⟩ := Props.PubSub.c01_publish (D := TraceEvent Topology.Container) hs _ (unsubOnce_of (crc := crc) hu)
  have hps := ps_run h
  rw [show (fresh tbl).ps = PubSub.PS.new from rfl, hr] at hps
  injection hps with hps
  subst hps
  obtain ⟨h1, h2⟩ := hp none o ho ev path
  rw [active_users] at h1 h2
  constructor
  · intro u hu
    exact h1 (toSub crc u) (List.mem_map_of_mem hu) rfl
  · intro t ht
    obtain ⟨x, hx, e1, e2⟩ := h2 t ht
    obtain ⟨u, hu, rfl⟩ := List.mem_map.1 hx
    exact ⟨u, hu, e1, e2⟩

theorem count_map_pair {α β : Type} [DecidableEq α] [DecidableEq β] (l : List α) (a : α) (b : β) :
    (l.map (fun t => (t, b))).count (a, b) = l.count a := by
  induction l with
  | nil => rfl
  | cons x xs ih =>
    rw [List.map_cons, List.count_cons, List.count_cons, ih]
    by_cases hx : x = a <;> simp [hx]

theorem count_publishAll (hs : PubSub.Node.IsSort srt) {hist : List Op} (hu : DetachOnce hist) {d : Daemon}
    (h : run tbl crc srt (fresh tbl) hist = some d) (o : Nat → PubSub.Oracle) (ho : ∀ i, (o i).Valid)
    (ev : TraceEvent Topology.Container) (c : Topology.Container) (sc : Syscalls.Syscall) (outs : List Hub.Out)
    {u : User} (hm : u ∈ users hist) (n : Nat) :
    ((outs.zipIdx n).flatMap (fun p =>
      (PubSub.publish none (o p.2) d.ps ev (PubSub.linear (outPath crc c sc p.1))).map (fun t => (t, ev)))).count (u.token, ev) =
      outs.countP (fun x => decide (pathOf crc u.target <+: outPath crc c sc x)) := by
  induction outs generalizing n with
  | nil => rfl
  | cons x xs ih =>
    rw [List.zipIdx_cons, List.flatMap_cons, List.count_append, ih, count_map_pair,
      (publish_users hs hu h (o n) (ho n) ev _).1 u hm, List.countP_cons]
    simp only [decide_eq_true_eq]
    omega

theorem mem_publishAll (hs : PubSub.Node.IsSort srt) {hist : List Op} (hu : DetachOnce hist) {d : Daemon}
    (h : run tbl crc srt (fresh tbl) hist = some d) (o : Nat → PubSub.Oracle) (ho : ∀ i, (o i).Valid)
    (ev : TraceEvent Topology.Container) (c : Topology.Container) (sc : Syscalls.Syscall) (outs : List Hub.Out)
    {x : Delivery} (hx : x ∈ publishAll crc o d.ps ev c sc outs) :
    x.2 = ev ∧ ∃ u ∈ users hist, u.token = x.1 ∧ ∃ y ∈ outs, pathOf crc u.target <+: outPath crc c sc y := by
  unfold publishAll at hx
  rw [List.mem_flatMap] at hx
  obtain ⟨p, hp, hx⟩ := hx
  rw [List.mem_map] at hx
  obtain ⟨t, ht, rfl⟩ := hx
  obtain ⟨u, hu', e1, e2⟩ := (publish_users hs hu h (o p.2) (ho p.2) ev _).2 t ht
  refine ⟨rfl, u, hu', e1, p.1, ?_, e2⟩
  obtain ⟨y, i⟩ := p
  have := List.mem_zipIdx' hp
  dsimp only
  rw [this.2]
  exact List.getElem_mem _

/-! ### Publications -/

theorem trace_prefix (id id' : String) (h : id ≠ "") (hsep : Spec.Hash.Separates crc [id, id']) :
    Hash.tracePath crc id <+: Hash.tracePath crc id' ↔ id = id' := by
  by_cases h' : id' = ""
  · subst h'
    constructor
    · intro hp
      have := hp.length_le
      unfold Hash.tracePath Hash.hashPath at this
      have hj : Hash.jobStream ≠ "" := by decide
      simp [Hash.hashComps, hj, h] at this
    · intro e; exact absurd e h
  · exact Props.Hash.c63_trace_path crc id id' h h' hsep

theorem wanting_eq {hist : List Op} {d : Daemon} (h : run tbl crc srt (fresh tbl) hist = some d) (ns nr : Int) :
    Spec.Hub.ofPair (Spec.Hub.registered (hubTrace tbl crc srt (fresh tbl) hist)) ns nr = wanting hist ns nr := by
  rw [registered_trace h]; rfl

/-- The publications of an event. -/
theorem outs_spec {hist : List Op} {d : Daemon} (h : run tbl crc srt (fresh tbl) hist = some d) {ns nr : Int}
    {hub : Hub.Hub} {outs : List Hub.Out} (he : Hub.handleEvent d.hub ⟨ns, nr, true⟩ = some (hub, outs)) :
    (wanting hist ns nr = [] ∧ outs = []) ∨
    (wanting hist ns nr ≠ [] ∧ ∃ rest, outs = .nsStream :: rest ∧
      rest.Sublist ((wanting hist ns nr).map (fun r => .jobStream r.job.id)) ∧
      (∀ id, (∀ r ∈ wanting hist ns nr, r.job.id = id → r.job.rate ≤ 0) →
        rest.count (.jobStream id) = ((wanting hist ns nr).filter (fun r => r.job.id = id)).length)) := by
  have hr := hub_run h
  have hw := wanting_eq h ns nr
  by_cases hn : wanting hist ns nr = []
  · left
    have := Props.Hub.c11_dropped tbl _ _ _ hr ⟨ns, nr, true⟩ (Or.inr (by rw [hw]; exact hn))
    rw [this] at he
    simp only [Option.some.injEq, Prod.mk.injEq] at he
    exact ⟨hn, he.2.symm⟩
  · right
    obtain ⟨rest, e1, e2, e3, -⟩ := Props.Hub.c11_routing tbl _ _ _ _ hr ⟨ns, nr, true⟩ outs he rfl (by rw [hw]; exact hn)
    dsimp only at e2 e3
    rw [hw] at e2 e3
    exact ⟨hn, rest, e1, e2, e3⟩

theorem countP_jobs (c : Topology.Container) (sc : Syscalls.Syscall) (id : String) (hid : id ≠ "") {ws : List Spec.Hub.Reg}
    (hsep : ∀ r ∈ ws, Spec.Hash.Separates crc [id, r.job.id]) {rest : List Hub.Out}
    (hsub : rest.Sublist (ws.map (fun r => .jobStream r.job.id))) :
    rest.countP (fun x => decide (pathOf crc (.job id) <+: outPath crc c sc x)) = rest.count (.jobStream id) := by
  unfold List.count
  apply List.countP_congr
  intro x hx
  obtain ⟨r, hr, rfl⟩ := List.mem_map.1 (hsub.mem hx)
  rw [decide_eq_true_eq, beq_iff_eq]
  have := trace_prefix id r.job.id hid (hsep r hr)
  constructor
  · intro e; rw [this.1 e]
  · intro e; injection e with e; exact this.2 e.symm

theorem countP_zero {α : Type} {l : List α} {p : α → Bool} (h : ∀ x ∈ l, p x = false) : l.countP p = 0 := by
  rw [List.countP_eq_zero]
  intro x hx
  rw [h x hx]; simp

/-! ### What the event says -/

theorem ok_inj {α : Type} {a b : α} (h : Event.Res.ok a = Event.Res.ok b) : a = b := by
  injection h

theorem reports_exit {tbl : Syscalls.Syscalls} {lk : Int → Option Topology.Container} {s : KEvent} {t : Task}
    {c : Event.Call} {ev : TraceEvent Topology.Container} (hw : s.WF) (hc : t.comm.length = 16)
    (h : Event.ingest tbl (some lk) (.bytes (Event.encode (Event.onExit s t c))) = .ok ev) :
    Reports tbl t c ev ∧ ev.container = lk ev.pidNs ∧ c.nr.toNat ∈ Spec.Event.decodable := by
  have hn : c.nr.toNat ∈ Spec.Event.decodable := by
    apply Classical.byContradiction
    intro hn
    rw [(Props.Event.c38_violated (κ := Topology.Container)).2 tbl (some lk) s t c hw hc hn] at h
    cases h
  obtain ⟨fields, hf⟩ := (Lemmas.Event.decodable_iff _).1 hn
  have hok := Lemmas.Event.ingest_ok tbl (some lk) _ (Lemmas.Event.wf_onExit s t c hw hc) [] fields
    (by rw [Lemmas.Event.onExit_syscall]; exact hf)
  rw [List.append_nil, h] at hok
  have hev := ok_inj hok
  have hfl := Lemmas.Event.decoders_have_fillers _ (Lemmas.Event.lookup_mem hf)
  obtain ⟨fl, hfl⟩ := Option.isSome_iff_exists.1 hfl
  obtain ⟨e1, k1, g1, g2, g3, g4, g5, g6, g7, g8, g9, g10, g11, g12, -⟩ :=
    Props.Event.c39_header_partial tbl (some lk) s t c [] hw hc hn
  rw [List.append_nil, h] at k1
  have k1 := ok_inj k1
  subst k1
  refine ⟨⟨g1, ⟨g2, g3, g4, g7⟩, ⟨g5, g6⟩, ⟨g8, g9, g10⟩, g11, ?_, ?_, ?_, ?_⟩, ?_, hn⟩
  · rw [hev]
    simp only [Lemmas.Event.eventOf, Event.onExit, Event.fillInit, hfl, true_and]
  · intro f m hm hx hs
    obtain ⟨e2, v, k2, k3, k4⟩ := Props.Event.c36_decoded_arguments_partial tbl (some lk) s t c [] hw hc f m hm hx hs
    rw [List.append_nil, h] at k2
    rw [ok_inj k2]
    exact ⟨v, k3, k4⟩
  · intro hg h1 h2
    obtain ⟨e2, k2, k3, k4⟩ := Props.Event.c68_result_partial tbl (some lk) s t c [] hw hc hn hg
    rw [List.append_nil, h] at k2
    rw [ok_inj k2]
    exact k3 h1 h2
  · intro hg h1 h2
    obtain ⟨e2, k2, k3, k4⟩ := Props.Event.c68_result_partial tbl (some lk) s t c [] hw hc hn hg
    rw [List.append_nil, h] at k2
    rw [ok_inj k2]
    exact k4 h1 h2
  · rw [g12, g8]; rfl

theorem reports_execve {tbl : Syscalls.Syscalls} {lk : Int → Option Topology.Container} {s : KEvent} {t : Task}
    {mem : Mem} {filename argv time : BitVec 64} {ev : TraceEvent Topology.Container} (hw : s.WF) (hc : t.comm.length = 16)
    (h : Event.ingest tbl (some lk) (.bytes (Event.encode (Event.onExecve s t mem filename argv time))) = .ok ev) :
    ReportsExec tbl t time mem filename ev ∧ ev.container = lk ev.pidNs := by
  obtain ⟨hwf, -, -⟩ := Lemmas.Event.execve_args s t mem filename argv time hw hc
  have hok := Lemmas.Event.ingest_ok tbl (some lk) _ hwf []
    [("filename", .cstr 0), ("argv[0]", .cstr 1), ("argv[1]", .cstr 2), ("argv[2]", .cstr 3),
      ("argv[3]", .empty)] (by show Event.decoders.lookup Event.nr.sys_execve = _; decide +kernel)
  rw [List.append_nil, h] at hok
  have hev := ok_inj hok
  have hlk : ev.container = lk ev.pidNs := by
    rw [hev]
    simp only [Lemmas.Event.eventOf, Option.bind_some]
  refine ⟨⟨?_, ?_, ?_, ?_, ?_, ?_, ?_⟩, hlk⟩
  · rw [hev]; rfl
  · rw [hev]
    simp only [Lemmas.Event.eventOf, Event.onExecve, Event.fillInit, pack, Lemmas.Event.lo_append, Lemmas.Event.hi_append, true_and]
  · rw [hev]
    simp only [Lemmas.Event.eventOf, Event.onExecve, Event.fillInit, pack, Lemmas.Event.lo_append, Lemmas.Event.hi_append, true_and]
  · rw [hev]
    simp only [Lemmas.Event.eventOf, Event.onExecve, Event.fillInit, true_and]
  · rw [hev]
    exact Lemmas.Event.beforeNul_cstr _
  · rw [hev]
    simp only [Lemmas.Event.eventOf, Event.onExecve, Event.fillInit]
  · intro hr
    obtain ⟨e2, k2, k3, -⟩ := Props.Event.c36_execve_partial tbl (some lk) s t mem filename argv time [] hw hc hr
    rw [List.append_nil, h] at k2
    rw [ok_inj k2]
    exact k3

theorem sane_at {hist : List Op} (hs : ∀ o ∈ hist, SaneOp o) {e : Nat} {o : Op} (h : hist[e]? = some o) : SaneOp o :=
  hs o (List.mem_of_getElem? h)

theorem true_of {hist : List Op} (hs : ∀ o ∈ hist, SaneOp o) {e : Nat} {bs : List Bytes.Byte}
    (h : Sampled tbl hist e bs) {lk : Int → Option Topology.Container} {ev : TraceEvent Topology.Container}
    (hi : Event.ingest tbl (some lk) (.bytes bs) = .ok ev) :
    TrueOf tbl hist e ev ∧ ev.container = lk ev.pidNs := by
  rcases h with ⟨before, t0, t, c, scratch, hm, hr, hb⟩ | ⟨t, time, mem, filename, argv, scratch, ho, hr, hb⟩
  · have hm' := hm
    obtain ⟨id, m0, args, between, m1, -, h2, -⟩ := hm'
    obtain ⟨s1, s2⟩ := sane_at hs h2
    rw [hb] at hi
    obtain ⟨r1, r2, -⟩ := reports_exit (s2 _ rfl) s1 hi
    exact ⟨Or.inl ⟨before, t0, t, c, scratch, hm, r1, hr⟩, r2⟩
  · obtain ⟨s1, s2⟩ := sane_at hs ho
    rw [hb] at hi
    obtain ⟨r1, r2⟩ := reports_execve (s2 _ rfl) s1 hi
    exact ⟨Or.inr ⟨t, time, mem, filename, argv, scratch, ho, r1, hr⟩, r2⟩

end Swoll.Lemmas.Daemon
