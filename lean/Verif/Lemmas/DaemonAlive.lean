import Verif.Lemmas.DaemonCover
/-
When the process goes on.
-/
namespace Swoll.Lemmas.Daemon
open Swoll Swoll.Daemon Swoll.Spec.Daemon
open Swoll.Event (Task Mem KEvent TraceEvent pack)
open Swoll.Spec.Hub (TableOK)

variable {tbl : Syscalls.Syscalls} {crc : String → BitVec 64} {srt : List PubSub.Env → List PubSub.Env}

theorem requested_mono {xs ys : List Op} {ns nr : BitVec 32} (h : Requested tbl xs ns nr) (hs : ∀ o ∈ xs, o ∈ ys) :
    Requested tbl ys ns nr := by
  obtain ⟨k, n, s, ha, h1, h2, h3⟩ := h
  refine ⟨k, n, s, ?_, h1, h2, h3⟩
  rcases ha with ⟨f, hf⟩ | ⟨r, f, hf⟩
  · exact Or.inl ⟨f, hs _ hf⟩
  · exact Or.inr ⟨r, f, hs _ hf⟩

theorem requested_known (hT : TableOK tbl) {hist : List Op} {ns nr : BitVec 32} (h : Requested tbl hist ns nr) :
    ∃ sc, Syscalls.lookup tbl (.int nr.toNat) = some sc := by
  obtain ⟨k, n, s, -, h1, h2, -⟩ := h
  obtain ⟨e1, e2⟩ := hT.1 k s h1
  refine ⟨s, ?_⟩
  rw [← h2, BitVec.toNat_ofNat, Nat.mod_eq_of_lt (by omega)]
  exact e1

/-- Samples can be decoded. -/
theorem sampled_fine (hT : TableOK tbl) {hist : List Op} (hs : ∀ o ∈ hist, SaneOp o) (hp : ∀ o ∈ hist, Placed o)
    (hd : ∀ ns nr, Requested tbl hist ns nr → nr.toNat ∈ Spec.Event.decodable)
    {e : Nat} {bs : List Bytes.Byte} (h : Sampled tbl hist e bs) (lk : Int → Option Topology.Container) :
    ∃ ev, Event.ingest tbl (some lk) (.bytes bs) = .ok ev ∧ ev.syscall.isSome := by
  rcases h with ⟨before, t0, t, c, scratch, hm, hr, hb⟩ | ⟨t, time, mem, filename, argv, scratch, ho, hr, hb⟩
  · obtain ⟨id, m0, args, between, m1, h1, h2, -⟩ := hm
    obtain ⟨s1, s2⟩ := sane_at hs h2
    have hin : ∀ o ∈ before ++ .enter t0 id m0 c.start args false :: between, o ∈ hist := by
      intro o ho; rw [← h1] at ho; exact List.mem_of_mem_take ho
    have hreq : Requested tbl before t0.pidNs c.nr := by
      rcases hr with hr | ⟨e0, -⟩
      · exact hr
      · exact absurd e0 (hp (.enter t0 id m0 c.start args false) (hin _ (by simp)))
    have hdec := hd _ _ (requested_mono hreq (fun o ho => hin o (by simp [ho])))
    obtain ⟨ev, hev⟩ := Props.Event.c38_decodable_ok tbl (some lk) scratch t c (s2 _ rfl) s1 hdec []
    rw [List.append_nil, ← hb] at hev
    refine ⟨ev, hev, ?_⟩
    rw [hb] at hev
    obtain ⟨q1, -, -⟩ := reports_exit (s2 _ rfl) s1 hev
    obtain ⟨sc, hsc⟩ := requested_known hT hreq
    rw [q1.syscall, hsc]; rfl
  · obtain ⟨s1, s2⟩ := sane_at hs ho
    have hreq : Requested tbl (hist.take e) t.pidNs 59 := by
      rcases hr with hr | ⟨e0, -⟩
      · exact hr
      · exact absurd e0 (hp _ (List.mem_of_getElem? ho))
    obtain ⟨ev, hev⟩ := execve_ok tbl lk (s2 _ rfl) s1 (mem := mem) (filename := filename) (argv := argv) (time := time)
    obtain ⟨q1, -⟩ := reports_execve (s2 _ rfl) s1 hev
    refine ⟨ev, by rw [hb]; exact hev, ?_⟩
    obtain ⟨sc, hsc⟩ := requested_known hT hreq
    have hsc : Syscalls.lookup tbl (.int 59) = some sc := hsc
    rw [q1.syscall, hsc]; rfl

theorem registered_pushed (hist : List Op) : ∀ (rs : List Spec.Hub.Reg) (r : Spec.Hub.Reg), r ∈ hist.foldl regStep rs →
    r ∈ rs ∨ Op.push r.job r.ns r.nr ∈ hist := by
  induction hist with
  | nil => intro rs r h; exact Or.inl h
  | cons o os ih =>
    intro rs r h
    rw [List.foldl_cons] at h
    rcases ih _ r h with h | h
    · cases o with
      | push j ns nr =>
        simp only [regStep, List.mem_append, List.mem_singleton] at h
        rcases h with h | rfl
        · exact Or.inl h
        · exact Or.inr (by simp)
      | delete id => exact Or.inl (List.mem_filter.1 h).1
      | _ => exact Or.inl h
    · exact Or.inr (by simp [h])

theorem isLowest_mem {rs : List Spec.Hub.Reg} {r : Spec.Hub.Reg} (h : Spec.Hub.IsLowest rs r) : r ∈ rs := by
  obtain ⟨pre, post, e, -⟩ := h
  rw [e]; simp

/-- One operation is survived. -/
theorem step_alive (hsrt : PubSub.Node.IsSort srt) (hT : TableOK tbl) {xs : List Op} {o : Op} {d : Daemon}
    (h : run tbl crc srt (fresh tbl) xs = some d) (hu : DetachOnce (xs ++ [o])) (hs : ∀ o ∈ xs, SaneOp o)
    (hp : ∀ o ∈ xs, Placed o)
    (hd : ∀ ns nr, Requested tbl xs ns nr → nr.toNat ∈ Spec.Event.decodable) (hc : RatesApart xs) :
    ∃ r, step tbl crc srt d o = some r := by
  obtain ⟨R, hi, -⟩ := Lemmas.Hub.inv_reach tbl (hub_run h)
  have hps : ∀ op, psOp crc o = some op → ∃ ps, PubSub.step srt d.ps op = some ps := by
    intro op hop
    obtain ⟨s, hr, -⟩ := Props.PubSub.c01_publish (D := TraceEvent Topology.Container) hsrt _ (unsubOnce_of (crc := crc) hu)
    rw [List.filterMap_append, psRun_append _ _ _ _ (show PubSub.run srt PubSub.PS.new _ = some d.ps from ps_run h)] at hr
    simp only [List.filterMap_cons, hop, List.filterMap_nil, PubSub.run] at hr
    cases hx : PubSub.step srt d.ps op with
    | none => rw [hx] at hr; cases hr
    | some ps => exact ⟨ps, rfl⟩
  cases o with
  | enter => exact ⟨_, rfl⟩
  | exit => simp only [step]; split <;> exact ⟨_, rfl⟩
  | execve => simp only [step]; split <;> exact ⟨_, rfl⟩
  | push => exact ⟨_, rfl⟩
  | swap rate ns nr =>
    obtain ⟨h', e⟩ := Lemmas.Hub.swap_some tbl hi rate ns nr
    simp only [step, e, Option.map_some]; exact ⟨_, rfl⟩
  | addSyscall => exact ⟨_, rfl⟩
  | addSampled => exact ⟨_, rfl⟩
  | removeSyscall => exact ⟨_, rfl⟩
  | delete id =>
    rcases Lemmas.Hub.delete_spec tbl hi id with ⟨-, e⟩ | ⟨-, h', e, -⟩
    · simp only [step, e]; exact ⟨_, rfl⟩
    · simp only [step, e]; exact ⟨_, rfl⟩
  | topo => exact ⟨_, rfl⟩
  | act f => simp only [step]; split <;> exact ⟨_, rfl⟩
  | attachPath paths draw =>
    obtain ⟨ps, e⟩ := hps _ rfl
    simp only [step, e, Option.map_some]; exact ⟨_, rfl⟩
  | attachTrace id draw =>
    obtain ⟨ps, e⟩ := hps _ rfl
    simp only [step, e, Option.map_some]; exact ⟨_, rfl⟩
  | detach n =>
    obtain ⟨ps, e⟩ := hps _ rfl
    simp only [step, e, Option.map_some]; exact ⟨_, rfl⟩
  | ingest =>
    obtain ⟨src, ing, is, lo, ho⟩ := origins_run xs h
    have hw := ho.wait
    simp only [step]
    split
    · rename_i bs rest hm hr
      rw [hr] at hw
      cases hw with
      | cons _ i is _ _ _ hsam _ =>
        obtain ⟨ev, hev, -⟩ := sampled_fine hT hs hp hd hsam (fun ns => Topology.lookupContainer d.cache ns)
        rw [hev]; exact ⟨_, rfl⟩
    · exact ⟨_, rfl⟩
  | route oo =>
    obtain ⟨src, ing, is, lo, ho⟩ := origins_run xs h
    simp only [step]
    split
    · exact ⟨_, rfl⟩
    · rename_i ev hm
      obtain ⟨⟨-, -, bs, hsam, hev⟩, -⟩ := ho.hand ev hm
      obtain ⟨ev', hev', hsome⟩ := sampled_fine hT hs hp hd hsam
        (fun ns => (containerOf (xs.take (ing xs.length)) ns).map Topology.Container.copy)
      rw [hev] at hev'
      rw [← ok_inj hev'] at hsome
      split
      · exact ⟨_, rfl⟩
      · rename_i e1 e2; rw [e2] at hsome; cases hsome
      · rename_i c sc e1 e2
        have hne : Hub.handleEvent d.hub ⟨ev.pidNs, sc.nr, true⟩ ≠ none := by
          intro hn
          obtain ⟨-, low, r, h1, h2, h3, h4, h5⟩ := (Props.Hub.c15_crash_iff_partial tbl _ _ _ (hub_run h) _).1 hn
          dsimp only at h1 h2
          rw [wanting_eq h] at h1 h2
          have hl := isLowest_mem h1
          unfold wanting at hl h2
          rw [List.mem_filter] at hl h2
          have p1 := (registered_pushed xs [] _ h2.1).resolve_left (by simp)
          have p2 := (registered_pushed xs [] _ hl.1).resolve_left (by simp)
          obtain ⟨q1, q2⟩ := of_decide_eq_true h2.2
          obtain ⟨q3, q4⟩ := of_decide_eq_true hl.2
          rw [q1, q2] at p1
          rw [q3, q4] at p2
          exact h4 (hc _ _ _ _ p1 p2 h3 h5)
        cases hx : Hub.handleEvent d.hub ⟨ev.pidNs, sc.nr, true⟩ with
        | none => exact absurd hx hne
        | some p => exact ⟨_, rfl⟩

theorem run_alive (hsrt : PubSub.Node.IsSort srt) (hT : TableOK tbl) (hist : List Op) (hu : DetachOnce hist)
    (hs : ∀ o ∈ hist, SaneOp o) (hp : ∀ o ∈ hist, Placed o)
    (hd : ∀ ns nr, Requested tbl hist ns nr → nr.toNat ∈ Spec.Event.decodable) (hc : RatesApart hist) :
    ∃ d, run tbl crc srt (fresh tbl) hist = some d := by
  induction hist using Swoll.ListX.snoc_induction with
  | h0 => exact ⟨_, rfl⟩
  | h1 xs o ih =>
    have hsub : ∀ x ∈ xs, x ∈ xs ++ [o] := fun x hx => by simp [hx]
    have hu' : DetachOnce xs := by
      have := detachOnce_take hu xs.length
      rwa [List.take_left' rfl] at this
    have hs' : ∀ x ∈ xs, SaneOp x := fun x hx => hs x (hsub x hx)
    have hp' : ∀ x ∈ xs, Placed x := fun x hx => hp x (hsub x hx)
    have hd' : ∀ ns nr, Requested tbl xs ns nr → nr.toNat ∈ Spec.Event.decodable :=
      fun ns nr hr => hd ns nr (requested_mono hr hsub)
    have hc' : RatesApart xs := fun j j' ns nr h1 h2 => hc j j' ns nr (hsub _ h1) (hsub _ h2)
    obtain ⟨d, h1⟩ := ih hu' hs' hp' hd' hc'
    obtain ⟨⟨d', out⟩, h2⟩ := step_alive hsrt hT h1 hu hs' hp' hd' hc'
    refine ⟨d', ?_⟩
    rw [run_append, h1]
    simp only [Option.bind_some, run, h2]

end Swoll.Lemmas.Daemon
