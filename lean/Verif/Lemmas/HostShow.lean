import Verif.Lemmas.Host
import Verif.Props.Print
/-
Tracing without containers: what is printed for a sample.
-/
namespace Swoll.Lemmas.Host
open Swoll Swoll.Host Swoll.Spec.Host
open Swoll.Event (Task Mem KEvent TraceEvent pack)
open Swoll.Lemmas.Daemon (reports_exit reports_execve)

variable {tbl : Syscalls.Syscalls} {fmt : Format} {json : TraceEvent Topology.Container → List Char}

/-- Without a topology every event is one of no container. -/
theorem ingest_none (bs : List Bytes.Byte) : Event.ingest (κ := Topology.Container) tbl none (.kernelEvent bs) =
    Event.ingest tbl (some fun _ => none) (.bytes bs) := by
  simp only [Event.ingest, Option.bind_none, Option.bind_some]

theorem completed_sane {given : List String} {hist : List Op} {e : Nat} {t : Task} {c : Event.Call} {s : KEvent}
    (hs : ∀ o ∈ hist, SaneOp o) (h : Completed tbl given hist e t c s) : s.WF ∧ t.comm.length = 16 := by
  obtain ⟨_, _, _, _, _, _, _, -, h2, -⟩ := h
  have := hs _ (List.mem_of_getElem? h2)
  exact ⟨this.2 _ rfl, this.1⟩

theorem executed_sane {given : List String} {hist : List Op} {e : Nat} {t : Task} {time : BitVec 64}
    {mem : Mem} {f av : BitVec 64} {s : KEvent} (hs : ∀ o ∈ hist, SaneOp o)
    (h : Executed tbl given hist e t time mem f av s) : s.WF ∧ t.comm.length = 16 := by
  have := hs _ (List.mem_of_getElem? h.1)
  exact ⟨this.2 _ rfl, this.1⟩

theorem completed_asked {given : List String} {hist : List Op} {e : Nat} {t : Task} {c : Event.Call} {s : KEvent}
    (h : Completed tbl given hist e t c s) : Asked tbl given c.nr ∧ c.nr ≠ 59 := by
  obtain ⟨_, _, _, _, _, _, _, -, -, -, -, -, -, -, -, -, h1, h2⟩ := h
  exact ⟨h1, h2⟩

theorem ingestBytes_encode {e : KEvent} (hw : e.WF) :
    Event.ingestBytes (Event.encode e) = some (Spec.Event.rawOf e) := by
  have := Lemmas.Event.ingest_encode e hw []
  rwa [List.append_nil] at this

theorem print_ok {bs : List Bytes.Byte} {env : Print.Env} {r : Event.RawEvent} {ev : TraceEvent Topology.Container}
    (h1 : Event.ingestBytes bs = some r)
    (h2 : Event.ingest tbl (some fun _ => none) (.bytes bs) = .ok ev) :
    print tbl fmt json env bs = showMsg fmt env json r.syscall.toNat ev := by
  unfold print
  rw [ingest_none, h1, h2]

theorem print_some_ok {bs : List Bytes.Byte} {env : Print.Env} {x : List Char}
    (h : print tbl fmt json env bs = some x) :
    ∃ ev, Event.ingest (κ := Topology.Container) tbl (some fun _ => none) (.bytes bs) = .ok ev := by
  unfold print at h
  rw [ingest_none] at h
  split at h
  · exact ⟨_, by assumption⟩
  · cases h

/-- What is printed for a sample is the line of an event that tells what was done. -/
theorem print_tells {given : List String} {hist : List Op} (hs : ∀ o ∈ hist, SaneOp o) {e : Nat}
    {bs : List Bytes.Byte} (h : Sampled tbl given hist e bs) {env : Print.Env} {x : List Char}
    (hp : print tbl fmt json env bs = some x) :
    ∃ nr ev, Tells tbl given hist e nr ev ∧ ev.container = none ∧ showMsg fmt env json nr ev = some x := by
  rcases h with ⟨t, c, s, hc, hb⟩ | ⟨t, time, mem, f, av, s, hx, hb⟩
  · obtain ⟨hw, hl⟩ := completed_sane hs hc
    have hie := ingestBytes_encode (Lemmas.Event.wf_onExit s t c hw hl)
    rw [← hb] at hie
    obtain ⟨ev, hi⟩ := print_some_ok hp
    rw [print_ok hie hi] at hp
    rw [hb] at hi
    obtain ⟨hr, hcn, -⟩ := reports_exit hw hl hi
    refine ⟨c.nr.toNat, ev, Or.inl ⟨t, c, s, hc, rfl, hr⟩, hcn, ?_⟩
    have : (Spec.Event.rawOf (Event.onExit s t c)).syscall.toNat = c.nr.toNat := by
      show (Event.onExit s t c).syscall.toNat = _
      rw [Lemmas.Event.onExit_syscall]
    rw [← this]; exact hp
  · obtain ⟨hw, hl⟩ := executed_sane hs hx
    obtain ⟨hwf, -, -⟩ := Lemmas.Event.execve_args s t mem f av time hw hl
    have hie := ingestBytes_encode hwf
    rw [← hb] at hie
    obtain ⟨ev, hi⟩ := print_some_ok hp
    rw [print_ok hie hi] at hp
    rw [hb] at hi
    obtain ⟨hr, hcn⟩ := reports_execve hw hl hi
    exact ⟨59, ev, Or.inr ⟨t, time, mem, f, av, s, hx, rfl, hr⟩, hcn, hp⟩

theorem showMsg_some {nr : Nat} (hn : nr ∈ Spec.Event.decodable) (env : Print.Env)
    (ev : TraceEvent Topology.Container) : ∃ x, showMsg fmt env json nr ev = some x := by
  cases fmt with
  | json => exact ⟨_, rfl⟩
  | other => exact ⟨_, rfl⟩
  | cli =>
    obtain ⟨h1, h2⟩ := (Props.Print.c89_every_decoded_call_prints env ev.argv).1 hn
    obtain ⟨a, h1⟩ := Option.isSome_iff_exists.1 h1
    obtain ⟨b, h2⟩ := Option.isSome_iff_exists.1 h2
    simp only [showMsg, Print.cliLine, h1, h2]
    exact ⟨_, rfl⟩

/-- The sample of a call with a decoder is printed. -/
theorem print_some {given : List String} {hist : List Op} (hs : ∀ o ∈ hist, SaneOp o) {e : Nat}
    {bs : List Bytes.Byte} (h : Sampled tbl given hist e bs)
    (hd : ∀ nr, Asked tbl given nr → nr.toNat ∈ Spec.Event.decodable) (env : Print.Env) :
    ∃ x, print tbl fmt json env bs = some x := by
  rcases h with ⟨t, c, s, hc, hb⟩ | ⟨t, time, mem, f, av, s, hx, hb⟩
  · obtain ⟨hw, hl⟩ := completed_sane hs hc
    have hwf := Lemmas.Event.wf_onExit s t c hw hl
    have hn := hd _ (completed_asked hc).1
    obtain ⟨fields, hf⟩ := (Lemmas.Event.decodable_iff _).1 hn
    have hok := Lemmas.Event.ingest_ok (κ := Topology.Container) tbl (some fun _ => none) _ hwf [] fields
      (by rw [Lemmas.Event.onExit_syscall]; exact hf)
    rw [List.append_nil] at hok
    have : (Spec.Event.rawOf (Event.onExit s t c)).syscall.toNat = c.nr.toNat := by
      show (Event.onExit s t c).syscall.toNat = _
      rw [Lemmas.Event.onExit_syscall]
    rw [← hb] at hok
    have hie := ingestBytes_encode hwf
    rw [← hb] at hie
    rw [print_ok hie hok, this]
    exact showMsg_some hn env _
  · obtain ⟨hw, hl⟩ := executed_sane hs hx
    obtain ⟨hwf, -, -⟩ := Lemmas.Event.execve_args s t mem f av time hw hl
    have hok := Lemmas.Event.ingest_ok (κ := Topology.Container) tbl (some fun _ => none) _ hwf []
      [("filename", .cstr 0), ("argv[0]", .cstr 1), ("argv[1]", .cstr 2), ("argv[2]", .cstr 3),
        ("argv[3]", .empty)] (by show Event.decoders.lookup Event.nr.sys_execve = _; decide +kernel)
    rw [List.append_nil] at hok
    rw [← hb] at hok
    have hie := ingestBytes_encode hwf
    rw [← hb] at hie
    rw [print_ok hie hok]
    exact showMsg_some (nr := 59) (by decide +kernel) env _

/-- The sample of a call without a decoder ends the program. -/
theorem print_none {given : List String} {hist : List Op} (hs : ∀ o ∈ hist, SaneOp o) {e : Nat} {t : Task}
    {c : Event.Call} {s : KEvent} (h : Completed tbl given hist e t c s) (hd : c.nr.toNat ∉ Spec.Event.decodable)
    (env : Print.Env) : print tbl fmt json env (Event.encode (Event.onExit s t c)) = none := by
  obtain ⟨hw, hl⟩ := completed_sane hs h
  unfold print
  rw [ingest_none, Props.Event.c38_violated.2 tbl _ s t c hw hl hd]
  split
  · rename_i h1 h2; cases h2
  · rfl

/-! ### Going on -/

theorem step_some {h : Host} {o : Op} (hp : ∀ bs ∈ h.ring, ∀ env, ∃ x, print tbl fmt json env bs = some x) :
    ∃ h', step tbl fmt json h o = some h' := by
  cases o with
  | enter t id m0 time args full => exact ⟨_, rfl⟩
  | exit t id ret m1 time mem scr lost =>
    simp only [step]
    split <;> exact ⟨_, rfl⟩
  | execve t time mem f av scr lost =>
    simp only [step]
    split <;> exact ⟨_, rfl⟩
  | «show» env =>
    simp only [step]
    cases hr : h.ring with
    | nil => exact ⟨_, rfl⟩
    | cons bs rest =>
      obtain ⟨x, hx⟩ := hp bs (by rw [hr]; simp) env
      simp only [hx, Option.map_some]
      exact ⟨_, rfl⟩

theorem ring_sampled {given : List String} {hist : List Op} {h : Host} (hi : Inv tbl fmt json given hist h)
    {bs : List Bytes.Byte} (hb : bs ∈ h.ring) : ∃ e, Sampled tbl given hist e bs := by
  obtain ⟨l, done, -, h2, -, h4, -⟩ := hi.samples
  have : bs ∈ l.map (·.2) := by rw [h4]; exact List.mem_append_right _ hb
  obtain ⟨x, hx, rfl⟩ := List.mem_map.1 this
  exact ⟨x.1, h2 x hx⟩

theorem run_some {refused : String → Filter.Faults} {given : List String} {h0 : Host}
    (hs : start tbl refused given = some h0) (hd : ∀ nr, Asked tbl given nr → nr.toNat ∈ Spec.Event.decodable) :
    ∀ (n : Nat) (hist : List Op), hist.length = n → (∀ o ∈ hist, SaneOp o) → ∃ h, run tbl fmt json h0 hist = some h
  | 0, hist, hn, _ => by
    rw [List.eq_nil_of_length_eq_zero hn]; exact ⟨h0, rfl⟩
  | n + 1, hist, hn, hsane => by
    have hne : hist ≠ [] := by intro e; rw [e] at hn; cases hn
    rw [← List.dropLast_concat_getLast hne] at hsane ⊢
    have hs1 : ∀ o ∈ hist.dropLast, SaneOp o := fun o ho => hsane o (List.mem_append_left _ ho)
    obtain ⟨h1, hr⟩ := run_some hs hd n hist.dropLast (by simp [hn]) hs1
    have hi := inv_run hs _ hr
    obtain ⟨h2, hst⟩ := step_some (tbl := tbl) (fmt := fmt) (json := json) (h := h1) (o := hist.getLast hne)
      (fun bs hb env => by obtain ⟨e, he⟩ := ring_sampled hi hb; exact print_some hs1 he hd env)
    refine ⟨h2, ?_⟩
    rw [run_append, hr]
    simp only [Option.bind_some, run, hst]

/-- Reading as often as there are samples empties the buffer. -/
theorem drain : ∀ (n : Nat) (h : Host) (env : Print.Env), h.ring.length = n →
    ∀ {h' : Host}, run tbl fmt json h (List.replicate n (.show env)) = some h' →
      h'.ring = [] ∧ h'.out.length = h.out.length + n
  | 0, h, env, hn, h', hr => by
    injection hr with hr; subst hr
    exact ⟨List.eq_nil_of_length_eq_zero hn, rfl⟩
  | n + 1, h, env, hn, h', hr => by
    simp only [List.replicate_succ, run] at hr
    cases hst : step tbl fmt json h (.show env) with
    | none => rw [hst] at hr; cases hr
    | some h1 =>
      rw [hst] at hr
      obtain ⟨-, ⟨he, -⟩ | ⟨bs, l, h2, -, h4⟩⟩ := show_step hst
      · rw [he] at hn; cases hn
      · have := drain n h1 env (by rw [h2] at hn; simpa using hn) hr
        rw [h4] at this
        simp only [List.length_append, List.length_cons, List.length_nil] at this
        exact ⟨this.1, by omega⟩

/-- A call by a thread, from beginning to end with nothing in between. -/
theorem completed_whole {given : List String} (pre post : List Op) (t : Task) (nr : BitVec 32)
    (hn : Asked tbl given nr) (h59 : nr ≠ 59) (args : List (BitVec 64)) (ret m0 m1 t0 t1 : BitVec 64) (mem : Mem)
    (s : KEvent) :
    Completed tbl given (pre ++ [.enter t (nr.setWidth 64) m0 t0 args false,
        .exit t (nr.setWidth 64) ret m1 t1 mem (some s) false] ++ post) (pre.length + 1) t
      ⟨nr, fun i => args.getD i 0, t.uid, t.gid, t0, ret, mem, t1⟩ s := by
  have hw : (nr.setWidth 64).setWidth 32 = nr := by
    apply BitVec.eq_of_toNat_eq
    simp
  refine ⟨pre, t, nr.setWidth 64, m0, args, [], m1, ?_, ?_, rfl, rfl, by simp, hw.symm, rfl, rfl, rfl, hn, h59⟩
  · rw [List.append_assoc, List.take_append, List.take_of_length_le (by omega)]; simp
  · simp

theorem nodup_subset_length : ∀ {a b : List Nat}, a.Nodup → (∀ x ∈ a, x ∈ b) → a.length ≤ b.length
  | [], _, _, _ => Nat.zero_le _
  | x :: a, b, hn, hs => by
    have hx := hs x (by simp)
    obtain ⟨h1, h2⟩ := List.nodup_cons.1 hn
    have := nodup_subset_length (b := b.erase x) h2 (fun y hy =>
      (List.mem_erase_of_ne (by intro e; rw [e] at hy; exact h1 hy)).2 (hs y (List.mem_cons_of_mem _ hy)))
    rw [List.length_erase_of_mem hx] at this
    have := List.length_pos_of_mem hx
    simp only [List.length_cons]
    omega

theorem pairwise_nodup {a : List Nat} (h : a.Pairwise (· < ·)) : a.Nodup :=
  h.imp (fun {x y} hxy => by omega)

/-- The positions due are as many as there are lines and samples. -/
theorem due_count {given : List String} {hist : List Op} {h : Host} (hi : Inv tbl fmt json given hist h) :
    ∃ pos : List Nat, pos.Pairwise (· < ·) ∧ (∀ e, e ∈ pos ↔ Due tbl given hist e) ∧
      pos.length = h.out.length + h.ring.length := by
  obtain ⟨l, done, h1, h2, h3, h4, h5, -⟩ := hi.samples
  refine ⟨l.map (·.1), h1, ?_, ?_⟩
  · intro e
    refine ⟨fun he => ?_, fun hd => ?_⟩
    · obtain ⟨x, hx, rfl⟩ := List.mem_map.1 he
      exact (h2 x hx).due
    · obtain ⟨bs, hb⟩ := h3 e hd
      exact List.mem_map.2 ⟨_, hb, rfl⟩
  · have := congrArg List.length h4
    simp only [List.length_map, List.length_append] at this ⊢
    omega

/-- Something due after the last line was printed is still to be printed. -/
theorem ring_of_due {given : List String} {pre post : List Op} {h h' : Host}
    (hi : Inv tbl fmt json given pre h) (hi' : Inv tbl fmt json given (pre ++ post) h') (ho : h'.out = h.out)
    {e : Nat} (he : pre.length ≤ e) (hd : Due tbl given (pre ++ post) e) : h'.ring ≠ [] := by
  intro hr
  obtain ⟨p, h1, h2, h3⟩ := due_count hi
  obtain ⟨p', h1', h2', h3'⟩ := due_count hi'
  have hnot : e ∉ p := by
    intro hm
    have := Due.lt ((h2 e).1 hm)
    omega
  have := nodup_subset_length (a := e :: p) (b := p') (List.nodup_cons.2 ⟨hnot, pairwise_nodup h1⟩) (by
    intro x hx
    rcases List.mem_cons.1 hx with rfl | hx
    · exact (h2' _).2 hd
    · have hdx := (h2 x).1 hx
      exact (h2' x).2 ((due_append (Due.lt hdx)).2 hdx))
  rw [ho, hr] at h3'
  simp only [List.length_cons, List.length_nil] at this h3'
  omega

theorem out_same {os : List Op} : ∀ {h h' : Host}, (∀ o ∈ os, ∀ env, o ≠ .show env) →
    run tbl fmt json h os = some h' → h'.out = h.out := by
  induction os with
  | nil => intro h h' _ hr; injection hr with hr; rw [hr]
  | cons o os ih =>
    intro h h' hn hr
    simp only [run] at hr
    cases hst : step tbl fmt json h o with
    | none => rw [hst] at hr; cases hr
    | some h1 =>
      rw [hst] at hr
      have h2 := ih (fun o ho => hn o (List.mem_cons_of_mem _ ho)) hr
      rw [h2]
      cases o with
      | enter t id m0 time args full => injection hst with hst; rw [← hst]
      | exit t id ret m1 time mem scr lost => exact (exit_ring hst).2.1
      | execve t time mem f av scr lost => exact (execve_ring hst).2.1
      | «show» env => exact absurd rfl (hn _ (by simp) env)

end Swoll.Lemmas.Host
