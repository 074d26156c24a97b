import Verif.Lemmas.HostShow
import Verif.Props.PrintLine
import Verif.Props.Syscalls
/-
C94: tracing without containers prints the calls asked for, once each and in order.
C95: it goes on until it is stopped.
C96: it does not trace itself.
A history is any interleaving of the calls of all threads of the machine and of the lines printed.
-/
namespace Swoll.Props.Host
open Swoll Swoll.Host Swoll.Spec.Host Swoll.Lemmas.Host
open Swoll.Event (Task Mem KEvent TraceEvent)

variable {tbl : Syscalls.Syscalls} {refused : String → Filter.Faults} {given : List String}
  {json : TraceEvent Topology.Container → List Char}

/-! ### C94: the calls asked for -/

/-- C94: what was printed so far is the oldest part of what is due, in order and once each; the rest is
waiting to be read. A call is due if its name was given, whatever thread of the machine made it; with no
name given, if it is an execve. Each line is the line of an event that says what the call was, and
names no container. -/
theorem c94_prints_the_named_calls {fmt : Format} {h0 h : Host} (hs : start tbl refused given = some h0)
    {hist : List Op} (hsane : ∀ o ∈ hist, SaneOp o) (hr : run tbl fmt json h0 hist = some h) :
    ∃ pos : List Nat, pos.Pairwise (· < ·) ∧ (∀ e, e ∈ pos ↔ Due tbl given hist e) ∧
      pos.length = h.out.length + h.ring.length ∧
      ∀ (i : Nat) (line : List Char), h.out[i]? = some line → ∃ e nr ev env, pos[i]? = some e ∧
        Tells tbl given hist e nr ev ∧ ev.container = none ∧ Op.show env ∈ hist ∧
        (fmt = .cli → Print.cliLine env false nr ev = some line) ∧ (fmt = .json → json ev = line) := by
  have hi := inv_run hs hist hr
  obtain ⟨l, done, h1, h2, h3, h4, h5, h6⟩ := hi.samples
  refine ⟨l.map (·.1), h1, ?_, ?_, ?_⟩
  · intro e
    refine ⟨fun he => ?_, fun hd => ?_⟩
    · obtain ⟨x, hx, rfl⟩ := List.mem_map.1 he
      exact (h2 x hx).due
    · obtain ⟨bs, hb⟩ := h3 e hd
      exact List.mem_map.2 ⟨_, hb, rfl⟩
  · have := congrArg List.length h4
    simp only [List.length_map, List.length_append] at this ⊢
    omega
  · intro i line hl
    have hlt : i < done.length := by
      rw [h5]
      exact (List.getElem?_eq_some_iff.1 hl).1
    have hd := List.getElem?_eq_getElem hlt
    have hx : (l.map (·.2))[i]? = some done[i] := by
      rw [h4, List.getElem?_append_left hlt, hd]
    rw [List.getElem?_map] at hx
    obtain ⟨x, hx1, hx2⟩ := Option.map_eq_some_iff.1 hx
    obtain ⟨env, he, hp⟩ := h6 i _ line hd hl
    rw [← hx2] at hp
    obtain ⟨nr, ev, k1, k2, k3⟩ := print_tells hsane (h2 x (List.mem_of_getElem? hx1)) hp
    refine ⟨x.1, nr, ev, env, by rw [List.getElem?_map, hx1]; rfl, k1, k2, he, ?_, ?_⟩
    · rintro rfl; exact k3
    · rintro rfl; injection k3

/-- C94: tracing starts just if the names given are those of system calls. -/
theorem c94_starts : (start tbl (fun _ => {}) given).isSome ↔
    (∀ n ∈ given, (Syscalls.lookup tbl (.str n)).isSome) ∧
      (given = [] → (Syscalls.lookup tbl (.str "execve")).isSome) := by
  constructor
  · intro h
    obtain ⟨h0, h⟩ := Option.isSome_iff_exists.1 h
    obtain ⟨hk, -⟩ := start_lets h
    refine ⟨fun n hn => hk n ((mem_names _ _).2 (Or.inl hn)), fun hg => hk _ ((mem_names _ _).2 (Or.inr ⟨hg, rfl⟩))⟩
  · rintro ⟨h1, h2⟩
    obtain ⟨m, hm⟩ := install_ok (tbl := tbl) (namesOf given) Filter.KMaps.empty (by
      intro n hn
      rcases (mem_names _ _).1 hn with hn | ⟨hg, rfl⟩
      · exact h1 n hn
      · exact h2 hg)
    unfold start
    rw [hm]; rfl

/-- C94: an unknown name or an update the kernel refuses keeps it from starting: no part of the calls is
traced instead of all. -/
theorem c94_all_or_nothing {h0 : Host} (hs : start tbl refused given = some h0) :
    ∀ n ∈ given, (Syscalls.lookup tbl (.str n)).isSome := by
  obtain ⟨hk, -⟩ := start_lets hs
  exact fun n hn => hk n ((mem_names _ _).2 (Or.inl hn))

/-- C94: what is waiting gets printed: reading it takes one step for each sample. -/
theorem c94_catches_up {fmt : Format} {h h' : Host} (env : Print.Env)
    (hr : run tbl fmt json h (List.replicate h.ring.length (.show env)) = some h') :
    h'.ring = [] ∧ h'.out.length = h.out.length + h.ring.length :=
  drain _ h env rfl hr

/-! ### C95: going on -/

/-- C95, missing: calls without a decoder. If the program decodes all calls asked for, nothing any
thread of the machine does ends the trace. -/
theorem c95_goes_on_partial {fmt : Format} {h0 : Host} (hs : start tbl refused given = some h0)
    (hd : ∀ nr, Asked tbl given nr → nr.toNat ∈ Spec.Event.decodable) (hist : List Op)
    (hsane : ∀ o ∈ hist, SaneOp o) : (run tbl fmt json h0 hist).isSome := by
  obtain ⟨h, hr⟩ := run_some (fmt := fmt) (json := json) hs hd _ hist rfl hsane
  rw [hr]; rfl

/-- C95 violated: a call that was asked for and cannot be decoded ends the trace, whoever makes it,
with whatever arguments and result, however much was printed before, as soon as its sample is read. -/
theorem c95_goes_on_violated {fmt : Format} {h0 : Host} (hs : start tbl refused given = some h0)
    {hist : List Op} (hsane : ∀ o ∈ hist, SaneOp o)
    (nr : BitVec 32) (ha : Asked tbl given nr) (hd : nr.toNat ∉ Spec.Event.decodable)
    (t : Task) (ht : t.comm.length = 16) (args : List (BitVec 64)) (ret m0 m1 t0 t1 : BitVec 64) (mem : Mem)
    (s : KEvent) (hw : s.WF) (env : Print.Env) :
    ∃ n, run tbl fmt json h0 (hist ++ [.enter t (nr.setWidth 64) m0 t0 args false,
      .exit t (nr.setWidth 64) ret m1 t1 mem (some s) false] ++ List.replicate n (.show env)) = none := by
  apply Classical.byContradiction
  intro hcon
  have hall : ∀ n, ∃ h, run tbl fmt json h0 (hist ++ [.enter t (nr.setWidth 64) m0 t0 args false,
      .exit t (nr.setWidth 64) ret m1 t1 mem (some s) false] ++ List.replicate n (.show env)) = some h := by
    intro n
    cases hx : run tbl fmt json h0 (hist ++ [.enter t (nr.setWidth 64) m0 t0 args false,
      .exit t (nr.setWidth 64) ret m1 t1 mem (some s) false] ++ List.replicate n (.show env)) with
    | none => exact absurd ⟨n, hx⟩ hcon
    | some h => exact ⟨h, rfl⟩
  have h59 : nr ≠ 59 := by rintro rfl; exact hd (by decide +kernel)
  obtain ⟨h1, hr1⟩ := hall 0
  rw [List.replicate_zero, List.append_nil] at hr1
  obtain ⟨h2, hr2⟩ := hall h1.ring.length
  have hr2' := hr2
  rw [run_append, hr1, Option.bind_some] at hr2'
  obtain ⟨hempty, -⟩ := drain _ h1 env rfl hr2'
  generalize hos : List.replicate h1.ring.length (Op.show env) = post at hr2
  have hsane2 : ∀ o ∈ hist ++ [.enter t (nr.setWidth 64) m0 t0 args false,
      .exit t (nr.setWidth 64) ret m1 t1 mem (some s) false] ++ post, SaneOp o := by
    intro o ho
    rcases List.mem_append.1 ho with ho | ho
    · rcases List.mem_append.1 ho with ho | ho
      · exact hsane o ho
      · simp only [List.mem_cons, List.not_mem_nil, or_false] at ho
        rcases ho with rfl | rfl
        · trivial
        · exact ⟨ht, fun s' e => by injection e with e; rw [← e]; exact hw⟩
    · rw [← hos] at ho
      rw [List.eq_of_mem_replicate ho]; trivial
  have hc := completed_whole (tbl := tbl) (given := given) hist post t nr ha h59 args ret m0 m1 t0 t1 mem s
  obtain ⟨l, done, -, k2, k3, k4, k5, k6⟩ := (inv_run hs _ hr2).samples
  rw [hempty, List.append_nil] at k4
  obtain ⟨bs, hb⟩ := k3 _ (Or.inl ⟨_, _, _, hc⟩)
  have hbd : bs ∈ done := by rw [← k4]; exact List.mem_map.2 ⟨_, hb, rfl⟩
  obtain ⟨i, hi, hbi⟩ := List.getElem_of_mem hbd
  obtain ⟨env', -, hp⟩ := k6 i bs _ (by rw [List.getElem?_eq_getElem hi, hbi])
    (List.getElem?_eq_getElem (by omega))
  obtain ⟨_, _, id1, _, _, _, _, -, e1, -, -, -, e2, -⟩ := hc
  rcases k2 _ hb with ⟨t', c', s', hc', hbs⟩ | ⟨t', _, _, _, _, s', hx', -⟩
  · have hnr : c'.nr = nr := by
      obtain ⟨_, _, id2, _, _, _, _, -, e3, -, -, -, e4, -⟩ := hc'
      rw [e3] at e1
      injection e1 with e1
      injection e1 with _ e1
      rw [e4, e1, ← e2]
    rw [show bs = _ from hbs, print_none hsane2 hc' (by rw [hnr]; exact hd)] at hp
    cases hp
  · have := hx'.1
    rw [show hist.length + 1 = _ from rfl] at this
    rw [e1] at this
    cases this

/-- C95 violated for the program's own table: tracing starts for the name of any call in it, and most
of them cannot be decoded; `sys_mmap` is one, which every program calls when it is loaded. -/
theorem c95_most_names_violated (order : List (String × String × String)) (ho : order.Perm Syscalls.gClassMap)
    (ht : Syscalls.new order = some tbl) :
    (∀ name nr cls grp, Spec.Syscalls.Entry name nr cls grp →
      Asked tbl [name] (BitVec.ofNat 32 nr) ∧ (start tbl (fun _ => {}) [name]).isSome) ∧
    Spec.Syscalls.Entry "sys_mmap" 9 "ProcessManagement" "VirtualMemory" ∧ 9 ∉ Spec.Event.decodable ∧
    (Syscalls.gSyscallMap.filter (fun e => e.2 ∉ Spec.Event.decodable)).length = 274 := by
  refine ⟨?_, by unfold Spec.Syscalls.Entry; decide +kernel, by decide +kernel, by decide +kernel⟩
  intro name nr cls grp he
  have hl := (Syscalls.c43_lookup_complete order ho tbl ht name nr cls grp he).2.2
  refine ⟨⟨name, _, Or.inl (by simp), hl, rfl⟩, c94_starts.2 ⟨?_, by simp⟩⟩
  intro n hn
  rw [List.mem_singleton.1 hn, hl]; rfl

/-! ### C96: the tracer itself -/

/-- C96, missing: calls that were asked for. The tracer's own calls are not printed if it makes none
of those asked for. -/
theorem c96_not_itself_partial {fmt : Format} {h0 h : Host} (hs : start tbl refused given = some h0)
    {hist : List Op} (hsane : ∀ o ∈ hist, SaneOp o) (hr : run tbl fmt json h0 hist = some h) (self : BitVec 32)
    (hself : ∀ t id m0 t0 args full, Op.enter t id m0 t0 args full ∈ hist → t.tgid = self →
      ¬ Asked tbl given (id.setWidth 32))
    (hexec : ∀ t time mem f av s lost, Op.execve t time mem f av s lost ∈ hist → t.tgid = self →
      ¬ Asked tbl given 59) (i : Nat) (line : List Char) (hl : h.out[i]? = some line) :
    ∃ e nr ev env, Tells tbl given hist e nr ev ∧ ev.tid ≠ self.toNat ∧
      (fmt = .cli → Print.cliLine env false nr ev = some line) ∧ (fmt = .json → json ev = line) := by
  obtain ⟨pos, -, -, -, h4⟩ := c94_prints_the_named_calls hs hsane hr
  obtain ⟨e, nr, ev, env, -, k1, -, -, k2, k3⟩ := h4 i line hl
  refine ⟨e, nr, ev, env, k1, ?_, k2, k3⟩
  intro htid
  rcases k1 with ⟨t, c, s, hc, -, hrep⟩ | ⟨t, time, mem, f, av, s, hx, -, hrep⟩
  · have htg : t.tgid = self := BitVec.eq_of_toNat_eq (by have := hrep.ids.2.1; omega)
    obtain ⟨b, t0, id, m0, args, bt, m1, g1, -, g2, -, -, g3, -, -, -, g4, -⟩ := hc
    refine hself t0 id m0 c.start args false ?_ (by rw [g2]; exact htg) (by rw [← g3]; exact g4)
    exact List.mem_of_mem_take (i := e) (by rw [g1]; simp)
  · have htg : t.tgid = self := BitVec.eq_of_toNat_eq (by have := hrep.ids.2.1; omega)
    exact hexec t time mem f av _ _ (List.mem_of_getElem? hx.1) htg hx.2

/-- C96 violated for users of a filter, of which the hub is one: after `FilterSelf`, whatever was done
with the filter before and after, it lets the calls of the own process through just as those of any other. -/
theorem c96_filter_self_violated (before after : List Filter.Op) (m : Filter.KMaps)
    (hm : filterSelf (Filter.run tbl Filter.KMaps.empty before).1 = some m) (ns nr self other : BitVec 32) :
    (Filter.step tbl (Filter.run tbl m after).1 (.callEvent ns self nr)).2 =
      (Filter.step tbl (Filter.run tbl m after).1 (.callEvent ns other nr)).2 := by
  injection hm with hm
  subst hm
  have h1 := (Lemmas.Filter.rel_run tbl before Lemmas.Filter.rel_empty).1
  have h2 := (Lemmas.Filter.rel_run tbl after h1).1
  rw [(Lemmas.Filter.rel_step tbl h2 _).2, (Lemmas.Filter.rel_step tbl h2 _).2]
  rfl

/-- A call of `write` by thread `t`, and the printing of what is next. -/
def round (t : Task) (s : KEvent) (env : Print.Env) : List Op :=
  [.enter t 1 0 1 [2, 3, 4] false, .exit t 1 4 0 2 (fun _ => none) (some s) false, .show env]

theorem round_prints {fmt : Format} {h0 h : Host} (hs : start tbl refused given = some h0)
    (hw : Asked tbl given 1) (hd : ∀ nr, Asked tbl given nr → nr.toNat ∈ Spec.Event.decodable)
    {hist : List Op} (hsane : ∀ o ∈ hist, SaneOp o) (hr : run tbl fmt json h0 hist = some h)
    {t : Task} (ht : t.comm.length = 16) {s : KEvent} (hwf : s.WF) (env : Print.Env) :
    (∀ o ∈ hist ++ round t s env, SaneOp o) ∧
    ∃ h', run tbl fmt json h0 (hist ++ round t s env) = some h' ∧ h'.out.length = h.out.length + 1 := by
  have hsane2 : ∀ o ∈ hist ++ round t s env, SaneOp o := by
    intro o ho
    rcases List.mem_append.1 ho with ho | ho
    · exact hsane o ho
    · simp only [round, List.mem_cons, List.not_mem_nil, or_false] at ho
      rcases ho with rfl | rfl | rfl
      · trivial
      · exact ⟨ht, fun s' e => by injection e with e; rw [← e]; exact hwf⟩
      · trivial
  refine ⟨hsane2, ?_⟩
  have hsplit : hist ++ round t s env = (hist ++ [.enter t 1 0 1 [2, 3, 4] false,
      .exit t 1 4 0 2 (fun _ => none) (some s) false]) ++ [.show env] := by simp [round]
  obtain ⟨h', hr'⟩ := run_some (fmt := fmt) (json := json) hs hd _ _ rfl hsane2
  rw [hsplit] at hr'
  obtain ⟨h1, hr1, hst⟩ := run_snoc hr'
  have hi1 := inv_run hs _ hr1
  have hr1' := hr1
  rw [run_append, hr, Option.bind_some] at hr1'
  have ho := out_same (by simp) hr1'
  have hc := completed_whole (tbl := tbl) (given := given) hist [] t 1 hw (by decide) [2, 3, 4] 4 0 0 1 2
    (fun _ => none) s
  rw [List.append_nil] at hc
  have hne := ring_of_due (inv_run hs _ hr) hi1 ho (Nat.le_succ _) (Or.inl ⟨_, _, _, hc⟩)
  refine ⟨h', by rw [hsplit]; exact hr', ?_⟩
  obtain ⟨-, ⟨he, -⟩ | ⟨bs, l, -, -, h4⟩⟩ := show_step hst
  · exact absurd he hne
  · rw [h4, ho]; simp

theorem rounds_print {fmt : Format} {h0 : Host} (hs : start tbl refused given = some h0)
    (hw : Asked tbl given 1) (hd : ∀ nr, Asked tbl given nr → nr.toNat ∈ Spec.Event.decodable)
    {t : Task} (ht : t.comm.length = 16) {s : KEvent} (hwf : s.WF) (env : Print.Env) : ∀ (n : Nat) {hist : List Op}
    {h : Host}, (∀ o ∈ hist, SaneOp o) → run tbl fmt json h0 hist = some h →
    ∃ h', run tbl fmt json h0 (hist ++ (List.replicate n (round t s env)).flatten) = some h' ∧
      h'.out.length = h.out.length + n
  | 0, hist, h, _, hr => ⟨h, by simpa using hr, rfl⟩
  | n + 1, hist, h, hsane, hr => by
    obtain ⟨hs1, h1, hr1, ho1⟩ := round_prints hs hw hd hsane hr ht hwf env
    obtain ⟨h2, hr2, ho2⟩ := rounds_print hs hw hd ht hwf env n hs1 hr1
    refine ⟨h2, ?_, by omega⟩
    rw [List.replicate_succ, List.flatten_cons, ← List.append_assoc]
    exact hr2

/-- C96 violated: the tracer prints its own calls, and goes on forever about them. If `write` is asked for,
one call by another process is enough: the tracer writes a line for it, and then a line for each
line it wrote, as many as one cares to wait for. -/
theorem c96_not_itself_violated {fmt : Format} {h0 : Host} (hs : start tbl refused given = some h0)
    (hw : Asked tbl given 1) (hd : ∀ nr, Asked tbl given nr → nr.toNat ∈ Spec.Event.decodable)
    (other self : Task) (ho : other.comm.length = 16) (hself : self.comm.length = 16) (s : KEvent) (hwf : s.WF)
    (env : Print.Env) (n : Nat) : ∃ own h, (∀ o ∈ own, DoneBy self.tgid o ∨ o = .show env) ∧
      run tbl fmt json h0 (round other s env ++ own) = some h ∧ h.out.length = n + 1 := by
  have hr0 : run tbl fmt json h0 [] = some h0 := rfl
  obtain ⟨hs1, h1, hr1, ho1⟩ := round_prints hs hw hd (by simp) hr0 ho hwf env
  obtain ⟨h2, hr2, ho2⟩ := rounds_print hs hw hd hself hwf env n hs1 hr1
  refine ⟨_, h2, ?_, by simpa using hr2, ?_⟩
  · intro o hm
    obtain ⟨r, hr, hor⟩ := List.mem_flatten.1 hm
    rw [List.eq_of_mem_replicate hr] at hor
    simp only [round, List.mem_cons, List.not_mem_nil, or_false] at hor
    rcases hor with rfl | rfl | rfl
    · exact Or.inl rfl
    · exact Or.inl rfl
    · exact Or.inr rfl
  · obtain ⟨-, -, -, -, h0o⟩ := start_lets hs
    rw [h0o] at ho1
    simp at ho1
    omega

/-- C96 violated: it never catches up. After a line was printed there is something to print as soon as
a call asked for is complete, its own writing of that line included. -/
theorem c96_never_quiet_violated {fmt : Format} {h0 h : Host} (hs : start tbl refused given = some h0)
    {pre post : List Op} (hr : run tbl fmt json h0 (pre ++ post) = some h)
    (hp : ∀ o ∈ post, ∀ env, o ≠ .show env) (e : Nat) (he : pre.length ≤ e)
    (hd : Due tbl given (pre ++ post) e) : h.ring ≠ [] := by
  have hr' := hr
  rw [run_append, Option.bind_eq_some_iff] at hr'
  obtain ⟨h1, hr1, hr2⟩ := hr'
  exact ring_of_due (inv_run hs _ hr1) (inv_run hs _ hr) (out_same hp hr2) he hd

/-! ### A history that meets the hypotheses -/

open Swoll.Props.Event (sampleTask sampleScratch sampleScratch_wf)
open Swoll.Props.Print (sampleEnv)

def writeTbl : Syscalls.Syscalls :=
  ⟨[(1, ⟨1, "sys_write", "FileSystem", "IO"⟩), (9, ⟨9, "sys_mmap", "Memory", "VM"⟩)],
   [("sys_write", ⟨1, "sys_write", "FileSystem", "IO"⟩), ("sys_mmap", ⟨9, "sys_mmap", "Memory", "VM"⟩)]⟩

def otherTask : Task := { sampleTask with tgid := 7, pid := 7 }

/-- Two threads overlap; the second ends first; one line is read. -/
def story : List Op :=
  [.enter sampleTask 1 0 1 [2, 3, 4] false, .enter otherTask 1 0 2 [2, 3, 4] false,
   .exit otherTask 1 4 0 3 (fun _ => none) (some sampleScratch) false, .show sampleEnv,
   .exit sampleTask 1 4 0 4 (fun _ => none) (some sampleScratch) false]

theorem asked_write : Asked writeTbl ["write"] 1 :=
  ⟨"write", ⟨1, "sys_write", "FileSystem", "IO"⟩, Or.inl (by simp), by decide +kernel, rfl⟩

theorem asked_decodable : ∀ nr, Asked writeTbl ["write"] nr → nr.toNat ∈ Spec.Event.decodable := by
  rintro nr ⟨n, s, h1, h2, rfl⟩
  rcases h1 with h1 | ⟨h1, -⟩
  · rw [List.mem_singleton.1 h1] at h2
    have : Syscalls.lookup writeTbl (.str "write") = some ⟨1, "sys_write", "FileSystem", "IO"⟩ := by decide +kernel
    rw [this] at h2
    injection h2 with h2
    subst h2
    decide +kernel
  · cases h1

theorem story_sane : ∀ o ∈ story, SaneOp o := by
  intro o ho
  simp only [story, List.mem_cons, List.not_mem_nil, or_false] at ho
  rcases ho with rfl | rfl | rfl | rfl | rfl
  · trivial
  · trivial
  · exact ⟨rfl, fun s e => by injection e with e; rw [← e]; exact sampleScratch_wf⟩
  · trivial
  · exact ⟨rfl, fun s e => by injection e with e; rw [← e]; exact sampleScratch_wf⟩

/-- Tracing starts, one line is printed and one sample is waiting; both calls are due, that of the
thread that ended first at the earlier position. -/
example : ((start writeTbl (fun _ => {}) ["write"]).bind (fun h0 => run writeTbl .cli (fun _ => []) h0 story)).map
      (fun h => (h.out.map String.ofList, h.ring.length)) =
      some (["( 0.000ms) [             sh/7       ] (         OK) write((int)fd=2, (const void *)buf=[0 0 0 0], (ssize_t)count=4)\n"], 1) ∧
    (∀ o ∈ story, SaneOp o) ∧ Due writeTbl ["write"] story 2 ∧ Due writeTbl ["write"] story 4 := by
  refine ⟨by decide +kernel, story_sane, Or.inl ⟨otherTask, ⟨1, fun i => [2, 3, 4].getD i 0, 1000, 1000, 2, 4,
    fun _ => none, 3⟩, sampleScratch, [.enter sampleTask 1 0 1 [2, 3, 4] false], otherTask, 1, 0, [2, 3, 4], [], 0,
    rfl, rfl, rfl, rfl, by simp, rfl, rfl, rfl, rfl, asked_write, by decide⟩,
    Or.inl ⟨sampleTask, ⟨1, fun i => [2, 3, 4].getD i 0, 1000, 1000, 1, 4, fun _ => none, 4⟩, sampleScratch,
      [], sampleTask, 1, 0, [2, 3, 4], (story.take 4).drop 1, 0, rfl, rfl, rfl, rfl, ?_, rfl,
      rfl, rfl, rfl, asked_write, by decide⟩⟩
  intro o ho
  simp only [story, List.take, List.drop, List.mem_cons, List.not_mem_nil, or_false] at ho
  rcases ho with rfl | rfl | rfl
  · exact ⟨id, fun h => absurd h.1 (by decide)⟩
  · exact ⟨fun h => absurd h.1 (by decide), id⟩
  · exact ⟨id, id⟩

/-- The hypotheses of C96's violation are met: tracing `write` starts, and every call asked for is
decoded. -/
example : (start writeTbl (fun _ => {}) ["write"]).isSome ∧ Asked writeTbl ["write"] 1 ∧
    (∀ nr, Asked writeTbl ["write"] nr → nr.toNat ∈ Spec.Event.decodable) :=
  ⟨by decide +kernel, asked_write, asked_decodable⟩

/-- The hypotheses of C95's violation are met, and the trace ends at the first line. -/
example : Asked writeTbl ["mmap"] 9 ∧
    ((start writeTbl (fun _ => {}) ["mmap"]).bind (fun h0 => run writeTbl .cli (fun _ => []) h0
      [.enter sampleTask 9 0 1 [] false, .exit sampleTask 9 0 0 2 (fun _ => none) (some sampleScratch) false])).isSome ∧
    (start writeTbl (fun _ => {}) ["mmap"]).bind (fun h0 => (run writeTbl .cli (fun _ => []) h0
      [.enter sampleTask 9 0 1 [] false, .exit sampleTask 9 0 0 2 (fun _ => none) (some sampleScratch) false,
       .show sampleEnv]).map (fun _ => ())) = none :=
  ⟨⟨"mmap", ⟨9, "sys_mmap", "Memory", "VM"⟩, Or.inl (by simp), by decide +kernel, rfl⟩, by decide +kernel, by decide +kernel⟩

end Swoll.Props.Host
