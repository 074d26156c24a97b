import Verif.Lemmas.Examples
import Verif.Props.Daemon
/-
C157: a program that sets up the kernel's filter sees the calls it asked for. The examples that come with swoll do not.
A history is any interleaving of the calls of all threads of the machine and of the callbacks of the program.
-/
namespace Swoll.Props.Examples
open Swoll Swoll.Examples Swoll.Lemmas.Examples
open Swoll.Event (Task Mem KEvent TraceEvent)
open Swoll.Props.Event (sampleTask sampleScratch)
open Swoll.Props.Hub (demoTbl)

variable {tbl : Syscalls.Syscalls}

/-- C157 fails for every program that does not switch the filter on: whatever rules it adds and removes beforehand, and
whatever is called on the machine afterwards, nothing is ever written to the buffer, the callback shows nothing, and the
program goes on as if all was well. -/
theorem c157_dark_violated {ops : List Filter.Op} (h : Filter.Op.enable ∉ ops) (hist : List Op) :
    ∃ p, run tbl (start (Filter.run tbl Filter.KMaps.empty ops).1) hist = some p ∧ p.ring = [] ∧ p.out = [] :=
  have hd := start_dark (tbl := tbl) h
  ⟨_, run_dark hd hist, hd.ring, hd.out⟩

/-- C157: so basic-trace never shows an event. -/
theorem c157_basic_trace_violated (hist : List Op) :
    ∃ p, run tbl (start basicTrace) hist = some p ∧ p.ring = [] ∧ p.out = [] :=
  c157_dark_violated (ops := []) (by simp) hist

/-- C157: nor does kubernetes-basic, whether its four rules are accepted or not. -/
theorem c157_kubernetes_basic_violated (refused : String → Filter.Faults) (hist : List Op) :
    ∃ p, run tbl (start (kubernetesBasic tbl refused)) hist = some p ∧ p.ring = [] ∧ p.out = [] := by
  have h : kubernetesBasic tbl refused = (Filter.run tbl Filter.KMaps.empty
      (names.map (fun n => .addSyscall (.str n) (-1) (refused n)))).1 := addAll_run refused names _
  rw [h]
  exact c157_dark_violated (by simp) hist

/-- C157: the rules of kubernetes-basic are the right ones: were the filter switched on, the kernel would pass the four
calls it names, of every process in every namespace, and no others; a rule that the kernel refused, or a name that is not
that of a call, is passed over without a word and takes nothing from the others. -/
theorem c157_rules_partial (refused : String → Filter.Faults) (ns pid nr : BitVec 32) :
    (Filter.step tbl (Filter.enable (kubernetesBasic tbl refused)) (.callEvent ns pid nr)).2 = true ↔
      ∃ n ∈ ["execve", "openat", "accept4", "connect"], ∃ s, Syscalls.lookup tbl (.str n) = some s ∧
        BitVec.ofNat 32 s.nr = nr ∧ (refused n).config = false ∧ (refused n).filter = false := by
  obtain ⟨a, h, he⟩ := kubernetesBasic_lets (tbl := tbl) refused
  exact h.passes he ns pid nr

/-- C157: basic-trace has no rules, so that the switch would not help it: the default filter, which by its name is to leave
out only the program itself, passes nothing. -/
theorem c157_default_filter_violated (ns pid nr : BitVec 32) :
    (Filter.step tbl (Filter.enable basicTrace) (.callEvent ns pid nr)).2 = false := by
  have h0 : Lemmas.Host.Lets Filter.KMaps.empty (fun _ => False) Spec.Filter.Abs.empty :=
    ⟨Lemmas.Filter.rel_empty, fun _ _ => rfl, (fun _ _ h => by cases h), (fun _ => by simp [Spec.Filter.Abs.empty])⟩
  have h1 : Lemmas.Host.Lets (Filter.enable basicTrace) (fun _ => False) { Spec.Filter.Abs.empty with enabled := true } :=
    ⟨(Lemmas.Filter.rel_step tbl h0.rel .enable).1, h0.ns, h0.rate, h0.all⟩
  have h := h1.passes (tbl := tbl) rfl ns pid nr
  cases e : (Filter.step tbl (Filter.enable basicTrace) (.callEvent ns pid nr)).2 with
  | false => rfl
  | true => exact (h.1 e).elim

/-! ### With the filter switched on -/

open Swoll.Spec.Examples (view asking)
open Swoll.Spec.Host (Due Tells SaneOp Known Asked)

/-- C157 holds of a program that adds a rule for each of some calls, everywhere, and switches the filter on: the callback is
given each call due once, in the order in which they ended. As many are due as were shown or are waiting in the buffer, and
what the next callback shows is the first of those waiting, with the container that its namespace is known for. (Calls whose
rule is for one namespace, or sampled, are those of the hub: C74 to C77.) -/
theorem c157_shown_partial {given : List String} (hg : given ≠ []) (hk : Known tbl given) (env : Print.Env) {hist : List Op}
    (hs : ∀ o ∈ view env hist, SaneOp o) {p : Prog} (hr : run tbl (start (asking tbl given)) hist = some p) :
    ∃ pos : List Nat, pos.Pairwise (· < ·) ∧ (∀ e, e ∈ pos ↔ Due tbl given (view env hist) e) ∧
      pos.length = p.out.length + p.ring.length ∧
      ∀ lookup p', p.ring ≠ [] → step tbl p (.sample lookup) = some p' → ∃ e nr ev, pos[p.out.length]? = some e ∧
        Tells tbl given (view env hist) e nr ev ∧ ev.container = lookup.bind (fun f => f ev.pidNs) ∧
        p'.out = p.out ++ [ev] ∧ p'.ring = p.ring.tail := by
  have hst := asking_start hg hk
  obtain ⟨h, k1, k2⟩ := sim_run (env := env) (json := fun _ => []) hst (p0 := start (asking tbl given)) ⟨rfl, rfl, rfl⟩ hist hs hr
  have hi := Lemmas.Host.inv_run hst _ k1
  obtain ⟨l, done, h1, h2, h3, h4, h5, -⟩ := hi.samples
  rw [← k2.ring] at h4
  rw [← k2.out] at h5
  refine ⟨l.map (·.1), h1, ?_, ?_, ?_⟩
  · intro e
    refine ⟨fun he => ?_, fun hd => ?_⟩
    · obtain ⟨x, hx, rfl⟩ := List.mem_map.1 he
      exact (h2 x hx).due
    · obtain ⟨bs, hb⟩ := h3 e hd
      exact List.mem_map.2 ⟨_, hb, rfl⟩
  · have := congrArg List.length h4
    simp only [List.length_map, List.length_append] at this ⊢
    omega
  · intro lookup p' hne hp
    simp only [step] at hp
    split at hp
    · rename_i e; exact absurd e hne
    · rename_i bs rest hring
      rw [hring] at h4
      have hx : (l.map (·.2))[p.out.length]? = some bs := by
        rw [h4, ← h5, List.getElem?_append_right (Nat.le_refl _)]; simp
      rw [List.getElem?_map] at hx
      obtain ⟨x, hx1, hx2⟩ := Option.map_eq_some_iff.1 hx
      have hsam := h2 x (List.mem_of_getElem? hx1)
      rw [hx2] at hsam
      simp only [callback] at hp
      split at hp
      · rename_i ev hev
        injection hp with hp
        subst hp
        obtain ⟨nr, t1, t2⟩ := sampled_tells hs hsam hev
        exact ⟨x.1, nr, ev, by rw [List.getElem?_map, hx1]; rfl, t1, t2, rfl, by rw [hring]; rfl⟩
      · rename_i hev
        obtain ⟨r, hb⟩ := sampled_bytes hs hsam
        rw [ingest_err hev] at hb
        cases hb
      · cases hp

/-- C157: such a program goes on, if there is a decoder for each of the calls. -/
theorem c157_goes_on_partial {given : List String} (hg : given ≠ []) (hk : Known tbl given)
    (hd : ∀ nr, Asked tbl given nr → nr.toNat ∈ Spec.Event.decodable) (env : Print.Env) {hist : List Op}
    (hs : ∀ o ∈ view env hist, SaneOp o) : ∃ p, run tbl (start (asking tbl given)) hist = some p :=
  run_alive (asking_start hg hk) ⟨rfl, rfl, rfl⟩ hd hist hs

/-- C157: kubernetes-basic is such a program but for the switch. -/
theorem c157_but_for_the_switch : Filter.enable (kubernetesBasic tbl (fun _ => {})) =
    asking tbl ["execve", "openat", "accept4", "connect"] := by
  unfold asking
  rw [run_app, ← addAll_run (fun _ => {})]
  rfl

/-! ### A thread opens a file -/

/-- A call that kubernetes-basic asks for, made and completed, and the callback. -/
def opens : List Op :=
  [.enter sampleTask 257 0 10 [0xffffffffffffff9c, 0, 0, 0, 0, 0] false,
   .exit sampleTask 257 3 0 12 (fun _ => none) (some sampleScratch) false, .sample none, .lost none]

example : Filter.Op.enable ∉ ([.addSyscall (.str "openat") (-1) {}, .removeSyscall (.str "connect") 5] : List Filter.Op) := by
  simp

/-- Not shown as the program is, shown were the filter switched on. -/
example : ((run demoTbl (start (kubernetesBasic demoTbl (fun _ => {}))) opens).map (fun p => p.out.length)) = some 0 ∧
    ((run demoTbl (start (Filter.enable (kubernetesBasic demoTbl (fun _ => {})))) opens).map (fun p => p.out.length)) = some 1 := by
  decide +kernel

/-- The hypotheses for a program that asks for `openat`. -/
example : Known demoTbl ["openat"] ∧ (∀ nr, Asked demoTbl ["openat"] nr → nr.toNat ∈ Spec.Event.decodable) ∧
    (∀ o ∈ view Props.Print.sampleEnv opens, SaneOp o) ∧
    ((run demoTbl (start (asking demoTbl ["openat"])) opens).map (fun p => (p.out.length, p.ring.length))) = some (1, 0) ∧
    ((run demoTbl (start (asking demoTbl ["openat"])) (opens.take 2)).map (fun p => (p.out.length, p.ring.length))) = some (0, 1) := by
  have hl : Syscalls.lookup demoTbl (.str "openat") = some ⟨257, "sys_openat", "FileSystem", "Files"⟩ := by decide +kernel
  refine ⟨?_, ?_, ?_, by decide +kernel, by decide +kernel⟩
  · intro n hn
    rw [List.mem_singleton.1 hn, hl]; rfl
  · rintro nr ⟨n, s, h1, h2, rfl⟩
    rcases h1 with h1 | ⟨h1, -⟩
    · rw [List.mem_singleton.1 h1, hl] at h2
      injection h2 with h2
      subst h2
      decide +kernel
    · cases h1
  · intro o ho
    simp only [view, opens, Spec.Examples.viewOp, List.filterMap_cons, List.filterMap_nil, List.mem_cons, List.not_mem_nil,
      or_false] at ho
    rcases ho with rfl | rfl | rfl
    · trivial
    · exact ⟨rfl, fun s e => by injection e with e; rw [← e]; exact Props.Event.sampleScratch_wf⟩
    · trivial

example : (Syscalls.lookup demoTbl (.str "openat")).map (fun s => s.nr) = some 257 := by decide +kernel

end Swoll.Props.Examples
