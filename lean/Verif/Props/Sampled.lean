import Verif.Lemmas.DaemonSample
import Verif.Props.Daemon
/-
C119: sampled jobs, from the call to the user.
-/
namespace Swoll.Props.Sampled
open Swoll Swoll.Daemon Swoll.Spec.Daemon Swoll.Lemmas.Daemon
open Swoll.Event (Task Mem KEvent TraceEvent pack)
open Swoll.Hash (crcString)
open Swoll.Spec.Hub (TableOK)

variable {tbl : Syscalls.Syscalls} {crc : String → BitVec 64} {srt : List PubSub.Env → List PubSub.Env}

/-- C119: the events of a job can be listed in order. -/
theorem c119_listed (tbl : Syscalls.Syscalls) (crc : String → BitVec 64) (srt : List PubSub.Env → List PubSub.Env)
    (hist : List Op) (j : Hub.Job) :
    ∃ ks : List Nat, ks.Pairwise (· < ·) ∧ ∀ k, k ∈ ks ↔ EventOf tbl crc srt hist j k := by
  classical
  refine ⟨(List.range hist.length).filter (fun k => decide (EventOf tbl crc srt hist j k)),
    List.Pairwise.filter _ List.pairwise_lt_range, ?_⟩
  intro k
  rw [List.mem_filter, List.mem_range, decide_eq_true_eq]
  constructor
  · exact fun h => h.2
  · intro h
    have h' := h
    obtain ⟨ev, sc, hr, -⟩ := h'
    exact ⟨hr.lt, h⟩

/-- C119 (partial): take any history of the daemon, and a job that asks for sampling at rate `r`.  Let `ks` be the
positions at which the daemon hands out an event of a call the job is registered for, in order, whatever
container it comes from.  Then the users of the job are handed, once, the `r`-th of them, the `2r`-th and so on,
and none of the others.  Missing: jobs that meet another with a rate that is neither 0 nor higher, for which it
is false (`c119_violated`). -/
theorem c119_every_nth_partial (hsrt : PubSub.Node.IsSort srt) {hist : List Op} {d : Daemon}
    (h : run tbl crcString srt (fresh tbl) hist = some d) (hd : DetachOnce hist) (hs : ∀ o ∈ hist, SaneOp o)
    {j : Hub.Job} (hj : RateApart hist j) (hr : 0 < j.rate) (hid : j.id ≠ "")
    {ks : List Nat} (hord : ks.Pairwise (· < ·)) (hks : ∀ k, k ∈ ks ↔ EventOf tbl crcString srt hist j k)
    {i k : Nat} (hi : ks[i]? = some k) :
    ∃ ev c sc, Routes tbl crcString srt hist k ev ∧ ev.container = some c ∧ ev.syscall = some sc ∧
      (KeepsApart crcString (hist.take k) c sc → ∀ u ∈ users (hist.take k), u.target = .job j.id →
        Handed tbl crcString srt hist k u.token ev (if j.rate ∣ (i + 1 : Nat) then 1 else 0)) := by
  obtain ⟨ev, sc, hro, hsc, hreg⟩ := (hks k).1 (List.mem_of_getElem? hi)
  have hlt := hro.lt
  obtain ⟨o, d1, q1, q2, q3⟩ := hro
  obtain ⟨c, hc⟩ := Option.ne_none_iff_exists'.1 (msg_container q2 q3)
  refine ⟨ev, c, sc, ⟨o, d1, q1, q2, q3⟩, hc, hsc, ?_⟩
  intro ha u hu ht
  have hsplit : hist = hist.take k ++ (.route o :: hist.drop (k + 1)) := by
    have e := List.drop_eq_getElem_cons hlt
    rw [List.getElem?_eq_getElem hlt, Option.some.injEq] at q1
    rw [q1] at e
    rw [← e, List.take_append_drop]
  rw [hsplit] at h
  obtain ⟨d2, r1, r2⟩ := run_split h
  rw [q2] at r1; injection r1 with r1; subst r1
  obtain ⟨d3, out, s1, -⟩ := run_cons_some r2
  have hnd : ks.Nodup := hord.imp (fun h => Nat.ne_of_lt h)
  have hcnt := counter hj hr hnd hks k (Nat.le_of_lt hlt) q2
  rw [below_index hord hi] at hcnt
  rcases route_elim s1 with ⟨-, -, g⟩ | ⟨ev', c', sc', hub, outs, g1, g2, g3, g4, g5, g6⟩
  · have := g ev q3; rw [hc] at this; cases this
  · rw [q3] at g1; injection g1 with g1; subst g1
    rw [hc] at g2; injection g2 with g2; subst g2
    rw [hsc] at g3; injection g3 with g3; subst g3
    have key := count_sampled hsrt (detachOnce_take hd k) (rateApart_take hj k) hr q2
      (hs (.route o) (List.mem_of_getElem? q1)) g4 hreg ha hu ht hid
    rw [hcnt] at key
    refine ⟨.route o, d1, d3, out, q1, q2, s1, ?_⟩
    rw [g6]
    push_cast at key ⊢
    exact key

/-- C119: every call made while the job covers it is one of the events of the job, if its container lives when
it is decoded (the hypotheses are those of C77). -/
theorem c119_counted (hT : TableOK tbl) (hsrt : PubSub.Node.IsSort srt) {hist : List Op} {d : Daemon}
    (h : run tbl crcString srt (fresh tbl) hist = some d) (hidle : d.ring = [] ∧ d.msg = none)
    (hd : DetachOnce hist) (hs : ∀ o ∈ hist, SaneOp o) (hp : ∀ o ∈ hist, SanePairs o)
    {e : Nat} {before : List Op} {t0 t : Task} {c : Event.Call} {scratch : KEvent}
    (hm : Made hist e before t0 t c scratch)
    (hone : ∀ o ∈ (hist.take e).drop (before.length + 1), ¬ BeginsCallOf t.tgid t.pid o)
    (hns : t0.pidNs = t.pidNs) (hne : c.nr ≠ 59) (hdec : c.nr.toNat ∈ Spec.Event.decodable)
    {sc : Syscalls.Syscall} (hl : Syscalls.lookup tbl (.int c.nr.toNat) = some sc)
    {j : Hub.Job} (hc : Covers tbl before j t.pidNs.toNat c.nr.toNat)
    (hdel : ∀ o ∈ hist.drop before.length, o ≠ .delete j.id) :
    ∃ i, e < i ∧ hist[i]? = some .ingest ∧ ∀ co, containerOf (hist.take i) t.pidNs.toNat = some co →
      ∃ k ev, i < k ∧ EventOf tbl crcString srt hist j k ∧ Routes tbl crcString srt hist k ev ∧ Reports tbl t c ev := by
  obtain ⟨i, h1, h2, h3⟩ :=
    Props.Daemon.c77_complete_partial hT hsrt h hidle hd hs hp hm hone hns hne hdec hl hc hdel
  refine ⟨i, h1, h2, ?_⟩
  intro co hco
  obtain ⟨k, ev, k1, k2, k3, k4, k5, -⟩ := h3 co hco
  refine ⟨k, ev, k1, ⟨ev, sc, k2, ?_, ?_⟩, k2, k3⟩
  · rw [k3.syscall, hl]
  · have := (mem_wanting.1 k5).1
    rw [k3.spaces.1, show (sc.nr : Int) = c.nr.toNat from hT.2 _ sc hl]
    exact this

/-! ### Histories -/

open Swoll.Props.Hub (demoTbl jobA demo_ok)
open Swoll.Props.Event (sampleTask sampleScratch sampleScratch_wf sampleMem)
open Swoll.Props.PubSub (isort isort_isSort)
open Swoll.Props.Daemon (web calm)

/-- A thread calls `openat`, and the daemon hands it out. -/
def oneCall : List Op :=
  [.enter sampleTask 257 1 1 [1, 2, 3] false, .exit sampleTask 257 3 1 2 sampleMem (some sampleScratch) false,
   .ingest, .route calm]

/-- The subscriptions handed something, operation by operation. -/
def handouts (d : Daemon) : List Op → List (List Nat)
  | [] => []
  | o :: os =>
    match step demoTbl crcString isort d o with
    | none => []
    | some (d1, out) =>
      match o with
      | .route _ => out.map (·.1) :: handouts d1 os
      | _ => handouts d1 os

/-- Job `s` wants `openat` sampled at rate 2, job `a` wants it unsampled, a user attaches to each; five calls. -/
def sampledStory : List Op :=
  [.topo (some ⟨0, some web⟩), .push ⟨5, "s", 2⟩ 4026531836 257, .push jobA 4026531836 257,
   .addSyscall (.int 257) 4026531836 {}, .attachTrace "s" 7, .attachTrace "a" 9] ++
  (List.replicate 5 oneCall).flatten

/-- The user of job `s` (0) is handed the second and the fourth event, that of job `a` (1) all. -/
example : handouts (fresh demoTbl) sampledStory = [[1], [0, 1], [1], [0, 1], [1]] := by decide +kernel

/-- The story meets the hypotheses of `c119_every_nth_partial`. -/
example : (run demoTbl crcString isort (fresh demoTbl) sampledStory).isSome = true ∧ DetachOnce sampledStory ∧
    (∀ o ∈ sampledStory, SaneOp o) ∧ RateApart sampledStory ⟨5, "s", 2⟩ := by
  refine ⟨by decide +kernel, by unfold DetachOnce; decide, ?_, ?_, ?_, ?_⟩
  · intro o ho
    simp only [sampledStory, oneCall, List.replicate, List.flatten_cons, List.flatten_nil, List.cons_append, List.nil_append, List.append_nil,
      List.mem_cons, List.not_mem_nil, or_false] at ho
    have key : o = .route calm ∨ o = .exit sampleTask 257 3 1 2 sampleMem (some sampleScratch) false ∨ SaneOp o := by
      rcases ho with rfl | rfl | rfl | rfl | rfl | rfl | ho
      iterate 6 exact Or.inr (Or.inr trivial)
      rcases ho with rfl | rfl | rfl | rfl | rfl | rfl | rfl | rfl | rfl | rfl | rfl | rfl | rfl | rfl | rfl | rfl | rfl | rfl | rfl | rfl
      all_goals first | exact Or.inr (Or.inr trivial) | exact Or.inl rfl | exact Or.inr (Or.inl rfl)
    rcases key with rfl | rfl | h
    · exact fun _ _ _ => List.Perm.refl _
    · exact ⟨rfl, fun s e => by injection e with e; subst e; exact sampleScratch_wf⟩
    · exact h
  · intro j ns nr hm hor
    simp only [sampledStory, oneCall, List.replicate, List.flatten_cons, List.flatten_nil, List.cons_append, List.nil_append, List.append_nil,
      List.mem_cons, List.not_mem_nil, or_false, reduceCtorEq, false_or, Op.push.injEq] at hm
    rcases hm with ⟨rfl, -⟩ | ⟨rfl, -⟩
    · rfl
    · rcases hor with h | h
      · exact absurd h (by decide)
      · exact absurd h (by decide)
  · intro ns nr
    have : sampledStory.filterMap pushed = [⟨⟨5, "s", 2⟩, 4026531836, 257⟩, ⟨jobA, 4026531836, 257⟩] := by rfl
    rw [this, List.count_cons, List.count_cons, List.count_nil]
    have h2 : ((⟨jobA, 4026531836, 257⟩ : Spec.Hub.Reg) == ⟨⟨5, "s", 2⟩, ns, nr⟩) = false := by
      rw [beq_eq_false_iff_ne]
      intro h
      injection h with h
      exact absurd h (by decide)
    rw [h2, if_neg (by simp)]
    split <;> decide
  · intro j ns nr _ hm hne
    simp only [sampledStory, oneCall, List.replicate, List.flatten_cons, List.flatten_nil, List.cons_append, List.nil_append, List.append_nil,
      List.mem_cons, List.not_mem_nil, or_false, reduceCtorEq, false_or, Op.push.injEq] at hm
    rcases hm with ⟨rfl, -⟩ | ⟨rfl, -⟩
    · exact absurd rfl hne
    · exact Or.inl rfl

/-- C119 violated: a job with rate 3 meets one with rate 2, and its user (0) is handed every event instead of
every third. -/
theorem c119_violated :
    handouts (fresh demoTbl)
      ([.topo (some ⟨0, some web⟩), .push ⟨5, "s", 3⟩ 4026531836 257, .push ⟨6, "t", 2⟩ 4026531836 257,
        .addSyscall (.int 257) 4026531836 {}, .attachTrace "s" 7, .attachTrace "t" 9] ++
        (List.replicate 4 oneCall).flatten) = [[0], [0, 1], [0], [0, 1]] := by decide +kernel

end Swoll.Props.Sampled
