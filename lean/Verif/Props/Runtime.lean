import Verif.Lemmas.FlagNames
import Verif.Spec.Runtime
import Verif.Lemmas.Json
import Verif.Lemmas.JsonSound
import Verif.Lemmas.Flags
import Verif.Props.Task
/-
C160: a container is known by the namespace its calls are reported under.
-/
namespace Swoll.Props.Runtime
open Swoll Swoll.Runtime Swoll.Spec.Runtime
open Swoll.Json (Str Json)
open Swoll.Topology (Container CriContainer)
open Swoll.Task (identify taskPidNamespace)
open Swoll.Spec.Task (World Thread Space boot Layout Act)

/-! ### The process -/

theorem lastOf_split {before after : List (Str × Json)} {k : Str} {v : Json} (h : ∀ m ∈ after, m.1 ≠ k) :
    lastOf (before ++ (k, v) :: after) k = some v := by
  unfold lastOf
  have e : after.filter (fun m => decide (m.1 = k)) = [] := List.filter_eq_nil_iff.2 (by simpa using h)
  rw [List.filter_append, List.filter_cons_of_pos (by simp), e]
  simp

theorem tells_info {status : Option (GoMap Str Str)} {v : Json} (h : Tells status v) : ∃ raw ms, status = some raw ∧
    info ((GoMap.get raw "info".toList).getD []) = some ms ∧ lastOf ms "pid".toList = some v := by
  obtain ⟨raw, w, t, w', before, after, h1, h2, h3, h4, h5, h6⟩ := h
  refine ⟨raw, _, h1, ?_, lastOf_split (before := before) h6⟩
  unfold info
  rw [h2, Option.getD_some, Lemmas.Json.only_says h3 h5 h4]

/-- C160: the number of the process is the one that the runtime gives, in whatever way it writes its JSON. -/
theorem c160_process (other : Str → Option Int) {status : Option (GoMap Str Str)} {n : Nat} (hn : n < 2 ^ 53)
    (h : Tells status (.num (decimal n))) : getContainerPid other status = .pid n := by
  obtain ⟨raw, ms, rfl, h2, h3⟩ := tells_info h
  unfold getContainerPid
  dsimp only
  rw [h2]
  dsimp only
  rw [h3]
  dsimp only
  unfold number decimal
  rw [Lemmas.Flags.digitsVal_digits]
  simp only [hn, if_true]

/-! ### The file -/

theorem split_plain : ∀ {s : Str}, '/' ∉ s → split s = [s]
  | [], _ => rfl
  | c :: s, h => by
    unfold split
    rw [if_neg (fun e => h (by rw [e]; simp)), split_plain fun hs => h (by simp [hs])]

theorem split_slash : ∀ {s : Str} (r : Str), '/' ∉ s → split (s ++ '/' :: r) = s :: split r
  | [], r, _ => by rw [List.nil_append, split, if_pos rfl]
  | c :: s, r, h => by
    rw [List.cons_append, split, if_neg (fun e => h (by rw [e]; simp)), split_slash r fun hs => h (by simp [hs])]

theorem split_names : ∀ (parts : List Str) {s : Str}, '/' ∉ s → (∀ p ∈ parts, '/' ∉ p) → split (s ++ parts.flatMap ('/' :: ·)) = s :: parts
  | [], s, h, _ => by simpa using split_plain h
  | p :: ps, s, h, hp => by
    rw [List.flatMap_cons, List.cons_append, split_slash _ h, split_names ps (hp p (by simp)) fun q hq => hp q (by simp [hq])]

theorem parts_eq {rooted : Bool} : ∀ (parts acc : List Str), (∀ p ∈ parts, p ≠ ['.', '.']) →
    parts.foldl (part rooted) acc = acc ++ parts.filter (fun s => s ≠ [] ∧ s ≠ ['.'])
  | [], acc, _ => by simp
  | p :: ps, acc, h => by
    rw [List.foldl_cons, parts_eq ps _ fun q hq => h q (by simp [hq])]
    unfold part
    by_cases e : p = [] ∨ p = ['.']
    · rw [if_pos e, List.filter_cons_of_neg (by rcases e with e | e <;> simp [e])]
    · rw [if_neg e, if_neg (h p (by simp)), List.filter_cons_of_pos (by simpa [not_or] using e), List.append_assoc]
      rfl

theorem slashed_file : ∀ (l : List Str), l ≠ [] → '/' :: slashed l = file l
  | [], h => absurd rfl h
  | [s], _ => by simp [slashed, file]
  | s :: t :: l, _ => by
    have := slashed_file (t :: l) (by simp)
    unfold file at this ⊢
    rw [List.flatMap_cons, ← this]
    rfl

theorem digits_plain (n : Nat) : '/' ∉ Flags.digits n ∧ Flags.digits n ≠ [] ∧ Flags.digits n ≠ ['.'] ∧ Flags.digits n ≠ ['.', '.'] := by
  have h := Lemmas.Flags.digits_all n
  have h0 : Flags.digits n ≠ [] := by
    unfold Flags.digits
    split <;> simp
  refine ⟨fun hc => absurd (h _ hc) (by decide), h0, fun e => ?_, fun e => ?_⟩
  · rw [e] at h; exact absurd (h '.' (by simp)) (by decide)
  · rw [e] at h; exact absurd (h '.' (by simp)) (by decide)

/-- C160: the file that is looked at is the one of the process and of the kind, below the directory that was given, however it was
written. -/
theorem c160_file {root : Str} {dirs : List Str} (h : Names root dirs) (n : Nat) {t : Str} (ht : '/' ∉ t ∧ t ≠ [] ∧ t ≠ ".".toList ∧ t ≠ "..".toList) :
    nsFile root n t = file (dirs ++ ["proc".toList, decimal n, "ns".toList, t]) := by
  obtain ⟨parts, rfl, h1, rfl⟩ := h
  obtain ⟨t1, t2, t3, t4⟩ := ht
  have hi : Flags.itoa (n : Int) = Flags.digits n := by unfold Flags.itoa; rw [if_neg (by omega)]; rfl
  obtain ⟨d1, d2, d3, d4⟩ := digits_plain n
  have hall : ∀ p ∈ parts ++ ["proc".toList, Flags.digits n, "ns".toList, t], '/' ∉ p ∧ p ≠ ['.', '.'] := by
    intro p hp
    rcases List.mem_append.1 hp with hp | hp
    · exact h1 p hp
    · simp only [List.mem_cons, List.not_mem_nil, or_false] at hp
      rcases hp with rfl | rfl | rfl | rfl
      · exact ⟨by decide, by decide⟩
      · exact ⟨d1, d4⟩
      · exact ⟨by decide, by decide⟩
      · exact ⟨t1, t4⟩
  have key : ∀ q : List Str, (∀ p ∈ q, '/' ∉ p ∧ p ≠ ['.', '.']) → q.filter (fun s => s ≠ [] ∧ s ≠ ['.']) ≠ [] → q ≠ [] →
      clean (file q) = file (q.filter (fun s => s ≠ [] ∧ s ≠ ['.'])) := by
    intro q hq hne hq0
    have hs : split (file q) = [] :: q := by
      have := split_names q (s := []) (by simp) fun p hp => (hq p hp).1
      rwa [List.nil_append] at this
    have hr : (file q).head? = some '/' := by
      cases q with
      | nil => exact absurd rfl hq0
      | cons a l => rfl
    unfold clean
    rw [hr, hs]
    simp only [beq_self_eq_true, if_true]
    rw [List.foldl_cons, show part true [] [] = [] from rfl, parts_eq _ _ fun p hp => (hq p hp).2, List.nil_append]
    exact slashed_file _ hne
  have hf : ∀ q : List Str, (q ++ ["proc".toList, Flags.digits n, "ns".toList, t]).filter (fun s => s ≠ [] ∧ s ≠ ['.']) =
      q.filter (fun s => s ≠ [] ∧ s ≠ ['.']) ++ ["proc".toList, Flags.digits n, "ns".toList, t] := by
    intro q
    rw [List.filter_append]
    congr 1
    rw [List.filter_eq_self]
    intro p hp
    simp only [List.mem_cons, List.not_mem_nil, or_false] at hp
    rcases hp with rfl | rfl | rfl | rfl
    · decide
    · simpa using ⟨d2, d3⟩
    · decide
    · simpa using ⟨t2, t3⟩
  unfold nsFile join decimal
  rw [hi]
  by_cases hp : parts = []
  · subst hp
    show clean (slashed ["/proc".toList, Flags.digits n, "ns".toList, t]) = file ["proc".toList, Flags.digits n, "ns".toList, t]
    have e : slashed ["/proc".toList, Flags.digits n, "ns".toList, t] = file (["proc".toList, Flags.digits n, "ns".toList, t]) := by
      rw [← slashed_file _ (by simp)]
      rfl
    rw [e, key _ (by simpa using hall) (by have := hf []; rw [List.nil_append] at this; rw [this]; simp) (by simp)]
    have := hf []
    rw [List.nil_append] at this
    rw [this]
    rfl
  · have hne : parts.flatMap ('/' :: ·) ≠ [] := by
      cases parts with
      | nil => exact absurd rfl hp
      | cons a l => simp
    rw [List.dropWhile_cons_of_neg (by simpa using hne)]
    show clean (slashed [parts.flatMap ('/' :: ·), "/proc".toList, Flags.digits n, "ns".toList, t]) = _
    have e : slashed [parts.flatMap ('/' :: ·), "/proc".toList, Flags.digits n, "ns".toList, t] =
        file ((parts ++ [[]]) ++ ["proc".toList, Flags.digits n, "ns".toList, t]) := by
      unfold file
      rw [List.flatMap_append, List.flatMap_append]
      simp [slashed]
    rw [e, key _ ?_ (by rw [hf]; simp) (by simp), hf, List.filter_append]
    · simp
    · intro p hp
      rcases List.mem_append.1 hp with hp | hp
      · rcases List.mem_append.1 hp with hp | hp
        · exact hall p (List.mem_append_left _ hp)
        · rw [List.mem_singleton.1 hp]; exact ⟨by simp, by simp⟩
      · exact hall p (List.mem_append_right _ hp)

/-! ### The list -/

/-- Is the container passed over, because a pod is asked for and it is of another one or of none? -/
def passed (m : Option (String × String)) (c : Listed) : Bool := match m with
  | some (p, n) => ((GoMap.get c.labels "io.kubernetes.pod.name").getD "" == "" || (GoMap.get c.labels "io.kubernetes.pod.namespace").getD "" == "") ||
      (p != (GoMap.get c.labels "io.kubernetes.pod.name").getD "" || n != (GoMap.get c.labels "io.kubernetes.pod.namespace").getD "")
  | none => false

theorem criOne_eq (other : Str → Option Int) (fs : Str → Option (BitVec 64)) (root : Str) (m : Option (String × String)) (c : Listed)
    (hs : passed m c = false) : Topology.criOne m (ofListed other fs root c) = (match getContainerPid other c.status with
    | .pid pid => (getPidNamespace fs root pid).map fun pidns => ⟨c.id, (GoMap.get c.labels "io.kubernetes.pod.name").getD "", "",
        (GoMap.get c.labels "io.kubernetes.container.name").getD "",
        c.image, (GoMap.get c.labels "io.kubernetes.pod.namespace").getD "", some c.labels, pid, pidns⟩
    | _ => none) := by
  have key : Topology.criOne m (ofListed other fs root c) = (match (ofListed other fs root c).pid with
    | none => none
    | some pid => match (ofListed other fs root c).pidns with
      | none => none
      | some pidns => some ⟨c.id, (GoMap.get c.labels "io.kubernetes.pod.name").getD "", "", (GoMap.get c.labels "io.kubernetes.container.name").getD "",
          c.image, (GoMap.get c.labels "io.kubernetes.pod.namespace").getD "", some c.labels, pid, pidns⟩) := by
    cases m with
    | none => rfl
    | some x =>
      obtain ⟨p, n⟩ := x
      unfold passed at hs
      unfold Topology.criOne Topology.label
      dsimp only [ofListed] at hs ⊢
      rw [hs]
      rfl
  rw [key]
  unfold ofListed
  dsimp only
  cases hg : getContainerPid other c.status with
  | crash => rfl
  | err => rfl
  | pid n =>
    dsimp only [Option.bind_some]
    cases hn : getPidNamespace fs root n <;> rfl

theorem round_eq (other : Str → Option Int) (fs : Str → Option (BitVec 64)) (root : Str) (m : Option (String × String)) (c : Listed) :
    round other fs root m c = if !passed m c && decide (getContainerPid other c.status = .crash) then none
      else some (Topology.criOne m (ofListed other fs root c)) := by
  by_cases hs : passed m c = true
  · rw [hs]
    cases m with
    | none => cases hs
    | some x => 
      obtain ⟨p, n⟩ := x
      unfold passed at hs
      unfold round Topology.criOne Topology.label ofListed
      dsimp only at hs ⊢
      rw [if_pos hs, if_pos hs]
      rfl
  rw [Bool.not_eq_true] at hs
  rw [hs]
  have key : round other fs root m c = (match getContainerPid other c.status with
    | .crash => none
    | .err => some none
    | .pid pid => match getPidNamespace fs root pid with
      | none => some none
      | some pidns => some (some ⟨c.id, (GoMap.get c.labels "io.kubernetes.pod.name").getD "", "", (GoMap.get c.labels "io.kubernetes.container.name").getD "",
          c.image, (GoMap.get c.labels "io.kubernetes.pod.namespace").getD "", some c.labels, pid, pidns⟩)) := by
    cases m with
    | none => rfl
    | some x =>
      obtain ⟨p, n⟩ := x
      unfold passed at hs
      unfold round
      dsimp only at hs ⊢
      rw [hs]
      rfl
  rw [key, criOne_eq other fs root m c hs]
  cases hg : getContainerPid other c.status with
  | crash => simp
  | err => simp
  | pid n => cases hn : getPidNamespace fs root n <;> simp [hn]

/-- C160: a listing fails just if the status of one of the containers asked for has something else than a number for the process;
otherwise it has one entry for each container whose process and namespace are found, and the others make no difference. -/
theorem containers_eq (other : Str → Option Int) (fs : Str → Option (BitVec 64)) (root : Str) (m : Option (String × String)) :
    ∀ l : List Listed, containers other fs root m l = if l.any (fun c => !passed m c && decide (getContainerPid other c.status = .crash)) then none
      else some ((l.map (ofListed other fs root)).filterMap (Topology.criOne m))
  | [] => rfl
  | c :: cs => by
    unfold containers
    rw [round_eq, containers_eq other fs root m cs, List.any_cons]
    by_cases h : (!passed m c && decide (getContainerPid other c.status = .crash)) = true
    · rw [if_pos h, h]; rfl
    · rw [Bool.not_eq_true] at h
      rw [h]
      simp only [Bool.false_eq_true, if_false, Bool.false_or]
      split
      · rfl
      · simp only [Option.map_some, List.map_cons, List.filterMap_cons]
        cases Topology.criOne m (ofListed other fs root c) <;> rfl

theorem asked_passed {m : Option (String × String)} {c : Listed} (h : Asked m c) : passed m c = false := by
  unfold passed
  cases m with
  | none => rfl
  | some x =>
    obtain ⟨p, n⟩ := x
    obtain ⟨h1, h2, h3, h4⟩ := h p n rfl
    simp [h1, h2, h3, h4]

/-- C160: a listing that comes back has just the containers that the observer is proved to handle (C22, C122): each with the process
that its status gives, and the namespace in the file of that process. -/
theorem c160_listing (other : Str → Option Int) (fs : Str → Option (BitVec 64)) (root : Str) (m : Option (String × String)) (l : List Listed)
    {cs : List Container} (h : containers other fs root m l = some cs) :
    Topology.criContainers m (some (l.map (ofListed other fs root))) = some cs := by
  rw [containers_eq] at h
  split at h
  · cases h
  · rw [← h]; rfl

/-- C160 fails if the runtime gives a process in any other way than as a number, whatever the other containers: the program ends. -/
theorem c160_crash_violated (other : Str → Option Int) (fs : Str → Option (BitVec 64)) (root : Str) (m : Option (String × String)) (l : List Listed)
    (c : Listed) (hc : c ∈ l) (ha : Asked m c) {v : Json} (hv : Tells c.status v) (hn : ∀ t, v ≠ .num t) :
    containers other fs root m l = none := by
  rw [containers_eq, if_pos]
  refine List.any_eq_true.2 ⟨c, hc, ?_⟩
  rw [asked_passed ha]
  obtain ⟨raw, ms, h1, h2, h3⟩ := tells_info hv
  have : getContainerPid other c.status = .crash := by
    rw [h1]
    unfold getContainerPid
    dsimp only
    rw [h2]
    dsimp only
    rw [h3]
    cases v with
    | num t => exact absurd rfl (hn t)
    | _ => rfl
  simp [this]

/-! ### The container and its calls -/

theorem ino_eq (x : BitVec 32) : (x.setWidth 64).toInt = (x.toNat : Int) := by
  have h := x.isLt
  rw [BitVec.toInt_eq_toNat_cond, BitVec.toNat_setWidth]
  rw [Nat.mod_eq_of_lt (by omega)]
  rw [if_pos (by omega)]

theorem found_ns (other : Str → Option Int) {fs : Str → Option (BitVec 64)} {root : Str} {dirs : List Str} (hr : Names root dirs)
    {w : World} (hfs : ProcFS w dirs fs) {m : Option (String × String)} {c : Listed} (ha : Asked m c)
    {pr : Spec.Task.Process} (hpr : pr ∈ w.procs) {ld : Thread} (hld : w.threads[pr.leader]? = some ld) {sp : Space}
    (hsp : w.spaces[ld.childHome]? = some sp)
    {p : BitVec 32} (hp : ld.numbers.lookup 0 = some p) (ht : Tells c.status (.num (decimal p.toNat))) :
    if ∃ th ∈ w.threads, th.home = ld.childHome then
      ∃ k, Topology.criOne m (ofListed other fs root c) = some k ∧ k.id = c.id ∧ k.labels = some c.labels ∧ k.pid = p.toNat ∧
        k.pidns = (sp.inum.toNat : Int)
    else Topology.criOne m (ofListed other fs root c) = none := by
  have hpid := c160_process other (n := p.toNat) (by have := p.isLt; omega) ht
  have hfile := c160_file hr p.toNat (t := "pid_for_children".toList) ⟨by decide, by decide, by decide, by decide⟩
  have hf := hfs pr hpr ld hld p hp sp hsp
  rw [criOne_eq other fs root m c (asked_passed ha), hpid]
  dsimp only
  unfold getPidNamespace getNamespaceIno
  rw [hfile, hf]
  split
  · rw [Option.map_some, ino_eq]
    exact ⟨_, rfl, rfl, rfl, rfl, rfl⟩
  · rfl

/-- C160: whatever processes there were and whatever they did, a container whose process has been found is known by a number, and the
calls that the kernel reports under that number, and that rules for that number are about, are just those of the threads that will have
their children where the process of the container will have its own. -/
theorem c160_known (other : Str → Option Int) (fs : Str → Option (BitVec 64)) {root : Str} {dirs : List Str} (hr : Names root dirs)
    (m : Option (String × String)) (l : List Listed) {cs : List Container} (h : containers other fs root m l = some cs)
    (i : BitVec 32) (hist : List (Nat × Act)) (hfs : ProcFS ((boot i).run hist) dirs fs)
    (lay : Layout) (cfg : Offsets.Config) (dp dn : BitVec 32) (ro : Props.Task.RightOffsets cfg dp dn lay)
    (c : Listed) (hc : c ∈ l) (ha : Asked m c)
    (pr : Spec.Task.Process) (hpr : pr ∈ ((boot i).run hist).procs) (ld : Thread) (hld : ((boot i).run hist).threads[pr.leader]? = some ld)
    (p : BitVec 32) (hp : ld.numbers.lookup 0 = some p) (ht : Tells c.status (.num (decimal p.toNat)))
    (hin : ∃ th ∈ ((boot i).run hist).threads, th.home = ld.childHome) :
    ∃ k ∈ cs, ∃ n : BitVec 32, k.id = c.id ∧ k.labels = some c.labels ∧ k.pid = p.toNat ∧ k.pidns = n.toNat ∧
      ∀ (t : Nat) (th : Thread), ((boot i).run hist).threads[t]? = some th →
        (th.childHome = ld.childHome → (identify cfg dp dn (((boot i).run hist).mem lay) (t + 1)).pidNs = n ∧
          taskPidNamespace cfg dp dn (((boot i).run hist).mem lay) (t + 1) = n) ∧
        ((((boot i).run hist).spaces.map (·.inum)).Nodup → th.childHome ≠ ld.childHome →
          (identify cfg dp dn (((boot i).run hist).mem lay) (t + 1)).pidNs ≠ n ∧
            taskPidNamespace cfg dp dn (((boot i).run hist).mem lay) (t + 1) ≠ n) := by
  have hw := Lemmas.Task.wf_run (Lemmas.Task.wf_boot i) hist
  generalize (boot i).run hist = w at *
  obtain ⟨sp, hsp⟩ := hw.child _ ld hld
  have hone := found_ns other hr hfs ha hpr hld hsp hp ht
  rw [if_pos hin] at hone
  rw [containers_eq] at h
  split at h
  · cases h
  · injection h with h
    obtain ⟨k, hk, k1, k2, k3, k4⟩ := hone
    refine ⟨k, ?_, sp.inum, k1, k2, k3, k4, ?_⟩
    · rw [← h]
      exact List.mem_filterMap.2 ⟨_, List.mem_map_of_mem hc, hk⟩
    · intro t th hth
      obtain ⟨sp', hsp'⟩ := hw.child _ th hth
      obtain ⟨e1, e2⟩ := Props.Task.pidNs_eq ro w hth hsp'
      rw [e1, e2]
      refine ⟨fun hh => ?_, fun hnd hh => ?_⟩
      · rw [hh, hsp] at hsp'
        injection hsp' with hsp'
        rw [hsp']
        exact ⟨rfl, rfl⟩
      · have : sp'.inum ≠ sp.inum := by
          intro hi
          have h1 : (w.spaces.map (·.inum))[ld.childHome]? = some sp.inum := by rw [List.getElem?_map, hsp]; rfl
          have h2 : (w.spaces.map (·.inum))[th.childHome]? = some sp.inum := by rw [List.getElem?_map, hsp', ← hi]; rfl
          obtain ⟨l1, e1⟩ := List.getElem?_eq_some_iff.1 h1
          obtain ⟨l2, e2⟩ := List.getElem?_eq_some_iff.1 h2
          exact hh ((List.getElem_inj hnd).1 (e2.trans e1.symm))
        exact ⟨this, this⟩

theorem settled {i : BitVec 32} {hist : List (Nat × Act)} {t : Nat} (hm : Stayed hist t)
    {th : Thread} (hth : ((boot i).run hist).threads[t]? = some th) : th.childHome = th.home :=
  Props.Task.unmoved hist (boot i) (Lemmas.Task.wf_boot i) t hm (by
    intro th hth
    cases t with
    | zero => simp [boot] at hth; rw [← hth]
    | succ n => simp [boot] at hth) th hth

theorem set_home {l : List Thread} {t u : Nat} {th new x : Thread} (ht : l[t]? = some th) (hn : new.home = th.home) (hu : l[u]? = some x) :
    ∃ y, (l.set t new)[u]? = some y ∧ y.home = x.home := by
  rw [List.getElem?_set]
  by_cases e : t = u
  · subst e
    rw [ht] at hu
    injection hu with hu
    subst hu
    exact ⟨new, by simp [(List.getElem?_eq_some_iff.1 ht).1], hn⟩
  · rw [if_neg e]
    exact ⟨x, hu, rfl⟩

/-- Namespaces stay, and threads live where they lived. -/
theorem act_keeps (w : World) (t : Nat) (a : Act) :
    (∀ (j : Nat) sp, w.spaces[j]? = some sp → (w.act t a).spaces[j]? = some sp) ∧
    (∀ (u : Nat) x, w.threads[u]? = some x → ∃ y, (w.act t a).threads[u]? = some y ∧ y.home = x.home) := by
  have keep : (∀ (j : Nat) sp, w.spaces[j]? = some sp → w.spaces[j]? = some sp) ∧
      (∀ (u : Nat) x, w.threads[u]? = some x → ∃ y, w.threads[u]? = some y ∧ y.home = x.home) := ⟨fun _ _ h => h, fun _ x h => ⟨x, h, rfl⟩⟩
  unfold World.act
  cases hth : w.threads[t]? with
  | none => exact keep
  | some th =>
    dsimp only
    cases a with
    | fork nrs =>
      dsimp only
      split
      · exact ⟨fun _ _ h => h, fun _ x h => ⟨x, Lemmas.Task.get_app _ h, rfl⟩⟩
      · exact keep
    | forkNewPid inum nrs =>
      dsimp only
      split
      · split
        · exact ⟨fun _ _ h => Lemmas.Task.get_app _ h, fun _ x h => ⟨x, Lemmas.Task.get_app _ h, rfl⟩⟩
        · exact keep
      · exact keep
    | newThread nrs =>
      dsimp only
      split
      · split
        · exact ⟨fun _ _ h => h, fun _ x h => ⟨x, Lemmas.Task.get_app _ h, rfl⟩⟩
        · exact keep
      · exact keep
    | unshareNewPid inum =>
      dsimp only
      split
      · split
        · exact ⟨fun _ _ h => Lemmas.Task.get_app _ h, fun _ x h => set_home hth rfl h⟩
        · exact keep
      · exact keep
    | setnsPid s =>
      dsimp only
      split
      · split
        · exact ⟨fun _ _ h => h, fun _ x h => set_home hth rfl h⟩
        · exact keep
      · exact keep
    | setsid =>
      dsimp only
      split
      · exact keep
      · exact keep
    | moveOther u m i c => exact ⟨fun _ _ h => h, fun _ x h => set_home hth rfl h⟩
    | switched v f => exact ⟨fun _ _ h => h, fun _ x h => set_home hth rfl h⟩

theorem run_keeps : ∀ (hist : List (Nat × Act)) (w : World),
    (∀ (j : Nat) sp, w.spaces[j]? = some sp → (w.run hist).spaces[j]? = some sp) ∧
    (∀ (u : Nat) x, w.threads[u]? = some x → ∃ y, (w.run hist).threads[u]? = some y ∧ y.home = x.home)
  | [], w => ⟨fun _ _ h => h, fun _ x h => ⟨x, h, rfl⟩⟩
  | (t, a) :: hist, w => by
    obtain ⟨h1, h2⟩ := act_keeps w t a
    obtain ⟨h3, h4⟩ := run_keeps hist (w.act t a)
    refine ⟨fun j sp h => h3 j sp (h1 j sp h), fun u x h => ?_⟩
    obtain ⟨y, hy, e⟩ := h2 u x h
    obtain ⟨z, hz, e'⟩ := h4 u y hy
    exact ⟨z, hz, e'.trans e⟩

theorem run_append : ∀ (h1 h2 : List (Nat × Act)) (w : World), w.run (h1 ++ h2) = (w.run h1).run h2
  | [], _, _ => rfl
  | (t, a) :: h1, h2, w => run_append h1 h2 (w.act t a)

/-- A container that has been found, and the number its calls are reported under later. -/
theorem found_later (other : Str → Option Int) {fs : Str → Option (BitVec 64)} {root : Str} {dirs : List Str} (hr : Names root dirs)
    {m : Option (String × String)} {i : BitVec 32} {h1 h2 : List (Nat × Act)} (hfs : ProcFS ((boot i).run h1) dirs fs)
    {lay : Layout} {cfg : Offsets.Config} {dp dn : BitVec 32} (ro : Props.Task.RightOffsets cfg dp dn lay)
    {c : Listed} (ha : Asked m c) {home : Nat} (hc : Inhabits ((boot i).run h1) h1 c home) :
    ∃ k n sp, Topology.criOne m (ofListed other fs root c) = some k ∧ k.id = c.id ∧ k.labels = some c.labels ∧ k.pidns = (n : BitVec 32).toNat ∧
      ((boot i).run h1).spaces[home]? = some sp ∧ sp.inum = n ∧
      ∀ (t : Nat) (th : Thread), ((boot i).run (h1 ++ h2)).threads[t]? = some th → Stayed (h1 ++ h2) t →
        (th.home = home → (identify cfg dp dn (((boot i).run (h1 ++ h2)).mem lay) (t + 1)).pidNs = n ∧
          taskPidNamespace cfg dp dn (((boot i).run (h1 ++ h2)).mem lay) (t + 1) = n) ∧
        ((((boot i).run (h1 ++ h2)).spaces.map (·.inum)).Nodup → th.home ≠ home →
          (identify cfg dp dn (((boot i).run (h1 ++ h2)).mem lay) (t + 1)).pidNs ≠ n ∧
          taskPidNamespace cfg dp dn (((boot i).run (h1 ++ h2)).mem lay) (t + 1) ≠ n) := by
  obtain ⟨pr, hpr, ld, p, hld, hm, rfl, hp, ht⟩ := hc
  have e := settled hm hld
  have hw := Lemmas.Task.wf_run (Lemmas.Task.wf_boot i) h1
  obtain ⟨sp, hsp⟩ := hw.child _ ld hld
  have hone := found_ns other hr hfs ha hpr hld hsp hp ht
  rw [if_pos ⟨ld, List.mem_of_getElem? hld, e.symm⟩] at hone
  obtain ⟨k, hk, k1, k2, k3, k4⟩ := hone
  refine ⟨k, sp.inum, sp, hk, k1, k2, k4, by rw [← e]; exact hsp, rfl, ?_⟩
  have hw' := Lemmas.Task.wf_run (Lemmas.Task.wf_boot i) (h1 ++ h2)
  intro t th hth hm'
  have e' := settled hm' hth
  obtain ⟨sp', hsp'⟩ := hw'.child _ th hth
  obtain ⟨e1, e2⟩ := Props.Task.pidNs_eq ro _ hth hsp'
  rw [e1, e2]
  have hk' : ((boot i).run (h1 ++ h2)).spaces[ld.childHome]? = some sp := by
    rw [run_append]
    exact (run_keeps h2 _).1 _ _ hsp
  refine ⟨fun hh => ?_, fun hnd hh => ?_⟩
  · rw [e', hh, ← e, hk'] at hsp'
    injection hsp' with hsp'
    rw [hsp']
    exact ⟨rfl, rfl⟩
  · have : sp'.inum ≠ sp.inum := by
      intro hi
      have q1 : (((boot i).run (h1 ++ h2)).spaces.map (·.inum))[ld.childHome]? = some sp.inum := by rw [List.getElem?_map, hk']; rfl
      have q2 : (((boot i).run (h1 ++ h2)).spaces.map (·.inum))[th.childHome]? = some sp.inum := by rw [List.getElem?_map, hsp', ← hi]; rfl
      obtain ⟨l1, r1⟩ := List.getElem?_eq_some_iff.1 q1
      obtain ⟨l2, r2⟩ := List.getElem?_eq_some_iff.1 q2
      have := (List.getElem_inj hnd).1 (r2.trans r1.symm)
      rw [e, e'] at this
      exact hh this
    exact ⟨this, this⟩

/-- Part of C160: if, when it is listed, the main process of a container has not called `unshare` or `setns` for pid namespaces, the
container is known by a number, and from then on, whatever happens, the calls of each thread that has not either are reported under it
just if the thread lives in the namespace of the container. Missing: processes that have called one of the two, see
`c160_moved_violated` and `c160_unborn_violated`, and answers of the runtime that have no number, see `c160_crash_violated`. -/
theorem c160_known_partial (other : Str → Option Int) (fs : Str → Option (BitVec 64)) {root : Str} {dirs : List Str} (hr : Names root dirs)
    (m : Option (String × String)) (l : List Listed) {cs : List Container} (h : containers other fs root m l = some cs)
    (i : BitVec 32) (h1 h2 : List (Nat × Act)) (hfs : ProcFS ((boot i).run h1) dirs fs)
    (hnd : (((boot i).run (h1 ++ h2)).spaces.map (·.inum)).Nodup)
    (lay : Layout) (cfg : Offsets.Config) (dp dn : BitVec 32) (ro : Props.Task.RightOffsets cfg dp dn lay)
    (c : Listed) (hc : c ∈ l) (ha : Asked m c) (home : Nat) (hin : Inhabits ((boot i).run h1) h1 c home) :
    ∃ k ∈ cs, ∃ n : BitVec 32, k.id = c.id ∧ k.labels = some c.labels ∧ k.pidns = n.toNat ∧
      ∀ (t : Nat) (th : Thread), ((boot i).run (h1 ++ h2)).threads[t]? = some th → Stayed (h1 ++ h2) t →
        ((identify cfg dp dn (((boot i).run (h1 ++ h2)).mem lay) (t + 1)).pidNs = n ↔ th.home = home) ∧
        (taskPidNamespace cfg dp dn (((boot i).run (h1 ++ h2)).mem lay) (t + 1) = n ↔ th.home = home) := by
  obtain ⟨k, n, sp, hk, k1, k2, k4, -, -, k5⟩ := found_later other hr (h2 := h2) hfs ro ha hin
  rw [containers_eq] at h
  split at h
  · cases h
  · injection h with h
    refine ⟨k, by rw [← h]; exact List.mem_filterMap.2 ⟨_, List.mem_map_of_mem hc, hk⟩, n, k1, k2, k4, ?_⟩
    intro t th hth hm'
    obtain ⟨y, z⟩ := k5 t th hth hm'
    by_cases q : th.home = home
    · have y := y q; simp [q, y]
    · have z := z hnd q; simp [q, z]

/-- C160 fails: once the main process of a container has called `unshare` or `setns` for pid namespaces, and somebody lives where its
children are born, the calls of all the others in the container are reported under another number than that of the container. -/
theorem c160_moved_violated (other : Str → Option Int) (fs : Str → Option (BitVec 64)) {root : Str} {dirs : List Str} (hr : Names root dirs)
    (m : Option (String × String)) (l : List Listed) {cs : List Container} (h : containers other fs root m l = some cs)
    (i : BitVec 32) (hist : List (Nat × Act)) (hfs : ProcFS ((boot i).run hist) dirs fs) (hnd : (((boot i).run hist).spaces.map (·.inum)).Nodup)
    (lay : Layout) (cfg : Offsets.Config) (dp dn : BitVec 32) (ro : Props.Task.RightOffsets cfg dp dn lay)
    (c : Listed) (hc : c ∈ l) (ha : Asked m c)
    (pr : Spec.Task.Process) (hpr : pr ∈ ((boot i).run hist).procs) (ld : Thread) (hld : ((boot i).run hist).threads[pr.leader]? = some ld)
    (p : BitVec 32) (hp : ld.numbers.lookup 0 = some p) (ht : Tells c.status (.num (decimal p.toNat)))
    (hin : ∃ th ∈ ((boot i).run hist).threads, th.home = ld.childHome) (hmv : ld.childHome ≠ ld.home) :
    ∃ k ∈ cs, k.id = c.id ∧ k.labels = some c.labels ∧ k.pid = p.toNat ∧
      ∀ (t : Nat) (th : Thread), ((boot i).run hist).threads[t]? = some th → Stayed hist t → th.home = ld.home →
        ((identify cfg dp dn (((boot i).run hist).mem lay) (t + 1)).pidNs.toNat : Int) ≠ k.pidns ∧
          ((taskPidNamespace cfg dp dn (((boot i).run hist).mem lay) (t + 1)).toNat : Int) ≠ k.pidns := by
  obtain ⟨k, hk, n, k1, k2, k3, k4, k5⟩ := c160_known other fs hr m l h i hist hfs lay cfg dp dn ro c hc ha pr hpr ld hld p hp ht hin
  refine ⟨k, hk, k1, k2, k3, ?_⟩
  intro t th hth hm' hh
  obtain ⟨y, z⟩ := (k5 t th hth).2 hnd (by rw [settled hm' hth, hh]; exact Ne.symm hmv)
  rw [k4]
  exact ⟨fun e => y (BitVec.eq_of_toNat_eq (by omega)), fun e => z (BitVec.eq_of_toNat_eq (by omega))⟩

/-- C160 fails: once the main process of a container has called `unshare` for pid namespaces and nobody has been born there, the
container is not found at all; the listing is as if there were no such container. -/
theorem c160_unborn_violated (other : Str → Option Int) (fs : Str → Option (BitVec 64)) {root : Str} {dirs : List Str} (hr : Names root dirs)
    (m : Option (String × String)) (l r : List Listed) (i : BitVec 32) (hist : List (Nat × Act)) (hfs : ProcFS ((boot i).run hist) dirs fs)
    (c : Listed) (ha : Asked m c)
    (pr : Spec.Task.Process) (hpr : pr ∈ ((boot i).run hist).procs) (ld : Thread) (hld : ((boot i).run hist).threads[pr.leader]? = some ld)
    (p : BitVec 32) (hp : ld.numbers.lookup 0 = some p) (ht : Tells c.status (.num (decimal p.toNat)))
    (hin : ∀ th ∈ ((boot i).run hist).threads, th.home ≠ ld.childHome) :
    containers other fs root m (l ++ c :: r) = containers other fs root m (l ++ r) := by
  have hw := Lemmas.Task.wf_run (Lemmas.Task.wf_boot i) hist
  generalize (boot i).run hist = w at *
  obtain ⟨sp, hsp⟩ := hw.child _ ld hld
  have hone := found_ns other hr hfs ha hpr hld hsp hp ht
  rw [if_neg (fun ⟨th, h1, h2⟩ => hin th h1 h2)] at hone
  have hpid := c160_process other (n := p.toNat) (by have := p.isLt; omega) ht
  rw [containers_eq, containers_eq]
  simp [List.any_append, hone, hpid]

/-! ### Cases -/

/-- The answer of a runtime for a container whose process is 900. -/
def demoStatus : GoMap Str Str := [("info".toList, " {\"sandboxID\":\"s1\",\"pid\":900,\"removing\":false}\n".toList)]

/-- A container of the pod `web` in `shop`. -/
def demoListed : Listed :=
  ⟨"c1", "nginx", [("io.kubernetes.pod.name", "web"), ("io.kubernetes.pod.namespace", "shop"), ("io.kubernetes.container.name", "front")], some demoStatus⟩

theorem tells_of {raw : GoMap Str Str} {text : Str} {before after : List (Str × Json)} {v : Json} (h1 : GoMap.get raw "info".toList = some text)
    (h2 : ((Json.only text).elim false fun a => Lemmas.Json.same a (.obj (before ++ ("pid".toList, v) :: after))) = true)
    (h3 : ∀ m ∈ after, m.1 ≠ "pid".toList) : Tells (some raw) v := by
  have hu := Lemmas.Json.some_of_same h2
  obtain ⟨w, t, w', rfl, a, b, c⟩ := Lemmas.Json.only_iff.1 hu
  exact ⟨raw, w, t, w', before, after, rfl, h1, a, c, b, h3⟩

theorem demo_tells : Tells demoListed.status (.num (decimal 900)) :=
  tells_of (before := [("sandboxID".toList, .str "s1".toList)]) (after := [("removing".toList, .bool false)]) rfl (by decide +kernel)
    (by decide +kernel)

/-- A runtime that writes the number as a text. -/
example : Tells (some [("info".toList, "{\"pid\":\"900\"}".toList)]) (.str "900".toList) :=
  tells_of (before := []) (after := []) rfl (by decide +kernel) (by decide +kernel)

example : Asked (some ("web", "shop")) demoListed ∧ Asked none demoListed := by
  constructor
  · intro p n h; cases h; decide +kernel
  · intro p n h; cases h

example : Names "/host//./".toList ["host".toList] := ⟨["host".toList, [], ".".toList, []], by decide +kernel, by decide +kernel, by decide +kernel⟩

/-- The files of the processes of a world, mounted at a directory. -/
def demoFS (w : World) (dirs : List Str) (f : Str) : Option (BitVec 64) := w.procs.findSome? fun pr => do
  let ld ← w.threads[pr.leader]?
  let p ← ld.numbers.lookup 0
  let sp ← w.spaces[ld.childHome]?
  if f = file (dirs ++ ["proc".toList, decimal p.toNat, "ns".toList, "pid_for_children".toList]) ∧ w.threads.any (·.home == ld.childHome) then
    some (sp.inum.setWidth 64) else none

/-- Are they as they should be? -/
def fsRight (w : World) (dirs : List Str) : Bool := w.procs.all fun pr => match w.threads[pr.leader]? with
  | none => true
  | some ld => match ld.numbers.lookup 0, w.spaces[ld.childHome]? with
    | some p, some sp =>
      demoFS w dirs (file (dirs ++ ["proc".toList, decimal p.toNat, "ns".toList, "pid_for_children".toList])) ==
        (if w.threads.any (·.home == ld.childHome) then some (sp.inum.setWidth 64) else none)
    | _, _ => true

theorem demo_procFS {w : World} {dirs : List Str} (h : fsRight w dirs = true) : ProcFS w dirs (demoFS w dirs) := by
  intro pr hpr ld hld p hp sp hsp
  have := List.all_eq_true.1 h pr hpr
  simp only [hld, hp, hsp, beq_iff_eq] at this
  rw [this]
  by_cases q : ∃ th ∈ w.threads, th.home = ld.childHome
  · rw [if_pos q, if_pos]
    obtain ⟨th, h1, h2⟩ := q
    exact List.any_eq_true.2 ⟨th, h1, by simp [h2]⟩
  · rw [if_neg q, if_neg]
    intro a
    obtain ⟨th, h1, h2⟩ := List.any_eq_true.1 a
    exact q ⟨th, h1, by simpa using h2⟩

/-- The container of `Props.Task.demo`: its main process is thread 2, number 900 outside. -/
example : ProcFS Props.Task.demoWorld ["host".toList] (demoFS Props.Task.demoWorld ["host".toList]) ∧
    (Props.Task.demoWorld.spaces.map (·.inum)).Nodup ∧ (⟨2, 0⟩ : Spec.Task.Process) ∈ Props.Task.demoWorld.procs ∧
    (Props.Task.demoWorld.threads[2]?).map (fun ld => (ld.home, ld.childHome, ld.numbers.lookup 0)) = some (1, 1, some 900) ∧
    (Props.Task.demoWorld.threads.map (·.home)) = [0, 0, 1, 1, 1, 1] ∧
    containers (fun _ => none) (demoFS Props.Task.demoWorld ["host".toList]) "/host//./".toList (some ("web", "shop")) [demoListed] =
      some [⟨"c1", "web", "", "front", "nginx", "shop", some demoListed.labels, 900, 4026532001⟩] :=
  ⟨demo_procFS (by decide +kernel), by decide +kernel, by decide +kernel, by decide +kernel, by decide +kernel, by decide +kernel⟩

example : Inhabits Props.Task.demoWorld Props.Task.demo demoListed 1 := by
  have hd : ∃ ld, Props.Task.demoWorld.threads[2]? = some ld ∧ ld.home = 1 ∧ ld.numbers.lookup 0 = some 900 := by decide +kernel
  obtain ⟨ld, h1, h2, h3⟩ := hd
  refine ⟨⟨2, 0⟩, by decide +kernel, ld, 900, h1, ?_, h2, h3, demo_tells⟩
  intro x hx h
  simp [Props.Task.demo] at hx
  rcases hx with rfl | rfl | rfl | rfl | rfl | rfl | rfl | rfl <;> simp [Spec.Task.Act.moves] at h

/-- The same, once the main process has called `unshare`: first nobody is there, then somebody. -/
def movedWorld (born : Bool) : World := Props.Task.demoWorld.run
  ((2, .unshareNewPid 4026532777) :: if born then [(2, .fork fun s => if s = 0 then 950 else 1)] else [])

example : fsRight (movedWorld true) [] = true ∧ fsRight (movedWorld false) [] = true ∧ ((movedWorld true).spaces.map (·.inum)).Nodup ∧
    (movedWorld true).threads.map (fun th => (th.home, th.childHome)) = [(0, 0), (0, 0), (1, 2), (1, 1), (1, 1), (1, 1), (2, 2)] ∧
    (movedWorld false).threads.map (fun th => (th.home, th.childHome)) = [(0, 0), (0, 0), (1, 2), (1, 1), (1, 1), (1, 1)] ∧
    containers (fun _ => none) (demoFS (movedWorld true) []) "/".toList none [demoListed] =
      some [⟨"c1", "web", "", "front", "nginx", "shop", some demoListed.labels, 900, 4026532777⟩] ∧
    containers (fun _ => none) (demoFS (movedWorld false) []) "/".toList none [demoListed] = some [] :=
  ⟨by decide +kernel, by decide +kernel, by decide +kernel, by decide +kernel, by decide +kernel, by decide +kernel, by decide +kernel⟩

end Swoll.Props.Runtime
