import Verif.Lemmas.Task
/-
C142 and C143: who an event says made the call, for every history of processes and namespaces.
-/
namespace Swoll.Props.Task
open Swoll Swoll.Task Swoll.Spec.Task Swoll.Lemmas.Task

/-- The probe reads at the offsets of the running kernel: as they were set, or as it was compiled. -/
structure RightOffsets (cfg : Offsets.Config) (dp dn : BitVec 32) (lay : Layout) : Prop where
  proxy : Offsets.nsproxyOffset cfg dp = lay.proxyOff
  ns : Offsets.pidnsOffset cfg dn = lay.nsOff

/-! A history to show that what follows speaks of something: init starts a container, the process of the container
starts a process with two threads, which begins a session, and a shell within it. -/

def demo : List (Nat × Act) :=
  [(0, .fork fun _ => 70), (1, .forkNewPid 4026532001 fun s => if s = 0 then 900 else 1),
   (2, .fork fun s => if s = 0 then 901 else 7), (3, .newThread fun s => if s = 0 then 902 else 8), (4, .setsid),
   (4, .fork fun s => if s = 0 then 903 else 9), (4, .switched 5 6), (4, .moveOther 21 22 23 24)]

def demoWorld : World := (boot 4026531836).run demo

/-! ### C142 -/

/-- The process number an event carries is what `getpid()` says in the process that made the call, for every thread of
every process, however deep its namespace, after every history and whatever the offsets. -/
theorem c142_process_number (i : BitVec 32) (hist : List (Nat × Act)) (t : Nat) (lay : Layout) (cfg : Offsets.Config)
    (dp dn : BitVec 32) (ht : t < ((boot i).run hist).threads.length) :
    ((boot i).run hist).getpid t = some (identify cfg dp dn (((boot i).run hist).mem lay) (t + 1)).nsPid := by
  have h := wf_run (wf_boot i) hist
  generalize (boot i).run hist = w at h ht ⊢
  obtain ⟨th, hth⟩ : ∃ th, w.threads[t]? = some th := ⟨_, List.getElem?_eq_getElem ht⟩
  obtain ⟨pr, ld, h1, h2, h3, -⟩ := h.proc t th hth
  have e : (identify cfg dp dn (w.mem lay) (t + 1)).nsPid = taskTgidVnr (w.mem lay) (t + 1) := by
    unfold identify fillNamespaces
    dsimp only
    split <;> rfl
  rw [e, tgid_eq h lay hth h1]
  show ((w.threads[t]?).bind fun th => (w.procs[th.proc]?).bind fun pr => w.numberIn pr.leader th.home) = _
  simp only [hth, h1, Option.bind_some]
  obtain ⟨hm, h4, h5⟩ := h.nums _ _ h2
  have h6 := h.last _ _ h4
  have : w.numberIn pr.leader th.home ≠ none := by
    simp only [World.numberIn, h2]
    intro hn
    have hmem : ld.home ∈ ld.numbers.map (·.1) := by
      rw [h5]
      exact List.mem_of_getLast? h6
    obtain ⟨⟨a, b⟩, hx, hy⟩ := List.mem_map.mp hmem
    rw [List.lookup_eq_none_iff] at hn
    have := hn (a, b) hx
    simp only [h3] at hy
    simp [← hy] at this
  cases hx : w.numberIn pr.leader th.home with
  | none => exact absurd hx this
  | some v => rfl

example : demoWorld.threads.length = 6 ∧ demoWorld.getpid 4 = some 7 ∧ demoWorld.getpid 5 = some 9 ∧
    demoWorld.getpid 1 = some 70 := by decide +kernel

/-- The session an event carries is what `getsid(0)` says in the process that made the call: 0 if the session began
outside its namespace. -/
theorem c142_session (i : BitVec 32) (hist : List (Nat × Act)) (t : Nat) (lay : Layout) (cfg : Offsets.Config)
    (dp dn : BitVec 32) (ht : t < ((boot i).run hist).threads.length) :
    ((boot i).run hist).getsid t = some (identify cfg dp dn (((boot i).run hist).mem lay) (t + 1)).sessionId := by
  have h := wf_run (wf_boot i) hist
  generalize (boot i).run hist = w at h ht ⊢
  obtain ⟨th, hth⟩ : ∃ th, w.threads[t]? = some th := ⟨_, List.getElem?_eq_getElem ht⟩
  obtain ⟨pr, ld, h1, -, -, -⟩ := h.proc t th hth
  have e : (identify cfg dp dn (w.mem lay) (t + 1)).sessionId = taskSessionVnr (w.mem lay) (t + 1) := by
    unfold identify fillNamespaces
    dsimp only
    split <;> rfl
  rw [e, session_eq h lay hth h1]
  show ((w.threads[t]?).bind fun th => (w.procs[th.proc]?).bind fun pr =>
    some ((w.numberIn pr.session th.home).getD 0)) = _
  simp only [hth, h1, Option.bind_some]

example : demoWorld.getsid 2 = some 0 ∧ demoWorld.getsid 3 = some 7 ∧ demoWorld.getsid 5 = some 7 := by decide +kernel

theorem rd_some {α β : Type} (a : α) (f : α → β) (z : β) : rd (some a) f z = f a := rfl

theorem proxy_eq {cfg : Offsets.Config} {dp dn : BitVec 32} {lay : Layout} (ro : RightOffsets cfg dp dn lay)
    (w : World) {t : Nat} {th : Thread} (hth : w.threads[t]? = some th) :
    (w.mem lay).nsproxy (taskNsproxy cfg dp (w.mem lay) (t + 1)) =
      some ⟨4 * (t + 1), 4 * (t + 1) + 1, 4 * (t + 1) + 2, 4 * (t + 1) + 3, th.childHome + 1⟩ := by
  have : taskNsproxy cfg dp (w.mem lay) (t + 1) = t + 1 := by
    unfold taskNsproxy
    rw [task_eq w lay hth]
    simp only [ro.proxy, if_true, Option.getD_some]
  rw [this]
  show (tableAt w.threads (t + 1)).map _ = _
  simp only [tableAt, hth, Option.map_some]

theorem common_eq {cfg : Offsets.Config} {dp dn : BitVec 32} {lay : Layout} (ro : RightOffsets cfg dp dn lay)
    (w : World) {s : Nat} {sp : Space} (hs : w.spaces[s]? = some sp) :
    getPidNsCommon cfg dn (w.mem lay) (s + 1) = some sp.inum := by
  have : (w.mem lay).pidns (s + 1) = some
      ⟨sp.around.length - 1, fun off => if off = lay.nsOff then some sp.inum else lay.otherInum (s + 1) off⟩ := by
    show (tableAt w.spaces (s + 1)).map _ = _
    simp only [tableAt, hs, Option.map_some]
  unfold getPidNsCommon
  rw [this]
  simp only [ro.ns, if_true]

theorem inum_eq (w : World) (lay : Layout) {t : Nat} {th : Thread} (hth : w.threads[t]? = some th) :
    (w.mem lay).inum (4 * (t + 1)) = some th.uts ∧ (w.mem lay).inum (4 * (t + 1) + 1) = some th.mnt ∧
      (w.mem lay).inum (4 * (t + 1) + 2) = some th.ipc ∧ (w.mem lay).inum (4 * (t + 1) + 3) = some th.cgr := by
  have key : ∀ k : Nat, k < 4 → (w.mem lay).inum (4 * (t + 1) + k) =
      some (match k with | 0 => th.uts | 1 => th.mnt | 2 => th.ipc | _ => th.cgr) := by
    intro k hk
    show (tableAt w.threads ((4 * (t + 1) + k) / 4)).map _ = _
    have h1 : (4 * (t + 1) + k) / 4 = t + 1 := by omega
    have h2 : (4 * (t + 1) + k) % 4 = k := by omega
    rw [h1, h2]
    simp only [tableAt, hth, Option.map_some]
    rcases k with _ | _ | _ | _ | k <;> first | rfl | omega
  exact ⟨key 0 (by omega), key 1 (by omega), key 2 (by omega), key 3 (by omega)⟩

/-- The other namespaces and the count of switches an event carries are those of the thread that made the call. -/
theorem c142_namespaces (i : BitVec 32) (hist : List (Nat × Act)) (t : Nat) (th : Thread) (lay : Layout)
    (cfg : Offsets.Config) (dp dn : BitVec 32) (ro : RightOffsets cfg dp dn lay)
    (hth : ((boot i).run hist).threads[t]? = some th) :
    (identify cfg dp dn (((boot i).run hist).mem lay) (t + 1)).utsNs = th.uts ∧
    (identify cfg dp dn (((boot i).run hist).mem lay) (t + 1)).mntNs = th.mnt ∧
    (identify cfg dp dn (((boot i).run hist).mem lay) (t + 1)).ipcNs = th.ipc ∧
    (identify cfg dp dn (((boot i).run hist).mem lay) (t + 1)).cgrNs = th.cgr ∧
    (identify cfg dp dn (((boot i).run hist).mem lay) (t + 1)).contextSw = th.willing + th.forced := by
  generalize (boot i).run hist = w at hth ⊢
  obtain ⟨h1, h2, h3, h4⟩ := inum_eq w lay hth
  have hc : ∀ o, (fillNamespaces cfg dp dn (w.mem lay) (t + 1) o).utsNs = th.uts ∧
      (fillNamespaces cfg dp dn (w.mem lay) (t + 1) o).mntNs = th.mnt ∧
      (fillNamespaces cfg dp dn (w.mem lay) (t + 1) o).ipcNs = th.ipc ∧
      (fillNamespaces cfg dp dn (w.mem lay) (t + 1) o).cgrNs = th.cgr ∧
      (fillNamespaces cfg dp dn (w.mem lay) (t + 1) o).contextSw = o.contextSw := by
    intro o
    unfold fillNamespaces
    simp only [proxy_eq ro w hth, rd_some, h1, h2, h3, h4, Option.getD_some]
    split <;> exact ⟨rfl, rfl, rfl, rfl, rfl⟩
  obtain ⟨k1, k2, k3, k4, k5⟩ := hc (fillInit cfg dp dn (w.mem lay) (t + 1))
  refine ⟨k1, k2, k3, k4, ?_⟩
  show (fillNamespaces cfg dp dn (w.mem lay) (t + 1) (fillInit cfg dp dn (w.mem lay) (t + 1))).contextSw = _
  rw [k5]
  unfold fillInit
  rw [task_eq w lay hth]
  rfl

def demoLayout : Layout := ⟨2720, 120, fun _ _ => some 3, fun _ _ => some 17⟩

example : RightOffsets (GoMap.set (GoMap.set [] Offsets.nsProxy 2720) Offsets.pidNSCommon 120) 0 0 demoLayout ∧
    RightOffsets [] 2720 120 demoLayout := ⟨⟨rfl, rfl⟩, ⟨rfl, rfl⟩⟩

example : (demoWorld.threads[4]?).map (fun th => (th.uts, th.mnt, th.ipc, th.cgr, th.willing + th.forced)) =
    some (21, 22, 23, 24, 11) := by decide +kernel

/-! ### C143 -/

/-- What the pid namespace of an event is: that of the children of the thread. -/
theorem pidNs_eq {cfg : Offsets.Config} {dp dn : BitVec 32} {lay : Layout} (ro : RightOffsets cfg dp dn lay)
    (w : World) {t : Nat} {th : Thread} (hth : w.threads[t]? = some th) {sp : Space}
    (hs : w.spaces[th.childHome]? = some sp) :
    (identify cfg dp dn (w.mem lay) (t + 1)).pidNs = sp.inum ∧
      taskPidNamespace cfg dp dn (w.mem lay) (t + 1) = sp.inum := by
  constructor
  · unfold identify fillNamespaces
    simp only [proxy_eq ro w hth, rd_some, common_eq ro w hs]
  · unfold taskPidNamespace
    simp only [proxy_eq ro w hth, rd_some, common_eq ro w hs]

/-- A thread that has moved nowhere will have its children where it lives. -/
theorem unmoved (hist : List (Nat × Act)) : ∀ (w : World), WF w → ∀ t,
    (∀ x ∈ hist, ¬ (x.1 = t ∧ x.2.moves = true)) →
    (∀ th, w.threads[t]? = some th → th.childHome = th.home) →
    ∀ th, (w.run hist).threads[t]? = some th → th.childHome = th.home := by
  induction hist with
  | nil => intro w _ t _ h th hth; exact h th hth
  | cons x xs ih =>
    intro w hw t hm h
    refine ih (w.act x.1 x.2) (wf_act hw _ _) t (fun y hy => hm y (List.mem_cons_of_mem _ hy)) ?_
    have hx := hm x List.mem_cons_self
    obtain ⟨u, a⟩ := x
    intro th hth
    dsimp only at hth hx
    unfold World.act at hth
    cases hu : w.threads[u]? with
    | none => simp only [hu] at hth; exact h th hth
    | some uh =>
      obtain ⟨sc, hsc⟩ := hw.child u uh hu
      obtain ⟨sh, hsh, -⟩ := hw.nums u uh hu
      obtain ⟨pr, ld, hpr, -, -, -⟩ := hw.proc u uh hu
      simp only [hu] at hth
      cases a with
      | fork nrs =>
        simp only [hsc, hpr] at hth
        rcases get_snoc hth with hth | ⟨rfl, rfl⟩
        · exact h th hth
        · rfl
      | forkNewPid inum nrs =>
        simp only [hsc, hpr] at hth
        by_cases e : uh.childHome = uh.home
        · rw [if_pos e] at hth
          rcases get_snoc hth with hth | ⟨rfl, rfl⟩
          · exact h th hth
          · rfl
        · rw [if_neg e] at hth; exact h th hth
      | newThread nrs =>
        simp only [hsh] at hth
        by_cases e : uh.childHome = uh.home
        · rw [if_pos e] at hth
          rcases get_snoc hth with hth | ⟨rfl, rfl⟩
          · exact h th hth
          · exact e
        · rw [if_neg e] at hth; exact h th hth
      | unshareNewPid inum =>
        simp only [hsh] at hth
        by_cases e : uh.childHome = uh.home
        · rw [if_pos e] at hth
          rcases get_set hth with ⟨rfl, -, -⟩ | ⟨-, hth⟩
          · exact absurd ⟨rfl, rfl⟩ hx
          · exact h th hth
        · rw [if_neg e] at hth; exact h th hth
      | setnsPid s =>
        cases hs : w.spaces[s]? with
        | none => simp only [hs] at hth; exact h th hth
        | some sp =>
          simp only [hs] at hth
          by_cases e : uh.home ∈ sp.around
          · rw [if_pos e] at hth
            rcases get_set hth with ⟨rfl, -, -⟩ | ⟨-, hth⟩
            · exact absurd ⟨rfl, rfl⟩ hx
            · exact h th hth
          · rw [if_neg e] at hth; exact h th hth
      | setsid => simp only [hpr] at hth; exact h th hth
      | moveOther a b c d =>
        rcases get_set hth with ⟨rfl, rfl, -⟩ | ⟨-, hth⟩
        · exact h uh hu
        · exact h th hth
      | switched a b =>
        rcases get_set hth with ⟨rfl, rfl, -⟩ | ⟨-, hth⟩
        · exact h uh hu
        · exact h th hth

/-- Part of C143: the events of a thread carry the pid namespace it lives in, and the rules and the counts go by that
namespace, as long as the thread itself has not called `unshare` or `setns` for pid namespaces. What its parents and its
children called does not matter. Missing: threads that called one of the two, see `c143_unshare_violated` and
`c143_setns_violated`. -/
theorem c143_pid_namespace_partial (i : BitVec 32) (hist : List (Nat × Act)) (t : Nat) (lay : Layout)
    (cfg : Offsets.Config) (dp dn : BitVec 32) (ro : RightOffsets cfg dp dn lay)
    (ht : t < ((boot i).run hist).threads.length) (hm : ∀ x ∈ hist, ¬ (x.1 = t ∧ x.2.moves = true)) :
    ((boot i).run hist).ownNs t = some (identify cfg dp dn (((boot i).run hist).mem lay) (t + 1)).pidNs ∧
    ((boot i).run hist).ownNs t = some (taskPidNamespace cfg dp dn (((boot i).run hist).mem lay) (t + 1)) := by
  have h := wf_run (wf_boot i) hist
  have hc := unmoved hist (boot i) (wf_boot i) t hm (by
    intro th hth
    cases t with
    | zero => simp [boot] at hth; rw [← hth]
    | succ n => simp [boot] at hth)
  generalize (boot i).run hist = w at h ht hc ⊢
  obtain ⟨th, hth⟩ : ∃ th, w.threads[t]? = some th := ⟨_, List.getElem?_eq_getElem ht⟩
  obtain ⟨sp, hs, -⟩ := h.nums t th hth
  have hs' := hs
  rw [← hc th hth] at hs'
  obtain ⟨k1, k2⟩ := pidNs_eq ro w hth hs'
  have : w.ownNs t = some sp.inum := by
    show ((w.threads[t]?).bind fun th => (w.spaces[th.home]?).bind fun sp => some sp.inum) = _
    simp only [hth, hs, Option.bind_some]
  rw [this, k1, k2]
  exact ⟨rfl, rfl⟩

example : (∀ x ∈ demo, ¬ (x.1 = 5 ∧ x.2.moves = true)) ∧ demoWorld.ownNs 5 = some 4026532001 ∧
    demoWorld.ownNs 1 = some 4026531836 := by
  refine ⟨?_, by decide +kernel, by decide +kernel⟩
  intro x hx h
  simp [demo] at hx
  rcases hx with rfl | rfl | rfl | rfl | rfl | rfl | rfl | rfl <;> simp [Act.moves] at h

/-- The full claim fails: a thread that calls `unshare(CLONE_NEWPID)` goes on living where it lived, and yet from that
call on - the event of the call itself included - its events carry the namespace it has just made, which holds nobody
yet, and the rules go by it. -/
theorem c143_unshare_violated (i : BitVec 32) (hist : List (Nat × Act)) (t : Nat) (lay : Layout) (cfg : Offsets.Config)
    (dp dn : BitVec 32) (ro : RightOffsets cfg dp dn lay) (ht : t < ((boot i).run hist).threads.length)
    (hm : ∀ x ∈ hist, ¬ (x.1 = t ∧ x.2.moves = true)) (new : BitVec 32)
    (fresh : ((boot i).run hist).ownNs t ≠ some new) :
    ((boot i).run hist |>.act t (.unshareNewPid new)).ownNs t = ((boot i).run hist).ownNs t ∧
    ((boot i).run hist |>.act t (.unshareNewPid new)).getpid t = ((boot i).run hist).getpid t ∧
    (identify cfg dp dn (((boot i).run hist |>.act t (.unshareNewPid new)).mem lay) (t + 1)).pidNs = new ∧
    taskPidNamespace cfg dp dn (((boot i).run hist |>.act t (.unshareNewPid new)).mem lay) (t + 1) = new ∧
    ((boot i).run hist |>.act t (.unshareNewPid new)).ownNs t ≠
      some (identify cfg dp dn (((boot i).run hist |>.act t (.unshareNewPid new)).mem lay) (t + 1)).pidNs := by
  have h := wf_run (wf_boot i) hist
  have hc := unmoved hist (boot i) (wf_boot i) t hm (by
    intro th hth
    cases t with
    | zero => simp [boot] at hth; rw [← hth]
    | succ n => simp [boot] at hth)
  generalize (boot i).run hist = w at h ht hc fresh ⊢
  obtain ⟨th, hth⟩ : ∃ th, w.threads[t]? = some th := ⟨_, List.getElem?_eq_getElem ht⟩
  obtain ⟨sp, hs, -⟩ := h.nums t th hth
  have hc' := hc th hth
  have hw : w.act t (.unshareNewPid new) = { w with
      spaces := w.spaces ++ [w.inside sp new]
      threads := w.threads.set t { th with childHome := w.spaces.length } } := by
    unfold World.act
    simp only [hth, hs]
    rw [if_pos hc']
  rw [hw]
  have hth' : (w.threads.set t { th with childHome := w.spaces.length })[t]? =
      some { th with childHome := w.spaces.length } := by
    rw [List.getElem?_set, if_pos rfl, if_pos ht]
  have own : w.ownNs t = some sp.inum := by
    show ((w.threads[t]?).bind fun th => (w.spaces[th.home]?).bind fun sp => some sp.inum) = _
    simp only [hth, hs, Option.bind_some]
  have own' : World.ownNs { w with
      spaces := w.spaces ++ [w.inside sp new]
      threads := w.threads.set t { th with childHome := w.spaces.length } } t = some sp.inum := by
    show (((w.threads.set t { th with childHome := w.spaces.length })[t]?).bind fun th =>
      ((w.spaces ++ [w.inside sp new])[th.home]?).bind fun sp => some sp.inum) = _
    simp only [hth', Option.bind_some, get_app [w.inside sp new] hs]
  obtain ⟨k1, k2⟩ := pidNs_eq ro { w with
      spaces := w.spaces ++ [w.inside sp new]
      threads := w.threads.set t { th with childHome := w.spaces.length } } hth' (get_len _ _)
  refine ⟨by rw [own, own'], ?_, k1, k2, ?_⟩
  · have num : ∀ u s, World.numberIn { w with
        spaces := w.spaces ++ [w.inside sp new]
        threads := w.threads.set t { th with childHome := w.spaces.length } } u s = w.numberIn u s := by
      intro u s
      unfold World.numberIn
      dsimp only
      rw [List.getElem?_set]
      by_cases e : t = u
      · subst e
        rw [if_pos rfl, if_pos ht, hth]
      · rw [if_neg e]
    show (((w.threads.set t { th with childHome := w.spaces.length })[t]?).bind fun th =>
      (w.procs[th.proc]?).bind fun pr => World.numberIn _ pr.leader th.home) =
      ((w.threads[t]?).bind fun th => (w.procs[th.proc]?).bind fun pr => w.numberIn pr.leader th.home)
    simp only [hth', hth, Option.bind_some, num]
  · rw [own', k1]
    rw [own] at fresh
    exact fresh

example : demoWorld.ownNs 5 ≠ some 4026532999 := by decide +kernel

/-- The full claim fails: a thread that calls `setns` for the pid namespace of a container below its own goes on living
where it lived, and its events are those of the container. -/
theorem c143_setns_violated : ∃ (i : BitVec 32) (hist : List (Nat × Act)) (t : Nat),
    ∀ (lay : Layout) (cfg : Offsets.Config) (dp dn : BitVec 32), RightOffsets cfg dp dn lay →
      ((boot i).run hist).ownNs t = some 4026531836 ∧
      (identify cfg dp dn (((boot i).run hist).mem lay) (t + 1)).pidNs = 4026532001 := by
  refine ⟨4026531836, demo ++ [(1, .setnsPid 1)], 1, ?_⟩
  intro lay cfg dp dn ro
  refine ⟨by decide +kernel, ?_⟩
  have h1 : (((boot 4026531836).run (demo ++ [(1, .setnsPid 1)])).threads[1]?).map (·.childHome) = some 1 := by
    decide +kernel
  have h2 : (((boot 4026531836).run (demo ++ [(1, .setnsPid 1)])).spaces[1]?).map (·.inum) = some 4026532001 := by
    decide +kernel
  generalize (boot 4026531836).run (demo ++ [(1, .setnsPid 1)]) = w at h1 h2 ⊢
  cases hth : w.threads[1]? with
  | none => rw [hth] at h1; cases h1
  | some th =>
    rw [hth] at h1
    simp only [Option.map_some, Option.some.injEq] at h1
    cases hs : w.spaces[1]? with
    | none => rw [hs] at h2; cases h2
    | some sp =>
      rw [hs] at h2
      simp only [Option.map_some, Option.some.injEq] at h2
      rw [(pidNs_eq ro w hth (by rw [h1]; exact hs)).1, h2]

/-- If the namespace cannot be read, the rules go by namespace 4294967295 and the event carries namespace 0: the two never
agree. -/
theorem c143_unreadable_violated (m : Mem) (t : Addr) (cfg : Offsets.Config) (dp dn : BitVec 32)
    (h : ∀ a, getPidNsCommon cfg dn m a = none) :
    taskPidNamespace cfg dp dn m t = 4294967295 ∧ (identify cfg dp dn m t).pidNs = 0 := by
  constructor
  · unfold taskPidNamespace
    simp only [h]
    rfl
  · unfold identify fillInit fillNamespaces
    simp only [h]

example : ∀ a, getPidNsCommon [] 120 ⟨fun _ => none, fun _ => none, fun _ => none, fun _ => none, fun _ => none⟩ a = none :=
  fun _ => rfl

end Swoll.Props.Task
