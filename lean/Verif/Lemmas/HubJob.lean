import Verif.Lemmas.HubFilter
namespace Swoll.Lemmas.Hub
open Swoll.Filter hiding Op step run
open Swoll Swoll.Syscalls Swoll.Hub Swoll.Spec.Hub
open Swoll.Spec.Filter (scope Abs Sample)
open Swoll.Lemmas.Filter (sysKey Rel newRule_sys rel_step rel_empty sysKey_inj)

theorem run_cons (tbl : Syscalls) (h : Hub) (o : Op) (os : List Op) :
    run tbl h (o :: os) = (step tbl h o).bind (fun r => run tbl r.1 os) := by
  rw [run]
  cases step tbl h o <;> rfl

theorem run_append' (tbl : Syscalls) : ∀ (xs ys : List Op) (h : Hub),
    run tbl h (xs ++ ys) = (run tbl h xs).bind (fun h1 => run tbl h1 ys) := by
  intro xs
  induction xs with
  | nil => intro ys h; rfl
  | cons x xs ih =>
    intro ys h
    rw [List.cons_append, run_cons, run_cons]
    cases step tbl h x with
    | none => rfl
    | some r => exact ih ys r.1

theorem run_append (tbl : Syscalls) (xs ys : List Op) (h h' : Hub) (hr : run tbl h (xs ++ ys) = some h') :
    ∃ h1, run tbl h xs = some h1 ∧ run tbl h1 ys = some h' := by
  rw [run_append', Option.bind_eq_some_iff] at hr
  exact hr

theorem run_append_eq (tbl : Syscalls) (xs ys : List Op) (h h1 : Hub) (hr : run tbl h xs = some h1) :
    run tbl h (xs ++ ys) = run tbl h1 ys := by
  rw [run_append', hr]; rfl

/-- Contexts of sane pairs. -/
def Sane (R : List Ctx) : Prop := ∀ x ∈ R, SanePair x.ns x.nr

theorem scope_sane {ns : Int} (h : 0 < ns) : scope ns = some (BitVec.ofInt 32 ns) := by
  unfold scope; rw [if_neg (by omega)]

theorem ofInt_inj {a b : Int} (ha : 0 < a) (ha' : a < 2 ^ 32) (hb : 0 < b) (hb' : b < 2 ^ 32)
    (h : BitVec.ofInt 32 a = BitVec.ofInt 32 b) : a = b := by
  have := congrArg BitVec.toNat h
  rw [BitVec.toNat_ofInt, BitVec.toNat_ofInt] at this
  rw [Int.emod_eq_of_lt (by omega) (by simpa using ha'), Int.emod_eq_of_lt (by omega) (by simpa using hb')] at this
  omega

theorem ruleKey_inj {tbl : Syscalls} (hT : TableOK tbl) {a b x y : Int} (h1 : SanePair a x) (h2 : SanePair b y)
    {s : Syscall} (hl : lookup tbl (.int y) = some s) (h : ruleKey tbl a x = ruleKey tbl b y) : a = b ∧ x = y := by
  rw [ruleKey_eq, ruleKey_eq, hl] at h
  cases hx : lookup tbl (.int x) with
  | none => rw [hx] at h; cases h
  | some s' =>
    rw [hx] at h
    simp only [Option.map_some, Option.some.injEq] at h
    obtain ⟨e1, e2⟩ := sysKey_inj h
    rw [scope_sane h1.1, scope_sane h2.1] at e1
    injection e1 with e1
    refine ⟨ofInt_inj h1.1 h1.2.1 h2.1 h2.2.1 e1, ?_⟩
    have n1 := hT.2 _ _ hx
    have n2 := hT.2 _ _ hl
    have b1 := (hT.1 _ _ hx).2
    have b2 := (hT.1 _ _ hl).2
    have := congrArg BitVec.toNat e2
    rw [BitVec.toNat_ofNat, BitVec.toNat_ofNat, Nat.mod_eq_of_lt (by omega), Nat.mod_eq_of_lt (by omega)] at this
    omega

theorem swap_sane (tbl : Syscalls) {h : Hub} {R : List Ctx} (hi : Inv h R) (hs : Sane R) {rate ns nr : Int}
    (hp : SanePair ns nr) : swapSample tbl h rate ns nr = some h := by
  unfold swapSample
  rcases findLowest_spec hi nr ns with ⟨_, e⟩ | ⟨m, _, pre, post, e, _⟩
  · rw [e]
  · exfalso
    have hm : m ∈ pairOf R nr ns := by rw [e]; simp
    unfold pairOf at hm
    rw [List.mem_filter] at hm
    have h2 : m.ns = nr ∧ m.nr = ns := by simpa using hm.2
    have := (hs m hm.1).2.2
    have := hp.2.2
    omega

theorem sane_step (tbl : Syscalls) {h h' : Hub} {R : List Ctx} (hi : Inv h R) (hs : Sane R) {op : Op} (hop : SaneOp op)
    {b : Bool} {o : List Out} (hst : step tbl h op = some (h', b, o)) :
    ∃ R', Inv h' R' ∧ R'.map reg = regStep (R.map reg) op ∧ Sane R' ∧
      (∀ c ∈ R, op ≠ .delete c.job.id → c ∈ R') := by
  obtain ⟨R', hi', e, hR⟩ := inv_step tbl hi hst
  refine ⟨R', hi', e, ?_, ?_⟩
  · cases op with
    | push j ns nr =>
      obtain ⟨c, rfl⟩ := hR
      intro x hx
      rw [List.mem_append] at hx
      rcases hx with hx | hx
      · exact hs x hx
      · rw [List.mem_singleton] at hx
        subst hx
        simp [reg, regStep] at e
        rw [e.2.1, e.2.2]; exact hop
    | swap rate ns nr => subst hR; exact hs
    | filter o => subst hR; exact hs
    | delete id => subst hR; intro x hx; exact hs x (List.mem_filter.1 hx).1
    | event ev => subst hR; exact hs
  · intro c hc hne
    cases op with
    | push j ns nr => obtain ⟨d, rfl⟩ := hR; simp [hc]
    | swap rate ns nr => subst hR; exact hc
    | filter o => subst hR; exact hc
    | delete id =>
      subst hR
      rw [List.mem_filter]
      refine ⟨hc, ?_⟩
      simp only [decide_eq_true_eq]
      intro he; exact hne (by rw [he])
    | event ev => subst hR; exact hc

theorem sane_run (tbl : Syscalls) : ∀ (ops : List Op) (h h' : Hub) (R : List Ctx), Inv h R → Sane R →
    (∀ o ∈ ops, SaneOp o) → run tbl h ops = some h' →
    ∃ R', Inv h' R' ∧ R'.map reg = ops.foldl regStep (R.map reg) ∧ Sane R' ∧
      (∀ c ∈ R, (∀ o ∈ ops, o ≠ .delete c.job.id) → c ∈ R') := by
  intro ops
  induction ops with
  | nil =>
    intro h h' R hi hs _ hr
    simp only [run, Option.some.injEq] at hr; subst hr
    exact ⟨R, hi, rfl, hs, fun c hc _ => hc⟩
  | cons o os ih =>
    intro h h' R hi hs ho hr
    unfold run at hr
    cases hst : step tbl h o with
    | none => rw [hst] at hr; cases hr
    | some r =>
      obtain ⟨h1, b, out⟩ := r
      rw [hst] at hr
      obtain ⟨R1, hi1, e1, hs1, k1⟩ := sane_step tbl hi hs (ho o (by simp)) hst
      obtain ⟨R2, hi2, e2, hs2, k2⟩ := ih h1 h' R1 hi1 hs1 (fun x hx => ho x (by simp [hx])) hr
      refine ⟨R2, hi2, by rw [e2, e1]; rfl, hs2, ?_⟩
      intro c hc hno
      exact k2 c (k1 c hc (hno o (by simp))) (fun x hx => hno x (by simp [hx]))

/-- The kernel maps are always those of some enabled rule set. -/
theorem rel_hubStep (tbl : Syscalls) {h h' : Hub} {R : List Ctx} (hi : Inv h R) {op : Op} {b : Bool} {o : List Out}
    (hst : step tbl h op = some (h', b, o)) (hrel : ∃ a, Rel h.maps a ∧ a.enabled = true) :
    ∃ a, Rel h'.maps a ∧ a.enabled = true := by
  obtain ⟨a, hr, hen⟩ := hrel
  have keep : ∀ (o : Filter.Op), (a.step tbl o).1.enabled = true := by
    intro o
    cases o <;> simp only [Abs.step] <;> (repeat' split) <;> first | exact hen | rfl | (simp [Abs.setRule, hen])
  cases op with
  | push j ns nr =>
    simp only [step, Option.some.injEq, Prod.mk.injEq] at hst
    obtain ⟨rfl, _⟩ := hst
    exact ⟨a, hr, hen⟩
  | swap rate ns nr =>
    simp only [step, Option.map_eq_some_iff, Prod.mk.injEq] at hst
    obtain ⟨x, hx, rfl, _⟩ := hst
    unfold swapSample at hx
    split at hx
    · cases hx
    · injection hx with hx; subst hx; exact ⟨a, hr, hen⟩
    · split at hx
      · injection hx with hx; subst hx
        exact ⟨_, (rel_step tbl hr (.removeSyscall (.int nr) ns)).1, keep _⟩
      · injection hx with hx; subst hx; exact ⟨a, hr, hen⟩
  | filter f =>
    simp only [step, Option.some.injEq, Prod.mk.injEq] at hst
    obtain ⟨rfl, _⟩ := hst
    exact ⟨_, (rel_step tbl hr f).1, keep f⟩
  | delete id =>
    rcases delete_spec tbl hi id with ⟨_, hx⟩ | ⟨_, h1, hx, _, hmaps, _⟩
    · simp only [step, hx, Option.some.injEq, Prod.mk.injEq] at hst
      obtain ⟨rfl, _⟩ := hst
      exact ⟨a, hr, hen⟩
    · simp only [step, hx, Option.some.injEq, Prod.mk.injEq] at hst
      obtain ⟨rfl, _⟩ := hst
      rw [hmaps]
      obtain ⟨a', r, e, _⟩ := mapsAfter_rel tbl (idOf R id) R h.maps a hr
      exact ⟨a', r, by rw [e, hen]⟩
  | event e =>
    simp only [step, Option.map_eq_some_iff, Prod.mk.injEq] at hst
    obtain ⟨⟨h1, o1⟩, hx, rfl, _⟩ := hst
    rw [(handleEvent_same hi hx).maps]
    exact ⟨a, hr, hen⟩

theorem rel_newHub (tbl : Syscalls) : ∃ a, Rel (newHubMaps tbl KMaps.empty) a ∧ a.enabled = true := by
  have h1 := (rel_step tbl rel_empty (.addSyscall (.str "sys_set_tid_address") 0 {})).1
  have h2 := (rel_step tbl h1 (.addMetrics 31337 {})).1
  have h3 := (rel_step tbl h2 .enable).1
  exact ⟨_, h3, rfl⟩

theorem rel_hubRun (tbl : Syscalls) : ∀ (ops : List Op) (h h' : Hub) (R : List Ctx), Inv h R →
    (∃ a, Rel h.maps a ∧ a.enabled = true) → run tbl h ops = some h' → ∃ a, Rel h'.maps a ∧ a.enabled = true := by
  intro ops
  induction ops with
  | nil => intro h h' R _ hrel hr; simp only [run, Option.some.injEq] at hr; subst hr; exact hrel
  | cons o os ih =>
    intro h h' R hi hrel hr
    unfold run at hr
    cases hst : step tbl h o with
    | none => rw [hst] at hr; cases hr
    | some r =>
      obtain ⟨h1, b, out⟩ := r
      rw [hst] at hr
      obtain ⟨R1, hi1, _⟩ := inv_step tbl hi hst
      exact ih h1 h' R1 hi1 (rel_hubStep tbl hi hst hrel) hr

/-- Coverage along an operation. -/
theorem covered_step (tbl : Syscalls) (hT : TableOK tbl) {h h' : Hub} {R : List Ctx} (hi : Inv h R) (hs : Sane R)
    {op : Op} (hop : SaneOp op) {b : Bool} {o : List Out} (hst : step tbl h op = some (h', b, o))
    (c : Ctx) (hc : c ∈ R) (hdel : op ≠ .delete c.job.id) (s : Syscall) (hl : lookup tbl (.int c.nr) = some s)
    (hstop : ¬ Stops tbl c.ns c.nr op) {z : Bool} (hsam : z = true → ¬ Samples tbl c.ns c.nr op)
    (hcov : Covered h.maps (scope c.ns) (BitVec.ofNat 32 s.nr) z) :
    Covered h'.maps (scope c.ns) (BitVec.ofNat 32 s.nr) z := by
  have key : ∀ k ns' s', lookup tbl k = some s' → (scope ns' = scope c.ns ∧ BitVec.ofNat 32 s'.nr = BitVec.ofNat 32 s.nr) →
      ruleKey tbl ns' s'.nr = some (sysKey (scope c.ns) (BitVec.ofNat 32 s.nr)) ∧
      ruleKey tbl c.ns c.nr = some (sysKey (scope c.ns) (BitVec.ofNat 32 s.nr)) := by
    intro k ns' s' hk hx
    rw [ruleKey_eq, ruleKey_eq, hl, (hT.1 _ _ hk).1, ← hx.1, Option.map_some, Option.map_some, hx.2]
    exact ⟨rfl, rfl⟩
  cases op with
  | push j ns nr =>
    simp only [step, Option.some.injEq, Prod.mk.injEq] at hst
    obtain ⟨rfl, _⟩ := hst
    exact hcov
  | swap rate ns nr =>
    simp only [step, Option.map_eq_some_iff, Prod.mk.injEq] at hst
    obtain ⟨x, hx, rfl, _⟩ := hst
    rw [swap_sane tbl hi hs hop] at hx
    injection hx with hx; subst hx; exact hcov
  | filter f =>
    simp only [step, Option.some.injEq, Prod.mk.injEq] at hst
    obtain ⟨rfl, _⟩ := hst
    refine covered_filter tbl hcov f ?_
    cases f with
    | removeSyscall k ns' =>
      intro s' hk hx
      exact hstop ⟨s', _, hk, (key k ns' s' hk hx).1, (key k ns' s' hk hx).2⟩
    | addSampled k ns' r f =>
      intro hz s' hk hx
      exact hsam hz ⟨s', _, hk, (key k ns' s' hk hx).1, (key k ns' s' hk hx).2⟩
    | _ => trivial
  | delete id =>
    rcases delete_spec tbl hi id with ⟨_, hx⟩ | ⟨_, h1, hx, _, _, _⟩
    · simp only [step, hx, Option.some.injEq, Prod.mk.injEq] at hst
      obtain ⟨rfl, _⟩ := hst
      exact hcov
    · have hx' := hx
      simp only [step, hx, Option.some.injEq, Prod.mk.injEq] at hst
      obtain ⟨rfl, _⟩ := hst
      exact covered_delete tbl hi id hx' c.ns c.nr s hl c hc (fun e => hdel (by rw [e])) rfl rfl
        (fun x hxR hk => ruleKey_inj hT (hs x hxR) (hs c hc) hl hk) hcov
  | event e =>
    simp only [step, Option.map_eq_some_iff, Prod.mk.injEq] at hst
    obtain ⟨⟨h1, o1⟩, hx, rfl, _⟩ := hst
    rw [(handleEvent_same hi hx).maps]
    exact hcov

theorem covered_run (tbl : Syscalls) (hT : TableOK tbl) (c : Ctx) (s : Syscall) (hl : lookup tbl (.int c.nr) = some s)
    (z : Bool) : ∀ (ops : List Op) (h h' : Hub) (R : List Ctx), Inv h R → Sane R → c ∈ R →
    (∀ o ∈ ops, SaneOp o) → (∀ o ∈ ops, o ≠ .delete c.job.id) → (∀ o ∈ ops, ¬ Stops tbl c.ns c.nr o) →
    (z = true → ∀ o ∈ ops, ¬ Samples tbl c.ns c.nr o) →
    Covered h.maps (scope c.ns) (BitVec.ofNat 32 s.nr) z → run tbl h ops = some h' →
    Covered h'.maps (scope c.ns) (BitVec.ofNat 32 s.nr) z := by
  intro ops
  induction ops with
  | nil => intro h h' R _ _ _ _ _ _ _ hcov hr; simp only [run, Option.some.injEq] at hr; subst hr; exact hcov
  | cons o os ih =>
    intro h h' R hi hs hc ho hd hst hsm hcov hr
    unfold run at hr
    cases hstep : step tbl h o with
    | none => rw [hstep] at hr; cases hr
    | some r =>
      obtain ⟨h1, b, out⟩ := r
      rw [hstep] at hr
      obtain ⟨R1, hi1, _, hs1, k1⟩ := sane_step tbl hi hs (ho o (by simp)) hstep
      have := covered_step tbl hT hi hs (ho o (by simp)) hstep c hc (hd o (by simp)) s hl (hst o (by simp))
        (fun hz => hsm hz o (by simp)) hcov
      exact ih h1 h' R1 hi1 hs1 (k1 c hc (hd o (by simp))) (fun x hx => ho x (by simp [hx]))
        (fun x hx => hd x (by simp [hx])) (fun x hx => hst x (by simp [hx]))
        (fun hz x hx => hsm hz x (by simp [hx])) this hr

/-- Adding a rule covers its pair. -/
theorem covered_add (tbl : Syscalls) {m : KMaps} (hrel : ∃ a, Rel m a ∧ a.enabled = true) (ns nr : Int) (s : Syscall)
    (hl : lookup tbl (.int nr) = some s) (z : Bool) :
    Covered (Filter.step tbl m (.addSyscall (.int nr) ns {})).1 (scope ns) (BitVec.ofNat 32 s.nr) z := by
  obtain ⟨a, hr, hen⟩ := hrel
  refine ⟨_, (rel_step tbl hr _).1, ?_⟩
  unfold Abs.step
  simp only [hl]
  refine ⟨hen, ⟨0, 0⟩, ?_, fun _ => rfl⟩
  simp [Abs.setRule]

/-! ### Start callbacks -/

theorem runOps_ok (tbl : Syscalls) : ∀ (ops : List Op) (h h' : Hub), runOps tbl h ops = some (h', true) →
    run tbl h ops = some h' := by
  intro ops
  induction ops with
  | nil => intro h h' hr; simp only [runOps, Option.some.injEq, Prod.mk.injEq, and_true] at hr; subst hr; rfl
  | cons o os ih =>
    intro h h' hr
    unfold runOps at hr
    unfold run
    cases hst : step tbl h o with
    | none => rw [hst] at hr; cases hr
    | some r =>
      obtain ⟨h1, b, out⟩ := r
      rw [hst] at hr
      dsimp only at hr ⊢
      cases b with
      | true => exact ih h1 h' (by simpa using hr)
      | false => simp at hr

theorem swap_some (tbl : Syscalls) {h : Hub} {R : List Ctx} (hi : Inv h R) (rate ns nr : Int) :
    ∃ h', swapSample tbl h rate ns nr = some h' := by
  unfold swapSample
  rcases findLowest_spec hi nr ns with ⟨_, e⟩ | ⟨m, e, _⟩
  · rw [e]; exact ⟨_, rfl⟩
  · rw [e]; dsimp only; split <;> exact ⟨_, rfl⟩

theorem filterStep_add_ok (tbl : Syscalls) (m : KMaps) (ns nr : Int) (s : Syscall) (hl : lookup tbl (.int nr) = some s) :
    (Filter.step tbl m (.addSyscall (.int nr) ns {})).2 = true := by
  simp [Filter.step, addSyscall, newRule_sys, hl, addRule]

theorem filterStep_sampled_ok (tbl : Syscalls) (m : KMaps) (ns nr : Int) (r : BitVec 64) (s : Syscall)
    (hl : lookup tbl (.int nr) = some s) :
    (Filter.step tbl m (.addSampled (.int nr) ns r {})).2 = true := by
  simp [Filter.step, addSampledSyscall, Lemmas.Filter.newRule_sampled, hl, addRule]

/-- Starting one syscall never fails when the kernel accepts the updates. -/
theorem callOps_ok (tbl : Syscalls) {h : Hub} {R : List Ctx} (hi : Inv h R) (j : Job) (ns : Int) (sc : Syscall)
    (hl : lookup tbl (.int sc.nr) = some sc) :
    ∃ h', runOps tbl h (callOps j ns sc {} {}) = some (h', true) := by
  have hi1 := inv_push hi j ns sc.nr
  unfold callOps
  by_cases hr : j.rate > 0
  · rw [if_pos hr]
    obtain ⟨h2, hs⟩ := swap_some tbl hi1 j.rate ns sc.nr
    simp [runOps, step, hs, filterStep_add_ok tbl _ ns sc.nr sc hl, filterStep_sampled_ok tbl _ ns sc.nr _ sc hl]
  · rw [if_neg hr]
    simp [runOps, step, filterStep_add_ok tbl _ ns sc.nr sc hl]

/-- The operations of a whole start callback. -/
def startOps (j : Job) (ns : Int) (scs : List Syscall) : List Op := scs.flatMap (fun sc => callOps j ns sc {} {})

theorem startLoop_ok (tbl : Syscalls) (j : Job) (ns : Int) : ∀ (scs : List Syscall) (i : Nat) (h : Hub) (R : List Ctx),
    Inv h R → (∀ sc ∈ scs, lookup tbl (.int sc.nr) = some sc) →
    ∃ h', startLoop tbl j ns (fun _ => ({}, {})) i h (scs.map some) = some h' ∧ run tbl h (startOps j ns scs) = some h' := by
  intro scs
  induction scs with
  | nil => intro i h R _ _; exact ⟨h, rfl, rfl⟩
  | cons sc scs ih =>
    intro i h R hi hl
    obtain ⟨h1, e1⟩ := callOps_ok tbl hi j ns sc (hl sc (by simp))
    have r1 := runOps_ok tbl _ _ _ e1
    obtain ⟨R1, hi1, _⟩ := inv_run tbl _ _ _ _ hi r1
    obtain ⟨h2, e2, r2⟩ := ih (i + 1) h1 R1 hi1 (fun x hx => hl x (by simp [hx]))
    refine ⟨h2, ?_, ?_⟩
    · rw [List.map_cons]
      unfold startLoop
      simp only [e1, if_true]
      exact e2
    · unfold startOps
      rw [List.flatMap_cons, run_append_eq tbl _ _ _ _ r1]
      exact r2

theorem regs_callOps (j : Job) (ns : Int) (sc : Syscall) (rs : List Reg) :
    (callOps j ns sc {} {}).foldl regStep rs = rs ++ [⟨j, ns, sc.nr⟩] := by
  unfold callOps
  split <;> simp [regStep]

theorem regs_startOps (j : Job) (ns : Int) : ∀ (scs : List Syscall) (rs : List Reg),
    (startOps j ns scs).foldl regStep rs = rs ++ scs.map (fun sc => ⟨j, ns, sc.nr⟩) := by
  intro scs
  induction scs with
  | nil => intro rs; simp [startOps]
  | cons sc scs ih =>
    intro rs
    have : startOps j ns (sc :: scs) = callOps j ns sc {} {} ++ startOps j ns scs := rfl
    rw [this, List.foldl_append, regs_callOps, ih]
    simp

/-- Operations of a job start which do not concern key `k`. -/
def OffKey (tbl : Syscalls) (k : FilterKey) : Op → Prop
  | .push _ _ _ => True
  | .swap _ ns nr => ruleKey tbl ns nr ≠ some k
  | .filter (.addSyscall (.int nr) ns _) => ruleKey tbl ns nr ≠ some k
  | .filter (.addSampled (.int nr) ns _ _) => ruleKey tbl ns nr ≠ some k
  | _ => False

theorem get_addRule (m : KMaps) (r : Rule) (f : Faults) (k : FilterKey) (h : normKey r.key ≠ k) :
    GoMap.get (addRule m r f).1.filter k = GoMap.get m.filter k := by
  unfold addRule
  dsimp only
  split
  · rfl
  · split
    · rfl
    · exact GoMap.get_set_other _ _ h

theorem offKey_step (tbl : Syscalls) (k : FilterKey) (o : Op) (h h' : Hub) (b : Bool) (out : List Out)
    (ho : OffKey tbl k o) (hs : step tbl h o = some (h', b, out)) :
    GoMap.get h'.maps.filter k = GoMap.get h.maps.filter k := by
  cases o with
  | push j ns nr =>
    simp only [step, Option.some.injEq, Prod.mk.injEq] at hs
    rw [← hs.1]; rfl
  | swap rate ns nr =>
    simp only [step, Option.map_eq_some_iff, Prod.mk.injEq] at hs
    obtain ⟨h1, hs, rfl, _⟩ := hs
    unfold swapSample at hs
    split at hs
    · cases hs
    · injection hs with hs; rw [hs]
    · split at hs
      · injection hs with hs
        rw [← hs]
        show GoMap.get (removeSyscall tbl h.maps (.int nr) ns).1.filter k = _
        rw [get_removeSyscall, if_neg ho]
      · injection hs with hs; rw [hs]
  | filter o =>
    simp only [step, Option.some.injEq, Prod.mk.injEq] at hs
    rw [← hs.1]
    show GoMap.get (Filter.step tbl h.maps o).1.filter k = _
    cases o with
    | addSyscall q ns f =>
      cases q with
      | int nr =>
        simp only [OffKey] at ho
        rw [ruleKey_eq] at ho
        simp only [Filter.step, addSyscall, Swoll.Lemmas.Filter.newRule_sys]
        cases hl : lookup tbl (.int nr) with
        | none => rfl
        | some s =>
          rw [hl] at ho
          simp only [Option.map_some]
          exact get_addRule _ _ _ _ (by rw [Swoll.Lemmas.Filter.normKey_sys]; intro e; exact ho (by rw [← e]; rfl))
      | _ => exact absurd ho id
    | addSampled q ns rate f =>
      cases q with
      | int nr =>
        simp only [OffKey] at ho
        rw [ruleKey_eq] at ho
        simp only [Filter.step, addSampledSyscall, Swoll.Lemmas.Filter.newRule_sampled]
        cases hl : lookup tbl (.int nr) with
        | none => rfl
        | some s =>
          rw [hl] at ho
          simp only [Option.map_some]
          exact get_addRule _ _ _ _ (by rw [Swoll.Lemmas.Filter.normKey_sys]; intro e; exact ho (by rw [← e]; rfl))
      | _ => exact absurd ho id
    | _ => exact absurd ho id
  | delete jid => exact absurd ho id
  | event e => exact absurd ho id

theorem offKey_run (tbl : Syscalls) (k : FilterKey) : ∀ (ops : List Op) (h h' : Hub),
    (∀ o ∈ ops, OffKey tbl k o) → run tbl h ops = some h' →
    GoMap.get h'.maps.filter k = GoMap.get h.maps.filter k := by
  intro ops
  induction ops with
  | nil => intro h h' _ hr; simp only [run, Option.some.injEq] at hr; rw [hr]
  | cons o os ih =>
    intro h h' ho hr
    unfold run at hr
    split at hr
    · cases hr
    · rename_i h1 b out hs
      rw [ih h1 h' (fun o h => ho o (by simp [h])) hr]
      exact offKey_step tbl k o h h1 b out (ho o (by simp)) hs

theorem offKey_callOps (tbl : Syscalls) (k : FilterKey) (j : Job) (ns : Int) (sc : Syscall)
    (hk : ruleKey tbl ns sc.nr ≠ some k) : ∀ o ∈ callOps j ns sc {} {}, OffKey tbl k o := by
  intro o ho
  unfold callOps at ho
  rw [List.mem_cons, List.mem_append] at ho
  rcases ho with rfl | ho | ho
  · trivial
  · split at ho
    · simp only [List.mem_cons, List.not_mem_nil, or_false] at ho
      rcases ho with rfl | rfl
      · exact hk
      · exact hk
    · simp at ho
  · rw [List.mem_singleton] at ho
    subst ho; exact hk

theorem offKey_startOps (tbl : Syscalls) (k : FilterKey) (j : Job) (ns : Int) (scs : List Syscall)
    (hk : ∀ sc ∈ scs, ruleKey tbl ns sc.nr ≠ some k) : ∀ o ∈ startOps j ns scs, OffKey tbl k o := by
  intro o ho
  unfold startOps at ho
  obtain ⟨sc, hsc, ho⟩ := List.mem_flatMap.1 ho
  exact offKey_callOps tbl k j ns sc (hk sc hsc) o ho

theorem run_snoc_filter (tbl : Syscalls) (ops : List Op) (o : Filter.Op) (h h' : Hub)
    (hr : run tbl h (ops ++ [.filter o]) = some h') :
    ∃ h1 : Hub, h'.maps = (Filter.step tbl h1.maps o).1 := by
  obtain ⟨h1, _, h2⟩ := run_append tbl _ _ _ _ hr
  simp only [run, step, Option.some.injEq] at h2
  exact ⟨h1, by rw [← h2]⟩

theorem callOps_rule (tbl : Syscalls) (j : Job) (ns : Int) (sc : Syscall) (hl : lookup tbl (.int sc.nr) = some sc)
    (h h' : Hub) (hr : run tbl h (callOps j ns sc {} {}) = some h') (k : FilterKey)
    (hk : ruleKey tbl ns sc.nr = some k) : GoMap.get h'.maps.filter k = some ⟨0, 0, 0, 0⟩ := by
  unfold callOps at hr
  rw [← List.cons_append] at hr
  obtain ⟨h1, e⟩ := run_snoc_filter tbl _ _ _ _ hr
  rw [ruleKey_eq, hl, Option.map_some, Option.some.injEq] at hk
  rw [e, ← hk]
  simp only [Filter.step, addSyscall, Swoll.Lemmas.Filter.newRule_sys, hl, Option.map_some, addRule, Swoll.Lemmas.Filter.normKey_sys]
  exact GoMap.get_set_same _ _ _

theorem startOps_rule (tbl : Syscalls) (j : Job) (ns : Int) (k : FilterKey) : ∀ (scs : List Syscall) (h h' : Hub),
    (∀ sc ∈ scs, lookup tbl (.int sc.nr) = some sc) → run tbl h (startOps j ns scs) = some h' →
    ((∃ sc ∈ scs, ruleKey tbl ns sc.nr = some k) ∨ GoMap.get h.maps.filter k = some ⟨0, 0, 0, 0⟩) →
    GoMap.get h'.maps.filter k = some ⟨0, 0, 0, 0⟩ := by
  intro scs
  induction scs with
  | nil =>
    intro h h' _ hr hx
    simp only [startOps, List.flatMap_nil, run, Option.some.injEq] at hr
    rcases hx with ⟨sc, hsc, _⟩ | hx
    · simp at hsc
    · rw [← hr]; exact hx
  | cons sc scs ih =>
    intro h h' hl hr hx
    simp only [startOps, List.flatMap_cons] at hr
    obtain ⟨h1, r1, r2⟩ := run_append tbl _ _ _ _ hr
    refine ih h1 h' (fun x h => hl x (by simp [h])) r2 ?_
    by_cases hk : ruleKey tbl ns sc.nr = some k
    · exact Or.inr (callOps_rule tbl j ns sc (hl sc (by simp)) h h1 r1 k hk)
    · rcases hx with ⟨x, hxm, hxk⟩ | hx
      · rw [List.mem_cons] at hxm
        rcases hxm with rfl | hxm
        · exact absurd hxk hk
        · exact Or.inl ⟨x, hxm, hxk⟩
      · refine Or.inr ?_
        rw [offKey_run tbl k _ h h1 (offKey_callOps tbl k j ns sc hk) r1]; exact hx

end Swoll.Lemmas.Hub
