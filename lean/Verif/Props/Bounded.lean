import Verif.Lemmas.Bounded
/-
C145: the tables of the probe are bounded.
-/
namespace Swoll.Props.Bounded
open Swoll Swoll.Syscalls Swoll.Filter Swoll.Probe Swoll.Spec.Filter Swoll.Spec.Probe Swoll.Bounded Swoll.Spec.Bounded
open Swoll.Lemmas.Filter Swoll.Lemmas.Probe Swoll.Lemmas.Bounded
open Swoll.Props.Probe (after demoCtx)

variable (cap : Nat) (tbl : Syscalls) (hf : BitVec 32 → Bool)

theorem at_most_pre {n : Nat} {xs ys : List POp} (h : AtMost n (xs ++ ys)) : AtMost n xs := by
  intro pre post e
  exact h pre (post ++ ys) (by rw [e, List.append_assoc])

theorem rules_roomy (hist : List POp) : rulesAfter tbl (hist.map roomy) = rulesAfter tbl hist := by
  induction hist using snoc_induction with
  | h0 => rfl
  | h1 xs o ih =>
    rw [List.map_append, List.map_cons, List.map_nil, rulesAfter_snoc, rulesAfter_snoc, ih]
    cases o <;> rfl

/-- As long as there is room, a step is the step of a machine with room for everything. -/
theorem told_roomy {xs : List POp} {o : POp} (h : AtMost cap (xs ++ [o])) :
    told cap (bafter cap tbl hf xs) o = roomy o := by
  cases o with
  | api o => rfl
  | exit c ret sc => rfl
  | execve c sc => rfl
  | enter c args full =>
    simp only [told, roomy, POp.enter.injEq, true_and]
    simp only [noRoom, Bool.and_eq_false_iff, decide_eq_false_iff_not]
    cases hg : GoMap.get (bafter cap tbl hf xs).state c.pidTgid with
    | some v => exact Or.inl rfl
    | none =>
      right
      obtain ⟨h1, -, h3⟩ := state_inside (cap := cap) (tbl := tbl) (hf := hf) xs
      have hl := h (xs ++ [.enter c args full]) [] (by rw [List.append_nil])
      rw [inside_snoc] at hl
      have hn : c.pidTgid ∉ GoMap.keys (bafter cap tbl hf xs).state := (GoMap.get_eq_none_iff _ _).1 hg
      have := nodup_len (List.nodup_cons.2 ⟨hn, h1⟩) (b := goes (inside xs) (.enter c args full)) (fun y hy => by
        simp only [goes, List.mem_cons, List.mem_filter]
        rcases List.mem_cons.1 hy with e | hy
        · exact Or.inl e
        · by_cases e : y = c.pidTgid
          · exact Or.inl e
          · exact Or.inr ⟨h3 y hy, by simpa using e⟩)
      rw [List.length_cons] at this
      have hk : (GoMap.keys (bafter cap tbl hf xs).state).length = (bafter cap tbl hf xs).state.length := List.length_map ..
      omega

theorem same_roomy (hist : List POp) (h : AtMost cap hist) :
    (bafter cap tbl hf hist).maps = (after tbl hf (hist.map roomy)).maps ∧
      (bafter cap tbl hf hist).state = (after tbl hf (hist.map roomy)).state := by
  induction hist using snoc_induction with
  | h0 => exact ⟨rfl, rfl⟩
  | h1 xs o ih =>
    obtain ⟨i1, i2⟩ := ih (at_most_pre h)
    rw [bafter_snoc, List.map_append, List.map_cons, List.map_nil]
    unfold after at *
    rw [prun_snoc]
    simp only [bstep]
    rw [told_roomy cap tbl hf h]
    obtain ⟨k1, k2, -⟩ := pstep_same (tbl := tbl) (hf := hf) _ _ (roomy o) i1 i2
    exact ⟨k1, k2⟩

/-- C145, as far as it holds: as long as no more threads are inside a call at once than the table has room for (65535;
threads that ended inside a call count), every step emits what it would with room for everything. -/
theorem c145_events_partial (pre : List POp) (o : POp) (h : AtMost cap (pre ++ [o])) :
    (bstep cap tbl hf (bafter cap tbl hf pre) o).2 = (pstep tbl hf (after tbl hf (pre.map roomy)) (roomy o)).2 := by
  obtain ⟨i1, i2⟩ := same_roomy cap tbl hf pre (at_most_pre h)
  simp only [bstep]
  rw [told_roomy cap tbl hf h]
  exact (pstep_same _ _ _ i1 i2).2.2

/-- C145, as far as it holds: as long as what is counted is of no more kinds than the table has room for (65535), the
metrics are what they would be with room for everything. -/
theorem c145_counts_partial (hist : List POp) (h : Kinds tbl cap hist) :
    (bafter cap tbl hf hist).metrics = (after tbl hf (hist.map roomy)).metrics := by
  obtain ⟨ks, hl, hk⟩ := h
  suffices H : (bafter cap tbl hf hist).metrics = (after tbl hf (hist.map roomy)).metrics ∧
      ∀ k ∈ GoMap.keys (bafter cap tbl hf hist).metrics, k ∈ ks from H.1
  induction hist using snoc_induction with
  | h0 => exact ⟨rfl, fun k hk => nomatch hk⟩
  | h1 xs o ih =>
    obtain ⟨i1, i2⟩ := ih fun pre o' post k e => hk pre o' (post ++ [o]) k (by rw [e]; simp)
    have hs : ∀ k ∈ GoMap.keys (mEvolve (rulesAfter tbl xs) (bafter cap tbl hf xs).metrics o), k ∈ ks := by
      intro k hk2
      rcases (evolve_keys _ _ _ _).1 hk2 with e | e
      · exact hk xs o [] k rfl e
      · exact i2 k e
    have hle : (mEvolve (rulesAfter tbl xs) (bafter cap tbl hf xs).metrics o).length ≤ cap := by
      have := nodup_len (nodup_mEvolve (rulesAfter tbl xs) _ o (metrics_nodup (cap := cap) (tbl := tbl) (hf := hf) xs)) hs
      rw [keys_length] at this
      omega
    rw [bafter_metrics, List.map_append, List.map_cons, List.map_nil]
    unfold after at *
    rw [prun_metrics_snoc, rules_roomy, ← i1]
    unfold capped
    rw [if_pos hle]
    refine ⟨?_, hs⟩
    cases o <;> rfl

/-- C145: in a full table, too, the kinds of calls it holds go on being counted. -/
theorem c145_held (hist : List POp) (o : POp) (k : MKey) (hk : kind (rulesAfter tbl hist) o = some k)
    (h : (GoMap.get (bafter cap tbl hf hist).metrics k).isSome) :
    (bafter cap tbl hf (hist ++ [o])).metrics = (pstep tbl hf (bafter cap tbl hf hist) o).1.metrics := by
  rw [bafter_metrics, (pstep_rel tbl hf (bafter_rel hist) _).2]
  unfold capped
  rw [if_pos]
  have h2 := nodup_len (nodup_mEvolve (rulesAfter tbl hist) _ o (metrics_nodup (cap := cap) (tbl := tbl) (hf := hf) hist))
    (b := GoMap.keys (bafter cap tbl hf hist).metrics) (fun x hx => by
      rcases (evolve_keys _ _ _ _).1 hx with e | e
      · rw [hk] at e
        injection e with e
        rw [← e, GoMap.mem_keys_iff]; exact h
      · exact e)
  rw [keys_length, keys_length] at h2
  exact Nat.le_trans h2 (metrics_le hist)

/-- The calls of threads that have ended stay in the table as long as nobody has their number. -/
theorem dead_stay (hist later : List POp) (p : BitVec 64) (h : p ∈ GoMap.keys (bafter cap tbl hf hist).state)
    (hl : ∀ o ∈ later, ¬ By p o) : p ∈ GoMap.keys (bafter cap tbl hf (hist ++ later)).state := by
  induction later using snoc_induction with
  | h0 => rw [List.append_nil]; exact h
  | h1 xs o ih =>
    have ih := ih fun o ho => hl o (by simp [ho])
    have ho : ¬ By p o := hl o (by simp)
    rw [← List.append_assoc, bafter_snoc]
    simp only [bstep]
    rw [GoMap.mem_keys_iff] at ih ⊢
    obtain ⟨-, -, s3⟩ := Probe.step_state tbl hf (bafter cap tbl hf (hist ++ xs)) _ (bafter_rel _)
      (told cap (bafter cap tbl hf (hist ++ xs)) o) p
    rw [s3]
    · exact ih
    · cases o with
      | exit c ret sc => exact ho
      | _ => exact fun h => h
    · intro c args full e hp
      exfalso
      cases o with
      | enter c' args' full' =>
        simp only [told, POp.enter.injEq] at e
        rw [← e.1] at hp
        exact ho hp
      | _ => simp [told] at e

/-- The operations by which the threads of `dead` begin their calls. -/
def begins (dead : List Ctx) : List POp := dead.map (.enter · [] false)

theorem inside_begins (hist : List POp) (hi : inside hist = []) (dead : List Ctx) :
    (inside (hist ++ begins dead)).length ≤ dead.length ∧
      ∀ p ∈ inside (hist ++ begins dead), p ∈ dead.map (·.pidTgid) := by
  induction dead using snoc_induction with
  | h0 => simp only [begins, List.map_nil, List.append_nil, hi]; exact ⟨Nat.le_refl _, fun p hp => hp⟩
  | h1 xs d ih =>
    have e : hist ++ begins (xs ++ [d]) = (hist ++ begins xs) ++ [.enter d [] false] := by simp [begins]
    rw [e, inside_snoc]
    simp only [goes]
    refine ⟨?_, ?_⟩
    · have := List.length_filter_le (fun x => decide (x ≠ d.pidTgid)) (inside (hist ++ begins xs))
      simp only [List.length_cons, List.length_append, List.length_nil]
      omega
    · intro p hp
      simp only [List.map_append, List.map_cons, List.map_nil, List.mem_append, List.mem_cons, List.not_mem_nil, or_false]
      rcases List.mem_cons.1 hp with e | hp
      · exact Or.inr e
      · exact Or.inl (ih.2 p (List.mem_filter.1 hp).1)

/-- All of them are remembered. -/
theorem dead_there (hist : List POp) (hi : inside hist = []) (dead : List Ctx) (hn : (dead.map (·.pidTgid)).Nodup)
    (hl : dead.length ≤ cap)
    (hr : ∀ a d b, dead = a ++ d :: b → Recorded tbl (rulesAfter tbl (hist ++ begins a)) d false) :
    ∀ p ∈ dead.map (·.pidTgid), p ∈ GoMap.keys (bafter cap tbl hf (hist ++ begins dead)).state := by
  induction dead using snoc_induction with
  | h0 => exact fun p hp => nomatch hp
  | h1 xs d ih =>
    have e : hist ++ begins (xs ++ [d]) = (hist ++ begins xs) ++ [.enter d [] false] := by simp [begins]
    simp only [List.map_append, List.map_cons, List.map_nil] at hn
    rw [List.length_append] at hl
    simp only [List.length_cons, List.length_nil] at hl
    have hn2 := List.nodup_append.1 hn
    have ih := ih hn2.1 (by omega) fun a d' b e => hr a d' (b ++ [d]) (by rw [e]; simp)
    have hd : Recorded tbl (rulesAfter tbl (hist ++ begins xs)) d false := hr xs d [] rfl
    intro p hp
    rw [e]
    simp only [List.map_append, List.map_cons, List.map_nil, List.mem_append, List.mem_cons, List.not_mem_nil, or_false] at hp
    rcases hp with hp | hp
    · refine dead_stay cap tbl hf _ _ p (ih p hp) ?_
      intro o ho
      rw [List.mem_singleton.1 ho]
      intro hb
      exact hn2.2.2 p hp d.pidTgid (List.mem_singleton.2 rfl) hb.symm
    · have hroom : noRoom cap (bafter cap tbl hf (hist ++ begins xs)) d = false := by
        simp only [noRoom, Bool.and_eq_false_iff, decide_eq_false_iff_not]
        right
        obtain ⟨h1, -, h3⟩ := state_inside (cap := cap) (tbl := tbl) (hf := hf) (hist ++ begins xs)
        have h4 := nodup_len h1 h3
        have h5 := (inside_begins hist hi xs).1
        have hk : (GoMap.keys (bafter cap tbl hf (hist ++ begins xs)).state).length =
          (bafter cap tbl hf (hist ++ begins xs)).state.length := List.length_map ..
        omega
      rw [bafter_snoc]
      simp only [bstep, told, hroom]
      rw [GoMap.mem_keys_iff, hp]
      obtain ⟨-, s2, -⟩ := Probe.step_state tbl hf (bafter cap tbl hf (hist ++ begins xs)) _ (bafter_rel _)
        (.enter d [] false) d.pidTgid
      rw [s2 d [] false rfl rfl hd]
      rfl

/-- C145 fails, for every size of the table: as many threads as it has room for end inside a call that is traced (they
call exit_group). From then on nothing any other thread does shows, whatever is traced, unless it is execve. -/
theorem c145_blind_violated (hist : List POp) (hi : inside hist = []) (dead : List Ctx)
    (hn : (dead.map (·.pidTgid)).Nodup) (hl : dead.length = cap)
    (hr : ∀ a d b, dead = a ++ d :: b → Recorded tbl (rulesAfter tbl (hist ++ begins a)) d false)
    (later : List POp) (hlater : ∀ o ∈ later, ∀ d ∈ dead, ¬ By d.pidTgid o)
    (done : List POp) (o : POp) (rest : List POp) (e : later = done ++ o :: rest) (ho : ∀ c sc, o ≠ .execve c sc) :
    (bstep cap tbl hf (bafter cap tbl hf (hist ++ begins dead ++ done)) o).2 = none := by
  cases o with
  | api o => rfl
  | enter c args full => rfl
  | execve c sc => exact absurd rfl (ho c sc)
  | exit c ret sc =>
    have hin : ∀ p ∈ dead.map (·.pidTgid), p ∈ GoMap.keys (bafter cap tbl hf (hist ++ begins dead ++ done)).state := by
      intro p hp
      obtain ⟨d, hd, rfl⟩ := List.mem_map.1 hp
      exact dead_stay cap tbl hf _ _ _ (dead_there cap tbl hf hist hi dead hn (Nat.le_of_eq hl) hr _ hp)
        fun o ho => hlater o (by rw [e]; exact List.mem_append_left _ ho) d hd
    obtain ⟨h1, h2, -⟩ := state_inside (cap := cap) (tbl := tbl) (hf := hf) (hist ++ begins dead ++ done)
    have hk : (GoMap.keys (bafter cap tbl hf (hist ++ begins dead ++ done)).state).length =
          (bafter cap tbl hf (hist ++ begins dead ++ done)).state.length := List.length_map ..
    have hall := nodup_full hn hin (by rw [List.length_map]; omega)
    have hnot : GoMap.get (bafter cap tbl hf (hist ++ begins dead ++ done)).state c.pidTgid = none := by
      rw [GoMap.get_eq_none_iff]
      intro hc
      obtain ⟨d, hd, e2⟩ := List.mem_map.1 (hall _ hc)
      exact hlater (.exit c ret sc) (by rw [e]; exact List.mem_append_right _ List.mem_cons_self) d hd e2.symm
    simp only [bstep, told, pstep, Swoll.Probe.exit, fill_state, hnot]

/-- C145 fails for the calls that do not return, exit and exit_group: an event shows a call that returns just then, or
execve. Such a call takes its place in the table, and is not shown, whoever asks for it. -/
theorem c145_no_return_violated (s : PState) (o : POp) (ev : Event) (h : (bstep cap tbl hf s o).2 = some ev) :
    ev.syscall = nrExecve ∨ ∃ c ret sc, o = .exit c ret sc ∧ ev.syscall = c.nr := by
  cases o with
  | api o => cases h
  | enter c args full => cases h
  | execve c sc =>
    simp only [bstep, told, pstep, execve] at h
    split at h
    · cases h
    · split at h
      · cases h
      · injection h with h; subst h; exact Or.inl rfl
  | exit c ret sc =>
    refine Or.inr ⟨c, ret, sc, rfl, ?_⟩
    simp only [bstep, told, pstep, Swoll.Probe.exit] at h
    split at h
    · cases h
    · split at h
      · cases h
      · split at h
        · cases h
        · next hid =>
          injection h with h; subst h
          unfold Ctx.nr
          rw [Decidable.of_not_not hid]

/-- A table of calls with exit_group, openat and execve. -/
def demoTbl : Syscalls := ⟨[(257, ⟨257, "sys_openat", "FileSystem", "Files"⟩), (231, ⟨231, "sys_exit_group", "ProcessManagement", "Execution"⟩)],
  [("sys_openat", ⟨257, "sys_openat", "FileSystem", "Files"⟩), ("sys_exit_group", ⟨231, "sys_exit_group", "ProcessManagement", "Execution"⟩)]⟩

/-- Two calls of a container are traced. -/
def demoRules : List POp := [.api .enable, .api (.addSyscall (.str "exit_group") 7 {}), .api (.addSyscall (.str "openat") 7 {})]

/-- One thread after the other ends. -/
def ended (n : Nat) : List Ctx := (List.range n).map fun i => demoCtx (i + 1) 231 i

/-- The two calls are traced, neither is sampled. -/
def Both (a : Abs) : Prop := a.enabled = true ∧ (∃ n, a.sys (some 7#32) 231#32 = some ⟨0, n⟩) ∧ ∃ n, a.sys (some 7#32) 257#32 = some ⟨0, n⟩

theorem both_rules : Both (rulesAfter demoTbl demoRules) := ⟨by decide +kernel, ⟨0, by decide +kernel⟩, ⟨0, by decide +kernel⟩⟩

theorem both_step {a : Abs} (h : Both a) (p t : Nat) :
    Both (absStep demoTbl a (.enter (demoCtx p 231 t) [] false)) ∧ Recorded demoTbl a (demoCtx p 231 t) false := by
  obtain ⟨h1, ⟨n, h2⟩, m, h3⟩ := h
  have hnr : (demoCtx p 231 t).nr = 231#32 := rfl
  have hne : ¬ (231#32 = nrExecve) := by decide
  have hstep : a.step demoTbl (.callEvent (demoCtx p 231 t).ns (demoCtx p 231 t).proc (demoCtx p 231 t).nr) =
      (a.setRule (some 7#32) 231#32 (some ⟨0, n + 1⟩), true) := by
    simp only [hnr, Abs.step, h1, if_true, Abs.decider]
    rw [show (demoCtx p 231 t).ns = 7#32 from rfl, h2]
    simp [Sample.nextPasses]
  refine ⟨?_, ?_⟩
  · simp only [absStep, hnr, if_neg hne]
    rw [← hnr, hstep]
    refine ⟨h1, ⟨n + 1, ?_⟩, m, ?_⟩
    · simp [Abs.setRule]
    · simp [Abs.setRule, h3]
  · exact ⟨by rw [hnr]; exact hne, by unfold Passes; rw [hstep], rfl⟩

theorem both_begins : ∀ (l : List Nat), Both (rulesAfter demoTbl (demoRules ++ begins (l.map fun i => demoCtx (i + 1) 231 i))) := by
  intro l
  induction l using snoc_induction with
  | h0 => simp only [begins, List.map_nil, List.append_nil]; exact both_rules
  | h1 xs i ih =>
    have e : demoRules ++ begins ((xs ++ [i]).map fun i => demoCtx (i + 1) 231 i) =
      (demoRules ++ begins (xs.map fun i => demoCtx (i + 1) 231 i)) ++ [.enter (demoCtx (i + 1) 231 i) [] false] := by
      simp [begins]
    rw [e, rulesAfter_snoc]
    exact (both_step ih _ _).1

theorem ended_nodup (n : Nat) (hn : n < 2 ^ 63) : ((ended n).map (·.pidTgid)).Nodup := by
  unfold ended
  rw [List.map_map]
  refine List.Pairwise.of_map (fun b : BitVec 64 => b.toNat) (S := (· ≠ ·)) (fun a b h e => h (congrArg _ e)) ?_
  rw [List.map_map]
  have : (List.range n).map ((fun b : BitVec 64 => b.toNat) ∘ ((fun x : Ctx => x.pidTgid) ∘ fun i => demoCtx (i + 1) 231 i)) =
      (List.range n).map (· + 1) := by
    refine List.map_congr_left fun i hi => ?_
    have := List.mem_range.1 hi
    simp only [Function.comp, demoCtx, BitVec.toNat_ofNat]
    omega
  rw [this]
  exact List.Pairwise.map _ (fun a b h => by omega) (List.nodup_range (n := n))

/-- The hypotheses of `c145_blind_violated` are met for the real size of the table, 65535. -/
theorem ended_recorded (n : Nat) : ∀ a d b, ended n = a ++ d :: b →
    Recorded demoTbl (rulesAfter demoTbl (demoRules ++ begins a)) d false := by
  intro a d b e
  obtain ⟨l1, l2, h, e1, e2⟩ := List.map_eq_append_iff.1 e
  obtain ⟨i, l3, h3, e3, -⟩ := List.map_eq_cons_iff.1 e2
  rw [← e1, ← e3]
  exact (both_step (both_begins l1) _ _).2

/-- For a table of any size: as many processes of a container whose exit_group is traced end. The next call of openat in the container,
which is traced, too, shows nothing; with room for everything it would show. -/
theorem ended_blind (n p t u : Nat) (hp : n < p) (hp2 : p < 2 ^ 63) :
    (bstep n demoTbl (fun _ => true) (bafter n demoTbl (fun _ => true)
      (demoRules ++ begins (ended n) ++ [.enter (demoCtx p 257 t) [] false])) (.exit (demoCtx p 257 u) 3 true)).2 = none ∧
    ((pstep demoTbl (fun _ => true) (after demoTbl (fun _ => true)
      (demoRules ++ begins (ended n) ++ [.enter (demoCtx p 257 t) [] false])) (.exit (demoCtx p 257 u) 3 true)).2).isSome := by
  have hnot : ∀ d ∈ ended n, (demoCtx p 257 t).pidTgid ≠ d.pidTgid := by
    intro d hd e
    obtain ⟨i, hi, rfl⟩ := List.mem_map.1 hd
    have := List.mem_range.1 hi
    have h2 := congrArg BitVec.toNat e
    simp only [demoCtx, BitVec.toNat_ofNat] at h2
    omega
  constructor
  · refine c145_blind_violated n demoTbl (fun _ => true) demoRules rfl (ended n) (ended_nodup _ (by omega))
      (by simp [ended]) (ended_recorded _)
      [.enter (demoCtx p 257 t) [] false, .exit (demoCtx p 257 u) 3 true] ?_
      [.enter (demoCtx p 257 t) [] false] _ [] rfl (by simp)
    intro o ho d hd hb
    rcases List.mem_cons.1 ho with rfl | ho
    · exact hnot d hd hb
    · rw [List.mem_singleton.1 ho] at hb
      exact hnot d hd hb
  · have hb : Both (rulesAfter demoTbl (demoRules ++ begins (ended n))) := both_begins _
    obtain ⟨h1, -, m, h3⟩ := hb
    have hrec : Recorded demoTbl (rulesAfter demoTbl (demoRules ++ begins (ended n))) (demoCtx p 257 t) false := by
      refine ⟨?_, ?_, rfl⟩
      · exact (by decide : ¬ (257#32 = nrExecve))
      · unfold Passes
        simp only [show (demoCtx p 257 t).nr = 257#32 from rfl, Abs.step, h1, if_true, Abs.decider]
        rw [show (demoCtx p 257 t).ns = 7#32 from rfl, h3]
        simp [Sample.nextPasses]
    have := (Probe.c33_pairing demoTbl (fun _ => true) (demoRules ++ begins (ended n) ++ [.enter (demoCtx p 257 t) [] false])
      (demoCtx p 257 u) 3 true _).2 ⟨rfl, demoCtx p 257 t, [], ⟨_, false, [], rfl, rfl, hrec, by simp, by simp⟩, rfl, rfl⟩
    rw [this]
    rfl

/-- C145 fails: 65535 processes of a container whose exit_group is traced end. The next call of openat in the container,
which is traced, too, shows nothing; with room for everything it would show. -/
theorem c145_exit_group_violated (p t u : Nat) (hp : capacity < p) (hp2 : p < 2 ^ 63) :
    (bstep capacity demoTbl (fun _ => true) (bafter capacity demoTbl (fun _ => true)
      (demoRules ++ begins (ended capacity) ++ [.enter (demoCtx p 257 t) [] false])) (.exit (demoCtx p 257 u) 3 true)).2 = none ∧
    ((pstep demoTbl (fun _ => true) (after demoTbl (fun _ => true)
      (demoRules ++ begins (ended capacity) ++ [.enter (demoCtx p 257 t) [] false])) (.exit (demoCtx p 257 u) 3 true)).2).isSome :=
  ended_blind capacity p t u hp hp2

/-- The size is that of probe.c. -/
example : capacity = 65535 := rfl

/-- With room for three, three processes end and a fourth is not seen; two end and a third is seen. -/
example : (bstep 3 demoTbl (fun _ => true) (bafter 3 demoTbl (fun _ => true)
      (demoRules ++ begins (ended 3) ++ [.enter (demoCtx 9 257 1) [] false])) (.exit (demoCtx 9 257 2) 3 true)).2 = none ∧
    (bstep 3 demoTbl (fun _ => true) (bafter 3 demoTbl (fun _ => true)
      (demoRules ++ begins (ended 2) ++ [.enter (demoCtx 9 257 1) [] false])) (.exit (demoCtx 9 257 2) 3 true)).2 =
      some ⟨9, 0, 257, 7, 1, 2, [], 3⟩ := by decide +kernel

theorem atMost_of_all {n : Nat} {hist : List POp}
    (h : ∀ i, i < hist.length + 1 → (inside (hist.take i)).length ≤ n) : AtMost n hist := by
  intro pre post e
  have h2 := h pre.length (by rw [e, List.length_append]; omega)
  rwa [e, List.take_left] at h2

theorem kinds_of_all {n : Nat} {hist : List POp} (ks : List MKey) (hl : ks.length ≤ n)
    (h : ∀ i, i < hist.length → ∀ k ∈ ((hist[i]?).bind fun o => kind (rulesAfter tbl (hist.take i)) o), k ∈ ks) :
    Kinds tbl n hist := by
  refine ⟨ks, hl, fun pre o post k e hk => ?_⟩
  have h2 := h pre.length (by rw [e, List.length_append, List.length_cons]; omega) k
  rw [e, List.take_left] at h2
  simp only [List.getElem?_append_right (Nat.le_refl _), Nat.sub_self, List.getElem?_cons_zero, Option.bind_some, hk] at h2
  exact h2 rfl

/-- Two threads call at once, many times, one after the other: the hypothesis of `c145_events_partial`, and of
`c145_counts_partial`, with small tables. -/
def demoBusy : List POp := demoRules ++ [.api (.addMetrics 7 {}), .enter (demoCtx 1 257 1) [] false, .enter (demoCtx 2 0 2) [] false,
  .exit (demoCtx 1 257 3) 3 true, .enter (demoCtx 3 257 4) [] false, .exit (demoCtx 2 0 5) 0 true, .exit (demoCtx 3 257 6) (-2) true]

example : AtMost 2 demoBusy := atMost_of_all (by decide +kernel)
example : ¬ AtMost 1 demoBusy := fun h => absurd (h (demoBusy.take 6) (demoBusy.drop 6) (by simp)) (by decide +kernel)
example : Kinds demoTbl 3 demoBusy :=
  kinds_of_all demoTbl [⟨7, 257, 0⟩, ⟨7, 0, 0⟩, ⟨7, 257, 2⟩] (by decide) (by decide +kernel)
example : (bafter 3 demoTbl (fun _ => true) demoBusy).metrics.length = 3 ∧
    (bafter 2 demoTbl (fun _ => true) demoBusy).metrics.length = 2 := by decide +kernel

/-- C145 fails, for every size of the table: once as many kinds of calls are counted as it has room for, a call of
another kind is not counted, now or later. -/
theorem c145_uncounted_violated (hist : List POp) (hl : (bafter cap tbl hf hist).metrics.length = cap)
    (k : MKey) (hk : GoMap.get (bafter cap tbl hf hist).metrics k = none) (later : List POp) :
    GoMap.get (bafter cap tbl hf (hist ++ later)).metrics k = none := by
  rw [GoMap.get_eq_none_iff] at *
  exact fun h => hk ((metrics_stay hist later hl k).1 h)

/-- Calls that return 0. -/
def returns (cs : List Ctx) : List POp := cs.map (.exit · 0 false)

/-- Every table can be filled: by as many kinds of calls of counted containers, each returning once. -/
theorem filled (hist : List POp) (h0 : (bafter cap tbl hf hist).metrics = []) (cs : List Ctx)
    (hn : (cs.map fun c => (c.ns, c.nr)).Nodup) (hc : ∀ c ∈ cs, counted (rulesAfter tbl hist) c = true) (hl : cs.length ≤ cap) :
    (bafter cap tbl hf (hist ++ returns cs)).metrics.length = cs.length ∧
      ∀ k, k ∈ GoMap.keys (bafter cap tbl hf (hist ++ returns cs)).metrics ↔ ∃ c ∈ cs, k = ⟨c.ns, c.nr, 0⟩ := by
  have hr : ∀ cs : List Ctx, rulesAfter tbl (hist ++ returns cs) = rulesAfter tbl hist := by
    intro cs
    induction cs using snoc_induction with
    | h0 => simp [returns]
    | h1 xs c ih =>
      have e : hist ++ returns (xs ++ [c]) = (hist ++ returns xs) ++ [.exit c 0 false] := by simp [returns]
      rw [e, rulesAfter_snoc, ih]; rfl
  induction cs using snoc_induction with
  | h0 => simp [returns, h0, GoMap.keys]
  | h1 xs c ih =>
    rw [List.length_append] at hl
    simp only [List.length_cons, List.length_nil] at hl
    rw [List.map_append] at hn
    have hn2 := List.nodup_append.1 hn
    obtain ⟨i1, i2⟩ := ih hn2.1 (fun c hc2 => hc c (List.mem_append_left _ hc2)) (by omega)
    have e : hist ++ returns (xs ++ [c]) = (hist ++ returns xs) ++ [.exit c 0 false] := by simp [returns]
    have hk : kind (rulesAfter tbl hist) (.exit c 0 false) = some ⟨c.ns, c.nr, 0⟩ := by
      simp only [kind, hc c (List.mem_append_right _ (List.mem_singleton.2 rfl)), if_true]
      rfl
    have hnew : (⟨c.ns, c.nr, 0⟩ : MKey) ∉ GoMap.keys (bafter cap tbl hf (hist ++ returns xs)).metrics := by
      intro h
      obtain ⟨d, hd, e⟩ := (i2 _).1 h
      injection e with e1 e2
      exact hn2.2.2 (d.ns, d.nr) (List.mem_map.2 ⟨d, hd, rfl⟩) (c.ns, c.nr) (by simp) (by rw [e1, e2])
    rw [e, bafter_metrics, hr]
    have hkeys : ∀ k, k ∈ GoMap.keys (mEvolve (rulesAfter tbl hist) (bafter cap tbl hf (hist ++ returns xs)).metrics (.exit c 0 false)) ↔
        k = ⟨c.ns, c.nr, 0⟩ ∨ k ∈ GoMap.keys (bafter cap tbl hf (hist ++ returns xs)).metrics := by
      intro k
      rw [evolve_keys, hk]
      simp only [Option.some.injEq, eq_comm]
    have hlen : (mEvolve (rulesAfter tbl hist) (bafter cap tbl hf (hist ++ returns xs)).metrics (.exit c 0 false)).length = xs.length + 1 := by
      have hnd := metrics_nodup (cap := cap) (tbl := tbl) (hf := hf) (hist ++ returns xs)
      have a1 := nodup_len (nodup_mEvolve (rulesAfter tbl hist) _ (.exit c 0 false) hnd)
        (b := ⟨c.ns, c.nr, 0⟩ :: GoMap.keys (bafter cap tbl hf (hist ++ returns xs)).metrics)
        (fun k hk => List.mem_cons.2 ((hkeys k).1 hk))
      have a2 := nodup_len (List.nodup_cons.2 ⟨hnew, hnd⟩)
        (b := GoMap.keys (mEvolve (rulesAfter tbl hist) (bafter cap tbl hf (hist ++ returns xs)).metrics (.exit c 0 false)))
        (fun k hk => (hkeys k).2 (List.mem_cons.1 hk))
      rw [List.length_cons, keys_length, keys_length] at a1 a2
      omega
    unfold capped
    rw [if_pos (by omega)]
    refine ⟨by rw [hlen]; simp, fun k => ?_⟩
    rw [hkeys, i2]
    simp only [List.mem_append, List.mem_singleton]
    constructor
    · rintro (e2 | ⟨d, hd, e2⟩)
      · exact ⟨c, Or.inr rfl, e2⟩
      · exact ⟨d, Or.inl hd, e2⟩
    · rintro ⟨d, hd | hd, e2⟩
      · exact Or.inr ⟨d, hd, e2⟩
      · exact Or.inl (hd ▸ e2)

/-- C145 fails, from the start: as many kinds of calls of counted containers return as the table has room for. A call of
another kind that returns after them, however often, is not counted. -/
theorem c145_new_kind_violated (hist : List POp) (h0 : (bafter cap tbl hf hist).metrics = []) (cs : List Ctx)
    (hn : (cs.map fun c => (c.ns, c.nr)).Nodup) (hc : ∀ c ∈ cs, counted (rulesAfter tbl hist) c = true) (hl : cs.length = cap)
    (k : MKey) (hk : ∀ c ∈ cs, k ≠ ⟨c.ns, c.nr, 0⟩) (later : List POp) :
    GoMap.get (bafter cap tbl hf (hist ++ returns cs ++ later)).metrics k = none := by
  obtain ⟨h1, h2⟩ := filled cap tbl hf hist h0 cs hn hc (Nat.le_of_eq hl)
  refine c145_uncounted_violated cap tbl hf _ (by rw [h1, hl]) k ?_ later
  rw [GoMap.get_eq_none_iff, h2]
  rintro ⟨c, hc, e⟩
  exact hk c hc e

/-- The hypotheses are met: metrics of namespace 7 are counted, two kinds of calls return, and there is room for two. -/
example : (bafter 2 demoTbl (fun _ => true) (demoRules ++ [.api (.addMetrics 7 {})])).metrics = [] ∧
    ([demoCtx 1 0 1, demoCtx 2 1 2].map fun c => (c.ns, c.nr)).Nodup ∧
    (∀ c ∈ [demoCtx 1 0 1, demoCtx 2 1 2], counted (rulesAfter demoTbl (demoRules ++ [.api (.addMetrics 7 {})])) c = true) ∧
    (∀ c ∈ [demoCtx 1 0 1, demoCtx 2 1 2], (⟨7, 257, 0⟩ : MKey) ≠ ⟨c.ns, c.nr, 0⟩) := by decide +kernel

example : kind (rulesAfter demoTbl demoBusy) (.exit (demoCtx 1 257 9) (-2) true) = some ⟨7, 257, 2⟩ ∧
    (GoMap.get (bafter 3 demoTbl (fun _ => true) demoBusy).metrics ⟨7, 257, 2⟩).isSome := by decide +kernel

end Swoll.Props.Bounded
