import Verif.Spec.Smp
/-
Helper lemmas for the probe on several CPUs.
-/
namespace Swoll.Lemmas.Smp
open Swoll Swoll.Filter Swoll.Probe Swoll.Smp Swoll.Spec.Smp

/-! ### Metrics -/

theorem mrun_append (s : MState) (as bs : List MAct) :
    mrun s (as ++ bs) = ((mrun (mrun s as).1 bs).1, (mrun s as).2 ++ (mrun (mrun s as).1 bs).2) := by
  induction as generalizing s with
  | nil => rfl
  | cons a as ih => simp [mrun, ih, List.append_assoc]

@[simp] theorem put_metrics (s : MState) (c : Nat) (p : MPc) : (s.put c p).metrics = s.metrics := rfl

theorem put_cpu (s : MState) (c d : Nat) (p : MPc) : (s.put c p).cpu d = if d = c then p else s.cpu d := rfl

theorem reported_congr {s t : MState} (h : s.metrics = t.metrics) (k : MKey) : reported s k = reported t k := by
  unfold reported; rw [h]

/-- Nothing held or stored is more than what was counted. -/
structure Below (s : MState) (n : MKey → Nat) : Prop where
  stored : ∀ k, reported s k ≤ n k
  held : ∀ c k v b, s.cpu c = .store k v b → v.count.toNat ≤ n k + b.toNat

/-- The count after one more call. -/
def bump (n : MKey → Nat) (o : Option MKey) : MKey → Nat := fun k => n k + if o = some k then 1 else 0

theorem below_mono {s : MState} {n m : MKey → Nat} (h : Below s n) (hm : ∀ k, n k ≤ m k) : Below s m :=
  ⟨fun k => Nat.le_trans (h.stored k) (hm k), fun c k v b e =>
    Nat.le_trans (h.held c k v b e) (Nat.add_le_add_right (hm k) _)⟩

theorem below_put {s : MState} {n : MKey → Nat} (h : Below s n) (c : Nat) {p : MPc}
    (hp : ∀ k v b, p = .store k v b → v.count.toNat ≤ n k + b.toNat) : Below (s.put c p) n := by
  refine ⟨h.stored, ?_⟩
  intro d k v b e
  rw [put_cpu] at e
  split at e
  · exact hp k v b e
  · exact h.held d k v b e

theorem below_step {s : MState} {n : MKey → Nat} (h : Below s n) (a : MAct) :
    Below (mstep s a).1 (bump n (mstep s a).2) := by
  cases a with
  | call c j =>
    simp only [mstep]
    split
    · exact below_mono (below_put h c (by intro k v b e; cases e)) (fun k => Nat.le_add_right _ _)
    · exact below_mono h (fun k => Nat.le_add_right _ _)
  | delete k =>
    refine below_mono (n := n) ⟨?_, h.held⟩ (fun k => Nat.le_add_right _ _)
    intro k'
    unfold reported mstep
    dsimp only
    rw [GoMap.get_del]
    have := h.stored k'
    unfold reported at this
    by_cases e : k = k'
    · rw [if_pos e]; exact Nat.zero_le _
    · rw [if_neg e]; exact this
  | step c =>
    show Below (advance s c).1 (bump n (advance s c).2)
    unfold advance
    split
    · exact below_mono h (fun k => Nat.le_add_right _ _)
    · next ns nr now e =>
      refine below_mono (n := n) (below_put h c ?_) (fun k => Nat.le_add_right _ _)
      intro k v b e
      injection e with e1 e2 e3
      subst e1 e2 e3
      have := h.stored ⟨ns, nr, 0⟩
      unfold reported at this
      cases hg : GoMap.get s.metrics ⟨ns, nr, 0⟩ with
      | none => simp
      | some w => rw [hg] at this; simpa using this
    · next ns nr err now e =>
      exact below_mono (n := n) (below_put h c (by intro k v b e; cases e)) (fun k => Nat.le_add_right _ _)
    · next ns nr err now enter0 e =>
      refine below_mono (n := n) (below_put h c ?_) (fun k => Nat.le_add_right _ _)
      intro k v b e
      injection e with e1 e2 e3
      subst e1 e2 e3
      have := h.stored (keyOf ns nr err)
      unfold reported at this
      cases hg : GoMap.get s.metrics (keyOf ns nr err) with
      | none => simp
      | some w =>
        rw [hg] at this
        dsimp only at this ⊢
        have h1 := Nat.mod_le (w.count.toNat + 1) (2 ^ 64)
        rw [BitVec.toNat_add]
        simp only [Bool.toNat_true]
        exact Nat.le_trans h1 (Nat.add_le_add_right this 1)
    · next key val counts e =>
      have hh := h.held c key val counts e
      refine ⟨?_, ?_⟩
      · intro k
        unfold reported
        simp only [put_metrics]
        rw [GoMap.get_set]
        have := h.stored k
        unfold reported at this
        unfold bump
        by_cases ek : key = k
        · subst ek
          rw [if_pos rfl]
          cases counts with
          | true => simpa using hh
          | false => simpa using hh
        · rw [if_neg ek]
          exact Nat.le_trans this (Nat.le_add_right _ _)
      · intro d k v b e'
        rw [put_cpu] at e'
        split at e'
        · cases e'
        · have := h.held d k v b e'
          unfold bump
          omega

theorem below_run {s : MState} {n : MKey → Nat} (h : Below s n) (as : List MAct) :
    Below (mrun s as).1 (fun k => n k + (mrun s as).2.count k) := by
  induction as generalizing s n with
  | nil => exact below_mono h (fun k => Nat.le_add_right _ _)
  | cons a as ih =>
    refine below_mono (ih (below_step h a)) ?_
    intro k
    unfold bump
    simp only [mrun, List.count_append]
    cases (mstep s a).2 with
    | none => simp
    | some k' =>
      by_cases e : k' = k
      · subst e; simp; omega
      · simp [e]

/-! Exact counts -/

/-- With nobody else, what is held and stored is what was counted. -/
structure Exact (k : MKey) (s : MState) (n : Nat) : Prop where
  stored : ((GoMap.get s.metrics k).map (·.count)).getD 0 = BitVec.ofNat 64 n
  held : ∀ c v b, s.cpu c = .store k v b → v.count = BitVec.ofNat 64 (n + b.toNat)

theorem exact_put {k : MKey} {s : MState} {n : Nat} (h : Exact k s n) (c : Nat) {p : MPc}
    (hp : ∀ v b, p = .store k v b → v.count = BitVec.ofNat 64 (n + b.toNat)) : Exact k (s.put c p) n := by
  refine ⟨h.stored, ?_⟩
  intro d v b e
  rw [put_cpu] at e
  split at e
  · exact hp v b e
  · exact h.held d v b e

theorem exact_step {k : MKey} {s : MState} {n : Nat} (h : Exact k s n) (a : MAct) (hd : a ≠ .delete k)
    (ha : ∀ c d, Copying s c k → Copying s d k → c = d) :
    Exact k (mstep s a).1 (n + if (mstep s a).2 = some k then 1 else 0) := by
  cases a with
  | call c j =>
    simp only [mstep]
    split
    · simpa using exact_put h c (p := .start j) (by intro v b e; cases e)
    · simpa using h
  | delete k' =>
    have hne : k' ≠ k := fun e => hd (by rw [e])
    refine ⟨?_, ?_⟩
    · simp only [mstep, GoMap.get_del, if_neg hne]
      simpa using h.stored
    · simpa [mstep] using h.held
  | step c =>
    show Exact k (advance s c).1 (n + if (advance s c).2 = some k then 1 else 0)
    unfold advance
    split
    · simpa using h
    · next ns nr now e =>
      dsimp only
      have e0 : (if (none : Option MKey) = some k then 1 else 0) = 0 := by simp
      rw [e0, Nat.add_zero]
      refine exact_put h c ?_
      intro v b e
      injection e with e1 e2 e3
      subst e1 e2 e3
      have := h.stored
      cases hg : GoMap.get s.metrics ⟨ns, nr, 0⟩ with
      | none => rw [hg] at this; simpa using this
      | some w => rw [hg] at this; simpa using this
    · next ns nr err now e =>
      simpa using exact_put h c (p := .timed ns nr err now _) (by intro v b e; cases e)
    · next ns nr err now enter0 e =>
      dsimp only
      have e0 : (if (none : Option MKey) = some k then 1 else 0) = 0 := by simp
      rw [e0, Nat.add_zero]
      refine exact_put h c ?_
      intro v b e
      injection e with e1 e2 e3
      subst e1 e2 e3
      have := h.stored
      have e1 : BitVec.ofNat 64 (n + true.toNat) = BitVec.ofNat 64 n + 1 := by
        rw [Bool.toNat_true, BitVec.ofNat_add]
        rfl
      rw [e1, ← this]
      cases hg : GoMap.get s.metrics (keyOf ns nr err) with
      | none => simp
      | some w => simp
    · next key val counts e =>
      dsimp only
      by_cases ek : key = k
      · subst ek
        have hh := h.held c val counts e
        have eq : (n + if (if counts = true then some key else none) = some key then 1 else 0) = n + counts.toNat := by
          cases counts <;> simp
        rw [eq]
        refine ⟨?_, ?_⟩
        · simp only [put_metrics, GoMap.get_set_same]
          simpa using hh
        · intro d v b e'
          rw [put_cpu] at e'
          split at e'
          · cases e'
          · next hne => exact absurd (ha d c ⟨v, b, e'⟩ ⟨val, counts, e⟩) hne
      · have eq : (if (if counts = true then some key else none) = some k then 1 else 0) = 0 := by
          cases counts <;> simp [ek]
        rw [eq, Nat.add_zero]
        refine ⟨?_, ?_⟩
        · simp only [put_metrics, GoMap.get_set, if_neg ek]
          exact h.stored
        · intro d v b e'
          rw [put_cpu] at e'
          split at e'
          · cases e'
          · exact h.held d v b e'

theorem exact_run {k : MKey} {as : List MAct} {s : MState} {n : Nat} (h : Exact k s n)
    (hd : ∀ a ∈ as, a ≠ .delete k)
    (ha : ∀ pre suf, as = pre ++ suf → ∀ c d, Copying (mrun s pre).1 c k → Copying (mrun s pre).1 d k → c = d) :
    Exact k (mrun s as).1 (n + (mrun s as).2.count k) := by
  induction as generalizing s n with
  | nil => simpa [mrun] using h
  | cons a as ih =>
    have h1 := exact_step h a (hd a (List.mem_cons_self ..)) (ha [] (a :: as) rfl)
    have h2 := ih h1 (fun b hb => hd b (List.mem_cons_of_mem _ hb)) (by
      intro pre suf e c d
      have := ha (a :: pre) suf (by rw [e]; rfl) c d
      simpa [mrun] using this)
    have eq : n + (mrun s (a :: as)).2.count k =
        n + (if (mstep s a).2 = some k then 1 else 0) + (mrun (mstep s a).1 as).2.count k := by
      simp only [mrun, List.count_append]
      cases (mstep s a).2 with
      | none => simp
      | some k' =>
        by_cases e : k' = k
        · subst e; simp; omega
        · simp [e]
    rw [eq]
    exact h2

/-! What is under way -/

/-- The entry under which the handler of a CPU will count a call. -/
def due : MPc → Option MKey
  | .start (.exit ns nr err _) => some (keyOf ns nr err)
  | .timed ns nr err _ _ => some (keyOf ns nr err)
  | .store k _ true => some k
  | _ => none

/-- `l` are the CPUs whose handlers will count a call under the entry. -/
structure Under (k : MKey) (s : MState) (l : List Nat) : Prop where
  nodup : l.Nodup
  mem : ∀ c, c ∈ l ↔ due (s.cpu c) = some k

theorem under_same {k : MKey} {s : MState} {l : List Nat} (h : Under k s l) (c : Nat) (p : MPc)
    (hp : due p = due (s.cpu c)) : Under k (s.put c p) l := by
  refine ⟨h.nodup, ?_⟩
  intro d
  rw [put_cpu]
  split
  · next e => rw [e, hp]; exact h.mem c
  · exact h.mem d

theorem under_step {k : MKey} {s : MState} {l : List Nat} (h : Under k s l) (a : MAct) :
    ∃ l', Under k (mstep s a).1 l' ∧
      (if (mstep s a).2 = some k then 1 else 0) + l'.length = returned k s [a] + l.length := by
  cases a with
  | call c j =>
    simp only [mstep]
    split
    · next hi =>
      have hnot : c ∉ l := by rw [h.mem, hi]; simp [due]
      by_cases hk : due (.start j) = some k
      · refine ⟨c :: l, ⟨List.nodup_cons.2 ⟨hnot, h.nodup⟩, ?_⟩, ?_⟩
        · intro d
          rw [put_cpu, List.mem_cons]
          split
          · next e => simp [e, hk]
          · next e => simp [e, h.mem d]
        · cases j with
          | enter => simp [due] at hk
          | exit ns nr err now =>
            simp only [due, Option.some.injEq] at hk
            simp [returned, hi, hk]
            omega
      · refine ⟨l, ⟨h.nodup, ?_⟩, ?_⟩
        · intro d
          rw [put_cpu]
          split
          · next e => rw [e]; simp [hk, hnot]
          · exact h.mem d
        · cases j with
          | enter => simp [returned]
          | exit ns nr err now =>
            simp only [due, Option.some.injEq] at hk
            simp [returned, hk]
    · next hi =>
      refine ⟨l, h, ?_⟩
      cases j <;> simp [returned, hi]
  | delete k' => exact ⟨l, ⟨h.nodup, h.mem⟩, by simp [mstep, returned]⟩
  | step c =>
    show ∃ l', Under k (advance s c).1 l' ∧ (if (advance s c).2 = some k then 1 else 0) + l'.length = 0 + 0 + l.length
    unfold advance
    split
    · exact ⟨l, h, by simp⟩
    · next ns nr now e => exact ⟨l, under_same h c _ (by rw [e]; rfl), by simp⟩
    · next ns nr err now e => exact ⟨l, under_same h c _ (by rw [e]; rfl), by simp⟩
    · next ns nr err now enter0 e => exact ⟨l, under_same h c _ (by rw [e]; rfl), by simp⟩
    · next key val counts e =>
      cases counts with
      | false => exact ⟨l, under_same (s := { s with metrics := GoMap.set s.metrics key val }) ⟨h.nodup, h.mem⟩ c _ (by
          show due .idle = due (s.cpu c); rw [e]; rfl), by simp⟩
      | true =>
        by_cases ek : key = k
        · subst ek
          have hm : c ∈ l := by rw [h.mem, e]; rfl
          refine ⟨l.erase c, ⟨h.nodup.erase c, ?_⟩, ?_⟩
          · intro d
            rw [put_cpu, h.nodup.mem_erase_iff]
            split
            · next e' => simp [e', due]
            · next e' => simp [e', h.mem d]
          · have := List.length_erase_of_mem hm
            have := List.length_pos_of_mem hm
            simp
            omega
        · refine ⟨l, ⟨h.nodup, ?_⟩, by simp [ek]⟩
          intro d
          rw [put_cpu]
          split
          · next e' => rw [e', h.mem, e]; simp [due, ek]
          · exact h.mem d

theorem returned_cons (k : MKey) (s : MState) (a : MAct) (as : List MAct) :
    returned k s (a :: as) = returned k s [a] + returned k (mstep s a).1 as := by
  simp [returned]

theorem under_run {k : MKey} {s : MState} {l : List Nat} (h : Under k s l) (as : List MAct) :
    ∃ l', Under k (mrun s as).1 l' ∧ (mrun s as).2.count k + l'.length = returned k s as + l.length := by
  induction as generalizing s l with
  | nil => exact ⟨l, h, by simp [mrun, returned]⟩
  | cons a as ih =>
    obtain ⟨l1, h1, e1⟩ := under_step h a
    obtain ⟨l2, h2, e2⟩ := ih h1
    refine ⟨l2, h2, ?_⟩
    rw [returned_cons]
    simp only [mrun, List.count_append]
    have : (mstep s a).2.toList.count k = if (mstep s a).2 = some k then 1 else 0 := by
      cases (mstep s a).2 with
      | none => simp
      | some k' => by_cases e : k' = k <;> simp [e]
    omega

theorem under_init (k : MKey) : Under k .init [] := ⟨List.nodup_nil, by intro c; simp [MState.init, due]⟩

/-! Many CPUs at once -/

theorem mstate_ext {s t : MState} (h1 : s.metrics = t.metrics) (h2 : s.cpu = t.cpu) : s = t := by
  cases s; cases t; cases h1; cases h2; rfl

/-- All of some CPUs take the same step, which leaves the map alone. -/
theorem many_step {p q : MPc} {m : GoMap MKey MVal}
    (hq : ∀ (s : MState) (c : Nat), s.metrics = m → s.cpu c = p → advance s c = (s.put c q, none))
    (cs : List Nat) (hn : cs.Nodup) (s : MState) (hm : s.metrics = m) (hp : ∀ c ∈ cs, s.cpu c = p) :
    mrun s (cs.map .step) = (⟨m, fun d => if d ∈ cs then q else s.cpu d⟩, []) := by
  induction cs generalizing s with
  | nil => simp [mrun, ← hm]
  | cons c cs ih =>
    rw [List.nodup_cons] at hn
    have h1 := hq s c hm (hp c (List.mem_cons_self ..))
    have h2 := ih hn.2 (s.put c q) hm (by
      intro d hd
      rw [put_cpu, if_neg (fun e => hn.1 (by rw [← e]; exact hd))]
      exact hp d (List.mem_cons_of_mem _ hd))
    simp only [List.map_cons, mrun, mstep, h1, h2, Option.toList_none, List.nil_append]
    congr 2
    funext d
    rw [put_cpu]
    by_cases e : d = c
    · subst e; simp [hn.1]
    · simp [e]

theorem many_call {j : MJob} (cs : List Nat) (hn : cs.Nodup) (s : MState) (hp : ∀ c ∈ cs, s.cpu c = .idle) :
    mrun s (cs.map (.call · j)) = (⟨s.metrics, fun d => if d ∈ cs then .start j else s.cpu d⟩, []) := by
  induction cs generalizing s with
  | nil => simp [mrun]
  | cons c cs ih =>
    rw [List.nodup_cons] at hn
    have h2 := ih hn.2 (s.put c (.start j)) (by
      intro d hd
      rw [put_cpu, if_neg (fun e => hn.1 (by rw [← e]; exact hd))]
      exact hp d (List.mem_cons_of_mem _ hd))
    simp only [List.map_cons, mrun, mstep, if_pos (hp c (List.mem_cons_self ..)), h2, Option.toList_none,
      List.nil_append, put_metrics]
    congr 2
    funext d
    rw [put_cpu]
    by_cases e : d = c
    · subst e; simp [hn.1]
    · simp [e]

/-- All of some CPUs store the same value. -/
theorem many_store {k : MKey} {v : MVal} (cs : List Nat) (hn : cs.Nodup) (s : MState)
    (hp : ∀ c ∈ cs, s.cpu c = .store k v true) :
    (mrun s (cs.map .step)).2 = List.replicate cs.length k ∧
    (cs ≠ [] → GoMap.get (mrun s (cs.map .step)).1.metrics k = some v) ∧
    ∀ d, (mrun s (cs.map .step)).1.cpu d = if d ∈ cs then .idle else s.cpu d := by
  induction cs generalizing s with
  | nil => exact ⟨rfl, fun h => absurd rfl h, fun d => by simp [mrun]⟩
  | cons c cs ih =>
    rw [List.nodup_cons] at hn
    have h1 : advance s c = ({ s with metrics := GoMap.set s.metrics k v }.put c .idle, some k) := by
      unfold advance
      rw [hp c (List.mem_cons_self ..)]
      rfl
    obtain ⟨h2, h3, h4⟩ := ih hn.2 ({ s with metrics := GoMap.set s.metrics k v }.put c .idle) (by
      intro d hd
      rw [put_cpu, if_neg (fun e => hn.1 (by rw [← e]; exact hd))]
      exact hp d (List.mem_cons_of_mem _ hd))
    simp only [List.map_cons, mrun, mstep, h1, h2, Option.toList_some]
    refine ⟨by simp [List.replicate_succ], fun _ => ?_, fun d => ?_⟩
    · by_cases e : cs = []
      · subst e
        simp [mrun]
      · exact h3 e
    · rw [h4, put_cpu]
      by_cases e : d = c
      · subst e; simp [hn.1]
      · simp [e]

/-- The handler has a copy of an entry. -/
def holds : MPc → Bool
  | .store _ _ _ => true
  | _ => false

/-- The CPU an action is about. -/
def cpuOf : MAct → Option Nat
  | .call c _ => some c
  | .step c => some c
  | .delete _ => none

theorem untouched_step {s : MState} {a : MAct} {c : Nat} (h : cpuOf a ≠ some c) : (mstep s a).1.cpu c = s.cpu c := by
  cases a with
  | call d j =>
    have hne : c ≠ d := fun e => h (by rw [e]; rfl)
    simp only [mstep]
    split
    · rw [put_cpu, if_neg hne]
    · rfl
  | delete k => rfl
  | step d =>
    have hne : c ≠ d := fun e => h (by rw [e]; rfl)
    show (advance s d).1.cpu c = _
    unfold advance
    split
    · rfl
    all_goals rw [put_cpu, if_neg hne]

theorem untouched_run {as : List MAct} {c : Nat} (h : ∀ a ∈ as, cpuOf a ≠ some c) (s : MState) :
    (mrun s as).1.cpu c = s.cpu c := by
  induction as generalizing s with
  | nil => rfl
  | cons a as ih =>
    simp only [mrun]
    rw [ih (fun b hb => h b (List.mem_cons_of_mem _ hb)), untouched_step (h a (List.mem_cons_self ..))]

/-! ### Sampling -/

@[simp] theorem sput_val (s : SState) (c : Nat) (p : SPc) : (s.put c p).val = s.val := rfl

theorem sput_cpu (s : SState) (c d : Nat) (p : SPc) : (s.put c p).cpu d = if d = c then p else s.cpu d := rfl

theorem srun_append (s : SState) (as bs : List SAct) :
    srun s (as ++ bs) = ((srun (srun s as).1 bs).1, (srun s as).2 ++ (srun (srun s as).1 bs).2) := by
  induction as generalizing s with
  | nil => rfl
  | cons a as ih => simp [srun, ih, List.append_assoc]

/-- No step changes the rate or the action. -/
theorem sstep_fixed (s : SState) (a : SAct) :
    (sstep s a).1.val.sampleRate = s.val.sampleRate ∧ (sstep s a).1.val.action = s.val.action := by
  cases a with
  | call c => simp only [sstep]; split <;> exact ⟨rfl, rfl⟩
  | step c =>
    simp only [sstep]
    split
    · exact ⟨rfl, rfl⟩
    · exact ⟨rfl, rfl⟩
    · exact ⟨rfl, rfl⟩
    · split <;> exact ⟨rfl, rfl⟩
    · split <;> exact ⟨rfl, rfl⟩

/-- Only a rule with a rate has its counter read. -/
def Rated (s : SState) : Prop := ∀ c n, s.cpu c = .sample n → 0 < s.val.sampleRate.toNat

theorem rated_put {s : SState} (h : Rated s) (c : Nat) {p : SPc}
    (hp : ∀ n, p = .sample n → 0 < s.val.sampleRate.toNat) : Rated (s.put c p) := by
  intro d n e
  rw [sput_cpu] at e
  split at e
  · exact hp n e
  · exact h d n e

theorem rated_step {s : SState} (h : Rated s) (a : SAct) : Rated (sstep s a).1 := by
  cases a with
  | call c =>
    simp only [sstep]
    split
    · exact rated_put h c (by intro n e; cases e)
    · exact h
  | step c =>
    simp only [sstep]
    split
    · exact h
    · exact rated_put h c (by intro n e; cases e)
    · exact rated_put (s := { s with val := _ }) h c (by intro n e; cases e)
    · split
      · next hr => exact rated_put h c (fun _ _ => hr)
      · exact rated_put h c (by intro n e; cases e)
    · split <;> exact rated_put (s := { s with val := _ }) h c (by intro n e; cases e)

/-- A rule of rate 0 or 1 gives its action. -/
theorem sstep_all {s : SState} (h : Rated s) (hr : s.val.sampleRate.toNat ≤ 1) (a : SAct) :
    ∀ r ∈ (sstep s a).2, r = s.val.action := by
  intro r hm
  cases a with
  | call c => simp only [sstep] at hm; split at hm <;> cases hm
  | step c =>
    simp only [sstep] at hm
    split at hm
    · cases hm
    · cases hm
    · cases hm
    · split at hm
      · cases hm
      · exact (Option.mem_some.1 hm).symm
    · next n e =>
      split at hm
      · next hc =>
        have := h c n e
        have : s.val.sampleRate.toNat = 1 := by omega
        rw [this, Nat.mod_one] at hc
        exact absurd rfl hc.2
      · exact (Option.mem_some.1 hm).symm

theorem srun_all {s : SState} (h : Rated s) (hr : s.val.sampleRate.toNat ≤ 1) (as : List SAct) :
    ∀ r ∈ (srun s as).2, r = s.val.action := by
  induction as generalizing s with
  | nil => intro r hm; cases hm
  | cons a as ih =>
    intro r hm
    obtain ⟨h1, h2⟩ := sstep_fixed s a
    rcases List.mem_append.1 hm with hm | hm
    · exact sstep_all h hr a r (Option.mem_toList.1 hm)
    · rw [← h2]
      exact ih (rated_step h a) (by rw [h1]; exact hr) r hm

/-- With nobody else at the counter, it says how many verdicts there were. -/
structure SExact (v : FilterVal) (s : SState) (n : Nat) : Prop where
  rate : s.val.sampleRate = v.sampleRate
  action : s.val.action = v.action
  stored : 0 < v.sampleRate.toNat → s.val.sampleCount = BitVec.ofNat 32 n
  held : ∀ c m, s.cpu c = .sample m → 0 < v.sampleRate.toNat ∧ m = BitVec.ofNat 32 n

theorem sexact_put {v : FilterVal} {s : SState} {n : Nat} (h : SExact v s n) (c : Nat) {p : SPc}
    (hp : ∀ m, p = .sample m → 0 < v.sampleRate.toNat ∧ m = BitVec.ofNat 32 n) : SExact v (s.put c p) n := by
  refine ⟨h.rate, h.action, h.stored, ?_⟩
  intro d m e
  rw [sput_cpu] at e
  split at e
  · exact hp m e
  · exact h.held d m e

theorem sexact_step {v : FilterVal} {s : SState} {n : Nat} (h : SExact v s n) (a : SAct)
    (ha : ∀ c d, Sampling s c → Sampling s d → c = d) (hn : n + 1 < 2 ^ 32) :
    SExact v (sstep s a).1 (n + (sstep s a).2.toList.length) ∧
    ∀ r ∈ (sstep s a).2, r = Spec.Filter.ithVerdict v.sampleRate.toNat v.action (n + 1) := by
  cases a with
  | call c =>
    simp only [sstep]
    split
    · exact ⟨sexact_put h c (by intro m e; cases e), by intro r hr; cases hr⟩
    · exact ⟨h, by intro r hr; cases hr⟩
  | step c =>
    simp only [sstep]
    split
    · exact ⟨h, by intro r hr; cases hr⟩
    · exact ⟨sexact_put h c (by intro m e; cases e), by intro r hr; cases hr⟩
    · next w e =>
      refine ⟨sexact_put (s := { s with val := { s.val with hits := w + 1 } })
        ⟨h.rate, h.action, h.stored, h.held⟩ c (by intro m e; cases e), by intro r hr; cases hr⟩
    · split
      · next hr =>
        rw [h.rate] at hr
        refine ⟨sexact_put h c ?_, by intro r hr; cases hr⟩
        intro m e
        injection e with e
        exact ⟨hr, by rw [← e, h.stored hr]⟩
      · next hr =>
        rw [h.rate] at hr
        refine ⟨sexact_put (n := n + 1) ⟨h.rate, h.action, fun h' => absurd h' hr, ?_⟩ c (by intro m e; cases e), ?_⟩
        · intro c m e
          exact absurd (h.held c m e).1 hr
        · intro r hr'
          rw [← Option.mem_some.1 hr', h.action]
          unfold Spec.Filter.ithVerdict
          have : v.sampleRate.toNat = 0 := by omega
          simp [this]
    · next m e =>
      obtain ⟨h1, h2⟩ := h.held c m e
      have e1 : m + 1 = BitVec.ofNat 32 (n + 1) := by
        rw [h2, BitVec.ofNat_add]; rfl
      have e2 : (m + 1).toNat = n + 1 := by
        rw [e1, BitVec.toNat_ofNat, Nat.mod_eq_of_lt hn]
      have key : SExact v ({ s with val := { s.val with sampleCount := m + 1 } }.put c .idle) (n + 1) := by
        refine ⟨h.rate, h.action, fun _ => e1, ?_⟩
        intro d m' e'
        rw [sput_cpu] at e'
        split at e'
        · cases e'
        · next hne => exact absurd (ha d c ⟨m', e'⟩ ⟨m, e⟩) hne
      split
      · next hc =>
        rw [e2, h.rate] at hc
        refine ⟨key, ?_⟩
        intro r hr
        rw [← Option.mem_some.1 hr]
        unfold Spec.Filter.ithVerdict
        rw [if_neg]
        intro ho
        rcases ho with ho | ho | ho
        · omega
        · omega
        · exact hc.2 (Nat.mod_eq_zero_of_dvd ho)
      · next hc =>
        rw [e2, h.rate] at hc
        refine ⟨key, ?_⟩
        intro r hr
        rw [← Option.mem_some.1 hr, h.action]
        unfold Spec.Filter.ithVerdict
        rw [if_pos]
        by_cases e : n = 0
        · exact Or.inr (Or.inl (by omega))
        · refine Or.inr (Or.inr (Nat.dvd_of_mod_eq_zero ?_))
          apply Decidable.byContradiction
          intro h'
          exact hc ⟨by omega, h'⟩

theorem sexact_run {v : FilterVal} {as : List SAct} {s : SState} {n : Nat} (h : SExact v s n)
    (ha : ∀ pre suf, as = pre ++ suf → ∀ c d, Sampling (srun s pre).1 c → Sampling (srun s pre).1 d → c = d)
    (hn : n + (srun s as).2.length < 2 ^ 32 - 1) :
    (srun s as).2 = (List.range' (n + 1) (srun s as).2.length).map
      (Spec.Filter.ithVerdict v.sampleRate.toNat v.action) := by
  induction as generalizing s n with
  | nil => rfl
  | cons a as ih =>
    obtain ⟨h1, h2⟩ := sexact_step h a (ha [] (a :: as) rfl) (by omega)
    simp only [srun] at hn ⊢
    rw [List.length_append] at hn ⊢
    have h3 := ih h1 (by
      intro pre suf e c d
      have := ha (a :: pre) suf (by rw [e]; rfl) c d
      simpa [srun] using this) (by omega)
    cases hv : (sstep s a).2 with
    | none =>
      rw [hv] at h3
      simpa using h3
    | some r =>
      rw [hv] at h3
      have := h2 r (by rw [hv]; rfl)
      simp only [Option.toList_some, List.singleton_append, List.length_singleton, List.length_cons,
        List.length_nil] at h3 ⊢
      rw [Nat.add_comm (0 + 1), Nat.zero_add, List.range'_succ, List.map_cons, ← this]
      congr 1

/-! Many CPUs at once -/

theorem smany_step {p q : SPc} {v : FilterVal}
    (hq : ∀ (s : SState) (c : Nat), s.val = v → s.cpu c = p → sstep s (.step c) = (s.put c q, none))
    (cs : List Nat) (hn : cs.Nodup) (s : SState) (hm : s.val = v) (hp : ∀ c ∈ cs, s.cpu c = p) :
    srun s (cs.map .step) = (⟨v, fun d => if d ∈ cs then q else s.cpu d⟩, []) := by
  induction cs generalizing s with
  | nil => simp [srun, ← hm]
  | cons c cs ih =>
    rw [List.nodup_cons] at hn
    have h1 := hq s c hm (hp c (List.mem_cons_self ..))
    have h2 := ih hn.2 (s.put c q) hm (by
      intro d hd
      rw [sput_cpu, if_neg (fun e => hn.1 (by rw [← e]; exact hd))]
      exact hp d (List.mem_cons_of_mem _ hd))
    simp only [List.map_cons, srun, h1, h2, Option.toList_none, List.nil_append]
    congr 2
    funext d
    rw [sput_cpu]
    by_cases e : d = c
    · subst e; simp [hn.1]
    · simp [e]

theorem smany_call (cs : List Nat) (hn : cs.Nodup) (s : SState) (hp : ∀ c ∈ cs, s.cpu c = .idle) :
    srun s (cs.map .call) = (⟨s.val, fun d => if d ∈ cs then .found else s.cpu d⟩, []) := by
  induction cs generalizing s with
  | nil => simp [srun]
  | cons c cs ih =>
    rw [List.nodup_cons] at hn
    have h2 := ih hn.2 (s.put c .found) (by
      intro d hd
      rw [sput_cpu, if_neg (fun e => hn.1 (by rw [← e]; exact hd))]
      exact hp d (List.mem_cons_of_mem _ hd))
    simp only [List.map_cons, srun, sstep, if_pos (hp c (List.mem_cons_self ..)), h2, Option.toList_none,
      List.nil_append, sput_val]
    congr 2
    funext d
    rw [sput_cpu]
    by_cases e : d = c
    · subst e; simp [hn.1]
    · simp [e]

/-- All of some CPUs write the hits they read. -/
theorem smany_hits {h : BitVec 64} {v : FilterVal} (cs : List Nat) (hn : cs.Nodup) (hne : cs ≠ []) (s : SState)
    (hm : ∃ w, s.val = { v with hits := w }) (hp : ∀ c ∈ cs, s.cpu c = .hits h) :
    srun s (cs.map .step) = (⟨{ v with hits := h + 1 }, fun d => if d ∈ cs then .counted else s.cpu d⟩, []) := by
  induction cs generalizing s with
  | nil => exact absurd rfl hne
  | cons c cs ih =>
    rw [List.nodup_cons] at hn
    obtain ⟨w, hw⟩ := hm
    have h1 : sstep s (.step c) = ((⟨{ v with hits := h + 1 }, s.cpu⟩ : SState).put c .counted, none) := by
      simp only [sstep, hp c (List.mem_cons_self ..), hw]
    simp only [List.map_cons, srun, h1, Option.toList_none, List.nil_append]
    by_cases e : cs = []
    · subst e
      simp [srun, SState.put]
    · rw [ih hn.2 e _ ⟨h + 1, rfl⟩ (by
        intro d hd
        rw [sput_cpu, if_neg (fun e => hn.1 (by rw [← e]; exact hd))]
        exact hp d (List.mem_cons_of_mem _ hd))]
      dsimp only
      congr 2
      funext d
      rw [sput_cpu]
      by_cases e : d = c
      · subst e; simp [hn.1]
      · simp [e]

/-- All of some CPUs decide with the counter they read. -/
theorem smany_sample {n : BitVec 32} {v : FilterVal} (cs : List Nat) (hn : cs.Nodup) (s : SState)
    (hm : s.val.sampleRate = v.sampleRate ∧ s.val.action = v.action) (hp : ∀ c ∈ cs, s.cpu c = .sample n) :
    (srun s (cs.map .step)).2 = List.replicate cs.length
      (if (n + 1).toNat > 1 ∧ (n + 1).toNat % v.sampleRate.toNat ≠ 0 then factionDrop else v.action) := by
  induction cs generalizing s with
  | nil => rfl
  | cons c cs ih =>
    rw [List.nodup_cons] at hn
    have h1 : sstep s (.step c) = ({ s with val := { s.val with sampleCount := n + 1 } }.put c .idle,
        some (if (n + 1).toNat > 1 ∧ (n + 1).toNat % v.sampleRate.toNat ≠ 0 then factionDrop else v.action)) := by
      simp only [sstep, hp c (List.mem_cons_self ..)]
      rw [hm.1, hm.2]
      split <;> rfl
    have h2 := ih hn.2 ({ s with val := { s.val with sampleCount := n + 1 } }.put c .idle) hm (by
      intro d hd
      rw [sput_cpu, if_neg (fun e => hn.1 (by rw [← e]; exact hd))]
      exact hp d (List.mem_cons_of_mem _ hd))
    simp only [List.map_cons, srun, h1, h2, Option.toList_some, List.length_cons, List.replicate_succ,
      List.singleton_append]

/-- Calls made at the same time on all of some idle CPUs. -/
def atOnce (cs : List Nat) : List SAct :=
  cs.map .call ++ cs.map .step ++ cs.map .step ++ cs.map .step ++ cs.map .step

theorem srun_atOnce (v : FilterVal) (hr : 0 < v.sampleRate.toNat) (cs : List Nat) (hn : cs.Nodup) (s : SState)
    (hm : s.val = v) (hp : ∀ c ∈ cs, s.cpu c = .idle) :
    (srun s (atOnce cs)).2 = List.replicate cs.length
      (if (v.sampleCount + 1).toNat > 1 ∧ (v.sampleCount + 1).toNat % v.sampleRate.toNat ≠ 0 then factionDrop
        else v.action) := by
  by_cases hne : cs = []
  · subst hne; rfl
  unfold atOnce
  rw [srun_append, srun_append, srun_append, srun_append]
  rw [smany_call cs hn s hp]
  dsimp only
  rw [smany_step (p := .found) (q := .hits v.hits) (v := v) (by
    intro t c h1 h2; simp only [sstep, h2, h1]) cs hn _ (by exact hm) (by intro c hc; simp [hc])]
  dsimp only
  rw [smany_hits (h := v.hits) (v := v) cs hn hne _ ⟨v.hits, rfl⟩ (by intro c hc; simp [hc])]
  dsimp only
  rw [smany_step (p := .counted) (q := .sample v.sampleCount) (v := { v with hits := v.hits + 1 }) (by
    intro t c h1 h2; simp only [sstep, h2, h1]; exact if_pos hr) cs hn _ rfl (by intro c hc; simp [hc])]
  simp only [List.nil_append]
  exact smany_sample cs hn _ ⟨rfl, rfl⟩ (by intro c hc; simp [hc])

/-- A call on an idle CPU that nobody interrupts. -/
theorem srun_alone (s : SState) (c : Nat) (hi : s.cpu c = .idle) :
    srun s (.call c :: List.replicate 4 (.step c)) = (⟨(Filter.hit s.val).1, s.cpu⟩, [(Filter.hit s.val).2]) := by
  have hc : (fun d => if d = c then SPc.idle else s.cpu d) = s.cpu := by
    funext d
    split
    · next e => rw [e, hi]
    · rfl
  have h2 : ∀ (p q : SPc), (fun d => if d = c then q else if d = c then p else s.cpu d) =
      fun d => if d = c then q else s.cpu d := by
    intro p q
    funext d
    split <;> rfl
  unfold Filter.hit
  by_cases hr : s.val.sampleRate.toNat > 0
  · simp [List.replicate, srun, sstep, hi, SState.put, hr, h2, hc]
    split <;> simp
  · simp [List.replicate, srun, sstep, hi, SState.put, hr, h2, hc]

/-- Calls on CPU 0, one after the other. -/
def inTurn (m : Nat) : List SAct := (List.replicate m (.call 0 :: List.replicate 4 (.step 0))).flatten

theorem srun_inTurn (m : Nat) (v : FilterVal) (hr : 0 < v.sampleRate.toNat) (s : SState) (hi : s.cpu 0 = .idle)
    (hv : ∃ h, s.val = { v with hits := h }) :
    (srun s (inTurn m)).1.cpu = s.cpu ∧ (srun s (inTurn m)).2.length = m ∧
    ∃ h, (srun s (inTurn m)).1.val = { v with hits := h, sampleCount := v.sampleCount + BitVec.ofNat 32 m } := by
  induction m generalizing s v with
  | zero =>
    obtain ⟨h, hv⟩ := hv
    exact ⟨rfl, rfl, h, by simp [inTurn, srun, hv]⟩
  | succ m ih =>
    obtain ⟨h, hv⟩ := hv
    have e : inTurn (m + 1) = (.call 0 :: List.replicate 4 (.step 0)) ++ inTurn m := by
      simp [inTurn, List.replicate_succ]
    rw [e, srun_append, srun_alone s 0 hi]
    have hh : ∃ h', (Filter.hit s.val).1 = { v with hits := h', sampleCount := v.sampleCount + 1 } := by
      refine ⟨h + 1, ?_⟩
      unfold Filter.hit
      rw [hv]
      simp only [if_pos hr]
      split <;> rfl
    obtain ⟨h', hh⟩ := hh
    obtain ⟨i1, i2, h'', i3⟩ := ih { v with sampleCount := v.sampleCount + 1 } hr ⟨(Filter.hit s.val).1, s.cpu⟩ hi ⟨h', hh⟩
    refine ⟨i1, by simp [i2], h'', ?_⟩
    dsimp only
    rw [i3, Nat.add_comm m 1, BitVec.ofNat_add, ← BitVec.add_assoc]
    rfl

/-- The handler has read the counter. -/
def samples : SPc → Bool
  | .sample _ => true
  | _ => false

/-- The CPU an action is about. -/
def scpuOf : SAct → Nat
  | .call c => c
  | .step c => c

theorem suntouched_step {s : SState} {a : SAct} {c : Nat} (h : scpuOf a ≠ c) : (sstep s a).1.cpu c = s.cpu c := by
  cases a with
  | call d =>
    have hne : c ≠ d := fun e => h e.symm
    simp only [sstep]
    split
    · rw [sput_cpu, if_neg hne]
    · rfl
  | step d =>
    have hne : c ≠ d := fun e => h e.symm
    simp only [sstep]
    split
    · rfl
    · rw [sput_cpu, if_neg hne]
    · rw [sput_cpu, if_neg hne]
    · split <;> rw [sput_cpu, if_neg hne]
    · split <;> rw [sput_cpu, if_neg hne]

theorem suntouched_run {as : List SAct} {c : Nat} (h : ∀ a ∈ as, scpuOf a ≠ c) (s : SState) :
    (srun s as).1.cpu c = s.cpu c := by
  induction as generalizing s with
  | nil => rfl
  | cons a as ih =>
    simp only [srun]
    rw [ih (fun b hb => h b (List.mem_cons_of_mem _ hb)), suntouched_step (h a (List.mem_cons_self ..))]

/-! ### Pairing -/

theorem pairRun_append (s : PSt) (as bs : List PAct) :
    pairRun s (as ++ bs) = ((pairRun (pairRun s as).1 bs).1, (pairRun s as).2.1 ++ (pairRun (pairRun s as).1 bs).2.1,
      (pairRun s as).2.2 ++ (pairRun (pairRun s as).1 bs).2.2) := by
  induction as generalizing s with
  | nil => rfl
  | cons a as ih => simp [pairRun, ih, List.append_assoc]

theorem pput_cpu (s : PSt) (c d : Nat) (p : PPc) : (s.put c p).cpu d = if d = c then p else s.cpu d := rfl

theorem paired_append (t : BitVec 64) (p : Option EvKey) (xs ys : List PJob) :
    paired t p (xs ++ ys) =
      ((paired t p xs).1 ++ (paired t (paired t p xs).2 ys).1, (paired t (paired t p xs).2 ys).2) := by
  induction xs generalizing p with
  | nil => rfl
  | cons j js ih =>
    cases j with
    | enter k => cases p <;> simp [paired, ih]
    | exit id ns now ret =>
      cases p with
      | none => simp [paired, ih]
      | some k =>
        simp only [List.cons_append, paired, ih]
        split <;> simp

/-- What holds of a thread whose handler is at the given point on some CPU, given the handlers of the thread
started, the events of it sent, its entry in the state map and the CPU's buffer. -/
def Good (t : BitVec 64) (jobs : List PJob) (outs : List Event) (st : Option EvKey) (sc : Option Event) :
    PPc → Prop
  | .idle => True
  | .start _ j => ∃ js, jobs = js ++ [j] ∧ outs = (paired t none js).1 ∧ st = (paired t none js).2
  | .fill _ id ns now ret => ∃ js k, jobs = js ++ [.exit id ns now ret] ∧ outs = (paired t none js).1 ∧
      st = (paired t none js).2 ∧ st = some k ∧ k.id = id
  | .send _ => ∃ ev, sc = some ev ∧ ev.pidTid = t ∧ (paired t none jobs).1 = outs ++ [ev] ∧
      (paired t none jobs).2 = none
  | .drop _ => outs = (paired t none jobs).1 ∧ (paired t none jobs).2 = none

/-- What holds of one thread. -/
structure PInv (t : BitVec 64) (s : PSt) (jobs : List PJob) (outs : List Event) : Prop where
  low : ∀ c, s.cpu c ≠ .idle → c < s.cpus
  sends : ∀ c u, s.cpu c = .send u → ∃ ev, s.scratch c = some ev ∧ ev.pidTid = u
  uniq : ∀ c d, (s.cpu c).thread = some t → (s.cpu d).thread = some t → c = d
  away : Away s t → outs = (paired t none jobs).1 ∧ GoMap.get s.state t = (paired t none jobs).2
  mine : ∀ c, (s.cpu c).thread = some t → Good t jobs outs (GoMap.get s.state t) (s.scratch c) (s.cpu c)

theorem pinv_other {t : BitVec 64} {s s' : PSt} {jobs : List PJob} {outs : List Event} (h : PInv t s jobs outs)
    (c : Nat) (hc : c < s.cpus) (h1 : ∀ d, d ≠ c → s'.cpu d = s.cpu d) (h2 : s'.cpus = s.cpus)
    (h3 : ∀ d, d ≠ c → s'.scratch d = s.scratch d)
    (h4 : ∀ u, s'.cpu c = .send u → ∃ ev, s'.scratch c = some ev ∧ ev.pidTid = u)
    (h5 : (s.cpu c).thread ≠ some t) (h6 : (s'.cpu c).thread ≠ some t)
    (h7 : GoMap.get s'.state t = GoMap.get s.state t) : PInv t s' jobs outs := by
  have key : ∀ d, (s'.cpu d).thread = some t → d ≠ c ∧ (s.cpu d).thread = some t := by
    intro d hd
    have hne : d ≠ c := fun e => h6 (by rw [← e]; exact hd)
    exact ⟨hne, by rw [← h1 d hne]; exact hd⟩
  refine ⟨?_, ?_, ?_, ?_, ?_⟩
  · intro d hd
    rw [h2]
    by_cases e : d = c
    · rw [e]; exact hc
    · exact h.low d (by rw [← h1 d e]; exact hd)
  · intro d u hd
    by_cases e : d = c
    · subst e; exact h4 u hd
    · rw [h3 d e]
      exact h.sends d u (by rw [← h1 d e]; exact hd)
  · intro d e hd he
    exact h.uniq d e (key d hd).2 (key e he).2
  · intro ha
    rw [h7]
    refine h.away ?_
    intro d
    by_cases e : d = c
    · rw [e]; exact h5
    · rw [← h1 d e]; exact ha d
  · intro d hd
    obtain ⟨hne, hd'⟩ := key d hd
    rw [h7, h3 d hne, h1 d hne]
    exact h.mine d hd'

theorem pinv_mine {t : BitVec 64} {s s' : PSt} {jobs jobs' : List PJob} {outs outs' : List Event}
    (h : PInv t s jobs outs)
    (c : Nat) (hc : c < s.cpus) (h1 : ∀ d, d ≠ c → s'.cpu d = s.cpu d) (h2 : s'.cpus = s.cpus)
    (h3 : ∀ d, d ≠ c → s'.scratch d = s.scratch d)
    (h4 : ∀ u, s'.cpu c = .send u → ∃ ev, s'.scratch c = some ev ∧ ev.pidTid = u)
    (h5 : ∀ d, d ≠ c → (s.cpu d).thread ≠ some t)
    (h6 : (s'.cpu c).thread = some t → Good t jobs' outs' (GoMap.get s'.state t) (s'.scratch c) (s'.cpu c))
    (h7 : (s'.cpu c).thread ≠ some t →
      outs' = (paired t none jobs').1 ∧ GoMap.get s'.state t = (paired t none jobs').2) :
    PInv t s' jobs' outs' := by
  have key : ∀ d, (s'.cpu d).thread = some t → d = c := by
    intro d hd
    apply Decidable.byContradiction
    intro hne
    exact h5 d hne (by rw [← h1 d hne]; exact hd)
  refine ⟨?_, ?_, ?_, ?_, ?_⟩
  · intro d hd
    rw [h2]
    by_cases e : d = c
    · rw [e]; exact hc
    · exact h.low d (by rw [← h1 d e]; exact hd)
  · intro d u hd
    by_cases e : d = c
    · subst e; exact h4 u hd
    · rw [h3 d e]
      exact h.sends d u (by rw [← h1 d e]; exact hd)
  · intro d e hd he
    rw [key d hd, key e he]
  · intro ha
    exact h7 (ha c)
  · intro d hd
    have := key d hd
    subst this
    exact h6 hd

theorem busy_away {s : PSt} {t : BitVec 64} (hl : ∀ c, s.cpu c ≠ .idle → c < s.cpus) (hb : s.busy t = false) :
    Away s t := by
  intro c hc
  have hne : s.cpu c ≠ .idle := by intro e; rw [e] at hc; cases hc
  unfold PSt.busy at hb
  rw [List.any_eq_false] at hb
  exact hb c (List.mem_range.2 (hl c hne)) (by simpa using hc)

theorem pinv_step {t : BitVec 64} {s : PSt} {jobs : List PJob} {outs : List Event} (h : PInv t s jobs outs)
    (a : PAct) : PInv t (pairStep s a).1 (jobs ++ jobsOf t (pairStep s a).2.1.toList)
      (outs ++ eventsOf t (pairStep s a).2.2.toList) := by
  have hs : PInv t s (jobs ++ jobsOf t []) (outs ++ eventsOf t []) := by
    simpa [jobsOf, eventsOf] using h
  cases a with
  | call c u j =>
    simp only [pairStep]
    split
    · next hcond =>
      obtain ⟨hc, hidle, hb⟩ := hcond
      have haw := busy_away h.low hb
      by_cases e : u = t
      · subst e
        have ho := h.away haw
        have hj : jobs ++ jobsOf u (some (u, j)).toList = jobs ++ [j] := by simp [jobsOf]
        rw [hj]
        refine pinv_mine h c hc (fun d hd => by rw [pput_cpu, if_neg hd]) rfl (fun _ _ => rfl)
          (by intro v hv; rw [pput_cpu, if_pos rfl] at hv; cases hv) (fun d _ => haw d) ?_ ?_
        · intro _
          rw [pput_cpu, if_pos rfl]
          exact ⟨jobs, rfl, by simpa [eventsOf] using ho.1, ho.2⟩
        · intro hne
          rw [pput_cpu, if_pos rfl] at hne
          exact absurd rfl hne
      · have hj : jobs ++ jobsOf t (some (u, j)).toList = jobs ++ jobsOf t [] := by simp [jobsOf, e]
        rw [hj]
        refine pinv_other hs c hc (fun d hd => by rw [pput_cpu, if_neg hd]) rfl (fun _ _ => rfl)
          (by intro v hv; rw [pput_cpu, if_pos rfl] at hv; cases hv) (by rw [hidle]; intro h'; cases h') ?_ rfl
        rw [pput_cpu, if_pos rfl]
        intro h'
        exact e (Option.some.inj h')
    · exact hs
  | step c =>
    show PInv t (padvance s c).1 (jobs ++ jobsOf t []) (outs ++ eventsOf t (padvance s c).2.toList)
    by_cases hi : s.cpu c = .idle
    · unfold padvance
      rw [hi]
      exact hs
    have hc := h.low c hi
    by_cases ht : (s.cpu c).thread = some t
    · have h5 : ∀ d, d ≠ c → (s.cpu d).thread ≠ some t := fun d hd h' => hd (h.uniq d c h' ht)
      have hg := h.mine c ht
      have hj : jobs ++ jobsOf t [] = jobs := by simp [jobsOf]
      have he : outs ++ eventsOf t (none : Option Event).toList = outs := by simp [eventsOf]
      rw [hj]
      unfold padvance
      cases hp : s.cpu c with
      | idle => exact absurd hp hi
      | start u j =>
        rw [hp] at ht hg
        cases Option.some.inj ht
        obtain ⟨js, e1, e2, e3⟩ := hg
        cases j with
        | enter k =>
          dsimp only
          rw [he]
          refine pinv_mine h c hc (fun d hd => by rw [pput_cpu, if_neg hd]) rfl (fun _ _ => rfl)
            (by intro v hv; rw [pput_cpu, if_pos rfl] at hv; cases hv) h5 ?_ ?_
          · intro h'; rw [pput_cpu, if_pos rfl] at h'; cases h'
          · intro _
            rw [e1, paired_append, e2]
            refine ⟨by cases (paired t none js).2 <;> simp [paired], ?_⟩
            show GoMap.get (GoMap.set s.state t k) t = _
            rw [GoMap.get_set_same]
            cases (paired t none js).2 <;> simp [paired]
        | exit id ns now ret =>
          dsimp only
          cases hst : GoMap.get s.state t with
          | none =>
            dsimp only
            rw [he]
            rw [hst] at e3
            refine pinv_mine h c hc (fun d hd => by rw [pput_cpu, if_neg hd]) rfl (fun _ _ => rfl)
              (by intro v hv; rw [pput_cpu, if_pos rfl] at hv; cases hv) h5 ?_ ?_
            · intro h'; rw [pput_cpu, if_pos rfl] at h'; cases h'
            · intro _
              rw [e1, paired_append, e2, ← e3]
              exact ⟨by simp [paired], hst⟩
          | some k =>
            rw [hst] at e3
            dsimp only
            split
            · next hid =>
              rw [he]
              refine pinv_mine h c hc (fun d hd => by rw [pput_cpu, if_neg hd]) rfl (fun _ _ => rfl)
                (by intro v hv; rw [pput_cpu, if_pos rfl] at hv; cases hv) h5 ?_ ?_
              · intro _
                rw [pput_cpu, if_pos rfl]
                refine ⟨?_, ?_⟩
                · rw [e1, paired_append, e2, ← e3]
                  simp [paired, hid]
                · rw [e1, paired_append, ← e3]
                  simp [paired]
              · intro h'; rw [pput_cpu, if_pos rfl] at h'; exact absurd rfl h'
            · next hid =>
              rw [he]
              refine pinv_mine h c hc (fun d hd => by rw [pput_cpu, if_neg hd]) rfl (fun _ _ => rfl)
                (by intro v hv; rw [pput_cpu, if_pos rfl] at hv; cases hv) h5 ?_ ?_
              · intro _
                rw [pput_cpu, if_pos rfl]
                exact ⟨js, k, e1, e2, hst.trans e3, hst, (Decidable.not_not.1 hid).symm⟩
              · intro h'; rw [pput_cpu, if_pos rfl] at h'; exact absurd rfl h'
      | fill u id ns now ret =>
        rw [hp] at ht hg
        cases Option.some.inj ht
        obtain ⟨js, k, e1, e2, e3, e4, e5⟩ := hg
        dsimp only
        rw [e4]
        dsimp only
        rw [he]
        refine pinv_mine h c hc (fun d hd => by rw [pput_cpu, if_neg hd]) rfl (fun d hd => by
          show (if d = c then _ else _) = _; rw [if_neg hd]) ?_ h5 ?_ ?_
        · intro v hv
          rw [pput_cpu, if_pos rfl] at hv
          injection hv with hv
          exact ⟨_, if_pos rfl, hv⟩
        · intro _
          rw [pput_cpu, if_pos rfl]
          refine ⟨_, if_pos rfl, rfl, ?_, ?_⟩
          · rw [e1, paired_append, e2, ← e3, e4]
            simp [paired, e5]
          · rw [e1, paired_append, ← e3, e4]
            simp [paired]
        · intro h'; rw [pput_cpu, if_pos rfl] at h'; exact absurd rfl h'
      | send u =>
        rw [hp] at ht hg
        cases Option.some.inj ht
        obtain ⟨ev, e1, e2, e3, e4⟩ := hg
        dsimp only
        rw [e1]
        refine pinv_mine h c hc (fun d hd => by rw [pput_cpu, if_neg hd]) rfl (fun _ _ => rfl)
          (by intro v hv; rw [pput_cpu, if_pos rfl] at hv; cases hv) h5 ?_ ?_
        · intro _
          rw [pput_cpu, if_pos rfl]
          exact ⟨by rw [e3]; simp [eventsOf, e2], e4⟩
        · intro h'; rw [pput_cpu, if_pos rfl] at h'; exact absurd rfl h'
      | drop u =>
        rw [hp] at ht hg
        cases Option.some.inj ht
        obtain ⟨e1, e2⟩ := hg
        dsimp only
        rw [he]
        refine pinv_mine h c hc (fun d hd => by rw [pput_cpu, if_neg hd]) rfl (fun _ _ => rfl)
          (by intro v hv; rw [pput_cpu, if_pos rfl] at hv; cases hv) h5 ?_ ?_
        · intro h'; rw [pput_cpu, if_pos rfl] at h'; cases h'
        · intro _
          refine ⟨e1, ?_⟩
          rw [e2]
          exact GoMap.get_del_same ..
    · have he : outs ++ eventsOf t (none : Option Event).toList = outs ++ eventsOf t [] := rfl
      unfold padvance
      cases hp : s.cpu c with
      | idle => exact absurd hp hi
      | start u j =>
        rw [hp] at ht
        have hu : u ≠ t := fun e => ht (by rw [e]; rfl)
        cases j with
        | enter k =>
          refine pinv_other hs c hc (fun d hd => by rw [pput_cpu, if_neg hd]) rfl (fun _ _ => rfl)
            (by intro v hv; rw [pput_cpu, if_pos rfl] at hv; cases hv) (by rw [hp]; exact ht) ?_ ?_
          · rw [pput_cpu, if_pos rfl]; intro h'; cases h'
          · exact GoMap.get_set_other _ _ hu
        | exit id ns now ret =>
          dsimp only
          split
          · refine pinv_other hs c hc (fun d hd => by rw [pput_cpu, if_neg hd]) rfl (fun _ _ => rfl)
              (by intro v hv; rw [pput_cpu, if_pos rfl] at hv; cases hv) (by rw [hp]; exact ht) ?_ rfl
            rw [pput_cpu, if_pos rfl]; intro h'; cases h'
          · split
            · refine pinv_other hs c hc (fun d hd => by rw [pput_cpu, if_neg hd]) rfl (fun _ _ => rfl)
                (by intro v hv; rw [pput_cpu, if_pos rfl] at hv; cases hv) (by rw [hp]; exact ht) ?_ rfl
              rw [pput_cpu, if_pos rfl]; exact ht
            · refine pinv_other hs c hc (fun d hd => by rw [pput_cpu, if_neg hd]) rfl (fun _ _ => rfl)
                (by intro v hv; rw [pput_cpu, if_pos rfl] at hv; cases hv) (by rw [hp]; exact ht) ?_ rfl
              rw [pput_cpu, if_pos rfl]; exact ht
      | fill u id ns now ret =>
        rw [hp] at ht
        dsimp only
        split
        · refine pinv_other hs c hc (fun d hd => by rw [pput_cpu, if_neg hd]) rfl (fun _ _ => rfl)
            (by intro v hv; rw [pput_cpu, if_pos rfl] at hv; cases hv) (by rw [hp]; exact ht) ?_ rfl
          rw [pput_cpu, if_pos rfl]; exact ht
        · refine pinv_other hs c hc (fun d hd => by rw [pput_cpu, if_neg hd]) rfl (fun d hd => by
            show (if d = c then _ else _) = _; rw [if_neg hd]) ?_ (by rw [hp]; exact ht) ?_ rfl
          · intro v hv
            rw [pput_cpu, if_pos rfl] at hv
            injection hv with hv
            exact ⟨_, if_pos rfl, hv⟩
          · rw [pput_cpu, if_pos rfl]; exact ht
      | send u =>
        rw [hp] at ht
        have hu : u ≠ t := fun e => ht (by rw [e]; rfl)
        obtain ⟨ev, e1, e2⟩ := h.sends c u hp
        dsimp only
        have e3 : outs ++ eventsOf t (s.scratch c).toList = outs ++ eventsOf t [] := by
          rw [e1]
          simp [eventsOf, e2, hu]
        rw [e3]
        refine pinv_other hs c hc (fun d hd => by rw [pput_cpu, if_neg hd]) rfl (fun _ _ => rfl)
          (by intro v hv; rw [pput_cpu, if_pos rfl] at hv; cases hv) (by rw [hp]; exact ht) ?_ rfl
        rw [pput_cpu, if_pos rfl]; exact ht
      | drop u =>
        rw [hp] at ht
        have hu : u ≠ t := fun e => ht (by rw [e]; rfl)
        refine pinv_other hs c hc (fun d hd => by rw [pput_cpu, if_neg hd]) rfl (fun _ _ => rfl)
          (by intro v hv; rw [pput_cpu, if_pos rfl] at hv; cases hv) (by rw [hp]; exact ht) ?_ ?_
        · rw [pput_cpu, if_pos rfl]; intro h'; cases h'
        · exact GoMap.get_del_other _ hu

theorem pinv_run {t : BitVec 64} {s : PSt} {jobs : List PJob} {outs : List Event} (h : PInv t s jobs outs)
    (as : List PAct) :
    PInv t (pairRun s as).1 (jobs ++ jobsOf t (pairRun s as).2.1) (outs ++ eventsOf t (pairRun s as).2.2) := by
  induction as generalizing s jobs outs with
  | nil => simpa [pairRun, jobsOf, eventsOf] using h
  | cons a as ih =>
    have := ih (pinv_step h a)
    simp only [pairRun]
    unfold jobsOf eventsOf at this ⊢
    rw [List.filterMap_append, List.filter_append, ← List.append_assoc, ← List.append_assoc]
    exact this

theorem paired_length (t : BitVec 64) (p : Option EvKey) (j : PJob) : (paired t p [j]).1.length ≤ 1 := by
  cases j with
  | enter k => cases p <;> simp [paired]
  | exit id ns now ret =>
    cases p with
    | none => simp [paired]
    | some k => simp only [paired]; split <;> simp

/-- Away or not, at most one event is still to be sent. -/
theorem pinv_behind {t : BitVec 64} {s : PSt} {jobs : List PJob} {outs : List Event} (h : PInv t s jobs outs) :
    ∃ l, (paired t none jobs).1 = outs ++ l ∧ l.length ≤ 1 := by
  by_cases ha : Away s t
  · exact ⟨[], by rw [(h.away ha).1, List.append_nil], Nat.zero_le _⟩
  · obtain ⟨c, hc⟩ : ∃ c, (s.cpu c).thread = some t := by
      apply Classical.byContradiction
      intro hn
      exact ha (fun c hc => hn ⟨c, hc⟩)
    have hg := h.mine c hc
    cases hp : s.cpu c with
    | idle => rw [hp] at hc; cases hc
    | start u j =>
      rw [hp] at hg
      obtain ⟨js, e1, e2, _⟩ := hg
      rw [e1, paired_append, e2]
      exact ⟨_, rfl, paired_length _ _ _⟩
    | fill u id ns now ret =>
      rw [hp] at hg
      obtain ⟨js, k, e1, e2, _⟩ := hg
      rw [e1, paired_append, e2]
      exact ⟨_, rfl, paired_length _ _ _⟩
    | send u =>
      rw [hp] at hg
      obtain ⟨ev, _, _, e, _⟩ := hg
      exact ⟨[ev], e, Nat.le_refl 1⟩
    | drop u =>
      rw [hp] at hg
      exact ⟨[], by rw [hg.1, List.append_nil], Nat.zero_le _⟩

theorem pinv_init (t : BitVec 64) (n : Nat) : PInv t (.init n) [] [] :=
  ⟨fun _ h => absurd rfl h, (by intro c u h; cases h), (by intro c d h; cases h), fun _ => ⟨rfl, rfl⟩,
    (by intro c h; cases h)⟩

end Swoll.Lemmas.Smp
