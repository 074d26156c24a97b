import Verif.Spec.Sync
/-
Lock discipline: every goroutine takes locks in one order and touches a table only with its lock.
Goroutines that keep to it neither race nor deadlock.
-/
namespace Swoll.Lemmas.Sync
open Swoll.Sync Swoll.Spec.Sync

/-- What a goroutine holds: locks, with `true` for writing. -/
abbrev Held := List (Lock × Bool)

/-- The order of the locks. -/
def rank : Lock → Nat
  | .hub => 0
  | .ps => 1
  | .clouds => 2
  | .topo _ => 3
  | .running => 4
  | .completed => 5
  | .alerts => 6
  | .metrics _ => 7
  | .top => 8

/-- Which lock a table needs. -/
def guard : Var → Option Lock
  | .jobs => some .hub
  | .tree => some .ps
  | .cache i => some (.topo i)
  | .runningJobs => some .running
  | .completedJobs => some .completed
  | .queue => some .alerts
  | _ => none

/-- The same without the hub's tables. -/
def guard' : Var → Option Lock
  | .jobs => none
  | v => guard v

variable {g : Var → Option Lock}

/-- A connection to a client. -/
def isConn : Var → Bool
  | .conn _ => true
  | _ => false

/-- One action under the discipline.  Nobody sends to a client with a lock other than those of the hub
and of the subscriptions. -/
def next (g : Var → Option Lock) (h : Held) : Act → Option Held
  | .lock l => if ∀ x ∈ h, rank x.1 < rank l then some ((l, true) :: h) else none
  | .rlock l => if ∀ x ∈ h, rank x.1 < rank l then some ((l, false) :: h) else none
  | .unlock l => if (l, true) ∈ h then some (h.erase (l, true)) else none
  | .runlock l => if (l, false) ∈ h then some (h.erase (l, false)) else none
  | .read v =>
    match g v with
    | none => some h
    | some l => if (l, true) ∈ h ∨ (l, false) ∈ h then some h else none
  | .write v =>
    match g v with
    | none => if isConn v = true → ∀ x ∈ h, rank x.1 < 2 then some h else none
    | some l => if (l, true) ∈ h then some h else none

/-- A run under the discipline. -/
def exec (g : Var → Option Lock) : Held → List Act → Option Held
  | h, [] => some h
  | h, a :: as =>
    match next g h a with
    | none => none
    | some h' => exec g h' as

theorem exec_append (h : Held) (xs ys : List Act) : exec g h (xs ++ ys) = (exec g h xs).bind (fun h' => exec g h' ys) := by
  induction xs generalizing h with
  | nil => rfl
  | cons a xs ih =>
    simp only [List.cons_append, exec]
    cases next g h a with
    | none => rfl
    | some h' => exact ih h'

/-- All runs of the function keep to the discipline and go from `h` to `h'`. -/
def Typed (g : Var → Option Lock) (h : Held) (p : Prog) (h' : Held) : Prop := ∀ tr, Runs p tr → exec g h tr = some h'

theorem typed_skip (h : Held) : Typed g h .skip h := by
  intro tr hr; cases hr; rfl

theorem typed_act {h h' : Held} {a : Act} (hn : next g h a = some h') : Typed g h (.act a) h' := by
  intro tr hr; cases hr; simp only [exec, hn]

theorem typed_seq {h h1 h2 : Held} {p q : Prog} (hp : Typed g h p h1) (hq : Typed g h1 q h2) : Typed g h (.seq p q) h2 := by
  intro tr hr
  cases hr with
  | seq a b => rw [exec_append, hp _ a]; exact hq _ b

theorem typed_alt {h h' : Held} {p q : Prog} (hp : Typed g h p h') (hq : Typed g h q h') : Typed g h (.alt p q) h' := by
  intro tr hr
  cases hr with
  | left a => exact hp _ a
  | right a => exact hq _ a

theorem typed_opt {h : Held} {p : Prog} (hp : Typed g h p h) : Typed g h (opt p) h := typed_alt hp (typed_skip h)

theorem typed_many {h : Held} {p : Prog} (hp : Typed g h p h) : Typed g h (.many p) h := by
  intro tr hr
  generalize hq : Prog.many p = q at hr
  induction hr with
  | stop => rfl
  | more a b _ ih =>
    injection hq with hq
    subst hq
    rw [exec_append, hp _ a]
    exact ih rfl
  | skip | act _ | seq _ _ | left _ | right _ | any _ _ => cases hq

theorem typed_any {h h' : Held} {f : Nat → Prog} (hf : ∀ i, Typed g h (f i) h') : Typed g h (.any f) h' := by
  intro tr hr
  cases hr with
  | any i a => exact hf i _ a

theorem typed_locking {h : Held} {l : Lock} {p : Prog} (hl : ∀ x ∈ h, rank x.1 < rank l)
    (hp : Typed g ((l, true) :: h) p ((l, true) :: h)) : Typed g h (locking l p) h := by
  refine typed_seq (typed_act (h' := (l, true) :: h) ?_) (typed_seq hp (typed_act ?_))
  · simp only [next, if_pos hl]
  · simp [next]

theorem typed_reading {h : Held} {l : Lock} {p : Prog} (hl : ∀ x ∈ h, rank x.1 < rank l)
    (hp : Typed g ((l, false) :: h) p ((l, false) :: h)) : Typed g h (reading l p) h := by
  refine typed_seq (typed_act (h' := (l, false) :: h) ?_) (typed_seq hp (typed_act ?_))
  · simp only [next, if_pos hl]
  · simp [next]

theorem typed_read {h : Held} {v : Var} (hv : ∀ l, g v = some l → (l, true) ∈ h ∨ (l, false) ∈ h) : Typed g h (.act (.read v)) h := by
  apply typed_act
  simp only [next]
  cases e : g v with
  | none => rfl
  | some l => exact if_pos (hv l e)

theorem typed_write {h : Held} {v : Var} (hv : ∀ l, g v = some l → (l, true) ∈ h)
    (hc : isConn v = true → ∀ x ∈ h, rank x.1 < 2) : Typed g h (.act (.write v)) h := by
  apply typed_act
  simp only [next]
  cases e : g v with
  | none => exact if_pos hc
  | some l => exact if_pos (hv l e)

/-! ### The invariant -/

/-- Who holds what. -/
structure Inv (g : Var → Option Lock) (c : Cfg) (held : Nat → Held) : Prop where
  ok : ∀ i t, c.todo[i]? = some t → exec g (held i) t = some []
  out : ∀ i, c.todo[i]? = none → held i = []
  order : ∀ i, (held i).Pairwise (fun a b => rank b.1 < rank a.1)
  writes : ∀ i l, (l, true) ∈ held i ↔ (c.locks l).writer = some i ∧ (c.locks l).held = true
  reads : ∀ i l, (held i).count (l, false) = (c.locks l).readers.count i
  waits : ∀ i l, (c.locks l).writer = some i → (c.locks l).held = false → ∃ rest, c.todo[i]? = some (.lock l :: rest)
  alone : ∀ l, (c.locks l).held = true → (c.locks l).readers = [] ∧ (c.locks l).writer ≠ none

theorem inv_start {todo : List (List Act)} (h : ∀ t ∈ todo, exec g [] t = some []) : Inv g (start todo) (fun _ => []) where
  ok := fun i t ht => h t (List.mem_of_getElem? ht)
  out := fun _ _ => rfl
  order := fun _ => List.Pairwise.nil
  writes := fun i l => by simp [start]
  reads := fun i l => by simp [start]
  waits := fun i l hw => by simp [start] at hw
  alone := fun l hl => by simp [start] at hl

/-- Holding changes for one goroutine only. -/
def upd (held : Nat → Held) (i : Nat) (h : Held) : Nat → Held := fun j => if j = i then h else held j

@[simp] theorem upd_same (held : Nat → Held) (i : Nat) (h : Held) : upd held i h i = h := if_pos rfl
theorem upd_other {held : Nat → Held} {i j : Nat} {h : Held} (hn : j ≠ i) : upd held i h j = held j := if_neg hn

@[simp] theorem put_same (c : Cfg) (l : Lock) (s : LState) : (c.put l s).locks l = s := if_pos rfl
theorem put_other {c : Cfg} {l l' : Lock} {s : LState} (h : l' ≠ l) : (c.put l s).locks l' = c.locks l' := if_neg h
@[simp] theorem put_todo (c : Cfg) (l : Lock) (s : LState) : (c.put l s).todo = c.todo := rfl
@[simp] theorem advance_locks (c : Cfg) (i : Nat) (r : List Act) : (c.advance i r).locks = c.locks := rfl
@[simp] theorem advance_todo (c : Cfg) (i : Nat) (r : List Act) : (c.advance i r).todo = c.todo.set i r := rfl

theorem advance_get {c : Cfg} {i : Nat} {a : Act} {rest : List Act} (h : c.todo[i]? = some (a :: rest)) :
    (c.advance i rest).todo[i]? = some rest := by
  have hl := (List.getElem?_eq_some_iff.1 h).1
  simp [hl]

theorem advance_get_other {c : Cfg} {i j : Nat} {rest : List Act} (h : j ≠ i) :
    (c.advance i rest).todo[j]? = c.todo[j]? := by
  simp [Ne.symm h]

theorem exec_cons {h : Held} {a : Act} {as : List Act} {h' : Held} (he : exec g h (a :: as) = some h') :
    ∃ h1, next g h a = some h1 ∧ exec g h1 as = some h' := by
  simp only [exec] at he
  cases hn : next g h a with
  | none => rw [hn] at he; cases he
  | some h1 => rw [hn] at he; exact ⟨h1, rfl, he⟩

theorem ranked_nodup {h : Held} (ho : h.Pairwise (fun a b => rank b.1 < rank a.1)) : h.Nodup := by
  refine List.Pairwise.imp ?_ ho
  intro a b hab e
  subst e
  exact Nat.lt_irrefl _ hab

/-- A step that only takes an action off the list. -/
theorem inv_access {c : Cfg} {held : Nat → Held} (hi : Inv g c held) {i : Nat} {a : Act} {rest : List Act}
    (ht : c.todo[i]? = some (a :: rest)) (hn : next g (held i) a = some (held i)) (hl : ∀ l, a ≠ .lock l) :
    Inv g (c.advance i rest) held where
  ok := by
    intro j t hj
    by_cases e : j = i
    · subst e
      rw [advance_get ht] at hj
      injection hj with hj
      subst hj
      have := hi.ok _ _ ht
      obtain ⟨h1, e1, e2⟩ := exec_cons this
      rw [hn] at e1
      injection e1 with e1
      rw [e1]; exact e2
    · rw [advance_get_other e] at hj
      exact hi.ok j t hj
  out := by
    intro j hj
    apply hi.out
    by_cases e : j = i
    · subst e; rw [advance_get ht] at hj; cases hj
    · rwa [advance_get_other e] at hj
  order := hi.order
  writes := hi.writes
  reads := hi.reads
  waits := by
    intro j l hw hh
    obtain ⟨r, hr⟩ := hi.waits j l hw hh
    by_cases e : j = i
    · subst e; rw [ht] at hr; injection hr with hr; injection hr with hr; exact absurd hr (hl l)
    · exact ⟨r, by rw [advance_get_other e]; exact hr⟩
  alone := hi.alone

theorem step_inv {c c' : Cfg} {held : Nat → Held} (hi : Inv g c held) {i : Nat} (h : Step c i c') :
    ∃ held', Inv g c' held' := by
  cases h with
  | @read v rest ht =>
    refine ⟨held, inv_access hi ht ?_ (fun l e => by cases e)⟩
    obtain ⟨h1, e1, -⟩ := exec_cons (hi.ok _ _ ht)
    have : h1 = held i := by
      simp only [next] at e1
      split at e1
      · injection e1 with e1; exact e1.symm
      · split at e1
        · injection e1 with e1; exact e1.symm
        · cases e1
    rw [e1, this]
  | @write v rest ht =>
    refine ⟨held, inv_access hi ht ?_ (fun l e => by cases e)⟩
    obtain ⟨h1, e1, -⟩ := exec_cons (hi.ok _ _ ht)
    have : h1 = held i := by
      simp only [next] at e1
      split at e1
      · split at e1
        · injection e1 with e1; exact e1.symm
        · cases e1
      · split at e1
        · injection e1 with e1; exact e1.symm
        · cases e1
    rw [e1, this]
  | @announce l rest ht hw =>
    have hh : (c.locks l).held = false := by
      cases e : (c.locks l).held with
      | false => rfl
      | true => exact absurd hw (hi.alone l e).2
    refine ⟨held, ?_, ?_, hi.order, ?_, ?_, ?_, ?_⟩
    · exact hi.ok
    · exact hi.out
    · intro j m
      by_cases e : m = l
      · subst e; rw [hi.writes j m, put_same, hw, hh]; simp
      · rw [put_other e]; exact hi.writes j m
    · intro j m
      by_cases e : m = l
      · subst e; rw [put_same]; exact hi.reads j m
      · rw [put_other e]; exact hi.reads j m
    · intro j m hw' hh'
      by_cases e : m = l
      · subst e
        rw [put_same] at hw'
        injection hw' with hw'
        subst hw'
        exact ⟨rest, ht⟩
      · rw [put_other e] at hw' hh'
        exact hi.waits j m hw' hh'
    · intro m hm
      by_cases e : m = l
      · subst e; rw [put_same] at hm; cases hm
      · rw [put_other e] at hm ⊢; exact hi.alone m hm
  | @lock l rest ht hw hh hr =>
    obtain ⟨h1, e1, e2⟩ := exec_cons (hi.ok _ _ ht)
    simp only [next] at e1
    split at e1
    case isFalse => cases e1
    case isTrue hrk =>
    injection e1 with e1
    subst e1
    refine ⟨upd held i ((l, true) :: held i), ?_, ?_, ?_, ?_, ?_, ?_, ?_⟩
    · intro j t hj
      by_cases e : j = i
      · subst e
        rw [advance_get (c := c.put l _) ht] at hj
        injection hj with hj
        subst hj
        rw [upd_same]; exact e2
      · rw [advance_get_other e] at hj
        rw [upd_other e]; exact hi.ok j t hj
    · intro j hj
      by_cases e : j = i
      · subst e; rw [advance_get (c := c.put l _) ht] at hj; cases hj
      · rw [advance_get_other e] at hj; rw [upd_other e]; exact hi.out j hj
    · intro j
      by_cases e : j = i
      · subst e; rw [upd_same]; exact List.Pairwise.cons hrk (hi.order j)
      · rw [upd_other e]; exact hi.order j
    · intro j m
      rw [advance_locks]
      by_cases em : m = l
      · subst em
        rw [put_same]
        by_cases e : j = i
        · subst e; simp
        · rw [upd_other e, hi.writes j m, hh]
          simp [Ne.symm e]
      · rw [put_other em]
        by_cases e : j = i
        · subst e
          rw [upd_same, ← hi.writes j m]
          simp [em]
        · rw [upd_other e]; exact hi.writes j m
    · intro j m
      rw [advance_locks]
      by_cases em : m = l
      · subst em
        rw [put_same]
        by_cases e : j = i
        · subst e
          rw [upd_same]
          have := hi.reads j m
          rw [hr] at this
          simpa using this
        · rw [upd_other e, hi.reads j m, hr]
      · rw [put_other em]
        by_cases e : j = i
        · subst e
          rw [upd_same, ← hi.reads j m]
          simp
        · rw [upd_other e]; exact hi.reads j m
    · intro j m hw' hh'
      rw [advance_locks] at hw' hh'
      by_cases em : m = l
      · subst em; rw [put_same] at hh'; cases hh'
      · rw [put_other em] at hw' hh'
        obtain ⟨r, hr'⟩ := hi.waits j m hw' hh'
        by_cases e : j = i
        · subst e; rw [ht] at hr'; injection hr' with hr'; injection hr' with hr'; injection hr' with hr'; exact absurd hr'.symm em
        · exact ⟨r, by rw [advance_get_other e]; exact hr'⟩
    · intro m hm
      rw [advance_locks] at hm ⊢
      by_cases em : m = l
      · subst em; rw [put_same]; simp
      · rw [put_other em] at hm ⊢; exact hi.alone m hm
  | @unlock l rest ht hw hh =>
    obtain ⟨h1, e1, e2⟩ := exec_cons (hi.ok _ _ ht)
    simp only [next] at e1
    split at e1
    case isFalse => cases e1
    case isTrue hin =>
    injection e1 with e1
    subst e1
    have hnd := ranked_nodup (hi.order i)
    refine ⟨upd held i ((held i).erase (l, true)), ?_, ?_, ?_, ?_, ?_, ?_, ?_⟩
    · intro j t hj
      by_cases e : j = i
      · subst e
        rw [advance_get (c := c.put l _) ht] at hj
        injection hj with hj
        subst hj
        rw [upd_same]; exact e2
      · rw [advance_get_other e] at hj
        rw [upd_other e]; exact hi.ok j t hj
    · intro j hj
      by_cases e : j = i
      · subst e; rw [advance_get (c := c.put l _) ht] at hj; cases hj
      · rw [advance_get_other e] at hj; rw [upd_other e]; exact hi.out j hj
    · intro j
      by_cases e : j = i
      · subst e; rw [upd_same]; exact (hi.order j).sublist (List.erase_sublist ..)
      · rw [upd_other e]; exact hi.order j
    · intro j m
      rw [advance_locks]
      by_cases em : m = l
      · subst em
        rw [put_same]
        by_cases e : j = i
        · subst e; rw [upd_same]; simp [hnd.mem_erase_iff]
        · rw [upd_other e, hi.writes j m, hw]
          simp [Ne.symm e]
      · rw [put_other em]
        by_cases e : j = i
        · subst e
          rw [upd_same, ← hi.writes j m, hnd.mem_erase_iff]
          simp [em]
        · rw [upd_other e]; exact hi.writes j m
    · intro j m
      rw [advance_locks]
      have hc : ∀ s, ((c.put l ⟨none, false, (c.locks l).readers⟩).locks s).readers = (c.locks s).readers := by
        intro s
        by_cases em : s = l
        · subst em; rw [put_same]
        · rw [put_other em]
      rw [hc]
      by_cases e : j = i
      · subst e
        rw [upd_same, ← hi.reads j m, List.count_erase_of_ne (by simp)]
      · rw [upd_other e]; exact hi.reads j m
    · intro j m hw' hh'
      rw [advance_locks] at hw' hh'
      by_cases em : m = l
      · subst em; rw [put_same] at hw'; cases hw'
      · rw [put_other em] at hw' hh'
        obtain ⟨r, hr'⟩ := hi.waits j m hw' hh'
        by_cases e : j = i
        · subst e; rw [ht] at hr'; injection hr' with hr'; injection hr' with hr'; cases hr'
        · exact ⟨r, by rw [advance_get_other e]; exact hr'⟩
    · intro m hm
      rw [advance_locks] at hm ⊢
      by_cases em : m = l
      · subst em; rw [put_same] at hm; cases hm
      · rw [put_other em] at hm ⊢; exact hi.alone m hm
  | @rlock l rest ht hw =>
    have hh : (c.locks l).held = false := by
      cases e : (c.locks l).held with
      | false => rfl
      | true => exact absurd hw (hi.alone l e).2
    obtain ⟨h1, e1, e2⟩ := exec_cons (hi.ok _ _ ht)
    simp only [next] at e1
    split at e1
    case isFalse => cases e1
    case isTrue hrk =>
    injection e1 with e1
    subst e1
    refine ⟨upd held i ((l, false) :: held i), ?_, ?_, ?_, ?_, ?_, ?_, ?_⟩
    · intro j t hj
      by_cases e : j = i
      · subst e
        rw [advance_get (c := c.put l _) ht] at hj
        injection hj with hj
        subst hj
        rw [upd_same]; exact e2
      · rw [advance_get_other e] at hj
        rw [upd_other e]; exact hi.ok j t hj
    · intro j hj
      by_cases e : j = i
      · subst e; rw [advance_get (c := c.put l _) ht] at hj; cases hj
      · rw [advance_get_other e] at hj; rw [upd_other e]; exact hi.out j hj
    · intro j
      by_cases e : j = i
      · subst e; rw [upd_same]; exact List.Pairwise.cons hrk (hi.order j)
      · rw [upd_other e]; exact hi.order j
    · intro j m
      rw [advance_locks]
      by_cases em : m = l
      · subst em
        rw [put_same]
        have h0 : ((m, true) ∈ held j) ↔ False := by rw [hi.writes j m, hw]; simp
        by_cases e : j = i
        · subst e; rw [upd_same]; simp [h0]
        · rw [upd_other e, h0]; simp
      · rw [put_other em]
        by_cases e : j = i
        · subst e
          rw [upd_same, ← hi.writes j m]
          simp
        · rw [upd_other e]; exact hi.writes j m
    · intro j m
      rw [advance_locks]
      by_cases em : m = l
      · subst em
        rw [put_same]
        by_cases e : j = i
        · subst e
          rw [upd_same]
          simp [hi.reads j m]
        · rw [upd_other e, hi.reads j m]
          simp [Ne.symm e]
      · rw [put_other em]
        by_cases e : j = i
        · subst e
          rw [upd_same, ← hi.reads j m, List.count_cons]
          simp [Ne.symm em]
        · rw [upd_other e]; exact hi.reads j m
    · intro j m hw' hh'
      rw [advance_locks] at hw' hh'
      by_cases em : m = l
      · subst em; rw [put_same] at hw'; cases hw'
      · rw [put_other em] at hw' hh'
        obtain ⟨r, hr'⟩ := hi.waits j m hw' hh'
        by_cases e : j = i
        · subst e; rw [ht] at hr'; injection hr' with hr'; injection hr' with hr'; cases hr'
        · exact ⟨r, by rw [advance_get_other e]; exact hr'⟩
    · intro m hm
      rw [advance_locks] at hm ⊢
      by_cases em : m = l
      · subst em; rw [put_same] at hm; cases hm
      · rw [put_other em] at hm ⊢; exact hi.alone m hm
  | @runlock l rest ht hr =>
    obtain ⟨h1, e1, e2⟩ := exec_cons (hi.ok _ _ ht)
    simp only [next] at e1
    split at e1
    case isFalse => cases e1
    case isTrue hin =>
    injection e1 with e1
    subst e1
    have hw : ∀ s, ((c.put l { c.locks l with readers := (c.locks l).readers.erase i }).locks s).writer = (c.locks s).writer ∧
        ((c.put l { c.locks l with readers := (c.locks l).readers.erase i }).locks s).held = (c.locks s).held := by
      intro s
      by_cases em : s = l
      · subst em; rw [put_same]; exact ⟨rfl, rfl⟩
      · rw [put_other em]; exact ⟨rfl, rfl⟩
    refine ⟨upd held i ((held i).erase (l, false)), ?_, ?_, ?_, ?_, ?_, ?_, ?_⟩
    · intro j t hj
      by_cases e : j = i
      · subst e
        rw [advance_get (c := c.put l _) ht] at hj
        injection hj with hj
        subst hj
        rw [upd_same]; exact e2
      · rw [advance_get_other e] at hj
        rw [upd_other e]; exact hi.ok j t hj
    · intro j hj
      by_cases e : j = i
      · subst e; rw [advance_get (c := c.put l _) ht] at hj; cases hj
      · rw [advance_get_other e] at hj; rw [upd_other e]; exact hi.out j hj
    · intro j
      by_cases e : j = i
      · subst e; rw [upd_same]; exact (hi.order j).sublist (List.erase_sublist ..)
      · rw [upd_other e]; exact hi.order j
    · intro j m
      rw [advance_locks, (hw m).1, (hw m).2, ← hi.writes j m]
      by_cases e : j = i
      · subst e; rw [upd_same, List.mem_erase_of_ne (by simp)]
      · rw [upd_other e]
    · intro j m
      rw [advance_locks]
      by_cases em : m = l
      · subst em
        rw [put_same]
        by_cases e : j = i
        · subst e
          rw [upd_same]
          simp [List.count_erase_self, hi.reads j m]
        · rw [upd_other e, hi.reads j m]
          simp [List.count_erase_of_ne e]
      · rw [put_other em]
        by_cases e : j = i
        · subst e
          rw [upd_same, ← hi.reads j m, List.count_erase_of_ne (by simp [em])]
        · rw [upd_other e]; exact hi.reads j m
    · intro j m hw' hh'
      rw [advance_locks] at hw' hh'
      rw [(hw m).1] at hw'
      rw [(hw m).2] at hh'
      obtain ⟨r, hr'⟩ := hi.waits j m hw' hh'
      by_cases e : j = i
      · subst e; rw [ht] at hr'; injection hr' with hr'; injection hr' with hr'; cases hr'
      · exact ⟨r, by rw [advance_get_other e]; exact hr'⟩
    · intro m hm
      rw [advance_locks] at hm ⊢
      rw [(hw m).2] at hm
      obtain ⟨q1, q2⟩ := hi.alone m hm
      refine ⟨?_, by rw [(hw m).1]; exact q2⟩
      by_cases em : m = l
      · subst em; rw [q1] at hr; cases hr
      · rw [put_other em]; exact q1

theorem steps_inv {c c' : Cfg} {is : List Nat} (h : Steps c is c') : ∀ {held : Nat → Held}, Inv g c held →
    ∃ held', Inv g c' held' := by
  induction h with
  | done => exact fun hi => ⟨_, hi⟩
  | step s _ ih =>
    intro held hi
    obtain ⟨h1, hi1⟩ := step_inv hi s
    exact ih hi1

theorem each_mem {ps : List Prog} {ts : List (List Act)} (h : Each ps ts) : ∀ t ∈ ts, ∃ p ∈ ps, Runs p t := by
  induction h with
  | nil => intro y hy; cases hy
  | cons hr _ ih =>
    intro y hy
    rcases List.mem_cons.1 hy with rfl | hy
    · exact ⟨_, List.mem_cons_self, hr⟩
    · obtain ⟨x, hx, hxy⟩ := ih y hy
      exact ⟨x, List.mem_cons_of_mem _ hx, hxy⟩

/-- Disciplined goroutines keep the invariant. -/
theorem reach_inv {gs : List Prog} (ht : ∀ p ∈ gs, Typed g [] p []) {c : Cfg} (h : Reach gs c) :
    ∃ held, Inv g c held := by
  obtain ⟨todo, is, hr, hs⟩ := h
  refine steps_inv hs (inv_start ?_)
  intro t hm
  obtain ⟨p, hp, hrun⟩ := each_mem hr t hm
  exact ht p hp t hrun

/-! ### No races -/

theorem touch_held {c : Cfg} {held : Nat → Held} (hi : Inv g c held) {i : Nat} {a : Act} {xs : List Act}
    (h : c.todo[i]? = some (a :: xs)) {v : Var} {l : Lock} (hg : g v = some l) (ht : Touches a v) :
    (l, true) ∈ held i ∨ (a = .read v ∧ (l, false) ∈ held i) := by
  obtain ⟨h1, e1, -⟩ := exec_cons (hi.ok _ _ h)
  rcases ht with rfl | rfl
  · simp only [next, hg] at e1
    split at e1
    case isFalse => cases e1
    case isTrue hh =>
      rcases hh with hh | hh
      · exact Or.inl hh
      · exact Or.inr ⟨rfl, hh⟩
  · simp only [next, hg] at e1
    split at e1
    case isFalse => cases e1
    case isTrue hh => exact Or.inl hh

theorem no_race {c : Cfg} {held : Nat → Held} (hi : Inv g c held) {v : Var} {l : Lock} (hg : g v = some l) : ¬ Racy c v := by
  rintro ⟨i, j, a, b, xs, ys, hne, h1, h2, t1, t2, hw⟩
  have k1 := touch_held hi h1 hg t1
  have k2 := touch_held hi h2 hg t2
  -- whoever writes has the lock alone
  have key : ∀ {i j : Nat}, i ≠ j → (l, true) ∈ held i → (l, true) ∈ held j ∨ (l, false) ∈ held j → False := by
    intro i j hne hi' hj
    obtain ⟨w, hh⟩ := (hi.writes i l).1 hi'
    rcases hj with hj | hj
    · rw [((hi.writes j l).1 hj).1] at w
      injection w with w
      exact hne w.symm
    · have hc := hi.reads j l
      rw [(hi.alone l hh).1] at hc
      have : 0 < (held j).count (l, false) := List.count_pos_iff.2 hj
      simp at hc
      omega
  have weak : ∀ {i : Nat} {a : Act}, ((l, true) ∈ held i ∨ (a = .read v ∧ (l, false) ∈ held i)) →
      (l, true) ∈ held i ∨ (l, false) ∈ held i := fun h => h.imp id (·.2)
  rcases hw with hw | hw
  · rcases k1 with k1 | ⟨k1, -⟩
    · exact key hne k1 (weak k2)
    · rw [hw] at k1; cases k1
  · rcases k2 with k2 | ⟨k2, -⟩
    · exact key (Ne.symm hne) k2 (weak k1)
    · rw [hw] at k2; cases k2

/-! ### No deadlocks -/

/-- What a goroutine waits for if it cannot go on. -/
theorem stuck_waits {c : Cfg} {held : Nat → Held} (hi : Inv g c held) {i : Nat} {t : List Act}
    (h : c.todo[i]? = some t) (hne : t ≠ []) (hs : ∀ c', ¬ Step c i c') :
    ∃ l, (∀ x ∈ held i, rank x.1 < rank l) ∧
      (((∃ r, t = .lock l :: r) ∨ (∃ r, t = .rlock l :: r)) ∧
        ((∃ j, j ≠ i ∧ (c.locks l).writer = some j) ∨ ∃ j, j ∈ (c.locks l).readers)) := by
  cases t with
  | nil => exact absurd rfl hne
  | cons a rest =>
    obtain ⟨h1, e1, -⟩ := exec_cons (hi.ok _ _ h)
    cases a with
    | read v => exact absurd (Step.read h) (hs _)
    | write v => exact absurd (Step.write h) (hs _)
    | unlock l =>
      simp only [next] at e1
      split at e1
      case isFalse => cases e1
      case isTrue hin =>
        obtain ⟨w, hh⟩ := (hi.writes i l).1 hin
        exact absurd (Step.unlock h w hh) (hs _)
    | runlock l =>
      simp only [next] at e1
      split at e1
      case isFalse => cases e1
      case isTrue hin =>
        have hc := hi.reads i l
        have : 0 < (held i).count (l, false) := List.count_pos_iff.2 hin
        exact absurd (Step.runlock h (List.count_pos_iff.1 (by omega))) (hs _)
    | rlock l =>
      simp only [next] at e1
      split at e1
      case isFalse => cases e1
      case isTrue hrk =>
        refine ⟨l, hrk, Or.inr ⟨rest, rfl⟩, ?_⟩
        cases hw : (c.locks l).writer with
        | none => exact absurd (Step.rlock h hw) (hs _)
        | some j =>
          left
          refine ⟨j, ?_, rfl⟩
          rintro rfl
          cases hh : (c.locks l).held with
          | true =>
            have := hrk _ ((hi.writes j l).2 ⟨hw, hh⟩)
            exact Nat.lt_irrefl _ this
          | false =>
            obtain ⟨r, hr⟩ := hi.waits j l hw hh
            rw [h] at hr
            injection hr with hr
            injection hr with hr
            cases hr
    | lock l =>
      simp only [next] at e1
      split at e1
      case isFalse => cases e1
      case isTrue hrk =>
        refine ⟨l, hrk, Or.inl ⟨rest, rfl⟩, ?_⟩
        cases hw : (c.locks l).writer with
        | none => exact absurd (Step.announce h hw) (hs _)
        | some j =>
          by_cases e : j = i
          · subst e
            cases hh : (c.locks l).held with
            | true =>
              have := hrk _ ((hi.writes j l).2 ⟨hw, hh⟩)
              exact absurd this (Nat.lt_irrefl _)
            | false =>
              right
              cases hr : (c.locks l).readers with
              | nil => exact absurd (Step.lock h hw hh hr) (hs _)
              | cons j' js => exact ⟨j', List.mem_cons_self⟩
          · exact Or.inl ⟨j, e, rfl⟩

/-- Somebody who holds something is not done. -/
theorem holder_busy {c : Cfg} {held : Nat → Held} (hi : Inv g c held) {j : Nat} {x : Lock × Bool} (hx : x ∈ held j) :
    ∃ t, c.todo[j]? = some t ∧ t ≠ [] := by
  cases h : c.todo[j]? with
  | none => rw [hi.out j h] at hx; cases hx
  | some t =>
    refine ⟨t, rfl, ?_⟩
    rintro rfl
    have := hi.ok j [] h
    simp only [exec, Option.some.injEq] at this
    rw [this] at hx; cases hx

theorem reader_holds {c : Cfg} {held : Nat → Held} (hi : Inv g c held) {j : Nat} {l : Lock} (h : j ∈ (c.locks l).readers) :
    (l, false) ∈ held j := by
  have := hi.reads j l
  have : 0 < (c.locks l).readers.count j := List.count_pos_iff.2 h
  exact List.count_pos_iff.1 (by omega)

/-- If nobody can go on, whoever waits for a lock makes somebody wait for a greater one. -/
theorem waits_up {c : Cfg} {held : Nat → Held} (hi : Inv g c held) (hs : ∀ i c', ¬ Step c i c') {i : Nat} {t : List Act}
    (h : c.todo[i]? = some t) {l : Lock} (hw : (∃ r, t = .lock l :: r) ∨ (∃ r, t = .rlock l :: r)) :
    ∃ (j : Nat) (t' : List Act) (l' : Lock), c.todo[j]? = some t' ∧ ((∃ r, t' = .lock l' :: r) ∨ (∃ r, t' = .rlock l' :: r)) ∧ rank l < rank l' := by
  -- a goroutine that holds `l` waits for a greater lock
  have up : ∀ {j : Nat} {b : Bool}, (l, b) ∈ held j → ∃ t' l', c.todo[j]? = some t' ∧
      ((∃ r, t' = .lock l' :: r) ∨ (∃ r, t' = .rlock l' :: r)) ∧ rank l < rank l' := by
    intro j b hj
    obtain ⟨t', ht', hne⟩ := holder_busy hi hj
    obtain ⟨l', hrk, hw', -⟩ := stuck_waits hi ht' hne (hs j)
    exact ⟨t', l', ht', hw', hrk _ hj⟩
  have hne : t ≠ [] := by rcases hw with ⟨r, rfl⟩ | ⟨r, rfl⟩ <;> simp
  obtain ⟨l0, -, hw0, hb⟩ := stuck_waits hi h hne (hs i)
  have e : l0 = l := by
    rcases hw with ⟨r, rfl⟩ | ⟨r, rfl⟩ <;> rcases hw0 with ⟨r', e⟩ | ⟨r', e⟩ <;> simp at e <;> exact e.1.symm
  subst e
  rcases hb with ⟨j, -, hj⟩ | ⟨j, hj⟩
  · cases hh : (c.locks l0).held with
    | true =>
      obtain ⟨t', l', h1, h2, h3⟩ := up ((hi.writes j l0).2 ⟨hj, hh⟩)
      exact ⟨j, t', l', h1, h2, h3⟩
    | false =>
      obtain ⟨r, hr⟩ := hi.waits j l0 hj hh
      cases hrd : (c.locks l0).readers with
      | nil => exact absurd (Step.lock hr hj hh hrd) (hs j _)
      | cons j' js =>
        obtain ⟨t', l', h1, h2, h3⟩ := up (reader_holds hi (j := j') (by rw [hrd]; exact List.mem_cons_self))
        exact ⟨j', t', l', h1, h2, h3⟩
  · obtain ⟨t', l', h1, h2, h3⟩ := up (reader_holds hi hj)
    exact ⟨j, t', l', h1, h2, h3⟩

theorem rank_le (l : Lock) : rank l ≤ 8 := by cases l <;> simp [rank]

theorem no_deadlock {c : Cfg} {held : Nat → Held} (hi : Inv g c held) : ¬ Deadlock c := by
  rintro ⟨hf, hs⟩
  -- there is no end to the ranks
  have key : ∀ n, ∃ (i : Nat) (t : List Act) (l : Lock), c.todo[i]? = some t ∧ ((∃ r, t = .lock l :: r) ∨ (∃ r, t = .rlock l :: r)) ∧ n ≤ rank l := by
    intro n
    induction n with
    | zero =>
      have : ∃ t ∈ c.todo, t ≠ [] := by
        refine Classical.byContradiction fun hn => hf ?_
        intro t ht
        exact Classical.byContradiction fun h' => hn ⟨t, ht, h'⟩
      obtain ⟨t, ht, hne⟩ := this
      obtain ⟨i, h⟩ := List.getElem?_of_mem ht
      obtain ⟨l, -, hw, -⟩ := stuck_waits hi h hne (hs i)
      exact ⟨i, t, l, h, hw, Nat.zero_le _⟩
    | succ n ih =>
      obtain ⟨i, t, l, h, hw, hn⟩ := ih
      obtain ⟨j, t', l', h', hw', hr⟩ := waits_up hi hs h hw
      exact ⟨j, t', l', h', hw', by omega⟩
  obtain ⟨i, t, l, -, -, hn⟩ := key 9
  have := rank_le l
  omega

theorem no_misuse {c : Cfg} {held : Nat → Held} (hi : Inv g c held) (i : Nat) : ¬ Misuses c i := by
  rintro ⟨l, xs, ⟨h, hn⟩ | ⟨h, hn⟩⟩
  · obtain ⟨h1, e1, -⟩ := exec_cons (hi.ok _ _ h)
    simp only [next] at e1
    split at e1
    case isFalse => cases e1
    case isTrue hin => exact hn ((hi.writes i l).1 hin)
  · obtain ⟨h1, e1, -⟩ := exec_cons (hi.ok _ _ h)
    simp only [next] at e1
    split at e1
    case isFalse => cases e1
    case isTrue hin =>
      have hc := hi.reads i l
      have : 0 < (held i).count (l, false) := List.count_pos_iff.2 hin
      exact hn (List.count_pos_iff.1 (by omega))

theorem finished_free {c : Cfg} {held : Nat → Held} (hi : Inv g c held) (hf : Finished c) : Free c := by
  have hnone : ∀ i, held i = [] := by
    intro i
    cases h : held i with
    | nil => rfl
    | cons x xs =>
      obtain ⟨t, ht, hne⟩ := holder_busy hi (j := i) (x := x) (by rw [h]; exact List.mem_cons_self)
      exact absurd (hf t (List.mem_of_getElem? ht)) hne
  intro l
  have hw : (c.locks l).writer = none := by
    cases h : (c.locks l).writer with
    | none => rfl
    | some j =>
      cases hh : (c.locks l).held with
      | true =>
        have := (hi.writes j l).2 ⟨h, hh⟩
        rw [hnone j] at this; cases this
      | false =>
        obtain ⟨r, hr⟩ := hi.waits j l h hh
        have := hf _ (List.mem_of_getElem? hr)
        cases this
  have hh : (c.locks l).held = false := by
    cases h : (c.locks l).held with
    | false => rfl
    | true => exact absurd hw (hi.alone l h).2
  have hr : (c.locks l).readers = [] := by
    cases h : (c.locks l).readers with
    | nil => rfl
    | cons j js =>
      have := reader_holds hi (j := j) (l := l) (by rw [h]; exact List.mem_cons_self)
      rw [hnone j] at this; cases this
  cases e : c.locks l
  simp only [e] at hw hh hr
  simp [hw, hh, hr]

/-! ### Every schedule ends -/

/-- What goroutine `i` has to do; a lock it waits for is half done. -/
def weight (c : Cfg) (i : Nat) : Nat :=
  match c.todo[i]? with
  | some (.lock l :: rest) => if (c.locks l).writer = some i then 2 * rest.length + 1 else 2 * rest.length + 2
  | some t => 2 * t.length
  | none => 0

/-- What all have to do. -/
def load (c : Cfg) : Nat := ((List.range c.todo.length).map (weight c)).sum

theorem sum_lt {f f' : Nat → Nat} {n i : Nat} (hi : i < n) (hl : f' i < f i) (he : ∀ j, j ≠ i → f' j = f j) :
    ((List.range n).map f').sum < ((List.range n).map f).sum := by
  induction n with
  | zero => omega
  | succ n ih =>
    simp only [List.range_succ, List.map_append, List.sum_append, List.map_cons, List.map_nil, List.sum_cons, List.sum_nil]
    by_cases e : i = n
    · subst e
      have : (List.range i).map f' = (List.range i).map f := by
        apply List.map_congr_left
        intro j hj
        exact he j (by have := List.mem_range.1 hj; omega)
      rw [this]; omega
    · have := ih (by omega)
      have := he n (fun h => e h.symm)
      omega

theorem weight_other {c c' : Cfg} {j : Nat} (ht : c'.todo[j]? = c.todo[j]?)
    (hw : ∀ l, (c'.locks l).writer = some j ↔ (c.locks l).writer = some j) : weight c' j = weight c j := by
  unfold weight
  rw [ht]
  split
  · rename_i l rest _
    by_cases e : (c.locks l).writer = some j
    · rw [if_pos e, if_pos ((hw l).2 e)]
    · rw [if_neg e, if_neg (fun h => e ((hw l).1 h))]
  · rfl
  · rfl

theorem weight_le {c : Cfg} {i : Nat} {t : List Act} (h : c.todo[i]? = some t) : weight c i ≤ 2 * t.length := by
  unfold weight
  rw [h]
  split
  · rename_i e
    injection e with e
    subst e
    split <;> simp <;> omega
  · rename_i e
    injection e with e
    subst e
    exact Nat.le_refl _
  · exact Nat.zero_le _

theorem weight_ge {c : Cfg} {i : Nat} {t : List Act} (h : c.todo[i]? = some t) : 2 * t.length ≤ weight c i + 1 := by
  unfold weight
  rw [h]
  split
  · rename_i e
    injection e with e
    subst e
    split <;> simp <;> omega
  · rename_i e
    injection e with e
    subst e
    omega
  · rename_i e; cases e

theorem put_writer {c : Cfg} {l : Lock} {s : LState} {j : Nat} (h : s.writer = some j ↔ (c.locks l).writer = some j) (m : Lock) :
    ((c.put l s).locks m).writer = some j ↔ (c.locks m).writer = some j := by
  by_cases e : m = l
  · subst e; rw [put_same]; exact h
  · rw [put_other e]

theorem step_load {c c' : Cfg} {i : Nat} (h : Step c i c') : load c' < load c := by
  have key : ∀ {c' : Cfg}, c'.todo.length = c.todo.length → i < c.todo.length → weight c' i < weight c i →
      (∀ j, j ≠ i → c'.todo[j]? = c.todo[j]?) → (∀ j, j ≠ i → ∀ l, (c'.locks l).writer = some j ↔ (c.locks l).writer = some j) →
      load c' < load c := by
    intro c' h1 h2 h3 h4 h5
    unfold load
    rw [h1]
    exact sum_lt h2 h3 (fun j hj => weight_other (h4 j hj) (h5 j hj))
  have lt : ∀ {t : List Act}, c.todo[i]? = some t → i < c.todo.length := fun h => (List.getElem?_eq_some_iff.1 h).1
  have drop : ∀ {d : Cfg} {a : Act} {rest : List Act}, d.todo = c.todo → c.todo[i]? = some (a :: rest) →
      (d.advance i rest).todo[i]? = some rest := by
    intro d a rest hd ht
    exact advance_get (c := d) (a := a) (by rw [hd]; exact ht)
  have full : ∀ {a : Act} {rest : List Act}, c.todo[i]? = some (a :: rest) → 2 * rest.length + 1 ≤ weight c i := by
    intro a rest ht
    have := weight_ge ht
    simp only [List.length_cons] at this
    omega
  -- taking an action off the list
  have adv : ∀ {d : Cfg} {a : Act} {rest : List Act}, d.todo = c.todo → c.todo[i]? = some (a :: rest) →
      (∀ j, j ≠ i → ∀ l, (d.locks l).writer = some j ↔ (c.locks l).writer = some j) → load (d.advance i rest) < load c := by
    intro d a rest hd ht hw
    refine key ?_ (lt ht) ?_ ?_ hw
    · simp [hd]
    · exact Nat.lt_of_le_of_lt (weight_le (drop hd ht)) (full ht)
    · intro j hj; rw [advance_get_other hj, hd]
  cases h with
  | read ht => exact adv rfl ht (fun _ _ _ => Iff.rfl)
  | write ht => exact adv rfl ht (fun _ _ _ => Iff.rfl)
  | @announce l rest ht hw =>
    refine key rfl (lt ht) ?_ (fun _ _ => rfl) ?_
    · unfold weight
      simp [ht, hw]
    · intro j hj
      exact put_writer (by rw [hw]; simp [Ne.symm hj])
  | @lock l rest ht hw hh hr =>
    refine adv rfl ht ?_
    intro j hj
    exact put_writer (by rw [hw])
  | @unlock l rest ht hw hh =>
    refine adv rfl ht ?_
    intro j hj
    exact put_writer (by rw [hw]; simp [Ne.symm hj])
  | @rlock l rest ht hw =>
    refine adv rfl ht ?_
    intro j hj
    exact put_writer (by rw [hw])
  | @runlock l rest ht hr =>
    refine adv rfl ht ?_
    intro j hj
    exact put_writer Iff.rfl

theorem steps_load {c c' : Cfg} {is : List Nat} (h : Steps c is c') : is.length + load c' ≤ load c := by
  induction h with
  | done => simp
  | step s _ ih =>
    have := step_load s
    simp only [List.length_cons]
    omega

theorem steps_append {a b c : Cfg} {is js : List Nat} (h : Steps a is b) (h' : Steps b js c) : Steps a (is ++ js) c := by
  induction h with
  | done => exact h'
  | step s _ ih => exact Steps.step s (ih h')

theorem load_start (todo : List (List Act)) : load (start todo) ≤ 2 * (todo.map List.length).sum := by
  unfold load
  have : ∀ (ts : List (List Act)) (f : Nat → Nat), (∀ i t, ts[i]? = some t → f i ≤ 2 * t.length) →
      ((List.range ts.length).map f).sum ≤ 2 * (ts.map List.length).sum := by
    intro ts
    induction ts with
    | nil => intro f _; simp
    | cons t ts ih =>
      intro f hf
      have h0 := hf 0 t rfl
      have h1 := ih (fun i => f (i + 1)) (fun i t' h => hf (i + 1) t' (by simpa using h))
      simp only [List.length_cons, List.range_succ_eq_map, List.map_cons, List.sum_cons, List.map_map]
      have : (f ∘ Nat.succ) = fun i => f (i + 1) := rfl
      rw [this]
      omega
  exact this todo _ (fun i t h => weight_le (c := start todo) h)

/-- From anywhere the goroutines can get to the end. -/
theorem can_finish {c : Cfg} {held : Nat → Held} (hi : Inv g c held) : ∃ is c', Steps c is c' ∧ Finished c' := by
  generalize hn : load c = n
  induction n using Nat.strongRecOn generalizing c held with
  | _ n ih =>
    by_cases hf : Finished c
    · exact ⟨[], c, Steps.done, hf⟩
    · have : ∃ i c', Step c i c' := by
        refine Classical.byContradiction fun h' => no_deadlock hi ⟨hf, ?_⟩
        intro i c' hs
        exact h' ⟨i, c', hs⟩
      obtain ⟨i, c1, hs⟩ := this
      obtain ⟨held1, hi1⟩ := step_inv hi hs
      obtain ⟨is, c2, h2, hf2⟩ := ih (load c1) (by rw [← hn]; exact step_load hs) hi1 rfl
      exact ⟨i :: is, c2, Steps.step hs h2, hf2⟩

/-! ### Slow clients -/

/-- Who does not move keeps what it has to do. -/
theorem step_others {c c' : Cfg} {i j : Nat} (h : Step c i c') (hn : j ≠ i) : c'.todo[j]? = c.todo[j]? := by
  cases h <;> first | exact advance_get_other hn | rfl

theorem step_suffix {c c' : Cfg} {i j : Nat} (h : Step c i c') {t : List Act} (ht : c.todo[j]? = some t) :
    ∃ t', c'.todo[j]? = some t' ∧ t' <:+ t := by
  by_cases e : j = i
  · subst e
    have go : ∀ {d : Cfg} {a : Act} {rest : List Act}, d.todo = c.todo → c.todo[j]? = some (a :: rest) →
        ∃ t', (d.advance j rest).todo[j]? = some t' ∧ t' <:+ t := by
      intro d a rest hd h'
      rw [ht] at h'
      injection h' with h'
      subst h'
      exact ⟨rest, advance_get (c := d) (a := a) (by rw [hd]; exact ht), List.suffix_cons ..⟩
    cases h with
    | read h' => exact go rfl h'
    | write h' => exact go rfl h'
    | announce h' _ => exact ⟨t, ht, List.suffix_refl t⟩
    | lock h' _ _ _ => exact go rfl h'
    | unlock h' _ _ => exact go rfl h'
    | rlock h' _ => exact go rfl h'
    | runlock h' _ => exact go rfl h'
  · exact ⟨t, by rw [step_others h e]; exact ht, List.suffix_refl t⟩

theorem steps_suffix {c c' : Cfg} {is : List Nat} (h : Steps c is c') : ∀ {j : Nat} {t : List Act}, c.todo[j]? = some t →
    ∃ t', c'.todo[j]? = some t' ∧ t' <:+ t := by
  induction h with
  | done => exact fun ht => ⟨_, ht, List.suffix_refl _⟩
  | step s _ ih =>
    intro j t ht
    obtain ⟨t1, h1, s1⟩ := step_suffix s ht
    obtain ⟨t2, h2, s2⟩ := ih h1
    exact ⟨t2, h2, s2.trans s1⟩

/-- All actions of a function are of a kind. -/
def AllActs (P : Act → Prop) : Prog → Prop
  | .skip => True
  | .act a => P a
  | .seq p q => AllActs P p ∧ AllActs P q
  | .alt p q => AllActs P p ∧ AllActs P q
  | .many p => AllActs P p
  | .any f => ∀ i, AllActs P (f i)

theorem allActs_runs {P : Act → Prop} {p : Prog} {t : List Act} (h : Runs p t) : AllActs P p → ∀ a ∈ t, P a := by
  induction h with
  | skip => intro _ a ha; cases ha
  | act b => intro hp a ha; rw [List.mem_singleton.1 ha]; exact hp
  | seq _ _ ih1 ih2 =>
    intro hp a ha
    rcases List.mem_append.1 ha with ha | ha
    · exact ih1 hp.1 a ha
    · exact ih2 hp.2 a ha
  | left _ ih => exact fun hp => ih hp.1
  | right _ ih => exact fun hp => ih hp.2
  | stop => intro _ a ha; cases ha
  | more _ _ ih1 ih2 =>
    intro hp a ha
    rcases List.mem_append.1 ha with ha | ha
    · exact ih1 hp a ha
    · exact ih2 hp a ha
  | any i _ ih => exact fun hp => ih (hp i)

/-- The action has nothing to do with the hub's lock or the one of the subscriptions. -/
def Apart (a : Act) : Prop := ∀ l, (a = .lock l ∨ a = .rlock l) → 2 ≤ rank l

/-- Who sends to a client holds at most the hub's lock and the one of the subscriptions. -/
theorem sending_low {c : Cfg} {held : Nat → Held} (hg : ∀ k, g (.conn k) = none) (hi : Inv g c held) {i : Nat}
    (h : Sending c i) : ∀ x ∈ held i, rank x.1 < 2 := by
  obtain ⟨k, rest, ht⟩ := h
  obtain ⟨h1, e1, -⟩ := exec_cons (hi.ok _ _ ht)
  simp only [next, hg] at e1
  split at e1
  case isFalse => cases e1
  case isTrue hh => exact hh rfl

/-- If only those that send to clients can go on, then who waits for another lock makes somebody wait
for a greater one. -/
theorem waits_up' {c : Cfg} {held : Nat → Held} (hg : ∀ k, g (.conn k) = none) (hi : Inv g c held) {S : Nat → Prop}
    (hS : ∀ i, S i → Sending c i) (hs : ∀ i c', Step c i c' → S i) {i : Nat} (hni : ¬ S i) {t : List Act}
    (h : c.todo[i]? = some t) {l : Lock} (hw : (∃ r, t = .lock l :: r) ∨ (∃ r, t = .rlock l :: r)) (hl : 2 ≤ rank l) :
    ∃ (j : Nat) (t' : List Act) (l' : Lock), ¬ S j ∧ c.todo[j]? = some t' ∧
      ((∃ r, t' = .lock l' :: r) ∨ (∃ r, t' = .rlock l' :: r)) ∧ rank l < rank l' := by
  have up : ∀ {j : Nat} {b : Bool}, (l, b) ∈ held j → ∃ t' l', ¬ S j ∧ c.todo[j]? = some t' ∧
      ((∃ r, t' = .lock l' :: r) ∨ (∃ r, t' = .rlock l' :: r)) ∧ rank l < rank l' := by
    intro j b hj
    have hnj : ¬ S j := by
      intro hsj
      have := sending_low hg hi (hS j hsj) _ hj
      simp only at this
      omega
    obtain ⟨t', ht', hne⟩ := holder_busy hi hj
    obtain ⟨l', hrk, hw', -⟩ := stuck_waits hi ht' hne (fun c' hst => hnj (hs j c' hst))
    exact ⟨t', l', hnj, ht', hw', hrk _ hj⟩
  have hne : t ≠ [] := by rcases hw with ⟨r, rfl⟩ | ⟨r, rfl⟩ <;> simp
  obtain ⟨l0, -, hw0, hb⟩ := stuck_waits hi h hne (fun c' hst => hni (hs i c' hst))
  have e : l0 = l := by
    rcases hw with ⟨r, rfl⟩ | ⟨r, rfl⟩ <;> rcases hw0 with ⟨r', e⟩ | ⟨r', e⟩ <;> simp at e <;> exact e.1.symm
  subst e
  rcases hb with ⟨j, -, hj⟩ | ⟨j, hj⟩
  · cases hh : (c.locks l0).held with
    | true =>
      obtain ⟨t', l', h0, h1, h2, h3⟩ := up ((hi.writes j l0).2 ⟨hj, hh⟩)
      exact ⟨j, t', l', h0, h1, h2, h3⟩
    | false =>
      obtain ⟨r, hr⟩ := hi.waits j l0 hj hh
      have hnj : ¬ S j := by
        intro hsj
        obtain ⟨k, rest, hk⟩ := hS j hsj
        rw [hr] at hk
        injection hk with hk
        injection hk with hk
        cases hk
      cases hrd : (c.locks l0).readers with
      | nil => exact absurd (hs j _ (Step.lock hr hj hh hrd)) hnj
      | cons j' js =>
        obtain ⟨t', l', h0, h1, h2, h3⟩ := up (reader_holds hi (j := j') (by rw [hrd]; exact List.mem_cons_self))
        exact ⟨j', t', l', h0, h1, h2, h3⟩
  · obtain ⟨t', l', h0, h1, h2, h3⟩ := up (reader_holds hi hj)
    exact ⟨j, t', l', h0, h1, h2, h3⟩

/-- While some clients do not read, goroutines apart from events can still go on. -/
theorem apart_steps {c : Cfg} {held : Nat → Held} (hg : ∀ k, g (.conn k) = none) (hi : Inv g c held) {S : Nat → Prop}
    (hS : ∀ i, S i → Sending c i) {i : Nat} (hni : ¬ S i) {t : List Act} (h : c.todo[i]? = some t) (hne : t ≠ [])
    (ha : ∀ a ∈ t, Apart a) : ∃ j c', ¬ S j ∧ Step c j c' := by
  refine Classical.byContradiction fun hn => ?_
  have hs : ∀ i c', Step c i c' → S i := fun j c' hst => Classical.byContradiction fun h' => hn ⟨j, c', h', hst⟩
  have key : ∀ n, ∃ (i : Nat) (t : List Act) (l : Lock), ¬ S i ∧ c.todo[i]? = some t ∧
      ((∃ r, t = .lock l :: r) ∨ (∃ r, t = .rlock l :: r)) ∧ n + 2 ≤ rank l := by
    intro n
    induction n with
    | zero =>
      obtain ⟨l, -, hw, -⟩ := stuck_waits hi h hne (fun c' hst => hni (hs i c' hst))
      refine ⟨i, t, l, hni, h, hw, ?_⟩
      have : 2 ≤ rank l := by
        rcases hw with ⟨r, rfl⟩ | ⟨r, rfl⟩
        · exact ha _ List.mem_cons_self l (Or.inl rfl)
        · exact ha _ List.mem_cons_self l (Or.inr rfl)
      omega
    | succ n ih =>
      obtain ⟨i, t, l, hni, h, hw, hn⟩ := ih
      obtain ⟨j, t', l', hnj, h', hw', hr⟩ := waits_up' hg hi hS hs hni h hw (by omega)
      exact ⟨j, t', l', hnj, h', hw', by omega⟩
  obtain ⟨i, t, l, -, -, -, hn⟩ := key 9
  have := rank_le l
  omega

theorem apart_finish {c : Cfg} {held : Nat → Held} (hg : ∀ k, g (.conn k) = none) (hi : Inv g c held) {S Q : Nat → Prop}
    (hS : ∀ i, S i → Sending c i) (hQ : ∀ i, Q i → ¬ S i ∧ ∃ t, c.todo[i]? = some t ∧ ∀ a ∈ t, Apart a) :
    ∃ is c', Steps c is c' ∧ (∀ i ∈ is, ¬ S i) ∧ ∀ i, Q i → Done c' i := by
  generalize hn : load c = n
  induction n using Nat.strongRecOn generalizing c held with
  | _ n ih =>
    by_cases hf : ∀ i, Q i → Done c i
    · exact ⟨[], c, Steps.done, by simp, hf⟩
    · have : ∃ i, Q i ∧ ¬ Done c i := by
        refine Classical.byContradiction fun h' => hf fun i hq => Classical.byContradiction fun hd => h' ⟨i, hq, hd⟩
      obtain ⟨i, hq, hd⟩ := this
      obtain ⟨hns, t, ht, ha⟩ := hQ i hq
      obtain ⟨j, c1, hj, hst⟩ := apart_steps hg hi hS hns ht (by rintro rfl; exact hd ht) ha
      obtain ⟨held1, hi1⟩ := step_inv hi hst
      obtain ⟨is, c2, h2, h3, h4⟩ := ih (load c1) (by rw [← hn]; exact step_load hst) hi1
        (by
          intro k hk
          obtain ⟨m, rest, hm⟩ := hS k hk
          exact ⟨m, rest, by rw [step_others hst (fun e => hj (e ▸ hk))]; exact hm⟩)
        (by
          intro k hk
          obtain ⟨h0, t', ht', ha'⟩ := hQ k hk
          obtain ⟨t2, h2, s2⟩ := step_suffix hst ht'
          exact ⟨h0, t2, h2, fun a hm => ha' a (s2.subset hm)⟩)
        rfl
      refine ⟨j :: is, c2, Steps.step hst h2, ?_, h4⟩
      intro k hk
      rcases List.mem_cons.1 hk with rfl | hk
      · exact hj
      · exact h3 k hk

end Swoll.Lemmas.Sync
