import Verif.Spec.Ring
import Verif.Lemmas.Probe
/-
C146: from the probe to the callback.
-/
namespace Swoll.Props.Ring
open Swoll.Ring Swoll.Spec.Ring
open Swoll.Lemmas.Probe (snoc_induction)

variable {α : Type} {z : Sizes}

theorem run_snoc (s : State α) (xs : List (Act α)) (o : Act α) : run z s (xs ++ [o]) = step z (run z s xs) o := by
  simp [run]

theorem run_append (s : State α) (xs ys : List (Act α)) : run z s (xs ++ ys) = run z (run z s xs) ys := by
  simp [run]

theorem written_snoc (xs : List (Act (Nat × α))) (o : Act (Nat × α)) : written (xs ++ [o]) = written xs ++ written [o] := by
  simp [written]

theorem of_append (c : Nat) (a b : List (Nat × α)) : of c (a ++ b) = of c a ++ of c b := by
  simp [of]

theorem of_one (c : Nat) (a : Nat × α) : of c [a] = if a.1 = c then [a] else [] := by
  unfold of
  by_cases h : a.1 = c <;> simp [h]

theorem put_cases (b : Buf α) (a : α) :
    b.put z a = ⟨b.recs ++ b.note ++ [.event a], 0⟩ ∨ b.put z a = ⟨b.recs, b.missed + 1⟩ := by
  unfold Buf.put
  by_cases h : b.used z + (if b.missed = 0 then 0 else z.note) + z.event ≤ z.room
  · rw [if_pos h]; exact Or.inl rfl
  · rw [if_neg h]; exact Or.inr rfl

theorem kept_events (b : Buf α) (a : α) : events ⟨b.recs ++ b.note ++ [.event a], 0⟩ = events b ++ [a] := by
  unfold events Buf.note
  by_cases h : b.missed = 0 <;> simp [h, List.filterMap_append]

theorem kept_lost (b : Buf α) (a : α) : lostIn ⟨b.recs ++ b.note ++ [.event a], 0⟩ = lostIn b := by
  unfold lostIn Buf.note
  by_cases h : b.missed = 0 <;> simp [h]

theorem put_events (b : Buf α) (a : α) : events (b.put z a) = events b ∨ events (b.put z a) = events b ++ [a] := by
  rcases put_cases (z := z) b a with e | e
  · rw [e]; exact Or.inr (kept_events b a)
  · rw [e]; exact Or.inl rfl

/-- Putting an event into a ring without any loss. -/
theorem put_none (b : Buf α) (a : α) (h : lostIn (b.put z a) = 0) : lostIn b = 0 ∧ events (b.put z a) = events b ++ [a] := by
  rcases put_cases (z := z) b a with e | e
  · rw [e] at h ⊢; exact ⟨(kept_lost b a).symm.trans h, kept_events b a⟩
  · rw [e] at h
    unfold lostIn at h
    simp at h

/-- What each ring, and the reader, hold is in order. -/
structure Fine (cpus : Nat) (s : State (Nat × α)) (w : List (Nat × α)) : Prop where
  len : s.bufs.length = cpus
  tag : ∀ (i : Nat) (b : Buf (Nat × α)), s.bufs[i]? = some b → ∀ a ∈ events b, a.1 = i
  sub : ∀ (c : Nat) (b : Buf (Nat × α)), s.bufs[c]? = some b → (of c s.given ++ of c s.taken ++ events b).Sublist (of c w)
  out : ∀ c, cpus ≤ c → of c s.given ++ of c s.taken = []
  eq : NoneMissed s → ∀ (c : Nat) (b : Buf (Nat × α)), s.bufs[c]? = some b → of c s.given ++ of c s.taken ++ events b = of c w

theorem of_tag {c : Nat} {l : List (Nat × α)} (h : ∀ a ∈ l, a.1 = c) : of c l = l :=
  List.filter_eq_self.2 fun a ha => by simpa using h a ha

theorem fine_init (cpus : Nat) : Fine cpus (init (Nat × α) cpus) [] := by
  have hb : ∀ (i : Nat) (b : Buf (Nat × α)), (init (Nat × α) cpus).bufs[i]? = some b → b = ⟨[], 0⟩ := by
    intro i b h
    simp only [init] at h
    have := List.mem_of_getElem? h
    exact (List.mem_replicate.1 this).2
  refine ⟨by simp [init], ?_, ?_, by intros; rfl, ?_⟩
  · intro i b h a ha
    rw [hb i b h] at ha
    cases ha
  · intro c b h
    rw [hb c b h]
    exact List.Sublist.refl _
  · intro _ c b h
    rw [hb c b h]
    rfl

theorem get_set {l : List (Buf α)} {i : Nat} {b b' x : Buf α} {j : Nat} (hb : l[i]? = some b) (h : (l.set i b')[j]? = some x) :
    (j = i ∧ x = b') ∨ (j ≠ i ∧ l[j]? = some x) := by
  have hi : i < l.length := (List.getElem?_eq_some_iff.1 hb).1
  rw [List.getElem?_set] at h
  by_cases e : i = j
  · rw [if_pos e, if_pos hi] at h
    injection h with h
    exact Or.inl ⟨e.symm, h.symm⟩
  · rw [if_neg e] at h
    exact Or.inr ⟨fun x => e x.symm, h⟩

theorem fine_write {cpus : Nat} {s : State (Nat × α)} {w : List (Nat × α)} (h : Fine cpus s w) (c : Nat) (a : Nat × α)
    (hc : c < cpus) (ha : a.1 = c) : Fine cpus (write z s c a) (w ++ [a]) := by
  unfold write
  cases hb : s.bufs[c]? with
  | none =>
    rw [List.getElem?_eq_none_iff, h.len] at hb
    omega
  | some b =>
    dsimp only
    have happ : ∀ d, of d (w ++ [a]) = of d w ++ if c = d then [a] else [] := by
      intro d; rw [of_append, of_one, ha]
    refine ⟨by simp [h.len], ?_, ?_, h.out, ?_⟩
    · intro i x hx y hy
      rcases get_set hb hx with ⟨rfl, rfl⟩ | ⟨hne, hx⟩
      · rcases put_events (z := z) b a with e | e
        · rw [e] at hy; exact h.tag _ b hb y hy
        · rw [e] at hy
          rcases List.mem_append.1 hy with hy | hy
          · exact h.tag _ b hb y hy
          · rw [List.mem_singleton.1 hy]; exact ha
      · exact h.tag i x hx y hy
    · intro d x hx
      rw [happ]
      rcases get_set hb hx with ⟨rfl, rfl⟩ | ⟨hne, hx⟩
      · rw [if_pos rfl]
        have := h.sub _ b hb
        rcases put_events (z := z) b a with e | e
        · rw [e]; exact this.trans (List.sublist_append_left _ _)
        · rw [e, ← List.append_assoc]; exact this.append (List.Sublist.refl _)
      · rw [if_neg (fun e => hne e.symm), List.append_nil]
        exact h.sub d x hx
    · intro hn d x hx
      have hi : c < s.bufs.length := (List.getElem?_eq_some_iff.1 hb).1
      have hput := put_none (z := z) b a (hn.2 _ (List.mem_of_getElem? (i := c) (by rw [List.getElem?_set]; simp [hi])))
      have hn2 : NoneMissed s := by
        refine ⟨hn.1, fun y hy => ?_⟩
        obtain ⟨j, hj⟩ := List.mem_iff_getElem?.1 hy
        by_cases e : c = j
        · subst e
          rw [hb] at hj
          injection hj with hj
          rw [← hj]; exact hput.1
        · exact hn.2 y (List.mem_of_getElem? (i := j) (by rw [List.getElem?_set, if_neg e]; exact hj))
      rw [happ]
      rcases get_set hb hx with ⟨rfl, rfl⟩ | ⟨hne, hx⟩
      · rw [if_pos rfl, hput.2, ← List.append_assoc, h.eq hn2 _ b hb]
      · rw [if_neg (fun e => hne e.symm), List.append_nil]
        exact h.eq hn2 d x hx

theorem fine_poll {cpus : Nat} {s : State (Nat × α)} {w : List (Nat × α)} (h : Fine cpus s w) : Fine cpus (poll s) w := by
  unfold poll
  cases hpc : s.pc with
  | handing =>
    dsimp only
    cases ht : s.taken with
    | nil =>
      dsimp only
      exact ⟨h.len, h.tag, fun c b hb => by have := h.sub c b hb; rw [ht] at this; exact this,
        fun c hc => by have := h.out c hc; rw [ht] at this; exact this,
        fun hn c b hb => by have := h.eq hn c b hb; rw [ht] at this; exact this⟩
    | cons a l =>
      dsimp only
      have e : ∀ c, of c (s.given ++ [a]) ++ of c l = of c s.given ++ of c s.taken := by
        intro c
        rw [ht, of_append, List.append_assoc, ← of_append]
        rfl
      refine ⟨h.len, h.tag, ?_, ?_, ?_⟩
      · intro c b hb; dsimp only; rw [e]; exact h.sub c b hb
      · intro c hc; dsimp only; rw [e]; exact h.out c hc
      · intro hn c b hb; dsimp only; rw [e]; exact h.eq hn c b hb
  | reading i =>
    dsimp only
    cases hb : s.bufs[i]? with
    | none => exact ⟨h.len, h.tag, h.sub, h.out, h.eq⟩
    | some b =>
      dsimp only
      cases hr : b.recs with
      | nil => exact ⟨h.len, h.tag, h.sub, h.out, h.eq⟩
      | cons r rs =>
        cases r with
        | event a =>
          dsimp only
          have hev : events b = a :: events ⟨rs, b.missed⟩ := by unfold events; rw [hr]; rfl
          have ha : a.1 = i := h.tag i b hb a (by rw [hev]; exact List.mem_cons_self)
          have hic : i < cpus := by rw [← h.len]; exact (List.getElem?_eq_some_iff.1 hb).1
          have hof : ∀ c, of c (s.taken ++ [a]) = of c s.taken ++ if i = c then [a] else [] := by
            intro c; rw [of_append, of_one, ha]
          have hlost : lostIn b = lostIn (⟨rs, b.missed⟩ : Buf (Nat × α)) := by
            unfold lostIn; rw [hr]; simp
          refine ⟨by simp [h.len], ?_, ?_, ?_, ?_⟩
          · intro j x hx y hy
            rcases get_set hb hx with ⟨rfl, rfl⟩ | ⟨hne, hx⟩
            · exact h.tag _ b hb y (by rw [hev]; exact List.mem_cons_of_mem _ hy)
            · exact h.tag j x hx y hy
          · intro c x hx
            dsimp only
            rw [hof]
            rcases get_set hb hx with ⟨rfl, rfl⟩ | ⟨hne, hx⟩
            · have := h.sub _ b hb
              rw [hev] at this
              rw [if_pos rfl]
              simpa using this
            · rw [if_neg (fun e => hne e.symm), List.append_nil]
              exact h.sub c x hx
          · intro c hc
            dsimp only
            rw [hof, if_neg (by omega), List.append_nil]
            exact h.out c hc
          · intro hn c x hx
            have hn2 : NoneMissed s := by
              refine ⟨hn.1, fun y hy => ?_⟩
              obtain ⟨j, hj⟩ := List.mem_iff_getElem?.1 hy
              have hi : i < s.bufs.length := (List.getElem?_eq_some_iff.1 hb).1
              by_cases e : i = j
              · subst e
                rw [hb] at hj
                injection hj with hj
                rw [← hj, hlost]
                exact hn.2 _ (List.mem_of_getElem? (i := i) (by dsimp only; rw [List.getElem?_set]; simp [hi]))
              · exact hn.2 y (List.mem_of_getElem? (i := j) (by dsimp only; rw [List.getElem?_set, if_neg e]; exact hj))
            dsimp only
            rw [hof]
            rcases get_set hb hx with ⟨rfl, rfl⟩ | ⟨hne, hx⟩
            · have := h.eq hn2 _ b hb
              rw [hev] at this
              rw [if_pos rfl]
              simpa using this
            · rw [if_neg (fun e => hne e.symm), List.append_nil]
              exact h.eq hn2 c x hx
        | missed n =>
          dsimp only
          have hev : events b = events ⟨rs, b.missed⟩ := by unfold events; rw [hr]; rfl
          refine ⟨by simp [h.len], ?_, ?_, h.out, ?_⟩
          · intro j x hx y hy
            rcases get_set hb hx with ⟨rfl, rfl⟩ | ⟨hne, hx⟩
            · exact h.tag _ b hb y (by rw [hev]; exact hy)
            · exact h.tag j x hx y hy
          · intro c x hx
            rcases get_set hb hx with ⟨rfl, rfl⟩ | ⟨hne, hx⟩
            · dsimp only; rw [← hev]; exact h.sub _ b hb
            · exact h.sub c x hx
          · intro hn
            exact absurd hn.1 (by simp)

theorem fine_run (cpus : Nat) (acts : List (Act (Nat × α))) (ht : ∀ o ∈ acts, Tagged cpus o) :
    Fine cpus (run z (init (Nat × α) cpus) acts) (written acts) := by
  induction acts using snoc_induction with
  | h0 => exact fine_init cpus
  | h1 xs o ih =>
    have ih := ih fun o ho => ht o (List.mem_append_left _ ho)
    rw [run_snoc, written_snoc]
    have ho := ht o (by simp)
    cases o with
    | write c a => exact fine_write ih c a ho.1 ho.2
    | poll => rw [show written [(Act.poll : Act (Nat × α))] = [] from rfl, List.append_nil]; exact fine_poll ih

/-- C146: whatever the schedule, the events of one CPU are given to the callback in the order in which they were written,
each at most once, and nothing else is. -/
theorem c146_cpu_order (cpus : Nat) (acts : List (Act (Nat × α))) (ht : ∀ o ∈ acts, Tagged cpus o) (c : Nat) :
    (of c (run z (init (Nat × α) cpus) acts).given).Sublist (of c (written acts)) := by
  have h := fine_run (z := z) cpus acts ht
  by_cases hc : c < cpus
  · have hb := List.getElem?_eq_getElem (by rw [h.len]; exact hc : c < (run z (init (Nat × α) cpus) acts).bufs.length)
    have := h.sub c _ hb
    rw [List.append_assoc] at this
    exact (List.sublist_append_left _ _).trans this
  · have := h.out c (by omega)
    rw [(List.append_eq_nil_iff.1 this).1]
    exact List.nil_sublist _

/-- C146: when nothing was missed and nothing waits, all of them have been given. -/
theorem c146_all (cpus : Nat) (acts : List (Act (Nat × α))) (ht : ∀ o ∈ acts, Tagged cpus o)
    (hm : NoneMissed (run z (init (Nat × α) cpus) acts)) (hi : Idle (run z (init (Nat × α) cpus) acts)) (c : Nat) (hc : c < cpus) :
    of c (run z (init (Nat × α) cpus) acts).given = of c (written acts) := by
  have h := fine_run (z := z) cpus acts ht
  have hb := List.getElem?_eq_getElem (by rw [h.len]; exact hc : c < (run z (init (Nat × α) cpus) acts).bufs.length)
  rw [← h.eq hm c _ hb]
  have h2 : events ((run z (init (Nat × α) cpus) acts).bufs[c]'(by rw [h.len]; exact hc)) = [] := by
    unfold events
    rw [hi.2 _ (List.getElem_mem _)]
    rfl
  rw [h2, hi.1]
  simp [of]

/-- C146: one thread, or whatever else stays on one CPU, is seen in order. -/
theorem c146_stays_partial (cpus : Nat) (acts : List (Act (Nat × α))) (ht : ∀ o ∈ acts, Tagged cpus o)
    (mine : Nat × α → Bool) (c : Nat) (hc : ∀ a ∈ written acts, mine a = true → a.1 = c) :
    ((run z (init (Nat × α) cpus) acts).given.filter mine).Sublist ((written acts).filter mine) := by
  have h := fun c => c146_cpu_order (z := z) cpus acts ht c
  have hw : (written acts).filter mine = (of c (written acts)).filter mine := by
    unfold of
    rw [List.filter_filter]
    refine List.filter_congr fun a ha => ?_
    cases hm : mine a with
    | false => rfl
    | true => simp [hc a ha hm]
  have hg : (run z (init (Nat × α) cpus) acts).given.filter mine = (of c (run z (init (Nat × α) cpus) acts).given).filter mine := by
    conv => rhs; unfold of
    rw [List.filter_filter]
    refine List.filter_congr fun a ha => ?_
    cases hm : mine a with
    | false => rfl
    | true =>
      have : a ∈ of a.1 (written acts) := (h a.1).subset (List.mem_filter.2 ⟨ha, by simp⟩)
      simp [hc a (List.mem_filter.1 this).1 hm]
  rw [hw, hg]
  exact (h c).filter _

/-- C146: on one CPU, what is given is in the order of the calls. -/
theorem c146_one_cpu_partial (acts : List (Act (Nat × α))) (ht : ∀ o ∈ acts, Tagged 1 o) :
    (run z (init (Nat × α) 1) acts).given.Sublist (written acts) := by
  have h := c146_stays_partial (z := z) 1 acts ht (fun _ => true) 0 fun a ha _ => by
    obtain ⟨o, ho, e⟩ := List.mem_filterMap.1 ha
    cases o with
    | poll => cases e
    | write c x =>
      injection e with e
      have := ht _ ho
      rw [← e, this.2]
      exact Nat.lt_one_iff.1 this.1
  rw [List.filter_eq_self.2 (fun _ _ => rfl), List.filter_eq_self.2 (fun _ _ => rfl)] at h
  exact h

/-! When nothing is missed. -/

/-- A ring in which nothing was missed: only events. -/
def Clean (b : Buf α) : Prop := ∃ l : List α, b = ⟨l.map .event, 0⟩

theorem clean_events (l : List α) : events ⟨l.map .event, 0⟩ = l := by
  unfold events
  rw [List.filterMap_map]
  exact List.filterMap_some

theorem clean_lost {b : Buf α} (h : Clean b) : lostIn b = 0 := by
  obtain ⟨l, rfl⟩ := h
  unfold lostIn
  dsimp only
  induction l with
  | nil => rfl
  | cons a l ih => simpa using ih

theorem clean_used (l : List α) : Buf.used z ⟨l.map .event, 0⟩ = l.length * z.event := by
  unfold Buf.used
  induction l with
  | nil => simp
  | cons a l ih =>
    simp only [List.map_cons, List.sum_cons, List.length_cons, Nat.add_mul] at ih ⊢
    rw [ih]
    simp only [Rec.size]
    omega

theorem clean_put {b : Buf α} (a : α) (h : Clean b) (hr : ((events b).length + 1) * z.event ≤ z.room) : Clean (b.put z a) := by
  obtain ⟨l, rfl⟩ := h
  rw [clean_events, Nat.add_mul] at hr
  refine ⟨l ++ [a], ?_⟩
  unfold Buf.put
  rw [if_pos (by rw [clean_used, if_pos rfl]; omega)]
  simp [Buf.note]

/-- C146: as long as there is room for one more event whenever one is written to a ring, nothing is missed. -/
theorem c146_room (cpus : Nat) (acts : List (Act (Nat × α)))
    (hroom : ∀ pre c a post, acts = pre ++ .write c a :: post → ∀ b, (run z (init (Nat × α) cpus) pre).bufs[c]? = some b →
      ((events b).length + 1) * z.event ≤ z.room) :
    NoneMissed (run z (init (Nat × α) cpus) acts) := by
  suffices H : (run z (init (Nat × α) cpus) acts).told = [] ∧ ∀ (i : Nat) (b : Buf (Nat × α)),
      (run z (init (Nat × α) cpus) acts).bufs[i]? = some b → Clean b from
    ⟨H.1, fun b hb => by obtain ⟨i, hi⟩ := List.mem_iff_getElem?.1 hb; exact clean_lost (H.2 i b hi)⟩
  induction acts using snoc_induction with
  | h0 =>
    refine ⟨rfl, fun i b h => ?_⟩
    have := List.mem_of_getElem? h
    exact ⟨[], (List.mem_replicate.1 this).2⟩
  | h1 xs o ih =>
    obtain ⟨i1, i2⟩ := ih fun pre c a post e => hroom pre c a (post ++ [o]) (by rw [e]; simp)
    rw [run_snoc]
    cases o with
    | write c a =>
      have hr := hroom xs c a [] rfl
      generalize run z (init (Nat × α) cpus) xs = s at i1 i2 hr
      simp only [step, write]
      cases hb : s.bufs[c]? with
      | none => exact ⟨i1, i2⟩
      | some b =>
        refine ⟨i1, fun i x hx => ?_⟩
        rcases get_set hb hx with ⟨rfl, rfl⟩ | ⟨-, hx⟩
        · exact clean_put a (i2 _ b hb) (hr b hb)
        · exact i2 i x hx
    | poll =>
      generalize run z (init (Nat × α) cpus) xs = s at i1 i2
      simp only [step, poll]
      cases hpc : s.pc with
      | handing => dsimp only; cases s.taken <;> exact ⟨i1, i2⟩
      | reading i =>
        dsimp only
        cases hb : s.bufs[i]? with
        | none => exact ⟨i1, i2⟩
        | some b =>
          obtain ⟨l, rfl⟩ := i2 i b hb
          cases l with
          | nil => exact ⟨i1, i2⟩
          | cons a l =>
            refine ⟨i1, fun j x hx => ?_⟩
            rcases get_set hb hx with ⟨rfl, rfl⟩ | ⟨-, hx⟩
            · exact ⟨l, rfl⟩
            · exact i2 j x hx

/-! Nothing is unaccounted for. -/

theorem sum_set (f : Buf α → Nat) : ∀ (l : List (Buf α)) (i : Nat) (b b' : Buf α), l[i]? = some b →
    ((l.set i b').map f).sum + f b = (l.map f).sum + f b'
  | [], i, b, b', h => by simp at h
  | x :: l, 0, b, b', h => by
    simp only [List.getElem?_cons_zero, Option.some.injEq] at h
    subst h
    simp only [List.set_cons_zero, List.map_cons, List.sum_cons]
    omega
  | x :: l, i + 1, b, b', h => by
    simp only [List.getElem?_cons_succ] at h
    have := sum_set f l i b b' h
    simp only [List.set_cons_succ, List.map_cons, List.sum_cons]
    omega

/-- Events in a ring, and events it says were missed. -/
def amount (b : Buf α) : Nat := (events b).length + lostIn b

theorem put_amount (b : Buf α) (a : α) : amount (b.put z a) = amount b + 1 := by
  unfold amount
  rcases put_cases (z := z) b a with e | e
  · rw [e, kept_events, kept_lost, List.length_append]
    simp only [List.length_cons, List.length_nil]
    omega
  · rw [e]
    unfold lostIn events
    dsimp only
    omega

theorem sum_replicate (n : Nat) : ((List.replicate n (⟨[], 0⟩ : Buf α)).map amount).sum = 0 := by
  induction n with
  | zero => rfl
  | succ n ih =>
    rw [List.replicate_succ, List.map_cons, List.sum_cons, ih]
    rfl

/-- C146: every event written is given, or waits, or is counted as missed; the numbers of missed events add up. -/
theorem c146_accounted (cpus : Nat) (acts : List (Act (Nat × α))) (ht : ∀ o ∈ acts, Tagged cpus o) :
    let s := run z (init (Nat × α) cpus) acts
    (written acts).length = s.given.length + s.taken.length + (s.bufs.map fun b => (events b).length + lostIn b).sum + s.told.sum := by
  suffices H : (run z (init (Nat × α) cpus) acts).bufs.length = cpus ∧ (written acts).length =
      (run z (init (Nat × α) cpus) acts).given.length + (run z (init (Nat × α) cpus) acts).taken.length +
      ((run z (init (Nat × α) cpus) acts).bufs.map amount).sum + (run z (init (Nat × α) cpus) acts).told.sum from H.2
  induction acts using snoc_induction with
  | h0 =>
    refine ⟨by simp [run, init], ?_⟩
    simp only [run, List.foldl_nil, init, sum_replicate]
    rfl
  | h1 xs o ih =>
    obtain ⟨i1, i2⟩ := ih fun o ho => ht o (List.mem_append_left _ ho)
    have ho := ht o (by simp)
    rw [run_snoc, written_snoc, List.length_append]
    generalize run z (init (Nat × α) cpus) xs = s at i1 i2
    cases o with
    | write c a =>
      simp only [step, write]
      cases hb : s.bufs[c]? with
      | none =>
        rw [List.getElem?_eq_none_iff] at hb
        exact absurd ho.1 (by omega)
      | some b =>
        have := sum_set amount s.bufs c b (b.put z a) hb
        rw [put_amount] at this
        dsimp only
        rw [show (written [Act.write c a]).length = 1 from rfl]
        exact ⟨by rw [List.length_set]; exact i1, by omega⟩
    | poll =>
      rw [show (written [(Act.poll : Act (Nat × α))]).length = 0 from rfl]
      simp only [step, poll]
      cases hpc : s.pc with
      | handing =>
        dsimp only
        cases htk : s.taken with
        | nil => rw [htk] at i2; exact ⟨i1, i2⟩
        | cons x l =>
          rw [htk] at i2
          refine ⟨i1, ?_⟩
          simp only [List.length_append, List.length_cons, List.length_nil] at i2 ⊢
          omega
      | reading i =>
        dsimp only
        cases hb : s.bufs[i]? with
        | none => exact ⟨i1, i2⟩
        | some b =>
          dsimp only
          cases hr : b.recs with
          | nil => exact ⟨i1, i2⟩
          | cons r rs =>
            cases r with
            | event a =>
              have := sum_set amount s.bufs i b ⟨rs, b.missed⟩ hb
              have ha : amount b = amount (⟨rs, b.missed⟩ : Buf (Nat × α)) + 1 := by
                unfold amount events lostIn
                rw [hr]
                simp
                omega
              refine ⟨by rw [List.length_set]; exact i1, ?_⟩
              simp only [List.length_append, List.length_cons, List.length_nil]
              omega
            | missed n =>
              have := sum_set amount s.bufs i b ⟨rs, b.missed⟩ hb
              have ha : amount b = amount (⟨rs, b.missed⟩ : Buf (Nat × α)) + n := by
                unfold amount events lostIn
                rw [hr]
                simp
                omega
              refine ⟨by rw [List.length_set]; exact i1, ?_⟩
              simp only [List.sum_append, List.sum_cons, List.sum_nil]
              omega

/-! What the reader does when nothing is written. -/

/-- The reader gets from one state to the other by itself. -/
def Gets (s s' : State α) : Prop := ∃ n, run ⟨0, 0, 0⟩ s (List.replicate n .poll) = s'

theorem Gets.refl (s : State α) : Gets s s := ⟨0, rfl⟩

theorem Gets.trans {a b c : State α} (h1 : Gets a b) (h2 : Gets b c) : Gets a c := by
  obtain ⟨n, rfl⟩ := h1
  obtain ⟨m, rfl⟩ := h2
  exact ⟨n + m, by rw [← run_append, List.replicate_append_replicate]⟩

theorem Gets.one (s : State α) : Gets s (poll s) := ⟨1, rfl⟩

theorem run_polls (s : State α) (n : Nat) : run z s (List.replicate n .poll) = run ⟨0, 0, 0⟩ s (List.replicate n .poll) := by
  induction n generalizing s with
  | zero => rfl
  | succ n ih => simp only [List.replicate_succ, run, List.foldl_cons] at ih ⊢; exact ih _

/-- The numbers of missed events in the records of a ring. -/
def notes (l : List (Rec α)) : List Nat :=
  l.filterMap fun
    | .event _ => none
    | .missed n => some n

theorem read_ring : ∀ (l : List (Rec α)) (s : State α) (i m : Nat), s.pc = .reading i → s.bufs[i]? = some ⟨l, m⟩ →
    Gets s { s with bufs := s.bufs.set i ⟨[], m⟩, taken := s.taken ++ events ⟨l, m⟩, told := s.told ++ notes l, pc := .reading (i + 1) }
  | [], s, i, m, hpc, hb => by
    refine ⟨1, ?_⟩
    simp only [List.replicate, run, List.foldl_cons, List.foldl_nil, step, poll, hpc, hb]
    obtain ⟨hi, he⟩ := List.getElem?_eq_some_iff.1 hb
    have : s.bufs.set i ⟨[], m⟩ = s.bufs := by rw [← he]; exact List.set_getElem_self hi
    simp [events, notes, this]
  | r :: l, s, i, m, hpc, hb => by
    have hi : i < s.bufs.length := (List.getElem?_eq_some_iff.1 hb).1
    refine (Gets.one s).trans ?_
    cases r with
    | event a =>
      have e : poll s = { s with bufs := s.bufs.set i ⟨l, m⟩, taken := s.taken ++ [a] } := by
        simp only [poll, hpc, hb]
      rw [e]
      have := read_ring l { s with bufs := s.bufs.set i ⟨l, m⟩, taken := s.taken ++ [a] } i m hpc
        (by dsimp only; rw [List.getElem?_set]; simp [hi])
      simpa [events, notes] using this
    | missed n =>
      have e : poll s = { s with bufs := s.bufs.set i ⟨l, m⟩, told := s.told ++ [n] } := by
        simp only [poll, hpc, hb]
      rw [e]
      have := read_ring l { s with bufs := s.bufs.set i ⟨l, m⟩, told := s.told ++ [n] } i m hpc
        (by dsimp only; rw [List.getElem?_set]; simp [hi])
      simpa [events, notes] using this

/-- A ring that has been emptied. -/
def emptied (b : Buf α) : Buf α := ⟨[], b.missed⟩

theorem read_all : ∀ (k : Nat) (s : State α) (i : Nat), s.pc = .reading i → i + k = s.bufs.length →
    Gets s { s with bufs := s.bufs.take i ++ (s.bufs.drop i).map emptied, taken := s.taken ++ (s.bufs.drop i).flatMap events,
                    told := s.told ++ (s.bufs.drop i).flatMap (fun b => notes b.recs), pc := .handing }
  | 0, s, i, hpc, hk => by
    refine ⟨1, ?_⟩
    have hb : s.bufs[i]? = none := List.getElem?_eq_none (by omega)
    have hd : s.bufs.drop i = [] := List.drop_of_length_le (by omega)
    have ht : s.bufs.take i = s.bufs := List.take_of_length_le (by omega)
    simp only [List.replicate, run, List.foldl_cons, List.foldl_nil, step, poll, hpc, hb, hd, ht, List.map_nil,
      List.flatMap_nil, List.append_nil]
  | k + 1, s, i, hpc, hk => by
    have hi : i < s.bufs.length := by omega
    have hb : s.bufs[i]? = some ⟨s.bufs[i].recs, s.bufs[i].missed⟩ := List.getElem?_eq_getElem hi
    refine (read_ring _ s i _ hpc hb).trans ?_
    have := read_all k (⟨s.bufs.set i ⟨[], s.bufs[i].missed⟩, s.taken ++ events ⟨s.bufs[i].recs, s.bufs[i].missed⟩,
      .reading (i + 1), s.given, s.told ++ notes s.bufs[i].recs⟩) (i + 1) rfl (by simp; omega)
    have hd : s.bufs.drop i = s.bufs[i] :: s.bufs.drop (i + 1) := List.drop_eq_getElem_cons hi
    have e1 : (s.bufs.set i ⟨[], s.bufs[i].missed⟩).drop (i + 1) = s.bufs.drop (i + 1) := List.drop_set_of_lt (by omega)
    have e2 : (s.bufs.set i ⟨[], s.bufs[i].missed⟩).take (i + 1) = s.bufs.take i ++ [⟨[], s.bufs[i].missed⟩] := by
      rw [List.take_succ_eq_append_getElem (by simp; exact hi)]
      simp [List.take_set_of_le]
    dsimp only at this
    rw [e1, e2] at this
    rw [hd]
    simp only [List.map_cons, List.flatMap_cons, List.append_assoc, List.cons_append, List.nil_append] at this ⊢
    exact this

theorem hand : ∀ (l : List α) (s : State α), s.pc = .handing → s.taken = l →
    Gets s { s with taken := [], given := s.given ++ l, pc := .reading 0 }
  | [], s, hpc, ht => ⟨1, by
      simp only [List.replicate, run, List.foldl_cons, List.foldl_nil, step, poll, hpc, ht, List.append_nil]⟩
  | a :: l, s, hpc, ht => by
    refine (Gets.one s).trans ?_
    have e : poll s = { s with taken := l, given := s.given ++ [a] } := by simp only [poll, hpc, ht]
    rw [e]
    have := hand l { s with taken := l, given := s.given ++ [a] } hpc rfl
    simpa using this

/-- From the start of a round: ring by ring, all there is. -/
theorem round (s : State α) (hpc : s.pc = .reading 0) :
    Gets s { s with bufs := s.bufs.map emptied, taken := [], given := s.given ++ s.taken ++ s.bufs.flatMap events,
                    told := s.told ++ s.bufs.flatMap (fun b => notes b.recs) } := by
  have h1 := read_all s.bufs.length s 0 hpc (by omega)
  simp only [List.take_zero, List.drop_zero, List.nil_append] at h1
  refine h1.trans ?_
  have h2 := hand _ { s with bufs := s.bufs.map emptied, taken := s.taken ++ s.bufs.flatMap events,
                             told := s.told ++ s.bufs.flatMap (fun b => notes b.recs), pc := .handing } rfl rfl
  rw [← List.append_assoc] at h2
  rw [← hpc] at h2
  exact h2

theorem to_round (s : State α) : ∃ s', Gets s s' ∧ s'.pc = .reading 0 := by
  cases hpc : s.pc with
  | handing => exact ⟨_, hand _ s hpc rfl, rfl⟩
  | reading i =>
    by_cases hi : i ≤ s.bufs.length
    · have h1 := read_all (s.bufs.length - i) s i hpc (by omega)
      exact ⟨_, h1.trans (hand _ _ rfl rfl), rfl⟩
    · have e : poll s = { s with pc := .handing } := by
        simp only [poll, hpc, List.getElem?_eq_none (Nat.le_of_lt (Nat.lt_of_not_le hi))]
      have h1 : Gets s { s with pc := .handing } := e ▸ Gets.one s
      exact ⟨_, h1.trans (hand _ _ rfl rfl), rfl⟩

/-- C146: after the last event, the reader comes to the end: everything that is not missed is given. -/
theorem c146_comes_to_rest (cpus : Nat) (acts : List (Act (Nat × α))) :
    ∃ n, Idle (run z (init (Nat × α) cpus) (acts ++ List.replicate n .poll)) := by
  obtain ⟨s', ⟨n, h1⟩, h2⟩ := to_round (run z (init (Nat × α) cpus) acts)
  obtain ⟨m, h3⟩ := round s' h2
  refine ⟨n + m, ?_⟩
  rw [run_append, run_polls, ← List.replicate_append_replicate, run_append, h1, h3]
  refine ⟨rfl, fun b hb => ?_⟩
  obtain ⟨x, -, rfl⟩ := List.mem_map.1 hb
  rfl

/-- C146 fails on more than one CPU: of two events, written one after the other, the one on the CPU with the smaller
number is given first. The two may be calls of one thread that was moved from one CPU to the other. -/
theorem c146_moved_violated (hz : z.event ≤ z.room) (cpus i j : Nat) (hij : i < j) (hj : j < cpus) (a b : α) :
    ∃ n, let acts := [.write j (j, b), .write i (i, a)] ++ List.replicate n .poll
      written acts = [(j, b), (i, a)] ∧ NoneMissed (run z (init (Nat × α) cpus) acts) ∧
      (run z (init (Nat × α) cpus) acts).given = [(i, a), (j, b)] := by
  have hput : ∀ x : Nat × α, (⟨[], 0⟩ : Buf (Nat × α)).put z x = ⟨[.event x], 0⟩ := by
    intro x
    simp [Buf.put, Buf.used, Buf.note, hz]
  let R : List (Buf (Nat × α)) := List.replicate cpus ⟨[], 0⟩
  have hw : run z (init (Nat × α) cpus) [.write j (j, b), .write i (i, a)] =
      ⟨(R.set j ⟨[.event (j, b)], 0⟩).set i ⟨[.event (i, a)], 0⟩, [], .reading 0, [], []⟩ := by
    have h1 : R[j]? = some ⟨[], 0⟩ := by simp [R, hj]
    have h2 : (R.set j ⟨[.event (j, b)], 0⟩)[i]? = some ⟨[], 0⟩ := by
      rw [List.getElem?_set, if_neg (by omega)]
      simp [R, Nat.lt_trans hij hj]
    simp only [run, List.foldl_cons, List.foldl_nil, step]
    simp only [write, init, show List.replicate cpus (⟨[], 0⟩ : Buf (Nat × α)) = R from rfl, h1, hput, h2]
  obtain ⟨n, hn⟩ := round _ (congrArg State.pc hw)
  have hR : (R.set j ⟨[.event (j, b)], 0⟩).set i ⟨[.event (i, a)], 0⟩ =
      List.replicate i ⟨[], 0⟩ ++ [⟨[.event (i, a)], 0⟩] ++ List.replicate (j - i - 1) ⟨[], 0⟩ ++ [⟨[.event (j, b)], 0⟩] ++
        List.replicate (cpus - j - 1) ⟨[], 0⟩ := by
    rw [List.set_eq_take_append_cons_drop, if_pos (by simp [R]; omega), List.take_set_of_le (by omega), List.drop_set,
      if_neg (by omega), List.set_eq_take_append_cons_drop, if_pos (by simp [R]; omega)]
    simp only [R, List.take_replicate, List.drop_replicate, List.append_assoc, List.cons_append, List.nil_append]
    rw [show min i cpus = i by omega, show min (j - (i + 1)) (cpus - (i + 1)) = j - i - 1 by omega,
      show cpus - (i + 1) - (j - (i + 1) + 1) = cpus - j - 1 by omega]
  have hrep : ∀ m, (List.replicate m (⟨[], 0⟩ : Buf (Nat × α))).flatMap events = [] := by
    intro m
    rw [List.flatMap_eq_nil_iff]
    intro x hx
    rw [(List.mem_replicate.1 hx).2]
    rfl
  have hnot : ∀ m, (List.replicate m (⟨[], 0⟩ : Buf (Nat × α))).flatMap (fun b => notes b.recs) = [] := by
    intro m
    rw [List.flatMap_eq_nil_iff]
    intro x hx
    rw [(List.mem_replicate.1 hx).2]
    rfl
  have hfin : run z (init (Nat × α) cpus) ([.write j (j, b), .write i (i, a)] ++ List.replicate n .poll) =
      ⟨((R.set j ⟨[.event (j, b)], 0⟩).set i ⟨[.event (i, a)], 0⟩).map emptied, [], .reading 0, [(i, a), (j, b)], []⟩ := by
    rw [run_append, run_polls, hn, hw]
    dsimp only
    congr 1
    · rw [hR]
      simp only [List.flatMap_append, hrep]
      rfl
    · rw [hR]
      simp only [List.flatMap_append, hnot]
      rfl
  refine ⟨n, ?_, ?_, ?_⟩
  · have : written (List.replicate n (Act.poll : Act (Nat × α))) = [] := by
      unfold written
      rw [List.filterMap_eq_nil_iff]
      intro o ho
      rw [(List.mem_replicate.1 ho).2]
    rw [show written ([.write j (j, b), .write i (i, a)] ++ List.replicate n (Act.poll : Act (Nat × α))) =
      written [.write j (j, b), .write i (i, a)] ++ written (List.replicate n (Act.poll : Act (Nat × α))) from List.filterMap_append, this]
    rfl
  · rw [hfin]
    refine ⟨rfl, fun x hx => ?_⟩
    rw [hR] at hx
    simp only [List.map_append, List.map_replicate, List.mem_append, List.mem_map, List.mem_replicate, List.mem_singleton] at hx
    rcases hx with (((hx | ⟨y, rfl, rfl⟩) | hx) | ⟨y, rfl, rfl⟩) | hx
    · rw [hx.2]; rfl
    · rfl
    · rw [hx.2]; rfl
    · rfl
    · rw [hx.2]; rfl
  · rw [hfin]

/-- C146 fails when one CPU writes as fast as it is read: nothing is given, neither its events nor those that wait in the
other rings, and what the reader has taken grows without bound. -/
theorem c146_starved_violated (s : State α) (i : Nat) (hpc : s.pc = .reading i) (hb : s.bufs[i]? = some ⟨[], 0⟩)
    (hz : z.event ≤ z.room) (l : List α) :
    run z s (l.flatMap fun a => [.write i a, .poll]) = { s with taken := s.taken ++ l } := by
  induction l generalizing s with
  | nil => simp [run]
  | cons a l ih =>
    rw [List.flatMap_cons, run_append]
    have hi : i < s.bufs.length := (List.getElem?_eq_some_iff.1 hb).1
    have e1 : write z s i a = { s with bufs := s.bufs.set i ⟨[.event a], 0⟩ } := by
      simp only [write, hb]
      congr 2
      simp [Buf.put, Buf.used, Buf.note, hz]
    have e2 : poll { s with bufs := s.bufs.set i ⟨[.event a], 0⟩ } = { s with taken := s.taken ++ [a] } := by
      have hg : (s.bufs.set i ⟨[.event a], 0⟩)[i]? = some ⟨[.event a], 0⟩ := by rw [List.getElem?_set]; simp [hi]
      have hs : s.bufs.set i ⟨[], 0⟩ = s.bufs := by
        obtain ⟨h1, h2⟩ := List.getElem?_eq_some_iff.1 hb
        rw [← h2]; exact List.set_getElem_self hi
      simp only [poll, hpc, hg, List.set_set, hs]
    have : run z s [.write i a, .poll] = { s with taken := s.taken ++ [a] } := by
      simp only [run, List.foldl_cons, List.foldl_nil, step, e1, e2]
    rw [this, ih { s with taken := s.taken ++ [a] } hpc hb]
    simp

/-! Schedules that meet the hypotheses: two CPUs, and room for two events. -/

def demoSizes : Sizes := ⟨20, 10, 4⟩

/-- Three events on CPU 1, of which one is missed, one on CPU 0, then the reader twice round, then another on CPU 1. -/
def demoActs : List (Act (Nat × Nat)) :=
  [.write 1 (1, 100), .write 1 (1, 101), .write 1 (1, 102), .write 0 (0, 103)] ++ List.replicate 9 .poll ++
    [.write 1 (1, 104)] ++ List.replicate 9 .poll

example : ∀ o ∈ demoActs, Tagged 2 o := by
  intro o ho
  simp only [demoActs, List.mem_append, List.mem_cons, List.mem_replicate, List.not_mem_nil, or_false] at ho
  rcases ho with ((( rfl | rfl | rfl | rfl) | ⟨-, rfl⟩) | rfl) | ⟨-, rfl⟩ <;> simp [Tagged]

example : (run demoSizes (init (Nat × Nat) 2) demoActs).given = [(0, 103), (1, 100), (1, 101), (1, 104)] := by decide +kernel

example : (run demoSizes (init (Nat × Nat) 2) demoActs).told = [1] := by decide +kernel

/-- The same without the event that is missed. -/
def demoCalm : List (Act (Nat × Nat)) :=
  [.write 1 (1, 100), .write 1 (1, 101), .write 0 (0, 103)] ++ List.replicate 9 .poll

example : NoneMissed (run demoSizes (init (Nat × Nat) 2) demoCalm) ∧ Idle (run demoSizes (init (Nat × Nat) 2) demoCalm) := by
  unfold NoneMissed Idle
  decide +kernel

example : (run demoSizes (init (Nat × Nat) 2) demoCalm).given = [(0, 103), (1, 100), (1, 101)] := by decide +kernel

example : ∃ n, let acts := [.write 3 (3, "close"), .write 1 (1, "open")] ++ List.replicate n .poll
    written acts = [(3, "close"), (1, "open")] ∧ NoneMissed (run demoSizes (init (Nat × String) 4) acts) ∧
    (run demoSizes (init (Nat × String) 4) acts).given = [(1, "open"), (3, "close")] :=
  c146_moved_violated (by decide) 4 1 3 (by decide) (by decide) _ _

example (l : List Nat) : (run demoSizes (⟨[⟨[], 0⟩, ⟨[.event 7], 0⟩], [], .reading 0, [], []⟩ : State Nat)
    (l.flatMap fun a => [.write 0 a, .poll])).given = [] := by
  rw [c146_starved_violated _ 0 rfl rfl (by decide)]

end Swoll.Props.Ring
