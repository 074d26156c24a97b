import Verif.Spec.Views
/- Helpers for the views of the metrics. -/
namespace Swoll.Lemmas.Views
open Swoll Swoll.Syscalls Swoll.Views Swoll.Spec.Views
open Swoll.Topology (Cache Container lookupContainer)

/-! ### Floats -/

theorem roundTo_exact {p n : Nat} (hp : 0 < p) (h : n ≤ 2 ^ p) : roundTo p n = n := by
  unfold roundTo
  by_cases h2 : n < 2 ^ p
  · rw [if_pos h2]
  · have : n = 2 ^ p := by omega
    subst this
    rw [if_neg h2]
    obtain ⟨q, rfl⟩ : ∃ q, p = q + 1 := ⟨p - 1, by omega⟩
    have hs : Nat.log2 (2 ^ (q + 1)) + 1 - (q + 1) = 1 := by rw [Nat.log2_two_pow]; omega
    dsimp only
    rw [hs]
    have h1 : 2 ^ (q + 1) / 2 ^ 1 = 2 ^ q := by rw [Nat.pow_succ]; omega
    have h3 : 2 ^ (q + 1) % 2 ^ 1 = 0 := by rw [Nat.pow_succ]; omega
    rw [h1, h3, if_neg (by omega), Nat.pow_one, Nat.pow_succ]

/-- The relative error of rounding. -/
theorem roundTo_error {p n : Nat} : ((roundTo p n : Int) - n).natAbs * 2 ^ p ≤ n := by
  unfold roundTo
  by_cases h2 : n < 2 ^ p
  · rw [if_pos h2]; simp
  · rw [if_neg h2]
    have hn0 : n ≠ 0 := by have := Nat.two_pow_pos p; omega
    dsimp only
    have hlog : p ≤ Nat.log2 n := (Nat.le_log2 hn0).2 (by omega)
    have hle : 2 ^ Nat.log2 n ≤ n := Nat.log2_self_le hn0
    obtain ⟨t, ht⟩ : ∃ t, Nat.log2 n + 1 - p = t + 1 := ⟨Nat.log2 n - p, by omega⟩
    rw [ht]
    have hdm := Nat.div_add_mod n (2 ^ (t + 1))
    have hlt := Nat.mod_lt n (Nat.two_pow_pos (t + 1))
    generalize hq : n / 2 ^ (t + 1) = q at hdm
    generalize hr : n % 2 ^ (t + 1) = r at hdm hlt
    have hpow : 2 ^ t * 2 ^ p ≤ n := by
      rw [← Nat.pow_add]
      have : t + p = Nat.log2 n := by omega
      rw [this]; exact hle
    refine Nat.le_trans (Nat.mul_le_mul_right _ ?_) hpow
    rw [Nat.pow_succ] at *
    rw [Nat.mul_comm] at hdm
    generalize 2 ^ t = u at *
    by_cases hc : u * 2 < 2 * r ∨ (2 * r = u * 2 ∧ q % 2 = 1)
    · rw [if_pos hc, Nat.add_mul, Nat.one_mul]; omega
    · rw [if_neg hc]; omega

theorem f32_exact {n : Nat} (h : n ≤ 2 ^ 24) : f32 n = n := roundTo_exact (by decide) h
theorem f64_exact {n : Nat} (h : n ≤ 2 ^ 53) : f64 n = n := roundTo_exact (by decide) h

theorem f64i_exact {z : Int} (h1 : -2 ^ 53 ≤ z) (h2 : z ≤ 2 ^ 53) : f64i z = z := by
  unfold f64i
  rw [f64_exact (by omega)]
  split <;> omega

/-! ### Links -/

/-- The weight on a link, 0 without one. -/
def linkValue (ls : List Link) (s d : String) : Nat :=
  ((ls.find? fun l => l.src = s ∧ l.dst = d).map (·.value)).getD 0

theorem linkValue_cons (l : Link) (ls : List Link) (s d : String) :
    linkValue (l :: ls) s d = if l.src = s ∧ l.dst = d then l.value else linkValue ls s d := by
  unfold linkValue
  by_cases h : l.src = s ∧ l.dst = d <;> simp [h]

theorem linkValue_bump_other {s d s' d' : String} (c : Nat) (h : ¬ (s' = s ∧ d' = d)) :
    ∀ ls : List Link, linkValue (bumpLink ls s' d' c) s d = linkValue ls s d
  | [] => by simp only [bumpLink, linkValue_cons, if_neg h]
  | l :: ls => by
    simp only [bumpLink]
    split
    · rename_i h2
      have h3 : ¬ (l.src = s ∧ l.dst = d) := by rw [h2.1, h2.2]; exact h
      rw [linkValue_cons, linkValue_cons, if_neg h3]
      simp only [if_neg h3]
    · rw [linkValue_cons, linkValue_cons, linkValue_bump_other c h ls]

theorem linkValue_bump_same {s d : String} {c : Nat} :
    ∀ ls : List Link, linkValue ls s d + c ≤ 2 ^ 24 →
      linkValue (bumpLink ls s d c) s d = linkValue ls s d + c
  | [], _ => by simp [bumpLink, linkValue]
  | l :: ls, h => by
    simp only [bumpLink]
    rw [linkValue_cons] at h ⊢
    split
    · rename_i h2
      rw [if_pos h2] at h
      rw [linkValue_cons]
      simp only [h2, and_self, if_true]
      exact f32_exact h
    · rename_i h2
      rw [if_neg h2] at h
      rw [linkValue_cons, if_neg h2]
      exact linkValue_bump_same ls h

/-- The sum of the weights of the links `P` picks. -/
def sumLinks (P : String → String → Bool) (ls : List Link) : Nat :=
  ((ls.filter fun l => P l.src l.dst).map (·.value)).sum

theorem sumLinks_cons (P : String → String → Bool) (l : Link) (ls : List Link) :
    sumLinks P (l :: ls) = (if P l.src l.dst then l.value else 0) + sumLinks P ls := by
  unfold sumLinks
  cases h : P l.src l.dst <;> simp [h]

theorem sumLinks_bump (P : String → String → Bool) {s d : String} {c : Nat} :
    ∀ ls : List Link, linkValue ls s d + c ≤ 2 ^ 24 →
      sumLinks P (bumpLink ls s d c) = sumLinks P ls + if P s d then c else 0
  | [], _ => by simp only [bumpLink, sumLinks_cons]; simp [sumLinks]
  | l :: ls, h => by
    simp only [bumpLink]
    rw [linkValue_cons] at h
    split
    · rename_i h2
      rw [if_pos h2] at h
      rw [sumLinks_cons, sumLinks_cons, f32_exact h, h2.1, h2.2]
      cases P s d <;> simp <;> omega
    · rename_i h2
      rw [if_neg h2] at h
      rw [sumLinks_cons, sumLinks_cons, sumLinks_bump P ls h]
      omega

theorem mem_bumpLink {s d : String} {c : Nat} : ∀ {ls : List Link} {l : Link}, l ∈ bumpLink ls s d c →
    (l.src = s ∧ l.dst = d) ∨ l ∈ ls
  | [], l, h => by simp only [bumpLink, List.mem_singleton] at h; subst h; exact Or.inl ⟨rfl, rfl⟩
  | a :: ls, l, h => by
    simp only [bumpLink] at h
    split at h
    · rename_i h2
      rcases List.mem_cons.1 h with h | h
      · subst h; exact Or.inl h2
      · exact Or.inr (List.mem_cons_of_mem _ h)
    · rcases List.mem_cons.1 h with h | h
      · exact Or.inr (h ▸ List.mem_cons_self)
      · rcases mem_bumpLink h with h | h
        · exact Or.inl h
        · exact Or.inr (List.mem_cons_of_mem _ h)

def ends (l : Link) : String × String := (l.src, l.dst)

theorem ends_bump {s d : String} {c : Nat} : ∀ ls : List Link,
    (bumpLink ls s d c).map ends = if (s, d) ∈ ls.map ends then ls.map ends else ls.map ends ++ [(s, d)]
  | [] => by simp [bumpLink, ends]
  | a :: ls => by
    simp only [bumpLink]
    by_cases h2 : a.src = s ∧ a.dst = d
    · rw [if_pos h2]
      have : (s, d) ∈ (a :: ls).map ends := by simp [ends, h2.1, h2.2]
      rw [if_pos this]; rfl
    · rw [if_neg h2, List.map_cons, ends_bump ls]
      have h3 : ¬ (s, d) = ends a := by
        unfold ends; rintro h; injection h with h4 h5; exact h2 ⟨h4.symm, h5.symm⟩
      by_cases h4 : (s, d) ∈ ls.map ends
      · rw [if_pos h4, if_pos (by simp only [List.map_cons, List.mem_cons, h4, or_true])]; rfl
      · rw [if_neg h4, if_neg (by rw [List.map_cons, List.mem_cons]; exact not_or.2 ⟨h3, h4⟩)]; rfl

/-- Flows to be added. -/
abbrev Trip := (String × String) × Nat

def addTrips (ch : Chart) (ts : List Trip) : Chart :=
  ts.foldl (fun ch t => addLink ch t.1.1 t.1.2 (f32 t.2)) ch

theorem addTrips_snoc (ch : Chart) (ts : List Trip) (t : Trip) :
    addTrips ch (ts ++ [t]) = addLink (addTrips ch ts) t.1.1 t.1.2 (f32 t.2) := by
  simp [addTrips]

/-- What is to flow between two names. -/
def tripWeight (ts : List Trip) (s d : String) : Nat :=
  ((ts.filter fun t => t.1 = (s, d)).map (·.2)).sum

def tripSum (P : String → String → Bool) (ts : List Trip) : Nat :=
  ((ts.filter fun t => P t.1.1 t.1.2).map (·.2)).sum

theorem tripWeight_snoc (ts : List Trip) (t : Trip) (s d : String) :
    tripWeight (ts ++ [t]) s d = tripWeight ts s d + if t.1 = (s, d) then t.2 else 0 := by
  unfold tripWeight
  by_cases h : t.1 = (s, d) <;> simp [h]

theorem tripSum_snoc (P : String → String → Bool) (ts : List Trip) (t : Trip) :
    tripSum P (ts ++ [t]) = tripSum P ts + if P t.1.1 t.1.2 then t.2 else 0 := by
  unfold tripSum
  cases h : P t.1.1 t.1.2 <;> simp [h]

theorem snoc_ind {α : Type} {p : List α → Prop} (h0 : p []) (h1 : ∀ l a, p l → p (l ++ [a])) (l : List α) : p l := by
  have : ∀ r : List α, p r.reverse := by
    intro r
    induction r with
    | nil => exact h0
    | cons a r ih => rw [List.reverse_cons]; exact h1 _ _ ih
  simpa using this l.reverse

/-- A link that stays small holds its flow. -/
theorem value_addTrips (s d : String) (ts : List Trip) : tripWeight ts s d ≤ 2 ^ 24 →
    linkValue (addTrips {} ts).links s d = tripWeight ts s d := by
  induction ts using snoc_ind with
  | h0 => intro _; rfl
  | h1 ts t ih =>
    intro h
    rw [tripWeight_snoc] at h ⊢
    rw [addTrips_snoc]
    have ih := ih (by omega)
    show linkValue (bumpLink (addTrips {} ts).links t.1.1 t.1.2 (f32 t.2)) s d = _
    by_cases ht : t.1 = (s, d)
    · rw [if_pos ht] at h ⊢
      have h1 : t.1.1 = s := by rw [ht]
      have h2 : t.1.2 = d := by rw [ht]
      rw [h1, h2, f32_exact (by omega), linkValue_bump_same _ (by rw [ih]; exact h), ih]
    · rw [if_neg ht] at h ⊢
      rw [linkValue_bump_other _ (by rintro ⟨h1, h2⟩; exact ht (Prod.ext h1 h2)), ih]; rfl

/-- When all links stay small nothing is lost. -/
theorem sum_addTrips (P : String → String → Bool) (ts : List Trip) : (∀ s d, tripWeight ts s d ≤ 2 ^ 24) →
    sumLinks P (addTrips {} ts).links = tripSum P ts := by
  induction ts using snoc_ind with
  | h0 => intro _; rfl
  | h1 ts t ih =>
    intro h
    have hb : ∀ s d, tripWeight ts s d ≤ 2 ^ 24 := by
      intro s d; have := h s d; rw [tripWeight_snoc] at this; omega
    have ht := h t.1.1 t.1.2
    rw [tripWeight_snoc, if_pos rfl] at ht
    rw [addTrips_snoc, tripSum_snoc]
    show sumLinks P (bumpLink (addTrips {} ts).links t.1.1 t.1.2 (f32 t.2)) = _
    rw [f32_exact (by omega), sumLinks_bump P _ (by rw [value_addTrips _ _ _ (hb _ _)]; exact ht), ih hb]

/-- The links are those of the flows, each once. -/
theorem ends_addTrips (ts : List Trip) : ((addTrips {} ts).links.map ends).Nodup ∧
    ∀ e, e ∈ (addTrips {} ts).links.map ends ↔ e ∈ ts.map (·.1) := by
  induction ts using snoc_ind with
  | h0 => exact ⟨List.nodup_nil, fun e => Iff.rfl⟩
  | h1 ts t ih =>
    rw [addTrips_snoc]
    have := @ends_bump t.1.1 t.1.2 (f32 t.2) (addTrips {} ts).links
    change ((bumpLink (addTrips {} ts).links t.1.1 t.1.2 (f32 t.2)).map ends).Nodup ∧
      ∀ e, e ∈ (bumpLink (addTrips {} ts).links t.1.1 t.1.2 (f32 t.2)).map ends ↔ _
    rw [this]
    by_cases h : (t.1.1, t.1.2) ∈ (addTrips {} ts).links.map ends
    · rw [if_pos h]
      refine ⟨ih.1, fun e => ?_⟩
      rw [ih.2, List.map_append, List.mem_append]
      refine ⟨Or.inl, ?_⟩
      rintro (h2 | h2)
      · exact h2
      · simp only [List.map_cons, List.map_nil, List.mem_singleton] at h2
        subst h2; exact (ih.2 _).1 h
    · rw [if_neg h]
      constructor
      · rw [List.nodup_append]
        refine ⟨ih.1, List.nodup_cons.2 ⟨List.not_mem_nil, List.nodup_nil⟩, ?_⟩
        intro a ha b hb e
        rw [List.mem_singleton] at hb
        subst hb; subst e; exact h ha
      · intro e
        rw [List.mem_append, ih.2, List.map_append, List.mem_append]
        rfl

theorem mem_addNode {ns : List String} {n x : String} : x ∈ addNode ns n ↔ x ∈ ns ∨ x = n := by
  unfold addNode
  split
  · rename_i h
    constructor
    · exact Or.inl
    · rintro (h2 | rfl)
      · exact h2
      · exact h
  · simp

theorem nodup_addNode {ns : List String} {n : String} (h : ns.Nodup) : (addNode ns n).Nodup := by
  unfold addNode
  split
  · exact h
  · rename_i h2
    rw [List.nodup_append]
    refine ⟨h, List.nodup_cons.2 ⟨List.not_mem_nil, List.nodup_nil⟩, ?_⟩
    intro a ha b hb e
    rw [List.mem_singleton] at hb
    subst hb; subst e; exact h2 ha

/-- The nodes are the ends of the flows, each once. -/
theorem nodes_addTrips (ts : List Trip) : (addTrips {} ts).nodes.Nodup ∧
    ∀ n, n ∈ (addTrips {} ts).nodes ↔ ∃ t ∈ ts, n = t.1.1 ∨ n = t.1.2 := by
  induction ts using snoc_ind with
  | h0 => exact ⟨List.nodup_nil, fun n => by simp [addTrips]⟩
  | h1 ts t ih =>
    rw [addTrips_snoc]
    refine ⟨nodup_addNode (nodup_addNode ih.1), fun n => ?_⟩
    show n ∈ addNode (addNode (addTrips {} ts).nodes t.1.1) t.1.2 ↔ _
    rw [mem_addNode, mem_addNode, ih.2]
    constructor
    · rintro ((⟨u, hu, h⟩ | h) | h)
      · exact ⟨u, List.mem_append_left _ hu, h⟩
      · exact ⟨t, by simp, Or.inl h⟩
      · exact ⟨t, by simp, Or.inr h⟩
    · rintro ⟨u, hu, h⟩
      rcases List.mem_append.1 hu with hu | hu
      · exact Or.inl (Or.inl ⟨u, hu, h⟩)
      · rw [List.mem_singleton] at hu
        subst hu
        rcases h with h | h
        · exact Or.inl (Or.inr h)
        · exact Or.inr h

/-! ### From metrics to flows -/

theorem ordOf_eq (t : List Char) : ordOf t = GoMap.get levelWords (String.ofList t) := by
  have he : ∀ s : String, (s = String.ofList t) = (t = s.toList) := by
    intro s
    rw [eq_iff_iff]
    constructor
    · rintro rfl; exact String.toList_ofList.symm
    · rintro rfl; exact String.ofList_toList.symm
  by_cases hm : t ∈ levelWords.map (fun e => e.1.toList)
  · have : ∀ t ∈ levelWords.map (fun e => e.1.toList), ordOf t = GoMap.get levelWords (String.ofList t) := by
      decide +kernel
    exact this t hm
  · have hn : ∀ e ∈ levelWords, ¬ t = e.1.toList := fun e he h => hm (List.mem_map.2 ⟨e, he, h.symm⟩)
    have h1 : GoMap.get levelWords (String.ofList t) = none := by
      rw [GoMap.get_eq_none_iff]
      intro hk
      obtain ⟨e, hme, hee⟩ := List.mem_map.1 hk
      exact hn e hme ((he e.1) ▸ hee)
    rw [h1]
    unfold ordOf
    have hw : ∀ w ∈ levelWords.map (·.1), ¬ t = w.toList := by
      intro w hwm
      obtain ⟨e, hme, rfl⟩ := List.mem_map.1 hwm
      exact hn e hme
    simp only [hw "class" (by decide), hw "cl" (by decide), hw "group" (by decide), hw "gr" (by decide),
      hw "namespace" (by decide), hw "ns" (by decide), hw "pod" (by decide), hw "p" (by decide),
      hw "container" (by decide), hw "c" (by decide), hw "syscall" (by decide), hw "sc" (by decide),
      hw "name" (by decide), hw "n" (by decide), hw "errno" (by decide), hw "error" (by decide),
      hw "e" (by decide), or_self, if_false]

/-- A metric whose levels can all be named. -/
def Nameable (tbl : Syscalls) (order : List Ord) (m : Metric) : Prop :=
  Known tbl m ∨ ∀ o ∈ order, aboutSyscall o = false

theorem ordVal_shown {tbl : Syscalls} {order : List Ord} {m : Metric} (h : Nameable tbl order m) (c : Container)
    {o : Ord} (ho : o ∈ order) : ordVal (syscallOf tbl m) c (errnoOf m) o = some (shown tbl (c, m) o) := by
  rcases h with ⟨sc, h⟩ | h
  · unfold syscallOf errnoOf
    rw [h]
    cases o <;> simp [ordVal, shown, h]
  · have := h o ho
    cases o <;> simp [aboutSyscall] at this <;> rfl

def tripsOf (tbl : Syscalls) (order : List Ord) (x : Container × Metric) : List Trip :=
  (flows tbl order x).map fun p => (p, x.2.2.count.toNat)

theorem addMetric_eq (tbl : Syscalls) (c : Container) (m : Metric) : ∀ (order : List Ord) (ch : Chart),
    Nameable tbl order m → addMetric (syscallOf tbl m) c (errnoOf m) (f32 m.2.count.toNat) order ch =
      some (addTrips ch (tripsOf tbl order (c, m)))
  | [], ch, _ => by rfl
  | [a], ch, _ => by rfl
  | a :: b :: rest, ch, h => by
    have h2 : Nameable tbl (b :: rest) m := by
      rcases h with h | h
      · exact Or.inl h
      · exact Or.inr fun o ho => h o (List.mem_cons_of_mem _ ho)
    rw [addMetric, ordVal_shown h c (by simp), ordVal_shown h c (by simp)]
    dsimp only
    rw [addMetric_eq tbl c m (b :: rest) _ h2]
    rfl

theorem addMetric_crash {sc : Option Syscall} {c : Container} {e : Int} {n : Nat} : ∀ (order : List Ord) (ch : Chart),
    sc = none → 2 ≤ order.length → (∃ o ∈ order, aboutSyscall o = true) → addMetric sc c e n order ch = none
  | [], _, _, h, _ => by simp at h
  | [a], _, _, h, _ => by simp at h
  | a :: b :: rest, ch, hs, h, ⟨o, ho, h2⟩ => by
    rw [addMetric]
    have hn : ∀ o, aboutSyscall o = true → ordVal sc c e o = none := by
      intro o ho; cases o <;> simp [aboutSyscall] at ho <;> simp [ordVal, hs]
    by_cases ha : aboutSyscall a = true
    · rw [hn a ha]
    · by_cases hb : aboutSyscall b = true
      · rw [hn b hb]; split <;> simp_all
      · have ho2 : o ∈ b :: rest := by
          rcases List.mem_cons.1 ho with ho | ho
          · subst ho; exact absurd h2 ha
          · exact ho
        have hlen : 2 ≤ (b :: rest).length := by
          rcases List.mem_cons.1 ho2 with ho3 | ho3
          · subst ho3; exact absurd h2 hb
          · cases rest with
            | nil => cases ho3
            | cons x xs => simp
        split
        · exact addMetric_crash (b :: rest) _ hs hlen ⟨o, ho2, h2⟩
        · rfl

theorem container_copy (c : Container) : c.copy.ns = c.ns ∧ c.copy.pod = c.pod ∧ c.copy.name = c.name :=
  ⟨rfl, rfl, rfl⟩

theorem shown_copy (tbl : Syscalls) (c : Container) (m : Metric) : shown tbl (c.copy, m) = shown tbl (c, m) := by
  funext o; cases o <;> rfl

theorem tripsOf_copy (tbl : Syscalls) (order : List Ord) (c : Container) (m : Metric) :
    tripsOf tbl order (c.copy, m) = tripsOf tbl order (c, m) := by
  unfold tripsOf flows; rw [shown_copy]

theorem addTrips_append (ch : Chart) (a b : List Trip) : addTrips ch (a ++ b) = addTrips (addTrips ch a) b := by
  simp [addTrips]

def allTrips (tbl : Syscalls) (order : List Ord) (xs : List (Container × Metric)) : List Trip :=
  xs.flatMap (tripsOf tbl order)

theorem sankeyOne_eq (tbl : Syscalls) (cache : Cache) (ns : String) (order : List Ord) (ch : Chart) (m : Metric) :
    sankeyOne tbl cache ns order ch m =
      match GoMap.get cache (m.1.pidNs.toNat : Int) with
      | none => some ch
      | some c =>
        if ns = "" ∨ c.ns = ns then addMetric (syscallOf tbl m) c.copy (errnoOf m) (f32 m.2.count.toNat) order ch
        else some ch := by
  unfold sankeyOne containerOf lookupContainer
  cases GoMap.get cache (m.1.pidNs.toNat : Int) with
  | none => rfl
  | some c =>
    dsimp only
    by_cases h : ns = "" ∨ c.ns = ns
    · rw [if_pos h, if_neg]
      rintro ⟨h1, h2⟩
      rcases h with h | h
      · exact h1 h
      · exact h2 h
    · rw [if_neg h, if_pos]
      exact ⟨fun h1 => h (Or.inl h1), fun h1 => h (Or.inr h1)⟩

theorem resolved_cons (cache : Cache) (ns : String) (m : Metric) (ms : List Metric) :
    resolved cache ns (m :: ms) =
      match GoMap.get cache (m.1.pidNs.toNat : Int) with
      | none => resolved cache ns ms
      | some c => if ns = "" ∨ c.ns = ns then (c, m) :: resolved cache ns ms else resolved cache ns ms := by
  unfold resolved
  rw [List.filterMap_cons]
  cases GoMap.get cache (m.1.pidNs.toNat : Int) with
  | none => rfl
  | some c =>
    rw [Option.bind_some]
    by_cases h : ns = "" ∨ c.ns = ns
    · simp only [if_pos h]
    · simp only [if_neg h]

theorem sankey_fold (tbl : Syscalls) (cache : Cache) (ns : String) (order : List Ord) : ∀ (ms : List Metric) (ch : Chart),
    (∀ x ∈ resolved cache ns ms, Nameable tbl order x.2) →
    ms.foldlM (sankeyOne tbl cache ns order) ch = some (addTrips ch (allTrips tbl order (resolved cache ns ms)))
  | [], ch, _ => rfl
  | m :: ms, ch, h => by
    rw [List.foldlM_cons, sankeyOne_eq]
    rw [resolved_cons] at h ⊢
    cases hg : GoMap.get cache (m.1.pidNs.toNat : Int) with
    | none =>
      simp only [hg] at h ⊢
      exact sankey_fold tbl cache ns order ms ch h
    | some c =>
      simp only [hg] at h ⊢
      by_cases hns : ns = "" ∨ c.ns = ns
      · simp only [if_pos hns] at h ⊢
        rw [addMetric_eq tbl _ m order ch (h (c, m) List.mem_cons_self)]
        simp only [Option.bind_eq_bind, Option.bind_some]
        rw [sankey_fold tbl cache ns order ms _ (fun x hx => h x (List.mem_cons_of_mem _ hx)), tripsOf_copy]
        unfold allTrips
        rw [List.flatMap_cons, addTrips_append]
      · simp only [if_neg hns] at h ⊢
        exact sankey_fold tbl cache ns order ms ch h

theorem sankey_crash (tbl : Syscalls) (cache : Cache) (ns : String) (order : List Ord) (hl : 2 ≤ order.length)
    (ho : ∃ o ∈ order, aboutSyscall o = true) : ∀ (ms : List Metric) (ch : Chart) (x : Container × Metric),
    x ∈ resolved cache ns ms → ¬ Known tbl x.2 → ms.foldlM (sankeyOne tbl cache ns order) ch = none
  | m :: ms, ch, x, hx, hk => by
    rw [List.foldlM_cons, sankeyOne_eq]
    rw [resolved_cons] at hx
    cases hg : GoMap.get cache (m.1.pidNs.toNat : Int) with
    | none =>
      simp only [hg] at hx ⊢
      exact sankey_crash tbl cache ns order hl ho ms ch x hx hk
    | some c =>
      simp only [hg] at hx ⊢
      by_cases hns : ns = "" ∨ c.ns = ns
      · simp only [if_pos hns] at hx ⊢
        rcases List.mem_cons.1 hx with hx | hx
        · subst hx
          have hs : syscallOf tbl m = none := by
            cases h : syscallOf tbl m with
            | none => rfl
            | some sc => exact absurd ⟨sc, h⟩ hk
          rw [addMetric_crash order ch hs hl ho]; rfl
        · cases addMetric (syscallOf tbl m) c.copy (errnoOf m) (f32 m.2.count.toNat) order ch with
          | none => rfl
          | some ch' => exact sankey_crash tbl cache ns order hl ho ms ch' x hx hk
      · simp only [if_neg hns] at hx ⊢
        exact sankey_crash tbl cache ns order hl ho ms ch x hx hk

theorem sum_flatMap_filter {α : Type} (f : α → List Trip) (p : Trip → Bool) : ∀ xs : List α,
    (((xs.flatMap f).filter p).map (·.2)).sum = (xs.map fun x => (((f x).filter p).map (·.2)).sum).sum
  | [] => rfl
  | x :: xs => by
    rw [List.flatMap_cons, List.filter_append, List.map_append, List.sum_append, sum_flatMap_filter f p xs]
    simp

theorem sum_const_trips (ps : List (String × String)) (n : Nat) (p : String × String → Bool) :
    (((ps.map fun q => ((q, n) : Trip)).filter fun t => p t.1).map (·.2)).sum = ps.countP p * n := by
  induction ps with
  | nil => simp
  | cons q ps ih =>
    rw [List.map_cons]
    cases h : p q
    · rw [List.filter_cons_of_neg (by simp [h]), ih, List.countP_cons_of_neg (by simp [h])]
    · rw [List.filter_cons_of_pos (by simp [h]), List.map_cons, List.sum_cons, ih,
        List.countP_cons_of_pos (by simp [h]), Nat.add_mul, Nat.one_mul, Nat.add_comm]

theorem tripWeight_all (tbl : Syscalls) (order : List Ord) (xs : List (Container × Metric)) (s d : String) :
    tripWeight (allTrips tbl order xs) s d = weight tbl order xs s d := by
  unfold tripWeight allTrips weight
  rw [sum_flatMap_filter]
  congr 1
  apply List.map_congr_left
  intro x _
  unfold tripsOf
  rw [sum_const_trips (p := fun q => decide (q = (s, d)))]
  congr 2
  funext q
  rw [Bool.eq_iff_iff]
  simp

theorem tripSum_all (tbl : Syscalls) (order : List Ord) (xs : List (Container × Metric)) (P : String → String → Bool) :
    tripSum P (allTrips tbl order xs) =
      (xs.map fun x => (flows tbl order x).countP (fun q => P q.1 q.2) * x.2.2.count.toNat).sum := by
  unfold tripSum allTrips
  rw [sum_flatMap_filter]
  congr 1
  apply List.map_congr_left
  intro x _
  unfold tripsOf
  rw [sum_const_trips (p := fun q => P q.1 q.2)]

theorem length_flows (tbl : Syscalls) (order : List Ord) (x : Container × Metric) :
    (flows tbl order x).length = order.length - 1 := by
  simp [flows, pairs, List.length_zip]

/-! ### Word clouds -/

theorem shows_bump (m : GoMap String (BitVec 64)) (w w' : String) (n : BitVec 64) :
    shows (bump m w n) w' = shows m w' + if w = w' then n else 0 := by
  unfold shows bump
  cases h : GoMap.get m w with
  | none =>
    rw [GoMap.get_set]
    by_cases h2 : w = w'
    · subst h2; simp [h]
    · simp [h2]
  | some v =>
    rw [GoMap.get_set]
    by_cases h2 : w = w'
    · subst h2; simp [h, BitVec.add_comm]
    · simp [h2]

theorem wordCount_cons (word : Metric → Option String) (m : Metric) (ms : List Metric) (w : String) :
    wordCount word (m :: ms) w = (if word m = some w then m.2.count.toNat else 0) + wordCount word ms w := by
  unfold wordCount
  by_cases h : word m = some w <;> simp [h]

theorem ofNat_count (b : Prop) [Decidable b] (n : BitVec 64) :
    BitVec.ofNat 64 (if b then n.toNat else 0) = if b then n else 0 := by
  by_cases h : b <;> simp [h]

theorem shows_errno (tbl : Syscalls) (cache : Cache) (w : Clouds) (m : Metric) (s : String) :
    shows (updateMetric tbl cache w m).errno s = shows w.errno s + if errnoWord m = some s then m.2.count else 0 := by
  have h1 : (updateMetric tbl cache w m).errno = (updateErrno w m).errno := by
    unfold updateMetric updateClass updateNamespace
    split <;> split <;> rfl
  rw [h1]
  unfold updateErrno errnoWord errnoOf
  by_cases h : m.1.errno = 0
  · have : (m.1.errno.toNat : Int) = 0 := by rw [h]; rfl
    simp [h]
  · have : ¬ (m.1.errno.toNat : Int) = 0 := by
      intro h2
      apply h
      apply BitVec.eq_of_toNat_eq
      show m.1.errno.toNat = 0
      omega
    simp only [if_neg this, if_neg h, shows_bump, Option.some.injEq]

theorem shows_ns (tbl : Syscalls) (cache : Cache) (w : Clouds) (m : Metric) (s : String) :
    shows (updateMetric tbl cache w m).ns s = shows w.ns s + if nsWord cache m = some s then m.2.count else 0 := by
  have h1 : (updateMetric tbl cache w m).ns = (updateNamespace cache (updateErrno w m) m).ns := by
    unfold updateMetric updateClass
    split <;> rfl
  have h2 : (updateErrno w m).ns = w.ns := by unfold updateErrno; split <;> rfl
  rw [h1]
  unfold updateNamespace containerOf lookupContainer nsWord
  cases hg : GoMap.get cache (m.1.pidNs.toNat : Int) with
  | none => simp [h2]
  | some c =>
    simp only [Option.map_some, Option.some.injEq]
    rw [shows_bump, h2]; rfl

theorem shows_cls (tbl : Syscalls) (cache : Cache) (w : Clouds) (m : Metric) (s : String) :
    shows (updateMetric tbl cache w m).cls s = shows w.cls s + if clsWord tbl m = some s then m.2.count else 0 := by
  have h2 : (updateNamespace cache (updateErrno w m) m).cls = w.cls := by
    unfold updateNamespace updateErrno; split <;> split <;> rfl
  unfold updateMetric updateClass clsWord
  have : lookup tbl (.u32 m.1.syscall) = lookup tbl (.int (m.1.syscall.toNat : Int)) := rfl
  rw [this]
  cases lookup tbl (.int (m.1.syscall.toNat : Int)) with
  | none => simp [h2]
  | some sc =>
    simp only [Option.map_some, Option.some.injEq]
    rw [shows_bump, h2]

theorem shows_fold {f : Clouds → GoMap String (BitVec 64)} {step : Clouds → Metric → Clouds} {word : Metric → Option String}
    (hstep : ∀ w m s, shows (f (step w m)) s = shows (f w) s + if word m = some s then m.2.count else 0) (s : String) :
    ∀ (ms : List Metric) (w : Clouds),
      shows (f (ms.foldl step w)) s = shows (f w) s + BitVec.ofNat 64 (wordCount word ms s)
  | [], w => by simp [wordCount]
  | m :: ms, w => by
    rw [List.foldl_cons, shows_fold hstep s ms, hstep, wordCount_cons, BitVec.ofNat_add, ofNat_count, BitVec.add_assoc]

/-! ### Prometheus -/

theorem mapM_some {α β : Type} {f : α → Option β} {g : α → β} : ∀ {l : List α}, (∀ x ∈ l, f x = some (g x)) →
    l.mapM f = some (l.map g)
  | [], _ => rfl
  | x :: l, h => by
    rw [List.mapM_cons, h x List.mem_cons_self, mapM_some fun y hy => h y (List.mem_cons_of_mem _ hy)]
    rfl

theorem mapM_none {α β : Type} {f : α → Option β} : ∀ {l : List α} {x : α}, x ∈ l → f x = none → l.mapM f = none
  | y :: l, x, hx, h => by
    rw [List.mapM_cons]
    rcases List.mem_cons.1 hx with hx | hx
    · subst hx; rw [h]; rfl
    · rw [mapM_none hx h]
      cases f y <;> rfl

/-! ### Tables of top -/

theorem foldl_keep (k : AKey) : ∀ (keys : List String) (n : AKey),
    keys.foldl (keep k) n =
      { pod := if "pod" ∈ keys then k.pod else n.pod
        ns := if "ns" ∈ keys then k.ns else n.ns
        ctr := if "ctr" ∈ keys then k.ctr else n.ctr
        sc := if "sc" ∈ keys then k.sc else n.sc
        err := if "err" ∈ keys then k.err else n.err }
  | [], n => by simp
  | key :: keys, n => by
    rw [List.foldl_cons, foldl_keep k keys]
    unfold keep
    by_cases h1 : key = "pod"
    · subst h1; simp
    by_cases h2 : key = "ns"
    · subst h2; simp
    by_cases h3 : key = "ctr"
    · subst h3; simp
    by_cases h4 : key = "sc"
    · subst h4; simp
    by_cases h5 : key = "err"
    · subst h5; simp
    simp only [if_neg h1, if_neg h2, if_neg h3, if_neg h4, if_neg h5, List.mem_cons]
    have e1 : ¬ "pod" = key := fun h => h1 h.symm
    have e2 : ¬ "ns" = key := fun h => h2 h.symm
    have e3 : ¬ "ctr" = key := fun h => h3 h.symm
    have e4 : ¬ "sc" = key := fun h => h4 h.symm
    have e5 : ¬ "err" = key := fun h => h5 h.symm
    simp only [e1, e2, e3, e4, e5, false_or]

theorem mergeOne_eq (erronly : Bool) (keys : List String) (ret : Agg) (e : AKey × AVal) :
    mergeOne erronly keys ret e =
      if erronly = true ∧ e.1.err = "OK" then ret
      else
        (if ret.has (project keys e.1) then ret else ret.set (project keys e.1) {}).set (project keys e.1)
          (((ret.get (project keys e.1)).getD {}).inc e.2.count) := by
  unfold mergeOne
  have hk : keys.foldl (keep e.1) {} = project keys e.1 := by rw [foldl_keep]; rfl
  rw [hk]
  by_cases h : erronly = true ∧ e.1.err = "OK"
  · rw [if_pos h, if_pos h]
  · rw [if_neg h, if_neg h]
    dsimp only
    by_cases h2 : GoMap.has ret (project keys e.1) = true
    · rw [if_pos h2]
    · rw [if_neg h2, GoMap.get_set_same]
      have : GoMap.get ret (project keys e.1) = none := by
        unfold GoMap.has at h2
        cases hg : GoMap.get ret (project keys e.1) with
        | none => rfl
        | some v => rw [hg] at h2; exact absurd rfl h2
      rw [this]; rfl

/-- What is added to a row by some rows. -/
def rowSum (keys : List String) (es : Agg) (k : AKey) : Int :=
  ((es.filter fun e => project keys e.1 = k).map (·.2.count)).sum

def absSum (es : Agg) : Nat := (es.map (·.2.count.natAbs)).sum

theorem rowSum_cons (keys : List String) (e : AKey × AVal) (es : Agg) (k : AKey) :
    rowSum keys (e :: es) k = (if project keys e.1 = k then e.2.count else 0) + rowSum keys es k := by
  unfold rowSum
  by_cases h : project keys e.1 = k <;> simp [h]

theorem rowSum_snoc (keys : List String) (e : AKey × AVal) (es : Agg) (k : AKey) :
    rowSum keys (es ++ [e]) k = rowSum keys es k + if project keys e.1 = k then e.2.count else 0 := by
  unfold rowSum
  by_cases h : project keys e.1 = k <;> simp [h]

theorem rowSum_le (keys : List String) (es : Agg) (k : AKey) : (rowSum keys es k).natAbs ≤ absSum es := by
  induction es with
  | nil => simp [rowSum]
  | cons e es ih =>
    rw [rowSum_cons]
    unfold absSum at *
    rw [List.map_cons, List.sum_cons]
    split <;> omega

/-- Adding one row. -/
def addRow (keys : List String) (ret : Agg) (e : AKey × AVal) : Agg :=
  (if ret.has (project keys e.1) then ret else ret.set (project keys e.1) {}).set (project keys e.1)
    (((ret.get (project keys e.1)).getD {}).inc e.2.count)

theorem merge_eq (erronly : Bool) (keys : List String) (m : Agg) :
    merge erronly keys m = (counted erronly m).foldl (addRow keys) [] := by
  unfold merge
  generalize ([] : Agg) = r
  induction m generalizing r with
  | nil => rfl
  | cons e m ih =>
    rw [List.foldl_cons, ih, mergeOne_eq]
    unfold counted
    by_cases h : erronly = true ∧ e.1.err = "OK"
    · rw [if_pos h, List.filter_cons_of_neg (by simp [h])]
    · rw [if_neg h, List.filter_cons_of_pos (by
        rw [Bool.not_eq_true', Bool.and_eq_false_iff]
        by_cases h1 : erronly = true
        · right
          rw [beq_eq_false_iff_ne]
          exact fun h2 => h ⟨h1, h2⟩
        · left; simpa using h1)]
      rfl

theorem get_addRow (keys : List String) (ret : Agg) (e : AKey × AVal) (k : AKey) :
    GoMap.get (addRow keys ret e) k =
      if project keys e.1 = k then some (((ret.get k).getD {}).inc e.2.count) else GoMap.get ret k := by
  unfold addRow
  rw [GoMap.get_set]
  by_cases h : project keys e.1 = k
  · rw [if_pos h, if_pos h, h]
  · rw [if_neg h, if_neg h]
    split
    · rfl
    · rw [GoMap.get_set_other _ _ h]

theorem nodup_addRow {keys : List String} {ret : Agg} (e : AKey × AVal) (h : GoMap.NodupKeys ret) :
    GoMap.NodupKeys (addRow keys ret e) := by
  unfold addRow
  apply GoMap.nodupKeys_set
  split
  · exact h
  · exact GoMap.nodupKeys_set h _ _

theorem nodup_rows (keys : List String) : ∀ (es : Agg) (r : Agg), GoMap.NodupKeys r →
    GoMap.NodupKeys (es.foldl (addRow keys) r)
  | [], _, h => h
  | e :: es, r, h => by rw [List.foldl_cons]; exact nodup_rows keys es _ (nodup_addRow e h)

theorem get_rows (keys : List String) (es : Agg) (k : AKey) :
    match GoMap.get (es.foldl (addRow keys) []) k with
    | none => ∀ e ∈ es, project keys e.1 ≠ k
    | some v => (∃ e ∈ es, project keys e.1 = k) ∧ v.marked = rowSum keys es k ∧
        (absSum es ≤ 2 ^ 53 → v.count = rowSum keys es k) := by
  induction es using snoc_ind with
  | h0 => exact fun e h => by cases h
  | h1 es e ih =>
    rw [List.foldl_append, List.foldl_cons, List.foldl_nil, get_addRow]
    by_cases h : project keys e.1 = k
    · rw [if_pos h]
      have hsnoc := rowSum_snoc keys e es k
      rw [if_pos h] at hsnoc
      have hle := rowSum_le keys (es ++ [e]) k
      have habs : absSum (es ++ [e]) = absSum es + e.2.count.natAbs := by simp [absSum]
      refine ⟨⟨e, by simp, h⟩, ?_, ?_⟩
      · cases hg : GoMap.get (es.foldl (addRow keys) []) k with
        | none =>
          rw [hg] at ih
          have : rowSum keys es k = 0 := by
            unfold rowSum
            rw [List.filter_eq_nil_iff.2 (fun x hx => by simpa using ih x hx)]; rfl
          rw [hsnoc, this]; rfl
        | some v =>
          rw [hg] at ih
          rw [hsnoc, ← ih.2.1]; rfl
      · intro hb
        cases hg : GoMap.get (es.foldl (addRow keys) []) k with
        | none =>
          rw [hg] at ih
          have : rowSum keys es k = 0 := by
            unfold rowSum
            rw [List.filter_eq_nil_iff.2 (fun x hx => by simpa using ih x hx)]; rfl
          rw [hsnoc] at hle ⊢
          rw [this] at hle ⊢
          show f64i (0 + e.2.count) = _
          rw [f64i_exact (by omega) (by omega)]
        | some v =>
          rw [hg] at ih
          have h2 := ih.2.2 (by omega)
          rw [hsnoc] at hle ⊢
          show f64i (v.count + e.2.count) = _
          rw [h2, f64i_exact (by omega) (by omega)]
    · rw [if_neg h]
      have hsnoc := rowSum_snoc keys e es k
      rw [if_neg h, Int.add_zero] at hsnoc
      have habs : absSum (es ++ [e]) = absSum es + e.2.count.natAbs := by simp [absSum]
      cases hg : GoMap.get (es.foldl (addRow keys) []) k with
      | none =>
        rw [hg] at ih
        intro x hx
        rcases List.mem_append.1 hx with hx | hx
        · exact ih x hx
        · rw [List.mem_singleton] at hx; subst hx; exact h
      | some v =>
        rw [hg] at ih
        obtain ⟨⟨x, hx, hx2⟩, h3, h4⟩ := ih
        refine ⟨⟨x, List.mem_append_left _ hx, hx2⟩, by rw [hsnoc]; exact h3, fun hb => ?_⟩
        rw [hsnoc]; exact h4 (by omega)

theorem sumCounts_del {m : Agg} (hn : GoMap.NodupKeys m) (k : AKey) :
    sumCounts (GoMap.del m k) = sumCounts m - countAt m k := by
  induction m with
  | nil => simp [GoMap.del, sumCounts, countAt]
  | cons e m ih =>
    have hn2 : e.1 ∉ GoMap.keys m ∧ GoMap.NodupKeys m := List.nodup_cons.1 hn
    have ih := ih hn2.2
    by_cases h : e.1 = k
    · have hg : GoMap.get m k = none := (GoMap.get_eq_none_iff _ _).2 (h ▸ hn2.1)
      have h1 : GoMap.del (e :: m) k = GoMap.del m k := by simp [GoMap.del, h]
      rw [h1, GoMap.del_eq_self hg]
      unfold countAt
      rw [GoMap.get_cons, if_pos h]
      simp only [sumCounts, List.map_cons, List.sum_cons, Option.map_some, Option.getD_some]
      omega
    · have h1 : GoMap.del (e :: m) k = e :: GoMap.del m k := by simp [GoMap.del, h]
      rw [h1]
      unfold countAt at ih ⊢
      rw [GoMap.get_cons, if_neg h]
      simp only [sumCounts, List.map_cons, List.sum_cons] at ih ⊢
      omega

theorem sumCounts_set {m : Agg} (hn : GoMap.NodupKeys m) (k : AKey) (v : AVal) :
    sumCounts (GoMap.set m k v) = sumCounts m - countAt m k + v.count := by
  have := sumCounts_del hn k
  unfold GoMap.set
  show v.count + sumCounts (GoMap.del m k) = _
  omega

theorem sumCounts_rows (keys : List String) (es : Agg) : absSum es ≤ 2 ^ 53 →
    sumCounts (es.foldl (addRow keys) []) = sumCounts es := by
  induction es using snoc_ind with
  | h0 => intro _; rfl
  | h1 es e ih =>
    intro hb
    have habs : absSum (es ++ [e]) = absSum es + e.2.count.natAbs := by simp [absSum]
    have ih := ih (by omega)
    have hnd := nodup_rows keys es [] GoMap.nodupKeys_nil
    have hsum : sumCounts (es ++ [e]) = sumCounts es + e.2.count := by simp [sumCounts]
    have hg := get_rows keys (es ++ [e]) (project keys e.1)
    have hg0 := get_rows keys es (project keys e.1)
    rw [List.foldl_append, List.foldl_cons, List.foldl_nil] at hg ⊢
    rw [get_addRow, if_pos rfl] at hg
    have hv := hg.2.2 hb
    rw [rowSum_snoc, if_pos rfl] at hv
    rw [hsum]
    generalize es.foldl (addRow keys) [] = r at *
    have h0 : countAt r (project keys e.1) = rowSum keys es (project keys e.1) := by
      unfold countAt
      cases hr : GoMap.get r (project keys e.1) with
      | none =>
        rw [hr] at hg0
        unfold rowSum
        rw [List.filter_eq_nil_iff.2 (fun x hx => by simpa using hg0 x hx)]; rfl
      | some v => rw [hr] at hg0; exact hg0.2.2 (by omega)
    unfold addRow
    have h2 : GoMap.NodupKeys (if GoMap.has r (project keys e.1) then r else GoMap.set r (project keys e.1) {}) := by
      split
      · exact hnd
      · exact GoMap.nodupKeys_set hnd _ _
    rw [sumCounts_set h2, hv]
    by_cases hh : GoMap.has r (project keys e.1) = true
    · rw [if_pos hh, h0]; omega
    · rw [if_neg hh, sumCounts_set hnd, h0]
      have : countAt (GoMap.set r (project keys e.1) {}) (project keys e.1) = 0 := by
        unfold countAt; rw [GoMap.get_set_same]; rfl
      rw [this]
      show _ - rowSum keys es (project keys e.1) + 0 - 0 + _ = _
      omega

/-! ### Ticks -/

/-- One metric of a known container. -/
def rowStep (tbl : Syscalls) (t : Tick) (x : Container × Metric) : Tick :=
  let key := rowOf tbl x
  let val := (t.agg.get key).getD {}
  let diff := f64i ((f64 x.2.2.count.toNat : Int) - val.count)
  { agg := t.agg.set key (val.inc diff)
    total := if errnoOf x.2 ≠ 0 then t.total else f64i (t.total + diff)
    errors := if errnoOf x.2 ≠ 0 then f64i (t.errors + diff) else t.errors }

theorem tickOne_eq (tbl : Syscalls) (cache : Cache) (t : Tick) (m : Metric) :
    tickOne tbl cache t m =
      match GoMap.get cache (m.1.pidNs.toNat : Int) with
      | none => t
      | some c => rowStep tbl t (c, m) := by
  unfold tickOne containerOf lookupContainer
  cases GoMap.get cache (m.1.pidNs.toNat : Int) with
  | none => rfl
  | some c => rfl

theorem tick_eq (tbl : Syscalls) (agg : Agg) (cache : Cache) (ms : List Metric) :
    tick tbl agg cache ms = (resolved cache "" ms).foldl (rowStep tbl) { agg := agg } := by
  unfold tick
  generalize ({ agg := agg } : Tick) = t
  induction ms generalizing t with
  | nil => rfl
  | cons m ms ih =>
    rw [List.foldl_cons, ih, tickOne_eq, resolved_cons]
    cases GoMap.get cache (m.1.pidNs.toNat : Int) with
    | none => rfl
    | some c => simp

/-- All shown counts are whole numbers a float holds. -/
def Small (agg : Agg) : Prop := ∀ k, 0 ≤ countAt agg k ∧ countAt agg k ≤ 2 ^ 53

theorem val_count (agg : Agg) (k : AKey) : ((GoMap.get agg k).getD {}).count = countAt agg k := by
  unfold countAt
  cases GoMap.get agg k <;> rfl

theorem rowStep_countAt {tbl : Syscalls} {t : Tick} (hs : Small t.agg) {x : Container × Metric}
    (hx : x.2.2.count.toNat ≤ 2 ^ 53) (k : AKey) :
    countAt (rowStep tbl t x).agg k = if rowOf tbl x = k then (x.2.2.count.toNat : Int) else countAt t.agg k := by
  unfold rowStep
  dsimp only
  rw [val_count, f64_exact hx]
  have := hs (rowOf tbl x)
  rw [f64i_exact (by omega) (by omega)]
  by_cases h : rowOf tbl x = k
  · rw [if_pos h]
    have hc : countAt (GoMap.set t.agg (rowOf tbl x) (((GoMap.get t.agg (rowOf tbl x)).getD {}).inc
        ((x.2.2.count.toNat : Int) - countAt t.agg (rowOf tbl x)))) (rowOf tbl x) =
        f64i (((GoMap.get t.agg (rowOf tbl x)).getD {}).count + ((x.2.2.count.toNat : Int) - countAt t.agg (rowOf tbl x))) := by
      rw [countAt, GoMap.get_set_same]; rfl
    rw [← h, hc, val_count, f64i_exact (by omega) (by omega)]
    omega
  · rw [if_neg h]
    unfold countAt
    rw [GoMap.get_set_other _ _ h]

theorem rowStep_small {tbl : Syscalls} {t : Tick} (hs : Small t.agg) {x : Container × Metric}
    (hx : x.2.2.count.toNat ≤ 2 ^ 53) : Small (rowStep tbl t x).agg := by
  intro k
  rw [rowStep_countAt hs hx]
  have := hs k
  split <;> omega

theorem rows_small (tbl : Syscalls) : ∀ (xs : List (Container × Metric)) (t : Tick), Small t.agg →
    (∀ x ∈ xs, x.2.2.count.toNat ≤ 2 ^ 53) → Small (xs.foldl (rowStep tbl) t).agg
  | [], _, h, _ => h
  | x :: xs, t, h, hx => by
    rw [List.foldl_cons]
    exact rows_small tbl xs _ (rowStep_small h (hx x List.mem_cons_self)) fun y hy => hx y (List.mem_cons_of_mem _ hy)

theorem rows_other (tbl : Syscalls) (k : AKey) : ∀ (xs : List (Container × Metric)) (t : Tick), Small t.agg →
    (∀ x ∈ xs, x.2.2.count.toNat ≤ 2 ^ 53) → (∀ x ∈ xs, rowOf tbl x ≠ k) →
    countAt (xs.foldl (rowStep tbl) t).agg k = countAt t.agg k
  | [], _, _, _, _ => rfl
  | x :: xs, t, h, hx, hk => by
    rw [List.foldl_cons, rows_other tbl k xs _ (rowStep_small h (hx x List.mem_cons_self))
      (fun y hy => hx y (List.mem_cons_of_mem _ hy)) (fun y hy => hk y (List.mem_cons_of_mem _ hy)),
      rowStep_countAt h (hx x List.mem_cons_self), if_neg (hk x List.mem_cons_self)]

/-- A row shows the count of the last metric in it. -/
theorem rows_last (tbl : Syscalls) (pre post : List (Container × Metric)) (x : Container × Metric) (t : Tick)
    (h : Small t.agg) (hx : ∀ y ∈ pre ++ x :: post, y.2.2.count.toNat ≤ 2 ^ 53)
    (hk : ∀ y ∈ post, rowOf tbl y ≠ rowOf tbl x) :
    countAt ((pre ++ x :: post).foldl (rowStep tbl) t).agg (rowOf tbl x) = (x.2.2.count.toNat : Int) := by
  rw [List.foldl_append, List.foldl_cons]
  have h1 := rows_small tbl pre t h fun y hy => hx y (List.mem_append_left _ hy)
  have hxx := hx x (by simp)
  have h2 := rowStep_small (tbl := tbl) h1 hxx
  rw [rows_other tbl _ post _ h2 (fun y hy => hx y (List.mem_append_right _ (List.mem_cons_of_mem _ hy))) hk,
    rowStep_countAt h1 hxx, if_pos rfl]

/-- The sum of the changes over the metrics `p` picks. -/
def change (tbl : Syscalls) (agg : Agg) (p : Metric → Bool) (xs : List (Container × Metric)) : Int :=
  ((xs.filter fun x => p x.2).map fun x => (x.2.2.count.toNat : Int) - countAt agg (rowOf tbl x)).sum

def oldSum (tbl : Syscalls) (agg : Agg) (xs : List (Container × Metric)) : Int :=
  (xs.map fun x => countAt agg (rowOf tbl x)).sum

theorem change_snoc (tbl : Syscalls) (agg : Agg) (p : Metric → Bool) (xs : List (Container × Metric)) (x : Container × Metric) :
    change tbl agg p (xs ++ [x]) = change tbl agg p xs +
      if p x.2 then (x.2.2.count.toNat : Int) - countAt agg (rowOf tbl x) else 0 := by
  unfold change
  cases h : p x.2 <;> simp [h]

theorem change_bounds (tbl : Syscalls) (agg : Agg) (hs : Small agg) (p : Metric → Bool) (xs : List (Container × Metric)) :
    -oldSum tbl agg xs ≤ change tbl agg p xs ∧ change tbl agg p xs ≤ total xs ∧ 0 ≤ oldSum tbl agg xs := by
  induction xs using snoc_ind with
  | h0 => simp [oldSum, change, total]
  | h1 xs x ih =>
    have h1 : oldSum tbl agg (xs ++ [x]) = oldSum tbl agg xs + countAt agg (rowOf tbl x) := by simp [oldSum]
    have h2 : total (xs ++ [x]) = total xs + x.2.2.count.toNat := by simp [total]
    have := hs (rowOf tbl x)
    rw [change_snoc, h1, h2]
    split <;> omega

theorem le_total {xs : List (Container × Metric)} {y : Container × Metric} (hy : y ∈ xs) :
    y.2.2.count.toNat ≤ total xs := by
  unfold total
  induction xs with
  | nil => cases hy
  | cons x xs ih =>
    rw [List.map_cons, List.sum_cons]
    rcases List.mem_cons.1 hy with hy | hy
    · subst hy; omega
    · have := ih hy; omega

theorem rows_sums (tbl : Syscalls) (agg : Agg) (hs : Small agg) (xs : List (Container × Metric)) :
    (xs.map (rowOf tbl)).Nodup → total xs ≤ 2 ^ 53 → oldSum tbl agg xs ≤ 2 ^ 53 →
    (xs.foldl (rowStep tbl) { agg := agg }).total = change tbl agg (fun m => m.1.errno == 0) xs ∧
    (xs.foldl (rowStep tbl) { agg := agg }).errors = change tbl agg (fun m => m.1.errno != 0) xs := by
  induction xs using snoc_ind with
  | h0 => intro _ _ _; exact ⟨rfl, rfl⟩
  | h1 xs x ih =>
    intro hn ht ho
    have h1 : oldSum tbl agg (xs ++ [x]) = oldSum tbl agg xs + countAt agg (rowOf tbl x) := by simp [oldSum]
    have h2 : total (xs ++ [x]) = total xs + x.2.2.count.toNat := by simp [total]
    have hx0 := hs (rowOf tbl x)
    rw [List.map_append, List.nodup_append] at hn
    obtain ⟨ih1, ih2⟩ := ih hn.1 (by omega) (by omega)
    have hall : ∀ y ∈ xs, y.2.2.count.toNat ≤ 2 ^ 53 := by
      intro y hy
      have := le_total hy
      omega
    have hk : ∀ y ∈ xs, rowOf tbl y ≠ rowOf tbl x := fun y hy h =>
      hn.2.2 _ (List.mem_map.2 ⟨y, hy, rfl⟩) _ (by simp) h
    have hold := rows_other tbl (rowOf tbl x) xs { agg := agg } hs hall hk
    have hb1 := change_bounds tbl agg hs (fun m => m.1.errno == 0) (xs ++ [x])
    have hb2 := change_bounds tbl agg hs (fun m => m.1.errno != 0) (xs ++ [x])
    have he : (errnoOf x.2 ≠ 0) = ((x.2.1.errno != 0) = true) := by
      unfold errnoOf
      rw [bne_iff_ne, eq_iff_iff]
      constructor
      · rintro h rfl'; apply h; rw [rfl']; rfl
      · intro h h3; apply h; apply BitVec.eq_of_toNat_eq; show x.2.1.errno.toNat = 0; omega
    rw [List.foldl_append, List.foldl_cons, List.foldl_nil]
    generalize xs.foldl (rowStep tbl) { agg := agg } = t at *
    rw [change_snoc] at hb1 hb2 ⊢
    rw [change_snoc]
    unfold rowStep
    dsimp only
    have hd : f64i ((x.2.2.count.toNat : Int) - countAt agg (rowOf tbl x)) =
        (x.2.2.count.toNat : Int) - countAt agg (rowOf tbl x) := f64i_exact (by omega) (by omega)
    rw [val_count, hold, f64_exact (by omega), hd, ih1, ih2]
    simp only [he]
    cases hz : (x.2.1.errno != 0)
    · have hz2 : (x.2.1.errno == 0) = true := by simpa [bne] using hz
      simp only [hz, hz2, if_true, Bool.false_eq_true, if_false, Int.add_zero] at hb1 hb2 ⊢
      exact ⟨f64i_exact (by omega) (by omega), trivial⟩
    · have hz2 : (x.2.1.errno == 0) = false := by simpa [bne] using hz
      simp only [hz, hz2, if_true, Bool.false_eq_true, if_false, Int.add_zero] at hb1 hb2 ⊢
      exact ⟨trivial, f64i_exact (by omega) (by omega)⟩

end Swoll.Lemmas.Views
