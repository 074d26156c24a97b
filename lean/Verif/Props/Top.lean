import Verif.Props.Views
import Verif.Lemmas.Print
import Verif.Spec.Top
/-
C141: what `swoll top` draws.
-/
namespace Swoll.Props.Top
open Swoll Swoll.Syscalls Swoll.Views Swoll.Top Swoll.Spec.Views Swoll.Spec.Top Swoll.Lemmas.Views
open Swoll.Topology (Cache Container)
open Swoll.Props.Views (tableAfter SmallCounts resolved_small)

/-- Every metric of a known container that was seen in these ticks, in order. -/
def seen (ticks : List (Cache × List Metric)) : List (Container × Metric) := ticks.flatMap fun t => resolved t.1 "" t.2

/-! ### Helpers -/

theorem same_iff (tbl : Syscalls) (x y : Container × Metric) : Same tbl x y ↔ rowOf tbl x = rowOf tbl y := by
  unfold Same rowOf callName errorName
  constructor
  · rintro ⟨h1, h2, h3, h4, h5⟩
    rw [h1, h2, h3, h4, h5]
  · intro h
    injection h with h1 h2 h3 h4 h5
    exact ⟨h4, h5, h2, h1, h3⟩

theorem rowStep_agg (tbl : Syscalls) (xs : List (Container × Metric)) : ∀ (t t' : Tick), t.agg = t'.agg →
    (xs.foldl (rowStep tbl) t).agg = (xs.foldl (rowStep tbl) t').agg := by
  induction xs with
  | nil => intro t t' h; exact h
  | cons x xs ih =>
    intro t t' h
    rw [List.foldl_cons, List.foldl_cons]
    refine ih _ _ ?_
    unfold rowStep
    rw [h]

theorem table_eq (tbl : Syscalls) (ticks : List (Cache × List Metric)) :
    tableAfter tbl ticks = ((seen ticks).foldl (rowStep tbl) { agg := [] }).agg := by
  unfold tableAfter seen
  generalize ([] : Agg) = a
  induction ticks generalizing a with
  | nil => rfl
  | cons t ticks ih =>
    rw [List.foldl_cons, List.flatMap_cons, List.foldl_append, ih, tick_eq]
    exact rowStep_agg tbl _ _ _ rfl

theorem keys_fold (tbl : Syscalls) (xs : List (Container × Metric)) : ∀ (t : Tick), t.agg.NodupKeys →
    (xs.foldl (rowStep tbl) t).agg.NodupKeys ∧
    ∀ k, k ∈ GoMap.keys (xs.foldl (rowStep tbl) t).agg ↔ k ∈ GoMap.keys t.agg ∨ ∃ x ∈ xs, rowOf tbl x = k := by
  induction xs with
  | nil => intro t h; exact ⟨h, fun k => by simp⟩
  | cons x xs ih =>
    intro t h
    rw [List.foldl_cons]
    obtain ⟨h1, h2⟩ := ih (rowStep tbl t x) (GoMap.nodupKeys_set h _ _)
    refine ⟨h1, fun k => ?_⟩
    rw [h2]
    have : k ∈ GoMap.keys (rowStep tbl t x).agg ↔ rowOf tbl x = k ∨ k ∈ GoMap.keys t.agg := by
      rw [GoMap.mem_keys_iff, GoMap.mem_keys_iff]
      show (GoMap.get (GoMap.set t.agg (rowOf tbl x) _) k).isSome ↔ _
      rw [GoMap.get_set]
      by_cases e : rowOf tbl x = k <;> simp [e]
    rw [this]
    constructor
    · rintro ((h | h) | ⟨y, hy, h⟩)
      · exact .inr ⟨x, List.mem_cons_self, h⟩
      · exact .inl h
      · exact .inr ⟨y, List.mem_cons_of_mem _ hy, h⟩
    · rintro (h | ⟨y, hy, h⟩)
      · exact .inl (.inr h)
      · rcases List.mem_cons.1 hy with rfl | hy
        · exact .inl (.inl h)
        · exact .inr ⟨y, hy, h⟩

theorem last_of (tbl : Syscalls) (k : AKey) : ∀ (xs : List (Container × Metric)), (∃ x ∈ xs, rowOf tbl x = k) →
    ∃ pre x post, xs = pre ++ x :: post ∧ rowOf tbl x = k ∧ ∀ y ∈ post, rowOf tbl y ≠ k := by
  intro xs
  induction xs with
  | nil => rintro ⟨_, h, _⟩; cases h
  | cons a xs ih =>
    rintro ⟨x, hx, hk⟩
    by_cases h : ∃ x ∈ xs, rowOf tbl x = k
    · obtain ⟨pre, y, post, rfl, h1, h2⟩ := ih h
      exact ⟨a :: pre, y, post, rfl, h1, h2⟩
    · rcases List.mem_cons.1 hx with rfl | hx
      · exact ⟨[], x, xs, rfl, hk, fun y hy e => h ⟨y, hy, e⟩⟩
      · exact absurd ⟨x, hx, hk⟩ h

theorem seen_small {ticks : List (Cache × List Metric)} (h : ∀ t ∈ ticks, SmallCounts t.2) :
    ∀ x ∈ seen ticks, x.2.2.count.toNat ≤ 2 ^ 53 := by
  intro x hx
  obtain ⟨t, ht, hx⟩ := List.mem_flatMap.1 hx
  exact resolved_small (h t ht) x hx

theorem small_nil : Small ([] : Agg) := fun k => ⟨Int.le_refl 0, by show (0 : Int) ≤ _; omega⟩

/-- The rows of the table are those of the latest metrics, with their counts. -/
theorem table_rows (tbl : Syscalls) (ticks : List (Cache × List Metric)) (hs : ∀ t ∈ ticks, SmallCounts t.2) :
    (tableAfter tbl ticks).NodupKeys ∧
    (∀ e ∈ tableAfter tbl ticks, ∃ x, Latest tbl (seen ticks) x ∧ e.1 = rowOf tbl x ∧ e.2.count = (x.2.2.count.toNat : Int)) ∧
    ∀ x, Latest tbl (seen ticks) x → ∃ e ∈ tableAfter tbl ticks, e.1 = rowOf tbl x ∧ e.2.count = (x.2.2.count.toNat : Int) := by
  have hn := keys_fold tbl (seen ticks) { agg := [] } GoMap.nodupKeys_nil
  rw [← table_eq] at hn
  have hcount : ∀ pre x post, seen ticks = pre ++ x :: post → (∀ y ∈ post, rowOf tbl y ≠ rowOf tbl x) →
      countAt (tableAfter tbl ticks) (rowOf tbl x) = (x.2.2.count.toNat : Int) := by
    intro pre x post h hp
    rw [table_eq, h]
    exact rows_last tbl pre post x _ small_nil (h ▸ seen_small hs) hp
  refine ⟨hn.1, fun e he => ?_, fun x hx => ?_⟩
  · have hk : e.1 ∈ GoMap.keys (tableAfter tbl ticks) := List.mem_map.2 ⟨e, he, rfl⟩
    rcases (hn.2 _).1 hk with h | h
    · cases h
    · obtain ⟨pre, x, post, h1, h2, h3⟩ := last_of tbl e.1 _ h
      refine ⟨x, ⟨pre, post, h1, fun y hy hsame => h3 y hy (((same_iff tbl y x).1 hsame).trans h2)⟩, h2.symm, ?_⟩
      have h4 := hcount pre x post h1 (fun y hy he => h3 y hy (he.trans h2))
      rw [h2] at h4
      unfold countAt at h4
      rw [GoMap.get_of_mem hn.1 (k := e.1) (v := e.2) he] at h4
      exact h4
  · obtain ⟨pre, post, h1, h2⟩ := hx
    have h4 := hcount pre x post h1 (fun y hy he => h2 y hy ((same_iff tbl y x).2 he))
    have hk : rowOf tbl x ∈ GoMap.keys (tableAfter tbl ticks) :=
      (hn.2 _).2 (.inr ⟨x, by rw [h1]; simp, rfl⟩)
    obtain ⟨e, he, hek⟩ := List.mem_map.1 hk
    refine ⟨e, he, hek, ?_⟩
    unfold countAt at h4
    rw [← hek, GoMap.get_of_mem hn.1 (k := e.1) (v := e.2) he] at h4
    exact h4

theorem countText_nat (n : Nat) : countText (n : Int) = toString n := by
  unfold countText Flags.itoa
  rw [if_neg (by omega), Int.natAbs_natCast, Lemmas.Print.digits_eq, Nat.toString_eq_ofList_toDigits]

/-- Cutting a name at its first and its last dot. -/
theorem host_inj {a b c a' b' c' : List Char} (h : a ++ '.' :: (b ++ '.' :: c) = a' ++ '.' :: (b' ++ '.' :: c'))
    (ha : '.' ∉ a) (ha' : '.' ∉ a') (hc : '.' ∉ c) (hc' : '.' ∉ c') : a = a' ∧ b = b' ∧ c = c' := by
  have first : ∀ {a a' r r' : List Char}, a ++ '.' :: r = a' ++ '.' :: r' → '.' ∉ a → '.' ∉ a' → a = a' ∧ r = r' := by
    intro a
    induction a with
    | nil =>
      intro a' r r' h _ ha'
      cases a' with
      | nil => exact ⟨rfl, (List.cons.inj h).2⟩
      | cons x a' =>
        have := (List.cons.inj h).1
        subst this
        exact absurd List.mem_cons_self ha'
    | cons x a ih =>
      intro a' r r' h ha ha'
      cases a' with
      | nil =>
        have := (List.cons.inj h).1
        subst this
        exact absurd List.mem_cons_self ha
      | cons y a' =>
        obtain ⟨h1, h2⟩ := List.cons.inj h
        obtain ⟨h3, h4⟩ := ih h2 (fun m => ha (List.mem_cons_of_mem _ m)) (fun m => ha' (List.mem_cons_of_mem _ m))
        exact ⟨by rw [h1, h3], h4⟩
  obtain ⟨h1, h2⟩ := first h ha ha'
  have h3 := congrArg List.reverse h2
  rw [List.reverse_append, List.reverse_append, List.reverse_cons, List.reverse_cons, List.append_assoc, List.append_assoc] at h3
  obtain ⟨h4, h5⟩ := first h3 (by simpa using hc) (by simpa using hc')
  exact ⟨h1, List.reverse_inj.1 h5, List.reverse_inj.1 h4⟩

/-! ### C141 -/

/-- After any ticks, however the rows are ordered, the table has a title line and then one row for each call, result and
container that was seen, with the latest count of it; and no two rows are of the same. -/
theorem c141_rows (tbl : Syscalls) (ticks : List (Cache × List Metric)) (hs : ∀ t ∈ ticks, SmallCounts t.2)
    (sorted : Agg) (hp : sorted.Perm (tableAfter tbl ticks)) (rate : AKey → String) :
    ∃ rows, lines false rate sorted =
        ["Syscall", "Errno", "Namespace", "POD", "Container", "Count", "Rate"] :: rows ∧
      (∀ r ∈ rows, ∃ x, Latest tbl (seen ticks) x ∧ Shows tbl x r) ∧
      (∀ x, Latest tbl (seen ticks) x → ∃ r ∈ rows, Shows tbl x r) ∧
      rows.Pairwise (fun a b => a.take 5 ≠ b.take 5) := by
  obtain ⟨h1, h2, h3⟩ := table_rows tbl ticks hs
  refine ⟨_, rfl, ?_, ?_, ?_⟩
  · intro r hr
    obtain ⟨e, he, rfl⟩ := List.mem_map.1 hr
    obtain ⟨x, hx, hk, hc⟩ := h2 e (hp.mem_iff.1 he)
    refine ⟨x, hx, rate e.1, ?_⟩
    unfold row
    rw [if_neg (by decide), hc, countText_nat, hk]
    rfl
  · intro x hx
    obtain ⟨e, he, hk, hc⟩ := h3 x hx
    refine ⟨_, List.mem_map_of_mem (hp.mem_iff.2 he), rate e.1, ?_⟩
    unfold row
    rw [if_neg (by decide), hc, countText_nat, hk]
    rfl
  · rw [List.pairwise_map]
    have hn : (sorted.map Prod.fst).Nodup := (hp.map Prod.fst).nodup_iff.2 h1
    unfold List.Nodup at hn
    rw [List.pairwise_map] at hn
    refine hn.imp (fun {a b} hab he => hab ?_)
    obtain ⟨⟨p, n, c, s, r⟩, v⟩ := a
    obtain ⟨⟨p', n', c', s', r'⟩, v'⟩ := b
    simp only [row, Bool.false_eq_true, if_false, List.take_succ_cons, List.take_zero, List.cons.injEq, and_true] at he
    obtain ⟨q1, q2, q3, q4, q5⟩ := he
    rw [q1, q2, q3, q4, q5]

/-- With `--aggregate-hosts` likewise, with the container in one column. Two rows are never of the same call, result and
name, as the names of containers and namespaces have no dot. -/
theorem c141_hosts (tbl : Syscalls) (ticks : List (Cache × List Metric)) (hs : ∀ t ∈ ticks, SmallCounts t.2)
    (hdot : ∀ x ∈ seen ticks, '.' ∉ x.1.name.toList ∧ '.' ∉ x.1.ns.toList)
    (sorted : Agg) (hp : sorted.Perm (tableAfter tbl ticks)) (rate : AKey → String) :
    ∃ rows, lines true rate sorted = ["Syscall", "Errno", "Host", "Count", "Rate"] :: rows ∧
      (∀ r ∈ rows, ∃ x, Latest tbl (seen ticks) x ∧ ShowsHost tbl x r) ∧
      (∀ x, Latest tbl (seen ticks) x → ∃ r ∈ rows, ShowsHost tbl x r) ∧
      rows.Pairwise (fun a b => a.take 3 ≠ b.take 3) := by
  obtain ⟨h1, h2, h3⟩ := table_rows tbl ticks hs
  refine ⟨_, rfl, ?_, ?_, ?_⟩
  · intro r hr
    obtain ⟨e, he, rfl⟩ := List.mem_map.1 hr
    obtain ⟨x, hx, hk, hc⟩ := h2 e (hp.mem_iff.1 he)
    refine ⟨x, hx, rate e.1, ?_⟩
    unfold row
    rw [if_pos rfl, hc, countText_nat, hk]
    rfl
  · intro x hx
    obtain ⟨e, he, hk, hc⟩ := h3 x hx
    refine ⟨_, List.mem_map_of_mem (hp.mem_iff.2 he), rate e.1, ?_⟩
    unfold row
    rw [if_pos rfl, hc, countText_nat, hk]
    rfl
  · rw [List.pairwise_map]
    have hn : (sorted.map Prod.fst).Nodup := (hp.map Prod.fst).nodup_iff.2 h1
    unfold List.Nodup at hn
    rw [List.pairwise_map] at hn
    have dots : ∀ e ∈ sorted, '.' ∉ e.1.ctr.toList ∧ '.' ∉ e.1.ns.toList := by
      intro e he
      obtain ⟨x, ⟨pre, post, hx, -⟩, hk, -⟩ := h2 e (hp.mem_iff.1 he)
      rw [hk]
      exact hdot x (by rw [hx]; simp)
    refine List.Pairwise.imp_of_mem (fun {a b} ha hb hab he => hab ?_) hn
    have da := dots a ha
    have db := dots b hb
    obtain ⟨⟨p, n, c, s, r⟩, v⟩ := a
    obtain ⟨⟨p', n', c', s', r'⟩, v'⟩ := b
    simp only [row, if_true, List.take_succ_cons, List.take_zero, List.cons.injEq, and_true] at he
    obtain ⟨q1, q2, q3⟩ := he
    have q4 := congrArg String.toList q3
    simp only [String.toList_append] at q4
    have dot : ".".toList = ['.'] := rfl
    rw [dot] at q4
    simp only [List.append_assoc, List.cons_append, List.nil_append] at q4
    obtain ⟨k1, k2, k3⟩ := host_inj q4 da.1 db.1 da.2 db.2
    show (⟨p, n, c, s, r⟩ : AKey) = ⟨p', n', c', s', r'⟩
    rw [String.toList_inj.1 k1, String.toList_inj.1 k2, String.toList_inj.1 k3, q1, q2]

/-- Without that rule for names two rows can look alike. -/
theorem c141_dots_needed :
    ∃ a b : AKey × AVal, a.1 ≠ b.1 ∧ row true (fun _ => "0.000") a = row true (fun _ => "0.000") b :=
  ⟨(⟨"b.c", "d", "a", "read", "OK"⟩, {}), (⟨"c", "d", "a.b", "read", "OK"⟩, {}), by decide, by decide +kernel⟩

/-- A row is in the colour of errors just if it is of calls that failed. -/
theorem c141_red (tbl : Syscalls) (ticks : List (Cache × List Metric)) (hs : ∀ t ∈ ticks, SmallCounts t.2)
    (sorted : Agg) (hp : sorted.Perm (tableAfter tbl ticks)) (rate : AKey → String) (n : Nat) (r : List String)
    (hr : (lines false rate sorted)[n + 1]? = some r) :
    ∃ x, Latest tbl (seen ticks) x ∧ Shows tbl x r ∧ (red sorted (n + 1) = true ↔ x.2.1.errno ≠ 0) := by
  obtain ⟨h1, h2, h3⟩ := table_rows tbl ticks hs
  have hr' : (sorted.map (row false rate))[n]? = some r := hr
  rw [List.getElem?_map] at hr'
  obtain ⟨e, he, rfl⟩ := Option.map_eq_some_iff.1 hr'
  obtain ⟨x, hx, hk, hc⟩ := h2 e (hp.mem_iff.1 (List.mem_of_getElem? he))
  refine ⟨x, hx, ⟨rate e.1, ?_⟩, ?_⟩
  · unfold row
    rw [if_neg (by decide), hc, countText_nat, hk]
    rfl
  · unfold red
    simp only [he, hk]
    show (Flags.errnoToString (x.2.1.errno.toNat : Int) != "OK") = true ↔ _
    have ok : ∀ z : Int, Flags.errnoToString z = "OK" ↔ z = 0 := by
      intro z
      unfold Flags.errnoToString
      cases hz : GoMap.get Flags.errnoVals z with
      | none =>
        refine ⟨fun h => absurd h (by decide), ?_⟩
        rintro rfl
        exact absurd hz (by decide +kernel)
      | some s =>
        have hall : ∀ e ∈ Flags.errnoVals, e.2 = "OK" ↔ e.1 = 0 := by decide +kernel
        exact hall (z, s) (GoMap.mem_of_get hz)
    rw [bne_iff_ne, ne_eq, ok]
    constructor
    · intro h h'
      rw [h'] at h
      exact h rfl
    · intro h h'
      exact h (by
        apply BitVec.eq_of_toNat_eq
        have : x.2.1.errno.toNat = 0 := by omega
        rw [this]
        rfl)

/-- A graph keeps the latest values, one more than fits. -/
theorem c141_graph (width : Nat) (vs : List Int) :
    vs.foldl (push width) [] = vs.drop (vs.length - (width + 1)) := by
  induction vs using snoc_ind with
  | h0 => simp
  | h1 vs v ih =>
    rw [List.foldl_append, List.foldl_cons, List.foldl_nil, ih]
    unfold push
    rw [List.length_drop, List.length_append, List.length_singleton]
    by_cases h : width < vs.length
    · rw [if_pos (by omega), List.drop_drop, List.drop_append_of_le_length (by omega)]
      congr 2
      omega
    · rw [if_neg (by omega), List.drop_append_of_le_length (by omega)]
      congr 2
      omega

/-- While there is room, all values are drawn, in order. -/
theorem c141_drawn_partial (width : Nat) (vs : List Int) (h : vs.length ≤ width) :
    drawn width (vs.foldl (push width) []) = vs := by
  rw [c141_graph, Nat.sub_eq_zero_of_le (by omega), List.drop_zero]
  exact List.take_of_length_le h

/-- Violated: from then on the newest value is not drawn; the graph ends with the one before. -/
theorem c141_drawn_violated (width : Nat) (vs : List Int) (v : Int) (h : width ≤ vs.length) :
    drawn width ((vs ++ [v]).foldl (push width) []) = vs.drop (vs.length - width) := by
  rw [c141_graph, List.length_append, List.length_singleton, List.drop_append_of_le_length (by omega)]
  unfold drawn
  rw [show vs.length + 1 - (width + 1) = vs.length - width by omega, List.take_append_of_le_length (by rw [List.length_drop]; omega)]
  exact List.take_of_length_le (by rw [List.length_drop]; omega)

/-- The hypotheses are met. -/
example : (∀ t ∈ [(Views.demoCache, Views.demoMs), (Views.demoCache, Views.demoMs2)], SmallCounts t.2) ∧
    (∀ x ∈ seen [(Views.demoCache, Views.demoMs), (Views.demoCache, Views.demoMs2)],
      '.' ∉ x.1.name.toList ∧ '.' ∉ x.1.ns.toList) ∧
    (lines false (fun _ => "") (tableAfter Views.demoTbl [(Views.demoCache, Views.demoMs), (Views.demoCache, Views.demoMs2)]))[1]? ≠ none := by
  decide +kernel
example : drawn 2 ([1, 2, 3].foldl (push 2) []) = [1, 2] := by decide

end Swoll.Props.Top
