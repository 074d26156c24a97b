import Verif.Spec.Cluster
import Verif.Lemmas.JobArgs
/-
Lemmas about selectors, watches and informers.
-/
namespace Swoll.Lemmas.Cluster
open Swoll Swoll.Cluster Swoll.Spec.Cluster
open Swoll.JobArgs (Str Rules validKey validValue labelChar split join setString strLE)
open Swoll.Lemmas.JobArgs (labelChar_ne split_join)

/-! ### Selectors -/

theorem mapM_some {α β : Type} {f : α → Option β} {l : List α} (h : ∀ a ∈ l, ∃ b, f a = some b) :
    l.mapM f = some (l.filterMap f) := by
  induction l with
  | nil => rfl
  | cons a l ih =>
    obtain ⟨b, hb⟩ := h a (List.mem_cons_self ..)
    rw [List.mapM_cons, hb, ih (fun a ha => h a (List.mem_cons_of_mem _ ha)), List.filterMap_cons, hb]
    rfl

theorem reqs_set {f : Str → Option Req} {m : GoMap Str Str}
    (hc : ∀ e ∈ m, e.1.all labelChar = true ∧ e.2.all labelChar = true)
    (hf : ∀ e ∈ m, f (e.1 ++ '=' :: e.2) = some (.eq e.1 e.2)) :
    ∃ rs, reqs f (setString m) = some rs ∧ ∀ r, r ∈ rs ↔ ∃ e ∈ m, r = .eq e.1 e.2 := by
  unfold setString
  let g : Str × Str → Str := fun e => e.1 ++ '=' :: e.2
  show ∃ rs, reqs f (join ',' ((m.map g).mergeSort strLE)) = some rs ∧ _
  have hp : ((m.map g).mergeSort strLE).Perm (m.map g) := List.mergeSort_perm _ _
  generalize (m.map g).mergeSort strLE = ss at hp
  have hmem : ∀ s, s ∈ ss ↔ ∃ e ∈ m, g e = s := fun s => by rw [hp.mem_iff, List.mem_map]
  cases hss : ss with
  | nil =>
    subst hss
    have : m = [] := by
      have := List.Perm.nil_eq hp
      simpa using this.symm
    subst this
    exact ⟨[], rfl, by simp⟩
  | cons s0 ss0 =>
    rw [← hss]
    have hne : ss ≠ [] := by rw [hss]; simp
    have hcomma : ∀ s ∈ ss, ',' ∉ s := by
      intro s hs hm
      obtain ⟨e, he, rfl⟩ := (hmem s).1 hs
      obtain ⟨hk, hv⟩ := hc e he
      rw [List.all_eq_true] at hk hv
      rcases List.mem_append.1 hm with hm | hm
      · exact (labelChar_ne (hk _ hm)).1 rfl
      · rcases List.mem_cons.1 hm with hm | hm
        · exact absurd hm (by decide)
        · exact (labelChar_ne (hv _ hm)).1 rfl
    have hs : ∀ s ∈ ss, ∃ b, f s = some b := by
      intro s hs
      obtain ⟨e, he, rfl⟩ := (hmem s).1 hs
      exact ⟨_, hf e he⟩
    have hj : join ',' ss ≠ [] := by
      intro h
      rcases Lemmas.JobArgs.join_nil h with h | h
      · exact hne h
      · obtain ⟨e, -, h'⟩ := (hmem []).1 (by rw [h]; simp)
        have : g e ≠ [] := by simp [g]
        exact this h'
    refine ⟨ss.filterMap f, ?_, ?_⟩
    · unfold reqs
      rw [if_neg hj, split_join hne hcomma, mapM_some hs]
    · intro r
      rw [List.mem_filterMap]
      constructor
      · rintro ⟨s, hs, hr⟩
        obtain ⟨e, he, rfl⟩ := (hmem s).1 hs
        have := hf e he
        rw [show g e = e.1 ++ '=' :: e.2 from rfl, this] at hr
        injection hr with hr
        exact ⟨e, he, hr.symm⟩
      · rintro ⟨e, he, rfl⟩
        exact ⟨g e, (hmem _).2 ⟨e, he, rfl⟩, hf e he⟩

theorem takeWhile_key {p : Char → Bool} {k v : Str} (hk : ∀ c ∈ k, p c = true) (he : p '=' = false) :
    (k ++ '=' :: v).takeWhile p = k ∧ (k ++ '=' :: v).dropWhile p = '=' :: v := by
  induction k with
  | nil => simp [he]
  | cons c k ih =>
    have hc := hk c (List.mem_cons_self ..)
    obtain ⟨h1, h2⟩ := ih (fun c hc => hk c (List.mem_cons_of_mem _ hc))
    simp [hc, h1, h2]

theorem labelReq_eq {r : Rules} {k v : Str} (hk : validKey r k = true) (hv : validValue r v = true) :
    labelReq r (k ++ '=' :: v) = some (.eq k v) := by
  have hkc : ∀ c ∈ k, labelChar c = true := by
    unfold validKey at hk
    rw [Bool.and_eq_true, List.all_eq_true] at hk
    exact hk.1
  have hvc : ∀ c ∈ v, labelChar c = true := by
    unfold validValue at hv
    rw [Bool.and_eq_true, List.all_eq_true] at hv
    exact hv.1
  obtain ⟨h1, h2⟩ := takeWhile_key (v := v) hkc (by decide)
  unfold labelReq
  rw [if_neg, h1, h2]
  · simp only [hk, if_true]
    cases v with
    | nil => simp [hv]
    | cons c v =>
      have : c ≠ '=' := (labelChar_ne (hvc c (List.mem_cons_self ..))).2.1
      split
      · next h => injection h
      · next h => injection h with _ h; injection h with h; exact absurd h this
      · next h => injection h with _ h; rw [← h, hv]; rfl
      · next h => injection h with h; exact absurd h (by decide)
      · next h _ => exact absurd rfl (h _)
  · cases k with
    | nil => simp
    | cons c k =>
      simp only [List.cons_append, List.head?_cons, Option.some.injEq]
      rintro rfl
      exact absurd (hkc '!' (List.mem_cons_self ..)) (by decide)

theorem fieldReq_eq {a : Api} {k v : Str} (hf : a.field k = true) (hk : k.all labelChar = true)
    (hv : v.all labelChar = true) : fieldReq a (k ++ '=' :: v) = some (.eq k v) := by
  rw [List.all_eq_true] at hk hv
  have hkc : ∀ c ∈ k, (c != '=' && c != '!') = true := by
    intro c hc
    have h1 := (labelChar_ne (hk c hc)).2.1
    have h2 : c ≠ '!' := by rintro rfl; exact absurd (hk _ hc) (by decide)
    simp [h1, h2]
  obtain ⟨h1, h2⟩ := takeWhile_key (v := v) hkc (by decide)
  unfold fieldReq
  rw [h1, h2]
  simp only [hf, if_true]
  cases v with
  | nil => rfl
  | cons c v =>
    have : c ≠ '=' := (labelChar_ne (hv c (List.mem_cons_self ..))).2.1
    split
    · next h => injection h with _ h; injection h with h; exact absurd h this
    · next h => injection h with _ h; rw [← h]
    · next h => injection h with h; exact absurd h (by decide)
    · next h _ => exact absurd rfl (h _)

/-- What a watch with printed labels and fields is about. -/
theorem selects_printed {a : Api} {o : Topology.Observer} {ls fs : GoMap Str Str} (hl : GoodLabels a ls)
    (hf : GoodFields a fs) (h1 : o.labelSelector = String.ofList (setString ls))
    (h2 : o.fieldSelector = String.ofList (setString fs)) :
    ∃ f, selects a o = some f ∧ ∀ p, f p = true ↔ (o.ns = "" ∨ p.ns = o.ns) ∧
      (∀ k v, ls.get k = some v → p.labels.get k = some v) ∧
      (∀ k v, fs.get k = some v → (p.fields.get k).getD [] = v) := by
  have lc : ∀ e ∈ ls, e.1.all labelChar = true ∧ e.2.all labelChar = true := by
    intro e he
    obtain ⟨hk, hv⟩ := hl.2 e he
    unfold validKey at hk
    unfold validValue at hv
    rw [Bool.and_eq_true] at hk hv
    exact ⟨hk.1, hv.1⟩
  obtain ⟨rs, r1, r2⟩ := reqs_set (f := labelReq a.rules) lc (fun e he => labelReq_eq (hl.2 e he).1 (hl.2 e he).2)
  obtain ⟨qs, q1, q2⟩ := reqs_set (f := fieldReq a) (fun e he => ⟨(hf.2 e he).2.1, (hf.2 e he).2.2⟩)
    (fun e he => fieldReq_eq (hf.2 e he).1 (hf.2 e he).2.1 (hf.2 e he).2.2)
  unfold selects
  rw [h1, h2, String.toList_ofList, String.toList_ofList, r1, q1]
  refine ⟨_, rfl, ?_⟩
  intro p
  simp only [Bool.and_eq_true, Bool.or_eq_true, beq_iff_eq, List.all_eq_true, and_assoc]
  refine and_congr Iff.rfl (and_congr ?_ ?_)
  · constructor
    · intro h k v hkv
      have := h (.eq k v) ((r2 _).2 ⟨(k, v), GoMap.mem_of_get hkv, rfl⟩)
      simpa [Req.labels] using this
    · intro h r hr
      obtain ⟨e, he, rfl⟩ := (r2 r).1 hr
      simpa [Req.labels] using h e.1 e.2 (GoMap.get_of_mem hl.1 he)
  · constructor
    · intro h k v hkv
      have := h (.eq k v) ((q2 _).2 ⟨(k, v), GoMap.mem_of_get hkv, rfl⟩)
      simpa [Req.fields] using this
    · intro h r hr
      obtain ⟨e, he, rfl⟩ := (q2 r).1 hr
      simpa [Req.fields] using h e.1 e.2 (GoMap.get_of_mem hf.1 he)

end Swoll.Lemmas.Cluster
