import Verif.Spec.CmdLine
import Verif.Lemmas.Cluster
import Verif.Props.Cluster
/-
Helper lemmas about the selectors of command lines.
-/
namespace Swoll.Lemmas.CmdLine
open Swoll Swoll.CmdLine Swoll.Cluster Swoll.Spec.CmdLine Swoll.Spec.Cluster
open Swoll.JobArgs
open Swoll.Lemmas.JobArgs

theorem commas_join (ss : List Str) : commas ss = join ',' ss := by
  induction ss with
  | nil => rfl
  | cons s ss ih =>
    cases ss with
    | nil => rfl
    | cons t ss => simp only [commas, join, ih]; simp

theorem spaced_join (ss : List Str) : spaced ss = join ' ' ss := by
  induction ss with
  | nil => rfl
  | cons s ss ih =>
    cases ss with
    | nil => rfl
    | cons t ss => simp only [spaced, join, ih]; simp

theorem chars_key {r : Rules} {k : Str} (h : validKey r k = true) : ∀ c ∈ k, labelChar c = true := by
  unfold validKey at h
  rw [Bool.and_eq_true, List.all_eq_true] at h
  exact h.1

theorem chars_value {r : Rules} {v : Str} (h : validValue r v = true) : ∀ c ∈ v, labelChar c = true := by
  unfold validValue at h
  rw [Bool.and_eq_true, List.all_eq_true] at h
  exact h.1

/-! ### `labels.Parse` -/

theorem span_key {p : Char → Bool} {k rest : Str} {x : Char} (hk : ∀ c ∈ k, p c = true) (hx : p x = false) :
    (k ++ x :: rest).takeWhile p = k ∧ (k ++ x :: rest).dropWhile p = x :: rest := by
  induction k with
  | nil => simp [hx]
  | cons c k ih =>
    have hc := hk c (List.mem_cons_self ..)
    obtain ⟨h1, h2⟩ := ih (fun c hc => hk c (List.mem_cons_of_mem _ hc))
    simp [hc, h1, h2]

theorem span_all {p : Char → Bool} {k : Str} (hk : ∀ c ∈ k, p c = true) :
    k.takeWhile p = k ∧ k.dropWhile p = [] := by
  induction k with
  | nil => simp
  | cons c k ih =>
    have hc := hk c (List.mem_cons_self ..)
    obtain ⟨h1, h2⟩ := ih (fun c hc => hk c (List.mem_cons_of_mem _ hc))
    simp [hc, h1, h2]

theorem not_bang {k : Str} (hk : ∀ c ∈ k, labelChar c = true) (rest : Str) (h : rest.head? = some '!' → k ≠ []) :
    ¬ (k ++ rest).head? = some '!' := by
  cases k with
  | nil => simp; intro hr; exact absurd rfl (h hr)
  | cons c k =>
    simp only [List.cons_append, List.head?_cons, Option.some.injEq]
    rintro rfl
    exact absurd (hk '!' (List.mem_cons_self ..)) (by decide)

/-- The requirement a condition stands for. -/
def req : Cond → Req
  | .is k v => .eq k v
  | .equals k v => .eq k v
  | .isnt k v => .ne k v
  | .has k => .has k
  | .hasnt k => .hasnt k

theorem labelReq_cond {a : Api} {c : Cond} (h : c.Good a) : labelReq a.rules c.text = some (req c) := by
  cases c with
  | is k v =>
    have := Lemmas.Cluster.labelReq_eq h.1.2 h.2
    simpa [Cond.text, req] using this
  | equals k v =>
    have hk := chars_key h.1.2
    obtain ⟨h1, h2⟩ := span_key (rest := '=' :: v) (x := '=') hk (by decide)
    rw [show (Cond.equals k v).text = k ++ '=' :: '=' :: v by simp [Cond.text]]
    unfold labelReq
    rw [if_neg (not_bang hk _ (by simp)), h1, h2]
    simp only [h.1.2, if_true, h.2, req]
  | isnt k v =>
    have hk := chars_key h.1.2
    obtain ⟨h1, h2⟩ := span_key (rest := '=' :: v) (x := '!') hk (by decide)
    rw [show (Cond.isnt k v).text = k ++ '!' :: '=' :: v by simp [Cond.text]]
    unfold labelReq
    rw [if_neg (not_bang hk _ (fun _ => h.1.1)), h1, h2]
    simp only [h.1.2, if_true, h.2, req]
  | has k =>
    have hk := chars_key h.2
    obtain ⟨h1, h2⟩ := span_all hk
    have hb := not_bang hk [] (by simp)
    rw [List.append_nil] at hb
    unfold labelReq Cond.text
    rw [if_neg hb, h1, h2]
    simp only [h.2, if_true, req]
  | hasnt k =>
    unfold labelReq Cond.text
    simp only [List.head?_cons, if_true, List.tail_cons, h.2, req]

theorem text_ne {a : Api} {c : Cond} (h : c.Good a) : c.text ≠ [] := by
  cases c <;> simp [Cond.text]
  exact h.1

theorem text_comma {a : Api} {c : Cond} (h : c.Good a) : ',' ∉ c.text := by
  have key : ∀ {k}, GoodKey a k → ',' ∉ k := fun hk hm => (labelChar_ne (chars_key hk.2 _ hm)).1 rfl
  have val : ∀ {v}, validValue a.rules v = true → ',' ∉ v := fun hv hm =>
    (labelChar_ne (chars_value hv _ hm)).1 rfl
  cases c with
  | is k v => simp [Cond.text, key h.1, val h.2]
  | equals k v => simp [Cond.text, key h.1, val h.2]
  | isnt k v => simp [Cond.text, key h.1, val h.2]
  | has k => simp [Cond.text, key h]
  | hasnt k => simp [Cond.text, key h]

theorem reqs_conds {a : Api} {cs : List Cond} (h : ∀ c ∈ cs, c.Good a) :
    reqs (labelReq a.rules) (commas (cs.map Cond.text)) = some (cs.map req) := by
  rw [commas_join]
  cases hcs : cs with
  | nil => rfl
  | cons c0 l =>
    rw [← hcs]
    have hne : cs.map Cond.text ≠ [] := by rw [hcs]; simp
    have hj : join ',' (cs.map Cond.text) ≠ [] := by
      intro hn
      rcases join_nil hn with hn | hn
      · exact hne hn
      · have : [] ∈ cs.map Cond.text := by rw [hn]; simp
        obtain ⟨c, hc, he⟩ := List.mem_map.1 this
        exact text_ne (h c hc) he
    unfold reqs
    rw [if_neg hj, split_join hne]
    · clear hne hj hcs
      induction cs with
      | nil => rfl
      | cons c cs ih =>
        rw [List.map_cons, List.mapM_cons, labelReq_cond (h c (List.mem_cons_self ..)),
          ih (fun c hc => h c (List.mem_cons_of_mem _ hc))]
        rfl
    · intro f hf
      obtain ⟨c, hc, rfl⟩ := List.mem_map.1 hf
      exact text_comma (h c hc)

theorem met_iff (m : GoMap Str Str) (c : Cond) : Req.labels m (req c) = true ↔ c.Met m := by
  cases c <;> simp [Req.labels, req, Cond.Met, Option.isSome_iff_exists]

theorem running {a : Api} (h : a.field "status.phase".toList = true) :
    reqs (fieldReq a) "status.phase=Running".toList = some [.eq "status.phase".toList "Running".toList] := by
  have hs : split ',' "status.phase=Running".toList = ["status.phase=Running".toList] := by decide +kernel
  have hl : fieldReq a "status.phase=Running".toList = some (.eq "status.phase".toList "Running".toList) := by
    have : "status.phase=Running".toList = "status.phase".toList ++ '=' :: "Running".toList := by decide +kernel
    rw [this]
    exact Lemmas.Cluster.fieldReq_eq h (by decide +kernel) (by decide +kernel)
  unfold reqs
  rw [if_neg (by decide +kernel), hs, List.mapM_cons, hl]
  rfl

/-! ### `labels.ConvertSelectorToLabelsMap` -/

theorem dropWhile_pad {p : Char → Bool} {a s : Str} (ha : ∀ c ∈ a, p c = true) :
    (a ++ s).dropWhile p = s.dropWhile p := by
  induction a with
  | nil => rfl
  | cons c a ih =>
    rw [List.cons_append, List.dropWhile_cons_of_pos (ha c (List.mem_cons_self ..))]
    exact ih (fun c hc => ha c (List.mem_cons_of_mem _ hc))

theorem trimSpace_pad {a s b : Str} (ha : ∀ c ∈ a, isSpace c = true) (hb : ∀ c ∈ b, isSpace c = true)
    (hs : ∀ c ∈ s, labelChar c = true) : trimSpace (a ++ s ++ b) = s := by
  have hn : ∀ c ∈ s, isSpace c = false := fun c hc => (labelChar_ne (hs c hc)).2.2
  unfold trimSpace
  rw [List.append_assoc, dropWhile_pad ha]
  cases s with
  | nil =>
    have : b.dropWhile isSpace = [] := by
      have := dropWhile_pad (s := []) hb
      simpa using this
    simp [this]
  | cons c s =>
    rw [List.cons_append, List.dropWhile_cons_of_neg (by simp [hn c (List.mem_cons_self ..)]), ← List.cons_append,
      List.reverse_append, dropWhile_pad (fun c hc => hb c (List.mem_reverse.1 hc)),
      dropWhile_id (fun c hc => hn c (List.mem_reverse.1 hc)), List.reverse_reverse]

theorem space_ne {c : Char} (h : isSpace c = true) : c ≠ ',' ∧ c ≠ '=' := by
  constructor <;> (rintro rfl; exact absurd h (by decide))

theorem label_says {r : Rules} {s : Str} {e : Str × Str} (h : Says s e) (hv : ValidLabel r e) :
    label r s = some e := by
  obtain ⟨a, b, c, d, hs, rfl⟩ := h
  simp only [List.mem_append] at hs
  have hk' := chars_key hv.1
  have hv' := chars_value hv.2
  have e1 : '=' ∉ a ++ e.1 ++ b := by
    simp only [List.mem_append, not_or]
    exact ⟨⟨fun h => (space_ne (hs _ (.inl (.inl (.inl h))))).2 rfl, fun h => (labelChar_ne (hk' _ h)).2.1 rfl⟩,
      fun h => (space_ne (hs _ (.inl (.inl (.inr h))))).2 rfl⟩
  have e2 : '=' ∉ c ++ e.2 ++ d := by
    simp only [List.mem_append, not_or]
    exact ⟨⟨fun h => (space_ne (hs _ (.inl (.inr h)))).2 rfl, fun h => (labelChar_ne (hv' _ h)).2.1 rfl⟩,
      fun h => (space_ne (hs _ (.inr h))).2 rfl⟩
  unfold label
  rw [show a ++ e.1 ++ b ++ ['='] ++ c ++ e.2 ++ d = (a ++ e.1 ++ b) ++ '=' :: (c ++ e.2 ++ d) by simp,
    split_append e1, split_of_not_mem e2]
  dsimp only
  rw [trimSpace_pad (fun x hx => hs x (.inl (.inl (.inl hx)))) (fun x hx => hs x (.inl (.inl (.inr hx)))) hk',
    trimSpace_pad (fun x hx => hs x (.inl (.inr hx))) (fun x hx => hs x (.inr hx)) hv', hv.1, hv.2]
  rfl

theorem comma_says {r : Rules} {s : Str} {e : Str × Str} (h : Says s e) (hv : ValidLabel r e) : ',' ∉ s := by
  obtain ⟨a, b, c, d, hs, rfl⟩ := h
  simp only [List.mem_append] at hs
  simp only [List.mem_append, not_or]
  exact ⟨⟨⟨⟨⟨⟨fun h => (space_ne (hs _ (.inl (.inl (.inl h))))).1 rfl,
    fun h => (labelChar_ne (chars_key hv.1 _ h)).1 rfl⟩,
    fun h => (space_ne (hs _ (.inl (.inl (.inr h))))).1 rfl⟩, by decide⟩,
    fun h => (space_ne (hs _ (.inl (.inr h)))).1 rfl⟩,
    fun h => (labelChar_ne (chars_value hv.2 _ h)).1 rfl⟩,
    fun h => (space_ne (hs _ (.inr h))).1 rfl⟩

theorem says_ne {s : Str} {e : Str × Str} (h : Says s e) : s ≠ [] := by
  obtain ⟨a, b, c, d, -, rfl⟩ := h
  simp

/-- What a list of texts is read as. -/
theorem labelsMap_says {r : Rules} {ss : List Str} {es : List (Str × Str)} (h : SayAll ss es)
    (hv : ∀ e ∈ es, ValidLabel r e) :
    labelsMap r (commas ss) = some (es.foldl (fun m e => GoMap.set m e.1 e.2) []) := by
  rw [commas_join]
  have hmap : ss.map (label r) = es.map some ∧ (∀ s ∈ ss, ',' ∉ s) ∧ ∀ s ∈ ss, s ≠ [] := by
    induction h with
    | nil => exact ⟨rfl, by simp, by simp⟩
    | cons h1 h2 ih =>
      have hx := hv _ (List.mem_cons_self ..)
      obtain ⟨i1, i2, i3⟩ := ih (fun e he => hv e (List.mem_cons_of_mem _ he))
      refine ⟨by rw [List.map_cons, List.map_cons, label_says h1 hx, i1], ?_, ?_⟩
      · intro s hs
        rcases List.mem_cons.1 hs with rfl | hs
        · exact comma_says h1 hx
        · exact i2 s hs
      · intro s hs
        rcases List.mem_cons.1 hs with rfl | hs
        · exact says_ne h1
        · exact i3 s hs
  obtain ⟨h1, h2, h3⟩ := hmap
  unfold labelsMap
  split
  · next hj =>
    rcases join_nil hj with hn | hn
    · subst hn
      cases es with
      | nil => rfl
      | cons e es => cases h
    · exact absurd rfl (h3 [] (by rw [hn]; simp))
  · next hj =>
    have hne : ss ≠ [] := by rintro rfl; exact hj rfl
    rw [split_join hne h2]
    exact foldlM_labels [] h1

theorem nodup_foldl_set (es : List (Str × Str)) (m : GoMap Str Str) (hm : m.NodupKeys) :
    (es.foldl (fun m e => GoMap.set m e.1 e.2) m).NodupKeys := by
  induction es generalizing m with
  | nil => exact hm
  | cons e es ih => exact ih _ (GoMap.nodupKeys_set hm _ _)

/-- Every entry of the map is one that was given. -/
theorem mem_foldl_set {es : List (Str × Str)} {e : Str × Str}
    (h : e ∈ es.foldl (fun (m : GoMap Str Str) e => GoMap.set m e.1 e.2) []) : e ∈ es := by
  have key : ∀ (es : List (Str × Str)) (m : GoMap Str Str), m.NodupKeys → ∀ k v,
      GoMap.get (es.foldl (fun m e => GoMap.set m e.1 e.2) m) k = some v → (k, v) ∈ es ∨ m.get k = some v := by
    intro es
    induction es with
    | nil => intro m _ k v h; exact .inr h
    | cons x es ih =>
      intro m hm k v h
      rcases ih _ (GoMap.nodupKeys_set hm _ _) k v h with h | h
      · exact .inl (List.mem_cons_of_mem _ h)
      · rw [GoMap.get_set] at h
        split at h
        · next hk =>
          injection h with h
          subst h
          left
          rw [← hk]
          exact List.mem_cons_self ..
        · exact .inr h
  have hn := nodup_foldl_set es [] GoMap.nodupKeys_nil
  rcases key es [] GoMap.nodupKeys_nil e.1 e.2 (GoMap.get_of_mem hn h) with h | h
  · exact h
  · cases h

/-! ### Words -/

theorem split_two {sep : Char} {a b c : Str} : ∃ x y z l, split sep (a ++ sep :: b ++ sep :: c) = x :: y :: z :: l := by
  have key : ∀ (s t : Str), ∃ x l, split sep (s ++ sep :: t) = x :: l ∧ (split sep t).length ≤ l.length := by
    intro s t
    induction s with
    | nil => exact ⟨[], split sep t, by simp [split], Nat.le_refl _⟩
    | cons d s ih =>
      obtain ⟨x, l, h1, h2⟩ := ih
      have e : split sep (d :: (s ++ sep :: t)) = if d = sep then [] :: (x :: l) else (d :: x) :: l := by
        rw [split, h1]
      rw [List.cons_append, e]
      split
      · exact ⟨[], _, rfl, by rw [List.length_cons]; omega⟩
      · exact ⟨d :: x, l, rfl, h2⟩
  obtain ⟨x, l, h1, h2⟩ := key a (b ++ sep :: c)
  obtain ⟨y, l2, h3, h4⟩ := key b c
  have h5 : 0 < (split sep c).length := List.length_pos_iff.2 (split_ne_nil _ _)
  rw [h3] at h2
  rw [List.append_assoc, List.cons_append, h1]
  match l, h2 with
  | u :: v :: l, _ => exact ⟨x, u, v, l, rfl⟩
  | [u], h2 => simp at h2; rw [h2] at h4; simp at h4; exact absurd h4 (split_ne_nil _ _)
  | [], h2 => simp at h2

theorem mem_join_of {sep c : Char} {fs : List Str} {f : Str} (hf : f ∈ fs) (hc : c ∈ f) : c ∈ join sep fs := by
  induction fs with
  | nil => cases hf
  | cons g l ih =>
    cases l with
    | nil =>
      rcases List.mem_cons.1 hf with rfl | hf
      · exact hc
      · cases hf
    | cons g2 l =>
      simp only [join, List.mem_append, List.mem_cons]
      rcases List.mem_cons.1 hf with rfl | hf
      · exact .inl hc
      · exact .inr (.inr (ih hf))

/-- Several words are not read as labels. -/
theorem labelsMap_words {r : Rules} {w1 w2 : Str} {ws : List Str} {es : List (Str × Str)}
    (h : SayAll (w1 :: w2 :: ws) es) (hv : ∀ e ∈ es, ValidLabel r e) :
    labelsMap r (join ' ' (w1 :: w2 :: ws)) = none := by
  have hc : ∀ s ∈ w1 :: w2 :: ws, ',' ∉ s := by
    generalize w1 :: w2 :: ws = l at h
    induction h with
    | nil => simp
    | cons h1 h2 ih =>
      intro s hs
      rcases List.mem_cons.1 hs with rfl | hs
      · exact comma_says h1 (hv _ (List.mem_cons_self ..))
      · exact ih (fun e he => hv e (List.mem_cons_of_mem _ he)) s hs
  have hnc : ',' ∉ join ' ' (w1 :: w2 :: ws) := by
    intro hm
    obtain ⟨f, hf, hm⟩ := mem_join (by decide) hm
    exact hc f hf hm
  have heq : ∃ a b c, join ' ' (w1 :: w2 :: ws) = a ++ '=' :: b ++ '=' :: c := by
    cases h with
    | @cons _ e1 _ _ h1 h2 =>
      cases h2 with
      | cons h2 h3 =>
        have m2 : '=' ∈ join ' ' (w2 :: ws) := by
          obtain ⟨a, b, c, d, -, rfl⟩ := h2
          exact mem_join_of (List.mem_cons_self ..) (by simp)
        obtain ⟨x, y, hxy⟩ := List.append_of_mem m2
        obtain ⟨a, b, c, d, -, rfl⟩ := h1
        simp only [join]
        rw [hxy]
        exact ⟨a ++ e1.1 ++ b, c ++ e1.2 ++ d ++ ' ' :: x, y, by simp⟩
  obtain ⟨a, b, c, heq⟩ := heq
  unfold labelsMap
  rw [if_neg (by rw [heq]; simp), split_of_not_mem hnc, List.foldlM_cons]
  have : label r (join ' ' (w1 :: w2 :: ws)) = none := by
    unfold label
    rw [heq]
    obtain ⟨x, y, z, l, hs⟩ := split_two (sep := '=') (a := a) (b := b) (c := c)
    rw [hs]
  rw [this]
  rfl

end Swoll.Lemmas.CmdLine
