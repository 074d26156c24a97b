import Verif.Model.JobArgs
/-
Lemmas about job arguments.
-/
namespace Swoll.Lemmas.JobArgs
open Swoll Swoll.JobArgs

/-! ### CSV -/

theorem record_quoted (g f rest : Str) :
    record .quoted f (escape g ++ '"' :: rest) = record .quote (f ++ g) rest := by
  induction g generalizing f with
  | nil => simp [escape, record]
  | cons c g ih =>
    unfold escape
    split
    · next h =>
      subst h
      simp only [List.cons_append, record, if_pos]
      rw [ih]
      simp
    · next h =>
      simp only [List.cons_append, record, if_neg h]
      rw [ih]
      simp

/-- Free of commas and quotes. -/
def Plain (s : Str) : Prop := ',' ∉ s ∧ '"' ∉ s

theorem record_plain (g f rest : Str) (h : Plain g) :
    record .plain f (g ++ rest) = record .plain (f ++ g) rest := by
  induction g generalizing f with
  | nil => simp
  | cons c g ih =>
    have h1 : c ≠ '"' := fun e => h.2 (e ▸ List.mem_cons_self ..)
    have h2 : c ≠ ',' := fun e => h.1 (e ▸ List.mem_cons_self ..)
    rw [List.cons_append]
    simp only [record, if_neg h1, if_neg h2]
    rw [ih _ ⟨fun e => h.1 (List.mem_cons_of_mem _ e), fun e => h.2 (List.mem_cons_of_mem _ e)⟩]
    simp

/-- The text `s` stands for the field `f`. -/
def Stands (s f : Str) : Prop :=
  record .start [] s = some [f] ∧
  ∀ rest, record .start [] (s ++ ',' :: rest) = (record .start [] rest).map (f :: ·)

theorem stands_plain {f : Str} (h : Plain f) : Stands f f := by
  cases f with
  | nil => exact ⟨rfl, fun rest => by simp [record]⟩
  | cons c g =>
    have h1 : c ≠ '"' := fun e => h.2 (e ▸ List.mem_cons_self ..)
    have h2 : c ≠ ',' := fun e => h.1 (e ▸ List.mem_cons_self ..)
    have hg : Plain g :=
      ⟨fun e => h.1 (List.mem_cons_of_mem _ e), fun e => h.2 (List.mem_cons_of_mem _ e)⟩
    refine ⟨?_, fun rest => ?_⟩
    · simp only [record, if_neg h1, if_neg h2]
      have := record_plain g [c] [] hg
      rw [List.append_nil] at this
      rw [this]
      simp [record]
    · rw [List.cons_append]
      simp only [record, if_neg h1, if_neg h2]
      rw [record_plain g [c] _ hg]
      simp [record]

theorem stands_quoted (f : Str) : Stands ('"' :: (escape f ++ ['"'])) f := by
  refine ⟨?_, fun rest => ?_⟩
  · simp only [record, if_pos]
    rw [record_quoted]
    simp [record]
  · have : '"' :: (escape f ++ ['"']) ++ ',' :: rest = '"' :: (escape f ++ '"' :: (',' :: rest)) := by
      simp
    rw [this]
    simp only [record, if_pos]
    rw [record_quoted]
    simp [record]

theorem plain_of_needsQuotes {f : Str} (h : needsQuotes f = false) : Plain f := by
  unfold needsQuotes at h
  split at h
  · exact ⟨List.not_mem_nil, List.not_mem_nil⟩
  · simp only [Bool.or_eq_false_iff] at h
    have h := h.1.2
    rw [List.any_eq_false] at h
    exact ⟨fun hm => h _ hm (by decide), fun hm => h _ hm (by decide)⟩

theorem stands_writeField (f : Str) : Stands (writeField f) f := by
  unfold writeField
  split
  · exact stands_quoted f
  · next h => exact stands_plain (plain_of_needsQuotes (by simpa using h))

theorem record_join {l : List (Str × Str)} (hne : l ≠ []) (h : ∀ e ∈ l, Stands e.1 e.2) :
    record .start [] (join ',' (l.map (·.1))) = some (l.map (·.2)) := by
  induction l with
  | nil => exact absurd rfl hne
  | cons e l ih =>
    have he := h e (List.mem_cons_self ..)
    cases l with
    | nil => exact he.1
    | cons e' l =>
      have := ih (by simp) (fun x hx => h x (List.mem_cons_of_mem _ hx))
      simp only [List.map_cons, join] at this ⊢
      rw [he.2, this]
      rfl

theorem record_write {fs : List Str} (hne : fs ≠ []) :
    record .start [] (writeAsCSV fs) = some fs := by
  have := record_join (l := fs.map fun f => (writeField f, f)) (by simpa using hne) (by
    intro e he
    obtain ⟨f, _, rfl⟩ := List.mem_map.1 he
    exact stands_writeField f)
  simpa [writeAsCSV, Function.comp_def] using this

theorem record_plainJoin {fs : List Str} (hne : fs ≠ []) (h : ∀ f ∈ fs, Plain f) :
    record .start [] (join ',' fs) = some fs := by
  have := record_join (l := fs.map fun f => (f, f)) (by simpa using hne) (by
    intro e he
    obtain ⟨f, hf, rfl⟩ := List.mem_map.1 he
    exact stands_plain (h f hf))
  simpa [Function.comp_def] using this

theorem writeAsCSV_nil {fs : List Str} : writeAsCSV fs = [] ↔ fs = [] ∨ fs = [[]] := by
  unfold writeAsCSV
  match fs with
  | [] => simp [join]
  | [f] =>
    simp only [List.map_cons, List.map_nil, join]
    unfold writeField
    split
    · next h =>
      constructor
      · intro h; exact nomatch h
      · rintro (h' | h')
        · exact nomatch h'
        · injection h' with h' _
          subst h'
          exact nomatch h
    · simp
  | f :: g :: l => simp [join]

/-- A value of a flag as the command sees it: no value for one empty string. -/
def norm (fs : List Str) : List Str := if fs = [[]] then [] else fs

theorem readAsCSV_write (fs : List Str) : readAsCSV (writeAsCSV fs) = some (norm fs) := by
  unfold readAsCSV norm
  by_cases h : writeAsCSV fs = []
  · rw [if_pos h]
    rcases writeAsCSV_nil.1 h with rfl | rfl <;> rfl
  · rw [if_neg h]
    have h' := fun e => h (writeAsCSV_nil.2 e)
    rw [record_write (fun e => h' (.inl e)), if_neg (fun e => h' (.inr e))]

theorem getStringSlice_eq (arg : Str) : getStringSlice arg = (readAsCSV arg).map norm := by
  unfold getStringSlice
  split
  · next h => rw [h]; rfl
  · next fs h => rw [h, readAsCSV_write]; rfl

theorem escape_plain {f : Str} (h : '"' ∉ f) : escape f = f := by
  induction f with
  | nil => rfl
  | cons c f ih =>
    have h1 : c ≠ '"' := fun e => h (e ▸ List.mem_cons_self ..)
    unfold escape
    rw [if_neg h1, ih (fun e => h (List.mem_cons_of_mem _ e))]

/-- A quoted argument is one value, or none if empty. -/
theorem getStringSlice_quoted {f : Str} (h : '"' ∉ f) :
    getStringSlice ('"' :: (f ++ ['"'])) = some (if f = [] then [] else [f]) := by
  rw [getStringSlice_eq]
  have := (stands_quoted f).1
  rw [escape_plain h] at this
  unfold readAsCSV
  rw [if_neg (by simp), this]
  unfold norm
  simp only [Option.map_some, List.cons.injEq, and_true]

theorem join_nil {sep : Char} {fs : List Str} (h : join sep fs = []) : fs = [] ∨ fs = [[]] := by
  match fs with
  | [] => exact .inl rfl
  | [f] => exact .inr (by rw [show f = [] from h])
  | f :: g :: l => simp [join] at h

/-- A plain argument is split at the commas. -/
theorem getStringSlice_plain {fs : List Str} (hne : fs ≠ []) (h1 : fs ≠ [[]])
    (h : ∀ f ∈ fs, Plain f) : getStringSlice (join ',' fs) = some fs := by
  rw [getStringSlice_eq]
  unfold readAsCSV
  rw [if_neg, record_plainJoin hne h]
  · unfold norm
    rw [Option.map_some, if_neg h1]
  · intro hj
    rcases join_nil hj with h | h
    · exact hne h
    · exact h1 h

theorem mem_join {sep c : Char} (hc : c ≠ sep) {fs : List Str} (h : c ∈ join sep fs) :
    ∃ f ∈ fs, c ∈ f := by
  induction fs with
  | nil => exact nomatch h
  | cons f fs ih =>
    cases fs with
    | nil => exact ⟨f, List.mem_cons_self .., h⟩
    | cons g l =>
      simp only [join, List.mem_append, List.mem_cons] at h
      rcases h with h | h | h
      · exact ⟨f, List.mem_cons_self .., h⟩
      · exact absurd h hc
      · obtain ⟨x, hx, h⟩ := ih h
        exact ⟨x, List.mem_cons_of_mem _ hx, h⟩

/-! ### Endpoints -/

theorem cut_of_not_mem {sep : Char} (h : Str) (p : Str) (hn : sep ∉ h) :
    cut sep (h ++ sep :: p) = (h, some p) := by
  induction h with
  | nil => simp [cut]
  | cons c h ih =>
    have h1 : c ≠ sep := fun e => hn (e ▸ List.mem_cons_self ..)
    have := ih (fun e => hn (List.mem_cons_of_mem _ e))
    simp [cut, h1, this]

theorem digits_bad (s rest : Str) (c : Char) (hc : c.isDigit = false) (n : Nat) :
    digits n (s ++ c :: rest) = none := by
  induction s generalizing n with
  | nil => simp [digits, hc]
  | cons d s ih =>
    rw [List.cons_append]
    unfold digits
    split
    · exact ih _
    · rfl

theorem atoi_comma (s rest : Str) : atoi (s ++ ',' :: rest) = none := by
  have hb := digits_bad (c := ',') (rest := rest) (hc := by decide)
  have key : ∃ s', (sign (s ++ ',' :: rest)).2 = s' ++ ',' :: rest := by
    cases s with
    | nil => exact ⟨[], rfl⟩
    | cons c s =>
      unfold sign
      dsimp only [List.cons_append]
      split
      · exact ⟨s, rfl⟩
      · split
        · exact ⟨s, rfl⟩
        · exact ⟨c :: s, rfl⟩
  obtain ⟨s', h⟩ := key
  unfold atoi
  rw [h, hb]
  simp

/-! ### Labels -/

theorem split_ne_nil (sep : Char) (s : Str) : split sep s ≠ [] := by
  cases s with
  | nil => simp [split]
  | cons c s =>
    unfold split
    split
    · simp
    · split <;> simp

theorem split_of_not_mem {sep : Char} {f : Str} (h : sep ∉ f) : split sep f = [f] := by
  induction f with
  | nil => rfl
  | cons c f ih =>
    have h1 : c ≠ sep := fun e => h (e ▸ List.mem_cons_self ..)
    unfold split
    rw [if_neg h1, ih (fun e => h (List.mem_cons_of_mem _ e))]

theorem split_append {sep : Char} {f : Str} (h : sep ∉ f) (rest : Str) :
    split sep (f ++ sep :: rest) = f :: split sep rest := by
  induction f with
  | nil => simp [split]
  | cons c f ih =>
    have h1 : c ≠ sep := fun e => h (e ▸ List.mem_cons_self ..)
    have hi := ih (fun e => h (List.mem_cons_of_mem _ e))
    rw [List.cons_append]
    generalize split sep rest = r at hi ⊢
    unfold split
    rw [if_neg h1, hi]

theorem split_join {sep : Char} {fs : List Str} (hne : fs ≠ []) (h : ∀ f ∈ fs, sep ∉ f) :
    split sep (join sep fs) = fs := by
  induction fs with
  | nil => exact absurd rfl hne
  | cons f fs ih =>
    have hf := h f (List.mem_cons_self ..)
    cases fs with
    | nil => exact split_of_not_mem hf
    | cons g l =>
      simp only [join]
      rw [split_append hf, ih (by simp) (fun x hx => h x (List.mem_cons_of_mem _ hx))]

theorem labelChar_ne {c : Char} (h : labelChar c = true) : c ≠ ',' ∧ c ≠ '=' ∧ isSpace c = false := by
  refine ⟨?_, ?_, ?_⟩
  · rintro rfl; exact absurd h (by decide)
  · rintro rfl; exact absurd h (by decide)
  · have hb : 45 ≤ c.toNat ∧ c.toNat ≤ 122 := by
      unfold labelChar at h
      simp only [Bool.or_eq_true, beq_iff_eq, Char.isAlphanum, Char.isAlpha, Char.isUpper,
        Char.isLower, Char.isDigit, Bool.and_eq_true, decide_eq_true_eq, ge_iff_le,
        UInt32.le_iff_toNat_le] at h
      rcases h with ((((h | h) | h) | h) | h) | h
      · rcases h with ⟨h1, h2⟩ | ⟨h1, h2⟩ <;>
          exact ⟨Nat.le_trans (by decide) h1, Nat.le_trans h2 (by decide)⟩
      · exact ⟨Nat.le_trans (by decide) h.1, Nat.le_trans h.2 (by decide)⟩
      all_goals subst h; decide
    unfold isSpace
    simp only [Bool.or_eq_false_iff, Bool.and_eq_false_iff, beq_eq_false_iff_ne,
      decide_eq_false_iff_not]
    have h32 : c ≠ ' ' := by rintro rfl; exact absurd hb.1 (by decide)
    refine ⟨⟨⟨⟨⟨⟨⟨⟨⟨⟨h32, ?_⟩, ?_⟩, ?_⟩, ?_⟩, ?_⟩, ?_⟩, ?_⟩, ?_⟩, ?_⟩, ?_⟩ <;> omega

theorem dropWhile_id {p : Char → Bool} {s : Str} (h : ∀ c ∈ s, p c = false) : s.dropWhile p = s := by
  cases s with
  | nil => rfl
  | cons c s => rw [List.dropWhile_cons_of_neg (by simp [h c (List.mem_cons_self ..)])]

theorem trimSpace_id {s : Str} (h : ∀ c ∈ s, labelChar c = true) : trimSpace s = s := by
  unfold trimSpace
  rw [dropWhile_id (fun c hc => (labelChar_ne (h c hc)).2.2), dropWhile_id, List.reverse_reverse]
  intro c hc
  exact (labelChar_ne (h c (List.mem_reverse.1 hc))).2.2

/-- A label with valid key and value. -/
def ValidLabel (r : Rules) (e : Str × Str) : Prop := validKey r e.1 = true ∧ validValue r e.2 = true

theorem label_eq {r : Rules} {e : Str × Str} (h : ValidLabel r e) :
    label r (e.1 ++ '=' :: e.2) = some e := by
  obtain ⟨hk, hv⟩ := h
  have hk' := hk
  have hv' := hv
  unfold validKey at hk'
  unfold validValue at hv'
  rw [Bool.and_eq_true, List.all_eq_true] at hk' hv'
  unfold label
  rw [split_append (fun hm => (labelChar_ne (hk'.1 _ hm)).2.1 rfl),
    split_of_not_mem (fun hm => (labelChar_ne (hv'.1 _ hm)).2.1 rfl)]
  dsimp only
  rw [trimSpace_id hk'.1, trimSpace_id hv'.1, hk, hv]
  rfl

theorem foldlM_labels {r : Rules} {ss : List Str} {es : List (Str × Str)} (m : GoMap Str Str)
    (h : ss.map (label r) = es.map some) :
    ss.foldlM (fun m s => (label r s).map fun e => GoMap.set m e.1 e.2) m =
      some (es.foldl (fun m e => GoMap.set m e.1 e.2) m) := by
  induction ss generalizing es m with
  | nil =>
    cases es with
    | nil => rfl
    | cons e es => exact nomatch h
  | cons s ss ih =>
    cases es with
    | nil => exact nomatch h
    | cons e es =>
      simp only [List.map_cons, List.cons.injEq] at h
      rw [List.foldlM_cons, h.1]
      exact ih _ h.2

theorem get_foldl_set {es : List (Str × Str)} (hn : GoMap.NodupKeys es) (m : GoMap Str Str)
    (k : Str) : GoMap.get (es.foldl (fun m e => GoMap.set m e.1 e.2) m) k =
      (GoMap.get es k).or (GoMap.get m k) := by
  induction es generalizing m with
  | nil => simp [GoMap.get_nil]
  | cons e es ih =>
    unfold GoMap.NodupKeys at hn
    rw [GoMap.keys_cons, List.nodup_cons] at hn
    rw [List.foldl_cons, ih hn.2, GoMap.get_cons, GoMap.get_set]
    by_cases h : e.1 = k
    · have : GoMap.get es k = none := (GoMap.get_eq_none_iff es k).2 (h ▸ hn.1)
      simp [h, this]
    · simp [h]

/-- The selector of a set of labels is read back as that set. -/
theorem labels_roundtrip {r : Rules} {m : GoMap Str Str} (hn : GoMap.NodupKeys m)
    (hv : ∀ e ∈ m, ValidLabel r e) :
    ∃ m', labelsMap r (setString m) = some m' ∧ ∀ k, GoMap.get m' k = GoMap.get m k := by
  unfold setString
  let f : Str × Str → Str := fun e => e.1 ++ '=' :: e.2
  show ∃ m', labelsMap r (join ',' ((m.map f).mergeSort strLE)) = some m' ∧ _
  have hp : ((m.map f).mergeSort strLE).Perm (m.map f) := List.mergeSort_perm _ _
  generalize (m.map f).mergeSort strLE = ss at hp
  have hmem : ∀ s ∈ ss, ∃ e ∈ m, f e = s := fun s hs => List.mem_map.1 (hp.mem_iff.1 hs)
  cases hss : ss with
  | nil =>
    subst hss
    have : m = [] := by
      have := List.Perm.nil_eq hp
      simpa using this.symm
    subst this
    exact ⟨[], rfl, fun _ => rfl⟩
  | cons s0 ss0 =>
    rw [← hss]
    have hne : ss ≠ [] := by rw [hss]; simp
    have hcomma : ∀ s ∈ ss, ',' ∉ s := by
      intro s hs hm
      obtain ⟨e, he, rfl⟩ := hmem s hs
      obtain ⟨hk, hv⟩ := hv e he
      unfold validKey at hk
      unfold validValue at hv
      rw [Bool.and_eq_true, List.all_eq_true] at hk hv
      rcases List.mem_append.1 hm with hm | hm
      · exact (labelChar_ne (hk.1 _ hm)).1 rfl
      · rcases List.mem_cons.1 hm with hm | hm
        · exact absurd hm (by decide)
        · exact (labelChar_ne (hv.1 _ hm)).1 rfl
    have hl : ∀ s ∈ ss, ∃ e, label r s = some e := by
      intro s hs
      obtain ⟨e, he, rfl⟩ := hmem s hs
      exact ⟨e, label_eq (hv e he)⟩
    have hmap : ss.map (label r) = (ss.filterMap (label r)).map some := by
      clear hp hmem hss hne hcomma
      induction ss with
      | nil => rfl
      | cons s ss ih =>
        obtain ⟨e, he⟩ := hl s (List.mem_cons_self ..)
        rw [List.map_cons, List.filterMap_cons, he, List.map_cons,
          ih (fun s hs => hl s (List.mem_cons_of_mem _ hs))]
    have hes : (ss.filterMap (label r)).Perm m := by
      have h1 := hp.filterMap (label r)
      have h2 : (m.map f).filterMap (label r) = m := by
        clear hp hmem h1
        induction m with
        | nil => rfl
        | cons e m ih =>
          have hn' : GoMap.NodupKeys m := by
            unfold GoMap.NodupKeys at hn ⊢
            rw [GoMap.keys_cons, List.nodup_cons] at hn
            exact hn.2
          rw [List.map_cons, List.filterMap_cons, show label r (f e) = some e from
            label_eq (hv e (List.mem_cons_self ..)), ih hn' (fun e he => hv e (List.mem_cons_of_mem _ he))]
      rw [h2] at h1
      exact h1
    have hjne : join ',' ss ≠ [] := by
      intro h
      rcases join_nil h with h | h
      · exact hne h
      · obtain ⟨e, -, he⟩ := hmem [] (by rw [h]; exact List.mem_singleton.2 rfl)
        simp [f] at he
    refine ⟨(ss.filterMap (label r)).foldl (fun m e => GoMap.set m e.1 e.2) [], ?_, fun k => ?_⟩
    · unfold labelsMap
      rw [if_neg hjne, split_join hne hcomma]
      exact foldlM_labels [] hmap
    · rw [get_foldl_set (GoMap.keys_perm_nodup hes.symm hn), GoMap.get_nil, Option.or_none]
      exact (GoMap.get_perm hes.symm hn k).symm

end Swoll.Lemmas.JobArgs
