import Verif.Spec.Offsets
/-
Helpers for the offsets: hexadecimal numbers, instructions, counting.
-/
namespace Swoll.Lemmas.Offsets
open Swoll Swoll.Offsets Swoll.Spec.Offsets
open Swoll.JobArgs (Str sign)

/-! ### Hexadecimal numbers -/

theorem hexDigit_digitChar {d : Nat} (h : d < 16) : hexDigit (Nat.digitChar d) = some d := by
  have : ∀ d : Fin 16, hexDigit (Nat.digitChar d.1) = some d.1 := by decide
  exact this ⟨d, h⟩

theorem hexDigits_append (n : Nat) (a b : Str) :
    hexDigits n (a ++ b) = (hexDigits n a).bind fun k => hexDigits k b := by
  induction a generalizing n with
  | nil => rfl
  | cons c a ih =>
    simp only [List.cons_append, hexDigits]
    cases hexDigit c with
    | none => rfl
    | some d => exact ih _

theorem hexDigits_toDigits (n : Nat) : hexDigits 0 (Nat.toDigits 16 n) = some n := by
  induction n using Nat.strongRecOn with
  | ind n ih =>
    by_cases h : n < 16
    · rw [Nat.toDigits_of_lt_base h]
      simp [hexDigits, hexDigit_digitChar h]
    · have hlt : n / 16 < n := Nat.div_lt_self (by omega) (by omega)
      rw [Nat.toDigits_eq_if (by decide), if_neg h, hexDigits_append, ih _ hlt, Option.bind_some]
      have hm : n % 16 < 16 := Nat.mod_lt _ (by decide)
      simp only [hexDigits, hexDigit_digitChar hm]
      congr 1
      omega

theorem toDigits_ne_nil (n : Nat) : Nat.toDigits 16 n ≠ [] := by
  by_cases h : n < 16
  · rw [Nat.toDigits_of_lt_base h]; simp
  · rw [Nat.toDigits_eq_if (by decide), if_neg h]; simp

theorem mem_toDigits {n : Nat} {c : Char} (h : c ∈ Nat.toDigits 16 n) : ∃ d, d < 16 ∧ c = Nat.digitChar d := by
  induction n using Nat.strongRecOn with
  | ind n ih =>
    by_cases hn : n < 16
    · rw [Nat.toDigits_of_lt_base hn] at h
      exact ⟨n, hn, by simpa using h⟩
    · have hlt : n / 16 < n := Nat.div_lt_self (by omega) (by omega)
      rw [Nat.toDigits_eq_if (by decide), if_neg hn, List.mem_append] at h
      rcases h with h | h
      · exact ih _ hlt h
      · exact ⟨n % 16, Nat.mod_lt _ (by decide), by simpa using h⟩

theorem digitChar_ne {d : Nat} (h : d < 16) :
    Nat.digitChar d ≠ '-' ∧ Nat.digitChar d ≠ '+' ∧ Nat.digitChar d ≠ 'x' := by
  have : ∀ d : Fin 16, Nat.digitChar d.1 ≠ '-' ∧ Nat.digitChar d.1 ≠ '+' ∧
      Nat.digitChar d.1 ≠ 'x' := by decide
  exact this ⟨d, h⟩

theorem sign_toDigits (n : Nat) : sign (Nat.toDigits 16 n) = (false, Nat.toDigits 16 n) := by
  have hm := fun c (h : c ∈ Nat.toDigits 16 n) => mem_toDigits h
  generalize Nat.toDigits 16 n = s at hm
  cases s with
  | nil => rfl
  | cons c s =>
    obtain ⟨d, hd, rfl⟩ := hm c (List.mem_cons_self ..)
    have := digitChar_ne hd
    simp only [sign, this.1, this.2.1, if_false]

theorem parseHex_toDigits {n : Nat} (h : n < 2 ^ 63) : parseHex (Nat.toDigits 16 n) = some (n : Int) := by
  unfold parseHex
  rw [sign_toDigits]
  dsimp only
  rw [if_neg (toDigits_ne_nil n), hexDigits_toDigits]
  simp [h]

theorem trim0x_prefix (s : Str) : trim0x ("0x".toList ++ s) = s := by
  unfold trim0x
  rw [if_pos]
  · rfl
  · rw [List.isPrefixOf_iff_prefix]; exact List.prefix_append ..

theorem trim0x_toDigits (n : Nat) : trim0x (Nat.toDigits 16 n) = Nat.toDigits 16 n := by
  unfold trim0x
  rw [if_neg]
  rw [List.isPrefixOf_iff_prefix]
  rintro ⟨t, ht⟩
  have hx : 'x' ∈ Nat.toDigits 16 n := by rw [← ht]; simp
  obtain ⟨d, hd, he⟩ := mem_toDigits hx
  exact (digitChar_ne hd).2.2 he.symm

theorem hexDigit_toLower (c : Char) : hexDigit c.toLower = hexDigit c := by
  unfold Char.toLower
  split
  · next h =>
    have h1 : 65 ≤ c.toNat := h.1
    have h2 : c.toNat ≤ 90 := h.2
    have h3 : ∀ k, k < 26 → c.toNat = 65 + k → hexDigit c.toLower = hexDigit c := by
      intro k hk e
      have e : c = Char.ofNat (65 + k) := by rw [← e, Char.ofNat_toNat]
      subst e
      clear h1 h2 h
      revert k
      decide
    have := h3 (c.toNat - 65) (by omega) (by omega)
    rw [Char.toLower, dif_pos h] at this
    exact this
  · rfl

theorem hexDigits_toLower (s : Str) (n : Nat) : hexDigits n (s.map Char.toLower) = hexDigits n s := by
  induction s generalizing n with
  | nil => rfl
  | cons c s ih =>
    simp only [List.map_cons, hexDigits, hexDigit_toLower]
    cases hexDigit c with
    | none => rfl
    | some d => exact ih _

theorem case_mem {t : Str} {n : Nat} (h : t.map Char.toLower = Nat.toDigits 16 n) {c : Char} (hc : c ∈ t)
    (hl : c.toLower = c) : ∃ d, d < 16 ∧ c = Nat.digitChar d :=
  mem_toDigits (by rw [← h, ← hl]; exact List.mem_map_of_mem (f := Char.toLower) hc)

theorem parseHex_case {t : Str} {n : Nat} (h : t.map Char.toLower = Nat.toDigits 16 n) (hn : n < 2 ^ 63) :
    parseHex t = some (n : Int) := by
  have hne : t ≠ [] := by
    rintro rfl
    exact toDigits_ne_nil n h.symm
  have hs : sign t = (false, t) := by
    cases t with
    | nil => rfl
    | cons c r =>
      unfold sign
      have hc : ∀ x : Char, x.toLower = x → (∀ d, d < 16 → Nat.digitChar d ≠ x) → c ≠ x := by
        intro x hx hd e
        subst e
        obtain ⟨d, hd', e⟩ := case_mem h (List.mem_cons_self ..) hx
        exact hd d hd' e.symm
      dsimp only
      rw [if_neg (hc '-' (by decide) fun d hd => (digitChar_ne hd).1),
        if_neg (hc '+' (by decide) fun d hd => (digitChar_ne hd).2.1)]
  unfold parseHex
  rw [hs]
  dsimp only
  rw [if_neg hne, ← hexDigits_toLower, h, hexDigits_toDigits]
  simp [hn]

theorem trim0x_case {t : Str} {n : Nat} (h : t.map Char.toLower = Nat.toDigits 16 n) : trim0x t = t := by
  unfold trim0x
  rw [if_neg]
  rw [List.isPrefixOf_iff_prefix]
  rintro ⟨r, hr⟩
  obtain ⟨d, hd, he⟩ := case_mem h (c := 'x') (by rw [← hr]; simp) (by decide)
  exact (digitChar_ne hd).2.2 he.symm

theorem ofInt_natCast (n : Nat) : BitVec.ofInt 32 (n : Int) = BitVec.ofNat 32 n :=
  BitVec.ofInt_natCast 32 n

/-! ### Setting -/

theorem set_name {s : Str} {t : BitVec 8} (h : realType (.name s) = t) (ht : newOffset t = true)
    (v : BitVec 32) (m : Config) : setOffset true (.name s) v m = (true, m.set t v) := by
  unfold setOffset
  rw [h, if_pos ht]
  rfl

theorem realType_ns : realType (.name "nsproxy".toList) = nsProxy := by decide
theorem realType_pid : realType (.name "pid_ns_common".toList) = pidNSCommon := by decide

theorem set_ok {s : Str} {up : Bool} {v : BitVec 32} {m m' : Config}
    (h : setOffset up (.name s) v m = (true, m')) : m' = m.set (realType (.name s)) v := by
  unfold setOffset at h
  split at h
  · split at h
    · injection h with _ h; exact h.symm
    · injection h with h; cases h
  · injection h with h; cases h

/-! ### Instructions -/

theorem lit_append (p s : Str) : lit p (p ++ s) = some s := by
  unfold lit
  rw [if_pos (by rw [List.isPrefixOf_iff_prefix]; exact List.prefix_append ..)]
  simp

theorem lit_some {p s r : Str} (h : lit p s = some r) : s = p ++ r := by
  unfold lit at h
  split at h
  · next hp =>
    rw [List.isPrefixOf_iff_prefix] at hp
    obtain ⟨t, rfl⟩ := hp
    injection h with h
    rw [← h]; simp
  · cases h

theorem many1_append {p : Char → Bool} {w : Str} {c : Char} {s : Str} (hw : w ≠ [])
    (hp : ∀ x ∈ w, p x = true) (hc : p c = false) : many1 p (w ++ c :: s) = some (w, c :: s) := by
  have h1 : (w ++ c :: s).takeWhile p = w := by
    rw [List.takeWhile_append_of_pos hp, List.takeWhile_cons, hc]; simp
  have h2 : (w ++ c :: s).dropWhile p = c :: s := by
    rw [List.dropWhile_append_of_pos hp, List.dropWhile_cons, hc]; simp
  unfold many1
  rw [h1, h2]
  cases w with
  | nil => exact absurd rfl hw
  | cons a w => rfl

theorem many1_some {p : Char → Bool} {s w r : Str} (h : many1 p s = some (w, r)) :
    s = w ++ r ∧ w ≠ [] ∧ ∀ x ∈ w, p x = true := by
  unfold many1 at h
  generalize ht : s.takeWhile p = t at h
  cases t with
  | nil => cases h
  | cons a t =>
    injection h with h
    injection h with h1 h2
    subst h1 h2
    refine ⟨?_, by simp, ?_⟩
    · rw [← ht, List.takeWhile_append_dropWhile]
    · intro x hx
      rw [← ht] at hx
      exact (List.all_eq_true.1 List.all_takeWhile) x hx

theorem one_some {p : Char → Bool} {s r : Str} (h : one p s = some r) :
    ∃ c, s = c :: r ∧ p c = true := by
  cases s with
  | nil => cases h
  | cons c cs =>
    simp only [one] at h
    by_cases hp : p c = true
    · rw [if_pos hp] at h; injection h with h; exact ⟨c, by rw [h], hp⟩
    · rw [if_neg hp] at h; cases h

/-- The instruction is at the very start. -/
def InstrAt (op mid : Str) (signs : Char → Bool) (text off : Str) : Prop :=
  ∃ sp r1 r2 sg w post, text = op ++ (sp ++ (r1 ++ (mid ++ (r2 ++ (sg :: ("0x".toList ++
      (w ++ (']' :: post)))))))) ∧
    sp ≠ [] ∧ (∀ c ∈ sp, reSpace c = true) ∧ r1 ≠ [] ∧ (∀ c ∈ r1, wordChar c = true) ∧
    r2 ≠ [] ∧ (∀ c ∈ r2, wordChar c = true) ∧ signs sg = true ∧
    w ≠ [] ∧ (∀ c ∈ w, wordChar c = true) ∧ off = "0x".toList ++ w

theorem loadAt_sound {op mid : Str} {signs : Char → Bool} {s o : Str}
    (h : loadAt op mid signs s = some o) : InstrAt op mid signs s o := by
  unfold loadAt at h
  simp only [bind, Option.bind_eq_some_iff] at h
  obtain ⟨s1, h1, ⟨sp, s2⟩, h2, ⟨r1, s3⟩, h3, s4, h4, ⟨r2, s5⟩, h5, s6, h6, s7, h7, ⟨w, s8⟩, h8, s9, h9, h10⟩ := h
  have e1 := lit_some h1
  obtain ⟨e2, n2, p2⟩ := many1_some h2
  obtain ⟨e3, n3, p3⟩ := many1_some h3
  have e4 := lit_some h4
  obtain ⟨e5, n5, p5⟩ := many1_some h5
  obtain ⟨sg, e6, p6⟩ := one_some h6
  have e7 := lit_some h7
  obtain ⟨e8, n8, p8⟩ := many1_some h8
  have e9 := lit_some h9
  injection h10 with h10
  refine ⟨sp, r1, r2, sg, w, s9, ?_, n2, p2, n3, p3, n5, p5, p6, n8, p8, h10.symm⟩
  dsimp only at e3 e4 e6 e9
  rw [e1, e2, e3, e4, e5, e6, e7, e8, e9]
  rfl

theorem word_not_space {c : Char} (h : wordChar c = true) : reSpace c = false := by
  cases hs : reSpace c with
  | false => rfl
  | true =>
    exfalso
    simp only [reSpace, Bool.or_eq_true, beq_iff_eq] at hs
    rcases hs with (((h' | h') | h') | h') | h' <;> subst h' <;> revert h <;> decide

theorem loadAt_complete {op mid : Str} {signs : Char → Bool} {s o : Str}
    (hmid : ∃ c t, mid = c :: t ∧ wordChar c = false) (hsg : ∀ c, signs c = true → wordChar c = false)
    (h : InstrAt op mid signs s o) : loadAt op mid signs s = some o := by
  obtain ⟨sp, r1, r2, sg, w, post, rfl, n2, p2, n3, p3, n5, p5, p6, n8, p8, rfl⟩ := h
  obtain ⟨mc, mt, rfl, hmc⟩ := hmid
  have hr1 : ∃ a b, r1 = a :: b := by cases r1 with | nil => exact absurd rfl n3 | cons a b => exact ⟨a, b, rfl⟩
  obtain ⟨a, b, rfl⟩ := hr1
  unfold loadAt
  have m1 := many1_append (p := reSpace) (s := b ++ ((mc :: mt) ++ (r2 ++ (sg :: ("0x".toList ++
      (w ++ (']' :: post))))))) n2 p2 (word_not_space (p3 a (List.mem_cons_self ..)))
  have m2 := many1_append (p := wordChar) (s := mt ++ (r2 ++ (sg :: ("0x".toList ++
      (w ++ (']' :: post)))))) n3 p3 hmc
  have m3 := many1_append (p := wordChar) (s := "0x".toList ++
      (w ++ (']' :: post))) n5 p5 (hsg sg p6)
  have m4 := many1_append (p := wordChar) (c := ']') (s := post) n8 p8 (by decide)
  simp only [List.cons_append] at m1 m2 m3 m4 ⊢
  rw [lit_append]
  simp only [bind, Option.bind_some, m1, m2]
  have l2 := lit_append (mc :: mt) (r2 ++ sg :: ("0x".toList ++ (w ++ ']' :: post)))
  simp only [List.cons_append] at l2
  have l4 := lit_append [']'] post
  simp only [List.cons_append, List.nil_append] at l4
  simp only [l2, Option.bind_some, m3, one, p6, if_true, lit_append, m4, l4]

theorem load_sound {op mid : Str} {signs : Char → Bool} {s o : Str}
    (h : load op mid signs s = some o) : Instr op mid signs s o := by
  have lift : ∀ {s o}, InstrAt op mid signs s o → Instr op mid signs s o := by
    rintro s o ⟨sp, r1, r2, sg, w, post, e, h⟩
    exact ⟨[], sp, r1, r2, sg, w, post, by rw [e]; rfl, h⟩
  induction s with
  | nil => exact lift (loadAt_sound h)
  | cons c cs ih =>
    unfold load at h
    split at h
    · next o' ho => injection h with h; subst h; exact lift (loadAt_sound ho)
    · obtain ⟨pre, sp, r1, r2, sg, w, post, e, h⟩ := ih h
      exact ⟨c :: pre, sp, r1, r2, sg, w, post, by rw [e]; rfl, h⟩

theorem load_complete {op mid : Str} {signs : Char → Bool} {s o : Str}
    (hmid : ∃ c t, mid = c :: t ∧ wordChar c = false) (hsg : ∀ c, signs c = true → wordChar c = false)
    (h : Instr op mid signs s o) : ∃ o', load op mid signs s = some o' := by
  obtain ⟨pre, sp, r1, r2, sg, w, post, e, h⟩ := h
  induction pre generalizing s with
  | nil =>
    have := loadAt_complete hmid hsg ⟨sp, r1, r2, sg, w, post, e, h⟩
    cases s with
    | nil => exact ⟨o, by rw [load, this]⟩
    | cons c cs => exact ⟨o, by rw [load, this]⟩
  | cons c pre ih =>
    subst e
    obtain ⟨o', ho⟩ := ih rfl
    rw [List.cons_append]
    unfold load
    split
    · next o'' _ => exact ⟨o'', rfl⟩
    · exact ⟨o', ho⟩

theorem findMov_sound {s o : Str} (h : findMov s = some o) : MovLoad s o := load_sound h
theorem findLea_sound {s o : Str} (h : findLea s = some o) : LeaLoad s o := load_sound h

theorem findMov_complete {s o : Str} (h : MovLoad s o) : ∃ o', findMov s = some o' :=
  load_complete ⟨',', _, rfl, by decide⟩ (fun c hc => by
    rw [beq_iff_eq] at hc; subst hc; decide) h

theorem findLea_complete {s o : Str} (h : LeaLoad s o) : ∃ o', findLea s = some o' :=
  load_complete ⟨',', _, rfl, by decide⟩ (fun c hc => by
    rw [Bool.or_eq_true, beq_iff_eq, beq_iff_eq] at hc
    rcases hc with hc | hc <;> subst hc <;> decide) h

theorem contains_iff (sub s : Str) : contains sub s = true ↔ sub <:+: s := by
  induction s with
  | nil =>
    simp only [contains, List.isPrefixOf_iff_prefix]
    rw [List.prefix_nil, List.infix_nil]
  | cons c cs ih =>
    simp only [contains, Bool.or_eq_true, List.isPrefixOf_iff_prefix, ih, List.infix_cons_iff]

theorem findMov_ne {s o : Str} (h : findMov s = some o) : o ≠ [] := by
  obtain ⟨_, _, _, _, _, _, _, _, _, _, _, _, _, _, _, _, _, rfl⟩ := findMov_sound h
  intro h; cases h

theorem findLea_ne {s o : Str} (h : findLea s = some o) : o ≠ [] := by
  obtain ⟨_, _, _, _, _, _, _, _, _, _, _, _, _, _, _, _, _, rfl⟩ := findLea_sound h
  intro h; cases h

theorem nsproxySearch_locked {lock : Str} {ls : List Str} (h : nsproxySearch lock true ls ≠ []) :
    ∃ between l' after, ls = between ++ l' :: after ∧ CodeLine l' ∧
      MovLoad l' (nsproxySearch lock true ls) := by
  induction ls with
  | nil => exact absurd rfl h
  | cons l ls ih =>
    unfold nsproxySearch at h ⊢
    split
    · next hp =>
      rw [if_pos hp, if_pos rfl] at h
      rw [if_pos rfl]
      split
      · next o ho =>
        exact ⟨[], l, ls, rfl, List.isPrefixOf_iff_prefix.1 hp, findMov_sound ho⟩
      · next ho =>
        rw [ho] at h
        obtain ⟨b, l', a, e, h⟩ := ih h
        exact ⟨l :: b, l', a, by rw [e]; rfl, h⟩
    · next hp =>
      rw [if_neg hp] at h
      obtain ⟨b, l', a, e, h⟩ := ih h
      exact ⟨l :: b, l', a, by rw [e]; rfl, h⟩

theorem nsproxySearch_sound {lock : Str} {ls : List Str} (h : nsproxySearch lock false ls ≠ []) :
    LoadAfterLock lock ls (nsproxySearch lock false ls) := by
  induction ls with
  | nil => exact absurd rfl h
  | cons l ls ih =>
    have lift : ∀ o, LoadAfterLock lock ls o → LoadAfterLock lock (l :: ls) o := by
      rintro o ⟨b, l1, m, l2, a, e, h⟩
      exact ⟨l :: b, l1, m, l2, a, by rw [e]; rfl, h⟩
    unfold nsproxySearch at h ⊢
    split
    · next hp =>
      rw [if_pos hp, if_neg (by decide)] at h
      rw [if_neg (by decide)]
      cases hc : contains lock l with
      | true =>
        rw [hc] at h
        obtain ⟨b, l', a, e, h1, h2⟩ := nsproxySearch_locked h
        exact ⟨[], l, b, l', a, by rw [e]; rfl, List.isPrefixOf_iff_prefix.1 hp,
          (contains_iff ..).1 hc, h1, h2⟩
      | false =>
        rw [hc] at h
        exact lift _ (ih h)
    · next hp =>
      rw [if_neg hp] at h
      exact lift _ (ih h)

theorem nsproxySearch_locked_complete {lock : Str} {ls : List Str} {between after : List Str} {l' o : Str}
    (e : ls = between ++ l' :: after) (hc : CodeLine l') (hm : MovLoad l' o) :
    nsproxySearch lock true ls ≠ [] := by
  induction between generalizing ls with
  | nil =>
    subst e
    rw [List.nil_append]
    unfold nsproxySearch
    obtain ⟨o', ho⟩ := findMov_complete hm
    rw [if_pos (List.isPrefixOf_iff_prefix.2 hc), if_pos rfl, ho]
    exact findMov_ne ho
  | cons b between ih =>
    subst e
    rw [List.cons_append]
    unfold nsproxySearch
    split
    · rw [if_pos rfl]
      split
      · next o' ho => exact findMov_ne ho
      · exact ih rfl
    · exact ih rfl

theorem nsproxySearch_complete {lock : Str} {ls : List Str} {o : Str} (h : LoadAfterLock lock ls o) :
    nsproxySearch lock false ls ≠ [] := by
  obtain ⟨before, l, between, l', after, e, h1, h2, h3, h4⟩ := h
  induction before generalizing ls with
  | nil =>
    subst e
    rw [List.nil_append]
    unfold nsproxySearch
    rw [if_pos (List.isPrefixOf_iff_prefix.2 h1), if_neg (by decide), (contains_iff ..).2 h2]
    exact nsproxySearch_locked_complete rfl h3 h4
  | cons b before ih =>
    subst e
    rw [List.cons_append]
    unfold nsproxySearch
    split
    · rw [if_neg (by decide)]
      cases contains lock b with
      | true => 
        have e' : before ++ l :: (between ++ l' :: after) = (before ++ l :: between) ++ l' :: after := by simp
        exact nsproxySearch_locked_complete e' h3 h4
      | false => exact ih rfl
    · exact ih rfl

/-! ### Counting -/

theorem get_incr (m : GoMap Str Nat) (o k : Str) :
    ((incr m o).get k).getD 0 = (m.get k).getD 0 + (if o = k then 1 else 0) := by
  unfold incr
  by_cases h : o = k
  · subst h; rw [GoMap.get_set]; simp
  · rw [GoMap.get_set_other _ _ h, if_neg h]; rfl

theorem fold_incr_get (l : List Str) (m : GoMap Str Nat) (k : Str) :
    ((l.foldl incr m).get k).getD 0 = (m.get k).getD 0 + l.count k := by
  induction l generalizing m with
  | nil => simp
  | cons a l ih =>
    rw [List.foldl_cons, ih, get_incr, List.count_cons]
    by_cases h : a = k <;> simp [h] <;> omega

theorem fold_incr_pos {l : List Str} {m : GoMap Str Nat} (hm : ∀ e ∈ m, 0 < e.2) :
    ∀ e ∈ l.foldl incr m, 0 < e.2 := by
  induction l generalizing m with
  | nil => exact hm
  | cons a l ih =>
    rw [List.foldl_cons]
    apply ih
    intro e he
    unfold incr GoMap.set at he
    rcases List.mem_cons.1 he with h | h
    · rw [h]; exact Nat.succ_pos _
    · exact hm e (GoMap.mem_del.1 h).1

theorem fold_incr_nodup {l : List Str} {m : GoMap Str Nat} (hm : GoMap.NodupKeys m) :
    GoMap.NodupKeys (l.foldl incr m) := by
  induction l generalizing m with
  | nil => exact hm
  | cons a l ih => exact ih (GoMap.nodupKeys_set hm _ _)

theorem foldl_max (l : List (Str × Nat)) (r : Str × Nat) :
    let x := l.foldl (fun r e => if e.2 > r.2 then e else r) r
    (x = r ∨ x ∈ l) ∧ r.2 ≤ x.2 ∧ ∀ e ∈ l, e.2 ≤ x.2 := by
  induction l generalizing r with
  | nil => exact ⟨Or.inl rfl, Nat.le_refl _, fun _ h => by cases h⟩
  | cons a l ih =>
    dsimp only [List.foldl_cons]
    by_cases h : a.2 > r.2
    · rw [if_pos h]
      obtain ⟨h1, h2, h3⟩ := ih a
      refine ⟨Or.inr ?_, by omega, fun e he => ?_⟩
      · rcases h1 with h1 | h1
        · rw [h1]; exact List.mem_cons_self ..
        · exact List.mem_cons_of_mem _ h1
      · rcases List.mem_cons.1 he with he | he
        · rw [he]; exact h2
        · exact h3 e he
    · rw [if_neg h]
      obtain ⟨h1, h2, h3⟩ := ih r
      refine ⟨?_, h2, fun e he => ?_⟩
      · rcases h1 with h1 | h1
        · exact Or.inl h1
        · exact Or.inr (List.mem_cons_of_mem _ h1)
      · rcases List.mem_cons.1 he with he | he
        · rw [he]; omega
        · exact h3 e he

/-- The candidate chosen is one that occurs most often, in whatever order the map is read. -/
theorem max_frequent {l : List Str} {m : GoMap Str Nat} (hp : m.Perm (l.foldl incr [])) (hl : l ≠ []) :
    MostFrequent l (maxCandidates m).1 := by
  have hn0 : GoMap.NodupKeys (l.foldl incr []) := fold_incr_nodup GoMap.nodupKeys_nil
  have hn : GoMap.NodupKeys m := GoMap.keys_perm_nodup hp.symm hn0
  have hget : ∀ k, (m.get k).getD 0 = l.count k := fun k => by
    rw [GoMap.get_perm hp hn, fold_incr_get]
    show 0 + _ = _
    omega
  have hpos : ∀ e ∈ m, 0 < e.2 := fun e he =>
    fold_incr_pos (fun _ h => by cases h) e (hp.mem_iff.1 he)
  have hval : ∀ e ∈ m, e.2 = l.count e.1 := fun e he => by
    have := GoMap.get_of_mem hn (k := e.1) (v := e.2) he
    rw [← hget, this]; rfl
  obtain ⟨h1, _, h3⟩ := foldl_max m ([], 0)
  obtain ⟨a, ha⟩ := List.exists_mem_of_ne_nil l hl
  have hsome : ∀ b, b ∈ l → ∃ v, (b, v) ∈ m := fun b hb => by
    have h0 : 0 < l.count b := List.count_pos_iff.2 hb
    rw [← hget] at h0
    cases hg : m.get b with
    | none => rw [hg] at h0; exact absurd h0 (by simp)
    | some v => exact ⟨v, GoMap.mem_of_get hg⟩
  unfold maxCandidates
  generalize hx : List.foldl (fun r e => if e.2 > r.2 then e else r) ([], 0) m = x at *
  have hxm : x ∈ m := by
    rcases h1 with h1 | h1
    · obtain ⟨v, hv⟩ := hsome a ha
      have h4 := h3 _ hv
      have h5 := hpos _ hv
      rw [h1] at h4
      dsimp only at h4 h5
      omega
    · exact h1
  refine ⟨?_, fun b => ?_⟩
  · rw [← List.count_pos_iff, ← hval x hxm]; exact hpos x hxm
  · by_cases hb : b ∈ l
    · obtain ⟨v, hv⟩ := hsome b hb
      have h4 := h3 _ hv
      have h5 := hval _ hv
      have h6 := hval _ hxm
      dsimp only at h4 h5
      omega
    · rw [List.count_eq_zero_of_not_mem hb]; omega

theorem max_empty {m : GoMap Str Nat} (hp : m.Perm []) : (maxCandidates m).1 = [] := by
  rw [List.Perm.eq_nil hp]; rfl

theorem nsproxyFound_ne {lock code : Str} : ∀ o ∈ nsproxyFound lock code, o ≠ [] := by
  intro o ho
  unfold nsproxyFound at ho
  split at ho
  · cases ho
  · next h => rw [List.mem_singleton] at ho; subst ho; exact h

theorem pidnsFound_ne {code : Str} : ∀ o ∈ pidnsFound code, o ≠ [] := by
  intro o ho
  obtain ⟨l, _, h⟩ := List.mem_filterMap.1 ho
  exact findLea_ne h

/-! ### The symbol file -/

theorem symLine_none {m : GoMap Str Str} {l : Str} : symLine m l = none ↔ ¬ WellFormed l := by
  unfold symLine WellFormed
  generalize fields l = f
  match f with
  | [] => simp
  | [a] => simp
  | [a, t] =>
    by_cases h : t = ['t'] ∨ t = ['T'] <;> simp [h]
  | a :: t :: n :: r =>
    by_cases h : t = ['t'] ∨ t = ['T'] <;> simp [h]

theorem foldlM_none {ls : List Str} {m : GoMap Str Str} :
    ls.foldlM symLine m = none ↔ ∃ l ∈ ls, ¬ WellFormed l := by
  induction ls generalizing m with
  | nil => simp
  | cons l ls ih =>
    rw [List.foldlM_cons]
    cases h : symLine m l with
    | none => 
      simp only [bind, Option.bind_none, true_iff]
      exact ⟨l, List.mem_cons_self .., symLine_none.1 h⟩
    | some m' =>
      have hw : WellFormed l := Classical.byContradiction fun hn => by
        rw [symLine_none.2 hn] at h; cases h
      simp only [bind, Option.bind_some, ih, List.mem_cons, exists_eq_or_imp, not_true, hw, false_or]

theorem symLine_get {m m' : GoMap Str Str} {l name : Str} (h : symLine m l = some m') :
    (∃ addr, Lists l name addr ∧ m'.get name = some addr) ∨
    ((∀ addr, ¬ Lists l name addr) ∧ m'.get name = m.get name) := by
  unfold symLine at h
  unfold Lists
  generalize fields l = f at h
  match f with
  | [] => cases h
  | [a] => cases h
  | [a, t] =>
    by_cases ht : t = ['t'] ∨ t = ['T']
    · simp [ht] at h
    · simp [ht] at h
      right
      exact ⟨fun addr ⟨_, _, e, _⟩ => by simp at e, by rw [h]⟩
  | a :: t :: n :: r =>
    by_cases ht : t = ['t'] ∨ t = ['T']
    · simp [ht] at h
      by_cases hn : n = name
      · left
        subst hn
        refine ⟨a, ⟨t, r, rfl, ht⟩, ?_⟩
        rw [← h, GoMap.get_set]; simp
      · right
        refine ⟨?_, by rw [← h, GoMap.get_set_other _ _ hn]⟩
        rintro addr ⟨_, _, e, _⟩
        simp at e
        exact hn e.2.2.1
    · simp [ht] at h
      right
      refine ⟨?_, by rw [h]⟩
      rintro addr ⟨_, _, e, ht'⟩
      simp at e
      exact ht (e.2.1 ▸ ht')

theorem foldlM_get {ls : List Str} {m m' : GoMap Str Str} (h : ls.foldlM symLine m = some m')
    (name : Str) :
    (∃ a l b addr, ls = a ++ l :: b ∧ Lists l name addr ∧ (∀ l' ∈ b, ∀ x, ¬ Lists l' name x) ∧
      m'.get name = some addr) ∨
    ((∀ l ∈ ls, ∀ x, ¬ Lists l name x) ∧ m'.get name = m.get name) := by
  induction ls generalizing m with
  | nil =>
    right
    refine ⟨(fun _ h => by cases h), ?_⟩
    injection h with h
    rw [h]
  | cons l ls ih =>
    rw [List.foldlM_cons] at h
    cases hl : symLine m l with
    | none => rw [hl] at h; cases h
    | some m1 =>
      rw [hl] at h
      simp only [bind, Option.bind_some] at h
      rcases ih h with ⟨a, l', b, addr, e, h1, h2, h3⟩ | ⟨h1, h2⟩
      · left
        exact ⟨l :: a, l', b, addr, by rw [e]; rfl, h1, h2, h3⟩
      · rcases symLine_get (name := name) hl with ⟨addr, h3, h4⟩ | ⟨h3, h4⟩
        · left
          exact ⟨[], l, ls, addr, rfl, h3, h1, by rw [h2, h4]⟩
        · right
          refine ⟨fun l' hl' => ?_, by rw [h2, h4]⟩
          rcases List.mem_cons.1 hl' with rfl | hl'
          · exact h3
          · exact h1 l' hl'

/-- A file of lines, each ended by a line break. -/
theorem split_lines {ls : List Str} (h : ∀ l ∈ ls, '\n' ∉ l) :
    JobArgs.split '\n' (ls.flatMap (· ++ ['\n'])) = ls ++ [[]] := by
  have one : ∀ (l rest : Str), '\n' ∉ l →
      JobArgs.split '\n' (l ++ '\n' :: rest) = l :: JobArgs.split '\n' rest := by
    intro l rest hl
    induction l with
    | nil => simp only [List.nil_append, JobArgs.split, if_true]
    | cons c l ih =>
      have h1 : c ≠ '\n' := fun h => hl (h ▸ List.mem_cons_self ..)
      have h2 := ih fun h => hl (List.mem_cons_of_mem _ h)
      rw [List.cons_append, JobArgs.split, if_neg h1, h2]
  induction ls with
  | nil => rfl
  | cons l ls ih =>
    rw [List.flatMap_cons, List.append_assoc, List.singleton_append,
      one l _ (h l (List.mem_cons_self ..)), ih fun l' hl' => h l' (List.mem_cons_of_mem _ hl')]
    rfl

theorem takeWhile_all {ls : List Str} (h : ∀ l ∈ ls, l.length ≤ 65535) :
    ls.takeWhile (fun l => decide (l.length ≤ 65535)) = ls := by
  induction ls with
  | nil => rfl
  | cons l ls ih =>
    rw [List.takeWhile_cons, if_pos (by simpa using h l (List.mem_cons_self ..)),
      ih fun l' hl' => h l' (List.mem_cons_of_mem _ hl')]

theorem scan_lines {ls : List Str} (h : ∀ l ∈ ls, '\n' ∉ l ∧ '\r' ∉ l ∧ l.length ≤ 65535) :
    scan (ls.flatMap (· ++ ['\n'])) = ls := by
  unfold scan
  rw [split_lines fun l hl => (h l hl).1]
  dsimp only
  rw [if_pos (by simp), List.dropLast_concat, takeWhile_all fun l hl => (h l hl).2.2]
  have : ∀ l ∈ ls, dropCR l = l := fun l hl => by
    unfold dropCR
    rw [if_neg]
    intro hr
    exact (h l hl).2.1 (List.mem_of_getLast? hr)
  induction ls with
  | nil => rfl
  | cons l ls ih =>
    rw [List.map_cons, this l (List.mem_cons_self ..), ih (fun l' hl' => h l' (List.mem_cons_of_mem _ hl'))
      fun l' hl' => this l' (List.mem_cons_of_mem _ hl')]

/-! ### Detection -/

theorem likely_eq {w : World} (hw : AnyOrder w) {syms : GoMap Str Str} {found : Str → List Str}
    {fns codes : List Str} (hd : Dumped w syms fns codes) :
    ∃ o, likely w syms found fns = some o ∧ (codes.flatMap found = [] → o = []) ∧
      (codes.flatMap found ≠ [] → MostFrequent (codes.flatMap found) o) := by
  unfold likely
  unfold Dumped at hd
  rw [hd]
  refine ⟨_, rfl, fun h => ?_, fun h => max_frequent (hw _) h⟩
  have := hw ((codes.flatMap found).foldl incr [])
  rw [h] at this ⊢
  exact max_empty this

theorem likely_none {w : World} {syms : GoMap Str Str} {found : Str → List Str} {fns : List Str}
    {o : Str} (h : likely w syms found fns = some o) : ∃ codes, Dumped w syms fns codes := by
  unfold likely at h
  split at h
  · cases h
  · next codes hc => exact ⟨codes, hc⟩

theorem parseAndSet_ok {w : World} {ns pid : Str} {m m' : Config}
    (h : parseAndSet w ns pid m = (.ok, m')) : ∃ n p, parseHex (trim0x ns) = some n ∧
      parseHex (trim0x pid) = some p ∧
      m' = (m.set nsProxy (BitVec.ofInt 32 n)).set pidNSCommon (BitVec.ofInt 32 p) := by
  unfold parseAndSet at h
  split at h
  · next n p hn hp =>
    refine ⟨n, p, hn, hp, ?_⟩
    split at h
    · split at h
      · cases h
      · next m1 h1 =>
        split at h
        · cases h
        · next m2 h2 =>
          have e1 := set_ok h1
          have e2 := set_ok h2
          rw [realType_ns] at e1
          rw [realType_pid] at e2
          injection h with _ h
          rw [← h, e2, e1]
    · cases h
  · cases h

end Swoll.Lemmas.Offsets
