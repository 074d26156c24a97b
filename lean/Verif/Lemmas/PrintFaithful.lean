import Verif.Lemmas.PrintWrong
import Verif.Lemmas.Syscalls
/- Helper lemmas: the printed text determines the value. -/
namespace Swoll.Lemmas.Print
open Swoll.Bytes Swoll.Event Swoll.Flags Swoll.Print Swoll.Spec.Event Swoll.Spec.Print
open Swoll.Lemmas.Flags Swoll.Lemmas.Event

/-! ### Numbers -/

theorem digits_numeric (n : Nat) : ∀ c ∈ digits n, numeric c = true := by
  intro c hc
  have := digits_all n c hc
  simp [numeric, this]

theorem itoa_numeric (v : Int) : ∀ c ∈ itoa v, numeric c = true := by
  intro c hc
  unfold itoa at hc
  split at hc
  · rcases List.mem_cons.1 hc with rfl | hc
    · rfl
    · exact digits_numeric _ c hc
  · exact digits_numeric _ c hc

theorem decimal_numeric (v : Int) : ∀ c ∈ decimal v, numeric c = true := by
  rw [← itoa_eq]; exact itoa_numeric v

theorem decimal_ne_nil (v : Int) : decimal v ≠ [] := by
  rw [← itoa_eq]
  obtain ⟨c, cs, h, -⟩ := itoa_head v
  rw [h]
  exact List.cons_ne_nil _ _

theorem digits_no_minus (n : Nat) (l : List Char) : digits n ≠ '-' :: l := by
  intro h
  obtain ⟨c, cs, h1, h2, -⟩ := digits_head n
  rw [h1] at h
  rw [(List.cons.inj h).1] at h2
  revert h2; decide

theorem decimal_inj {v w : Int} (h : decimal v = decimal w) : v = w := by
  rw [← itoa_eq, ← itoa_eq] at h
  unfold itoa at h
  split at h <;> split at h
  · have := digits_inj (List.cons.inj h).2; omega
  · exact absurd h.symm (digits_no_minus _ _)
  · exact absurd h (digits_no_minus _ _)
  · have := digits_inj h; omega

/-- A number followed by something else can be told from what follows. -/
theorem span_unique {p : Char → Bool} : ∀ {xs xs' ys ys' : List Char}, (∀ c ∈ xs, p c = true) →
    (∀ c ∈ xs', p c = true) → (∀ c, ys.head? = some c → p c = false) →
    (∀ c, ys'.head? = some c → p c = false) → xs ++ ys = xs' ++ ys' → xs = xs' ∧ ys = ys'
  | [], [], _, _, _, _, _, _, h => ⟨rfl, h⟩
  | [], x' :: xs', ys, ys', _, h2, h3, _, h => by
    simp only [List.nil_append, List.cons_append] at h
    have := h3 x' (by rw [h]; rfl)
    rw [h2 x' (by simp)] at this
    cases this
  | x :: xs, [], ys, ys', h1, _, _, h4, h => by
    simp only [List.nil_append, List.cons_append] at h
    have := h4 x (by rw [← h]; rfl)
    rw [h1 x (by simp)] at this
    cases this
  | x :: xs, x' :: xs', ys, ys', h1, h2, h3, h4, h => by
    simp only [List.cons_append, List.cons.injEq] at h
    obtain ⟨e1, e2⟩ := span_unique (fun c hc => h1 c (by simp [hc])) (fun c hc => h2 c (by simp [hc]))
      h3 h4 h.2
    exact ⟨by rw [h.1, e1], e2⟩

/-! ### Lists -/

theorem separated_cons (c : Char) (x y : List Char) (ys : List (List Char)) :
    separated c (x :: y :: ys) = x ++ c :: separated c (y :: ys) := by
  simp [separated, List.intercalate, List.intersperse]

theorem separated_one (c : Char) (x : List Char) : separated c [x] = x := by
  simp [separated, List.intercalate]

theorem separated_inj {c : Char} : ∀ {l l' : List (List Char)}, (∀ x ∈ l, c ∉ x ∧ x ≠ []) →
    (∀ x ∈ l', c ∉ x ∧ x ≠ []) → separated c l = separated c l' → l = l'
  | [], [], _, _, _ => rfl
  | [], [x], _, h', h => by
    rw [separated_one] at h
    exact absurd h.symm (h' x (by simp)).2
  | [x], [], h', _, h => by
    rw [separated_one] at h
    exact absurd h (h' x (by simp)).2
  | [], x :: y :: ys, _, h', h => by
    rw [separated_cons] at h
    have := congrArg List.length h
    simp [separated, List.intercalate] at this
  | x :: y :: ys, [], _, h', h => by
    rw [separated_cons] at h
    have := congrArg List.length h
    simp [separated, List.intercalate] at this
  | [x], [x'], _, _, h => by
    rw [separated_one, separated_one] at h
    rw [h]
  | [x], x' :: y' :: ys', h1, _, h => by
    rw [separated_one, separated_cons] at h
    exact absurd (h ▸ by simp : c ∈ x) (h1 x (by simp)).1
  | x :: y :: ys, [x'], _, h2, h => by
    rw [separated_one, separated_cons] at h
    exact absurd (h ▸ by simp : c ∈ x') (h2 x' (by simp)).1
  | x :: y :: ys, x' :: y' :: ys', h1, h2, h => by
    rw [separated_cons, separated_cons] at h
    obtain ⟨e1, e2⟩ := append_sep (h1 x (by simp)).1 (h2 x' (by simp)).1 h
    rw [e1, separated_inj (fun z hz => h1 z (List.mem_cons_of_mem _ hz))
      (fun z hz => h2 z (List.mem_cons_of_mem _ hz)) e2]

theorem map_inj {α β : Type} {f : α → β} (hf : ∀ a b, f a = f b → a = b) :
    ∀ {l l' : List α}, l.map f = l'.map f → l = l'
  | [], [], _ => rfl
  | [], _ :: _, h => by simp at h
  | _ :: _, [], h => by simp at h
  | a :: l, b :: l', h => by
    simp only [List.map_cons, List.cons.injEq] at h
    rw [hf _ _ h.1, map_inj hf h.2]

theorem charOf_inj (a b : Byte) (h : Char.ofNat a.toNat = Char.ofNat b.toNat) : a = b := by
  have ha := a.toNat_lt
  have hb := b.toNat_lt
  have hv : ∀ n, n < 256 → (Char.ofNat n).toNat = n := by decide +kernel
  have := congrArg Char.toNat h
  rw [hv _ ha, hv _ hb] at this
  exact UInt8.toNat_inj.1 this

/-! ### Names -/

theorem name_not_decimal {s : String} (h : wordy s = true) (v : Int) : s.toList ≠ decimal v := by
  intro he
  have := not_wordy_itoa v
  rw [itoa_eq, ← he, String.ofList_toList, h] at this
  cases this

/-- Names that determine the number. -/
def clear (names : List (Int × String)) : Bool :=
  decide ((names.map fun e => Lemmas.Syscalls.digest e.2).Nodup) && names.all fun e => wordy e.2

theorem nameOrNumber_inj {names : List (Int × String)} (hc : clear names = true) {v w : Int}
    {t : List Char} (h1 : NameOrNumber names v t) (h2 : NameOrNumber names w t) : v = w := by
  unfold clear at hc
  rw [Bool.and_eq_true, List.all_eq_true] at hc
  obtain ⟨hn, hw⟩ := hc
  have hn : (names.map (·.2)).Nodup := by
    refine Lemmas.Syscalls.nodup_of_digest ?_
    rw [List.map_map]
    exact of_decide_eq_true hn
  rcases h1 with ⟨n, hn1, rfl⟩ | rfl
  · rcases h2 with ⟨m, hm, he⟩ | he
    · have := String.toList_inj.1 he
      subst this
      exact congrArg Prod.fst (Lemmas.Syscalls.inj_of_nodup_map hn hn1 hm rfl)
    · exact absurd he (name_not_decimal (hw _ hn1) w)
  · rcases h2 with ⟨m, hm, he⟩ | he
    · exact absurd he.symm (name_not_decimal (hw _ hm) v)
    · exact decimal_inj he

theorem tables_clear : clear Spec.Linux.families = true ∧ clear Spec.Linux.protocols = true ∧
    clear Spec.Linux.levels = true ∧ clear Spec.Linux.ptraceRequests = true ∧
    clear Spec.Linux.limits = true ∧ clear Spec.Linux.socketOptions = true ∧
    clear Spec.Linux.tcpOptions = true ∧ clear Spec.Linux.ipOptions = true ∧
    clear Spec.Linux.ipv6Options = true := by decide +kernel

theorem options_clear (l : Int) : clear (optionNames l) = true := by
  obtain ⟨-, -, -, -, -, h1, h2, h3, h4⟩ := tables_clear
  unfold optionNames
  split
  · exact h1
  · split
    · exact h2
    · split
      · exact h3
      · split
        · exact h4
        · rfl

/-! ### Flags -/

def namesOf (d : Spec.Flags.Doc) : List String := d.flags.map (·.1) ++ (d.whole.toList.map (·.2))

theorem describes_named {d : Spec.Flags.Doc} {f : BitVec 64} {n : String}
    (h : Spec.Flags.Describes d f n) : n ∈ namesOf d := by
  unfold Spec.Flags.Describes at h
  unfold namesOf
  rw [List.mem_append]
  split at h
  · next hw =>
    rw [hw]
    rcases h with ⟨-, rfl⟩ | ⟨-, e, he, rfl, -⟩
    · exact .inr (by simp)
    · exact .inl (List.mem_map_of_mem he)
  · obtain ⟨e, he, rfl, -⟩ := h
    exact .inl (List.mem_map_of_mem he)

theorem docs_clear (b : Bits) : ∀ n ∈ namesOf b.doc, '|' ∉ n.toList ∧ wordy n = true := by
  cases b <;> decide +kernel

theorem wordy_ne_nil {s : String} (h : wordy s = true) : s.toList ≠ [] := by
  intro he
  unfold wordy at h
  rw [he] at h
  cases h

theorem separated_not_decimal {ns : List String} (hw : ∀ n ∈ ns, wordy n = true) (v : Int) :
    separated '|' (ns.map (·.toList)) ≠ decimal v := by
  intro h
  cases ns with
  | nil => exact decimal_ne_nil v (by rw [← h]; rfl)
  | cons n ns =>
    have hn := hw n (by simp)
    unfold wordy at hn
    split at hn
    · next c cs heq =>
      obtain ⟨a, b, hab⟩ := mem_separated (s := '|') (x := n.toList)
        (l := (n :: ns).map (·.toList)) (List.mem_map_of_mem (by simp))
      have : c ∈ decimal v := by rw [← h, ← hab, heq]; simp
      rw [decimal_numeric v c this] at hn
      simp at hn
    · cases hn

theorem flagNames_inj {b : Bits} {v w : Int} {t : List Char} (h1 : FlagNames b.doc v t)
    (h2 : FlagNames b.doc w t) (n : String) : Spec.Flags.Describes b.doc (BitVec.ofInt 64 v) n ↔
      Spec.Flags.Describes b.doc (BitVec.ofInt 64 w) n := by
  have clean : ∀ {u : Int} {ns : List String},
      (∀ n, n ∈ ns ↔ Spec.Flags.Describes b.doc (BitVec.ofInt 64 u) n) →
      (∀ n ∈ ns, '|' ∉ n.toList ∧ wordy n = true) := fun h n hn =>
    docs_clear b n (describes_named ((h n).1 hn))
  rcases h1 with ⟨ns, -, hns, rfl⟩ | ⟨hno, rfl⟩
  · rcases h2 with ⟨ms, -, hms, he⟩ | ⟨-, he⟩
    · have : ns = ms := by
        refine map_inj (f := fun s : String => s.toList) (fun a b => String.toList_inj.1)
          (separated_inj ?_ ?_ he)
        · intro x hx
          obtain ⟨n, hn, rfl⟩ := List.mem_map.1 hx
          exact ⟨(clean hns n hn).1, wordy_ne_nil (clean hns n hn).2⟩
        · intro x hx
          obtain ⟨n, hn, rfl⟩ := List.mem_map.1 hx
          exact ⟨(clean hms n hn).1, wordy_ne_nil (clean hms n hn).2⟩
      rw [← hns, ← hms, this]
    · exact absurd he (separated_not_decimal (fun n hn => (clean hns n hn).2) w)
  · rcases h2 with ⟨ms, -, hms, he⟩ | ⟨hno', he⟩
    · exact absurd he.symm (separated_not_decimal (fun n hn => (clean hms n hn).2) v)
    · exact ⟨fun h => absurd h (hno n), fun h => absurd h (hno' n)⟩

/-! ### Structures -/

/-- The text starts with something that is neither part of a number nor `&`. -/
def firstOk (s : String) : Bool :=
  match s.toList with
  | c :: _ => !numeric c && decide (c ≠ '&')
  | [] => false

theorem firstOk_head {s : String} (h : firstOk s = true) (l : List Char) :
    ∀ c, (s.toList ++ l).head? = some c → numeric c = false := by
  unfold firstOk at h
  split at h
  · next c cs heq =>
    intro d hd
    rw [heq] at hd
    simp only [List.cons_append, List.head?_cons, Option.some.injEq] at hd
    subst hd
    simp only [Bool.and_eq_true, Bool.not_eq_true'] at h
    exact h.1
  · cases h

def delimited : Reading → Bool
  | .record ms close | .start ms close => (ms.all fun m => firstOk m.1) && firstOk close
  | _ => true

theorem delimited_all : ∀ row ∈ prototypes, ∀ p ∈ row.2, delimited p.reading = true := by
  decide +kernel

theorem record_inj : ∀ {ms : List (String × Nat × Nat × Bool)} {close : String}
    {bs bs' : List Byte} {r r' : List Char}, (∀ m ∈ ms, firstOk m.1 = true) →
    firstOk close = true → record ms close bs ++ r = record ms close bs' ++ r' →
    ∀ m ∈ ms, member bs m.2.1 m.2.2.1 m.2.2.2 = member bs' m.2.1 m.2.2.1 m.2.2.2
  | [], _, _, _, _, _, _, _, _, m, hm => by cases hm
  | m :: ms, close, bs, bs', r, r', h1, h2, h, m', hm' => by
    have step : ∀ (b : List Byte) (x : List Char), record (m :: ms) close b ++ x = m.1.toList ++
        (decimal (member b m.2.1 m.2.2.1 m.2.2.2) ++ (record ms close b ++ x)) := by
      intro b x
      simp [record]
    have hd : ∀ (b : List Byte) (x : List Char) (c : Char),
        (record ms close b ++ x).head? = some c → numeric c = false := by
      intro b x c hc
      cases ms with
      | nil =>
        have e : record [] close b ++ x = close.toList ++ x := by simp [record]
        rw [e] at hc
        exact firstOk_head h2 _ c hc
      | cons m2 ms =>
        have e : record (m2 :: ms) close b ++ x = m2.1.toList ++
            (decimal (member b m2.2.1 m2.2.2.1 m2.2.2.2) ++ (record ms close b ++ x)) := by
          simp [record]
        rw [e] at hc
        exact firstOk_head (h1 m2 (by simp)) _ c hc
    rw [step, step] at h
    obtain ⟨e1, e2⟩ := span_unique (p := numeric) (decimal_numeric _) (decimal_numeric _)
      (hd bs r) (hd bs' r') (List.append_cancel_left h)
    rcases List.mem_cons.1 hm' with rfl | hm'
    · exact decimal_inj e1
    · exact record_inj (fun x hx => h1 x (List.mem_cons_of_mem _ hx)) h2 e2 m' hm'

theorem record_head {ms : List (String × Nat × Nat × Bool)} {close : String} {bs : List Byte}
    (h1 : ∀ m ∈ ms, firstOk m.1 = true) (h2 : firstOk close = true) (x l : List Char) :
    record ms close bs ++ x ≠ '&' :: l := by
  have key : ∀ (s : String) (y : List Char), firstOk s = true → s.toList ++ y ≠ '&' :: l := by
    intro s y hs h
    unfold firstOk at hs
    split at hs
    · next c cs heq =>
      rw [heq] at h
      have := (List.cons.inj h).1
      subst this
      simp at hs
    · cases hs
  cases ms with
  | nil =>
    have e : record [] close bs ++ x = close.toList ++ x := by simp [record]
    rw [e]
    exact key _ _ h2
  | cons m ms =>
    have e : record (m :: ms) close bs ++ x = m.1.toList ++
        (decimal (member bs m.2.1 m.2.2.1 m.2.2.2) ++ (record ms close bs ++ x)) := by
      simp [record]
    rw [e]
    exact key _ _ (h1 m (by simp))

/-! ### Addresses -/

theorem dots_inj {l l' : List Byte} (h : separated '.' (l.map fun x => decimal x.toNat) =
    separated '.' (l'.map fun x => decimal x.toNat)) : l = l' := by
  have ok : ∀ l : List Byte, ∀ x ∈ l.map fun x : Byte => decimal x.toNat, '.' ∉ x ∧ x ≠ [] := by
    intro l x hx
    obtain ⟨b, -, rfl⟩ := List.mem_map.1 hx
    refine ⟨fun hd => ?_, decimal_ne_nil _⟩
    have := decimal_numeric _ _ hd
    revert this; decide
  refine map_inj (fun a b h => ?_) (separated_inj (ok l) (ok l') h)
  have := decimal_inj h
  exact UInt8.toNat_inj.1 (Int.ofNat.inj this)

theorem separated_chars {s : Char} {l : List (List Char)} {c : Char} (h : c ∈ separated s l) :
    c = s ∨ ∃ x ∈ l, c ∈ x := by
  induction l with
  | nil => simp [separated, List.intercalate] at h
  | cons x xs ih =>
    cases xs with
    | nil => rw [separated_one] at h; exact .inr ⟨x, by simp, h⟩
    | cons y ys =>
      rw [separated_cons, List.mem_append, List.mem_cons] at h
      rcases h with h | h | h
      · exact .inr ⟨x, by simp, h⟩
      · exact .inl h
      · rcases ih h with h | ⟨z, hz, hc⟩
        · exact .inl h
        · exact .inr ⟨z, List.mem_cons_of_mem _ hz, hc⟩

theorem address_inj {bs bs' : List Byte} {t : List Char} (h1 : AddressText bs t)
    (h2 : AddressText bs' t) (p q : Place) (hp : IsAt bs p) (hq : IsAt bs' q) : p = q := by
  have six : ∀ {l : List Byte}, l.length = 6 → ∃ hi lo a b c d, l = [hi, lo, a, b, c, d] := by
    intro l hl
    match l, hl with
    | [hi, lo, a, b, c, d], _ => exact ⟨hi, lo, a, b, c, d, rfl⟩
  have text : ∀ {bs : List Byte} {p : Place}, AddressText bs t → IsAt bs p →
      (∃ hi lo a b c d, p = .inet [hi, lo, a, b, c, d] ∧ t = "ipv4:".toList ++
        (separated '.' ([a, b, c, d].map fun x => decimal x.toNat) ++ ':' ::
        decimal (Spec.Flags.bigEndian16 hi lo))) ∨
      (∃ n, p = .path n ∧ t = "unix:".toList ++ (n.map (fun b => Char.ofNat b.toNat) ++
        ":0".toList)) := by
    intro bs p ha hp
    cases p with
    | inet l =>
      obtain ⟨hl, rest, he⟩ := hp
      obtain ⟨hi, lo, a, b, c, d, rfl⟩ := six hl
      refine .inl ⟨hi, lo, a, b, c, d, rfl, ?_⟩
      rw [ha.1 hi lo a b c d rest (by rw [he]; rfl)]
      simp
    | path n =>
      obtain ⟨h0, hl, rest, he⟩ := hp
      refine .inr ⟨n, rfl, ?_⟩
      rw [ha.2 n rest he h0 hl]
      simp
  have mixed : ∀ x y : List Char, "ipv4:".toList ++ x ≠ "unix:".toList ++ y := by
    intro x y h
    rw [show "ipv4:".toList = ['i', 'p', 'v', '4', ':'] by decide +kernel,
      show "unix:".toList = ['u', 'n', 'i', 'x', ':'] by decide +kernel] at h
    simp at h
  have nocolon : ∀ l : List Byte, ':' ∉ separated '.' (l.map fun x => decimal x.toNat) := by
    intro l h
    rcases separated_chars h with h | ⟨x, hx, h⟩
    · revert h; decide
    · obtain ⟨b, -, rfl⟩ := List.mem_map.1 hx
      have := decimal_numeric _ _ h
      revert this; decide
  rcases text h1 hp with ⟨hi, lo, a, b, c, d, rfl, e1⟩ | ⟨n, rfl, e1⟩
  · rcases text h2 hq with ⟨hi', lo', a', b', c', d', rfl, e2⟩ | ⟨n, rfl, e2⟩
    · rw [e1] at e2
      obtain ⟨e3, e4⟩ := append_sep (nocolon _) (nocolon _) (List.append_cancel_left e2)
      have e5 := dots_inj e3
      have e6 := decimal_inj e4
      unfold Spec.Flags.bigEndian16 at e6
      have b1 := hi.toNat_lt
      have b2 := lo.toNat_lt
      have b3 := hi'.toNat_lt
      have b4 := lo'.toNat_lt
      have e7 : hi = hi' := UInt8.toNat_inj.1 (by omega)
      have e8 : lo = lo' := UInt8.toNat_inj.1 (by omega)
      simp only [List.cons.injEq, and_true] at e5
      obtain ⟨rfl, rfl, rfl, rfl⟩ := e5
      rw [e7, e8]
    · exact absurd (e1.symm.trans e2) (mixed _ _)
  · rcases text h2 hq with ⟨hi', lo', a', b', c', d', rfl, e2⟩ | ⟨n', rfl, e2⟩
    · exact absurd (e2.symm.trans e1) (mixed _ _)
    · rw [e1] at e2
      rw [map_inj charOf_inj (List.append_cancel_right (List.append_cancel_left e2))]

/-! ### Socket types and permissions -/

theorem socketType_table : (∀ n < 16, ∀ m < 16, socketTypeName n = socketTypeName m → n = m) ∧
    ∀ n < 16, '|' ∉ socketTypeName n ∧ socketTypeName n ≠ [] := by decide +kernel

theorem permissions_inj {v w : Nat} {k k' : List Char}
    (h : k ++ permissions v = k' ++ permissions w) : ∀ i < 9, v.testBit i = w.testBit i := by
  have hp : permissions v = permissions w := (List.append_inj' h rfl).2
  have bit : ∀ (a b : Bool) (c : Char), c ≠ '-' → (if a = true then c else '-') =
      (if b = true then c else '-') → a = b := by
    intro a b c hc h
    cases a <;> cases b <;> first | rfl | exact absurd h hc | exact absurd h.symm hc
  simp only [permissions, List.map_cons, List.map_nil, List.cons.injEq, and_true] at hp
  obtain ⟨h8, h7, h6, h5, h4, h3, h2, h1, h0⟩ := hp
  intro i hi
  match i, hi with
  | 0, _ => exact bit _ _ _ (by decide) h0
  | 1, _ => exact bit _ _ _ (by decide) h1
  | 2, _ => exact bit _ _ _ (by decide) h2
  | 3, _ => exact bit _ _ _ (by decide) h3
  | 4, _ => exact bit _ _ _ (by decide) h4
  | 5, _ => exact bit _ _ _ (by decide) h5
  | 6, _ => exact bit _ _ _ (by decide) h6
  | 7, _ => exact bit _ _ _ (by decide) h7
  | 8, _ => exact bit _ _ _ (by decide) h8

theorem socketType_inj {v w : Int} {t : List Char} {c₁ c₂ : Call}
    (h1 : Reads c₁ .socketType (.int v) t) (h2 : Reads c₂ .socketType (.int w) t) :
    Same c₁ c₂ .socketType (.int v) (.int w) := by
  obtain ⟨ns, -, hns, rfl⟩ := h1
  obtain ⟨ms, -, hms, he⟩ := h2
  have r1 : (v % 16).toNat < 16 := by omega
  have r2 : (w % 16).toNat < 16 := by omega
  have ok : ∀ {u : Int} {ns : List String}, (∀ n, n ∈ ns ↔
      (n = "SOCK_CLOEXEC" ∧ (BitVec.ofInt 64 u).getLsbD 19 = true) ∨
        (n = "SOCK_NONBLOCK" ∧ (BitVec.ofInt 64 u).getLsbD 11 = true)) →
      ∀ x ∈ socketTypeName (u % 16).toNat :: ns.map (·.toList), '|' ∉ x ∧ x ≠ [] := by
    intro u ns h x hx
    rcases List.mem_cons.1 hx with rfl | hx
    · exact socketType_table.2 _ (by omega)
    · obtain ⟨n, hn, rfl⟩ := List.mem_map.1 hx
      rcases (h n).1 hn with ⟨rfl, -⟩ | ⟨rfl, -⟩ <;> decide +kernel
  have hl := separated_inj (ok hns) (ok hms) he
  simp only [List.cons.injEq] at hl
  have e1 := socketType_table.1 _ r1 _ r2 hl.1
  have e2 : ns = ms := map_inj (f := fun s : String => s.toList) (fun a b => String.toList_inj.1) hl.2
  subst e2
  refine ⟨by omega, ?_, ?_⟩
  · rw [Bool.eq_iff_iff]
    have := (hns "SOCK_CLOEXEC").symm.trans (hms "SOCK_CLOEXEC")
    simpa using this
  · rw [Bool.eq_iff_iff]
    have := (hns "SOCK_NONBLOCK").symm.trans (hms "SOCK_NONBLOCK")
    simpa using this

/-! ### All -/

theorem reads_same {c₁ c₂ : Call} {r : Reading} {v w : Val} {t : List Char}
    (hd : delimited r = true) (h1 : Reads c₁ r v t) (h2 : Reads c₂ r w t) : Same c₁ c₂ r v w := by
  obtain ⟨t1, t2, t3, t4, t5, -⟩ := tables_clear
  cases r <;> cases v <;> first
    | exact h1.elim
    | skip
  all_goals cases w <;> first
    | exact h2.elim
    | exact congrArg Val.int (decimal_inj (h1.symm.trans h2))
    | exact congrArg Val.str (map_inj charOf_inj (h1.symm.trans h2))
    | exact congrArg Val.int (nameOrNumber_inj t1 h1 h2)
    | exact congrArg Val.int (nameOrNumber_inj t3 h1 h2)
    | exact congrArg Val.int (nameOrNumber_inj t4 h1 h2)
    | exact congrArg Val.int (nameOrNumber_inj t5 h1 h2)
    | exact fun a b => congrArg Val.int (nameOrNumber_inj t2 (h1 a) (h2 b))
    | exact fun a b => flagNames_inj (h1 a) (h2 b)
    | exact socketType_inj h1 h2
    | exact address_inj h1 h2
    | skip
  · -- bytes
    next bs bs' =>
    have e : ['['] ++ separated ' ' (bs.map fun b => decimal b.toNat) ++ [']'] =
      ['['] ++ separated ' ' (bs'.map fun b => decimal b.toNat) ++ [']'] := h1.symm.trans h2
    have e := List.append_cancel_left (as := ['[']) (by simpa using e :
      ['['] ++ (separated ' ' (bs.map fun b => decimal b.toNat) ++ [']']) =
      ['['] ++ (separated ' ' (bs'.map fun b => decimal b.toNat) ++ [']']))
    have e := List.append_cancel_right e
    have ok : ∀ l : List Byte, ∀ x ∈ l.map fun x : Byte => decimal x.toNat, ' ' ∉ x ∧ x ≠ [] := by
      intro l x hx
      obtain ⟨b, -, rfl⟩ := List.mem_map.1 hx
      refine ⟨fun hd => ?_, decimal_ne_nil _⟩
      have := decimal_numeric _ _ hd
      revert this; decide
    refine congrArg Val.buf (map_inj (fun a b h => ?_) (separated_inj (ok bs) (ok bs') e))
    exact UInt8.toNat_inj.1 (Int.ofNat.inj (decimal_inj h))
  · -- permissions
    obtain ⟨k, rfl⟩ := h1
    obtain ⟨k', he⟩ := h2
    exact permissions_inj he
  · -- directory
    next v w =>
    have e : (if v = -100 then "AT_FDCWD".toList else decimal v) =
      (if w = -100 then "AT_FDCWD".toList else decimal w) := h1.symm.trans h2
    have nd : ∀ u, "AT_FDCWD".toList ≠ decimal u := name_not_decimal (by decide +kernel)
    refine congrArg Val.int ?_
    split at e <;> split at e
    · omega
    · exact absurd e (nd _)
    · exact absurd e.symm (nd _)
    · exact decimal_inj e
  · -- option
    intro ha
    have h1 : NameOrNumber _ _ _ := h1
    have h2 : NameOrNumber _ _ _ := h2
    rw [← ha] at h2
    exact congrArg Val.int (nameOrNumber_inj (options_clear _) h1 h2)
  · -- record
    next ms close bs bs' =>
    simp only [delimited, Bool.and_eq_true, List.all_eq_true] at hd
    have e : record ms close bs = record ms close bs' := h1.symm.trans h2
    exact record_inj (r := []) (r' := []) hd.1 hd.2 (by rw [e])
  · -- start
    next ms close bs bs' =>
    simp only [delimited, Bool.and_eq_true, List.all_eq_true] at hd
    obtain ⟨p, r, hp, rfl⟩ := h1
    obtain ⟨p', r', hp', he⟩ := h2
    rcases hp with rfl | rfl <;> rcases hp' with rfl | rfl
    · exact record_inj hd.1 hd.2 he
    · exact absurd he (record_head hd.1 hd.2 _ _)
    · exact absurd he.symm (record_head hd.1 hd.2 _ _)
    · exact record_inj (r := r) (r' := r') hd.1 hd.2 (by simpa using he)

/-! ### What was passed -/

theorem cstring_unique {m : Mem} {a lim : Nat} {s s' : List Byte} (h : CStringAt m a lim s)
    (h' : CStringAt m a lim s') : s = s' := by
  have key : ∀ {s s' : List Byte}, CStringAt m a lim s → CStringAt m a lim s' →
      ¬ s.length < s'.length := by
    intro s s' h h' hlt
    have h0 := h.2.2.2 (by have := h'.2.2.1; omega)
    have := h'.1 s.length hlt
    rw [h0] at this
    exact h'.2.1 (List.mem_of_getElem? this.symm)
  have := key h h'
  have := key h' h
  exact holds_unique h.1 h'.1 (by omega)

theorem readable {m : Mem} {a : Nat} (h : ∀ i < 128, (m (a + i)).isSome) :
    ∃ l, rdMem m a 4 = some l := by
  obtain ⟨x0, h0⟩ := Option.isSome_iff_exists.1 (h 0 (by omega))
  obtain ⟨x1, h1⟩ := Option.isSome_iff_exists.1 (h 1 (by omega))
  obtain ⟨x2, h2⟩ := Option.isSome_iff_exists.1 (h 2 (by omega))
  obtain ⟨x3, h3⟩ := Option.isSome_iff_exists.1 (h 3 (by omega))
  refine ⟨[x0, x1, x2, x3], ?_⟩
  simp only [Nat.add_zero] at h0
  simp [rdMem, h0, h1, h2, h3]

theorem means_unique {c : Call} {m : Meaning} {v w : Val} (hs : Sane c m) (hv : Means c m v)
    (hw : Means c m w) : v = w := by
  cases m <;> cases v <;> first
    | exact hv.elim
    | skip
  all_goals cases w <;> first
    | exact hw.elim
    | exact congrArg Val.int (hv.trans hw.symm)
    | exact congrArg Val.str (cstring_unique hv hw)
    | exact congrArg Val.buf (holds_unique hv.2 hw.2 (hv.1.trans hw.1.symm))
    | exact congrArg Val.buf (holds_unique hv.1 hw.1 (hv.2.trans hw.2.symm))
    | skip
  · next k n _ _ =>
    obtain ⟨l, hl⟩ := readable (hs.1 n (by simp [Meaning.ptrs]))
    exact congrArg Val.buf (holds_unique (hv l hl).1 (hw l hl).1 ((hv l hl).2.trans (hw l hl).2.symm))
  · next k _ _ =>
    obtain ⟨l, hl⟩ := readable (hs.1 k (by simp [Meaning.ptrs]))
    exact congrArg Val.int ((hv l hl).trans (hw l hl).symm)

end Swoll.Lemmas.Print
