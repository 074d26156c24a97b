import Verif.Lemmas.EventRead
/-
What the reader of the arguments stores.
-/
namespace Swoll.Lemmas.EventRead
open Swoll Swoll.Bytes Swoll.Event Swoll.Flags Swoll.EventJSON Swoll.EventText Swoll.EventRead
open Swoll.Json (Str Json)
open Swoll.Lemmas.EventText Swoll.Lemmas.EventJSON

/-! ### Leaves -/

/-- A part of the arguments that has no parts. -/
inductive Leaf where
  | field (f : String)
  | int (f : String) (o w : Nat) (s : Bool)

mutual
/-- The leaves of a layout, in order. -/
def leaves : Lay → List Leaf
  | .field f => [.field f]
  | .int f o w s => [.int f o w s]
  | .arr l => leavesElems l
  | .obj l => leavesMembers l
def leavesElems : List Lay → List Leaf
  | [] => []
  | y :: l => leaves y ++ leavesElems l
def leavesMembers : List (String × Lay) → List Leaf
  | [] => []
  | (_, y) :: l => leaves y ++ leavesMembers l
end

mutual
/-- No object has two members of one name. -/
def keyed : Lay → Bool
  | .field _ => true
  | .int _ _ _ _ => true
  | .arr l => keyedElems l
  | .obj l => decide (l.map (·.1)).Nodup && keyedMembers l
def keyedElems : List Lay → Bool
  | [] => true
  | y :: l => keyed y && keyedElems l
def keyedMembers : List (String × Lay) → Bool
  | [] => true
  | (_, y) :: l => keyed y && keyedMembers l
end

section
variable (env : Env) (m : Memory) (ks : List (String × Kind)) (argv : List (String × Val))

/-- The kind of a field. -/
def kindOf (f : String) : Kind := (ks.lookup f).getD .num
/-- Its value. -/
def valOf (f : String) : Val := (argv.lookup f).getD (.str [])
/-- What is read of it. -/
def jvOf (f : String) : JVal :=
  match marshal env argv (kindOf ks f) (valOf argv f) with
  | .ok j => j
  | _ => .num 0

/-- What a leaf stores. -/
def step (st : Args) : Leaf → Args
  | .field f => put st f (jvOf env ks argv f)
  | .int f o w s => patch st f o w (EventText.intAt (bytesOf m (valOf argv f)) o w s)

/-- A leaf that is read as it was written. -/
def Good : Leaf → Prop
  | .field f => kindOf ks f ≠ .sock ∧ kindOf ks f ≠ .ptrs ∧ (∃ j, marshal env argv (kindOf ks f) (valOf argv f) = .ok j) ∧
      ∀ i, valOf argv f = .int i → EventText.Word i
  | .int f o w _ => (w = 1 ∨ w = 2 ∨ w = 4 ∨ w = 8) ∧ o + w ≤ (bytesOf m (valOf argv f)).length

end

/-! ### One leaf -/

theorem mapM_names (l : List String) : (jsonElems (l.map fun s => Doc.str s.toList)).mapM nameIn = some l := by
  induction l with
  | nil => rfl
  | cons s l ih =>
    rw [List.map_cons, jsonElems, jsonOf, List.mapM_cons, ih]
    show (nameIn (Json.str s.toList)).bind _ = _
    unfold nameIn
    rw [Option.bind_some, String.ofList_toList]
    rfl

theorem field_read {env : Env} {m : Memory} {argv : List (String × Val)} {k : Kind} {v : Val} {j : JVal}
    (h1 : k ≠ .sock) (h2 : k ≠ .ptrs) (h3 : marshal env argv k v = .ok j) (h4 : ∀ i, v = .int i → EventText.Word i) :
    fieldOf k (jsonOf (fieldDoc env m argv k v)) = some (some j) := by
  have hn : ∀ s : String, nameOf (Json.str s.toList) = some s := fun s => by
    unfold EventRead.nameOf nameIn
    dsimp only
    rw [String.ofList_toList]
  have hns : ∀ l : List String, namesOf (jsonOf (names l)) = some l := fun l => by
    unfold names
    rw [jsonOf]
    exact mapM_names l
  cases k <;> cases v <;> first
    | (exact absurd rfl h1)
    | (exact absurd rfl h2)
    | (simp only [marshal, reduceCtorEq] at h3; done)
    | skip
  all_goals
    rw [marshal] at h3
    injection h3 with h3
    subst h3
  case num.int i =>
    rw [fieldDoc, jsonOf]
    show (integer (itoa i)).map _ = _
    rw [integer_itoa (h4 i rfl)]
    rfl
  case text.str bs =>
    rw [fieldDoc, jsonOf]
    show some (some (JVal.text (utf8 (runes bs.length bs)))) = _
    rw [utf8_ofBytes]
  case raw.buf bs =>
    rw [fieldDoc, jsonOf]
    show (unbase64 (base64 bs)).map _ = _
    rw [unbase64_base64]
    rfl
  case flags.int s i =>
    rw [fieldDoc]
    show (namesOf (jsonOf (names _))).map _ = _
    rw [hns]
    rfl
  case sockType.int i =>
    rw [fieldDoc]
    show (namesOf (jsonOf (names _))).map _ = _
    rw [hns]
    rfl
  all_goals
    simp only [fieldDoc, jsonOf, fieldOf, hn, Option.map_some]

theorem store_field (ks : List (String × Kind)) (v : Json) (f : String) (st : Args) :
    store ks v (.field f) st = (fieldOf (kindOf ks f) v).map fun o => (o.map (put st f)).getD st := by
  cases v <;> rw [store] <;> rfl

theorem wide_int {bs : List Byte} {o w : Nat} {s : Bool} (hw : w = 1 ∨ w = 2 ∨ w = 4 ∨ w = 8) :
    wide w s (itoa (EventText.intAt bs o w s)) = some (EventText.intAt bs o w s) := by
  unfold wide EventText.intAt
  cases s with
  | true =>
    rw [if_pos rfl, if_pos rfl]
    have h1 := (BitVec.ofNat (8 * w) (leVal (window bs o w))).toInt_lt
    have h2 := (BitVec.ofNat (8 * w) (leVal (window bs o w))).le_toInt
    generalize (BitVec.ofNat (8 * w) (leVal (window bs o w))).toInt = i at h1 h2
    have hf : Spec.Flags.FitsInt i := by
      unfold Spec.Flags.FitsInt
      rcases hw with rfl | rfl | rfl | rfl <;> omega
    rw [Flags.atoi_itoa hf]
    dsimp only
    rw [if_pos]
    rcases hw with rfl | rfl | rfl | rfl <;> omega
  | false =>
    simp only [Bool.false_eq_true, if_false]
    have h := leVal_le (a := bs) (off := o) (n := w)
    generalize leVal (window bs o w) = n at h
    have hp : (256 : Nat) ^ w = 2 ^ (8 * w) := by
      rw [Nat.pow_mul]
    rw [hp] at h
    have h64 : n < 2 ^ 64 := by
      rcases hw with rfl | rfl | rfl | rfl <;> omega
    rw [natural_itoa h64]
    dsimp only
    rw [if_pos h]

theorem store_int (ks : List (String × Kind)) (l : Str) (f : String) (o w : Nat) (s : Bool) (st : Args) :
    store ks (.num l) (.int f o w s) st = (wide w s l).map (patch st f o w) := by
  rw [store]

/-! ### Objects -/

theorem fieldNamed_exact {α : Type} : ∀ {l : List (String × α)} {k : String} {y : α}, (l.map (·.1)).Nodup → (k, y) ∈ l →
    fieldNamed l k.toList = some y := by
  intro l k y hn hm
  have h : l.find? (fun e => e.1.toList == k.toList) = some (k, y) := by
    induction l with
    | nil => cases hm
    | cons e l ih =>
      rw [List.map_cons, List.nodup_cons] at hn
      rcases List.mem_cons.1 hm with h | h
      · subst h
        rw [List.find?_cons_of_pos (by simp)]
      · rw [List.find?_cons_of_neg, ih hn.2 h]
        intro he
        have he : e.1.toList = k.toList := by simpa using he
        have he : e.1 = k := String.toList_inj.1 he
        exact hn.1 (List.mem_map.2 ⟨_, h, he.symm⟩)
  unfold fieldNamed
  rw [h]

mutual
theorem store_doc (env : Env) (m : Memory) (ks : List (String × Kind)) (argv : List (String × Val)) :
    ∀ (y : Lay), keyed y = true → (∀ l ∈ leaves y, Good env m ks argv l) → ∀ st,
      store ks (jsonOf (y.doc env m ks argv)) y st = some ((leaves y).foldl (step env m ks argv) st)
  | .field f, _, hg, st => by
    obtain ⟨h1, h2, ⟨j, h3⟩, h4⟩ := hg (.field f) (by rw [leaves]; exact .head _)
    rw [Lay.doc, store_field]
    have hr := field_read (m := m) h1 h2 h3 h4
    unfold kindOf valOf at hr
    unfold kindOf
    rw [hr, leaves]
    show some (put st f j) = some (put st f (jvOf env ks argv f))
    unfold jvOf
    rw [h3]
  | .int f o w s, _, hg, st => by
    have h := hg (.int f o w s) (by rw [leaves]; exact .head _)
    rw [Lay.doc, jsonOf, store_int, wide_int h.1, leaves]
    rfl
  | .arr l, hk, hg, st => by
    rw [keyed] at hk
    rw [leaves] at hg
    rw [Lay.doc, jsonOf, store, leaves]
    exact store_elems env m ks argv l hk hg st
  | .obj l, hk, hg, st => by
    rw [keyed, Bool.and_eq_true] at hk
    rw [leaves] at hg
    rw [Lay.doc, jsonOf, store, leaves]
    exact store_members env m ks argv l hk.2 hg l (fun k y hm => fieldNamed_exact (of_decide_eq_true hk.1) hm) st
theorem store_elems (env : Env) (m : Memory) (ks : List (String × Kind)) (argv : List (String × Val)) :
    ∀ (l : List Lay), keyedElems l = true → (∀ x ∈ leavesElems l, Good env m ks argv x) → ∀ st,
      storeElems ks (jsonElems (elemDocs env m ks argv l)) l st = some ((leavesElems l).foldl (step env m ks argv) st)
  | [], _, _, st => by rw [elemDocs, jsonElems, storeElems, leavesElems]; rfl
  | y :: l, hk, hg, st => by
    rw [keyedElems, Bool.and_eq_true] at hk
    rw [leavesElems] at hg
    rw [elemDocs, jsonElems, storeElems, leavesElems, List.foldl_append,
      store_doc env m ks argv y hk.1 (fun x hx => hg x (List.mem_append_left _ hx)) st, Option.bind_some]
    exact store_elems env m ks argv l hk.2 (fun x hx => hg x (List.mem_append_right _ hx)) _
theorem store_members (env : Env) (m : Memory) (ks : List (String × Kind)) (argv : List (String × Val)) :
    ∀ (l : List (String × Lay)), keyedMembers l = true → (∀ x ∈ leavesMembers l, Good env m ks argv x) →
      ∀ (all : List (String × Lay)), (∀ k y, (k, y) ∈ l → fieldNamed all k.toList = some y) → ∀ st,
      storeMembers ks (jsonMembers (memberDocs env m ks argv l)) all st =
        some ((leavesMembers l).foldl (step env m ks argv) st)
  | [], _, _, all, _, st => by rw [memberDocs, jsonMembers, storeMembers, leavesMembers]; rfl
  | (k, y) :: l, hk, hg, all, ha, st => by
    rw [keyedMembers, Bool.and_eq_true] at hk
    rw [leavesMembers] at hg
    rw [memberDocs, jsonMembers, storeMembers, ha k y (.head _)]
    dsimp only
    rw [leavesMembers, List.foldl_append,
      store_doc env m ks argv y hk.1 (fun x hx => hg x (List.mem_append_left _ hx)) st, Option.bind_some]
    exact store_members env m ks argv l hk.2 (fun x hx => hg x (List.mem_append_right _ hx)) all
      (fun k y hm => ha k y (.tail _ hm)) _
end

/-! ### Addresses -/

theorem sock_elems (env : Env) (m : Memory) (ks : List (String × Kind)) (argv : List (String × Val)) (f : String)
    {bs : List Byte} (hb : bytesOf m (valOf argv f) = bs) : ∀ (l : List Nat) (st : Args),
    storeElems ks (jsonElems (l.map fun i => Doc.num (EventText.intAt bs (2 + i) 1 true)))
      (l.map fun i => Lay.int f (2 + i) 1 true) st =
    some ((leavesElems (l.map fun i => Lay.int f (2 + i) 1 true)).foldl (step env m ks argv) st)
  | [], st => by rw [List.map_nil, List.map_nil, jsonElems, storeElems, leavesElems]; rfl
  | i :: l, st => by
    rw [List.map_cons, List.map_cons, jsonElems, jsonOf, storeElems, store_int, wide_int (.inl rfl), leavesElems, leaves,
      List.foldl_append]
    show storeElems ks _ _ (patch st f (2 + i) 1 (EventText.intAt bs (2 + i) 1 true)) = _
    rw [sock_elems env m ks argv f hb l, ← hb]
    rfl

theorem family_known (a b : Lay) : fieldNamed [("Family", a), ("Data", b)] "Family".toList = some a :=
  fieldNamed_exact (show ["Family", "Data"].Nodup by decide) (.head _)

theorem data_known (a b : Lay) : fieldNamed [("Family", a), ("Data", b)] "Data".toList = some b :=
  fieldNamed_exact (show ["Family", "Data"].Nodup by decide) (.tail _ (.head _))

theorem decoded_unknown (a b : Lay) : fieldNamed [("Family", a), ("Data", b)] "decoded".toList = none := by
  have h1 : ("Family".toList == "decoded".toList) = false := by decide
  have h2 : ("Data".toList == "decoded".toList) = false := by decide
  have h3 : Wire.named "Family" "decoded".toList = false := by decide
  have h4 : Wire.named "Data" "decoded".toList = false := by decide
  unfold fieldNamed
  set_option simprocs false in
  simp only [List.find?_cons, List.find?_nil, h1, h2, h3, h4, Option.map_none]

theorem store_sock (env : Env) (m : Memory) (ks : List (String × Kind)) (argv : List (String × Val)) (f : String)
    (st : Args) :
    store ks (jsonOf (sockDoc (bytesOf m (valOf argv f)))) (sockLay f) st =
      some ((leaves (sockLay f)).foldl (step env m ks argv) st) := by
  unfold sockDoc sockLay
  rw [jsonOf, store]
  simp only [jsonMembers, jsonOf, leaves, leavesMembers]
  rw [storeMembers, family_known]
  dsimp only
  rw [store_int, wide_int (.inr (.inl rfl)), Option.map_some, Option.bind_some]
  rw [storeMembers, data_known]
  dsimp only
  rw [store]
  rw [sock_elems env m ks argv f rfl, Option.bind_some]
  rw [storeMembers, decoded_unknown]
  dsimp only
  rw [storeMembers, List.append_nil, List.foldl_append]
  rfl

end Swoll.Lemmas.EventRead
