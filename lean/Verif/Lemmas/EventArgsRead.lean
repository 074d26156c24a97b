import Verif.Lemmas.EventStore
/-
The arguments of every system call are read as they were written.
-/
namespace Swoll.Lemmas.EventRead
open Swoll Swoll.Bytes Swoll.Event Swoll.Flags Swoll.EventJSON Swoll.EventText Swoll.EventRead
open Swoll.Json (Str Json)
open Swoll.Lemmas.EventText Swoll.Lemmas.EventJSON

/-- The leaves that are stored for the members of the arguments. -/
def leavesTop (ks : List (String × Kind)) (l : List (String × Lay)) : List Leaf := l.flatMap fun e => leaves (expand ks e.2)

theorem store_top (env : Env) (m : Memory) (ks : List (String × Kind)) (argv : List (String × Val))
    (all : List (String × Lay)) : ∀ (l : List (String × Lay)), keyedMembers l = true →
      (∀ x ∈ leavesTop ks l, Good env m ks argv x) →
      (∀ k y, (k, y) ∈ l → fieldNamed all k.toList = some (expand ks y)) → ∀ st,
      storeMembers ks (jsonMembers (memberDocs env m ks argv l)) all st =
        some ((leavesTop ks l).foldl (step env m ks argv) st)
  | [], _, _, _, st => by rw [memberDocs, jsonMembers, storeMembers]; rfl
  | (k, y) :: l, hk, hg, ha, st => by
    rw [keyedMembers, Bool.and_eq_true] at hk
    have hl : leavesTop ks ((k, y) :: l) = leaves (expand ks y) ++ leavesTop ks l := rfl
    rw [hl] at hg ⊢
    have hst : store ks (jsonOf (y.doc env m ks argv)) (expand ks y) st =
        some ((leaves (expand ks y)).foldl (step env m ks argv) st) := by
      by_cases hs : ∃ f, y = .field f ∧ kindOf ks f = .sock
      · obtain ⟨f, rfl, hs⟩ := hs
        have he : expand ks (.field f) = sockLay f := by
          unfold expand kindOf at *
          exact if_pos hs
        rw [he, Lay.doc]
        unfold kindOf at hs
        rw [hs]
        have hd : fieldDoc env m argv .sock ((argv.lookup f).getD (.str [])) = sockDoc (bytesOf m (valOf argv f)) := by
          unfold fieldDoc valOf
          rfl
        rw [hd]
        exact store_sock env m ks argv f st
      · have he : expand ks y = y := by
          cases y with
          | field f =>
            unfold expand
            exact if_neg fun h => hs ⟨f, rfl, h⟩
          | _ => rfl
        rw [he] at hg ⊢
        exact store_doc env m ks argv y hk.1 (fun x hx => hg x (List.mem_append_left _ hx)) st
    rw [memberDocs, jsonMembers, storeMembers, ha k y (.head _)]
    dsimp only
    rw [hst, Option.bind_some, List.foldl_append]
    exact store_top env m ks argv all l hk.2 (fun x hx => hg x (List.mem_append_right _ hx))
      (fun k y hm => ha k y (.tail _ hm)) _

/-! ### Where a field comes from -/

/-- What a field holds: the value of a field, or so many bytes of its own. -/
inductive Sym where
  | val (f : String)
  | bytes (n : Nat)
  deriving DecidableEq

/-- The bytes of a field so far. -/
def symBytes (sy : GoMap String Sym) (f : String) (o : Nat) : Bool :=
  match GoMap.get sy f with
  | none => o == 0
  | some (.bytes n) => n == o
  | some (.val _) => false

def symStep (sy : GoMap String Sym) : Leaf → Option (GoMap String Sym)
  | .field f => some (if f = "name.tp" then GoMap.set (GoMap.set sy "name.tp" (.val f)) "name.lv" (.val f)
      else GoMap.set sy f (.val f))
  | .int f o w _ => if symBytes sy f o then some (GoMap.set sy f (.bytes (o + w))) else none

def symRun (sy : GoMap String Sym) : List Leaf → Option (GoMap String Sym)
  | [] => some sy
  | x :: l => (symStep sy x).bind fun s => symRun s l

/-- What it stands for. -/
def denote (env : Env) (m : Memory) (ks : List (String × Kind)) (argv : List (String × Val)) (f : String) : Sym → JVal
  | .val g => jvOf env ks argv g
  | .bytes n => .bytes (window (bytesOf m (valOf argv f)) 0 n)

theorem int_bytes {bs : List Byte} {o w : Nat} {s : Bool} (h : o + w ≤ bs.length) :
    leBytes w (EventText.intAt bs o w s % 2 ^ (8 * w)).toNat = window bs o w := by
  have hl : (window bs o w).length = w := length_window bs o w h
  have hlt := leVal_le (a := bs) (off := o) (n := w)
  have hp : (256 : Nat) ^ w = 2 ^ (8 * w) := by rw [Nat.pow_mul]
  rw [hp] at hlt
  have hv : (EventText.intAt bs o w s % 2 ^ (8 * w)).toNat = leVal (window bs o w) := by
    unfold EventText.intAt
    cases s with
    | true =>
      rw [if_pos rfl, BitVec.toInt_eq_toNat_bmod, Int.bmod_def]
      rw [BitVec.toNat_ofNat, Nat.mod_eq_of_lt hlt]
      generalize leVal (window bs o w) = n at hlt
      have hc : ((2 ^ (8 * w) : Nat) : Int) = 2 ^ (8 * w) := by simp
      rw [hc]
      have hn : (n : Int) % 2 ^ (8 * w) = n := Int.emod_eq_of_lt (by omega) (by rw [← hc]; omega)
      rw [hn]
      split
      · rw [hn]; omega
      · rw [Int.sub_emod_right, hn]; omega
    | false =>
      simp only [Bool.false_eq_true, if_false]
      generalize leVal (window bs o w) = n at hlt
      have hc : ((2 ^ (8 * w) : Nat) : Int) = 2 ^ (8 * w) := by simp
      have hn : (n : Int) % 2 ^ (8 * w) = n := Int.emod_eq_of_lt (by omega) (by rw [← hc]; omega)
      rw [hn]; omega
  rw [hv]
  have := leBytes_leVal (window bs o w)
  rwa [hl] at this

theorem window_grow (bs : List Byte) (o w : Nat) : window bs 0 o ++ window bs o w = window bs 0 (o + w) := by
  unfold window
  rw [List.drop_zero, List.take_add]

theorem overlay_end (bs new : List Byte) {o : Nat} (h : bs.length = o) : overlay bs o new = bs ++ new := by
  unfold overlay
  subst h
  rw [List.take_length, Nat.sub_self, List.replicate_zero, List.append_nil, List.drop_of_length_le (by omega),
    List.append_nil]

theorem symStep_step {env : Env} {m : Memory} {ks : List (String × Kind)} {argv : List (String × Val)} {x : Leaf}
    (hg : Good env m ks argv x) {st : Args} {sy sy' : GoMap String Sym}
    (hr : ∀ f, GoMap.get st f = (GoMap.get sy f).map (denote env m ks argv f)) (hs : symStep sy x = some sy') :
    ∀ f, GoMap.get (step env m ks argv st x) f = (GoMap.get sy' f).map (denote env m ks argv f) := by
  cases x with
  | field g =>
    intro f
    injection hs with hs
    subst hs
    show GoMap.get (put st g _) f = _
    unfold put
    split
    · rw [GoMap.get_set, GoMap.get_set, GoMap.get_set, GoMap.get_set]
      split
      · rfl
      · split
        · rfl
        · exact hr f
    · rw [GoMap.get_set, GoMap.get_set]
      split
      · rfl
      · exact hr f
  | int g o w s =>
    intro f
    unfold symStep at hs
    dsimp only at hs
    split at hs
    case isFalse => cases hs
    next hb =>
    injection hs with hs
    subst hs
    show GoMap.get (patch st g o w _) f = _
    unfold patch
    rw [GoMap.get_set, GoMap.get_set]
    split
    case isFalse => exact hr f
    next hgf =>
    subst hgf
    rw [Option.map_some]
    refine congrArg some ?_
    show JVal.bytes _ = JVal.bytes _
    congr 1
    have hbytes : bytesAt st g = window (bytesOf m (valOf argv g)) 0 o := by
      unfold bytesAt
      rw [hr g]
      unfold symBytes at hb
      cases hgs : GoMap.get sy g with
      | none =>
        rw [hgs] at hb
        have : o = 0 := by simpa using hb
        subst this
        rfl
      | some a =>
        rw [hgs] at hb
        cases a with
        | val _ => cases hb
        | bytes n =>
          have : n = o := by simpa using hb
          subst this
          rfl
    have hlen : (window (bytesOf m (valOf argv g)) 0 o).length = o := length_window _ _ _ (by have := hg.2; omega)
    rw [hbytes, overlay_end _ _ hlen, int_bytes hg.2, window_grow]

theorem symRun_foldl {env : Env} {m : Memory} {ks : List (String × Kind)} {argv : List (String × Val)} :
    ∀ {l : List Leaf}, (∀ x ∈ l, Good env m ks argv x) → ∀ {st : Args} {sy sy' : GoMap String Sym},
    (∀ f, GoMap.get st f = (GoMap.get sy f).map (denote env m ks argv f)) → symRun sy l = some sy' →
    ∀ f, GoMap.get (l.foldl (step env m ks argv) st) f = (GoMap.get sy' f).map (denote env m ks argv f)
  | [], _, st, sy, sy', hr, hs => by
    injection hs with hs
    subst hs
    exact hr
  | x :: l, hg, st, sy, sy', hr, hs => by
    rw [symRun] at hs
    cases hx : symStep sy x with
    | none => rw [hx] at hs; cases hs
    | some s =>
      rw [hx] at hs
      exact symRun_foldl (fun y hy => hg y (.tail _ hy)) (symStep_step (hg x (.head _)) hr hx) hs

theorem get_lookup {V : Type} (l : GoMap String V) (k : String) : GoMap.get l k = List.lookup k l := by
  induction l with
  | nil => rfl
  | cons e l ih =>
    rw [GoMap.get_cons, List.lookup_cons, ih]
    by_cases h : e.1 = k
    · rw [if_pos h, h]; simp
    · rw [if_neg h]
      have : (k == e.1) = false := by simpa using fun h' => h h'.symm
      rw [this]

/-! ### The tables -/

/-- The bytes a reader always gives. -/
def rdLen : Rd → Nat
  | .mem s n => if s * 128 + n ≤ 640 then n else 0
  | .memAt s o n => if s * 128 + o + n ≤ 640 then n else 0
  | .sock s => if s * 128 + 110 ≤ 640 then 110 else 0
  | _ => 0

/-- Leaves that are read as they were written. -/
def leafOk (ks : List (String × Kind)) (fields : List (String × Rd)) : Leaf → Bool
  | .field f => decide (kindOf ks f ≠ .sock) && decide (kindOf ks f ≠ .ptrs) && (fields.lookup f).isSome
  | .int f o w _ => (w == 1 || w == 2 || w == 4 || w == 8) && decide (o + w ≤ ((fields.lookup f).map rdLen).getD 0)

/-- What a field holds in the end. -/
def symOk (k : Kind) (f : String) (rd : Rd) : Option Sym → Bool
  | some (.val g) => decide (g = f) || (decide (f = "name.lv") && decide (g = "name.tp") && decide (k = .optLv))
  | some (.bytes n) => (decide (k = .raw) && decide (rdLen rd = n ∧ 0 < n)) || (decide (k = .sock) && n == 16 && decide (16 ≤ rdLen rd))
  | none => false

/-- All of the above for one system call. -/
def rowRead (d : Nat × List (String × Rd)) : Bool :=
  let t := (decodeTypes.lookup d.1).getD ""
  let ks := (fieldKinds.lookup t).getD []
  let lv := leavesTop ks (layout t)
  keyedMembers (layout t) && decide ((layout t).map (·.1)).Nodup && lv.all (leafOk ks d.2) &&
  (match symRun [] lv with
   | some sy => d.2.all fun f => symOk (kindOf ks f.1) f.1 f.2 (GoMap.get sy f.1)
   | none => false) && (if (ks.map (·.1)).contains "name.lv" then kindOf ks "name.tp" == .optTp else true)

theorem rows_read : decoders.all (fun d => d.1 == 35 || rowRead d) = true := by decide +kernel

theorem allOk_congr {α β : Type} {f g : α → Res β} : ∀ {l : List α}, (∀ a ∈ l, f a = g a) → allOk f l = allOk g l
  | [], _ => rfl
  | a :: l, h => by
    rw [allOk, allOk, h a (.head _), allOk_congr fun x hx => h x (.tail _ hx)]

theorem readArgs_congr (env : Env) (t : String) {j j' : List (String × JVal)}
    (h : ∀ f ∈ (fieldKinds.lookup t).getD [], j.lookup f.1 = j'.lookup f.1) : readArgs env t j = readArgs env t j' := by
  unfold readArgs
  refine allOk_congr fun f hf => ?_
  unfold readField
  rw [h f hf]

theorem rdLen_buf {a : List Byte} (ha : a.length = 640) {rd : Rd} (h : 0 < rdLen rd) :
    ∃ bs, evalRd a rd = .buf bs ∧ bs.length = rdLen rd := by
  have hb : ∀ (off : Nat) (n : Nat), off + n ≤ 640 → ∃ bs, makeCBytes a off n = .buf bs ∧ bs.length = n := by
    intro off n hn
    unfold makeCBytes
    rw [if_pos (by omega)]
    exact ⟨_, rfl, length_window _ _ _ (by rw [ha]; simpa using hn)⟩
  cases rd <;> simp only [rdLen, Nat.lt_irrefl] at h
  case mem s n =>
    split at h
    · next hc =>
      rw [rdLen, if_pos hc]
      exact hb _ _ (by simpa [argLen] using hc)
    · omega
  case memAt s o n =>
    split at h
    · next hc =>
      rw [rdLen, if_pos hc]
      exact hb _ _ (by simpa [argLen] using hc)
    · omega
  case sock s =>
    split at h
    · next hc =>
      rw [rdLen, if_pos hc]
      exact hb _ _ (by simpa [argLen] using hc)
    · omega

/-- The arguments are read as they were written. -/
theorem args_read (env : Env) (m : Memory) {nr : Nat} (h35 : nr ≠ 35) {fields : List (String × Rd)}
    (hf : decoders.lookup nr = some fields) {a : List Byte} (ha : a.length = 640)
    (ho : ∀ f ∈ fields, isOutside (evalRd a f.2) = false) :
    ∃ t js, decodeTypes.lookup nr = some t ∧ jsonTypes.lookup nr = some t ∧
      writeArgs env t (fields.map fun f => (f.1, evalRd a f.2)) = .ok js ∧
      argsOf env t (jsonOf (argsDoc env m t (fields.map fun f => (f.1, evalRd a f.2)))) = readArgs env t js := by
  obtain ⟨t, ks, ht, ht', hks, hnames, hnd, hrow⟩ := row hf
  obtain ⟨js, hjs, hjn, hjm⟩ := writeArgs_ok env hks hrow a ho
  refine ⟨t, js, ht, ht', hjs, ?_⟩
  have hr := List.all_eq_true.1 rows_read _ (mem_of_lookup hf)
  have h35' : (nr == 35) = false := by simpa using h35
  rw [Bool.or_eq_true] at hr
  replace hr := hr.resolve_left (by show ¬ (nr == 35) = true; rw [h35']; exact nofun)
  unfold rowRead at hr
  dsimp only at hr
  rw [ht, Option.getD_some, hks] at hr
  simp only [Bool.and_eq_true] at hr
  obtain ⟨⟨⟨⟨hkeyed, hkeys⟩, hleaf⟩, hsym⟩, hlv⟩ := hr
  generalize hargv : (fields.map fun f => (f.1, evalRd a f.2)) = argv at hjs hjm ⊢
  have hval : ∀ f rd, fields.lookup f = some rd → valOf argv f = evalRd a rd := by
    intro f rd h
    unfold valOf
    rw [← hargv, lookup_argv, h]
    rfl
  have hgood : ∀ x ∈ leavesTop ks (layout t), Good env m ks argv x := by
    intro x hx
    have hx := List.all_eq_true.1 hleaf x hx
    cases x with
    | field f =>
      unfold leafOk at hx
      simp only [Bool.and_eq_true, decide_eq_true_eq] at hx
      obtain ⟨⟨h1, h2⟩, h3⟩ := hx
      obtain ⟨rd, hrd⟩ := Option.isSome_iff_exists.1 h3
      have hm := mem_of_lookup hrd
      obtain ⟨k, hk, hko, -, -⟩ := hrow _ hm
      have hkk : kindOf ks f = k := by unfold kindOf; rw [hk]; rfl
      refine ⟨h1, h2, ?_, ?_⟩
      · rw [hval f rd hrd, hkk]
        exact marshal_ok env argv a hko (ho _ hm)
      · rw [hval f rd hrd]
        exact fun i hi => evalRd_int hi
    | int f o w s =>
      unfold leafOk at hx
      simp only [Bool.and_eq_true, decide_eq_true_eq, Bool.or_eq_true, beq_iff_eq] at hx
      obtain ⟨h1, h2⟩ := hx
      refine ⟨by omega, ?_⟩
      cases hrd : fields.lookup f with
      | none =>
        rw [hrd] at h2
        have : o + w ≤ 0 := h2
        omega
      | some rd =>
        rw [hrd] at h2
        have h2 : o + w ≤ rdLen rd := h2
        obtain ⟨bs, hb, hl⟩ := rdLen_buf ha (rd := rd) (by omega)
        rw [hval f rd hrd, hb]
        show o + w ≤ bs.length
        omega
  have hst := store_top env m ks argv ((layout t).map fun e => (e.1, expand ks e.2)) (layout t) hkeyed hgood
    (fun k y hm => fieldNamed_exact (by
      rw [List.map_map]
      exact of_decide_eq_true hkeys) (List.mem_map.2 ⟨_, hm, rfl⟩)) []
  have harg : argsOf env t (jsonOf (argsDoc env m t argv)) =
      readArgs env t ((leavesTop ks (layout t)).foldl (step env m ks argv) []) := by
    unfold argsOf argsDoc
    dsimp only
    rw [hks, jsonOf, store]
    rw [hst]
  rw [harg]
  cases hrun : symRun [] (leavesTop ks (layout t)) with
  | none => rw [hrun] at hsym; cases hsym
  | some sy =>
  rw [hrun] at hsym
  dsimp only at hsym
  have hget := symRun_foldl hgood (st := []) (sy := []) (fun _ => rfl) hrun
  refine readArgs_congr env t fun f hfk => ?_
  rw [hks] at hfk
  obtain ⟨rd, hrd⟩ := key_mem hnames hfk
  obtain ⟨j, hj⟩ := key_mem hjn.symm hrd
  obtain ⟨k, hk, hm⟩ := hjm (f.1, rd) j hrd hj hnd
  have hs := List.all_eq_true.1 hsym _ hrd
  dsimp only at hs hm hk
  have hkk : kindOf ks f.1 = k := by unfold kindOf; rw [hk]; rfl
  have hv := hval f.1 rd (lookup_of_mem hnd hrd)
  rw [lookup_of_mem (hjn ▸ hnd) hj, ← get_lookup, hget f.1]
  rw [hkk] at hs
  cases hsy : GoMap.get sy f.1 with
  | none => rw [hsy] at hs; cases hs
  | some x =>
  rw [hsy] at hs
  rw [Option.map_some]
  refine congrArg some ?_
  cases x with
  | val g =>
    unfold symOk at hs
    simp only [Bool.or_eq_true, Bool.and_eq_true, decide_eq_true_eq] at hs
    show jvOf env ks argv g = j
    rcases hs with rfl | ⟨⟨hfn, rfl⟩, rfl⟩
    · unfold jvOf
      rw [hkk, hv, hm]
    · rw [if_pos (by
        rw [List.contains_iff_mem]
        exact List.mem_map.2 ⟨f, hfk, hfn⟩)] at hlv
      have hlv : kindOf ks "name.tp" = .optTp := by simpa using hlv
      have htp : ks.lookup "name.tp" = some .optTp := by
        unfold kindOf at hlv
        cases h : ks.lookup "name.tp" with
        | none => rw [h] at hlv; cases hlv
        | some _ => rw [h] at hlv; exact congrArg some hlv
      obtain ⟨rd', hrd'⟩ := key_mem hnames (mem_of_lookup htp)
      obtain ⟨k', hk', hko', -, -⟩ := hrow _ hrd'
      obtain rfl : k' = .optTp := Option.some.inj (hk'.symm.trans htp)
      obtain ⟨i', hi'⟩ : ∃ i, evalRd a rd' = .int i := by
        cases rd' <;> first
          | exact Bool.noConfusion hko'
          | exact ⟨_, rfl⟩
      obtain ⟨i, hi⟩ : ∃ i, evalRd a rd = .int i := by
        cases h : evalRd a rd <;> first
          | exact ⟨_, rfl⟩
          | (rw [h] at hm; simp only [marshal, reduceCtorEq] at hm; done)
      unfold jvOf
      rw [hlv, hval "name.tp" rd' (lookup_of_mem hnd hrd'), hi', marshal]
      rw [hi, marshal] at hm
      exact Res.ok.inj hm
  | bytes n =>
    unfold symOk at hs
    simp only [Bool.or_eq_true, Bool.and_eq_true, decide_eq_true_eq, beq_iff_eq] at hs
    show JVal.bytes (window (bytesOf m (valOf argv f.1)) 0 n) = j
    rcases hs with ⟨rfl, hl, hn⟩ | ⟨⟨rfl, rfl⟩, hl⟩
    · obtain ⟨bs, hb, hbl⟩ := rdLen_buf ha (rd := rd) (by omega)
      rw [hb, marshal] at hm
      have hm := Res.ok.inj hm
      rw [hv, hb, ← hm]
      show JVal.bytes (window bs 0 n) = _
      rw [← hl, ← hbl, window_all]
    · obtain ⟨bs, hb, hbl⟩ := rdLen_buf ha (rd := rd) (by omega)
      rw [hb, marshal] at hm
      have hm := Res.ok.inj hm
      rw [hv, hb, ← hm]
      rfl

end Swoll.Lemmas.EventRead
