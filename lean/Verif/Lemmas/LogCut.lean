import Verif.Spec.Log
import Verif.Lemmas.EventText
/-
The JSON of an event whose addresses are cut to 16 bytes is that of the event, if the text of the
addresses uses no more of them.
-/
namespace Swoll.Lemmas.LogCut
open Swoll Swoll.Bytes Swoll.Event Swoll.Flags Swoll.EventJSON Swoll.EventText
open Swoll.Spec.EventJSON Swoll.Spec.Log
open Swoll.Lemmas.EventJSON Swoll.Lemmas.EventText

mutual
/-- The fields of which numbers are taken. -/
def ints : Lay → List String
  | .field _ => []
  | .int f _ _ _ => [f]
  | .arr l => elemInts l
  | .obj l => memberInts l
/-- Of elements. -/
def elemInts : List Lay → List String
  | [] => []
  | v :: l => ints v ++ elemInts l
/-- Of members. -/
def memberInts : List (String × Lay) → List String
  | [] => []
  | (_, v) :: l => ints v ++ memberInts l
end

section
set_option linter.unusedSectionVars false
variable {env : Env} {m : Memory} {ks : List (String × Kind)} {argv argv' : List (String × Val)}
  (h : ∀ f, fieldDoc env m argv' ((ks.lookup f).getD .num) ((argv'.lookup f).getD (.str [])) =
    fieldDoc env m argv ((ks.lookup f).getD .num) ((argv.lookup f).getD (.str [])))
include h

mutual
theorem lay_same : ∀ l : Lay, (∀ f ∈ ints l, argv'.lookup f = argv.lookup f) → l.doc env m ks argv' = l.doc env m ks argv
  | .field f, _ => by rw [Lay.doc, Lay.doc]; exact h f
  | .int f o w s, hi => by rw [Lay.doc, Lay.doc, hi f (by rw [ints]; exact List.mem_singleton.2 rfl)]
  | .arr l, hi => by rw [Lay.doc, Lay.doc, elems_same l (by rw [ints] at hi; exact hi)]
  | .obj l, hi => by rw [Lay.doc, Lay.doc, members_same l (by rw [ints] at hi; exact hi)]
theorem elems_same : ∀ l : List Lay, (∀ f ∈ elemInts l, argv'.lookup f = argv.lookup f) →
    elemDocs env m ks argv' l = elemDocs env m ks argv l
  | [], _ => by rw [elemDocs, elemDocs]
  | v :: l, hi => by
    rw [elemInts] at hi
    rw [elemDocs, elemDocs, lay_same v fun f hf => hi f (List.mem_append_left _ hf),
      elems_same l fun f hf => hi f (List.mem_append_right _ hf)]
theorem members_same : ∀ l : List (String × Lay), (∀ f ∈ memberInts l, argv'.lookup f = argv.lookup f) →
    memberDocs env m ks argv' l = memberDocs env m ks argv l
  | [], _ => by rw [memberDocs, memberDocs]
  | (k, v) :: l, hi => by
    rw [memberInts] at hi
    rw [memberDocs, memberDocs, lay_same v fun f hf => hi f (List.mem_append_left _ hf),
      members_same l fun f hf => hi f (List.mem_append_right _ hf)]
end
end

/-- No numbers are taken of an address. -/
theorem no_ints : decodeTypes.all (fun d => (memberInts (layout d.2)).all fun f =>
    decide (specials.lookup (d.1, f) ≠ some .address)) = true := by decide +kernel

theorem lookup_cut (nr : Nat) (n : String) : ∀ argv : List (String × Val),
    (cut nr argv).lookup n = (argv.lookup n).map (cutAddress (specials.lookup (nr, n)))
  | [] => rfl
  | a :: argv => by
    show ((a.1, cutAddress (specials.lookup (nr, a.1)) a.2) :: cut nr argv).lookup n = _
    obtain ⟨k, v⟩ := a
    rw [List.lookup_cons, List.lookup_cons]
    dsimp only
    cases hb : n == k with
    | true => rw [eq_of_beq hb]; rfl
    | false => exact lookup_cut nr n argv

theorem cutAddress_of {sp : Option Special} (h : sp ≠ some .address) (v : Val) : cutAddress sp v = v := by
  unfold cutAddress
  split
  · exact absurd rfl h
  · rfl

theorem intAt_cut (nr : Nat) (n : String) (argv : List (String × Val)) :
    EventJSON.intAt (cut nr argv) n = EventJSON.intAt argv n := by
  unfold EventJSON.intAt
  rw [lookup_cut]
  cases argv.lookup n with
  | none => rfl
  | some v =>
    generalize specials.lookup (nr, n) = sp
    cases v <;> (cases sp with
      | none => rfl
      | some sp => cases sp <;> rfl)

theorem window_take (bs : List Byte) {o w : Nat} (h : o + w ≤ 16) : window (bs.take 16) o w = window bs o w := by
  unfold window
  rw [List.drop_take, List.take_take, Nat.min_eq_left (by omega)]

theorem le_pair {bs : List Byte} {f : Byte} (h : leVal (bs.take 2) = f.toNat) : bs.take 2 = [f, 0] ∨ bs.take 2 = [f] ∨ bs = [] := by
  match bs, h with
  | [], _ => exact .inr (.inr rfl)
  | [a], h =>
    have h : a.toNat + 256 * 0 = f.toNat := h
    refine .inr (.inl ?_)
    rw [show a = f from UInt8.toNat_inj.1 (by omega)]
    rfl
  | a :: b :: bs, h =>
    have h : a.toNat + 256 * (b.toNat + 256 * 0) = f.toNat := h
    have h1 := f.toNat_lt
    have hb : b.toNat = 0 := by omega
    refine .inl ?_
    rw [show a = f from UInt8.toNat_inj.1 (by omega), show b = 0 from UInt8.toNat_inj.1 hb]
    rfl

/-- Text ends before the first byte 0. -/
theorem count_lt : ∀ {n : Nat} {l : List Byte}, 0 ∈ l.take n → cstrCount l < n
  | 0, _, h => by simp at h
  | n + 1, [], h => by simp at h
  | n + 1, b :: l, h => by
    rw [List.take_succ_cons] at h
    show (if b = 0 then 0 else cstrCount l + 1) < n + 1
    split
    · omega
    · next hb =>
      rcases List.mem_cons.1 h with h | h
      · exact absurd h.symm hb
      · have := count_lt h
        omega

theorem reads_short {bs : List Byte} (h2 : 2 ≤ bs.length) (h : Short bs) : sockAddrReads bs ≤ 16 := by
  have key : ∀ f : Byte, bs.take 2 ≠ [f, 0] → leVal (window bs 0 2) ≠ f.toNat := by
    intro f hf hl
    have hl : leVal (bs.take 2) = f.toNat := hl
    have hlen : (bs.take 2).length = 2 := by rw [List.length_take]; omega
    rcases le_pair hl with he | he | he
    · exact hf he
    · rw [he] at hlen; exact nomatch hlen
    · rw [he] at h2; exact absurd h2 (by decide)
  have k2 := key 10 h.1
  unfold sockAddrReads
  dsimp only
  split
  · decide
  · split
    · next he => exact absurd he k2
    · split
      · next he =>
        have hu : bs.take 2 = [1, 0] := Decidable.byContradiction fun hn => key 1 hn he
        have : cstrCount (window bs 2 108) < 14 := by
          refine count_lt ?_
          unfold window
          rw [List.take_take]
          exact h.2 hu
        have := Nat.min_le_left (cstrCount (window bs 2 108) + 1) 108
        show 2 + min (cstrCount (window bs 2 108) + 1) 108 ≤ 16
        omega
      · split <;> decide

theorem sockDoc_cut {bs : List Byte} (h : sockAddrReads bs ≤ 16) : sockDoc (bs.take 16) = sockDoc bs := by
  have hs : sockAddrString (bs.take 16) = sockAddrString bs := Props.Flags.c71_sockaddr_json_partial h
  unfold sockDoc
  rw [hs]
  have h0 : EventText.intAt (bs.take 16) 0 2 false = EventText.intAt bs 0 2 false := by
    unfold EventText.intAt
    rw [window_take bs (by omega)]
  rw [h0]
  congr 4
  refine congrArg _ (List.map_congr_left fun i hi => ?_)
  have hi := List.mem_range.1 hi
  unfold EventText.intAt
  rw [window_take bs (by omega)]

/-- The arguments, with the address cut, have the JSON they have without. -/
theorem args_cut {env : Env} (m : Memory) {nr : Nat} {fields : List (String × Rd)} (hd : decoders.lookup nr = some fields)
    {a : List Byte} (hs : ∀ n bs, (n, Val.buf bs) ∈ fields.map (fun f => (f.1, evalRd a f.2)) → specials.lookup (nr, n) = some .address →
      sockAddrReads bs ≤ 16) :
    argsDoc env m ((decodeTypes.lookup nr).getD "") (cut nr (fields.map fun f => (f.1, evalRd a f.2))) =
      argsDoc env m ((decodeTypes.lookup nr).getD "") (fields.map fun f => (f.1, evalRd a f.2)) := by
  obtain ⟨t, ks, ht, -, hks, -, -, hrow⟩ := row hd
  rw [ht]
  show argsDoc env m t _ = argsDoc env m t _
  unfold argsDoc
  rw [hks]
  congr 1
  generalize hA : fields.map (fun f => (f.1, evalRd a f.2)) = argv at hs
  have hne : ∀ f, specials.lookup (nr, f) ≠ some .address → (cut nr argv).lookup f = argv.lookup f := by
    intro f hf
    rw [lookup_cut]
    cases argv.lookup f with
    | none => rfl
    | some v => show some _ = some v; rw [cutAddress_of hf]
  refine members_same ?_ _ ?_
  · intro f
    have harg : ∀ (k : Kind) (v : Val), fieldDoc env m (cut nr argv) k v = fieldDoc env m argv k v := by
      intro k v
      unfold fieldDoc
      split <;> first
        | rfl
        | rw [intAt_cut, intAt_cut]
    rw [harg]
    by_cases ha : specials.lookup (nr, f) = some .address
    · rw [lookup_cut]
      cases hl : argv.lookup f with
      | none => rfl
      | some v =>
        show fieldDoc env m argv _ (cutAddress _ v) = fieldDoc env m argv _ v
        have hm := mem_of_lookup hl
        rw [← hA] at hm
        obtain ⟨g, hg, hge⟩ := List.mem_map.1 hm
        obtain ⟨rfl, rfl⟩ := Prod.mk.inj hge
        obtain ⟨k, hk, hko, hso, -⟩ := hrow g hg
        rw [ha] at hso ⊢
        rw [hk]
        cases hv : evalRd a g.2 with
        | buf bs =>
          have hk' : k = .sock := by
            cases k <;> first
              | rfl
              | exact (Bool.false_ne_true hso).elim
              | (next s => cases s <;> exact (Bool.false_ne_true hso).elim)
          subst hk'
          show sockDoc (bs.take 16) = sockDoc bs
          refine sockDoc_cut (hs g.1 bs ?_ ha)
          rw [← hv]
          exact mem_of_lookup hl
        | _ => rfl
    · rw [hne f ha]
  · intro f hf
    refine hne f ?_
    have := List.all_eq_true.1 (List.all_eq_true.1 no_ints _ (mem_of_lookup ht)) f hf
    exact of_decide_eq_true this

end Swoll.Lemmas.LogCut
