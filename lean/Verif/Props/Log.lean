import Verif.Spec.Log
import Verif.Props.EventRead
import Verif.Props.EventText
import Verif.Lemmas.JsonSound
import Verif.Lemmas.LogCut
/-
C149: the log of a trace holds its events, one line each, and can be read back.

A server sends an event `ev` as a text; a client makes an event `ev'` of it and prints a line, `line`, of its log; a reader
goes through the log, `tool`. `m` and `m'` are the memories of the server and the client beside the event.
-/
namespace Swoll.Props.Log
open Swoll Swoll.Bytes Swoll.Event Swoll.Flags Swoll.EventJSON Swoll.EventText Swoll.EventRead Swoll.Log
open Swoll.Json (Str Json)
open Swoll.Spec.Log Swoll.Spec.EventRead
open Swoll.Lemmas.EventRead Swoll.Lemmas.EventText
open Swoll.Props.EventJSON (Decoded Built)
open Swoll.Spec.EventJSON (cut toldError)
open Swoll.Spec.Json (Space Says)

/-! ### Lines -/

/-- No character of a text is a control character. -/
def Clean (s : Str) : Prop := ∀ c ∈ s, 0x20 ≤ c.toNat

theorem clean_nil : Clean [] := fun _ h => by cases h

theorem clean_append {a b : Str} (ha : Clean a) (hb : Clean b) : Clean (a ++ b) := by
  intro c hc
  rcases List.mem_append.1 hc with h | h
  · exact ha c h
  · exact hb c h

theorem clean_cons {c : Char} {s : Str} (hc : 0x20 ≤ c.toNat) (hs : Clean s) : Clean (c :: s) := by
  intro x hx
  rcases List.mem_cons.1 hx with rfl | h
  · exact hc
  · exact hs x h

theorem hexDigit_clean : ∀ n < 16, 0x20 ≤ (Json.hexDigit n).toNat := by decide

theorem clean_unicode (n : Nat) : Clean (Json.unicode n) := by
  have h : ∀ k, 0x20 ≤ (Json.hexDigit (k % 16)).toNat := fun k => hexDigit_clean _ (Nat.mod_lt _ (by decide))
  unfold Json.unicode
  intro c hc
  simp only [List.mem_cons, List.not_mem_nil, or_false] at hc
  rcases hc with rfl | rfl | rfl | rfl | rfl | rfl
  · decide
  · decide
  all_goals exact h _

theorem clean_escape (c : Char) : Clean (Json.escape c) := by
  unfold Json.escape
  repeat' split
  all_goals first
    | exact clean_unicode _
    | (intro x hx
       simp only [List.mem_cons, List.not_mem_nil, or_false] at hx
       rcases hx with rfl | rfl <;> decide)
    | skip
  next h =>
    intro x hx
    rw [List.mem_singleton.1 hx]
    omega

theorem clean_flatMap : ∀ s : Str, Clean (s.flatMap Json.escape)
  | [] => clean_nil
  | c :: s => by rw [List.flatMap_cons]; exact clean_append (clean_escape c) (clean_flatMap s)

theorem clean_quote (s : Str) : Clean (Json.quote s) :=
  clean_cons (by decide) (clean_append (clean_flatMap s) (clean_cons (by decide) clean_nil))

theorem clean_body : ∀ (n : Nat) (bs : List Byte), Clean (body n bs)
  | 0, _ => clean_nil
  | n + 1, [] => clean_nil
  | n + 1, b :: bs => by
    unfold body
    split
    · exact clean_append (clean_escape _) (clean_body n _)
    · exact clean_append (clean_unicode _) (clean_body n _)

theorem clean_itoa (i : Int) : Clean (itoa i) := by
  intro c hc
  obtain ⟨-, h⟩ := itoa_plain i c hc
  exact clean_escape c c (by rw [h]; simp)

mutual
theorem clean_doc : ∀ d : Doc, Clean d.text
  | .null => by rw [Doc.text]; intro c hc; revert c; decide
  | .num i => by rw [Doc.text]; exact clean_itoa i
  | .str s => by rw [Doc.text]; exact clean_quote s
  | .bytes bs => by
    rw [Doc.text]
    exact clean_cons (by decide) (clean_append (clean_body _ _) (clean_cons (by decide) clean_nil))
  | .arr l => by
    rw [Doc.text]; exact clean_cons (by decide) (clean_append (clean_elems l) (clean_cons (by decide) clean_nil))
  | .obj l => by
    rw [Doc.text]; exact clean_cons (by decide) (clean_append (clean_members l) (clean_cons (by decide) clean_nil))
theorem clean_elems : ∀ l : List Doc, Clean (elems l)
  | [] => by rw [elems]; exact clean_nil
  | [v] => by rw [elems.eq_def]; exact clean_append (clean_doc v) clean_nil
  | v :: w :: l => by
    rw [elems.eq_def]; exact clean_append (clean_doc v) (clean_cons (by decide) (clean_elems (w :: l)))
theorem clean_members : ∀ l : List (String × Doc), Clean (members l)
  | [] => by rw [members]; exact clean_nil
  | [(k, v)] => by
    rw [members.eq_def]
    exact clean_append (clean_append (clean_quote _) (clean_cons (by decide) (clean_doc v))) clean_nil
  | (k, v) :: e :: l => by
    rw [members.eq_def]
    exact clean_append (clean_append (clean_quote _) (clean_cons (by decide) (clean_doc v)))
      (clean_cons (by decide) (clean_members (e :: l)))
end

theorem textMembers_one (k : Str) (v : Json) : Json.textMembers [(k, v)] = Json.quote k ++ ':' :: v.text := by
  rw [Json.textMembers.eq_def]
  simp

theorem textMembers_more (k : Str) (v : Json) (e : Str × Json) (l : List (Str × Json)) :
    Json.textMembers ((k, v) :: e :: l) = Json.quote k ++ ':' :: v.text ++ ',' :: Json.textMembers (e :: l) := by
  rw [Json.textMembers.eq_def]

theorem clean_endpoint (ep : Endpoint) : Clean ep.json.text := by
  have hb : ∀ b, Clean (Json.Json.text (.bool b)) := by
    intro b
    cases b <;> (rw [Json.Json.text]; intro c hc; revert c; decide)
  have hn : Clean (Json.Json.text (Wire.ofInt ep.port)) := by
    unfold Wire.ofInt
    rw [Json.Json.text]
    exact clean_itoa _
  have hs : Clean (Json.Json.text (.str ep.host)) := by rw [Json.Json.text]; exact clean_quote _
  unfold Endpoint.json
  rw [Json.Json.text, textMembers_more, textMembers_more, textMembers_one]
  exact clean_cons (by decide) (clean_append (clean_append (clean_append (clean_quote _) (clean_cons (by decide) hs))
    (clean_cons (by decide) (clean_append (clean_append (clean_quote _) (clean_cons (by decide) hn))
      (clean_cons (by decide) (clean_append (clean_quote _) (clean_cons (by decide) (hb _)))))))
    (clean_cons (by decide) clean_nil))

theorem clean_entry (env : Env) (m : Memory) (ep : Endpoint) (ev : TraceEvent Topology.Container) : Clean (entry env m ep ev) := by
  unfold entry
  exact clean_cons (by decide) (clean_append (clean_append (clean_append (clean_append (clean_quote _)
    (clean_cons (by decide) (clean_endpoint ep))) (clean_cons (by decide) (clean_quote _)))
    (clean_cons (by decide) (clean_doc _))) (clean_cons (by decide) clean_nil))

theorem clean_not {s : Str} (h : Clean s) : '\n' ∉ s ∧ '\r' ∉ s :=
  ⟨fun hc => absurd (h _ hc) (by decide), fun hc => absurd (h _ hc) (by decide)⟩

theorem split_line : ∀ (s cur rest : Str), '\n' ∉ s → split cur (s ++ '\n' :: rest) = (cur ++ s) :: split [] rest
  | [], cur, rest, _ => by simp [split]
  | c :: s, cur, rest, h => by
    have hc : c ≠ '\n' := fun e => h (by rw [e]; simp)
    rw [List.cons_append, split, if_neg hc, split_line s _ rest (fun hh => h (List.mem_cons_of_mem _ hh))]
    simp

theorem dropCR_none {s : Str} (h : '\r' ∉ s) : dropCR s = s := by
  unfold dropCR
  rw [if_neg]
  intro e
  exact h (List.mem_of_getLast? e)

/-- C149: whatever the events, their lines are the lines of the log, in order. -/
theorem c149_lines (env : Env) (m : Memory) (l : List (Endpoint × TraceEvent Topology.Container)) :
    (split [] (l.flatMap fun x => line env m x.1 x.2)).map dropCR = l.map fun x => entry env m x.1 x.2 := by
  induction l with
  | nil => rfl
  | cons x l ih =>
    obtain ⟨h1, h2⟩ := clean_not (clean_entry env m x.1 x.2)
    rw [List.flatMap_cons]
    unfold line
    rw [List.append_assoc, List.singleton_append, split_line _ _ _ h1, List.nil_append, List.map_cons, List.map_cons, dropCR_none h2]
    exact congrArg _ ih

/-! ### Entries -/

theorem entry_says (env : Env) (m : Memory) (ep : Endpoint) (ev : TraceEvent Topology.Container) :
    Json.only (entry env m ep ev) = some (.obj [("endpoint".toList, ep.json),
      ("payload".toList, jsonOf (eventDoc env m (typeOf ev) ev))]) := by
  have hfine : Lemmas.Json.Fine ep.json := ⟨trivial, Lemmas.Wire.fine_ofInt ep.port, trivial, trivial⟩
  have h1 := Lemmas.Json.text_says ep.json hfine
  have h2 := doc_says (eventDoc env m (typeOf ev) ev)
  have hs := Lemmas.Json.space_nil
  have := Says.obj (Spec.Json.Maps.more hs (Lemmas.Json.quoted_quote "endpoint".toList) hs hs h1 hs
    (Spec.Json.Maps.last hs (Lemmas.Json.quoted_quote "payload".toList) hs hs h2 hs))
  have := Lemmas.Json.only_says hs this hs
  rw [← this]
  unfold entry
  simp

theorem named_self : Wire.named "endpoint" "endpoint".toList = true ∧ Wire.named "endpoint" "payload".toList = false ∧
    Wire.named "payload" "payload".toList = true := by decide

theorem endpointOk_obj {k1 k2 k3 : Str} {x : Str} {v : Json} {b : Bool} (h1 : Wire.named "hostname" k1 = true)
    (h2 : Wire.named "hostname" k2 = false) (h3 : Wire.named "port" k2 = true) (h4 : Wire.named "hostname" k3 = false)
    (h5 : Wire.named "port" k3 = false) (h6 : Wire.named "UseTLS" k3 = true) (h7 : (Wire.int 0 v).isSome = true) :
    endpointOk (.obj [(k1, .str x), (k2, v), (k3, .bool b)]) = true := by
  unfold endpointOk
  simp only [List.all_cons, List.all_nil, h1, h2, h3, h4, h5, h6, h7, if_true, Bool.false_eq_true, if_false]
  rfl

theorem endpointOk_json {ep : Endpoint} (h : -2 ^ 63 ≤ ep.port ∧ ep.port < 2 ^ 63) : endpointOk ep.json = true := by
  have : Wire.int 0 (Wire.ofInt ep.port) = some ep.port := Lemmas.EventRead.int_itoa 0 h
  exact endpointOk_obj (by decide) (by decide) (by decide) (by decide) (by decide) (by decide) (by rw [this]; rfl)

/-- What is read from a line is what a client makes of the payload. -/
theorem readEntry_entry (env : Env) (m : Memory) {ep : Endpoint} (h : -2 ^ 63 ≤ ep.port ∧ ep.port < 2 ^ 63)
    (ev : TraceEvent Topology.Container) :
    readEntry env (entry env m ep ev) = receive env ((eventDoc env m (typeOf ev) ev).text ++ ['\n']) := by
  obtain ⟨n1, n2, n3⟩ := named_self
  unfold readEntry receive
  rw [entry_says, only_doc]
  dsimp only
  rw [messageOf, if_pos n1, endpointOk_json h, messageOf, if_neg (by rw [n2]; simp), if_pos n3]
  cases eventOf env (jsonOf (eventDoc env m (typeOf ev) ev)) <;> rfl

/-! ### Events -/

theorem sort_again {l : GoMap String String} (hn : (l.map (·.1)).Nodup) :
    ((l.mergeSort fun a b => JobArgs.strLE a.1.toList b.1.toList).reverse).mergeSort
      (fun a b => JobArgs.strLE a.1.toList b.1.toList) = l.mergeSort fun a b => JobArgs.strLE a.1.toList b.1.toList := by
  have htrans : ∀ a b c : String × String, JobArgs.strLE a.1.toList b.1.toList = true → JobArgs.strLE b.1.toList c.1.toList = true →
      JobArgs.strLE a.1.toList c.1.toList = true := by
    intro a b c h1 h2
    unfold JobArgs.strLE at *
    rw [decide_eq_true_eq] at *
    exact List.le_trans h1 h2
  have htotal : ∀ a b : String × String, (JobArgs.strLE a.1.toList b.1.toList || JobArgs.strLE b.1.toList a.1.toList) = true := by
    intro a b
    unfold JobArgs.strLE
    rw [Bool.or_eq_true, decide_eq_true_eq, decide_eq_true_eq]
    exact List.le_total _ _
  have hp1 := List.mergeSort_perm l fun a b => JobArgs.strLE a.1.toList b.1.toList
  have hp2 := List.mergeSort_perm (l.mergeSort fun a b => JobArgs.strLE a.1.toList b.1.toList).reverse
    fun a b => JobArgs.strLE a.1.toList b.1.toList
  refine List.Perm.eq_of_pairwise (le := fun a b => JobArgs.strLE a.1.toList b.1.toList = true) ?_
    (List.pairwise_mergeSort htrans htotal _) (List.pairwise_mergeSort htrans htotal _) (hp2.trans (List.reverse_perm _))
  intro a b ha hb h1 h2
  unfold JobArgs.strLE at h1 h2
  rw [decide_eq_true_eq] at h1 h2
  have hk : a.1 = b.1 := String.toList_inj.1 (List.le_antisymm h1 h2)
  replace ha : a ∈ l := hp1.mem_iff.1 (List.mem_reverse.1 (hp2.mem_iff.1 ha))
  replace hb : b ∈ l := hp1.mem_iff.1 hb
  have hpw : List.Pairwise (fun x y : String × String => x.1 ≠ y.1) l := List.Pairwise.of_map (f := Prod.fst) (fun _ _ h => h) hn
  clear htrans htotal hp1 hp2 h1 h2 hn
  induction hpw with
  | nil => cases ha
  | cons h _ ih =>
    rcases List.mem_cons.1 ha with e1 | e1 <;> rcases List.mem_cons.1 hb with e2 | e2
    · rw [e1, e2]
    · exact absurd (e1 ▸ hk) (h b e2)
    · exact absurd (e2 ▸ hk).symm (h a e1)
    · exact ih e1 e2

theorem labels_again {l : GoMap String String} (hn : (l.map (·.1)).Nodup) :
    optLabels (((Lemmas.EventRead.readLabels l)).getD []) = optLabels l := by
  cases l with
  | nil => rfl
  | cons e l =>
    show optLabels (((e :: l).mergeSort fun a b => JobArgs.strLE a.1.toList b.1.toList).reverse) = _
    have hs := sort_again hn
    generalize hr : ((e :: l).mergeSort fun a b => JobArgs.strLE a.1.toList b.1.toList).reverse = r at hs
    cases r with
    | nil =>
      have := congrArg List.length hr
      simp at this
    | cons x r =>
      show [("labels", labelsDoc (x :: r))] = [("labels", labelsDoc (e :: l))]
      unfold labelsDoc
      rw [hs]

theorem container_again {c : Topology.Container} (h : Carried c) : containerDoc (Lemmas.EventRead.readContainer c) = containerDoc c := by
  unfold containerDoc Lemmas.EventRead.readContainer
  dsimp only
  rw [labels_again h.labels]

/-- An address is made of 110 bytes. -/
theorem address_long {nr : Nat} {fields : List (String × Rd)} (hd : decoders.lookup nr = some fields) {a : List Byte} {n : String}
    {bs : List Byte} (hm : (n, Val.buf bs) ∈ fields.map fun f => (f.1, evalRd a f.2))
    (ha : Spec.EventJSON.specials.lookup (nr, n) = some .address) : 2 ≤ bs.length := by
  obtain ⟨t, ks, -, -, -, -, -, hrow⟩ := Lemmas.EventJSON.row hd
  obtain ⟨g, hg, hge⟩ := List.mem_map.1 hm
  obtain ⟨h1, h2⟩ := Prod.mk.inj hge
  obtain ⟨k, -, hko, hso, -⟩ := hrow g hg
  rw [h1, ha] at hso
  have hk : k = .sock := by
    cases k <;> first
      | rfl
      | exact (Bool.false_ne_true hso).elim
      | (next s => cases s <;> exact (Bool.false_ne_true hso).elim)
  subst hk
  cases hr : g.2 with
  | sock s =>
    rw [hr] at h2
    have h2 : makeCBytes a (s * argLen) 110 = .buf bs := h2
    unfold makeCBytes at h2
    split at h2
    · injection h2 with h2
      rw [← h2]
      simp only [window, List.length_take, List.length_drop]
      omega
    · cases h2
  | _ => rw [hr] at hko; exact (Bool.false_ne_true hko).elim

/-- A client has a simple event as the server has it, with the address cut, and its own JSON of it is the server's. -/
theorem simple_again {tbl : Syscalls.Syscalls} {env : Env} (hb : Built tbl env) (m m' : Memory) {e : KEvent}
    {ev ev' : TraceEvent Topology.Container} (h : Decoded tbl e ev) (hs : Simple e.syscall.toNat ev)
    (hr : receive env (message env m e.syscall.toNat ev) = .ok (some ev')) :
    SameEvent { ev with argv := cut e.syscall.toNat ev.argv, error := toldError ev.error } ev' ∧
    (eventDoc env m' (typeOf ev') ev').text ++ ['\n'] = message env m e.syscall.toNat ev := by
  have hc : ∀ c, ev.container = some c → Carried c := fun c hc => (hs.container c hc).1
  have hplain := Props.EventJSON.c70_whole_event hb h hs.args hs.comm (fun c hc => (hs.container c hc).2)
  obtain ⟨fields, s, hf, hargv, ho, hsy, hsn, hn⟩ := Props.EventRead.decoded_inv hb h
  have hsame : SameEvent { ev with argv := cut e.syscall.toNat ev.argv, error := toldError ev.error } ev' := by
    rcases Props.EventRead.c134_receive hb m h hs.awake hc with ⟨h1, -⟩ | ⟨ev₁, ev₂, h1, h2, h3⟩
    · rw [hplain] at h1; cases h1
    · rw [hplain] at h1
      rw [h2] at hr
      injection h1 with h1
      injection hr with hr
      injection hr with hr
      subst h1 hr
      exact h3
  refine ⟨hsame, ?_⟩
  have hcont : ev'.container = ev.container.map Lemmas.EventRead.readContainer := by
    obtain ⟨t, js, ht, ht', -, -⟩ := args_read env m hs.awake hf h.wf.2 ho
    rw [message_read hsy hsn (fits_nat _ (by decide)) hn hc ht ht'] at hr
    split at hr
    · injection hr with hr
      injection hr with hr
      rw [← hr]
      rfl
    · cases hr
    · cases hr
  have hty : typeOf ev' = (decodeTypes.lookup e.syscall.toNat).getD "" := by
    have : ev'.syscall = ev.syscall := by rw [hsame.1]
    unfold typeOf
    rw [this, hsy]
    show (jsonTypes.lookup s.nr).getD "" = _
    rw [hsn, Props.EventJSON.c70_same_types]
  have hdocs : argsDoc env m' ((decodeTypes.lookup e.syscall.toNat).getD "") (cut e.syscall.toNat ev.argv) =
      argsDoc env m' ((decodeTypes.lookup e.syscall.toNat).getD "") ev.argv := by
    rw [hargv]
    refine Lemmas.LogCut.args_cut m' hf fun n bs hm ha => ?_
    exact Lemmas.LogCut.reads_short (address_long hf hm ha) (hs.address n bs (by rw [hargv]; exact hm) ha)
  rw [Props.EventText.c133_nothing_else_partial env m m' h hs.awake, hty]
  unfold message
  congr 2
  have hdoc : (ev'.container.map containerDoc).getD .null = (ev.container.map containerDoc).getD .null := by
    rw [hcont]
    cases hcc : ev.container with
    | none => rfl
    | some c =>
      show containerDoc _ = containerDoc _
      exact container_again (hc c hcc)
  have herr : errnoToString (toldError ev.error) = errnoToString ev.error := by
    unfold toldError
    split
    · rfl
    · next he =>
      simp only [not_or] at he
      rw [(Props.Flags.c42_unknown (.refl _) he.1 he.2.1 he.2.2).1]
      decide +kernel
  unfold eventDoc
  rw [hdoc, hsame.1]
  dsimp only
  rw [hdocs, herr]

/-- A client was sent `ev'`, a simple event, by some server, in a message it accepts. -/
def Sent (env : Env) (ev' : TraceEvent Topology.Container) : Prop :=
  ∃ (tbl : Syscalls.Syscalls) (m : Memory) (e : KEvent) (ev : TraceEvent Topology.Container), Built tbl env ∧ Decoded tbl e ev ∧
    Simple e.syscall.toNat ev ∧ accepts (message env m e.syscall.toNat ev) = true ∧
    receive env (message env m e.syscall.toNat ev) = .ok (some ev')

/-- C149: the line of a simple event holds the endpoint and, byte for byte, the message of the server; what is read back
from it is the event of the client, which is that of the server, with an address cut to 16 bytes and an unknown error
told as such. -/
theorem c149_entry_partial {tbl : Syscalls.Syscalls} {env : Env} (hb : Built tbl env) (m m' : Memory) {e : KEvent}
    {ev ev' : TraceEvent Topology.Container} (h : Decoded tbl e ev) (hs : Simple e.syscall.toNat ev)
    (hr : receive env (message env m e.syscall.toNat ev) = .ok (some ev')) (ep : Endpoint) (hp : -2 ^ 63 ≤ ep.port ∧ ep.port < 2 ^ 63) :
    line env m' ep ev' = "{\"endpoint\":".toList ++ ep.json.text ++ ",\"payload\":".toList ++
      (message env m e.syscall.toNat ev).dropLast ++ "}\n".toList ∧
    readEntry env (entry env m' ep ev') = .ok (some ev') ∧ SameEvent { ev with argv := cut e.syscall.toNat ev.argv, error := toldError ev.error } ev' := by
  obtain ⟨h1, h2⟩ := simple_again hb m m' h hs hr
  refine ⟨?_, ?_, h1⟩
  · rw [← h2, List.dropLast_concat]
    unfold line entry
    have e1 : Json.quote "endpoint".toList ++ [':'] = "\"endpoint\":".toList := by decide +kernel
    have e2 : ',' :: (Json.quote "payload".toList ++ [':']) = ",\"payload\":".toList := by decide +kernel
    have e3 : "{\"endpoint\":".toList = '{' :: "\"endpoint\":".toList := by decide +kernel
    have e4 : "}\n".toList = ['}', '\n'] := by decide +kernel
    rw [e3, ← e1, ← e2, e4]
    simp only [List.append_assoc, List.cons_append, List.nil_append]
  · rw [readEntry_entry env m' hp, h2]
    exact hr

/-! ### The log -/

/-- What is found in a log: lines of the client, and others. -/
inductive Piece where
  | event (ep : Endpoint) (ev : TraceEvent Topology.Container)
  | other (s : Str)

/-- Its text. -/
def Piece.text (env : Env) (m : Memory) : Piece → Str
  | .event ep ev => line env m ep ev
  | .other s => s ++ ['\n']

/-- Its event. -/
def Piece.events : Piece → List (TraceEvent Topology.Container)
  | .event _ ev => [ev]
  | .other _ => []

/-- Events are simple, the server's name and port are not out of all measure, and what else there is, is no message. -/
def Piece.Ok (env : Env) : Piece → Prop
  | .event ep ev => Sent env ev ∧ (-2 ^ 63 ≤ ep.port ∧ ep.port < 2 ^ 63) ∧ bytes ep.json.text ≤ 60000
  | .other s => Noise s

theorem entry_shape (env : Env) (m : Memory) (ep : Endpoint) (ev : TraceEvent Topology.Container) :
    ∃ d s, entry env m ep ev = '{' :: d :: s ∧ d ≠ '\r' := by
  have : Json.quote "endpoint".toList = '"' :: ("endpoint".toList.flatMap Json.escape ++ ['"']) := rfl
  unfold entry
  rw [this]
  exact ⟨'"', _, rfl, by decide⟩

theorem handle_entry {env : Env} {m : Memory} {ep : Endpoint} {ev : TraceEvent Topology.Container}
    (h : readEntry env (entry env m ep ev) = .ok (some ev)) : handle env (dropCR (entry env m ep ev)) = .printed ev := by
  rw [dropCR_none (clean_not (clean_entry env m ep ev)).2]
  obtain ⟨d, s, e, hd⟩ := entry_shape env m ep ev
  have hdec : decode env (entry env m ep ev) = .printed ev := by
    unfold decode
    rw [h]
  rw [e] at hdec ⊢
  unfold handle
  dsimp only
  rw [if_neg (fun hh => hd hh.2)]
  exact hdec

theorem handle_noise {env : Env} {s : Str} (h : Noise s) : size s < maxLine ∧ '\n' ∉ s ∧ handle env (dropCR s) = .skipped := by
  rcases h with rfl | ⟨h1, h2, h3, h4, h5⟩
  · exact ⟨by decide, by simp, rfl⟩
  · have hsize := size_utf8 s
    refine ⟨by unfold maxLine; rw [hsize]; exact h2, h3, ?_⟩
    rw [dropCR_none h4]
    have hdec : decode env s = .skipped := by
      unfold decode readEntry
      cases ho : Json.only s with
      | none => rfl
      | some v =>
        obtain ⟨w, t, w', hh⟩ := Lemmas.Json.only_iff.1 ho
        exact absurd ⟨w, t, w', v, hh⟩ h5
    match s, hdec, hsize, h1, h4 with
    | [], _, _, h1, _ => exact absurd h1 (by decide)
    | [c], hdec, hsize, h1, _ =>
      unfold handle
      dsimp only
      rw [if_neg]
      · exact hdec
      · intro hc
        rw [size_cons, hc] at hsize
        unfold bytes at h1
        rw [← hsize] at h1
        exact absurd h1 (by decide)
    | c :: d :: s, hdec, _, _, h4 =>
      unfold handle
      dsimp only
      rw [if_neg (fun hh : _ ∧ d = '\r' => h4 (List.mem_cons_of_mem _ (hh.2 ▸ List.mem_cons_self)))]
      exact hdec

/-- The line of an event is shorter than 64 KiB. -/
theorem entry_size {tbl : Syscalls.Syscalls} {env : Env} (hb : Built tbl env) (m m' : Memory) {e : KEvent}
    {ev ev' : TraceEvent Topology.Container} (h : Decoded tbl e ev) (hs : Simple e.syscall.toNat ev)
    (ha : accepts (message env m e.syscall.toNat ev) = true)
    (hr : receive env (message env m e.syscall.toNat ev) = .ok (some ev')) (ep : Endpoint)
    (hh : bytes ep.json.text ≤ 60000) : size (entry env m' ep ev') < maxLine := by
  obtain ⟨-, h2⟩ := simple_again hb m m' h hs hr
  have ha := (Props.EventText.c132_limit _).1 ha
  rw [← size_utf8, ← h2, size_append] at ha
  have e1 : size (Json.quote "endpoint".toList) = 10 := by decide +kernel
  have e2 : size (Json.quote "payload".toList) = 9 := by decide +kernel
  have e3 : size [','] = 1 := by decide
  unfold bytes at hh
  rw [← size_utf8] at hh
  unfold entry maxLine
  simp only [List.cons_append, size_append, size_cons, e1, e2]
  have c1 : '{'.utf8Size = 1 := by decide
  have c2 : ':'.utf8Size = 1 := by decide
  have c3 : ','.utf8Size = 1 := by decide
  have c4 : '}'.utf8Size = 1 := by decide
  have c5 : size [] = 0 := rfl
  rw [c1, c2, c3, c4, c5]
  omega

/-- C149: a reader of a log is given the events of the log, all of them, in order, and nothing else. -/
theorem c149_read_partial (env : Env) (m : Memory) (log : List Piece) (h : ∀ p ∈ log, p.Ok env) :
    tool env (log.flatMap (Piece.text env m)) = (log.flatMap Piece.events, .all) := by
  unfold tool
  induction log with
  | nil => rfl
  | cons p log ih =>
    have ih := ih fun q hq => h q (List.mem_cons_of_mem _ hq)
    have hp := h p (.head _)
    rw [List.flatMap_cons, List.flatMap_cons]
    cases p with
    | event ep ev =>
      obtain ⟨⟨tbl, m₀, e, ev₀, hb, hd, hs, ha, hr⟩, hport, hsz⟩ := hp
      show loop env (split [] (entry env m ep ev ++ ['\n'] ++ _)) = _
      rw [List.append_assoc, List.singleton_append, split_line _ _ _ (clean_not (clean_entry env m ep ev)).1, List.nil_append,
        loop, if_neg (Nat.not_le.2 (entry_size hb m₀ m hd hs ha hr ep hsz)),
        handle_entry (c149_entry_partial hb m₀ m hd hs hr ep hport).2.1]
      dsimp only
      rw [ih]
      rfl
    | other s =>
      obtain ⟨h1, h2, h3⟩ := handle_noise (env := env) hp
      show loop env (split [] (s ++ ['\n'] ++ _)) = _
      rw [List.append_assoc, List.singleton_append, split_line _ _ _ h2, List.nil_append, loop, if_neg (Nat.not_le.2 h1), h3]
      dsimp only
      rw [ih]
      rfl

/-- C149 fails for a line of one letter, as `kubectl logs` may well show: the reader crashes, and what follows is not read. -/
theorem c149_letter_violated (env : Env) (c : Char) (hc : c.utf8Size = 1) (h1 : c ≠ '\n') (h2 : c ≠ '\r') (rest : Str) :
    tool env (c :: '\n' :: rest) = ([], .crashed) := by
  unfold tool
  have := split_line [c] [] rest (by simpa using fun e : '\n' = c => h1 e.symm)
  rw [show c :: '\n' :: rest = [c] ++ '\n' :: rest from rfl, this, List.nil_append, loop, if_neg, dropCR_none, handle, if_pos hc]
  · simpa using fun e : '\r' = c => h2 e.symm
  · rw [size_cons, hc]
    decide

/-- C149 fails for a line that is a message without an event, `{}`: the reader crashes. -/
theorem c149_empty_violated (env : Env) (rest : Str) : tool env ("{}\n".toList ++ rest) = ([], .crashed) := by
  unfold tool
  have := split_line "{}".toList [] rest (by decide)
  rw [show "{}\n".toList ++ rest = "{}".toList ++ '\n' :: rest from rfl, this, List.nil_append, loop, if_neg (by decide)]
  rw [dropCR_none (by decide)]
  have hdec : decode env "{}".toList = .crashed := by
    unfold decode readEntry
    rw [Lemmas.EventRead.only_empty]
    rfl
  have : handle env "{}".toList = decode env "{}".toList := rfl
  rw [this, hdec]

/-- C149 fails for a line of 64 KiB: the reader ends without a word, and what follows is not read. -/
theorem c149_long_violated (env : Env) (s rest : Str) (hn : '\n' ∉ s) (h : 65536 ≤ bytes s) :
    tool env (s ++ '\n' :: rest) = ([], .tooLong) := by
  unfold tool
  rw [split_line _ _ _ hn, List.nil_append, loop, if_pos]
  rw [size_utf8]
  exact h

/-! ### Events that are not whole -/

theorem members_last : ∀ (l : List (String × Doc)) {k : String} {d d' : Doc},
    members (l ++ [(k, d)]) = members (l ++ [(k, d')]) → d.text = d'.text
  | [], k, d, d', h => by
    simp only [List.nil_append, members, List.append_nil] at h
    exact (List.cons.inj (List.append_cancel_left h)).2
  | (k', v) :: l, k, d, d', h => by
    have e : ∀ x : Doc, members (((k', v) :: l) ++ [(k, x)]) =
        Json.quote k'.toList ++ ':' :: v.text ++ ',' :: members (l ++ [(k, x)]) := by
      intro x
      cases l with
      | nil => rfl
      | cons y l => rfl
    rw [e, e] at h
    exact members_last l (List.cons.inj (List.append_cancel_left h)).2

/-- Two events that differ in their arguments only are written alike only if their arguments are. -/
theorem args_of_text {env : Env} {m m' : Memory} {t : String} {ev : TraceEvent Topology.Container} {a : List (String × Val)}
    (h : (eventDoc env m' t { ev with argv := a }).text = (eventDoc env m t ev).text) :
    (argsDoc env m' t a).text = (argsDoc env m t ev.argv).text := by
  unfold eventDoc at h
  rw [Doc.text, Doc.text] at h
  have h := List.append_cancel_right (List.cons.inj h).2
  exact members_last [_, _, _, _, _, _, _, _, _, _, _, _, _, _, _, _] h

/-- The line of an event that was given other arguments, whose JSON is another, does not hold the message. -/
theorem line_other {tbl : Syscalls.Syscalls} {env : Env} (hb : Built tbl env) (m m' : Memory) {e : KEvent}
    {ev ev₁ ev' : TraceEvent Topology.Container} (h : Decoded tbl e ev) (h35 : e.syscall.toNat ≠ 35) (hc : ev.container = none)
    (h1 : throughJSON env e.syscall.toNat ev = .ok ev₁) (h2 : ev₁ = { ev with argv := ev₁.argv })
    (hr : receive env (message env m e.syscall.toNat ev) = .ok (some ev'))
    (ht : (argsDoc env m' ((decodeTypes.lookup e.syscall.toNat).getD "") ev₁.argv).text ≠
      (argsDoc env m ((decodeTypes.lookup e.syscall.toNat).getD "") ev.argv).text) (ep : Endpoint) :
    line env m' ep ev' ≠ "{\"endpoint\":".toList ++ ep.json.text ++ ",\"payload\":".toList ++
      (message env m e.syscall.toNat ev).dropLast ++ "}\n".toList := by
  have hc' : ∀ c, ev.container = some c → Carried c := fun c hcc => by rw [hc] at hcc; exact nomatch hcc
  have hev : ev' = ev₁ := by
    rcases Props.EventRead.c134_receive hb m h h35 hc' with ⟨g1, -⟩ | ⟨ev₂, ev₃, g1, g2, g3⟩
    · rw [h1] at g1; cases g1
    · rw [h1] at g1
      rw [hr] at g2
      injection g1 with g1
      injection g2 with g2
      injection g2 with g2
      subst g1 g2
      obtain ⟨g3, g4⟩ := g3
      have hn : ev₁.container = none := by rw [h2]; exact hc
      rw [hn] at g4
      cases hcc : ev'.container with
      | some c => rw [hcc] at g4; exact g4.elim
      | none =>
        rw [hcc] at g3
        rw [g3, h2]
        dsimp only
        rw [hc]
  subst hev
  obtain ⟨fields, s, hf, hargv, ho, hsy, hsn, hn⟩ := Props.EventRead.decoded_inv hb h
  have hty : typeOf ev' = (decodeTypes.lookup e.syscall.toNat).getD "" := by
    have : ev'.syscall = ev.syscall := by rw [h2]
    unfold typeOf
    rw [this, hsy]
    show (jsonTypes.lookup s.nr).getD "" = _
    rw [hsn, Props.EventJSON.c70_same_types]
  intro hl
  refine ht (args_of_text (ev := ev) ?_)
  rw [← h2, ← hty]
  unfold line entry at hl
  have e1 : Json.quote "endpoint".toList ++ [':'] = "\"endpoint\":".toList := by decide +kernel
  have e2 : ',' :: (Json.quote "payload".toList ++ [':']) = ",\"payload\":".toList := by decide +kernel
  have e3 : "{\"endpoint\":".toList = '{' :: "\"endpoint\":".toList := by decide +kernel
  have e4 : "}\n".toList = ['}', '\n'] := by decide +kernel
  rw [e3, ← e1, ← e2, e4] at hl
  unfold message at hl
  rw [List.dropLast_concat] at hl
  simp only [List.append_assoc, List.cons_append, List.nil_append] at hl
  have hl := List.append_cancel_left (List.cons.inj hl).2
  have hl := List.append_cancel_left (List.cons.inj hl).2
  have hl := List.append_cancel_left (List.cons.inj hl).2
  have hl := List.append_cancel_right (List.cons.inj hl).2
  rw [hl, hty]

/-- Numbers, texts and buffers are written without a look at what else is in memory. -/
theorem args_any {env : Env} (m m' : Memory) (t : String) {argv : List (String × Val)}
    (h : ∀ n v, (n, v) ∈ argv → (∃ i, v = .int i) ∨ (∃ bs, v = .str bs) ∨ ∃ bs, v = .buf bs) :
    argsDoc env m t argv = argsDoc env m' t argv := by
  have hv : ∀ f, (∃ i, (argv.lookup f).getD (.str []) = .int i) ∨ (∃ bs, (argv.lookup f).getD (.str []) = .str bs) ∨
      ∃ bs, (argv.lookup f).getD (.str []) = .buf bs := by
    intro f
    cases hl : argv.lookup f with
    | none => exact .inr (.inl ⟨[], rfl⟩)
    | some v => exact h f v (Lemmas.EventJSON.mem_of_lookup hl)
  unfold argsDoc
  rw [members_memory (m' := m')]
  · intro f
    rcases hv f with ⟨i, hi⟩ | ⟨i, hi⟩ | ⟨i, hi⟩ <;> rw [hi] <;> cases (((fieldKinds.lookup t).getD []).lookup f).getD .num <;> rfl
  · intro f
    rcases hv f with ⟨i, hi⟩ | ⟨i, hi⟩ | ⟨i, hi⟩ <;> rw [hi] <;> rfl

/-- Some memory. -/
def someMemory : Memory := ⟨fun _ => 0, fun _ _ => []⟩

/-- C149: the line of a call to connect to an IPv6 address does not hold what the server sent. (The client has 16 bytes of
it and prints what it finds after them; the model has nothing there.) -/
theorem c149_address_violated (m m' : Memory) (ep : Endpoint) : ∃ tbl e ev ev', Built tbl Props.EventJSON.someEnv ∧ Decoded tbl e ev ∧
    e.syscall.toNat = 42 ∧ receive Props.EventJSON.someEnv (message Props.EventJSON.someEnv m e.syscall.toNat ev) = .ok (some ev') ∧
    line Props.EventJSON.someEnv m' ep ev' ≠ "{\"endpoint\":".toList ++ ep.json.text ++ ",\"payload\":".toList ++
      (message Props.EventJSON.someEnv m e.syscall.toNat ev).dropLast ++ "}\n".toList := by
  obtain ⟨tbl, hb⟩ := Props.EventJSON.built_exists
  let e := Props.EventJSON.filled 42 32 [(0, 3), (1, 0x202020201f90000a)]
  have hd : decoders.lookup e.syscall.toNat = some [("fd", .c32 0), ("saddr", .sock 1)] := by decide +kernel
  have hdec := Props.EventJSON.filled_decoded (tbl := tbl) (n := 42) (b := 32) (words := [(0, 3), (1, 0x202020201f90000a)])
    (by decide +kernel) hd (by decide +kernel)
  have h42 : e.syscall.toNat = 42 := by decide
  have ha : ([("fd", Rd.c32 0), ("saddr", .sock 1)].map fun f => (f.1, evalRd e.args f.2)) =
      [("fd", .int 3), ("saddr", .buf ([10, 0, 0x90, 0x1f] ++ List.replicate 106 32))] := by decide +kernel
  have hi : Spec.EventJSON.Intact e.syscall.toNat ([("fd", Rd.c32 0), ("saddr", .sock 1)].map fun f => (f.1, evalRd e.args f.2)) := by
    rw [ha, h42]
    refine ⟨fun n v hm => ?_, fun h => absurd h (by decide)⟩
    rcases List.mem_cons.1 hm with hm | hm
    · obtain ⟨rfl, rfl⟩ := Prod.mk.inj hm
      trivial
    · obtain ⟨rfl, rfl⟩ := Prod.mk.inj (List.mem_singleton.1 hm)
      trivial
  have hu : Spec.EventJSON.Utf8 (Lemmas.Event.eventOf (κ := Topology.Container) tbl none e
      ([("fd", Rd.c32 0), ("saddr", .sock 1)].map fun f => (f.1, evalRd e.args f.2))).comm := by
    refine ⟨[], ?_⟩
    show e.comm.take (cstrCount e.comm) = _
    decide
  obtain ⟨ev', hr, -⟩ := Props.EventRead.c134_whole hb m hdec (by rw [h42]; decide) (fun c hc => nomatch hc) hi hu (.inl rfl)
  refine ⟨tbl, e, _, ev', hb, hdec, h42, hr, ?_⟩
  refine line_other hb m m' hdec (by rw [h42]; decide) rfl
    (Props.EventJSON.c70_whole_event hb hdec hi hu (fun c hc => nomatch hc)) rfl hr ?_ ep
  show (argsDoc _ m' ((decodeTypes.lookup e.syscall.toNat).getD "") (cut e.syscall.toNat ([("fd", Rd.c32 0), ("saddr", .sock 1)].map
    fun f => (f.1, evalRd e.args f.2)))).text ≠ (argsDoc _ m ((decodeTypes.lookup e.syscall.toNat).getD "")
    ([("fd", Rd.c32 0), ("saddr", .sock 1)].map fun f => (f.1, evalRd e.args f.2))).text
  rw [ha, h42]
  have hcut : cut 42 [("fd", .int 3), ("saddr", .buf ([10, 0, 0x90, 0x1f] ++ List.replicate 106 32))] =
      [("fd", .int 3), ("saddr", .buf ([10, 0, 0x90, 0x1f] ++ List.replicate 12 32))] := by decide
  rw [hcut, args_any m' someMemory, args_any m someMemory]
  · decide +kernel
  · intro n v hm
    rcases List.mem_cons.1 hm with hm | hm
    · exact .inl ⟨_, (Prod.mk.inj hm).2⟩
    · exact .inr (.inr ⟨_, (Prod.mk.inj (List.mem_singleton.1 hm)).2⟩)
  · intro n v hm
    rcases List.mem_cons.1 hm with hm | hm
    · exact .inl ⟨_, (Prod.mk.inj hm).2⟩
    · exact .inr (.inr ⟨_, (Prod.mk.inj (List.mem_singleton.1 hm)).2⟩)

/-- C149: nor does that of a call to connect to a Unix socket with a path of more than 14 bytes. (Nothing
is after the client's 16 bytes here, either.) -/
theorem c149_unix_violated (m m' : Memory) (ep : Endpoint) : ∃ tbl e ev ev', Built tbl Props.EventJSON.someEnv ∧ Decoded tbl e ev ∧
    e.syscall.toNat = 42 ∧ receive Props.EventJSON.someEnv (message Props.EventJSON.someEnv m e.syscall.toNat ev) = .ok (some ev') ∧
    line Props.EventJSON.someEnv m' ep ev' ≠ "{\"endpoint\":".toList ++ ep.json.text ++ ",\"payload\":".toList ++
      (message Props.EventJSON.someEnv m e.syscall.toNat ev).dropLast ++ "}\n".toList := by
  obtain ⟨tbl, hb⟩ := Props.EventJSON.built_exists
  let e := Props.EventJSON.filled 42 97 [(0, 3), (1, 0x61616161612f0001)]
  have hd : decoders.lookup e.syscall.toNat = some [("fd", .c32 0), ("saddr", .sock 1)] := by decide +kernel
  have hdec := Props.EventJSON.filled_decoded (tbl := tbl) (n := 42) (b := 97) (words := [(0, 3), (1, 0x61616161612f0001)])
    (by decide +kernel) hd (by decide +kernel)
  have h42 : e.syscall.toNat = 42 := by decide
  have ha : ([("fd", Rd.c32 0), ("saddr", .sock 1)].map fun f => (f.1, evalRd e.args f.2)) =
      [("fd", .int 3), ("saddr", .buf ([1, 0, 47] ++ List.replicate 107 97))] := by decide +kernel
  have hi : Spec.EventJSON.Intact e.syscall.toNat ([("fd", Rd.c32 0), ("saddr", .sock 1)].map fun f => (f.1, evalRd e.args f.2)) := by
    rw [ha, h42]
    refine ⟨fun n v hm => ?_, fun h => absurd h (by decide)⟩
    rcases List.mem_cons.1 hm with hm | hm
    · obtain ⟨rfl, rfl⟩ := Prod.mk.inj hm
      trivial
    · obtain ⟨rfl, rfl⟩ := Prod.mk.inj (List.mem_singleton.1 hm)
      trivial
  have hu : Spec.EventJSON.Utf8 (Lemmas.Event.eventOf (κ := Topology.Container) tbl none e
      ([("fd", Rd.c32 0), ("saddr", .sock 1)].map fun f => (f.1, evalRd e.args f.2))).comm := by
    refine ⟨[], ?_⟩
    show e.comm.take (cstrCount e.comm) = _
    decide
  obtain ⟨ev', hr, -⟩ := Props.EventRead.c134_whole hb m hdec (by rw [h42]; decide) (fun c hc => nomatch hc) hi hu (.inl rfl)
  refine ⟨tbl, e, _, ev', hb, hdec, h42, hr, ?_⟩
  refine line_other hb m m' hdec (by rw [h42]; decide) rfl
    (Props.EventJSON.c70_whole_event hb hdec hi hu (fun c hc => nomatch hc)) rfl hr ?_ ep
  show (argsDoc _ m' ((decodeTypes.lookup e.syscall.toNat).getD "") (cut e.syscall.toNat ([("fd", Rd.c32 0), ("saddr", .sock 1)].map
    fun f => (f.1, evalRd e.args f.2)))).text ≠ (argsDoc _ m ((decodeTypes.lookup e.syscall.toNat).getD "")
    ([("fd", Rd.c32 0), ("saddr", .sock 1)].map fun f => (f.1, evalRd e.args f.2))).text
  rw [ha, h42]
  have hcut : cut 42 [("fd", .int 3), ("saddr", .buf ([1, 0, 47] ++ List.replicate 107 97))] =
      [("fd", .int 3), ("saddr", .buf ([1, 0, 47] ++ List.replicate 13 97))] := by decide
  rw [hcut, args_any m' someMemory, args_any m someMemory]
  · decide +kernel
  · intro n v hm
    rcases List.mem_cons.1 hm with hm | hm
    · exact .inl ⟨_, (Prod.mk.inj hm).2⟩
    · exact .inr (.inr ⟨_, (Prod.mk.inj (List.mem_singleton.1 hm)).2⟩)
  · intro n v hm
    rcases List.mem_cons.1 hm with hm | hm
    · exact .inl ⟨_, (Prod.mk.inj hm).2⟩
    · exact .inr (.inr ⟨_, (Prod.mk.inj (List.mem_singleton.1 hm)).2⟩)

/-- C149: nor does that of a call to unlink with a path that is no well-formed text. -/
theorem c149_path_violated (m m' : Memory) (ep : Endpoint) : ∃ tbl e ev ev', Built tbl Props.EventJSON.someEnv ∧ Decoded tbl e ev ∧
    e.syscall.toNat = 87 ∧ receive Props.EventJSON.someEnv (message Props.EventJSON.someEnv m e.syscall.toNat ev) = .ok (some ev') ∧
    line Props.EventJSON.someEnv m' ep ev' ≠ "{\"endpoint\":".toList ++ ep.json.text ++ ",\"payload\":".toList ++
      (message Props.EventJSON.someEnv m e.syscall.toNat ev).dropLast ++ "}\n".toList := by
  obtain ⟨tbl, hb⟩ := Props.EventJSON.built_exists
  let e := Props.EventJSON.filled 87 255 []
  have hd : decoders.lookup e.syscall.toNat = some [("pathname", .cstr 0)] := by decide +kernel
  have hdec := Props.EventJSON.filled_decoded (tbl := tbl) (n := 87) (b := 255) (words := []) (by decide +kernel) hd
    (by decide +kernel)
  have h87 : e.syscall.toNat = 87 := by decide
  have ha : ([("pathname", Rd.cstr 0)].map fun f => (f.1, evalRd e.args f.2)) = [("pathname", .str (List.replicate 128 255))] := by
    decide +kernel
  have hc : ∀ c, (Lemmas.Event.eventOf (κ := Topology.Container) tbl none e
      ([("pathname", Rd.cstr 0)].map fun f => (f.1, evalRd e.args f.2))).container = some c → Carried c := fun c hc => nomatch hc
  obtain ⟨s, hs, hsn⟩ : ∃ s, (Lemmas.Event.eventOf (κ := Topology.Container) tbl none e
      ([("pathname", Rd.cstr 0)].map fun f => (f.1, evalRd e.args f.2))).syscall = some s ∧ s.nr = e.syscall.toNat := by
    obtain ⟨-, s, -, -, -, hsy, hsn, -⟩ := Props.EventRead.decoded_inv hb hdec
    exact ⟨s, hsy, hsn⟩
  have h1 : throughJSON Props.EventJSON.someEnv e.syscall.toNat (Lemmas.Event.eventOf tbl none e
      ([("pathname", Rd.cstr 0)].map fun f => (f.1, evalRd e.args f.2))) = .ok
      { (Lemmas.Event.eventOf tbl none e ([("pathname", Rd.cstr 0)].map fun f => (f.1, evalRd e.args f.2)) :
          TraceEvent Topology.Container) with argv := [("pathname", .str (jsonText (List.replicate 128 255)))] } := by
    have hw : writeArgs Props.EventJSON.someEnv ((decodeTypes.lookup 87).getD "") [("pathname", .str (List.replicate 128 255))] =
        .ok [("pathname", .text (jsonText (List.replicate 128 255)))] := by decide +kernel
    have hrd : readArgs Props.EventJSON.someEnv ((jsonTypes.lookup 87).getD "")
        [("pathname", .text (jsonText (List.replicate 128 255)))] = .ok [("pathname", .str (jsonText (List.replicate 128 255)))] := by
      decide +kernel
    obtain ⟨t, ht⟩ : ∃ t, decodeTypes.lookup 87 = some t := Option.isSome_iff_exists.1 (by decide +kernel)
    have ht' : jsonTypes.lookup 87 = some t := by rw [Props.EventJSON.c70_same_types, ht]
    rw [ht] at hw
    rw [ht'] at hrd
    unfold throughJSON write
    rw [h87, ht]
    dsimp only
    have hargv : (Lemmas.Event.eventOf (κ := Topology.Container) tbl none e
      ([("pathname", Rd.cstr 0)].map fun f => (f.1, evalRd e.args f.2))).argv = [("pathname", .str (List.replicate 128 255))] := ha
    rw [hargv, show writeArgs Props.EventJSON.someEnv t [("pathname", .str (List.replicate 128 255))] = _ from hw]
    dsimp only
    unfold EventJSON.read
    dsimp only
    rw [hs]
    dsimp only
    rw [hsn, h87, ht']
    dsimp only
    rw [show readArgs Props.EventJSON.someEnv t [("pathname", .text (jsonText (List.replicate 128 255)))] = _ from hrd]
    dsimp only
    have hcomm : jsonText (Lemmas.Event.eventOf (κ := Topology.Container) tbl none e
        ([("pathname", Rd.cstr 0)].map fun f => (f.1, evalRd e.args f.2))).comm = (Lemmas.Event.eventOf (κ := Topology.Container) tbl none e
        ([("pathname", Rd.cstr 0)].map fun f => (f.1, evalRd e.args f.2))).comm := by
      refine (Lemmas.EventJSON.jsonText_eq_iff _).2 ⟨[], ?_⟩
      show e.comm.take (cstrCount e.comm) = _
      decide
    rw [hcomm]
    rfl
  obtain ⟨ev', hr⟩ : ∃ ev', receive Props.EventJSON.someEnv (message Props.EventJSON.someEnv m e.syscall.toNat
      (Lemmas.Event.eventOf tbl none e ([("pathname", Rd.cstr 0)].map fun f => (f.1, evalRd e.args f.2)))) = .ok (some ev') := by
    rcases Props.EventRead.c134_receive hb m hdec (by rw [h87]; decide) hc with ⟨g1, -⟩ | ⟨ev₂, ev₃, -, g2, -⟩
    · rw [h1] at g1; cases g1
    · exact ⟨ev₃, g2⟩
  refine ⟨tbl, e, _, ev', hb, hdec, h87, hr, ?_⟩
  refine line_other hb m m' hdec (by rw [h87]; decide) rfl h1 rfl hr ?_ ep
  show (argsDoc _ m' ((decodeTypes.lookup e.syscall.toNat).getD "") [("pathname", .str (jsonText (List.replicate 128 255)))]).text ≠
    (argsDoc _ m ((decodeTypes.lookup e.syscall.toNat).getD "") ([("pathname", Rd.cstr 0)].map
      fun f => (f.1, evalRd e.args f.2))).text
  rw [ha, h87, args_any m' someMemory, args_any m someMemory]
  · decide +kernel
  · intro n v hm
    exact .inr (.inl ⟨_, (Prod.mk.inj (List.mem_singleton.1 hm)).2⟩)
  · intro n v hm
    exact .inr (.inl ⟨_, (Prod.mk.inj (List.mem_singleton.1 hm)).2⟩)

/-- C149: nor does that of a call to open with the flag O_PATH, which has no name here: the server sends no flags, and the
log has O_RDONLY. -/
theorem c149_flags_violated (m m' : Memory) (ep : Endpoint) : ∃ tbl e ev ev', Built tbl Props.EventJSON.someEnv ∧ Decoded tbl e ev ∧
    e.syscall.toNat = 2 ∧ ("flags", Val.int 0x200000) ∈ ev.argv ∧ ("flags", Val.int 0) ∈ ev'.argv ∧
    receive Props.EventJSON.someEnv (message Props.EventJSON.someEnv m e.syscall.toNat ev) = .ok (some ev') ∧
    line Props.EventJSON.someEnv m' ep ev' ≠ "{\"endpoint\":".toList ++ ep.json.text ++ ",\"payload\":".toList ++
      (message Props.EventJSON.someEnv m e.syscall.toNat ev).dropLast ++ "}\n".toList := by
  obtain ⟨tbl, hb⟩ := Props.EventJSON.built_exists
  let e := Props.EventJSON.filled 2 0 [(0, 97), (1, 0x200000)]
  let fields := [("filename", Rd.cstr 0), ("flags", .c32 1), ("mode", .c32 2), ("ret", .zero)]
  let a := [("filename", Val.str [97]), ("flags", .int 0x200000), ("mode", .int 0), ("ret", .int 0)]
  let a' := [("filename", Val.str [97]), ("flags", .int 0), ("mode", .int 0), ("ret", .int 0)]
  let j := [("filename", JVal.text [97]), ("flags", .names []), ("mode", .num 0), ("ret", .num 0)]
  have hd : decoders.lookup e.syscall.toNat = some fields := by decide +kernel
  have hdec := Props.EventJSON.filled_decoded (tbl := tbl) (n := 2) (b := 0) (words := [(0, 97), (1, 0x200000)])
    (by decide +kernel) hd (by decide +kernel)
  have h2 : e.syscall.toNat = 2 := by decide
  have ha : (fields.map fun f => (f.1, evalRd e.args f.2)) = a := by decide +kernel
  let ev : TraceEvent Topology.Container := Lemmas.Event.eventOf tbl none e (fields.map fun f => (f.1, evalRd e.args f.2))
  have hdec : Decoded tbl e ev := hdec
  have hargv : ev.argv = a := ha
  obtain ⟨s, hs, hsn⟩ : ∃ s, ev.syscall = some s ∧ s.nr = e.syscall.toNat := by
    obtain ⟨-, s, -, -, -, hsy, hsn, -⟩ := Props.EventRead.decoded_inv hb hdec
    exact ⟨s, hsy, hsn⟩
  have hcomm : jsonText ev.comm = ev.comm := by
    refine (Lemmas.EventJSON.jsonText_eq_iff _).2 ⟨[], ?_⟩
    show e.comm.take (cstrCount e.comm) = _
    decide
  have h1 : throughJSON Props.EventJSON.someEnv e.syscall.toNat ev = .ok { ev with argv := a' } := by
    have hw : writeArgs Props.EventJSON.someEnv ((decodeTypes.lookup 2).getD "") a = .ok j := by decide +kernel
    have hrd : readArgs Props.EventJSON.someEnv ((jsonTypes.lookup 2).getD "") j = .ok a' := by decide +kernel
    obtain ⟨t, ht⟩ : ∃ t, decodeTypes.lookup 2 = some t := Option.isSome_iff_exists.1 (by decide +kernel)
    have ht' : jsonTypes.lookup 2 = some t := by rw [Props.EventJSON.c70_same_types, ht]
    rw [ht] at hw
    rw [ht'] at hrd
    unfold throughJSON write
    rw [h2, ht]
    dsimp only
    rw [hargv, show writeArgs Props.EventJSON.someEnv t a = _ from hw]
    dsimp only
    unfold EventJSON.read
    dsimp only
    rw [hs]
    dsimp only
    rw [hsn, h2, ht']
    dsimp only
    rw [show readArgs Props.EventJSON.someEnv t j = _ from hrd]
    dsimp only
    rw [hcomm]
    rfl
  obtain ⟨ev', hr, hev⟩ : ∃ ev', receive Props.EventJSON.someEnv (message Props.EventJSON.someEnv m e.syscall.toNat ev) =
      .ok (some ev') ∧ ev'.argv = a' := by
    rcases Props.EventRead.c134_receive hb m hdec (by rw [h2]; decide) (fun c hc => nomatch hc) with ⟨g1, -⟩ | ⟨ev₂, ev₃, g1, g2, g3⟩
    · rw [h1] at g1; cases g1
    · rw [h1] at g1
      injection g1 with g1
      refine ⟨ev₃, g2, ?_⟩
      rw [g3.1, ← g1]
  refine ⟨tbl, e, ev, ev', hb, hdec, h2, by rw [hargv]; decide, by rw [hev]; decide, hr, ?_⟩
  refine line_other hb m m' hdec (by rw [h2]; decide) rfl h1 rfl hr ?_ ep
  show (argsDoc _ m' ((decodeTypes.lookup e.syscall.toNat).getD "") a').text ≠
    (argsDoc _ m ((decodeTypes.lookup e.syscall.toNat).getD "") ev.argv).text
  have hplain : ∀ l, l = a ∨ l = a' → ∀ n v, (n, v) ∈ l → (∃ i, v = Val.int i) ∨ (∃ bs, v = .str bs) ∨ ∃ bs, v = .buf bs := by
    intro l hl n v hm
    cases v with
    | int i => exact .inl ⟨i, rfl⟩
    | str bs => exact .inr (.inl ⟨bs, rfl⟩)
    | buf bs => exact .inr (.inr ⟨bs, rfl⟩)
    | _ => rcases hl with rfl | rfl <;> simp [a, a'] at hm
  rw [hargv, h2, args_any m' someMemory _ (hplain _ (.inr rfl)), args_any m someMemory _ (hplain _ (.inl rfl))]
  decide +kernel

/-! ### Cases that meet the hypotheses -/

/-- A call to unlink with a path of 128 letters is simple, and a client is sent it. -/
theorem some_sent (m : Memory) : ∃ tbl e ev ev', Built tbl Props.EventJSON.someEnv ∧ Decoded tbl e ev ∧ Simple e.syscall.toNat ev ∧
    accepts (message Props.EventJSON.someEnv m e.syscall.toNat ev) = true ∧
    receive Props.EventJSON.someEnv (message Props.EventJSON.someEnv m e.syscall.toNat ev) = .ok (some ev') := by
  obtain ⟨tbl, hb⟩ := Props.EventJSON.built_exists
  have hd : decoders.lookup (Props.EventJSON.filled 87 97 []).syscall.toNat = some [("pathname", .cstr 0)] := by
    decide +kernel
  have hdec := Props.EventJSON.filled_decoded (tbl := tbl) (n := 87) (b := 97) (words := []) (by decide +kernel) hd
    (by decide +kernel)
  have h87 : (Props.EventJSON.filled 87 97 []).syscall.toNat = 87 := by decide
  have hs : Simple (Props.EventJSON.filled 87 97 []).syscall.toNat (Lemmas.Event.eventOf tbl none (Props.EventJSON.filled 87 97 [])
      ([("pathname", Rd.cstr 0)].map fun f => (f.1, evalRd (Props.EventJSON.filled 87 97 []).args f.2))) := by
    refine ⟨Props.EventJSON.intact_plain ?_ ?_, ?_, by rw [h87]; decide, ⟨[], ?_⟩, fun c hc => nomatch hc⟩
    · intro n
      rw [h87]
      refine List.lookup_eq_none_iff.2 fun p hp => ?_
      have : ∀ p ∈ Spec.EventJSON.specials, p.1.1 ≠ 87 := by decide
      have := this p hp
      simp only [bne_iff_ne, ne_eq]
      intro heq
      exact this (by rw [← heq])
    · intro n bs hm
      have hval : evalRd (Props.EventJSON.filled 87 97 []).args (.cstr 0) = .str (List.replicate 128 97) := by
        decide +kernel
      obtain ⟨g, hg, hge⟩ := List.mem_map.1 hm
      rw [List.mem_singleton.1 hg] at hge
      injection hge with _ h2
      dsimp only at h2
      rw [hval] at h2
      injection h2 with h2
      rw [← h2]
      exact Lemmas.EventJSON.utf8_ascii fun b hb => by rw [List.eq_of_mem_replicate hb]; decide
    · intro n bs _ ha
      have : ∀ p ∈ Spec.EventJSON.specials, p.1.1 ≠ 87 := by decide
      exact absurd h87 (this _ (Lemmas.EventJSON.mem_of_lookup ha))
    · show (Props.EventJSON.filled 87 97 []).comm.take (cstrCount (Props.EventJSON.filled 87 97 []).comm) = _
      decide
  obtain ⟨ev', hr, -⟩ := Props.EventRead.c134_whole hb m hdec hs.awake (fun c hc => nomatch hc) hs.args hs.comm (.inl rfl)
  exact ⟨tbl, _, _, ev', hb, hdec, hs, Props.EventText.c132_fits_partial hb m hdec (fun c hc => nomatch hc), hr⟩

/-- A call to connect to 127.0.0.1:8080 is simple as well, and a client is sent it. -/
example (m : Memory) : ∃ tbl e ev ev', Built tbl Props.EventJSON.someEnv ∧ Decoded tbl e ev ∧ Simple e.syscall.toNat ev ∧
    ("saddr", Val.buf ([2, 0, 0x1f, 0x90, 127, 0, 0, 1] ++ List.replicate 102 0)) ∈ ev.argv ∧
    ("saddr", Val.buf ([2, 0, 0x1f, 0x90, 127, 0, 0, 1] ++ List.replicate 8 0)) ∈ ev'.argv ∧
    accepts (message Props.EventJSON.someEnv m e.syscall.toNat ev) = true ∧
    receive Props.EventJSON.someEnv (message Props.EventJSON.someEnv m e.syscall.toNat ev) = .ok (some ev') := by
  obtain ⟨tbl, hb⟩ := Props.EventJSON.built_exists
  let e := Props.EventJSON.filled 42 0 [(0, 3), (1, 0x0100007f901f0002)]
  have hd : decoders.lookup e.syscall.toNat = some [("fd", .c32 0), ("saddr", .sock 1)] := by decide +kernel
  have hdec := Props.EventJSON.filled_decoded (tbl := tbl) (n := 42) (b := 0) (words := [(0, 3), (1, 0x0100007f901f0002)])
    (by decide +kernel) hd (by decide +kernel)
  have h42 : e.syscall.toNat = 42 := by decide
  have ha : ([("fd", Rd.c32 0), ("saddr", .sock 1)].map fun f => (f.1, evalRd e.args f.2)) =
      [("fd", .int 3), ("saddr", .buf ([2, 0, 0x1f, 0x90, 127, 0, 0, 1] ++ List.replicate 102 0))] := by
    decide +kernel
  have hin : ∀ n v, (n, v) ∈ [("fd", Val.int 3),
      ("saddr", .buf ([2, 0, 0x1f, 0x90, 127, 0, 0, 1] ++ List.replicate 102 0))] →
      Spec.EventJSON.Whole (Spec.EventJSON.specials.lookup (42, n)) v ∧ ∀ bs, v = .buf bs → Short bs := by
    intro n v hm
    rcases List.mem_cons.1 hm with hm | hm
    · obtain ⟨rfl, rfl⟩ := Prod.mk.inj hm
      exact ⟨trivial, nofun⟩
    · obtain ⟨rfl, rfl⟩ := Prod.mk.inj (List.mem_singleton.1 hm)
      refine ⟨trivial, fun bs hbs => ?_⟩
      injection hbs with hbs
      rw [← hbs]
      unfold Short
      decide
  have hs : Simple e.syscall.toNat (Lemmas.Event.eventOf tbl none e
      ([("fd", Rd.c32 0), ("saddr", .sock 1)].map fun f => (f.1, evalRd e.args f.2))) := by
    rw [h42]
    refine ⟨⟨fun n v hm => ?_, fun h => absurd h (by decide)⟩, fun n bs hm _ => ?_, by decide, ⟨[], ?_⟩,
      fun c hc => nomatch hc⟩
    · exact (hin n v (by rw [← ha]; exact hm)).1
    · exact (hin n (.buf bs) (by rw [← ha]; exact hm)).2 bs rfl
    · show e.comm.take (cstrCount e.comm) = _
      decide
  obtain ⟨ev', hr, hsame⟩ := Props.EventRead.c134_whole hb m hdec hs.awake (fun c hc => nomatch hc) hs.args hs.comm (.inl rfl)
  refine ⟨tbl, _, _, ev', hb, hdec, hs, ?_, ?_, Props.EventText.c132_fits_partial hb m hdec (fun c hc => nomatch hc), hr⟩
  · show _ ∈ ([("fd", Rd.c32 0), ("saddr", .sock 1)].map fun f => (f.1, evalRd e.args f.2))
    rw [ha]
    decide
  · rw [hsame.1]
    show _ ∈ cut e.syscall.toNat ([("fd", Rd.c32 0), ("saddr", .sock 1)].map fun f => (f.1, evalRd e.args f.2))
    rw [ha, h42]
    decide

/-- So is a call to connect to the Unix socket /tmp/s. -/
example (m : Memory) : ∃ tbl e ev ev', Built tbl Props.EventJSON.someEnv ∧ Decoded tbl e ev ∧ Simple e.syscall.toNat ev ∧
    ("saddr", Val.buf ([1, 0, 47, 116, 109, 112, 47, 115] ++ List.replicate 102 0)) ∈ ev.argv ∧
    ("saddr", Val.buf ([1, 0, 47, 116, 109, 112, 47, 115] ++ List.replicate 8 0)) ∈ ev'.argv ∧
    accepts (message Props.EventJSON.someEnv m e.syscall.toNat ev) = true ∧
    receive Props.EventJSON.someEnv (message Props.EventJSON.someEnv m e.syscall.toNat ev) = .ok (some ev') := by
  obtain ⟨tbl, hb⟩ := Props.EventJSON.built_exists
  let e := Props.EventJSON.filled 42 0 [(0, 3), (1, 0x732f706d742f0001)]
  have hd : decoders.lookup e.syscall.toNat = some [("fd", .c32 0), ("saddr", .sock 1)] := by decide +kernel
  have hdec := Props.EventJSON.filled_decoded (tbl := tbl) (n := 42) (b := 0) (words := [(0, 3), (1, 0x732f706d742f0001)])
    (by decide +kernel) hd (by decide +kernel)
  have h42 : e.syscall.toNat = 42 := by decide
  have ha : ([("fd", Rd.c32 0), ("saddr", .sock 1)].map fun f => (f.1, evalRd e.args f.2)) =
      [("fd", .int 3), ("saddr", .buf ([1, 0, 47, 116, 109, 112, 47, 115] ++ List.replicate 102 0))] := by
    decide +kernel
  have hin : ∀ n v, (n, v) ∈ [("fd", Val.int 3),
      ("saddr", .buf ([1, 0, 47, 116, 109, 112, 47, 115] ++ List.replicate 102 0))] →
      Spec.EventJSON.Whole (Spec.EventJSON.specials.lookup (42, n)) v ∧ ∀ bs, v = .buf bs → Short bs := by
    intro n v hm
    rcases List.mem_cons.1 hm with hm | hm
    · obtain ⟨rfl, rfl⟩ := Prod.mk.inj hm
      exact ⟨trivial, nofun⟩
    · obtain ⟨rfl, rfl⟩ := Prod.mk.inj (List.mem_singleton.1 hm)
      refine ⟨trivial, fun bs hbs => ?_⟩
      injection hbs with hbs
      rw [← hbs]
      unfold Short
      decide
  have hs : Simple e.syscall.toNat (Lemmas.Event.eventOf tbl none e
      ([("fd", Rd.c32 0), ("saddr", .sock 1)].map fun f => (f.1, evalRd e.args f.2))) := by
    rw [h42]
    refine ⟨⟨fun n v hm => ?_, fun h => absurd h (by decide)⟩, fun n bs hm _ => ?_, by decide, ⟨[], ?_⟩,
      fun c hc => nomatch hc⟩
    · exact (hin n v (by rw [← ha]; exact hm)).1
    · exact (hin n (.buf bs) (by rw [← ha]; exact hm)).2 bs rfl
    · show e.comm.take (cstrCount e.comm) = _
      decide
  obtain ⟨ev', hr, hsame⟩ := Props.EventRead.c134_whole hb m hdec hs.awake (fun c hc => nomatch hc) hs.args hs.comm (.inl rfl)
  refine ⟨tbl, _, _, ev', hb, hdec, hs, ?_, ?_, Props.EventText.c132_fits_partial hb m hdec (fun c hc => nomatch hc), hr⟩
  · show _ ∈ ([("fd", Rd.c32 0), ("saddr", .sock 1)].map fun f => (f.1, evalRd e.args f.2))
    rw [ha]
    decide
  · rw [hsame.1]
    show _ ∈ cut e.syscall.toNat ([("fd", Rd.c32 0), ("saddr", .sock 1)].map fun f => (f.1, evalRd e.args f.2))
    rw [ha, h42]
    decide

/-- The pod's own server. -/
def someEndpoint : Endpoint := ⟨"10.0.0.7".toList, 9095, false⟩

/-- A log of two events with two lines of the kubelet between them, one of them blank. -/
example (m : Memory) : ∃ ev', tool Props.EventJSON.someEnv ([Piece.event someEndpoint ev', .other [],
      .other "time=00:01 msg=connected".toList, .event someEndpoint ev'].flatMap (Piece.text Props.EventJSON.someEnv m)) =
    ([ev', ev'], .all) := by
  obtain ⟨tbl, e, ev, ev', hb, hd, hs, ha, hr⟩ := some_sent m
  refine ⟨ev', ?_⟩
  have hp : Piece.Ok Props.EventJSON.someEnv (.event someEndpoint ev') :=
    ⟨⟨tbl, m, e, ev, hb, hd, hs, ha, hr⟩, by decide, by decide +kernel⟩
  have hn : Noise "time=00:01 msg=connected".toList := by
    refine .inr ⟨by decide +kernel, by decide +kernel, by decide +kernel, by decide +kernel, ?_⟩
    rintro ⟨w, t, w', v, hh⟩
    have := Lemmas.Json.only_iff.2 ⟨w, t, w', hh⟩
    have h0 : Json.only "time=00:01 msg=connected".toList = none := by decide +kernel
    rw [h0] at this
    cases this
  refine c149_read_partial _ m _ ?_
  intro p hm
  rcases List.mem_cons.1 hm with rfl | hm
  · exact hp
  rcases List.mem_cons.1 hm with rfl | hm
  · exact .inl rfl
  rcases List.mem_cons.1 hm with rfl | hm
  · exact hn
  rw [List.mem_singleton.1 hm]
  exact hp

example (env : Env) : tool env "x\n{}".toList = ([], .crashed) := c149_letter_violated env 'x' (by decide) (by decide) (by decide) _

example (env : Env) (rest : Str) : tool env (List.replicate 65536 'x' ++ '\n' :: rest) = ([], .tooLong) := by
  refine c149_long_violated env _ _ (fun h => absurd (List.eq_of_mem_replicate h) (by decide)) ?_
  have : ∀ n, bytes (List.replicate n 'x') = n := by
    intro n
    unfold bytes
    rw [← size_utf8]
    induction n with
    | zero => rfl
    | succ n ih =>
      rw [List.replicate_succ, size_cons, ih]
      have : 'x'.utf8Size = 1 := by decide
      omega
  rw [this]
  exact Nat.le_refl _

end Swoll.Props.Log
