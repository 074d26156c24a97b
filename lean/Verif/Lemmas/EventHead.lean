import Verif.Lemmas.EventArgsRead
import Verif.Spec.EventRead
/-
Whole messages are read as they were written.
-/
namespace Swoll.Lemmas.EventRead
open Swoll Swoll.Bytes Swoll.Event Swoll.Flags Swoll.EventJSON Swoll.EventText Swoll.EventRead
open Swoll.Json (Str Json)
open Swoll.Lemmas.EventText Swoll.Lemmas.EventJSON
open Swoll.Spec.Flags (FitsInt)
open Swoll.Spec.EventRead

/-! ### Structures -/

theorem structOf_nil {α : Type} (fields : List (Field α)) (a : α) : structOf fields a [] = some a := rfl

theorem structOf_append {α : Type} (fields : List (Field α)) (a : α) (l l' : List (Str × Json)) :
    structOf fields a (l ++ l') = (structOf fields a l).bind fun b => structOf fields b l' := by
  unfold structOf
  rw [List.foldlM_append]
  rfl

theorem structOf_step {α : Type} {fields : List (Field α)} (hn : (fields.map (·.1)).Nodup) (i : Nat) {k : String}
    {set : α → Json → Option α} (hi : fields[i]? = some (k, set)) {a a' : α} {v : Json} (hs : set a v = some a')
    (l : List (Str × Json)) : structOf fields a ((k.toList, v) :: l) = structOf fields a' l := by
  unfold structOf
  rw [List.foldlM_cons]
  dsimp only
  rw [fieldNamed_exact hn (List.mem_of_getElem? hi)]
  dsimp only
  rw [hs]
  rfl

theorem jsonMembers_append : ∀ a b : List (String × Doc), jsonMembers (a ++ b) = jsonMembers a ++ jsonMembers b
  | [], b => by rw [jsonMembers]; rfl
  | (k, v) :: a, b => by rw [List.cons_append, jsonMembers, jsonMembers, jsonMembers_append a b]; rfl

theorem int_itoa {i : Int} (old : Int) (h : FitsInt i) : Wire.int old (.num (itoa i)) = some i := by
  unfold Wire.int
  exact Flags.atoi_itoa h

theorem string_read (old s : String) : stringOf old (.str s.toList) = some s := by
  unfold stringOf Wire.str
  rw [Option.map_some, String.ofList_toList]

/-! ### Containers -/

theorem container_names : (containerFields.map (·.1)).Nodup := by
  show ["id", "pod", "sandbox-id", "name", "image", "namespace", "labels", "pid", "pid-namespace"].Nodup
  decide

/-- A string with `omitempty`. -/
theorem opt_str {n s : String} (i : Nat) {set : Topology.Container → Json → Option Topology.Container}
    (hi : containerFields[i]? = some (n, set)) {c c' : Topology.Container} (hs : set c (.str s.toList) = some c')
    (h0 : s = "" → c' = c) : structOf containerFields c (jsonMembers (optStr n s)) = some c' := by
  unfold optStr
  split
  · next h =>
    rw [h0 h, jsonMembers]
    rfl
  · rw [jsonMembers, jsonMembers, jsonOf, structOf_step container_names i hi hs]
    rfl

/-- A number with `omitempty`. -/
theorem opt_int {n : String} {x : Int} (i : Nat) {set : Topology.Container → Json → Option Topology.Container}
    (hi : containerFields[i]? = some (n, set)) {c c' : Topology.Container} (hs : set c (.num (itoa x)) = some c')
    (h0 : x = 0 → c' = c) : structOf containerFields c (jsonMembers (optInt n x)) = some c' := by
  unfold optInt
  split
  · next h =>
    rw [h0 h, jsonMembers]
    rfl
  · rw [jsonMembers, jsonMembers, jsonOf, structOf_step container_names i hi hs]
    rfl

/-- Labels as they are read. -/
def readLabels : GoMap String String → Option (GoMap String String)
  | [] => none
  | e :: l => some (((e :: l).mergeSort fun a b => JobArgs.strLE a.1.toList b.1.toList).reverse)

theorem labels_fold : ∀ (l m : GoMap String String), (l.map (·.1)).Nodup → (∀ e ∈ l, e.1 ∉ GoMap.keys m) →
    (jsonMembers (l.map fun e => (e.1, Doc.str e.2.toList))).foldlM
      (fun m e => (Wire.str [] e.2).map fun s => GoMap.set m (String.ofList e.1) (String.ofList s)) m =
      some (l.reverse ++ m)
  | [], m, _, _ => by rw [List.map_nil, jsonMembers]; rfl
  | e :: l, m, hn, hd => by
    rw [List.map_cons, List.nodup_cons] at hn
    rw [List.map_cons, jsonMembers, jsonOf, List.foldlM_cons]
    have h1 : GoMap.del m e.1 = m := by
      refine GoMap.del_eq_self ?_
      rw [GoMap.get_eq_none_iff]
      exact hd e (.head _)
    show ((Wire.str [] (Json.str e.2.toList)).map _).bind _ = _
    rw [show Wire.str [] (Json.str e.2.toList) = some e.2.toList from rfl, Option.map_some, Option.bind_some]
    dsimp only
    rw [String.ofList_toList, String.ofList_toList]
    have h2 : GoMap.set m e.1 e.2 = e :: m := by
      unfold GoMap.set
      rw [h1]
    rw [h2, labels_fold l (e :: m) hn.2 ?_]
    · rw [List.reverse_cons, List.append_assoc]
      rfl
    · intro x hx
      rw [GoMap.keys_cons, List.mem_cons, not_or]
      refine ⟨fun h => hn.1 (List.mem_map.2 ⟨x, hx, h⟩), hd x (.tail _ hx)⟩

theorem labels_read {l : GoMap String String} (hn : (l.map (·.1)).Nodup) {c : Topology.Container} (hc : c.labels = none) :
    structOf containerFields c (jsonMembers (optLabels l)) = some { c with labels := readLabels l } := by
  cases l with
  | nil =>
    show structOf containerFields c (jsonMembers []) = _
    rw [jsonMembers, structOf_nil]
    show some c = some { c with labels := none }
    rw [← hc]
  | cons e l =>
    show structOf containerFields c (jsonMembers [("labels", labelsDoc (e :: l))]) = _
    rw [jsonMembers, jsonMembers]
    have hp := List.mergeSort_perm (e :: l) fun a b => JobArgs.strLE a.1.toList b.1.toList
    refine (structOf_step container_names 6 rfl (a' := { c with labels := readLabels (e :: l) }) ?_ []).trans rfl
    show (labelsOf c.labels (jsonOf (labelsDoc (e :: l)))).map _ = _
    unfold labelsDoc
    rw [jsonOf, hc]
    show Option.map _ (Option.map some (List.foldlM (m := Option) _ [] (jsonMembers _))) = _
    rw [labels_fold _ [] ((hp.map Prod.fst).nodup_iff.2 hn) (by simp), List.append_nil]
    rfl

/-- A container as it is read. -/
def readContainer (c : Topology.Container) : Topology.Container := { c with labels := readLabels (c.labels.getD []) }

theorem container_read {c : Topology.Container} (h : Carried c) (old : Option Topology.Container) (ho : old = none) :
    pointer containerFields noContainer old (jsonOf (containerDoc c)) = some (some (readContainer c)) := by
  subst ho
  unfold containerDoc
  rw [jsonOf]
  show (structOf containerFields noContainer _).map some = _
  simp only [jsonMembers_append, structOf_append, Option.bind_assoc]
  rw [opt_str 0 rfl (c' := ⟨c.id, "", "", "", "", "", none, 0, 0⟩) (by
    show (stringOf _ _).map _ = _
    rw [string_read]; rfl) (fun h => by rw [h]; rfl), Option.bind_some]
  rw [opt_str 1 rfl (c' := ⟨c.id, c.pod, "", "", "", "", none, 0, 0⟩) (by
    show (stringOf _ _).map _ = _
    rw [string_read]; rfl) (fun h => by rw [h]), Option.bind_some]
  rw [opt_str 2 rfl (c' := ⟨c.id, c.pod, c.sandbox, "", "", "", none, 0, 0⟩) (by
    show (stringOf _ _).map _ = _
    rw [string_read]; rfl) (fun h => by rw [h]), Option.bind_some]
  rw [opt_str 3 rfl (c' := ⟨c.id, c.pod, c.sandbox, c.name, "", "", none, 0, 0⟩) (by
    show (stringOf _ _).map _ = _
    rw [string_read]; rfl) (fun h => by rw [h]), Option.bind_some]
  rw [opt_str 4 rfl (c' := ⟨c.id, c.pod, c.sandbox, c.name, c.image, "", none, 0, 0⟩) (by
    show (stringOf _ _).map _ = _
    rw [string_read]; rfl) (fun h => by rw [h]), Option.bind_some]
  rw [opt_str 5 rfl (c' := ⟨c.id, c.pod, c.sandbox, c.name, c.image, c.ns, none, 0, 0⟩) (by
    show (stringOf _ _).map _ = _
    rw [string_read]; rfl) (fun h => by rw [h]), Option.bind_some]
  rw [labels_read h.labels rfl, Option.bind_some]
  rw [opt_int 7 rfl (c' := ⟨c.id, c.pod, c.sandbox, c.name, c.image, c.ns, readLabels (c.labels.getD []), c.pid, 0⟩) (by
    show (Wire.int _ _).map _ = _
    rw [int_itoa _ h.pid]; rfl) (fun h => by rw [h]), Option.bind_some]
  rw [opt_int 8 rfl (c' := readContainer c) (by
    show (Wire.int _ _).map _ = _
    rw [int_itoa _ h.pidns]; rfl) (fun h => by unfold readContainer; rw [h])]
  rfl

/-! ### Events -/

theorem call_names : (callFields.map (·.1)).Nodup := by
  show ["nr", "name", "class", "group"].Nodup
  decide

theorem call_read {s : Syscalls.Syscall} (h : FitsInt s.nr) (old : Option EventRead.Call) (ho : old = none) :
    pointer callFields noCall old (jsonOf (syscallDoc s)) =
      some (some ⟨s.nr, s.name.toList, s.cls.toList, s.group.toList⟩) := by
  subst ho
  unfold syscallDoc
  simp only [jsonOf, jsonMembers]
  show (structOf callFields noCall _).map some = _
  rw [structOf_step call_names 0 rfl (a' := { noCall with nr := s.nr }) (by
    show (Wire.int _ _).map _ = _
    rw [int_itoa _ h]; rfl)]
  rw [structOf_step call_names 1 rfl (a' := { noCall with nr := s.nr, name := s.name.toList }) rfl]
  rw [structOf_step call_names 2 rfl (a' := { noCall with nr := s.nr, name := s.name.toList, cls := s.cls.toList }) rfl]
  rw [structOf_step call_names 3 rfl (a' := ⟨s.nr, s.name.toList, s.cls.toList, s.group.toList⟩) rfl]
  rfl

theorem event_names (env : Env) : ((eventFields env).map (·.1)).Nodup := by
  show ["syscall", "pid", "tid", "container_pid", "uid", "gid", "comm", "session", "container", "error", "return", "pid_ns",
    "uts_ns", "mount_ns", "start", "finish", "args"].Nodup
  decide

/-- The numbers of an event fit 64 bits. -/
structure Numbers (ev : TraceEvent Topology.Container) : Prop where
  pid : FitsInt ev.pid
  tid : FitsInt ev.tid
  cpid : FitsInt ev.cpid
  uid : FitsInt ev.uid
  gid : FitsInt ev.gid
  sid : FitsInt ev.sid
  ret : FitsInt ev.ret
  pidNs : FitsInt ev.pidNs
  utsNs : FitsInt ev.utsNs
  mntNs : FitsInt ev.mntNs
  start : FitsInt ev.start
  finish : FitsInt ev.finish

/-- An event as it is read, but for its system call and its arguments. -/
def readHead (env : Env) (ev : TraceEvent Topology.Container) : TraceEvent Topology.Container :=
  { ev with syscall := none, comm := jsonText ev.comm, container := ev.container.map readContainer
            error := stringToErrno env.errno (errnoToString ev.error), argv := [] }

theorem head_read {env : Env} {m : Memory} {t : String} {ev : TraceEvent Topology.Container} {s : Syscalls.Syscall}
    (hs : ev.syscall = some s) (hnr : FitsInt s.nr) (hn : Numbers ev) (hc : ∀ c, ev.container = some c → Carried c) :
    ∃ l, jsonOf (eventDoc env m t ev) = .obj l ∧ structOf (eventFields env) { ev := noEvent } l =
      some ⟨some ⟨s.nr, s.name.toList, s.cls.toList, s.group.toList⟩, readHead env ev,
        some (jsonOf (argsDoc env m t ev.argv))⟩ := by
  unfold eventDoc
  rw [jsonOf]
  refine ⟨_, rfl, ?_⟩
  simp only [jsonMembers]
  rw [hs, Option.map_some, Option.getD_some]
  simp only [show ∀ i, jsonOf (.num i) = .num (itoa i) from fun i => by rw [jsonOf],
    show ∀ s, jsonOf (.str s) = .str s from fun i => by rw [jsonOf],
    show ∀ bs, jsonOf (.bytes bs) = .str (runes bs.length bs) from fun i => by rw [jsonOf]]
  have hnm := event_names env
  generalize hC : (some ⟨s.nr, s.name.toList, s.cls.toList, s.group.toList⟩ : Option EventRead.Call) = C
  have hcall := (call_read (s := s) hnr none rfl).trans (congrArg some hC)
  have hcont : pointer containerFields noContainer none (jsonOf ((ev.container.map containerDoc).getD .null)) =
      some (ev.container.map readContainer) := by
    cases hcc : ev.container with
    | none =>
      rw [Option.map_none, Option.getD_none, jsonOf]
      rfl
    | some c =>
      rw [Option.map_some, Option.getD_some, container_read (hc c hcc) _ rfl]
      rfl
  have herr : errorOf env (.str (errnoToString ev.error).toList) = some (stringToErrno env.errno (errnoToString ev.error)) := by
    unfold errorOf Wire.str
    rw [Option.map_some, String.ofList_toList]
  rw [structOf_step hnm 0 rfl (a' :=
    ⟨C, ⟨none, 0, 0, 0, 0, 0, [], 0, none, 0, 0, 0, 0, 0, 0, 0, []⟩, none⟩)
    (by show (pointer _ _ none _).map _ = _; rw [hcall]; rfl)]
  rw [structOf_step hnm 1 rfl (a' :=
    ⟨C, ⟨none, ev.pid, 0, 0, 0, 0, [], 0, none, 0, 0, 0, 0, 0, 0, 0, []⟩, none⟩)
    (by show (Wire.int _ _).map _ = _; rw [int_itoa _ hn.pid]; rfl)]
  rw [structOf_step hnm 2 rfl (a' :=
    ⟨C, ⟨none, ev.pid, ev.tid, 0, 0, 0, [], 0, none, 0, 0, 0, 0, 0, 0, 0, []⟩, none⟩)
    (by show (Wire.int _ _).map _ = _; rw [int_itoa _ hn.tid]; rfl)]
  rw [structOf_step hnm 3 rfl (a' :=
    ⟨C, ⟨none, ev.pid, ev.tid, ev.cpid, 0, 0, [], 0, none, 0, 0, 0, 0, 0, 0, 0, []⟩, none⟩)
    (by show (Wire.int _ _).map _ = _; rw [int_itoa _ hn.cpid]; rfl)]
  rw [structOf_step hnm 4 rfl (a' :=
    ⟨C, ⟨none, ev.pid, ev.tid, ev.cpid, ev.uid, 0, [], 0, none, 0, 0, 0, 0, 0, 0, 0, []⟩, none⟩)
    (by show (Wire.int _ _).map _ = _; rw [int_itoa _ hn.uid]; rfl)]
  rw [structOf_step hnm 5 rfl (a' :=
    ⟨C, ⟨none, ev.pid, ev.tid, ev.cpid, ev.uid, ev.gid, [], 0, none, 0, 0, 0, 0, 0, 0, 0, []⟩, none⟩)
    (by show (Wire.int _ _).map _ = _; rw [int_itoa _ hn.gid]; rfl)]
  rw [structOf_step hnm 6 rfl (a' :=
    ⟨C, ⟨none, ev.pid, ev.tid, ev.cpid, ev.uid, ev.gid, utf8 (runes ev.comm.length ev.comm), 0, none, 0, 0, 0, 0, 0,
      0, 0, []⟩, none⟩)
    rfl]
  rw [structOf_step hnm 7 rfl (a' :=
    ⟨C, ⟨none, ev.pid, ev.tid, ev.cpid, ev.uid, ev.gid, utf8 (runes ev.comm.length ev.comm), ev.sid, none, 0, 0, 0, 0,
      0, 0, 0, []⟩, none⟩)
    (by show (Wire.int _ _).map _ = _; rw [int_itoa _ hn.sid]; rfl)]
  rw [structOf_step hnm 8 rfl (a' :=
    ⟨C, ⟨none, ev.pid, ev.tid, ev.cpid, ev.uid, ev.gid, utf8 (runes ev.comm.length ev.comm), ev.sid, ev.container.map
      readContainer, 0, 0, 0, 0, 0, 0, 0, []⟩, none⟩)
    (by show (pointer _ _ none _).map _ = _; rw [hcont]; rfl)]
  rw [structOf_step hnm 9 rfl (a' :=
    ⟨C, ⟨none, ev.pid, ev.tid, ev.cpid, ev.uid, ev.gid, utf8 (runes ev.comm.length ev.comm), ev.sid, ev.container.map
      readContainer, stringToErrno env.errno (errnoToString ev.error), 0, 0, 0, 0, 0, 0, []⟩, none⟩)
    (by show (errorOf env (.str _)).map _ = _; rw [herr]; rfl)]
  rw [structOf_step hnm 10 rfl (a' :=
    ⟨C, ⟨none, ev.pid, ev.tid, ev.cpid, ev.uid, ev.gid, utf8 (runes ev.comm.length ev.comm), ev.sid, ev.container.map
      readContainer, stringToErrno env.errno (errnoToString ev.error), ev.ret, 0, 0, 0, 0, 0, []⟩, none⟩)
    (by show (Wire.int _ _).map _ = _; rw [int_itoa _ hn.ret]; rfl)]
  rw [structOf_step hnm 11 rfl (a' :=
    ⟨C, ⟨none, ev.pid, ev.tid, ev.cpid, ev.uid, ev.gid, utf8 (runes ev.comm.length ev.comm), ev.sid, ev.container.map
      readContainer, stringToErrno env.errno (errnoToString ev.error), ev.ret, ev.pidNs, 0, 0, 0, 0, []⟩, none⟩)
    (by show (Wire.int _ _).map _ = _; rw [int_itoa _ hn.pidNs]; rfl)]
  rw [structOf_step hnm 12 rfl (a' :=
    ⟨C, ⟨none, ev.pid, ev.tid, ev.cpid, ev.uid, ev.gid, utf8 (runes ev.comm.length ev.comm), ev.sid, ev.container.map
      readContainer, stringToErrno env.errno (errnoToString ev.error), ev.ret, ev.pidNs, ev.utsNs, 0, 0, 0, []⟩,
      none⟩)
    (by show (Wire.int _ _).map _ = _; rw [int_itoa _ hn.utsNs]; rfl)]
  rw [structOf_step hnm 13 rfl (a' :=
    ⟨C, ⟨none, ev.pid, ev.tid, ev.cpid, ev.uid, ev.gid, utf8 (runes ev.comm.length ev.comm), ev.sid, ev.container.map
      readContainer, stringToErrno env.errno (errnoToString ev.error), ev.ret, ev.pidNs, ev.utsNs, ev.mntNs, 0, 0,
      []⟩, none⟩)
    (by show (Wire.int _ _).map _ = _; rw [int_itoa _ hn.mntNs]; rfl)]
  rw [structOf_step hnm 14 rfl (a' :=
    ⟨C, ⟨none, ev.pid, ev.tid, ev.cpid, ev.uid, ev.gid, utf8 (runes ev.comm.length ev.comm), ev.sid, ev.container.map
      readContainer, stringToErrno env.errno (errnoToString ev.error), ev.ret, ev.pidNs, ev.utsNs, ev.mntNs, ev.start,
      0, []⟩, none⟩)
    (by show (Wire.int _ _).map _ = _; rw [int_itoa _ hn.start]; rfl)]
  rw [structOf_step hnm 15 rfl (a' :=
    ⟨C, ⟨none, ev.pid, ev.tid, ev.cpid, ev.uid, ev.gid, utf8 (runes ev.comm.length ev.comm), ev.sid, ev.container.map
      readContainer, stringToErrno env.errno (errnoToString ev.error), ev.ret, ev.pidNs, ev.utsNs, ev.mntNs, ev.start,
      ev.finish, []⟩, none⟩)
    (by show (Wire.int _ _).map _ = _; rw [int_itoa _ hn.finish]; rfl)]
  rw [structOf_step hnm 16 rfl (a' :=
    ⟨C, ⟨none, ev.pid, ev.tid, ev.cpid, ev.uid, ev.gid, utf8 (runes ev.comm.length ev.comm), ev.sid, ev.container.map
      readContainer, stringToErrno env.errno (errnoToString ev.error), ev.ret, ev.pidNs, ev.utsNs, ev.mntNs, ev.start,
      ev.finish, []⟩, some (jsonOf (argsDoc env m t ev.argv))⟩)
    rfl]
  rw [structOf_nil]
  refine congrArg some ?_
  unfold readHead
  rw [← utf8_ofBytes]

/-! ### Messages -/

theorem fits_nat {w : Nat} (b : BitVec w) (h : w ≤ 63) : FitsInt (b.toNat : Int) := by
  have h1 := b.isLt
  have h2 : 2 ^ w ≤ 2 ^ 63 := Nat.pow_le_pow_right (by decide) h
  unfold FitsInt
  omega

theorem fits_int {w : Nat} (b : BitVec w) (h : w ≤ 64) (hw : 0 < w) : FitsInt b.toInt := by
  have h1 := b.toInt_lt
  have h2 := b.le_toInt
  have h3 : (2 : Int) ^ (w - 1) ≤ 2 ^ 63 := by
    have : 2 ^ (w - 1) ≤ 2 ^ 63 := Nat.pow_le_pow_right (by decide) (by omega)
    have h4 : ((2 ^ (w - 1) : Nat) : Int) ≤ ((2 ^ 63 : Nat) : Int) := Int.ofNat_le.2 this
    simpa using h4
  unfold FitsInt
  constructor <;> omega

theorem numbers_eventOf (tbl : Syscalls.Syscalls) (lk : Option (Int → Option Topology.Container)) (e : KEvent)
    (argv : List (String × Val)) : Numbers (Lemmas.Event.eventOf tbl lk e argv) where
  pid := fits_nat _ (by decide)
  tid := fits_nat _ (by decide)
  cpid := fits_nat _ (by decide)
  uid := fits_nat _ (by decide)
  gid := fits_nat _ (by decide)
  sid := fits_int _ (by decide) (by decide)
  ret := fits_nat _ (by decide)
  pidNs := fits_nat _ (by decide)
  utsNs := fits_nat _ (by decide)
  mntNs := fits_nat _ (by decide)
  start := fits_int _ (by decide) (by decide)
  finish := fits_int _ (by decide) (by decide)

/-- A message, whatever its arguments are read as. -/
theorem message_read {env : Env} {m : Memory} {nr : Nat} {ev : TraceEvent Topology.Container} {s : Syscalls.Syscall}
    (hs : ev.syscall = some s) (hsn : s.nr = nr) (hnr : FitsInt nr) (hn : Numbers ev)
    (hc : ∀ c, ev.container = some c → Carried c) {t : String} (ht : decodeTypes.lookup nr = some t)
    (ht' : jsonTypes.lookup nr = some t) :
    receive env (message env m nr ev) = match argsOf env t (jsonOf (argsDoc env m t ev.argv)) with
      | .ok a => .ok (some { readHead env ev with syscall := some s, argv := a })
      | .err => .err
      | .panic => .panic := by
  unfold message receive
  rw [ht, Option.getD_some, only_doc]
  obtain ⟨l, hl, hst⟩ := head_read (env := env) (m := m) (t := t) hs (by rw [hsn]; exact hnr) hn hc
  dsimp only
  rw [hl]
  unfold EventRead.eventOf
  dsimp only
  rw [hst]
  dsimp only
  unfold finish
  dsimp only
  rw [if_neg (by omega), Int.toNat_natCast, hsn, ht']
  dsimp only
  cases argsOf env t (jsonOf (argsDoc env m t ev.argv)) with
  | ok a =>
    dsimp only
    rw [String.ofList_toList, String.ofList_toList, String.ofList_toList, ← hsn]
  | err => rfl
  | panic => rfl

theorem get_perm_labels {l l' : GoMap String String} (h : l'.Perm l) (hn : (l.map (·.1)).Nodup) (k : String) :
    GoMap.get l' k = GoMap.get l k := (GoMap.get_perm h.symm hn k).symm

theorem readLabels_same {l : GoMap String String} (hn : (l.map (·.1)).Nodup) (k : String) :
    GoMap.get ((readLabels l).getD []) k = GoMap.get l k := by
  cases l with
  | nil => rfl
  | cons e l => exact get_perm_labels ((List.reverse_perm _).trans (List.mergeSort_perm _ _)) hn k

theorem readContainer_same {c : Topology.Container} (h : Carried c) : SameContainer c (readContainer c) :=
  ⟨rfl, rfl, rfl, rfl, rfl, rfl, rfl, rfl, fun k => readLabels_same h.labels k⟩

/-! ### Nanosleep -/

theorem nanosleep_read (env : Env) (m : Memory) {argv : List (String × Val)} {i j n n' : Nat}
    (h1 : argv.lookup "req" = some (.ptrs i n)) (h2 : argv.lookup "rem" = some (.ptrs j n')) :
    argsOf env "Nanosleep" (jsonOf (argsDoc env m "Nanosleep" argv)) =
      .ok [("req", .ptrs 0 0), ("rem", .ptrs 0 0)] := by
  have hk : (fieldKinds.lookup "Nanosleep").getD [] = [("req", .ptrs), ("rem", .ptrs)] := by decide +kernel
  have hl : layouts.lookup "Nanosleep" = none := by decide +kernel
  have hlay : layout "Nanosleep" = [("req", .field "req"), ("rem", .field "rem")] := by
    unfold layout
    rw [hl, hk]
    rfl
  unfold argsOf argsDoc
  dsimp only
  rw [hk, hlay]
  simp only [memberDocs, Lay.doc, h1, h2, Option.getD_some,
    show List.lookup "req" [("req", Kind.ptrs), ("rem", .ptrs)] = some .ptrs by decide,
    show List.lookup "rem" [("req", Kind.ptrs), ("rem", .ptrs)] = some .ptrs by decide, fieldDoc, jsonOf, jsonMembers,
    List.map_cons, List.map_nil]
  have he : ∀ f ∈ ["req", "rem"], expand [("req", .ptrs), ("rem", .ptrs)] (.field f) = .field f := by
    intro f hf
    have hf : f = "req" ∨ f = "rem" := by simpa using hf
    rcases hf with rfl | rfl <;> rfl
  rw [he "req" (by simp), he "rem" (by simp)]
  have hn : ["req", "rem"].Nodup := by decide
  have f1 : fieldNamed [("req", Lay.field "req"), ("rem", .field "rem")] "req".toList = some (.field "req") :=
    fieldNamed_exact hn (.head _)
  have f2 : fieldNamed [("req", Lay.field "req"), ("rem", .field "rem")] "rem".toList = some (.field "rem") :=
    fieldNamed_exact hn (.tail _ (.head _))
  have hst : ∀ f ∈ ["req", "rem"], ∀ l st, store [("req", .ptrs), ("rem", .ptrs)] (.obj l) (.field f) st = some st := by
    intro f hf l st
    have hf : f = "req" ∨ f = "rem" := by simpa using hf
    rw [store_field]
    rcases hf with rfl | rfl <;> rfl
  rw [store, storeMembers, f1]
  dsimp only
  rw [hst "req" (by simp), Option.bind_some, storeMembers, f2]
  dsimp only
  rw [hst "rem" (by simp), Option.bind_some, storeMembers]
  dsimp only
  unfold readArgs
  rw [hk]
  rfl

/-! ### Any message -/

theorem readArgs_not_panic (env : Env) (t : String) (j : List (String × JVal)) : readArgs env t j ≠ .panic := by
  unfold readArgs
  generalize (fieldKinds.lookup t).getD [] = l
  have hf : ∀ f, readField env j f ≠ .panic := by
    intro f
    unfold readField
    cases j.lookup f.1 with
    | none => exact nofun
    | some v =>
      dsimp only
      have := after_not_panic env f.2 v
      cases h : unmarshal env f.2 v with
      | panic => exact absurd h this
      | ok _ => exact nofun
      | err => exact nofun
  rcases allOk_cases (l := l) fun f _ => hf f with ⟨h, -⟩ | ⟨_, h, -⟩ <;> rw [h] <;> exact nofun

theorem argsOf_not_panic (env : Env) (t : String) (v : Json) : argsOf env t v ≠ .panic := by
  unfold argsOf
  dsimp only
  split
  · exact readArgs_not_panic env t _
  · exact nofun

theorem finish_panic {env : Env} {d : Draft} : finish env d = .panic ↔ d.call = none := by
  unfold finish
  cases d.call with
  | none => exact iff_of_true rfl rfl
  | some c =>
    refine iff_of_false ?_ nofun
    dsimp only
    split
    · exact nofun
    · split
      · exact nofun
      · split
        · exact nofun
        · next t _ _ v _ =>
          have := argsOf_not_panic env t v
          cases h : argsOf env t v with
          | panic => exact absurd h this
          | ok _ => exact nofun
          | err => exact nofun

theorem fieldNamed_mem {α : Type} {l : List (String × α)} {k : Str} {y : α} (h : fieldNamed l k = some y) :
    ∃ n, (n, y) ∈ l ∧ Wire.named n k = true := by
  unfold fieldNamed at h
  split at h
  · next e he =>
    injection h with h
    subst h
    have h1 := List.find?_some he
    have h1 : e.1.toList = k := by simpa using h1
    refine ⟨e.1, List.mem_of_find?_eq_some he, ?_⟩
    unfold Wire.named
    rw [h1]
    simp
  · cases he : l.find? (fun e => Wire.named e.1 k) with
    | none => rw [he] at h; cases h
    | some e =>
      rw [he] at h
      injection h with h
      subst h
      have h1 := List.find?_some he
      exact ⟨e.1, List.mem_of_find?_eq_some he, h1⟩

theorem fieldNamed_none {α : Type} {l : List (String × α)} {k : Str} (h : ∀ e ∈ l, Wire.named e.1 k = false) :
    fieldNamed l k = none := by
  cases hf : fieldNamed l k with
  | none => rfl
  | some y =>
    obtain ⟨n, hm, hn⟩ := fieldNamed_mem hf
    rw [h _ hm] at hn
    cases hn

/-- The setter of the system call. -/
def setCall (a : Draft) (v : Json) : Option Draft :=
  (pointer callFields noCall a.call v).map fun x => { a with call := x }

theorem eventFields_cons (env : Env) : eventFields env = ("syscall", setCall) :: (eventFields env).tail := rfl

theorem map_call {α : Type} {o : Option α} {f : α → Draft} {d : Draft} {c : Option EventRead.Call}
    (h : o.map f = some d) (hf : ∀ x, (f x).call = c) : d.call = c := by
  cases o with
  | none => cases h
  | some x => injection h with h; rw [← h]; exact hf x

theorem other_call (env : Env) : ∀ e ∈ (eventFields env).tail, ∀ a v d, e.2 a v = some d → d.call = a.call := by
  intro e he a v d h
  unfold eventFields at he
  simp only [List.tail_cons, List.mem_cons, List.not_mem_nil, or_false] at he
  rcases he with rfl | rfl | rfl | rfl | rfl | rfl | rfl | rfl | rfl | rfl | rfl | rfl | rfl | rfl | rfl | rfl
  case inr.inr.inr.inr.inr.inl =>
    dsimp only at h
    split at h
    · injection h with h; rw [← h]
    · injection h with h; rw [← h]
    · cases h
  case inr.inr.inr.inr.inr.inr.inr.inr.inr.inr.inr.inr.inr.inr.inr =>
    injection h with h
    rw [← h]
  all_goals exact map_call h fun x => rfl

theorem names_apart : ∀ n ∈ memberNames.tail, ("syscall".toList.map Wire.fold == n.toList.map Wire.fold) = false := by
  decide

theorem tail_names (env : Env) : (eventFields env).tail.map (·.1) = memberNames.tail := rfl

theorem call_named (env : Env) {k : Str} (h : Wire.named "syscall" k = true) :
    fieldNamed (eventFields env) k = some setCall := by
  cases hf : fieldNamed (eventFields env) k with
  | none =>
    unfold fieldNamed at hf
    split at hf
    · cases hf
    · rw [eventFields_cons, List.find?_cons_of_pos (by exact h)] at hf
      cases hf
  | some y =>
    obtain ⟨n, hm, hn⟩ := fieldNamed_mem hf
    rw [eventFields_cons] at hm
    rcases List.mem_cons.1 hm with hm | hm
    · injection hm with _ hm
      rw [hm]
    · have ha := names_apart n (tail_names env ▸ List.mem_map.2 ⟨_, hm, rfl⟩)
      unfold Wire.named at h hn
      rw [beq_iff_eq] at h hn
      rw [← h, ← hn] at ha
      simp at ha

theorem other_named (env : Env) {k : Str} (h : Wire.named "syscall" k = false) {set : Draft → Json → Option Draft}
    (hf : fieldNamed (eventFields env) k = some set) {a d : Draft} {v : Json} (hs : set a v = some d) :
    d.call = a.call := by
  obtain ⟨n, hm, hn⟩ := fieldNamed_mem hf
  rw [eventFields_cons] at hm
  rcases List.mem_cons.1 hm with hm | hm
  · injection hm with hm _
    rw [hm, h] at hn
    cases hn
  · exact other_call env _ hm a v d hs

/-- What one member makes of what has been read. -/
def member {α : Type} (fields : List (Field α)) (a : α) (e : Str × Json) : Option α :=
  match fieldNamed fields e.1 with
  | some set => set a e.2
  | none => some a

theorem structOf_cons {α : Type} (fields : List (Field α)) (a : α) (e : Str × Json) (l : List (Str × Json)) :
    structOf fields a (e :: l) = (member fields a e).bind fun b => structOf fields b l := rfl

theorem struct_call (env : Env) : ∀ (l : List (Str × Json)) (a d : Draft), structOf (eventFields env) a l = some d →
    (l.filter (fun e => Wire.named "syscall" e.1) = [] → d.call = a.call) ∧
    ∀ k v, (l.filter fun e => Wire.named "syscall" e.1).getLast? = some (k, v) → (d.call = none ↔ v = .null)
  | [], a, d, h => by
    injection h with h
    subst h
    exact ⟨fun _ => rfl, fun k v h => by cases h⟩
  | (k, v) :: l, a, d, h => by
    rw [structOf_cons] at h
    cases hs : member (eventFields env) a (k, v) with
    | none => rw [hs] at h; cases h
    | some b =>
      rw [hs] at h
      unfold member at hs
      dsimp only at hs
      obtain ⟨i1, i2⟩ := struct_call env l b d h
      cases hk : Wire.named "syscall" k with
      | false =>
        have hb : b.call = a.call := by
          split at hs
          · next set hset => exact other_named env hk hset hs
          · injection hs with hs; rw [hs]
        rw [List.filter_cons_of_neg (by rw [hk]; exact nofun)]
        exact ⟨fun hl => (i1 hl).trans hb, i2⟩
      | true =>
        rw [List.filter_cons_of_pos (by exact hk)]
        refine ⟨nofun, fun k' v' hl => ?_⟩
        cases hfl : l.filter (fun e => Wire.named "syscall" e.1) with
        | nil =>
          rw [hfl] at hl
          injection hl with hl
          injection hl with _ hl
          rw [i1 hfl, ← hl]
          rw [call_named env hk] at hs
          have hs : (pointer callFields noCall a.call v).map (fun x => ({ a with call := x } : Draft)) = some b := hs
          cases v with
          | null => injection hs with hs; rw [← hs]; exact iff_of_true rfl rfl
          | obj m =>
            refine iff_of_false ?_ nofun
            unfold pointer at hs
            dsimp only at hs
            cases hst : structOf callFields (a.call.getD noCall) m with
            | none => rw [hst] at hs; cases hs
            | some c => rw [hst] at hs; injection hs with hs; rw [← hs]; exact nofun
          | bool _ => cases hs
          | num _ => cases hs
          | str _ => cases hs
          | arr _ => cases hs
        | cons x xs =>
          rw [hfl, List.getLast?_cons_cons] at hl
          rw [hfl] at i2
          exact i2 k' v' hl

/-- The object without members. -/
theorem only_empty : Json.only "{}".toList = some (.obj []) :=
  Lemmas.Json.only_says (w := []) (w' := []) Lemmas.Json.space_nil (by
    have := doc_says (.obj [])
    rwa [Doc.text, jsonOf, members, jsonMembers] at this) Lemmas.Json.space_nil

end Swoll.Lemmas.EventRead
