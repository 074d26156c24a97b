import Verif.Model.EventText
/-
What a client reads in a message of an event stream: `json.Unmarshal`, pkg/client/endpoint.go:223-228, with
`TraceEvent.UnmarshalJSON`, pkg/event/trace.go:63-205.

Simplifications: a number of the arguments is read if it fits 64 bits, with or without a sign; Go also asks that it fits
its field. A structure or an array that is given twice is merged; Go clears the bytes of a slice and what is behind a
pointer that is null. The two times of `Nanosleep`, for which the model of events has no numbers, are not read.
-/
namespace Swoll.EventRead
open Swoll.Bytes Swoll.Event Swoll.Flags Swoll.EventJSON Swoll.EventText
open Swoll.Json (Str Json)

/-! ### Values -/

/-- The bytes of a string. (Library, used at pkg/client/endpoint.go:226.) -/
def utf8 (s : Str) : List Byte := s.flatMap String.utf8EncodeChar

/-- The value of a digit of base 64. (encoding/base64; library, used for the `Buffer`s of pkg/event/call/*.go.) -/
def value64 (c : Char) : Option Nat :=
  if 65 ≤ c.toNat ∧ c.toNat ≤ 90 then some (c.toNat - 65)
  else if 97 ≤ c.toNat ∧ c.toNat ≤ 122 then some (c.toNat - 71)
  else if 48 ≤ c.toNat ∧ c.toNat ≤ 57 then some (c.toNat + 4)
  else if c = '+' then some 62 else if c = '/' then some 63 else none

/-- Digits, four by four. (`decodeQuantum`; library, as above.) -/
def quads : Str → Option (List Byte)
  | [] => some []
  | a :: b :: c :: d :: rest =>
    match value64 a, value64 b with
    | some x, some y =>
      if c = '=' then if d = '=' ∧ rest = [] then some [UInt8.ofNat (x * 4 + y / 16)] else none
      else match value64 c with
        | none => none
        | some z =>
          if d = '=' then
            if rest = [] then some [UInt8.ofNat (x * 4 + y / 16), UInt8.ofNat (y * 16 + z / 4)] else none
          else match value64 d with
            | none => none
            | some w => (quads rest).map fun l => UInt8.ofNat (x * 4 + y / 16) :: UInt8.ofNat (y * 16 + z / 4) ::
                UInt8.ofNat (z * 64 + w) :: l
    | _, _ => none
  | _ => none

/-- `base64.StdEncoding.Decode`, which skips line ends. (Library, as above.) -/
def unbase64 (s : Str) : Option (List Byte) := quads (s.filter fun c => c != '\r' && c != '\n')

/-- `strconv.ParseUint`. (Library, used at pkg/client/endpoint.go:226.) -/
def natural (l : Str) : Option Nat :=
  if l = [] then none
  else match digitsVal 0 l with
    | some n => if n < 2 ^ 64 then some n else none
    | none => none

/-- A number of any of the integer types. (Library, used at pkg/event/trace.go:199.) -/
def integer (l : Str) : Option Int :=
  match atoi l with
  | some i => some i
  | none => (natural l).map Int.ofNat

/-- A number of `width` bytes, with or without a sign. (Library, used at pkg/event/trace.go:199.) -/
def wide (width : Nat) (signed : Bool) (l : Str) : Option Int :=
  if signed then
    match atoi l with
    | some i => if -2 ^ (8 * width - 1) ≤ i ∧ i < 2 ^ (8 * width - 1) then some i else none
    | none => none
  else
    match natural l with
    | some n => if n < 2 ^ (8 * width) then some (n : Int) else none
    | none => none

/-- A name in a list. (Library, used by the `UnmarshalJSON` methods of the flag types.) -/
def nameIn : Json → Option String
  | .null => some ""
  | .str s => some (String.ofList s)
  | _ => none

/-- A byte in a list. (Library, used at pkg/event/trace.go:199.) -/
def byteIn : Json → Option Byte
  | .null => some 0
  | .num l => (wide 1 false l).map fun i => UInt8.ofNat i.toNat
  | _ => none

/-- A list of names. (pkg/types/fileflags.go:56-60 and the like) -/
def namesOf : Json → Option (List String)
  | .null => some []
  | .arr l => l.mapM nameIn
  | _ => none

/-- One name. (pkg/event/call/socket.go:168-174 and the like) -/
def nameOf : Json → Option String := nameIn

/-- A field as its type reads it: `none` is an error, `some none` leaves it as it is. Socket addresses are read as
structures, `sockLay`. (the `UnmarshalJSON` methods of pkg/event/call/*.go and pkg/types/*.go, and encoding/json for types
without) -/
def fieldOf : Kind → Json → Option (Option JVal)
  | .flags _, v | .sockType, v => (namesOf v).map fun l => some (.names l)
  | .family, v | .proto, v | .level, v | .rlimit, v | .optTp, v | .optLv, v => (nameOf v).map fun s => some (.name s)
  | _, .null => some none
  | .num, .num l => (integer l).map fun i => some (.num i)
  | .text, .str s => some (some (.text (utf8 s)))
  | .raw, .str s => (unbase64 s).map fun bs => some (.bytes bs)
  | .raw, .arr l => (l.mapM byteIn).map fun bs => some (.bytes bs)
  | .ptrs, .obj _ => some none
  | _, _ => none

/-! ### Structures -/

/-- The fields read so far. (pkg/event/trace.go:199) -/
abbrev Args := GoMap String JVal

/-- The name of an option is read into its two fields at once. (pkg/event/call/sockopt.go:296-337) -/
def put (st : Args) (f : String) (v : JVal) : Args :=
  if f = "name.tp" then GoMap.set (GoMap.set st "name.tp" v) "name.lv" v else GoMap.set st f v

/-- The bytes of a structure so far. (the structures of numbers in pkg/event/call/*.go) -/
def bytesAt (st : Args) (f : String) : List Byte :=
  match GoMap.get st f with
  | some (.bytes bs) => bs
  | _ => []

/-- Bytes over others. (the structures of numbers in pkg/event/call/*.go) -/
def overlay (old : List Byte) (offset : Nat) (bs : List Byte) : List Byte :=
  old.take offset ++ List.replicate (offset - old.length) 0 ++ bs ++ old.drop (offset + bs.length)

/-- A number of a structure. (the structures of numbers in pkg/event/call/*.go) -/
def patch (st : Args) (f : String) (offset width : Nat) (i : Int) : Args :=
  GoMap.set st f (.bytes (overlay (bytesAt st f) offset (leBytes width (i % 2 ^ (8 * width)).toNat)))

/-- The field with a name: the one with just this name, or the first that differs in case only.
(`decodeState.object`; library, used at pkg/client/endpoint.go:226.) -/
def fieldNamed {α : Type} (l : List (String × α)) (k : Str) : Option α :=
  match l.find? (fun e => e.1.toList == k) with
  | some e => some e.2
  | none => (l.find? (fun e => Wire.named e.1 k)).map (·.2)

mutual
/-- A value into the part of a structure with fields `ks` that has this layout.
(`decodeState.value`; library, used at pkg/event/trace.go:199.) -/
def store (ks : List (String × Kind)) : Json → Lay → Args → Option Args
  | .null, y, st => match y with
    | .field f => (fieldOf ((ks.lookup f).getD .num) .null).map fun o => (o.map (put st f)).getD st
    | _ => some st
  | .bool b, y, st => match y with
    | .field f => (fieldOf ((ks.lookup f).getD .num) (.bool b)).map fun o => (o.map (put st f)).getD st
    | _ => none
  | .num l, y, st => match y with
    | .field f => (fieldOf ((ks.lookup f).getD .num) (.num l)).map fun o => (o.map (put st f)).getD st
    | .int f o w s => (wide w s l).map (patch st f o w)
    | _ => none
  | .str s, y, st => match y with
    | .field f => (fieldOf ((ks.lookup f).getD .num) (.str s)).map fun o => (o.map (put st f)).getD st
    | _ => none
  | .arr l, y, st => match y with
    | .field f => (fieldOf ((ks.lookup f).getD .num) (.arr l)).map fun o => (o.map (put st f)).getD st
    | .arr ys => storeElems ks l ys st
    | _ => none
  | .obj l, y, st => match y with
    | .field f => (fieldOf ((ks.lookup f).getD .num) (.obj l)).map fun o => (o.map (put st f)).getD st
    | .obj ys => storeMembers ks l ys st
    | _ => none
/-- Elements into an array; those that are too many are skipped. (`decodeState.array`; library, as above.) -/
def storeElems (ks : List (String × Kind)) : List Json → List Lay → Args → Option Args
  | [], _, st => some st
  | _ :: _, [], st => some st
  | v :: l, y :: ys, st => (store ks v y st).bind (storeElems ks l ys)
/-- Members into a structure; unknown ones are skipped. (`decodeState.object`; library, as above.) -/
def storeMembers (ks : List (String × Kind)) : List (Str × Json) → List (String × Lay) → Args → Option Args
  | [], _, st => some st
  | (k, v) :: l, ys, st =>
    match fieldNamed ys k with
    | some y => (store ks v y st).bind (storeMembers ks l ys)
    | none => storeMembers ks l ys st
end

/-- `syscall.RawSockaddr`. (Library, used at pkg/types/sockaddr.go:12; there is no `UnmarshalJSON`.) -/
def sockLay (f : String) : Lay :=
  .obj [("Family", .int f 0 2 false), ("Data", .arr ((List.range 14).map fun i => .int f (2 + i) 1 true))]

/-- Socket addresses are structures. (pkg/types/sockaddr.go:12) -/
def expand (ks : List (String × Kind)) : Lay → Lay
  | .field f => if (ks.lookup f).getD .num = .sock then sockLay f else .field f
  | y => y

/-- The arguments, into a new structure of type `t`. (pkg/event/trace.go:199-201) -/
def argsOf (env : Env) (t : String) (v : Json) : Res (List (String × Val)) :=
  let ks := (fieldKinds.lookup t).getD []
  match store ks v (.obj ((layout t).map fun e => (e.1, expand ks e.2))) [] with
  | some st => readArgs env t st
  | none => .err

/-! ### Events -/

/-- `Syscall`, pkg/syscalls/syscalls.go:10-15; its number is an `int`. -/
structure Call where
  nr : Int
  name : Str
  cls : Str
  group : Str

/-- A field of a structure: its name and how it is read. (Library, used at pkg/client/endpoint.go:226.) -/
abbrev Field (α : Type) := String × (α → Json → Option α)

/-- A structure, field by field. (`decodeState.object`; library, used at pkg/client/endpoint.go:226.) -/
def structOf {α : Type} (fields : List (Field α)) (old : α) (l : List (Str × Json)) : Option α :=
  l.foldlM (fun a e => match fieldNamed fields e.1 with
    | some set => set a e.2
    | none => some a) old

/-- What is behind a pointer: nothing for a null. (pkg/event/trace.go:19, 27) -/
def pointer {α : Type} (fields : List (Field α)) (zero : α) (old : Option α) : Json → Option (Option α)
  | .null => some none
  | .obj l => (structOf fields (old.getD zero) l).map some
  | _ => none

/-- pkg/syscalls/syscalls.go:10-15 -/
def callFields : List (Field Call) := [
  ("nr", fun a v => (Wire.int a.nr v).map fun x => { a with nr := x }),
  ("name", fun a v => (Wire.str a.name v).map fun x => { a with name := x }),
  ("class", fun a v => (Wire.str a.cls v).map fun x => { a with cls := x }),
  ("group", fun a v => (Wire.str a.group v).map fun x => { a with group := x })]

/-- A `string`. (Library, used at pkg/client/endpoint.go:226.) -/
def stringOf (old : String) (v : Json) : Option String := (Wire.str old.toList v).map String.ofList

/-- A `map[string]string`. (pkg/types/container.go:12) -/
def labelsOf (old : Option (GoMap String String)) : Json → Option (Option (GoMap String String))
  | .null => some none
  | .obj l => (l.foldlM (fun m e => (Wire.str [] e.2).map fun s => GoMap.set m (String.ofList e.1) (String.ofList s))
      (old.getD [])).map some
  | _ => none

/-- pkg/types/container.go:5-15 -/
def containerFields : List (Field Topology.Container) := [
  ("id", fun a v => (stringOf a.id v).map fun x => { a with id := x }),
  ("pod", fun a v => (stringOf a.pod v).map fun x => { a with pod := x }),
  ("sandbox-id", fun a v => (stringOf a.sandbox v).map fun x => { a with sandbox := x }),
  ("name", fun a v => (stringOf a.name v).map fun x => { a with name := x }),
  ("image", fun a v => (stringOf a.image v).map fun x => { a with image := x }),
  ("namespace", fun a v => (stringOf a.ns v).map fun x => { a with ns := x }),
  ("labels", fun a v => (labelsOf a.labels v).map fun x => { a with labels := x }),
  ("pid", fun a v => (Wire.int a.pid v).map fun x => { a with pid := x }),
  ("pid-namespace", fun a v => (Wire.int a.pidns v).map fun x => { a with pidns := x })]

/-- An event that is being read; the arguments are kept as they are. (pkg/event/trace.go:64-70) -/
structure Draft where
  call : Option Call := none
  ev : TraceEvent Topology.Container
  args : Option Json := none

/-- `Errno.UnmarshalJSON`, pkg/types/errno.go:22-33. -/
def errorOf (env : Env) (v : Json) : Option Int :=
  (Wire.str [] v).map fun s => stringToErrno env.errno (String.ofList s)

/-- The zero values. (pkg/types/container.go:5-15) -/
def noContainer : Topology.Container := ⟨"", "", "", "", "", "", none, 0, 0⟩
/-- See above. (pkg/syscalls/syscalls.go:10-15) -/
def noCall : Call := ⟨0, [], [], []⟩
/-- See above. (pkg/event/trace.go:18-35) -/
def noEvent : TraceEvent Topology.Container := ⟨none, 0, 0, 0, 0, 0, [], 0, none, 0, 0, 0, 0, 0, 0, 0, []⟩

/-- pkg/event/trace.go:18-35, 65-70 -/
def eventFields (env : Env) : List (Field Draft) := [
  ("syscall", fun a v => (pointer callFields noCall a.call v).map fun x => { a with call := x }),
  ("pid", fun a v => (Wire.int a.ev.pid v).map fun x => { a with ev := { a.ev with pid := x } }),
  ("tid", fun a v => (Wire.int a.ev.tid v).map fun x => { a with ev := { a.ev with tid := x } }),
  ("container_pid", fun a v => (Wire.int a.ev.cpid v).map fun x => { a with ev := { a.ev with cpid := x } }),
  ("uid", fun a v => (Wire.int a.ev.uid v).map fun x => { a with ev := { a.ev with uid := x } }),
  ("gid", fun a v => (Wire.int a.ev.gid v).map fun x => { a with ev := { a.ev with gid := x } }),
  ("comm", fun a v => match v with
    | .null => some a
    | .str s => some { a with ev := { a.ev with comm := utf8 s } }
    | _ => none),
  ("session", fun a v => (Wire.int a.ev.sid v).map fun x => { a with ev := { a.ev with sid := x } }),
  ("container", fun a v => (pointer containerFields noContainer a.ev.container v).map fun x =>
    { a with ev := { a.ev with container := x } }),
  ("error", fun a v => (errorOf env v).map fun x => { a with ev := { a.ev with error := x } }),
  ("return", fun a v => (Wire.int a.ev.ret v).map fun x => { a with ev := { a.ev with ret := x } }),
  ("pid_ns", fun a v => (Wire.int a.ev.pidNs v).map fun x => { a with ev := { a.ev with pidNs := x } }),
  ("uts_ns", fun a v => (Wire.int a.ev.utsNs v).map fun x => { a with ev := { a.ev with utsNs := x } }),
  ("mount_ns", fun a v => (Wire.int a.ev.mntNs v).map fun x => { a with ev := { a.ev with mntNs := x } }),
  ("start", fun a v => (Wire.int a.ev.start v).map fun x => { a with ev := { a.ev with start := x } }),
  ("finish", fun a v => (Wire.int a.ev.finish v).map fun x => { a with ev := { a.ev with finish := x } }),
  ("args", fun a v => some { a with args := some v })]

/-- The end of `TraceEvent.UnmarshalJSON`, trace.go:75-204. -/
def finish (env : Env) (d : Draft) : Res (TraceEvent Topology.Container) :=
  match d.call with
  | none => .panic
  | some c =>
    if c.nr < 0 then .err
    else match jsonTypes.lookup c.nr.toNat with
      | none => .err
      | some t => match d.args with
        | none => .err
        | some v => match argsOf env t v with
          | .ok a => .ok { d.ev with
              syscall := some ⟨c.nr.toNat, String.ofList c.name, String.ofList c.cls, String.ofList c.group⟩, argv := a }
          | .err => .err
          | .panic => .panic

/-- A `*TraceEvent`: nil for a null; otherwise `TraceEvent.UnmarshalJSON`, trace.go:63-205.
(pkg/client/endpoint.go:224-228) -/
def eventOf (env : Env) : Json → Res (Option (TraceEvent Topology.Container))
  | .null => .ok none
  | .obj l => match structOf (eventFields env) { ev := noEvent } l with
    | none => .err
    | some d => match finish env d with
      | .ok ev => .ok (some ev)
      | .err => .err
      | .panic => .panic
  | _ => .err

/-- What a client makes of a message. (pkg/client/endpoint.go:224-228) -/
def receive (env : Env) (msg : Str) : Res (Option (TraceEvent Topology.Container)) :=
  match Json.only msg with
  | some v => eventOf env v
  | none => .err

end Swoll.EventRead
