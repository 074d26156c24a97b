import Verif.Util.GoMap
import Verif.Util.Bytes
import Verif.Model.FlagTables
import Verif.Model.Event
/-
Symbolic values: how flag sets, error numbers, socket constants and socket addresses are
printed, written to JSON and read back from JSON.

A value's `MarshalJSON` is `json.Marshal` of a string or of a list of strings and its
`UnmarshalJSON` starts with `json.Unmarshal` into the same Go type; that pair is the identity on
such values (encoding/json is trusted; all strings below are ASCII) and is left out.
-/
namespace Swoll.Flags
open Swoll.Bytes

/-! ### Flag sets -/

/-- `Parse` of a flag type (lines cited at each `FlagType`). `order` is the order in which
`range` visits the mask map, which Go leaves open: any permutation of `ft.masks`.
(as in pkg/types/fileflags.go:31-46) -/
def parse (ft : FlagType) (order : List (Word × String)) (flags : Word) : List String :=
  match ft.special with
  | some (v, name) =>
    if flags = v then [name] else (order.filter fun e => e.1 &&& flags ≠ 0).map (·.2)
  | none => (order.filter fun e => e.1 &&& flags ≠ 0).map (·.2)

/-- The `switch` in the loop of `UnmarshalJSON`; unlisted names are ignored.
(as in pkg/types/fileflags.go:56-107) -/
def unmarshalStep (ft : FlagType) (f : Word) (name : String) : Word :=
  if name ∈ ft.resets then 0
  else match ft.sets.lookup name with
    | some v => f ||| v
    | none => f

/-- `UnmarshalJSON` of a flag type, called on a variable holding `prev`.
(as in pkg/types/fileflags.go:56-107) -/
def unmarshal (ft : FlagType) (prev : Word) (names : List String) : Word :=
  names.foldl (unmarshalStep ft) (if ft.clears then 0 else prev)

/-! ### Decimal numbers -/

/-- The decimal digit `d < 10`. (Library, `%d` in errno.go:43-49.) -/
def digit (d : Nat) : Char := Char.ofNat (48 + d)

/-- The decimal digits of a natural number. (Library, `%d` in errno.go:43-49.) -/
def digits (n : Nat) : List Char :=
  if _h : n < 10 then [digit n] else digits (n / 10) ++ [digit (n % 10)]
termination_by n

/-- `fmt.Sprintf("%d", n)` (Library, used at errno.go:43-49, socket.go:156-162.) -/
def itoa (n : Int) : List Char :=
  if n < 0 then '-' :: digits n.natAbs else digits n.natAbs

/-- The value of a decimal digit. (Library, used at socket.go:168-186.) -/
def digitVal (c : Char) : Option Nat :=
  if 48 ≤ c.toNat ∧ c.toNat ≤ 57 then some (c.toNat - 48) else none

/-- The value of a string of digits read after the digits worth `acc`.
(Library, used at socket.go:168-186.) -/
def digitsVal : Nat → List Char → Option Nat
  | acc, [] => some acc
  | acc, c :: cs => match digitVal c with
    | some d => digitsVal (acc * 10 + d) cs
    | none => none

/-- An optional sign: is it a minus, and what follows. (Library, used at socket.go:168-186.) -/
def splitSign : List Char → Bool × List Char
  | '-' :: r => (true, r)
  | '+' :: r => (false, r)
  | r => (false, r)

/-- `strconv.Atoi`: an optional sign, then one or more decimal digits, within 64 bits; `none`
is an error. (Library, used at socket.go:168-186.) -/
def atoi (s : List Char) : Option Int :=
  let (neg, ds) := splitSign s
  if ds = [] then none
  else match digitsVal 0 ds with
    | none => none
    | some v =>
      let n : Int := if neg then -v else v
      if -2 ^ 63 ≤ n ∧ n < 2 ^ 63 then some n else none

/-! ### Named constants -/

/-- `Parse` of a type with a name table: socket.go:156-162 and 222-228, sockopt.go:84-90,
165-171, 192-198, 234-240, 265-271, ptrace.go:84-90. -/
def nameOf (tbl : GoMap Int String) (n : Int) : String :=
  match GoMap.get tbl n with
  | some s => s
  | none => String.ofList (itoa n)

/-- The reverse map, filled by a loop over the table in some order: errno.go:55-60,
socket.go:258-268, sockopt.go:339-364. -/
def keysOf (order : List (Int × String)) : GoMap String Int :=
  order.foldl (fun m e => GoMap.set m e.2 e.1) []

/-- `UnmarshalJSON` of a type with a name table: socket.go:168-186 and 238-256,
sockopt.go:96-114. `none` is an error. -/
def valueOf (keys : GoMap String Int) (s : String) : Option Int :=
  match GoMap.get keys s with
  | some v => some v
  | none => atoi s.toList

/-- `PRresource.Parse`, prlimit64.go:55-92. -/
def rlimitName (r : Int) : String :=
  match rlimitNames.lookup r with
  | some s => s
  | none => String.ofList (itoa r)

/-- `PRresource.UnmarshalJSON`, prlimit64.go:102-151. -/
def rlimitValue (s : String) : Option Int :=
  match rlimitValues.lookup s with
  | some v => some v
  | none => atoi s.toList

/-- `errnoToString`, errno.go:43-49; it is both `String` (10-12) and `MarshalJSON` (51-53). -/
def errnoToString (e : Int) : String :=
  match GoMap.get errnoVals e with
  | some s => s
  | none => "UNK"

/-- `stringToErrno`, errno.go:35-41; it is `UnmarshalJSON` (22-33). -/
def stringToErrno (keys : GoMap String Int) (s : String) : Int :=
  match GoMap.get keys s with
  | some v => v
  | none => -1

/-! ### Socket types -/

/-- The first `switch` of `SockType.Parse`, socket.go:88-103. -/
def sockTypeNames : List (Word × String) := [
  (1, "SOCK_STREAM"), (2, "SOCK_DGRAM"), (5, "SOCK_SEQPACKET"), (3, "SOCK_RAW"),
  (4, "SOCK_RDM"), (10, "SOCK_PACKET")]

/-- `SockType.Parse`, socket.go:82-114. The tests `flags&X > 0` are `≠ 0` here: both constants
are below the sign bit. -/
def sockTypeParse (t : Word) : List String :=
  let flags := t &&& ~~~0xf
  let ttype := t &&& 0xf
  (match sockTypeNames.lookup ttype with
    | some s => [s]
    | none => [String.ofList ('<' :: itoa ttype.toInt ++ ['>'])])
  ++ (if flags &&& 0x80000 ≠ 0 then ["SOCK_CLOEXEC"] else [])
  ++ (if flags &&& 0x800 ≠ 0 then ["SOCK_NONBLOCK"] else [])

/-- The cases of `SockType.UnmarshalJSON` that assign the type, socket.go:57-69. -/
def sockTypeValues : List (String × Word) := [
  ("SOCK_STREAM", 1), ("SOCK_DGRAM", 2), ("SOCK_SEQPACKET", 5), ("SOCK_RAW", 3),
  ("SOCK_RDM", 4), ("SOCK_PACKET", 10)]

/-- One round of the loop of `SockType.UnmarshalJSON`, socket.go:56-75, on (`sType`, `sFlags`). -/
def sockTypeStep (a : Word × Word) (s : String) : Word × Word :=
  match sockTypeValues.lookup s with
  | some v => (v, a.2)
  | none =>
    if s = "SOCK_CLOEXEC" then (a.1, a.2 ||| 0x80000)
    else if s = "SOCK_NONBLOCK" then (a.1, a.2 ||| 0x800)
    else a

/-- `SockType.UnmarshalJSON`, socket.go:47-80. -/
def sockTypeUnmarshal (names : List String) : Word :=
  let a := names.foldl sockTypeStep (0, 0)
  a.1 ||| a.2

/-! ### Socket options -/

/-- `SockoptName`, sockopt.go:18-21. -/
structure SockoptName where
  tp : Int
  lv : Int
  deriving DecidableEq, Repr

/-- `SockoptName.Parse`, sockopt.go:273-286 (`SOL_SOCKET` 1, `SOL_TCP` 6, `SOL_IP` 0,
`SOL_IPV6` 41). -/
def SockoptName.parse (s : SockoptName) : String :=
  if s.lv = 1 then nameOf socketOpMasks s.tp
  else if s.lv = 6 then nameOf tcpOpMasks s.tp
  else if s.lv = 0 then nameOf ipOpMasks s.tp
  else if s.lv = 41 then nameOf ip6OpMasks s.tp
  else String.ofList (itoa s.tp)

/-- The four reverse maps, sockopt.go:339-358, each filled in some order. -/
structure OptKeys where
  sock : GoMap String Int
  tcp : GoMap String Int
  ip : GoMap String Int
  ip6 : GoMap String Int

/-- `SockoptName.UnmarshalJSON`, sockopt.go:296-337. The branch for IPv6 options (324-327) does
not return, so what it stored is overwritten, or the name fails to parse as a number and the
whole call is an error (`none`). -/
def sockoptUnmarshal (k : OptKeys) (s : String) : Option SockoptName :=
  match GoMap.get k.sock s with
  | some v => some { lv := 1, tp := v }
  | none => match GoMap.get k.tcp s with
    | some v => some { lv := 6, tp := v }
    | none => match GoMap.get k.ip s with
      | some v => some { lv := 0, tp := v }
      | none => match atoi s.toList with
        | some tp => some { lv := 0, tp := tp }
        | none => none

/-! ### Socket addresses -/

/-- `ntohs`, sockaddr.go:14-18, on a 16-bit value. -/
def ntohs (p : Nat) : Nat := leVal [UInt8.ofNat (p / 256), UInt8.ofNat p]

/-- A lower-case hexadecimal digit. (Library, used at sockaddr.go:34-50.) -/
def hexDigit (d : Nat) : Char := if d < 10 then Char.ofNat (48 + d) else Char.ofNat (87 + d)

/-- `%02x` of a byte (Library, used at sockaddr.go:34-50.) -/
def hex2 (b : Byte) : List Char := [hexDigit (b.toNat / 16), hexDigit (b.toNat % 16)]

/-- `%d.%d.%d.%d` of the four bytes of an IPv4 address, sockaddr.go:26-27 -/
def dotted (a : List Byte) : List Char :=
  (a.map fun b => itoa b.toNat).intersperse ['.'] |>.flatten

/-- Eight groups of two bytes in hexadecimal, sockaddr.go:34-50 -/
def colonHex (a : List Byte) : List Char :=
  ((List.range 8).map fun i => (window a (2 * i) 2).flatMap hex2).intersperse [':'] |>.flatten

/-- `%v` of the `[14]int8` of an unspecified address, sockaddr.go:58 -/
def bracketed (a : List Byte) : List Char :=
  '[' :: ((a.map fun b => itoa b.toBitVec.toInt).intersperse [' ']).flatten ++ [']']

/-- A byte of a path, as a character. (Go keeps the bytes; one character per byte stands for
them.) (sockaddr.go:52-55) -/
def byteChar (b : Byte) : Char := Char.ofNat b.toNat

/-- `parseSockAddr`, sockaddr.go:20-63, on the memory `s` points to: the text and the port. The
family and the port are 16-bit little-endian loads. -/
def parseSockAddr (mem : List Byte) : List Char × Nat :=
  let family := leVal (window mem 0 2)
  if family = 2 then
    ("ipv4:".toList ++ dotted (window mem 4 4), ntohs (leVal (window mem 2 2)))
  else if family = 10 then
    ("ipv6:".toList ++ colonHex (window mem 8 16), leVal (window mem 2 2))
  else if family = 1 then
    ("unix:".toList ++ (Event.makeCString mem 2 108).map byteChar, 0)
  else if family = 0 then
    ("unspec:".toList ++ bracketed (window mem 2 14), 0)
  else (itoa family, 0)

/-- `SockAddr.String`, sockaddr.go:65-73, and the `decoded` member of `SockAddr.MarshalJSON`,
75-88: the text is never empty, so both are `text:port`. -/
def sockAddrString (mem : List Byte) : List Char :=
  let (addr, port) := parseSockAddr mem
  addr ++ ':' :: itoa port

/-- What JSON carries of a socket address: `SockAddr` is a `syscall.RawSockaddr`, a 16-bit
family and 14 bytes of data (sockaddr.go:12, 83), and has no `UnmarshalJSON`, so decoding
fills a new 16-byte object. -/
def sockAddrThroughJSON (mem : List Byte) : List Byte := window mem 0 16

/-- How many bytes of the object `parseSockAddr` reads, sockaddr.go:21-60: the sizes of
`RawSockaddrInet4`, `RawSockaddrInet6`, `RawSockaddrUnix` and `RawSockaddr` up to the last field
used. -/
def sockAddrReads (mem : List Byte) : Nat :=
  let family := leVal (window mem 0 2)
  if family = 2 then 8
  else if family = 10 then 24
  else if family = 1 then 2 + (Event.cstrCount (window mem 2 108) + 1).min 108
  else if family = 0 then 16
  else 2

end Swoll.Flags
