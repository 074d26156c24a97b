/-
`encoding/json` (Go 1.14) as the requests and answers of the server use it: pkg/client/endpoint.go:91,
132, 346 and cmd/server.go:139, 156, 355. Texts are lists of characters, so they are well formed; Go
replaces the bytes that are not (C70 is about those).

A number is kept as it is written. The depth of a text is not limited (nor is it in Go 1.14).
-/
namespace Swoll.Json

/-- A text, as in endpoint.go:91. -/
abbrev Str := List Char

/-- What a text says. The members of an object are kept in order, with repetitions.
(Library, used at endpoint.go:91 and server.go:355.) -/
inductive Json where
  | null
  | bool (b : Bool)
  | num (literal : Str)
  | str (s : Str)
  | arr (elems : List Json)
  | obj (members : List (Str × Json))

/-! ### Writing -/

/-- A hexadecimal digit. (`hex` of encoding/json; library, used at endpoint.go:91.) -/
def hexDigit (n : Nat) : Char :=
  if n < 10 then Char.ofNat (48 + n) else Char.ofNat (87 + n)

/-- `\uXXXX`. (`encodeState.string`; library, used at endpoint.go:91.) -/
def unicode (n : Nat) : Str :=
  ['\\', 'u', hexDigit (n / 4096 % 16), hexDigit (n / 256 % 16), hexDigit (n / 16 % 16), hexDigit (n % 16)]

/-- One character of a string. (`encodeState.string` with `escapeHTML`; library, used at endpoint.go:91 and
server.go:139, 156.) -/
def escape (c : Char) : Str :=
  if c = '"' then ['\\', '"']
  else if c = '\\' then ['\\', '\\']
  else if c = '\n' then ['\\', 'n']
  else if c = '\r' then ['\\', 'r']
  else if c = '\t' then ['\\', 't']
  else if c.toNat < 0x20 ∨ c = '<' ∨ c = '>' ∨ c = '&' ∨ c.toNat = 0x2028 ∨ c.toNat = 0x2029 then unicode c.toNat
  else [c]

/-- A string. (As above.) -/
def quote (s : Str) : Str := '"' :: s.flatMap escape ++ ['"']

mutual
/-- `json.Marshal`, as at endpoint.go:91. -/
def Json.text : Json → Str
  | .null => "null".toList
  | .bool true => "true".toList
  | .bool false => "false".toList
  | .num l => l
  | .str s => quote s
  | .arr l => '[' :: textElems l ++ [']']
  | .obj l => '{' :: textMembers l ++ ['}']
/-- The elements of an array. (endpoint.go:91) -/
def textElems : List Json → Str
  | [] => []
  | v :: l => v.text ++ (match l with | [] => [] | _ :: _ => ',' :: textElems l)
/-- The members of an object. (endpoint.go:91) -/
def textMembers : List (Str × Json) → Str
  | [] => []
  | (k, v) :: l => quote k ++ ':' :: v.text ++ (match l with | [] => [] | _ :: _ => ',' :: textMembers l)
end

/-- A line break and the indentation. (`json.Indent`; library, used at server.go:156.) -/
def newline (depth : Nat) : Str := '\n' :: List.replicate depth ' '

mutual
/-- `json.MarshalIndent` with no prefix and one space, as at server.go:156. -/
def Json.pretty (depth : Nat) : Json → Str
  | .null => "null".toList
  | .bool true => "true".toList
  | .bool false => "false".toList
  | .num l => l
  | .str s => quote s
  | .arr [] => ['[', ']']
  | .arr (v :: l) => '[' :: prettyElems (depth + 1) (v :: l) ++ newline depth ++ [']']
  | .obj [] => ['{', '}']
  | .obj (e :: l) => '{' :: prettyMembers (depth + 1) (e :: l) ++ newline depth ++ ['}']
/-- The elements of an array. (server.go:156) -/
def prettyElems (depth : Nat) : List Json → Str
  | [] => []
  | v :: l => newline depth ++ v.pretty depth ++ (match l with | [] => [] | _ :: _ => ',' :: prettyElems depth l)
/-- The members of an object. (server.go:156) -/
def prettyMembers (depth : Nat) : List (Str × Json) → Str
  | [] => []
  | (k, v) :: l => newline depth ++ quote k ++ ':' :: ' ' :: v.pretty depth ++
      (match l with | [] => [] | _ :: _ => ',' :: prettyMembers depth l)
end

/-! ### Reading -/

/-- `isSpace` of encoding/json. (Library, used at server.go:355.) -/
def isSpace (c : Char) : Bool := c == ' ' || c == '\t' || c == '\r' || c == '\n'

/-- `scanSkipSpace`. (Library, used at server.go:355.) -/
def skip (s : Str) : Str := s.dropWhile isSpace

/-- A decimal digit. (Library, used at server.go:355.) -/
def isDigit (c : Char) : Bool := decide (48 ≤ c.toNat ∧ c.toNat ≤ 57)

/-- The value of a hexadecimal digit. (`getu4`; library, used at server.go:355.) -/
def unhex (c : Char) : Option Nat :=
  if 48 ≤ c.toNat ∧ c.toNat ≤ 57 then some (c.toNat - 48)
  else if 97 ≤ c.toNat ∧ c.toNat ≤ 102 then some (c.toNat - 87)
  else if 65 ≤ c.toNat ∧ c.toNat ≤ 70 then some (c.toNat - 55)
  else none

/-- Four of them. (`getu4`; library, used at server.go:355.) -/
def getu4 (a b c d : Char) : Option Nat :=
  match unhex a, unhex b, unhex c, unhex d with
  | some w, some x, some y, some z => some (((w * 16 + x) * 16 + y) * 16 + z)
  | _, _, _, _ => none

/-- The character after a backslash, but `u`. (`stateInStringEsc`, `unquoteBytes`; library, used at server.go:355.) -/
def short (c : Char) : Option Char :=
  if c = '"' then some '"' else if c = '\\' then some '\\' else if c = '/' then some '/'
  else if c = 'b' then some '\x08' else if c = 'f' then some '\x0c' else if c = 'n' then some '\n'
  else if c = 'r' then some '\r' else if c = 't' then some '\t' else none

/-- The second half of a surrogate pair, if it is one: `\uXXXX` with the first. (`utf16.DecodeRune`; library, used
at server.go:355.) -/
def second (hi : Nat) : Str → Option (Nat × Str)
  | '\\' :: 'u' :: a :: b :: c :: d :: rest =>
    match getu4 a b c d with
    | some lo =>
      if 0xd800 ≤ hi ∧ hi < 0xdc00 ∧ 0xdc00 ≤ lo ∧ lo < 0xe000 then
        some ((hi - 0xd800) * 1024 + (lo - 0xdc00) + 0x10000, rest)
      else none
    | none => none
  | _ => none

/-- `\uXXXX` after the `u`. A half of a surrogate pair is read as U+FFFD. (`unquoteBytes`; library, used at
server.go:355.) -/
def hexed : Str → Option (Char × Str)
  | x :: y :: z :: w :: s =>
    match getu4 x y z w with
    | none => none
    | some u =>
      if 0xd800 ≤ u ∧ u < 0xe000 then
        match second u s with
        | some r => some (Char.ofNat r.1, r.2)
        | none => some ('\ufffd', s)
      else some (Char.ofNat u, s)
  | _ => none

/-- What comes after a backslash. (`stateInStringEsc`, `unquoteBytes`; library, used at server.go:355.) -/
def escaped : Str → Option (Char × Str)
  | [] => none
  | e :: s => if e = 'u' then hexed s else (short e).map (·, s)

/-- The rest of a string, after its quote, up to the next. `fuel` is more than the length of the text.
(`stateInString`, `unquoteBytes`; library, used at server.go:355.) -/
def chars : Nat → Str → Option (Str × Str)
  | 0, _ => none
  | _, [] => none
  | n + 1, c :: s =>
    if c = '"' then some ([], s)
    else if c = '\\' then
      match escaped s with
      | none => none
      | some (c, s) => (chars n s).map (fun r => (c :: r.1, r.2))
    else if c.toNat < 0x20 then none
    else (chars n s).map (fun r => (c :: r.1, r.2))

/-- Digits, at least one. (`state1`, `stateDot0`; library, used at server.go:355.) -/
def digits1 (s : Str) : Option (Str × Str) :=
  match s.takeWhile isDigit with
  | [] => none
  | d :: ds => some (d :: ds, s.dropWhile isDigit)

/-- The part of a number before the dot, without the sign. (`state0`, `state1`; library, used at server.go:355.) -/
def whole : Str → Option (Str × Str)
  | '0' :: s => some (['0'], s)
  | s => digits1 s

/-- The part after the dot, if any. (`stateDot`; library, used at server.go:355.) -/
def fraction : Str → Option (Str × Str)
  | '.' :: s => (digits1 s).map (fun r => ('.' :: r.1, r.2))
  | s => some ([], s)

/-- The exponent, if any. (`stateE`; library, used at server.go:355.) -/
def exponent : Str → Option (Str × Str)
  | e :: s =>
    if e = 'e' ∨ e = 'E' then
      match s with
      | '+' :: s' => (digits1 s').map (fun r => (e :: '+' :: r.1, r.2))
      | '-' :: s' => (digits1 s').map (fun r => (e :: '-' :: r.1, r.2))
      | _ => (digits1 s).map (fun r => (e :: r.1, r.2))
    else some ([], e :: s)
  | [] => some ([], [])

/-- A number without its sign. (As above.) -/
def unsigned (s : Str) : Option (Str × Str) :=
  match whole s with
  | none => none
  | some (a, s) =>
    match fraction s with
    | none => none
    | some (b, s) =>
      match exponent s with
      | none => none
      | some (c, s) => some (a ++ b ++ c, s)

/-- A number. (`stateBeginValue`; library, used at server.go:355.) -/
def number : Str → Option (Str × Str)
  | '-' :: s => (unsigned s).map (fun r => ('-' :: r.1, r.2))
  | s => unsigned s

mutual
/-- A value at the start of a text, and what is left; `fuel` is more than twice the length of the text.
(`scanner`, `decodeState.value`; library, used at server.go:355.) -/
def value : Nat → Str → Option (Json × Str)
  | 0, _ => none
  | n + 1, s =>
    match s with
    | '"' :: s => (chars (s.length + 1) s).map (fun r => (.str r.1, r.2))
    | '[' :: s =>
      match skip s with
      | ']' :: s => some (.arr [], s)
      | s => (elems n s).map (fun r => (.arr r.1, r.2))
    | '{' :: s =>
      match skip s with
      | '}' :: s => some (.obj [], s)
      | s => (members n s).map (fun r => (.obj r.1, r.2))
    | 'n' :: 'u' :: 'l' :: 'l' :: s => some (.null, s)
    | 't' :: 'r' :: 'u' :: 'e' :: s => some (.bool true, s)
    | 'f' :: 'a' :: 'l' :: 's' :: 'e' :: s => some (.bool false, s)
    | s => (number s).map (fun r => (.num r.1, r.2))
/-- The elements of an array, up to its end. (`decodeState.array`; library, used at server.go:355.) -/
def elems : Nat → Str → Option (List Json × Str)
  | 0, _ => none
  | n + 1, s =>
    match value n s with
    | none => none
    | some (v, s) =>
      match skip s with
      | ']' :: s => some ([v], s)
      | ',' :: s => (elems n (skip s)).map (fun r => (v :: r.1, r.2))
      | _ => none
/-- The members of an object, up to its end. (`decodeState.object`; library, used at server.go:355.) -/
def members : Nat → Str → Option (List (Str × Json) × Str)
  | 0, _ => none
  | n + 1, s =>
    match s with
    | '"' :: s =>
      match chars (s.length + 1) s with
      | none => none
      | some (k, s) =>
        match skip s with
        | ':' :: s =>
          match value n (skip s) with
          | none => none
          | some (v, s) =>
            match skip s with
            | '}' :: s => some ([(k, v)], s)
            | ',' :: s => (members n (skip s)).map (fun r => ((k, v) :: r.1, r.2))
            | _ => none
        | _ => none
    | _ => none
end

/-- `Decoder.Decode`: the first value of a text; what comes after it is not looked at. (Library, used at
server.go:355.) -/
def first (s : Str) : Option Json := (value (2 * s.length + 2) (skip s)).map (·.1)

/-- `json.Unmarshal`: the text is one value. (Library, used at endpoint.go:132, 346.) -/
def only (s : Str) : Option Json :=
  match value (2 * s.length + 2) (skip s) with
  | none => none
  | some (v, s) => if skip s = [] then some v else none

end Swoll.Json
