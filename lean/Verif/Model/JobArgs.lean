import Verif.Util.GoMap
/-
How a `Trace` resource becomes the command line of a job, internal/pkg/controller/trace.go, and how
the client reads it, cmd/client.go, with the parts of pflag (1.0.5), encoding/csv and the label
functions of Kubernetes they use. Strings are lists of characters, without line breaks.
-/
namespace Swoll.JobArgs

/-- A Go string, as in trace.go:38-72. -/
abbrev Str := List Char

/-- `unicode.IsSpace`. (Library, used by client.go:144-200, 383 through pflag.) -/
def isSpace (c : Char) : Bool :=
  c == ' ' || (9 ≤ c.toNat && c.toNat ≤ 13) || c.toNat == 0x85 || c.toNat == 0xA0 ||
  c.toNat == 0x1680 || (0x2000 ≤ c.toNat && c.toNat ≤ 0x200a) || c.toNat == 0x2028 ||
  c.toNat == 0x2029 || c.toNat == 0x202f || c.toNat == 0x205f || c.toNat == 0x3000

/-- `strings.TrimSpace`. (Library, used in labels parsing at client.go:217, 226.) -/
def trimSpace (s : Str) : Str := ((s.dropWhile isSpace).reverse.dropWhile isSpace).reverse

/-- `strings.Join` with a separator of one character. (Used at trace.go:44-72.) -/
def join (sep : Char) : List Str → Str
  | [] => []
  | [a] => a
  | a :: b :: l => a ++ sep :: join sep (b :: l)

/-- `strings.Split` by one character. (Library, used at client.go:144-200, 383.) -/
def split (sep : Char) : Str → List Str
  | [] => [[]]
  | c :: cs =>
    if c = sep then [] :: split sep cs
    else match split sep cs with
      | [] => [[c]]
      | f :: fs => (c :: f) :: fs

/-- `strings.SplitN(s, sep, 2)`; `none` for the second part if there is no separator.
(Used at client.go:397.) -/
def cut (sep : Char) : Str → Str × Option Str
  | [] => ([], none)
  | c :: cs => if c = sep then ([], some cs) else ((c :: (cut sep cs).1), (cut sep cs).2)

/-- Where the reader of a CSV record is: at the start of a field, in a plain or quoted one, or after
a quote within a quoted one. (Library, used by pflag at client.go:144-200, 383.) -/
inductive Mode where
  | start | plain | quoted | quote
  deriving DecidableEq, Repr

/-- `csv.Reader.readRecord` for one line (no lazy quotes): the fields, or an error for a stray or
missing quote. (Library, used by pflag at client.go:144-200, 383.) -/
def record : Mode → Str → Str → Option (List Str)
  | .start, _, [] => some [[]]
  | .start, _, c :: cs =>
    if c = '"' then record .quoted [] cs
    else if c = ',' then (record .start [] cs).map ([] :: ·)
    else record .plain [c] cs
  | .plain, f, [] => some [f]
  | .plain, f, c :: cs =>
    if c = '"' then none
    else if c = ',' then (record .start [] cs).map (f :: ·)
    else record .plain (f ++ [c]) cs
  | .quoted, _, [] => none
  | .quoted, f, c :: cs =>
    if c = '"' then record .quote f cs else record .quoted (f ++ [c]) cs
  | .quote, f, [] => some [f]
  | .quote, f, c :: cs =>
    if c = '"' then record .quoted (f ++ ['"']) cs
    else if c = ',' then (record .start [] cs).map (f :: ·)
    else none

/-- pflag's `readAsCSV`. (Library, used at client.go:144-200, 383.) -/
def readAsCSV (v : Str) : Option (List Str) := if v = [] then some [] else record .start [] v

/-- `csv.Writer.fieldNeedsQuotes`. (Library, used by pflag at client.go:144-200, 383.) -/
def needsQuotes (f : Str) : Bool :=
  match f with
  | [] => false
  | c :: _ => f == ['\\', '.'] || f.any (fun c => c == ',' || c == '"' || c == '\r' || c == '\n') ||
      isSpace c

/-- Quotes are doubled in a quoted field. (Library, used by pflag at client.go:144-200, 383.) -/
def escape : Str → Str
  | [] => []
  | c :: cs => if c = '"' then '"' :: '"' :: escape cs else c :: escape cs

/-- A field in `csv.Writer.Write`; library, used by pflag at client.go:144-200, 383. -/
def writeField (f : Str) : Str := if needsQuotes f then '"' :: (escape f ++ ['"']) else f

/-- pflag's `writeAsCSV`. (Library, used at client.go:144-200, 383.) -/
def writeAsCSV (fs : List Str) : Str := join ',' (fs.map writeField)

/-- A flag of type string slice given once and read with `GetStringSlice`: pflag parses the
argument, writes the value out again and parses that. (client.go:144-200, 383) -/
def getStringSlice (arg : Str) : Option (List Str) :=
  match readAsCSV arg with
  | none => none
  | some fs => readAsCSV (writeAsCSV fs)

/-- The rules for label keys and values beyond their characters (lengths, first and last
character, one slash); they do not matter here. (Library, used at client.go:217, 226.) -/
structure Rules where
  key : Str → Bool
  value : Str → Bool

/-- The characters of labels: validation.IsQualifiedName, IsValidLabelValue.
(Library, used at client.go:217, 226.) -/
def labelChar (c : Char) : Bool := c.isAlphanum || c == '-' || c == '_' || c == '.' || c == '/'

/-- A valid label key; library, used at client.go:217, 226. -/
def validKey (r : Rules) (k : Str) : Bool := k.all labelChar && r.key k
/-- A valid label value; library, used at client.go:217, 226. -/
def validValue (r : Rules) (v : Str) : Bool := v.all labelChar && r.value v

/-- The order of Go strings; by characters instead of bytes, which is the same order.
(Library, used at trace.go:44-72.) -/
def strLE (a b : Str) : Bool := decide (a ≤ b)

/-- `labels.Set.String`: `k=v`, sorted. (Library, used at trace.go:44-72.) -/
def setString (m : GoMap Str Str) : Str :=
  join ',' ((m.map fun e => e.1 ++ '=' :: e.2).mergeSort strLE)

/-- One part of a selector in `labels.ConvertSelectorToLabelsMap`.
(Library, used at client.go:217, 226.) -/
def label (r : Rules) (s : Str) : Option (Str × Str) :=
  match split '=' s with
  | [k, v] =>
    let k := trimSpace k
    let v := trimSpace v
    if validKey r k && validValue r v then some (k, v) else none
  | _ => none

/-- `labels.ConvertSelectorToLabelsMap`. (Library, used at client.go:217, 226.) -/
def labelsMap (r : Rules) (s : Str) : Option (GoMap Str Str) :=
  if s = [] then some []
  else (split ',' s).foldlM (fun m s => (label r s).map fun e => m.set e.1 e.2) []

/-- `TraceSpec`, trace_types.go:37-44. (The match expressions of the selectors, which no code uses,
are left out.) -/
structure Spec where
  labels : GoMap Str Str
  fields : GoMap Str Str
  hosts : List Str
  syscalls : List Str
  duration : Int
  sampleRate : Int
  deriving DecidableEq, Repr

/-- The values of the flags in the arguments of a job. (trace.go:44-72) -/
structure Args where
  endpoints : Str
  syscalls : Str
  hosts : Str
  labelSel : Str
  fieldSel : Str
  ns : Str
  jobid : Str
  deriving DecidableEq, Repr

/-- `createJobResource`, trace.go:38-72. -/
def jobArgs (endpoints : List Str) (ns jobid : Str) (t : Spec) : Args :=
  { endpoints := '"' :: (join ',' endpoints ++ ['"'])
    syscalls := join ',' (if t.syscalls = [] then ["sys_execve".toList] else t.syscalls)
    hosts := '"' :: (join ',' t.hosts ++ ['"'])
    labelSel := setString t.labels
    fieldSel := setString t.fields
    ns := ns
    jobid := jobid }

/-- What the command does: go on, exit with a message, or crash. (client.go:144-242) -/
inductive Out (α : Type) where
  | ok (a : α)
  | fatal
  | panic
  deriving DecidableEq, Repr

/-- The digits of a number. (Library, used at client.go:400.) -/
def digits : Nat → Str → Option Nat
  | n, [] => some n
  | n, c :: cs => if c.isDigit then digits (10 * n + (c.toNat - 48)) cs else none

/-- Its sign. (Library, used at client.go:400.) -/
def sign (s : Str) : Bool × Str :=
  match s with
  | [] => (false, [])
  | c :: d => if c = '-' then (true, d) else if c = '+' then (false, d) else (false, c :: d)

/-- `strconv.Atoi`. (Library, used at client.go:400.) -/
def atoi (s : Str) : Option Int :=
  if (sign s).2 = [] then none
  else match digits 0 (sign s).2 with
    | none => none
    | some n =>
      if (sign s).1 then (if n ≤ 2 ^ 63 then some (-(n : Int)) else none)
      else if n < 2 ^ 63 then some (n : Int) else none

/-- The loop of `parseStaticEndpointsArg`, client.go:395-406: `host:port`, a crash without a colon,
an error if the port is not a number. -/
def endpoints : List Str → Out (List (Str × Int))
  | [] => .ok []
  | e :: es =>
    match cut ':' e with
    | (_, none) => .panic
    | (h, some p) =>
      match atoi p with
      | none => .fatal
      | some n =>
        match endpoints es with
        | .ok l => .ok ((h, n) :: l)
        | .fatal => .fatal
        | .panic => .panic

/-- What the client asks each of its endpoints for. (client.go:211-242) -/
structure Request where
  endpoints : List (Str × Int)
  ns : Str
  jobid : Str
  spec : Spec
  deriving DecidableEq, Repr

/-- `client create` without a file, client.go:144-242. A job id is always given. -/
def clientCreate (r : Rules) (a : Args) : Out Request :=
  match getStringSlice a.endpoints, getStringSlice a.syscalls, getStringSlice a.hosts with
  | some eps, some scs, some hosts =>
    match endpoints eps with
    | .panic => .panic
    | .fatal => .fatal
    | .ok eps =>
      if a.ns = [] then .fatal
      else match labelsMap r a.labelSel, labelsMap r a.fieldSel with
        | some ls, some fs =>
          .ok { endpoints := eps, ns := a.ns, jobid := a.jobid,
                spec := { labels := ls, fields := fs, hosts := hosts, syscalls := scs,
                          duration := 0, sampleRate := 0 } }
        | _, _ => .fatal
  | _, _, _ => .fatal

end Swoll.JobArgs
