/-
The requests of the client, pkg/client/endpoint.go, and how the server routes them, cmd/server.go, with
the parts of net/url, net/http and gorilla/mux (1.7.4) they go through. Strings are lists of bytes.
-/
namespace Swoll.Client

/-- A byte of a string of pkg/client/endpoint.go. -/
abbrev Byte := Fin 256
/-- A Go string, as in pkg/client/endpoint.go:33-37. -/
abbrev Str := List Byte

/-- The bytes of an ASCII literal. (a literal of endpoint.go or server.go) -/
def ascii (s : String) : Str := s.toList.map (fun c => Fin.ofNat 256 c.toNat)

/-- The character classes of net/url, used by endpoint.go:80-84 through `URL.String`. -/
def isLower (c : Byte) : Bool := 97 ≤ c.val && c.val ≤ 122
/-- As above, endpoint.go:80-84. -/
def isUpper (c : Byte) : Bool := 65 ≤ c.val && c.val ≤ 90
/-- As above, endpoint.go:80-84. -/
def isDigit (c : Byte) : Bool := 48 ≤ c.val && c.val ≤ 57

/-- The parts of a URL, `url.encoding`. (Library, used at endpoint.go:80-84, 96-109.) -/
inductive Part where
  | path | host | query
  deriving DecidableEq, Repr

/-- The characters `! $ & ' ( ) * + , ; = : [ ] < > "` of `url.shouldEscape`.
(Library, used at endpoint.go:80-84.) -/
def hostChars : Str := [33, 36, 38, 39, 40, 41, 42, 43, 44, 59, 61, 58, 91, 93, 60, 62, 34]
/-- The characters `- _ . ~`. (Library, used at endpoint.go:80-84.) -/
def markChars : Str := [45, 95, 46, 126]
/-- The characters `$ & + , / : ; = ? @`. (Library, used at endpoint.go:80-84.) -/
def reservedChars : Str := [36, 38, 43, 44, 47, 58, 59, 61, 63, 64]

/-- `url.shouldEscape`. (Library, used at endpoint.go:80-84, 96.) -/
def shouldEscape (p : Part) (c : Byte) : Bool :=
  if isLower c || isUpper c || isDigit c then false
  else if p = .host && hostChars.contains c then false
  else if markChars.contains c then false
  else if reservedChars.contains c then
    match p with
    | .path => c == 63
    | .host => true
    | .query => true
  else true

/-- A hexadecimal digit in upper case, as `url.escape` writes it.
(Library, used at endpoint.go:96.) -/
def hexDigit (n : Nat) : Byte := Fin.ofNat 256 (if n < 10 then 48 + n else 55 + n)

/-- One byte in `url.escape`. (Library, used at endpoint.go:96.) -/
def escape1 (p : Part) (c : Byte) : Str :=
  if p = .query && c == 32 then [43]
  else if shouldEscape p c then [37, hexDigit (c.val / 16), hexDigit (c.val % 16)]
  else [c]

/-- `url.escape`. (Library, used at endpoint.go:96, 109.) -/
def escape (p : Part) (s : Str) : Str := s.flatMap (escape1 p)

/-- `url.unhex` where `url.ishex`. (Library, used at endpoint.go:97.) -/
def unhex (c : Byte) : Option Nat :=
  if isDigit c then some (c.val - 48)
  else if 97 ≤ c.val && c.val ≤ 102 then some (c.val - 87)
  else if 65 ≤ c.val && c.val ≤ 70 then some (c.val - 55)
  else none

/-- `url.unescape`; `none` is an error. (Library, used at endpoint.go:97.) -/
def unescape (p : Part) : Str → Option Str
  | [] => some []
  | c :: rest =>
    if c = 37 then
      match rest with
      | a :: b :: rest' =>
        match unhex a, unhex b with
        | some x, some y =>
          if p = .host && decide (x < 8) && !(x == 2 && y == 5) then none
          else (unescape p rest').map (Fin.ofNat 256 (x * 16 + y) :: ·)
        | _, _ => none
      | _ => none
    else if c = 43 then (unescape p rest).map ((if p = .query then 32 else 43) :: ·)
    else if p = .host && c.val < 128 && shouldEscape .host c then none
    else (unescape p rest).map (c :: ·)

/-- The fields of a `url.URL` used here. `opaque` stands for an URL like `a:b` without a path.
(Library, made at endpoint.go:80-84.) -/
structure URL where
  scheme : Str
  host : Str
  path : Str
  query : Str
  isOpaque : Bool
  deriving DecidableEq, Repr

/-- `URL.EscapedPath`. (Library, used at endpoint.go:96.) -/
def escapedPath (path : Str) : Str := if path = [42] then [42] else escape .path path

/-- `URL.String` for an URL with scheme and host.
(Library, used at endpoint.go:96, 240, 251, 333.) -/
def urlString (u : URL) : Str :=
  u.scheme ++ ascii "://" ++ escape .host u.host ++
    (if u.path ≠ [] ∧ u.path.head? ≠ some 47 then [47] else []) ++ escapedPath u.path ++
    (if u.query = [] then [] else 63 :: u.query)

/-- Everything before the first `c`, and what comes after it if there is one.
(Library, part of the parsing at endpoint.go:97.) -/
def cut (c : Byte) : Str → Str × Option Str
  | [] => ([], none)
  | x :: xs => if x = c then ([], some xs) else (x :: (cut c xs).1, (cut c xs).2)

/-- Everything after the last `c`, if there is one.
(Library, part of the parsing at endpoint.go:97.) -/
def afterLast (c : Byte) : Str → Option Str
  | [] => none
  | x :: xs => match afterLast c xs with
    | some r => some r
    | none => if x = c then some xs else none

/-- `url.getscheme`: the scheme and the rest, `none` for an error; `first` says that no byte has been
read. (Library, part of the parsing at endpoint.go:97.) -/
def getScheme (first : Bool) (acc : Str) : Str → Option (Str × Option Str)
  | [] => some ([], none)
  | c :: cs =>
    if isLower c || isUpper c then getScheme false (acc ++ [c]) cs
    else if isDigit c || (ascii "+-.").contains c then
      if first then some ([], none) else getScheme false (acc ++ [c]) cs
    else if c = 58 then if first then none else some (acc, some cs)
    else some ([], none)

/-- `url.validOptionalPort` of what follows the last colon of a host.
(Library, part of the parsing at endpoint.go:97.) -/
def validPort (s : Str) : Bool := s.all isDigit

/-- `url.parseHost`. (A zone within brackets is not decoded separately.)
(Library, part of the parsing at endpoint.go:97.) -/
def parseHost (h : Str) : Option Str :=
  if h.head? = some 91 then
    match afterLast 93 h with
    | none => none
    | some [] => unescape .host h
    | some (c :: port) => if c = 58 && validPort port then unescape .host h else none
  else
    match afterLast 58 h with
    | none => unescape .host h
    | some port => if validPort port then unescape .host h else none

/-- The part of `url.parse` after the scheme: an authority if there is one, and the path. (User names
are left out.) (Library, part of the parsing at endpoint.go:97.) -/
def parseRest (scheme rest query : Str) : Option URL :=
  if rest.head? ≠ some 47 then
    if scheme ≠ [] then some { scheme, host := [], path := [], query, isOpaque := true }
    else (unescape .path rest).map
      (fun p => { scheme, host := [], path := p, query, isOpaque := false })
  else if (ascii "//").isPrefixOf rest && (scheme ≠ [] || !(ascii "///").isPrefixOf rest) then
    let a := cut 47 (rest.drop 2)
    let host := (afterLast 64 a.1).getD a.1
    match parseHost host, unescape .path (match a.2 with | some r => 47 :: r | none => []) with
    | some h, some p => some { scheme, host := h, path := p, query, isOpaque := false }
    | _, _ => none
  else (unescape .path rest).map
    (fun p => { scheme, host := [], path := p, query, isOpaque := false })

/-- `url.Parse`: `none` is an error. The fragment is dropped.
(Library, the parsing at endpoint.go:97, 133, 251, 333.) -/
def parse (raw : Str) : Option URL :=
  let raw := (cut 35 raw).1
  if raw.any (fun c => c.val < 32 || c.val == 127) then none
  else
    match getScheme true [] raw with
    | none => none
    | some (scheme, rest) =>
      let rest := rest.getD raw
      let q := cut 63 rest
      parseRest (scheme.map (fun c => if isUpper c then Fin.ofNat 256 (c.val + 32) else c)) q.1
        (q.2.getD [])

/-- The decimal digits of a number, `fmt.Sprintf("%d", _)`; `fuel` bounds their count.
(Library, used at endpoint.go:82.) -/
def decimalFrom : Nat → Nat → Str
  | 0, _ => []
  | fuel + 1, n =>
    if n < 10 then [Fin.ofNat 256 (48 + n)]
    else decimalFrom fuel (n / 10) ++ [Fin.ofNat 256 (48 + n % 10)]

/-- `%d` of a natural number, endpoint.go:82. -/
def decimal (n : Nat) : Str := decimalFrom (n + 1) n

/-- `%d` of an integer. (Library, used at endpoint.go:82.) -/
def formatInt (n : Int) : Str := if n < 0 then 45 :: decimal n.natAbs else decimal n.natAbs

/-- Endpoint, endpoint.go:33-37. -/
structure Endpoint where
  host : Str
  port : Int
  tls : Bool
  deriving DecidableEq, Repr

/-- Endpoint.URL, endpoint.go:63-85. -/
def epURL (ep : Endpoint) (path : Str) (wsock : Bool) : URL :=
  { scheme :=
      if wsock then (if ep.tls then ascii "wss" else ascii "ws")
      else (if ep.tls then ascii "https" else ascii "http")
    host := ep.host ++ [58] ++ formatInt ep.port
    path := path, query := [], isOpaque := false }

/-- The methods of endpoint.go:97, 251, 333 and server.go:806-821. -/
inductive Method where
  | get | post | delete
  deriving DecidableEq, Repr

/-- A request on its way: to which host, and the request line.
(sent at endpoint.go:114, 133, 256, 333) -/
structure Request where
  tls : Bool
  host : Str
  method : Method
  /-- The request target, `URL.RequestURI`. -/
  target : Str
  deriving DecidableEq, Repr

/-- `URL.RequestURI`. (Library, used at endpoint.go:114.) -/
def requestURI (u : URL) : Str :=
  (if escapedPath u.path = [] then [47] else escapedPath u.path) ++
    (if u.query = [] then [] else 63 :: u.query)

/-- `http.NewRequest` and `Client.Do`: parses the URL, which must be one of http or https.
(Library, used at endpoint.go:97, 251, 333.) -/
def newRequest (url : Str) : Option URL :=
  match parse url with
  | none => none
  | some u =>
    if (u.scheme = ascii "http" ∨ u.scheme = ascii "https") ∧ u.host ≠ [] then some u else none

/-- The request line `Client.Do` writes, endpoint.go:114, 256, 333. -/
def send (m : Method) (u : URL) : Request :=
  { tls := u.scheme == ascii "https", host := u.host, method := m, target := requestURI u }

/-- `url.Values.Encode` of the arguments with at most an id, endpoint.go:104-109. -/
def idQuery (id : Str) : Str := if id = [] then [] else ascii "id=" ++ escape .query id

/-- The request of CreateTrace, endpoint.go:96-115. -/
def createTrace (ep : Endpoint) (id ns : Str) : Option Request :=
  (newRequest (urlString (epURL ep (ascii "/jobs/namespaces/" ++ ns) false))).map
    (fun u => send .post { u with query := idQuery id })

/-- The request of DeleteTraceJob, endpoint.go:251. -/
def deleteTraceJob (ep : Endpoint) (id : Str) : Option Request :=
  (newRequest (urlString (epURL ep (ascii "/jobs/" ++ id) false))).map (send .delete)

/-- The request of getJobs, endpoint.go:333. -/
def getJobs (ep : Endpoint) : Option Request :=
  (newRequest (urlString (epURL ep (ascii "/jobs") false))).map (send .get)

/-- The handshake of `websocket.Dialer` (1.4.2): only for ws and wss.
(Library, used at endpoint.go:132-133.) -/
def dial (url : Str) : Option Request :=
  match parse url with
  | none => none
  | some u =>
    if u.scheme = ascii "ws" then some { send .get u with tls := false }
    else if u.scheme = ascii "wss" then some { send .get u with tls := true }
    else none

/-- The handshake of ReadTraceJob, endpoint.go:240. -/
def readTraceJob (ep : Endpoint) (id : Str) : Option Request :=
  dial (urlString (epURL ep (ascii "/jobs/" ++ id ++ ascii "/ws") true))

/-- The path ReadTrace asks for, endpoint.go:277-289. -/
def tracePath (ns pod container : Str) : Str :=
  if ns ≠ [] ∧ pod ≠ [] ∧ container ≠ [] then
    ascii "/trace/namespaces/" ++ ns ++ ascii "/pods/" ++ pod ++ ascii "/containers/" ++ container
      ++ ascii "/ws"
  else if ns ≠ [] ∧ pod ≠ [] ∧ container = [] then
    ascii "/trace/namespaces/" ++ ns ++ ascii "/pods/" ++ pod ++ ascii "/ws"
  else if ns ≠ [] ∧ pod = [] ∧ container = [] then
    ascii "/trace/namespaces/" ++ ns ++ ascii "/ws"
  else ascii "/trace/ws"

/-- The handshake of ReadTrace, endpoint.go:291: with the path alone. -/
def readTrace (_ep : Endpoint) (ns pod container : Str) : Option Request :=
  dial (tracePath ns pod container)

/-! The server. -/

/-- A handler with what it takes from the path, server.go:806-821. -/
inductive Handler where
  | list
  | page
  | deleteJob (id : Str)
  | watchJob (id : Str)
  | createJob (ns : Str)
  | watchTrace (ns pod container : Str)
  | metrics
  deriving DecidableEq, Repr

/-- A part of a route's path between slashes: a literal, or a variable, which is a part that is not
empty (`[^/]+`). (the templates of server.go:806-821) -/
inductive Seg where
  | lit (s : Str)
  | var
  deriving DecidableEq, Repr

/-- A route of server.go:806-821. -/
structure Route where
  /-- `none`: any method. -/
  method : Option Method
  path : List Seg
  handler : List Str → Handler

/-- The routes, server.go:806-821 and 831. (The charts, server.go:833-887, are left out: their paths
begin with /metrics/charts.) -/
def routes : List Route :=
  [ ⟨some .get, [.lit (ascii "jobs")], fun _ => .list⟩,
    ⟨some .get, [.lit (ascii "jobs"), .var], fun _ => .page⟩,
    ⟨some .delete, [.lit (ascii "jobs"), .var], fun v => .deleteJob (v.getD 0 [])⟩,
    ⟨some .get, [.lit (ascii "jobs"), .var, .lit (ascii "ws")], fun v => .watchJob (v.getD 0 [])⟩,
    ⟨some .get, [.lit (ascii "jobs"), .var, .lit (ascii "status")], fun v => .watchJob (v.getD 0 [])⟩,
    ⟨some .post, [.lit (ascii "jobs"), .lit (ascii "namespaces"), .var], fun v => .createJob (v.getD 0 [])⟩,
    ⟨some .get, [.lit (ascii "trace")], fun _ => .page⟩,
    ⟨some .get, [.lit (ascii "trace"), .lit (ascii "ws")], fun _ => .watchTrace [] [] []⟩,
    ⟨some .get, [.lit (ascii "trace"), .lit (ascii "namespaces"), .var], fun _ => .page⟩,
    ⟨some .get, [.lit (ascii "trace"), .lit (ascii "namespaces"), .var, .lit (ascii "ws")],
      fun v => .watchTrace (v.getD 0 []) [] []⟩,
    ⟨some .get, [.lit (ascii "trace"), .lit (ascii "namespaces"), .var, .lit (ascii "pods"), .var],
      fun _ => .page⟩,
    ⟨some .get, [.lit (ascii "trace"), .lit (ascii "namespaces"), .var, .lit (ascii "pods"), .var,
      .lit (ascii "ws")], fun v => .watchTrace (v.getD 0 []) (v.getD 1 []) []⟩,
    ⟨some .get, [.lit (ascii "trace"), .lit (ascii "namespaces"), .var, .lit (ascii "pods"), .var,
      .lit (ascii "containers"), .var], fun _ => .page⟩,
    ⟨some .get, [.lit (ascii "trace"), .lit (ascii "namespaces"), .var, .lit (ascii "pods"), .var,
      .lit (ascii "containers"), .var, .lit (ascii "ws")],
      fun v => .watchTrace (v.getD 0 []) (v.getD 1 []) (v.getD 2 [])⟩,
    ⟨none, [.lit (ascii "metrics")], fun _ => .metrics⟩ ]

/-- `strings.Split` by one byte. (Library, part of matching server.go:806-821.) -/
def split (sep : Byte) : Str → List Str
  | [] => [[]]
  | c :: cs =>
    if c = sep then [] :: split sep cs
    else match split sep cs with
      | [] => [[c]]
      | f :: fs => (c :: f) :: fs

/-- The regular expression of a route against the parts of a path: what the variables match, and
whether there is a slash at the end (server.go:770, StrictSlash, makes it optional). -/
def matchSegs : List Seg → List Str → Option (List Str × Bool)
  | [], [] => some ([], false)
  | [], [s] => if s = [] then some ([], true) else none
  | [], _ :: _ :: _ => none
  | _ :: _, [] => none
  | .lit l :: segs, s :: ss => if s = l then matchSegs segs ss else none
  | .var :: segs, s :: ss =>
    if s = [] then none else (matchSegs segs ss).map (fun r => (s :: r.1, r.2))

/-- `path.Clean` of the parts of a rooted path. (Library, used by the router of server.go:770.) -/
def cleanSegs (acc : List Str) : List Str → List Str
  | [] => acc
  | s :: ss =>
    if s = [] ∨ s = ascii "." then cleanSegs acc ss
    else if s = ascii ".." then cleanSegs acc.dropLast ss
    else cleanSegs (acc ++ [s]) ss

/-- The parts joined by slashes, each after one. (Library, used by the router of server.go:770.) -/
def joinSegs (l : List Str) : Str := l.flatMap (fun s => 47 :: s)

/-- `mux.cleanPath`. (Library, used by the router of server.go:770.) -/
def cleanPath (p : Str) : Str :=
  let segs := cleanSegs [] (split 47 p)
  let np := if segs = [] then [47] else joinSegs segs
  if p.getLast? = some 47 ∧ np ≠ [47] then np ++ [47] else np

/-- What the router answers. (the router of server.go:770) -/
inductive Answer where
  | handle (h : Handler)
  /-- 301 to this path. -/
  | moved (path : Str)
  | notFound
  | methodNotAllowed
  deriving DecidableEq, Repr

/-- Matching routes in order, `Router.Match`: `seen` says that a path has matched with another method.
(Library, over server.go:806-821.) -/
def matchRoutes (m : Method) (path : Str) (segs : List Str) (seen : Bool) : List Route → Answer
  | [] => if seen then .methodNotAllowed else .notFound
  | r :: rs =>
    match matchSegs r.path segs with
    | none => matchRoutes m path segs seen rs
    | some (vars, slash) =>
      if r.method = none ∨ r.method = some m then
        if slash then .moved path.dropLast else .handle (r.handler vars)
      else matchRoutes m path segs true rs

/-- `Router.ServeHTTP` for a path. (Library, the router of server.go:770.) -/
def route (m : Method) (path : Str) : Answer :=
  if cleanPath path ≠ path then .moved (cleanPath path)
  else matchRoutes m path ((split 47 path).drop 1) false routes

/-- One argument of a query, `url.parseQuery`. (Library, used at server.go:336.) -/
def parseArg (s : Str) : Option (Str × Str) :=
  if s = [] then none
  else
    let kv := cut 61 s
    match unescape .query kv.1, unescape .query (kv.2.getD []) with
    | some k, some v => some (k, v)
    | _, _ => none

/-- `url.parseQuery`: the arguments in order. Both `&` and `;` separate them.
(Library, used at server.go:336.) -/
def parseQuery (q : Str) : List (Str × Str) :=
  ((split 38 q).flatMap (split 59)).filterMap parseArg

/-- The request line as the server reads it, `url.ParseRequestURI`: path and query.
(Library, before the router of server.go:770.) -/
def parseTarget (t : Str) : Option (Str × Str) :=
  if t.head? = some 47 then
    let q := cut 63 t
    (unescape .path q.1).map (fun p => (p, q.2.getD []))
  else none

/-- What the server does with a request: the router's answer, and the id in the query if there is one,
server.go:336-345. -/
def serve (r : Request) : Option (Answer × Option Str) :=
  (parseTarget r.target).map (fun (p, q) =>
    (route r.method p, ((parseQuery q).find? (fun kv => kv.1 = ascii "id")).map (·.2)))

/-- What `http.Client` makes of it: a 301 is followed, with a GET, at most ten times. The result is the
answer that is not a redirect, if there is one. (The address of a redirect is the escaped path, which
reads back as the path.) (Library, used at endpoint.go:114, 256.) -/
def follow : Nat → Method → Str → Option Answer
  | 0, _, _ => none
  | fuel + 1, m, path =>
    match route m path with
    | .moved p => follow fuel .get p
    | a => some a

/-- The status of an answer, given those of the handlers. (Read at endpoint.go:126, 261.) -/
def status (h : Handler → Nat) : Answer → Nat
  | .handle x => h x
  | .moved _ => 301
  | .notFound => 404
  | .methodNotAllowed => 405

/-- DeleteTraceJob, endpoint.go:249-266: whether it returns nil, given what the handlers answer. -/
def deleteTraceJobOK (h : Handler → Nat) (ep : Endpoint) (id : Str) : Bool :=
  match deleteTraceJob ep id with
  | none => false
  | some r =>
    match parseTarget r.target with
    | none => false
    | some (p, _) =>
      match follow 10 r.method p with
      | none => false
      | some a => status h a == 200

/-- CreateTrace, endpoint.go:113-128: whether the answer is taken for a created job. -/
def createTraceOK (h : Handler → Nat) (ep : Endpoint) (id ns : Str) : Bool :=
  match createTrace ep id ns with
  | none => false
  | some r =>
    match parseTarget r.target with
    | none => false
    | some (p, _) =>
      match follow 10 r.method p with
      | none => false
      | some a => status h a == 201

end Swoll.Client
