import Verif.Model.Wire
/-
The answers of the server: status, label (`Content-Type`) and body, and what the client makes of them.
cmd/server.go:34-36, 104-124, 136-169, 272-303, 308-324, 328-384, 405-424, 904-922; pkg/client/endpoint.go:90-141, 249-267,
331-351.

Simplifications: an answer that cannot be written because the client has gone is not followed further. Of the headers
only their values by name are kept. The text of errors that come from libraries is a parameter.
-/
namespace Swoll.Answers
open Swoll
open Swoll.Json (Str Json)

/-! ### `http.ResponseWriter` -/

/-- `http.response`: the headers as they are now, the status and the headers that are sent, and the body.
(Library, used at server.go:136-169.) -/
structure Writer where
  header : GoMap Str Str
  sent : Option (Nat × GoMap Str Str)
  body : Str
  deriving DecidableEq, Repr

/-- Before a handler has done anything. (Library, used at server.go:136-169.) -/
def fresh : Writer := ⟨[], none, []⟩

/-- `w.Header().Set`. (Library, used at server.go:145, 162, 917.) -/
def setHeader (w : Writer) (k v : Str) : Writer := { w with header := GoMap.set w.header k v }

/-- `w.WriteHeader`: only the first counts, and it takes the headers as they are. (Library, used at
server.go:137, 153.) -/
def writeHeader (w : Writer) (code : Nat) : Writer :=
  match w.sent with
  | some _ => w
  | none => { w with sent := some (code, w.header) }

/-- `w.Write`: with status 200 if none has been given. (Library, used at server.go:146, 163, 918.) -/
def write (w : Writer) (d : Str) : Writer :=
  let w := writeHeader w 200
  { w with body := w.body ++ d }

/-- The name of the label. (server.go:145, 162, 917) -/
def contentType : Str := "Content-Type".toList

/-- `http.Error`. (Library, used by the upgrader at server.go:276, 317.) -/
def httpError (w : Writer) (msg : Str) (code : Nat) : Writer :=
  let w := setHeader w contentType "text/plain; charset=utf-8".toList
  let w := setHeader w "X-Content-Type-Options".toList "nosniff".toList
  write (writeHeader w code) (msg ++ ['\n'])

/-- What a client gets. -/
structure Seen where
  status : Nat
  label : Option Str
  body : Str
  deriving DecidableEq, Repr

/-- An answer on the wire. A body without a label gets the one that `http.DetectContentType` guesses.
(Library; the end of every handler.) -/
def seen (guess : Str → Str) (w : Writer) : Seen :=
  let r := w.sent.getD (200, w.header)
  { status := r.1,
    label := match GoMap.get r.2 contentType with
      | some v => some v
      | none => if w.body = [] then none else some (guess w.body),
    body := w.body }

/-! ### The helpers of the handlers -/

/-- `errResponse`. (server.go:34-36) -/
def ofError (msg : Str) : Json := .obj (Wire.opt msg.isEmpty "error" (.str msg))

/-- `errorHandler`. The texts of errors can always be written as JSON. (server.go:136-150) -/
def errorHandler (w : Writer) (code : Nat) (msg : Str) : Writer :=
  let w := writeHeader w code
  let w := setHeader w contentType "application/json".toList
  write w (ofError msg).text

/-- `successHandler`, with a value that can be written. (server.go:152-169) -/
def successHandler (w : Writer) (code : Nat) (v : Json) : Writer :=
  let w := writeHeader w code
  let w := setHeader w contentType "application/json".toList
  write w (v.pretty 0)

/-! ### The handlers -/

/-- The list of jobs. (server.go:291-303) -/
def listHandler (running completed : GoMap Str (List Str × Wire.Trace)) : Writer :=
  successHandler fresh 200 (.obj [("completed".toList, Wire.ofJobs completed), ("running".toList, Wire.ofJobs running)])

/-- The error of `running.add`. (server.go:104) -/
def alreadyRunning (id : Str) : Str := "trace job ".toList ++ id ++ " already running".toList

/-- A create request for a namespace, with this body, for a job of this name; `why` is the complaint of the decoder and
`taken` says that a job of this name runs. (server.go:328-384) -/
def createHandler (ns body id why : Str) (taken : Bool) : Writer :=
  if ns = [] then errorHandler fresh 404 "namespace not found".toList
  else match Wire.readSpec body with
    | none => errorHandler fresh 400 why
    | some s =>
      if taken then errorHandler fresh 500 (alreadyRunning id)
      else successHandler fresh 201 (Wire.ofJob id (Wire.created ns id s))

/-- A delete request; `found` says that the job runs and `err` is the error of deleting it. (server.go:405-424) -/
def deleteHandler (found : Bool) (err : Option Str) : Writer :=
  if found then
    match err with
    | some e => errorHandler fresh 500 e
    | none => successHandler fresh 200 (.str "OK".toList)
  else errorHandler fresh 404 "job not found".toList

/-- The text of a status. (`http.StatusText`; library.) -/
def statusText : Nat → Str
  | 200 => "OK".toList
  | 201 => "Created".toList
  | 400 => "Bad Request".toList
  | 403 => "Forbidden".toList
  | 404 => "Not Found".toList
  | 405 => "Method Not Allowed".toList
  | 500 => "Internal Server Error".toList
  | _ => []

/-- `upgrader.Upgrade` of a request that is no handshake: it answers by itself before it returns the error. (`returnError`
of gorilla/websocket 1.4.2, used at server.go:276, 317.) -/
def returnError (w : Writer) (code : Nat) : Writer :=
  httpError (setHeader w "Sec-Websocket-Version".toList "13".toList) (statusText code) code

/-- The stream of everything, a namespace, a pod or a container; `none` is a stream. `bad` is the status and the error of
a request that is no handshake. (server.go:272-288) -/
def watchHandler : Option (Nat × Str) → Option Writer
  | none => none
  | some (code, err) => some (errorHandler (returnError fresh code) 500 err)

/-- The stream of a job. (server.go:308-324) -/
def readHandler (found : Bool) (bad : Option (Nat × Str)) : Option Writer :=
  if found then watchHandler bad else some (errorHandler fresh 404 "job not found".toList)

/-- The page that shows a stream. (server.go:904-922) -/
def pageHandler (html : Str) : Writer := write (setHeader fresh contentType "text/html".toList) html

/-! ### The client -/

/-- `resp.Status`. (Library, used at endpoint.go:126, 263.) -/
def statusLine (code : Nat) : Str := (toString code).toList ++ ' ' :: statusText code

/-- `fmt.Errorf` of a format without verbs and one argument. The status lines have no `%`, see `statusLine_plain`.
(endpoint.go:126) -/
def errorf (format arg : Str) : Str := format ++ "%!(EXTRA string=".toList ++ arg ++ [')']

/-- How a call ends: with a value, with a text for the user, or with the complaint of the JSON decoder. -/
inductive Result (α : Type) where
  | ok (v : α)
  | refused (text : Str)
  | unreadable
  deriving DecidableEq, Repr

/-- `CreateTrace` from the answer on. (endpoint.go:119-135) -/
def createTrace (a : Seen) : Result (Option Wire.Trace) :=
  if a.status ≠ 201 then .refused (errorf (statusLine a.status) a.body)
  else match Wire.readCreated a.status a.body with
    | some t => .ok t
    | none => .unreadable

/-- `DeleteTraceJob` from the answer on. (endpoint.go:262-266) -/
def deleteTraceJob (a : Seen) : Result Unit :=
  if a.status ≠ 200 then .refused (statusLine a.status) else .ok ()

/-- `getJobs` from the answer on: the status is not looked at. (endpoint.go:331-363) -/
def getJobs (a : Seen) : Result (List (Option Wire.Trace) × List (Option Wire.Trace)) :=
  match Wire.readJobs a.body with
  | some r => .ok r
  | none => .unreadable

/-- `createWebsock` for an answer that is no stream. (endpoint.go:138-142; the error is `ErrBadHandshake` of
gorilla/websocket 1.4.2) -/
def createWebsock (_ : Seen) : Result Unit := .refused "websocket: bad handshake".toList

end Swoll.Answers
