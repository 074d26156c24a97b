import Verif.Model.EventRead
import Verif.Model.Watch
import Verif.Model.ClientCmd
/-
`swoll client watch` from the texts on a websocket to the terminal: pkg/client/endpoint.go:193-238 and
cmd/client.go:115-136, with the decoder of Model/EventRead and the lines of Model/Watch. `js` holds the name tables, `env`
the orders the client goes through its flag tables in.

Simplification: the goroutine that reads and the loop that prints take turns; that the process ends before it has printed
what was read before is in Model/ClientCmd.
-/
namespace Swoll.WatchStream
open Swoll Swoll.Event Swoll.EventText Swoll.EventRead
open Swoll.Json (Str)

/-- What a server sends for the bytes of a kernel event: nothing if they are refused. (pkg/topology/hub.go:185-220,
cmd/server.go:205-214, 246-255) -/
def sent (tbl : Syscalls.Syscalls) (js : EventJSON.Env) (lk : Option (Int → Option Topology.Container)) (m : Memory)
    (nr : Nat) (raw : List Bytes.Byte) : List Str :=
  match ingest tbl lk (.bytes raw) with
  | .ok ev => [message js m nr ev]
  | _ => []

/-- What is printed for a text: nothing if it is refused; `none` is a crash. (endpoint.go:224-228, cmd/client.go:132) -/
def printed (js : EventJSON.Env) (env : Print.Env) (text : Str) : Option (List (List Char)) :=
  match receive js text with
  | .err => some []
  | .panic | .ok none => none
  | .ok (some ev) => (Watch.watchLine env ev).map fun l => [l]

/-- Where a stream is after some messages. (endpoint.go:210-237) -/
inductive Ending where
  /-- the next message is waited for -/
  | going
  /-- the websocket is closed -/
  | closed
  /-- the process has crashed -/
  | crashed
  deriving DecidableEq, Repr

/-- The lines printed for the messages of a websocket. (endpoint.go:210-237, cmd/client.go:129-136) -/
def watch (js : EventJSON.Env) (env : Print.Env) : List Str → List (List Char) × Ending
  | [] => ([], .going)
  | m :: rest =>
    if accepts m then
      match printed js env m with
      | none => ([], .crashed)
      | some ls => (ls ++ (watch js env rest).1, (watch js env rest).2)
    else ([], .closed)

/-- The text of message number `i`, as Model/ClientCmd sees it. (endpoint.go:28, 145, 225-229) -/
def seen (js : EventJSON.Env) (i : Nat) (text : Str) : ClientCmd.Msg :=
  if accepts text then
    match receive js text with
    | .ok _ => .event i
    | _ => .undecodable
  else .tooLong

end Swoll.WatchStream
