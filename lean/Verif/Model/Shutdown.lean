/-
The end of the server, cmd/server.go:890-902, 925-942: `runServer` starts the HTTP server and the hub as goroutines and
waits for an interrupt; then `(*http.Server).Shutdown` has 15 seconds. When `shutdown` returns so does `runServer`, and the
program ends with whatever is left.

Library (net/http of Go 1.13): `Shutdown` closes the listeners, then looks every 500 milliseconds, and at once, whether any
connection is still at work; it returns when none is or when its context ends. Connections taken over by a websocket are
none of its business. Signals other than the interrupt end a Go program at once.

Simplifications: a request has a number and is one connection; a connection without a request is closed at once; time is
counted in milliseconds, and what happens at a time happens before the clock moves on.
-/
namespace Swoll.Shutdown

/-- `time.Second*15`, server.go:933. -/
def limit : Nat := 15000

/-- `shutdownPollInterval`. (Library, used at server.go:936.) -/
def every : Nat := 500

/-- Where `runServer` is: waiting for a signal (server.go:929), in `Shutdown` since some time (936), or over. -/
inductive Phase where
  | waiting
  | closing (since : Nat)
  | over
  deriving DecidableEq, Repr

/-- The program: the clock, where it is, whether it listens, the requests being handled, the websockets, the requests that
were answered, and those that were being handled when it ended. (server.go:890-902, 925-942) -/
structure State where
  now : Nat
  phase : Phase
  listening : Bool
  busy : List Nat
  socks : List Nat
  answered : List Nat
  cut : List Nat
  deriving DecidableEq, Repr

/-- After `go server.ListenAndServe()`: it listens, or the error is dropped. (server.go:890-899) -/
def start (listens : Bool) : State := ⟨0, .waiting, listens, [], [], [], []⟩

/-- The program ends. (server.go:901-902) -/
def State.finish (s : State) : State := { s with phase := .over, listening := false, busy := [], socks := [], cut := s.busy }

/-- `Shutdown` looks. (Library, used at server.go:936.) -/
def State.look (s : State) : State := if s.busy = [] then s.finish else s

/-- What can happen: the clock moves on, a client sends a request, a request is answered, a request becomes a websocket,
an interrupt, another signal, the hub fails. (server.go:890-902, 925-942; hub.go:322-327) -/
inductive Act where
  | tick
  | request (id : Nat)
  | answer (id : Nat)
  | upgrade (id : Nat)
  | interrupt
  | terminate
  | hubFails
  deriving DecidableEq, Repr

/-- One step. (server.go:890-902, 925-942; hub.go:322-327) -/
def step (s : State) (a : Act) : State :=
  match s.phase with
  | .over => s
  | _ =>
    match a with
    | .tick =>
      let s := { s with now := s.now + 1 }
      match s.phase with
      | .closing t => if t + limit ≤ s.now then s.finish else if (s.now - t) % every = 0 then s.look else s
      | _ => s
    | .request id => if s.listening then { s with busy := s.busy ++ [id] } else s
    | .answer id => if id ∈ s.busy then { s with busy := s.busy.erase id, answered := s.answered ++ [id] } else s
    | .upgrade id => if id ∈ s.busy then { s with busy := s.busy.erase id, socks := s.socks ++ [id] } else s
    | .interrupt =>
      match s.phase with
      | .waiting => ({ s with phase := .closing s.now, listening := false } : State).look
      | _ => s
    | .terminate => s.finish
    | .hubFails => s.finish

/-- After a history. (server.go:890-902, 925-942) -/
def run (s : State) (acts : List Act) : State := acts.foldl step s

end Swoll.Shutdown
