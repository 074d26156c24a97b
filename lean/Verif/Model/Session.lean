/-
The clocks of a websocket, cmd/server.go:49-56, 171-270 and pkg/client/endpoint.go:20-30, 138-238: each
side pings the other and gives up reading when no pong has come for a while. Times are milliseconds.
Both sides use the same pattern with different constants. Library (gorilla/websocket): a read fails once
the deadline has passed, whether or not data has arrived by then, and the pong handler runs when the
reading goroutine gets to the pong.
-/
namespace Swoll.Session

/-- `pongWait` and `pingPeriod`. (cmd/server.go:53-55, endpoint.go:24-26) -/
structure Side where
  wait : Nat
  period : Nat
  deriving DecidableEq, Repr

/-- `pingPeriod = (pongWait * 9) / 10`, cmd/server.go:55, endpoint.go:26. -/
def side (pongWait : Nat) : Side := ⟨pongWait, pongWait * 9 / 10⟩

/-- The server's constants, cmd/server.go:53-55. -/
def server : Side := side 30000
/-- The client's constants, endpoint.go:24-26. -/
def client : Side := side 60000

/-- The time at which reading ends, when the deadline is `d` and pongs are read at the given times: the
loops of jobReader (cmd/server.go:171-199) and readWebsock (endpoint.go:193-238). A pong before the deadline
moves it, cmd/server.go:180-184, endpoint.go:205-208. -/
def expiry (p : Side) : Nat → List Nat → Nat
  | d, [] => d
  | d, t :: ts => if t < d then expiry p (t + p.wait) ts else d

/-- The time at which reading ends on a websocket opened at time `o`: the first deadline is set at
cmd/server.go:175 and endpoint.go:147. -/
def readsUntil (p : Side) (o : Nat) (pongs : List Nat) : Nat := expiry p (o + p.wait) pongs

/-- The time of the `n`-th ping of a ticker started at time `o`, cmd/server.go:205, 224-225 and
endpoint.go:165, 173. -/
def pingAt (p : Side) (o n : Nat) : Nat := o + p.period * n

/-- Does the server's writer notice that reading has ended at time `e` when it sends its `n`-th ping? The
reader closes the connection (cmd/server.go:172), so writing fails from then on and the writer ends
(cmd/server.go:230-233). -/
def notices (o e n : Nat) : Bool := decide (e ≤ pingAt server o n)

/-- The number of the ping at which the server's writer of a websocket opened at time `o` ends and
unsubscribes (cmd/server.go:218-222), searched from the `n`-th on; `fuel` bounds the search. -/
def endingPing (o e : Nat) : Nat → Nat → Nat
  | 0, n => n
  | fuel + 1, n => if notices o e n then n else endingPing o e fuel (n + 1)

/-- When a websocket opened at time `o` whose pongs are read at the given times is unsubscribed,
cmd/server.go:204-235. -/
def unsubscribedAt (o : Nat) (pongs : List Nat) : Nat :=
  pingAt server o (endingPing o (readsUntil server o pongs) (readsUntil server o pongs + 1) 1)

end Swoll.Session
