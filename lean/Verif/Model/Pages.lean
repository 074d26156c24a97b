import Verif.Model.Client
/-
The pages of the server that show a stream in a browser: cmd/server.go:904-922, and the routes they are served on,
cmd/server.go:806-821 (Model/Client).
-/
namespace Swoll.Pages
open Swoll Swoll.Client

/-- `window.location.pathname` of a page: the path of the address it was asked for by, as it was sent. (The browser, used
at cmd/server.go:909. A browser sends the path it has in `location`; fragments are not sent.) -/
def pathname (target : Str) : Str := (cut 63 target).1

/-- The websocket that the script of the page opens: to the host the page came from, with TLS if the page came with it, at
the path of the page with `/ws` behind it. (cmd/server.go:909) -/
def opened (page : Request) : Request :=
  { tls := page.tls, host := page.host, method := .get, target := pathname page.target ++ ascii "/ws" }

end Swoll.Pages
