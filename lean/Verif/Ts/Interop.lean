import Verif.Ts.Client
/-!
# A generated TypeScript client talking to a generated Go server

`fetch` over a connection that delivers what is written: the Go handler gets the request of the TypeScript client, and the
client gets the status and the body that the handler writes.
-/

namespace Verif.Ts
open Verif.Schema hiding Json Method
open Verif.Json Verif.Gen Verif.Rpc

/-- ASCII lower case, as the names of headers are compared. -/
def headerKey (s : Str) : Str := s.map fun c => if 'A' ≤ c ∧ c ≤ 'Z' then Char.ofNat (c.toNat + 32) else c

/-- The value of a header: `fetch` joins the values of names that differ only in case. -/
def headerValue (name : Str) (l : List (Str × Str)) : Str :=
  join (S ", ") ((l.filter fun p => headerKey p.1 = headerKey name).map (·.2))

/-- The request as the Go server sees it. -/
def goRequest (origin : Str) (r : TsRequest) : Request :=
  { method := r.method
    path := r.url.drop origin.length
    contentType := headerValue (S "Content-Type") r.headers
    body := some r.body }

/-- `fetch` of a URL of the server at `origin`. -/
def overGo (origin : Str) (h : HttpHandler) (r : TsRequest) : Fetched :=
  if origin.isPrefixOf r.url then
    let p := Response.of (h (goRequest origin r)).1
    .response (p.status.getD 200) (.ok p.body)
  else .failed (S "Failed to fetch")

end Verif.Ts
