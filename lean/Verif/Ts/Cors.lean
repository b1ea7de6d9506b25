import Verif.Ts.Client
/-!
# Model of calls from a web page to a server of another origin

The five example servers that answer pages of other origins, and what a browser makes of their answers:
`/repo/_examples/webrpc-streaming/main.go:75-85`, `/repo/_examples/hello-webrpc/server/main.go:26-36`,
`/repo/_examples/node-ts/server-go/main.go:29-36` (all with github.com/go-chi/cors, which is modelled from its documentation and
published source: not in /repo), `/repo/_examples/node-ts/server/middleware.ts:35-60` and
`/repo/_examples/node-ts/server-hono/index.ts:80-87` (hono/cors, likewise).

The browser follows the Fetch Standard: the request of a generated client needs the leave of the server (a preflight request),
since its `Content-Type` is `application/json` and it has a header `Webrpc`.  Which other headers need leave depends on their
values and sizes and is a parameter.  Simplified: leave is asked for each time (browsers remember it for a while), names are sent
in the order of the request (browsers sort them), origins with `*` in the middle are not modelled, credentials are not sent (the
default of `fetch`).
-/

namespace Verif.Ts.Cors
open Verif.Schema hiding Json Method
open Verif.Json Verif.Gen Verif.Ts

/-- Lower-case letters for `A` to `Z`. -/
def lower (s : Str) : Str := s.map fun c => if 'A' ≤ c ∧ c ≤ 'Z' then Char.ofNat (c.toNat + 32) else c

/-- Is this a character of a header name (RFC 9110)? -/
def tokenChar (c : Char) : Bool :=
  ('a' ≤ c && c ≤ 'z') || ('A' ≤ c && c ≤ 'Z') || ('0' ≤ c && c ≤ '9') || "!#$%&'*+-.^_`|~".toList.contains c

def isToken (s : Str) : Bool := !s.isEmpty && s.all tokenChar

/-- The parts of a text between separators. -/
def pieces (sep : Char → Bool) : Str → List Str
  | [] => [[]]
  | c :: cs =>
    if sep c then [] :: pieces sep cs
    else match pieces sep cs with
      | [] => [[c]]
      | p :: ps => (c :: p) :: ps

/-- The first value of a header; names are written in lower case. -/
def header (name : Str) : List (Str × Str) → Option Str
  | [] => none
  | (n, v) :: r => if n = name then some v else header name r

/-! ### Servers -/

/-- A preflight request: `Origin`, `Access-Control-Request-Method` and `Access-Control-Request-Headers`. -/
structure Preflight where
  origin : Str
  method : Str
  names : Str

/-- An answer to a preflight request. -/
structure Reply where
  status : Int
  headers : List (Str × Str)

/-- A server as pages of other origins see it: its answer to a preflight request, and the headers it adds to its other answers. -/
structure Server where
  preflight : Preflight → Reply
  headers : Str → Str → List (Str × Str)

/-- `cors.Options`. -/
structure Options where
  allowedOrigins : List Str
  allowedMethods : List Str
  allowedHeaders : List Str
  exposedHeaders : List Str

/-- `isOriginAllowed` -/
def Options.originOk (o : Options) (origin : Str) : Bool := o.allowedOrigins.contains (S "*") || (o.allowedOrigins.map lower).contains (lower origin)

/-- `isMethodAllowed` -/
def Options.methodOk (o : Options) (method : Str) : Bool := method == S "OPTIONS" || o.allowedMethods.contains method

/-- The characters `parseHeaderList` keeps. -/
def plainChar (c : Char) : Bool :=
  ('a' ≤ c && c ≤ 'z') || ('A' ≤ c && c ≤ 'Z') || ('0' ≤ c && c ≤ '9') || c == '-' || c == '_' || c == '.'

/-- `parseHeaderList`, names in lower case. -/
def parseHeaderList (s : Str) : List Str :=
  (((pieces (fun c => c == ' ' || c == ',') s).map (fun p => lower (p.filter plainChar))).filter (fun p => !p.isEmpty))

/-- `areHeadersAllowed` (names are compared in canonical form, that is without regard to case); `Origin` is always allowed. -/
def Options.headersOk (o : Options) (names : List Str) : Bool := names.all ((o.allowedHeaders ++ [S "Origin"]).map lower).contains

def Options.allowOrigin (o : Options) (origin : Str) : Str × Str :=
  (S "access-control-allow-origin", if o.allowedOrigins.contains (S "*") then S "*" else origin)

/-- go-chi/cors: `handlePreflight` and `handleActualRequest`. -/
def goCors (o : Options) : Server where
  preflight p :=
    let names := parseHeaderList p.names
    if o.originOk p.origin && o.methodOk p.method && o.headersOk names then
      ⟨200, [o.allowOrigin p.origin, (S "access-control-allow-methods", p.method)] ++
        (if names.isEmpty then [] else [(S "access-control-allow-headers", join (S ", ") names)])⟩
    else ⟨200, []⟩
  headers origin method :=
    if o.originOk origin && o.methodOk method then
      [o.allowOrigin origin] ++ (if o.exposedHeaders.isEmpty then [] else [(S "access-control-expose-headers", join (S ", ") o.exposedHeaders)])
    else []

/-- webrpc-streaming/main.go:75-84 -/
def chatOptions : Options where
  allowedOrigins := [S "*"]
  allowedMethods := [S "POST", S "OPTIONS"]
  allowedHeaders := [S "Accept", S "Authorization", S "Content-Type", S "X-CSRF-Token", S "Webrpc"]
  exposedHeaders := [S "Link", S "Webrpc"]

/-- hello-webrpc/server/main.go:26-35 -/
def helloOptions : Options where
  allowedOrigins := [S "*"]
  allowedMethods := [S "POST", S "OPTIONS"]
  allowedHeaders := [S "Accept", S "Authorization", S "Content-Type", S "X-CSRF-Token", S "Webrpc"]
  exposedHeaders := [S "Link", S "Webrpc"]

/-- node-ts/server-go/main.go:29-36 -/
def serverGoOptions : Options where
  allowedOrigins := [S "*"]
  allowedMethods := [S "GET", S "POST", S "PUT", S "DELETE", S "OPTIONS"]
  allowedHeaders := [S "Accept", S "Authorization", S "Content-Type"]
  exposedHeaders := [S "Link"]

/-- `withCors`, node-ts/server/middleware.ts:35-60. -/
def nodeServer : Server where
  preflight p := ⟨204, [(S "access-control-allow-origin", S "*"), (S "access-control-allow-methods", S "GET,POST,PUT,PATCH,DELETE,OPTIONS"),
    (S "access-control-allow-headers", if p.names.isEmpty then S "Content-Type, Authorization" else p.names)]⟩
  headers _ _ := [(S "access-control-allow-origin", S "*"), (S "access-control-allow-methods", S "GET,POST,PUT,PATCH,DELETE,OPTIONS"),
    (S "access-control-allow-headers", S "Content-Type, Authorization")]

/-- node-ts/server-hono/index.ts:80-87: `origin` is the origin itself, nothing is exposed. -/
def honoServer : Server where
  preflight p := ⟨204, [(S "access-control-allow-origin", p.origin), (S "access-control-allow-methods", S "GET,POST,PUT,PATCH,DELETE,OPTIONS"),
    (S "access-control-allow-headers", join (S ",") [S "Content-Type", S "Authorization", S "Webrpc"])]⟩
  headers origin _ := [(S "access-control-allow-origin", origin)]

/-! ### The browser -/

/-- Which headers of a request need the leave of the server, Fetch Standard, "CORS-unsafe request-header names". -/
structure Browser where
  guarded : List (Str × Str) → Str × Str → Bool
  webrpc : ∀ hs n v, lower n = S "webrpc" → guarded hs (n, v) = true
  json : ∀ hs n, lower n = S "content-type" → guarded hs (n, S "application/json") = true
  /-- what `fetch` says when the server gives no leave -/
  refused : Str

/-- "CORS check", credentials not sent. -/
def corsCheck (origin : Str) (hs : List (Str × Str)) : Bool :=
  match header (S "access-control-allow-origin") hs with
  | none => false
  | some v => v == S "*" || v == origin

def stripBlanks (s : Str) : Str :=
  ((s.dropWhile fun c => c == ' ' || c == '\t').reverse.dropWhile fun c => c == ' ' || c == '\t').reverse

/-- "Extracting header list values"; `none`: failure. -/
def listValues (name : Str) (hs : List (Str × Str)) : Option (List Str) :=
  match header name hs with
  | none => some []
  | some v =>
    let ps := ((pieces (· == ',') v).map stripBlanks).filter fun p => !p.isEmpty
    if ps.all isToken then some ps else none

/-- The names of the headers that need leave. -/
def Browser.asks (b : Browser) (r : TsRequest) : List Str := (r.headers.filter (b.guarded r.headers)).map fun h => lower h.1

/-- "CORS-preflight fetch", the checks of the answer. -/
def preflightOk (origin method : Str) (asks : List Str) (a : Reply) : Bool :=
  corsCheck origin a.headers && decide (200 ≤ a.status ∧ a.status ≤ 299) &&
  match listValues (S "access-control-allow-methods") a.headers, listValues (S "access-control-allow-headers") a.headers with
  | some ms, some ns =>
    (ms.contains method || [S "GET", S "HEAD", S "POST"].contains method || ms.contains (S "*")) &&
      asks.all fun n => (ns.map lower).contains n || (ns.contains (S "*") && n ≠ S "authorization")
  | _, _ => false

/-- An answer of the server behind the CORS layer: status, text and headers (names in lower case). -/
structure Answer where
  status : Int
  text : Str
  headers : List (Str × Str)

/-- What a page gets. -/
structure Outcome where
  /-- did the request reach the server? -/
  reached : Bool
  fetched : Fetched
  /-- the headers of the response a page may read -/
  visible : List (Str × Str)

/-- "CORS-safelisted response-header names" -/
def safeResponse : List Str :=
  [S "cache-control", S "content-language", S "content-length", S "content-type", S "expires", S "last-modified", S "pragma"]

/-- `fetch` in a page of the given origin, the server being of another origin. -/
def Browser.fetch (b : Browser) (s : Server) (origin : Str) (handle : TsRequest → Answer) (r : TsRequest) : Outcome :=
  if !r.headers.all (fun h => isToken h.1) then ⟨false, .failed b.refused, []⟩
  else if !(b.asks r).isEmpty && !preflightOk origin r.method (b.asks r) (s.preflight ⟨origin, r.method, join (S ",") (b.asks r)⟩) then
    ⟨false, .failed b.refused, []⟩
  else
    let hs := s.headers origin r.method
    if corsCheck origin hs then
      let a := handle r
      let exposed := ((listValues (S "access-control-expose-headers") hs).getD []).map lower
      ⟨true, .response a.status (.ok a.text),
        (a.headers ++ hs).filter fun h => (exposed ++ safeResponse).contains h.1 || exposed.contains (S "*")⟩
    else ⟨true, .failed b.refused, []⟩

/-- `fetch` in a program that is not a page: nobody needs leave. -/
def direct (handle : TsRequest → Answer) (r : TsRequest) : Fetched := .response (handle r).status (.ok (handle r).text)

end Verif.Ts.Cors
