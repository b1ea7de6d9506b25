import Verif.Ts.Js
/-!
# Model of generated TypeScript clients

Models `/repo/_examples/node-ts/webapp/client.gen.ts` (with bigint helpers) and the same parts of
`/repo/_examples/webrpc-streaming/webapp/src/rpc.gen.ts` and `/repo/_examples/hello-webrpc/webapp/client.gen.ts` (without).
Line numbers are those of `client.gen.ts` of node-ts unless another file is named.

`fetch` is a parameter: it fails, or gives a status and a text (reading which may fail).  Requests that are aborted count
as failed.
-/

namespace Verif.Ts
open Verif.Schema hiding Json Method
open Verif.Json Verif.Gen
open Verif.Compile (mapSet)

/-! ### Errors -/

/-- A generated class of errors, e.g. lines 296-306: its name without `Error`, and the defaults. -/
structure ErrClass where
  name : Str
  code : Int
  message : Str
  status : Int
deriving DecidableEq

/-- The class `WebrpcError` itself, lines 276-293. -/
def baseClass : ErrClass := ⟨S "WebrpcEndpointError", 0, S "endpoint error", 400⟩

/-- An error object: its class and its properties. -/
structure TsError where
  cls : ErrClass
  name : Str
  code : Js
  message : Js
  status : Js
  cause : Js

/-- The constructors, lines 280-288 and e.g. 297-305: they all do the same with other defaults (`name` is never given by
the generated code). -/
def ErrClass.construct (c : ErrClass) (message code status cause : Js) : TsError :=
  { cls := c, name := c.name
    code := if typeOf code = S "number" then code else .num (intText c.code)
    message := orElse message (.str c.message)
    status := if typeOf status = S "number" then status else .num (intText c.status)
    cause := cause }

/-- What can be thrown. -/
inductive Thrown
  | webrpc (e : TsError)
  /-- an error that is no `WebrpcError`, with its message -/
  | other (message : Str)

/-- Read a property; null and undefined have none. -/
def getProp [JsEngine] (v : Js) (key : Str) : Except Thrown Js :=
  if nullish v then .error (.other (JsEngine.typeError key)) else .ok (member key v)

/-- `static new(payload)`, lines 290-292. -/
def ErrClass.new [JsEngine] (c : ErrClass) (payload : Js) : Except Thrown TsError := do
  let message ← getProp payload (S "message")
  let code ← getProp payload (S "code")
  let status ← getProp payload (S "status")
  let cause ← getProp payload (S "cause")
  return c.construct message code status cause

/-- The built-in errors, lines 296-426, from the table in `/repo/gen/errors.go`. -/
def builtinClasses : List ErrClass := webrpcErrors.map fun e => ⟨e.name, e.code, e.message, e.httpStatus⟩

/-- The classes for a schema. -/
def schemaClasses (s : Schema) : List ErrClass :=
  builtinClasses ++ s.errors.map fun e => ⟨e.name, e.code, e.message, e.httpStatus⟩

/-- `webrpcErrorByCode[code] || WebrpcError`, lines 545-563 (the last entry of a code counts). -/
def classFor (cs : List ErrClass) (code : Str) : ErrClass :=
  (cs.reverse.find? fun c => intText c.code = code).getD baseClass

/-- `WebrpcBadResponseError` -/
def badResponseClass : ErrClass := ⟨S "WebrpcBadResponse", -5, S "bad response", 500⟩
/-- `WebrpcRequestFailedError` -/
def requestFailedClass : ErrClass := ⟨S "WebrpcRequestFailed", -1, S "request failed", 400⟩

/-- `typeof data.code === 'number' ? data.code : 0`, line 176. -/
def codeOf [JsEngine] (data : Js) : Except Thrown Str := do
  match ← getProp data (S "code") with
  | .num t => return t
  | _ => return S "0"

/-- `throw (webrpcErrorByCode[code] || WebrpcError).new(data)`, lines 176-177. -/
def throwPayload [JsEngine] {α : Type} (cs : List ErrClass) (data : Js) : Except Thrown α :=
  match codeOf data with
  | .error t => .error t
  | .ok code => match (classFor cs code).new data with
    | .error t => .error t
    | .ok e => .error (.webrpc e)

/-- `res.ok` -/
def okStatus (status : Int) : Bool := decide (200 ≤ status ∧ status ≤ 299)

/-- `buildResponse`, lines 164-181, after the text was read. -/
def buildResponse [JsEngine] (cs : List ErrClass) (status : Int) (text : Str) : Except Thrown Js :=
  match jsonParse text with
  | none => .error (.webrpc (badResponseClass.construct .undefined .undefined (.num (intText status))
      (.str (S "JSON.parse(): " ++ JsEngine.syntaxError text ++ S ": response text: " ++ text))))
  | some data => if okStatus status then .ok data else throwPayload cs data

/-! ### Bigints -/

/-- `BIG_INT_FIELDS`, lines 193-200. -/
abbrev BigTable := List (Str × List BigEntry)

/-- `name.endsWith('[]')`: the name without it. -/
def listSuffix (name : Str) : Option Str := 
  if (S "[]").isSuffixOf name then some (name.take (name.length - 2)) else none

/-- `BigInt(v)` if `v` is a string, lines 243-246 and 235-238. -/
def toBig (where_ : Str) : Js → Except Thrown Js
  | .str s => match bigInt s with
    | some n => .ok (.big n)
    | none => .error (.webrpc (badResponseClass.construct .undefined .undefined .undefined
        (.str (S "Invalid bigint value for " ++ where_ ++ S ": " ++ s))))
  | v => .ok v

/-- `for (i…) arr[i] = f(arr[i])`, in place. -/
def mapArr (f : Nat → Js → Except Thrown Js) : Nat → List Js → Except Thrown (List Js)
  | _, [] => .ok []
  | i, v :: l => match f i v with
    | .error t => .error t
    | .ok v => match mapArr f (i + 1) l with
      | .error t => .error t
      | .ok l => .ok (v :: l)

/-- Change a property of an object. -/
def setProp (key : Str) (v : Js) : Js → Js
  | .obj l => .obj (mapSet key v l)
  | o => o

/-- If the property is an array, change its elements. -/
def onArr (f : Nat → Js → Except Thrown Js) (key : Str) (o : Js) : Except Thrown Js :=
  match member key o with
  | .arr l => match mapArr f 0 l with
    | .error t => .error t
    | .ok l => .ok (setProp key (.arr l) o)
  | _ => .ok o

/-- One entry of the table, lines 208-247; `rec` is `decodeType`. -/
def applyEntry (rec : Str → Js → Except Thrown Js) (o : Js) : BigEntry → Except Thrown Js
  | .pair field nested =>
    match listSuffix field with
    | some base => onArr (fun _ v => rec nested v) base o
    | none =>
      if truthy (member field o) then
        match listSuffix nested with
        | some base => onArr (fun _ v => rec base v) field o
        | none => match rec nested (member field o) with
          | .error t => .error t
          | .ok v => .ok (setProp field v o)
      else .ok o
  | .name d =>
    match listSuffix d with
    | some base => onArr (fun i v => toBig (base ++ S "[" ++ intText i ++ S "]") v) base o
    | none =>
      match member d o with
      | .str s => match toBig d (.str s) with
        | .error t => .error t
        | .ok v => .ok (setProp d v o)
      | _ => .ok o

/-- The entries one after the other. -/
def applyEntries (rec : Str → Js → Except Thrown Js) : Js → List BigEntry → Except Thrown Js
  | o, [] => .ok o
  | o, e :: es => match applyEntry rec o e with
    | .error t => .error t
    | .ok o => applyEntries rec o es

mutual
/-- How deep a value is nested. -/
def depth : Js → Nat
  | .arr l => depthElems l + 1
  | .obj l => depthMembers l + 1
  | _ => 0

/-- Of the elements. -/
def depthElems : List Js → Nat
  | [] => 0
  | v :: l => max (depth v) (depthElems l)

/-- Of the members. -/
def depthMembers : List (Str × Js) → Nat
  | [] => 0
  | (_, v) :: l => max (depth v) (depthMembers l)
end

/-- `decodeType`, lines 203-249; the first argument bounds the recursion. -/
def decodeTypeN (table : BigTable) : Nat → Str → Js → Except Thrown Js
  | 0, _, v => .ok v
  | n + 1, typ, v =>
    match v with
    | .obj l => applyEntries (decodeTypeN table n) (.obj l) ((table.lookup typ).getD [])
    | v => .ok v

/-- `decodeType` with a sufficient bound.  (An array counts as an object too, but has none of the properties.) -/
def decodeType (table : BigTable) (typ : Str) (v : Js) : Except Thrown Js := decodeTypeN table (depth v) typ v

/-! ### Calls -/

/-- A generated client class: lines 101-157. -/
structure TsClient where
  /-- the first argument of the constructor -/
  hostname : Str
  /-- e.g. `/v1/Example/` -/
  path : Str
  errors : List ErrClass
  /-- `BIG_INT_FIELDS`; `none`: generated without bigint helpers -/
  table : Option BigTable
  /-- `WebrpcHeaderValue` -/
  header : Str

/-- `hostname.replace(/\/*$/, '')`, line 107. -/
def trimSlashes (s : Str) : Str := (s.reverse.dropWhile (· == '/')).reverse

/-- `url`, lines 111-113. -/
def TsClient.url (c : TsClient) (name : Str) : Str := trimSlashes c.hostname ++ c.path ++ name

/-- A request to `fetch`. -/
structure TsRequest where
  url : Str
  method : Str
  headers : List (Str × Str)
  body : Str

/-- `createHttpRequest`, lines 159-162: `{...headers, …}`. -/
def createHttpRequest (header : Str) (url : Str) (body : Option Str) (headers : List (Str × Str)) : TsRequest :=
  { url := url, method := S "POST", body := body.getD (S "{}")
    headers := mapSet (S "Webrpc") header (mapSet (S "Content-Type") (S "application/json") headers) }

/-- What `fetch` ends with. -/
inductive Fetched
  | failed (message : Str)
  | response (status : Int) (text : Except Str Str)

/-- `JsonEncode`, lines 252-256 and rpc.gen.ts:290-292. -/
def TsClient.encode [JsEngine] (c : TsClient) (v : Js) : Except Thrown (Option Str) :=
  if c.table.isNone && hasBig v then .error (.other (JsEngine.typeError (S "BigInt"))) else .ok (stringify v)

/-- `JsonDecode`, lines 259-267 and rpc.gen.ts:294-302. -/
def TsClient.decode [JsEngine] (c : TsClient) (typ : Str) (data : Js) : Except Thrown Js :=
  let parsed : Except Thrown Js := match data with
    | .str s => match jsonParse s with
      | none => .error (.webrpc (badResponseClass.construct .undefined .undefined .undefined
          (.str (S "JsonDecode: JSON.parse failed: " ++ JsEngine.syntaxError s))))
      | some v => .ok v
    | v => .ok v
  match parsed with
  | .error t => .error t
  | .ok v => match c.table with
    | none => .ok v
    | some t => decodeType t typ v

/-- A method of the schema as the client knows it. -/
structure TsMethod where
  name : Str
  /-- the name of the type of the response -/
  response : Str

/-- The request of a call; a method without arguments sends `{}`, hello-webrpc/webapp/client.gen.ts:109-112. -/
def TsClient.request [JsEngine] (c : TsClient) (m : TsMethod) (req : Option Js) (headers : List (Str × Str)) : Except Thrown TsRequest :=
  match req with
  | none => .ok (createHttpRequest c.header (c.url m.name) (some (S "{}")) headers)
  | some v => match c.encode v with
    | .error t => .error t
    | .ok body => .ok (createHttpRequest c.header (c.url m.name) body headers)

/-- After `fetch`, lines 124-131. -/
def TsClient.finish [JsEngine] (c : TsClient) (m : TsMethod) : Fetched → Except Thrown Js
  | .failed t => .error (.webrpc (requestFailedClass.construct .undefined .undefined .undefined (.str (S "fetch(): " ++ t))))
  | .response _ (.error t) => .error (.other t)
  | .response status (.ok text) => match buildResponse c.errors status text with
    | .error t => .error t
    | .ok data => c.decode m.response data

/-- A method of the client, lines 121-131: what the promise ends with. -/
def TsClient.call [JsEngine] (c : TsClient) (m : TsMethod) (req : Option Js) (headers : List (Str × Str))
    (fetch : TsRequest → Fetched) : Except Thrown Js :=
  match c.request m req headers with
  | .error t => .error t
  | .ok r => c.finish m (fetch r)

end Verif.Ts
