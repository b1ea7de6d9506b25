import Verif.Gen.Cli
import Verif.Rpc.TestSuite
/-!
# Model of the command webrpc-test

Models `main` of `/repo/cmd/webrpc-test/main.go`, `Wait` of `/repo/tests/client/client.go:12-32`, and `RunTestServer`, `Wait`
and `Close` of `/repo/tests/server/server.go:192-244`.

Simplifications:
* What is outside the program is a parameter (`World`): what the servers behind URLs answer, which texts
  `strconv.ParseInt` and `time.ParseDuration` accept, whether a port can be bound.
* Messages on stderr are dropped.
* Times are whole milliseconds; the program itself takes no time.
-/

namespace Verif.TestCmd
open Verif.Schema (Str S)
open Verif.Cli (FlagText flagText parseBool)
open Verif.Rpc (GoVal TypedReturn runTests)

/-! ### Flags -/

/-- A flag: `flags.Bool`, or one with a value, and which texts its `Set` method accepts. -/
inductive Kind
  | switch
  | value (accepts : Str → Bool)

/-- The outcome of `(*FlagSet).Parse`: the values set, the last one first. -/
inductive Parsed
  | ok (sets : List (Str × Str))
  | help
  | bad

/-- `(*FlagSet).Parse` of Go's package `flag` (not in /repo), called at main.go:46, 64, 75, 92. -/
def parseSet (fs : List (Str × Kind)) (sets : List (Str × Str)) : List Str → Parsed
  | [] => .ok sets
  | a :: rest =>
    match flagText a with
    | .stop => .ok sets
    | .bad => .bad
    | .flag name value =>
      match fs.lookup name with
      | none => if name = S "h" ∨ name = S "help" then .help else .bad
      | some .switch =>
        match parseBool (value.getD (S "true")) with
        | none => .bad
        | some _ => parseSet fs ((name, value.getD (S "true")) :: sets) rest
      | some (.value accepts) =>
        match value, rest with
        | some v, rest => if accepts v then parseSet fs ((name, v) :: sets) rest else .bad
        | none, [] => .bad
        | none, v :: rest => if accepts v then parseSet fs ((name, v) :: sets) rest else .bad

/-- `flags`, main.go:17-24. -/
def mainFlags : List (Str × Kind) :=
  [(S "client", .switch), (S "server", .switch), (S "waitForServer", .switch), (S "version", .switch),
   (S "print-schema", .switch), (S "printRIDL", .switch), (S "printJSON", .switch)]

/-- The value of a boolean flag. -/
def isOn (sets : List (Str × Str)) (name : Str) : Bool :=
  match sets.lookup name with
  | some v => (parseBool v).getD false
  | none => false

/-! ### The command -/

/-- How serving ends, main.go:80-89: the port cannot be bound, or `Wait` returns. -/
inductive Served
  | notBound
  | done
  | failed
deriving DecidableEq

/-- Outside the program. -/
structure World where
  /-- `webrpc.VERSION` -/
  version : Str
  /-- `tests.GetRIDLSchema()` and `tests.GetJSONSchema()` -/
  ridl : Str
  json : Str
  /-- the texts accepted for `-port` and `-timeout` -/
  isInt : Str → Bool
  isDuration : Str → Bool
  /-- the server behind a URL -/
  call : Str → Str → List GoVal → TypedReturn
  /-- serve at a port for some time -/
  serve : Str → Str → Served
  /-- does `client.Wait` return nil? -/
  ready : Str → Str → Bool

/-- What the program did beyond printing. -/
inductive Action
  | nothing
  | tested (url : Str)
  | served (port timeout : Str)
  | waited (url timeout : Str)
deriving DecidableEq

/-- The end of the program; `out` is what it printed on stdout, up to the time in the message of `-waitForServer`. -/
structure Ended where
  status : Nat
  out : Str
  action : Action
deriving DecidableEq

/-- `clientFlags`, main.go:27-28. -/
def clientFlags : List (Str × Kind) := [(S "url", .value fun _ => true)]
/-- `serverFlags`, main.go:31-33. -/
def serverFlags (w : World) : List (Str × Kind) := [(S "port", .value w.isInt), (S "timeout", .value w.isDuration)]
/-- `waitFlags`, main.go:36-38. -/
def waitFlags (w : World) : List (Str × Kind) := [(S "url", .value fun _ => true), (S "timeout", .value w.isDuration)]

/-- A flag set with `flag.ExitOnError`: help ends the program with 0, a wrong flag with 2. -/
def orExit (p : Parsed) (k : List (Str × Str) → Ended) : Ended :=
  match p with
  | .ok sets => k sets
  | .help => ⟨0, [], .nothing⟩
  | .bad => ⟨2, [], .nothing⟩

/-- `main`, main.go:44-105; `args` is `os.Args[1:]`. -/
def run (w : World) (args : List Str) : Ended :=
  match parseSet mainFlags [] (args.take 1) with
  | .help => ⟨1, [], .nothing⟩
  | .bad => ⟨1, [], .nothing⟩
  | .ok sets =>
    if isOn sets (S "version") then ⟨0, S "webrpc-test " ++ w.version ++ ['\n'], .nothing⟩
    else if isOn sets (S "printRIDL") || isOn sets (S "print-schema") then ⟨0, w.ridl ++ ['\n'], .nothing⟩
    else if isOn sets (S "printJSON") then ⟨0, w.json ++ ['\n'], .nothing⟩
    else if isOn sets (S "client") then
      orExit (parseSet clientFlags [] (args.drop 1)) fun sets =>
        let url := (sets.lookup (S "url")).getD (S "http://localhost:9988")
        ⟨if runTests (w.call url) = [] then 0 else 1, [], .tested url⟩
    else if isOn sets (S "server") then
      orExit (parseSet (serverFlags w) [] (args.drop 1)) fun sets =>
        let port := (sets.lookup (S "port")).getD (S "9988")
        let timeout := (sets.lookup (S "timeout")).getD (S "1m")
        ⟨if w.serve port timeout = .done then 0 else 1, [], .served port timeout⟩
    else if isOn sets (S "waitForServer") then
      orExit (parseSet (waitFlags w) [] (args.drop 1)) fun sets =>
        let url := (sets.lookup (S "url")).getD (S "http://localhost:9988")
        let timeout := (sets.lookup (S "timeout")).getD (S "1m")
        if w.ready url timeout then ⟨0, S "wait: test server ready in ", .waited url timeout⟩
        else ⟨1, [], .waited url timeout⟩
    else ⟨1, [], .nothing⟩

/-! ### Waiting for a server -/

/-- A server as seen by single calls of `GetEmpty`: a call that starts at this time takes so long and succeeds or not,
unless its context ends before. -/
abbrev Answers := Nat → Nat × Bool

/-- The loop of `client.Wait`, tests/client/client.go:18-31, started at some time with the deadline `limit`: `Waits limit srv t
ok e`: it may end at time `e`, with success or not.  When the deadline and the end of the pause fall together, `select`
takes either. -/
inductive Waits (limit : Nat) (srv : Answers) : Nat → Bool → Nat → Prop
  /-- client.go:19-22: the call succeeds before the deadline. -/
  | ready {t : Nat} : t < limit → t + (srv t).1 ≤ limit → (srv t).2 = true → Waits limit srv t true (t + (srv t).1)
  /-- client.go:25-26: the call fails, at the latest when the deadline ends its context; the deadline comes first. -/
  | over {t e : Nat} : e = (if t < limit then min (t + (srv t).1) limit else t) →
      (t < limit → t + (srv t).1 < limit → (srv t).2 = false) → limit ≤ e + 100 → Waits limit srv t false (max e limit)
  /-- client.go:28-29: the call fails, and the pause of 100 ms ends first. -/
  | again {t e z : Nat} {ok : Bool} : e = (if t < limit then min (t + (srv t).1) limit else t) →
      (t < limit → t + (srv t).1 < limit → (srv t).2 = false) → e + 100 ≤ limit → Waits limit srv (e + 100) ok z →
      Waits limit srv t ok z

/-! ### The test server -/

/-- Where the goroutine of `RunTestServer` is, server.go:201-216. -/
inductive Phase
  | select
  | shutdown
  | closing
  | ended
deriving DecidableEq

/-- The state of a test server. -/
structure SrvState where
  /-- has the timeout passed? -/
  expired : Bool
  phase : Phase
  /-- `srv.err`; `none` for nil -/
  err : Option Str
  /-- is `srv.closed` closed? -/
  closed : Bool
  /-- is the server shut down? -/
  down : Bool
  /-- a second `close(srv.closed)` -/
  panicked : Bool
deriving DecidableEq

/-- What is observed. -/
inductive SrvEvent
  | timeout
  /-- the graceful shutdown of the goroutine, with its error -/
  | shutdown (err : Option Str)
  | step
  /-- `Close()` returns this -/
  | close (err : Option Str)
  /-- `Wait()` returns this -/
  | wait (err : Option Str)
deriving DecidableEq

/-- After `RunTestServer`. -/
def SrvState.start : SrvState := ⟨false, .select, none, false, false, false⟩

/-- The steps, server.go:201-216 (the goroutine), 233-236 (`Wait`), 238-243 (`Close`). -/
inductive SrvStep : SrvState → SrvEvent → SrvState → Prop
  /-- The timeout passes. -/
  | timeout {s : SrvState} : s.expired = false → SrvStep s .timeout { s with expired := true }
  /-- `case <-srv.closed`, server.go:206. -/
  | seen {s : SrvState} : s.phase = .select → s.closed = true → SrvStep s .step { s with phase := .ended }
  /-- `case <-ctx.Done()`, server.go:208. -/
  | expire {s : SrvState} : s.phase = .select → s.expired = true → SrvStep s .step { s with phase := .shutdown }
  /-- `srv.err = srv.Shutdown(..)`, server.go:213: the server stops listening, whatever the error. -/
  | shut {s : SrvState} (r : Option Str) : s.phase = .shutdown →
      SrvStep s (.shutdown r) { s with phase := .closing, err := r, down := true }
  /-- `close(srv.closed)`, server.go:214. -/
  | close {s : SrvState} : s.phase = .closing →
      SrvStep s .step { s with phase := .ended, closed := true, panicked := s.panicked || s.closed }
  /-- A caller's `Close()`. -/
  | userClose {s : SrvState} (r : Option Str) : SrvStep s (.close r) { s with down := true }
  /-- A caller's `Wait()` returns. -/
  | wait {s : SrvState} : s.closed = true → SrvStep s (.wait s.err) s

/-- Some steps. -/
inductive SrvRun : SrvState → List SrvEvent → SrvState → Prop
  | nil {s : SrvState} : SrvRun s [] s
  | snoc {s t u : SrvState} {l : List SrvEvent} {e : SrvEvent} : SrvRun s l t → SrvStep t e u → SrvRun s (l ++ [e]) u

end Verif.TestCmd
