import Verif.Rpc.Stream
/-!
# Model of the chat server

Models `ChatServer` of `/repo/_examples/webrpc-streaming/rpc.go`: any number of goroutines calling `SendMessage`, and any
number of subscriptions, interleaved in any way.

The ring buffer (`github.com/golang-cz/ringbuf`) is a library that is not in `/repo`; it is modelled by its documentation:
writes are appended; a subscription starts `StartBehind` items behind the newest one (or at the first item), `Skip`
goes past items while the condition holds, `Seq` yields item after item, and ends when the subscription is more than
`MaxBehind` items behind, when its context is done, or when the buffer is closed.  `msgId` is unbounded
(a `uint64` in Go).  `Close` is left out: it ends the subscriptions, which may end at any time anyway.
-/

namespace Verif.Rpc
open Verif.Schema hiding Json

/-- `proto.Message`. -/
structure ChatMsg where
  id : Nat
  username : Str
  text : Str
  createdAt : Nat
deriving DecidableEq

/-- A goroutine in `SendMessage`, rpc.go:40-57. -/
inductive Sending
  | idle
  /-- after `time.Now()`, at `mu.Lock()` -/
  | want (username text : Str) (now : Nat)
  | locked (username text : Str) (now : Nat)
  /-- the message is made, with the current `msgId` -/
  | made (m : ChatMsg)
  /-- `msgId` is incremented -/
  | counted (m : ChatMsg)
  /-- the message is written -/
  | written
deriving DecidableEq

/-- What a subscription was called with, and what happened to it: the number of messages when it was made, the position
it was made at, the position after `Skip`, and the messages written to the stream. -/
structure SubInfo where
  username : Str
  last : Option Nat
  len : Nat
  start : Nat
  first : Nat
  got : List ChatMsg
deriving DecidableEq

/-- A goroutine in `SubscribeMessages`, rpc.go:59-94. -/
inductive Sub
  | idle
  /-- `ErrEmptyUsername` was returned -/
  | refused
  /-- sending the "joined" message -/
  | joining (username : Str) (last : Option Nat)
  /-- in `Skip`, at a position -/
  | skipping (i : SubInfo) (last pos : Nat)
  /-- in the loop, at a position -/
  | active (i : SubInfo) (pos : Nat)
  /-- after the loop, sending the "left" message -/
  | ended (i : SubInfo)
deriving DecidableEq

/-- The server.  `calls` and `writers` are not in the program: the calls of `SendMessage` made so far (goroutine, username,
text, time), and the goroutine of each message in the buffer. -/
structure ChatState where
  lock : Option Nat
  msgId : Nat
  /-- everything written to the ring buffer -/
  log : List ChatMsg
  clock : Nat
  sends : Nat → Sending
  subs : Nat → Sub
  calls : List (Nat × Str × Str × Nat)
  writers : List Nat

/-- `NewChatServer`, rpc.go:24-33. -/
def ChatState.init : ChatState :=
  { lock := none, msgId := 0, log := [], clock := 0, sends := fun _ => .idle, subs := fun _ => .idle, calls := [], writers := [] }

/-- Change one value of a function. -/
def upd {α : Type} (f : Nat → α) (i : Nat) (a : α) : Nat → α := fun j => if j = i then a else f j

/-- A goroutine enters `SendMessage` and reads the time, before it takes the lock, rpc.go:40-41. -/
def ChatState.call (s : ChatState) (t : Nat) (username text : Str) : ChatState :=
  { s with sends := upd s.sends t (.want username text s.clock), calls := s.calls ++ [(t, username, text, s.clock)] }

/-- A goroutine's place in `SubscribeMessages`. -/
def ChatState.setSub (s : ChatState) (k : Nat) (b : Sub) : ChatState := { s with subs := upd s.subs k b }

/-- `s.messages.Subscribe`, rpc.go:67-71: a subscription half a buffer behind. -/
def ChatState.subscription (s : ChatState) (size : Nat) (username : Str) (last : Option Nat) : SubInfo :=
  { username := username, last := last, len := s.log.length, start := s.log.length - size / 2,
    first := s.log.length - size / 2, got := [] }

/-- The steps; `size` is the size of the ring buffer (10000, rpc.go:26). -/
inductive ChatStep (size : Nat) : ChatState → ChatState → Prop
  | time {s} : ChatStep size s { s with clock := s.clock + 1 }
  /-- a call of `SendMessage` -/
  | send {s t username text} : s.sends t = .idle → s.subs t = .idle → ChatStep size s (s.call t username text)
  /-- rpc.go:43 -/
  | lock {s t username text now} : s.sends t = .want username text now → s.lock = none →
      ChatStep size s { s with lock := some t, sends := upd s.sends t (.locked username text now) }
  /-- rpc.go:46-51 -/
  | make {s t username text now} : s.sends t = .locked username text now →
      ChatStep size s { s with sends := upd s.sends t (.made ⟨s.msgId, username, text, now⟩) }
  /-- rpc.go:52 -/
  | count {s t m} : s.sends t = .made m → ChatStep size s { s with msgId := s.msgId + 1, sends := upd s.sends t (.counted m) }
  /-- rpc.go:54 -/
  | write {s t m} : s.sends t = .counted m →
      ChatStep size s { s with log := s.log ++ [m], writers := s.writers ++ [t], sends := upd s.sends t .written }
  /-- the deferred `Unlock`, rpc.go:44 -/
  | unlock {s t} : s.sends t = .written → ChatStep size s { s with lock := none, sends := upd s.sends t .idle }
  /-- `SubscribeMessages` without a username, rpc.go:60-62 -/
  | refuse {s k} : s.sends k = .idle → s.subs k = .idle → ChatStep size s (s.setSub k .refused)
  /-- rpc.go:64 -/
  | join {s k username last} : s.sends k = .idle → s.subs k = .idle → username ≠ [] →
      ChatStep size s ((s.setSub k (.joining username last)).call k [] (username ++ S " joined"))
  /-- a subscription without a last message, rpc.go:67-73 -/
  | subscribe {s k username} : s.sends k = .idle → s.subs k = .joining username none →
      ChatStep size s (s.setSub k (.active (s.subscription size username none) (s.log.length - size / 2)))
  /-- with a last message, rpc.go:67-75 -/
  | reconnect {s k username last} : s.sends k = .idle → s.subs k = .joining username (some last) →
      ChatStep size s (s.setSub k (.skipping (s.subscription size username (some last)) last (s.log.length - size / 2)))
  /-- rpc.go:76 -/
  | skip {s k i last pos m} : s.subs k = .skipping i last pos → s.log[pos]? = some m → m.id ≤ last →
      ChatStep size s (s.setSub k (.skipping i last (pos + 1)))
  /-- nothing more to skip -/
  | skipped {s k i last pos} : s.subs k = .skipping i last pos → (∀ m, s.log[pos]? = some m → last < m.id) →
      ChatStep size s (s.setSub k (.active { i with first := pos } pos))
  /-- a message is written to the stream, rpc.go:80-81 -/
  | deliver {s k i pos m} : s.subs k = .active i pos → s.log[pos]? = some m → s.log.length - pos ≤ 3 * size / 4 →
      ChatStep size s (s.setSub k (.active { i with got := i.got ++ [m] } (pos + 1)))
  /-- the subscription ends (too slow, cancelled, closed, or writing fails), rpc.go:80-93, and the deferred "left" message
  is sent, rpc.go:65 -/
  | stop {s k i pos} : s.subs k = .active i pos →
      ChatStep size s ((s.setSub k (.ended i)).call k [] (i.username ++ S " left"))

/-- The states the server can be in. -/
inductive ChatReach (size : Nat) : ChatState → Prop
  | init : ChatReach size .init
  | step {s t} : ChatReach size s → ChatStep size s t → ChatReach size t

/-- From one state to a later one. -/
inductive ChatSteps (size : Nat) : ChatState → ChatState → Prop
  | refl {s} : ChatSteps size s s
  | step {s t u} : ChatSteps size s t → ChatStep size t u → ChatSteps size s u

end Verif.Rpc
