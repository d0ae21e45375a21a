import Verif.Spec
/-
Model of the channel primitives (`prim_channel.go`) under arbitrary interleaving.

A Go channel is modelled as the Go runtime implements it (runtime/chan.go: buffer, queue of blocked senders, queue of
blocked receivers, closed mark); each channel operation runs under the channel's lock and takes effect at one instant
(Go's guarantee).  The work a call does before its channel operation concerns only its own goroutine and is merged with
that operation; likewise the return of a blocked call is merged with the operation of the other goroutine that completes
it.  All channels exist from the start (`makeChannel` says with which capacity); a channel object is `obj "Channel" a`,
where `a` is its number.  Error texts that embed values keep only the fixed part.
-/
namespace Golisp.Chan
open Data

/-- A Go channel of values. -/
structure Channel where
  cap : Nat
  buf : List Data
  closed : Bool
  /-- blocked senders with the value to send -/
  sendq : List (Nat × Data)
  /-- blocked receivers -/
  recvq : List Nat
deriving DecidableEq, Repr

/-- A call of one of the primitives, with its evaluated arguments. -/
inductive Call where
  | write (obj v : Data)
  | read (obj : Data)
  | tryWrite (obj v : Data)
  | tryRead (obj : Data)
  | close (obj : Data)
deriving DecidableEq, Repr

/-- `MakeChannelImpl` (`prim_channel.go:26-56`): the capacity.  Go's `make` panics when the buffer of 8-byte pointers
does not fit the address space (runtime/chan.go: more than 2^48 - 96 bytes on 64-bit Linux). -/
def makeChannel : List Data → Out Nat
  | [.int n] =>
    if n.toInt < 0 then .err (.msg "channel size needs to be positive; got ")
    else if n.toInt * 8 > 2 ^ 48 - 96 then .panic
    else .ok n.toInt.toNat
  | [_] => .err (.msg "make-channel expects an Integer as its second argument but received ")
  | _ => .ok 0

/-- `ObjectP(d) && ObjectType(d) == "Channel"` and `ObjectValue(d)` (`data.go:563-585`). -/
def pointer : Data → Option Nat
  | .atom (.obj ty a) => if ty = "Channel" then some a else none
  | _ => none

/-- How a channel operation ends. -/
inductive Raw where
  | sent (v : Data)
  | received (v : Data) (more : Bool)
  /-- the `default` branch of a `select` -/
  | skipped
  | closed
  /-- run-time panic: send on, or close of, a closed channel -/
  | panic
deriving DecidableEq, Repr

/-- From the end of the operation to the result of the primitive: `ChannelWriteImpl` (`prim_channel.go:68-81`),
`ChannelReadImpl` (93-95), `ChannelTryWriteImpl` (107-126), `ChannelTryReadImpl` (138-148), `CloseChannelImpl` (160-169).  Sends and closes
are wrapped in a function that recovers from panics. -/
def result : Call → Raw → Out Data
  | .write _ _, .sent _ => .ok .null
  | .write _ _, .panic => .err (.msg "channel<- tried to write to a closed channel.")
  | .read _, .received v more => .ok (ofArray [v, .bool more])
  | .tryWrite _ _, .sent _ => .ok (.bool true)
  | .tryWrite _ _, .skipped => .ok (.bool false)
  | .tryWrite _ _, .panic => .err (.msg "channel-try-write tried to write to a closed channel.")
  | .tryRead _, .received v more => .ok (ofArray [.bool true, v, .bool more])
  | .tryRead _, .skipped => .ok (ofArray [.bool false, .null, .bool true])
  | .close _, .closed => .ok .null
  | .close _, .panic => .err (.msg "channel-close tried to close a channel twice.")
  | _, _ => .panic

/-- The error for a first argument that is not a channel. -/
def notChannel : Call → Out Data
  | .write _ _ => .err (.msg "channel<- expects an Channel object but received ")
  | .tryWrite _ _ => .err (.msg "channel-try-write expects an Channel object but received ")
  | _ => .err (.msg "<-channel expects an Channel object but received ")

def Call.obj : Call → Data
  | .write o _ => o
  | .read o => o
  | .tryWrite o _ => o
  | .tryRead o => o
  | .close o => o

/-- What a channel operation does: the new channel, how it ends for the goroutine that runs it (`none`: it blocks), and
the blocked goroutines it completes, with how their operations end. -/
structure Effect where
  ch : Channel
  self : Option Raw
  others : List (Nat × Raw)

/-- `c <- v` (runtime/chan.go `chansend`); `block` is false in a `select` with `default`. -/
def send (ch : Channel) (i : Nat) (v : Data) (block : Bool) : Effect :=
  if ch.closed then ⟨ch, some .panic, []⟩
  else match ch.recvq with
    | r :: rs => ⟨{ ch with recvq := rs }, some (.sent v), [(r, .received v true)]⟩
    | [] =>
      if ch.buf.length < ch.cap then ⟨{ ch with buf := ch.buf ++ [v] }, some (.sent v), []⟩
      else if block then ⟨{ ch with sendq := ch.sendq ++ [(i, v)] }, none, []⟩
      else ⟨ch, some .skipped, []⟩

/-- `<-c` (runtime/chan.go `chanrecv`). -/
def recv (ch : Channel) (i : Nat) (block : Bool) : Effect :=
  match ch.buf, ch.sendq with
  | v :: buf, (s, w) :: sq => ⟨{ ch with buf := buf ++ [w], sendq := sq }, some (.received v true), [(s, .sent w)]⟩
  | v :: buf, [] => ⟨{ ch with buf := buf }, some (.received v true), []⟩
  | [], (s, w) :: sq => ⟨{ ch with sendq := sq }, some (.received w true), [(s, .sent w)]⟩
  | [], [] =>
    if ch.closed then ⟨ch, some (.received .null false), []⟩
    else if block then ⟨{ ch with recvq := ch.recvq ++ [i] }, none, []⟩
    else ⟨ch, some .skipped, []⟩

/-- `close(c)` (runtime/chan.go `closechan`): blocked receivers get the zero value, blocked senders panic. -/
def close (ch : Channel) : Effect :=
  if ch.closed then ⟨ch, some .panic, []⟩
  else ⟨{ ch with closed := true, sendq := [], recvq := [] }, some .closed,
    ch.recvq.map (fun r => (r, .received .null false)) ++ ch.sendq.map (fun p => (p.1, .panic))⟩

/-- The channel operation of a call. -/
def operation (ch : Channel) (i : Nat) : Call → Effect
  | .write _ v => send ch i v true
  | .read _ => recv ch i true
  | .tryWrite _ v => send ch i v false
  | .tryRead _ => recv ch i false
  | .close _ => close ch

/-- A goroutine: the call it is blocked in, the calls still to make, the calls made with their results. -/
structure Thread where
  cur : Option Call
  todo : List Call
  done : List (Call × Out Data)

/-- A blocked call ends. -/
def Thread.complete (t : Thread) (r : Raw) : Thread :=
  match t.cur with
  | some c => ⟨none, t.todo, t.done ++ [(c, result c r)]⟩
  | none => t

/-- What happened, for the statements: goroutine `i` starts to send a value that is not refused at once, its send
succeeds, `i` receives a value. -/
inductive Event where
  | offer (i a : Nat) (v : Data)
  | accept (i a : Nat) (v : Data)
  | deliver (i a : Nat) (v : Data)
deriving DecidableEq, Repr

structure State where
  chans : List Channel
  threads : List Thread
  log : List Event

/-- The value a call starts to send, given how its operation ends at once (`none`: it blocks). -/
def started : Call → Option Raw → List Data
  | .write _ _, some .panic => []
  | .write _ v, _ => [v]
  | .tryWrite _ v, some (.sent _) => [v]
  | _, _ => []

/-- The calls a step ends: the goroutine's own first. -/
def Effect.ends (ef : Effect) (i : Nat) : List (Nat × Raw) :=
  match ef.self with
  | some r => (i, r) :: ef.others
  | none => ef.others

def accepts (a : Nat) (p : Nat × Raw) : Option Event :=
  match p.2 with | .sent v => some (.accept p.1 a v) | _ => none

def delivers (a : Nat) (p : Nat × Raw) : Option Event :=
  match p.2 with | .received v true => some (.deliver p.1 a v) | _ => none

/-- End the calls listed. -/
def wake (ts : List Thread) : List (Nat × Raw) → List Thread
  | [] => ts
  | (j, r) :: l => wake (ts.modify j (·.complete r)) l

/-- Goroutine `i` makes its next call. -/
def next (s : State) (i : Nat) (t : Thread) (c : Call) (cs : List Call) : State :=
  match pointer c.obj with
  | none => { s with threads := s.threads.set i ⟨none, cs, t.done ++ [(c, notChannel c)]⟩ }
  | some a =>
    match s.chans[a]? with
    | none => s
    | some ch =>
      let ef := operation ch i c
      { chans := s.chans.set a ef.ch
        threads := wake (s.threads.set i ⟨some c, cs, t.done⟩) (ef.ends i)
        log := s.log ++ (started c ef.self).map (.offer i a) ++ (ef.ends i).filterMap (accepts a)
          ++ (ef.ends i).filterMap (delivers a) }

/-- Some goroutine that is not blocked makes its next call. -/
inductive Step : State → State → Prop where
  | mk {s i t c cs} : s.threads[i]? = some t → t.cur = none → t.todo = c :: cs → Step s (next s i t c cs)

/-- Any number of steps. -/
inductive Steps : State → State → Prop where
  | refl {s} : Steps s s
  | tail {s s' s''} : Steps s s' → Step s' s'' → Steps s s''

/-- Empty channels of the given capacities, and goroutines with the calls they will make. -/
def start (caps : List Nat) (calls : List (List Call)) : State :=
  ⟨caps.map fun n => ⟨n, [], false, [], []⟩, calls.map fun cs => ⟨none, cs, []⟩, []⟩

end Golisp.Chan

namespace Golisp.Spec
open Data Chan

/-- Values goroutines started to send on channel `a`, in order. -/
def offered (a : Nat) (l : List Event) : List Data :=
  l.filterMap fun e => match e with | .offer _ b v => if b = a then some v else none | _ => none

/-- Values successfully sent on channel `a`, in order. -/
def accepted (a : Nat) (l : List Event) : List Data :=
  l.filterMap fun e => match e with | .accept _ b v => if b = a then some v else none | _ => none

/-- Values received from channel `a`, in order. -/
def delivered (a : Nat) (l : List Event) : List Data :=
  l.filterMap fun e => match e with | .deliver _ b v => if b = a then some v else none | _ => none

/-- Values goroutine `i` successfully sent on channel `a`. -/
def acceptedBy (i a : Nat) (l : List Event) : List Data :=
  l.filterMap fun e => match e with | .accept j b v => if j = i ∧ b = a then some v else none | _ => none

/-- Values goroutine `i` received from channel `a`. -/
def deliveredTo (i a : Nat) (l : List Event) : List Data :=
  l.filterMap fun e => match e with | .deliver j b v => if j = i ∧ b = a then some v else none | _ => none

/-- The object for channel `a`. -/
def chanObj (a : Nat) : Data := .atom (.obj "Channel" a)

/-- What a finished call received from channel `a`, as its result tells the program: `(value #t)` from a read,
`(#t value #t)` from a try-read. -/
def gotFrom (a : Nat) : Call × Out Data → Option Data
  | (.read o, .ok (.cell .cons v (.cell .cons (.atom (.bool true)) .null))) => if o = chanObj a then some v else none
  | (.tryRead o, .ok (.cell .cons (.atom (.bool true)) (.cell .cons v (.cell .cons (.atom (.bool true)) .null)))) =>
    if o = chanObj a then some v else none
  | _ => none

/-- What a finished call sent on channel `a`, as its result tells the program: a write that returned, a try-write that
returned `#t`. -/
def sentTo (a : Nat) : Call × Out Data → Option Data
  | (.write o v, .ok _) => if o = chanObj a then some v else none
  | (.tryWrite o v, .ok (.atom (.bool true))) => if o = chanObj a then some v else none
  | _ => none

/-- Is a goroutine blocked in a read of channel `a`? -/
def ReaderWaits (s : State) (a : Nat) : Prop :=
  ∃ (j : Nat) (t : Thread), s.threads[j]? = some t ∧ t.cur = some (.read (chanObj a))

end Golisp.Spec
