import Verif.Spec
/-
Model of processes (`prim_concurrency.go:21-277`): fork, join, schedule, abandon, reset-timeout, proc-sleep and wake under
arbitrary interleaving.

Every process exists from the start (nobody can name a process before `fork` or `schedule` returns it, and its goroutine
may make its first step at any later time).  Goroutine `k` is that of process `k` if there is one, otherwise one that
belongs to no process.  What goroutines run is given by the calls they make; the rest of the evaluation is not modelled
here.  A call is one instant, except that a join first claims the process and then receives its value, and a sleep begins
and ends.  The one-place channels `Wake`, `Abort`, `Restart`, `ReturnValue` and the timer's `C` are full or empty (Go:
buffered channels, `go.mod` selects the timer channels of Go before 1.23).  Time is abstract: a running timer may expire
at any moment.  Error texts that embed values keep only the fixed part.
-/
namespace Golisp.Process
open Data

/-- A call of one of the primitives, with its evaluated arguments. -/
inductive Call where
  | join (obj : Data)
  | wake (obj : Data)
  | sleep (obj millis : Data)
  | abandon (obj : Data)
  | reset (obj : Data)
deriving DecidableEq, Repr

/-- Where the goroutine of a process is (`ForkImpl`, `prim_concurrency.go:81-95`; `ScheduleImpl`, 179-204). -/
inductive Phase where
  /-- in the `select` of `schedule` -/
  | waiting
  /-- in `ApplyWithoutEval` -/
  | running
  /-- about to send the return value, in the deferred function -/
  | delivering (v : Data)
  | finished (v : Data)
deriving DecidableEq, Repr

/-- `Process` (`prim_concurrency.go:21-30`). -/
structure Proc where
  /-- `ScheduleTimer` is not nil -/
  scheduled : Bool
  phase : Phase
  wake : Bool
  abort : Bool
  restart : Bool
  ret : Option Data
  joined : Bool
  /-- the timer runs -/
  armed : Bool
  /-- a value is in the timer's channel -/
  fired : Bool
deriving DecidableEq, Repr

/-- What a goroutine waits for. -/
inductive Pending where
  | receive (p : Nat)
  | asleep (p : Nat)
deriving DecidableEq, Repr

/-- A goroutine: the process its environment names as `parentProcess` (`function.go:119-125`: the process last made from the
function it runs), the call it waits in, the calls to make, the calls made with their results, and how the procedure it
runs ends. -/
structure Thread where
  parent : Option Nat
  cur : Option (Call × Pending)
  todo : List Call
  done : List (Call × Out Data)
  ends : Out Data
deriving DecidableEq, Repr

/-- What happened, for the statements. -/
inductive Event where
  | woke (p : Nat)
  | wokenUp (p : Nat)
  | abandoned (p : Nat)
  | expired (p : Nat)
  | restarted (p : Nat)
  | aborted (p : Nat)
  | ran (p : Nat)
deriving DecidableEq, Repr

structure State where
  procs : List Proc
  threads : List Thread
  log : List Event
deriving DecidableEq, Repr

/-- `ObjectP(d) && ObjectType(d) == "Process"` and `ObjectValue(d)` (`data.go:563-585`). -/
def pointer : Data → Option Nat
  | .atom (.obj ty a) => if ty = "Process" then some a else none
  | _ => none

/-- The function a primitive is: a call ends at once with a result, or goes on waiting. -/
inductive Answer where
  | result (o : Out Data)
  | wait (w : Pending)

/-- `JoinImpl` (`prim_concurrency.go:252-277`) up to the receive. -/
def join (parent : Option Nat) (p : Nat) (pr : Proc) : Proc × Answer :=
  if parent = some p then (pr, .result (.ok .null))
  else if pr.joined then (pr, .result (.err (.msg "tried to join on a task twice")))
  else ({ pr with joined := true }, .wait (.receive p))

/-- `WakeImpl` (`prim_concurrency.go:132-138`). -/
def wake (pr : Proc) : Proc × Answer := ({ pr with wake := true }, .result (.ok (.str "OK")))

/-- `ProcSleepImpl` (`prim_concurrency.go:107-121`) up to the `select`. -/
def sleep (p : Nat) (millis : Data) (pr : Proc) : Proc × Answer :=
  if isInt millis then (pr, .wait (.asleep p))
  else (pr, .result (.err (.msg "proc-sleep expected an integer as a delay, but received ")))

/-- `AbandonImpl` (`prim_concurrency.go:216-226`). -/
def abandon (pr : Proc) : Proc × Answer :=
  if pr.scheduled then ({ pr with abort := true }, .result (.ok (.str "OK")))
  else (pr, .result (.err (.msg "tried to adandon a Process that isn't scheduled")))

/-- `ResetTimeoutImpl` (`prim_concurrency.go:237-250`). -/
def reset (pr : Proc) : Proc × Answer :=
  if pr.scheduled then
    if pr.restart then (pr, .result (.ok (.str "task was already completed or abandoned")))
    else ({ pr with restart := true }, .result (.ok (.str "OK")))
  else (pr, .result (.err (.msg "tried to reset a Process that isn't scheduled")))

def Call.obj : Call → Data
  | .join o => o
  | .wake o => o
  | .sleep o _ => o
  | .abandon o => o
  | .reset o => o

/-- The error for a first argument that is not a process. -/
def notProcess : Call → Out Data
  | .join _ => .err (.msg "join expects a Process object but received ")
  | .wake _ => .err (.msg "wake expects a Process object expected but received ")
  | .sleep _ _ => .err (.msg "proc-sleep expects a Process object expected but received ")
  | .abandon _ => .err (.msg "adandon expects a Process object expected but received ")
  | .reset _ => .err (.msg "restart expects a Process object expected but received ")

def call (parent : Option Nat) (p : Nat) (pr : Proc) : Call → Proc × Answer
  | .join _ => join parent p pr
  | .wake _ => wake pr
  | .sleep _ m => sleep p m pr
  | .abandon _ => abandon pr
  | .reset _ => reset pr

def callEvents (p : Nat) (pr : Proc) : Call → List Event
  | .wake _ => [.woke p]
  | .abandon _ => if pr.scheduled then [.abandoned p] else []
  | _ => []

/-- The steps.  `call`, `receive`, `woken`, `timeout` are those of a goroutine in a call; `finish` is the end of a
process's procedure; `abort`, `restart`, `fire` are the branches of the `select` in `schedule`; `deliver` is the deferred
send; `expire` is that of the timer. -/
inductive Action where
  | call (i : Nat)
  | receive (i : Nat)
  | woken (i : Nat)
  | timeout (i : Nat)
  | finish (p : Nat)
  | abort (p : Nat)
  | restart (p : Nat)
  | fire (p : Nat)
  | deliver (p : Nat)
  | expire (p : Nat)
deriving DecidableEq, Repr

/-- The value a process returns: errors and panics of the procedure are printed, and the value is nil. -/
def bodyValue : Out Data → Data
  | .ok v => v
  | _ => .null

/-- Goroutines of processes make calls only while they run their procedure. -/
def active (s : State) (i : Nat) : Bool :=
  match s.procs[i]? with
  | none => true
  | some pr => pr.phase = .running

/-- The next call of goroutine `i`. -/
def makeCall (s : State) (i : Nat) (t : Thread) (c : Call) (cs : List Call) : Option State :=
  match pointer c.obj with
  | none => some { s with threads := s.threads.set i { t with todo := cs, done := t.done ++ [(c, notProcess c)] } }
  | some p =>
    match s.procs[p]? with
    | none => none
    | some pr =>
      some { procs := s.procs.set p (call t.parent p pr c).1
             threads := s.threads.set i (match (call t.parent p pr c).2 with
               | .result o => { t with todo := cs, done := t.done ++ [(c, o)] }
               | .wait w => { t with todo := cs, cur := some (c, w) })
             log := s.log ++ callEvents p pr c }

/-- A waiting call ends. -/
def complete (s : State) (i : Nat) (t : Thread) (c : Call) (o : Out Data) (p : Nat) (pr : Proc) (l : List Event) : State :=
  { procs := s.procs.set p pr
    threads := s.threads.set i { t with cur := none, done := t.done ++ [(c, o)] }
    log := s.log ++ l }

/-- The steps of goroutines in calls. -/
def threadStep (s : State) (i : Nat) (t : Thread) : Action → Option State
  | .call _ =>
    match t.cur, t.todo with
    | none, c :: cs => if active s i then makeCall s i t c cs else none
    | _, _ => none
  | .receive _ =>
    match t.cur with
    | some (c, .receive p) =>
      match s.procs[p]? with
      | some pr =>
        match pr.ret with
        | some v => some (complete s i t c (.ok v) p { pr with ret := none } [])
        | none => none
      | none => none
    | _ => none
  | .woken _ =>
    match t.cur with
    | some (c, .asleep p) =>
      match s.procs[p]? with
      | some pr => if pr.wake then some (complete s i t c (.ok (.bool true)) p { pr with wake := false } [.wokenUp p]) else none
      | none => none
    | _ => none
  | .timeout _ =>
    match t.cur with
    | some (c, .asleep p) =>
      match s.procs[p]? with
      | some pr => some (complete s i t c (.ok (.bool false)) p pr [])
      | none => none
    | _ => none
  | _ => none

/-- The steps of processes and timers. -/
def procStep (s : State) (p : Nat) (pr : Proc) : Action → Option (Proc × List Event)
  | .finish _ =>
    match s.threads[p]? with
    | some t =>
      if pr.phase = .running ∧ t.cur = none ∧ t.todo = [] then some ({ pr with phase := .delivering (bodyValue t.ends) }, [])
      else none
    | none => none
  | .abort _ =>
    if pr.phase = .waiting ∧ pr.abort = true then some ({ pr with abort := false, phase := .delivering .null }, [.aborted p])
    else none
  | .restart _ =>
    if pr.phase = .waiting ∧ pr.restart = true then some ({ pr with restart := false, armed := true }, [.restarted p])
    else none
  | .fire _ =>
    if pr.phase = .waiting ∧ pr.fired = true then some ({ pr with fired := false, phase := .running }, [.ran p]) else none
  | .deliver _ =>
    match pr.phase, pr.ret with
    | .delivering v, none => some ({ pr with ret := some v, phase := .finished v }, [])
    | _, _ => none
  | .expire _ => if pr.armed = true then some ({ pr with armed := false, fired := true }, [.expired p]) else none
  | _ => none

def Action.who : Action → Nat
  | .call i => i | .receive i => i | .woken i => i | .timeout i => i
  | .finish p => p | .abort p => p | .restart p => p | .fire p => p | .deliver p => p | .expire p => p

def Action.ofThread : Action → Bool
  | .call _ => true | .receive _ => true | .woken _ => true | .timeout _ => true
  | _ => false

/-- One step, if it is possible. -/
def exec (s : State) (a : Action) : Option State :=
  if a.ofThread then
    match s.threads[a.who]? with
    | some t => threadStep s a.who t a
    | none => none
  else
    match s.procs[a.who]? with
    | some pr =>
      match procStep s a.who pr a with
      | some (pr', l) => some { s with procs := s.procs.set a.who pr', log := s.log ++ l }
      | none => none
    | none => none

/-- Executions. -/
inductive Steps : State → State → Prop where
  | refl {s} : Steps s s
  | tail {s s' s'' a} : Steps s s' → exec s' a = some s'' → Steps s s''

/-- A process made by `fork` (`prim_concurrency.go:70-76`) or, if `scheduled`, by `schedule` (167-174). -/
def newProc (scheduled : Bool) : Proc :=
  ⟨scheduled, if scheduled then .waiting else .running, false, false, false, none, false, scheduled, false⟩

/-- A program: which processes are scheduled, and for each goroutine its `parentProcess`, its calls and how it ends. -/
def start (kinds : List Bool) (gs : List (Option Nat × List Call × Out Data)) : State :=
  ⟨kinds.map newProc, gs.map fun g => ⟨g.1, none, g.2.1, [], g.2.2⟩, []⟩

/-- `ParentProcess` of function `f` after processes were made from the functions listed, in order
(`prim_concurrency.go:79`, 177): the last one. -/
def parentProcess (fns : List Nat) (f : Nat) : Option Nat :=
  ((List.range fns.length).filter fun p => fns[p]? = some f).getLast?

end Golisp.Process

namespace Golisp.Spec
open Data Process

/-- The object for process `p`. -/
def procObj (p : Nat) : Data := .atom (.obj "Process" p)

/-- The values goroutines other than that of `p` itself got from joining `p`. -/
def joinValues (p : Nat) (ts : List Thread) : List Data :=
  ts.flatMap fun t => if t.parent = some p then [] else
    t.done.filterMap fun r => match r with | (.join o, .ok v) => if o = procObj p then some v else none | _ => none

/-- Has process `p` been woken since a sleep last ended because of a wake? -/
def wakePending (p : Nat) : List Event → Bool
  | l => l.foldl (fun b e => if e = .woke p then true else if e = .wokenUp p then false else b) false

/-- Is a goroutine waiting for the value of `p`, or did one get it? -/
def Claimed (s : State) (p : Nat) : Prop :=
  joinValues p s.threads ≠ [] ∨ ∃ (i : Nat) (t : Thread) (c : Call), s.threads[i]? = some t ∧ t.cur = some (c, .receive p)

/-- The number of sleeps that a wake of `p` ended, as their results tell. -/
def wokenSleeps (p : Nat) (ts : List Thread) : Nat :=
  (ts.map fun t => (t.done.filter fun r => match r with
    | (.sleep o _, .ok (.atom (.bool true))) => o = procObj p
    | _ => false).length).sum

/-- How often something happened. -/
def times (e : Event) (l : List Event) : Nat := l.count e

end Golisp.Spec
