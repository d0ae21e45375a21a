import Verif.Spec
/-
Model of the atomic primitives (`prim_concurrency.go:277-407`) under arbitrary interleaving.

Each call is a small program whose instructions are those of Go's `sync/atomic`; that each of these instructions takes
effect at one instant is assumed (it is Go's guarantee).  Other threads may run between any two instructions, also
between the start of a call, its instruction and its return.  An `Atomic` object is `obj "Atomic" a`, where `a` is the
address of its word.  Error texts that embed printed values keep only the fixed part.
-/
namespace Golisp.Atomics
open Data

abbrev Word := BitVec 64
abbrev Mem := Nat → Word

/-- What a running call does next. -/
inductive Code where
  | ret (o : Out Data)
  | load (a : Nat) (k : Word → Code)
  | store (a : Nat) (v : Word) (k : Code)
  | add (a : Nat) (d : Word) (k : Word → Code)
  | swap (a : Nat) (v : Word) (k : Word → Code)
  | cas (a : Nat) (old new : Word) (k : Bool → Code)

/-- A call of one of the primitives, with its evaluated arguments. -/
inductive Call where
  | load (obj : Data)
  | store (obj v : Data)
  | add (obj d : Data)
  | swap (obj v : Data)
  | cas (obj old new : Data)
deriving DecidableEq, Repr

/-- `ObjectP(d) && ObjectType(d) == "Atomic"` and `ObjectValue(d)` (`data.go:563-585`). -/
def pointer : Data → Option Nat
  | .atom (.obj ty a) => if ty = "Atomic" then some a else none
  | _ => none

/-- `AtomicLoadImpl` (`prim_concurrency.go:293-305`). -/
def atomicLoad (obj : Data) : Code :=
  match pointer obj with
  | none => .ret (.err (.msg "atomic-load expects an Atomic object but received "))
  | some p => .load p fun v => .ret (.ok (.int v))

/-- `AtomicStoreImpl` (`prim_concurrency.go:307-328`); the result is the nil pointer. -/
def atomicStore (obj v : Data) : Code :=
  match pointer obj with
  | none => .ret (.err (.msg "atomic-store! expects an Atomic object but received "))
  | some p =>
    if !isInt v then .ret (.err (.msg "atomic-store! expects an Integer as its second argument but received "))
    else .store p (intValue v) (.ret (.ok .null))

/-- `AtomicAddImpl` (`prim_concurrency.go:330-351`). -/
def atomicAdd (obj d : Data) : Code :=
  match pointer obj with
  | none => .ret (.err (.msg "atomic-add! expects an Atomic object but received "))
  | some p =>
    if !isInt d then .ret (.err (.msg "atomic-add! expects an Integer as its second argument but received "))
    else .add p (intValue d) fun new => .ret (.ok (.int new))

/-- `AtomicSwapImpl` (`prim_concurrency.go:353-374`). -/
def atomicSwap (obj v : Data) : Code :=
  match pointer obj with
  | none => .ret (.err (.msg "atomic-swap! expects an Atomic object but received "))
  | some p =>
    if !isInt v then .ret (.err (.msg "atomic-swap! expects an Integer as its second argument but received "))
    else .swap p (intValue v) fun old => .ret (.ok (.int old))

/-- `AtomicCompareAndSwapImpl` (`prim_concurrency.go:376-407`). -/
def atomicCas (obj old new : Data) : Code :=
  match pointer obj with
  | none => .ret (.err (.msg "atomic-compare-and-swap! expects an Atomic object but received "))
  | some p =>
    if !isInt old then .ret (.err (.msg "atomic-compare-and-swap! expects an Integer as its second argument but received "))
    else if !isInt new then .ret (.err (.msg "atomic-compare-and-swap! expects an Integer as its third argument but received "))
    else .cas p (intValue old) (intValue new) fun swapped => .ret (.ok (.bool swapped))

def code : Call → Code
  | .load o => atomicLoad o
  | .store o v => atomicStore o v
  | .add o d => atomicAdd o d
  | .swap o v => atomicSwap o v
  | .cas o x y => atomicCas o x y

/-- Write one word. -/
def put (m : Mem) (a : Nat) (v : Word) : Mem := fun b => if b = a then v else m b

/-- One instruction of `sync/atomic`; `none` when the call returns. -/
def exec (m : Mem) : Code → Option (Code × Mem)
  | .ret _ => none
  | .load a k => some (k (m a), m)
  | .store a v k => some (k, put m a v)
  | .add a d k => some (k (m a + d), put m a (m a + d))
  | .swap a v k => some (k (m a), put m a v)
  | .cas a o n k => if m a = o then some (k true, put m a n) else some (k false, m)

/-- A goroutine: the call it is in, those still to make, the results so far. -/
structure Thread where
  cur : Option Code
  todo : List Call
  results : List (Out Data)

/-- What one goroutine can do next. -/
def Thread.next (m : Mem) (t : Thread) : Option (Thread × Mem) :=
  match t.cur, t.todo with
  | none, [] => none
  | none, c :: cs => some (⟨some (code c), cs, t.results⟩, m)
  | some c, _ =>
    match c, exec m c with
    | .ret o, _ => some (⟨none, t.todo, t.results ++ [o]⟩, m)
    | _, some (c', m') => some (⟨some c', t.todo, t.results⟩, m')
    | _, none => none

structure State where
  mem : Mem
  threads : List Thread

/-- Some goroutine makes a step. -/
inductive Step : State → State → Prop where
  | mk {m ts i t t' m'} : ts[i]? = some t → t.next m = some (t', m') → Step ⟨m, ts⟩ ⟨m', ts.set i t'⟩

/-- Any number of steps. -/
inductive Steps : State → State → Prop where
  | refl {s} : Steps s s
  | tail {s s' s''} : Steps s s' → Step s' s'' → Steps s s''

/-- The goroutines at the beginning. -/
def start (m : Mem) (calls : List (List Call)) : State := ⟨m, calls.map fun cs => ⟨none, cs, []⟩⟩

/-- All calls have returned. -/
def State.Done (s : State) : Prop := ∀ t ∈ s.threads, t.cur = none ∧ t.todo = []

end Golisp.Atomics

namespace Golisp.Spec
open Data Atomics

/-- What a call does when nothing else runs: result and memory afterwards. -/
def effect (m : Mem) : Call → Out Data × Mem
  | .load (.atom (.obj "Atomic" a)) => (.ok (.int (m a)), m)
  | .store (.atom (.obj "Atomic" a)) (.int v) => (.ok .null, fun b => if b = a then v else m b)
  | .add (.atom (.obj "Atomic" a)) (.int d) => (.ok (.int (m a + d)), fun b => if b = a then m a + d else m b)
  | .swap (.atom (.obj "Atomic" a)) (.int v) => (.ok (.int (m a)), fun b => if b = a then v else m b)
  | .cas (.atom (.obj "Atomic" a)) (.int o) (.int n) =>
    (.ok (.bool (decide (m a = o))), fun b => if b = a ∧ m a = o then n else m b)
  | .load _ => (.err (.msg "atomic-load expects an Atomic object but received "), m)
  | .store (.atom (.obj "Atomic" _)) _ =>
    (.err (.msg "atomic-store! expects an Integer as its second argument but received "), m)
  | .store _ _ => (.err (.msg "atomic-store! expects an Atomic object but received "), m)
  | .add (.atom (.obj "Atomic" _)) _ =>
    (.err (.msg "atomic-add! expects an Integer as its second argument but received "), m)
  | .add _ _ => (.err (.msg "atomic-add! expects an Atomic object but received "), m)
  | .swap (.atom (.obj "Atomic" _)) _ =>
    (.err (.msg "atomic-swap! expects an Integer as its second argument but received "), m)
  | .swap _ _ => (.err (.msg "atomic-swap! expects an Atomic object but received "), m)
  | .cas (.atom (.obj "Atomic" _)) (.int _) _ =>
    (.err (.msg "atomic-compare-and-swap! expects an Integer as its third argument but received "), m)
  | .cas (.atom (.obj "Atomic" _)) _ _ =>
    (.err (.msg "atomic-compare-and-swap! expects an Integer as its second argument but received "), m)
  | .cas _ _ _ => (.err (.msg "atomic-compare-and-swap! expects an Atomic object but received "), m)

/-- Make calls one after the other; each is tagged with its goroutine. -/
def inOrder : Mem → List (Nat × Call) → List (Nat × Out Data) × Mem
  | m, [] => ([], m)
  | m, (i, c) :: rest =>
    let (o, m') := effect m c
    let (os, m'') := inOrder m' rest
    ((i, o) :: os, m'')

/-- The entries of goroutine `i`. -/
def ofThread {α : Type} (i : Nat) (l : List (Nat × α)) : List α := (l.filter (·.1 == i)).map (·.2)

end Golisp.Spec
