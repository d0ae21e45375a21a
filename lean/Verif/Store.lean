import Verif.Frame
/-
Interpreter state: environments (`symbol_table_frame.go`, `binding.go`), user functions and macros
(`function.go:17-27`, `macro.go:15-22`), frames, gensym counters and output.

Environments, functions, macros and frames are objects with identity: they live in tables and are referred to by index.
Environment 0 is `Global`.  Values themselves are immutable here (`set-car!`, `set-cdr!`, `set-nth!`, `append!` and the
byte array mutators are in `Verif.Heap` and `Verif.Bytes`).  Mutexes are not modelled: this is one goroutine.
-/
namespace Golisp.Ev
open Golisp Data

/-- `Binding` (`binding.go:14-19`); the symbol is the key in the table. -/
structure Binding where
  val : Data
  prot : Bool
deriving DecidableEq, Repr

/-- `SymbolTableFrame` (`symbol_table_frame.go:23-32`) without `Previous`, `CurrentCode` (debugger) and `Mutex`. -/
structure EnvRec where
  name : String
  parent : Option Nat
  binds : List (String × Binding)
  frame : Option Nat
  restricted : Bool
deriving DecidableEq, Repr

/-- `Function` (`function.go:17-27`) without `DebugOnEntry` and `ParentProcess`; `VarArgs` and `RequiredArgCount` are
functions of `Params` (`function.go:43-46`). -/
structure FnRec where
  name : String
  params : Data
  body : Data
  env : Nat
  slot : Bool
deriving DecidableEq, Repr

/-- `Macro` (`macro.go:15-22`). -/
structure MacRec where
  name : String
  params : Data
  body : Data
  env : Nat
deriving DecidableEq, Repr

structure Store where
  envs : List EnvRec
  fns : List FnRec
  macs : List MacRec
  frames : Frames
  /-- `symbolCounts` (`prim_system.go:20`) -/
  gens : List (String × Nat)
  /-- `TopLevelEnvironments` (`symbol_table_frame.go:45`) -/
  tops : List (String × Nat)
  /-- lines written by `write-line` (Go's `println`: standard error) -/
  out : List String
  /-- Ghost, not in the code: the bindings written by `environment-assign!` so far. -/
  raw : List (Nat × String)
  /-- text written to standard output -/
  stdout : List String := []
  /-- the words of the `Atomic` objects, by address (`prim_concurrency.go:279-292`) -/
  words : List (BitVec 64) := []
deriving DecidableEq, Repr

namespace Store

/-- `BindingNamed` (`symbol_table_frame.go:165-170`). -/
def localB (s : Store) (e : Nat) (x : String) : Option Binding :=
  match s.envs[e]? with
  | none => none
  | some r => alGet r.binds x

/-- `FindBindingFor` (`symbol_table_frame.go:195-205`), with the environment it is found in.  The first argument bounds
the walk; environments are always created after their parents, so `e + 1` steps are enough (`find_iff`). -/
def findN (s : Store) (x : String) : Nat → Nat → Option (Nat × Binding)
  | 0, _ => none
  | n + 1, e =>
    match s.envs[e]? with
    | none => none
    | some r =>
      match alGet r.binds x with
      | some b => some (e, b)
      | none => match r.parent with
        | none => none
        | some p => findN s x n p

def find (s : Store) (e : Nat) (x : String) : Option (Nat × Binding) := findN s x (e + 1) e

/-- `env.Frame` (`symbol_table_frame.go:161-163`). -/
def frameOf (s : Store) (e : Nat) : Option Nat :=
  match s.envs[e]? with
  | none => none
  | some r => r.frame

/-- `env.IsRestricted`. -/
def restrictedEnv (s : Store) (e : Nat) : Bool :=
  match s.envs[e]? with
  | none => false
  | some r => r.restricted

def parentOf (s : Store) (e : Nat) : Option Nat :=
  match s.envs[e]? with
  | none => none
  | some r => r.parent

/-- Store a value under an existing or new name, keeping the protection mark of an existing binding. -/
def putVal (s : Store) (e : Nat) (x : String) (v : Data) : Store :=
  match s.envs[e]? with
  | none => s
  | some r =>
    let p := match alGet r.binds x with | some b => b.prot | none => false
    { s with envs := s.envs.set e { r with binds := alSet r.binds x ⟨v, p⟩ } }

end Store

/-- The atomic actions on the state. -/
inductive Op where
  | newEnv (parent : Nat) (frame : Option Nat) (name : String)
  | bind (e : Nat) (x : String) (v : Data)
  | assign (e : Nat) (x : String) (v : Data)
  | assignRaw (e : Nat) (x : String) (v : Data)
  | flag (f : Nat) (b : Bool)
  | newFn (name : String) (params body : Data) (env : Nat)
  | newMac (name : String) (params body : Data) (env : Nat)
  | newFrame (m : FrameMap)
  | setSlot (i : Nat) (k : String) (v : Data)
  | remSlot (i : Nat) (k : String)
  | gensym (pre : String)
  | emit (text : String)
  | restrict (e : Nat)
  | print (text : String)
  | newWord (v : BitVec 64)
  | rmw (a : Nat) (f : BitVec 64 → BitVec 64)

namespace Op
open Store

def protErr (x : String) : Err := .msg (x ++ " is a protected binding")

/-- What each action does; the number returned is the index of the created object, a count, or 0. -/
def run : Op → Store → Out Nat × Store
  /- `NewSymbolTableFrameBelow`, `...BelowWithFrame` (`symbol_table_frame.go:132-159`): without a frame of its own it
  gets the parent's; the restricted mark is inherited; children of `Global` are registered by name.  (A dangling parent
  cannot occur.) -/
  | .newEnv p f name, s =>
    match s.envs[p]? with
    | none => (.panic, s)
    | some r =>
      (.ok s.envs.length,
        { s with
          envs := s.envs ++ [{ name, parent := some p, binds := [], frame := (match f with | some i => some i | none => r.frame),
                               restricted := r.restricted }]
          tops := if p = 0 then alSet s.tops name s.envs.length else s.tops })
  /- `BindLocallyTo` (`symbol_table_frame.go:267-279`). -/
  | .bind e x v, s =>
    match s.localB e x with
    | some b => if b.prot then (.err (protErr x), s) else (.ok 0, s.putVal e x v)
    | none => (.ok 0, s.putVal e x v)
  /- Storing into a binding that was found in environment `e` (`symbol_table_frame.go:236-241,251-257`). -/
  | .assign e x v, s =>
    match s.localB e x with
    | some b => if b.prot then (.err (protErr x), s) else (.ok 0, s.putVal e x v)
    | none => (.panic, s)
  /- `environment-assign!` (`prim_environment.go:247-251`): no protection check. -/
  | .assignRaw e x v, s =>
    match s.localB e x with
    | some _ => (.ok 0, { s.putVal e x v with raw := s.raw ++ [(e, x)] })
    | none => (.panic, s)
  /- `atomic.StoreInt32(&f.SlotFunction, b)` (`symbol_table_frame.go:285,296,308`). -/
  | .flag f b, s =>
    match s.fns[f]? with
    | none => (.panic, s)
    | some r => (.ok 0, { s with fns := s.fns.set f { r with slot := b } })
  /- `MakeFunction` (`function.go:43-46`). -/
  | .newFn name params body env, s => (.ok s.fns.length, { s with fns := s.fns ++ [⟨name, params, body, env, false⟩] })
  /- `MakeMacro` (`macro.go:24-27`). -/
  | .newMac name params body env, s => (.ok s.macs.length, { s with macs := s.macs ++ [⟨name, params, body, env⟩] })
  | .newFrame m, s => (.ok s.frames.length, { s with frames := s.frames ++ [m] })
  | .setSlot i k v, s => (.ok 0, { s with frames := Frame.set s.frames i k v })
  | .remSlot i k, s => (.ok (if (Frame.remove s.frames i k).1 then 1 else 0), { s with frames := (Frame.remove s.frames i k).2 })
  /- `gensymHelper`'s critical section (`prim_system.go:208-213`). -/
  | .gensym p, s =>
    let n := (alGet s.gens p).getD 0
    (.ok n, { s with gens := alSet s.gens p (n + 1) })
  | .emit t, s => (.ok 0, { s with out := s.out ++ [t] })
  /- `restrict-environment` (`prim_environment.go:371-374`). -/
  | .restrict e, s =>
    match s.envs[e]? with
    | none => (.panic, s)
    | some r => (.ok 0, { s with envs := s.envs.set e { r with restricted := true } })
  /- `os.Stdout.WriteString` (`prim_io.go:117,135,152,345`), assumed to succeed. -/
  | .print t, s => (.ok 0, { s with stdout := s.stdout ++ [t] })
  /- A fresh `int64` (`prim_concurrency.go:282`). -/
  | .newWord v, s => (.ok s.words.length, { s with words := s.words ++ [v] })
  /- `atomic.StoreInt64`, `AddInt64`, `SwapInt64`, `CompareAndSwapInt64` (`prim_concurrency.go:328,351,374,405`): one step that
  reads a word and replaces it.  The number returned is the old word. -/
  | .rmw a f, s => (.ok (s.words[a]?.getD 0).toNat, { s with words := s.words.set a (f (s.words[a]?.getD 0)) })

end Op

/-- The recursive procedures of the interpreter. -/
inductive Call where
  /-- `evalHelper(d, env, needFunction)` -/
  | eval (need : Bool) (d : Data) (e : Nat)
  /-- `ApplyWithoutEval(function, args, env)` -/
  | app (f args : Data) (e : Nat)
  /-- one more iteration of the loop of `do`, `res` being the variable `result` -/
  | doLoop (bindings test body res : Data) (e : Nat)
deriving DecidableEq, Repr

/-- Programs of the interpreter: sequences of state actions and recursive calls.  After a call or action the program
sees its value or its error (Go's `result, err`); a panic ends the program. -/
inductive Prog (α : Type) where
  | ret (a : α)
  | err (e : Err)
  | panic
  | get (k : Store → Prog α)
  | act (o : Op) (k : Except Err Nat → Prog α)
  | call (c : Call) (k : Except Err Data → Prog α)

namespace Prog
variable {α β : Type}

def bind : Prog α → (α → Prog β) → Prog β
  | ret a, f => f a
  | err e, _ => err e
  | panic, _ => panic
  | get k, f => get fun s => (k s).bind f
  | act o k, f => act o fun r => (k r).bind f
  | call c k, f => call c fun r => (k r).bind f

/-- Run `p` and continue with its value or its error. -/
def attempt : Prog α → (Except Err α → Prog β) → Prog β
  | ret a, f => f (.ok a)
  | err e, f => f (.error e)
  | panic, _ => panic
  | get k, f => get fun s => (k s).attempt f
  | act o k, f => act o fun r => (k r).attempt f
  | call c k, f => call c fun r => (k r).attempt f

instance : Monad Prog where
  pure := ret
  bind := bind

/-- Return an error. -/
def fail (m : String) : Prog α := err (.msg m)
def ofExcept : Except Err α → Prog α
  | .ok a => ret a
  | .error e => err e
def ofOut : Out α → Prog α
  | .ok a => ret a
  | .err e => err e
  | .panic => panic
  | .timeout => panic -- pure helpers used here never run out (see `Frame.search_total`)
def state : Prog Store := get ret
def op (o : Op) : Prog Nat := act o ofExcept
/-- `Eval(d, env)` (`data.go:1199-1201`). -/
def eval (d : Data) (e : Nat) : Prog Data := call (.eval false d e) ofExcept
def evalNeed (need : Bool) (d : Data) (e : Nat) : Prog Data := call (.eval need d e) ofExcept
def app (f args : Data) (e : Nat) : Prog Data := call (.app f args e) ofExcept
def doLoop (bindings test body res : Data) (e : Nat) : Prog Data := call (.doLoop bindings test body res e) ofExcept

end Prog

/-- Meaning of a program, given the meaning of the recursive calls. -/
def interp {α : Type} (R : Call → M Store Data) : Prog α → M Store α
  | .ret a, s => (.ok a, s)
  | .err e, s => (.err e, s)
  | .panic, s => (.panic, s)
  | .get k, s => interp R (k s) s
  | .act o k, s =>
    match o.run s with
    | (.ok n, s') => interp R (k (.ok n)) s'
    | (.err e, s') => interp R (k (.error e)) s'
    | (.panic, s') => (.panic, s')
    | (.timeout, s') => (.timeout, s')
  | .call c k, s =>
    match R c s with
    | (.ok v, s') => interp R (k (.ok v)) s'
    | (.err e, s') => interp R (k (.error e)) s'
    | (.panic, s') => (.panic, s')
    | (.timeout, s') => (.timeout, s')

/-- Bounded unfolding of the recursion `body`: at depth 0 nothing finishes. -/
def recN (body : Call → Prog Data) : Nat → Call → M Store Data
  | 0, _ => fun s => (.timeout, s)
  | n + 1, c => interp (recN body n) (body c)

/-- `c` started in state `s` finishes (at some depth) with outcome `r` in state `s'`. -/
def Runs (body : Call → Prog Data) (c : Call) (s : Store) (r : Out Data) (s' : Store) : Prop :=
  ∃ n, recN body n c s = (r, s') ∧ r ≠ .timeout

end Golisp.Ev
