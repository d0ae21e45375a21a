import Verif.EvalPrims
import Verif.Spec
/-
Specifications used by the property theorems about the evaluator.  Apart from `Evals` and its companions, which say that
the interpreter run on an expression ends in a given way, nothing here refers to the model of a language construct: the
relations below are the intended meaning of "in order", "visible", "the body" and so on, over evaluations of the parts.
-/
namespace Golisp.Spec
open Golisp Data Ev

/-! ### Evaluation -/

/-- Evaluating `d` in environment `e` from state `s` ends with outcome `r` in state `s'`. -/
def Evals (C : Conf) (d : Data) (e : Nat) (s : Store) (r : Out Data) (s' : Store) : Prop :=
  Runs (body C) (.eval false d e) s r s'

/-- The same for an expression in operator position. -/
def EvalsOp (C : Conf) (d : Data) (e : Nat) (s : Store) (r : Out Data) (s' : Store) : Prop :=
  Runs (body C) (.eval true d e) s r s'

/-- Calling the procedure value `f` with the (already evaluated) argument list `args` from code in environment `e`. -/
def Applies (C : Conf) (f args : Data) (e : Nat) (s : Store) (r : Out Data) (s' : Store) : Prop :=
  Runs (body C) (.app f args e) s r s'

/-- What the value of a combination looks like from outside: an error quotes the expression. -/
def quoting (d : Data) : Out Data → Out Data
  | .err e => .err (.evaling d e)
  | r => r

/-- An error raised in the body of a user function names the function. -/
def naming (name : String) : Out Data → Out Data
  | .err e => .err (.inFn name e)
  | r => r

/-- The outcome is a value. -/
def Ok {α : Type} : Out α → Prop
  | .ok _ => True
  | _ => False

/-! ### Scope -/

/-- The binding of `x` seen from environment `e` is `b`, held by environment `f`. -/
inductive Visible (s : Store) : Nat → String → Nat → Binding → Prop where
  | here {e x b} : s.localB e x = some b → Visible s e x e b
  | up {e x p f b} : s.localB e x = none → s.parentOf e = some p → Visible s p x f b → Visible s e x f b

/-- No slot `x:` can be seen through the frame of environment `e`. -/
def NoSlot (H : Host) (s : Store) (e : Nat) (x : String) : Prop :=
  ∀ i, s.frameOf e = some i → Frame.hasSlot s.frames H.ord i (nakedName x) = .ok false

/-- `a` is `e` or one of the environments around it. -/
inductive Encloses (s : Store) : Nat → Nat → Prop where
  | refl {e} : Encloses s e e
  | up {a e p} : s.parentOf e = some p → Encloses s a p → Encloses s a e

/-- Environments are created after the environments around them. -/
def WF (s : Store) : Prop := ∀ (e : Nat) (r : EnvRec) (p : Nat), s.envs[e]? = some r → r.parent = some p → p < e

/-- The name `x`, used as an operator in environment `e`, means the primitive of that name. -/
structure Means (C : Conf) (s : Store) (e : Nat) (x : String) : Prop where
  visible : ∃ f p, Visible s e x f ⟨.atom (.prim x), p⟩
  noSlot : s.localB e x = none → NoSlot C.host s e x
  isStd : C.prims x = (std C.host).prims x

/-- `s'` is `s` with the binding of `x` in environment `f` holding `v`, and nothing else changed. -/
structure OnlyBinding (s s' : Store) (f : Nat) (x : String) (v : Data) : Prop where
  value : ∃ b, s.localB f x = some b ∧ s'.localB f x = some ⟨v, b.prot⟩
  others : ∀ e y, (e, y) ≠ (f, x) → s'.localB e y = s.localB e y
  parents : ∀ e, s'.parentOf e = s.parentOf e
  envs : s'.envs.length = s.envs.length ∧ ∀ e, s'.frameOf e = s.frameOf e ∧ s'.restrictedEnv e = s.restrictedEnv e
  rest : s'.fns = s.fns ∧ s'.macs = s.macs ∧ s'.frames = s.frames ∧ s'.gens = s.gens ∧ s'.tops = s.tops ∧ s'.out = s.out ∧
    s'.stdout = s.stdout ∧ s'.words = s.words

/-- Assignment of `v` to the variable `x` seen from `e`: the innermost visible binding, or the slot `x:` when `x` is not
local and the environment runs in a frame that has that slot (`broken`: the search of the frame failed, see C45). -/
inductive Assigns (H : Host) (s : Store) (e : Nat) (x : String) (v : Data) : Out Data → Store → Prop where
  | binding {f b s'} : Visible s e x f b → (s.localB e x = none → NoSlot H s e x) → b.prot = false →
      OnlyBinding s s' f x v → Assigns H s e x v (.ok v) s'
  | slot {i} : s.localB e x = none → s.frameOf e = some i → Frame.hasSlot s.frames H.ord i (nakedName x) = .ok true →
      Assigns H s e x v (.ok v) { s with frames := Frame.set s.frames i (nakedName x) v }
  | guarded {f b} : Visible s e x f b → (s.localB e x = none → NoSlot H s e x) → b.prot = true →
      Assigns H s e x v (.err (.msg (x ++ " is a protected binding"))) s
  | broken {i r} : s.localB e x = none → s.frameOf e = some i →
      (∀ b, Frame.hasSlot s.frames H.ord i (nakedName x) ≠ .ok b) → ¬ Ok r → Assigns H s e x v r s
  | unbound : (∀ f b, ¬ Visible s e x f b) → NoSlot H s e x → Assigns H s e x v (.err (.msg (x ++ " is undefined"))) s

/-- `e'` was created (after the first `n` environments) below `e`, or is `e`. -/
inductive Below (n : Nat) (s : Store) (e : Nat) : Nat → Prop where
  | self : Below n s e e
  | child {p c} : Below n s e p → n ≤ c → s.parentOf c = some p → Below n s e c

/-! ### Sequences -/

/-- Evaluate the expressions one after the other in `e`; the value is the last one's (`v` if there are none); the first
that does not return ends the sequence. -/
inductive Seq (C : Conf) (e : Nat) : List Data → Data → Store → Out Data → Store → Prop where
  | done {v s} : Seq C e [] v s (.ok v) s
  | next {x xs u v s s₁ r s'} : Evals C x e s (.ok v) s₁ → Seq C e xs v s₁ r s' → Seq C e (x :: xs) u s r s'
  | stop {x xs u s r s'} : Evals C x e s r s' → ¬ Ok r → Seq C e (x :: xs) u s r s'

/-- Do `G` for every element, left to right, and collect the values; the first that fails ends it. -/
inductive Each (G : Data → Store → Out Data → Store → Prop) : List Data → Store → Out (List Data) → Store → Prop where
  | done {s} : Each G [] s (.ok []) s
  | next {x xs v s s₁ vs s'} : G x s (.ok v) s₁ → Each G xs s₁ (.ok vs) s' → Each G (x :: xs) s (.ok (v :: vs)) s'
  | err {x xs er s s'} : G x s (.err er) s' → Each G (x :: xs) s (.err er) s'
  | panic {x xs s s'} : G x s .panic s' → Each G (x :: xs) s .panic s'
  | errLater {x xs v er s s₁ s'} : G x s (.ok v) s₁ → Each G xs s₁ (.err er) s' → Each G (x :: xs) s (.err er) s'
  | panicLater {x xs v s s₁ s'} : G x s (.ok v) s₁ → Each G xs s₁ .panic s' → Each G (x :: xs) s .panic s'

/-- Evaluate all the expressions in `e`, left to right, and collect the values; the first that fails ends it. -/
abbrev Args (C : Conf) (e : Nat) : List Data → Store → Out (List Data) → Store → Prop := Each fun x => Evals C x e

/-! ### Choice -/

/-- Everything counts as true except nil, the empty list and `#f`. -/
def Truthy (v : Data) : Prop := v ≠ .null ∧ (∀ k, v ≠ .cell k .null .null) ∧ v ≠ .bool false

/-- Do `first`; if it returns a value go on with `next`, otherwise that is the outcome. -/
def Then (first : Out Data → Store → Prop) (next : Data → Store → Out Data → Store → Prop) (r : Out Data) (s' : Store) :
    Prop :=
  (∃ v s₁, first (.ok v) s₁ ∧ next v s₁ r s') ∨ (first r s' ∧ ¬ Ok r)

/-- The clauses of `cond`: the first whose test holds (or is `else`) is selected; tests after it are not evaluated. -/
inductive Cond (C : Conf) (e : Nat) : List Data → Store → Out Data → Store → Prop where
  | none {s} : Cond C e [] s (.ok .null) s
  | otherwise {bd bs cls s r s'} : Lst bd bs → Seq C e bs .null s r s' → Cond C e (.cons (.sym "else") bd :: cls) s r s'
  | hit {t bd bs cls v s s₁ r s'} : t ≠ .sym "else" → Evals C t e s (.ok v) s₁ → Truthy v → Lst bd bs →
      Seq C e bs .null s₁ r s' → Cond C e (.cons t bd :: cls) s r s'
  | miss {t bd cls v s s₁ r s'} : t ≠ .sym "else" → Evals C t e s (.ok v) s₁ → ¬ Truthy v → Cond C e cls s₁ r s' →
      Cond C e (.cons t bd :: cls) s r s'
  | stop {t bd cls s r s'} : t ≠ .sym "else" → Evals C t e s r s' → ¬ Ok r → Cond C e (.cons t bd :: cls) s r s'

/-- The clauses of `case` for a key: the first whose list of data has an element equal to the key (or is `else`) is
selected. -/
inductive Case (C : Conf) (e : Nat) (key : Data) : List Data → Store → Out Data → Store → Prop where
  | none {s} : Case C e key [] s (.ok .null) s
  | otherwise {bd bs cls s r s'} : Lst bd bs → Seq C e bs .null s r s' → Case C e key (.cons (.sym "else") bd :: cls) s r s'
  | hit {ds bd bs cls xs s r s'} : Lst ds xs → (∃ x ∈ xs, @isEqual (Frame.eqIn s.frames) x key = true) → Lst bd bs → Seq C e bs .null s r s' →
      Case C e key (.cons ds bd :: cls) s r s'
  | miss {ds bd cls xs s r s'} : Lst ds xs → (∀ x ∈ xs, @isEqual (Frame.eqIn s.frames) x key = false) → Case C e key cls s r s' →
      Case C e key (.cons ds bd :: cls) s r s'

/-- `and`: left to right until one is false. -/
inductive AllOf (C : Conf) (e : Nat) : List Data → Data → Store → Out Data → Store → Prop where
  | done {v s} : AllOf C e [] v s (.ok v) s
  | next {x xs u v s s₁ r s'} : Evals C x e s (.ok v) s₁ → Truthy v → AllOf C e xs v s₁ r s' → AllOf C e (x :: xs) u s r s'
  | decided {x xs u v s s'} : Evals C x e s (.ok v) s' → ¬ Truthy v → AllOf C e (x :: xs) u s (.ok v) s'
  | stop {x xs u s r s'} : Evals C x e s r s' → ¬ Ok r → AllOf C e (x :: xs) u s r s'

/-- `or`: left to right until one is true. -/
inductive AnyOf (C : Conf) (e : Nat) : List Data → Data → Store → Out Data → Store → Prop where
  | done {v s} : AnyOf C e [] v s (.ok v) s
  | next {x xs u v s s₁ r s'} : Evals C x e s (.ok v) s₁ → ¬ Truthy v → AnyOf C e xs v s₁ r s' → AnyOf C e (x :: xs) u s r s'
  | decided {x xs u v s s'} : Evals C x e s (.ok v) s' → Truthy v → AnyOf C e (x :: xs) u s (.ok v) s'
  | stop {x xs u s r s'} : Evals C x e s r s' → ¬ Ok r → AnyOf C e (x :: xs) u s r s'

/-! ### Procedures -/

/-- The parameter list `d`: names, and the name that takes the remaining arguments, if any. -/
inductive Params : Data → List String → Option String → Prop where
  | none {d} : Lst d [] → Params d [] none
  | rest {x} : Params (.sym x) [] (some x)
  | cons {p d ps rest} : Params d ps rest → Params (.cons (.sym p) d) (p :: ps) rest

/-- How many arguments a parameter list takes. -/
def Fits (ps : List String) (rest : Option String) (n : Nat) : Prop :=
  match rest with
  | none => n = ps.length
  | some _ => ps.length ≤ n

/-- Local bindings, in the order they are made. -/
def binds (B : List (String × Data)) : List (String × Binding) := B.foldl (fun m b => alSet m b.1 ⟨b.2, false⟩) []

/-- The state with one more environment: below `p` (whose record is `pr`), with the given frame or else the frame of
`p`, restricted if `p` is, and holding the bindings `B`. -/
def pushEnv (s : Store) (p : Nat) (pr : EnvRec) (frame : Option Nat) (name : String) (B : List (String × Data)) : Store :=
  { s with
    envs := s.envs ++ [{ name, parent := some p, binds := binds B, frame := (match frame with | some i => some i | none => pr.frame),
                         restricted := pr.restricted }]
    tops := if p = 0 then alSet s.tops name s.envs.length else s.tops }

/-- The binding of `self` made on entry: the receiver, or the caller's `self` for a function found in a slot or a local
variable. -/
def selfBind (s : Store) (slot : Bool) (frame : Option Nat) (ae : Nat) : List (String × Data) :=
  match frame with
  | some i => [("self", .atom (.frame i))]
  | none => match slot, s.localB ae "self" with
    | true, some b => [("self", b.val)]
    | _, _ => []

/-- The parameter bindings for argument values `vs`. -/
def paramBinds (ps : List String) (rest : Option String) (vs : List Data) : List (String × Data) :=
  ps.zip vs ++ match rest with
    | none => []
    | some x => [(x, ofArray (vs.drop ps.length))]

/-- The frame a call runs in: the caller's, for a function found in a slot or a local variable. -/
def frameFor (s : Store) (slot : Bool) (ae : Nat) : Option Nat := if slot then s.frameOf ae else none

/-- Evaluate (by `G`) the first argument and bind the first parameter to its value, then the second, and so on; then
evaluate the remaining ones and bind the rest parameter to the list of their values. -/
inductive Binds (G : Data → Store → Out Data → Store → Prop) (le : Nat) :
    List String → Option String → List Data → Store → Out Unit → Store → Prop where
  | done {s} : Binds G le [] none [] s (.ok ()) s
  | next {x xs y a as v n s s₁ s₂ r s'} : G a s (.ok v) s₁ → (Op.bind le x v).run s₁ = (.ok n, s₂) →
      Binds G le xs y as s₂ r s' → Binds G le (x :: xs) y (a :: as) s r s'
  | err {x xs y a as er s s'} : G a s (.err er) s' → Binds G le (x :: xs) y (a :: as) s (.err er) s'
  | panic {x xs y a as s s'} : G a s .panic s' → Binds G le (x :: xs) y (a :: as) s .panic s'
  | refused {x xs y a as v er s s₁ s'} : G a s (.ok v) s₁ → (Op.bind le x v).run s₁ = (.err er, s') →
      Binds G le (x :: xs) y (a :: as) s (.err er) s'
  | rest {y as vs n s s₁ s'} : Each G as s (.ok vs) s₁ → (Op.bind le y (ofArray vs)).run s₁ = (.ok n, s') →
      Binds G le [] (some y) as s (.ok ()) s'
  | restErr {y as er s s'} : Each G as s (.err er) s' → Binds G le [] (some y) as s (.err er) s'
  | restPanic {y as s s'} : Each G as s .panic s' → Binds G le [] (some y) as s .panic s'
  | restRefused {y as vs er s s₁ s'} : Each G as s (.ok vs) s₁ → (Op.bind le y (ofArray vs)).run s₁ = (.err er, s') →
      Binds G le [] (some y) as s (.err er) s'

/-- Calling user function `i`: a new environment below the one the function was created in; the arguments are evaluated
(by `G`) and bound in it; then the body.  An error in the body names the function. -/
inductive CallsG (C : Conf) (G : Data → Store → Out Data → Store → Prop) (i : Nat) (xs : List Data) (ae : Nat)
    (frame : Option Nat) (s : Store) : Out Data → Store → Prop where
  | run {fr pr ps rest bs s₁ r s'} : s.fns[i]? = some fr → s.envs[fr.env]? = some pr → Params fr.params ps rest →
      Lst fr.body bs → Fits ps rest xs.length →
      Binds G s.envs.length ps rest xs (pushEnv s fr.env pr frame fr.name (selfBind s fr.slot frame ae)) (.ok ()) s₁ →
      Seq C s.envs.length bs .null s₁ r s' → CallsG C G i xs ae frame s (naming fr.name r) s'
  | argErr {fr pr ps rest er s'} : s.fns[i]? = some fr → s.envs[fr.env]? = some pr → Params fr.params ps rest →
      Fits ps rest xs.length →
      Binds G s.envs.length ps rest xs (pushEnv s fr.env pr frame fr.name (selfBind s fr.slot frame ae)) (.err er) s' →
      CallsG C G i xs ae frame s (.err er) s'
  | argPanic {fr pr ps rest s'} : s.fns[i]? = some fr → s.envs[fr.env]? = some pr → Params fr.params ps rest →
      Fits ps rest xs.length →
      Binds G s.envs.length ps rest xs (pushEnv s fr.env pr frame fr.name (selfBind s fr.slot frame ae)) .panic s' →
      CallsG C G i xs ae frame s .panic s'
  | count {fr pr ps rest m} : s.fns[i]? = some fr → s.envs[fr.env]? = some pr → Params fr.params ps rest →
      ¬ Fits ps rest xs.length → m = (fr.name ++ " expected " ++ (if rest.isSome then "at least " else "") ++
        numText ps.length ++ " parameters, received " ++ numText xs.length ++ ".") →
      CallsG C G i xs ae frame s (.err (.msg m)) (pushEnv s fr.env pr frame fr.name (selfBind s fr.slot frame ae))

/-- A function object that a program can have made: its environment exists, its parameters are names, its body is a
list. -/
def GoodFn (s : Store) (fr : FnRec) : Prop :=
  (∃ pr, s.envs[fr.env]? = some pr) ∧ (∃ ps rest, Params fr.params ps rest ∧ (ps = [] → rest = none)) ∧ ∃ bs, Lst fr.body bs

/-- Calling with argument values: `self`, the parameters and the rest parameter are bound, in that order, in one new
environment, and the body runs in it. -/
inductive CallsV (C : Conf) (i : Nat) (vs : List Data) (ae : Nat) (frame : Option Nat) (s : Store) :
    Out Data → Store → Prop where
  | run {fr pr ps rest bs r s'} : s.fns[i]? = some fr → s.envs[fr.env]? = some pr → Params fr.params ps rest →
      Lst fr.body bs → Fits ps rest vs.length →
      Seq C s.envs.length bs .null
        (pushEnv s fr.env pr frame fr.name (selfBind s fr.slot frame ae ++ paramBinds ps rest vs)) r s' →
      CallsV C i vs ae frame s (naming fr.name r) s'
  | count {fr pr ps rest m} : s.fns[i]? = some fr → s.envs[fr.env]? = some pr → Params fr.params ps rest →
      ¬ Fits ps rest vs.length → m = (fr.name ++ " expected " ++ (if rest.isSome then "at least " else "") ++
        numText ps.length ++ " parameters, received " ++ numText vs.length ++ ".") →
      CallsV C i vs ae frame s (.err (.msg m)) (pushEnv s fr.env pr frame fr.name (selfBind s fr.slot frame ae))

/-! ### Local bindings -/

/-- A binding list `((x init) …)`: the names and the initial expressions (nil for `(x)`). -/
inductive LetBindings : Data → List String → List Data → Prop where
  | nil {d} : Lst d [] → LetBindings d [] []
  | cons {b d x is xs inits} : Lst (.cons (.sym x) b) (.sym x :: is) → LetBindings d xs inits →
      LetBindings (.cons (.cons (.sym x) b) d) (x :: xs) (is.headD .null :: inits)

/-- The `let` family: a new environment below `e` (holding the bindings `B` from the start); the initial expressions are
evaluated in environment `ie`, each value being bound to its name in the new environment; then the body runs there. -/
inductive LetRuns (C : Conf) (e : Nat) (name : String) (B : List (String × Data)) (ie : Nat) (xs : List String) (inits bs : List Data)
    (s : Store) : Out Data → Store → Prop where
  | run {pr s₁ r s'} : s.envs[e]? = some pr →
      Binds (fun a => Evals C a ie) s.envs.length xs none inits (pushEnv s e pr none name B) (.ok ()) s₁ →
      Seq C s.envs.length bs .null s₁ r s' → LetRuns C e name B ie xs inits bs s r s'
  | err {pr er s'} : s.envs[e]? = some pr →
      Binds (fun a => Evals C a ie) s.envs.length xs none inits (pushEnv s e pr none name B) (.err er) s' →
      LetRuns C e name B ie xs inits bs s (.err er) s'
  | panic {pr s'} : s.envs[e]? = some pr →
      Binds (fun a => Evals C a ie) s.envs.length xs none inits (pushEnv s e pr none name B) .panic s' →
      LetRuns C e name B ie xs inits bs s .panic s'

/-! ### Loops -/

/-- The variables of a `do`: names, initial expressions and step expressions; without a step the variable keeps its
value, i.e. the step is the variable itself. -/
inductive DoVars : Data → List String → List Data → List Data → Prop where
  | nil {d} : Lst d [] → DoVars d [] [] []
  | noStep {b d x init xs inits steps} : Lst (.cons (.sym x) b) [.sym x, init] → isNaked (.sym x) = false →
      DoVars d xs inits steps → DoVars (.cons (.cons (.sym x) b) d) (x :: xs) (init :: inits) (.sym x :: steps)
  | step {b d x init st xs inits steps} : Lst (.cons (.sym x) b) [.sym x, init, st] → ¬ Lst st [] →
      DoVars d xs inits steps → DoVars (.cons (.cons (.sym x) b) d) (x :: xs) (init :: inits) (st :: steps)

/-- The loop of `do` in environment `e`: the test; if it holds, the result expressions; otherwise the body, then all the
steps are evaluated, then all the variables get their new values, and again.  `u` is the value of the expression
evaluated last.  An error in the test, the body or the results is the outcome; what an error in a step means is `onStep`. -/
inductive Loop (C : Conf) (onStep : Err → Data → Out Data) (xs : List String) (steps : List Data) (test : Data)
    (res bs : List Data) (e : Nat) : Data → Store → Out Data → Store → Prop where
  | finish {u s v s₁ r s'} : Evals C test e s (.ok v) s₁ → Truthy v → Seq C e res u s₁ r s' →
      Loop C onStep xs steps test res bs e u s r s'
  | testFails {u s r s'} : Evals C test e s r s' → ¬ Ok r → Loop C onStep xs steps test res bs e u s r s'
  | bodyFails {u s v s₁ r s'} : Evals C test e s (.ok v) s₁ → ¬ Truthy v → Seq C e bs u s₁ r s' → ¬ Ok r →
      Loop C onStep xs steps test res bs e u s r s'
  | again {u s v s₁ w s₂ vs s₃ s₄ r s'} : Evals C test e s (.ok v) s₁ → ¬ Truthy v → Seq C e bs u s₁ (.ok w) s₂ →
      Args C e steps s₂ (.ok vs) s₃ → Binds (fun a s r s' => r = .ok a ∧ s' = s) e xs none vs s₃ (.ok ()) s₄ →
      Loop C onStep xs steps test res bs e w s₄ r s' → Loop C onStep xs steps test res bs e u s r s'
  | stepErr {u s v s₁ w s₂ er s'} : Evals C test e s (.ok v) s₁ → ¬ Truthy v → Seq C e bs u s₁ (.ok w) s₂ →
      Args C e steps s₂ (.err er) s' → Loop C onStep xs steps test res bs e u s (onStep er w) s'
  | stepPanic {u s v s₁ w s₂ s'} : Evals C test e s (.ok v) s₁ → ¬ Truthy v → Seq C e bs u s₁ (.ok w) s₂ →
      Args C e steps s₂ .panic s' → Loop C onStep xs steps test res bs e u s .panic s'
  | bindErr {u s v s₁ w s₂ vs s₃ er s'} : Evals C test e s (.ok v) s₁ → ¬ Truthy v → Seq C e bs u s₁ (.ok w) s₂ →
      Args C e steps s₂ (.ok vs) s₃ → Binds (fun a s r s' => r = .ok a ∧ s' = s) e xs none vs s₃ (.err er) s' →
      Loop C onStep xs steps test res bs e u s (onStep er w) s'

/-- All of `do`: variables initialised as by `let`, then the loop. -/
inductive DoRuns (C : Conf) (onStep : Err → Data → Out Data) (e : Nat) (xs : List String) (inits steps : List Data) (test : Data)
    (res bs : List Data) (s : Store) : Out Data → Store → Prop where
  | run {pr s₁ r s'} : s.envs[e]? = some pr →
      Binds (fun a => Evals C a e) s.envs.length xs none inits (pushEnv s e pr none "do" []) (.ok ()) s₁ →
      Loop C onStep xs steps test res bs s.envs.length .null s₁ r s' → DoRuns C onStep e xs inits steps test res bs s r s'
  | err {pr er s'} : s.envs[e]? = some pr →
      Binds (fun a => Evals C a e) s.envs.length xs none inits (pushEnv s e pr none "do" []) (.err er) s' →
      DoRuns C onStep e xs inits steps test res bs s (.err er) s'
  | panic {pr s'} : s.envs[e]? = some pr →
      Binds (fun a => Evals C a e) s.envs.length xs none inits (pushEnv s e pr none "do" []) .panic s' →
      DoRuns C onStep e xs inits steps test res bs s .panic s'

/-! ### Quasiquotation -/

/-- The three symbols that mean something inside a template. -/
def Mark (d : Data) : Prop := d = .sym "quasiquote" ∨ d = .sym "unquote" ∨ d = .sym "unquote-splicing"

/-- An expression (`false`) or the rest of a list (`true`) made of proper lists without marks. -/
inductive Unmarked : Bool → Data → Prop where
  | atom (a : Atom) : Unmarked false (.atom a)
  | empty : Unmarked false .emptyCons
  | nil : Unmarked true .null
  | cons {a d} : Unmarked false a → Unmarked true d → Unmarked true (.cons a d)
  | list {a d} : Unmarked true (.cons a d) → ¬ Mark a → Unmarked false (.cons a d)

/-- A nil-terminated list with the given elements. -/
inductive Chain : Data → List Data → Prop where
  | nil : Chain .null []
  | cons {a d xs} : Chain d xs → Chain (.cons a d) (a :: xs)

/-- The meaning of templates: at nesting level `n`, the templates `xs`, one after the other, contribute the given
elements to the list they stand in. -/
inductive Quasi (C : Conf) (e : Nat) : Nat → List Data → Store → Out (List Data) → Store → Prop where
  | done {n s} : Quasi C e n [] s (.ok []) s
  | next {n x xs ys zs s s₁ s'} : Quasi C e n [x] s (.ok ys) s₁ → Quasi C e n xs s₁ (.ok zs) s' → Quasi C e n (x :: xs) s (.ok (ys ++ zs)) s'
  | first {n x xs r s s'} : Quasi C e n [x] s r s' → ¬ Ok r → Quasi C e n (x :: xs) s r s'
  | later {n x xs ys r s s₁ s'} : Quasi C e n [x] s (.ok ys) s₁ → Quasi C e n xs s₁ r s' → ¬ Ok r → Quasi C e n (x :: xs) s r s'
  /-- anything but a list stands for itself -/
  | atom {n a s} : Quasi C e n [.atom a] s (.ok [.atom a]) s
  /-- a list stands for the list of what its elements contribute -/
  | list {n x xs ys s s'} : Lst x xs → isListP x = true → (∀ a ∈ xs.head?, ¬ Mark a) → Quasi C e n xs s (.ok ys) s' → Quasi C e n [x] s (.ok [ofArray ys]) s'
  | listFails {n x xs r s s'} : Lst x xs → isListP x = true → (∀ a ∈ xs.head?, ¬ Mark a) → Quasi C e n xs s r s' → ¬ Ok r → Quasi C e n [x] s r s'
  /-- `,a` at level one: the value of `a` -/
  | value {a s v s'} : Unmarked false a → Evals C a e s (.ok v) s' → Quasi C e 1 [.cons (.sym "unquote") (.cons a .null)] s (.ok [v]) s'
  | valueErr {a er s s'} : Unmarked false a → Evals C a e s (.err er) s' → Quasi C e 1 [.cons (.sym "unquote") (.cons a .null)] s (.err er) s'
  | valuePanic {a s s'} : Unmarked false a → Evals C a e s .panic s' → Quasi C e 1 [.cons (.sym "unquote") (.cons a .null)] s .panic s'
  /-- `,@a` at level one: the elements of the value of `a` -/
  | splice {a s v vs s'} : Unmarked false a → Evals C a e s (.ok v) s' → (Chain v vs ∧ Data.null ∉ vs ∨ v = .emptyCons ∧ vs = []) →
      Quasi C e 1 [.cons (.sym "unquote-splicing") (.cons a .null)] s (.ok vs) s'
  | spliceErr {a er s s'} : Unmarked false a → Evals C a e s (.err er) s' →
      Quasi C e 1 [.cons (.sym "unquote-splicing") (.cons a .null)] s (.err er) s'
  | splicePanic {a s s'} : Unmarked false a → Evals C a e s .panic s' →
      Quasi C e 1 [.cons (.sym "unquote-splicing") (.cons a .null)] s .panic s'
  /-- a quasiquote inside a template is kept, its contents one level deeper -/
  | deeper {n a ys s s'} : Quasi C e (n + 1) [a] s (.ok ys) s' → Data.null ∉ ys →
      Quasi C e n [.cons (.sym "quasiquote") (.cons a .null)] s (.ok [ofArray (.sym "quasiquote" :: ys)]) s'
  | deeperFails {n a r s s'} : Quasi C e (n + 1) [a] s r s' → ¬ Ok r → Quasi C e n [.cons (.sym "quasiquote") (.cons a .null)] s r s'
  /-- an unquote of an inner quasiquote is kept, its contents one level less deep -/
  | inner {n m a ys s s'} : m = "unquote" ∨ m = "unquote-splicing" → Quasi C e (n + 1) [a] s (.ok ys) s' → Data.null ∉ ys →
      Quasi C e (n + 2) [.cons (.sym m) (.cons a .null)] s (.ok [ofArray (.sym m :: ys)]) s'
  | innerFails {n m a r s s'} : m = "unquote" ∨ m = "unquote-splicing" → Quasi C e (n + 1) [a] s r s' → ¬ Ok r →
      Quasi C e (n + 2) [.cons (.sym m) (.cons a .null)] s r s'

/-! ### Macros -/

/-- Expanding macro `m`: the parameters are bound to the argument *expressions* in a new environment below the one the macro
was defined in, and its body is evaluated there, once. -/
inductive Expands (C : Conf) (m : Nat) (xs : List Data) (s : Store) : Out Data → Store → Prop where
  | run {mr pr ps rest r s'} : s.macs[m]? = some mr → s.envs[mr.env]? = some pr → Params mr.params ps rest → Fits ps rest xs.length →
      Evals C mr.body s.envs.length (pushEnv s mr.env pr none mr.name (paramBinds ps rest xs)) r s' → Expands C m xs s r s'
  | count {mr pr ps rest msg} : s.macs[m]? = some mr → s.envs[mr.env]? = some pr → Params mr.params ps rest → ¬ Fits ps rest xs.length →
      msg = (mr.name ++ " expected " ++ (if rest.isSome then "at least " else "") ++ numText ps.length ++ " parameters, received " ++
        numText xs.length ++ ".") →
      Expands C m xs s (.err (.msg msg)) (pushEnv s mr.env pr none mr.name [])

/-- A macro a program can have made. -/
def GoodMac (s : Store) (mr : MacRec) : Prop :=
  (∃ pr, s.envs[mr.env]? = some pr) ∧ ∃ ps rest, Params mr.params ps rest ∧ (ps = [] → rest = none)

/-- Binding a name in an environment: refused when it has a protected binding there. -/
def BindsName (s : Store) (e : Nat) (x : String) (v : Data) (r : Out Data) (s' : Store) : Prop :=
  ((∃ b, s.localB e x = some b ∧ b.prot = true) ∧ r = .err (.msg (x ++ " is a protected binding")) ∧ s' = s) ∨
  ((∀ b, s.localB e x = some b → b.prot = false) ∧ r = .ok v ∧ s' = s.putVal e x v)

end Golisp.Spec
