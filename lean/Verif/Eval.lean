import Verif.Store
import Verif.Arity
import Verif.Reader
import Verif.Sort
/-
Model of the evaluator: `data.go:1071-1270`, `function.go`, `macro.go`, `primitive_function.go:226-274`, the lookup and
assignment functions of `symbol_table_frame.go`, and the special forms of `prim_special_forms.go`, `prim_macros.go`,
`prim_mutators.go` (`set!`), `prim_relative_logical.go` (`and`, `or`) and `prim_system.go` (`on-error`).

Not modelled: the debugger and tracing hooks of `evalHelper` (`data.go:1129-1142,1166-1168,1177-1180,1192-1195`), the
profiler, `Function.ParentProcess` (`function.go:108-115`, only set for forked code), the restarts of an interactive
session (`ProcessError` with `DebugOnError`, `prim_debug.go:254-262`).
-/
namespace Golisp.Ev
open Golisp Data Prog

/-- The parts of the world the model leaves open. -/
structure Host where
  /-- Map iteration order in the search for slots (`frame.go`). -/
  ord : Frame.Order
  /-- The printer `String` (`data.go:944-1061`), which for functions, primitives and frames depends on the state and on
  addresses. -/
  «show» : Store → Data → String
  /-- The order in which `range` visits the keys of a map.  (Go may choose another one each time; here it depends on the
  keys only.) -/
  iter : List String → List String
  iterPerm : ∀ l, (iter l).Perm l
  /-- `ioutil.ReadFile` (`parser.go:313-321`): the contents of a file, read as characters.  Files do not change. -/
  files : String → Option String
  /-- `strings.ToUpper`, `strings.ToLower`. -/
  upper : String → String
  lower : String → String
  /-- What the reader leaves open (`Verif.Reader`). -/
  reader : Reader.Host
  /-- The algorithm of `sort.Slice` for each length (`Verif.Sort`); it stays within the array. -/
  sorter : Nat → Sorting.Tree
  sorterOk : ∀ n, Spec.InRange n (sorter n)
  /-- `math.Pow`, and the functions of Go's `math` given to `makeUnaryFloatFunction`, rounded to float32. -/
  pow : BitVec 32 → BitVec 32 → BitVec 32
  math : String → BitVec 32 → BitVec 32

/-- A registered primitive (`primitive_function.go:30-68`): count specification, `Special`, `IsRestricted`, `Body`. -/
structure PrimDef where
  args : List Char
  special : Bool
  restricted : Bool
  body : Data → Nat → Prog Data

/-- An interpreter: host and primitives by name. -/
structure Conf where
  host : Host
  prims : String → Option PrimDef

/-- Text of an error (`data.go:1175`, `function.go:140`).  The printed expression is that of the state in which the
text is asked for (the code prints when the error is raised; they differ only for frames mutated in between). -/
def Host.errText (H : Host) (s : Store) : Err → String
  | .msg m => m
  | .evaling d e => "\nEvaling " ++ H.show s d ++ ". " ++ H.errText s e
  | .inFn n e => "In '" ++ n ++ "': " ++ H.errText s e

/-- Fail with a message that quotes a value: pre ++ String(d) ++ post. -/
def failShow {α : Type} (H : Host) (pre : String) (d : Data) (post : String) : Prog α :=
  .get fun s => .fail (pre ++ H.show s d ++ post)

/-- Decimal number in an error message. -/
def numText (n : Nat) : String := String.ofList (Prim.formatInt 10 n)

/-- `TypeName(TypeOf(d))` (`data.go:80-126`). -/
def typeName : Data → String
  | .null => "Nil"
  | .cell .cons _ _ => "List"
  | .cell .alist _ _ => "Association List"
  | .cell .acell _ _ => "Association List Cell"
  | .atom (.int _) => "Integer"
  | .atom (.flt _) => "Float"
  | .atom (.bool _) => "Boolean"
  | .atom (.str _) => "String"
  | .atom (.sym _) => "Symbol"
  | .atom (.func _) => "Function"
  | .atom (.macro _) => "Macro"
  | .atom (.prim _) => "Primitive"
  | .atom (.frame _) => "Frame"
  | .atom (.env _) => "Environment"
  | .atom (.port _) => "Port"
  | .atom (.bytes _) => "Go Object"
  | .atom (.obj _ _) => "Go Object"

/-- `NakedP` (`data.go:173-175`): a symbol ending in `:`. -/
def isNaked : Data → Bool
  | .atom (.sym x) => x.toList.getLast? == some ':'
  | _ => false

/-- `NakedSymbolFrom` (`data.go:384-386`) as a slot name. -/
def nakedName (x : String) : String := x ++ ":"

/-! ### Variables -/

/-- Mark a user function as reached through a local binding or slot (1) or not (0)
(`symbol_table_frame.go:284-286,295-297,307-309`), then return the value. -/
def markFn (v : Data) (b : Bool) : Prog Data :=
  match v with
  | .atom (.func f) => do let _ ← op (.flag f b); pure v
  | _ => pure v

/-- The frame slot `x:` seen from environment `e` (`symbol_table_frame.go:290-293`): `none` when there is
no frame or no such slot. -/
def slotOf (H : Host) (s : Store) (e : Nat) (x : String) : Out (Option (Nat × Data)) :=
  match s.frameOf e with
  | none => .ok none
  | some i =>
    match Frame.hasSlot s.frames H.ord i (nakedName x) with
    | .ok true =>
      match Frame.get s.frames H.ord i (nakedName x) with
      | .ok v => .ok (some (i, v))
      | .err er => .err er
      | .panic => .panic
      | .timeout => .timeout
    | .ok false => .ok none
    | .err er => .err er
    | .panic => .panic
    | .timeout => .timeout

/-- `ValueOfWithFunctionSlotCheck` (`symbol_table_frame.go:281-314`).  An unbound name has the value `()`. -/
def valueOf (H : Host) (need : Bool) (x : String) (e : Nat) : Prog Data :=
  .get fun s =>
    match s.localB e x with
    | some b => markFn b.val true
    | none => do
      let sl ← ofOut (slotOf H s e x)
      let other : Prog Data :=
        match s.find e x with
        | some (_, b) => markFn b.val false
        | none => pure emptyCons
      match sl with
      | some (_, v) => if isFunc v then markFn v true else if !need then pure v else other
      | none => other

/-- `SetTo` (`symbol_table_frame.go:233-261`). -/
def setTo (H : Host) (x : String) (v : Data) (e : Nat) : Prog Data :=
  .get fun s =>
    match s.localB e x with
    | some _ => do let _ ← op (.assign e x v); pure v
    | none =>
      let other : Prog Data :=
        match s.find e x with
        | some (e', _) => do let _ ← op (.assign e' x v); pure v
        | none => .fail (x ++ " is undefined")
      match s.frameOf e with
      | none => other
      | some i => do
        let b ← ofOut (Frame.hasSlot s.frames H.ord i (nakedName x))
        if b then do let _ ← op (.setSlot i (nakedName x) v); pure v else other

/-! ### Sequences -/

/-- The loop `for c := exprs; NotNilP(c); c = Cdr(c) { result, err = Eval(Car(c), env) … }`, `res` being the variable
`result` before the loop. -/
def evalSeq (e : Nat) : List Data → Data → Prog Data
  | [], res => pure res
  | x :: xs, _ => do let v ← eval x e; evalSeq e xs v

/-- Evaluate all, in order. -/
def evalAll (e : Nat) : List Data → Prog (List Data)
  | [] => pure []
  | x :: xs => do
    let v ← eval x e
    let vs ← evalAll e xs
    pure (v :: vs)

/-- `evaluateBody` (`prim_special_forms.go:35-43`). -/
def evaluateBody (exprs : Data) (e : Nat) : Prog Data := evalSeq e (toArray exprs) null

/-! ### User functions and macros -/

/-- `computeRequiredArgumentCount` (`function.go:29-41`). -/
def requiredArgs : Data → Nat × Bool
  | .null => (0, false)
  | .atom (.sym _) => (0, true)
  | .atom _ => (1, false)
  | .cell k a d => if isNil (.cell k a d) then (0, false) else ((requiredArgs d).1 + 1, (requiredArgs d).2)

/-- The count test of `makeLocalBindings` (`function.go:53-61`, `macro.go:33-41`). -/
def countOk (params : Data) (n : Nat) : Bool :=
  if (requiredArgs params).2 then !(n < (requiredArgs params).1) else n == (requiredArgs params).1

/-- The loop of `makeLocalBindings` (`function.go:66-93`): `p` is the rest of the parameters, `acc` the accumulating
parameter and the values collected so far.  `get` evaluates the argument or returns it as it is. -/
def bindLoop (get : Data → Prog Data) (le : Nat) : List Data → Data → Option (String × List Data) → Prog Unit
  | [], _, none => pure ()
  | [], _, some (x, vs) => do let _ ← op (.bind le x (ofArray vs)); pure ()
  | a :: as, p, none => do
    let v ← get a
    let _ ← op (.bind le (stringValue (car p)) v)
    let p' := cdr p
    bindLoop get le as p' (if isSym p' then some (stringValue p', []) else none)
  | a :: as, p, some (x, vs) => do
    let v ← get a
    bindLoop get le as p (some (if isSym p then stringValue p else x, vs ++ [v]))

/-- `makeLocalBindings` (`function.go:52-98`, `macro.go:32-79`). -/
def makeLocalBindings (name : String) (params args : Data) (ae le : Nat) (ev : Bool) : Prog Unit :=
  if countOk params (length args) then
    bindLoop (fun a => if ev then eval a ae else pure a) le (toArray args) params none
  else
    .fail (name ++ " expected " ++ (if (requiredArgs params).2 then "at least " else "") ++
      numText (requiredArgs params).1 ++ " parameters, received " ++ numText (length args) ++ ".")

/-- Run `p`, wrapping its error as `function.go:139-141` does. -/
def inFn (name : String) (p : Prog Data) : Prog Data :=
  p.attempt fun r => match r with
    | .ok v => .ret v
    | .error e => .err (.inFn name e)

/-- The part of `internalApply` that binds `self` (`function.go:103-114`). -/
def bindSelf (s : Store) (slot : Bool) (frame : Option Nat) (ae le : Nat) : Prog Unit :=
  match frame with
  | some i => do let _ ← op (.bind le "self" (.atom (.frame i))); pure ()
  | none =>
    if slot then
      match s.localB ae "self" with
      | some b => do let _ ← op (.bind le "self" b.val); pure ()
      | none => pure ()
    else pure ()

/-- `internalApply` of a function (`function.go:100-149`) and its four callers (151-165). -/
def callFn (f : Nat) (args : Data) (ae : Nat) (frame : Option Nat) (ev : Bool) : Prog Data :=
  .get fun s =>
    match s.fns[f]? with
    | none => .panic
    | some fr => do
      let le ← op (.newEnv fr.env frame fr.name)
      bindSelf s fr.slot frame ae le
      makeLocalBindings fr.name fr.params args ae le ev
      inFn fr.name (evaluateBody fr.body le)

/-- The frame used by `Apply` and `ApplyWithoutEval` (`data.go:1230,1254`): the environment's, when the function is
marked as a slot function. -/
def callFrame (s : Store) (f : Nat) (e : Nat) : Option Nat :=
  match s.fns[f]? with
  | some fr => if fr.slot then s.frameOf e else none
  | none => none

/-- `Macro.Expand` (`macro.go:81-89`). -/
def expandMacro (m : Nat) (args : Data) (ae : Nat) : Prog Data :=
  .get fun s =>
    match s.macs[m]? with
    | none => .panic
    | some mr => do
      let le ← op (.newEnv mr.env none mr.name)
      makeLocalBindings mr.name mr.params args ae le false
      eval mr.body le

/-- `Macro.internalApply` (`macro.go:91-98`). -/
def callMacro (m : Nat) (args : Data) (ae : Nat) : Prog Data := do
  let d ← expandMacro m args ae
  eval d ae

/-! ### Primitives -/

/-- `PrimitiveFunction.Apply` (`primitive_function.go:226-266`). -/
def primApply (C : Conf) (name : String) (args : Data) (e : Nat) : Prog Data :=
  match C.prims name with
  | none => .panic
  | some P =>
    .get fun s =>
      if P.restricted && s.restrictedEnv e then
        .fail ("The " ++ name ++ " primitive is restricted from execution in this environment\n")
      else if !Arity.checkArgumentCount (Arity.parseNumArgs P.args) (length args) then
        .fail ("Wrong number of args to " ++ name ++ ", expected " ++
          String.ofList (Arity.argsString (Arity.parseNumArgs P.args)) ++ " but got " ++ numText (length args) ++ ".")
      else do
        let vs ← if P.special then pure (toArray args) else evalAll e (toArray args)
        P.body (ofArray vs) e

/-- `PrimitiveFunction.ApplyWithoutEval` (`primitive_function.go:268-274`). -/
def primApplyNoEval (C : Conf) (name : String) (args : Data) (e : Nat) : Prog Data :=
  match C.prims name with
  | none => .panic
  | some P => if P.special then primApply C name args e else primApply C name (quoteAll args) e

/-! ### Eval and apply -/

def stripSuffix (suf : List Char) (s : List Char) : Option (List Char) :=
  if suf.isSuffixOf s then some (s.take (s.length - suf.length)) else none

/-- `postProcessShortcuts` (`data.go:1071-1101`), by the characters of the symbol in operator position. -/
def shortcutCases (x : List Char) (d : Data) : Data :=
  if ("<-".toList).isPrefixOf x then
    listWithTail [sym "channel-read", sym (String.ofList (x.drop 2))] (cdr d)
  else match stripSuffix "<-".toList x with
  | some y => listWithTail [sym "channel-write", sym (String.ofList y)] (cdr d)
  | none => match stripSuffix ":".toList x with
  | some _ => listWithTail [sym "get-slot", car (cdr d), car d] (cdr (cdr d))
  | none => match stripSuffix "!".toList x, stripSuffix ":!".toList x with
  | some y, some _ => listWithTail [sym "set-slot!", car (cdr d), sym (String.ofList y), car (cdr (cdr d))] (cdr (cdr (cdr d)))
  | _, _ => match stripSuffix "?".toList x, stripSuffix ":?".toList x with
  | some y, some _ => listWithTail [sym "has-slot?", car (cdr d), sym (String.ofList y)] (cdr (cdr d))
  | _, _ => match stripSuffix ">".toList x, stripSuffix ":>".toList x with
  | some y, some _ => listWithTail [sym "send", car (cdr d), sym (String.ofList y)] (cdr (cdr d))
  | _, _ => match stripSuffix "^".toList x, stripSuffix ":^".toList x with
  | some y, some _ => listWithTail [sym "send-super", sym (String.ofList y)] (cdr d)
  | _, _ => d

/-- `postProcessShortcuts` (`data.go:1071-1101`). -/
def shortcuts (d : Data) : Data :=
  match car d with
  | .atom (.sym x) => shortcutCases x.toList d
  | _ => d

/-- `Apply` (`data.go:1223-1245`). -/
def apply (C : Conf) (fn args : Data) (e : Nat) : Prog Data :=
  match fn with
  | .atom (.func f) => .get fun s => callFn f args e (callFrame s f e) true
  | .atom (.macro m) => callMacro m args e
  | .atom (.prim name) => primApply C name args e
  | d => if isNil d then .fail "Nil when function expected."
         else failShow C.host (typeName d ++ " when function or macro expected for ") d "."

/-- `ApplyWithoutEval` (`data.go:1247-1270`): only the nil pointer is tested for. -/
def applyNoEval (C : Conf) (fn args : Data) (e : Nat) : Prog Data :=
  match fn with
  | .atom (.func f) => .get fun s => callFn f args e (callFrame s f e) false
  | .atom (.macro m) => callMacro m args e
  | .atom (.prim name) => primApplyNoEval C name args e
  | .null => .fail "Nil when function or macro expected."
  | d => failShow C.host (typeName d ++ " when function or macro expected for ") d "."

/-- The cons-cell case of `evalHelper` (`data.go:1147-1181`), after `postProcessShortcuts`. -/
def evalCombination (C : Conf) (d : Data) (e : Nat) : Prog Data :=
  if isNil d then pure emptyCons
  else do
    let fn ← evalNeed true (car d) e
    if isNil fn then failShow C.host "Nil when function or macro expected for " (car d) "."
    else
      (apply C fn (cdr d) e).attempt fun r => match r with
        | .ok v => .ret v
        | .error er => .err (.evaling d er)

/-- `evalHelper` (`data.go:1128-1197`). -/
def evalHelper (C : Conf) (need : Bool) (d : Data) (e : Nat) : Prog Data :=
  match d with
  | .cell .cons _ _ => evalCombination C (shortcuts d) e
  | .atom (.sym x) => if isNaked d then pure d else valueOf C.host need x e
  | d => pure d

/-! ### Special forms -/

/-- `cond` (`prim_special_forms.go:45-66`).  (Only frames depend on the state in comparisons, and `else` is none.) -/
def condLoop (e : Nat) : List Data → Prog Data
  | [] => pure null
  | cl :: cls =>
    if !isPair cl then .fail "Cond expect a sequence of clauses that are lists"
    else if @isEqual .none (car cl) (sym "else") then evaluateBody (cdr cl) e
    else do
      let c ← eval (car cl) e
      if boolValue c then evaluateBody (cdr cl) e else condLoop e cls
def condImpl (args : Data) (e : Nat) : Prog Data := condLoop e (toArray args)

/-- `case` (`prim_special_forms.go:68-97`). -/
def caseLoop [FrEq] (key : Data) (e : Nat) : List Data → Prog Data
  | [] => pure null
  | cl :: cls =>
    if !isPair cl then .fail "Case expectes a sequence of clauses that are lists"
    else if isEqual (car cl) (sym "else") then evaluateBody (cdr cl) e
    else if isListP (car cl) then
      if (toArray (car cl)).any (fun v => isEqual v key) then evaluateBody (cdr cl) e else caseLoop key e cls
    else .fail "Case the condition part of clauses to be lists of 'else"
def caseImpl (args : Data) (e : Nat) : Prog Data := do
  let key ← eval (car args) e
  .get fun s => @caseLoop (Frame.eqIn s.frames) key e (toArray (cdr args))

/-- `if` (`prim_special_forms.go:99-110`). -/
def ifImpl (args : Data) (e : Nat) : Prog Data := do
  let c ← eval (car args) e
  if boolValue c then eval (nth args 2) e else eval (nth args 3) e

/-- `when` (`prim_special_forms.go:112-128`). -/
def whenImpl (args : Data) (e : Nat) : Prog Data := do
  let c ← eval (car args) e
  if boolValue c then evaluateBody (cdr args) e else pure null

/-- `unless` (`prim_special_forms.go:130-146`). -/
def unlessImpl (args : Data) (e : Nat) : Prog Data := do
  let c ← eval (car args) e
  if !boolValue c then evaluateBody (cdr args) e else pure null

/-- `and` (`prim_relative_logical.go:121-129`). -/
def andLoop (e : Nat) : List Data → Data → Prog Data
  | [], res => pure res
  | x :: xs, _ => do
    let v ← eval x e
    if !boolValue v then pure v else andLoop e xs v
def andImpl (args : Data) (e : Nat) : Prog Data := andLoop e (toArray args) null

/-- `or` (`prim_relative_logical.go:131-139`). -/
def orLoop (e : Nat) : List Data → Data → Prog Data
  | [], res => pure res
  | x :: xs, _ => do
    let v ← eval x e
    if boolValue v then pure v else orLoop e xs v
def orImpl (args : Data) (e : Nat) : Prog Data := orLoop e (toArray args) null

/-- `FunctionWithNameParamsBodyAndParent` (`data.go:388-390`). -/
def mkFn (name : String) (params body : Data) (e : Nat) : Prog Data := do
  let i ← op (.newFn name params body e)
  pure (.atom (.func i))

/-- `lambda` (`prim_special_forms.go:148-156`). -/
def lambdaImpl (args : Data) (e : Nat) : Prog Data :=
  if !isPair (car args) then .fail "A lambda requires a parameter list"
  else mkFn "unnamed" (car args) (cdr args) e

/-- `named-lambda` (`prim_special_forms.go:158-171`). -/
def namedLambdaImpl (args : Data) (e : Nat) : Prog Data :=
  if !isPair (car args) then .fail "A lambda requires a name/parameter list"
  else if !isSym (car (car args)) then .fail "A named lambda requires a name that is a symbol"
  else mkFn (stringValue (car (car args))) (cdr (car args)) (cdr args) e

/-- `define` (`prim_special_forms.go:173-202`). -/
def defineImpl (H : Host) (args : Data) (e : Nat) : Prog Data :=
  let thing := car args
  if isSym thing then do
    let v ← eval (car (cdr args)) e
    let _ ← op (.bind e (stringValue thing) v)
    pure v
  else if isPair thing then
    if !isSym (car thing) then .fail "Function name has to be a symbol"
    else do
      let old ← valueOf H false (stringValue (car thing)) e
      if isPrim old then .fail ("Primitive function " ++ stringValue (car thing) ++ " can not be redefined.")
      else do
        let v ← mkFn (stringValue (car thing)) (cdr thing) (cdr args) e
        let _ ← op (.bind e (stringValue (car thing)) v)
        pure v
  else .fail "Invalid definition"

/-- `defmacro` (`prim_special_forms.go:204-223`). -/
def defmacroImpl (args : Data) (e : Nat) : Prog Data :=
  let thing := car args
  if isPair thing then
    if !isSym (car thing) then .fail "Macro name has to be a symbol"
    else do
      let i ← op (.newMac (stringValue (car thing)) (cdr thing) (car (cdr args)) e)
      let _ ← op (.bind e (stringValue (car thing)) (.atom (.macro i)))
      pure (.atom (.macro i))
  else .fail "Invalid macro definition"

/-- First loop of `bindLetLocals` (`prim_special_forms.go:229-247`). -/
def checkBindings (rec : Bool) (le : Nat) : List Data → Prog Unit
  | [] => pure ()
  | b :: bs =>
    if !isPair b then .fail "Let requires a list of bindings (with are pairs) as it's first argument"
    else if !isSym (car b) then .fail "First part of a let binding pair must be a symbol"
    else if rec then do
      let _ ← op (.bind le (stringValue (car b)) null)
      checkBindings rec le bs
    else checkBindings rec le bs

/-- Second loop of `bindLetLocals` (`prim_special_forms.go:249-260`). -/
def bindAll (ee le : Nat) : List Data → Prog Unit
  | [] => pure ()
  | b :: bs => do
    let v ← eval (car (cdr b)) ee
    let _ ← op (.bind le (stringValue (car b)) v)
    bindAll ee le bs

/-- `bindLetLocals` (`prim_special_forms.go:225-262`). -/
def bindLetLocals (forms : Data) (rec : Bool) (le ee : Nat) : Prog Unit := do
  checkBindings rec le (toArray forms)
  bindAll ee le (toArray forms)

/-- `LetCommon` (`prim_special_forms.go:264-292`). -/
def letCommon (star rec : Bool) (args : Data) (e : Nat) : Prog Data :=
  if !isPair (car args) then .fail "Let requires a list of bindings as it's first argument"
  else do
    let le ← op (.newEnv e none "let")
    bindLetLocals (car args) rec le (if star || rec then le else e)
    evaluateBody (cdr args) le

/-- Variables and initial values of a named `let` (`prim_special_forms.go:309-317`): `none` when a name is not a
symbol. -/
def namedLetVars : List Data → Option (List Data × List Data)
  | [] => some ([], [])
  | b :: bs =>
    if !isSym (car b) then none
    else match namedLetVars bs with
      | none => none
      | some (xs, is) => some (car b :: xs, car (cdr b) :: is)

/-- `namedLetImpl` (`prim_special_forms.go:294-332`). -/
def namedLetImpl (args : Data) (e : Nat) : Prog Data :=
  let bindings := car (cdr args)
  if !isPair bindings then .fail "A named let requires a list of bindings as it's second argument"
  else match namedLetVars (toArray bindings) with
    | none => .fail "The first element of a binding must be a symbol"
    | some (xs, is) => do
      let name := stringValue (car args)
      let le ← op (.newEnv e none name)
      let _ ← op (.bind le name null)
      let i ← op (.newFn name (ofArray xs) (cdr (cdr args)) le)
      let _ ← op (.bind le name (.atom (.func i)))
      callFn i (ofArray is) e none true

/-- `let`, `let*`, `letrec` (`prim_special_forms.go:334-348`). -/
def letImpl (args : Data) (e : Nat) : Prog Data :=
  if isSym (car args) then namedLetImpl args e else letCommon false false args e
def letStarImpl (args : Data) (e : Nat) : Prog Data := letCommon true false args e
def letRecImpl (args : Data) (e : Nat) : Prog Data := letCommon false true args e

/-- `begin` (`prim_special_forms.go:350-359`). -/
def beginImpl (args : Data) (e : Nat) : Prog Data := evaluateBody args e

/-- First loop of `rebindDoLocals` (`prim_special_forms.go:367-380`): names and new values. -/
def stepValues (H : Host) (e : Nat) : List Data → Prog (List (String × Data))
  | [] => pure []
  | b :: bs => do
    let v ← if !isNil (nth b 3) then eval (nth b 3) e else valueOf H false (stringValue (nth b 1)) e
    let r ← stepValues H e bs
    pure ((stringValue (nth b 1), v) :: r)

/-- Second loop of `rebindDoLocals` (`prim_special_forms.go:382-387`). -/
def bindPairs (e : Nat) : List (String × Data) → Prog Unit
  | [] => pure ()
  | (x, v) :: r => do
    let _ ← op (.bind e x v)
    bindPairs e r

/-- `rebindDoLocals` (`prim_special_forms.go:361-389`). -/
def rebindDoLocals (H : Host) (bindings : Data) (e : Nat) : Prog Unit := do
  let l ← stepValues H e (toArray bindings)
  bindPairs e l

/-- One iteration of the loop of `do` (`prim_special_forms.go:414-443`).  A failed rebinding ends the loop *without*
error, the result being whatever `result` holds (line 440). -/
def doIter (H : Host) (bindings test body res : Data) (e : Nat) : Prog Data := do
  let c ← eval (car test) e
  if boolValue c then evalSeq e (toArray (cdr test)) res
  else do
    let r ← evalSeq e (toArray body) res
    (rebindDoLocals H bindings e).attempt fun x => match x with
      | .ok _ => doLoop bindings test body r e
      | .error _ => .ret r

/-- `do` (`prim_special_forms.go:391-445`). -/
def doImpl (args : Data) (e : Nat) : Prog Data :=
  if !isPair (car args) then .fail "Do requires a list of bindings as it's first argument"
  else if !isPair (car (cdr args)) then .fail "Do requires a list as it's second argument"
  else do
    let le ← op (.newEnv e none "do")
    bindLetLocals (car args) false le e
    doLoop (car args) (car (cdr args)) (cdr (cdr args)) null le

/-- The argument list of `apply` and `apply-slot` (`prim_special_forms.go:455-466`, `prim_frame.go:255-272`): all but
the last argument, then the elements of the last.  No argument at all is an index error. -/
def spread (ary : List Data) : Out Data :=
  match ary.getLast? with
  | none => .panic
  | some l =>
    if isListP l then
      if ary.length > 1 then .ok (listWithTail ary.dropLast l) else .ok (ary.headD null)
    else .err (.msg "The last argument to apply must be a list")

/-- `apply` (`prim_special_forms.go:447-469`). -/
def applyImpl (H : Host) (args : Data) (e : Nat) : Prog Data :=
  if !isFuncOrPrim (car args) then
    failShow H "apply requires a function as it's first argument, but got " (car args) "."
  else do
    let l ← ofOut (spread (toArray (cdr args)))
    app (car args) l e

/-- The expression evaluated for one step of `->` and `=>` (`prim_special_forms.go:481-486,506-511`). -/
def chainExpr (sexpr v : Data) : Data :=
  if isListP sexpr then cons (car sexpr) (cons v (cdr sexpr)) else cons sexpr (cons v null)

/-- `->` (`prim_special_forms.go:471-494`). -/
def chainLoop (e : Nat) : List Data → Data → Prog Data
  | [], v => pure v
  | x :: xs, v => do let v' ← eval (chainExpr x v) e; chainLoop e xs v'
def chainImpl (args : Data) (e : Nat) : Prog Data := do
  let v ← eval (car args) e
  chainLoop e (toArray (cdr args)) v

/-- `=>` (`prim_special_forms.go:496-519`). -/
def tapLoop (e : Nat) (v : Data) : List Data → Prog Data
  | [] => pure v
  | x :: xs => do let _ ← eval (chainExpr x v) e; tapLoop e v xs
def tapImpl (args : Data) (e : Nat) : Prog Data := do
  let v ← eval (car args) e
  tapLoop e v (toArray (cdr args))

/-- `definition-of` (`prim_special_forms.go:521-544`). -/
def definitionOfImpl (args : Data) (e : Nat) : Prog Data := do
  let name := if isSym (car args) then car args else sym "anonymous"
  let f ← eval (car args) e
  match f with
  | .atom (.func i) => .get fun s =>
    match s.fns[i]? with
    | none => .panic
    | some fr =>
      if fr.name = "unnamed" then
        pure (cons (sym "define") (cons name (cons (cons (sym "lambda") (cons fr.params fr.body)) null)))
      else pure (cons (sym "define") (cons (cons (sym fr.name) fr.params) fr.body))
  | f => .fail ("code requires a function argument, but received a " ++ typeName f ++ ".")

/-! ### Quotation -/

/-- `quote` (`prim_macros.go:22-28`). -/
def quoteImpl (args : Data) (_ : Nat) : Prog Data := pure (noNull (car args))

/-- Which of the three marks the list starts with (`prim_macros.go:33,39,57`). -/
def headIs (x : String) (d : Data) : Bool := isSym (car d) && stringValue (car d) == x

/-- The loop over the elements of a list (`prim_macros.go:79-87`): a nil result contributes nothing. -/
def qqEach (f : Data → Prog Data) : List Data → Prog (List Data)
  | [] => pure []
  | x :: xs => do
    let p ← f x
    let ps ← qqEach f xs
    pure (if p = null then ps else p :: ps)

/-- `processQuasiquoted` (`prim_macros.go:30-96`).  The first argument bounds the nesting; the size of the template is
enough (`qq_fuel`). -/
def qq : Nat → Data → Nat → Nat → Prog Data
  | 0, _, _, _ => .panic
  | n + 1, x, level, e =>
    if !isListP x then pure (cons x null)
    else if headIs "quasiquote" x then do
      let p ← qq n (car (cdr x)) (level + 1) e
      pure (cons (cons (sym "quasiquote") p) null)
    else if headIs "unquote" x then
      if level = 1 then do
        let p ← qq n (car (cdr x)) level e
        let r ← eval (car p) e
        pure (cons r null)
      else do
        let p ← qq n (car (cdr x)) (level - 1) e
        pure (cons (cons (sym "unquote") p) null)
    else if headIs "unquote-splicing" x then
      if level = 1 then do
        let p ← qq n (car (cdr x)) level e
        let r ← eval (car p) e
        if isNil r then pure null else pure r
      else do
        let p ← qq n (car (cdr x)) (level - 1) e
        pure (cons (cons (sym "unquote-splicing") p) null)
    else do
      let parts ← qqEach (fun y => qq n y level e) (toArray x)
      pure (cons (flatten (ofArray parts)) null)

/-- `quasiquote` (`prim_macros.go:98-104`). -/
def quasiquoteImpl (args : Data) (e : Nat) : Prog Data := do
  let r ← qq (size (car args) + 1) (car args) 1 e
  pure (car r)

/-- `unquote`, `unquote-splicing` (`prim_macros.go:106-114`). -/
def unquoteImpl (_ : Data) (_ : Nat) : Prog Data :=
  .fail "unquote should not be used outside of a quasiquoted expression."
def unquoteSplicingImpl (_ : Data) (_ : Nat) : Prog Data :=
  .fail "unquote-splicing should not be used outside of a quasiquoted expression."

/-- `expand` (`prim_macros.go:116-126`). -/
def expandImpl (H : Host) (args : Data) (e : Nat) : Prog Data := do
  let n ← eval (car args) e
  match n with
  | .atom (.macro m) => expandMacro m (cdr args) e
  | n => failShow H "expand expected a macro, received " n ""

/-- `set!` (`prim_mutators.go:19-29`): the error for a non-symbol target is overwritten, and its `StringValue` is used
as the name. -/
def setVarImpl (H : Host) (args : Data) (e : Nat) : Prog Data := do
  let v ← eval (car (cdr args)) e
  setTo H (stringValue (car args)) v e

/-- `on-error` (`prim_system.go:81-112`). -/
def onErrorImpl (H : Host) (args : Data) (e : Nat) : Prog Data :=
  (eval (car args) e).attempt fun r => match r with
    | .ok v =>
      if length args = 3 then do
        let f ← eval (car (cdr (cdr args))) e
        match f with
        | .atom (.func i) => callFn i null e none true
        | _ => .fail "on-error requires a function as it's third argument"
      else .ret v
    | .error er => do
      let f ← eval (car (cdr args)) e
      match f with
      | .atom (.func i) => .get fun s => callFn i (ofArray [str (H.errText s er)]) e none true
      | _ => .fail "on-error requires a function as it's second argument"

/-! ### The interpreter -/

/-- The recursion of the interpreter. -/
def body (C : Conf) : Call → Prog Data
  | .eval need d e => evalHelper C need d e
  | .app f args e => applyNoEval C f args e
  | .doLoop bs t b r e => doIter C.host bs t b r e

end Golisp.Ev
