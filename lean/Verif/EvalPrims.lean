import Verif.TextPrims
import Verif.BytePrims
import Verif.Format
/-
The library primitives as interpreter programs, and the table of primitives.

Missing from the table (see DESIGN.md): primitives that mutate cells, strings or byte arrays in place (`set-car!`,
`set-cdr!`, `set-nth!`, `append!`, `acons`, `pairlis`, `string-upcase!`, `replace-byte!` etc.), and the JSON, channel,
process, file port, debugging and timing ones.
-/
namespace Golisp.Ev
open Golisp Data Prog

/-! ### Procedures applied to list elements: prim_list_functions.go -/

section callbacks
variable (f : Data → Prog Data)

/-- `Prim.mapLoop` as a program. -/
def mapLoopP : Nat → List Data → Prog (List Data)
  | 0, _ => pure []
  | n + 1, cols => do
    let v ← f (ofArray (cols.map car))
    let vs ← mapLoopP n (cols.map cdr)
    pure (v :: vs)

/-- `map` (`prim_list_functions.go:43-88`). -/
def mapP (cols : List Data) : Prog Data :=
  match Prim.mapScan cols with
  | some r => ofOut r
  | none => match Prim.minLen cols with
    | none => pure null
    | some n => do let vs ← mapLoopP f n cols; pure (ofArray vs)

def forEachLoopP : Nat → List Data → Prog Unit
  | 0, _ => pure ()
  | n + 1, cols => do
    let _ ← f (ofArray (cols.map car))
    forEachLoopP n (cols.map cdr)

/-- `for-each` (`prim_list_functions.go:90-129`). -/
def forEachP (cols : List Data) : Prog Data :=
  if !Prim.allLists cols then .fail "foreach needs lists as its other arguments"
  else match Prim.minLen cols with
    | none => pure null
    | some n => do let _ ← forEachLoopP f n cols; pure null

def anyLoopP : Nat → List Data → Prog Data
  | 0, _ => pure (.bool false)
  | n + 1, cols => do
    let b ← f (ofArray (cols.map car))
    if boolValue b then pure (.bool true) else anyLoopP n (cols.map cdr)

/-- `any` (`prim_list_functions.go:131-175`). -/
def anyP (cols : List Data) : Prog Data :=
  if !Prim.allLists cols then .fail "any needs lists as its other arguments"
  else match Prim.minLen cols with
    | none => pure null
    | some n => anyLoopP f n cols

def everyLoopP : Nat → List Data → Prog Data
  | 0, _ => pure (.bool true)
  | n + 1, cols => do
    let b ← f (ofArray (cols.map car))
    if !boolValue b then pure (.bool false) else everyLoopP n (cols.map cdr)

/-- `every` (`prim_list_functions.go:177-221`). -/
def everyP (cols : List Data) : Prog Data :=
  if !Prim.allLists cols then .fail "every needs lists as its other arguments"
  else match Prim.minLen cols with
    | none => pure null
    | some n => everyLoopP f n cols

def reduceFoldP (col : List Data) (rtl : Bool) : List Nat → Data → Prog Data
  | [], acc => pure acc
  | i :: is, acc => do
    let c := (col[if rtl then col.length - 1 - i else i]?).getD null
    let r ← f (ofArray (if rtl then [c, acc] else [acc, c]))
    reduceFoldP col rtl is r

/-- `reduceFoldProc` (`prim_list_functions.go:223-245`). -/
def reduceFoldProcP (init : Data) (col : List Data) (rtl : Bool) : Prog Data :=
  reduceFoldP f col rtl (List.range col.length) init

/-- `reduce`, `reduce-left` (`prim_list_functions.go:247-270`). -/
def reduceLeftP (init col : Data) : Prog Data :=
  if !isListP col then .fail "reduce-left needs a list as its third argument"
  else match toArray col with
    | [] => pure init
    | x :: xs => reduceFoldProcP f x xs false

/-- `reduce-right` (`prim_list_functions.go:272-295`). -/
def reduceRightP (init col : Data) : Prog Data :=
  if !isListP col then .fail "reduce-right needs a list as its third argument"
  else match (toArray col).getLast? with
    | none => pure init
    | some x => reduceFoldProcP f x (toArray col).dropLast true

/-- `fold-left` (`prim_list_functions.go:297-317`). -/
def foldLeftP (init col : Data) : Prog Data :=
  if !isListP col then .fail "fold-left needs a list as its third argument"
  else reduceFoldProcP f init (toArray col) false

/-- `fold-right` (`prim_list_functions.go:319-339`). -/
def foldRightP (init col : Data) : Prog Data :=
  if !isListP col then .fail "fold-right needs a list as its third argument"
  else reduceFoldProcP f init (toArray col) true

def filterLoopP (want : Bool) : List Data → Prog (List Data)
  | [] => pure []
  | x :: xs => do
    let v ← f (cons x null)
    match v with
    | .bool b => do
      let r ← filterLoopP want xs
      pure (if b = want then x :: r else r)
    | _ => .fail "filter needs a predicate function as its first argument."

/-- `filter` (`prim_list_functions.go:341-372`). -/
def filterP (col : Data) : Prog Data :=
  if !isListP col then .fail "filter needs a list as its second argument"
  else do let r ← filterLoopP f true (toArray col); pure (ofArray r)

/-- `remove` (`prim_list_functions.go:374-405`). -/
def removeP (col : Data) : Prog Data :=
  if !isListP col then .fail "remove needs a list as its second argument"
  else do let r ← filterLoopP f false (toArray col); pure (ofArray r)

/-- `find-tail` (`prim_list_functions.go:421-448`). -/
def findTailLoopP : Data → Prog Data
  | .null => pure (.bool false)
  | .cell k a d =>
    if isNil (.cell k a d) then pure (.bool false)
    else (f (ofArray [a])).attempt fun r => match r with
      | .ok (.bool true) => .ret (.cell k a d)
      | .ok (.bool false) => findTailLoopP d
      | _ => .fail "find-tail needs a predicate function as its first argument."
  | .atom x => (f (ofArray [null])).attempt fun r => match r with
      | .ok (.bool true) => .ret (.atom x)
      | .ok (.bool false) => .ret (.bool false)
      | _ => .fail "find-tail needs a predicate function as its first argument."
def findTailP (l : Data) : Prog Data :=
  if !isListP l then .fail "find-tail needs a list as its second argument" else findTailLoopP f l

/-- `find` (`prim_list_functions.go:450-476`). -/
def findLoopP : List Data → Prog Data
  | [] => pure (.bool false)
  | x :: xs => (f (ofArray [x])).attempt fun r => match r with
      | .ok (.bool true) => .ret x
      | .ok (.bool false) => findLoopP xs
      | _ => .fail "find needs a predicate function as its first argument."
def findP (l : Data) : Prog Data :=
  if !isListP l then .fail "find needs a list as its second argument" else findLoopP f (toArray l)

def partPredLoopP : List Data → List Data → List Data → Prog (List Data × List Data)
  | [], ts, fs => pure (ts, fs)
  | x :: xs, ts, fs => do
    let r ← f (ofArray [x])
    if boolValue r then partPredLoopP xs (ts ++ [x]) fs else partPredLoopP xs ts (fs ++ [x])

/-- `partitionByPredicate` (`prim_list_manipulation.go:167-188`). -/
def partPredP (l : Data) : Prog Data := do
  let p ← partPredLoopP f (toArray l) [] []
  pure (ofArray [ofArray p.1, ofArray p.2])
end callbacks

/-- The test of the first argument, then the body with `ApplyWithoutEval(f, ·, env)`. -/
def withFn (msg : String) (k : (Data → Prog Data) → Data → Prog Data) (args : Data) (e : Nat) : Prog Data :=
  if !isFuncOrPrim (car args) then .fail msg else k (fun a => app (car args) a e) (cdr args)

/-- `PartitionImpl` (`prim_list_manipulation.go:190-208`). -/
def partitionImpl (args : Data) (e : Nat) : Prog Data :=
  if !isInt (car args) && !isFuncOrPrim (car args) then
    .fail "partition requires an integer or function as it's first argument."
  else if !isListP (car (cdr args)) then .fail "partition requires a list as it's second argument."
  else if isInt (car args) then ofOut (Prim.partitionBySize (intValue (car args)) (car (cdr args)))
  else partPredP (fun a => app (car args) a e) (car (cdr args))

/-! ### prim_system.go -/

/-- `PrintString` (`data.go:1063-1069`). -/
def printString (H : Host) (s : Store) (d : Data) : String := if isStr d then stringValue d else H.show s d

/-- `concatStringForms` (`prim_system.go:140-149`). -/
def concatForms (H : Host) (s : Store) (args : Data) : String :=
  if isNil args || length args == 0 then "()" else String.join ((toArray args).map (printString H s))

/-- `str` (`prim_system.go:161-163`), `write-line` (151-154). -/
def strImpl (H : Host) (args : Data) (_ : Nat) : Prog Data := .get fun s => pure (str (concatForms H s args))
def writeLineImpl (H : Host) (args : Data) (_ : Nat) : Prog Data := .get fun s => do
  let _ ← op (.emit (concatForms H s args))
  pure null

/-! ### prim_io.go -/

/-- `PortP` (`data.go:221-223`). -/
def isPort : Data → Bool
  | .atom (.port _) => true
  | _ => false

/-- Write to the port that the optional argument names, standard output if there is none (`prim_io.go:105-115,122-133,
140-150`).  No modelled primitive makes a port; writing to one changes nothing in the modelled state. -/
def writeTo (n : Nat) (args p : Data) (name text : String) : Prog Data :=
  if length args = n then do
    let _ ← op (.print text)
    pure null
  else if isPort p then pure null
  else .fail name

/-- `write-string` (`prim_io.go:98-119`), `write` (121-137), `newline` (139-154). -/
def writeStringImpl (args : Data) (_ : Nat) : Prog Data :=
  if !isStr (car args) then .fail "write-string expects its first argument to be a string"
  else writeTo 1 args (car (cdr args)) "write-string expects its second argument be a port" (stringValue (car args))
def writeImpl (H : Host) (args : Data) (_ : Nat) : Prog Data := .get fun s =>
  writeTo 1 args (car (cdr args)) "write expects its second argument be a port" (H.show s (car args))
def newlineImpl (args : Data) (_ : Nat) : Prog Data :=
  writeTo 0 args (car args) "newline expects its argument be a port" "\n"

/-- An argument of `format`: how it prints and its value as an integer. -/
def fmtArg (H : Host) (s : Store) (d : Data) : Fmt.Arg :=
  ⟨bytes (printString H s d), bytes (H.show s d), match d with | .int i => some i.toInt | _ => none⟩

/-- `format` (`prim_io.go:199-354`).  The texts of the errors in the control string or in the number of arguments are not
modelled; nor is the crash of `strings.Repeat` for a padding that does not fit into memory. -/
def formatImpl (H : Host) (args : Data) (_ : Nat) : Prog Data :=
  if !isBool (car args) && !isPort (car args) then
    failShow H "format expects its second argument be a boolean or port, but was " (car args) ""
  else match car (cdr args) with
  | .str ctl => .get fun s =>
    match Fmt.format (bytes ctl) ((toArray (cdr (cdr args))).map (fmtArg H s)) with
    | .ok t =>
      if isPort (car args) then pure null
      else if boolValue (car args) then do
        let _ ← op (.print (stringValue (ofBytes t)))
        pure null
      else pure (ofBytes t)
    | .err => .fail "format"
    | .panic => .panic
  | _ => .fail "format expects its second argument be a string"

/-! ### Loading files -/

/-- The loop of `ParseAndEvalAllInEnvironment` (`parser.go:344-364`) on the forms of the text: it ends at the first form
that is nil, with the value of the form before it.  `bad`: the text ends in an error, whose text is not modelled. -/
def loadLoopP (e : Nat) (bad : Bool) : List Data → Data → Prog Data
  | [], v => if bad then .fail "parse" else pure v
  | d :: ds, v => if isNil d then pure v else do
    let v ← eval d e
    loadLoopP e bad ds v

/-- `load` (`prim_system.go:47-55`, `parser.go:323-342`): in `Global`, whatever the current environment.  The text of the
error for a file that cannot be read is not modelled. -/
def loadImpl (H : Host) (args : Data) (_ : Nat) : Prog Data :=
  if !isStr (car args) then .fail "Filename must be a string"
  else match H.files (stringValue (car args)) with
  | none => .fail "load"
  | some src =>
    let p := Reader.parseAll H.reader src.toList
    loadLoopP 0 p.2 p.1 null

/-! ### prim_concurrency.go: atomics -/

/-- `ObjectP(d) && ObjectType(d) == "Atomic"`, then `ObjectValue(d)`; else the error. -/
def withAtomic (name : String) (d : Data) (k : Nat → Prog Data) : Prog Data :=
  match d with
  | .atom (.obj ty a) => if ty = "Atomic" then k a else .fail (name ++ " expects an Atomic object but received " ++ ty ++ ".")
  | d => .fail (name ++ " expects an Atomic object but received " ++ Prim.objectType d ++ ".")

/-- `IntegerP(d)`, then `IntegerValue(d)`; else the error. -/
def withInt (name pos : String) (d : Data) (k : BitVec 64 → Prog Data) : Prog Data :=
  match d with
  | .int i => k i
  | d => .fail (name ++ " expects an Integer as its " ++ pos ++ "argument but received " ++ typeName d ++ ".")

def wordAt (s : Store) (a : Nat) : BitVec 64 := s.words[a]?.getD 0

/-- `atomic` (`prim_concurrency.go:281-294`). -/
def atomicImpl (args : Data) (_ : Nat) : Prog Data :=
  let make (v : BitVec 64) : Prog Data := do
    let a ← op (.newWord v)
    pure (.atom (.obj "Atomic" a))
  if length args = 1 then withInt "atomic" "" (car args) make else make 0

/-- `atomic-load` (`prim_concurrency.go:296-308`). -/
def atomicLoadImpl (args : Data) (_ : Nat) : Prog Data :=
  withAtomic "atomic-load" (car args) fun a => .get fun s => pure (.int (wordAt s a))

/-- `atomic-store!` (`prim_concurrency.go:310-331`). -/
def atomicStoreImpl (args : Data) (_ : Nat) : Prog Data :=
  withAtomic "atomic-store!" (car args) fun a => withInt "atomic-store!" "second " (car (cdr args)) fun v => do
    let _ ← op (.rmw a fun _ => v)
    pure null

/-- `atomic-add!` (`prim_concurrency.go:333-354`). -/
def atomicAddImpl (args : Data) (_ : Nat) : Prog Data :=
  withAtomic "atomic-add!" (car args) fun a => withInt "atomic-add!" "second " (car (cdr args)) fun v => do
    let w ← op (.rmw a (· + v))
    pure (.int (BitVec.ofNat 64 w + v))

/-- `atomic-swap!` (`prim_concurrency.go:356-377`). -/
def atomicSwapImpl (args : Data) (_ : Nat) : Prog Data :=
  withAtomic "atomic-swap!" (car args) fun a => withInt "atomic-swap!" "second " (car (cdr args)) fun v => do
    let w ← op (.rmw a fun _ => v)
    pure (.int (BitVec.ofNat 64 w))

/-- `atomic-compare-and-swap!` (`prim_concurrency.go:379-408`). -/
def atomicCasImpl (args : Data) (_ : Nat) : Prog Data :=
  withAtomic "atomic-compare-and-swap!" (car args) fun a =>
  withInt "atomic-compare-and-swap!" "second " (car (cdr args)) fun old =>
  withInt "atomic-compare-and-swap!" "third " (car (cdr (cdr args))) fun new => do
    let w ← op (.rmw a fun w => if w = old then new else w)
    pure (.bool (decide (BitVec.ofNat 64 w = old)))

/-! ### prim_system.go, continued -/

/-- `error` (`prim_system.go:77-79`), `panic!` (73-75). -/
def errorImpl (H : Host) (args : Data) (_ : Nat) : Prog Data := failShow H "" (car args) ""
def panicImpl (_ : Data) (_ : Nat) : Prog Data := .panic

/-- `intern` (`prim_system.go:181-189`). -/
def internImpl (H : Host) (args : Data) (_ : Nat) : Prog Data :=
  if !isStr (car args) then failShow H "intern expects a string, but received " (car args) "."
  else pure (sym (stringValue (car args)))

/-- The prefix chosen by `gensymHelper` (`prim_system.go:191-206`; the count test of line 192 cannot fail after the
primitive's own). -/
def gensymPrefix (H : Host) (name : String) (args : Data) : Prog String :=
  if length args = 0 then pure "GENSYM"
  else if !isStr (car args) && !isSym (car args) then
    failShow H (name ++ " expects a string or symbol, but recieved ") (car args) "."
  else pure (stringValue (car args))

/-- `gensym` (`prim_system.go:217-224`), `gensym-naked` (226-233). -/
def gensymName (pre : String) (n : Nat) : String := pre ++ "-" ++ numText n
def gensymImpl (H : Host) (args : Data) (_ : Nat) : Prog Data := do
  let p ← gensymPrefix H "gensym" args
  let n ← op (.gensym p)
  pure (sym (gensymName p n))
def gensymNakedImpl (H : Host) (args : Data) (_ : Nat) : Prog Data := do
  let p ← gensymPrefix H "gensym-naked" args
  let n ← op (.gensym p)
  pure (sym (nakedName (gensymName p n)))

/-- `eval` (`prim_system.go:235-248`), `global-eval` (250-252). -/
def evalImpl (H : Host) (args : Data) (e : Nat) : Prog Data :=
  if length args = 2 then
    match car (cdr args) with
    | .atom (.env e') => eval (car args) e'
    | d => failShow H "eval expects an environment as it's second argument, but recieved " d "."
  else eval (car args) e
def globalEvalImpl (args : Data) (_ : Nat) : Prog Data := eval (car args) 0

/-! ### prim_environment.go -/

/-- The two argument tests shared by the environment primitives. -/
def withEnv (name : String) (k : Nat → Prog Data) (args : Data) : Prog Data :=
  match car args with
  | .atom (.env e) => k e
  | _ => .fail (name ++ " requires an environment as it's argument")
def withEnvSym (name : String) (k : Nat → String → Prog Data) (args : Data) : Prog Data :=
  match car args with
  | .atom (.env e) =>
    match car (cdr args) with
    | .atom (.sym x) => k e x
    | _ => .fail (name ++ " requires a symbol as it's second argument")
  | _ => .fail (name ++ " requires an environment as it's first argument")

/-- `environment?` (`prim_environment.go:35-37`). -/
def isEnv : Data → Bool
  | .atom (.env _) => true
  | _ => false
def isMacro : Data → Bool
  | .atom (.macro _) => true
  | _ => false

/-- `environment-has-parent?` (`prim_environment.go:39-46`), `environment-parent` (48-59). -/
def envHasParentImpl (args : Data) (_ : Nat) : Prog Data :=
  withEnv "environment-has-parent?" (fun e => .get fun s => pure (.bool (s.parentOf e).isSome)) args
def envParentImpl (args : Data) (_ : Nat) : Prog Data :=
  withEnv "environment-parent" (fun e => .get fun s =>
    match s.parentOf e with | some p => pure (.atom (.env p)) | none => pure null) args

/-- `environment-bound-names`, `environment-macro-names`, `environment-bindings` (`prim_environment.go:61-104`). -/
def envBoundNamesImpl (H : Host) (args : Data) (_ : Nat) : Prog Data :=
  withEnv "environment-bound-names" (fun e => .get fun s => pure (ofArray ((bindsOf H s e).map fun p => sym p.1))) args
def envMacroNamesImpl (H : Host) (args : Data) (_ : Nat) : Prog Data :=
  withEnv "environment-macro-names" (fun e => .get fun s =>
    pure (ofArray (((bindsOf H s e).filter fun p => isMacro p.2).map fun p => sym p.1))) args
def envBindingsImpl (H : Host) (args : Data) (_ : Nat) : Prog Data :=
  withEnv "environment-bindings" (fun e => .get fun s =>
    pure (ofArray ((bindsOf H s e).map fun p => if isNil p.2 then ofArray [sym p.1] else ofArray [sym p.1, p.2]))) args

/-- `environment-reference-type` (`prim_environment.go:111-133`). -/
def envRefTypeImpl (args : Data) (_ : Nat) : Prog Data :=
  withEnvSym "environment-reference-type?" (fun e x => .get fun s =>
    match s.find e x with
    | none => pure (sym "unbound")
    | some (_, b) => if b.val = null then pure (sym "unassigned")
                     else if isMacro b.val then pure (sym "macro") else pure (sym "normal")) args

/-- `environment-bound?` (`prim_environment.go:135-148`), `environment-assignable?` (221-234). -/
def envBoundImpl (name : String) (args : Data) (_ : Nat) : Prog Data :=
  withEnvSym name (fun e x => .get fun s => pure (.bool (s.find e x).isSome)) args

/-- `environment-assigned?` (`prim_environment.go:150-176`). -/
def envAssignedImpl (args : Data) (_ : Nat) : Prog Data :=
  if !isEnv (car args) then .fail "environment-asigned? requires an environment as it's first argument" else
  withEnvSym "environment-assigned?" (fun e x => .get fun s =>
    match s.find e x with
    | none => .fail "environment-assigned?: name is unbound"
    | some (_, b) => if b.val = null then pure (.bool false)
                     else if isMacro b.val then .fail "environment-assigned?: name is bound to a macro"
                     else pure (.bool true)) args

/-- `environment-lookup` (`prim_environment.go:178-204`). -/
def envLookupImpl (args : Data) (_ : Nat) : Prog Data :=
  withEnvSym "environment-lookup" (fun e x => .get fun s =>
    match s.find e x with
    | none => .fail "environment-lookup: name is unbound"
    | some (_, b) => if b.val = null then .fail "environment-lookup: name is unassigned"
                     else if isMacro b.val then .fail "environment-lookup: name is bound to a macro"
                     else pure b.val) args

/-- `environment-lookup-macro` (`prim_environment.go:206-224`). -/
def envLookupMacroImpl (args : Data) (_ : Nat) : Prog Data :=
  withEnvSym "environment-lookup-macro" (fun e x => .get fun s =>
    match s.find e x with
    | some (_, b) => if isMacro b.val then pure b.val else pure (.bool false)
    | none => pure (.bool false)) args

/-- `environment-assign!` (`prim_environment.go:241-258`): the protection mark is not looked at. -/
def envAssignImpl (args : Data) (_ : Nat) : Prog Data :=
  withEnvSym "environment-assign!" (fun e x => .get fun s =>
    match s.find e x with
    | some (e', _) => do
      let _ ← op (.assignRaw e' x (car (cdr (cdr args))))
      pure (car (cdr (cdr args)))
    | none => pure null) args

/-- `environment-definable?` (`prim_environment.go:260-271`), `environment-define` (273-284). -/
def envDefinableImpl (args : Data) (_ : Nat) : Prog Data :=
  withEnvSym "environment-definable?" (fun _ _ => pure (.bool true)) args
def envDefineImpl (args : Data) (_ : Nat) : Prog Data :=
  withEnvSym "environment-define" (fun e x => do
    let _ ← op (.bind e x (car (cdr (cdr args))))
    pure (car (cdr (cdr args)))) args

/-- `system-global-environment` (`prim_environment.go:286-288`), `the-environment` (290-297). -/
def sysGlobalImpl (_ : Data) (_ : Nat) : Prog Data := pure (.atom (.env 0))
def theEnvImpl (_ : Data) (e : Nat) : Prog Data := .get fun s =>
  if e = 0 ∨ s.parentOf e = some 0 then pure (.atom (.env e))
  else .fail "the-environment can only be called from a top-level environment"

/-- The binding loops of `make-top-level-environment` (`prim_environment.go:315-324,338-347`). -/
def bindNames (le : Nat) : List Data → List Data → Prog Unit
  | [], _ => pure ()
  | x :: xs, vs =>
    if !isSym x then .fail "make-top-level-environment expects binding names to be symbols"
    else do
      let _ ← op (.bind le (stringValue x) (vs.headD null))
      bindNames le xs vs.tail

/-- `make-top-level-environment` (`prim_environment.go:299-351`). -/
def makeTopImpl (args : Data) (_ : Nat) : Prog Data := do
  let name := if isStr (car args) then stringValue (car args) else "anonymous top level"
  let args := if isStr (car args) then cdr args else args
  let le ← op (.newEnv 0 none name)
  if length args = 1 then
    if !isListP (car args) then .fail "make-top-level-environment expects binding names to be a list"
    else do
      bindNames le (toArray (car args)) []
      pure (.atom (.env le))
  else if length args = 2 then
    if !isListP (car args) then .fail "make-top-level-environment expects binding names to be a list"
    else if !isListP (car (cdr args)) then .fail "make-top-level-environment expects binding values to be a list"
    else if length (car args) ≠ length (car (cdr args)) then
      .fail "make-top-level-environment expects binding names and values lists to be the same length"
    else do
      bindNames le (toArray (car args)) (toArray (car (cdr args)))
      pure (.atom (.env le))
  else pure (.atom (.env le))

/-- `find-top-level-environment` (`prim_environment.go:353-366`). -/
def findTopImpl (args : Data) (_ : Nat) : Prog Data :=
  if !isStr (car args) && !isSym (car args) then
    .fail "find-top-level-environment expects a symbol or string environment name"
  else .get fun s =>
    match alGet s.tops (stringValue (car args)) with
    | some e => pure (.atom (.env e))
    | none => pure null

/-- `procedure-environment` (`prim_environment.go:368-375`), `restrict-environment` (377-380). -/
def procEnvImpl (args : Data) (_ : Nat) : Prog Data :=
  match car args with
  | .atom (.func f) => .get fun s =>
    match s.fns[f]? with
    | some fr => pure (.atom (.env fr.env))
    | none => .panic
  | _ => .fail "procedure-environment requires a user written function as it's argument"
def restrictImpl (_ : Data) (e : Nat) : Prog Data := do
  let _ ← op (.restrict e)
  pure (str "OK")

/-! ### prim_frame.go -/

/-- Loop of `make-frame` (`prim_frame.go:39-47`). -/
def frameSlots (H : Host) : List Data → FrameMap → Prog FrameMap
  | [], m => pure m
  | [_], m => pure m  -- excluded by the even-count test
  | k :: v :: r, m =>
    if !isNaked k then failShow H "Frame keys must be naked symbols, but was given " k "."
    else frameSlots H r (alSet m (stringValue k) v)

/-- `make-frame` (`prim_frame.go:32-49`). -/
def makeFrameImpl (H : Host) (args : Data) (_ : Nat) : Prog Data :=
  if length args % 2 ≠ 0 then .fail "Frames must be initialized with an even number of arguments."
  else do
    let m ← frameSlots H (toArray args) []
    let i ← op (.newFrame m)
    pure (.atom (.frame i))

/-- The two argument tests shared by the slot primitives. -/
def withSlot (H : Host) (name : String) (k : Nat → String → Prog Data) (args : Data) : Prog Data :=
  match car args with
  | .atom (.frame i) =>
    if !isNaked (car (cdr args)) then
      failShow H (name ++ " requires a naked symbol as it's second argument, but was given ") (car (cdr args)) "."
    else k i (stringValue (car (cdr args)))
  | f => failShow H (name ++ " requires a frame as it's first argument, but was given ") f "."

def hasSlotP (H : Host) (i : Nat) (k : String) : Prog Bool := .get fun s => ofOut (Frame.hasSlot s.frames H.ord i k)
def getSlotP (H : Host) (i : Nat) (k : String) : Prog Data := .get fun s => ofOut (Frame.get s.frames H.ord i k)

/-- `has-slot?` (`prim_frame.go:51-65`). -/
def hasSlotImpl (H : Host) (args : Data) (_ : Nat) : Prog Data :=
  withSlot H "has-slot?" (fun i k => do let b ← hasSlotP H i k; pure (.bool b)) args

/-- `get-slot` (`prim_frame.go:67-91`). -/
def getSlotImpl (H : Host) (args : Data) (_ : Nat) : Prog Data :=
  withSlot H "get-slot" (fun i k => do
    let b ← hasSlotP H i k
    if !b then failShow H "get-slot requires an existing slot, but was given " (car (cdr args)) "."
    else getSlotP H i k) args

/-- `get-slot-or-nil` (`prim_frame.go:93-107`). -/
def getSlotOrNilImpl (H : Host) (args : Data) (_ : Nat) : Prog Data :=
  withSlot H "get-slot-or-nil" (fun i k => getSlotP H i k) args

/-- `remove-slot!` (`prim_frame.go:109-128`). -/
def removeSlotImpl (H : Host) (args : Data) (_ : Nat) : Prog Data :=
  if isNil (car args) then pure (.bool false)
  else withSlot H "remove-slot!" (fun i k => do let n ← op (.remSlot i k); pure (.bool (n == 1))) args

/-- `set-slot!` (`prim_frame.go:130-146`). -/
def setSlotImpl (H : Host) (args : Data) (_ : Nat) : Prog Data :=
  withSlot H "set-slot!" (fun i k => do
    let _ ← op (.setSlot i k (car (cdr (cdr args))))
    pure (car (cdr (cdr args)))) args

/-- The method looked up by `send` and `apply-slot` (`prim_frame.go:161-170,240-249`). -/
def methodOf (H : Host) (name : String) (i : Nat) (k : String) : Prog Nat := do
  let b ← hasSlotP H i k
  if !b then failShow H (name ++ " requires an existing slot, but was given ") (sym k) "."
  else do
    let f ← getSlotP H i k
    match f with
    | .atom (.func j) => pure j
    | f => .fail (name ++ " requires a function slot, but was given a slot containing a " ++ typeName f ++ ".")

/-- `send` (`prim_frame.go:148-174`). -/
def sendImpl (H : Host) (args : Data) (e : Nat) : Prog Data :=
  withSlot H "send" (fun i k => do
    let j ← methodOf H "send" i k
    callFn j (cdr (cdr args)) e (some i) false) args

/-- Loop of `getSuperFunction` (`prim_frame.go:184-189`): the first parent (in map order) in which the slot has a value. -/
def superLoop (H : Host) (s : Store) (k : String) : List (Option Nat) → Out Data
  | [] => .ok null
  | none :: _ => .panic
  | some p :: ps =>
    match Frame.get s.frames H.ord p k with
    | .ok v => if v = null then superLoop H s k ps else .ok v
    | r => r

/-- `getSuperFunction` (`prim_frame.go:176-192`). -/
def superFunction (H : Host) (s : Store) (i : Nat) (k : String) : Out Data :=
  superLoop H s k (H.ord [i] (Frame.parents s.frames i))

/-- The common part of `send-super` and `apply-slot-super` (`prim_frame.go:206-218,314-326`): run the inherited method
below the caller's environment with `self` the caller's frame. -/
def callSuper (H : Host) (i : Nat) (k : String) (args : Prog Data) (e : Nat) : Prog Data := .get fun s => do
  let f ← ofOut (superFunction H s i k)
  match f with
  | .atom (.func j) => do
    let l ← args
    .get fun s => do
      let fe ← op (.newEnv e (some i) (((s.envs[e]?).map (·.name)).getD "" ++ "'"))
      let _ ← op (.bind fe "self" (.atom (.frame i)))
      callFn j l fe none false
  | f => .fail ("Message sent must select a function slot but was " ++ typeName f ++ ".")

/-- `send-super` (`prim_frame.go:194-219`). -/
def sendSuperImpl (H : Host) (args : Data) (e : Nat) : Prog Data := .get fun s =>
  match s.frameOf e with
  | none => .fail "send-super can only be used within the context of a frame."
  | some i =>
    if !isNaked (car args) then .fail ("Selector must be a naked symbol but was " ++ typeName (car args) ++ ".")
    else callSuper H i (stringValue (car args)) (pure (cdr args)) e

/-- `apply-slot` (`prim_frame.go:221-275`). -/
def applySlotImpl (H : Host) (args : Data) (e : Nat) : Prog Data := do
  let f ← eval (car args) e
  match f with
  | .atom (.frame i) => do
    let k ← eval (car (cdr args)) e
    if !isNaked k then failShow H "apply-slot requires a naked symbol as it's second argument, but was given " k "."
    else do
      let j ← methodOf H "apply-slot" i (stringValue k)
      let vs ← evalAll e (toArray (cdr (cdr args)))
      let l ← ofOut (spread vs)
      callFn j l e (some i) false
  | f => failShow H "apply-slot requires a frame as it's first argument, but was given " f "."

/-- `apply-slot-super` (`prim_frame.go:277-327`). -/
def applySlotSuperImpl (H : Host) (args : Data) (e : Nat) : Prog Data := .get fun s =>
  match s.frameOf e with
  | none => .fail "apply-slot-super can only be used within the context of a frame."
  | some i => do
    let k ← eval (car args) e
    if !isNaked k then .fail ("Selector must be a naked symbol but was " ++ typeName k ++ ".")
    else callSuper H i (stringValue k) (do
      let vs ← evalAll e (toArray (cdr args))
      ofOut (spread vs)) e

/-- `clone` (`prim_frame.go:329-337`). -/
def cloneImpl (H : Host) (args : Data) (_ : Nat) : Prog Data :=
  match car args with
  | .atom (.frame i) => .get fun s => do
    let j ← op (.newFrame (Frame.get? s.frames i))
    pure (.atom (.frame j))
  | f => failShow H "clone requires a frame as it's argument, but was given " f "."

/-! ### Copies -/

/-- The frame `i` copied.  `Copy` calls itself on frames found inside values; here that is the evaluation of a call of the primitive
`copy`, which does nothing but call `Copy` (the operator and the argument are atoms that evaluate to themselves): on frames
that contain themselves it never ends. -/
def copyFrame (i e : Nat) : Prog Data := eval (ofArray [.atom (.prim "copy"), .atom (.frame i)]) e

mutual
/-- `Copy` (`data.go:771-816`) of a value found anywhere. -/
def copyP (e : Nat) : Data → Prog Data
  | .null => pure .null
  | .atom a => match a with
    | .frame i => copyFrame i e
    | a => pure (.atom a)
  | .cell .acell a d => pure (.cell .acell a d)
  | .cell .cons a d =>
    if isNil (.cell .cons a d) then pure (.cell .cons a d)
    else do
      let a' ← copyP e a
      let d' ← copyP e d
      pure (.cons a' d')
  | .cell .alist p d => do
    let k ← copyCarP e p
    let v ← copyCdrP e p
    .get fun s => copyAlistP e d (@acons (Frame.eqIn s.frames) k v .null)
/-- Loop `data.go:780-782`. -/
def copyAlistP (e : Nat) : Data → Data → Prog Data
  | .null, acc => pure acc
  | .cell c p d, acc =>
    if isNil (.cell c p d) then pure acc
    else do
      let k ← copyCarP e p
      let v ← copyCdrP e p
      .get fun s => copyAlistP e d (@acons (Frame.eqIn s.frames) k v acc)
  | .atom _, acc => .get fun s => pure (@acons (Frame.eqIn s.frames) .null .null acc)
/-- `Copy(Caar(c))` given `Car(c)`. -/
def copyCarP (e : Nat) : Data → Prog Data
  | .cell _ a _ => copyP e a
  | _ => pure .null
/-- `Copy(Cdar(c))` given `Car(c)`. -/
def copyCdrP (e : Nat) : Data → Prog Data
  | .cell _ _ d => copyP e d
  | _ => pure .null
end

/-- Loop `data.go:799-801`.  (The order in which the slots are visited shows only in the numbers of the new frames.) -/
def copySlots (e : Nat) : FrameMap → Prog FrameMap
  | [] => pure []
  | (k, v) :: m => do
    let v' ← copyP e v
    let m' ← copySlots e m
    pure ((k, v') :: m')

/-- `copy` (`prim_list_manipulation.go:139-141`). -/
def copyImpl (args : Data) (e : Nat) : Prog Data :=
  match car args with
  | .atom (.frame i) => .get fun s => do
    let m ← copySlots e (Frame.get? s.frames i)
    let j ← op (.newFrame m)
    pure (.atom (.frame j))
  | d => copyP e d

/-- `Append` (`data.go:263-276`). -/
def append1P (e : Nat) (l v : Data) : Prog Data :=
  if isNil l then pure (.cons v .null)
  else do
    let l' ← copyP e l
    pure (setLastCdr (.cons v .null) l')

/-- Inner loop of `union` (`prim_list_set.go:37-41`). -/
def unionInnerP (e : Nat) : List Data → Data → Prog Data
  | [], r => pure r
  | x :: xs, r => .get fun s =>
    if @Prim.memp (Frame.eqIn s.frames) x r then unionInnerP e xs r
    else do
      let r' ← append1P e r x
      unionInnerP e xs r'

/-- `union` (`prim_list_set.go:29-44`). -/
def unionP (e : Nat) : List Data → Data → Prog Data
  | [], r => pure r
  | c :: cs, r =>
    if !isListP c then .fail "union needs lists as its arguments"
    else do
      let r' ← unionInnerP e (toArray c) r
      unionP e cs r'
def unionImpl (args : Data) (e : Nat) : Prog Data := unionP e (toArray args) .null

/-- `intersection` and `complement` (`prim_list_set.go:46-95`). -/
def setP (name : String) (dropIt : FrEq → Data → Data → Bool) (args : Data) (e : Nat) : Prog Data :=
  match toArray args with
  | [] => pure .null
  | c :: cs =>
    if !isListP c then .fail (name ++ " needs lists as its arguments")
    else do
      let c' ← copyP e c
      .get fun s => ofOut (@Prim.setLoop (Frame.eqIn s.frames) name (dropIt (Frame.eqIn s.frames)) cs c')

/-- `length` (`prim_list_manipulation.go:70-72`, `data.go:624-651`). -/
def lengthImpl (args : Data) (_ : Nat) : Prog Data :=
  match car args with
  | .atom (.frame i) => .get fun s => pure (.int (BitVec.ofNat 64 (Frame.get? s.frames i).length))
  | d => pure (.int (BitVec.ofNat 64 (length d)))

/-- Loop of `general-car-cdr` for a positive path (`prim_list_access.go:203-211`): the binary digits below the leading one,
lowest first, 0 for `cdr` and 1 for `car`.  The first argument bounds the number of digits. -/
def carCdrN : Nat → Data → Nat → Data
  | 0, d, _ => d
  | n + 1, d, p => if p ≤ 1 then d else carCdrN n (if p % 2 = 0 then cdr d else car d) (p / 2)

/-- `general-car-cdr` (`prim_list_access.go:196-213`).  Shifting a negative number to the right never gives 1 and the loop
never ends: it is written here as the evaluation of such a call. -/
def generalCarCdrImpl (args : Data) (e : Nat) : Prog Data :=
  let path := intValue (car (cdr args))
  if path = 0 then .fail "general-car-cdr requires a non-zero path specifier"
  else if path.toInt < 0 then eval (ofArray [.atom (.prim "general-car-cdr"), .bool false, .int (-1)]) e
  else pure (carCdrN 64 (car args) path.toNat)

/-! ### The table -/

/-- A primitive whose body is a pure function of the arguments. -/
def pureBody (f : Data → Out Data) : Data → Nat → Prog Data := fun args _ => ofOut (f args)
def p1 (f : Data → Data) : Data → Nat → Prog Data := fun args _ => pure (f (car args))
def test1 (f : Data → Bool) : Data → Nat → Prog Data := fun args _ => pure (.bool (f (car args)))
def o1 (f : Data → Out Data) : Data → Nat → Prog Data := fun args _ => ofOut (f (car args))
def o2 (f : Data → Data → Out Data) : Data → Nat → Prog Data := fun args _ => ofOut (f (car args) (car (cdr args)))
def oL (f : List Data → Out Data) : Data → Nat → Prog Data := fun args _ => ofOut (f (toArray args))
/-- A body that compares values in the current state. -/
def withEq (b : FrEq → Data → Nat → Prog Data) : Data → Nat → Prog Data := fun args e => .get fun s => b (Frame.eqIn s.frames) args e
def walk (path : String) : Data → Nat → Prog Data := p1 fun d => walkList d path.toList

/-- `MakePrimitiveFunction`, `MakeSpecialForm`, `MakeRestrictedPrimitiveFunction` (`primitive_function.go:42-68`). -/
def prim (name spec : String) (b : Data → Nat → Prog Data) : String × PrimDef := (name, ⟨spec.toList, false, false, b⟩)
def form (name spec : String) (b : Data → Nat → Prog Data) : String × PrimDef := (name, ⟨spec.toList, true, false, b⟩)
def rprim (name spec : String) (b : Data → Nat → Prog Data) : String × PrimDef := (name, ⟨spec.toList, false, true, b⟩)

def assocOut [FrEq] (key alist : Data) : Out Data :=
  match assoc key alist with
  | .ok d => .ok d
  | .error _ => .err (.msg "Assoc list must consist of dotted pairs")
def dissocOut [FrEq] (key alist : Data) : Out Data :=
  match dissoc key alist with
  | .ok d => .ok d
  | .error _ => .err (.msg "Assoc list must consist of dotted pairs")

/-- `prim_special_forms.go:14-33`, `prim_macros.go:14-20`, `prim_mutators.go:12-17`, `prim_relative_logical.go:14-29`. -/
def formTable (H : Host) : List (String × PrimDef) :=
  [ form "cond" "*" condImpl, form "case" ">=1" caseImpl, form "if" "2|3" ifImpl, form "when" ">=2" whenImpl,
    form "unless" ">=2" unlessImpl, form "lambda" ">=1" lambdaImpl, form "named-lambda" ">=1" namedLambdaImpl,
    form "define" ">=1" (defineImpl H), form "defmacro" ">=1" defmacroImpl, form "let" ">=1" letImpl,
    form "let*" ">=1" letStarImpl, form "letrec" ">=1" letRecImpl, form "begin" "*" beginImpl, form "do" ">=2" doImpl,
    prim "apply" ">=1" (applyImpl H), form "->" ">=1" chainImpl, form "=>" ">=1" tapImpl,
    form "definition-of" "1" definitionOfImpl,
    form "quote" "1" quoteImpl, form "quasiquote" "1" quasiquoteImpl, form "unquote" "1" unquoteImpl,
    form "unquote-splicing" "1" unquoteSplicingImpl, form "expand" ">=1" (expandImpl H),
    form "set!" "2" (setVarImpl H), form "and" "*" andImpl, form "or" "*" orImpl,
    form "on-error" "2|3" (onErrorImpl H) ]

/-- `prim_system.go:23-45`, `prim_environment.go:10-33`, `prim_frame.go:14-30`. -/
def systemTable (H : Host) : List (String × PrimDef) :=
  [ prim "str" "*" (strImpl H), prim "write-line" "*" (writeLineImpl H), prim "intern" "1" (internImpl H),
    prim "gensym" "0|1" (gensymImpl H), prim "gensym-naked" "0|1" (gensymNakedImpl H), prim "eval" "1|2" (evalImpl H),
    rprim "global-eval" "1" globalEvalImpl, rprim "panic!" "1" panicImpl, prim "error" "1" (errorImpl H),
    prim "environment?" "1" (test1 isEnv), prim "environment-has-parent?" "1" envHasParentImpl,
    prim "environment-reference-type" "2" envRefTypeImpl, prim "environment-bound?" "2" (envBoundImpl "environment-bound?"),
    prim "environment-assigned?" "2" envAssignedImpl, prim "environment-lookup" "2" envLookupImpl,
    prim "environment-lookup-macro" "2" envLookupMacroImpl,
    prim "environment-assignable?" "2" (envBoundImpl "environment-assignable?"),
    prim "environment-assign!" "3" envAssignImpl, prim "environment-definable?" "2" envDefinableImpl,
    prim "environment-define" "3" envDefineImpl, prim "the-environment" "0" theEnvImpl,
    prim "procedure-environment" "1" procEnvImpl, prim "restrict-environment" "0" restrictImpl,
    rprim "environment-parent" "1" envParentImpl, rprim "system-global-environment" "0" sysGlobalImpl,
    rprim "make-top-level-environment" "1|2|3" makeTopImpl, rprim "find-top-level-environment" "1" findTopImpl,
    prim "make-frame" "*" (makeFrameImpl H), prim "has-slot?" "2" (hasSlotImpl H), prim "get-slot" "2" (getSlotImpl H),
    prim "get-slot-or-nil" "2" (getSlotOrNilImpl H), prim "remove-slot!" "2" (removeSlotImpl H),
    prim "set-slot!" "3" (setSlotImpl H), prim "send" ">=2" (sendImpl H), prim "send-super" ">=1" (sendSuperImpl H),
    form "apply-slot" ">=3" (applySlotImpl H), form "apply-slot-super" ">=2" (applySlotSuperImpl H),
    prim "clone" "1" (cloneImpl H) ]

/-- `prim_math.go:16-48`, `prim_relative_logical.go:14-27`, `prim_binary.go:14-20`. -/
def mathTable : List (String × PrimDef) :=
  [ prim "+" "*" (oL Prim.add), prim "-" "*" (oL Prim.subtract), prim "*" "*" (oL Prim.multiply),
    prim "/" "*" (oL Prim.quotient), prim "succ" "1" (o1 Prim.succ), prim "pred" "1" (o1 Prim.pred),
    prim "quotient" "*" (oL Prim.quotient), prim "%" "2" (o2 Prim.remainder), prim "modulo" "2" (o2 Prim.remainder),
    prim "integer" "1" (o1 Prim.toInt), prim "float" "1" (o1 Prim.toFloat),
    prim "min" "1" (o1 Prim.min), prim "max" "1" (o1 Prim.max), prim "abs" "1" (o1 Prim.abs),
    prim "zero?" "1" (o1 Prim.zeroP), prim "positive?" "1" (o1 Prim.positiveP), prim "negative?" "1" (o1 Prim.negativeP),
    prim "even?" "1" (o1 Prim.evenP), prim "odd?" "1" (o1 Prim.oddP), prim "sign" "1" (o1 Prim.sign),
    prim "float->bits" "1" (o1 Prim.floatToBits), prim "bits->float" "1" (o1 Prim.bitsToFloat),
    prim "<" "2" (o2 Prim.lessThan), prim ">" "2" (o2 Prim.greaterThan), prim "==" "2" (withEq fun _ => o2 Prim.equalTo),
    prim "eqv?" "2" (withEq fun _ => o2 Prim.equalTo), prim "eq?" "2" (withEq fun _ => o2 Prim.equalTo), prim "equal?" "2" (withEq fun _ => o2 Prim.equalTo),
    prim "!=" "2" (withEq fun _ => o2 Prim.notEqual), prim "neq?" "2" (withEq fun _ => o2 Prim.notEqual), prim "<=" "2" (o2 Prim.lessOrEqual),
    prim ">=" "2" (o2 Prim.greaterOrEqual), prim "!" "1" (o1 Prim.boolNot), prim "not" "1" (o1 Prim.boolNot),
    prim "binary-and" "2" (o2 Prim.binaryAnd), prim "binary-or" "2" (o2 Prim.binaryOr),
    prim "binary-not" "1" (o1 Prim.binaryNot), prim "left-shift" "2" (o2 Prim.leftShift),
    prim "right-shift" "2" (o2 Prim.rightShift) ]

/-- `prim_list_manipulation.go:14-29`, `prim_list_functions.go:15-33`, `prim_list_set.go:14-18`. -/
def listTable : List (String × PrimDef) :=
  [ prim "list" "*" (fun args _ => pure args),
    prim "make-list" "1|2" (fun args _ => ofOut (Prim.makeList (car args) (car (cdr args)))),
    prim "length" "1" lengthImpl,
    prim "cons" "2" (fun args _ => pure (cons (car args) (car (cdr args)))),
    prim "cons*" ">=1" (oL Prim.consStar), prim "reverse" "1" (p1 reverse), prim "flatten" "1" (p1 flatten),
    prim "flatten*" "1" (p1 rflatten), prim "append" "*" (fun args _ => pure (Prim.appendImpl (toArray args))),
    prim "partition" "2" partitionImpl,
    prim "sublist" "3" (fun args _ => ofOut (Prim.sublist (car args) (car (cdr args)) (car (cdr (cdr args))))),
    prim "map" ">=2" (withFn "map needs a function as its first argument" fun f r => mapP f (toArray r)),
    prim "for-each" ">=2" (withFn "foreach needs a function as its first argument" fun f r => forEachP f (toArray r)),
    prim "any" ">=2" (withFn "any needs a function as its first argument" fun f r => anyP f (toArray r)),
    prim "every" ">=2" (withFn "every needs a function as its first argument" fun f r => everyP f (toArray r)),
    prim "reduce" "3" (withFn "reduce-left needs a function as its first argument" fun f r => reduceLeftP f (car r) (car (cdr r))),
    prim "reduce-left" "3" (withFn "reduce-left needs a function as its first argument" fun f r => reduceLeftP f (car r) (car (cdr r))),
    prim "reduce-right" "3" (withFn "reduce-right needs a function as its first argument" fun f r => reduceRightP f (car r) (car (cdr r))),
    prim "fold-left" "3" (withFn "fold-left needs a function as its first argument" fun f r => foldLeftP f (car r) (car (cdr r))),
    prim "fold-right" "3" (withFn "fold-right needs a function as its first argument" fun f r => foldRightP f (car r) (car (cdr r))),
    prim "filter" "2" (withFn "filter needs a function as its first argument" fun f r => filterP f (car r)),
    prim "remove" "2" (withFn "remove needs a function as its first argument" fun f r => removeP f (car r)),
    prim "memq" "2" (withEq fun _ args _ => pure (Prim.memq (car args) (car (cdr args)))),
    prim "memv" "2" (withEq fun _ args _ => pure (Prim.memq (car args) (car (cdr args)))),
    prim "member" "2" (withEq fun _ args _ => pure (Prim.memq (car args) (car (cdr args)))),
    prim "memp" "2" (withFn "find-tail/memp needs a function as its first argument" fun f r => findTailP f (car r)),
    prim "find-tail" "2" (withFn "find-tail/memp needs a function as its first argument" fun f r => findTailP f (car r)),
    prim "find" "2" (withFn "find needs a function as its first argument" fun f r => findP f (car r)),
    prim "union" "*" unionImpl, prim "intersection" "*" (setP "intersection" fun _ x col => !Prim.memp x col),
    prim "complement" "*" (setP "complement" fun _ x col => Prim.memp x col), prim "copy" "1" copyImpl ]

/-- `prim_list_access.go:15-74`, `prim_alist.go:12-21`, `prim_type_predicates.go:10-30`. -/
def accessTable : List (String × PrimDef) :=
  [ prim "car" "1" (walk "a"), prim "head" "1" (walk "a"), prim "cdr" "1" (walk "d"), prim "rest" "1" (walk "d"),
    prim "tail" "1" (walk "d"), prim "caar" "1" (walk "aa"), prim "cadr" "1" (walk "ad"), prim "cdar" "1" (walk "da"),
    prim "cddr" "1" (walk "dd"), prim "caaar" "1" (walk "aaa"), prim "caadr" "1" (walk "aad"), prim "cadar" "1" (walk "ada"),
    prim "caddr" "1" (walk "add"), prim "cdaar" "1" (walk "daa"), prim "cdadr" "1" (walk "dad"), prim "cddar" "1" (walk "dda"),
    prim "cdddr" "1" (walk "ddd"), prim "caaaar" "1" (walk "aaaa"), prim "caaadr" "1" (walk "aaad"),
    prim "caadar" "1" (walk "aada"), prim "caaddr" "1" (walk "aadd"), prim "cadaar" "1" (walk "adaa"),
    prim "cadadr" "1" (walk "adad"), prim "caddar" "1" (walk "adda"), prim "cadddr" "1" (walk "addd"),
    prim "cdaaar" "1" (walk "daaa"), prim "cdaadr" "1" (walk "daad"), prim "cdadar" "1" (walk "dada"),
    prim "cdaddr" "1" (walk "dadd"), prim "cddaar" "1" (walk "ddaa"), prim "cddadr" "1" (walk "ddad"),
    prim "cdddar" "1" (walk "ddda"), prim "cddddr" "1" (walk "dddd"),
    prim "first" "1" (p1 (nth · 1)), prim "second" "1" (p1 (nth · 2)), prim "third" "1" (p1 (nth · 3)),
    prim "fourth" "1" (p1 (nth · 4)), prim "fifth" "1" (p1 (nth · 5)), prim "sixth" "1" (p1 (nth · 6)),
    prim "seventh" "1" (p1 (nth · 7)), prim "eighth" "1" (p1 (nth · 8)), prim "ninth" "1" (p1 (nth · 9)),
    prim "tenth" "1" (p1 (nth · 10)),
    prim "nth" "2" (o2 Prim.nthImpl), prim "take" "2" (o2 Prim.take), prim "drop" "2" (o2 Prim.drop),
    prim "list-ref" "2" (o2 Prim.listRef), prim "list-head" "2" (o2 Prim.listHead), prim "list-tail" "2" (o2 Prim.listTail),
    prim "last-pair" "1" (o1 Prim.lastPair), prim "general-car-cdr" "2" generalCarCdrImpl,
    prim "assq" "2" (withEq fun _ => o2 assocOut), prim "assv" "2" (withEq fun _ => o2 assocOut), prim "assoc" "2" (withEq fun _ => o2 assocOut),
    prim "dissoc" "2" (withEq fun _ => o2 dissocOut), prim "rassoc" "2" (withEq fun _ => o2 Prim.rassoc), prim "alist" "1" (withEq fun _ => p1 mkAlist),
    prim "atom?" "1" (test1 fun d => isNum d || isSym d || isStr d || isBool d),
    prim "list?" "1" (test1 isPair), prim "pair?" "1" (test1 isPair), prim "alist?" "1" (test1 isAlist),
    prim "nil?" "1" (test1 isNil), prim "null?" "1" (test1 isNil), prim "notnil?" "1" (test1 fun d => !isNil d),
    prim "notnull?" "1" (test1 fun d => !isNil d), prim "symbol?" "1" (test1 isSym), prim "string?" "1" (test1 isStr),
    prim "integer?" "1" (test1 isInt), prim "number?" "1" (test1 isNum), prim "float?" "1" (test1 isFlt),
    prim "function?" "1" (test1 isFuncOrPrim), prim "macro?" "1" (test1 isMacro), prim "frame?" "1" (test1 isFrame),
    prim "bytearray?" "1" (test1 fun d => match d with | .bytes _ => true | _ => false),
    prim "port?" "1" (test1 fun d => match d with | .atom (.port _) => true | _ => false),
    prim "boolean?" "1" (test1 isBool) ]

/-- `prim_string.go:21-52`, and those of `prim_math.go:16-76`, `prim_list_manipulation.go:14-29`,
`prim_environment.go:10-33`, `prim_frame.go:14-30`, `prim_io.go:19-34` that are in `Verif.TextPrims`. -/
def textTable (H : Host) : List (String × PrimDef) :=
  [ prim "string-split" "2" (stringSplitImpl H), prim "string-join" "1|2" (stringJoinImpl H),
    prim "string-trim" "1|2" (stringTrimImpl H .both), prim "string-trim-left" "1|2" (stringTrimImpl H .left),
    prim "string-trim-right" "1|2" (stringTrimImpl H .right),
    prim "string-upcase" "1" (stringCaseImpl H "string-upcase" H.upper),
    prim "string-downcase" "1" (stringCaseImpl H "string-downcase" H.lower),
    prim "string-capitalize" "1" (stringCapitalizeImpl H), prim "string-length" "1" (stringLengthImpl H),
    prim "string-null?" "1" (stringNullImpl H), prim "substring" "3" (substringImpl H),
    prim "substring?" "2" (stringTestImpl H "substring? requires strings but was given " id fun p s => Str.contains s p),
    prim "string-prefix?" "2" (compareImpl H "string-prefix?" fun p s => Str.hasPrefix s p),
    prim "string-suffix?" "2" (compareImpl H "string-suffix?" fun p s => Str.hasSuffix s p),
    prim "string=?" "2" (compareImpl H "string=?" fun a b => a == b),
    prim "string-ci=?" "2" (compareCiImpl H "string-ci=?" fun a b => a == b),
    prim "string<?" "2" (compareImpl H "string<?" fun a b => Str.lt a b),
    prim "string-ci<?" "2" (compareCiImpl H "string-ci<?" fun a b => Str.lt a b),
    prim "string>?" "2" (compareImpl H "string>?" fun a b => Str.lt b a),
    prim "string-ci>?" "2" (compareCiImpl H "string-ci>?" fun a b => Str.lt b a),
    prim "string<=?" "2" (compareImpl H "string<=?" fun a b => !Str.lt b a),
    prim "string-ci<=?" "2" (compareCiImpl H "string-ci<=?" fun a b => !Str.lt b a),
    prim "string>=?" "2" (compareImpl H "string>=?" fun a b => !Str.lt a b),
    prim "string-ci>=?" "2" (compareCiImpl H "string-ci>=?" fun a b => !Str.lt a b),
    prim "parse" "1" (parseImpl H),
    prim "number->string" "1|2" (fun args _ => ofOut (Prim.numberToString (car args) (second? args))),
    prim "string->number" "1|2" (fun args _ => ofOut (Prim.stringToNumber (car args) (second? args))),
    prim "floor" "1" (floatFnImpl H "floor expected an number, received " F32.floor),
    prim "ceiling" "1" (floatFnImpl H "ceiling expected a number, received " F32.ceil),
    prim "inf?" "1" (floatTestImpl H "inf? expected a nunber, received " F32.isInf),
    prim "nan?" "1" (floatTestImpl H "nan? expected a nunber, received " F32.isNaN),
    prim "pow" "2" (powImpl H), prim "interval" "1|2|3" (oL (Prim.interval (2 ^ 46))),
    prim "sort" "2" (sortImpl H), prim "frame-keys" "1" (frameKeysImpl H), prim "frame-values" "1" (frameValuesImpl H),
    prim "environment-bound-names" "1" (envBoundNamesImpl H), prim "environment-macro-names" "1" (envMacroNamesImpl H),
    prim "environment-bindings" "1" (envBindingsImpl H),
    prim "eof-object?" "1" (test1 fun d => @isEqual .none d (sym "__EOF__")) ]

/-- `makeUnaryFloatFunction` (`prim_math.go:95-112`). -/
def floatTable (H : Host) : List (String × PrimDef) :=
  floatFns.map fun n => prim n "1" (floatFnImpl H (n ++ " expects a number as a parameter, got ") (H.math n))

/-- Those of `prim_bytearray.go:14-26`, `prim_io.go:19-38`, `prim_system.go:23-45`, `prim_concurrency.go:41-46` defined
above or in `Verif.BytePrims`. -/
def ioTable (H : Host) : List (String × PrimDef) :=
  [ prim "list-to-bytearray" "1" (o1 Prim.listToBytes), prim "list->bytearray" "1" (o1 Prim.listToBytes),
    prim "bytearray-to-list" "1" (o1 Prim.bytesToList), prim "bytearray->list" "1" (o1 Prim.bytesToList),
    prim "replace-byte" "3" (fun args _ => ofOut (Prim.replaceByte (car args) (car (cdr args)) (car (cdr (cdr args))))),
    prim "extract-byte" "2" (o2 Prim.extractByte), prim "append-bytes" "*" (fun args _ => ofOut (Prim.appendBytes args)),
    prim "extract-bytes" "3" (fun args _ => ofOut (Prim.extractBytes typeName (car args) (car (cdr args)) (car (cdr (cdr args))))),
    prim "write-string" "1|2" writeStringImpl, prim "newline" "0|1" newlineImpl, prim "write" "1|2" (writeImpl H),
    prim "format" ">=2" (formatImpl H), rprim "load" "1" (loadImpl H),
    prim "atomic" "0|1" atomicImpl, prim "atomic-load" "1" atomicLoadImpl, prim "atomic-store!" "2" atomicStoreImpl,
    prim "atomic-add!" "2" atomicAddImpl, prim "atomic-swap!" "2" atomicSwapImpl,
    prim "atomic-compare-and-swap!" "3" atomicCasImpl ]

def stdTable (H : Host) : List (String × PrimDef) :=
  formTable H ++ (systemTable H ++ (mathTable ++ (listTable ++ (accessTable ++ (textTable H ++ (floatTable H ++ ioTable H))))))

/-- The modelled interpreter. -/
def std (H : Host) : Conf := ⟨H, alGet (stdTable H)⟩

/-- `Global` (`prim_setup.go:18-64`, `primitive_function.go:42-68`): every primitive of the table under its own name, and
`nil` and `system-global-environment`, all protected (the last is a primitive's name too and is overwritten by it).
The mathematical constants of `prim_math.go:79-92` are left out. -/
def globalEnv (H : Host) : EnvRec :=
  { name := "SystemGlobal", parent := none, frame := none, restricted := false
    binds := ("nil", ⟨emptyCons, true⟩) :: (stdTable H).map fun p => (p.1, ⟨.atom (.prim p.1), true⟩) }

/-- The state before any user code runs: `Global`, and one top-level environment below it as made by
`MakeTopLevelEnvironment`/`initEnv` users. -/
def initStore (H : Host) : Store :=
  { envs := [globalEnv H], fns := [], macs := [], frames := [], gens := [], tops := [("SystemGlobal", 0)], out := [], raw := [] }

end Golisp.Ev
