import Verif.Eval
import Verif.Num
import Verif.Utf8
/-
Further primitives as interpreter programs: strings (`prim_string.go`), conversions and float functions (`prim_math.go`),
`sort`, the names of an environment, the keys and values of a frame.

A value of the evaluator holds its text as characters; the string primitives work on its bytes (`bytes`, `ofBytes`).  A
text cut inside a character is not representable as characters: its stray bytes are read as U+FFFD, one each.
-/
namespace Golisp.Ev
open Golisp Data Prog

/-- The bytes of a text. -/
def bytes (s : String) : Str.GoStr := Spec.text s.toList
def ofBytes (b : Str.GoStr) : Data := .str (String.ofList (Str.decode b))

/-- `if !StringP(d) { err = ProcessError(fmt.Sprintf("... %s.", String(d)), env) }`, else go on with `StringValue(d)`. -/
def needStr (H : Host) (msg : String) (d : Data) (k : String → Prog Data) : Prog Data :=
  if isStr d then k (stringValue d) else failShow H msg d "."

/-! ### prim_string.go -/

/-- `string-split` (`prim_string.go:54-73`). -/
def stringSplitImpl (H : Host) (args : Data) (_ : Nat) : Prog Data :=
  needStr H "trim requires a string but was given " (car args) fun s =>
  needStr H "string-split requires a string separater but was given " (car (cdr args)) fun sep =>
    pure (ofArray ((Str.split (bytes s) (bytes sep)).map ofBytes))

/-- The loop of `string-join` (`prim_string.go:91-99`). -/
def joinLoopP (H : Host) : List Data → Prog (List String)
  | [] => pure []
  | x :: xs =>
    if isStr x then do let r ← joinLoopP H xs; pure (stringValue x :: r)
    else failShow H "string-join requires a list of strings but " x " was in the list."

/-- `string-join` (`prim_string.go:75-103`). -/
def stringJoinImpl (H : Host) (args : Data) (_ : Nat) : Prog Data :=
  if !isListP (car args) then failShow H "string-join requires a list of strings to be joined but was given " (car args) "."
  else
    let go (sep : String) : Prog Data := do
      let ps ← joinLoopP H (toArray (car args))
      pure (ofBytes (Str.join (bytes sep) (ps.map bytes)))
    if isNil (car (cdr args)) then go ""
    else needStr H "string-join requires a string separater but was given " (car (cdr args)) go

/-- `doTrim` (`prim_string.go:105-135`). -/
def trimBytes (side : Str.Side) (set s : Str.GoStr) : Str.GoStr :=
  match side with
  | .left => (Str.trimL set (Str.chars s)).flatten
  | .both => (Str.trimR set (Str.trimL set (Str.chars s))).flatten
  | .right => (Str.trimR set (Str.chars s)).flatten
def stringTrimImpl (H : Host) (side : Str.Side) (args : Data) (_ : Nat) : Prog Data :=
  needStr H "string-trim requires a string but was given " (car args) fun s =>
  if length args = 2 then
    needStr H "string-trim requires a string set of trim characters but was given " (car (cdr args)) fun set =>
      pure (ofBytes (trimBytes side (bytes set) (bytes s)))
  else pure (ofBytes (trimBytes side Str.blanks (bytes s)))

/-- `string-upcase`, `string-downcase` (`prim_string.go:149-156,167-174`): `strings.ToUpper`, `strings.ToLower`. -/
def stringCaseImpl (H : Host) (name : String) (f : String → String) (args : Data) (_ : Nat) : Prog Data :=
  needStr H (name ++ " requires a string but was given ") (car args) fun s => pure (.str (f s))

/-- `string-capitalize` (`prim_string.go:185-202`): the first byte and the other bytes; `s[0:1]` of an empty string
panics.  (`ToUpper` and `ToLower` turn stray bytes into U+FFFD.) -/
def stringCapitalizeImpl (H : Host) (args : Data) (_ : Nat) : Prog Data :=
  needStr H "string-capitalize requires a string but was given " (car args) fun s =>
  if bytes s = [] then .panic
  else pure (.str (H.upper (String.ofList (Str.decode ((bytes s).take 1))) ++ H.lower (String.ofList (Str.decode ((bytes s).drop 1)))))

/-- `string-length` (`prim_string.go:214-222`), `string-null?` (224-232). -/
def stringLengthImpl (H : Host) (args : Data) (_ : Nat) : Prog Data :=
  needStr H "string-length requires a string but was given " (car args) fun s => pure (.int (BitVec.ofNat 64 (bytes s).length))
def stringNullImpl (H : Host) (args : Data) (_ : Nat) : Prog Data :=
  needStr H "string-null? requires a string but was given " (car args) fun s => pure (.bool ((bytes s).length == 0))

/-- `substring` (`prim_string.go:234-270`). -/
def substringImpl (H : Host) (args : Data) (_ : Nat) : Prog Data :=
  needStr H "substring requires a string but was given " (car args) fun s =>
  match car (cdr args) with
  | .int i =>
    if i.toInt > (bytes s).length then .fail "substring requires start < length of the string."
    else match car (cdr (cdr args)) with
      | .int j =>
        if j.toInt > (bytes s).length then .fail "substring requires end < length of the string."
        else if i.toInt > j.toInt then .fail "substring requires start <= end."
        else if i.toInt < 0 then .panic
        else pure (ofBytes (((bytes s).drop i.toInt.toNat).take (j.toInt.toNat - i.toInt.toNat)))
      | d => failShow H "substring requires integer end but was given " d "."
  | d => failShow H "substring requires integer start but was given " d "."

/-- The two-string tests (`prim_string.go:272-324`) and comparisons (326-431): `name requires a string but was given %s.`;
`pre` is applied to both strings first. -/
def stringTestImpl (H : Host) (msg : String) (pre : String → String) (f : Str.GoStr → Str.GoStr → Bool) (args : Data) (_ : Nat) :
    Prog Data :=
  needStr H msg (car args) fun a => needStr H msg (car (cdr args)) fun b => pure (.bool (f (bytes (pre a)) (bytes (pre b))))
def compareImpl (H : Host) (name : String) (f : Str.GoStr → Str.GoStr → Bool) : Data → Nat → Prog Data :=
  stringTestImpl H (name ++ " requires a string but was given ") id f
def compareCiImpl (H : Host) (name : String) (f : Str.GoStr → Str.GoStr → Bool) : Data → Nat → Prog Data :=
  stringTestImpl H (name ++ " requires a string but was given ") H.lower f

/-- `parse` (`prim_string.go:433-441`), `Parse` (`parser.go:293-297`).  The text of the reader's errors is not modelled. -/
def parseImpl (H : Host) (args : Data) (_ : Nat) : Prog Data :=
  if isStr (car args) then
    match Reader.parse H.reader (stringValue (car args)).toList with
    | some d => pure d
    | none => .fail "parse"
  else failShow H "parse requires its argument to be a string but it was " (car args) ""

/-! ### prim_math.go -/

/-- The optional second argument. -/
def second? (args : Data) : Option Data := if length args = 2 then some (car (cdr args)) else none

/-- `floor`, `ceiling` (`prim_math.go:571-591`), and the functions made by `makeUnaryFloatFunction` (`prim_math.go:95-112`):
`msg` is the error text before the argument. -/
def floatFnImpl (H : Host) (msg : String) (f : BitVec 32 → BitVec 32) (args : Data) (_ : Nat) : Prog Data :=
  if isNum (car args) then pure (.flt (f (floatValue (car args)))) else failShow H msg (car args) ""

/-- `inf?`, `nan?` (`prim_math.go:693-719`). -/
def floatTestImpl (H : Host) (msg : String) (f : BitVec 32 → Bool) (args : Data) (_ : Nat) : Prog Data :=
  if isNum (car args) then
    pure (.bool (match car args with | .flt b => f b | _ => false))
  else failShow H msg (car args) ""

/-- `pow` (`prim_math.go:667-691`); `math.Pow` is the host's. -/
def powImpl (H : Host) (args : Data) (_ : Nat) : Prog Data := do
  let fl ← ofOut (Prim.anyFloats (toArray args))
  if fl then pure (.flt (H.pow (floatValue (car args)) (floatValue (car (cdr args)))))
  else ofOut (Prim.powInts (car args) (car (cdr args)))

/-- The names given to `makeUnaryFloatFunction` (`prim_math.go:48-76`). -/
def floatFns : List String :=
  ["acos", "acosh", "asin", "asinh", "atan", "atanh", "cbrt", "cos", "cosh", "erf", "erfc", "exp", "exp2", "expm1", "gamma",
   "j0", "j1", "log", "log10", "log1p", "log2", "logb", "sin", "sinh", "sqrt", "tan", "tanh", "y0", "y1"]

/-! ### `sort` -/

/-- `Sorting.run` as a program: `sort.Slice` with the closure of `SortImpl` (`prim_list_manipulation.go:289-297`). -/
def sortRunP (f : Data → Prog Data) : Sorting.Tree → List Data → Option Err → Prog (List Data × Option Err)
  | .done, arr, er => .ret (arr, er)
  | .less _ _ k, arr, some e => sortRunP f (k false) arr (some e)
  | .less i j k, arr, none =>
    match arr[i]?, arr[j]? with
    | some a, some b => (f (ofArray [a, b])).attempt fun r => match r with
      | .ok v => sortRunP f (k (boolValue v)) arr none
      | .error e => sortRunP f (k false) arr (some e)
    | _, _ => .panic
  | .swap i j k, arr, er =>
    match Sorting.swapAt arr i j with
    | some arr' => sortRunP f k arr' er
    | none => .panic

/-- The result of `SortImpl`. -/
def sortResult : List Data × Option Err → Prog Data
  | (arr, none) => .ret (ofArray arr)
  | (_, some e) => .err e

/-- `sort` (`prim_list_manipulation.go:274-300`). -/
def sortImpl (H : Host) (args : Data) (e : Nat) : Prog Data :=
  if !isListP (car args) then .fail "sort requires a list as it's first argument."
  else if !isFuncOrPrim (car (cdr args)) then .fail "sort requires a function or primitive as it's second argument."
  else (sortRunP (fun l => app (car (cdr args)) l e) (H.sorter (toArray (car args)).length) (toArray (car args)) none).bind sortResult

/-! ### Names and keys -/

/-- `frame-keys`, `frame-values` (`prim_frame.go:355-373`, `frame.go:167-185`). -/
def frameKeysImpl (H : Host) (args : Data) (_ : Nat) : Prog Data :=
  match car args with
  | .atom (.frame i) => .get fun s => pure (ofArray ((H.iter ((Frame.get? s.frames i).map Prod.fst)).map sym))
  | f => failShow H "frame-keys requires a frame as it's argument, but was given " f "."
def frameValuesImpl (H : Host) (args : Data) (_ : Nat) : Prog Data :=
  match car args with
  | .atom (.frame i) => .get fun s =>
    pure (ofArray ((H.iter ((Frame.get? s.frames i).map Prod.fst)).map fun k => (alGet (Frame.get? s.frames i) k).getD null))
  | f => failShow H "frame-values requires a frame as it's argument, but was given " f "."

/-- The bindings of an environment in the order in which the map is traversed. -/
def bindsOf (H : Host) (s : Store) (e : Nat) : List (String × Data) :=
  match s.envs[e]? with
  | none => []
  | some r => (H.iter (r.binds.map Prod.fst)).map fun x => (x, match alGet r.binds x with | some b => b.val | none => null)

end Golisp.Ev
