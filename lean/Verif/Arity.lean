import Verif.Num
/-
Model of the argument-count specifications of primitives (`primitive_function.go`).
-/
namespace Golisp.Arity
open Golisp.Prim

/-- `ArgRestriction` (`primitive_function.go:15-30`). -/
inductive Restr where
  | any
  | eq (n : Nat)
  | gte (n : Nat)
  | range (lo hi : Nat)
deriving Repr, DecidableEq

/-- `strings.Split(s, "|")` (`primitive_function.go:73`). -/
def splitBar : List Char → List (List Char)
  | [] => [[]]
  | c :: cs =>
    if c = '|' then [] :: splitBar cs
    else match splitBar cs with
      | [] => [[c]]
      | t :: ts => (c :: t) :: ts

def isDigit (c : Char) : Bool := '0' ≤ c && c ≤ '9'

/-- `isJustNum` (`primitive_function.go:119-133`). -/
def isJustNum (s : List Char) : Bool := !s.isEmpty && s.all isDigit

/-- `isGTE` (`primitive_function.go:163-179`). -/
def isGTE : List Char → Bool
  | '>' :: '=' :: ds => !ds.isEmpty && ds.all isDigit
  | _ => false

/-- Loop of `isRange` (`primitive_function.go:149-158`) over the characters between the parentheses: `i` is the index,
`len` the number of these characters; yields the number of commas, or `none` at a character that is not allowed. -/
def rangeCommas (len : Nat) : Nat → List Char → Option Nat
  | _, [] => some 0
  | i, c :: cs =>
    if 0 < i ∧ i < len - 1 ∧ c = ',' then (rangeCommas len (i + 1) cs).map (· + 1)
    else if isDigit c then rangeCommas len (i + 1) cs
    else none

/-- `isRange` (`primitive_function.go:135-161`); the length test counts characters instead of bytes, which makes no
difference because all other characters are rejected later. -/
def isRange (s : List Char) : Bool :=
  if s.length < 5 then false
  else match s with
    | '(' :: cs =>
      if cs.getLast? ≠ some ')' then false
      else rangeCommas cs.dropLast.length 0 cs.dropLast = some 1
    | _ => false

/-- `fmt.Sscanf` of `%d` into an `int`, on text known to start with a digit: value (if it fits) and rest. -/
def scanNat (cs : List Char) : Option (Nat × List Char) :=
  let v := (scanDigits 10 (cs.takeWhile isDigit) 0 false).1
  if v < 2 ^ 63 then some (v, cs.dropWhile isDigit) else none

/-- One alternative of the loop of `parseNumArgs` (`primitive_function.go:73-114`); `none`: the alternative is dropped. -/
def parseTerm (s : List Char) : Option Restr :=
  if isJustNum s then (scanNat s).map fun p => .eq p.1
  else if isGTE s then (scanNat (s.drop 2)).map fun p => .gte p.1
  else if isRange s then
    (match scanNat (s.drop 1) with
     | some (lo, ',' :: r) => (scanNat r).map fun p => .range lo p.1
     | _ => none)
  else none

/-- Loop of `parseNumArgs`: a `*` alternative replaces everything. -/
def parseTerms : List (List Char) → List Restr → List Restr
  | [], acc => acc
  | t :: ts, acc =>
    if t = ['*'] then [.any]
    else match parseTerm t with
      | some r => parseTerms ts (acc ++ [r])
      | none => parseTerms ts acc

/-- `parseNumArgs` (`primitive_function.go:70-117`). -/
def parseNumArgs (s : List Char) : List Restr := parseTerms (splitBar s) []

/-- `checkArgumentCount` (`primitive_function.go:203-224`). -/
def checkArgumentCount : List Restr → Nat → Bool
  | [], _ => false
  | .any :: _, _ => true
  | .eq n :: rs, c => if c = n then true else checkArgumentCount rs c
  | .gte n :: rs, c => if c ≥ n then true else checkArgumentCount rs c
  | .range lo hi :: rs, c => if lo ≤ c ∧ c ≤ hi then true else checkArgumentCount rs c

/-- One part of `argsString` (`primitive_function.go:181-197`). -/
def Restr.show : Restr → List Char
  | .any => ['*']
  | .eq n => formatInt 10 n
  | .gte n => '>' :: '=' :: formatInt 10 n
  | .range lo hi => '(' :: (formatInt 10 lo ++ ',' :: (formatInt 10 hi ++ [')']))

/-- `strings.Join(parts, "|")`. -/
def joinBar : List (List Char) → List Char
  | [] => []
  | [t] => t
  | t :: ts => t ++ '|' :: joinBar ts

/-- `argsString` (`primitive_function.go:181-197`). -/
def argsString (rs : List Restr) : List Char := if Restr.any ∈ rs then ['*'] else joinBar (rs.map Restr.show)

end Golisp.Arity
