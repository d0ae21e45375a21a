import Verif.Eval
import Verif.Reader
/-
Evaluating a text: reading and evaluating alternate.
-/
namespace Golisp.Ev
open Golisp Data Prog

/-- Loop of `ParseAndEvalAllInEnvironment` (`parser.go:344-364`): `res` is the result so far.  The bound is the number of
tokens, each turn using one at least.  The texts of reading errors are not modelled. -/
def evalTextN (R : Reader.Host) (e : Nat) : Nat → List Reader.Tok → Data → Prog Data
  | 0, _, _ => .fail "syntax error"
  | n + 1, ts, res =>
    match Reader.parseExpr R ts with
    | .ok d rest => if isNil d then pure res else do let v ← eval d e; evalTextN R e n rest v
    | .eof => pure res
    | _ => .fail "syntax error"

/-- `ParseAndEvalAllInEnvironment` (`parser.go:344-364`). -/
def evalText (R : Reader.Host) (src : List Char) (e : Nat) : Prog Data :=
  let ts := Reader.lex R src
  evalTextN R e (ts.length + 1) ts null

/-- `ParseAndEvalInEnvironment` (`parser.go:366-380`): the first form only. -/
def evalFirst (R : Reader.Host) (src : List Char) (e : Nat) : Prog Data :=
  match Reader.parse R src with
  | some d => if isNil d then pure null else eval d e
  | none => .fail "syntax error"

end Golisp.Ev
