import Verif.Samples
/- Further definitions of `/repo/lisp/bench.lsp` (`benchText`): `deriv`, `create-n` and `iterative-div2`. -/
namespace Golisp.Samples
open Golisp Data Spec

/-- Leave an equation to the kernel's evaluator. -/
local elab "evaluate" : tactic => do
  let g ← Lean.Elab.Tactic.getMainGoal
  let some (α, a, _) := (← g.getType').eq? | throwError "not an equation"
  g.assign (Lean.mkApp2 (.const ``Eq.refl [.succ .zero]) α a)

/-- `/repo/lisp/bench.lsp:5-31` -/
def benchDeriv : Defn := ⟨["a"], cond
  [(l [y "not", l [y "pair?", y "a"]], l [y "if", l [y "eq?", y "a", l [y "quote", y "x"]], n 1, n 0]),
   (l [y "eq?", l [y "car", y "a"], l [y "quote", y "+"]], l [y "cons", l [y "quote", y "+"], l [y "map", y "deriv", l [y "cdr", y "a"]]]),
   (l [y "eq?", l [y "car", y "a"], l [y "quote", y "-"]], l [y "cons", l [y "quote", y "-"], l [y "map", y "deriv", l [y "cdr", y "a"]]]),
   (l [y "eq?", l [y "car", y "a"], l [y "quote", y "*"]], l [y "list", l [y "quote", y "*"], y "a",
      l [y "cons", l [y "quote", y "+"], l [y "map", l [y "lambda", l [y "a"], l [y "list", l [y "quote", y "/"], l [y "deriv", y "a"], y "a"]], l [y "cdr", y "a"]]]]),
   (l [y "eq?", l [y "car", y "a"], l [y "quote", y "/"]], l [y "list", l [y "quote", y "-"],
      l [y "list", l [y "quote", y "/"], l [y "deriv", l [y "cadr", y "a"]], l [y "caddr", y "a"]],
      l [y "list", l [y "quote", y "/"], l [y "cadr", y "a"],
        l [y "list", l [y "quote", y "*"], l [y "caddr", y "a"], l [y "caddr", y "a"], l [y "deriv", l [y "caddr", y "a"]]]]]),
   (y "else", l [y "fatal-error", .atom (.str "No derivation method available")])]⟩

/-- `/repo/lisp/bench.lsp:92-95` -/
def createN : Defn := ⟨["n"], l [y "do", l [l [y "n", y "n", l [y "-", y "n", n 1]], l [y "a", l [y "quote", .emptyCons], l [y "cons", l [y "quote", .emptyCons], y "a"]]],
  l [l [y "eq?", y "n", n 0], y "a"]]⟩

/-- `/repo/lisp/bench.lsp:99-102` -/
def div2 : Defn := ⟨["l"], l [y "do", l [l [y "l", y "l", l [y "cddr", y "l"]], l [y "a", l [y "quote", .emptyCons], l [y "cons", l [y "car", y "l"], y "a"]]],
  l [l [y "null?", y "l"], y "a"]]⟩

/-- The three definitions, in the order of the file. -/
def benchProgram : List (String × Defn) := [("deriv", benchDeriv), ("create-n", createN), ("iterative-div2", div2)]

set_option maxRecDepth 1000000 in
theorem benchProgram_reads (R : Reader.Host) : (benchProgram.map form).Sublist (Reader.parseAll R benchText).1 := by
  have : decide ((benchProgram.map form).isSublist (Reader.parseAll R benchText).1 = true) = true := by evaluate
  exact List.isSublist_iff_sublist.mp (of_decide_eq_true this)

end Golisp.Samples
