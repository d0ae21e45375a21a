import Verif.PureSpec
/-
The textbook language with functions as values.  `PureSpec` (C75) is first order: functions have names and are not values.
Here an expression can also denote a function: a closure, which is a parameter list, a body and the variables that were in
force where it was written, or one of the built-in procedures.  Values are ordinary mathematical values, without addresses,
environments in a store or any other interpreter state; C88 relates the interpreter to this language.
-/
namespace Golisp.Fun
open Golisp Data Ev Spec

inductive Val where
  /-- a number, a truth value, a string or a symbol -/
  | const (a : Atom)
  | nil
  | pair (a d : Val)
  /-- a built-in procedure -/
  | builtin (x : String)
  /-- a function with the variables of the place where it was written -/
  | closure (ps : List String) (body : Data) (ρ : List (String × Val))

abbrev Env := List (String × Val)

abbrev Val.int (n : BitVec 64) : Val := .const (.int n)
abbrev Val.bool (b : Bool) : Val := .const (.bool b)
abbrev Val.sym (x : String) : Val := .const (.sym x)

/-- A proper list. -/
def Val.list : List Val → Val
  | [] => .nil
  | v :: vs => .pair v (Val.list vs)

/-- Numbers, truth values, strings and symbols. -/
def Plain : Atom → Prop
  | .int _ | .flt _ | .bool _ | .str _ | .sym _ => True
  | _ => False

/-- Everything counts as true except nil and `#f`. -/
def Holds (v : Val) : Prop := v ≠ .nil ∧ v ≠ .bool false

/-- A function or a built-in procedure. -/
def Procedure : Val → Prop
  | .builtin _ | .closure .. => True
  | _ => False

/-- The value has no closures in it. -/
inductive Flat : Val → Prop where
  | const {a} : Flat (.const a)
  | nil : Flat .nil
  | pair {v w} : Flat v → Flat w → Flat (.pair v w)
  | builtin {x} : Flat (.builtin x)

/-- The value has no procedures in it. -/
inductive Simple : Val → Prop where
  | const {a} : Simple (.const a)
  | nil : Simple .nil
  | pair {v w} : Simple v → Simple w → Simple (.pair v w)

/-- The two representations of the empty list: the Go nil pointer and the cell without contents. -/
def Empty (d : Data) : Prop := d = .null ∨ d = .emptyCons

/-- What a quoted expression stands for. -/
inductive Literal : Data → Val → Prop where
  | atom {a} : Plain a → Literal (.atom a) (.const a)
  | nil {d} : Empty d → Literal d .nil
  | pair {a d v w} : a ≠ .null → Literal a v → Literal d w → Literal (.cons a d) (.pair v w)

/-- What the built-in procedures that take no procedures give for the arguments that make sense. -/
inductive Builtin : String → List Val → Val → Prop where
  | add {a b} : Builtin "+" [.int a, .int b] (.int (a + b))
  | sub {a b} : Builtin "-" [.int a, .int b] (.int (a - b))
  | mul {a b} : Builtin "*" [.int a, .int b] (.int (a * b))
  /-- comparison is right up to 2^24 only (C21) -/
  | less {a b : BitVec 64} : a.toInt.natAbs ≤ 2 ^ 24 → b.toInt.natAbs ≤ 2 ^ 24 →
      Builtin "<" [.int a, .int b] (.bool (decide (a.toInt < b.toInt)))
  | greater {a b : BitVec 64} : a.toInt.natAbs ≤ 2 ^ 24 → b.toInt.natAbs ≤ 2 ^ 24 →
      Builtin ">" [.int a, .int b] (.bool (decide (b.toInt < a.toInt)))
  | same {x a b} : x = "==" ∨ x = "eq?" ∨ x = "equal?" → Plain a → Plain b → (∀ n, a ≠ .flt n) →
      Builtin x [.const a, .const b] (.bool (decide (a = b)))
  | not {a} : Builtin "not" [.bool a] (.bool (!a))
  | cons {v w} : Builtin "cons" [v, w] (.pair v w)
  | list {vs} : vs ≠ [] → Builtin "list" vs (.list vs)
  | car {v w} : Builtin "car" [.pair v w] v
  | cdr {v w} : Builtin "cdr" [.pair v w] w
  | cadr {u v w} : Builtin "cadr" [.pair u (.pair v w)] v
  | cddr {u v w} : Builtin "cddr" [.pair u (.pair v w)] w
  | caddr {t u v w} : Builtin "caddr" [.pair t (.pair u (.pair v w))] v
  | empty {x} : x = "null?" ∨ x = "nil?" → Builtin x [.nil] (.bool true)
  | notEmpty {x v w} : x = "null?" ∨ x = "nil?" → Builtin x [.pair v w] (.bool false)
  | pair {x v w} : x = "pair?" ∨ x = "list?" → Builtin x [.pair v w] (.bool true)
  | notPair {x a} : x = "pair?" ∨ x = "list?" → Builtin x [.const a] (.bool false)
  | symbol {x} : Builtin "symbol?" [.sym x] (.bool true)
  | notSymbol {a} : (∀ x, a ≠ .sym x) → Builtin "symbol?" [.const a] (.bool false)
  | number {a} : Builtin "number?" [.int a] (.bool true)
  | notNumber {a} : (∀ n, a ≠ .int n) → (∀ n, a ≠ .flt n) → Builtin "number?" [.const a] (.bool false)

/-- The built-in procedures besides those of the first-order language. -/
def funPrims : List String := ["cddr", "map", "filter", "fold-left", "fold-right"]
/-- The forms besides those of the first-order language. -/
def funForms : List String := ["lambda", "do"]

/-- An expression that can be the operator of a call: a name that is not an abbreviation, or a combination. -/
def Head (f : Data) : Prop := (∃ x, f = .sym x ∧ Operator x) ∨ ∃ a d, f = .cons a d

mutual
/-- With the named functions `Γ` and the variables `ρ`, the expression has the value. -/
inductive Value (Γ : Defs) : Env → Data → Val → Prop where
  | const {ρ a} : Plain a → (∀ x, a ≠ .sym x) → Value Γ ρ (.atom a) (.const a)
  | var {ρ x v} : ρ.lookup x = some v → x ≠ "self" → isNaked (.sym x) = false → Value Γ ρ (.sym x) v
  /-- a named function is a closure without variables -/
  | function {ρ x D} : ρ.lookup x = none → Γ x = some D → Value Γ ρ (.sym x) (.closure D.params D.body [])
  | builtin {ρ x} : ρ.lookup x = none → Γ x = none → x ∈ purePrims ++ funPrims → Value Γ ρ (.sym x) (.builtin x)
  | quote {ρ t d v} : ρ.lookup "quote" = none → Lst t [d] → d ≠ .null → Literal d v → Value Γ ρ (.cons (.sym "quote") t) v
  | lambda {ρ t p ps b} : ρ.lookup "lambda" = none → Lst t [p, b] → p ≠ .null → isPair p = true → b ≠ .null → Params p ps none → ps.Nodup →
      Value Γ ρ (.cons (.sym "lambda") t) (.closure ps b ρ)
  | ifTrue {ρ t c a b v w} : ρ.lookup "if" = none → Lst t [c, a, b] → Data.null ∉ [c, a, b] → Value Γ ρ c v → Holds v →
      Value Γ ρ a w → Value Γ ρ (.cons (.sym "if") t) w
  | ifFalse {ρ t c a b v w} : ρ.lookup "if" = none → Lst t [c, a, b] → Data.null ∉ [c, a, b] → Value Γ ρ c v → ¬ Holds v →
      Value Γ ρ b w → Value Γ ρ (.cons (.sym "if") t) w
  | condElse {ρ t bd x cls w} : ρ.lookup "cond" = none → Lst t (.cons (.sym "else") bd :: cls) → Clauses cls → Lst bd [x] →
      Value Γ ρ x w → Value Γ ρ (.cons (.sym "cond") t) w
  | condHit {ρ t c bd x cls v w} : ρ.lookup "cond" = none → Lst t (.cons c bd :: cls) → Clauses cls → c ≠ .sym "else" → Lst bd [x] →
      Value Γ ρ c v → Holds v → Value Γ ρ x w → Value Γ ρ (.cons (.sym "cond") t) w
  | condMiss {ρ t t' c bd bs cls v w} : ρ.lookup "cond" = none → Lst t (.cons c bd :: cls) → Clauses cls → c ≠ .sym "else" → Lst bd bs →
      Value Γ ρ c v → ¬ Holds v → Lst t' cls → Value Γ ρ (.cons (.sym "cond") t') w → Value Γ ρ (.cons (.sym "cond") t) w
  | andLast {ρ t x v} : ρ.lookup "and" = none → Lst t [x] → x ≠ .null → Value Γ ρ x v → Value Γ ρ (.cons (.sym "and") t) v
  | andFalse {ρ t x xs v} : ρ.lookup "and" = none → Lst t (x :: xs) → Data.null ∉ x :: xs → Value Γ ρ x v → ¬ Holds v →
      Value Γ ρ (.cons (.sym "and") t) v
  | andTrue {ρ t t' x y xs v w} : ρ.lookup "and" = none → Lst t (x :: y :: xs) → Data.null ∉ x :: y :: xs → Value Γ ρ x v → Holds v →
      Lst t' (y :: xs) → Value Γ ρ (.cons (.sym "and") t') w → Value Γ ρ (.cons (.sym "and") t) w
  | orLast {ρ t x v} : ρ.lookup "or" = none → Lst t [x] → x ≠ .null → Value Γ ρ x v → Value Γ ρ (.cons (.sym "or") t) v
  | orTrue {ρ t x xs v} : ρ.lookup "or" = none → Lst t (x :: xs) → Data.null ∉ x :: xs → Value Γ ρ x v → Holds v →
      Value Γ ρ (.cons (.sym "or") t) v
  | orFalse {ρ t t' x y xs v w} : ρ.lookup "or" = none → Lst t (x :: y :: xs) → Data.null ∉ x :: y :: xs → Value Γ ρ x v → ¬ Holds v →
      Lst t' (y :: xs) → Value Γ ρ (.cons (.sym "or") t') w → Value Γ ρ (.cons (.sym "or") t) w
  | letIn {ρ t bd xs inits b vs w} : ρ.lookup "let" = none → Lst t [bd, b] → LetBindings bd xs inits → xs ≠ [] → b ≠ .null →
      xs.Nodup → Values Γ ρ inits vs → Value Γ (xs.zip vs ++ ρ) b w → Value Γ ρ (.cons (.sym "let") t) w
  /-- a loop without body; the interpreter uses the same variables in every round, so the loop variables must not hold
  closures -/
  | doLoop {ρ t bd tc xs inits steps test res vs w} : ρ.lookup "do" = none → Lst t [bd, tc] → DoVars bd xs inits steps → xs ≠ [] →
      xs.Nodup → Lst tc [test, res] → isPair tc = true → Values Γ ρ inits vs → (∀ v ∈ vs, Flat v) →
      Loops Γ ρ xs steps test res vs w → Value Γ ρ (.cons (.sym "do") t) w
  | call {ρ f t xs u vs v} : Head f → ρ.lookup "quote" = none → Value Γ ρ f u → Lst t xs → Values Γ ρ xs vs → Result Γ u vs v →
      Value Γ ρ (.cons f t) v
inductive Values (Γ : Defs) : Env → List Data → List Val → Prop where
  | nil {ρ} : Values Γ ρ [] []
  | cons {ρ x xs v vs} : Value Γ ρ x v → Values Γ ρ xs vs → Values Γ ρ (x :: xs) (v :: vs)
/-- What the procedure gives for the arguments. -/
inductive Result (Γ : Defs) : Val → List Val → Val → Prop where
  | closure {ps b ρ vs v} : vs.length = ps.length → Value Γ (ps.zip vs ++ ρ) b v → Result Γ (.closure ps b ρ) vs v
  | builtin {x vs v} : Builtin x vs v → Result Γ (.builtin x) vs v
  | map {f vs ws} : Procedure f → Results Γ f vs ws → Result Γ (.builtin "map") [f, .list vs] (.list ws)
  | filter {f vs ws} : Procedure f → Chosen Γ f vs ws → Result Γ (.builtin "filter") [f, .list vs] (.list ws)
  | foldLeft {f u vs w} : Procedure f → FoldLeft Γ f u vs w → Result Γ (.builtin "fold-left") [f, u, .list vs] w
  | foldRight {f u vs w} : Procedure f → FoldRight Γ f u vs w → Result Γ (.builtin "fold-right") [f, u, .list vs] w
/-- One call per element. -/
inductive Results (Γ : Defs) : Val → List Val → List Val → Prop where
  | nil {f} : Results Γ f [] []
  | cons {f v vs w ws} : Result Γ f [v] w → Results Γ f vs ws → Results Γ f (v :: vs) (w :: ws)
/-- The elements for which the answer is `#t`. -/
inductive Chosen (Γ : Defs) : Val → List Val → List Val → Prop where
  | nil {f} : Chosen Γ f [] []
  | keep {f v vs ws} : Result Γ f [v] (.bool true) → Chosen Γ f vs ws → Chosen Γ f (v :: vs) (v :: ws)
  | skip {f v vs ws} : Result Γ f [v] (.bool false) → Chosen Γ f vs ws → Chosen Γ f (v :: vs) ws
/-- `(f … (f (f u v₁) v₂) … vₙ)` -/
inductive FoldLeft (Γ : Defs) : Val → Val → List Val → Val → Prop where
  | nil {f u} : FoldLeft Γ f u [] u
  | cons {f u v vs u' w} : Result Γ f [u, v] u' → FoldLeft Γ f u' vs w → FoldLeft Γ f u (v :: vs) w
/-- `(f v₁ (f v₂ … (f vₙ u)))` -/
inductive FoldRight (Γ : Defs) : Val → Val → List Val → Val → Prop where
  | nil {f u} : FoldRight Γ f u [] u
  | cons {f u v vs u' w} : FoldRight Γ f u vs u' → Result Γ f [v, u'] w → FoldRight Γ f u (v :: vs) w
/-- The rounds of a loop, from the values `vs` of the loop variables on. -/
inductive Loops (Γ : Defs) : Env → List String → List Data → Data → Data → List Val → Val → Prop where
  | finish {ρ xs steps test res vs v w} : Value Γ (xs.zip vs ++ ρ) test v → Holds v → Value Γ (xs.zip vs ++ ρ) res w →
      Loops Γ ρ xs steps test res vs w
  | again {ρ xs steps test res vs v vs' w} : Value Γ (xs.zip vs ++ ρ) test v → ¬ Holds v → Values Γ (xs.zip vs ++ ρ) steps vs' →
      (∀ v ∈ vs', Flat v) → Loops Γ ρ xs steps test res vs' w → Loops Γ ρ xs steps test res vs w
end

/-! ### The language in the interpreter -/

mutual
/-- In state `s` the data object stands for the value; the named functions live in environment `g`. -/
inductive Rep (s : Store) (g : Nat) : Val → Data → Prop where
  | const {a} : Plain a → Rep s g (.const a) (.atom a)
  | nil {d} : Empty d → Rep s g .nil d
  | pair {v w x y} : x ≠ .null → Rep s g v x → Rep s g w y → Rep s g (.pair v w) (.cons x y)
  | builtin {x} : Rep s g (.builtin x) (.atom (.prim x))
  | closure {ps b ρ i fr} : s.fns[i]? = some fr → Params fr.params ps none → ps.Nodup → Lst fr.body [b] → Held s g ρ fr.env →
      Rep s g (.closure ps b ρ) (.atom (.func i))
/-- Environment `e` holds the variables, somewhere below `g`. -/
inductive Held (s : Store) (g : Nat) : Env → Nat → Prop where
  | top : Held s g [] g
  | child {new ρ p e} (at_ : String → Data) : Held s g ρ p → s.parentOf e = some p → s.frameOf e = none →
      (∀ x, x ≠ "self" → s.localB e x = (new.lookup x).map fun _ => ⟨at_ x, false⟩) →
      (∀ x v, new.lookup x = some v → Rep s g v (at_ x)) → Held s g (new ++ ρ) e
end

/-- Nothing that was there has changed (except the mark on functions that says how they were reached last, and the
register of top-level environments): there may be new environments and new functions. -/
structure Calm (s s' : Store) : Prop where
  envs : ∃ new, s'.envs = s.envs ++ new
  fns : ∀ (i : Nat) (fr : FnRec), s.fns[i]? = some fr → ∃ b, s'.fns[i]? = some { fr with slot := b }
  rest : s'.macs = s.macs ∧ s'.frames = s.frames ∧ s'.gens = s.gens ∧ s'.out = s.out ∧ s'.raw = s.raw ∧ s'.stdout = s.stdout ∧
    s'.words = s.words

/-- In state `s` environment `g` holds the program, and the further forms and procedures have their usual meaning there. -/
structure Implements (C : Conf) (Γ : Defs) (s : Store) (g : Nat) : Prop extends Spec.Implements C Γ s g where
  /-- the procedure objects are the standard ones -/
  table : ∀ x ∈ purePrims ++ funPrims, C.prims x = (std C.host).prims x
  moreForms : ∀ x ∈ funForms, Means C s g x
  morePrims : ∀ x ∈ funPrims, Γ x = none → Means C s g x

end Golisp.Fun
