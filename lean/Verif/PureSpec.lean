import Verif.EvalSpec
/-
A small textbook language: the part of Lisp without side effects, first order.  Its meaning is given by a big-step
relation over values, without any interpreter state: variables stand for values, named functions are looked up in a table
of definitions, arguments are evaluated before the call, and the body of a function sees its parameters and nothing else of
the caller.  C75 relates the interpreter to it; C76 uses it for the programs shipped with the interpreter.
-/
namespace Golisp.Spec
open Golisp Data Ev

/-- `(define (f p …) body)`. -/
structure Defn where
  params : List String
  body : Data

/-- The functions of a program. -/
abbrev Defs := String → Option Defn
/-- The local variables. -/
abbrev Vars := String → Option Data

def noVars : Vars := fun _ => none
def varsOf (ps : List String) (vs : List Data) : Vars := fun x => ((ps.zip vs).find? (·.1 == x)).map (·.2)
/-- Local variables inside local variables. -/
def inner (new old : Vars) : Vars := fun x => (new x).or (old x)

/-- What some primitives give for the arguments that make sense. -/
inductive Primitive : String → List Data → Data → Prop where
  | add {a b} : Primitive "+" [.int a, .int b] (.int (a + b))
  | sub {a b} : Primitive "-" [.int a, .int b] (.int (a - b))
  | mul {a b} : Primitive "*" [.int a, .int b] (.int (a * b))
  /-- comparison is right up to 2^24 only (C21) -/
  | less {a b : BitVec 64} : a.toInt.natAbs ≤ 2 ^ 24 → b.toInt.natAbs ≤ 2 ^ 24 →
      Primitive "<" [.int a, .int b] (.bool (decide (a.toInt < b.toInt)))
  | greater {a b : BitVec 64} : a.toInt.natAbs ≤ 2 ^ 24 → b.toInt.natAbs ≤ 2 ^ 24 →
      Primitive ">" [.int a, .int b] (.bool (decide (b.toInt < a.toInt)))
  | sameInt {x a b} : x = "==" ∨ x = "eq?" ∨ x = "equal?" → Primitive x [.int a, .int b] (.bool (decide (a = b)))
  | sameSym {x a b} : x = "==" ∨ x = "eq?" ∨ x = "equal?" → Primitive x [.sym a, .sym b] (.bool (decide (a = b)))
  | not {a} : Primitive "not" [.bool a] (.bool (!a))
  | cons {a d} : a ≠ .null → d ≠ .null → Primitive "cons" [a, d] (.cons a d)
  | list {xs l} : Chain l xs → Data.null ∉ xs → xs ≠ [] → Primitive "list" xs l
  | car {l x xs} : Lst l (x :: xs) → Primitive "car" [l] x
  | cdr {l x xs} : Lst (.cons x l) (x :: xs) → Primitive "cdr" [.cons x l] l
  | cadr {l x y xs} : Lst l (x :: y :: xs) → Primitive "cadr" [l] y
  | caddr {l x y z xs} : Lst l (x :: y :: z :: xs) → Primitive "caddr" [l] z
  | empty {x l} : x = "null?" ∨ x = "nil?" → Lst l [] → Primitive x [l] (.bool true)
  | notEmpty {x l y ys} : x = "null?" ∨ x = "nil?" → Lst l (y :: ys) → Primitive x [l] (.bool false)
  | pair {x a d} : x = "pair?" ∨ x = "list?" → Primitive x [.cons a d] (.bool true)
  | notPair {x a} : x = "pair?" ∨ x = "list?" → Primitive x [.atom a] (.bool false)
  | symbol {a} : Primitive "symbol?" [.sym a] (.bool true)
  | notSymbol {v} : (∀ a, v ≠ .sym a) → Primitive "symbol?" [v] (.bool false)
  | number {a} : Primitive "number?" [.int a] (.bool true)
  | notNumber {v} : (∀ a, v ≠ .int a) → (∀ a, v ≠ .flt a) → Primitive "number?" [v] (.bool false)

/-- The clauses of a `cond` are lists. -/
def Clauses (cls : List Data) : Prop := ∀ cl ∈ cls, ∃ t bd bs, cl = .cons t bd ∧ Lst bd bs

mutual
/-- With the functions `Γ` and the local variables `ρ`, the expression has the value. -/
inductive Value (Γ : Defs) : Vars → Data → Data → Prop where
  | const {ρ a} : (∀ x, a ≠ .sym x) → Value Γ ρ (.atom a) (.atom a)
  | var {ρ x v} : ρ x = some v → x ≠ "self" → isNaked (.sym x) = false → (∀ i, v ≠ .atom (.func i)) → Value Γ ρ (.sym x) v
  | quote {ρ t d} : ρ "quote" = none → Lst t [d] → d ≠ .null → Value Γ ρ (.cons (.sym "quote") t) d
  | ifTrue {ρ t c a b v w} : ρ "if" = none → Lst t [c, a, b] → Data.null ∉ [c, a, b] → Value Γ ρ c v → Truthy v →
      Value Γ ρ a w → Value Γ ρ (.cons (.sym "if") t) w
  | ifFalse {ρ t c a b v w} : ρ "if" = none → Lst t [c, a, b] → Data.null ∉ [c, a, b] → Value Γ ρ c v → ¬ Truthy v →
      Value Γ ρ b w → Value Γ ρ (.cons (.sym "if") t) w
  | condElse {ρ t bd x cls w} : ρ "cond" = none → Lst t (.cons (.sym "else") bd :: cls) → Clauses cls → Lst bd [x] →
      Value Γ ρ x w → Value Γ ρ (.cons (.sym "cond") t) w
  | condHit {ρ t c bd x cls v w} : ρ "cond" = none → Lst t (.cons c bd :: cls) → Clauses cls → c ≠ .sym "else" → Lst bd [x] →
      Value Γ ρ c v → Truthy v → Value Γ ρ x w → Value Γ ρ (.cons (.sym "cond") t) w
  | condMiss {ρ t t' c bd bs cls v w} : ρ "cond" = none → Lst t (.cons c bd :: cls) → Clauses cls → c ≠ .sym "else" → Lst bd bs →
      Value Γ ρ c v → ¬ Truthy v → Lst t' cls → Value Γ ρ (.cons (.sym "cond") t') w → Value Γ ρ (.cons (.sym "cond") t) w
  | andLast {ρ t x v} : ρ "and" = none → Lst t [x] → x ≠ .null → Value Γ ρ x v → Value Γ ρ (.cons (.sym "and") t) v
  | andFalse {ρ t x xs v} : ρ "and" = none → Lst t (x :: xs) → Data.null ∉ x :: xs → Value Γ ρ x v → ¬ Truthy v →
      Value Γ ρ (.cons (.sym "and") t) v
  | andTrue {ρ t t' x y xs v w} : ρ "and" = none → Lst t (x :: y :: xs) → Data.null ∉ x :: y :: xs → Value Γ ρ x v → Truthy v →
      Lst t' (y :: xs) → Value Γ ρ (.cons (.sym "and") t') w → Value Γ ρ (.cons (.sym "and") t) w
  | orLast {ρ t x v} : ρ "or" = none → Lst t [x] → x ≠ .null → Value Γ ρ x v → Value Γ ρ (.cons (.sym "or") t) v
  | orTrue {ρ t x xs v} : ρ "or" = none → Lst t (x :: xs) → Data.null ∉ x :: xs → Value Γ ρ x v → Truthy v →
      Value Γ ρ (.cons (.sym "or") t) v
  | orFalse {ρ t t' x y xs v w} : ρ "or" = none → Lst t (x :: y :: xs) → Data.null ∉ x :: y :: xs → Value Γ ρ x v → ¬ Truthy v →
      Lst t' (y :: xs) → Value Γ ρ (.cons (.sym "or") t') w → Value Γ ρ (.cons (.sym "or") t) w
  | letIn {ρ t bd xs inits b vs w} : ρ "let" = none → Lst t [bd, b] → LetBindings bd xs inits → xs ≠ [] → b ≠ .null →
      xs.Nodup → Values Γ ρ inits vs → Value Γ (inner (varsOf xs vs) ρ) b w → Value Γ ρ (.cons (.sym "let") t) w
  | prim {ρ x t xs vs v} : ρ x = none → Γ x = none → Lst t xs → Values Γ ρ xs vs → Primitive x vs v → Value Γ ρ (.cons (.sym x) t) v
  | call {ρ f D t xs vs v} : ρ f = none → Γ f = some D → Lst t xs → Values Γ ρ xs vs → vs.length = D.params.length →
      Value Γ (varsOf D.params vs) D.body v → Value Γ ρ (.cons (.sym f) t) v
inductive Values (Γ : Defs) : Vars → List Data → List Data → Prop where
  | nil {ρ} : Values Γ ρ [] []
  | cons {ρ x xs v vs} : Value Γ ρ x v → Values Γ ρ xs vs → Values Γ ρ (x :: xs) (v :: vs)
end

/-- Nothing that was there has changed (except the mark on functions that says how they were reached last, and the
register of top-level environments): there may be new environments. -/
structure Quiet (s s' : Store) : Prop where
  envs : ∃ new, s'.envs = s.envs ++ new
  fns : s'.fns.length = s.fns.length ∧ ∀ (i : Nat) (fr : FnRec), s.fns[i]? = some fr → ∃ b, s'.fns[i]? = some { fr with slot := b }
  rest : s'.macs = s.macs ∧ s'.frames = s.frames ∧ s'.gens = s.gens ∧ s'.out = s.out ∧ s'.raw = s.raw ∧ s'.stdout = s.stdout ∧
    s'.words = s.words

/-- The forms of the textbook language. -/
def pureForms : List String := ["quote", "if", "cond", "and", "or", "let"]
/-- Its primitives. -/
def purePrims : List String :=
  ["+", "-", "*", "<", ">", "==", "eq?", "equal?", "not", "cons", "list", "car", "cdr", "cadr", "caddr", "null?", "nil?", "pair?",
    "list?", "symbol?", "number?"]

/-- The name can be the operator of a call: it is not one of the abbreviations for slots and channels. -/
def Operator (x : String) : Prop := isNaked (.sym x) = false ∧ ∀ t, shortcuts (.cons (.sym x) t) = .cons (.sym x) t

/-- In state `s` environment `g` (which runs in no frame) holds the program: the forms and the primitives it does not
define itself have their usual meaning there, and the functions are bound there. -/
structure Implements (C : Conf) (Γ : Defs) (s : Store) (g : Nat) : Prop where
  exists_ : ∃ r, s.envs[g]? = some r ∧ r.frame = none
  forms : ∀ x ∈ pureForms, Means C s g x
  prims : ∀ x ∈ purePrims, Γ x = none → Means C s g x
  names : ∀ f D, Γ f = some D → f ≠ "self" ∧ Operator f ∧ D.params.Nodup
  functions : ∀ f D, Γ f = some D → ∃ i fr k p, Visible s g f k ⟨.atom (.func i), p⟩ ∧ s.fns[i]? = some fr ∧ fr.env = g ∧
    Params fr.params D.params none ∧ Lst fr.body [D.body]

/-- Environment `e` holds the local variables, somewhere below `g`. -/
inductive Inside (s : Store) (g : Nat) : Vars → Nat → Prop where
  | top : Inside s g noVars g
  | child {new ρ p e} : Inside s g ρ p → s.parentOf e = some p → s.frameOf e = none →
      (∀ x, x ≠ "self" → s.localB e x = (new x).map (⟨·, false⟩)) → Inside s g (inner new ρ) e

/-- `(define (f x …) body)`. -/
inductive Defines : Data → String → Defn → Prop where
  | function {t ps f D} : Lst t [.cons (.sym f) ps, D.body] → D.body ≠ .null → Params ps D.params none → D.params.Nodup →
      Defines (.cons (.sym "define") t) f D

/-- A program: one definition after the other. -/
inductive Program : List Data → List (String × Defn) → Prop where
  | nil : Program [] []
  | cons {d ds f D prog} : Defines d f D → Program ds prog → Program (d :: ds) ((f, D) :: prog)

/-- The functions after one more definition, which replaces an earlier one of the same name. -/
def Defs.add (Γ : Defs) (f : String) (D : Defn) : Defs := fun g => if g = f then some D else Γ g

/-- The functions after the definitions of a program. -/
def Defs.addAll (Γ : Defs) : List (String × Defn) → Defs
  | [] => Γ
  | (f, D) :: l => (Γ.add f D).addAll l

/-- The name can be defined in `g`: it is unbound, or bound in `g` itself to a function that may be replaced. -/
def Free (s : Store) (g : Nat) (f : String) : Prop := ∀ k b, Visible s g f k b → k = g ∧ b.prot = false ∧
  ∃ i fr, b.val = .atom (.func i) ∧ s.fns[i]? = some fr

/-- The name can be defined as a function in `g`: what it means there, if anything, is not a primitive, and the binding in `g`
itself, if any, is not protected. -/
def Replaceable (s : Store) (g : Nat) (f : String) : Prop := ∀ k b, Visible s g f k b → (k = g → b.prot = false) ∧ isPrim b.val = false ∧
  ∀ i, b.val = .atom (.func i) → ∃ fr, s.fns[i]? = some fr

end Golisp.Spec
