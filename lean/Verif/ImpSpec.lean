import Verif.FunSpec
/-
The language with assignment: the environment model of evaluation, as textbooks draw it.  A frame is a table of variables with a
pointer to the frame around it; a procedure is a parameter list, a body and a pointer to a frame; `set!` changes the table of the
frame in which the variable is found, `define` the table of the current frame.  The memory is the list of all frames made so
far.  There are no frames in the sense of golisp (objects with slots), no marks on functions, no protected bindings, no errors
and no other interpreter state; C92 relates the interpreter to this language.
-/
namespace Golisp.Imp
open Golisp Data Ev Spec
open Golisp.Fun (Plain Head)

inductive Val where
  /-- a number, a truth value, a string or a symbol -/
  | const (a : Atom)
  | nil
  | pair (a d : Val)
  /-- a built-in procedure -/
  | builtin (x : String)
  /-- a procedure, with the number of the frame it was made in -/
  | closure (ps : List String) (body : List Data) (f : Nat)
  /-- a macro whose body is a template -/
  | mac (ps : List String) (template : Data)

abbrev Val.int (n : BitVec 64) : Val := .const (.int n)
abbrev Val.bool (b : Bool) : Val := .const (.bool b)
abbrev Val.sym (x : String) : Val := .const (.sym x)

/-- A proper list. -/
def Val.list : List Val → Val
  | [] => .nil
  | v :: vs => .pair v (Val.list vs)

/-- A frame: variables, of which the first entry for a name counts, and the frame around it. -/
structure Fr where
  vars : List (String × Val)
  parent : Option Nat

/-- All frames, by number; number 0 is the top level. -/
abbrev Mem := List Fr

/-- Give the variable `x` of frame `f` the value `v`. -/
def Mem.put (m : Mem) (f : Nat) (x : String) (v : Val) : Mem := m.modify f fun F => { F with vars := (x, v) :: F.vars }

/-- Give several variables of frame `f` new values. -/
def Mem.puts (m : Mem) (f : Nat) : List (String × Val) → Mem
  | [] => m
  | b :: bs => (m.put f b.1 b.2).puts f bs

/-- A new frame inside frame `f`. -/
def Mem.push (m : Mem) (vars : List (String × Val)) (f : Nat) : Mem := m ++ [⟨vars, some f⟩]

/-- Seen from frame `f`, the variable `x` is found in frame `h` and has the value `v`. -/
inductive Sees (m : Mem) : Nat → String → Nat → Val → Prop where
  | here {f F x v} : m[f]? = some F → F.vars.lookup x = some v → Sees m f x f v
  | up {f F p x h v} : m[f]? = some F → F.vars.lookup x = none → F.parent = some p → Sees m p x h v → Sees m f x h v

/-- Seen from frame `f`, the name `x` is not a variable. -/
inductive Unbound (m : Mem) : Nat → String → Prop where
  | top {f F x} : m[f]? = some F → F.vars.lookup x = none → F.parent = none → Unbound m f x
  | up {f F p x} : m[f]? = some F → F.vars.lookup x = none → F.parent = some p → Unbound m p x → Unbound m f x

/-- Everything counts as true except nil and `#f`. -/
def Holds (v : Val) : Prop := v ≠ .nil ∧ v ≠ .bool false

/-- What a quoted expression stands for. -/
inductive Literal : Data → Val → Prop where
  | atom {a} : Plain a → Literal (.atom a) (.const a)
  | nil {d} : Fun.Empty d → Literal d .nil
  | pair {a d v w} : a ≠ .null → Literal a v → Literal d w → Literal (.cons a d) (.pair v w)

/-- What the built-in procedures give for the arguments that make sense. -/
inductive Builtin : String → List Val → Val → Prop where
  | add {a b} : Builtin "+" [.int a, .int b] (.int (a + b))
  | sub {a b} : Builtin "-" [.int a, .int b] (.int (a - b))
  | mul {a b} : Builtin "*" [.int a, .int b] (.int (a * b))
  /-- comparison is right up to 2^24 only (C21) -/
  | less {a b : BitVec 64} : a.toInt.natAbs ≤ 2 ^ 24 → b.toInt.natAbs ≤ 2 ^ 24 →
      Builtin "<" [.int a, .int b] (.bool (decide (a.toInt < b.toInt)))
  | greater {a b : BitVec 64} : a.toInt.natAbs ≤ 2 ^ 24 → b.toInt.natAbs ≤ 2 ^ 24 →
      Builtin ">" [.int a, .int b] (.bool (decide (b.toInt < a.toInt)))
  | same {x a b} : x = "==" ∨ x = "eq?" ∨ x = "equal?" → Plain a → Plain b → (∀ n, a ≠ .flt n) →
      Builtin x [.const a, .const b] (.bool (decide (a = b)))
  | not {a} : Builtin "not" [.bool a] (.bool (!a))
  | cons {v w} : Builtin "cons" [v, w] (.pair v w)
  | list {vs} : vs ≠ [] → Builtin "list" vs (.list vs)
  | car {v w} : Builtin "car" [.pair v w] v
  | cdr {v w} : Builtin "cdr" [.pair v w] w
  | cadr {u v w} : Builtin "cadr" [.pair u (.pair v w)] v
  | caddr {t u v w} : Builtin "caddr" [.pair t (.pair u (.pair v w))] v
  | empty {x} : x = "null?" ∨ x = "nil?" → Builtin x [.nil] (.bool true)
  | notEmpty {x v w} : x = "null?" ∨ x = "nil?" → Builtin x [.pair v w] (.bool false)
  | pair {x v w} : x = "pair?" ∨ x = "list?" → Builtin x [.pair v w] (.bool true)
  | notPair {x a} : x = "pair?" ∨ x = "list?" → Builtin x [.const a] (.bool false)
  | symbol {x} : Builtin "symbol?" [.sym x] (.bool true)
  | notSymbol {a} : (∀ x, a ≠ .sym x) → Builtin "symbol?" [.const a] (.bool false)
  | number {a} : Builtin "number?" [.int a] (.bool true)
  | notNumber {a} : (∀ n, a ≠ .int n) → (∀ n, a ≠ .flt n) → Builtin "number?" [.const a] (.bool false)

/-- The forms. -/
def forms : List String := ["quote", "if", "cond", "and", "or", "let", "lambda", "begin", "set!", "define", "defmacro", "do", "quasiquote"]

/-- Fill the holes `,p` of templates, given what stands for the parameters of the macro. -/
inductive Fills (σ : List (String × Data)) : List Data → List Data → Prop where
  | nil : Fills σ [] []
  | atom {a xs ys} : Fills σ xs ys → Fills σ (.atom a :: xs) (.atom a :: ys)
  | list {x zs ws xs ys} : Lst x zs → isListP x = true → (∀ a ∈ zs.head?, ¬ Mark a) → Fills σ zs ws → Fills σ xs ys →
      Fills σ (x :: xs) (ofArray ws :: ys)
  | hole {p d xs ys} : σ.lookup p = some d → p ≠ "self" → isNaked (.sym p) = false → Fills σ xs ys →
      Fills σ (.cons (.sym "unquote") (.cons (.sym p) .null) :: xs) (d :: ys)

/-- Only names of `N` may become variables of the top level. -/
def Definable (N : String → Prop) (m : Mem) (f : Nat) (x : String) : Prop :=
  f = 0 → N x ∨ ∃ F v, m[0]? = some F ∧ F.vars.lookup x = some v

mutual
/-- From memory `m`, in frame `f`, the expression has the value and leaves the second memory. -/
inductive Gives (N : String → Prop) : Mem → Nat → Data → Val → Mem → Prop where
  | const {m f a} : Plain a → (∀ x, a ≠ .sym x) → Gives N m f (.atom a) (.const a) m
  | var {m f x h v} : Sees m f x h v → x ≠ "self" → isNaked (.sym x) = false → Gives N m f (.sym x) v m
  | builtin {m f x} : Unbound m f x → x ∈ purePrims → Gives N m f (.sym x) (.builtin x) m
  | quote {m f t d v} : Unbound m f "quote" → Lst t [d] → d ≠ .null → Literal d v → Gives N m f (.cons (.sym "quote") t) v m
  | lambda {m f t p ps bs} : Unbound m f "lambda" → Lst t (p :: bs) → isPair p = true → Data.null ∉ p :: bs → Params p ps none → ps.Nodup →
      Gives N m f (.cons (.sym "lambda") t) (.closure ps bs f) m
  | ifTrue {m f t c a b v w m₁ m₂} : Unbound m f "if" → Lst t [c, a, b] → Data.null ∉ [c, a, b] → Gives N m f c v m₁ → Holds v → Gives N m₁ f a w m₂ →
      Gives N m f (.cons (.sym "if") t) w m₂
  | ifFalse {m f t c a b v w m₁ m₂} : Unbound m f "if" → Lst t [c, a, b] → Data.null ∉ [c, a, b] → Gives N m f c v m₁ → ¬ Holds v → Gives N m₁ f b w m₂ →
      Gives N m f (.cons (.sym "if") t) w m₂
  | cond {m f t cls v m'} : Unbound m f "cond" → Lst t cls → Clauses cls → Conds N m f cls v m' → Gives N m f (.cons (.sym "cond") t) v m'
  | and {m f t xs v m'} : Unbound m f "and" → Lst t xs → Data.null ∉ xs → Alls N m f xs .nil v m' → Gives N m f (.cons (.sym "and") t) v m'
  | or {m f t xs v m'} : Unbound m f "or" → Lst t xs → Data.null ∉ xs → Anys N m f xs .nil v m' → Gives N m f (.cons (.sym "or") t) v m'
  | begin {m f t xs v m'} : Unbound m f "begin" → Lst t xs → Data.null ∉ xs → Body N m f xs .nil v m' → Gives N m f (.cons (.sym "begin") t) v m'
  | letIn {m f t bd bs xs inits vs w m₁ m₂} : Unbound m f "let" → Lst t (bd :: bs) → Data.null ∉ bd :: bs → LetBindings bd xs inits →
      (xs = [] → bd = .emptyCons) → xs.Nodup → GivesAll N m f inits vs m₁ → Body N (m₁.push (xs.zip vs) f) m₁.length bs .nil w m₂ →
      Gives N m f (.cons (.sym "let") t) w m₂
  | assign {m f t x ex v h w m₁} : Unbound m f "set!" → Lst t [.sym x, ex] → ex ≠ .null → x ≠ "self" → Gives N m f ex v m₁ → Sees m₁ f x h w →
      Gives N m f (.cons (.sym "set!") t) v (m₁.put h x v)
  | define {m f t x ex v m₁} : Unbound m f "define" → Lst t [.sym x, ex] → ex ≠ .null → x ≠ "self" → Gives N m f ex v m₁ → Definable N m₁ f x →
      Gives N m f (.cons (.sym "define") t) v (m₁.put f x v)
  /-- `(define (x p …) body …)`; the names of primitives cannot be defined in this way (C33) -/
  | defineFn {m f t x p ps bs} : Unbound m f "define" → Lst t (.cons (.sym x) p :: bs) → Data.null ∉ bs → Params p ps none → ps.Nodup → x ≠ "self" →
      (∃ h v, Sees m f x h v ∧ ∀ y, v ≠ .builtin y) ∨ (Unbound m f x ∧ N x) → Definable N m f x →
      Gives N m f (.cons (.sym "define") t) (.closure ps bs f) (m.put f x (.closure ps bs f))
  /-- macros are defined at the top level -/
  | defmacro {m t x p ps b t' T} : Unbound m 0 "defmacro" → Lst t [.cons (.sym x) p, b] → b = .cons (.sym "quasiquote") t' → Lst t' [T] → T ≠ .null →
      Params p ps none → ps.Nodup → "quasiquote" ∉ ps → x ≠ "self" → Definable N m 0 x →
      Gives N m 0 (.cons (.sym "defmacro") t) (.mac ps T) (m.put 0 x (.mac ps T))
  /-- the expressions of all rounds are evaluated in one frame -/
  | doLoop {m f t bd tc bs xs inits steps test res vs w m₁ m₂} : Unbound m f "do" → Lst t (bd :: tc :: bs) → Data.null ∉ bd :: tc :: bs →
      DoVars bd xs inits steps → (xs = [] → bd = .emptyCons) → xs.Nodup → "self" ∉ xs → Lst tc (test :: res) → isPair tc = true → GivesAll N m f inits vs m₁ →
      Loops N (m₁.push (xs.zip vs) f) m₁.length xs steps test res bs .nil w m₂ → Gives N m f (.cons (.sym "do") t) w m₂
  | call {m f x t xs u vs v m₁ m₂ m₃} : Head x → Gives N m f x u m₁ → Lst t xs → GivesAll N m₁ f xs vs m₂ → Apply N m₂ u vs v m₃ → Gives N m f (.cons x t) v m₃
  /-- a use of a macro: the template with its holes filled by the operands is evaluated instead -/
  | expand {m f x t xs h ps T d v m'} : Operator x → x ≠ "self" → Sees m f x h (.mac ps T) → Unbound m 0 "quasiquote" → Lst t xs → xs.length = ps.length →
      (∀ y ∈ xs, isFunc y = false) → Fills (ps.zip xs) [T] [d] → Gives N m f d v m' → Gives N m f (.cons (.sym x) t) v m'
/-- Operands, from left to right. -/
inductive GivesAll (N : String → Prop) : Mem → Nat → List Data → List Val → Mem → Prop where
  | nil {m f} : GivesAll N m f [] [] m
  | cons {m f x xs v vs m₁ m₂} : Gives N m f x v m₁ → GivesAll N m₁ f xs vs m₂ → GivesAll N m f (x :: xs) (v :: vs) m₂
/-- One expression after the other; the value is the last one's. -/
inductive Body (N : String → Prop) : Mem → Nat → List Data → Val → Val → Mem → Prop where
  | done {m f u} : Body N m f [] u u m
  | next {m f x xs u v w m₁ m₂} : Gives N m f x v m₁ → Body N m₁ f xs v w m₂ → Body N m f (x :: xs) u w m₂
inductive Conds (N : String → Prop) : Mem → Nat → List Data → Val → Mem → Prop where
  | none {m f} : Conds N m f [] .nil m
  | otherwise {m f bd bs cls v m'} : Lst bd bs → Body N m f bs .nil v m' → Conds N m f (.cons (.sym "else") bd :: cls) v m'
  | hit {m f c bd bs cls v w m₁ m₂} : c ≠ .sym "else" → Gives N m f c v m₁ → Holds v → Lst bd bs → Body N m₁ f bs .nil w m₂ →
      Conds N m f (.cons c bd :: cls) w m₂
  | miss {m f c bd cls v w m₁ m₂} : c ≠ .sym "else" → Gives N m f c v m₁ → ¬ Holds v → Conds N m₁ f cls w m₂ → Conds N m f (.cons c bd :: cls) w m₂
inductive Alls (N : String → Prop) : Mem → Nat → List Data → Val → Val → Mem → Prop where
  | done {m f u} : Alls N m f [] u u m
  | next {m f x xs u v w m₁ m₂} : Gives N m f x v m₁ → Holds v → Alls N m₁ f xs v w m₂ → Alls N m f (x :: xs) u w m₂
  | decided {m f x xs u v m₁} : Gives N m f x v m₁ → ¬ Holds v → Alls N m f (x :: xs) u v m₁
inductive Anys (N : String → Prop) : Mem → Nat → List Data → Val → Val → Mem → Prop where
  | done {m f u} : Anys N m f [] u u m
  | next {m f x xs u v w m₁ m₂} : Gives N m f x v m₁ → ¬ Holds v → Anys N m₁ f xs v w m₂ → Anys N m f (x :: xs) u w m₂
  | decided {m f x xs u v m₁} : Gives N m f x v m₁ → Holds v → Anys N m f (x :: xs) u v m₁
/-- Calling a procedure: a new frame inside the frame the procedure was made in. -/
inductive Apply (N : String → Prop) : Mem → Val → List Val → Val → Mem → Prop where
  | closure {m ps bs h vs v m'} : vs.length = ps.length → Body N (m.push (ps.zip vs) h) m.length bs .nil v m' → Apply N m (.closure ps bs h) vs v m'
  | builtin {m x vs v} : Builtin x vs v → Apply N m (.builtin x) vs v m
/-- The rounds of a loop in frame `f`; `u` is the value of the expression evaluated last. -/
inductive Loops (N : String → Prop) : Mem → Nat → List String → List Data → Data → List Data → List Data → Val → Val → Mem → Prop where
  | finish {m f xs steps test res bs u v w m₁ m₂} : Gives N m f test v m₁ → Holds v → Body N m₁ f res u w m₂ → Loops N m f xs steps test res bs u w m₂
  | again {m f xs steps test res bs u v w vs w' m₁ m₂ m₃ m₄} : Gives N m f test v m₁ → ¬ Holds v → Body N m₁ f bs u w m₂ → GivesAll N m₂ f steps vs m₃ →
      Loops N (m₃.puts f (xs.zip vs)) f xs steps test res bs w w' m₄ → Loops N m f xs steps test res bs u w' m₄
end

/-! ### The language in the interpreter -/

/-- In state `s` the data object stands for the value; `φ` lists the environments that stand for the frames. -/
inductive Rep (s : Store) (φ : List Nat) : Val → Data → Prop where
  | const {a} : Plain a → Rep s φ (.const a) (.atom a)
  | nil {d} : Fun.Empty d → Rep s φ .nil d
  | pair {v w x y} : x ≠ .null → Rep s φ v x → Rep s φ w y → Rep s φ (.pair v w) (.cons x y)
  | builtin {x} : Rep s φ (.builtin x) (.atom (.prim x))
  | closure {ps bs f i fr} : s.fns[i]? = some fr → Params fr.params ps none → ps.Nodup → Lst fr.body bs → φ[f]? = some fr.env →
      Rep s φ (.closure ps bs f) (.atom (.func i))
  | mac {ps T i mr t} : s.macs[i]? = some mr → Params mr.params ps none → ps.Nodup → "quasiquote" ∉ ps → mr.body = .cons (.sym "quasiquote") t →
      Lst t [T] → T ≠ .null → φ[0]? = some mr.env → Rep s φ (.mac ps T) (.atom (.macro i))

/-- State `s` stands for the memory `m`: the top level is environment `g`, and the frames are the environments of `φ`. -/
structure Models (C : Conf) (N : String → Prop) (g : Nat) (m : Mem) (φ : List Nat) (s : Store) : Prop where
  wf : WF s
  /-- different frames are different environments -/
  length : φ.length = m.length
  nodup : φ.Nodup
  top : φ[0]? = some g
  exist : ∀ e ∈ φ, g ≤ e ∧ e < s.envs.length ∧ s.frameOf e = none
  root : ∀ (f : Nat) (F : Fr), m[f]? = some F → (F.parent = none ↔ f = 0)
  parent : ∀ (f : Nat) (F : Fr) (p e : Nat), m[f]? = some F → F.parent = some p → φ[f]? = some e → ∃ e', φ[p]? = some e' ∧ s.parentOf e = some e'
  /-- the variables are there -/
  held : ∀ (f : Nat) (F : Fr) (e : Nat) x v, m[f]? = some F → φ[f]? = some e → x ≠ "self" → F.vars.lookup x = some v → ∃ d, s.localB e x = some ⟨d, false⟩ ∧ Rep s φ v d
  /-- and no others, except at the top level -/
  free : ∀ (f : Nat) (F : Fr) (e : Nat) x, f ≠ 0 → m[f]? = some F → φ[f]? = some e → x ≠ "self" → F.vars.lookup x = none → s.localB e x = none
  /-- forms and procedures have their usual meaning at the top level, as long as they are not redefined there -/
  means : ∀ (F : Fr) x, m[0]? = some F → x ∈ forms ++ purePrims → F.vars.lookup x = none → Means C s g x
  /-- the names that can become variables mean nothing yet -/
  fresh : ∀ (F : Fr) x, m[0]? = some F → N x → F.vars.lookup x = none → ∀ k b, ¬ Visible s g x k b
  /-- the procedure objects are the standard ones -/
  table : ∀ x ∈ purePrims, C.prims x = (std C.host).prims x

/-- Nothing outside the program's frames has changed: other environments, frames with slots, output and so on; there may be new
environments, functions and macros. -/
structure Moves (φ : List Nat) (s : Store) (φ' : List Nat) (s' : Store) : Prop where
  frames : ∃ new, φ' = φ ++ new ∧ ∀ e ∈ new, s.envs.length ≤ e
  length : s.envs.length ≤ s'.envs.length
  others : ∀ (e : Nat) (r : EnvRec), e ∉ φ → s.envs[e]? = some r → s'.envs[e]? = some r
  fns : ∀ (i : Nat) (fr : FnRec), s.fns[i]? = some fr → ∃ b, s'.fns[i]? = some { fr with slot := b }
  macs : ∀ (i : Nat) (mr : MacRec), s.macs[i]? = some mr → s'.macs[i]? = some mr
  rest : s'.frames = s.frames ∧ s'.gens = s.gens ∧ s'.out = s.out ∧ s'.stdout = s.stdout ∧ s'.words = s.words

end Golisp.Imp
