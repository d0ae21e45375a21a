import Verif.ApplyLemmas
import Verif.Demo
import Verif.Props.Arity
import Verif.Props.Scope
/-
C30, second half: a call with a count that the specification does not allow is refused before any argument is evaluated.
C67, argument counts: which counts each primitive of the library takes.
-/
namespace Golisp.Spec
open Golisp Data Ev

/-! The primitives and special forms by the number of arguments they take. -/
def takesNone : List String :=
  ["the-environment", "restrict-environment", "system-global-environment"]
def takesOne : List String :=
  ["definition-of", "quote", "quasiquote", "unquote", "unquote-splicing", "intern", "global-eval", "panic!", "error",
   "environment?", "environment-has-parent?", "procedure-environment", "environment-parent",
   "find-top-level-environment", "clone", "succ", "pred", "integer", "float", "min", "max", "abs", "zero?",
   "positive?", "negative?", "even?", "odd?", "sign", "float->bits", "bits->float", "!", "not", "binary-not",
   "length", "reverse", "flatten", "flatten*", "copy", "car", "head", "cdr", "rest", "tail", "caar", "cadr", "cdar",
   "cddr", "caaar", "caadr", "cadar", "caddr", "cdaar", "cdadr", "cddar", "cdddr", "caaaar", "caaadr", "caadar",
   "caaddr", "cadaar", "cadadr", "caddar", "cadddr", "cdaaar", "cdaadr", "cdadar", "cdaddr", "cddaar", "cddadr",
   "cdddar", "cddddr", "first", "second", "third", "fourth", "fifth", "sixth", "seventh", "eighth", "ninth", "tenth",
   "last-pair", "alist", "atom?", "list?", "pair?", "alist?", "nil?", "null?", "notnil?", "notnull?", "symbol?",
   "string?", "integer?", "number?", "float?", "function?", "macro?", "frame?", "bytearray?", "port?", "boolean?",
   "string-upcase", "string-downcase", "string-capitalize", "string-length", "string-null?", "parse", "floor",
   "ceiling", "inf?", "nan?", "frame-keys", "frame-values", "environment-bound-names", "environment-macro-names",
   "environment-bindings", "eof-object?", "list-to-bytearray", "list->bytearray", "bytearray-to-list",
   "bytearray->list", "load", "atomic-load", "acos", "acosh", "asin", "asinh", "atan", "atanh", "cbrt", "cos",
   "cosh", "erf", "erfc", "exp", "exp2", "expm1", "gamma", "j0", "j1", "log", "log10", "log1p", "log2", "logb",
   "sin", "sinh", "sqrt", "tan", "tanh", "y0", "y1"]
def takesTwo : List String :=
  ["set!", "environment-reference-type", "environment-bound?", "environment-assigned?", "environment-lookup",
   "environment-lookup-macro", "environment-assignable?", "environment-definable?", "has-slot?", "get-slot",
   "get-slot-or-nil", "remove-slot!", "%", "modulo", "<", ">", "==", "eqv?", "eq?", "equal?", "!=", "neq?", "<=",
   ">=", "binary-and", "binary-or", "left-shift", "right-shift", "cons", "partition", "filter", "remove", "memq",
   "memv", "member", "memp", "find-tail", "find", "nth", "take", "drop", "list-ref", "list-head", "list-tail",
   "general-car-cdr", "assq", "assv", "assoc", "dissoc", "rassoc", "string-split", "substring?", "string-prefix?",
   "string-suffix?", "string=?", "string-ci=?", "string<?", "string-ci<?", "string>?", "string-ci>?", "string<=?",
   "string-ci<=?", "string>=?", "string-ci>=?", "pow", "sort", "extract-byte", "atomic-store!", "atomic-add!",
   "atomic-swap!"]
def takesThree : List String :=
  ["environment-assign!", "environment-define", "set-slot!", "sublist", "reduce", "reduce-left", "reduce-right",
   "fold-left", "fold-right", "substring", "replace-byte", "extract-bytes", "atomic-compare-and-swap!"]
def takesAny : List String :=
  ["cond", "begin", "and", "or", "str", "write-line", "make-frame", "+", "-", "*", "/", "quotient", "list", "append",
   "union", "intersection", "complement", "append-bytes"]
def takesNoneOrOne : List String :=
  ["gensym", "gensym-naked", "newline", "atomic"]
def takesOneOrTwo : List String :=
  ["eval", "make-list", "string-join", "string-trim", "string-trim-left", "string-trim-right", "number->string",
   "string->number", "write-string", "write"]
def takesTwoOrThree : List String :=
  ["if", "on-error"]
def takesOneToThree : List String :=
  ["make-top-level-environment", "interval"]
def takesSomeOf : List String :=
  ["case", "lambda", "named-lambda", "define", "defmacro", "let", "let*", "letrec", "apply", "->", "=>", "expand",
   "send-super", "cons*"]
def takesTwoOrMore : List String :=
  ["when", "unless", "do", "send", "apply-slot-super", "map", "for-each", "any", "every", "format"]
def takesThreeOrMore : List String :=
  ["apply-slot"]

/-- How many arguments each modelled primitive and special form takes. -/
inductive Takes : String → (Nat → Prop) → Prop where
  | none {x} : x ∈ takesNone → Takes x fun n => n = 0
  | one {x} : x ∈ takesOne → Takes x fun n => n = 1
  | two {x} : x ∈ takesTwo → Takes x fun n => n = 2
  | three {x} : x ∈ takesThree → Takes x fun n => n = 3
  | any {x} : x ∈ takesAny → Takes x fun _ => True
  | noneOrOne {x} : x ∈ takesNoneOrOne → Takes x fun n => n ≤ 1
  | oneOrTwo {x} : x ∈ takesOneOrTwo → Takes x fun n => 1 ≤ n ∧ n ≤ 2
  | twoOrThree {x} : x ∈ takesTwoOrThree → Takes x fun n => 2 ≤ n ∧ n ≤ 3
  | oneToThree {x} : x ∈ takesOneToThree → Takes x fun n => 1 ≤ n ∧ n ≤ 3
  | someOf {x} : x ∈ takesSomeOf → Takes x fun n => 1 ≤ n
  | twoOrMore {x} : x ∈ takesTwoOrMore → Takes x fun n => 2 ≤ n
  | threeOrMore {x} : x ∈ takesThreeOrMore → Takes x fun n => 3 ≤ n

/-- `d` is a combination of `n` arguments whose operator evaluates to the primitive `x` of the standard table; `s₀` is the
state after the operator. -/
def CallOf (C : Conf) (x : String) (n : Nat) (d : Data) (e : Nat) (s s₀ : Store) : Prop :=
  ∃ h t xs, d = .cons h t ∧ shortcuts d = d ∧ h ≠ .null ∧ EvalsOp C h e s (.ok (.atom (.prim x))) s₀ ∧
    C.prims x = (std C.host).prims x ∧ Lst t xs ∧ xs.length = n

end Golisp.Spec

namespace Golisp.Props
open Golisp Data Ev Spec

variable {C : Conf} {e : Nat} {s s₁ : Store} {d : Data}

/-- A count that no alternative of the specification allows: the call is an error and no argument is evaluated. -/
theorem C30_wrong_count {h t : Data} (hs : shortcuts (.cons h t) = .cons h t) (hh : h ≠ .null) {x : String}
    (hop : EvalsOp C h e s (.ok (.atom (.prim x))) s₁) {P : PrimDef} (hP : C.prims x = some P) {p : Nat → Prop}
    (hp : CountSpec P.args p) {xs : List Data} (ht : Lst t xs) (hn : ¬ p xs.length) : Refuses C (.cons h t) e s s₁ := by
  have hc : Arity.checkArgumentCount (Arity.parseNumArgs P.args) xs.length = false := by
    rw [← Bool.not_eq_true, C30_count _ _ hp]; exact hn
  cases hr : P.restricted && s₁.restrictedEnv e with
  | false => exact C32_primitive_count hs hh hop hP hr ht hc
  | true =>
    rw [Bool.and_eq_true] at hr
    exact ⟨_, fun r s' => C36_refused hs hh hop hP hr.1 hr.2⟩

example : Demo.Fails "(cons (write-line 5))" "\nEvaling (cons (write-line 5)). Wrong number of args to cons, expected 2 but got 1." :=
  Demo.fails 20 (by decide +kernel)

/-- A count that the specification allows: the arguments are evaluated and the body runs on their values. -/
theorem C30_right_count {h t : Data} (hs : shortcuts (.cons h t) = .cons h t) (hh : h ≠ .null) {x : String}
    (hop : EvalsOp C h e s (.ok (.atom (.prim x))) s₁) {P : PrimDef} (hP : C.prims x = some P) (hsp : P.special = false)
    (hre : P.restricted = false) {p : Nat → Prop} (hp : CountSpec P.args p) {xs : List Data} (ht : Lst t xs) (hn : p xs.length)
    {r : Out Data} {s' : Store} :
    Evals C (.cons h t) e s r s' ↔ ∃ r₀, r = quoting (.cons h t) r₀ ∧
      ((∃ vs s₂, Args C e xs s₁ (.ok vs) s₂ ∧ RunsP (body C) (P.body (ofArray vs) e) s₂ r₀ s') ∨
       (∃ er, Args C e xs s₁ (.err er) s' ∧ r₀ = .err er) ∨ (Args C e xs s₁ .panic s' ∧ r₀ = .panic)) :=
  C32_primitive hs hh hop hP hsp (by rw [hre]; rfl) ht ((C30_count _ _ hp _).2 hn)

/-- The same check is made when the primitive is reached through `apply`, `map` and the like with a list of values.
(Not when the list is empty: see `C30_apply_empty_violation`.) -/
theorem C30_wrong_count_apply_partial {x : String} {P : PrimDef} (hP : C.prims x = some P) (hsp : P.special = false)
    (hr : P.restricted = false) {p : Nat → Prop} (hp : CountSpec P.args p) {args : Data} {vs : List Data} (hl : Chain args vs)
    (hne : vs ≠ []) (hn : ¬ p vs.length) :
    ∃ m, ∀ r s', Applies C (.atom (.prim x)) args e s r s' ↔ r = .err (.msg m) ∧ s' = s :=
  applies_count hP hsp (by rw [hr]; rfl) hl hne (by rw [← Bool.not_eq_true, C30_count _ _ hp]; exact hn)

/-- Applied to the empty list, a primitive is called with one argument: one that takes none refuses. -/
theorem C30_apply_empty_violation :
    Demo.Fails "(apply the-environment '())" "\nEvaling (apply the-environment '()). Wrong number of args to the-environment, expected 0 but got 1." :=
  Demo.fails 20 (by decide +kernel)

private theorem alGet_map {α β : Type} (f : α → β) (x : String) : ∀ l : List (String × α),
    alGet (l.map fun p => (p.1, f p.2)) x = (alGet l x).map f := by
  intro l
  induction l with
  | nil => rfl
  | cons p l ih =>
    simp only [List.map_cons, alGet]
    split
    · rfl
    · exact ih

private theorem sigs (H : Host) : (stdTable H).map (fun p => (p.1, p.2.args)) = (stdTable Demo.H).map (fun p => (p.1, p.2.args)) := by
  simp only [stdTable, formTable, systemTable, textTable, floatTable, ioTable, List.map_append, List.map_cons, List.map_nil, List.map_map,
    Function.comp_def, form, prim, rprim]

private theorem prim_args {H : Host} {x : String} {spec : List Char}
    (h : alGet ((stdTable Demo.H).map (fun p => (p.1, p.2.args))) x = some spec) :
    ∃ P, (std H).prims x = some P ∧ P.args = spec := by
  rw [← sigs H, alGet_map PrimDef.args] at h
  simpa [std] using h

private theorem takes_spec {H : Host} {x : String} {p : Nat → Prop} (h : Takes x p) :
    ∃ P, (std H).prims x = some P ∧ ∀ n, Arity.checkArgumentCount (Arity.parseNumArgs P.args) n = true ↔ p n := by
  have key : ∀ (L : List String) (sp : List Char), (∀ y ∈ L, alGet ((stdTable Demo.H).map (fun p => (p.1, p.2.args))) y = some sp) →
      x ∈ L → (∀ n, Arity.checkArgumentCount (Arity.parseNumArgs sp) n = true ↔ p n) →
      ∃ P, (std H).prims x = some P ∧ ∀ n, Arity.checkArgumentCount (Arity.parseNumArgs P.args) n = true ↔ p n := by
    intro L sp hL hx hp
    obtain ⟨P, h1, h2⟩ := prim_args (H := H) (hL x hx)
    exact ⟨P, h1, by rw [h2]; exact hp⟩
  cases h
  case none hx =>
    refine key _ "0".toList (by decide +kernel) hx fun n => ?_
    have := C30_count "0".toList _ (.one _ _ (.exactly ['0'] 0 (by unfold Decimal; decide))) n
    exact this
  case one hx =>
    refine key _ "1".toList (by decide +kernel) hx fun n => ?_
    have := C30_count "1".toList _ (.one _ _ (.exactly ['1'] 1 (by unfold Decimal; decide))) n
    exact this
  case two hx =>
    refine key _ "2".toList (by decide +kernel) hx fun n => ?_
    have := C30_count "2".toList _ (.one _ _ (.exactly ['2'] 2 (by unfold Decimal; decide))) n
    exact this
  case three hx =>
    refine key _ "3".toList (by decide +kernel) hx fun n => ?_
    have := C30_count "3".toList _ (.one _ _ (.exactly ['3'] 3 (by unfold Decimal; decide))) n
    exact this
  case any hx =>
    refine key _ "*".toList (by decide +kernel) hx fun n => ?_
    have := C30_count "*".toList _ (.one _ _ .any) n
    exact this
  case noneOrOne hx =>
    refine key _ "0|1".toList (by decide +kernel) hx fun n => ?_
    have := C30_count "0|1".toList _ (.alt ['0'] _ _ _ (.exactly ['0'] 0 (by unfold Decimal; decide)) (.one _ _ (.exactly ['1'] 1 (by unfold Decimal; decide)))) n
    rw [this]; omega
  case oneOrTwo hx =>
    refine key _ "1|2".toList (by decide +kernel) hx fun n => ?_
    have := C30_count "1|2".toList _ (.alt ['1'] _ _ _ (.exactly ['1'] 1 (by unfold Decimal; decide)) (.one _ _ (.exactly ['2'] 2 (by unfold Decimal; decide)))) n
    rw [this]; omega
  case twoOrThree hx =>
    refine key _ "2|3".toList (by decide +kernel) hx fun n => ?_
    have := C30_count "2|3".toList _ (.alt ['2'] _ _ _ (.exactly ['2'] 2 (by unfold Decimal; decide)) (.one _ _ (.exactly ['3'] 3 (by unfold Decimal; decide)))) n
    rw [this]; omega
  case oneToThree hx =>
    refine key _ "1|2|3".toList (by decide +kernel) hx fun n => ?_
    have := C30_count "1|2|3".toList _ (.alt ['1'] _ _ _ (.exactly ['1'] 1 (by unfold Decimal; decide)) (.alt ['2'] _ _ _ (.exactly ['2'] 2 (by unfold Decimal; decide)) (.one _ _ (.exactly ['3'] 3 (by unfold Decimal; decide))))) n
    rw [this]; omega
  case someOf hx =>
    refine key _ ">=1".toList (by decide +kernel) hx fun n => ?_
    have := C30_count ">=1".toList _ (.one _ _ (.atLeast ['1'] 1 (by unfold Decimal; decide))) n
    exact this
  case twoOrMore hx =>
    refine key _ ">=2".toList (by decide +kernel) hx fun n => ?_
    have := C30_count ">=2".toList _ (.one _ _ (.atLeast ['2'] 2 (by unfold Decimal; decide))) n
    exact this
  case threeOrMore hx =>
    refine key _ ">=3".toList (by decide +kernel) hx fun n => ?_
    have := C30_count ">=3".toList _ (.one _ _ (.atLeast ['3'] 3 (by unfold Decimal; decide))) n
    exact this

/-- Every primitive and special form of the table is listed. -/
theorem C67_counts_complete {H : Host} {x : String} {P : PrimDef} (h : (std H).prims x = some P) : ∃ p, Takes x p := by
  have hm : x ∈ (stdTable H).map fun p => p.1 := List.mem_map.mpr ⟨_, alGet_some_mem h, rfl⟩
  have hk : (stdTable H).map (fun p => p.1) = (stdTable Demo.H).map fun p => p.1 := by
    have := congrArg (List.map Prod.fst) (sigs H)
    simpa only [List.map_map, Function.comp_def] using this
  have hall : ∀ x ∈ (stdTable Demo.H).map (fun p => p.1),
      x ∈ takesNone ++ (takesOne ++ (takesTwo ++ (takesThree ++ (takesAny ++ (takesNoneOrOne ++ (takesOneOrTwo ++
        (takesTwoOrThree ++ (takesOneToThree ++ (takesSomeOf ++ (takesTwoOrMore ++ takesThreeOrMore)))))))))) := by
    decide +kernel
  rw [hk] at hm
  have := hall x hm
  simp only [List.mem_append] at this
  rcases this with h | h | h | h | h | h | h | h | h | h | h | h
  · exact ⟨_, .none h⟩
  · exact ⟨_, .one h⟩
  · exact ⟨_, .two h⟩
  · exact ⟨_, .three h⟩
  · exact ⟨_, .any h⟩
  · exact ⟨_, .noneOrOne h⟩
  · exact ⟨_, .oneOrTwo h⟩
  · exact ⟨_, .twoOrThree h⟩
  · exact ⟨_, .oneToThree h⟩
  · exact ⟨_, .someOf h⟩
  · exact ⟨_, .twoOrMore h⟩
  · exact ⟨_, .threeOrMore h⟩

/-- A call with a number of arguments that the primitive does not take is an error, and no argument is evaluated. -/
theorem C67_count {x : String} {p : Nat → Prop} {n : Nat} (hx : Takes x p) (hn : ¬ p n) (h : CallOf C x n d e s s₁) :
    Refuses C d e s s₁ := by
  obtain ⟨hd, t, xs, rfl, hs, hh, hop, hstd, ht, rfl⟩ := h
  obtain ⟨P, hP, hp⟩ := takes_spec (H := C.host) hx
  have hc : Arity.checkArgumentCount (Arity.parseNumArgs P.args) xs.length = false := by
    rw [← Bool.not_eq_true, hp]; exact hn
  rw [← hstd] at hP
  cases hr : P.restricted && s₁.restrictedEnv e with
  | false => exact C32_primitive_count hs hh hop hP hr ht hc
  | true =>
    rw [Bool.and_eq_true] at hr
    exact ⟨_, fun r s' => C36_refused hs hh hop hP hr.1 hr.2⟩

example : Takes "cons" (· = 2) := .two (by decide)
set_option maxRecDepth 20000 in
example : ∃ P, (std Demo.H).prims "format" = some P := ⟨_, rfl⟩
example : CallOf Demo.C "cons" 1 (Demo.code "(cons (write-line 5))") 1 Demo.s Demo.s := by
  have hc : Demo.code "(cons (write-line 5))" = .cons (.sym "cons") (ofArray [Demo.code "(write-line 5)"]) := by decide +kernel
  refine ⟨.sym "cons", ofArray [Demo.code "(write-line 5)"], [Demo.code "(write-line 5)"], hc, by decide +kernel, nofun,
    evalsOp_sym Demo.wf (Demo.means _ (b := true) (by decide +kernel)) (by decide), rfl, ?_, rfl⟩
  have := Lst.ofArray [Demo.code "(write-line 5)"]
  rwa [map_elem_id (by decide +kernel)] at this

end Golisp.Props
