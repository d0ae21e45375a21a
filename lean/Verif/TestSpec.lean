import Verif.ImpSpec
import Verif.Equal
import Verif.Samples
/-
The test framework shipped with the interpreter (`/repo/lisp/testing.lsp`).  The text is copied; the reader (as modelled) turns
it into a list of expressions that contains those written out here, in this order (`testing_reads`).  What a state looks like in
which the framework is loaded, and what an assertion is to do.
-/
namespace Golisp.Testing
open Golisp Data Ev Spec Samples
open Golisp.Fun (Empty)

/-- The characters of a literal text. -/
local elab "chars" t:str : term => return Lean.toExpr t.getString.toList

/-- Leave an equation to the kernel's evaluator. -/
local elab "evaluate" : tactic => do
  let g ← Lean.Elab.Tactic.getMainGoal
  let some (α, a, _) := (← g.getType').eq? | throwError "not an equation"
  g.assign (Lean.mkApp2 (.const ``Eq.refl [.succ .zero]) α a)

/-- `/repo/lisp/testing.lsp:1-141`: all but the summary and the runners, which read files and the clock. -/
def source : List Char := chars r#";;; -*- mode: Scheme -*-

;;; Copyright 2015 SteelSeries ApS. All rights reserved.
;;; Use of this source code is governed by a BSD-style
;;; license that can be found in the LICENSE file.

(define number-of-passes 0)
(define number-of-failures 0)
(define number-of-errors 0)

(define failure-messages '())
(define error-messages '())

(define verbose-tests nil)
(define context-name "")
(define it-name "")


(define (reset-testing )
  (set! number-of-passes 0)
  (set! number-of-failures 0)
  (set! number-of-errors 0)
  (set! failure-messages '())
  (set! error-messages '())
  (set! verbose-tests nil))

(define (log-pass msg)
  (set! number-of-passes (succ number-of-passes))
  (when verbose-tests
    (format #t "    ~A~%" msg)))


(define (log-failure prefix msg)
  (set! number-of-failures (succ number-of-failures))
  (let ((failure-message (format #f "~A ~A:~%    ~A~%      - ~A" context-name it-name prefix msg)))
    (set! failure-messages (cons failure-message failure-messages))
    (when verbose-tests
          (format #t "    ~A~%      - ~A~%" prefix msg))))

(define (log-error err)
  (set! number-of-errors (succ number-of-errors))
  (let ((error-message (format #f "~A ~A:~%    ERROR: ~A" context-name it-name err)))
    (set! error-messages (cons error-message error-messages))
    (when verbose-tests
          (format #t "    ERROR: ~A~%" err))))

(defmacro (context label setup . body)
  (if (not (or (symbol? label) (string? label)))
      (error "The label of a describe must be a symbol or string.")
      `(begin (when verbose-tests
                (format #t "~%~A~%" ,label))
              (set! context-name ,label)
              (for-each (lambda (it-clause)
                          ,@setup
                          (eval it-clause))
                        ',body))))

(defmacro (it label . body)
  (if (not (or (symbol? label) (string? label)))
      (error "The label of a describe must be a symbol or string.")
      `(begin (when verbose-tests
                (format #t "~%  ~A~%" ,label))
              (set! it-name ,label)
              (on-error (begin ,@body)
                        (lambda (err)
                          (let* ((err-parts (string-split err "\n"))
                                 (last-line (car (last-pair err-parts))))
                            (log-error (cadr (string-split last-line ". ")))))))))

(defmacro (assert-true sexpr)
  `(let ((actual ,sexpr)
         (msg (format #f "(assert-true ~A)" ',sexpr)))
     (if actual
         (log-pass msg)
         (log-failure msg "expected true, but was false"))))


(defmacro (assert-false sexpr)
  `(let ((actual ,sexpr)
         (msg (format #f "(assert-false ~A)" ',sexpr)))
     (if (not actual)
         (log-pass msg)
         (log-failure msg "expected false, but was true"))))


(defmacro (assert-nil sexpr)
  `(let ((actual ,sexpr)
         (msg (format #f "(assert-null ~A)" ',sexpr)))
     (if (nil? actual)
         (log-pass msg)
         (log-failure msg "expected nil, but wasn't"))))


(defmacro (assert-not-nil sexpr)
  `(let ((actual ,sexpr)
         (msg (format #f "(assert-not-null ~A)" ',sexpr)))
     (if (not (nil? actual))
         (log-pass msg)
         (log-failure msg "expected not nil, but was"))))


(defmacro (assert-eq sexpr expected-sexpr)
  `(let* ((actual ,sexpr)
          (expected ,expected-sexpr)
          (msg (format #f "(assert-eq ~A ~A)" ',sexpr ',expected-sexpr)))
     (if (eq? actual expected)
         (log-pass msg)
         (log-failure msg (format #f "expected ~A, but was ~A" expected actual)))))


(defmacro (assert-neq sexpr expected-sexpr)
  `(let* ((actual ,sexpr)
          (expected ,expected-sexpr)
          (msg (format #f "(assert-neq ~A ~A)" ',sexpr ',expected-sexpr)))
     (if (neq? actual expected)
         (log-pass msg)
         (log-failure msg (format #f "did not expect ~A, but it was" expected)))))

(defmacro (assert-error **sexpr**)
  `(let ((msg (format #f "(assert-error ~A)" ',**sexpr**)))
     (on-error ,**sexpr**
               (lambda (err)
                 (log-pass msg))
               (lambda ()
                 (log-failure msg "expected an error, but there wasn't")))))

(defmacro (assert-nerror **sexpr**)
  `(let ((msg (format #f "(assert-nerror ~A)" ',**sexpr**)))
     (on-error ,**sexpr**
               (lambda (err)
                 (log-failure msg (format #f "expected no error, but error was ~A" err)))
               (lambda ()
                 (log-pass msg)))))

(defmacro (assert-memq sexpr object)
  `(let* ((searched-for ,object)
          (result (memq ,object ,sexpr))
          (msg (format #f "(assert-memq ~A ~S)" ',sexpr ',object)))
     (if result
         (log-pass msg)
         (log-failure msg (format #f "expected ~A to contain ~S, but it didn't" ',sexpr searched-for)))))

"#

abbrev no : Data := .atom (.bool false)
abbrev yes : Data := .atom (.bool true)
abbrev t (x : String) : Data := .str x
/-- `,x` -/
abbrev hole (x : String) : Data := l [y "unquote", y x]
/-- `(set! x (succ x))` -/
abbrev count (x : String) : Data := l [y "set!", y x, l [y "succ", y x]]

/-- `testing.lsp:27-30` -/
def logPass : List Data := [count "number-of-passes", l [y "when", y "verbose-tests", l [y "format", yes, t "    ~A~%", y "msg"]]]
/-- `testing.lsp:33-38` -/
def logFailure : List Data :=
  [count "number-of-failures", l [y "let", l [l [y "failure-message", l [y "format", no, t "~A ~A:~%    ~A~%      - ~A", y "context-name", y "it-name", y "prefix", y "msg"]]],
    l [y "set!", y "failure-messages", l [y "cons", y "failure-message", y "failure-messages"]],
    l [y "when", y "verbose-tests", l [y "format", yes, t "    ~A~%      - ~A~%", y "prefix", y "msg"]]]]
/-- `testing.lsp:40-45` -/
def logError : List Data :=
  [count "number-of-errors", l [y "let", l [l [y "error-message", l [y "format", no, t "~A ~A:~%    ERROR: ~A", y "context-name", y "it-name", y "err"]]],
    l [y "set!", y "error-messages", l [y "cons", y "error-message", y "error-messages"]],
    l [y "when", y "verbose-tests", l [y "format", yes, t "    ERROR: ~A~%", y "err"]]]]

/-- An assertion about one expression: its name, the condition on the value that its text tests, the name it has in reports,
the complaint, and the condition that it is to test. -/
structure Check where
  name : String
  test : Data
  label : String
  complaint : String
  holds : Data → Prop

/-- The template of the macro. -/
def Check.body (k : Check) : Data :=
  l [y "let", l [l [y "actual", hole "sexpr"], l [y "msg", l [y "format", no, t ("(" ++ k.label ++ " ~A)"), l [y "quote", hole "sexpr"]]]],
    l [y "if", k.test, l [y "log-pass", y "msg"], l [y "log-failure", y "msg", t k.complaint]]]

/-- `testing.lsp:70-75` -/
def assertTrue : Check := ⟨"assert-true", y "actual", "assert-true", "expected true, but was false", Truthy⟩
/-- `testing.lsp:78-83` -/
def assertFalse : Check := ⟨"assert-false", l [y "not", y "actual"], "assert-false", "expected false, but was true", fun v => ¬ Truthy v⟩
/-- `testing.lsp:86-91` -/
def assertNil : Check := ⟨"assert-nil", l [y "nil?", y "actual"], "assert-null", "expected nil, but wasn't", fun v => Lst v []⟩
/-- `testing.lsp:94-99` -/
def assertNotNil : Check := ⟨"assert-not-nil", l [y "not", l [y "nil?", y "actual"]], "assert-not-null", "expected not nil, but was", fun v => ¬ Lst v []⟩

def checks : List Check := [assertTrue, assertFalse, assertNil, assertNotNil]

/-- An assertion about the values of two expressions: its name, the operator that its text applies to them, the complaint as its
text makes it and as it is to be (given the texts of the second value and the first), and the relation that it is to test. -/
structure Comparison where
  name : String
  test : String
  remark : Data
  complaint : String → String → String
  holds : Data → Data → Prop

/-- The template of the macro. -/
def Comparison.body (k : Comparison) : Data :=
  l [y "let*", l [l [y "actual", hole "sexpr"], l [y "expected", hole "expected-sexpr"],
      l [y "msg", l [y "format", no, t ("(" ++ k.name ++ " ~A ~A)"), l [y "quote", hole "sexpr"], l [y "quote", hole "expected-sexpr"]]]],
    l [y "if", l [y k.test, y "actual", y "expected"], l [y "log-pass", y "msg"], l [y "log-failure", y "msg", k.remark]]]

/-- `testing.lsp:102-108` -/
def assertEq : Comparison :=
  ⟨"assert-eq", "eq?", l [y "format", no, t "expected ~A, but was ~A", y "expected", y "actual"], fun b a => "expected " ++ b ++ ", but was " ++ a, SEq⟩
/-- `testing.lsp:111-117` -/
def assertNeq : Comparison :=
  ⟨"assert-neq", "neq?", l [y "format", no, t "did not expect ~A, but it was", y "expected"], fun b _ => "did not expect " ++ b ++ ", but it was", fun v w => ¬ SEq v w⟩

def comparisons : List Comparison := [assertEq, assertNeq]

/-- An assertion about whether an expression fails: its name, what it does if it fails and if it does not, whether it is to fail,
and the complaint if it does otherwise (given the text of the error, if there is one). -/
structure Trial where
  name : String
  caught : Data
  done : Data
  wanted : Bool
  complaint : Option String → String

/-- The template of the macro. -/
def Trial.body (k : Trial) : Data :=
  l [y "let", l [l [y "msg", l [y "format", no, t ("(" ++ k.name ++ " ~A)"), l [y "quote", hole "**sexpr**"]]]],
    l [y "on-error", hole "**sexpr**", l [y "lambda", l [y "err"], k.caught], l [y "lambda", .emptyCons, k.done]]]

/-- `testing.lsp:119-125` -/
def assertError : Trial :=
  ⟨"assert-error", l [y "log-pass", y "msg"], l [y "log-failure", y "msg", t "expected an error, but there wasn't"], true, fun _ => "expected an error, but there wasn't"⟩
/-- `testing.lsp:127-133` -/
def assertNoError : Trial :=
  ⟨"assert-nerror", l [y "log-failure", y "msg", l [y "format", no, t "expected no error, but error was ~A", y "err"]], l [y "log-pass", y "msg"], false,
    fun o => "expected no error, but error was " ++ o.getD ""⟩

def trials : List Trial := [assertError, assertNoError]

/-- `,@x` -/
abbrev many (x : String) : Data := l [y "unquote-splicing", y x]
/-- What `it` does with the text of an error. -/
def excuse : Data :=
  l [y "let*", l [l [y "err-parts", l [y "string-split", y "err", t "\n"]], l [y "last-line", l [y "car", l [y "last-pair", y "err-parts"]]]],
    l [y "log-error", l [y "cadr", l [y "string-split", y "last-line", t ". "]]]]
/-- `testing.lsp:58-68`, the template -/
def itTemplate : Data :=
  l [y "begin", l [y "when", y "verbose-tests", l [y "format", yes, t "~%  ~A~%", hole "label"]], l [y "set!", y "it-name", hole "label"],
    l [y "on-error", l [y "begin", many "body"], l [y "lambda", l [y "err"], excuse]]]
/-- `testing.lsp:58-68` -/
def itBody : Data :=
  l [y "if", l [y "not", l [y "or", l [y "symbol?", y "label"], l [y "string?", y "label"]]],
    l [y "error", t "The label of a describe must be a symbol or string."], l [y "quasiquote", itTemplate]]

/-- `testing.lsp:47-56`, the template -/
def contextTemplate : Data :=
  l [y "begin", l [y "when", y "verbose-tests", l [y "format", yes, t "~%~A~%", hole "label"]], l [y "set!", y "context-name", hole "label"],
    l [y "for-each", l [y "lambda", l [y "it-clause"], many "setup", l [y "eval", y "it-clause"]], l [y "quote", hole "body"]]]
/-- `testing.lsp:47-56` -/
def contextBody : Data :=
  l [y "if", l [y "not", l [y "or", l [y "symbol?", y "label"], l [y "string?", y "label"]]],
    l [y "error", t "The label of a describe must be a symbol or string."], l [y "quasiquote", contextTemplate]]

/-- The procedures they use, with parameters and bodies. -/
def procs : List (String × List String × List Data) := [("log-pass", ["msg"], logPass), ("log-failure", ["prefix", "msg"], logFailure), ("log-error", ["err"], logError)]

/-- The definitions, in the order of the file. -/
def file : List Data :=
  [l [y "define", y "number-of-passes", n 0], l [y "define", y "number-of-failures", n 0], l [y "define", y "number-of-errors", n 0],
    l [y "define", y "failure-messages", l [y "quote", .emptyCons]], l [y "define", y "error-messages", l [y "quote", .emptyCons]],
    l [y "define", y "verbose-tests", y "nil"], l [y "define", y "context-name", t ""], l [y "define", y "it-name", t ""]] ++
  procs.map (fun p => l (y "define" :: l (y p.1 :: p.2.1.map y) :: p.2.2)) ++
  [l [y "defmacro", .cons (y "context") (.cons (y "label") (.cons (y "setup") (y "body"))), contextBody],
    l [y "defmacro", .cons (y "it") (.cons (y "label") (y "body")), itBody]] ++
  checks.map (fun k => l [y "defmacro", l [y k.name, y "sexpr"], l [y "quasiquote", k.body]]) ++
  comparisons.map (fun k => l [y "defmacro", l [y k.name, y "sexpr", y "expected-sexpr"], l [y "quasiquote", k.body]]) ++
  trials.map (fun k => l [y "defmacro", l [y k.name, y "**sexpr**"], l [y "quasiquote", k.body]])

set_option maxRecDepth 1000000 in
theorem testing_reads (R : Reader.Host) : file.Sublist (Reader.parseAll R source).1 ∧ (Reader.parseAll R source).2 = false := by
  have : decide (file.isSublist (Reader.parseAll R source).1 = true ∧ (Reader.parseAll R source).2 = false) = true := by evaluate
  have := of_decide_eq_true this
  exact ⟨List.isSublist_iff_sublist.mp this.1, this.2⟩

/-! ### States -/

/-- The words of the language that the assertions use. -/
def words : List String := ["quasiquote", "let", "quote", "if", "when", "set!", "format", "succ", "cons", "not", "nil?", "on-error", "lambda", "let*", "eq?", "neq?", "begin", "or", "symbol?", "string?", "string-split",
  "last-pair", "car", "cadr", "for-each", "eval"]

/-- The names that code with assertions has to leave alone. -/
def names : List String := words ++ procs.map (·.1) ++ checks.map (·.name) ++ trials.map (·.name) ++ comparisons.map (·.name) ++ ["it", "context"]

/-- In state `s` the definitions of the file are in force in environment `g`, and output is off. -/
structure Loaded (C : Conf) (g : Nat) (s : Store) : Prop where
  wf : WF s
  env : ∃ r, s.envs[g]? = some r ∧ r.frame = none
  words : ∀ x ∈ words, Means C s g x
  procs : ∀ p ∈ procs, ∃ i fr b, s.localB g p.1 = some ⟨.atom (.func i), b⟩ ∧ s.fns[i]? = some fr ∧ Params fr.params p.2.1 none ∧
    Lst fr.body p.2.2 ∧ fr.env = g
  checks : ∀ k ∈ checks, ∃ i mr b, s.localB g k.name = some ⟨.atom (.macro i), b⟩ ∧ s.macs[i]? = some mr ∧ Params mr.params ["sexpr"] none ∧
    mr.body = l [y "quasiquote", k.body] ∧ mr.env = g
  trials : ∀ k ∈ trials, ∃ i mr b, s.localB g k.name = some ⟨.atom (.macro i), b⟩ ∧ s.macs[i]? = some mr ∧ Params mr.params ["**sexpr**"] none ∧
    mr.body = l [y "quasiquote", k.body] ∧ mr.env = g
  comparisons : ∀ k ∈ comparisons, ∃ i mr b, s.localB g k.name = some ⟨.atom (.macro i), b⟩ ∧ s.macs[i]? = some mr ∧
    Params mr.params ["sexpr", "expected-sexpr"] none ∧ mr.body = l [y "quasiquote", k.body] ∧ mr.env = g
  it : ∃ i mr b, s.localB g "it" = some ⟨.atom (.macro i), b⟩ ∧ s.macs[i]? = some mr ∧ Params mr.params ["label"] (some "body") ∧ mr.body = itBody ∧ mr.env = g
  context : ∃ i mr b, s.localB g "context" = some ⟨.atom (.macro i), b⟩ ∧ s.macs[i]? = some mr ∧ Params mr.params ["label", "setup"] (some "body") ∧
    mr.body = contextBody ∧ mr.env = g
  silent : ∃ v b, s.localB g "verbose-tests" = some ⟨v, b⟩ ∧ ¬ Truthy v

/-- What the framework remembers. -/
structure Tally where
  passes : BitVec 64
  failures : BitVec 64
  messages : Data
  context : String
  it : String

/-- The variables of the framework hold the tally. -/
structure Tells (g : Nat) (s : Store) (c : Tally) : Prop where
  passes : s.localB g "number-of-passes" = some ⟨.int c.passes, false⟩
  failures : s.localB g "number-of-failures" = some ⟨.int c.failures, false⟩
  messages : s.localB g "failure-messages" = some ⟨c.messages, false⟩ ∧ ∀ i, c.messages ≠ .atom (.func i)
  context : ∃ b, s.localB g "context-name" = some ⟨.str c.context, b⟩
  it : ∃ b, s.localB g "it-name" = some ⟨.str c.it, b⟩

/-- From environment `e`, which has no frame, the names mean what they mean in `g`. -/
structure Sees (s : Store) (g e : Nat) : Prop where
  env : ∃ r, s.envs[e]? = some r ∧ r.frame = none
  names : ∀ x ∈ names, ∃ f b, Visible s g x f b ∧ Visible s e x f b

/-- Of what there was in `s`, nothing is different in `s'` but the variables `xs`, given with their environments (and the mark on
functions that says how they were reached last, and the register of top-level environments). -/
structure Only (xs : List (Nat × String)) (s s' : Store) : Prop where
  le : s.envs.length ≤ s'.envs.length
  vars : ∀ e x, e < s.envs.length → (e, x) ∉ xs → s'.localB e x = s.localB e x
  envs : ∀ e, e < s.envs.length → s'.parentOf e = s.parentOf e ∧ s'.frameOf e = s.frameOf e
  fns : ∀ (i : Nat) (fr : FnRec), s.fns[i]? = some fr → ∃ b, s'.fns[i]? = some { fr with slot := b }
  rest : s'.macs = s.macs ∧ s'.frames = s.frames ∧ s'.gens = s.gens ∧ s'.out = s.out ∧ s'.raw = s.raw ∧ s'.stdout = s.stdout ∧
    s'.words = s.words

/-! ### What is to be recorded -/

/-- The text of a value as `format` shows it. -/
def shown (H : Host) (s : Store) : Data → String
  | .atom (.str t) => t
  | v => H.show s v

/-- The report on a failed assertion about the expression `x`. -/
def report (H : Host) (s : Store) (k : Check) (x : Data) (c : Tally) : String :=
  c.context ++ (" " ++ (c.it ++ (":\n    " ++ (("(" ++ k.label ++ " " ++ shown H s x ++ ")") ++ ("\n      - " ++ k.complaint)))))

/-- One more pass. -/
def passed (c : Tally) : Tally := { c with passes := c.passes + 1 }
/-- One more failure, with a report. -/
def failed (r : String) (c : Tally) : Tally := { c with failures := c.failures + 1, messages := .cons (.str r) (elem c.messages) }

/-- The tally after an assertion. -/
inductive Recorded (H : Host) (s : Store) (k : Check) (x v : Data) (c : Tally) : Tally → List String → Prop where
  | pass : k.holds v → Recorded H s k x v c (passed c) ["number-of-passes"]
  | failure : ¬ k.holds v → Recorded H s k x v c (failed (report H s k x c) c) ["number-of-failures", "failure-messages"]

/-- The report on an expression `x` that failed, with error `o`, or did not, other than wanted. -/
def reportTrial (H : Host) (s : Store) (k : Trial) (x : Data) (o : Option String) (c : Tally) : String :=
  c.context ++ (" " ++ (c.it ++ (":\n    " ++ (("(" ++ k.name ++ " " ++ shown H s x ++ ")") ++ ("\n      - " ++ k.complaint o)))))

/-- The tally after an assertion about an expression that failed, with error `o`, or did not. -/
inductive Tried (H : Host) (s : Store) (k : Trial) (x : Data) (o : Option String) (c : Tally) : Tally → List String → Prop where
  | pass : o.isSome = k.wanted → Tried H s k x o c (passed c) ["number-of-passes"]
  | failure : o.isSome ≠ k.wanted → Tried H s k x o c (failed (reportTrial H s k x o c) c) ["number-of-failures", "failure-messages"]

/-- The report on a failed assertion about the values `v` and `w` of the expressions `x` and `z`. -/
def reportPair (H : Host) (s : Store) (k : Comparison) (x z v w : Data) (c : Tally) : String :=
  c.context ++ (" " ++ (c.it ++ (":\n    " ++ (("(" ++ k.name ++ " " ++ shown H s x ++ " " ++ shown H s z ++ ")") ++
    ("\n      - " ++ k.complaint (shown H s w) (shown H s v))))))

/-- The tally after an assertion about the values `v` and `w` of the expressions `x` and `z`. -/
inductive Compared (H : Host) (s : Store) (k : Comparison) (x z v w : Data) (c : Tally) : Tally → List String → Prop where
  | pass : k.holds v w → Compared H s k x z v w c (passed c) ["number-of-passes"]
  | failure : ¬ k.holds v w → Compared H s k x z v w c (failed (reportPair H s k x z v w c) c) ["number-of-failures", "failure-messages"]

/-- The report on an error of which `v` is known. -/
def reportError (H : Host) (s : Store) (v : Data) (c : Tally) : String := c.context ++ (" " ++ (c.it ++ (":\n    ERROR: " ++ shown H s v)))

end Golisp.Testing
