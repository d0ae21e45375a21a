import Verif.PureSpec
import Verif.Reader
import Lean.Elab.Tactic.Basic
/-
Programs shipped with the interpreter: `/repo/samples/deriv.lsp` and parts of `/repo/lisp/bench.lsp`.  The texts are
copied; the reader (as modelled) turns them into the definitions written out here (`deriv_reads`, `bench_reads`).
-/
namespace Golisp.Samples
open Golisp Data Spec

/-- The characters of a literal text. -/
local elab "chars" t:str : term => return Lean.toExpr t.getString.toList

/-- Leave an equation to the kernel's evaluator. -/
local elab "evaluate" : tactic => do
  let g ← Lean.Elab.Tactic.getMainGoal
  let some (α, a, _) := (← g.getType').eq? | throwError "not an equation"
  g.assign (Lean.mkApp2 (.const ``Eq.refl [.succ .zero]) α a)

abbrev y (x : String) : Data := .sym x
abbrev n (i : BitVec 64) : Data := .int i
/-- A list of expressions. -/
abbrev l (xs : List Data) : Data := xs.foldr .cons .null
/-- `(cond (c x) …)`. -/
abbrev cond (cls : List (Data × Data)) : Data := l (y "cond" :: cls.map fun p => l [p.1, p.2])
/-- `(define (f x …) body)`. -/
def form (p : String × Defn) : Data := l [y "define", l (y p.1 :: p.2.params.map y), p.2.body]

/-- `/repo/samples/deriv.lsp`. -/
def derivText : List Char := chars r#";;;From section 2.3.2 of SICP

(define (deriv exp var)
  (cond ((number? exp) 0)
        ((variable? exp)
         (if (same-variable? exp var) 1 0))
        ((sum? exp)
         (make-sum (deriv (addend exp) var)
                   (deriv (augend exp) var)))
        ((product? exp)
         (make-sum
           (make-product (multiplier exp)
                         (deriv (multiplicand exp) var))
           (make-product (deriv (multiplier exp) var)
                         (multiplicand exp))))
        (else
         (write-line "unknown expression type -- DERIV" exp))))

;; representing algebraic expressions

(define (variable? x) (symbol? x))

(define (same-variable? v1 v2)
  (and (variable? v1) (variable? v2) (eq? v1 v2)))

(define (make-sum a1 a2) (list '+ a1 a2))

(define (make-product m1 m2) (list '* m1 m2))

(define (sum? x)
  (and (pair? x) (eq? (car x) '+)))

(define (addend s) (cadr s))

(define (augend s) (caddr s))

(define (product? x)
  (and (pair? x) (eq? (car x) '*)))

(define (multiplier p) (cadr p))

(define (multiplicand p) (caddr p))


;: (deriv '(+ x 3) 'x)
;: (deriv '(* x y) 'x)
;: (deriv '(* (* x y) (+ x 3)) 'x)


;; With simplification

(define (make-sum a1 a2)
  (cond ((equal-number? a1 0) a2)
        ((equal-number? a2 0) a1)
        ((and (number? a1) (number? a2)) (+ a1 a2))
        (else (list '+ a1 a2))))

(define (equal-number? exp num)
  (and (number? exp) (== exp num)))

(define (make-product m1 m2)
  (cond ((or (equal-number? m1 0) (equal-number? m2 0)) 0)
        ((equal-number? m1 1) m2)
        ((equal-number? m2 1) m1)
        ((and (number? m1) (number? m2)) (* m1 m2))
        (else (list '* m1 m2))))


;: (deriv '(+ x 3) 'x)
;: (deriv '(* x y) 'x)
;: (deriv '(* (* x y) (+ x 3)) 'x)
"#

def deriv : Defn := ⟨["exp", "var"], cond [(l [y "number?", y "exp"], n 0), (l [y "variable?", y "exp"], l [y "if", l [y "same-variable?", y "exp", y "var"], n 1, n 0]), (l [y "sum?", y "exp"], l [y "make-sum", l [y "deriv", l [y "addend", y "exp"], y "var"], l [y "deriv", l [y "augend", y "exp"], y "var"]]), (l [y "product?", y "exp"], l [y "make-sum", l [y "make-product", l [y "multiplier", y "exp"], l [y "deriv", l [y "multiplicand", y "exp"], y "var"]], l [y "make-product", l [y "deriv", l [y "multiplier", y "exp"], y "var"], l [y "multiplicand", y "exp"]]]), (y "else", l [y "write-line", .atom (.str "unknown expression type -- DERIV"), y "exp"])]⟩
def variableP : Defn := ⟨["x"], l [y "symbol?", y "x"]⟩
def sameVariableP : Defn := ⟨["v1", "v2"], l [y "and", l [y "variable?", y "v1"], l [y "variable?", y "v2"], l [y "eq?", y "v1", y "v2"]]⟩
def makeSum0 : Defn := ⟨["a1", "a2"], l [y "list", l [y "quote", y "+"], y "a1", y "a2"]⟩
def makeProduct0 : Defn := ⟨["m1", "m2"], l [y "list", l [y "quote", y "*"], y "m1", y "m2"]⟩
def sumP : Defn := ⟨["x"], l [y "and", l [y "pair?", y "x"], l [y "eq?", l [y "car", y "x"], l [y "quote", y "+"]]]⟩
def addend : Defn := ⟨["s"], l [y "cadr", y "s"]⟩
def augend : Defn := ⟨["s"], l [y "caddr", y "s"]⟩
def productP : Defn := ⟨["x"], l [y "and", l [y "pair?", y "x"], l [y "eq?", l [y "car", y "x"], l [y "quote", y "*"]]]⟩
def multiplier : Defn := ⟨["p"], l [y "cadr", y "p"]⟩
def multiplicand : Defn := ⟨["p"], l [y "caddr", y "p"]⟩
def makeSum : Defn := ⟨["a1", "a2"], cond [(l [y "equal-number?", y "a1", n 0], y "a2"), (l [y "equal-number?", y "a2", n 0], y "a1"), (l [y "and", l [y "number?", y "a1"], l [y "number?", y "a2"]], l [y "+", y "a1", y "a2"]), (y "else", l [y "list", l [y "quote", y "+"], y "a1", y "a2"])]⟩
def equalNumberP : Defn := ⟨["exp", "num"], l [y "and", l [y "number?", y "exp"], l [y "==", y "exp", y "num"]]⟩
def makeProduct : Defn := ⟨["m1", "m2"], cond [(l [y "or", l [y "equal-number?", y "m1", n 0], l [y "equal-number?", y "m2", n 0]], n 0), (l [y "equal-number?", y "m1", n 1], y "m2"), (l [y "equal-number?", y "m2", n 1], y "m1"), (l [y "and", l [y "number?", y "m1"], l [y "number?", y "m2"]], l [y "*", y "m1", y "m2"]), (y "else", l [y "list", l [y "quote", y "*"], y "m1", y "m2"])]⟩

/-- The definitions of the file, in order; `make-sum` and `make-product` are defined twice. -/
def derivProgram : List (String × Defn) :=
  [("deriv", deriv), ("variable?", variableP), ("same-variable?", sameVariableP), ("make-sum", makeSum0), ("make-product", makeProduct0), ("sum?", sumP), ("addend", addend), ("augend", augend), ("product?", productP), ("multiplier", multiplier), ("multiplicand", multiplicand), ("make-sum", makeSum), ("equal-number?", equalNumberP), ("make-product", makeProduct)]

theorem deriv_reads (R : Reader.Host) : Reader.parseAll R derivText = (derivProgram.map form, false) := by
  have : decide (Reader.parseAll R derivText = (derivProgram.map form, false)) = true := by evaluate
  exact of_decide_eq_true this

/-- `/repo/lisp/bench.lsp`. -/
def benchText : List Char := chars r#"
;;; ================================================================================
;;; Symbolic derivation


(define (deriv a)
  (cond ((not (pair? a))
         (if (eq? a 'x) 1 0))
        ((eq? (car a) '+)
         (cons '+
               (map deriv (cdr a))))
        ((eq? (car a) '-)
         (cons '-
               (map deriv (cdr a))))
        ((eq? (car a) '*)
         (list '*
                a
                (cons '+
                      (map (lambda (a) (list '/ (deriv a) a)) (cdr a)))))
        ((eq? (car a) '/)
         (list '-
               (list '/
                     (deriv (cadr a))
                     (caddr a))
               (list '/
                     (cadr a)
                     (list '*
                           (caddr a)
                           (caddr a)
                           (deriv (caddr a))))))
        (else
         (fatal-error "No derivation method available"))))

;;; ================================================================================
;;; Ackerman

(define (ack m n)
  (cond ((== m 0) (+ n 1))
        ((== n 0) (ack (- m 1) 1))
        (else (ack (- m 1) (ack m (- n 1))))))


;;; ================================================================================
;;; DESTRUC -- Destructive operation benchmark.

(define (append-to-tail! x y)
  (if (null? x)
    y
    (let loop ((a x) (b (cdr x)))
      (if (null? b)
        (begin
          (set-cdr! a y)
          x)
        (loop b (cdr b))))))

(define (destructive n m)
  (let ((l (do ((i 10 (- i 1)) (a '() (cons '() a)))
               ((== i 0) a))))
    (do ((i n (- i 1)))
        ((== i 0) l)
      (cond ((null? (car l))
             (do ((l l (cdr l)))
                 ((null? l))
               (if (null? (car l)) (set-car! l (cons '() '())))
               (append-to-tail! (car l)
                                (do ((j m (- j 1)) (a '() (cons '() a)))
                                  ((== j 0) a)))))
            (else
             (do ((l1 l (cdr l1)) (l2 (cdr l) (cdr l2)))
                 ((null? l2))
               (set-cdr! (do ((j (quotient (length (car l2)) 2) (- j 1))
                              (a (car l2) (cdr a)))
                             ((zero? j) a)
                           (set-car! a i))
                         (let ((n (quotient (length (car l1)) 2)))
                           (cond ((== n 0)
                                  (set-car! l1 '())
                                  (car l1))
                                 (else
                                  (do ((j n (- j 1)) (a (car l1) (cdr a)))
                                      ((== j 1)
                                       (let ((x (cdr a)))
                                         (set-cdr! a '())
                                         x))
                                    (set-car! a i))))))))))))


;;; ================================================================================
;;; DIVITER -- Benchmark which divides by 2 using lists of n ()'s.

(define (create-n n)
  (do ((n n (- n 1))
       (a '() (cons '() a)))
      ((eq? n 0) a)))
 
(define *ll* (create-n 2000))

(define (iterative-div2 l)
  (do ((l l (cddr l))
       (a '() (cons (car l) a)))
      ((null? l) a)))

;;; ================================================================================
;;; FIB -- A classic benchmark, computes fib(35) inefficiently.

(define (fib n)
  (if (< n 2)
    n
    (+ (fib (- n 1))
       (fib (- n 2)))))

 

;;; ================================================================================
;;; Running benchmarks

(define (display string)
    (format #t "~A" string))

(define (run-bench name count run)
    (let loop ((i count)
               (result '(undefined)))
      (if (< 0 i)
          (loop (- i 1) (run))
          result)))

(define (run-benchmark name count run-maker . args)
  (format #t "~A~%" name)
  (let* ((loop-count 10)
         (run (apply run-maker args))
         (results (map (lambda (ignored)
                         (time (run-bench name count run)))
                       (interval loop-count))))
     (list name count loop-count (min results) (max results) (/ (apply + results) loop-count))))

(define (fatal-error . args)
    (for-each (lambda (x) (format #t "~A " x)) args)
  (newline)
  (exit 1))

;;; ================================================================================
;;; Controlling

(define **DERIV-ITERS** 2000)
(define **ACK-ITERS** 1)
(define **DESTRUC-ITERS** 1)
(define **DIVITER-ITERS** 100)
(define **FIB-ITERS** 1)

(define **BENCHMARKS**
    (list (lambda ()
            (run-benchmark "deriv"
                           **DERIV-ITERS**
                           (lambda (a) (lambda () (deriv a)))
                           '(+ (* 3 x x) (* a x x) (* b x) 5)))
          (lambda ()
            (run-benchmark "ackerman"
                           **ACK-ITERS**
                           (lambda (m n) (lambda () (ack m n)))
                           3
                           6))
          (lambda ()
            (run-benchmark "destruc"
                           **DESTRUC-ITERS**
                           (lambda (n m) (lambda () (destructive n m)))
                           600
                           50))
          (lambda ()
            (run-benchmark
             "diviter"
             **DIVITER-ITERS**
             (lambda (l) (lambda () (iterative-div2 l)))
             *ll*))
          (lambda ()
            (run-benchmark
             "fib"
             **FIB-ITERS**
             (lambda (n) (lambda () (fib n)))
             35))))


(define (run label)
  (let ((results (map (lambda (f)
                        (f))
                      **BENCHMARKS**))
        (name-width 20)
        (outer-width 5)
        (inner-width 5)
        (min-width 5)
        (max-width 5)
        (avg-width 5))
    (format #t "~%Benchmark for ~A~%~%" label)
    (format #t "~VA | ~VA | ~VA | ~V@A | ~V@A | ~VA~%" name-width "Name" outer-width "Outer" inner-width "Inner" min-width "Min" max-width "Max" avg-width "Avg")
    (format #t "~V~+~V~+~V~+~V~+~V~+~V~~%" (+ 1 name-width) (+ 2 outer-width) (+ 2 inner-width) (+ 2 min-width) (+ 2 max-width) (+ 1 avg-width))
    (for-each (lambda (d)
                (let ((name (first d))
                      (inner-count (second d))
                      (outer-count (third d))
                      (min (fourth d))
                      (max (fifth d))
                      (avg (sixth d)))
                  (format #t "~VA | ~VA | ~VA | ~VA | ~VA | ~VA~%" name-width name outer-width outer-count inner-width inner-count min-width min max-width max avg-width avg)))
              results)
    (format #t "~V~+~V~+~V~+~V~+~V~+~V~~%" (+ 1 name-width) (+ 2 outer-width) (+ 2 inner-width) (+ 2 min-width) (+ 2 max-width) (+ 1 avg-width))))
"#

def ack : Defn := ⟨["m", "n"], cond [(l [y "==", y "m", n 0], l [y "+", y "n", n 1]), (l [y "==", y "n", n 0], l [y "ack", l [y "-", y "m", n 1], n 1]), (y "else", l [y "ack", l [y "-", y "m", n 1], l [y "ack", y "m", l [y "-", y "n", n 1]]])]⟩
def fib : Defn := ⟨["n"], l [y "if", l [y "<", y "n", n 2], y "n", l [y "+", l [y "fib", l [y "-", y "n", n 1]], l [y "fib", l [y "-", y "n", n 2]]]]⟩

set_option maxRecDepth 1000000 in
theorem bench_reads (R : Reader.Host) : form ("fib", fib) ∈ (Reader.parseAll R benchText).1 ∧
    form ("ack", ack) ∈ (Reader.parseAll R benchText).1 ∧ (Reader.parseAll R benchText).2 = false := by
  have : decide (form ("fib", fib) ∈ (Reader.parseAll R benchText).1 ∧
    form ("ack", ack) ∈ (Reader.parseAll R benchText).1 ∧ (Reader.parseAll R benchText).2 = false) = true := by evaluate
  exact of_decide_eq_true this

end Golisp.Samples
