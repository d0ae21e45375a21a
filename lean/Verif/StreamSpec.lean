import Verif.ImpSpec
import Verif.Samples
/-
Streams with delayed tails, as shipped with the interpreter (`/repo/lisp/streams.lsp`).  The text is copied; the reader (as
modelled) turns it into a list of expressions that contains those written out here, in this order (`streams_reads`).
-/
namespace Golisp.Streams
open Golisp Data Spec Samples Imp

/-- The characters of a literal text. -/
local elab "chars" t:str : term => return Lean.toExpr t.getString.toList

/-- Leave an equation to the kernel's evaluator. -/
local elab "evaluate" : tactic => do
  let g ← Lean.Elab.Tactic.getMainGoal
  let some (α, a, _) := (← g.getType').eq? | throwError "not an equation"
  g.assign (Lean.mkApp2 (.const ``Eq.refl [.succ .zero]) α a)

/-- `/repo/lisp/streams.lsp`. -/
def text : List Char := chars r#";;; -*- mode: Scheme -*-

;;; Streams from SICP

(define (memo-proc proc)
  (let ((already-run? #f)
        (result #f))
    (lambda ()
      (if (not already-run?)
          (begin (set! result (proc))
                 (set! already-run? #t)
                 result)
          result))))

(defmacro (delay **expr**)
  `(memo-proc (lambda ()
                ,**expr**)))

(define (force p)
  (p))

(defmacro (stream-cons **a** **b**)
  `(cons ,**a** (delay ,**b**)))

(define (stream-car s)
  (car s))

(define (stream-cdr s)
  (force (cdr s)))

(define (stream-null? s)
  (null? s))

(define the-empty-stream '())

;;; stream-ref returns the nth element of a stream (where the first
;;; element of the stream is counted as the 0th)

(define (stream-ref s n)
  (cond ((stream-null? s) the-empty-stream)
        ((eq? n 0) (stream-car s))
        (else (stream-ref (stream-cdr s) (- n 1)))))

;;; take some number of elements from a stream

(define (stream-take s n)
   (cond ((stream-null? s) the-empty-stream)
	((eq? n 0) 'done)
	(else (write-line (stream-car s))
	      (print-stream (stream-cdr s) (- n 1)))))


;;; filter a stream by pred

(define (stream-filter pred stream)
  (cond ((stream-null? stream)
         the-empty-stream)
        ((pred (stream-car stream))
         (stream-cons (stream-car stream)
                      (stream-filter pred (stream-cdr stream))))
        (else
         (stream-filter pred (stream-cdr stream)))))

;;; stream-map maps a procedure onto a stream

(define (stream-map proc . streams)
  (if (stream-null? (car streams))
      the-empty-stream
      (stream-cons (apply proc (map stream-car streams))
                   (apply stream-map (cons proc (map stream-cdr streams))))))


;;; stream-for-each applies a procedure to each element of a 
;;; stream, but does not build the answers back up into a stream

(define (stream-for-each proc s)
  (if (stream-null? s)
      'done
      (begin (proc (stream-car s))
             (stream-for-each proc (stream-cdr s)))))


;;; can use stream-for-each to write a procedure for viewing
;;; streams
;;;
;;; NOTE: do not try this on infinite streams

(define (display-stream s)
  (stream-for-each write-line s))

;;; defining some finite streams

(define a (stream-cons 1 (stream-cons 2 the-empty-stream)))

(define b (stream-cons 3 (stream-cons 4 (stream-cons 5 the-empty-stream))))


;;; a procedure to help us define a finite stream with integers
;;; between a given interval

(define (stream-enumerate-interval low high)
  (if (> low high)
      the-empty-stream
      (stream-cons low
                   (stream-enumerate-interval (+ low 1) high))))

(define stream-1-to-1000 (stream-enumerate-interval 1 1000))

(define (print-stream s n)
  (cond ((stream-null? s) the-empty-stream)
	((eq? n 0) 'done)
	(else (write-line (stream-car s))
	      (print-stream (stream-cdr s) (- n 1)))))
    

;;; defining add-streams

(define (add-streams s1 s2)
  (if (or (stream-null? s1) (stream-null? s2))
      the-empty-stream
      (stream-cons (+ (stream-car s1) (stream-car s2))
                   (add-streams (stream-cdr s1)
                                (stream-cdr s2)))))


;;; defining scale-stream

(define (scale-stream s factor)
  (stream-cons (* (stream-car s) factor)
	       (scale-stream (stream-cdr s) factor)))

;;; defining a few infinite streams

(define zeros (stream-cons 0 zeros))

(define ones (stream-cons 1 ones))

(define twos (stream-cons 2 twos))

(define odds (stream-cons 1 (add-streams odds twos)))

;;; defining integers, a stream of positive integers, two 
;;; different ways

(define integers
  (stream-cons 1 (add-streams integers ones)))

(define integers
  (add-streams (stream-cons 0 integers)
               ones))

;;; defining stream of fibonnaci numbers

(define fib
  (stream-cons 1
               (stream-cons 1
                            (add-streams fib
                                         (stream-cdr fib)))))

;;; partial-sums takes a stream as an argument and returns the 
;;; stream whose elements are s0, s0+s1, s0+s1+s2, s0+s1+s2+s3, ...
;;; for example, (partial-sum integers) would be 1, 3, 6, 10, 15, ...

(define (partial-sums s)
  (stream-cons (stream-car s)
               (add-streams (partial-sums s)
                            (stream-cdr s))))


;;; merge combines two ordered streams into one ordered result
;;; stream, eliminating repetitions

(define (merge s1 s2)
  (cond ((stream-null? s1)
         s2)
        ((stream-null? s2)
         s1)
        (else
         (let ((s1car (stream-car s1))
               (s2car (stream-car s2)))
           (cond ((< s1car s2car)
                  (stream-cons s1car 
                               (merge (stream-cdr s1) s2)))
                 ((> s1car s2car)
                  (stream-cons s2car
                               (merge s1 (stream-cdr s2))))
                 (else
                  (stream-cons s1car
                               (merge (stream-cdr s1)
                                      (stream-cdr s2)))))))))

;;; A famous problem, first raised by R. Hamming, is to enumerate, 
;;; in ascending order with no repetitions, all positive integers
;;; with no prime factors other than 2, 3, or 5.  One obvious way 
;;; to do this is to simply test each integer in turn to see whether
;;; it has any factors other than 2, 3, and 5.  But this is very 
;;; inefficient, since, as the integers get larger, fewer and fewer
;;; of them fit the requirement.  As an alternative, let us call
;;; the required stream of numbers H and notice the following facts
;;; about it.

;;; h begins with 1
;;; The elements of (scale-stream h 2) are also elements of s.
;;; The same is true for (scale-stream h 3) and (scale-stream h 5)
;;; These are all the elements of h.

(define h
  (stream-cons 1
               (merge (scale-stream h 2)
                      (merge (scale-stream h 3)
                             (scale-stream h 5)))))
"#

abbrev no : Data := .atom (.bool false)
abbrev yes : Data := .atom (.bool true)
/-- `,x` -/
abbrev hole (x : String) : Data := l [y "unquote", y x]

/-- The procedure that `memo-proc` makes (`streams.lsp:8-13`). -/
def memo : Data :=
  l [y "if", l [y "not", y "already-run?"], l [y "begin", l [y "set!", y "result", l [y "proc"]], l [y "set!", y "already-run?", yes], y "result"], y "result"]
/-- `streams.lsp:5-13` -/
def memoProc : Data := l [y "let", l [l [y "already-run?", no], l [y "result", no]], l [y "lambda", .emptyCons, memo]]
/-- `streams.lsp:15-17` -/
def delayed : Data := l [y "memo-proc", l [y "lambda", .emptyCons, hole "**expr**"]]
/-- `streams.lsp:22-23` -/
def consed : Data := l [y "cons", hole "**a**", l [y "delay", hole "**b**"]]
/-- `streams.lsp:39-42` -/
def ref : Data :=
  cond [(l [y "stream-null?", y "s"], y "the-empty-stream"), (l [y "eq?", y "n", n 0], l [y "stream-car", y "s"]),
    (y "else", l [y "stream-ref", l [y "stream-cdr", y "s"], l [y "-", y "n", n 1]])]
/-- The tail of an interval (`streams.lsp:105`). -/
def nextInterval : Data := l [y "stream-enumerate-interval", l [y "+", y "low", n 1], y "high"]
/-- `streams.lsp:101-105` -/
def interval : Data := l [y "if", l [y ">", y "low", y "high"], y "the-empty-stream", l [y "stream-cons", y "low", nextInterval]]
/-- The tail of a sum (`streams.lsp:122-123`). -/
def nextSum : Data := l [y "add-streams", l [y "stream-cdr", y "s1"], l [y "stream-cdr", y "s2"]]
/-- `streams.lsp:118-123` -/
def sum : Data :=
  l [y "if", l [y "or", l [y "stream-null?", y "s1"], l [y "stream-null?", y "s2"]], y "the-empty-stream",
    l [y "stream-cons", l [y "+", l [y "stream-car", y "s1"], l [y "stream-car", y "s2"]], nextSum]]

/-- `streams.lsp:128-130` -/
def scale : Data := l [y "stream-cons", l [y "*", l [y "stream-car", y "s"], y "factor"], l [y "scale-stream", l [y "stream-cdr", y "s"], y "factor"]]
/-- `streams.lsp:164-167` -/
def partials : Data := l [y "stream-cons", l [y "stream-car", y "s"], l [y "add-streams", l [y "partial-sums", y "s"], l [y "stream-cdr", y "s"]]]

/-- The library: what its names stand for once the file is loaded (`partial-sums` comes later in the file). -/
def lib : List (String × Val) :=
  [("memo-proc", .closure ["proc"] [memoProc] 0), ("delay", .mac ["**expr**"] delayed), ("force", .closure ["p"] [l [y "p"]] 0),
    ("stream-cons", .mac ["**a**", "**b**"] consed), ("stream-car", .closure ["s"] [l [y "car", y "s"]] 0),
    ("stream-cdr", .closure ["s"] [l [y "force", l [y "cdr", y "s"]]] 0), ("stream-null?", .closure ["s"] [l [y "null?", y "s"]] 0), ("the-empty-stream", .nil),
    ("stream-ref", .closure ["s", "n"] [ref] 0), ("stream-enumerate-interval", .closure ["low", "high"] [interval] 0), ("add-streams", .closure ["s1", "s2"] [sum] 0),
    ("scale-stream", .closure ["s", "factor"] [scale] 0)]

/-- `(define (f x …) body)` -/
def fn (f : String) (ps : List String) (b : Data) : Data := l [y "define", l (y f :: ps.map y), b]
/-- ``(defmacro (f x …) `body)`` -/
def mac (f : String) (ps : List String) (b : Data) : Data := l [y "defmacro", l (y f :: ps.map y), l [y "quasiquote", b]]

/-- The definitions of the library. -/
def defs : List Data :=
  [fn "memo-proc" ["proc"] memoProc, mac "delay" ["**expr**"] delayed, fn "force" ["p"] (l [y "p"]), mac "stream-cons" ["**a**", "**b**"] consed,
    fn "stream-car" ["s"] (l [y "car", y "s"]), fn "stream-cdr" ["s"] (l [y "force", l [y "cdr", y "s"]]), fn "stream-null?" ["s"] (l [y "null?", y "s"]),
    l [y "define", y "the-empty-stream", l [y "quote", .emptyCons]], fn "stream-ref" ["s", "n"] ref, fn "stream-enumerate-interval" ["low", "high"] interval,
    fn "add-streams" ["s1", "s2"] sum, fn "scale-stream" ["s", "factor"] scale]
/-- `partial-sums` comes after the streams below. -/
def partialsDef : Data := fn "partial-sums" ["s"] partials

/-- `streams.lsp:136` -/
def ones : Data := l [y "define", y "ones", l [y "stream-cons", n 1, y "ones"]]
/-- `streams.lsp:138` -/
def twos : Data := l [y "define", y "twos", l [y "stream-cons", n 2, y "twos"]]
/-- `streams.lsp:140` -/
def odds : Data := l [y "define", y "odds", l [y "stream-cons", n 1, l [y "add-streams", y "odds", y "twos"]]]
/-- `streams.lsp:145-146` -/
def integers : Data := l [y "define", y "integers", l [y "stream-cons", n 1, l [y "add-streams", y "integers", y "ones"]]]
/-- The second definition, which replaces the first (`streams.lsp:148-150`). -/
def integers' : Data := l [y "define", y "integers", l [y "add-streams", l [y "stream-cons", n 0, y "integers"], y "ones"]]
/-- The tail of the tail of `fib` (`streams.lsp:157-158`). -/
def nextFib : Data := l [y "add-streams", y "fib", l [y "stream-cdr", y "fib"]]
/-- `streams.lsp:154-158` -/
def fib : Data := l [y "define", y "fib", l [y "stream-cons", n 1, l [y "stream-cons", n 1, nextFib]]]

/-- The definitions, in the order of the file. -/
def file : List Data := defs ++ [ones, twos, odds, integers, integers', fib, partialsDef]

set_option maxRecDepth 1000000 in
theorem streams_reads (R : Reader.Host) : file.Sublist (Reader.parseAll R text).1 ∧ (Reader.parseAll R text).2 = false := by
  have : decide (file.isSublist (Reader.parseAll R text).1 = true ∧ (Reader.parseAll R text).2 = false) = true := by evaluate
  have := of_decide_eq_true this
  exact ⟨List.isSublist_iff_sublist.mp this.1, this.2⟩

/-! ### Streams as mathematical objects -/

/-- The elements of a stream, by number, as far as there are any. -/
abbrev Elems := Nat → Option (BitVec 64)

def Elems.tail (σ : Elems) : Elems := fun i => σ (i + 1)
def Elems.cons (a : BitVec 64) (σ : Elems) : Elems
  | 0 => some a
  | i + 1 => σ i
/-- Element by element, up to the end of the shorter one. -/
def Elems.add (σ τ : Elems) : Elems := fun i =>
  match σ i, τ i with
  | some a, some b => some (a + b)
  | _, _ => none
/-- The numbers from `lo` to `hi`. -/
def Elems.upto (lo hi : Int) : Elems := fun i => if lo + i ≤ hi then some (BitVec.ofInt 64 (lo + i)) else none
/-- Every element times `c`. -/
def Elems.scale (σ : Elems) (c : BitVec 64) : Elems := fun i => (σ i).map (· * c)
/-- The sums of the first elements. -/
def Elems.sums (σ : Elems) : Elems
  | 0 => σ 0
  | i + 1 => match sums σ i, σ (i + 1) with
    | some a, some b => some (a + b)
    | _, _ => none

/-- The data object is element `i` of the stream, or an empty list beyond the end. -/
def Elems.Is (σ : Elems) (i : Nat) (x : Data) : Prop :=
  ((∀ j ≤ i, σ j ≠ none) ∧ ∃ a, σ i = some a ∧ x = .atom (.int a)) ∨ (∃ j ≤ i, σ j = none) ∧ Fun.Empty x

/-- The Fibonacci numbers. -/
def fibonacci : Nat → Nat
  | 0 => 1
  | 1 => 1
  | i + 2 => fibonacci i + fibonacci (i + 1)

/-- The elements of the streams that the file names. -/
def named : List (String × Elems) :=
  [("ones", fun _ => some 1), ("twos", fun _ => some 2), ("odds", fun i => some (.ofNat 64 (2 * i + 1))), ("integers", fun i => some (.ofNat 64 (i + 1))),
    ("fib", fun i => some (.ofNat 64 (fibonacci i))), ("the-empty-stream", fun _ => none)]

/-- Expressions for streams. -/
inductive Stream : Data → Elems → Prop where
  | name {x σ} : (x, σ) ∈ named → Stream (y x) σ
  | tail {x σ} : (x, σ) ∈ named → x ≠ "the-empty-stream" → Stream (l [y "stream-cdr", y x]) σ.tail
  | cons {a e σ} : Stream e σ → Stream (l [y "stream-cons", n a, e]) (σ.cons a)
  | add {d e σ τ} : Stream d σ → Stream e τ → Stream (l [y "add-streams", d, e]) (σ.add τ)
  /-- there is no test for the end of the stream in `scale-stream` -/
  | scale {e σ c} : Stream e σ → (∀ i, σ i ≠ none) → Stream (l [y "scale-stream", e, n c]) (σ.scale c)
  | sums {e σ} : Stream e σ → σ 0 ≠ none → Stream (l [y "partial-sums", e]) σ.sums
  /-- comparison is right up to 2^24 only (C21) -/
  | interval {lo hi : BitVec 64} : lo.toInt.natAbs ≤ 2 ^ 24 → hi.toInt.natAbs < 2 ^ 24 → Stream (l [y "stream-enumerate-interval", n lo, n hi]) (.upto lo.toInt hi.toInt)

/-- The names that the definitions bind. -/
def defined : List String := lib.map (·.1) ++ ["ones", "twos", "odds", "integers", "fib", "partial-sums"]

/-- `(stream-ref e i)` -/
def elementOf (e : Data) (i : Nat) : Data := l [y "stream-ref", e, n (.ofNat 64 i)]

end Golisp.Streams
