import Verif.LispLemmas
/-
What the primitives that take a procedure do, in terms of the calls of that procedure.  Used for C69.
-/
namespace Golisp.Spec
open Golisp Data Ev

/-- The rows of a table given by its columns: as many as the shortest column has elements. -/
inductive Rows : List (List Data) → List (List Data) → Prop where
  | stop {ls} : [] ∈ ls → Rows ls []
  | next {rs} (ls : List (Data × List Data)) : Rows (ls.map (·.2)) rs → Rows (ls.map fun p => p.1 :: p.2) (ls.map (·.1) :: rs)

/-- The procedure `f` is called, from code in environment `e`, with a fresh list of the values `vs` as argument list. -/
def With (C : Conf) (f : Data) (e : Nat) (vs : List Data) : Store → Out Data → Store → Prop := Applies C f (ofArray vs) e

/-- A new list of cons cells ending in nil; without elements it is nil or `()`. -/
inductive NewList : Data → List Data → Prop where
  | null : NewList .null []
  | empty : NewList .emptyCons []
  | chain {d x xs} : Chain d (x :: xs) → NewList d (x :: xs)

/-- Do `G` for every element, left to right, and collect the values; the first that fails ends it. -/
inductive Calls {α : Type} (G : α → Store → Out Data → Store → Prop) : List α → Store → Out (List Data) → Store → Prop where
  | done {s} : Calls G [] s (.ok []) s
  | next {x xs v s s₁ vs s'} : G x s (.ok v) s₁ → Calls G xs s₁ (.ok vs) s' → Calls G (x :: xs) s (.ok (v :: vs)) s'
  | err {x xs er s s'} : G x s (.err er) s' → Calls G (x :: xs) s (.err er) s'
  | panic {x xs s s'} : G x s .panic s' → Calls G (x :: xs) s .panic s'
  | errLater {x xs v er s s₁ s'} : G x s (.ok v) s₁ → Calls G xs s₁ (.err er) s' → Calls G (x :: xs) s (.err er) s'
  | panicLater {x xs v s s₁ s'} : G x s (.ok v) s₁ → Calls G xs s₁ .panic s' → Calls G (x :: xs) s .panic s'

/-- Call for one row after the other until an answer has the truth value `stop`; later rows are not used. -/
inductive Until (G : List Data → Store → Out Data → Store → Prop) (stop : Bool) :
    List (List Data) → Store → Out Bool → Store → Prop where
  | none {s} : Until G stop [] s (.ok (!stop)) s
  | hit {x xs v s s'} : G x s (.ok v) s' → (Truthy v ↔ stop = true) → Until G stop (x :: xs) s (.ok stop) s'
  | miss {x xs v s s₁ r s'} : G x s (.ok v) s₁ → ¬ (Truthy v ↔ stop = true) → Until G stop xs s₁ r s' → Until G stop (x :: xs) s r s'
  | err {x xs er s s'} : G x s (.err er) s' → Until G stop (x :: xs) s (.err er) s'
  | panic {x xs s s'} : G x s .panic s' → Until G stop (x :: xs) s .panic s'

/-- Combine the elements one after the other into an accumulated value. -/
inductive Folds (G : Data → Data → Store → Out Data → Store → Prop) : Data → List Data → Store → Out Data → Store → Prop where
  | done {a s} : Folds G a [] s (.ok a) s
  | next {a x xs b s s₁ r s'} : G a x s (.ok b) s₁ → Folds G b xs s₁ r s' → Folds G a (x :: xs) s r s'
  | stop {a x xs s r s'} : G a x s r s' → ¬ Ok r → Folds G a (x :: xs) s r s'

/-- Ask a predicate about every element, in order; an answer that is not a boolean is the error `m`.  The selected elements are
those with answer `want`. -/
inductive Selects (G : Data → Store → Out Data → Store → Prop) (want : Bool) (m : String) :
    List Data → Store → Out (List Data) → Store → Prop where
  | done {s} : Selects G want m [] s (.ok []) s
  | keep {x xs ys s s₁ s'} : G x s (.ok (.bool want)) s₁ → Selects G want m xs s₁ (.ok ys) s' → Selects G want m (x :: xs) s (.ok (x :: ys)) s'
  | skip {x xs ys s s₁ s'} : G x s (.ok (.bool !want)) s₁ → Selects G want m xs s₁ (.ok ys) s' → Selects G want m (x :: xs) s (.ok ys) s'
  | odd {x xs v s s'} : G x s (.ok v) s' → (∀ b, v ≠ .bool b) → Selects G want m (x :: xs) s (.err (.msg m)) s'
  | err {x xs er s s'} : G x s (.err er) s' → Selects G want m (x :: xs) s (.err er) s'
  | panic {x xs s s'} : G x s .panic s' → Selects G want m (x :: xs) s .panic s'
  | errLater {x xs b er s s₁ s'} : G x s (.ok (.bool b)) s₁ → Selects G want m xs s₁ (.err er) s' → Selects G want m (x :: xs) s (.err er) s'
  | panicLater {x xs b s s₁ s'} : G x s (.ok (.bool b)) s₁ → Selects G want m xs s₁ .panic s' → Selects G want m (x :: xs) s .panic s'

/-- Ask a predicate about one element after the other until it says `#t`; the result is the list from there on.  A failing
call or an answer that is not a boolean is the error `m`. -/
inductive Finds (G : Data → Store → Out Data → Store → Prop) (m : String) :
    List Data → Store → Out (Option (Data × List Data)) → Store → Prop where
  | none {s} : Finds G m [] s (.ok none) s
  | hit {x xs s s'} : G x s (.ok (.bool true)) s' → Finds G m (x :: xs) s (.ok (some (x, xs))) s'
  | miss {x xs s s₁ r s'} : G x s (.ok (.bool false)) s₁ → Finds G m xs s₁ r s' → Finds G m (x :: xs) s r s'
  | odd {x xs v s s'} : G x s (.ok v) s' → (∀ b, v ≠ .bool b) → Finds G m (x :: xs) s (.err (.msg m)) s'
  | err {x xs er s s'} : G x s (.err er) s' → Finds G m (x :: xs) s (.err (.msg m)) s'
  | panic {x xs s s'} : G x s .panic s' → Finds G m (x :: xs) s .panic s'

/-- The outcome `r` is the outcome `o` with its value, if it has one, seen through `P`. -/
inductive Becomes {α : Type} (P : α → Data → Prop) : Out α → Out Data → Prop where
  | ok {a v} : P a v → Becomes P (.ok a) (.ok v)
  | err {er} : Becomes P (.err er) (.err er)
  | panic : Becomes P .panic .panic

/-- The expression `d` ends exactly when `Q` does, in the same state, and its outcome is that of `Q` seen through `P` (an
error also quotes `d`). -/
def Performs {α : Type} (C : Conf) (d : Data) (e : Nat) (s : Store) (Q : Out α → Store → Prop) (P : α → Data → Prop) : Prop :=
  (∀ r t, Evals C d e s r t → ∃ o r₀, Q o t ∧ Becomes P o r₀ ∧ r = quoting d r₀) ∧
    ∀ o t, Q o t → ∃ r₀, Becomes P o r₀ ∧ Evals C d e s (quoting d r₀) t

/-- `v` is `#f`, or a list of the elements from the found one on. -/
def FoundTail (o : Option (Data × List Data)) (v : Data) : Prop :=
  match o with
  | none => v = .bool false
  | some p => Lst v (p.1 :: p.2)

/-- The elements with a true answer, and those with a false one. -/
inductive Parted : List Data → List Data → List Data → List Data → Prop where
  | nil : Parted [] [] [] []
  | yes {x v xs vs ts fs} : Truthy v → Parted xs vs ts fs → Parted (x :: xs) (v :: vs) (x :: ts) fs
  | no {x v xs vs ts fs} : ¬ Truthy v → Parted xs vs ts fs → Parted (x :: xs) (v :: vs) ts (x :: fs)

end Golisp.Spec
