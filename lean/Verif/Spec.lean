import Verif.ListPrims
/-
Specifications used by the property theorems.  Nothing here refers to the loops of the model: only to the value
constructors, to Lean's own `List` functions and to sequencing of callback calls.
-/
namespace Golisp
namespace Spec
open Data

/-- `Lst d xs`: the value `d` is a proper list whose elements are `xs`.  The end of a list is the nil pointer
or an empty cell; a cell with a nil car and a nil cdr is the *empty* list in golisp, never a one-element list. -/
inductive Lst : Data → List Data → Prop where
  | null : Lst .null []
  | empty (k : Kind) : Lst (.cell k .null .null) []
  | cons (k : Kind) (a d : Data) (xs : List Data) :
      ¬ (a = .null ∧ d = .null) → k ≠ .acell → Lst d xs → Lst (.cell k a d) (a :: xs)

/-- What a list element looks like after passing through an argument list or array: nil becomes `()`. -/
def elem (x : Data) : Data := if x = .null then .emptyCons else x

variable {σ : Type}

/-- Make the given calls one after the other, stopping at the first that does not return a value. -/
def calls (f : Data → M σ Data) : List Data → M σ (List Data)
  | [] => fun s => (.ok [], s)
  | a :: as => fun s =>
    match f a s with
    | (.ok v, s') =>
      (match calls f as s' with
       | (.ok vs, s'') => (.ok (v :: vs), s'')
       | (.err e, s'') => (.err e, s'')
       | (.panic, s'') => (.panic, s'')
       | (.timeout, s'') => (.timeout, s''))
    | (.err e, s') => (.err e, s')
    | (.panic, s') => (.panic, s')
    | (.timeout, s') => (.timeout, s')

/-- The callback `f`, instrumented to record the argument list of every call it receives. -/
def logged (f : Data → M σ Data) : Data → M (σ × List Data) Data := fun a (s, log) =>
  ((f a s).1, (f a s).2, log ++ [a])

/-- Left fold with a stateful, failing operation. -/
def foldl (f : Data → Data → M σ Data) : Data → List Data → M σ Data
  | acc, [] => fun s => (.ok acc, s)
  | acc, x :: xs => fun s =>
    match f acc x s with
    | (.ok r, s') => foldl f r xs s'
    | (o, s') => (o, s')

/-- Right fold with a stateful, failing operation: the right part is computed first. -/
def foldr (f : Data → Data → M σ Data) (init : Data) : List Data → M σ Data
  | [] => fun s => (.ok init, s)
  | x :: xs => fun s =>
    match foldr f init xs s with
    | (.ok r, s') => f x r s'
    | (o, s') => (o, s')

end Spec
end Golisp
