import Verif.Spec
/-
Model of `sort` (`prim_list_manipulation.go:258-300`).

`sort.Slice` belongs to Go's library, and its algorithm differs between releases.  It only sees the array through the
`less` closure and swaps of two positions, so it is modelled as an arbitrary program made of these two operations
(`Tree`), one for each length.  `insertion` is the one used by Go for up to 12 elements.
-/
namespace Golisp.Sorting
open Data

/-- A sorting program: what to do next, depending on the answers so far. -/
inductive Tree where
  | done
  | less (i j : Nat) (k : Bool → Tree)
  | swap (i j : Nat) (k : Tree)

/-- `reflect.Swapper`: exchange two positions; `none` when out of range (a panic). -/
def swapAt (arr : List Data) (i j : Nat) : Option (List Data) :=
  match arr[i]?, arr[j]? with
  | some x, some y => some ((arr.set i y).set j x)
  | _, _ => none

variable {σ : Type}

/-- `sort.Slice` with the closure of `SortImpl` (`prim_list_manipulation.go:289-297`): after the first error the closure
answers false without calling the procedure. -/
def run (f : Data → M σ Data) : Tree → List Data → Option Err → M σ (List Data × Option Err)
  | .done, arr, er => M.pure (arr, er)
  | .less _ _ k, arr, some e => run f (k false) arr (some e)
  | .less i j k, arr, none => fun s =>
    match arr[i]?, arr[j]? with
    | some a, some b =>
      -- `sortCompare` (`prim_list_manipulation.go:258-272`)
      (match f (ofArray [a, b]) s with
       | (.ok v, s') => run f (k (boolValue v)) arr none s'
       | (.err e, s') => run f (k false) arr (some e) s'
       | (.panic, s') => (.panic, s')
       | (.timeout, s') => (.timeout, s'))
    | _, _ => (.panic, s)
  | .swap i j k, arr, er => fun s =>
    match swapAt arr i j with
    | some arr' => run f k arr' er s
    | none => (.panic, s)

/-- `SortImpl` (`prim_list_manipulation.go:274-300`), after the check that the second argument is a procedure. -/
def sortImpl (strat : Nat → Tree) (f : Data → M σ Data) (coll : Data) : M σ Data :=
  if !isListP coll then M.fail "sort requires a list as it's first argument."
  else fun s =>
    match run f (strat (toArray coll).length) (toArray coll) none s with
    | (.ok (arr, none), s') => (.ok (ofArray arr), s')
    | (.ok (_, some e), s') => (.err e, s')
    | (.err e, s') => (.err e, s')
    | (.panic, s') => (.panic, s')
    | (.timeout, s') => (.timeout, s')

/-- The same program on an array with a fixed comparison: what the library promises is about this. -/
def runPure (lt : Data → Data → Bool) : Tree → List Data → Option (List Data)
  | .done, arr => some arr
  | .less i j k, arr =>
    match arr[i]?, arr[j]? with
    | some a, some b => runPure lt (k (lt a b)) arr
    | _, _ => none
  | .swap i j k, arr =>
    match swapAt arr i j with
    | some arr' => runPure lt k arr'
    | none => none

/-- Inner loop of Go's `insertionSort_func`: `for j := i; j > a && less(j, j-1); j-- { swap(j, j-1) }`. -/
def inner (next : Tree) : Nat → Tree
  | 0 => next
  | j + 1 => .less (j + 1) j fun b => if b then .swap (j + 1) j (inner next j) else next
/-- Outer loop: `k` more elements, starting at `i`. -/
def outer : Nat → Nat → Tree
  | 0, _ => .done
  | k + 1, i => inner (outer k (i + 1)) i
/-- Go's insertion sort of `n` elements. -/
def insertion (n : Nat) : Tree := outer (n - 1) 1

end Golisp.Sorting

namespace Golisp.Spec
open Data Sorting

/-- A strict weak order. -/
structure StrictWeak (lt : Data → Data → Bool) : Prop where
  asymm : ∀ a b, lt a b = true → lt b a = false
  trans : ∀ a b c, lt a b = true → lt b c = true → lt a c = true
  incomp : ∀ a b c, lt a b = false → lt b a = false → lt b c = false → lt c b = false → lt a c = false ∧ lt c a = false

/-- No later element is smaller than an earlier one. -/
def Ordered (lt : Data → Data → Bool) (xs : List Data) : Prop := xs.Pairwise fun a b => lt b a = false

/-- What the library promises: for a strict weak order the program ends with the array in order. -/
def Sorts (strat : Nat → Tree) : Prop :=
  ∀ lt, StrictWeak lt → ∀ xs, ∃ ys, runPure lt (strat xs.length) xs = some ys ∧ Ordered lt ys

/-- All positions used exist. -/
inductive InRange (n : Nat) : Tree → Prop where
  | done : InRange n .done
  | less {i j k} : i < n → j < n → (∀ b, InRange n (k b)) → InRange n (.less i j k)
  | swap {i j k} : i < n → j < n → InRange n k → InRange n (.swap i j k)

/-- The procedure `f`, keeping a record of the outcomes of its calls. -/
def recorded {σ : Type} (f : Data → M σ Data) : Data → M (σ × List (Out Data)) Data := fun args s =>
  ((f args s.1).1, ((f args s.1).2, s.2 ++ [(f args s.1).1]))

end Golisp.Spec
