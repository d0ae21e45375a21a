import Verif.Spec
/-
Model of lists as objects with identity: `data.go:225-307`, `util.go:9-45`, `list_access.go:138-146`,
`prim_list_manipulation.go:92-139`, `prim_mutators.go:32-73`.

The heap is the sequence of all `Data` objects allocated so far; a `*Data` is `none` (the Go nil pointer) or the number
of an object.  A cell object stands for a `Data` together with the `ConsCell` its `Value` points to: no function here
makes two `Data` share one `ConsCell`.  Objects other than cells are not changed by these functions and keep their
contents inside the object.

Loops over cyclic lists do not end: every loop has a step bound, reaching it gives `timeout`, and the theorems say what
happens for every large enough bound.  Writing through `(*ConsCell)(c.Value)` when `c` is not a cell is undefined
behaviour in Go (it overwrites memory next to another object); here it is `panic`.
-/
namespace Golisp.Heap

/-- `*Data`. -/
abbrev Ref := Option Nat

/-- `Data` (`data.go:52-55`) with its `ConsCell` (`data.go:37-40`). -/
inductive Node where
  | cell (k : Kind) (car cdr : Ref)
  | atom (a : Atom)
deriving DecidableEq, Repr

abbrev Mem := List Node

/-- The object a pointer points to. -/
def deref (h : Mem) : Ref → Option Node
  | none => none
  | some i => h[i]?

/-- `Car` (`data.go:426-440`). -/
def car (h : Mem) (r : Ref) : Ref :=
  match deref h r with
  | some (.cell _ a _) => a
  | _ => none
/-- `Cdr` (`data.go:443-457`). -/
def cdr (h : Mem) (r : Ref) : Ref :=
  match deref h r with
  | some (.cell _ _ d) => d
  | _ => none
/-- `NilP` (`data.go:129-143`). -/
def isNil (h : Mem) (r : Ref) : Bool :=
  match r, deref h r with
  | none, _ => true
  | some _, some (.cell _ none none) => true
  | _, _ => false
/-- `ListP` (`data.go:153-155`). -/
def isListP (h : Mem) (r : Ref) : Bool :=
  match r, deref h r with
  | none, _ => true
  | some _, some (.cell .cons _ _) => true
  | some _, some (.cell .alist _ _) => true
  | _, _ => false
/-- `PairP` (`data.go:149-151`). -/
def isPair (h : Mem) (r : Ref) : Bool :=
  match r, deref h r with
  | none, _ => true
  | some _, some (.cell .cons _ _) => true
  | _, _ => false

/-- Allocation of one object. -/
def alloc (n : Node) : M Mem Ref := fun h => (.ok (some h.length), h ++ [n])
/-- `Cons` (`data.go:230-233`). -/
def cons (a d : Ref) : M Mem Ref := alloc (.cell .cons a d)
/-- `EmptyCons` (`data.go:225-228`). -/
def emptyCons : M Mem Ref := alloc (.cell .cons none none)

/-- `((*ConsCell)(c.Value)).Cdr = v`, also `ConsValue(c).Cdr = v`. -/
def setCdr (c v : Ref) : M Mem Unit := fun h =>
  match c, deref h c with
  | some i, some (.cell k a _) => (.ok (), h.set i (.cell k a v))
  | _, _ => (.panic, h)
/-- `ConsValue(c).Car = v`. -/
def setCar (c v : Ref) : M Mem Unit := fun h =>
  match c, deref h c with
  | some i, some (.cell k _ d) => (.ok (), h.set i (.cell k v d))
  | _, _ => (.panic, h)

/-- `for c = l; NotNilP(Cdr(c)); c = Cdr(c) {}` (`data.go:241-242`, also 255-256, 270-271, 285-286). -/
def lastCell (h : Mem) : Nat → Ref → Out Ref
  | 0, _ => .timeout
  | n + 1, c => if isNil h (cdr h c) then .ok c else lastCell h n (cdr h c)

/-- Run a read-only loop. -/
def reads {α : Type} (f : Mem → Out α) : M Mem α := fun h => (f h, h)

/-- `AppendBang` (`data.go:235-247`). -/
def appendBang (n : Nat) (l value : Ref) : M Mem Ref := fun h =>
  if isNil h l then cons value none h
  else M.bind (reads fun h => lastCell h n l) (fun c =>
    M.bind (cons value none) fun v =>
      M.bind (setCdr c v) fun _ => M.pure l) h

/-- `AppendBangList` (`data.go:249-261`). -/
def appendBangList (n : Nat) (l other : Ref) : M Mem Ref := fun h =>
  if isNil h l then (.ok other, h)
  else M.bind (reads fun h => lastCell h n l) (fun c =>
    M.bind (setCdr c other) fun _ => M.pure l) h

/-- `append!` (`prim_list_manipulation.go:92-114`) once both arguments are evaluated, before the variable is set. -/
def appendBangImpl (n : Nat) (l second : Ref) : M Mem Ref := fun h =>
  if isListP h second then appendBangList n l second h else appendBang n l second h

/-- `Copy` (`data.go:771-816`) of everything but association lists (those are `Data.copy` on values): `n` bounds the
nesting.  Frames and byte arrays inside the list are not modelled as separate objects here. -/
def copy : Nat → Ref → M Mem Ref
  | 0, _ => fun h => (.timeout, h)
  | n + 1, r => fun h =>
    match deref h r with
    | some (.cell .cons a d) =>
      if isNil h r then (.ok r, h)
      else M.bind (copy n a) (fun a' => M.bind (copy n d) fun d' => cons a' d') h
    | some (.cell .alist _ _) => (.timeout, h)
    | _ => (.ok r, h)

/-- `Append` (`data.go:263-276`). -/
def append1 (n : Nat) (l value : Ref) : M Mem Ref := fun h =>
  if isNil h l then cons value none h
  else M.bind (copy n l) (fun new =>
    M.bind (reads fun h => lastCell h n new) fun c =>
      M.bind (cons value none) fun v =>
        M.bind (setCdr c v) fun _ => M.pure new) h

/-- `AppendList` (`data.go:278-291`). -/
def appendList (n : Nat) (l other : Ref) : M Mem Ref := fun h =>
  if isNil h l then (.ok other, h)
  else M.bind (copy n l) (fun new =>
    M.bind (reads fun h => lastCell h n new) fun c =>
      M.bind (setCdr c other) fun _ => M.pure new) h

/-- `if element == nil { element = EmptyCons() }` (`util.go:13-15`). -/
def orEmpty : Ref → M Mem Ref
  | none => emptyCons
  | some i => M.pure (some i)

/-- Loop of `ArrayToList` (`util.go:12-20`). -/
def arrayLoop : List Ref → Ref → M Mem Unit
  | [], _ => M.pure ()
  | e :: es, last =>
    M.bind (orEmpty e) fun e' =>
      M.bind (cons e' none) fun c =>
        M.bind (setCdr last c) fun _ => arrayLoop es c

/-- `ArrayToList` (`util.go:9-22`). -/
def arrayToList (es : List Ref) : M Mem Ref :=
  M.bind emptyCons fun e =>
    M.bind (cons none e) fun head =>
      M.bind (arrayLoop es head) fun _ => reads fun h => .ok (cdr h head)

/-- `ToArray` (`util.go:39-45`). -/
def toArray (h : Mem) : Nat → Ref → Out (List Ref)
  | 0, _ => .timeout
  | n + 1, r =>
    if isNil h r then .ok []
    else match toArray h n (cdr h r) with
      | .ok es => .ok (car h r :: es)
      | o => o

/-- The accumulating loops of `AppendImpl` (`prim_list_manipulation.go:126-135`). -/
def gather (h : Mem) (n : Nat) : List Ref → Out (List Ref)
  | [] => .ok []
  | r :: rs =>
    match (if isListP h r then toArray h n r else .ok [r]), gather h n rs with
    | .ok xs, .ok ys => .ok (xs ++ ys)
    | _, _ => .timeout

/-- `append` (`prim_list_manipulation.go:116-139`) on its evaluated arguments. -/
def appendImpl (n : Nat) (args : List Ref) : M Mem Ref :=
  if args.isEmpty then M.pure none
  else M.bind (reads fun h => gather h n args) arrayToList

/-- `SetNth` (`list_access.go:138-146`). -/
def setNth (list : Ref) (index : Int) (value : Ref) : M Mem Ref := fun h =>
  let c := Nat.repeat (cdr h) (index - 1).toNat list
  if isNil h c then (.ok value, h)
  else M.bind (setCar c value) (fun _ => M.pure value) h

/-- `set-car!` (`prim_mutators.go:32-43`) on evaluated arguments.  The error for a first argument that is not a pair is
overwritten by the evaluation of the second one. -/
def setCarImpl (pair value : Ref) : M Mem Ref := M.bind (setCar pair value) fun _ => M.pure value
/-- `set-cdr!` (`prim_mutators.go:45-57`) on evaluated arguments. -/
def setCdrImpl (pair value : Ref) : M Mem Ref := M.bind (setCdr pair value) fun _ => M.pure value

/-- `RemoveFromListBang` (`data.go:293-307`); `eq` is the comparison with the item. -/
def removeLoop (eq : Mem → Ref → Bool) (l : Ref) : Nat → Ref → Ref → M Mem Ref
  | 0, _, _ => fun h => (.timeout, h)
  | n + 1, prev, c => fun h =>
    if isNil h c then (.ok l, h)
    else if eq h (car h c) then
      (if isNil h prev then (.ok (cdr h c), h)
       else M.bind (setCdr prev (cdr h c)) (fun _ => M.pure l) h)
    else removeLoop eq l n c (cdr h c) h
def removeBang (eq : Mem → Ref → Bool) (n : Nat) (l : Ref) : M Mem Ref := removeLoop eq l n none l

end Golisp.Heap

namespace Golisp.Spec
open Heap

/-- The empty list: the nil pointer or a cell with two nil pointers. -/
def Emptyish (h : Mem) (r : Ref) : Prop := r = none ∨ ∃ i k, r = some i ∧ h[i]? = some (.cell k none none)

/-- `r` is a proper list made of these cells (address and element), in order. -/
inductive Cells (h : Mem) : Ref → List (Nat × Ref) → Prop where
  | nil {r} : Emptyish h r → Cells h r []
  | cons {i k a d cs} : h[i]? = some (.cell k a d) → ¬(a = none ∧ d = none) → k ≠ .acell → Cells h d cs →
      Cells h (some i) ((i, a) :: cs)

/-- `r` is, as a value, the tree `d`. -/
inductive Denotes (h : Mem) : Ref → Data → Prop where
  | null : Denotes h none .null
  | cell {i k a d da dd} : h[i]? = some (.cell k a d) → Denotes h a da → Denotes h d dd →
      Denotes h (some i) (.cell k da dd)
  | atom {i a} : h[i]? = some (.atom a) → Denotes h (some i) (.atom a)

/-- Object `i` can be reached from `r`. -/
inductive Reach (h : Mem) : Ref → Nat → Prop where
  | here {i} : Reach h (some i) i
  | car {i k a d j} : h[i]? = some (.cell k a d) → Reach h a j → Reach h (some i) j
  | cdr {i k a d j} : h[i]? = some (.cell k a d) → Reach h d j → Reach h (some i) j

/-- The lists have the same length and corresponding elements are related. -/
inductive Pointwise {α β : Type} (R : α → β → Prop) : List α → List β → Prop where
  | nil : Pointwise R [] []
  | cons {x y xs ys} : R x y → Pointwise R xs ys → Pointwise R (x :: xs) (y :: ys)

/-- The nil pointer or a cell that is not a dotted pair. -/
def IsList (h : Mem) (r : Ref) : Prop := r = none ∨ ∃ i k a d, r = some i ∧ h[i]? = some (.cell k a d) ∧ k ≠ .acell

/-- What an argument of `append` contributes: the elements of a list, anything else itself. -/
def Contributes (h : Mem) (r : Ref) (xs : List Ref) : Prop :=
  (IsList h r ∧ ∃ cs, Cells h r cs ∧ xs = cs.map Prod.snd) ∨ (¬IsList h r ∧ xs = [r])

/-- `y` stands for `x` in a new list: the same object, or a new empty list for the nil pointer. -/
def Stands (n : Nat) (h : Mem) (y x : Ref) : Prop :=
  (x ≠ none ∧ y = x) ∨ (x = none ∧ ∃ j, n ≤ j ∧ y = some j ∧ h[j]? = some (.cell .cons none none))

/-- Nested lists: no association lists. -/
inductive Ordinary : Data → Prop where
  | null : Ordinary .null
  | cell {a d} : Ordinary a → Ordinary d → Ordinary (.cell .cons a d)
  | atom {a} : Ordinary (.atom a)

/-- With every large enough step bound, `f` ends with this value and heap. -/
def Ends {α : Type} (f : Nat → M Mem α) (h : Mem) (v : α) (h' : Mem) : Prop := ∃ N, ∀ n, N ≤ n → f n h = (.ok v, h')

/-- No object of `h` differs in `h'`, except possibly number `i`. -/
def SameBut (i : Nat) (h h' : Mem) : Prop := ∀ j, j < h.length → j ≠ i → h'[j]? = h[j]?
/-- No object of `h` differs in `h'`. -/
def Same (h h' : Mem) : Prop := ∀ j, j < h.length → h'[j]? = h[j]?

end Golisp.Spec
