import Verif.ListPrims
/-
Model of frames: `frame.go`.  Frames are objects with identity, kept in a table; a frame value is `Atom.frame i`.

The iteration order of a Go map is unspecified: every walk over parents takes an arbitrary reordering `ord`, which may
differ from step to step (it is given the frames visited so far).  Mutexes are not modelled here (frames used by one
goroutine).
-/
namespace Golisp

/-- Association lists standing for Go maps with string keys. -/
def alGet {α : Type} : List (String × α) → String → Option α
  | [], _ => none
  | (k, v) :: r, x => if k = x then some v else alGet r x
/-- `m[k] = v`. -/
def alSet {α : Type} : List (String × α) → String → α → List (String × α)
  | [], x, w => [(x, w)]
  | (k, v) :: r, x, w => if k = x then (k, w) :: r else (k, v) :: alSet r x w
/-- `delete(m, k)`. -/
def alDel {α : Type} (l : List (String × α)) (x : String) : List (String × α) := l.filter fun p => p.1 ≠ x

/-- `FrameMapData` (`frame.go:17`). -/
abbrev FrameMap := List (String × Data)
/-- All frames created so far. -/
abbrev Frames := List FrameMap

namespace Frame
open Data

/-- `isParentKey` (`frame.go:37-39`): the key ends in `*:`. -/
def isParentKey (k : String) : Bool :=
  match k.toList.reverse with
  | ':' :: '*' :: _ => true
  | _ => false

def get? (F : Frames) (i : Nat) : FrameMap := (F[i]?).getD []

/-- `self.Data[key]` (`frame.go:24-27,107`). -/
def slot (F : Frames) (i : Nat) (k : String) : Option Data := alGet (get? F i) k

/-- `Parents` (`frame.go:51-59`) in table order; `FrameValue` of something that is not a frame is a nil pointer
(`data.go:515-525`), `none` here. -/
def parents (F : Frames) (i : Nat) : List (Option Nat) :=
  (get? F i).filterMap fun p =>
    if isParentKey p.1 && !decide (p.2 = null) then
      some (match p.2 with | .atom (.frame j) => some j | _ => none)
    else none

/-- A choice of map iteration order at every step. -/
abbrev Order := List Nat → List (Option Nat) → List (Option Nat)

section
variable {α : Type} [DecidableEq α]

/-- The loop over parents of `hasSlotHelper` and `getHelper` (`frame.go:78-85,112-119`): the first parent whose result
is not `miss` decides; a nil parent pointer is dereferenced (panic).  `rec` is the recursive call; the second
component is the visited set, which is shared by all calls. -/
def searchList (miss : α) (rec : Nat → List Nat → Out α × List Nat) : List (Option Nat) → List Nat → Out α × List Nat
  | [], vis => (.ok miss, vis)
  | none :: _, vis => (.panic, vis)
  | some p :: ps, vis =>
    match rec p vis with
    | (.ok a, vis') => if a = miss then searchList miss rec ps vis' else (.ok a, vis')
    | r => r

/-- The recursion common to `hasSlotHelper` (`frame.go:63-88`) and `getHelper` (`frame.go:100-122`): `probe` is the
look at the frame's own slots.  The first argument bounds the depth; see `search_total`. -/
def searchN (F : Frames) (ord : Order) (miss : α) (probe : Nat → Option α) : Nat → Nat → List Nat → Out α × List Nat
  | 0, _, vis => (.timeout, vis)
  | n + 1, i, vis =>
    if i ∈ vis then (.ok miss, vis)
    else match probe i with
      | some a => (.ok a, i :: vis)
      | none => searchList miss (searchN F ord miss probe n) (ord (i :: vis) (parents F i)) (i :: vis)

def search (F : Frames) (ord : Order) (miss : α) (probe : Nat → Option α) (i : Nat) : Out α :=
  (searchN F ord miss probe (F.length + 1) i []).1
end

/-- `IsEqual` on frames (`data.go:872-892`): as many slots, and every slot of the first equals the slot of that name in
the second, a missing one counting as nil.  A frame equals itself: its slots hold the very same values (the pointer
shortcut of `data.go:819`).  The first argument bounds the nesting of frames in frames. -/
def sameN (F : Frames) : Nat → Nat → Nat → Bool
  | 0, _, _ => false
  | n + 1, i, j =>
    i == j || ((get? F i).length == (get? F j).length &&
      (get? F i).all fun p => @isEqual ⟨sameN F n⟩ p.2 ((alGet (get? F j) p.1).getD null))

/-- Equality of the frames of a state.  A comparison nested deeper than there are pairs of frames has met some pair twice
on its way and does not end in the code (the stack overflows); here it counts as unequal. -/
def eqIn (F : Frames) : FrEq := ⟨sameN F (F.length * F.length + 1)⟩

/-- `HasSlot` (`frame.go:90-96`).  The test `hasParentSlots` (line 74) only skips an empty loop. -/
def hasSlot (F : Frames) (ord : Order) (i : Nat) (k : String) : Out Bool :=
  search F ord false (fun j => if (slot F j k).isSome then some true else none) i

/-- `Get` (`frame.go:124-130`); nil when there is no such slot. -/
def get (F : Frames) (ord : Order) (i : Nat) (k : String) : Out Data :=
  search F ord null (fun j => slot F j k) i

/-- `Set` (`frame.go:147-152`). -/
def set (F : Frames) (i : Nat) (k : String) (v : Data) : Frames := F.set i (alSet (get? F i) k v)

/-- `Remove` (`frame.go:134-143`). -/
def remove (F : Frames) (i : Nat) (k : String) : Bool × Frames :=
  if (slot F i k).isSome then (true, F.set i (alDel (get? F i) k)) else (false, F)

/-- `Clone` (`frame.go:156-165`): a new frame with the same slots. -/
def clone (F : Frames) (i : Nat) : Nat × Frames := (F.length, F ++ [get? F i])

end Frame

namespace Spec
open Data Frame

/-- `j` is a parent of `i`: some slot of `i` with a parent key holds the frame `j`. -/
def Parent (F : Frames) (i j : Nat) : Prop := ∃ k, isParentKey k = true ∧ (k, Data.atom (.frame j)) ∈ Frame.get? F i

/-- `j` is `i` or an ancestor of it. -/
inductive Ancestor (F : Frames) : Nat → Nat → Prop where
  | self (i) : Ancestor F i i
  | step {i p j} : Parent F i p → Ancestor F p j → Ancestor F i j

/-- `v` is the value of slot `k` seen from `i`: its own, or, when it has no such slot, one seen from a parent. -/
inductive Inherits (F : Frames) (k : String) : Nat → Data → Prop where
  | own {i v} : slot F i k = some v → Inherits F k i v
  | parent {i p v} : slot F i k = none → Parent F i p → Inherits F k p v → Inherits F k i v

/-- Every parent slot holds a frame or nil. -/
def ParentsOk (F : Frames) : Prop :=
  ∀ i k v, isParentKey k = true → (k, v) ∈ Frame.get? F i → v = null ∨ ∃ j, v = .atom (.frame j)

/-- `ord` only reorders. -/
def Reorders (ord : Order) : Prop := ∀ vis l x, x ∈ ord vis l ↔ x ∈ l

end Spec
end Golisp
