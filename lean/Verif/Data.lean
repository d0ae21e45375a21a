import Verif.F32
/-
Model of golisp values: `data.go`, `util.go`, `list_access.go`.

Values are immutable trees here (aliasing and in-place mutation are modelled in `Verif.Heap`);
a Go `nil *Data` is the explicit constructor `null`.
-/
namespace Golisp

/-- The three pointer-pair types of `data.go:23-40`: `ConsCellType`, `AlistType`, `AlistCellType`. -/
inductive Kind where
  | cons | alist | acell
deriving DecidableEq, Repr

/-- The non-pair types of `data.go:23-40`.  Floats are kept as their IEEE-754 binary32 bit pattern
(`data.go:351`, float32).  Functions, macros, frames, environments, ports and opaque boxed objects are
references into a store (see `Verif.Eval`), compared by identity.  Byte arrays (`BoxedObject` of type
`"[]byte"`, `data.go:400`) carry their contents; their identity is modelled in `Verif.Bytes`. -/
inductive Atom where
  | int (n : BitVec 64)
  | flt (bits : BitVec 32)
  | bool (b : Bool)
  | str (s : String)
  | sym (s : String)
  | func (id : Nat)
  | macro (id : Nat)
  | prim (name : String)
  | bytes (bs : List (BitVec 8))
  | obj (ty : String) (id : Nat)
  | frame (id : Nat)
  | env (id : Nat)
  | port (id : Nat)
deriving DecidableEq, Repr

/-- `*Data` (`data.go:52-55`).  `null` is the Go nil pointer.  A `ConsCell` whose `Value` pointer is nil
(produced only by the JSON reader for `[]`) behaves as `cell k null null` in `NilP`, `Car`, `Cdr`
(`data.go:129-143,426-457`) and is identified with it. -/
inductive Data where
  | null
  | cell (k : Kind) (car cdr : Data)
  | atom (a : Atom)
deriving DecidableEq, Repr

namespace Data

/-- `Cons` (`data.go:230-233`). -/
@[match_pattern] abbrev cons (a d : Data) : Data := .cell .cons a d
/-- `EmptyCons` (`data.go:225-228`). -/
@[match_pattern] abbrev emptyCons : Data := .cell .cons .null .null
@[match_pattern] abbrev int (n : BitVec 64) : Data := .atom (.int n)
@[match_pattern] abbrev flt (b : BitVec 32) : Data := .atom (.flt b)
@[match_pattern] abbrev bool (b : Bool) : Data := .atom (.bool b)
@[match_pattern] abbrev str (s : String) : Data := .atom (.str s)
@[match_pattern] abbrev sym (s : String) : Data := .atom (.sym s)
@[match_pattern] abbrev bytes (b : List (BitVec 8)) : Data := .atom (.bytes b)

/-- Number of constructors; termination/fuel measure only. -/
def size : Data → Nat
  | null => 1
  | cell _ a d => size a + size d + 1
  | atom _ => 1

/-- `NilP` (`data.go:129-143`). -/
def isNil : Data → Bool
  | null => true
  | cell _ null null => true
  | cell _ _ _ => false
  | atom _ => false

/-- `PairP` (`data.go:149-151`): true of the nil pointer. -/
def isPair : Data → Bool
  | null => true
  | cell .cons _ _ => true
  | _ => false

/-- `AlistP` (`data.go:161-163`): true of the nil pointer. -/
def isAlist : Data → Bool
  | null => true
  | cell .alist _ _ => true
  | _ => false

/-- `DottedPairP` (`data.go:157-159`): true of the nil pointer. -/
def isDotted : Data → Bool
  | null => true
  | cell .acell _ _ => true
  | _ => false

/-- `ListP` (`data.go:153-155`). -/
def isListP (d : Data) : Bool := isPair d || isAlist d

/-- `SymbolP` (`data.go:169-171`). -/
def isSym : Data → Bool
  | atom (.sym _) => true
  | _ => false
/-- `IntegerP` (`data.go:181-183`). -/
def isInt : Data → Bool
  | atom (.int _) => true
  | _ => false
/-- `FloatP` (`data.go:185-187`). -/
def isFlt : Data → Bool
  | atom (.flt _) => true
  | _ => false
/-- `NumberP` (`data.go:189-191`). -/
def isNum (d : Data) : Bool := isInt d || isFlt d
/-- `StringP` (`data.go:177-179`). -/
def isStr : Data → Bool
  | atom (.str _) => true
  | _ => false
/-- `BooleanP` (`data.go:165-167`). -/
def isBool : Data → Bool
  | atom (.bool _) => true
  | _ => false
/-- `FunctionP` (`data.go:201-203`). -/
def isFunc : Data → Bool
  | atom (.func _) => true
  | _ => false
/-- `PrimitiveP` (`data.go:205-207`). -/
def isPrim : Data → Bool
  | atom (.prim _) => true
  | _ => false
/-- `FunctionOrPrimitiveP` (`data.go:197-199`). -/
def isFuncOrPrim (d : Data) : Bool := isFunc d || isPrim d
/-- `FrameP` (`data.go:213-215`). -/
def isFrame : Data → Bool
  | atom (.frame _) => true
  | _ => false

/-- `Car` (`data.go:426-440`): nil on anything that is not a cell. -/
def car : Data → Data
  | cell _ a _ => a
  | _ => null

/-- `Cdr` (`data.go:443-457`). -/
def cdr : Data → Data
  | cell _ _ d => d
  | _ => null

/-- `IntegerValue` (`data.go:459-473`). -/
def intValue : Data → BitVec 64
  | atom (.int n) => n
  | atom (.flt f) => F32.toInt64 f
  | _ => 0

/-- `FloatValue` (`data.go:475-489`). -/
def floatValue : Data → BitVec 32
  | atom (.flt f) => f
  | atom (.int n) => F32.ofInt n.toInt
  | _ => 0

/-- `StringValue` (`data.go:491-501`). -/
def stringValue : Data → String
  | atom (.str s) => s
  | atom (.sym s) => s
  | _ => ""

/-- `BooleanValue` (`data.go:503-513`): nil is false, any non-boolean is true. -/
def boolValue (d : Data) : Bool :=
  if isNil d then false else
  match d with
  | atom (.bool b) => b
  | _ => true

/-- Steps of the loop `for c := d; NotNilP(c); c = Cdr(c)` (`data.go:631`): a dotted tail counts one. -/
def chainLen : Data → Nat
  | null => 0
  | cell k a d => if isNil (cell k a d) then 0 else chainLen d + 1
  | atom _ => 1

/-- `Length` (`data.go:624-651`) of anything but a frame (0 here; `data.go:642` needs the state: `Ev.lengthImpl`). -/
def length : Data → Nat
  | null => 0
  | cell .cons a d => chainLen (cell .cons a d)
  | cell .alist a d => chainLen (cell .alist a d)
  | cell .acell _ _ => 0
  | atom (.bytes bs) => bs.length
  | atom _ => 0

/-- `ToArray` (`util.go:39-45`).  An atom in tail position contributes `Car(atom) = nil`. -/
def toArray : Data → List Data
  | null => []
  | cell k a d => if isNil (cell k a d) then [] else a :: toArray d
  | atom _ => [null]

/-- Element normalisation inside `ArrayToList` (`util.go:14-16`): a nil element becomes `EmptyCons()`. -/
def noNull : Data → Data
  | null => emptyCons
  | d => d

/-- Chain of cons cells built by the loop of `ArrayToListWithTail` (`util.go:24-37`). -/
def listWithTail : List Data → Data → Data
  | [], t => t
  | x :: xs, t => cons (noNull x) (listWithTail xs t)

/-- `ArrayToList` (`util.go:10-22`): the empty array gives `EmptyCons()`, otherwise a nil-terminated chain. -/
def ofArray : List Data → Data
  | [] => emptyCons
  | xs => listWithTail xs null

/-- Loop of `Reverse` (`data.go:662-667`). -/
def revLoop : Data → Data → Data
  | null, l => l
  | cell k a d, l => if isNil (cell k a d) then l else revLoop d (cons a l)
  | atom _, l => cons null l

/-- `Reverse` (`data.go:653-668`). -/
def reverse (d : Data) : Data :=
  if d = null then null
  else if !isListP d then d
  else revLoop d null

/-- The inner loop `for i := x; i != nil; i = Cdr(i)` of `Flatten` (`data.go:682-684`): it tests for the
nil pointer, not `NilP`, so an `EmptyCons` contributes one nil element. -/
def rawArray : Data → List Data
  | null => []
  | cell _ a d => a :: rawArray d
  | atom _ => [null]

/-- Outer loop of `Flatten` (`data.go:679-688`). -/
def flattenLoop : Data → List Data
  | null => []
  | cell k a d =>
    if isNil (cell k a d) then []
    else (if isListP a then rawArray a else [a]) ++ flattenLoop d
  | atom _ => rawArray null  -- Car(atom) = nil, ListP(nil), the inner loop is empty

/-- `Flatten` (`data.go:670-691`). -/
def flatten (d : Data) : Data :=
  if d = null then null
  else if !isListP d then d
  else ofArray (flattenLoop d)

/-- `RecursiveFlatten` (`data.go:693-719`), loop collecting into the array `l`.  The recursive call on a
list element returns `nil` for nil, else `ArrayToList` of its own loop; the elements of that result are then
walked with `i != nil`. -/
def rflattenLoop : Data → List Data
  | null => []
  | cell k a d =>
    if isNil (cell k a d) then []
    else (match a with
          | null => []
          | cell .cons _ _ => rawArray (ofArray (rflattenLoop a))
          | cell .alist _ _ => rawArray (ofArray (rflattenLoop a))
          | x => [x]) ++ rflattenLoop d
  | atom _ => []

/-- `RecursiveFlatten` (`data.go:693-719`). -/
def rflatten (d : Data) : Data :=
  if d = null then null
  else if !isListP d then d
  else ofArray (rflattenLoop d)

/-- `QuoteIt` (`data.go:721-727`). -/
def quoteIt (v : Data) : Data :=
  ofArray [sym "quote", if v = null then emptyCons else v]

/-- `QuoteAll` (`data.go:729-739`): the nil pointer gives one quoted nil; otherwise the loop tests `c != nil`,
so an `EmptyCons` also gives one quoted nil. -/
def quoteAll (d : Data) : Data :=
  if d = null then ofArray [quoteIt null]
  else ofArray ((rawArray d).map quoteIt)

/-- `WalkList` (`list_access.go:12-31`): `path` is read from its last character to its first. -/
def walkRev : List Char → Data → Data
  | [], c => c
  | p :: ps, c =>
    if c = null then null
    else if !isPair c && !isAlist c && !isDotted c then null
    else walkRev ps (if p = 'a' then car c else if p = 'd' then cdr c else null)

def walkList (d : Data) (path : List Char) : Data := walkRev path.reverse d

/-- `Nth`'s loop `for i := n; i > 1; c, i = Cdr(c), i-1` (`list_access.go:93`), `k = n-1` iterations. -/
def cdrN : Nat → Data → Data
  | 0, c => c
  | k + 1, c => cdrN k (cdr c)

/-- `Nth` (`list_access.go:87-96`), on a Go `int` index. -/
def nth (d : Data) (n : Int) : Data :=
  if d = null ∨ n < 1 ∨ n > (length d : Int) then null
  else car (cdrN (n.toNat - 1) d)

/-! ### Equality and association lists -/

/-- IEEE binary32 NaN test on the bit pattern. -/
def f32IsNaN (b : BitVec 32) : Bool :=
  (b.extractLsb' 23 8 == 255#8) && !(b.extractLsb' 0 23 == 0#23)
/-- IEEE binary32 zero test (both signs). -/
def f32IsZero (b : BitVec 32) : Bool := b.extractLsb' 0 31 == 0#31
/-- Go `==` on float32. -/
def f32Eq (a b : BitVec 32) : Bool :=
  !f32IsNaN a && !f32IsNaN b && (a == b || (f32IsZero a && f32IsZero b))

/-- Result of `Assoc`: an error, or the pair found (`null` when absent). -/
abbrev AssocRes := Except Unit Data

/-- `Assoc` (`data.go:741-754`) with the equality test as a parameter. -/
def assocLoop (eq : Data → Data → Bool) (key : Data) : Data → AssocRes
  | null => .ok null
  | cell k p d =>
    if isNil (cell k p d) then .ok null
    else if !isDotted p && !isPair p then .error ()
    else if eq (car p) key then .ok p
    else assocLoop eq key d
  | atom _ =>  -- Car(atom) = nil: a nil "pair" whose Car is nil
    if eq null key then .ok null else .ok null

/-- The element loop of `IsEqual` on lists (`data.go:864-868`). -/
def listEqLoop (eq : Data → Data → Bool) : Data → Data → Bool
  | null, _ => true
  | cell k a d, o =>
    if isNil (cell k a d) then true
    else eq a (car o) && listEqLoop eq d (cdr o)
  | atom _, o => eq null (car o)

/-- The loop of `IsEqual` on association lists (`data.go:847-852`); `Caar`/`Cdar` go through `WalkList`. -/
def alistEqLoop (eq : Data → Data → Bool) (o : Data) : Data → Bool
  | null => true
  | cell k p d =>
    if isNil (cell k p d) then true
    else
      (match assocLoop eq (walkList (cell k p d) ['a', 'a']) o with
       | .error () => false
       | .ok op => if isNil op then false else eq (walkList (cell k p d) ['d', 'a']) (cdr op))
      && alistEqLoop eq o d
  | atom _ =>
      (match assocLoop eq null o with
       | .error () => false
       | .ok op => if isNil op then false else eq null (cdr op))

/-- When two frames count as equal: their contents are in the state, so the comparison is a parameter of `IsEqual`
(`data.go:872-892`; `Frame.same`). -/
class FrEq where
  same : Nat → Nat → Bool

/-- No two frames are equal. -/
def FrEq.none : FrEq := ⟨fun _ _ => false⟩

/-- Equality of atoms in `IsEqual` (`data.go:872-930`). -/
def atomEq [FrEq] : Atom → Atom → Bool
  | .flt a, .flt b => f32Eq a b
  | .frame i, .frame j => FrEq.same i j
  | a, b => a == b

/-- Same dynamic type (`TypeOf(o) != TypeOf(d)` test, `data.go:839`) for atoms and cells. -/
def isEqualN [FrEq] : Nat → Data → Data → Bool
  | 0, _, _ => false
  | n + 1, d, o =>
    if isNil d && isNil o then true
    else match d, o with
    | null, _ => false
    | _, null => false
    | cell .alist a d', o =>
      if !isAlist o && !isListP o then false
      else if length (cell .alist a d') ≠ length o then false
      else alistEqLoop (isEqualN n) o (cell .alist a d')
    | cell .acell a d', o =>
      if !isPair o && !isDotted o then false
      else isEqualN n a (car o) && isEqualN n d' (cdr o)
    | cell .cons a d', o =>
      match o with
      | cell .cons _ _ =>
        if length (cell .cons a d') ≠ length o then false
        else listEqLoop (isEqualN n) (cell .cons a d') o
      | _ => false
    | atom a, atom b => atomEq a b
    | atom _, cell _ _ _ => false

/-- `IsEqual` (`data.go:818-931`).  The pointer shortcut of line 819 can only turn `false` into `true` for a
value compared with *itself*; reflexivity (`Props.Lists`) shows it changes nothing except for NaN inside shared
structure and for association lists with duplicate keys. -/
def isEqual [FrEq] (d o : Data) : Bool := isEqualN (size d + size o + 1) d o

/-- `Assoc` (`data.go:741-754`). -/
def assoc [FrEq] (key alist : Data) : AssocRes := assocLoop isEqual key alist

/-- Replace the cdr of the first matching pair: the effect of line 317 of `Acons` as seen through `alist`.
(The Go code mutates the pair in place, so other aliases see it too: see `Verif.Heap`.) -/
def setPair (eq : Data → Data → Bool) (key v : Data) : Data → Data
  | null => null
  | cell k p d =>
    if isNil (cell k p d) then cell k p d
    else if !isDotted p && !isPair p then cell k p d
    else if eq (car p) key then
      (match p with
       | cell pk pa _ => cell k (cell pk pa v) d
       | p => cell k p d)
    else cell k p (setPair eq key v d)
  | atom a => atom a

/-- `Acons` (`data.go:309-320`): an `Assoc` error counts as "not found" (the error is discarded). -/
def acons [FrEq] (key v alist : Data) : Data :=
  match assoc key alist with
  | .error () => cell .alist (cell .acell key v) alist
  | .ok p => if isNil p then cell .alist (cell .acell key v) alist
             else setPair isEqual key v alist

/-- Loop of `Dissoc` (`data.go:756-769`). -/
def dissocLoop [FrEq] (key : Data) : Data → Data → AssocRes
  | null, acc => .ok acc
  | cell k p d, acc =>
    if isNil (cell k p d) then .ok acc
    else if !isDotted p && !isPair p then .error ()
    else if !isEqual (car p) key then dissocLoop key d (acons (car p) (cdr p) acc)
    else dissocLoop key d acc
  | atom _, acc =>
    if !isEqual null key then .ok (acons null null acc) else .ok acc

/-- `Dissoc` (`data.go:756-769`). -/
def dissoc [FrEq] (key alist : Data) : AssocRes := dissocLoop key alist null

/-- `Alist` (`data.go:322-333`). -/
def mkAlist [FrEq] : Data → Data
  | null => null
  | cell .cons p d => if isNil (cell .cons p d) then null else acons (car p) (cdr p) (mkAlist d)
  | cell k p d => if isNil (cell k p d) then null else cell k p d
  | atom a => atom a

mutual
/-- `Copy` (`data.go:771-816`) of values without frames (frames are copied deeply, `data.go:793-804`: `Ev.copyP`). -/
def copy [FrEq] : Data → Data
  | null => null
  | atom a => atom a
  | cell .acell a d => cell .acell a d
  | cell .cons a d => if isNil (cell .cons a d) then cell .cons a d else cell .cons (copy a) (copy d)
  | cell .alist p d => copyAlist d (acons (copyCar p) (copyCdr p) null)
/-- Loop `data.go:780-782`. -/
def copyAlist [FrEq] : Data → Data → Data
  | null, acc => acc
  | cell k p d, acc =>
    if isNil (cell k p d) then acc
    else copyAlist d (acons (copyCar p) (copyCdr p) acc)
  | atom _, acc => acons null null acc
/-- `Copy(Caar(c))` given `Car(c)`. -/
def copyCar [FrEq] : Data → Data
  | cell _ a _ => copy a
  | _ => null
/-- `Copy(Cdar(c))` given `Car(c)`. -/
def copyCdr [FrEq] : Data → Data
  | cell _ _ d => copy d
  | _ => null
end

/-- Put `v` in the cdr of the last cell: loop and assignment of `Append`/`AppendList` (`data.go:268-273,283-288`)
seen as a function on the (freshly copied) list; the walk stops at the first cell whose cdr is `NilP`. -/
def setLastCdr (v : Data) : Data → Data
  | null => null
  | atom a => atom a
  | cell k a d => if isNil d then cell k a v else
      match d with
      | atom _ => cell k a d   -- the code would dereference an atom as a cell here: see `Verif.Heap`
      | d => cell k a (setLastCdr v d)

/-- `Append` (`data.go:263-276`). -/
def append1 [FrEq] (l v : Data) : Data :=
  if isNil l then cons v null else setLastCdr (cons v null) (copy l)

/-- `AppendList` (`data.go:278-291`). -/
def appendList [FrEq] (l o : Data) : Data :=
  if isNil l then o else setLastCdr o (copy l)

/-- `RemoveFromListBang` (`data.go:293-307`) as a function on the list contents: drop the first cell whose
element equals `item`. -/
def removeFirst [FrEq] (item : Data) : Data → Data
  | null => null
  | atom a => if isEqual item null then null else atom a   -- dotted tail: Car(atom) = nil
  | cell k a d =>
    if isNil (cell k a d) then cell k a d
    else if isEqual item a then d
    else cell k a (removeFirst item d)

end Data
end Golisp
