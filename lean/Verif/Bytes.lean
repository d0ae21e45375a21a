import Verif.Spec
/-
Model of the byte array primitives (`prim_bytearray.go`) with object identity.

A byte array value is a `Data` of `BoxedObjectType` whose `BoxedObject` (`data.go:42-45`) points to a Go slice.  Here the
value is the reference `obj "[]byte" i`; the heap gives for box `i` the array it points to, and for each array its
contents.  Several values may refer to one box (ordinary aliasing in Lisp) and several boxes to one array (never made
by these primitives, but allowed here).  A slice always covers its whole array: every slice in this file comes from
`make`.  Error texts that embed printed values keep only the fixed part.
-/
namespace Golisp.Bytes
open Data

abbrev Byte := BitVec 8

/-- The objects reachable from byte array values. -/
structure Heap where
  boxes : List Nat
  arrays : List (List Byte)
deriving Repr, DecidableEq

/-- `ObjectType(d) == "[]byte"` (`data.go:563-573`) together with the contents read through `ObjectValue`
(`data.go:575-585`): box number, array number, contents.  A dangling reference is `none`. -/
def find (h : Heap) : Data → Option (Nat × Nat × List Byte)
  | .atom (.obj ty i) =>
    if ty = "[]byte" then
      match h.boxes[i]? with
      | some a => (h.arrays[a]?).map fun bs => (i, a, bs)
      | none => none
    else none
  | _ => none

/-- `ObjectP(d) && ObjectType(d) == "[]byte"`. -/
def isBytes (h : Heap) (d : Data) : Bool := (find h d).isSome

/-- `ObjectWithTypeAndValue("[]byte", &bytes)` on freshly made bytes (`data.go:400-404`). -/
def alloc (bs : List Byte) : M Heap Data := fun h =>
  (.ok (.atom (.obj "[]byte" h.boxes.length)), ⟨h.boxes ++ [h.arrays.length], h.arrays ++ [bs]⟩)

/-- The loop of `ListToBytesImpl` (`prim_bytearray.go:39-59`). -/
def collect (h : Heap) : List Data → List Byte → Out (List Byte)
  | [], acc => .ok acc
  | n :: ns, acc =>
    match n with
    | .atom (.int b) =>
      if b.toInt < 0 ∨ b.toInt > 255 then .err (.msg "Byte arrays can only contain bytes, but found ")
      else collect h ns (acc ++ [b.setWidth 8])
    | n =>
      match find h n with
      | some (_, _, bs) => collect h ns (acc ++ bs)
      | none => .err (.msg "Byte arrays can only contain numbers, but found ")

/-- `ListToBytesImpl` (`prim_bytearray.go:28-61`) up to the boxing of the result. -/
def listBytes (h : Heap) (l : Data) : Out (List Byte) :=
  if isNil l then .err (.msg "Argument to list->bytes can not be nil.")
  else if !isListP l then .err (.msg "Argument to list->bytes must be a list.")
  else collect h (toArray l) []

/-- Use an `Out` inside a stateful computation. -/
def lift {α : Type} (o : Out α) : M Heap α := fun h => (o, h)

/-- `list->bytearray` (`prim_bytearray.go:28-61`). -/
def listToBytes (l : Data) : M Heap Data := fun h => M.bind (lift (listBytes h l)) alloc h

/-- `bytearray->list` (`prim_bytearray.go:63-79`). -/
def bytesToList (d : Data) : M Heap Data := fun h =>
  match find h d with
  | none => (.err (.msg "Bytearray object should return []byte but returned "), h)
  | some (_, _, bs) => (.ok (ofArray (bs.map fun b => .int (b.setWidth 64))), h)

/-- `internalReplaceByte` (`prim_bytearray.go:81-136`). -/
def replaceByte (makeCopy : Bool) (d index value : Data) : M Heap Data := fun h =>
  match find h d with
  | none => (.err (.msg "replace-byte expects a bytearray as it's first argument but received "), h)
  | some (_, a, bs) =>
    match index with
    | .atom (.int i) =>
      if i.toInt ≥ bs.length then (.err (.msg "replace-byte index was out of range. Was "), h)
      else if i.toInt < 0 then (.err (.msg "replace-byte index was out of range: "), h)
      else match value with
        | .atom (.int v) =>
          if v.toInt < 0 ∨ v.toInt > 255 then (.err (.msg "replace-byte value was not a byte. Was "), h)
          else
            let new := bs.set i.toInt.toNat (v.setWidth 8)
            if makeCopy then alloc new h
            else (.ok d, { h with arrays := h.arrays.set a new })
        | _ => (.err (.msg "Bytearray value should be an integer."), h)
    | _ => (.err (.msg "Bytearray index should be an integer."), h)

/-- `extract-byte` (`prim_bytearray.go:146-175`). -/
def extractByte (d index : Data) : M Heap Data := fun h =>
  match find h d with
  | none => (.err (.msg "Bytearray object should return []byte but returned "), h)
  | some (_, _, bs) =>
    match index with
    | .atom (.int i) =>
      if i.toInt ≥ bs.length then (.err (.msg "extract-byte index was out of range. Was "), h)
      else if i.toInt < 0 then (.err (.msg "extract-byte index was out of range: "), h)
      else match bs[i.toInt.toNat]? with
        | some b => (.ok (.int (b.setWidth 64)), h)
        | none => (.panic, h)
    | _ => (.err (.msg "Bytearray index should be a number."), h)

/-- The bytes to add in `internalAppendBytes` (`prim_bytearray.go:186-198`); `args` are all the arguments. -/
def extraBytes (h : Heap) (args : Data) : Out (List Byte) :=
  if length args = 2 then
    match find h (car (cdr args)) with
    | some (_, _, ys) => .ok ys
    | none => if isListP (car (cdr args)) then listBytes h (car (cdr args)) else listBytes h (cdr args)
  else listBytes h (cdr args)

/-- `internalAppendBytes` (`prim_bytearray.go:177-212`): the new contents. -/
def appendBytes (h : Heap) (args : Data) : Out (List Byte) :=
  match find h (car args) with
  | none => .err (.msg "append-bytes extects first argument to be a bytearray, but was ")
  | some (_, _, bs) =>
    match extraBytes h args with
    | .ok ys => .ok (bs ++ ys)
    | .err e => .err e
    | .panic => .panic
    | .timeout => .timeout

/-- `append-bytes` (`prim_bytearray.go:214-221`). -/
def appendBytesImpl (args : Data) : M Heap Data := fun h => M.bind (lift (appendBytes h args)) alloc h

/-- `append-bytes!` (`prim_bytearray.go:223-233`): the box is made to point to a fresh array. -/
def appendBytesBang (args : Data) : M Heap Data := fun h =>
  match appendBytes h args with
  | .ok new =>
    (match find h (car args) with
     | some (i, _, _) => (.ok (car args), ⟨h.boxes.set i h.arrays.length, h.arrays ++ [new]⟩)
     | none => (.panic, h))
  | .err e => (.err e, h)
  | .panic => (.panic, h)
  | .timeout => (.timeout, h)

/-- The byte array case of `take` (`prim_list_access.go:284-296`): always copies; a negative count is a slice panic. -/
def takeBytes (n : BitVec 64) (d : Data) : M Heap Data := fun h =>
  match find h d with
  | none => (.err (.msg "take requires a list or bytearray as its second argument."), h)
  | some (_, _, bs) =>
    if n.toInt ≥ bs.length then alloc bs h
    else if n.toInt < 0 then (.panic, h)
    else alloc (bs.take n.toInt.toNat) h

/-- The byte array case of `drop` (`prim_list_access.go:318-329`). -/
def dropBytes (n : BitVec 64) (d : Data) : M Heap Data := fun h =>
  match find h d with
  | none => (.err (.msg "drop requires a list or bytearray as its second argument."), h)
  | some (_, _, bs) =>
    if n.toInt ≥ bs.length then alloc [] h
    else if n.toInt < 0 then (.panic, h)
    else alloc (bs.drop n.toInt.toNat) h

/-- `extract-bytes` (`prim_bytearray.go:235-276`): `index+numToExtract` is a wrapping 64-bit sum (line 265). -/
def extractBytes (d index num : Data) : M Heap Data := fun h =>
  match find h d with
  | none => (.err (.msg "Bytearray object should return []byte but returned "), h)
  | some (_, _, bs) =>
    match index with
    | .atom (.int i) =>
      if i.toInt < 0 ∨ i.toInt ≥ bs.length then (.err (.msg "extract-bytes index was out of range. Was "), h)
      else match num with
        | .atom (.int n) =>
          if n.toInt < 0 then (.err (.msg "Number to extract can not be negative."), h)
          else if (i + n).toInt > bs.length then (.err (.msg "extract-bytes final index was out of range.  Was "), h)
          else M.bind (dropBytes i d) (takeBytes n) h
        | _ => (.err (.msg "Number to extract must be a number, but was "), h)
    | _ => (.err (.msg "Bytearray index should be a number."), h)

/-- The loop of `IsEqual` on byte arrays (`data.go:902-906`). -/
def eqLoop (xs ys : List Byte) : Nat → Nat → Bool
  | _, 0 => true
  | i, n + 1 => if xs[i]? ≠ ys[i]? then false else eqLoop xs ys (i + 1) n

/-- `IsEqual` on two byte arrays (`data.go:895-909`). -/
def equal (h : Heap) (d o : Data) : Bool :=
  match find h d, find h o with
  | some (_, _, xs), some (_, _, ys) => if xs.length ≠ ys.length then false else eqLoop xs ys 0 xs.length
  | _, _ => false

end Golisp.Bytes

namespace Golisp.Spec
open Data Bytes

/-- The value `d` is a byte array whose present contents are `bs`. -/
inductive Holds (h : Heap) : Data → List Byte → Prop where
  | mk {i a : Nat} {bs : List Byte} : h.boxes[i]? = some a → h.arrays[a]? = some bs → Holds h (.atom (.obj "[]byte" i)) bs

/-- `d` is a byte array in `h'` with contents `bs` and did not exist in `h`: neither the object nor its storage, and
nothing that existed has changed. -/
structure Fresh (h h' : Heap) (d : Data) (bs : List Byte) : Prop where
  holds : Holds h' d bs
  new : ∀ xs, ¬ Holds h d xs
  kept : ∀ x xs, Holds h x xs → Holds h' x xs

/-- What one element of a list contributes to a byte array. -/
inductive Part (h : Heap) : Data → List Byte → Prop where
  | byte (b : Byte) : Part h (.int (BitVec.ofNat 64 b.toNat)) [b]
  | array {d bs} : Holds h d bs → Part h d bs

/-- The elements contribute, in order, the bytes given. -/
inductive Parts (h : Heap) : List Data → List Byte → Prop where
  | nil : Parts h [] []
  | cons {x xs bs cs} : Part h x bs → Parts h xs cs → Parts h (x :: xs) (bs ++ cs)

/-- The bytes that the arguments after the first contribute to `append-bytes`: one byte array, one list of parts, or
one or more parts. -/
inductive Extra (h : Heap) : List Data → List Byte → Prop where
  | list {l xs bs} : Lst l xs → xs ≠ [] → Parts h xs bs → Extra h [l] bs
  | parts {xs bs} : xs ≠ [] → Parts h xs bs → Extra h xs bs

/-- An integer argument with the given (mathematical) value. -/
def IsInt (d : Data) (n : Int) : Prop := ∃ b : BitVec 64, d = .int b ∧ b.toInt = n

end Golisp.Spec
