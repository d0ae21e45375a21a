import Verif.ListPrims
import Verif.Num
/-
The byte array primitives that do not change their argument (`prim_bytearray.go`), on byte arrays as values: contents
without identity.  (`Verif.Bytes` has all of them, with identity.)
-/
namespace Golisp.Prim
open Data

/-- `ObjectType(d)` (`data.go:563-573`), the empty string for anything that is not a boxed object. -/
def objectType : Data → String
  | .atom (.obj ty _) => ty
  | .bytes _ => "[]byte"
  | _ => ""

/-- `%d`. -/
def decText (n : Int) : String := String.ofList (formatInt 10 n)

/-- The loop of `ListToBytesImpl` (`prim_bytearray.go:39-59`); `%v` of a value prints an address and is left out. -/
def collectBytes : List Data → List (BitVec 8) → Out (List (BitVec 8))
  | [], acc => .ok acc
  | n :: ns, acc =>
    match n with
    | .int b =>
      if b.toInt < 0 ∨ b.toInt > 255 then .err (.msg ("Byte arrays can only contain bytes, but found " ++ decText b.toInt ++ "."))
      else collectBytes ns (acc ++ [b.setWidth 8])
    | .bytes bs => collectBytes ns (acc ++ bs)
    | _ => .err (.msg "Byte arrays can only contain numbers, but found ")

/-- `ListToBytesImpl` (`prim_bytearray.go:28-61`) up to the boxing of the result. -/
def listBytes (l : Data) : Out (List (BitVec 8)) :=
  if isNil l then .err (.msg "Argument to list->bytes can not be nil.")
  else if !isListP l then .err (.msg "Argument to list->bytes must be a list.")
  else collectBytes (toArray l) []

/-- `ObjectWithTypeAndValue("[]byte", ...)` of the bytes (`data.go:400-404`). -/
def boxBytes : Out (List (BitVec 8)) → Out Data
  | .ok bs => .ok (.bytes bs)
  | .err e => .err e
  | .panic => .panic
  | .timeout => .timeout

/-- `list->bytearray` (`prim_bytearray.go:28-61`). -/
def listToBytes (l : Data) : Out Data := boxBytes (listBytes l)

/-- `bytearray->list` (`prim_bytearray.go:63-79`). -/
def bytesToList (d : Data) : Out Data :=
  match d with
  | .bytes bs => .ok (ofArray (bs.map fun b => .int (b.setWidth 64)))
  | _ => .err (.msg ("Bytearray object should return []byte but returned " ++ objectType d ++ "."))

/-- `replace-byte` (`prim_bytearray.go:81-136`, with `makeCopy`). -/
def replaceByte (d index value : Data) : Out Data :=
  match d with
  | .bytes bs =>
    match index with
    | .int i =>
      if i.toInt ≥ bs.length then
        .err (.msg ("replace-byte index was out of range. Was " ++ decText i.toInt ++ " but bytearray has length of " ++ decText bs.length ++ "."))
      else if i.toInt < 0 then .err (.msg ("replace-byte index was out of range: " ++ decText i.toInt ++ "."))
      else match value with
        | .int v =>
          if v.toInt < 0 ∨ v.toInt > 255 then .err (.msg ("replace-byte value was not a byte. Was " ++ decText i.toInt ++ "."))
          else .ok (.bytes (bs.set i.toInt.toNat (v.setWidth 8)))
        | _ => .err (.msg "Bytearray value should be an integer.")
    | _ => .err (.msg "Bytearray index should be an integer.")
  | _ => .err (.msg ("replace-byte expects a bytearray as it's first argument but received " ++ objectType d ++ "."))

/-- `extract-byte` (`prim_bytearray.go:146-175`). -/
def extractByte (d index : Data) : Out Data :=
  match d with
  | .bytes bs =>
    match index with
    | .int i =>
      if i.toInt ≥ bs.length then
        .err (.msg ("extract-byte index was out of range. Was " ++ decText i.toInt ++ " but bytearray has length of " ++ decText bs.length ++ "."))
      else if i.toInt < 0 then .err (.msg ("extract-byte index was out of range: " ++ decText i.toInt ++ "."))
      else match bs[i.toInt.toNat]? with
        | some b => .ok (.int (b.setWidth 64))
        | none => .panic
    | _ => .err (.msg "Bytearray index should be a number.")
  | _ => .err (.msg ("Bytearray object should return []byte but returned " ++ objectType d ++ "."))

/-- The bytes to add in `internalAppendBytes` (`prim_bytearray.go:186-198`); `args` are all the arguments. -/
def extraBytes (args : Data) : Out (List (BitVec 8)) :=
  if length args = 2 then
    match car (cdr args) with
    | .bytes ys => .ok ys
    | d => if isListP d then listBytes d else listBytes (cdr args)
  else listBytes (cdr args)

/-- `append-bytes` (`prim_bytearray.go:177-221`). -/
def appendBytes (args : Data) : Out Data :=
  match car args with
  | .bytes bs =>
    (match extraBytes args with
     | .ok ys => .ok (.bytes (bs ++ ys))
     | .err e => .err e
     | .panic => .panic
     | .timeout => .timeout)
  | d => .err (.msg ("append-bytes extects first argument to be a bytearray, but was " ++ objectType d ++ "."))

/-- `extract-bytes` (`prim_bytearray.go:235-275`): `index+numToExtract` wraps around; then `drop` and `take`. -/
def extractBytes (typeName : Data → String) (d index num : Data) : Out Data :=
  match d with
  | .bytes bs =>
    match index with
    | .int i =>
      if i.toInt < 0 ∨ i.toInt ≥ bs.length then
        .err (.msg ("extract-bytes index was out of range. Was " ++ decText i.toInt ++ " but bytearray has length of " ++ decText bs.length ++ "."))
      else match num with
        | .int n =>
          if n.toInt < 0 then .err (.msg "Number to extract can not be negative.")
          else if (i + n).toInt > bs.length then
            .err (.msg ("extract-bytes final index was out of range.  Was " ++ decText (i + n - 1).toInt ++ " but bytearray has length of " ++
              decText bs.length ++ "."))
          else match drop index d with
            | .ok r => take num r
            | o => o
        | _ => .err (.msg ("Number to extract must be a number, but was " ++ typeName num ++ "."))
    | _ => .err (.msg "Bytearray index should be a number.")
  | _ => .err (.msg ("Bytearray object should return []byte but returned " ++ objectType d ++ "."))

end Golisp.Prim
