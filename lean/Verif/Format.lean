import Verif.Str
/-
Model of `format` (`prim_io.go:199-354`).

The control string is a byte string.  Of an argument only its printed forms (`PrintString`, `String`) and its value as an
integer matter; the printed forms are arbitrary here.  The code walks an index `i` over the control string and collects
`parts`; here the bytes not yet read and the output so far are passed along.
-/
namespace Golisp.Fmt
open Str

/-- An argument: `PrintString(a)`, `String(a)`, and `IntegerValue(a)` if `IntegerP(a)`. -/
structure Arg where
  shown : GoStr
  written : GoStr
  int : Option Int
deriving DecidableEq, Repr

/-- `Car` of no arguments is nil, which prints as `()` (`data.go:946-948`). -/
def missing : Arg := ⟨[40, 41], [40, 41], none⟩

/-- `arguments = Cdr(arguments)` after the use of `Car(arguments)`. -/
def next : List Arg → Arg × List Arg
  | [] => (missing, [])
  | a :: as => (a, as)

/-- `unicode.IsDigit(rune(b))` of a byte: of the characters below 256 only the ten digits. -/
def isDigit (b : Byte) : Bool := 48 ≤ b.toNat && b.toNat ≤ 57
/-- `unicode.IsSpace(rune(b))` of a byte. -/
def isSpace (b : Byte) : Bool := (9 ≤ b.toNat && b.toNat ≤ 13) || b.toNat = 32 || b.toNat = 0x85 || b.toNat = 0xA0

/-- `strconv.ParseInt(ds, 10, 64)` of digits: none out of range. -/
def parseInt (ds : GoStr) : Option Int :=
  let n : Nat := ds.foldl (fun n b => 10 * n + (b.toNat - 48)) 0
  if n < 2 ^ 63 then some (n : Int) else none

/-- The padded substitution (`prim_io.go:262-274,279-291`); the length is counted in bytes. -/
def pad (at_ : Bool) (n : Int) (x : GoStr) : GoStr :=
  let p := List.replicate (n - x.length).toNat 32
  if at_ then p ++ x else x ++ p

/-- Repetition for `~%` and `~~` (`prim_io.go:296-300,304-308`). -/
def times (n : Int) (b : Byte) : GoStr := if 0 < n then List.replicate n.toNat b else [b]

inductive Res (α : Type) where
  | ok (a : α)
  | err
  | panic
deriving DecidableEq, Repr

/-- The numeric argument (`prim_io.go:230-255`): its value, what is left of the control string, the arguments left.
`controlString[i]` beyond the end panics. -/
def count (ctl : GoStr) (args : List Arg) : Res (Int × GoStr × List Arg) :=
  let ds := ctl.takeWhile isDigit
  match ctl.dropWhile isDigit with
  | [] => .panic
  | c :: r =>
    if ds = [] then
      if c = 35 then .ok (args.length, r, args)
      else if c = 86 ∨ c = 118 then
        match (next args).1.int with
        | some n => .ok (n, r, (next args).2)
        | none => .err
      else .ok (0, c :: r, args)
    else
      match parseInt ds with
      | some n => .ok (n, c :: r, args)
      | none => .err

/-- The loop (`prim_io.go:225-327`).  `at_` is `atModifier`, which is never reset; `n` bounds the bytes left. -/
def loop : Nat → GoStr → List Arg → Bool → GoStr → Res (GoStr × List Arg)
  | 0, _, args, _, out => .ok (out, args)
  | _ + 1, [], args, _, out => .ok (out, args)
  | n + 1, c :: r, args, at_, out =>
    if c ≠ 126 then loop n r args at_ (out ++ [c])
    else
      match count r args with
      | .err => .err
      | .panic => .panic
      | .ok (k, r, args) =>
        let at' := at_ || r.head? = some 64
        let r := if r.head? = some 64 then r.tail else r
        match r with
        | [] => .panic
        | d :: r =>
          if d = 65 ∨ d = 97 then loop n r (next args).2 at' (out ++ pad at' k (next args).1.shown)
          else if d = 83 ∨ d = 115 then loop n r (next args).2 at' (out ++ pad at' k (next args).1.written)
          else if d = 37 then loop n r args at' (out ++ times k 10)
          else if d = 126 then loop n r args at' (out ++ times k 126)
          else if d = 10 then loop n (r.dropWhile isSpace) args at' (out ++ if at' then [10] else [])
          else .err

/-- `format` (`prim_io.go:199-354`) with a boolean or a port as destination: the text produced.  Arguments left over are an
error. -/
def format (ctl : GoStr) (args : List Arg) : Res GoStr :=
  match loop ctl.length ctl args false [] with
  | .ok (out, []) => .ok out
  | .ok _ => .err
  | .err => .err
  | .panic => .panic

end Golisp.Fmt
