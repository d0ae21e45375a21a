import Verif.ListPrims
/-
Model of the numeric primitives: `prim_math.go`, `prim_relative_logical.go` (the functions; `and`/`or` are special
forms, see `Verif.Eval`), `prim_binary.go`.

The argument list of a primitive is a Lean list of (evaluated, non-nil-pointer) values; argument counts are checked
before the body runs (`Verif.Arity`).  Error texts that embed the printed argument keep only the fixed part.
The transcendental functions (`prim_math.go:50-78`), `floor`, `ceiling`, `random-byte` and float `pow` are not modelled.
-/
namespace Golisp.Prim
open Data

/-! ### prim_math.go -/

/-- `anyFloats` (`prim_math.go:164-175`): stops at the first float without checking the rest. -/
def anyFloats : List Data → Out Bool
  | [] => .ok false
  | d :: ds =>
    if !isNum d then .err (.msg "Number expected, received ")
    else if isFlt d then .ok true
    else anyFloats ds

/-- Dispatch shared by `+ - * /`: `anyFloats`, then the float or the integer version. -/
def arith (fl int : List Data → Out Data) (args : List Data) : Out Data :=
  match anyFloats args with
  | .ok true => fl args
  | .ok false => int args
  | .err e => .err e
  | .panic => .panic
  | .timeout => .timeout

/-- `addInts`, `addFloats`, `AddImpl` (`prim_math.go:148-187`). -/
def addInts (args : List Data) : Out Data := .ok (.int (args.foldl (fun acc d => acc + intValue d) 0))
def addFloats (args : List Data) : Out Data := .ok (.flt (args.foldl (fun acc d => F32.add acc (floatValue d)) 0))
def add (args : List Data) : Out Data := arith addFloats addInts args

/-- `subtractInts`, `subtractFloats`, `SubtractImpl` (`prim_math.go:189-215`): `(- x)` is `x`. -/
def subtractInts (args : List Data) : Out Data :=
  .ok (.int (args.tail.foldl (fun acc d => acc - intValue d) (intValue (args.headD null))))
def subtractFloats (args : List Data) : Out Data :=
  .ok (.flt (args.tail.foldl (fun acc d => F32.sub acc (floatValue d)) (floatValue (args.headD null))))
def subtract (args : List Data) : Out Data := arith subtractFloats subtractInts args

/-- `multiplyInts`, `multiplyFloats`, `MultiplyImpl` (`prim_math.go:217-243`). -/
def multiplyInts (args : List Data) : Out Data := .ok (.int (args.foldl (fun acc d => acc * intValue d) 1))
def multiplyFloats (args : List Data) : Out Data :=
  .ok (.flt (args.foldl (fun acc d => F32.mul acc (floatValue d)) 0x3f800000#32))
def multiply (args : List Data) : Out Data := arith multiplyFloats multiplyInts args

/-- Loop of `quotientInts` (`prim_math.go:247-255`).  Go's `/` on int64 wraps for the smallest integer by -1. -/
def quotIntLoop : List Data → BitVec 64 → Out Data
  | [], acc => .ok (.int acc)
  | d :: ds, acc =>
    if intValue d = 0 then .err (.msg "Quotent:  -> Divide by zero.")
    else quotIntLoop ds (acc.sdiv (intValue d))
/-- Loop of `quotientFloats` (`prim_math.go:261-269`). -/
def quotFltLoop : List Data → BitVec 32 → Out Data
  | [], acc => .ok (.flt acc)
  | d :: ds, acc =>
    if f32IsZero (floatValue d) then .err (.msg "Quotent:  -> Divide by zero.")
    else quotFltLoop ds (F32.div acc (floatValue d))
/-- `/`, `quotient` (`prim_math.go:245-283`). -/
def quotient (args : List Data) : Out Data :=
  arith (fun a => quotFltLoop a.tail (floatValue (a.headD null))) (fun a => quotIntLoop a.tail (intValue (a.headD null))) args

/-- `%`, `modulo` (`prim_math.go:285-300`): a zero divisor is a Go run-time panic. -/
def remainder (x y : Data) : Out Data :=
  match x with
  | .int a =>
    (match y with
     | .int b => if b = 0 then .panic else .ok (.int (a.srem b))
     | _ => .err (.msg "%/modulo expected an integer second arg, received "))
  | _ => .err (.msg "%/modulo expected an integer first arg, received ")

/-- `succ`, `pred` (`prim_math.go:128-146`). -/
def succ : Data → Out Data
  | .int n => .ok (.int (n + 1))
  | _ => .err (.msg "1+ requires an integer argument")
def pred : Data → Out Data
  | .int n => .ok (.int (n - 1))
  | _ => .err (.msg "1- requires an integer argument")

/-- `sgn` (`prim_math.go:114-122`) on a float. -/
def sgn (f : BitVec 32) : BitVec 64 := if F32.lt f 0 then -1 else if F32.lt 0 f then 1 else 0
/-- `intSgn` (`prim_math.go:124-126`): through float32. -/
def intSgn (n : BitVec 64) : BitVec 64 := sgn (F32.ofInt n.toInt)

/-- Counting loops of `interval` (`prim_math.go:346-354`); `dir` is the direction; `fuel` bounds the number of
iterations (the loop runs for ever when the end is the largest/smallest integer).  -/
def intervalLoop (up : Bool) : Nat → BitVec 64 → BitVec 64 → BitVec 64 → Out (List Data)
  | 0, _, _, _ => .timeout
  | n + 1, i, e, step =>
    if (if up then i.sle e else e.sle i) then
      (match intervalLoop up n (i + step) e step with
       | .ok l => .ok (.int i :: l)
       | o => o)
    else .ok []

/-- `interval` (`prim_math.go:309-358`), `args` has one, two or three values.  Line 344 preallocates `|end-start|+1`
pointers (the difference wraps): more than 2^45 is a run-time panic (`maxAlloc` is 2^48 bytes on 64-bit systems).
Running out of memory below that limit is not modelled. -/
def interval (fuel : Nat) (args : List Data) : Out Data :=
  let go (start e step : BitVec 64) (up : Bool) : Out Data :=
    if 2 ^ 45 < (e - start).toInt.natAbs + 1 then .panic else
    match intervalLoop up fuel start e step with
    | .ok l => .ok (ofArray l)
    | .err x => .err x
    | .panic => .panic
    | .timeout => .timeout
  match args with
  | [e] => go 1 (intValue e) 1 true
  | [s, e] =>
    let up := !(intValue e).slt (intValue s)
    go (intValue s) (intValue e) (if up then 1 else -1) up
  | [s, e, st] =>
    let up := !(intValue e).slt (intValue s)
    (match st with
     | .int step =>
       if intSgn step ≠ (if up then 1 else -1) then
         .err (.msg "The sign of step has to match the direction of the interval")
       else go (intValue s) (intValue e) step up
     | _ => .err (.msg "interval step must be an integer, received "))
  | _ => .err (.msg "arity")

/-- `integer`, `float` (`prim_math.go:360-378`). -/
def toInt (d : Data) : Out Data := if !isNum d then .err (.msg "integer expected an number, received ") else .ok (.int (intValue d))
def toFloat (d : Data) : Out Data := if !isNum d then .err (.msg "float expected a number, received ") else .ok (.flt (floatValue d))

/-- Digit characters used by Go's `fmt`. -/
def digitChar (n : Nat) : Char := if n < 10 then Char.ofNat (48 + n) else Char.ofNat (87 + n)

/-- Digits of `n` in base `b`, most significant first (what `%b %o %d %x` print for a non-negative number). -/
def digits (b n : Nat) : List Char :=
  if 2 ≤ b ∧ b ≤ n then digits b (n / b) ++ [digitChar (n % b)] else [digitChar n]
termination_by n
decreasing_by exact Nat.div_lt_self (by omega) (by omega)

/-- `fmt.Sprintf("%d", n)` and the like, for int64. -/
def formatInt (b : Nat) (n : Int) : List Char :=
  if n < 0 then '-' :: digits b n.natAbs else digits b n.natAbs

/-- `number->string` (`prim_math.go:380-406`). -/
def numberToString (n : Data) (base : Option Data) : Out Data :=
  let b : BitVec 64 := match base with | some d => intValue d | none => 10
  if b = 2 ∨ b = 8 ∨ b = 10 ∨ b = 16 then .ok (.str (String.ofList (formatInt b.toNat (intValue n).toInt)))
  else .ok (.str ("Unsupported base: " ++ String.ofList (formatInt 10 b.toInt)))

/-- Value of a digit character in `fmt.Sscanf` (upper- and lower-case hexadecimal); 99 for anything else. -/
def digitRaw (c : Char) : Nat :=
  if '0' ≤ c ∧ c ≤ '9' then c.toNat - 48
  else if 'a' ≤ c ∧ c ≤ 'f' then c.toNat - 87
  else if 'A' ≤ c ∧ c ≤ 'F' then c.toNat - 55
  else 99
/-- Value of a digit in base `b`, if it is one. -/
def digitVal (b : Nat) (c : Char) : Option Nat := if digitRaw c < b then some (digitRaw c) else none

/-- The longest prefix of digits, accumulated; second component: was there a digit at all? -/
def scanDigits (b : Nat) : List Char → Nat → Bool → Nat × Bool
  | [], acc, any => (acc, any)
  | c :: cs, acc, any =>
    match digitVal b c with
    | some v => scanDigits b cs (acc * b + v) true
    | none => (acc, any)

/-- `isSpace` of Go's fmt/scan.go, without the newline. -/
def scanBlank (c : Char) : Bool :=
  [0x09, 0x0b, 0x0c, 0x0d, 0x20, 0x85, 0xa0, 0x1680, 0x2028, 0x2029, 0x202f, 0x205f, 0x3000].contains c.toNat ||
    (decide (0x2000 ≤ c.toNat) && decide (c.toNat ≤ 0x200a))

/-- White space skipped by `fmt.Sscanf`'s `SkipSpace` (a newline is an error there). -/
def scanSpace : List Char → List Char
  | c :: cs => if scanBlank c then scanSpace cs else c :: cs
  | [] => []

/-- Optional sign of `scanInt`; is it negative?, the rest. -/
def splitSign : List Char → Bool × List Char
  | '-' :: r => (true, r)
  | '+' :: r => (false, r)
  | r => (false, r)

/-- `fmt.Sscanf(s, "%d", &i)` and `%b %o %x` into an int64 (Go's fmt/scan.go `scanInt`): optional blanks, optional
sign, digits up to the first non-digit; no digit or a value out of range is an error; the rest is ignored. -/
def scanInt (b : Nat) (cs : List Char) : Option Int :=
  let cs := scanSpace cs
  let (sign, ds) := splitSign cs
  let (v, any) := scanDigits b ds 0 false
  if !any then none
  else
    let n : Int := if sign then -(v : Int) else v
    if -(2 ^ 63 : Int) ≤ n ∧ n < 2 ^ 63 then some n else none

/-- `string->number` (`prim_math.go:408-438`). -/
def stringToNumber (s : Data) (base : Option Data) : Out Data :=
  let b : BitVec 64 := match base with | some d => intValue d | none => 10
  if b = 2 ∨ b = 8 ∨ b = 10 ∨ b = 16 then
    (match scanInt b.toNat (stringValue s).toList with
     | some n => .ok (.int (BitVec.ofInt 64 n))
     | none => .err (.msg "Sscanf"))
  else .ok (.int 0)

/-- Loops of `minInts`/`maxInts` (`prim_math.go:440-460,505-525`); the word `min`/`max` in the error text is not kept. -/
def extInts (better : BitVec 64 → BitVec 64 → Bool) : List Data → BitVec 64 → Out Data
  | [], acc => .ok (.int acc)
  | d :: ds, acc =>
    match d with
    | .int n => extInts better ds (if better n acc then n else acc)
    | _ => .err (.msg "min requires numbers, received ")
/-- Loops of `minFloats`/`maxFloats` (`prim_math.go:462-482,527-547`). -/
def extFloats (better : BitVec 32 → BitVec 32 → Bool) : List Data → BitVec 32 → Out Data
  | [], acc => .ok (.flt acc)
  | d :: ds, acc =>
    if !isNum d then .err (.msg "min requires numbers, received ")
    else extFloats better ds (if better (floatValue d) acc then floatValue d else acc)

/-- `min`, `max` (`prim_math.go:484-503,549-569`). -/
def extremum (bi : BitVec 64 → BitVec 64 → Bool) (bf : BitVec 32 → BitVec 32 → Bool) (l : Data) : Out Data :=
  if !isListP l then .err (.msg "min requires a list of numbers, received ")
  else if length l = 0 then .ok (.int 0)
  else
    let xs := toArray l
    match anyFloats xs with
    | .ok true => if isNum (xs.headD null) then extFloats bf xs.tail (floatValue (xs.headD null)) else .err (.msg "min requires numbers, received ")
    | .ok false => if isInt (xs.headD null) then extInts bi xs.tail (intValue (xs.headD null)) else .err (.msg "min requires numbers, received ")
    | .err e => .err e
    | .panic => .panic
    | .timeout => .timeout
def min (l : Data) : Out Data := extremum (fun n acc => n.slt acc) F32.lt l
def max (l : Data) : Out Data := extremum (fun n acc => acc.slt n) (fun f acc => F32.lt acc f) l

/-- `abs` (`prim_math.go:593-606`): integers go through float32. -/
def abs (d : Data) : Out Data :=
  if !isNum d then .err (.msg "abs expected a number, received ")
  else
    let a := F32.mk false (F32.mag (floatValue d))
    .ok (if isInt d then .int (F32.toInt64 a) else .flt a)

/-- `zero?`, `positive?`, `negative?` (`prim_math.go:608-633`). -/
def zeroP (d : Data) : Out Data := if !isNum d then .err (.msg "zero? expected a number, received ") else .ok (.bool (f32Eq (floatValue d) 0))
def positiveP (d : Data) : Out Data := if !isNum d then .err (.msg "positive? expected a number, received ") else .ok (.bool (F32.lt 0 (floatValue d)))
def negativeP (d : Data) : Out Data := if !isNum d then .err (.msg "negative expected a number, received ") else .ok (.bool (F32.lt (floatValue d) 0))

/-- `even?`, `odd?` (`prim_math.go:635-651`). -/
def evenP : Data → Out Data
  | .int n => .ok (.bool (n.srem 2 == 0))
  | _ => .err (.msg "even? expected an integer, received ")
def oddP : Data → Out Data
  | .int n => .ok (.bool (n.srem 2 != 0))
  | _ => .err (.msg "odd? expected an integer, received ")

/-- `sign` (`prim_math.go:653-665`). -/
def sign (d : Data) : Out Data :=
  if !isNum d then .err (.msg "sign expected a nunber, received ")
  else match d with
    | .flt f => .ok (.int (sgn f))
    | d => .ok (.int (intSgn (intValue d)))

/-- Loop of `PowImpl` (`prim_math.go:682-688`); 64 iterations always empty the exponent. -/
def powLoop : Nat → BitVec 64 → BitVec 64 → BitVec 64 → BitVec 64
  | 0, ret, _, _ => ret
  | n + 1, ret, b, e =>
    if (0#64).slt e then powLoop n (if e &&& 1 ≠ 0 then ret * b else ret) (b * b) (e.sshiftRight 1)
    else ret

/-- `pow` (`prim_math.go:667-691`), integer branch; the float branch (`math.Pow`) is not modelled. -/
def powInts (base expo : Data) : Out Data := .ok (.int (powLoop 64 1 (intValue base) (intValue expo)))

/-- `float->bits`, `bits->float` (`prim_math.go:721-739`). -/
def floatToBits : Data → Out Data
  | .flt f => .ok (.int (f.setWidth 64))
  | _ => .err (.msg "float->bits expected a float, received ")
def bitsToFloat : Data → Out Data
  | .int n => .ok (.flt (n.setWidth 32))
  | _ => .err (.msg "bits->float expected an integer, received ")

/-! ### prim_relative_logical.go -/

/-- `<`, `>`, `<=`, `>=` (`prim_relative_logical.go:31-63,77-109`): both sides are converted to float32. -/
def numCompare (r : BitVec 32 → BitVec 32 → Bool) (x y : Data) : Out Data :=
  if !isNum x then .err (.msg "Number expected, received ")
  else if !isNum y then .err (.msg "Number expected, received ")
  else .ok (.bool (r (floatValue x) (floatValue y)))
def lessThan := numCompare F32.lt
def greaterThan := numCompare fun a b => F32.lt b a
def lessOrEqual := numCompare F32.le
def greaterOrEqual := numCompare fun a b => F32.le b a

/-- `==`/`eq?`/`eqv?`/`equal?`, `!=`/`neq?`, `not`/`!` (`prim_relative_logical.go:65-75,111-113`). -/
def equalTo [FrEq] (x y : Data) : Out Data := .ok (.bool (isEqual x y))
def notEqual [FrEq] (x y : Data) : Out Data := .ok (.bool (!isEqual x y))
def boolNot (x : Data) : Out Data := .ok (.bool (!boolValue x))

/-! ### prim_binary.go -/

/-- Two-integer primitive of `prim_binary.go`. -/
def bin2 (op : BitVec 64 → BitVec 64 → BitVec 64) (x y : Data) : Out Data :=
  match x with
  | .int a => (match y with
    | .int b => .ok (.int (op a b))
    | _ => .err (.msg "Integer expected, received "))
  | _ => .err (.msg "Integer expected, received ")

/-- `binary-and`, `binary-or` (`prim_binary.go:22-56`). -/
def binaryAnd := bin2 (· &&& ·)
def binaryOr := bin2 (· ||| ·)
/-- `binary-not` (`prim_binary.go:58-67`): flips the low 32 bits only. -/
def binaryNot : Data → Out Data
  | .int a => .ok (.int (a ^^^ 0xFFFFFFFF#64))
  | _ => .err (.msg "Integer expected, received ")
/-- `left-shift`, `right-shift` (`prim_binary.go:69-103`): shifts of uint64 by a uint64 count (Go: counts of 64 and
above give 0). -/
def leftShift := bin2 fun a b => if 64 ≤ b.toNat then 0 else a <<< b.toNat
def rightShift := bin2 fun a b => if 64 ≤ b.toNat then 0 else a >>> b.toNat

end Golisp.Prim
