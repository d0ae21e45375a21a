import Verif.Spec
/-
Model of the string primitives of `prim_string.go`: split, join, trim, substring, the prefix/suffix/substring tests, the
case-sensitive comparisons, length.  (`parse` is in `Verif.Reader`; the case conversions need Unicode tables and are not
modelled.)

A Go string is a sequence of bytes, not necessarily valid UTF-8 (`substring` cuts anywhere), so strings are byte lists
here and values are a small type of their own: only what the primitives can tell apart.  The functions of Go's `strings`
package are modelled by what they compute.
-/
namespace Golisp.Str

abbrev Byte := BitVec 8
/-- A Go string. -/
abbrev GoStr := List Byte

/-- Argument values: a string, an integer, a proper list, anything else (not nil). -/
inductive V where
  | str (s : GoStr)
  | int (n : BitVec 64)
  | list (xs : List V)
  | other
deriving Repr

/-! ### Go's `strings` and `unicode/utf8` -/

/-- A continuation byte within the given bounds (`utf8.acceptRange`). -/
def inR (b : Byte) (lo hi : Nat) : Bool := lo ≤ b.toNat && b.toNat ≤ hi

/-- Number of bytes of the UTF-8 sequence at the front, 0 when it is not well formed (`utf8.DecodeRuneInString`). -/
def seqLen : GoStr → Nat
  | [] => 0
  | b :: r =>
    if b.toNat < 0x80 then 1
    else if inR b 0xC2 0xDF then
      (match r with | c :: _ => if inR c 0x80 0xBF then 2 else 0 | _ => 0)
    else if inR b 0xE0 0xEF then
      (match r with
       | c :: d :: _ =>
         if inR c (if b.toNat = 0xE0 then 0xA0 else 0x80) (if b.toNat = 0xED then 0x9F else 0xBF) && inR d 0x80 0xBF then 3 else 0
       | _ => 0)
    else if inR b 0xF0 0xF4 then
      (match r with
       | c :: d :: e :: _ =>
         if inR c (if b.toNat = 0xF0 then 0x90 else 0x80) (if b.toNat = 0xF4 then 0x8F else 0xBF) && inR d 0x80 0xBF
            && inR e 0x80 0xBF then 4 else 0
       | _ => 0)
    else 0

/-- The characters of a string, as byte sequences; a byte that starts no well-formed sequence stands alone. -/
def charsN : Nat → GoStr → List GoStr
  | 0, _ => []
  | _ + 1, [] => []
  | n + 1, b :: r =>
    let k := max 1 (seqLen (b :: r))
    ((b :: r).take k) :: charsN n ((b :: r).drop k)
def chars (s : GoStr) : List GoStr := charsN s.length s

/-- The rune a character stands for: bytes that are not well formed all decode to `utf8.RuneError` (U+FFFD). -/
def rune (c : GoStr) : GoStr := if seqLen c = c.length then c else [0xEF, 0xBF, 0xBD]

/-- `strings.HasPrefix`. -/
def hasPrefix : GoStr → GoStr → Bool
  | _, [] => true
  | [], _ :: _ => false
  | a :: s, b :: p => a == b && hasPrefix s p

/-- `strings.HasSuffix`: compares the last `len(suffix)` bytes. -/
def hasSuffix (s suf : GoStr) : Bool :=
  decide (suf.length ≤ s.length) && s.drop (s.length - suf.length) == suf

/-- `strings.Index`: position of the first occurrence. -/
def index (sep : GoStr) : GoStr → Option Nat
  | [] => if sep = [] then some 0 else none
  | a :: s => if hasPrefix (a :: s) sep then some 0 else (index sep s).map (· + 1)

/-- `strings.Contains`. -/
def contains (s sub : GoStr) : Bool := (index sub s).isSome

/-- `strings.Split` with a non-empty separator (`genSplit`): cut at the first occurrence, go on after it. -/
def splitN (sep : GoStr) : Nat → GoStr → List GoStr
  | 0, s => [s]
  | n + 1, s =>
    match index sep s with
    | none => [s]
    | some i => s.take i :: splitN sep n (s.drop (i + sep.length))

/-- `strings.Split`: an empty separator cuts after every character (`explode`; releases of Go before 1.21 replace bytes
that are not well-formed UTF-8 there). -/
def split (s sep : GoStr) : List GoStr :=
  if sep = [] then chars s else splitN sep s.length s

/-- `strings.Join`. -/
def join (sep : GoStr) : List GoStr → GoStr
  | [] => []
  | [p] => p
  | p :: q :: ps => p ++ sep ++ join sep (q :: ps)

/-- Is the character in the cut set? (`strings.ContainsRune`) -/
def inSet (set c : GoStr) : Bool := ((chars set).map rune).contains (rune c)

/-- `strings.TrimLeft`, `TrimRight`, `Trim`: by characters. -/
def trimL (set : GoStr) (cs : List GoStr) : List GoStr := cs.dropWhile (inSet set)
def trimR (set : GoStr) (cs : List GoStr) : List GoStr := (cs.reverse.dropWhile (inSet set)).reverse

/-- Go `<` on strings: bytewise, a proper prefix is smaller. -/
def lt : GoStr → GoStr → Bool
  | _, [] => false
  | [], _ :: _ => true
  | a :: s, b :: t => if a.toNat < b.toNat then true else if a = b then lt s t else false

/-! ### prim_string.go -/

def splitImpl (s sep : V) : Out V :=  -- `StringSplitImpl` (`prim_string.go:54-73`)
  match s with
  | .str a => (match sep with
    | .str b => .ok (.list ((split a b).map .str))
    | _ => .err (.msg "string-split requires a string separater but was given "))
  | _ => .err (.msg "trim requires a string but was given ")

/-- The loop of `StringJoinImpl` (`prim_string.go:92-100`). -/
def joinLoop : List V → List GoStr → Out (List GoStr)
  | [], acc => .ok acc
  | .str s :: r, acc => joinLoop r (acc ++ [s])
  | _ :: _, _ => .err (.msg "string-join requires a list of strings but ")

/-- `string-join` (`prim_string.go:75-103`): a missing separator is nil. -/
def joinImpl (strs sep : V) : Out V :=
  match strs with
  | .list xs =>
    let go (s : GoStr) : Out V := match joinLoop xs [] with
      | .ok ps => .ok (.str (join s ps))
      | .err e => .err e
      | .panic => .panic
      | .timeout => .timeout
    (match sep with
     | .list [] => go []
     | .str s => go s
     | _ => .err (.msg "string-join requires a string separater but was given "))
  | _ => .err (.msg "string-join requires a list of strings to be joined but was given ")

/-- The default trim set (`prim_string.go:123`): blank, tab, return, newline, vertical tab, form feed. -/
def blanks : GoStr := [0x20, 0x09, 0x0D, 0x0A, 0x0B, 0x0C]

/-- Which ends `doTrim` cuts (`prim_string.go:15-19`). -/
inductive Side where
  | left | both | right
deriving Repr, DecidableEq

/-- `doTrim` (`prim_string.go:105-135`); `set` is `none` when there is one argument. -/
def trimImpl (side : Side) (s : V) (set : Option V) : Out V :=
  match s with
  | .str a =>
    let go (b : GoStr) : Out V := .ok (.str (match side with
      | .left => (trimL b (chars a)).flatten
      | .both => (trimR b (trimL b (chars a))).flatten
      | .right => (trimR b (chars a)).flatten))
    (match set with
     | none => go blanks
     | some (.str b) => go b
     | some _ => .err (.msg "string-trim requires a string set of trim characters but was given "))
  | _ => .err (.msg "string-trim requires a string but was given ")

/-- `string-length` (`prim_string.go:214-222`): bytes, not characters. -/
def lengthImpl : V → Out V
  | .str s => .ok (.int (BitVec.ofNat 64 s.length))
  | _ => .err (.msg "string-length requires a string but was given ")

/-- `substring` (`prim_string.go:234-270`): a negative start is not checked and the slice expression panics. -/
def substringImpl (s start e : V) : Out V :=
  match s with
  | .str a =>
    (match start with
     | .int i =>
       if i.toInt > a.length then .err (.msg "substring requires start < length of the string.")
       else (match e with
         | .int j =>
           if j.toInt > a.length then .err (.msg "substring requires end < length of the string.")
           else if i.toInt > j.toInt then .err (.msg "substring requires start <= end.")
           else if i.toInt < 0 then .panic
           else .ok (.str ((a.drop i.toInt.toNat).take (j.toInt.toNat - i.toInt.toNat)))
         | _ => .err (.msg "substring requires integer end but was given "))
     | _ => .err (.msg "substring requires integer start but was given "))
  | _ => .err (.msg "substring requires a string but was given ")

/-- Result of a test. -/
inductive Ans where
  | yes | no
deriving DecidableEq, Repr
def ans (b : Bool) : Ans := if b then .yes else .no

/-- Argument checking of the two-string tests (`prim_string.go:272-324`, `stringProcessArgs` 326-351). -/
def test2 (name : String) (f : GoStr → GoStr → Bool) (x y : V) : Out Ans :=
  match x with
  | .str a => (match y with
    | .str b => .ok (ans (f a b))
    | _ => .err (.msg (name ++ " requires a string but was given ")))
  | _ => .err (.msg (name ++ " requires a string but was given "))

/-- `substring?`, `string-prefix?`, `string-suffix?` (`prim_string.go:272-324`): the part comes first. -/
def substringP := test2 "substring?" fun sub s => contains s sub
def prefixP := test2 "string-prefix?" fun p s => hasPrefix s p
def suffixP := test2 "string-suffix?" fun p s => hasSuffix s p

/-- `string=?`, `string<?`, `string>?`, `string<=?`, `string>=?` (`prim_string.go:353-423`). -/
def equalP := test2 "string=?" fun a b => a == b
def lessP := test2 "string<?" fun a b => lt a b
def greaterP := test2 "string>?" fun a b => lt b a
def lessEqP := test2 "string<=?" fun a b => !lt b a
def greaterEqP := test2 "string>=?" fun a b => !lt a b

end Golisp.Str
