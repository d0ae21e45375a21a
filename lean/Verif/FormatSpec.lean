import Verif.Format
/-
Specification of `format`: control strings as sequences of pieces, and the text they stand for.
-/
namespace Golisp.Spec
open Golisp Str Fmt

/-- The number before a directive: none, digits, the number of arguments left (`#`), the next argument (`v`). -/
inductive Count where
  | none
  | lit (n : Nat)
  | left
  | arg
deriving DecidableEq, Repr

/-- What a directive does: insert an argument as displayed or as written, insert newlines, insert tildes. -/
inductive Dir where
  | show
  | write
  | newline
  | tilde
deriving DecidableEq, Repr

/-- A control string is made of bytes that stand for themselves, directives, and escaped line ends. -/
inductive Ctl where
  | byte (c : Byte)
  | dir (n : Count) (at_ : Bool) (d : Dir)
  | skip (n : Count) (at_ : Bool)
deriving DecidableEq, Repr

/-- A decimal numeral. -/
inductive Base10 : GoStr → Nat → Prop where
  | one {b} : 48 ≤ b.toNat → b.toNat ≤ 57 → Base10 [b] (b.toNat - 48)
  | more {ds n b} : Base10 ds n → 48 ≤ b.toNat → b.toNat ≤ 57 → Base10 (ds ++ [b]) (10 * n + (b.toNat - 48))

/-- How the number is written. -/
inductive Counted : Count → GoStr → Prop where
  | none : Counted .none []
  | lit {ds n} : Base10 ds n → n < 2 ^ 63 → Counted (.lit n) ds
  | left : Counted .left [35]
  | arg {b} : b = 118 ∨ b = 86 → Counted .arg [b]

/-- The letter of a directive. -/
inductive Letter : Dir → Byte → Prop where
  | show {b} : b = 97 ∨ b = 65 → Letter .show b
  | write {b} : b = 115 ∨ b = 83 → Letter .write b
  | newline : Letter .newline 37
  | tilde : Letter .tilde 126

/-- White space, judged byte by byte. -/
def White (b : Byte) : Prop := (9 ≤ b.toNat ∧ b.toNat ≤ 13) ∨ b.toNat = 32 ∨ b.toNat = 0x85 ∨ b.toNat = 0xA0

/-- The `@` modifier. -/
def mark (at_ : Bool) : GoStr := if at_ then [64] else []

/-- The control string `t` is made of the pieces `ps`. -/
inductive Spelled : List Ctl → GoStr → Prop where
  | nil : Spelled [] []
  | byte {c ps t} : c ≠ 126 → Spelled ps t → Spelled (.byte c :: ps) (c :: t)
  | dir {n cs a d b ps t} : Counted n cs → Letter d b → Spelled ps t → Spelled (.dir n a d :: ps) (126 :: (cs ++ (mark a ++ b :: t)))
  | skip {n cs a w ps t} : Counted n cs → (∀ b ∈ w, White b) → (∀ b, t.head? = some b → ¬ White b) → Spelled ps t →
      Spelled (.skip n a :: ps) (126 :: (cs ++ (mark a ++ 10 :: (w ++ t))))

/-- The number that `c` stands for before the arguments `as`, and the arguments after it. -/
inductive Number : Count → List Arg → Int → List Arg → Prop where
  | none {as} : Number .none as 0 as
  | lit {n as} : Number (.lit n) as n as
  | left {as} : Number .left as as.length as
  | arg {a as n} : a.int = some n → Number .arg (a :: as) n as

/-- `x` filled up with spaces to at least `n` bytes, before it if `at_`, else after it. -/
def Filled (at_ : Bool) (n : Int) (x p : GoStr) : Prop :=
  ∃ k : Nat, p = (if at_ then List.replicate k 32 ++ x else x ++ List.replicate k 32) ∧ n ≤ p.length ∧ (k = 0 ∨ p.length = n)

/-- The pieces `ps` and the arguments `as` give the text `o` and leave the arguments `r`. -/
inductive Renders : List Ctl → List Arg → GoStr → List Arg → Prop where
  | nil {as} : Renders [] as [] as
  | byte {c ps as o r} : Renders ps as o r → Renders (.byte c :: ps) as (c :: o) r
  | show {n a k as x as' p ps o r} : Number n as k (x :: as') → Filled a k x.shown p → Renders ps as' o r →
      Renders (.dir n a .show :: ps) as (p ++ o) r
  | write {n a k as x as' p ps o r} : Number n as k (x :: as') → Filled a k x.written p → Renders ps as' o r →
      Renders (.dir n a .write :: ps) as (p ++ o) r
  | newline {n a k as as' ps o r} : Number n as k as' → Renders ps as' o r →
      Renders (.dir n a .newline :: ps) as (List.replicate (max 1 k.toNat) 10 ++ o) r
  | tilde {n a k as as' ps o r} : Number n as k as' → Renders ps as' o r →
      Renders (.dir n a .tilde :: ps) as (List.replicate (max 1 k.toNat) 126 ++ o) r
  | skip {n a k as as' ps o r} : Number n as k as' → Renders ps as' o r →
      Renders (.skip n a :: ps) as ((if a then [10] else []) ++ o) r

/-- Where the modifier matters. -/
def marked? : Ctl → Option Bool
  | .dir _ a .show => some a
  | .dir _ a .write => some a
  | .skip _ a => some a
  | _ => none

/-- The piece has the modifier. -/
def hasMark : Ctl → Bool
  | .byte _ => false
  | .dir _ a _ => a
  | .skip _ a => a

/-- After a piece with the modifier, all pieces for which it matters have it. -/
def MarksLast : List Ctl → Prop
  | [] => True
  | p :: ps => (hasMark p = true → ∀ q ∈ ps, marked? q ≠ some false) ∧ MarksLast ps

/-- The pieces as if every piece after one with the modifier had it too. -/
def sticky (at_ : Bool) : List Ctl → List Ctl
  | [] => []
  | .byte c :: ps => .byte c :: sticky at_ ps
  | .dir n a d :: ps => .dir n (at_ || a) d :: sticky (at_ || a) ps
  | .skip n a :: ps => .skip n (at_ || a) :: sticky (at_ || a) ps

/-- A directive cut off before its letter, and its number as far as it matters. -/
inductive Cut : GoStr → Count → Prop where
  | digits {ds n} : Base10 ds n → Cut (126 :: ds) .none
  | count {n cs a} : Counted n cs → Cut (126 :: (cs ++ mark a)) n

/-- A directive that does not exist, or whose number is out of range. -/
inductive Unsupported : GoStr → Prop where
  | letter {n cs a b t} : Counted n cs → (∀ d, ¬ Letter d b) → b ≠ 10 → (a = false → b ≠ 64) →
      (n = .none → a = false → b ≠ 35 ∧ b ≠ 118 ∧ b ≠ 86) → (a = false → (n = .none ∨ ∃ k, n = .lit k) → ¬ (48 ≤ b.toNat ∧ b.toNat ≤ 57)) →
      Unsupported (126 :: (cs ++ (mark a ++ b :: t)))
  | large {ds n b t} : Base10 ds n → 2 ^ 63 ≤ n → ¬ (48 ≤ b.toNat ∧ b.toNat ≤ 57) → Unsupported (126 :: (ds ++ b :: t))

/-- The number `n` before a directive can be had from the arguments `vs` and leaves `r`. -/
inductive Sized : Count → List Data → List Data → Prop where
  | plain {n vs} : n ≠ .arg → Sized n vs vs
  | arg {i vs} : Sized .arg (.int i :: vs) vs

/-- The pieces take what they need from the arguments `vs` and leave `r`; an argument to insert may be missing. -/
inductive Uses : List Ctl → List Data → List Data → Prop where
  | nil {vs} : Uses [] vs vs
  | byte {c ps vs r} : Uses ps vs r → Uses (.byte c :: ps) vs r
  | «show» {n a vs vs' ps r} : Sized n vs vs' → Uses ps vs'.tail r → Uses (.dir n a .show :: ps) vs r
  | write {n a vs vs' ps r} : Sized n vs vs' → Uses ps vs'.tail r → Uses (.dir n a .write :: ps) vs r
  | newline {n a vs vs' ps r} : Sized n vs vs' → Uses ps vs' r → Uses (.dir n a .newline :: ps) vs r
  | tilde {n a vs vs' ps r} : Sized n vs vs' → Uses ps vs' r → Uses (.dir n a .tilde :: ps) vs r
  | skip {n a vs vs' ps r} : Sized n vs vs' → Uses ps vs' r → Uses (.skip n a :: ps) vs r

/-- The control string ends inside a directive, and everything before can be done with the arguments. -/
def CutShort (t : GoStr) (vs : List Data) : Prop :=
  ∃ ps t1 u n r r', t = t1 ++ u ∧ Spelled ps t1 ∧ Cut u n ∧ Uses ps vs r ∧ Sized n r r'

end Golisp.Spec
