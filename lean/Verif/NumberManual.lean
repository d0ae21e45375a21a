import Verif.Grammar
import Verif.Manual
/-
A manual of the remaining numeric primitives: rounding, classification, powers, the functions taken from Go's package
math, counting and reading numerals.  It speaks of numbers, characters, argument values and outcomes only.
-/
namespace Golisp.Spec
open Golisp Data Golisp.Props

/-- One, as a float value (values are counted in units of 2^-149). -/
def unit : Int := 2 ^ 149

/-- `f` is the largest whole number not above the finite float `b`; a zero has the sign of `b`. -/
def IsFloor (b f : BitVec 32) : Prop :=
  Finite f ∧ (∃ q : Int, F32.value f = q * unit ∧ q * unit ≤ F32.value b ∧ F32.value b < (q + 1) * unit) ∧ (F32.value f = 0 → F32.neg f = F32.neg b)
/-- `f` is the smallest whole number not below the finite float `b`; a zero has the sign of `b`. -/
def IsCeiling (b f : BitVec 32) : Prop :=
  Finite f ∧ (∃ q : Int, F32.value f = q * unit ∧ (q - 1) * unit < F32.value b ∧ F32.value b ≤ q * unit) ∧ (F32.value f = 0 → F32.neg f = F32.neg b)

/-- Infinite, not a number. -/
def Infinite (b : BitVec 32) : Prop := F32.mag b = F32.infMag
def Undefined (b : BitVec 32) : Prop := F32.infMag < F32.mag b

/-- The numbers `s, s + t, s + 2t, ..`, as far as they are in `inside`. -/
def Progression (s t : Int) (inside : Int → Prop) (xs : List Int) : Prop :=
  ∃ n : Nat, xs = (List.range n).map (fun k => s + (k : Nat) * t) ∧ ∀ k : Nat, k < n ↔ inside (s + k * t)

/-- White space before a numeral. -/
def Space (c : Char) : Prop :=
  c ∈ [' ', '\t', '\r', '\x0b', '\x0c', '\u0085', ' ', ' ', ' ', ' ', ' ', ' ', '　'] ∨
    ' ' ≤ c ∧ c ≤ ' '

/-- The text begins with a numeral of value `z` in base `b`: white space, an optional sign, digits, and then anything but a digit. -/
def Begins (b : Nat) (cs : List Char) (z : Int) : Prop :=
  ∃ sp sg ds rest n, cs = sp ++ (sg ++ (ds ++ rest)) ∧ (∀ c ∈ sp, Space c) ∧ Numeral b ds n ∧ (∀ c ∈ rest.head?, ¬ ∃ v, Digit b c v) ∧
    ((sg = [] ∨ sg = ['+']) ∧ z = n ∨ sg = ['-'] ∧ z = -(n : Int))

/-- The functions taken from Go's package math. -/
def goMath : List String :=
  ["acos", "acosh", "asin", "asinh", "atan", "atanh", "cbrt", "cos", "cosh", "erf", "erfc", "exp", "exp2", "expm1", "gamma",
   "j0", "j1", "log", "log10", "log1p", "log2", "logb", "sin", "sinh", "sqrt", "tan", "tanh", "y0", "y1"]

/-- In the range of int64. -/
def Representable (z : Int) : Prop := -(2 ^ 63) ≤ z ∧ z < 2 ^ 63

/-- `Calculations H x vs P`: a call of `x` with argument values `vs` ends in one of the outcomes `P`. -/
inductive Calculations (H : Ev.Host) : String → List Data → (Out Data → Prop) → Prop where
  -- rounding: the result is a float
  | floor {v b} : asFloat v = some b → Finite b → Calculations H "floor" [v] fun r => ∃ f, Gives (.flt f) r ∧ IsFloor b f
  | ceiling {v b} : asFloat v = some b → Finite b → Calculations H "ceiling" [v] fun r => ∃ f, Gives (.flt f) r ∧ IsCeiling b f
  | roundInfinite {x} (b) : x ∈ ["floor", "ceiling"] → Infinite b → Calculations H x [.flt b] (Gives (.flt b))
  | roundUndefined {x} (b) : x ∈ ["floor", "ceiling"] → Undefined b → Calculations H x [.flt b] fun r => ∃ f, Gives (.flt f) r ∧ Undefined f
  -- classification
  | isInf (b) : Calculations H "inf?" [.flt b] (Tells (Infinite b))
  | isNaN (b) : Calculations H "nan?" [.flt b] (Tells (Undefined b))
  | intFinite {x} (n) : x ∈ ["inf?", "nan?"] → Calculations H x [.int n] (Gives (.bool false))
  -- powers
  | pow (b e : BitVec 64) : 0 ≤ e.toInt → Calculations H "pow" [.int b, .int e] (Gives (wrapped (b.toInt ^ e.toNat)))
  | powNegative (b e : BitVec 64) : e.toInt < 0 → Calculations H "pow" [.int b, .int e] (Gives (.int 1))
  | powFloat {v w a b} : asFloat v = some a → asFloat w = some b → (∃ f, v = .flt f) ∨ (∃ f, w = .flt f) →
      Calculations H "pow" [v, w] (Gives (.flt (H.pow a b)))
  | powBad {v w} : asFloat v = none ∨ (∃ n, v = .int n) ∧ asFloat w = none → Calculations H "pow" [v, w] Objects
  -- package math
  | math {x v b} : x ∈ goMath → asFloat v = some b → Calculations H x [v] (Gives (.flt (H.math x b)))
  -- counting
  | intervalTo (n : BitVec 64) : n.toInt.natAbs < 2 ^ 44 → Calculations H "interval" [.int n] fun r =>
      ∃ xs, Progression 1 1 (· ≤ n.toInt) xs ∧ GivesList (xs.map wrapped) r
  | interval (s e : BitVec 64) : s.toInt ≤ e.toInt → e.toInt - s.toInt < 2 ^ 44 → e.toInt < 2 ^ 63 - 1 → Calculations H "interval" [.int s, .int e] fun r =>
      ∃ xs, Progression s.toInt 1 (· ≤ e.toInt) xs ∧ GivesList (xs.map wrapped) r
  | intervalDown (s e : BitVec 64) : e.toInt < s.toInt → s.toInt - e.toInt < 2 ^ 44 → -(2 ^ 63) < e.toInt → Calculations H "interval" [.int s, .int e] fun r =>
      ∃ xs, Progression s.toInt (-1) (e.toInt ≤ ·) xs ∧ GivesList (xs.map wrapped) r
  | intervalStep (s e t : BitVec 64) : s.toInt ≤ e.toInt → 0 < t.toInt → e.toInt - s.toInt < 2 ^ 44 → Representable (e.toInt + t.toInt) →
      Calculations H "interval" [.int s, .int e, .int t] fun r => ∃ xs, Progression s.toInt t.toInt (· ≤ e.toInt) xs ∧ GivesList (xs.map wrapped) r
  | intervalStepDown (s e t : BitVec 64) : e.toInt < s.toInt → t.toInt < 0 → s.toInt - e.toInt < 2 ^ 44 → Representable (e.toInt + t.toInt) →
      Calculations H "interval" [.int s, .int e, .int t] fun r => ∃ xs, Progression s.toInt t.toInt (e.toInt ≤ ·) xs ∧ GivesList (xs.map wrapped) r
  | intervalAway (s e t : BitVec 64) : s.toInt ≤ e.toInt ∧ t.toInt ≤ 0 ∨ e.toInt < s.toInt ∧ 0 ≤ t.toInt →
      Calculations H "interval" [.int s, .int e, .int t] Objects
  | intervalBad (v w z) : (∀ n, z ≠ .int n) → Calculations H "interval" [v, w, z] Objects
  -- reading numerals
  | numberIn (cs) (b : BitVec 64) (z) : b.toNat ∈ [2, 8, 10, 16] → Begins b.toNat cs z → Representable z →
      Calculations H "string->number" [.str (String.ofList cs), .int b] (Gives (wrapped z))
  | noNumberIn (cs) (b : BitVec 64) : b.toNat ∈ [2, 8, 10, 16] → (∀ z, Begins b.toNat cs z → ¬ Representable z) →
      Calculations H "string->number" [.str (String.ofList cs), .int b] Objects
  | number (cs z) : Begins 10 cs z → Representable z → Calculations H "string->number" [.str (String.ofList cs)] (Gives (wrapped z))
  | noNumber (cs) : (∀ z, Begins 10 cs z → ¬ Representable z) → Calculations H "string->number" [.str (String.ofList cs)] Objects
  | otherBase (v) (b : BitVec 64) : b.toNat ∉ [2, 8, 10, 16] → Calculations H "string->number" [v, .int b] (Gives (.int 0))
  -- the end of a file
  | eof (v) : Calculations H "eof-object?" [v] (Tells (v = .sym "__EOF__"))
  -- misuse
  | notNumber {x v} : asFloat v = none → x ∈ ["floor", "ceiling", "inf?", "nan?"] ++ goMath → Calculations H x [v] Objects

end Golisp.Spec
