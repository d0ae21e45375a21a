import Verif.EvalSpec
import Verif.Props.Sets
import Verif.Props.Access
import Verif.Props.Lists
import Verif.Props.Floats
/-
A manual of the library primitives that compute a value from their arguments: which calls return what.  It speaks of
argument values and outcomes only; neither the evaluator nor the table of primitives is mentioned.
-/
namespace Golisp.Spec
open Golisp Data Golisp.Props

/-- The call returns `v`. -/
def Gives (v : Data) (r : Out Data) : Prop := r = .ok v
/-- The call returns a list of `xs`. -/
def GivesList (xs : List Data) (r : Out Data) : Prop := ∃ l, r = .ok l ∧ Lst l xs
/-- The call returns an integer with property `Q`. -/
def GivesInt (Q : BitVec 64 → Prop) (r : Out Data) : Prop := ∃ n, r = .ok (.int n) ∧ Q n
/-- The call answers the question `Q`. -/
def Tells (Q : Prop) (r : Out Data) : Prop := ∃ b, r = .ok (.bool b) ∧ (b = true ↔ Q)
/-- The call is an error. -/
def Objects (r : Out Data) : Prop := ∃ e, r = .err e

/-- The integer that int64 arithmetic makes of the exact result `z`. -/
def wrapped (z : Int) : Data := .int (BitVec.ofInt 64 z)

/-- `d` is a list (not an association pair) of `xs`. -/
def ListOf (d : Data) (xs : List Data) : Prop := Lst d xs ∧ isListP d = true

/-- A number small enough for float32 to hold it exactly. -/
def Small (a : BitVec 64) : Prop := a.toInt.natAbs ≤ 2 ^ 24

/-- `Pairs d xs`: a list of `xs` all of whose cells are ordinary pairs. -/
inductive Pairs : Data → List Data → Prop where
  | null : Pairs .null []
  | empty : Pairs .emptyCons []
  | cons (a d : Data) (xs : List Data) : ¬ (a = .null ∧ d = .null) → Pairs d xs → Pairs (.cons a d) (a :: xs)

/-- The type predicates (`prim_type_predicates.go`). -/
inductive Classifies : String → (Data → Prop) → Prop where
  | atom : Classifies "atom?" fun v =>
      (∃ n, v = .int n) ∨ (∃ f, v = .flt f) ∨ (∃ x, v = .sym x) ∨ (∃ t, v = .str t) ∨ ∃ b, v = .bool b
  | list : Classifies "list?" fun v => ∃ a b, v = .cons a b
  | pair : Classifies "pair?" fun v => ∃ a b, v = .cons a b
  | alist : Classifies "alist?" fun v => ∃ a b, v = .cell .alist a b
  | nil : Classifies "nil?" fun v => Lst v []
  | null : Classifies "null?" fun v => Lst v []
  | notnil : Classifies "notnil?" fun v => ¬ Lst v []
  | notnull : Classifies "notnull?" fun v => ¬ Lst v []
  | symbol : Classifies "symbol?" fun v => ∃ x, v = .sym x
  | string : Classifies "string?" fun v => ∃ t, v = .str t
  | integer : Classifies "integer?" fun v => ∃ n, v = .int n
  | float : Classifies "float?" fun v => ∃ f, v = .flt f
  | number : Classifies "number?" fun v => (∃ n, v = .int n) ∨ ∃ f, v = .flt f
  | function : Classifies "function?" fun v => (∃ i, v = .atom (.func i)) ∨ ∃ x, v = .atom (.prim x)
  | macro : Classifies "macro?" fun v => ∃ i, v = .atom (.macro i)
  | frame : Classifies "frame?" fun v => ∃ i, v = .atom (.frame i)
  | bytearray : Classifies "bytearray?" fun v => ∃ b, v = .bytes b
  | port : Classifies "port?" fun v => ∃ i, v = .atom (.port i)
  | boolean : Classifies "boolean?" fun v => ∃ b, v = .bool b
  | environment : Classifies "environment?" fun v => ∃ i, v = .atom (.env i)

/-- First to tenth. -/
def ordinals : List String := ["first", "second", "third", "fourth", "fifth", "sixth", "seventh", "eighth", "ninth", "tenth"]

/-- `Arithmetic x vs P`: a call of `x` with argument values `vs` ends in one of the outcomes `P`.  Numbers, comparison, bits. -/
inductive Arithmetic : String → List Data → (Out Data → Prop) → Prop where
  -- integers
  | add (ns : List (BitVec 64)) : Arithmetic "+" (ns.map .int) (Gives (wrapped (ns.map BitVec.toInt).sum))
  | subtract (n ns) : Arithmetic "-" ((n :: ns).map .int) (Gives (wrapped (n.toInt - (ns.map BitVec.toInt).sum)))
  | multiply (ns : List (BitVec 64)) : Arithmetic "*" (ns.map .int) (Gives (wrapped ((ns.map BitVec.toInt).foldr (· * ·) 1)))
  | divide {x} (a b : BitVec 64) : x ∈ ["/", "quotient"] → b ≠ 0 → Arithmetic x [.int a, .int b] (Gives (wrapped (a.toInt.tdiv b.toInt)))
  | divideMany {x} (a : BitVec 64) (bs : List (BitVec 64)) : x ∈ ["/", "quotient"] → 0 ∉ bs →
      Arithmetic x ((a :: bs).map .int) (Gives (.int (bs.foldl (fun q b => BitVec.ofInt 64 (q.toInt.tdiv b.toInt)) a)))
  | divideZero {x} (a : BitVec 64) (bs) : x ∈ ["/", "quotient"] → 0 ∈ bs → Arithmetic x ((a :: bs).map .int) Objects
  | remainder {x} (a b : BitVec 64) : x ∈ ["%", "modulo"] → b ≠ 0 → Arithmetic x [.int a, .int b] (Gives (wrapped (a.toInt.tmod b.toInt)))
  | remainderZero {x} (a : BitVec 64) : x ∈ ["%", "modulo"] → Arithmetic x [.int a, .int 0] (· = .panic)
  | succ (n : BitVec 64) : Arithmetic "succ" [.int n] (Gives (wrapped (n.toInt + 1)))
  | pred (n : BitVec 64) : Arithmetic "pred" [.int n] (Gives (wrapped (n.toInt - 1)))
  | even (n : BitVec 64) : Arithmetic "even?" [.int n] (Tells (2 ∣ n.toInt))
  | odd (n : BitVec 64) : Arithmetic "odd?" [.int n] (Tells (¬ 2 ∣ n.toInt))
  | zero (n : BitVec 64) : Arithmetic "zero?" [.int n] (Tells (n.toInt = 0))
  | positive (n : BitVec 64) : Arithmetic "positive?" [.int n] (Tells (0 < n.toInt))
  | negative (n : BitVec 64) : Arithmetic "negative?" [.int n] (Tells (n.toInt < 0))
  | sign (n : BitVec 64) : Arithmetic "sign" [.int n] (Gives (wrapped n.toInt.sign))
  | abs (n : BitVec 64) : Small n → Arithmetic "abs" [.int n] (Gives (wrapped n.toInt.natAbs))
  | min {l n ns} : ListOf l ((n :: ns).map .int) →
      Arithmetic "min" [l] (GivesInt fun m => m ∈ n :: ns ∧ ∀ k ∈ n :: ns, m.toInt ≤ k.toInt)
  | max {l n ns} : ListOf l ((n :: ns).map .int) →
      Arithmetic "max" [l] (GivesInt fun m => m ∈ n :: ns ∧ ∀ k ∈ n :: ns, k.toInt ≤ m.toInt)
  | minMaxNone {x l} : x ∈ ["min", "max"] → ListOf l [] → Arithmetic x [l] (Gives (.int 0))
  | integer (n : BitVec 64) : Arithmetic "integer" [.int n] (Gives (.int n))
  | float (n : BitVec 64) : Arithmetic "float" [.int n] (Gives (.flt (F32.ofInt n.toInt)))
  | floatFloat (f : BitVec 32) : Arithmetic "float" [.flt f] (Gives (.flt f))
  | floatBits (f : BitVec 32) : Arithmetic "float->bits" [.flt f] (GivesInt fun n => n.toNat = f.toNat)
  | bitsFloat (f : BitVec 32) (n : BitVec 64) : n.toNat = f.toNat → Arithmetic "bits->float" [.int n] (Gives (.flt f))
  -- floats: the numbers are converted and combined from left to right
  | addFloats {vs : List Data} {fs : List (BitVec 32)} : vs.map asFloat = fs.map some → (∃ f, Data.flt f ∈ vs) → Arithmetic "+" vs (Gives (.flt (fs.foldl F32.add 0)))
  | subtractFloats {v : Data} {vs : List Data} {f} {fs : List (BitVec 32)} : asFloat v = some f → vs.map asFloat = fs.map some → (∃ f, Data.flt f ∈ v :: vs) →
      Arithmetic "-" (v :: vs) (Gives (.flt (fs.foldl F32.sub f)))
  | multiplyFloats {vs : List Data} {fs : List (BitVec 32)} : vs.map asFloat = fs.map some → (∃ f, Data.flt f ∈ vs) →
      Arithmetic "*" vs (Gives (.flt (fs.foldl F32.mul (F32.ofInt 1))))
  | divideFloats {x} {v : Data} {vs : List Data} {f} {fs : List (BitVec 32)} : x ∈ ["/", "quotient"] → asFloat v = some f → vs.map asFloat = fs.map some →
      (∃ f, Data.flt f ∈ v :: vs) → (∀ g ∈ fs, F32.mag g ≠ 0) → Arithmetic x (v :: vs) (Gives (.flt (fs.foldl F32.div f)))
  -- comparison
  | less (a b : BitVec 64) : Small a → Small b → Arithmetic "<" [.int a, .int b] (Tells (a.toInt < b.toInt))
  | greater (a b : BitVec 64) : Small a → Small b → Arithmetic ">" [.int a, .int b] (Tells (a.toInt > b.toInt))
  | lessEq (a b : BitVec 64) : Small a → Small b → Arithmetic "<=" [.int a, .int b] (Tells (a.toInt ≤ b.toInt))
  | greaterEq (a b : BitVec 64) : Small a → Small b → Arithmetic ">=" [.int a, .int b] (Tells (a.toInt ≥ b.toInt))
  | equal {x a b} : x ∈ ["==", "eq?", "eqv?", "equal?"] → Plain a → Plain b → Arithmetic x [a, b] (Tells (SEq a b))
  | different {x a b} : x ∈ ["!=", "neq?"] → Plain a → Plain b → Arithmetic x [a, b] (Tells (¬ SEq a b))
  | not {x a} : x ∈ ["!", "not"] → Arithmetic x [a] (Tells (¬ Truthy a))
  -- bits
  | binaryAnd (a b : BitVec 64) : Arithmetic "binary-and" [.int a, .int b]
      (GivesInt fun r => ∀ i, r.getLsbD i = (a.getLsbD i && b.getLsbD i))
  | binaryOr (a b : BitVec 64) : Arithmetic "binary-or" [.int a, .int b]
      (GivesInt fun r => ∀ i, r.getLsbD i = (a.getLsbD i || b.getLsbD i))
  | binaryNot (a : BitVec 64) : Arithmetic "binary-not" [.int a]
      (GivesInt fun r => ∀ i, r.getLsbD i = if i < 32 then !a.getLsbD i else a.getLsbD i)
  | leftShift (a b : BitVec 64) : Arithmetic "left-shift" [.int a, .int b] (GivesInt fun r => r.toNat = a.toNat * 2 ^ b.toNat % 2 ^ 64)
  | rightShift (a b : BitVec 64) : Arithmetic "right-shift" [.int a, .int b] (GivesInt fun r => r.toNat = a.toNat / 2 ^ b.toNat)

/-- The same for lists, sets, association lists and types. -/
inductive ListWork : String → List Data → (Out Data → Prop) → Prop where
  -- lists
  | list (vs : List Data) : ListWork "list" vs (GivesList vs)
  | makeList (n : BitVec 64) : 0 ≤ n.toInt → ListWork "make-list" [.int n] (GivesList (List.replicate n.toInt.toNat .emptyCons))
  | makeListOf (n : BitVec 64) (v) : 0 ≤ n.toInt → ListWork "make-list" [.int n, v] (GivesList (List.replicate n.toInt.toNat v))
  | makeListNegative (n : BitVec 64) (vs) : n.toInt < 0 → vs.length ≤ 1 → ListWork "make-list" (.int n :: vs) Objects
  | length {l xs} : ListOf l xs → ListWork "length" [l] (Gives (wrapped xs.length))
  | cons (a b : Data) : ListWork "cons" [a, b] (Gives (.cons a b))
  | consStar {vs l xs} : ListOf l xs → ListWork "cons*" (vs ++ [l]) (GivesList (vs ++ xs))
  | reverse {l xs} : ListOf l xs → xs.head? ≠ some .null → ListWork "reverse" [l] (GivesList xs.reverse)
  | flatten {l xs ps} : ListOf l xs → Pieces xs ps → ListWork "flatten" [l] (GivesList (ps.map elem))
  | flattenStar {l ls} : isListP l = true → Leaves l ls → ListWork "flatten*" [l] (GivesList ls)
  | append {ls : List (Data × List Data)} : (∀ p ∈ ls, ListOf p.1 p.2) →
      ListWork "append" (ls.map (·.1)) (GivesList ((ls.map (·.2)).flatten.map elem))
  | sublist {l xs} (i j : BitVec 64) : ListOf l xs → 0 < i.toInt → i.toInt < j.toInt →
      ListWork "sublist" [l, .int i, .int j] (GivesList (((xs.drop (i.toInt.toNat - 1)).take (j.toInt.toNat - i.toInt.toNat)).map elem))
  | sublistNone {l xs} (i j : BitVec 64) : ListOf l xs → 0 < i.toInt → 0 < j.toInt → j.toInt ≤ i.toInt →
      ListWork "sublist" [l, .int i, .int j] (GivesList [])
  | sublistBad {l xs} (i j : BitVec 64) : ListOf l xs → (i.toInt ≤ 0 ∨ j.toInt ≤ 0) → ListWork "sublist" [l, .int i, .int j] Objects
  | partition {l xs} (n : BitVec 64) : ListOf l xs → 1 ≤ n.toInt → ListWork "partition" [.int n, l] (fun r =>
      ∃ out cs ds, r = .ok out ∧ Lst out ds ∧ IsChunking n.toInt.toNat xs cs ∧ ds.length = cs.length ∧
        ∀ i (hi : i < cs.length), ∃ d, ds[i]? = some d ∧ Lst d (cs[i].map elem))
  | partitionBad {l xs} (n : BitVec 64) : ListOf l xs → n.toInt < 1 → ListWork "partition" [.int n, l] Objects
  -- access
  | path {cs : List Char} (v) : (∀ c ∈ cs, c = 'a' ∨ c = 'd') → 1 ≤ cs.length → cs.length ≤ 4 →
      ListWork (String.ofList ('c' :: cs ++ ['r'])) [v] (Gives (cs.foldr step v))
  | head (v) : ListWork "head" [v] (Gives (step 'a' v))
  | rest {x} (v) : x ∈ ["rest", "tail"] → ListWork x [v] (Gives (step 'd' v))
  | ordinal {x} {n : Nat} {l xs} : ordinals[n]? = some x → ListOf l xs → ListWork x [l] (Gives ((xs[n]?).getD .null))
  | nth {l xs} (n : BitVec 64) : Lst l xs → isPair l = true →
      ListWork "nth" [l, .int n] (Gives (if 1 ≤ n.toInt ∧ n.toInt ≤ xs.length then (xs[(n.toInt - 1).toNat]?).getD .null else .null))
  | listRef {l xs} (n : BitVec 64) : Lst l xs → isPair l = true → 0 ≤ n.toInt → n.toInt < xs.length → (xs.length : Int) < 2 ^ 63 →
      ListWork "list-ref" [l, .int n] (Gives ((xs[n.toInt.toNat]?).getD .null))
  | listRefOut {l xs} (n : BitVec 64) : Lst l xs → isPair l = true → (n.toInt < 0 ∨ n.toInt ≥ xs.length) →
      ListWork "list-ref" [l, .int n] (Gives .null)
  | take {l xs} (n : BitVec 64) : ListOf l xs → ListWork "take" [.int n, l] (GivesList ((xs.take n.toInt.toNat).map elem))
  | listHead {l xs} (n : BitVec 64) : ListOf l xs → ListWork "list-head" [l, .int n] (GivesList ((xs.take n.toInt.toNat).map elem))
  | drop {l xs} (n : BitVec 64) : ListOf l xs → ListWork "drop" [.int n, l] (GivesList (xs.drop n.toInt.toNat))
  | listTail {l xs} (n : BitVec 64) : ListOf l xs → ListWork "list-tail" [l, .int n] (GivesList (xs.drop n.toInt.toNat))
  | lastPair {l xs v} : Pairs l (xs ++ [v]) → ListWork "last-pair" [l] (GivesList [v])
  | lastPairNone {l} : Lst l [] → ListWork "last-pair" [l] Objects
  -- membership, sets
  | memberNot {x k l xs} : x ∈ ["memq", "memv", "member"] → Lst l xs → Plain k → (∀ y ∈ xs, Plain y ∧ ¬ SEq k y) →
      ListWork x [k, l] (Gives (.bool false))
  | member {x k l pre y post} : x ∈ ["memq", "memv", "member"] → Lst l (pre ++ y :: post) → Plain k → Plain y → SEq k y →
      (∀ z ∈ pre, Plain z ∧ ¬ SEq k z) → ListWork x [k, l] (GivesList (y :: post))
  | union {ls : List (Data × List Data)} : (∀ p ∈ ls, PList p.1 p.2) → ListWork "union" (ls.map (·.1)) (fun r =>
      ∃ l xs, r = .ok l ∧ Lst l xs ∧ xs.Sublist (ls.flatMap (·.2)) ∧ xs.Pairwise (fun a b => ¬ SEq a b) ∧
        ∀ x, Mem x xs ↔ ∃ p ∈ ls, Mem x p.2)
  | intersection {c xs} {ls : List (Data × List Data)} : PList c xs → (∀ p ∈ ls, PList p.1 p.2) →
      ListWork "intersection" (c :: ls.map (·.1)) (fun r => ∃ l ys, r = .ok l ∧ Lst l ys ∧ ys.Sublist xs ∧
        ∀ x, Plain x → (Mem x ys ↔ Mem x xs ∧ ∀ p ∈ ls, Mem x p.2))
  | complement {c xs} {ls : List (Data × List Data)} : PList c xs → (∀ p ∈ ls, PList p.1 p.2) →
      ListWork "complement" (c :: ls.map (·.1)) (fun r => ∃ l ys, r = .ok l ∧ Lst l ys ∧ ys.Sublist xs ∧
        ∀ x, Plain x → (Mem x ys ↔ Mem x xs ∧ ∀ p ∈ ls, ¬ Mem x p.2))
  -- association lists
  | assoc {x a al kvs v} : x ∈ ["assq", "assv", "assoc"] → Settled a → Alist al kvs → lookup a kvs = some v →
      ListWork x [.atom a, al] (fun r => ∃ k kd, r = .ok (.cell kd (.atom k) v) ∧ AtomEq k a)
  | assocNot {x a al kvs} : x ∈ ["assq", "assv", "assoc"] → Settled a → Alist al kvs → lookup a kvs = none →
      ListWork x [.atom a, al] (Gives .null)
  | dissoc {a al kvs} : Settled a → Alist al kvs → DistinctKeys kvs → ListWork "dissoc" [.atom a, al] (fun r =>
      ∃ l kvs', r = .ok l ∧ Alist l kvs' ∧ lookup a kvs' = none ∧ ∀ b, ¬ AtomEq b a → lookup b kvs' = lookup b kvs)
  | alist {l kvs} : Pairs l (kvs.map fun p => .cons (.atom p.1) p.2) → (∀ p ∈ kvs, Settled p.1) →
      ListWork "alist" [l] (fun r => ∃ al kvs', r = .ok al ∧ Alist al kvs' ∧ ∀ b, Settled b → lookup b kvs' = lookup b kvs)
  -- types
  | classify {x Q} (v) : Classifies x Q → ListWork x [v] (Tells (Q v))

/-- Calls with arguments of the wrong type: each is an error. -/
inductive Misuse : String → List Data → Prop where
  | notInteger {x} (v) : (∀ n, v ≠ .int n) → x ∈ ["succ", "pred", "even?", "odd?", "binary-not", "bits->float"] → Misuse x [v]
  | notNumber {x} (v) : (∀ n, v ≠ .int n) → (∀ f, v ≠ .flt f) →
      x ∈ ["abs", "zero?", "positive?", "negative?", "sign", "integer", "float"] → Misuse x [v]
  | notNumbers {x} (ns : List (BitVec 64)) (v) (rest) : (∀ n, v ≠ .int n) → (∀ f, v ≠ .flt f) → x ∈ ["+", "-", "*", "/", "quotient"] →
      Misuse x (ns.map .int ++ v :: rest)
  | notIntegers {x} (a b) : ((∀ n, a ≠ .int n) ∨ ∀ n, b ≠ .int n) →
      x ∈ ["%", "modulo", "binary-and", "binary-or", "left-shift", "right-shift"] → Misuse x [a, b]
  | notComparable {x} (a b) : ((∀ n, a ≠ .int n) ∧ (∀ f, a ≠ .flt f) ∨ (∀ n, b ≠ .int n) ∧ ∀ f, b ≠ .flt f) →
      x ∈ ["<", ">", "<=", ">="] → Misuse x [a, b]
  | notFloat (v) : (∀ f, v ≠ .flt f) → Misuse "float->bits" [v]
  | notList {x} (v) (a : Atom) : v = .atom a → x ∈ ["min", "max", "last-pair"] → Misuse x [v]
  | notListSet {x} (pre) (a : Atom) : (∀ p ∈ pre, isListP p = true ∧ Frameless p) → Frameless (.atom a) → x ∈ ["union", "intersection", "complement"] →
      Misuse x (pre ++ [.atom a])
  | notIndexable {x} (a : Atom) (v) : x ∈ ["nth", "list-ref", "list-head", "list-tail"] → Misuse x [.atom a, v]
  | notIndex {x} (l v) : (∀ n, v ≠ .int n) → x ∈ ["nth", "list-ref", "list-head", "list-tail"] → Misuse x [l, v]
  | notCount {x} (l v) : (∀ n, v ≠ .int n) → x ∈ ["take", "drop"] → Misuse x [v, l]
  | notCountMake (v vs) : (∀ n, v ≠ .int n) → vs.length ≤ 1 → Misuse "make-list" (v :: vs)
  | notPairs {x} (k : Data) (l xs) (a : Atom) : ListOf l (.atom a :: xs) → x ∈ ["assq", "assv", "assoc", "dissoc", "rassoc"] →
      Misuse x [k, l]

end Golisp.Spec
