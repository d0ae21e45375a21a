import Verif.Props.Reader
/-
The grammar of expressions, as a relation between texts and values.  It does not mention the tokenizer's loops or the parser;
from the reader's model it takes only the classes of characters (`Name`, `Blank`, `Stop`, which speak of `isSymChar`,
`isNumber`, `isSpace`).
-/
namespace Golisp.Spec
open Golisp.Data Golisp.Reader

/-- `c` is the digit of value `v` in base `b` (at most 16), in lower or upper case. -/
def Digit (b : Nat) (c : Char) (v : Nat) : Prop :=
  v < b ∧ (c = "0123456789abcdef".toList.getD v ' ' ∨ c = "0123456789ABCDEF".toList.getD v ' ')

/-- The digits `ds` are a numeral of value `n` in base `b`. -/
inductive Numeral (b : Nat) : List Char → Nat → Prop where
  | one {c v} : Digit b c v → Numeral b [c] v
  | snoc {ds n c v} : Numeral b ds n → Digit b c v → Numeral b (ds ++ [c]) (n * b + v)

/-- Decimal digits. -/
def Digits (ds : List Char) : Prop := ∀ c ∈ ds, ∃ v, Digit 10 c v

/-- The list of the values, `()` when there are none. -/
def listOf : List Data → Data
  | [] => .emptyCons
  | ds => ds.foldr .cons .null

/-- `(name d)`. -/
def tagged (name : String) (d : Data) : Data := .cons (.sym name) (.cons d .null)

/-- What may be written between brackets. -/
def Element (d : Data) : Prop := (∃ n : BitVec 64, d = .int n ∧ n.toInt ≤ 255) ∨ (∃ s, d = .sym s) ∨ ∃ a t, d = .cons a t

mutual
/-- `Form H t d`: the text `t` (without white space around it) is a form that stands for `d`. -/
inductive Form (H : Host) : List Char → Data → Prop where
  | decimal {ds n} : Numeral 10 ds n → n < 2 ^ 63 → Form H ds (.int (BitVec.ofNat 64 n))
  | negative {ds n} : Numeral 10 ds n → n ≤ 2 ^ 63 → Form H ('-' :: ds) (.int (BitVec.ofInt 64 (-n)))
  | hex {ds n} : Numeral 16 ds n → n < 2 ^ 63 → Form H ('0' :: 'x' :: ds) (.int (BitVec.ofNat 64 n))
  | hexHash {ds n} : Numeral 16 ds n → n < 2 ^ 63 → Form H ('#' :: 'x' :: ds) (.int (BitVec.ofNat 64 n))
  | binary {ds n} : Numeral 2 ds n → n < 2 ^ 63 → Form H ('#' :: 'b' :: ds) (.int (BitVec.ofNat 64 n))
  | float {ds ds' f} : Digits ds → ds ≠ [] → Digits ds' → H.readFloat (ds ++ '.' :: ds') = some f → Form H (ds ++ '.' :: ds') (.flt f)
  | negFloat {ds ds' f} : Digits ds → ds ≠ [] → Digits ds' → H.readFloat ('-' :: (ds ++ '.' :: ds')) = some f →
      Form H ('-' :: (ds ++ '.' :: ds')) (.flt f)
  | string {b s} : Body b s → Form H ('"' :: (b ++ ['"'])) (.str (String.ofList s))
  | symbol {s} : Name H s → Form H s.toList (.sym s)
  | tru : Form H ['#', 't'] (.bool true)
  | fls : Form H ['#', 'f'] (.bool false)
  | quoted {w t d} : Blank H w → Form H t d → Form H ('\'' :: (w ++ t)) (tagged "quote" d)
  | backquoted {w t d} : Blank H w → Form H t d → Form H ('`' :: (w ++ t)) (tagged "quasiquote" d)
  | unquoted {w t d} : Blank H w → Form H t d → (w ++ t).head? ≠ some '@' → Form H (',' :: (w ++ t)) (tagged "unquote" d)
  | spliced {w t d} : Blank H w → Form H t d → Form H (',' :: '@' :: (w ++ t)) (tagged "unquote-splicing" d)
  | list {t ds} : Items H t ds → Form H ('(' :: (t ++ [')'])) (listOf ds)
  | dotted {t ds v w u d w'} : Items H t ds → Blank H v → v ≠ [] → Blank H w → Form H u d → Blank H w' →
      Form H ('(' :: (t ++ (v ++ '.' :: ' ' :: (w ++ (u ++ (w' ++ [')'])))))) (ds.foldr .cons d)
  | bytes {t} {ns : List (BitVec 64)} : Items H t (ns.map .int) → (∀ n ∈ ns, n.toInt ≤ 255) →
      Form H ('[' :: (t ++ [']'])) (.bytes (ns.map (·.setWidth 8)))
  | bytesOf {t ds} : Items H t ds → (∀ d ∈ ds, Element d) → (∃ d ∈ ds, ∀ n, d ≠ .int n) →
      Form H ('[' :: (t ++ [']'])) (listOf [.sym "list->bytearray", .cons (.sym "list") (listOf ds)])
  | frame {t ds} : Items H t ds → Form H ('{' :: (t ++ ['}'])) (.cons (.sym "make-frame") (listOf ds))
/-- `Items H t ds`: the text `t` consists of forms that stand for `ds`, in order, with white space and comments before, after
and between them; there may be none where the next character ends the form anyway. -/
inductive Items (H : Host) : List Char → List Data → Prop where
  | nil {w} : Blank H w → Items H w []
  | cons {w t d u ds} : Blank H w → Form H t d → Stop H u → Items H u ds → Items H (w ++ (t ++ u)) (d :: ds)
end

/-- The text does not begin with a digit of base `b`. -/
def NoDigit (b : Nat) (r : List Char) : Prop := ∀ c, r.head? = some c → ∀ v, ¬ Digit b c v

mutual
/-- `Broken H t`: the text `t` begins with something that is not a form. -/
inductive Broken (H : Host) : List Char → Prop where
  | decimal {ds n r} : Numeral 10 ds n → 2 ^ 63 ≤ n → Stop H r → Broken H (ds ++ r)
  | negative {ds n r} : Numeral 10 ds n → 2 ^ 63 < n → Stop H r → Broken H ('-' :: (ds ++ r))
  | hex {ds n r} : Numeral 16 ds n → 2 ^ 63 ≤ n → Stop H r → Broken H ('0' :: 'x' :: (ds ++ r))
  | hexHash {ds n r} : Numeral 16 ds n → 2 ^ 63 ≤ n → Stop H r → Broken H ('#' :: 'x' :: (ds ++ r))
  | binary {ds n r} : Numeral 2 ds n → 2 ^ 63 ≤ n → Stop H r → Broken H ('#' :: 'b' :: (ds ++ r))
  | noHex {r} : NoDigit 16 r → Broken H ('0' :: 'x' :: r)
  | noHexHash {r} : NoDigit 16 r → Broken H ('#' :: 'x' :: r)
  | noBinary {r} : NoDigit 2 r → Broken H ('#' :: 'b' :: r)
  | hash {r} : (∀ c, r.head? = some c → c ≠ 't' ∧ c ≠ 'f' ∧ c ≠ 'x' ∧ c ≠ 'b') → Broken H ('#' :: r)
  | bar {r} : Broken H ('|' :: r)
  | control {c r} : isGraphic H c = false → isSpace H c = false → isNumber H c = false → Broken H (c :: r)
  | quoted {w t} : Blank H w → Broken H t → Broken H ('\'' :: (w ++ t))
  | backquoted {w t} : Blank H w → Broken H t → Broken H ('`' :: (w ++ t))
  | unquoted {w t} : Blank H w → Broken H t → (w ++ t).head? ≠ some '@' → Broken H (',' :: (w ++ t))
  | spliced {w t} : Blank H w → Broken H t → Broken H (',' :: '@' :: (w ++ t))
  | list {t ds} : BrokenItems H t ds → Broken H ('(' :: t)
  | bytes {t ds} : BrokenItems H t ds → Broken H ('[' :: t)
  | frame {t ds} : BrokenItems H t ds → Broken H ('{' :: t)
  | dotted {t ds v w u} : Items H t ds → Blank H v → v ≠ [] → Blank H w → Broken H u → Broken H ('(' :: (t ++ (v ++ '.' :: ' ' :: (w ++ u))))
  | dottedTwice {t ds v w u d w' u' d' r} : Items H t ds → Blank H v → v ≠ [] → Blank H w → Form H u d → Blank H w' → Stop H (w' ++ (u' ++ r)) →
      Form H u' d' → Stop H r → Broken H ('(' :: (t ++ (v ++ '.' :: ' ' :: (w ++ (u ++ (w' ++ (u' ++ r)))))))
  | unclosedList {t ds} : Items H t ds → Broken H ('(' :: t)
  | unclosedBytes {t ds} : Items H t ds → Broken H ('[' :: t)
  | unclosedFrame {t ds} : Items H t ds → Broken H ('{' :: t)
  | notByte {t ds r} : Items H t ds → (∃ d ∈ ds, ¬ Element d) → Stop H r → Broken H ('[' :: (t ++ r))
/-- `BrokenItems H t ds`: the text `t` begins with forms that stand for `ds`, and then comes something that is not a form. -/
inductive BrokenItems (H : Host) : List Char → List Data → Prop where
  | here {w t} : Blank H w → Broken H t → BrokenItems H (w ++ t) []
  | later {w t d u ds} : Blank H w → Form H t d → Stop H u → BrokenItems H u ds → BrokenItems H (w ++ (t ++ u)) (d :: ds)
end

end Golisp.Spec
