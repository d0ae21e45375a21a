import Verif.Manual
import Verif.Utf8Lemmas
import Verif.Props.Strings
import Verif.Props.Numbers2
/-
A manual of the string primitives as Lisp code sees them: texts are sequences of characters.  Bytes appear only where the
manual counts them (`string-length`, `substring`).
-/
namespace Golisp.Spec
open Golisp Data Golisp.Props Golisp.Str

/-- The string value with the given characters. -/
def T (cs : List Char) : Data := .str (String.ofList cs)

/-- How many bytes a text takes. -/
def octets (cs : List Char) : Nat := (cs.map fun c => if c.toNat < 0x80 then 1 else if c.toNat < 0x800 then 2 else if c.toNat < 0x10000 then 3 else 4).sum

/-- The characters of a text in lower case. -/
def lowered (H : Ev.Host) (cs : List Char) : List Char := (H.lower (String.ofList cs)).toList

/-- Which ends the trimming primitives cut: leading, trailing. -/
def trims : List (String × Bool × Bool) :=
  [("string-trim", true, true), ("string-trim-left", true, false), ("string-trim-right", false, true)]

/-- `Texts H x vs P`: a call of `x` with argument values `vs` ends in one of the outcomes `P`. -/
inductive Texts (H : Ev.Host) : String → List Data → (Out Data → Prop) → Prop where
  -- taking apart and putting together
  | split (cs sep) : sep ≠ [] → Texts H "string-split" [T cs, T sep] fun r => ∃ ps, Splits sep cs ps ∧ ∃ l, r = .ok l ∧ ListOf l (ps.map T)
  | splitChars (cs) : Texts H "string-split" [T cs, T []] fun r => ∃ l, r = .ok l ∧ ListOf l (cs.map fun c => T [c])
  | join (l) (ps : List (List Char)) (sep) : ListOf l (ps.map T) → Texts H "string-join" [l, T sep] (Gives (T (sep.intercalate ps)))
  | joinPlain (l) (ps : List (List Char)) : ListOf l (ps.map T) → Texts H "string-join" [l] (Gives (T ps.flatten))
  | joinBad (l xs vs) : ListOf l xs → (∃ x ∈ xs, ∀ t, x ≠ .str t) → vs = [] ∨ (∃ sep, vs = [T sep]) → Texts H "string-join" (l :: vs) Objects
  | trim {x f b} (cs set) : (x, f, b) ∈ trims → Texts H x [T cs, T set] fun r => ∃ t, Trimmed f b set cs t ∧ Gives (T t) r
  | trimBlank {x f b} (cs) : (x, f, b) ∈ trims →
      Texts H x [T cs] fun r => ∃ t, Trimmed f b [' ', '\t', '\r', '\n', '\x0b', '\x0c'] cs t ∧ Gives (T t) r
  -- positions are counted in bytes
  | length (cs) : octets cs < 2 ^ 63 → Texts H "string-length" [T cs] (GivesInt fun n => n.toInt = octets cs)
  | null (cs) : Texts H "string-null?" [T cs] (Tells (cs = []))
  | substring (u r v) (i j : BitVec 64) : i.toInt = octets u → j.toInt = octets (u ++ r) →
      Texts H "substring" [T (u ++ r ++ v), .int i, .int j] (Gives (T r))
  | substringBad (cs) (i j : BitVec 64) : octets cs < i.toInt ∨ octets cs < j.toInt ∨ j.toInt < i.toInt →
      Texts H "substring" [T cs, .int i, .int j] Objects
  | substringCrash (cs) (i j : BitVec 64) : i.toInt < 0 → i.toInt ≤ j.toInt → j.toInt ≤ octets cs →
      Texts H "substring" [T cs, .int i, .int j] (· = .panic)
  -- questions
  | inside (a b) : Texts H "substring?" [T a, T b] (Tells (∃ u v, b = u ++ a ++ v))
  | starts (a b) : Texts H "string-prefix?" [T a, T b] (Tells (∃ v, b = a ++ v))
  | ends (a b) : Texts H "string-suffix?" [T a, T b] (Tells (∃ u, b = u ++ a))
  | equal (a b) : Texts H "string=?" [T a, T b] (Tells (a = b))
  | less (a b) : Texts H "string<?" [T a, T b] (Tells (Earlier a b))
  | greater (a b) : Texts H "string>?" [T a, T b] (Tells (Earlier b a))
  | lessEq (a b) : Texts H "string<=?" [T a, T b] (Tells (Earlier a b ∨ a = b))
  | greaterEq (a b) : Texts H "string>=?" [T a, T b] (Tells (Earlier b a ∨ a = b))
  | equalCi (a b) : Texts H "string-ci=?" [T a, T b] (Tells (lowered H a = lowered H b))
  | lessCi (a b) : Texts H "string-ci<?" [T a, T b] (Tells (Earlier (lowered H a) (lowered H b)))
  | greaterCi (a b) : Texts H "string-ci>?" [T a, T b] (Tells (Earlier (lowered H b) (lowered H a)))
  | lessEqCi (a b) : Texts H "string-ci<=?" [T a, T b] (Tells (Earlier (lowered H a) (lowered H b) ∨ lowered H a = lowered H b))
  | greaterEqCi (a b) : Texts H "string-ci>=?" [T a, T b] (Tells (Earlier (lowered H b) (lowered H a) ∨ lowered H a = lowered H b))
  -- case
  | upcase (t) : Texts H "string-upcase" [.str t] (Gives (.str (H.upper t)))
  | downcase (t) : Texts H "string-downcase" [.str t] (Gives (.str (H.lower t)))
  | capitalize (c cs) : c.toNat < 128 → Texts H "string-capitalize" [T (c :: cs)]
      (Gives (.str (H.upper (String.ofList [c]) ++ H.lower (String.ofList cs))))
  | capitalizeNone : Texts H "string-capitalize" [T []] (· = .panic)
  -- numerals
  | numeral (n b : BitVec 64) : b.toNat ∈ [2, 8, 10, 16] → Texts H "number->string" [.int n, .int b] fun r => ∃ t, Gives (T t) r ∧
      ((0 ≤ n.toInt ∧ Props.Spec.Spelling b.toNat t n.toInt.natAbs) ∨ (n.toInt < 0 ∧ ∃ t', t = '-' :: t' ∧ Props.Spec.Spelling b.toNat t' n.toInt.natAbs))
  | decimal (n : BitVec 64) : Texts H "number->string" [.int n] fun r => ∃ t, Gives (T t) r ∧
      ((0 ≤ n.toInt ∧ Props.Spec.Spelling 10 t n.toInt.natAbs) ∨ (n.toInt < 0 ∧ ∃ t', t = '-' :: t' ∧ Props.Spec.Spelling 10 t' n.toInt.natAbs))
  -- reading
  | parse (t : String) (v) : Reader.parse H.reader t.toList = some v → Texts H "parse" [.str t] (Gives v)
  | parseBad (t : String) : Reader.parse H.reader t.toList = none → Texts H "parse" [.str t] Objects
  -- misuse
  | notText1 {x} (v) : (∀ t, v ≠ .str t) → x ∈ ["string-upcase", "string-downcase", "string-capitalize", "string-length", "string-null?", "parse"] →
      Texts H x [v] Objects
  | notText2 {x} (v w) : ((∀ t, v ≠ .str t) ∨ ∀ t, w ≠ .str t) → x ∈ ["string-split", "string-trim", "string-trim-left", "string-trim-right",
      "substring?", "string-prefix?", "string-suffix?", "string=?", "string<?", "string>?", "string<=?", "string>=?", "string-ci=?",
      "string-ci<?", "string-ci>?", "string-ci<=?", "string-ci>=?"] → Texts H x [v, w] Objects
  | notText3 (v w z) : (∀ t, v ≠ .str t) ∨ (∀ i, w ≠ .int i) ∨ (∀ i, z ≠ .int i) → Texts H "substring" [v, w, z] Objects

end Golisp.Spec
