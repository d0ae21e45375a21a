import Verif.Json
/-
Model of the JSON conversions with association lists: `json_support.go`.
-/
namespace Golisp
namespace JsonA
open Data Json

mutual
/-- `JsonToLisp` (`json_support.go:17-57`).  Only what `encoding/json` gives is converted: of the numbers only float64. -/
def toLisp [FrEq] (ord : Order) : Json → Data
  | .null => .null
  | .bool b => .bool b
  | .int _ => .null
  | .f32 _ => .null
  | .f64 v => number v
  | .str s => .str s
  | .arr l => reverse ((toLispList ord l).foldl (fun acc d => .cons d acc) .null)
  | .obj l => (ord (toLispFields ord l)).foldl (fun acc e => acons (.str e.1) e.2 acc) .null

def toLispList [FrEq] (ord : Order) : List Json → List Data
  | [] => []
  | j :: l => toLisp ord j :: toLispList ord l

/-- The keys and the values made from the entries; the order in which they are made does not matter. -/
def toLispFields [FrEq] (ord : Order) : List (String × Json) → List (String × Data)
  | [] => []
  | (k, j) :: l => (k, toLisp ord j) :: toLispFields ord l
end

mutual
/-- `LispToJson` (`json_support.go:69-99`). -/
def ofLisp : Data → Json
  | .null => .str ""
  | .atom (.int n) => .int n
  | .atom (.str s) => .str s
  | .atom (.sym s) => .str s
  | .cell .cons a d => .arr (if isNil (.cell .cons a d) then [] else ofLisp a :: ofList d)
  | .cell .alist p d => .obj (mapOf (if isNil (.cell .alist p d) then [] else ofPair p :: ofAlist d))
  | _ => .str ""

/-- The loop over a list; a tail that is no list counts as a nil element. -/
def ofList : Data → List Json
  | .null => []
  | .cell k a d => if isNil (.cell k a d) then [] else ofLisp a :: ofList d
  | .atom _ => [.str ""]

/-- The loop over an association list. -/
def ofAlist : Data → List (String × Json)
  | .null => []
  | .cell k p d => if isNil (.cell k p d) then [] else ofPair p :: ofAlist d
  | .atom _ => [("", .str "")]

/-- `dict[StringValue(Car(pair))] = LispToJson(Cdr(pair))`. -/
def ofPair : Data → String × Json
  | .cell _ k v => (stringValue k, ofLisp v)
  | _ => ("", .str "")
end

/-- `JsonStringToLisp` (`json_support.go:59-67`): `none` is a text that is not JSON. -/
def ofText [FrEq] (ord : Order) : Option Json → Out Data
  | none => .panic
  | some j => .ok (toLisp ord j)

end JsonA

namespace Spec
open Data

/-- The entries of an association list with strings for keys. -/
inductive Slots : Data → List (String × Data) → Prop where
  | null : Slots .null []
  | cons {k v d es} : Slots d es → Slots (.cell .alist (.cell .acell (.str k) v) d) ((k, v) :: es)

/-- A Lisp value made of numbers, booleans, strings, lists and association lists, and what it stands for.  Floats are allowed
if `fl` holds. -/
inductive AsAlist (fl : Prop) : Data → Val → Prop where
  | int (n : BitVec 64) : AsAlist fl (.int n) (.num (n.toInt * 2 ^ 1074))
  | flt (b : BitVec 32) : fl → F32.mag b < F32.infMag → AsAlist fl (.flt b) (.num (f32Val b))
  | bool (b : Bool) : AsAlist fl (.bool b) (.bool b)
  | str (s : String) : AsAlist fl (.str s) (.str s)
  | arr (a d : Data) (ds : List Data) (vs : List Val) : Lst (.cons a d) ds → All2 (AsAlist fl) ds vs → AsAlist fl (.cons a d) (.arr vs)
  | obj (a d : Data) (es : List (String × Data)) (fs fs' : List (String × Val)) : Slots (.cell .alist a d) es → fs'.Perm fs →
      (fs.map (·.1)).Nodup → es.map (·.1) = fs'.map (·.1) → All2 (AsAlist fl) (es.map (·.2)) (fs'.map (·.2)) →
      AsAlist fl (.cell .alist a d) (.obj fs)

/-- What a JSON tree stands for. -/
inductive DocOf : Json → Val → Prop where
  | int (n : BitVec 64) : DocOf (.int n) (.num (n.toInt * 2 ^ 1074))
  | f64 (v : Int) : DocOf (.f64 v) (.num v)
  | bool (b : Bool) : DocOf (.bool b) (.bool b)
  | str (s : String) : DocOf (.str s) (.str s)
  | arr (l : List Json) (vs : List Val) : All2 DocOf l vs → DocOf (.arr l) (.arr vs)
  | obj (l : List (String × Json)) (fs fs' : List (String × Val)) : fs'.Perm fs → (fs.map (·.1)).Nodup →
      l.map (·.1) = fs'.map (·.1) → All2 DocOf (l.map (·.2)) (fs'.map (·.2)) → DocOf (.obj l) (.obj fs)

/-- Read from a text: all numbers are float64. -/
inductive FromText : Json → Prop where
  | null : FromText .null
  | bool (b : Bool) : FromText (.bool b)
  | f64 (v : Int) : FromText (.f64 v)
  | str (s : String) : FromText (.str s)
  | arr (l : List Json) : (∀ j ∈ l, FromText j) → FromText (.arr l)
  | obj (l : List (String × Json)) : (∀ e ∈ l, FromText e.2) → FromText (.obj l)

/-- `P` holds for a value and all values in it. -/
inductive Throughout (P : Val → Prop) : Val → Prop where
  | num (v : Int) : P (.num v) → Throughout P (.num v)
  | bool (b : Bool) : P (.bool b) → Throughout P (.bool b)
  | str (s : String) : P (.str s) → Throughout P (.str s)
  | arr (l : List Val) : P (.arr l) → (∀ v ∈ l, Throughout P v) → Throughout P (.arr l)
  | obj (l : List (String × Val)) : P (.obj l) → (∀ e ∈ l, Throughout P e.2) → Throughout P (.obj l)

/-- Neither an empty array nor an empty object. -/
def NonEmpty (v : Val) : Prop := v ≠ .arr [] ∧ v ≠ .obj []

/-- Not a boolean. -/
def NoBool (v : Val) : Prop := ∀ b, v ≠ .bool b

/-- If a number, one with `P`. -/
def Num (P : Int → Prop) (v : Val) : Prop := ∀ x, v = .num x → P x

end Spec
end Golisp
