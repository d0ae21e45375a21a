import Verif.Frame
import Verif.Spec
/-
Model of the JSON conversions with frames: `json_frame_support.go`.

`Json` is the `interface{}` tree between the Lisp value and `encoding/json`.  The text of JSON is the business of Go's
`encoding/json`, which is not part of the repository: `reparse` is what writing such a tree as text and reading it back does.
Go's maps are association lists here; iteration goes over them in an arbitrary order `ord`.
-/
namespace Golisp

/-- What `encoding/json` takes and gives.  A float64 (always finite in JSON) is its exact value in units of 2^-1074; the
negative zero is not distinguished. -/
inductive Json where
  | null
  | bool (b : Bool)
  | int (n : BitVec 64)
  | f32 (b : BitVec 32)
  | f64 (v : Int)
  | str (s : String)
  | arr (l : List Json)
  | obj (l : List (String × Json))

namespace Json
open Data

/-- The unit of float64 values in 1: the value 1 is `one`. -/
def one : Int := 2 ^ 1074

/-- Iteration order of a map. -/
abbrev Order := ∀ {α : Type}, List (String × α) → List (String × α)

/-- Apply to all elements, in order. -/
def mapOut {α β : Type} (f : α → Out β) : List α → Out (List β)
  | [] => .ok []
  | a :: l =>
    match f a with
    | .ok b =>
      match mapOut f l with
      | .ok bs => .ok (b :: bs)
      | .err e => .err e
      | .panic => .panic
      | .timeout => .timeout
    | .err e => .err e
    | .panic => .panic
    | .timeout => .timeout

/-- `strings.TrimRight(k, ":")`: all colons at the end go. -/
def trimColons (k : String) : String := String.ofList (k.toList.reverse.dropWhile (· = ':')).reverse

/-- Store all entries in a new map. -/
def mapOf {α : Type} (l : List (String × α)) : List (String × α) := l.foldl (fun m e => alSet m e.1 e.2) []

/-- The entry for a slot. -/
def keyed (k : String) : Out Json → Out (String × Json)
  | .ok j => .ok (trimColons k, j)
  | .err e => .err e
  | .panic => .panic
  | .timeout => .timeout

/-- `LispWithFramesToJson` (`json_frame_support.go:193-246`) with recursion depth at most `n`; there is no limit in the code,
and on a frame that contains itself it never ends. -/
def ofLispN (F : Frames) (ord : Order) : Nat → Data → Out Json
  | 0, _ => .timeout
  | _ + 1, .null => .ok (.str "")
  | _ + 1, .atom (.int n) => .ok (.int n)
  | _ + 1, .atom (.flt b) => .ok (.f32 b)
  | _ + 1, .atom (.str s) => .ok (.str s)
  | _ + 1, .atom (.sym s) => .ok (.str s)
  | _ + 1, .atom (.bool b) => .ok (.bool b)
  | n + 1, .cell .cons a d =>
    match mapOut (ofLispN F ord n) (toArray (.cell .cons a d)) with
    | .ok l => .ok (.arr l)
    | .err e => .err e
    | .panic => .panic
    | .timeout => .timeout
  | _ + 1, .atom (.bytes bs) => .ok (.arr (bs.map fun b => .f64 (b.toNat * one)))
  | n + 1, .atom (.frame i) =>
    match mapOut (fun e : String × Data => keyed e.1 (ofLispN F ord n e.2)) ((ord (Frame.get? F i)).filter fun e => !isFunc e.2) with
    | .ok l => .ok (.obj (mapOf l))
    | .err e => .err e
    | .panic => .panic
    | .timeout => .timeout
  | _ + 1, _ => .ok (.str "")

/-- A float64 value in Lisp (`json_frame_support.go:153-159`): an integer if it is one, else a float32. `int64(x)` of a number
out of range is the smallest integer (amd64). -/
def number (v : Int) : Data :=
  if v % one = 0 then
    (if -2 ^ 63 ≤ v / one ∧ v / one < 2 ^ 63 then .int (BitVec.ofInt 64 (v / one)) else .int (BitVec.ofNat 64 (2 ^ 63)))
  else .flt (F32.ofScaled 925 false v)

mutual
/-- `jsonToLispWithFramesReflect` (`json_frame_support.go:112-168`) on what `encoding/json` gives and on the trees above; the
second component is the table of frames, to which the new ones are added. -/
def toLisp (ord : Order) : Json → Frames → Data × Frames
  | .null, F => (.null, F)
  | .bool b, F => (.bool b, F)
  | .int n, F => (.int n, F)
  | .f32 b, F => (if F32.isNaN b || F32.isInf b then .flt b else number (F32.value b * 2 ^ 925), F)
  | .f64 v, F => (number v, F)
  | .str s, F => (.str s, F)
  | .arr l, F =>
    if l.isEmpty then (.emptyCons, F)
    else
      let r := toLispList ord l F
      (reverse (r.1.foldl (fun acc d => .cons d acc) .null), r.2)
  | .obj l, F =>
    let r := toLispFields ord l F
    (.atom (.frame r.2.length), r.2 ++ [mapOf (ord r.1)])

def toLispList (ord : Order) : List Json → Frames → List Data × Frames
  | [], F => ([], F)
  | j :: l, F =>
    let r := toLisp ord j F
    let r' := toLispList ord l r.2
    (r.1 :: r'.1, r'.2)

/-- The entries for the new frame: `fmt.Sprintf("%s:", key)`. -/
def toLispFields (ord : Order) : List (String × Json) → Frames → List (String × Data) × Frames
  | [], F => ([], F)
  | (k, j) :: l, F =>
    let r := toLisp ord j F
    let r' := toLispFields ord l r.2
    ((k ++ ":", r.1) :: r'.1, r'.2)
end

/-- `JsonStringToLispWithFrames` (`json_frame_support.go:178-190`) on a text that is JSON: `reflect.ValueOf(nil).Type()` panics
for the document `null`. -/
def ofText (ord : Order) (j : Json) (F : Frames) : Out Data × Frames :=
  match j with
  | .null => (.panic, F)
  | j => (.ok (toLisp ord j F).1, (toLisp ord j F).2)

/-- The double nearest to the integer `n` (ties to even), in units of 2^-1074. -/
def double (n : Int) : Int :=
  let N := n.natAbs
  let k := N.log2 - 52
  let m := (N / 2 ^ k + F32.up k N) * 2 ^ k
  (if n < 0 then -(m : Int) else m) * one

mutual
/-- Writing as JSON text and reading it back with `json.Unmarshal`: numbers become float64.  `dec b` is the double nearest to
the shortest decimal for the float32 `b`. -/
def reparse (dec : BitVec 32 → Int) : Json → Json
  | .null => .null
  | .bool b => .bool b
  | .int n => .f64 (double n.toInt)
  | .f32 b => .f64 (dec b)
  | .f64 v => .f64 v
  | .str s => .str s
  | .arr l => .arr (reparseList dec l)
  | .obj l => .obj (reparseFields dec l)

def reparseList (dec : BitVec 32 → Int) : List Json → List Json
  | [] => []
  | j :: l => reparse dec j :: reparseList dec l

def reparseFields (dec : BitVec 32 → Int) : List (String × Json) → List (String × Json)
  | [] => []
  | (k, j) :: l => (k, reparse dec j) :: reparseFields dec l
end

end Json

namespace Spec
open Data

/-- Abstract values: numbers in units of 2^-1074. -/
inductive Val where
  | num (v : Int)
  | bool (b : Bool)
  | str (s : String)
  | arr (l : List Val)
  | obj (l : List (String × Val))

/-- Related element by element. -/
inductive All2 {α β : Type} (R : α → β → Prop) : List α → List β → Prop where
  | nil : All2 R [] []
  | cons {a b l m} : R a b → All2 R l m → All2 R (a :: l) (b :: m)

/-- The numbers a float32 has, in units of 2^-1074. -/
def f32Val (b : BitVec 32) : Int := F32.value b * 2 ^ 925

/-- A Lisp value made of numbers, booleans, strings, lists and frames, and what it stands for.  The slots of a frame are the
keys with a colon appended, in any order.  Floats
are allowed if `fl` holds. -/
inductive StandsFor (fl : Prop) (F : Frames) : Data → Val → Prop where
  | int (n : BitVec 64) : StandsFor fl F (.int n) (.num (n.toInt * 2 ^ 1074))
  | flt (b : BitVec 32) : fl → F32.mag b < F32.infMag → StandsFor fl F (.flt b) (.num (f32Val b))
  | bool (b : Bool) : StandsFor fl F (.bool b) (.bool b)
  | str (s : String) : StandsFor fl F (.str s) (.str s)
  | arr (a d : Data) (ds : List Data) (vs : List Val) : Lst (.cons a d) ds → All2 (StandsFor fl F) ds vs →
      StandsFor fl F (.cons a d) (.arr vs)
  | frame (i : Nat) (fs fs' : List (String × Val)) : i < F.length → fs'.Perm fs → (fs.map (·.1)).Nodup →
      (∀ e ∈ fs, ∀ k, e.1 ≠ k ++ ":") →
      (Frame.get? F i).map (·.1) = fs'.map (fun e => e.1 ++ ":") →
      All2 (StandsFor fl F) ((Frame.get? F i).map (·.2)) (fs'.map (·.2)) → StandsFor fl F (.atom (.frame i)) (.obj fs)

/-- What a JSON tree stands for. -/
inductive Represents (fl : Prop) : Json → Val → Prop where
  | int (n : BitVec 64) : Represents fl (.int n) (.num (n.toInt * 2 ^ 1074))
  | f32 (b : BitVec 32) : fl → F32.mag b < F32.infMag → Represents fl (.f32 b) (.num (f32Val b))
  | f64 (v : Int) : Represents fl (.f64 v) (.num v)
  | bool (b : Bool) : Represents fl (.bool b) (.bool b)
  | str (s : String) : Represents fl (.str s) (.str s)
  | arr (l : List Json) (vs : List Val) : All2 (Represents fl) l vs → Represents fl (.arr l) (.arr vs)
  | obj (l : List (String × Json)) (fs fs' : List (String × Val)) : fs'.Perm fs → (fs.map (·.1)).Nodup →
      (∀ e ∈ fs, ∀ k, e.1 ≠ k ++ ":") → l.map (·.1) = fs'.map (·.1) → All2 (Represents fl) (l.map (·.2)) (fs'.map (·.2)) →
      Represents fl (.obj l) (.obj fs)

/-- All numbers in a value satisfy `P`. -/
inductive Numbers (P : Int → Prop) : Val → Prop where
  | num (v : Int) : P v → Numbers P (.num v)
  | bool (b : Bool) : Numbers P (.bool b)
  | str (s : String) : Numbers P (.str s)
  | arr (l : List Val) : (∀ v ∈ l, Numbers P v) → Numbers P (.arr l)
  | obj (l : List (String × Val)) : (∀ e ∈ l, Numbers P e.2) → Numbers P (.obj l)

/-- Numbers that Lisp has, as an int64 if they are integers, else as a float32. -/
def LispNumber (fl : Prop) (v : Int) : Prop :=
  (∃ n : Int, v = n * 2 ^ 1074 ∧ -2 ^ 63 ≤ n ∧ n < 2 ^ 63) ∨
  (fl ∧ (∀ n : Int, v ≠ n * 2 ^ 1074) ∧ ∃ b : BitVec 32, F32.mag b < F32.infMag ∧ v = f32Val b)

/-- Integers that float64 has exactly, all of them up to 2^53. -/
def SmallInteger (v : Int) : Prop := ∃ n : Int, v = n * 2 ^ 1074 ∧ n.natAbs ≤ 2 ^ 53

/-- Map iteration takes every entry once, in any order. -/
def Permutes (ord : Json.Order) : Prop := ∀ {α : Type} (l : List (String × α)), (ord l).Perm l

end Spec
end Golisp
