import Verif.Data
/-
Model of the list primitives: `prim_list_manipulation.go`, `prim_list_functions.go`, `prim_list_set.go`,
`prim_list_access.go`, `prim_alist.go`.

Fixed-arity primitives take their (already evaluated) arguments as separate Lean arguments; the argument-count
check is modelled in `Verif.Arity`.  A procedure argument is an arbitrary action `Data → M σ Data` (from the argument list, as passed to `ApplyWithoutEval`) on an
arbitrary state, so it may have effects, fail, panic or run out of fuel.
-/
namespace Golisp

/-- Error values.  `msg` is the text passed to `errors.New`/`ProcessError`; the two wrappers are those of
`data.go:1175` ("Evaling ...") and `function.go:140` ("In 'name': ..."). -/
inductive Err where
  | msg (s : String)
  | evaling (d : Data) (e : Err)
  | inFn (name : String) (e : Err)
deriving DecidableEq, Repr

/-- Outcome of a Go call returning `(result, error)`: a value, an error, a run-time panic, or (only in the fuel
evaluator) no result within the given depth. -/
inductive Out (α : Type _) where
  | ok (a : α)
  | err (e : Err)
  | panic
  | timeout
deriving DecidableEq, Repr

/-- Stateful computation. -/
abbrev M (σ : Type _) (α : Type _) := σ → Out α × σ

namespace M
variable {σ α β : Type _}
def pure (a : α) : M σ α := fun s => (.ok a, s)
def fail (m : String) : M σ α := fun s => (.err (.msg m), s)
/-- Sequencing: anything but `ok` ends the computation, keeping the state reached. -/
def bind (m : M σ α) (f : α → M σ β) : M σ β := fun s =>
  match m s with
  | (.ok a, s') => f a s'
  | (.err e, s') => (.err e, s')
  | (.panic, s') => (.panic, s')
  | (.timeout, s') => (.timeout, s')
end M

namespace Prim
open Data

/-! ### prim_list_manipulation.go -/

/-- `make-list` (`prim_list_manipulation.go:31-58`); `el` is nil when not supplied.  Go panics when the
requested capacity is too large for `make`; not modelled. -/
def makeList (k : Data) (el : Data) : Out Data :=
  match k with
  | .int n =>
    if n.toInt < 0 then .err (.msg "make-list requires a non-negative integer as it's first argument.")
    else .ok (ofArray (List.replicate n.toInt.toNat el))
  | _ => .err (.msg "make-list requires a integer as it's first argument.")

/-- `append` (`prim_list_manipulation.go:116-137`): list arguments contribute their elements, any other
argument contributes itself.  `args` are the evaluated arguments; with none the result is nil. -/
def appendImpl (args : List Data) : Data :=
  match args with
  | [] => null
  | args => ofArray (args.flatMap fun item => if isListP item then toArray item else [item])

/-- `cons*` (`prim_list_manipulation.go:64-68`), at least one argument. -/
def consStar (args : List Data) : Out Data :=
  match args.getLast? with
  | none => .panic
  | some t => .ok (listWithTail args.dropLast t)

/-- Loop of `partitionBySize` (`prim_list_manipulation.go:152-163`): `chunk` is the chunk being filled. -/
def partLoop (size : Nat) : List Data → List Data → List Data
  | [], chunk => if chunk.length > 0 then [ofArray chunk] else []
  | x :: xs, chunk =>
    if chunk.length < size then partLoop size xs (chunk ++ [x])
    else ofArray chunk :: partLoop size xs [x]

/-- `partitionBySize` (`prim_list_manipulation.go:143-165`). -/
def partitionBySize (n : BitVec 64) (l : Data) : Out Data :=
  if n.toInt < 1 then .err (.msg "partition requires a non negative clump size.")
  else .ok (ofArray (partLoop n.toInt.toNat (toArray l) []))

variable {σ : Type}

/-- Loop of `partitionByPredicate` (`prim_list_manipulation.go:172-182`). -/
def partPredLoop (f : Data → M σ Data) : List Data → List Data → List Data → M σ (List Data × List Data)
  | [], ts, fs => M.pure (ts, fs)
  | x :: xs, ts, fs =>
    M.bind (f (ofArray [x])) fun r =>
      if boolValue r then partPredLoop f xs (ts ++ [x]) fs else partPredLoop f xs ts (fs ++ [x])

/-- `partitionByPredicate` (`prim_list_manipulation.go:167-188`). -/
def partitionByPredicate (f : Data → M σ Data) (l : Data) : M σ Data :=
  M.bind (partPredLoop f (toArray l) [] []) fun (ts, fs) => M.pure (ofArray [ofArray ts, ofArray fs])

/-- Loop `for i, cell := 0, l; i < size && NotNilP(cell)` of take/list-head (`prim_list_access.go:280,361`)
and of the second loop of sublist (`prim_list_manipulation.go:251`). -/
def takeLoop : Nat → Data → List Data
  | 0, _ => []
  | _ + 1, null => []
  | n + 1, cell k a d => if isNil (cell k a d) then [] else a :: takeLoop n d
  | _ + 1, atom _ => [null]

/-- Loop of drop/list-tail/sublist (`prim_list_access.go:315,383`, `prim_list_manipulation.go:247`). -/
def dropLoop : Nat → Data → Data
  | 0, c => c
  | _ + 1, null => null
  | n + 1, cell k a d => if isNil (cell k a d) then cell k a d else dropLoop n d
  | _ + 1, atom _ => null

/-- `sublist` (`prim_list_manipulation.go:210-256`). -/
def sublist (l n m : Data) : Out Data :=
  if !isListP l then .err (.msg "sublist requires a list as it's first argument.")
  else match n with
  | .int first =>
    if first.toInt ≤ 0 then .err (.msg "sublist requires positive indecies.")
    else match m with
    | .int last =>
      if last.toInt ≤ 0 then .err (.msg "sublist requires positive indecies.")
      else if first.toInt ≥ last.toInt then .ok null
      else
        -- two loops, lines 247 and 251: skip while i < first, then collect while i < last
        let cell := dropLoop (first.toInt.toNat - 1) l
        .ok (ofArray (takeLoop (last.toInt.toNat - first.toInt.toNat) cell))
    | _ => .err (.msg "sublist requires a number as it's third argument (end).")
  | _ => .err (.msg "sublist requires a number as it's second argument (start).")

/-! ### prim_list_access.go -/

/-- `nth` (`prim_list_access.go:255-268`). -/
def nthImpl (col count : Data) : Out Data :=
  if !isPair col then .err (.msg "First arg to nth must be a list")
  else match count with
  | .int n => .ok (nth col n.toInt)
  | _ => .err (.msg "Second arg to nth must be a number")

/-- `list-ref` (`prim_list_access.go:336-349`); `int(...)+1` wraps at the largest integer. -/
def listRef (col count : Data) : Out Data :=
  if !isPair col then .err (.msg "First arg to list-ref must be a list")
  else match count with
  | .int n => .ok (nth col (n + 1).toInt)
  | _ => .err (.msg "Second arg to list-ref must be a number")

/-- `take` (`prim_list_access.go:270-301`).  A non-integer count sets `err` but the function goes on and
returns both; the caller sees the error.  On byte arrays a negative count is a slice-bounds panic. -/
def take (n l : Data) : Out Data :=
  match n with
  | .int k =>
    if isListP l then .ok (ofArray (takeLoop k.toInt.toNat l))
    else match l with
    | .bytes bs =>
      if k.toInt ≥ bs.length then .ok (.bytes bs)
      else if k.toInt < 0 then .panic
      else .ok (.bytes (bs.take k.toInt.toNat))
    | _ => .err (.msg "take requires a list or bytearray as its second argument.")
  | _ => .err (.msg "take requires a number as its first argument.")

/-- `drop` (`prim_list_access.go:303-334`). -/
def drop (n l : Data) : Out Data :=
  match n with
  | .int k =>
    if isListP l then .ok (dropLoop k.toInt.toNat l)
    else match l with
    | .bytes bs =>
      if k.toInt ≥ bs.length then .ok (.bytes [])
      else if k.toInt < 0 then .panic
      else .ok (.bytes (bs.drop k.toInt.toNat))
    | _ => .err (.msg "drop requires a list or bytearray as its second argument.")
  | _ => .err (.msg "drop requires a number as its first argument.")

/-- `list-head` (`prim_list_access.go:351-369`). -/
def listHead (l n : Data) : Out Data :=
  match n with
  | .int k =>
    if isListP l then .ok (ofArray (takeLoop k.toInt.toNat l))
    else .err (.msg "list-head requires a list as its first argument.")
  | _ => .err (.msg "list-head requires a number as its second argument.")

/-- `list-tail` (`prim_list_access.go:371-390`). -/
def listTail (l n : Data) : Out Data :=
  match n with
  | .int k =>
    if isListP l then .ok (dropLoop k.toInt.toNat l)
    else .err (.msg "list-tail requires a list or bytearray as its first argument.")
  | _ => .err (.msg "list-tail requires a number as its second argument.")

/-- Loop of `last-pair` (`prim_list_access.go:406`). -/
def lastPairLoop : Data → Data
  | null => null
  | atom a => atom a
  | cell k a d => if !isNil d && isPair d then lastPairLoop d else cell k a d

/-- `last-pair` (`prim_list_access.go:392-410`). -/
def lastPair (l : Data) : Out Data :=
  if isNil l then .err (.msg "last-pair requires a non-empty list as its argument.")
  else if !isListP l then .err (.msg "last-pair requires a list as its argument.")
  else .ok (lastPairLoop l)

/-- Loop of `general-car-cdr` (`prim_list_access.go:203-211`), with fuel: `path >> 1` is an arithmetic shift,
so a negative path never reaches 1. -/
def gcdLoop : Nat → BitVec 64 → Data → Out Data
  | 0, _, _ => .timeout
  | n + 1, path, l =>
    if path = 1#64 then .ok l
    else gcdLoop n (path.sshiftRight 1) (if path &&& 1#64 = 0#64 then cdr l else car l)

/-- `general-car-cdr` (`prim_list_access.go:196-213`) with an iteration bound. -/
def generalCarCdr (fuel : Nat) (l path : Data) : Out Data :=
  if intValue path = 0#64 then .err (.msg "general-car-cdr requires a non-zero path specifier")
  else gcdLoop fuel (intValue path) l

/-! ### prim_list_functions.go -/

/-- Collection phase shared by map/for-each/any/every (`prim_list_functions.go:50-64,97-108,138-149,184-195`):
checks that every argument is a list. -/
def allLists : List Data → Bool
  | [] => true
  | c :: cs => isListP c && allLists cs

/-- Minimum of the lengths; `none` when there is no list (`loopCount == math.MaxInt64`). -/
def minLen : List Data → Option Nat
  | [] => none
  | c :: cs => match minLen cs with
    | none => some (length c)
    | some n => some (min (length c) n)

/-- The index loop of `map` (`prim_list_functions.go:73-85`): each iteration takes the car of every
collection, replaces every collection by its cdr, and calls `f` with those cars (`ArrayToList`, so nil elements
become `EmptyCons`). -/
def mapLoop (f : Data → M σ Data) : Nat → List Data → M σ (List Data)
  | 0, _ => M.pure []
  | n + 1, cols =>
    M.bind (f (ofArray (cols.map car))) fun v =>
    M.bind (mapLoop f n (cols.map cdr)) fun vs => M.pure (v :: vs)

/-- Argument scan of `map` (`prim_list_functions.go:53-64`): left to right; a non-list is an error, an empty
list returns nil at once (even if a later argument is not a list). -/
def mapScan : List Data → Option (Out Data)
  | [] => none
  | c :: cs =>
    if !isListP c then some (.err (.msg "map needs lists as its other arguments"))
    else if isNil c then some (.ok null)
    else mapScan cs

/-- `map` (`prim_list_functions.go:43-88`). -/
def mapImpl (f : Data → M σ Data) (cols : List Data) : M σ Data := fun s =>
  match mapScan cols with
  | some r => (r, s)
  | none => match minLen cols with
    | none => (.ok null, s)
    | some n => M.bind (mapLoop f n cols) (fun vs => M.pure (ofArray vs)) s

/-- `for-each` (`prim_list_functions.go:90-129`). -/
def forEachLoop (f : Data → M σ Data) : Nat → List Data → M σ Unit
  | 0, _ => M.pure ()
  | n + 1, cols =>
    M.bind (f (ofArray (cols.map car))) fun _ => forEachLoop f n (cols.map cdr)

def forEachImpl (f : Data → M σ Data) (cols : List Data) : M σ Data :=
  if !allLists cols then M.fail "foreach needs lists as its other arguments"
  else match minLen cols with
    | none => M.pure null
    | some n => M.bind (forEachLoop f n cols) fun _ => M.pure null

/-- Index loop of `any` (`prim_list_functions.go:157-174`). -/
def anyLoop (f : Data → M σ Data) : Nat → List Data → M σ Data
  | 0, _ => M.pure (.bool false)
  | n + 1, cols =>
    M.bind (f (ofArray (cols.map car))) fun b =>
      if boolValue b then M.pure (.bool true) else anyLoop f n (cols.map cdr)

/-- `any` (`prim_list_functions.go:131-175`). -/
def anyImpl (f : Data → M σ Data) (cols : List Data) : M σ Data :=
  if !allLists cols then M.fail "any needs lists as its other arguments"
  else match minLen cols with
    | none => M.pure null
    | some n => anyLoop f n cols

/-- Index loop of `every` (`prim_list_functions.go:203-220`). -/
def everyLoop (f : Data → M σ Data) : Nat → List Data → M σ Data
  | 0, _ => M.pure (.bool true)
  | n + 1, cols =>
    M.bind (f (ofArray (cols.map car))) fun b =>
      if !boolValue b then M.pure (.bool false) else everyLoop f n (cols.map cdr)

/-- `every` (`prim_list_functions.go:177-221`). -/
def everyImpl (f : Data → M σ Data) (cols : List Data) : M σ Data :=
  if !allLists cols then M.fail "every needs lists as its other arguments"
  else match minLen cols with
    | none => M.pure null
    | some n => everyLoop f n cols

/-- `reduceFoldProc` (`prim_list_functions.go:223-245`): `i` counts up, and is mirrored to `len-1-i` when going
right to left; the arguments pass through `InternalMakeList`. -/
def reduceFold (f : Data → M σ Data) (col : List Data) (rtl : Bool) : List Nat → Data → M σ Data
  | [], acc => M.pure acc
  | i :: is, acc =>
    let c := (col[if rtl then col.length - 1 - i else i]?).getD null
    M.bind (f (ofArray (if rtl then [c, acc] else [acc, c]))) fun r =>
      reduceFold f col rtl is r

/-- `for i := range col` order of iteration. -/
def reduceFoldProc (init : Data) (col : List Data) (f : Data → M σ Data) (rtl : Bool) : M σ Data :=
  reduceFold f col rtl (List.range col.length) init

/-- `reduce`, `reduce-left` (`prim_list_functions.go:247-270`). -/
def reduceLeft (f : Data → M σ Data) (init col : Data) : M σ Data :=
  if !isListP col then M.fail "reduce-left needs a list as its third argument"
  else match toArray col with
    | [] => M.pure init
    | x :: xs => reduceFoldProc x xs f false

/-- `reduce-right` (`prim_list_functions.go:272-295`). -/
def reduceRight (f : Data → M σ Data) (init col : Data) : M σ Data :=
  if !isListP col then M.fail "reduce-right needs a list as its third argument"
  else match (toArray col).getLast? with
    | none => M.pure init
    | some x => reduceFoldProc x (toArray col).dropLast f true

/-- `fold-left` (`prim_list_functions.go:297-317`). -/
def foldLeft (f : Data → M σ Data) (init col : Data) : M σ Data :=
  if !isListP col then M.fail "fold-left needs a list as its third argument"
  else reduceFoldProc init (toArray col) f false

/-- `fold-right` (`prim_list_functions.go:319-339`). -/
def foldRight (f : Data → M σ Data) (init col : Data) : M σ Data :=
  if !isListP col then M.fail "fold-right needs a list as its third argument"
  else reduceFoldProc init (toArray col) f true

/-- Loop of filter/remove (`prim_list_functions.go:356-369,389-402`); `want` is the boolean kept.
The argument list is `Cons(Car(c), nil)`, which is `NilP` (no argument at all) when the element is nil. -/
def filterLoop (f : Data → M σ Data) (want : Bool) : List Data → M σ (List Data)
  | [] => M.pure []
  | x :: xs =>
    M.bind (f (cons x null)) fun v =>
      match v with
      | .bool b =>
        M.bind (filterLoop f want xs) fun r => M.pure (if b = want then x :: r else r)
      | _ => M.fail "filter needs a predicate function as its first argument."

/-- `filter` (`prim_list_functions.go:341-372`). -/
def filter (f : Data → M σ Data) (col : Data) : M σ Data :=
  if !isListP col then M.fail "filter needs a list as its second argument"
  else M.bind (filterLoop f true (toArray col)) fun r => M.pure (ofArray r)

/-- `remove` (`prim_list_functions.go:374-405`). -/
def remove (f : Data → M σ Data) (col : Data) : M σ Data :=
  if !isListP col then M.fail "remove needs a list as its second argument"
  else M.bind (filterLoop f false (toArray col)) fun r => M.pure (ofArray r)

/-- `memq`, `memv`, `member` (`prim_list_functions.go:407-419`). -/
def memq [FrEq] (key : Data) : Data → Data
  | null => .bool false
  | cell k a d =>
    if isNil (cell k a d) then .bool false
    else if isEqual key a then cell k a d
    else memq key d
  | atom a => if isEqual key null then atom a else .bool false

/-- Loop of find-tail/memp (`prim_list_functions.go:435-447`): an error of `f` leaves `found` nil, so it is
reported as "needs a predicate function" (the original error is replaced). -/
def findTailLoop (f : Data → M σ Data) : Data → M σ Data
  | null => M.pure (.bool false)
  | cell k a d =>
    if isNil (cell k a d) then M.pure (.bool false)
    else fun s =>
      match f (ofArray [a]) s with
      | (.ok (.bool true), s') => (.ok (cell k a d), s')
      | (.ok (.bool false), s') => findTailLoop f d s'
      | (.ok _, s') => (.err (.msg "find-tail needs a predicate function as its first argument."), s')
      | (.err _, s') => (.err (.msg "find-tail needs a predicate function as its first argument."), s')
      | (.panic, s') => (.panic, s')
      | (.timeout, s') => (.timeout, s')
  | atom a => fun s =>
      match f (ofArray [null]) s with
      | (.ok (.bool true), s') => (.ok (atom a), s')
      | (.ok (.bool false), s') => (.ok (.bool false), s')
      | (.ok _, s') => (.err (.msg "find-tail needs a predicate function as its first argument."), s')
      | (.err _, s') => (.err (.msg "find-tail needs a predicate function as its first argument."), s')
      | (.panic, s') => (.panic, s')
      | (.timeout, s') => (.timeout, s')

/-- `find-tail` (`prim_list_functions.go:421-448`). -/
def findTail (f : Data → M σ Data) (l : Data) : M σ Data :=
  if !isListP l then M.fail "find-tail needs a list as its second argument"
  else findTailLoop f l

/-- Loop of `find` (`prim_list_functions.go:464-475`). -/
def findLoop (f : Data → M σ Data) : List Data → M σ Data
  | [] => M.pure (.bool false)
  | x :: xs => fun s =>
      match f (ofArray [x]) s with
      | (.ok (.bool true), s') => (.ok x, s')
      | (.ok (.bool false), s') => findLoop f xs s'
      | (.ok _, s') => (.err (.msg "find needs a predicate function as its first argument."), s')
      | (.err _, s') => (.err (.msg "find needs a predicate function as its first argument."), s')
      | (.panic, s') => (.panic, s')
      | (.timeout, s') => (.timeout, s')

/-- `find` (`prim_list_functions.go:450-476`). -/
def find (f : Data → M σ Data) (l : Data) : M σ Data :=
  if !isListP l then M.fail "find needs a list as its second argument"
  else findLoop f (toArray l)

/-! ### prim_list_set.go -/

/-- `memp` (`prim_list_set.go:20-27`). -/
def memp [FrEq] (i : Data) : Data → Bool
  | null => false
  | cell k a d => if isNil (cell k a d) then false else if isEqual i a then true else memp i d
  | atom _ => isEqual i null

/-- Inner loop of `union` (`prim_list_set.go:37-41`). -/
def unionInner [FrEq] : List Data → Data → Data
  | [], r => r
  | x :: xs, r => unionInner xs (if memp x r then r else append1 r x)

/-- `union` (`prim_list_set.go:29-44`). -/
def unionLoop [FrEq] : List Data → Data → Out Data
  | [], r => .ok r
  | c :: cs, r =>
    if !isListP c then .err (.msg "union needs lists as its arguments")
    else unionLoop cs (unionInner (toArray c) r)

def union [FrEq] (args : List Data) : Out Data := unionLoop args null

/-- Inner loop of intersection/complement (`prim_list_set.go:62-66,88-92`).  The iteration walks the cells of
`result` as it was when the loop began: `RemoveFromListBang` unlinks a cell but never changes an unlinked cell's
own cdr, and only cells at or before the current one are unlinked when equality is an equivalence (see
`Verif.Heap` for the cell-level version).  `drop x` says whether element `x` must go. -/
def removeLoop [FrEq] (dropIt : Data → Bool) : List Data → Data → Data
  | [], r => r
  | x :: xs, r => removeLoop dropIt xs (if dropIt x then removeFirst x r else r)

def setLoop [FrEq] (name : String) (dropIt : Data → Data → Bool) : List Data → Data → Out Data
  | [], r => .ok r
  | c :: cs, r =>
    if !isListP c then .err (.msg (name ++ " needs lists as its arguments"))
    else setLoop name dropIt cs (removeLoop (fun x => dropIt x c) (toArray r) r)

/-- `intersection` (`prim_list_set.go:46-69`); with no argument `Car(args)` is nil and the result is nil. -/
def intersection [FrEq] (args : List Data) : Out Data :=
  match args with
  | [] => .ok null
  | c :: cs =>
    if !isListP c then .err (.msg "intersection needs lists as its arguments")
    else setLoop "intersection" (fun x col => !memp x col) cs (copy c)

/-- `complement` (`prim_list_set.go:71-95`). -/
def complement [FrEq] (args : List Data) : Out Data :=
  match args with
  | [] => .ok null
  | c :: cs =>
    if !isListP c then .err (.msg "complement needs lists as its arguments")
    else setLoop "complement" (fun x col => memp x col) cs (copy c)

/-! ### prim_alist.go -/

/-- `acons` (`prim_alist.go:29-44`). -/
def aconsImpl [FrEq] (key v alist : Data) : Out Data :=
  if isPair key then .err (.msg "Alist key can not be a list")
  else .ok (acons key v alist)

/-- `rassoc` loop (`prim_alist.go:96-107`). -/
def rassoc [FrEq] (value : Data) : Data → Out Data
  | null => .ok null
  | cell k p d =>
    if isNil (cell k p d) then .ok null
    else if !isPair p && !isDotted p then .err (.msg "Assoc list must consist of dotted pairs")
    else if isEqual (cdr p) value then .ok p
    else rassoc value d
  | atom _ => .ok null

/-- Loop of `pairlis` (`prim_alist.go:74-81`): a nil key records an error but the loop goes on. -/
def pairlisLoop [FrEq] : List (Data × Data) → Bool → Data → Out Data
  | [], bad, r => if bad then .err (.msg "Assoc list keys can not be nil") else .ok r
  | (k, v) :: kvs, bad, r => pairlisLoop kvs (bad || isNil k) (acons k v r)

/-- `pairlis` (`prim_alist.go:46-84`); `third` is nil when absent. -/
def pairlis [FrEq] (keys values third : Data) : Out Data :=
  if !isPair keys then .err (.msg "First arg of pairlis must be a list")
  else if !isPair values then .err (.msg "Second arg of Pairlis must be a list")
  else if length keys ≠ length values then .err (.msg "Pairlis requires the same number of keys and values")
  else if !isNil third && !isPair third then
    .err (.msg "Third arg of pairlis must be an association list (if provided)")
  else pairlisLoop ((toArray keys).zip (toArray values)) false third

end Prim
end Golisp
