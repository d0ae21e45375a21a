import Verif.EvalSpec
import Verif.EvalInv
/-
References: functions, macros, frames, environments, atomics and primitives are referred to by index or name.  What it is for all
the references of a value, of the state or of a call to exist, and that the pure parts of the interpreter make no new ones.
-/
namespace Golisp.Spec
open Golisp Data Ev

/-- The object an atom refers to, if it refers to one, exists. -/
def Valid (C : Conf) (s : Store) : Atom → Prop
  | .func i => i < s.fns.length
  | .macro i => i < s.macs.length
  | .frame i => i < s.frames.length
  | .env i => i < s.envs.length
  | .prim x => (C.prims x).isSome = true
  | .obj ty i => ty = "Atomic" → i < s.words.length
  | _ => True

/-- Every reference in a value exists. -/
def Live (C : Conf) (s : Store) : Data → Prop
  | .null => True
  | .cell _ a d => Live C s a ∧ Live C s d
  | .atom a => Valid C s a

/-- The environment exists. -/
def EnvOk (s : Store) (e : Nat) : Prop := e < s.envs.length

/-- Every reference in the state exists, environments are created after the environments around them, and no frame has two
slots of one name. -/
structure Sound (C : Conf) (s : Store) : Prop where
  root : EnvOk s 0
  wf : WF s
  inFrame : ∀ r ∈ s.envs, ∀ i, r.frame = some i → i < s.frames.length
  binds : ∀ r ∈ s.envs, ∀ p ∈ r.binds, Live C s p.2.val
  fns : ∀ f ∈ s.fns, EnvOk s f.env ∧ Live C s f.params ∧ Live C s f.body
  macs : ∀ m ∈ s.macs, EnvOk s m.env ∧ Live C s m.params ∧ Live C s m.body
  slots : ∀ m ∈ s.frames, (∀ p ∈ m, Live C s p.2) ∧ (m.map Prod.fst).Nodup
  tops : ∀ p ∈ s.tops, EnvOk s p.2

/-- Every reference in a call exists. -/
def LiveCall (C : Conf) (s : Store) : Call → Prop
  | .eval _ d e => Live C s d ∧ EnvOk s e
  | .app f args e => Live C s f ∧ Live C s args ∧ EnvOk s e
  | .doLoop b t y r e => Live C s b ∧ Live C s t ∧ Live C s y ∧ Live C s r ∧ EnvOk s e

end Golisp.Spec

namespace Golisp.Ev
open Golisp Data Spec

variable {C : Conf} {s s' : Store}

/-- Nothing has been removed. -/
structure Ext (s s' : Store) : Prop where
  envs : s.envs.length ≤ s'.envs.length
  fns : s.fns.length ≤ s'.fns.length
  macs : s.macs.length ≤ s'.macs.length
  frames : s.frames.length ≤ s'.frames.length
  words : s.words.length ≤ s'.words.length

theorem Ext.refl (s : Store) : Ext s s := ⟨Nat.le_refl _, Nat.le_refl _, Nat.le_refl _, Nat.le_refl _, Nat.le_refl _⟩
theorem Ext.trans {a b c : Store} (h : Ext a b) (h' : Ext b c) : Ext a c :=
  ⟨Nat.le_trans h.1 h'.1, Nat.le_trans h.2 h'.2, Nat.le_trans h.3 h'.3, Nat.le_trans h.4 h'.4, Nat.le_trans h.5 h'.5⟩

/-- All elements. -/
def LiveL (C : Conf) (s : Store) (xs : List Data) : Prop := ∀ x ∈ xs, Live C s x
/-- All slots. -/
def LiveM (C : Conf) (s : Store) (m : FrameMap) : Prop := (∀ p ∈ m, Live C s p.2) ∧ (m.map Prod.fst).Nodup
def FrameOk (s : Store) (i : Nat) : Prop := i < s.frames.length
def FnOk (s : Store) (i : Nat) : Prop := i < s.fns.length
def OptOk (s : Store) (o : Option Nat) : Prop := ∀ i, o = some i → FrameOk s i

theorem _root_.Golisp.Spec.Valid.mono {a : Atom} (h : Ext s s') (ha : Valid C s a) : Valid C s' a := by
  cases a <;> simp only [Valid] at ha ⊢
  · exact Nat.lt_of_lt_of_le ha h.fns
  · exact Nat.lt_of_lt_of_le ha h.macs
  · exact ha
  · exact fun e => Nat.lt_of_lt_of_le (ha e) h.words
  · exact Nat.lt_of_lt_of_le ha h.frames
  · exact Nat.lt_of_lt_of_le ha h.envs
theorem _root_.Golisp.Spec.Live.mono {d : Data} (h : Ext s s') (hd : Live C s d) : Live C s' d := by
  induction d with
  | null => trivial
  | cell k a d iha ihd => exact ⟨iha hd.1, ihd hd.2⟩
  | atom a => exact Valid.mono h hd
theorem LiveL.mono {xs : List Data} (h : Ext s s') (hx : LiveL C s xs) : LiveL C s' xs := fun x hm => Live.mono h (hx x hm)
theorem LiveM.mono {m : FrameMap} (h : Ext s s') (hx : LiveM C s m) : LiveM C s' m := ⟨fun x hm => Live.mono h (hx.1 x hm), hx.2⟩
theorem _root_.Golisp.Spec.EnvOk.mono {e : Nat} (h : Ext s s') (he : EnvOk s e) : EnvOk s' e := Nat.lt_of_lt_of_le he h.envs
theorem FrameOk.mono {e : Nat} (h : Ext s s') (he : FrameOk s e) : FrameOk s' e := Nat.lt_of_lt_of_le he h.frames
theorem FnOk.mono {e : Nat} (h : Ext s s') (he : FnOk s e) : FnOk s' e := Nat.lt_of_lt_of_le he h.fns
theorem OptOk.mono {o : Option Nat} (h : Ext s s') (ho : OptOk s o) : OptOk s' o := fun i hi => (ho i hi).mono h

/-! ### Values made from values -/

section pure
variable {a d x v l m : Data} {xs ys : List Data}

theorem live_null : Live C s .null := trivial
theorem live_empty : Live C s emptyCons := ⟨trivial, trivial⟩
theorem live_cell {k : Kind} (ha : Live C s a) (hd : Live C s d) : Live C s (.cell k a d) := ⟨ha, hd⟩
theorem live_car (h : Live C s d) : Live C s (car d) := by
  cases d with
  | cell => exact h.1
  | _ => trivial
theorem live_cdr (h : Live C s d) : Live C s (cdr d) := by
  cases d with
  | cell => exact h.2
  | _ => trivial
theorem live_int {n : BitVec 64} : Live C s (.int n) := trivial
theorem live_flt {n : BitVec 32} : Live C s (.flt n) := trivial
theorem live_bool {b : Bool} : Live C s (.bool b) := trivial
theorem live_str {x : String} : Live C s (.str x) := trivial
theorem live_sym {x : String} : Live C s (.sym x) := trivial

theorem liveL_nil : LiveL C s [] := nofun
theorem liveL_cons (h : Live C s x) (hs : LiveL C s xs) : LiveL C s (x :: xs) := by
  intro y hy
  rcases List.mem_cons.mp hy with rfl | hy
  · exact h
  · exact hs y hy
theorem LiveL.head (h : LiveL C s (x :: xs)) : Live C s x := h x List.mem_cons_self
theorem LiveL.tail (h : LiveL C s (x :: xs)) : LiveL C s xs := fun y hy => h y (List.mem_cons_of_mem _ hy)
theorem liveL_append (h : LiveL C s xs) (h' : LiveL C s ys) : LiveL C s (xs ++ ys) := by
  intro y hy
  rcases List.mem_append.mp hy with hy | hy
  · exact h y hy
  · exact h' y hy
theorem LiveL.sub (h : LiveL C s ys) (hm : ∀ x ∈ xs, x ∈ ys) : LiveL C s xs := fun x hx => h x (hm x hx)
theorem liveL_dropLast (h : LiveL C s xs) : LiveL C s xs.dropLast := h.sub fun _ hx => List.dropLast_subset _ hx
theorem liveL_headD (h : LiveL C s xs) : Live C s (xs.headD .null) := by
  cases xs with
  | nil => trivial
  | cons x xs => exact h.head
theorem liveL_tail (h : LiveL C s xs) : LiveL C s xs.tail := h.sub fun _ => List.mem_of_mem_tail
theorem liveL_map {f : Data → Data} (h : LiveL C s xs) (hf : ∀ x, Live C s x → Live C s (f x)) : LiveL C s (xs.map f) := by
  intro y hy
  obtain ⟨x, hx, rfl⟩ := List.mem_map.mp hy
  exact hf x (h x hx)
theorem liveL_getD {i : Nat} (h : LiveL C s xs) : Live C s (xs[i]?.getD .null) := by
  cases hx : xs[i]? with
  | none => trivial
  | some x => exact h x (List.mem_of_getElem? hx)
theorem liveL_getLast (h : LiveL C s xs) (hx : xs.getLast? = some x) : Live C s x := h x (List.mem_of_getLast? hx)

theorem live_toArray (h : Live C s d) : LiveL C s (toArray d) := by
  induction d with
  | null => exact liveL_nil
  | cell k a d _ ih =>
    unfold toArray
    split
    · exact liveL_nil
    · exact liveL_cons h.1 (ih h.2)
  | atom a => exact liveL_cons trivial liveL_nil
theorem live_rawArray (h : Live C s d) : LiveL C s (rawArray d) := by
  induction d with
  | null => exact liveL_nil
  | cell k a d _ ih => exact liveL_cons h.1 (ih h.2)
  | atom a => exact liveL_cons trivial liveL_nil
theorem live_noNull (h : Live C s d) : Live C s (noNull d) := by
  cases d with
  | null => exact live_empty
  | _ => exact h
theorem live_listWithTail (h : LiveL C s xs) (hd : Live C s d) : Live C s (listWithTail xs d) := by
  induction xs with
  | nil => exact hd
  | cons x xs ih => exact ⟨live_noNull h.head, ih h.tail⟩
theorem live_ofArray (h : LiveL C s xs) : Live C s (ofArray xs) := by
  cases xs with
  | nil => exact live_empty
  | cons x xs => exact live_listWithTail h trivial
theorem live_revLoop : ∀ {d l : Data}, Live C s d → Live C s l → Live C s (revLoop d l) := by
  intro d
  induction d with
  | null => exact fun _ h => h
  | cell k a d _ ih =>
    intro l h hl
    unfold revLoop
    split
    · exact hl
    · exact ih h.2 ⟨h.1, hl⟩
  | atom a => exact fun _ hl => ⟨trivial, hl⟩
theorem live_reverse (h : Live C s d) : Live C s (reverse d) := by
  unfold reverse
  repeat' split
  · trivial
  · exact h
  · exact live_revLoop h trivial
theorem live_flattenLoop (h : Live C s d) : LiveL C s (flattenLoop d) := by
  induction d with
  | null => exact liveL_nil
  | cell k a d _ ih =>
    unfold flattenLoop
    split
    · exact liveL_nil
    · refine liveL_append ?_ (ih h.2)
      split
      · exact live_rawArray h.1
      · exact liveL_cons h.1 liveL_nil
  | atom a => exact liveL_nil
theorem live_flatten (h : Live C s d) : Live C s (flatten d) := by
  unfold flatten
  repeat' split
  · trivial
  · exact h
  · exact live_ofArray (live_flattenLoop h)
theorem live_rflattenLoop (h : Live C s d) : LiveL C s (rflattenLoop d) := by
  induction d with
  | null => exact liveL_nil
  | cell k a d iha ih =>
    unfold rflattenLoop
    split
    · exact liveL_nil
    · refine liveL_append ?_ (ih h.2)
      split
      · exact liveL_nil
      · exact live_rawArray (live_ofArray (iha h.1))
      · exact live_rawArray (live_ofArray (iha h.1))
      · exact liveL_cons h.1 liveL_nil
  | atom a => exact liveL_nil
theorem live_rflatten (h : Live C s d) : Live C s (rflatten d) := by
  unfold rflatten
  repeat' split
  · trivial
  · exact h
  · exact live_ofArray (live_rflattenLoop h)
theorem live_quoteIt (h : Live C s d) : Live C s (quoteIt d) := by
  refine live_ofArray (liveL_cons trivial (liveL_cons ?_ liveL_nil))
  split
  · exact live_empty
  · exact h
theorem live_quoteAll (h : Live C s d) : Live C s (quoteAll d) := by
  unfold quoteAll
  split
  · exact live_ofArray (liveL_cons (live_quoteIt trivial) liveL_nil)
  · exact live_ofArray (liveL_map (live_rawArray h) fun _ => live_quoteIt)
theorem live_walkRev (ps : List Char) : ∀ {d : Data}, Live C s d → Live C s (walkRev ps d) := by
  induction ps with
  | nil => exact fun h => h
  | cons p ps ih =>
    intro d h
    unfold walkRev
    split
    · trivial
    · split
      · trivial
      · refine ih ?_
        repeat' split
        · exact live_car h
        · exact live_cdr h
        · trivial
theorem live_walkList {p : List Char} (h : Live C s d) : Live C s (walkList d p) := live_walkRev _ h
theorem live_cdrN (k : Nat) : ∀ {d : Data}, Live C s d → Live C s (cdrN k d) := by
  induction k with
  | zero => exact fun h => h
  | succ k ih => exact fun h => ih (live_cdr h)
theorem live_nth {n : Int} (h : Live C s d) : Live C s (nth d n) := by
  unfold nth
  split
  · trivial
  · exact live_car (live_cdrN _ h)

/-! Association lists -/

theorem live_assocLoop {eq : Data → Data → Bool} (h : Live C s d) {p : Data} (hp : assocLoop eq x d = .ok p) : Live C s p := by
  induction d with
  | null => cases hp; trivial
  | cell k a d _ ih =>
    unfold assocLoop at hp
    repeat' split at hp
    · cases hp; trivial
    · cases hp
    · cases hp; exact h.1
    · exact ih h.2 hp
  | atom a =>
    unfold assocLoop at hp
    split at hp <;> (cases hp; trivial)
theorem live_setPair {eq : Data → Data → Bool} (h : Live C s d) (hv : Live C s v) : Live C s (setPair eq x v d) := by
  induction d with
  | null => trivial
  | cell k a d _ ih =>
    unfold setPair
    split
    · exact h
    · split
      · exact h
      · split
        · split
          · exact ⟨⟨h.1.1, hv⟩, h.2⟩
          · exact h
        · exact ⟨h.1, ih h.2⟩
  | atom a => exact h
theorem live_acons [FrEq] (hx : Live C s x) (hv : Live C s v) (hl : Live C s l) : Live C s (acons x v l) := by
  unfold acons
  split
  · exact ⟨⟨hx, hv⟩, hl⟩
  · split
    · exact ⟨⟨hx, hv⟩, hl⟩
    · exact live_setPair hl hv
theorem live_dissocLoop [FrEq] : ∀ {d l : Data}, Live C s d → Live C s l → ∀ {p : Data}, dissocLoop x d l = .ok p → Live C s p := by
  intro d
  induction d with
  | null => intro l _ hl p hp; cases hp; exact hl
  | cell k a d _ ih =>
    intro l h hl p hp
    unfold dissocLoop at hp
    repeat' split at hp
    · cases hp; exact hl
    · cases hp
    · exact ih h.2 (live_acons (live_car h.1) (live_cdr h.1) hl) hp
    · exact ih h.2 hl hp
  | atom a =>
    intro l h hl p hp
    unfold dissocLoop at hp
    split at hp
    · cases hp; exact live_acons trivial trivial hl
    · cases hp; exact hl
theorem live_mkAlist [FrEq] (h : Live C s d) : Live C s (mkAlist d) := by
  induction d with
  | null => trivial
  | cell k a d _ ih =>
    cases k <;> unfold mkAlist <;> split
    · trivial
    · exact live_acons (live_car h.1) (live_cdr h.1) (ih h.2)
    · trivial
    · exact h
    · trivial
    · exact h
  | atom a => exact h

/-! Copies -/

private theorem copy_aux [FrEq] (n : Nat) : ∀ d : Data, size d ≤ n → Live C s d → Live C s (copy d) ∧
    (∀ acc, Live C s acc → Live C s (copyAlist d acc)) ∧ Live C s (copyCar d) ∧ Live C s (copyCdr d) := by
  induction n with
  | zero => intro d hd; cases d <;> simp [size] at hd
  | succ n ih =>
    intro d hd h
    cases d with
    | null => exact ⟨trivial, fun _ h => h, trivial, trivial⟩
    | atom a => exact ⟨h, fun acc hacc => live_acons trivial trivial hacc, trivial, trivial⟩
    | cell k a d =>
      have ha := ih a (by simp only [size] at hd; omega) h.1
      have hd' := ih d (by simp only [size] at hd; omega) h.2
      refine ⟨?_, fun acc hacc => ?_, ?_, ?_⟩
      · cases k with
        | cons =>
          unfold copy
          split
          · exact h
          · exact ⟨ha.1, hd'.1⟩
        | alist =>
          unfold copy
          exact hd'.2.1 _ (live_acons ha.2.2.1 ha.2.2.2 trivial)
        | acell => unfold copy; exact h
      · unfold copyAlist
        split
        · exact hacc
        · exact hd'.2.1 _ (live_acons ha.2.2.1 ha.2.2.2 hacc)
      · unfold copyCar; exact ha.1
      · unfold copyCdr; exact hd'.1
theorem live_copy [FrEq] (h : Live C s d) : Live C s (copy d) := (copy_aux _ d (Nat.le_refl _) h).1

theorem live_setLastCdr (h : Live C s d) (hv : Live C s v) : Live C s (setLastCdr v d) := by
  induction d with
  | null => trivial
  | cell k a d _ ih =>
    unfold setLastCdr
    split
    · exact ⟨h.1, hv⟩
    · split
      · exact h
      · exact ⟨h.1, ih h.2⟩
  | atom a => exact h
theorem live_append1 [FrEq] (h : Live C s l) (hv : Live C s v) : Live C s (append1 l v) := by
  unfold append1
  split
  · exact ⟨hv, trivial⟩
  · exact live_setLastCdr (live_copy h) ⟨hv, trivial⟩
theorem live_removeFirst [FrEq] (h : Live C s d) : Live C s (removeFirst x d) := by
  induction d with
  | null => trivial
  | cell k a d _ ih =>
    unfold removeFirst
    repeat' split
    · exact h
    · exact h.2
    · exact ⟨h.1, ih h.2⟩
  | atom a =>
    unfold removeFirst
    split
    · trivial
    · exact h

/-! The list primitives -/

open Prim

theorem live_takeLoop (n : Nat) : ∀ {d : Data}, Live C s d → LiveL C s (takeLoop n d) := by
  induction n with
  | zero => exact fun _ => liveL_nil
  | succ n ih =>
    intro d h
    cases d with
    | null => exact liveL_nil
    | atom a => exact liveL_cons trivial liveL_nil
    | cell k a d =>
      unfold takeLoop
      split
      · exact liveL_nil
      · exact liveL_cons h.1 (ih h.2)
theorem live_dropLoop (n : Nat) : ∀ {d : Data}, Live C s d → Live C s (dropLoop n d) := by
  induction n with
  | zero => exact fun h => h
  | succ n ih =>
    intro d h
    cases d with
    | null => trivial
    | atom a => trivial
    | cell k a d =>
      unfold dropLoop
      split
      · exact h
      · exact ih h.2
theorem live_lastPairLoop (h : Live C s d) : Live C s (lastPairLoop d) := by
  induction d with
  | null => trivial
  | cell k a d _ ih =>
    unfold lastPairLoop
    split
    · exact ih h.2
    · exact h
  | atom a => exact h
theorem live_appendImpl (h : LiveL C s xs) : Live C s (appendImpl xs) := by
  unfold appendImpl
  split
  · trivial
  · refine live_ofArray fun y hy => ?_
    obtain ⟨x, hx, hy⟩ := List.mem_flatMap.mp hy
    split at hy
    · exact live_toArray (h x hx) y hy
    · rw [List.mem_singleton.mp hy]; exact h x hx
theorem live_partLoop {n : Nat} : ∀ {xs ys : List Data}, LiveL C s xs → LiveL C s ys → LiveL C s (partLoop n xs ys) := by
  intro xs
  induction xs with
  | nil =>
    intro ys _ h
    unfold partLoop
    split
    · exact liveL_cons (live_ofArray h) liveL_nil
    · exact liveL_nil
  | cons x xs ih =>
    intro ys h h'
    unfold partLoop
    split
    · exact ih h.tail (liveL_append h' (liveL_cons h.head liveL_nil))
    · exact liveL_cons (live_ofArray h') (ih h.tail (liveL_cons h.head liveL_nil))
theorem live_memq [FrEq] (h : Live C s d) : Live C s (memq x d) := by
  induction d with
  | null => trivial
  | cell k a d _ ih =>
    unfold memq
    repeat' split
    · trivial
    · exact h
    · exact ih h.2
  | atom a =>
    unfold memq
    split
    · exact h
    · trivial
theorem live_unionInner [FrEq] : ∀ {xs : List Data} {r : Data}, LiveL C s xs → Live C s r → Live C s (unionInner xs r) := by
  intro xs
  induction xs with
  | nil => exact fun _ h => h
  | cons x xs ih =>
    intro r h hr
    unfold unionInner
    refine ih h.tail ?_
    split
    · exact hr
    · exact live_append1 hr h.head
theorem live_removeLoop [FrEq] {f : Data → Bool} : ∀ {xs : List Data} {r : Data}, Live C s r → Live C s (removeLoop f xs r) := by
  intro xs
  induction xs with
  | nil => exact fun h => h
  | cons x xs ih =>
    intro r hr
    unfold removeLoop
    refine ih ?_
    split
    · exact live_removeFirst hr
    · exact hr

/-- Pure primitives: the value, if there is one, has only references of the arguments, and there is no panic unless
`Z`. -/
structure OutOk (C : Conf) (s : Store) (Z : Prop) (o : Out Data) : Prop where
  ok : ∀ v, o = .ok v → Live C s v
  panic : o = .panic → Z
  timeout : o ≠ .timeout

theorem outOk_ok {Z : Prop} (h : Live C s v) : OutOk C s Z (.ok v) := ⟨fun _ hv => by cases hv; exact h, nofun, nofun⟩
theorem outOk_err {Z : Prop} {e : Err} : OutOk C s Z (.err e) := ⟨nofun, nofun, nofun⟩
theorem outOk_panic {Z : Prop} (h : Z) : OutOk C s Z .panic := ⟨nofun, fun _ => h, nofun⟩

variable {Z : Prop} {n : Data}

theorem outOk_makeList (hl : Live C s l) : OutOk C s Z (makeList n l) := by
  unfold makeList
  repeat' split
  · exact outOk_err
  · exact outOk_ok (live_ofArray fun y hy => (List.eq_of_mem_replicate hy) ▸ hl)
  · exact outOk_err
theorem outOk_consStar (h : LiveL C s xs) (hn : xs ≠ []) : OutOk C s Z (consStar xs) := by
  unfold consStar
  split
  · rename_i hx; exact absurd (List.getLast?_eq_none_iff.mp hx) hn
  · rename_i hx; exact outOk_ok (live_listWithTail (liveL_dropLast h) (liveL_getLast h hx))
theorem outOk_partition {k : BitVec 64} (hl : Live C s l) : OutOk C s Z (partitionBySize k l) := by
  unfold partitionBySize
  split
  · exact outOk_err
  · exact outOk_ok (live_ofArray (live_partLoop (live_toArray hl) liveL_nil))
theorem outOk_sublist (hl : Live C s l) : OutOk C s Z (sublist l n m) := by
  unfold sublist
  repeat' split
  all_goals first | exact outOk_err | exact outOk_ok trivial | exact outOk_ok (live_ofArray (live_takeLoop _ (live_dropLoop _ hl)))
theorem outOk_nth (hl : Live C s l) : OutOk C s Z (nthImpl l n) := by
  unfold nthImpl
  repeat' split
  all_goals first | exact outOk_err | exact outOk_ok (live_nth hl)
theorem outOk_listRef (hl : Live C s l) : OutOk C s Z (listRef l n) := by
  unfold listRef
  repeat' split
  all_goals first | exact outOk_err | exact outOk_ok (live_nth hl)
theorem outOk_listHead (hl : Live C s l) : OutOk C s Z (listHead l n) := by
  unfold listHead
  repeat' split
  all_goals first | exact outOk_err | exact outOk_ok (live_ofArray (live_takeLoop _ hl))
theorem outOk_listTail (hl : Live C s l) : OutOk C s Z (listTail l n) := by
  unfold listTail
  repeat' split
  all_goals first | exact outOk_err | exact outOk_ok (live_dropLoop _ hl)
theorem outOk_lastPair (hl : Live C s l) : OutOk C s Z (lastPair l) := by
  unfold lastPair
  repeat' split
  all_goals first | exact outOk_err | exact outOk_ok (live_lastPairLoop hl)
theorem outOk_take (hl : Live C s l) (hz : ∀ k bs, n = .int k → l = .bytes bs → k.toInt < 0 → Z) : OutOk C s Z (take n l) := by
  unfold take
  repeat' split
  · exact outOk_ok (live_ofArray (live_takeLoop _ hl))
  · exact outOk_ok hl
  · rename_i h; exact outOk_panic (hz _ _ rfl rfl h)
  · exact outOk_ok trivial
  · exact outOk_err
  · exact outOk_err
theorem outOk_drop (hl : Live C s l) (hz : ∀ k bs, n = .int k → l = .bytes bs → k.toInt < 0 → Z) : OutOk C s Z (drop n l) := by
  unfold drop
  repeat' split
  · exact outOk_ok (live_dropLoop _ hl)
  · exact outOk_ok trivial
  · rename_i h; exact outOk_panic (hz _ _ rfl rfl h)
  · exact outOk_ok trivial
  · exact outOk_err
  · exact outOk_err
theorem outOk_remainder (hz : ∀ a, n = .int a → l = .int 0 → Z) : OutOk C s Z (remainder n l) := by
  unfold remainder
  repeat' split
  · rename_i h; subst h; exact outOk_panic (hz _ rfl rfl)
  · exact outOk_ok trivial
  · exact outOk_err
  · exact outOk_err
theorem outOk_assoc [FrEq] (hl : Live C s l) : OutOk C s Z (assocOut x l) := by
  unfold assocOut
  split
  · rename_i h; exact outOk_ok (live_assocLoop hl h)
  · exact outOk_err
theorem outOk_dissoc [FrEq] (hl : Live C s l) : OutOk C s Z (dissocOut x l) := by
  unfold dissocOut
  split
  · rename_i h; exact outOk_ok (live_dissocLoop hl live_null h)
  · exact outOk_err
theorem outOk_rassoc [FrEq] (hl : Live C s l) : OutOk C s Z (rassoc x l) := by
  induction l with
  | null => exact outOk_ok trivial
  | cell k a d _ ih =>
    unfold rassoc
    repeat' split
    · exact outOk_ok trivial
    · exact outOk_err
    · exact outOk_ok hl.1
    · exact ih hl.2
  | atom a => exact outOk_ok trivial
theorem outOk_union [FrEq] (h : LiveL C s xs) : OutOk C s Z (union xs) := by
  suffices ∀ r, Live C s r → OutOk C s Z (unionLoop xs r) from this _ trivial
  induction xs with
  | nil => exact fun r hr => outOk_ok hr
  | cons x xs ih =>
    intro r hr
    unfold unionLoop
    split
    · exact outOk_err
    · exact ih h.tail _ (live_unionInner (live_toArray h.head) hr)
theorem outOk_setLoop [FrEq] {name : String} {f : Data → Data → Bool} : ∀ {xs : List Data} {r : Data}, Live C s r → OutOk C s Z (setLoop name f xs r) := by
  intro xs
  induction xs with
  | nil => exact fun hr => outOk_ok hr
  | cons x xs ih =>
    intro r hr
    unfold setLoop
    split
    · exact outOk_err
    · exact ih (live_removeLoop hr)
theorem outOk_intersection [FrEq] (h : LiveL C s xs) : OutOk C s Z (intersection xs) := by
  unfold intersection
  repeat' split
  · exact outOk_ok trivial
  · exact outOk_err
  · exact outOk_setLoop (live_copy h.head)
theorem outOk_complement [FrEq] (h : LiveL C s xs) : OutOk C s Z (complement xs) := by
  unfold complement
  repeat' split
  · exact outOk_ok trivial
  · exact outOk_err
  · exact outOk_setLoop (live_copy h.head)

/-! The arithmetic primitives return numbers and booleans. -/

theorem anyFloats_ok (xs : List Data) : anyFloats xs ≠ .panic ∧ anyFloats xs ≠ .timeout := by
  induction xs with
  | nil => exact ⟨nofun, nofun⟩
  | cons x xs ih =>
    unfold anyFloats
    repeat' split
    · exact ⟨nofun, nofun⟩
    · exact ⟨nofun, nofun⟩
    · exact ih
theorem outOk_arith {fl int : List Data → Out Data} (hf : OutOk C s Z (fl xs)) (hi : OutOk C s Z (int xs)) :
    OutOk C s Z (arith fl int xs) := by
  unfold arith
  have := anyFloats_ok xs
  split
  · exact hf
  · exact hi
  · exact outOk_err
  · rename_i h; exact absurd h this.1
  · rename_i h; exact absurd h this.2
theorem outOk_add : OutOk C s Z (add xs) := outOk_arith (outOk_ok trivial) (outOk_ok trivial)
theorem outOk_subtract : OutOk C s Z (subtract xs) := outOk_arith (outOk_ok trivial) (outOk_ok trivial)
theorem outOk_multiply : OutOk C s Z (multiply xs) := outOk_arith (outOk_ok trivial) (outOk_ok trivial)
theorem outOk_quotient : OutOk C s Z (quotient xs) := by
  refine outOk_arith ?_ ?_
  · generalize xs.tail = l
    generalize floatValue (xs.headD null) = acc
    induction l generalizing acc with
    | nil => exact outOk_ok trivial
    | cons x l ih => unfold quotFltLoop; split; exact outOk_err; exact ih _
  · generalize xs.tail = l
    generalize intValue (xs.headD null) = acc
    induction l generalizing acc with
    | nil => exact outOk_ok trivial
    | cons x l ih => unfold quotIntLoop; split; exact outOk_err; exact ih _
theorem outOk_extInts {f : BitVec 64 → BitVec 64 → Bool} : ∀ {xs : List Data} {acc : BitVec 64}, OutOk C s Z (extInts f xs acc) := by
  intro xs
  induction xs with
  | nil => exact outOk_ok trivial
  | cons x l ih => intro acc; unfold extInts; split; exact ih; exact outOk_err
theorem outOk_extFloats {f : BitVec 32 → BitVec 32 → Bool} : ∀ {xs : List Data} {acc : BitVec 32}, OutOk C s Z (extFloats f xs acc) := by
  intro xs
  induction xs with
  | nil => exact outOk_ok trivial
  | cons x l ih => intro acc; unfold extFloats; split; exact outOk_err; exact ih
theorem outOk_extremum {bi : BitVec 64 → BitVec 64 → Bool} {bf : BitVec 32 → BitVec 32 → Bool} : OutOk C s Z (extremum bi bf d) := by
  unfold extremum
  have := anyFloats_ok (toArray d)
  dsimp only
  repeat' split
  · exact outOk_err
  · exact outOk_ok trivial
  · exact outOk_extFloats
  · exact outOk_err
  · exact outOk_extInts
  · exact outOk_err
  · exact outOk_err
  · rename_i h; exact absurd h this.1
  · rename_i h; exact absurd h this.2

/-- The other arithmetic primitives: no loop. -/
macro "outNum" : tactic => `(tactic| (repeat' split) <;> first | exact outOk_err | exact outOk_ok live_bool | exact outOk_ok live_int | exact outOk_ok live_flt)

theorem outOk_num1 {f : Data → Out Data} (hf : f ∈ [succ, pred, toInt, toFloat, Prim.min, Prim.max, abs, zeroP, positiveP, negativeP, evenP,
    oddP, sign, floatToBits, bitsToFloat, boolNot, binaryNot]) : OutOk C s Z (f d) := by
  simp only [List.mem_cons, List.not_mem_nil, or_false] at hf
  rcases hf with rfl | rfl | rfl | rfl | rfl | rfl | rfl | rfl | rfl | rfl | rfl | rfl | rfl | rfl | rfl | rfl | rfl
  · unfold succ; outNum
  · unfold pred; outNum
  · unfold toInt; outNum
  · unfold toFloat; outNum
  · exact outOk_extremum
  · exact outOk_extremum
  · unfold abs; dsimp only; split; exact outOk_err; split <;> exact outOk_ok trivial
  · unfold zeroP; outNum
  · unfold positiveP; outNum
  · unfold negativeP; outNum
  · unfold evenP; outNum
  · unfold oddP; outNum
  · unfold sign; outNum
  · unfold floatToBits; outNum
  · unfold bitsToFloat; outNum
  · unfold boolNot; outNum
  · unfold binaryNot; outNum

theorem outOk_num2 [FrEq] {f : Data → Data → Out Data} (hf : f ∈ [lessThan, greaterThan, equalTo, notEqual, lessOrEqual, greaterOrEqual, binaryAnd,
    binaryOr, leftShift, rightShift]) : OutOk C s Z (f d x) := by
  simp only [List.mem_cons, List.not_mem_nil, or_false] at hf
  rcases hf with rfl | rfl | rfl | rfl | rfl | rfl | rfl | rfl | rfl | rfl
  · unfold lessThan numCompare; outNum
  · unfold greaterThan numCompare; outNum
  · unfold equalTo; outNum
  · unfold notEqual; outNum
  · unfold lessOrEqual numCompare; outNum
  · unfold greaterOrEqual numCompare; outNum
  · unfold binaryAnd bin2; outNum
  · unfold binaryOr bin2; outNum
  · unfold leftShift bin2; outNum
  · unfold rightShift bin2; outNum

end pure
end Golisp.Ev
