import Verif.FrameLemmas
/-
C45-C47: frame slot lookup, mutation and cloning.  Specifications `Spec.Parent`, `Spec.Ancestor`, `Spec.Inherits`
are in `Verif.Frame`; they mention neither the search nor an iteration order.
-/
namespace Golisp.Props
open Golisp Data Frame Spec

/-- The order in which the table lists the parents. -/
def tableOrder : Order := fun _ l => l
/-- The opposite order. -/
def backOrder : Order := fun _ l => l.reverse
theorem tableOrder_reorders : Reorders tableOrder := fun _ _ _ => Iff.rfl
theorem backOrder_reorders : Reorders backOrder := fun _ _ _ => by simp [backOrder]

/-- Two frames that are each other's parent; frame 0 has a slot `a:`, frame 1 a slot `b:`; frame 2 is a child of both
0 and 3, and 3 also has an `a:`. -/
def exFrames : Frames :=
  [[("p*:", .atom (.frame 1)), ("a:", .int 1)],
   [("p*:", .atom (.frame 0)), ("b:", .int 2)],
   [("p*:", .atom (.frame 0)), ("q*:", .atom (.frame 3)), ("c:", .int 3)],
   [("a:", .int 4)]]

theorem exFrames_ok : ParentsOk exFrames := by
  intro i k v hk hm
  match i with
  | 0 | 1 | 2 | 3 => all_goals
      simp [exFrames, Frame.get?] at hm
      rcases hm with ⟨rfl, rfl⟩ | ⟨rfl, rfl⟩ | ⟨rfl, rfl⟩ <;> first | exact Or.inr ⟨_, rfl⟩ | exact absurd hk (by decide)
  | i + 4 => simp [exFrames, Frame.get?] at hm

/-! ### C45 -/

/-- Lookup ends for every table of frames, also with cyclic parent links, and every iteration order. -/
theorem C45_lookup_total (F : Frames) (ord : Order) (hord : Reorders ord) (i : Nat) (k : String) :
    Frame.get F ord i k ≠ .timeout ∧ hasSlot F ord i k ≠ .timeout :=
  ⟨search_total hord i, search_total hord i⟩

example : Frame.get exFrames tableOrder 0 "zz:" = .ok null := by decide

theorem found_has {F : Frames} {k : String} {i : Nat} :
    Found F (fun j => if (slot F j k).isSome then some true else none) i true ↔
      ∃ j, Ancestor F i j ∧ (slot F j k).isSome := by
  constructor
  · intro h
    suffices ∀ b, Found F (fun j => if (slot F j k).isSome then some true else none) i b →
        ∃ j, Ancestor F i j ∧ (slot F j k).isSome from this _ h
    clear h
    intro b h
    induction h with
    | @own i a hp =>
      by_cases hs : (slot F i k).isSome
      · exact ⟨i, .self i, hs⟩
      · simp [hs] at hp
    | parent _ hpar _ ih =>
      obtain ⟨j, hj, hs⟩ := ih
      exact ⟨j, .step hpar hj, hs⟩
  · rintro ⟨j, ha, hs⟩
    induction ha with
    | self i => exact .own (by simp [hs])
    | @step i p j hp _ ih =>
      by_cases hi : (slot F i k).isSome
      · exact .own (by simp [hi])
      · exact .parent (by simp [hi]) hp (ih hs)

/-- A slot is reported present exactly when the frame or one of its ancestors has it, for every iteration order. -/
theorem C45_has_slot (F : Frames) (hok : ParentsOk F) (ord : Order) (hord : Reorders ord) (i : Nat) (k : String) :
    ∃ b, hasSlot F ord i k = .ok b ∧ (b = true ↔ ∃ j, Ancestor F i j ∧ (slot F j k).isSome) := by
  obtain ⟨b, hb⟩ := search_ok (miss := false) (probe := fun j => if (slot F j k).isSome then some true else none) hord hok i
  refine ⟨b, hb, ?_⟩
  rw [← found_has]
  constructor
  · intro h; subst h; exact search_sound hord hb (by simp)
  · intro h
    cases b with
    | true => rfl
    | false => exact absurd (search_complete hord hb h) (by simp)

example : hasSlot exFrames tableOrder 2 "b:" = .ok true ∧ hasSlot exFrames tableOrder 3 "b:" = .ok false := by decide
example : ∃ b, hasSlot exFrames backOrder 2 "b:" = .ok b ∧ (b = true ↔ ∃ j, Ancestor exFrames 2 j ∧ (slot exFrames j "b:").isSome) :=
  C45_has_slot exFrames exFrames_ok backOrder backOrder_reorders 2 "b:"

/-- The answer of `has-slot?` does not depend on the iteration order. -/
theorem C45_has_slot_order (F : Frames) (hok : ParentsOk F) (o₁ o₂ : Order) (h₁ : Reorders o₁) (h₂ : Reorders o₂)
    (i : Nat) (k : String) : hasSlot F o₁ i k = hasSlot F o₂ i k := by
  obtain ⟨b, hb, hi⟩ := C45_has_slot F hok o₁ h₁ i k
  obtain ⟨b', hb', hi'⟩ := C45_has_slot F hok o₂ h₂ i k
  rw [hb, hb']
  congr 1
  exact Bool.eq_iff_iff.mpr (hi.trans hi'.symm)

example : hasSlot exFrames tableOrder 2 "b:" = hasSlot exFrames backOrder 2 "b:" := by decide

theorem found_get {F : Frames} {k : String} {i : Nat} {v : Data} :
    Found F (fun j => slot F j k) i v ↔ Inherits F k i v := by
  constructor <;> intro h
  · induction h with
    | own h => exact .own h
    | parent h1 h2 _ ih => exact .parent h1 h2 ih
  · induction h with
    | own h => exact .own h
    | parent h1 h2 _ ih => exact .parent h1 h2 ih

/-- The frame's own value wins. -/
theorem C45_get_own (F : Frames) (ord : Order) (i : Nat) (k : String) (v : Data) (h : slot F i k = some v) :
    Frame.get F ord i k = .ok v := by
  simp [Frame.get, search, searchN, h]

example : Frame.get exFrames tableOrder 3 "a:" = .ok (.int 4) := C45_get_own _ _ _ _ _ (by decide)

/-- Getting a slot gives a value that is inherited, or nil when every inherited value is nil (in particular when there is
none). -/
theorem C45_get (F : Frames) (hok : ParentsOk F) (ord : Order) (hord : Reorders ord) (i : Nat) (k : String) :
    ∃ v, Frame.get F ord i k = .ok v ∧
      (v ≠ null → Inherits F k i v) ∧ (v = null → ∀ w, Inherits F k i w → w = null) := by
  obtain ⟨v, hv⟩ := search_ok (miss := null) (probe := fun j => slot F j k) hord hok i
  refine ⟨v, hv, fun h => found_get.mp (search_sound hord hv h), fun h w hw => ?_⟩
  subst h
  exact search_complete hord hv (found_get.mpr hw)

example : Frame.get exFrames tableOrder 2 "b:" = .ok (.int 2) ∧ Inherits exFrames "b:" 2 (.int 2) :=
  ⟨by decide, .parent (p := 0) (by decide) ⟨"p*:", by decide, by decide⟩
    (.parent (p := 1) (by decide) ⟨"p*:", by decide, by decide⟩ (.own (by decide)))⟩

/-- An inherited value is the own value of an ancestor. -/
theorem C45_inherited_is_ancestors (F : Frames) (k : String) (i : Nat) (v : Data) (h : Inherits F k i v) :
    ∃ j, Ancestor F i j ∧ slot F j k = some v := by
  induction h with
  | @own i v h => exact ⟨i, .self i, h⟩
  | parent _ hp _ ih => obtain ⟨j, h1, h2⟩ := ih; exact ⟨j, .step hp h1, h2⟩

example : ∃ j, Ancestor exFrames 2 j ∧ slot exFrames j "b:" = some (.int 2) := by
  obtain ⟨v, hv, h, _⟩ := C45_get exFrames exFrames_ok tableOrder tableOrder_reorders 2 "b:"
  have hd : Frame.get exFrames tableOrder 2 "b:" = .ok (.int 2) := by decide
  rw [hd] at hv; cases hv
  exact C45_inherited_is_ancestors _ _ _ _ (h (by simp))

/-- With at most one parent per frame the value does not depend on the iteration order. -/
theorem C45_get_single_parent (F : Frames) (hok : ParentsOk F) (o₁ o₂ : Order) (h₁ : Reorders o₁) (h₂ : Reorders o₂)
    (hone : ∀ i p q, Parent F i p → Parent F i q → p = q) (i : Nat) (k : String) :
    Frame.get F o₁ i k = Frame.get F o₂ i k := by
  obtain ⟨v, hv, hn, hz⟩ := C45_get F hok o₁ h₁ i k
  obtain ⟨w, hw, hn', hz'⟩ := C45_get F hok o₂ h₂ i k
  rw [hv, hw]
  congr 1
  have det : ∀ i a b, Inherits F k i a → Inherits F k i b → a = b := by
    intro i a b ha
    induction ha with
    | own h =>
      intro hb
      cases hb with
      | own h' => rw [h] at h'; exact Option.some.inj h'
      | parent h' => rw [h] at h'; cases h'
    | parent h hp _ ih =>
      intro hb
      cases hb with
      | own h' => rw [h] at h'; cases h'
      | parent h' hp' hb' => rw [hone _ _ _ hp' hp] at hb'; exact ih hb'
  by_cases hvn : v = null
  · subst hvn
    by_cases hwn : w = null
    · exact hwn.symm
    · exact absurd (hz rfl w (hn' hwn)) hwn
  · by_cases hwn : w = null
    · subst hwn; exact absurd (hz' rfl v (hn hvn)) hvn
    · exact det i v w (hn hvn) (hn' hwn)

/-- In general the value does depend on the order in which Go iterates over the slot map: two parents with the same
slot. -/
theorem C45_get_order_violation :
    ∃ (F : Frames) (o₁ o₂ : Order), ParentsOk F ∧ Reorders o₁ ∧ Reorders o₂ ∧
      Frame.get F o₁ 2 "a:" = .ok (.int 1) ∧ Frame.get F o₂ 2 "a:" = .ok (.int 4) :=
  ⟨exFrames, tableOrder, backOrder, exFrames_ok, tableOrder_reorders, backOrder_reorders, by decide, by decide⟩

/-- A parent slot holding the Lisp nil (the empty list, as `{p*: nil}` evaluates to) makes looking up an absent slot a
run-time panic, for every order. -/
theorem C45_nil_parent_violation (ord : Order) (hord : Reorders ord) :
    let F : Frames := [[("p*:", emptyCons)]]
    Frame.get F ord 0 "a:" = .panic ∧ hasSlot F ord 0 "a:" = .panic := by
  have hm : ∀ l : List (Option Nat), (∀ x, x ∈ l ↔ x ∈ [(none : Option Nat)]) → ∃ l', l = none :: l' := by
    intro l h
    cases l with
    | nil => exact absurd ((h none).mpr (by simp)) (by simp)
    | cons a l => have := (h a).mp (by simp); simp at this; exact ⟨l, by rw [this]⟩
  obtain ⟨l', hl⟩ := hm (ord [0] (parents [[("p*:", emptyCons)]] 0)) (fun x => by
    rw [hord]; exact Iff.of_eq (congrArg (x ∈ ·) (by decide)))
  constructor <;>
    · simp only [Frame.get, hasSlot, search, searchN, List.not_mem_nil, if_false]
      simp [slot, Frame.get?, alGet, hl, searchList]

/-! ### C46 -/

/-- Setting a slot changes that slot of that frame and no other slot of any frame. -/
theorem C46_set_local (F : Frames) (i : Nat) (hi : i < F.length) (k : String) (v : Data) (j : Nat) (x : String) :
    slot (Frame.set F i k v) j x = if j = i ∧ x = k then some v else slot F j x := by
  unfold slot Frame.set
  rw [get?_set F i j _ hi]
  by_cases hj : j = i
  · subst hj; simp only [if_true, true_and]; rw [alGet_set]
  · simp [hj]

example : slot (Frame.set exFrames 0 "a:" (.int 9)) 0 "a:" = some (.int 9) ∧
    slot (Frame.set exFrames 0 "a:" (.int 9)) 3 "a:" = some (.int 4) := by decide

/-- After a set, get returns the value, whatever the frame inherited before. -/
theorem C46_get_after_set (F : Frames) (ord : Order) (i : Nat) (hi : i < F.length) (k : String) (v : Data) :
    Frame.get (Frame.set F i k v) ord i k = .ok v ∧ hasSlot (Frame.set F i k v) ord i k = .ok true := by
  have h : slot (Frame.set F i k v) i k = some v := by rw [C46_set_local F i hi]; simp
  exact ⟨C45_get_own _ _ _ _ _ h, by simp [hasSlot, search, searchN, h]⟩

example : Frame.get (Frame.set exFrames 2 "b:" (.int 9)) backOrder 2 "b:" = .ok (.int 9) :=
  (C46_get_after_set exFrames backOrder 2 (by decide) "b:" (.int 9)).1

/-- Removing a slot removes exactly that slot of that frame, and reports whether it was there. -/
theorem C46_remove_local (F : Frames) (i : Nat) (k : String) (j : Nat) (x : String) :
    ((remove F i k).1 = true ↔ (slot F i k).isSome) ∧
    slot (remove F i k).2 j x = if j = i ∧ x = k then none else slot F j x := by
  unfold remove
  by_cases h : (slot F i k).isSome
  · have hi : i < F.length := by
      refine Nat.lt_of_not_le fun hn => ?_
      simp [slot, get?_out hn, alGet] at h
    simp only [h, if_true, true_and]
    unfold slot
    rw [get?_set F i j _ hi]
    by_cases hj : j = i
    · subst hj; simp only [if_true, true_and]; rw [alGet_del]
    · simp [hj]
  · simp only [h]
    refine ⟨by simp, ?_⟩
    by_cases hc : j = i ∧ x = k
    · obtain ⟨rfl, rfl⟩ := hc; simpa using h
    · simp [hc]

example : (remove exFrames 0 "a:").1 = true ∧ slot (remove exFrames 0 "a:").2 0 "a:" = none ∧
    slot (remove exFrames 0 "a:").2 3 "a:" = some (.int 4) := by decide

/-- After a remove, lookup falls back to the parents: a value found is one seen from a parent. -/
theorem C46_get_after_remove (F : Frames) (ord : Order) (hord : Reorders ord) (i : Nat) (k : String) (v : Data)
    (h : Frame.get (remove F i k).2 ord i k = .ok v) (hv : v ≠ null) :
    ∃ p, Parent (remove F i k).2 i p ∧ Inherits (remove F i k).2 k p v := by
  have hf := found_get.mp (search_sound hord h hv)
  have hs : slot (remove F i k).2 i k = none := by rw [(C46_remove_local F i k i k).2]; simp
  cases hf with
  | own h' => rw [hs] at h'; cases h'
  | parent _ hp hi => exact ⟨_, hp, hi⟩

example : Frame.get (remove (Frame.set exFrames 2 "b:" (.int 9)) 2 "b:").2 tableOrder 2 "b:" = .ok (.int 2) := by decide

/-! ### C47 -/

/-- One slot change. -/
inductive SlotOp where
  | set (k : String) (v : Data)
  | remove (k : String)
def SlotOp.run (i : Nat) (F : Frames) : SlotOp → Frames
  | .set k v => Frame.set F i k v
  | .remove k => (Frame.remove F i k).2

/-- The clone is a new frame, has the slots and values of the original, and making it changes no frame. -/
theorem C47_clone_same (F : Frames) (i : Nat) (k : String) :
    (clone F i).1 = F.length ∧ slot (clone F i).2 (clone F i).1 k = slot F i k ∧
    ∀ j, j < F.length → slot (clone F i).2 j k = slot F j k := by
  refine ⟨rfl, ?_, fun j hj => ?_⟩
  · simp [clone, slot, Frame.get?]
  · simp [clone, slot, Frame.get?, List.getElem?_append_left hj]

example : slot (clone exFrames 2).2 4 "c:" = some (.int 3) ∧ slot (clone exFrames 2).2 4 "a:" = none := by decide

theorem SlotOp.run_length (i : Nat) (F : Frames) (o : SlotOp) : (o.run i F).length = F.length := by
  cases o with
  | set k v => simp [run, Frame.set]
  | remove k => simp only [run, Frame.remove]; split <;> simp

theorem SlotOp.run_other (i : Nat) (F : Frames) (hi : i < F.length) (o : SlotOp) (j : Nat) (h : j ≠ i) (k : String) :
    slot (o.run i F) j k = slot F j k := by
  cases o with
  | set x v => simp [run, C46_set_local F i hi, h]
  | remove x => simp [run, (C46_remove_local F i x j k).2, h]

theorem runAll_other (ops : List SlotOp) (i : Nat) (F : Frames) (hi : i < F.length) (j : Nat) (h : j ≠ i) (k : String) :
    slot (ops.foldl (SlotOp.run i) F) j k = slot F j k := by
  induction ops generalizing F with
  | nil => rfl
  | cons o ops ih =>
    simp only [List.foldl_cons]
    rw [ih (o.run i F) (by rw [SlotOp.run_length]; exact hi), SlotOp.run_other i F hi o j h k]

/-- No sequence of slot changes to the clone is visible in the original's slots, and vice versa. -/
theorem C47_clone_independent (F : Frames) (i : Nat) (hi : i < F.length) (ops : List SlotOp) (k : String) :
    slot (ops.foldl (SlotOp.run (clone F i).1) (clone F i).2) i k = slot F i k ∧
    slot (ops.foldl (SlotOp.run i) (clone F i).2) (clone F i).1 k = slot F i k := by
  have h1 : (clone F i).2.length = F.length + 1 := by simp [clone]
  have hne : (clone F i).1 ≠ i := by rw [(C47_clone_same F i k).1]; omega
  constructor
  · rw [runAll_other ops _ _ (by rw [h1]; simp [clone]) i (Ne.symm hne), (C47_clone_same F i k).2.2 i hi]
  · rw [runAll_other ops _ _ (by omega) _ hne, (C47_clone_same F i k).2.1]

example : slot (([.set "c:" (.int 9), .remove "p*:"] : List SlotOp).foldl (SlotOp.run (clone exFrames 2).1) (clone exFrames 2).2) 2 "c:"
    = some (.int 3) := by decide

/-- Every parent link leads to an existing frame. -/
def LinksExist (F : Frames) : Prop := ∀ i p, Parent F i p → p < F.length

/-- A clone also answers `has-slot?` like the original, through the shared ancestors. -/
theorem C47_clone_has_slot (F : Frames) (hok : ParentsOk F) (hlinks : LinksExist F) (ord : Order) (hord : Reorders ord)
    (i : Nat) (k : String) :
    hasSlot (clone F i).2 ord (clone F i).1 k = hasSlot F ord i k := by
  have hget : ∀ j, j < F.length → Frame.get? (clone F i).2 j = Frame.get? F j := by
    intro j hj; simp [clone, Frame.get?, List.getElem?_append_left hj]
  have hnew : Frame.get? (clone F i).2 F.length = Frame.get? F i := by simp [clone, Frame.get?]
  have hok' : ParentsOk (clone F i).2 := by
    intro j x v hx hm
    by_cases hj : j < F.length
    · rw [hget j hj] at hm; exact hok j x v hx hm
    · by_cases hj' : j = F.length
      · subst hj'; rw [hnew] at hm; exact hok i x v hx hm
      · have : (clone F i).2.length ≤ j := by simp [clone]; omega
        rw [get?_out this] at hm; simp at hm
  obtain ⟨b, hb, hi⟩ := C45_has_slot F hok ord hord i k
  obtain ⟨b', hb', hi'⟩ := C45_has_slot _ hok' ord hord (clone F i).1 k
  rw [hb, hb']
  congr 1
  refine Bool.eq_iff_iff.mpr (hi'.trans (Iff.trans ?_ hi.symm))
  have up : ∀ a c, Ancestor F a c → a < F.length → c < F.length := by
    intro a c h; induction h with
    | self => exact id
    | step hp _ ih => intro _; exact ih (hlinks _ _ hp)
  have lift : ∀ a c, Ancestor F a c → a < F.length → Ancestor (clone F i).2 a c := by
    intro a c h; induction h with
    | self => intro _; exact .self _
    | @step a p c hp _ ih =>
      intro ha
      exact .step (by unfold Parent; rw [hget a ha]; exact hp) (ih (hlinks _ _ hp))
  have low : ∀ a c, Ancestor (clone F i).2 a c → a < F.length → Ancestor F a c := by
    intro a c h; induction h with
    | self => intro _; exact .self _
    | @step a p c hp _ ih =>
      intro ha
      have hp' : Parent F a p := by unfold Parent at hp; rw [hget a ha] at hp; exact hp
      exact .step hp' (ih (hlinks _ _ hp'))
  constructor
  · rintro ⟨j, ha, hs⟩
    cases ha with
    | self => exact ⟨i, .self i, by rw [(C47_clone_same F i k).2.1] at hs; exact hs⟩
    | @step _ p _ hp ha =>
      have hp' : Parent F i p := by unfold Parent at hp; rw [show (clone F i).1 = F.length from rfl, hnew] at hp; exact hp
      have hl := low _ _ ha (hlinks _ _ hp')
      refine ⟨j, .step hp' hl, ?_⟩
      rw [(C47_clone_same F i k).2.2 j (up _ _ hl (hlinks _ _ hp'))] at hs; exact hs
  · rintro ⟨j, ha, hs⟩
    cases ha with
    | self => exact ⟨_, .self _, by rw [(C47_clone_same F i k).2.1]; exact hs⟩
    | @step _ p _ hp ha =>
      have hp' : Parent (clone F i).2 (clone F i).1 p := by
        unfold Parent; rw [show (clone F i).1 = F.length from rfl, hnew]; exact hp
      refine ⟨j, .step hp' (lift _ _ ha (hlinks _ _ hp)), ?_⟩
      rw [(C47_clone_same F i k).2.2 j (up _ _ ha (hlinks _ _ hp))]; exact hs

example : hasSlot (clone exFrames 2).2 tableOrder 4 "b:" = .ok true := by decide

end Golisp.Props
