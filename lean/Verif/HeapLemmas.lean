import Verif.Heap
import Verif.ListLemmas
/-
Lemmas about lists on the heap.
-/
namespace Golisp
open Spec Heap

theorem Heap.isNil_iff {h : Mem} {r : Ref} : Heap.isNil h r = true ↔ Emptyish h r := by
  unfold Heap.isNil Emptyish
  cases r with
  | none => simp
  | some i =>
    simp only [deref, reduceCtorEq, Option.some.injEq, false_or]
    constructor
    · intro hh
      split at hh
      · contradiction
      · rename_i _ _ k _ heq; exact ⟨i, k, rfl, heq⟩
      · cases hh
    · rintro ⟨_, k, rfl, hh⟩
      rw [hh]

theorem Heap.isNil_cell {h : Mem} {i k a d} (hc : h[i]? = some (.cell k a d)) (hn : ¬(a = none ∧ d = none)) :
    Heap.isNil h (some i) = false := by
  cases hx : Heap.isNil h (some i) with
  | false => rfl
  | true =>
    rcases isNil_iff.1 hx with hh | ⟨j, k', hj, hh⟩
    · cases hh
    · cases hj; rw [hc] at hh; cases hh; exact (hn ⟨rfl, rfl⟩).elim

theorem Spec.Emptyish.same {h h' : Mem} {r} (hs : ∀ j, r = some j → h'[j]? = h[j]?) (he : Emptyish h r) : Emptyish h' r := by
  rcases he with rfl | ⟨i, k, rfl, hk⟩
  · exact .inl rfl
  · exact .inr ⟨i, k, rfl, (hs i rfl).trans hk⟩

theorem Spec.Cells.unique {h r cs cs'} (a : Cells h r cs) (b : Cells h r cs') : cs = cs' := by
  induction a generalizing cs' with
  | nil he =>
    cases b with
    | nil => rfl
    | cons hc hn _ _ =>
      rcases he with he | ⟨j, k, hj, hk⟩
      · cases he
      · cases hj; rw [hc] at hk; cases hk; exact (hn ⟨rfl, rfl⟩).elim
  | cons hc hn _ _ ih =>
    cases b with
    | nil he =>
      rcases he with he | ⟨j, k, hj, hk⟩
      · cases he
      · cases hj; rw [hc] at hk; cases hk; exact (hn ⟨rfl, rfl⟩).elim
    | cons hc' _ _ h2 =>
      rw [hc] at hc'; cases hc'
      rw [ih h2]

theorem Spec.Cells.from {h r} : ∀ {pre : List (Nat × Ref)} {i a cs}, Cells h r (pre ++ (i, a) :: cs) →
    Cells h (some i) ((i, a) :: cs) := by
  intro pre
  induction pre generalizing r with
  | nil =>
    intro i a cs h1
    cases h1 with
    | cons x y z w => exact .cons x y z w
  | cons p pre ih =>
    intro i a cs h1
    cases h1 with
    | cons x y z w => exact ih w

/-- A proper list has no cell twice. -/
theorem Spec.Cells.nodup {h r cs} (a : Cells h r cs) : (cs.map Prod.fst).Nodup := by
  induction a with
  | nil => simp
  | cons hc hn hk hd ih =>
    rename_i i k x d cs
    rw [List.map_cons, List.nodup_cons]
    refine ⟨?_, ih⟩
    intro hm
    obtain ⟨⟨j, y⟩, hp, rfl⟩ := List.mem_map.1 hm
    obtain ⟨pre, post, rfl⟩ := List.append_of_mem hp
    have h1 : Cells h (some j) ((j, y) :: post) := Cells.from hd
    have h2 := (Cells.cons hc hn hk hd).unique h1
    have := congrArg List.length h2
    simp at this
    omega

theorem Spec.Cells.lt {h r cs} (a : Cells h r cs) : ∀ c ∈ cs, c.1 < h.length := by
  induction a with
  | nil => simp
  | cons hc _ _ _ ih =>
    intro c hm
    rcases List.mem_cons.1 hm with rfl | hm
    · exact (List.getElem?_eq_some_iff.1 hc).1
    · exact ih c hm

theorem Spec.Cells.same {h h' r cs} (hs : Same h h') (a : Cells h r cs) : Cells h' r cs := by
  have look : ∀ {i n}, h[i]? = some n → h'[i]? = some n := fun {i n} hi =>
    (hs i (List.getElem?_eq_some_iff.1 hi).1).trans hi
  induction a with
  | nil he =>
    refine .nil ?_
    rcases he with rfl | ⟨i, k, rfl, hk⟩
    · exact .inl rfl
    · exact .inr ⟨i, k, rfl, look hk⟩
  | cons hc hn hk _ ih => exact .cons (look hc) hn hk ih

theorem Spec.Cells.sameBut {h h' : Mem} {r cs i k x d} (hs : SameBut i h h') (hi : h[i]? = some (.cell k x d))
    (hn : ¬(x = none ∧ d = none)) (a : Cells h r cs) (hnot : i ∉ cs.map Prod.fst) : Cells h' r cs := by
  induction a with
  | nil he =>
    refine .nil ?_
    rcases he with rfl | ⟨j, k, rfl, hk⟩
    · exact .inl rfl
    · refine .inr ⟨j, k, rfl, (hs j (List.getElem?_eq_some_iff.1 hk).1 ?_).trans hk⟩
      rintro rfl
      rw [hi] at hk; cases hk; exact hn ⟨rfl, rfl⟩
  | cons hc hn' hk _ ih =>
    simp only [List.map_cons, List.mem_cons, not_or] at hnot
    refine .cons ((hs _ (List.getElem?_eq_some_iff.1 hc).1 (fun e => hnot.1 e.symm)).trans hc) hn' hk (ih hnot.2)

theorem Heap.lastCell_spec {h r} : ∀ {cs : List (Nat × Ref)} {i a}, Cells h r (cs ++ [(i, a)]) → ∀ n, cs.length + 1 ≤ n →
    lastCell h n r = .ok (some i) := by
  intro cs
  induction cs generalizing r with
  | nil =>
    intro i a hc n hn
    obtain ⟨n, rfl⟩ : ∃ m, n = m + 1 := ⟨n - 1, by simp at hn; omega⟩
    cases hc with
    | cons x y z w =>
      rename_i k d
      cases w with
      | nil he =>
        have : cdr h (some i) = d := by simp [cdr, deref, x]
        simp [lastCell, this, isNil_iff.2 he]
  | cons p cs ih =>
    intro i a hc n hn
    obtain ⟨n, rfl⟩ : ∃ m, n = m + 1 := ⟨n - 1, by simp at hn; omega⟩
    cases hc with
    | cons x y z w =>
      rename_i j k b d
      have h1 : cdr h (some j) = d := by simp [cdr, deref, x]
      have h2 : isNil h d = false := by
        cases w' : isNil h d with
        | false => rfl
        | true => have := w.unique (.nil (isNil_iff.1 w')); simp at this
      simp only [lastCell, h1, h2]
      exact ih w n (by simp at hn ⊢; omega)

/-- Writing the cdr of the last cell appends. -/
theorem Spec.Cells.append {h h' : Mem} {i k a d b bs} (hs : SameBut i h h') (hi : h[i]? = some (.cell k a d))
    (hi' : h'[i]? = some (.cell k a b)) (hn : ¬(a = none ∧ b = none)) (hb : Cells h' b bs) :
    ∀ {cs : List (Nat × Ref)} {r}, Cells h r (cs ++ [(i, a)]) → Cells h' r (cs ++ (i, a) :: bs) := by
  intro cs
  induction cs with
  | nil =>
    intro r hc
    cases hc with
    | cons x y z w =>
      rw [hi] at x; cases x
      exact .cons hi' hn z hb
  | cons p cs ih =>
    intro r hc
    have hnd := hc.nodup
    cases hc with
    | cons x y z w =>
      rename_i j k' c d'
      have hne : j ≠ i := by
        simp at hnd
        exact fun e => hnd.1.2 e
      exact .cons ((hs _ (List.getElem?_eq_some_iff.1 x).1 hne).trans x) y z (ih w)

theorem Spec.Denotes.frame {h h' : Mem} {r d} (a : Denotes h r d) (hs : ∀ j, Reach h r j → h'[j]? = h[j]?) :
    Denotes h' r d := by
  induction a with
  | null => exact .null
  | cell hc _ _ ih1 ih2 =>
    exact .cell ((hs _ .here).trans hc) (ih1 fun j hj => hs j (.car hc hj)) (ih2 fun j hj => hs j (.cdr hc hj))
  | atom hc => exact .atom ((hs _ .here).trans hc)

theorem Spec.Denotes.unique {h r d d'} (a : Denotes h r d) (b : Denotes h r d') : d = d' := by
  induction a generalizing d' with
  | null => cases b; rfl
  | cell hc _ _ ih1 ih2 =>
    cases b with
    | cell hc' h1 h2 => rw [hc] at hc'; cases hc'; rw [ih1 h1, ih2 h2]
    | atom hc' => rw [hc] at hc'; cases hc'
  | atom hc =>
    cases b with
    | cell hc' h1 h2 => rw [hc] at hc'; cases hc'
    | atom hc' => rw [hc] at hc'; cases hc'; rfl

theorem Spec.Reach.lt {h r j d} (a : Denotes h r d) (b : Reach h r j) : j < h.length := by
  induction b generalizing d with
  | here =>
    cases a with
    | cell hc _ _ => exact (List.getElem?_eq_some_iff.1 hc).1
    | atom hc => exact (List.getElem?_eq_some_iff.1 hc).1
  | car hc _ ih =>
    cases a with
    | cell hc' h1 h2 => rw [hc] at hc'; cases hc'; exact ih h1
    | atom hc' => rw [hc] at hc'; cases hc'
  | cdr hc _ ih =>
    cases a with
    | cell hc' h1 h2 => rw [hc] at hc'; cases hc'; exact ih h2
    | atom hc' => rw [hc] at hc'; cases hc'

theorem Spec.Denotes.same {h h' : Mem} {r d} (a : Denotes h r d) (hs : Same h h') : Denotes h' r d :=
  a.frame fun j hj => hs j (Reach.lt a hj)

theorem Spec.Denotes.none {h d} (a : Denotes h none d) : d = .null := by cases a; rfl
theorem Spec.Denotes.ne_null {h i d} (a : Denotes h (some i) d) : d ≠ .null := by cases a <;> simp

/-- A list of cells, read as a value. -/
theorem Spec.Cells.denotes {h r cs} (a : Cells h r cs) : ∀ {xs : List Data}, Pointwise (Denotes h) (cs.map Prod.snd) xs →
    ∃ d, Denotes h r d ∧ Lst d xs := by
  induction a with
  | nil he =>
    intro xs hx
    cases hx
    rcases he with rfl | ⟨i, k, rfl, hk⟩
    · exact ⟨_, .null, .null⟩
    · exact ⟨_, .cell hk .null .null, .empty k⟩
  | cons hc hn hk _ ih =>
    rename_i i k a d cs _
    intro xs hx
    cases hx with
    | cons h1 h2 =>
      rename_i y ys
      obtain ⟨t, ht, hl⟩ := ih h2
      refine ⟨_, .cell hc h1 ht, .cons k _ _ _ ?_ hk hl⟩
      rintro ⟨rfl, rfl⟩
      apply hn
      constructor
      · cases a with
        | none => rfl
        | some j => exact (h1.ne_null rfl).elim
      · cases d with
        | none => rfl
        | some j => exact (ht.ne_null rfl).elim

/-- Conversely. -/
theorem Spec.Denotes.cells {h r d} (a : Denotes h r d) : ∀ {xs}, Lst d xs →
    ∃ cs, Cells h r cs ∧ Pointwise (Denotes h) (cs.map Prod.snd) xs := by
  induction a with
  | null => intro xs hl; cases hl; exact ⟨[], .nil (.inl rfl), .nil⟩
  | atom => intro xs hl; cases hl
  | cell hc h1 h2 _ ih2 =>
    rename_i i k a d da dd _
    intro xs hl
    cases hl with
    | empty k =>
      refine ⟨[], .nil (.inr ⟨i, k, rfl, ?_⟩), .nil⟩
      cases h1; cases h2; exact hc
    | cons k _ _ xs hn hk hl =>
      obtain ⟨cs, hcs, he⟩ := ih2 hl
      refine ⟨(i, a) :: cs, .cons hc ?_ hk hcs, .cons h1 he⟩
      rintro ⟨rfl, rfl⟩
      exact hn ⟨h1.none, h2.none⟩

theorem Spec.Pointwise.append {α β : Type} {R : α → β → Prop} {xs ys xs' ys'} (a : Pointwise R xs ys) (b : Pointwise R xs' ys') :
    Pointwise R (xs ++ xs') (ys ++ ys') := by
  induction a with
  | nil => exact b
  | cons h _ ih => exact .cons h ih

theorem Spec.Pointwise.mono {α β : Type} {R S : α → β → Prop} {xs ys} (a : Pointwise R xs ys) (h : ∀ x ∈ xs, ∀ y, R x y → S x y) :
    Pointwise S xs ys := by
  induction a with
  | nil => exact .nil
  | cons hr _ ih => exact .cons (h _ (by simp) _ hr) (ih fun x hx y => h x (by simp [hx]) y)

theorem Spec.Same.refl (h : Mem) : Same h h := fun _ _ => rfl
theorem Spec.Same.trans {h h' h'' : Mem} (a : Same h h') (hl : h.length ≤ h'.length) (b : Same h' h'') : Same h h'' :=
  fun j hj => (b j (by omega)).trans (a j hj)
theorem Spec.Same.append (h l : Mem) : Same h (h ++ l) := fun j hj => by
  rw [List.getElem?_append_left hj]

end Golisp
