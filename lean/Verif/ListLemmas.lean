import Verif.Spec
/- Helper lemmas about lists (not property statements). -/
namespace Golisp
open Data Spec

theorem isNil_cell (k : Kind) (a d : Data) : isNil (.cell k a d) = true ↔ a = .null ∧ d = .null := by
  cases a <;> cases d <;> simp [isNil]

theorem isNil_cell_false (k : Kind) (a d : Data) : isNil (.cell k a d) = false ↔ ¬ (a = .null ∧ d = .null) := by
  cases a <;> cases d <;> simp [isNil]

@[simp] theorem isNil_null : isNil .null = true := rfl
@[simp] theorem isNil_atom (a : Atom) : isNil (.atom a) = false := rfl
@[simp] theorem isNil_empty (k : Kind) : isNil (.cell k .null .null) = true := rfl

theorem elem_eq_noNull (x : Data) : elem x = noNull x := by
  cases x <;> simp [elem, noNull]

@[simp] theorem noNull_ne_null (x : Data) : noNull x ≠ .null := by cases x <;> simp [noNull]

theorem elem_ne_null (x : Data) : elem x ≠ .null := by rw [elem_eq_noNull]; simp

theorem elem_of_ne {x : Data} (h : x ≠ .null) : elem x = x := by simp [elem, h]

theorem Spec.Lst.toArray {d : Data} {xs : List Data} (h : Lst d xs) : toArray d = xs := by
  induction h with
  | null => rfl
  | empty k => simp [Data.toArray]
  | cons k a d xs hn _ _ ih =>
    have : isNil (.cell k a d) = false := (isNil_cell_false k a d).2 hn
    simp [Data.toArray, this, ih]

theorem Spec.Lst.chainLen {d : Data} {xs : List Data} (h : Lst d xs) : chainLen d = xs.length := by
  induction h with
  | null => rfl
  | empty k => simp [Data.chainLen]
  | cons k a d xs hn _ _ ih =>
    have : isNil (.cell k a d) = false := (isNil_cell_false k a d).2 hn
    simp [Data.chainLen, this, ih]

/-- A list value is a `ListP` value unless it is the empty dotted cell. -/
theorem Spec.Lst.isListP {d : Data} {xs : List Data} (h : Lst d xs) (hd : d ≠ .cell .acell .null .null) :
    isListP d = true := by
  cases h with
  | null => rfl
  | empty k => cases k <;> simp_all [Data.isListP, isPair, isAlist]
  | cons k a d xs hn hk _ => cases k <;> simp_all [Data.isListP, isPair, isAlist]

theorem Spec.Lst.length {d : Data} {xs : List Data} (h : Lst d xs) : Data.length d = xs.length := by
  have hc := h.chainLen
  cases h with
  | null => rfl
  | empty k => cases k <;> simp [Data.length, Data.chainLen]
  | cons k a d xs hn hk _ => cases k <;> simp_all [Data.length]

theorem Spec.Lst.isNil_iff {d : Data} {xs : List Data} (h : Lst d xs) : isNil d = true ↔ xs = [] := by
  cases h with
  | null => simp
  | empty k => simp
  | cons k a d xs hn hk _ => simp [isNil_cell, hn]

theorem Spec.Lst.nil_of_isNil {d : Data} (h : isNil d = true) : Lst d [] := by
  cases d with
  | null => exact .null
  | cell k a d => obtain ⟨rfl, rfl⟩ := (isNil_cell k a d).1 h; exact .empty k
  | atom a => simp at h

theorem Spec.Lst.unique {d : Data} {xs ys : List Data} (h : Lst d xs) (h' : Lst d ys) : xs = ys := by
  rw [← h.toArray, h'.toArray]

theorem Spec.Lst.cons' {a d : Data} {xs : List Data} (ha : a ≠ .null ∨ d ≠ .null) (h : Lst d xs) :
    Lst (.cons a d) (a :: xs) := .cons _ _ _ _ (by rintro ⟨h1, h2⟩; simp_all) (by simp) h

theorem Spec.Lst.listWithTail {d : Data} {ys : List Data} (h : Lst d ys) (xs : List Data) :
    Lst (listWithTail xs d) (xs.map elem ++ ys) := by
  induction xs with
  | nil => simpa [Data.listWithTail]
  | cons x xs ih =>
    simp only [Data.listWithTail, List.map_cons, List.cons_append, ← elem_eq_noNull]
    exact Lst.cons' (.inl (elem_ne_null x)) ih

theorem Spec.Lst.ofArray (xs : List Data) : Lst (ofArray xs) (xs.map elem) := by
  cases xs with
  | nil => exact .empty _
  | cons x xs =>
    have := Lst.listWithTail Lst.null (x :: xs)
    simpa [Data.ofArray] using this

theorem map_elem_id {xs : List Data} (h : Data.null ∉ xs) : xs.map elem = xs := by
  induction xs with
  | nil => rfl
  | cons x xs ih =>
    simp only [List.mem_cons, not_or] at h
    simp [ih h.2, elem_of_ne (Ne.symm h.1)]

theorem isListP_ofArray (xs : List Data) : isListP (ofArray xs) = true := by
  cases xs <;> simp [Data.ofArray, Data.listWithTail, isListP, isPair]

theorem revLoop_spec {d : Data} {xs : List Data} (h : Lst d xs) :
    ∀ (l : Data) (ys : List Data), Lst l ys → (l = .null → xs.head? ≠ some .null) →
      Lst (revLoop d l) (xs.reverse ++ ys) := by
  induction h with
  | null => intro l ys hl _; simpa [revLoop]
  | empty k => intro l ys hl _; simpa [revLoop]
  | cons k a d xs hn hk hd ih =>
    intro l ys hl hnull
    have : isNil (.cell k a d) = false := (isNil_cell_false k a d).2 hn
    simp only [revLoop, this]
    have hcons : Lst (.cons a l) (a :: ys) := by
      apply Lst.cons' _ hl
      by_cases hl' : l = .null
      · left; intro ha; exact hnull hl' (by simp [ha])
      · exact .inr hl'
    have := ih (.cons a l) (a :: ys) hcons (by simp)
    simpa using this

theorem takeLoop_spec {d : Data} {xs : List Data} (h : Lst d xs) :
    ∀ n, Prim.takeLoop n d = xs.take n := by
  induction h with
  | null => intro n; cases n <;> simp [Prim.takeLoop]
  | empty k => intro n; cases n <;> simp [Prim.takeLoop]
  | cons k a d xs hn hk hd ih =>
    intro n
    have : isNil (.cell k a d) = false := (isNil_cell_false k a d).2 hn
    cases n <;> simp [Prim.takeLoop, this, ih]

theorem dropLoop_spec {d : Data} {xs : List Data} (h : Lst d xs) :
    ∀ n, Lst (Prim.dropLoop n d) (xs.drop n) := by
  induction h with
  | null => intro n; cases n <;> simp [Prim.dropLoop] <;> exact .null
  | empty k => intro n; cases n <;> simp [Prim.dropLoop] <;> exact .empty k
  | cons k a d xs hn hk hd ih =>
    intro n
    have : isNil (.cell k a d) = false := (isNil_cell_false k a d).2 hn
    cases n with
    | zero => exact .cons k a d xs hn hk hd
    | succ n => simpa [Prim.dropLoop, this] using ih n

theorem cdr_Lst {d : Data} {xs : List Data} (h : Lst d xs) : Lst (cdr d) xs.tail := by
  cases h with
  | null => exact .null
  | empty k => exact .null
  | cons k a d xs hn hk hd => exact hd

theorem car_Lst {d : Data} {xs : List Data} (h : Lst d xs) : car d = xs.head?.getD .null := by
  cases h with
  | null => rfl
  | empty k => rfl
  | cons k a d xs hn hk hd => rfl

theorem cdrN_Lst {d : Data} {xs : List Data} (h : Lst d xs) (n : Nat) : Lst (cdrN n d) (xs.drop n) := by
  induction n generalizing d xs with
  | zero => simpa [cdrN]
  | succ n ih => simpa [cdrN, List.drop_tail] using ih (cdr_Lst h)

theorem nth_spec {d : Data} {xs : List Data} (h : Lst d xs) (n : Int) :
    nth d n = if 1 ≤ n ∧ n ≤ xs.length then (xs[(n - 1).toNat]?).getD .null else .null := by
  unfold nth
  rw [h.length]
  by_cases hd : d = .null
  · subst hd
    cases h
    simp
  · by_cases h1 : 1 ≤ n ∧ n ≤ xs.length
    · have : ¬ (d = .null ∨ n < 1 ∨ n > (xs.length : Int)) := by simp [hd]; omega
      rw [if_neg this, if_pos h1]
      have := car_Lst (cdrN_Lst h (n.toNat - 1))
      rw [this, List.head?_drop]
      congr 2; omega
    · have : (d = .null ∨ n < 1 ∨ n > (xs.length : Int)) := by omega
      rw [if_pos this, if_neg h1]

end Golisp
