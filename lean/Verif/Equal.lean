import Verif.ListLemmas
/-
Lemmas about `IsEqual` on plain data (atoms and proper lists of plain data), used for C10, C11, C12, C60.
-/
namespace Golisp
open Data

namespace Spec

/-- Two atoms a user calls equal: same type and contents; for floats IEEE equality (so `0.0` and `-0.0` agree). -/
def AtomEq (a b : Atom) : Prop :=
  a = b ∨ ∃ x y, a = .flt x ∧ b = .flt y ∧ x.extractLsb' 0 31 = 0#31 ∧ y.extractLsb' 0 31 = 0#31

/-- Not the floating point NaN and not a frame (frames are compared by their contents, which are in the state:
`Props.Frames`). -/
def Settled : Atom → Prop
  | .flt b => ¬ (b.extractLsb' 23 8 = 255#8 ∧ b.extractLsb' 0 23 ≠ 0#23)
  | .frame _ => False
  | _ => True

/-- Structural equality of values: all the ways of writing the empty list are the same value. -/
inductive SEq : Data → Data → Prop where
  | nil (d o : Data) : Lst d [] → Lst o [] → SEq d o
  | atom (a b : Atom) : AtomEq a b → SEq (.atom a) (.atom b)
  | cell (a d a' d' : Data) : ¬ Lst (.cons a d) [] → ¬ Lst (.cons a' d') [] → SEq a a' → SEq d d' →
      SEq (.cons a d) (.cons a' d')

mutual
/-- Plain data: atoms other than NaN and frames, and proper lists (made of ordinary pairs) of plain data. -/
inductive Plain : Data → Prop where
  | atom (a : Atom) : Settled a → Plain (.atom a)
  | list (d : Data) : PlainList d → Plain d
inductive PlainList : Data → Prop where
  | null : PlainList .null
  | cons (a d : Data) : Plain a → PlainList d → PlainList (.cons a d)
end

/-- No frame anywhere in the value. -/
def Frameless : Data → Prop
  | .null => True
  | .cell _ a d => Frameless a ∧ Frameless d
  | .atom (.frame _) => False
  | .atom _ => True
end Spec
open Spec

theorem Spec.Plain.cons_iff (a d : Data) : Plain (.cons a d) ↔ Plain a ∧ PlainList d := by
  constructor
  · intro h; cases h with | list _ h => cases h with | cons _ _ h1 h2 => exact ⟨h1, h2⟩
  · rintro ⟨h1, h2⟩; exact .list _ (.cons _ _ h1 h2)

theorem Spec.PlainList.cons_iff (a d : Data) : PlainList (.cons a d) ↔ Plain a ∧ PlainList d := by
  constructor
  · intro h; cases h with | cons _ _ h1 h2 => exact ⟨h1, h2⟩
  · rintro ⟨h1, h2⟩; exact .cons _ _ h1 h2

theorem Spec.Plain.atom_iff (a : Atom) : Plain (.atom a) ↔ Settled a := by
  constructor
  · intro h; cases h with
    | atom _ h => exact h
    | list _ h => cases h
  · exact .atom a

theorem Spec.Plain.cell_kind {k : Kind} {a d : Data} (h : Plain (.cell k a d)) : k = .cons := by
  cases h with | list _ h => cases h; rfl

theorem Spec.PlainList.not_atom {a : Atom} : ¬ PlainList (.atom a) := by intro h; cases h

theorem Spec.PlainList.plain {d : Data} (h : PlainList d) : Plain d := .list d h

theorem isNil_iff_Lst (d : Data) : isNil d = true ↔ Lst d [] := by
  constructor
  · intro h
    cases d with
    | null => exact .null
    | atom _ => simp [isNil] at h
    | cell k a d =>
      cases a <;> cases d <;> simp [isNil] at h
      exact .empty k
  · intro h; cases h <;> simp [isNil]

theorem isNil_false_iff_Lst (d : Data) : isNil d = false ↔ ¬ Lst d [] := by
  rw [← isNil_iff_Lst]; simp

theorem atomEq_iff [FrEq] (a b : Atom) (ha : Settled a) (hb : Settled b) : atomEq a b = true ↔ AtomEq a b := by
  have aux : ∀ x : BitVec 32, Settled (.flt x) → f32IsNaN x = false := by
    intro x h
    simp only [Settled] at h
    simp only [f32IsNaN, Bool.and_eq_false_iff, beq_eq_false_iff_ne, Bool.not_eq_false', beq_iff_eq]
    by_cases h1 : BitVec.extractLsb' 23 8 x = 255#8
    · exact .inr (Classical.byContradiction fun h2 => h ⟨h1, h2⟩)
    · exact .inl h1
  cases a <;> cases b <;> simp [atomEq, AtomEq]
  case frame.frame => exact absurd ha (by simp [Settled])
  rename_i x y
  simp [f32Eq, aux x ha, aux y hb, f32IsZero]

theorem Spec.AtomEq.refl (a : Atom) : AtomEq a a := .inl rfl
theorem Spec.AtomEq.symm {a b : Atom} (h : AtomEq a b) : AtomEq b a := by
  rcases h with h | ⟨x, y, h1, h2, h3, h4⟩
  · exact .inl h.symm
  · exact .inr ⟨y, x, h2, h1, h4, h3⟩
theorem Spec.AtomEq.trans {a b c : Atom} (h : AtomEq a b) (h' : AtomEq b c) : AtomEq a c := by
  rcases h with rfl | ⟨x, y, h1, h2, h3, h4⟩
  · exact h'
  · rcases h' with rfl | ⟨x', y', h1', h2', h3', h4'⟩
    · exact .inr ⟨x, y, h1, h2, h3, h4⟩
    · exact .inr ⟨x, y', h1, h2', h3, h4'⟩

theorem not_Lst_atom {a : Atom} {xs : List Data} : ¬ Lst (.atom a) xs := by intro h; cases h

theorem Spec.SEq.symm {d o : Data} (h : SEq d o) : SEq o d := by
  induction h with
  | nil d o h1 h2 => exact .nil _ _ h2 h1
  | atom a b h => exact .atom _ _ h.symm
  | cell a d a' d' h1 h2 _ _ i1 i2 => exact .cell _ _ _ _ h2 h1 i1 i2

theorem Spec.SEq.trans {d o e : Data} (h : SEq d o) (h' : SEq o e) : SEq d e := by
  induction h generalizing e with
  | nil d o h1 h2 =>
    cases h' with
    | nil _ _ _ h3 => exact .nil _ _ h1 h3
    | atom => exact absurd h2 not_Lst_atom
    | cell _ _ _ _ h3 => exact absurd h2 h3
  | atom a b h =>
    cases h' with
    | nil _ _ h3 => exact absurd h3 not_Lst_atom
    | atom _ _ h3 => exact .atom _ _ (h.trans h3)
  | cell a d a' d' h1 h2 _ _ i1 i2 =>
    cases h' with
    | nil _ _ h3 => exact absurd h3 h2
    | cell _ _ _ _ _ h4 h5 h6 => exact .cell _ _ _ _ h1 h4 (i1 h5) (i2 h6)

theorem Spec.SEq.refl_aux : ∀ d : Data, Plain d → SEq d d := by
  intro d
  induction d with
  | null => intro _; exact .nil _ _ .null .null
  | atom a => intro _; exact .atom _ _ (.refl a)
  | cell k a d ia id =>
    intro h
    have := h.cell_kind; subst this
    by_cases hn : Lst (.cons a d) []
    · exact .nil _ _ hn hn
    · obtain ⟨h1, h2⟩ := (Plain.cons_iff a d).1 h
      exact .cell _ _ _ _ hn hn (ia h1) (id h2.plain)

theorem Spec.SEq.refl {d : Data} (h : Plain d) : SEq d d := SEq.refl_aux d h

/-- Structural equality as one step. -/
theorem Spec.SEq.cons_iff {a d a' d' : Data} (h : ¬ Lst (.cons a d) []) :
    SEq (.cons a d) (.cons a' d') ↔ ¬ Lst (.cons a' d') [] ∧ SEq a a' ∧ SEq d d' := by
  constructor
  · intro hs
    cases hs with
    | nil _ _ h1 => exact absurd h1 h
    | cell _ _ _ _ _ h2 h3 h4 => exact ⟨h2, h3, h4⟩
  · rintro ⟨h2, h3, h4⟩; exact .cell _ _ _ _ h h2 h3 h4

theorem Spec.SEq.null_iff {o : Data} : SEq .null o ↔ Lst o [] := by
  constructor
  · intro h; cases h; assumption
  · intro h; exact .nil _ _ .null h

theorem chainLen_eq_of_SEq {d o : Data} (h : SEq d o) (hd : PlainList d) (ho : PlainList o) : chainLen d = chainLen o := by
  induction h with
  | nil d o h1 h2 => rw [h1.chainLen, h2.chainLen]
  | atom => exact absurd hd PlainList.not_atom
  | cell a d a' d' h1 h2 _ _ _ i2 =>
    have e1 := (isNil_false_iff_Lst (.cons a d)).2 h1
    have e2 := (isNil_false_iff_Lst (.cons a' d')).2 h2
    simp only [chainLen, e1, e2, Bool.false_eq_true, if_false]
    rw [i2 ((PlainList.cons_iff _ _).1 hd).2 ((PlainList.cons_iff _ _).1 ho).2]

theorem listEqLoop_iff (eq : Data → Data → Bool) : ∀ (d o : Data), PlainList d → PlainList o →
    (∀ a o, size a < size d → Plain a → Plain o → (eq a o = true ↔ SEq a o)) →
    ((chainLen d = chainLen o ∧ listEqLoop eq d o = true) ↔ SEq d o) := by
  intro d
  induction d with
  | null =>
    intro o _ ho _
    rw [SEq.null_iff]
    simp only [chainLen, listEqLoop, and_true]
    constructor
    · intro h
      cases ho with
      | null => exact .null
      | cons a d _ _ =>
        simp only [chainLen] at h
        split at h
        · rename_i hn; exact (isNil_iff_Lst _).1 hn
        · omega
    · intro h; rw [h.chainLen]; rfl
  | atom a => intro o h; exact absurd h PlainList.not_atom
  | cell k a d _ ih =>
    intro o hd ho heq
    cases hd with
    | cons _ _ h1 h2 =>
    by_cases hn : Lst (.cons a d) []
    · have e := (isNil_iff_Lst _).2 hn
      simp only [chainLen, listEqLoop, e, if_true, and_true]
      constructor
      · intro h
        refine .nil _ _ hn ?_
        cases ho with
        | null => exact .null
        | cons a d _ _ =>
          simp only [chainLen] at h
          split at h
          · rename_i hn; exact (isNil_iff_Lst _).1 hn
          · omega
      · intro h
        cases h with
        | nil _ _ _ h' => rw [h'.chainLen]; rfl
        | cell _ _ _ _ h' => exact absurd hn h'
    · have e := (isNil_false_iff_Lst _).2 hn
      simp only [chainLen, listEqLoop, e, Bool.false_eq_true, if_false, Bool.and_eq_true]
      cases ho with
      | null =>
        constructor
        · rintro ⟨h, _⟩; simp [chainLen] at h
        · intro h; cases h with | nil _ _ h' => exact absurd h' hn
      | cons a' d' h1' h2' =>
        by_cases hn' : Lst (.cons a' d') []
        · have e' := (isNil_iff_Lst _).2 hn'
          simp only [chainLen, e', if_true]
          constructor
          · rintro ⟨h, _⟩; omega
          · intro h; cases h with
            | nil _ _ h' => exact absurd h' hn
            | cell _ _ _ _ _ h' => exact absurd hn' h'
        · have e' := (isNil_false_iff_Lst _).2 hn'
          simp only [chainLen, e', Bool.false_eq_true, if_false, car, cdr]
          rw [SEq.cons_iff hn]
          have i := ih d' h2 h2' (fun x o hs => heq x o (by simp only [size] at hs ⊢; omega))
          have j := heq a a' (by simp only [size]; omega) h1 h1'
          rw [j, ← i]
          constructor
          · rintro ⟨h, h3, h4⟩; exact ⟨hn', h3, by omega, h4⟩
          · rintro ⟨_, h3, h, h4⟩; exact ⟨by omega, h3, h4⟩

/-- `IsEqual` with enough fuel decides structural equality on plain data. -/
theorem isEqualN_iff [FrEq] : ∀ (n : Nat) (d o : Data), Plain d → Plain o → size d < n → (isEqualN n d o = true ↔ SEq d o) := by
  intro n
  induction n with
  | zero => intro d o _ _ h; omega
  | succ n ih =>
    intro d o hd ho hs
    unfold isEqualN
    by_cases hb : isNil d = true ∧ isNil o = true
    · simp only [hb.1, hb.2, Bool.and_self, if_true, true_iff]
      exact .nil _ _ ((isNil_iff_Lst _).1 hb.1) ((isNil_iff_Lst _).1 hb.2)
    · have hb' : (isNil d && isNil o) = false := by
        cases h1 : isNil d <;> cases h2 : isNil o <;> simp_all
      simp only [hb', Bool.false_eq_true, if_false]
      cases d with
      | null =>
        simp only [Bool.false_eq_true, false_iff, SEq.null_iff]
        rw [← isNil_iff_Lst]
        intro h; exact hb ⟨rfl, h⟩
      | atom a =>
        cases o with
        | null =>
          simp only [Bool.false_eq_true, false_iff]
          intro h; cases h with | nil _ _ h => exact not_Lst_atom h
        | cell k x y =>
          simp only [Bool.false_eq_true, false_iff]
          intro h; cases h with | nil _ _ h => exact not_Lst_atom h
        | atom b =>
          simp only
          rw [atomEq_iff a b ((Plain.atom_iff a).1 hd) ((Plain.atom_iff b).1 ho)]
          constructor
          · exact .atom a b
          · intro h; cases h with
            | nil _ _ h => exact absurd h not_Lst_atom
            | atom _ _ h => exact h
      | cell k a d =>
        have := hd.cell_kind; subst this
        cases o with
        | null =>
          simp only [Bool.false_eq_true, false_iff]
          intro h; cases h with
          | nil _ _ h => rw [← isNil_iff_Lst] at h; exact hb ⟨h, rfl⟩
        | atom b =>
          simp only [Bool.false_eq_true, false_iff]
          intro h; cases h with | nil _ _ _ h => exact not_Lst_atom h
        | cell k' a' d' =>
          have := ho.cell_kind; subst this
          have l := listEqLoop_iff (isEqualN n) (.cons a d) (.cons a' d')
            ((PlainList.cons_iff _ _).2 ((Plain.cons_iff _ _).1 hd))
            ((PlainList.cons_iff _ _).2 ((Plain.cons_iff _ _).1 ho))
            (fun x o hx px po => ih x o px po (by change size x < size (.cell .cons a d) at hx; omega))
          rw [← l]
          simp only [length]
          by_cases hc : chainLen (Data.cons a d) = chainLen (Data.cons a' d')
          · simp [hc]
          · simp [hc]

/-- `equal?` on plain data decides structural equality. -/
theorem isEqual_iff [FrEq] {d o : Data} (hd : Plain d) (ho : Plain o) : isEqual d o = true ↔ SEq d o :=
  isEqualN_iff _ d o hd ho (by omega)

theorem isEqual_false_iff [FrEq] {d o : Data} (hd : Plain d) (ho : Plain o) : isEqual d o = false ↔ ¬ SEq d o := by
  rw [← isEqual_iff hd ho]; simp

end Golisp
