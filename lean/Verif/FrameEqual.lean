import Verif.Frame
import Verif.FrameLemmas
import Verif.Equal
/- Equality of values with frames in them: specification and lemmas (C83). -/
namespace Golisp.Spec
open Golisp Data

mutual
/-- Values made of atoms other than NaN (frames included) and proper lists of such values. -/
inductive Tame : Data → Prop where
  | atom (a : Atom) : (∀ b, a = .flt b → Settled (.flt b)) → Tame (.atom a)
  | list (d : Data) : TameList d → Tame d
inductive TameList : Data → Prop where
  | null : TameList .null
  | cons (a d : Data) : Tame a → TameList d → TameList (.cons a d)
end

mutual
/-- Two values are the same, the slots of frames being `F i k`. -/
inductive Alike (F : Frames) : Data → Data → Prop where
  | nil {d o} : Lst d [] → Lst o [] → Alike F d o
  | atom {a b} : AtomEq a b → (∀ i, a ≠ .frame i) → Alike F (.atom a) (.atom b)
  | frame {i j} : AlikeFrame F i j → Alike F (.atom (.frame i)) (.atom (.frame j))
  | cell {a d a' d'} : ¬ Lst (.cons a d) [] → ¬ Lst (.cons a' d') [] → Alike F a a' → Alike F d d' →
      Alike F (.cons a d) (.cons a' d')
/-- Two frames are the same: they are one frame, or they have as many slots, and each slot of the first is the same as the
slot of the second of that name, or as nil if there is none. -/
inductive AlikeFrame (F : Frames) : Nat → Nat → Prop where
  | self {i} : AlikeFrame F i i
  | slots {i j} : (Frame.get? F i).length = (Frame.get? F j).length →
      (∀ k v, Frame.slot F i k = some v → Alike F v ((Frame.slot F j k).getD .null)) → AlikeFrame F i j
end

/-- Every slot holds a tame value, and no frame has two slots of one name. -/
def TameFrames (F : Frames) : Prop := ∀ i, (∀ p ∈ Frame.get? F i, Tame p.2) ∧ ((Frame.get? F i).map Prod.fst).Nodup
end Golisp.Spec

namespace Golisp
open Data Spec

/-- Structural equality with frames compared by `R`. -/
inductive SEqBy (R : Nat → Nat → Prop) : Data → Data → Prop where
  | nil {d o} : Lst d [] → Lst o [] → SEqBy R d o
  | atom {a b} : AtomEq a b → (∀ i, a ≠ .frame i) → SEqBy R (.atom a) (.atom b)
  | frame {i j} : R i j → SEqBy R (.atom (.frame i)) (.atom (.frame j))
  | cell {a d a' d'} : ¬ Lst (.cons a d) [] → ¬ Lst (.cons a' d') [] → SEqBy R a a' → SEqBy R d d' →
      SEqBy R (.cons a d) (.cons a' d')

variable {R : Nat → Nat → Prop}

theorem SEqBy.mono {R' : Nat → Nat → Prop} (h : ∀ i j, R i j → R' i j) {d o : Data} (hd : SEqBy R d o) : SEqBy R' d o := by
  induction hd with
  | nil h1 h2 => exact .nil h1 h2
  | atom h1 h2 => exact .atom h1 h2
  | frame h1 => exact .frame (h _ _ h1)
  | cell h1 h2 _ _ i1 i2 => exact .cell h1 h2 i1 i2

theorem Spec.Tame.cons_iff (a d : Data) : Tame (.cons a d) ↔ Tame a ∧ TameList d := by
  constructor
  · intro h; cases h with | list _ h => cases h with | cons _ _ h1 h2 => exact ⟨h1, h2⟩
  · rintro ⟨h1, h2⟩; exact .list _ (.cons _ _ h1 h2)
theorem Spec.TameList.cons_iff (a d : Data) : TameList (.cons a d) ↔ Tame a ∧ TameList d := by
  constructor
  · intro h; cases h with | cons _ _ h1 h2 => exact ⟨h1, h2⟩
  · rintro ⟨h1, h2⟩; exact .cons _ _ h1 h2
theorem Spec.TameList.not_atom {a : Atom} : ¬ TameList (.atom a) := by intro h; cases h
theorem Spec.Tame.atom_iff (a : Atom) : Tame (.atom a) ↔ ∀ b, a = .flt b → Settled (.flt b) := by
  constructor
  · intro h; cases h with
    | atom _ h => exact h
    | list _ h => exact absurd h TameList.not_atom
  · exact .atom a
theorem Spec.Tame.cell_kind {k : Kind} {a d : Data} (h : Tame (.cell k a d)) : k = .cons := by
  cases h with | list _ h => cases h; rfl

theorem SEqBy.cons_iff {a d a' d' : Data} (h : ¬ Lst (.cons a d) []) :
    SEqBy R (.cons a d) (.cons a' d') ↔ ¬ Lst (.cons a' d') [] ∧ SEqBy R a a' ∧ SEqBy R d d' := by
  constructor
  · intro hs
    cases hs with
    | nil h1 => exact absurd h1 h
    | cell _ h2 h3 h4 => exact ⟨h2, h3, h4⟩
  · rintro ⟨h2, h3, h4⟩; exact .cell h h2 h3 h4

theorem SEqBy.null_iff {o : Data} : SEqBy R .null o ↔ Lst o [] := by
  constructor
  · intro h; cases h; assumption
  · intro h; exact .nil .null h

private theorem chainLen_zero {o : Data} (ho : TameList o) (h : 0 = chainLen o) : Lst o [] := by
  cases ho with
  | null => exact .null
  | cons a d _ _ =>
    simp only [chainLen] at h
    split at h
    · rename_i hn; exact (isNil_iff_Lst _).1 hn
    · omega

theorem listEqLoop_by (eq : Data → Data → Bool) : ∀ (d o : Data), TameList d → TameList o →
    (∀ a o, size a < size d → Tame a → Tame o → (eq a o = true ↔ SEqBy R a o)) →
    ((chainLen d = chainLen o ∧ listEqLoop eq d o = true) ↔ SEqBy R d o) := by
  intro d
  induction d with
  | null =>
    intro o _ ho _
    rw [SEqBy.null_iff]
    simp only [chainLen, listEqLoop, and_true]
    exact ⟨chainLen_zero ho, fun h => by rw [h.chainLen]; rfl⟩
  | atom a => intro o h; exact absurd h TameList.not_atom
  | cell k a d _ ih =>
    intro o hd ho heq
    cases hd with
    | cons _ _ h1 h2 =>
    by_cases hn : Lst (.cons a d) []
    · have e := (isNil_iff_Lst _).2 hn
      simp only [chainLen, listEqLoop, e, if_true, and_true]
      constructor
      · exact fun h => .nil hn (chainLen_zero ho h)
      · intro h
        cases h with
        | nil _ h' => rw [h'.chainLen]; rfl
        | cell h' => exact absurd hn h'
    · have e := (isNil_false_iff_Lst _).2 hn
      simp only [chainLen, listEqLoop, e, Bool.false_eq_true, if_false, Bool.and_eq_true]
      cases ho with
      | null =>
        constructor
        · rintro ⟨h, _⟩; simp [chainLen] at h
        · intro h; cases h with | nil h' => exact absurd h' hn
      | cons a' d' h1' h2' =>
        by_cases hn' : Lst (.cons a' d') []
        · have e' := (isNil_iff_Lst _).2 hn'
          simp only [chainLen, e', if_true]
          constructor
          · rintro ⟨h, _⟩; omega
          · intro h; cases h with
            | nil h' => exact absurd h' hn
            | cell _ h' => exact absurd hn' h'
        · have e' := (isNil_false_iff_Lst _).2 hn'
          simp only [chainLen, e', Bool.false_eq_true, if_false, car, cdr]
          rw [SEqBy.cons_iff hn]
          have i := ih d' h2 h2' (fun x o hs => heq x o (by simp only [size] at hs ⊢; omega))
          have j := heq a a' (by simp only [size]; omega) h1 h1'
          rw [j, ← i]
          constructor
          · rintro ⟨h, h3, h4⟩; exact ⟨hn', h3, by omega, h4⟩
          · rintro ⟨_, h3, h, h4⟩; exact ⟨by omega, h3, h4⟩

private theorem atomEq_by [q : FrEq] (a b : Atom) (ha : Tame (.atom a)) (hb : Tame (.atom b)) :
    atomEq a b = true ↔ SEqBy (fun i j => q.same i j = true) (.atom a) (.atom b) := by
  rw [Tame.atom_iff] at ha hb
  by_cases hf : ∃ i, a = .frame i
  · obtain ⟨i, rfl⟩ := hf
    constructor
    · intro h
      cases b with
      | frame j => exact .frame h
      | _ => simp [atomEq] at h
    · intro h
      cases h with
      | nil h => exact absurd h not_Lst_atom
      | atom _ h => exact absurd rfl (h i)
      | frame h => exact h
  · have hf : ∀ i, a ≠ .frame i := fun i h => hf ⟨i, h⟩
    by_cases hg : ∃ j, b = .frame j
    · obtain ⟨j, rfl⟩ := hg
      constructor
      · intro h
        cases a <;> simp [atomEq] at h
        exact absurd rfl (hf _)
      · intro h
        cases h with
        | nil h => exact absurd h not_Lst_atom
        | frame h => exact absurd rfl (hf _)
        | atom h =>
          rcases h with rfl | ⟨_, _, _, h, _⟩
          · exact absurd rfl (hf j)
          · cases h
    · have hg : ∀ i, b ≠ .frame i := fun i h => hg ⟨i, h⟩
      have sa : Settled a := by
        cases a <;> first | trivial | exact ha _ rfl | exact hf _ rfl
      have sb : Settled b := by
        cases b <;> first | trivial | exact hb _ rfl | exact hg _ rfl
      rw [atomEq_iff a b sa sb]
      constructor
      · exact fun h => .atom h hf
      · intro h
        cases h with
        | nil h => exact absurd h not_Lst_atom
        | frame h => exact absurd rfl (hf _)
        | atom h => exact h

private theorem isEqualN_by [q : FrEq] : ∀ (n : Nat) (d o : Data), Tame d → Tame o → size d < n →
    (isEqualN n d o = true ↔ SEqBy (fun i j => q.same i j = true) d o) := by
  intro n
  induction n with
  | zero => intro d o _ _ h; omega
  | succ n ih =>
    intro d o hd ho hs
    unfold isEqualN
    by_cases hb : isNil d = true ∧ isNil o = true
    · simp only [hb.1, hb.2, Bool.and_self, if_true, true_iff]
      exact .nil ((isNil_iff_Lst _).1 hb.1) ((isNil_iff_Lst _).1 hb.2)
    · have hb' : (isNil d && isNil o) = false := by
        cases h1 : isNil d <;> cases h2 : isNil o <;> simp_all
      simp only [hb', Bool.false_eq_true, if_false]
      cases d with
      | null =>
        simp only [Bool.false_eq_true, false_iff, SEqBy.null_iff]
        rw [← isNil_iff_Lst]
        intro h; exact hb ⟨rfl, h⟩
      | atom a =>
        cases o with
        | null =>
          simp only [Bool.false_eq_true, false_iff]
          intro h; cases h with | nil h => exact not_Lst_atom h
        | cell k x y =>
          simp only [Bool.false_eq_true, false_iff]
          intro h; cases h with | nil h => exact not_Lst_atom h
        | atom b => exact atomEq_by a b hd ho
      | cell k a d =>
        have := hd.cell_kind; subst this
        cases o with
        | null =>
          simp only [Bool.false_eq_true, false_iff]
          intro h; cases h with
          | nil h => rw [← isNil_iff_Lst] at h; exact hb ⟨h, rfl⟩
        | atom b =>
          simp only [Bool.false_eq_true, false_iff]
          intro h; cases h with | nil _ h => exact not_Lst_atom h
        | cell k' a' d' =>
          have := ho.cell_kind; subst this
          have l := listEqLoop_by (isEqualN n) (.cons a d) (.cons a' d')
            ((TameList.cons_iff _ _).2 ((Tame.cons_iff _ _).1 hd))
            ((TameList.cons_iff _ _).2 ((Tame.cons_iff _ _).1 ho))
            (fun x o hx px po => ih x o px po (by change size x < size (.cell .cons a d) at hx; omega))
          rw [← l]
          simp only [length]
          by_cases hc : chainLen (Data.cons a d) = chainLen (Data.cons a' d')
          · simp [hc]
          · simp [hc]

theorem isEqual_by [q : FrEq] {d o : Data} (hd : Tame d) (ho : Tame o) :
    isEqual d o = true ↔ SEqBy (fun i j => q.same i j = true) d o := isEqualN_by _ d o hd ho (by omega)

/-! ### Frames -/

namespace Frame
variable {F : Frames}

private theorem slot_tame (h : TameFrames F) {j : Nat} {k : String} : Tame ((alGet (get? F j) k).getD .null) := by
  cases hk : alGet (get? F j) k with
  | none => exact .list _ .null
  | some v => exact (h j).1 _ (alGet_some_mem hk)

/-- One step of the comparison. -/
theorem sameN_succ (h : TameFrames F) {n i j : Nat} : sameN F (n + 1) i j = true ↔
    i = j ∨ ((get? F i).length = (get? F j).length ∧
      ∀ p ∈ get? F i, SEqBy (fun i j => sameN F n i j = true) p.2 ((alGet (get? F j) p.1).getD .null)) := by
  rw [sameN]
  simp only [Bool.or_eq_true, beq_iff_eq, Bool.and_eq_true, List.all_eq_true]
  refine or_congr Iff.rfl (and_congr Iff.rfl ?_)
  constructor
  · exact fun hp p hm => (@isEqual_by ⟨sameN F n⟩ _ _ ((h i).1 p hm) (slot_tame h)).1 (hp p hm)
  · exact fun hp p hm => (@isEqual_by ⟨sameN F n⟩ _ _ ((h i).1 p hm) (slot_tame h)).2 (hp p hm)

theorem sameN_mono (h : TameFrames F) {n : Nat} : ∀ {i j : Nat}, sameN F n i j = true → sameN F (n + 1) i j = true := by
  induction n with
  | zero => intro i j hs; cases hs
  | succ n ih =>
    intro i j hs
    rw [sameN_succ h] at hs ⊢
    exact hs.imp_right fun ⟨h1, h2⟩ => ⟨h1, fun p hp => (h2 p hp).mono fun _ _ => ih⟩

theorem sameN_le (h : TameFrames F) {n m : Nat} (hnm : n ≤ m) {i j : Nat} (hs : sameN F n i j = true) : sameN F m i j = true := by
  induction hnm with
  | refl => exact hs
  | step _ ih => exact sameN_mono h ih

theorem alGet_nodup {α : Type} {l : List (String × α)} (hn : (l.map Prod.fst).Nodup) {p : String × α} (hp : p ∈ l) :
    alGet l p.1 = some p.2 := by
  induction l with
  | nil => cases hp
  | cons q l ih =>
    obtain ⟨k, v⟩ := q
    simp only [List.map_cons, List.nodup_cons] at hn
    rcases List.mem_cons.1 hp with rfl | hp
    · simp [alGet]
    · have : k ≠ p.1 := fun h => hn.1 (h ▸ List.mem_map_of_mem hp)
      simp only [alGet, if_neg this]
      exact ih hn.2 hp

/-- What the comparison accepts is the same. -/
theorem same_of_by {d o : Data} (h : SEqBy (AlikeFrame F) d o) : Alike F d o := by
  induction h with
  | nil h1 h2 => exact .nil h1 h2
  | atom h1 h2 => exact .atom h1 h2
  | frame h1 => exact .frame h1
  | cell h1 h2 _ _ i1 i2 => exact .cell h1 h2 i1 i2

theorem sameN_sound (h : TameFrames F) {n : Nat} : ∀ {i j : Nat}, sameN F n i j = true → AlikeFrame F i j := by
  induction n with
  | zero => intro i j hs; cases hs
  | succ n ih =>
    intro i j hs
    rcases (sameN_succ h).1 hs with rfl | ⟨h1, h2⟩
    · exact .self
    · exact .slots h1 fun k v hv => same_of_by ((h2 _ (alGet_some_mem hv)).mono fun _ _ => ih)

private theorem bound_all {α : Type} {P : Nat → α → Prop} (hm : ∀ n m a, n ≤ m → P n a → P m a) (l : List α) (h : ∀ a ∈ l, ∃ n, P n a) :
    ∃ n, ∀ a ∈ l, P n a := by
  induction l with
  | nil => exact ⟨0, nofun⟩
  | cons a l ih =>
    obtain ⟨n, hn⟩ := h a List.mem_cons_self
    obtain ⟨m, hm'⟩ := ih fun b hb => h b (List.mem_cons_of_mem _ hb)
    refine ⟨max n m, fun b hb => ?_⟩
    rcases List.mem_cons.1 hb with rfl | hb
    · exact hm _ _ _ (Nat.le_max_left n m) hn
    · exact hm _ _ _ (Nat.le_max_right n m) (hm' b hb)

mutual
theorem Alike.reached (h : TameFrames F) {d o : Data} : Alike F d o → ∃ n, SEqBy (fun i j => sameN F n i j = true) d o
  | .nil h1 h2 => ⟨0, .nil h1 h2⟩
  | .atom h1 h2 => ⟨0, .atom h1 h2⟩
  | .frame hs => by
    obtain ⟨n, hn⟩ := AlikeFrame.reached h hs
    exact ⟨n, .frame hn⟩
  | .cell h1 h2 hs1 hs2 => by
    obtain ⟨n, hn⟩ := Alike.reached h hs1
    obtain ⟨m, hm⟩ := Alike.reached h hs2
    exact ⟨max n m, .cell h1 h2 (hn.mono fun _ _ => sameN_le h (Nat.le_max_left n m)) (hm.mono fun _ _ => sameN_le h (Nat.le_max_right n m))⟩
theorem AlikeFrame.reached (h : TameFrames F) {i j : Nat} : AlikeFrame F i j → ∃ n, sameN F n i j = true
  | .self => ⟨1, (sameN_succ h).2 (.inl rfl)⟩
  | .slots hl hs => by
    have : ∃ n, ∀ p ∈ get? F i, SEqBy (fun i j => sameN F n i j = true) p.2 ((alGet (get? F j) p.1).getD .null) := by
      refine bound_all (fun n m p hnm hp => hp.mono fun _ _ => sameN_le h hnm) _ fun p hp => ?_
      exact Alike.reached h (hs p.1 p.2 (alGet_nodup (h i).2 hp))
    obtain ⟨n, hn⟩ := this
    exact ⟨n + 1, (sameN_succ h).2 (.inr ⟨hl, hn⟩)⟩
end

/-! The comparison nested as deep as there are pairs of frames finds everything. -/

/-- Which pairs of the `L` frames have been found equal. -/
private def found (F : Frames) (L n : Nat) : List (Nat × Nat) :=
  ((List.range L).flatMap fun i => (List.range L).map fun j => (i, j)).filter fun p => sameN F n p.1 p.2

private theorem filter_mono {α : Type} {p q : α → Bool} (h : ∀ a, p a = true → q a = true) (l : List α) :
    (l.filter p).Sublist (l.filter q) := by
  induction l with
  | nil => exact .slnil
  | cons a l ih =>
    cases hp : p a with
    | true => simpa [hp, h a hp] using ih
    | false =>
      cases hq : q a with
      | true => simpa [hp, hq] using ih.cons a
      | false => simpa [hp, hq] using ih

private theorem found_le (h : TameFrames F) (L n : Nat) : (found F L n).Sublist (found F L (n + 1)) :=
  filter_mono (fun _ hp => sameN_mono h hp) _

private theorem found_mem {L n i j : Nat} (hi : i < L) (hj : j < L) : (i, j) ∈ found F L n ↔ sameN F n i j = true := by
  simp [found, hi, hj]

private theorem found_length (L n : Nat) : (found F L n).length ≤ L * L := by
  refine Nat.le_trans (List.length_filter_le _ _) ?_
  have : ∀ l : List Nat, (l.map fun _ => L).sum = l.length * L := by
    intro l
    induction l with
    | nil => simp
    | cons a l ih => simp [ih, Nat.add_mul, Nat.add_comm]
  simp [List.length_flatMap, this]

/-- Pairs with frames that do not exist are settled at once. -/
private theorem sameN_out (h : TameFrames F) {n i j : Nat} (hij : F.length ≤ i ∨ F.length ≤ j) (hs : sameN F (n + 1) i j = true) :
    sameN F 1 i j = true := by
  rw [sameN_succ h] at hs ⊢
  refine hs.imp_right fun ⟨h1, h2⟩ => ⟨h1, fun p hp => ?_⟩
  have he : ∀ k, F.length ≤ k → get? F k = [] := fun k hk => by simp [get?, List.getElem?_eq_none hk]
  rcases hij with hi | hj
  · rw [he i hi] at hp; cases hp
  · rw [he j hj] at h1
    rw [List.length_eq_zero_iff.1 h1] at hp; cases hp

private theorem stable_step (h : TameFrames F) {n : Nat} (hn : 1 ≤ n) (hs : found F F.length (n + 1) = found F F.length n) :
    found F F.length (n + 2) = found F F.length (n + 1) := by
  have key : ∀ i j, sameN F (n + 1) i j = true → sameN F n i j = true := by
    intro i j hij
    by_cases hi : i < F.length
    · by_cases hj : j < F.length
      · rw [← found_mem hi hj, ← hs, found_mem hi hj]; exact hij
      · exact sameN_le h hn (sameN_out h (.inr (Nat.le_of_not_lt hj)) hij)
    · exact sameN_le h hn (sameN_out h (.inl (Nat.le_of_not_lt hi)) hij)
  refine (List.filter_congr fun p _ => ?_)
  rw [Bool.eq_iff_iff]
  constructor
  · intro hp
    rw [sameN_succ h] at hp ⊢
    exact hp.imp_right fun ⟨h1, h2⟩ => ⟨h1, fun p hp => (h2 p hp).mono key⟩
  · exact sameN_mono h

private theorem stable (h : TameFrames F) {n : Nat} (hn : 1 ≤ n) (hs : found F F.length (n + 1) = found F F.length n) (m : Nat) :
    found F F.length (n + m) = found F F.length n := by
  have : ∀ m, found F F.length (n + m + 1) = found F F.length (n + m) := by
    intro m
    induction m with
    | zero => exact hs
    | succ m ih => exact stable_step h (Nat.le_add_right_of_le hn) ih
  induction m with
  | zero => rfl
  | succ m ih => exact (this m).trans ih

private theorem grows (h : TameFrames F) : ∀ n, (∃ m, m ≤ n ∧ found F F.length (m + 2) = found F F.length (m + 1)) ∨
    n + 1 ≤ (found F F.length (n + 2)).length := by
  intro n
  have step : ∀ n, found F F.length (n + 2) = found F F.length (n + 1) ∨
      (found F F.length (n + 1)).length < (found F F.length (n + 2)).length := by
    intro n
    have hs := found_le h F.length (n + 1)
    rcases Nat.lt_or_ge (found F F.length (n + 1)).length (found F F.length (n + 2)).length with hl | hl
    · exact .inr hl
    · exact .inl (hs.eq_of_length_le hl).symm
  induction n with
  | zero =>
    rcases step 0 with hs | hs
    · exact .inl ⟨0, Nat.le_refl 0, hs⟩
    · exact .inr (by omega)
  | succ n ih =>
    rcases ih with ⟨m, hm, hs⟩ | hl
    · exact .inl ⟨m, by omega, hs⟩
    · rcases step (n + 1) with hs | hs
      · exact .inl ⟨n + 1, Nat.le_refl _, hs⟩
      · exact .inr (Nat.lt_of_le_of_lt hl hs)

theorem sameN_enough (h : TameFrames F) {n i j : Nat} (hs : sameN F n i j = true) : sameN F (F.length * F.length + 1) i j = true := by
  rcases Nat.le_total n (F.length * F.length + 1) with hn | hn
  · exact sameN_le h hn hs
  by_cases hi : i < F.length
  · by_cases hj : j < F.length
    · rcases grows h (F.length * F.length) with ⟨m, hm, hst⟩ | hl
      · have e1 := stable h (n := m + 1) (by omega) hst (n - (m + 1))
        have e2 := stable h (n := m + 1) (by omega) hst (F.length * F.length + 1 - (m + 1))
        rw [Nat.add_sub_cancel' (by omega)] at e1 e2
        rw [← found_mem hi hj, e2, ← e1, found_mem hi hj]
        exact hs
      · have := found_length (F := F) F.length (F.length * F.length + 2)
        omega
    · cases n with
      | zero => cases hs
      | succ n => exact sameN_le h (by omega) (sameN_out h (.inr (Nat.le_of_not_lt hj)) hs)
  · cases n with
    | zero => cases hs
    | succ n => exact sameN_le h (by omega) (sameN_out h (.inl (Nat.le_of_not_lt hi)) hs)

/-- `IsEqual` decides sameness. -/
theorem isEqual_same (h : TameFrames F) {d o : Data} (hd : Tame d) (ho : Tame o) : @isEqual (eqIn F) d o = true ↔ Alike F d o := by
  rw [@isEqual_by (eqIn F) _ _ hd ho]
  constructor
  · exact fun hs => same_of_by (hs.mono fun _ _ => sameN_sound h)
  · intro hs
    obtain ⟨n, hn⟩ := Alike.reached h hs
    exact hn.mono fun _ _ => sameN_enough h

end Frame
end Golisp
