import Verif.Equal
/-
Helper lemmas for the set operations (`prim_list_set.go`) and association lists (`data.go:309-333,741-769`).
-/
namespace Golisp
open Data Spec Prim

theorem copy_plain [FrEq] : ∀ d : Data, Plain d → copy d = d := by
  intro d
  induction d with
  | null => intro _; simp [copy]
  | atom a => intro _; simp [copy]
  | cell k a d ia id =>
    intro h
    have := h.cell_kind; subst this
    obtain ⟨h1, h2⟩ := (Plain.cons_iff a d).1 h
    simp only [copy, ia h1, id h2.plain]
    split <;> rfl

theorem Spec.PlainList.elems {d : Data} {xs : List Data} (h : Lst d xs) (hp : PlainList d) : ∀ x ∈ xs, Plain x := by
  induction h with
  | null => simp
  | empty k => simp
  | cons k a d xs hn hk hd ih =>
    cases hp with
    | cons _ _ h1 h2 =>
      intro x hx
      rcases List.mem_cons.1 hx with rfl | hx
      · exact h1
      · exact ih h2 x hx

theorem setLastCdr_Lst (x : Data) (hx : x ≠ .null) (px : Plain x) : ∀ (r : Data) (xs : List Data), Lst r xs → PlainList r → xs ≠ [] →
    Lst (setLastCdr (Data.cons x .null) r) (xs ++ [x]) ∧ PlainList (setLastCdr (Data.cons x .null) r) := by
  intro r
  induction r with
  | null => intro xs h; cases h; simp
  | atom => intro xs h; exact absurd h not_Lst_atom
  | cell k a d _ ih =>
    intro xs h hp hne
    cases h with
    | empty => simp at hne
    | cons _ _ _ ys hn hk hd =>
      cases hp with
      | cons _ _ h1 h2 =>
      have l1 : Lst (Data.cons x .null) [x] := .cons _ _ _ _ (by simp [hx]) (by simp) .null
      by_cases hnil : isNil d = true
      · have : ys = [] := by
          have := (isNil_iff_Lst d).1 hnil
          exact Spec.Lst.unique hd this
        subst this
        unfold setLastCdr
        simp only [hnil, if_true]
        exact ⟨.cons _ _ _ _ (by simp) hk l1, .cons _ _ h1 (.cons _ _ px .null)⟩
      · have hys : ys ≠ [] := by
          rintro rfl; exact hnil ((isNil_iff_Lst d).2 hd)
        obtain ⟨i1, i2⟩ := ih ys hd h2 hys
        cases d with
        | null => simp [isNil] at hnil
        | atom => exact absurd hd not_Lst_atom
        | cell k' a' d' =>
          simp only [setLastCdr, hnil, Bool.false_eq_true, if_false] at i1 i2 ⊢
          refine ⟨.cons _ _ _ _ ?_ hk i1, .cons _ _ h1 i2⟩
          rintro ⟨_, h⟩
          rw [h] at i1
          cases ys <;> simp at hys <;> cases i1

theorem append1_Lst [FrEq] {x r : Data} {xs : List Data} (hx : x ≠ .null) (px : Plain x) (h : Lst r xs) (hp : PlainList r) :
    Lst (append1 r x) (xs ++ [x]) ∧ PlainList (append1 r x) := by
  by_cases hnil : isNil r = true
  · have : xs = [] := Spec.Lst.unique h ((isNil_iff_Lst r).1 hnil)
    subst this
    simp only [append1, hnil, if_true]
    exact ⟨.cons _ _ _ _ (by simp [hx]) (by simp) .null, .cons _ _ px .null⟩
  · have hxs : xs ≠ [] := by rintro rfl; exact hnil ((isNil_iff_Lst r).2 h)
    simp only [append1, hnil, Bool.false_eq_true, if_false, copy_plain r hp.plain]
    exact setLastCdr_Lst x hx px r xs h hp hxs

theorem memp_iff [FrEq] (x : Data) {r : Data} {xs : List Data} (h : Lst r xs) :
    memp x r = true ↔ ∃ y ∈ xs, isEqual x y = true := by
  induction h with
  | null => simp [memp]
  | empty k => simp [memp]
  | cons k a d xs hn hk hd ih =>
    have hnn : isNil (.cell k a d) = false := (isNil_cell_false k a d).2 hn
    simp only [memp, hnn, Bool.false_eq_true, if_false]
    by_cases he : isEqual x a = true
    · simp [he]
    · simp [he, ih]

theorem removeFirst_Lst [FrEq] (x : Data) : ∀ (r : Data) (xs : List Data), Lst r xs → PlainList r → (∀ y ∈ xs, y ≠ .null) →
    Lst (removeFirst x r) (xs.eraseP (isEqual x)) ∧ PlainList (removeFirst x r) := by
  intro r
  induction r with
  | null => intro xs h hp _; cases h; exact ⟨.null, .null⟩
  | atom => intro xs h; exact absurd h not_Lst_atom
  | cell k a d _ ih =>
    intro xs h hp hnn
    cases h with
    | empty => simpa [removeFirst, isNil] using ⟨Spec.Lst.empty k, hp⟩
    | cons _ _ _ ys hn hk hd =>
      cases hp with
      | cons _ _ h1 h2 =>
      have e : isNil (.cell .cons a d) = false := (isNil_cell_false .cons a d).2 hn
      simp only [removeFirst, e, Bool.false_eq_true, if_false]
      by_cases he : isEqual x a = true
      · simp only [he, if_true, List.eraseP_cons_of_pos]; exact ⟨hd, h2⟩
      · simp only [he, Bool.false_eq_true, if_false, not_false_eq_true, List.eraseP_cons_of_neg]
        obtain ⟨i1, i2⟩ := ih ys hd h2 (fun y hy => hnn y (by simp [hy]))
        exact ⟨.cons _ _ _ _ (fun h => hnn a (by simp) h.1) hk i1, .cons _ _ h1 i2⟩

/-- A list argument of the set operations: a proper list of plain non-nil elements. -/
def Spec.PList (d : Data) (xs : List Data) : Prop := Lst d xs ∧ PlainList d ∧ ∀ x ∈ xs, x ≠ .null

theorem Spec.PList.plain {d : Data} {xs : List Data} (h : PList d xs) : ∀ x ∈ xs, Plain x :=
  PlainList.elems h.1 h.2.1

/-- Keep the first of each class of structurally equal elements. -/
def Spec.Mem (x : Data) (xs : List Data) : Prop := ∃ y ∈ xs, SEq x y

theorem memp_Mem [FrEq] {x r : Data} {xs : List Data} (px : Plain x) (h : PList r xs) : memp x r = true ↔ Mem x xs := by
  rw [memp_iff x h.1]
  constructor
  · rintro ⟨y, hy, he⟩; exact ⟨y, hy, (isEqual_iff px (h.plain y hy)).1 he⟩
  · rintro ⟨y, hy, he⟩; exact ⟨y, hy, (isEqual_iff px (h.plain y hy)).2 he⟩

theorem unionInner_spec [FrEq] : ∀ (ys : List Data) (r : Data) (xs : List Data), PList r xs → (∀ y ∈ ys, Plain y ∧ y ≠ .null) →
    xs.Pairwise (fun a b => ¬ SEq a b) →
    ∃ zs, PList (unionInner ys r) (xs ++ zs) ∧ zs.Sublist ys ∧ (xs ++ zs).Pairwise (fun a b => ¬ SEq a b) ∧
      (∀ x, Mem x (xs ++ zs) ↔ Mem x xs ∨ Mem x ys) := by
  intro ys
  induction ys with
  | nil => intro r xs h _ hp; exact ⟨[], by simpa [unionInner] using h, by simp, by simpa using hp, by simp [Mem]⟩
  | cons y ys ih =>
    intro r xs h hy hp
    have py := (hy y (by simp)).1
    have ny := (hy y (by simp)).2
    by_cases hm : memp y r = true
    · obtain ⟨zs, h1, h2, h3, h4⟩ := ih r xs h (fun z hz => hy z (by simp [hz])) hp
      refine ⟨zs, by simpa [unionInner, hm] using h1, h2.cons _, h3, fun x => ?_⟩
      rw [h4]
      have hm' := (memp_Mem py h).1 hm
      constructor
      · rintro (h | ⟨z, hz, hs⟩)
        · exact .inl h
        · exact .inr ⟨z, by simp [hz], hs⟩
      · rintro (h | ⟨z, hz, hs⟩)
        · exact .inl h
        · rcases List.mem_cons.1 hz with rfl | hz
          · obtain ⟨w, hw, hs'⟩ := hm'
            exact .inl ⟨w, hw, hs.trans hs'⟩
          · exact .inr ⟨z, hz, hs⟩
    · have ha := append1_Lst ny py h.1 h.2.1
      have hP : PList (append1 r y) (xs ++ [y]) := ⟨ha.1, ha.2, by
        intro z hz; rcases List.mem_append.1 hz with hz | hz
        · exact h.2.2 z hz
        · simp at hz; subst hz; exact ny⟩
      have hp' : (xs ++ [y]).Pairwise (fun a b => ¬ SEq a b) := by
        rw [List.pairwise_append]
        refine ⟨hp, by simp, ?_⟩
        intro a ha' b hb hs
        simp at hb; subst hb
        exact hm ((memp_Mem py h).2 ⟨a, ha', hs.symm⟩)
      obtain ⟨zs, h1, h2, h3, h4⟩ := ih _ _ hP (fun z hz => hy z (by simp [hz])) hp'
      refine ⟨y :: zs, by simpa [unionInner, hm] using h1, h2.cons_cons _, by simpa using h3, fun x => ?_⟩
      have := h4 x
      simp only [List.append_assoc, List.singleton_append] at this
      rw [this]
      constructor
      · rintro (⟨z, hz, hs⟩ | ⟨z, hz, hs⟩)
        · rcases List.mem_append.1 hz with hz | hz
          · exact .inl ⟨z, hz, hs⟩
          · simp at hz; subst hz; exact .inr ⟨z, by simp, hs⟩
        · exact .inr ⟨z, by simp [hz], hs⟩
      · rintro (⟨z, hz, hs⟩ | ⟨z, hz, hs⟩)
        · exact .inl ⟨z, by simp [hz], hs⟩
        · rcases List.mem_cons.1 hz with rfl | hz
          · exact .inl ⟨z, by simp, hs⟩
          · exact .inr ⟨z, hz, hs⟩

theorem PList.isListP {d : Data} {xs : List Data} (h : PList d xs) : isListP d = true := by
  cases h.2.1 <;> rfl

theorem unionLoop_spec [FrEq] : ∀ (args : List (Data × List Data)) (r : Data) (xs : List Data), PList r xs →
    (∀ p ∈ args, PList p.1 p.2) → xs.Pairwise (fun a b => ¬ SEq a b) →
    ∃ r' zs, unionLoop (args.map (·.1)) r = .ok r' ∧ PList r' (xs ++ zs) ∧ zs.Sublist (args.flatMap (·.2)) ∧
      (xs ++ zs).Pairwise (fun a b => ¬ SEq a b) ∧
      (∀ x, Mem x (xs ++ zs) ↔ Mem x xs ∨ ∃ p ∈ args, Mem x p.2) := by
  intro args
  induction args with
  | nil => intro r xs h _ hp; exact ⟨r, [], rfl, by simpa using h, by simp, by simpa using hp, by simp⟩
  | cons p ps ih =>
    intro r xs h ha hp
    have hp1 := ha p (by simp)
    obtain ⟨zs, h1, h2, h3, h4⟩ := unionInner_spec p.2 r xs h
      (fun y hy => ⟨hp1.plain y hy, hp1.2.2 y hy⟩) hp
    obtain ⟨r', ws, i1, i2, i3, i4, i5⟩ := ih _ _ h1 (fun q hq => ha q (by simp [hq])) h3
    refine ⟨r', zs ++ ws, ?_, by simpa using i2, ?_, by simpa using i4, fun x => ?_⟩
    · simp only [List.map_cons, unionLoop, PList.isListP hp1, hp1.1.toArray]
      simpa using i1
    · simp only [List.flatMap_cons]; exact h2.append i3
    · have := i5 x
      simp only [List.append_assoc] at this
      rw [this, h4 x]
      simp [or_assoc]

theorem removeLoop_spec [FrEq] (dropIt : Data → Bool) (hd : ∀ a b, Plain a → Plain b → SEq a b → dropIt a = dropIt b) :
    ∀ (xs pre : List Data) (r : Data), PList r (pre ++ xs) → (∀ a ∈ pre, dropIt a = false) →
    PList (removeLoop dropIt xs r) (pre ++ xs.filter (fun x => !dropIt x)) := by
  intro xs
  induction xs with
  | nil => intro pre r h _; simpa [removeLoop] using h
  | cons x xs ih =>
    intro pre r h hpre
    by_cases hx : dropIt x = true
    · have px : Plain x := h.plain x (by simp)
      obtain ⟨h1, h2⟩ := removeFirst_Lst x r _ h.1 h.2.1 h.2.2
      have herase : (pre ++ x :: xs).eraseP (isEqual x) = pre ++ xs := by
        rw [List.eraseP_append_right _ (fun a ha => ?_), List.eraseP_cons_of_pos]
        · exact (isEqual_iff px px).2 (.refl px)
        · have pa := h.plain a (by simp [ha])
          intro hs
          rw [isEqual_iff px pa] at hs
          have e1 := hd _ _ px pa hs
          rw [hx, hpre a ha] at e1
          cases e1
      rw [herase] at h1
      have hP : PList (removeFirst x r) (pre ++ xs) := ⟨h1, h2, fun y hy => h.2.2 y (by
        rcases List.mem_append.1 hy with hy | hy <;> simp [hy])⟩
      have := ih pre _ hP hpre
      simpa [removeLoop, hx] using this
    · have := ih (pre ++ [x]) r (by simpa using h) (by
        intro a ha; rcases List.mem_append.1 ha with ha | ha
        · exact hpre a ha
        · simp at ha; subst ha; simpa using hx)
      simpa [removeLoop, hx] using this

theorem setLoop_spec [FrEq] (name : String) (dropIt : Data → Data → Bool) :
    ∀ (args : List (Data × List Data)) (r : Data) (xs : List Data), PList r xs →
    (∀ p ∈ args, PList p.1 p.2) →
    (∀ p ∈ args, ∀ a b, Plain a → Plain b → SEq a b → dropIt a p.1 = dropIt b p.1) →
    ∃ r', setLoop name dropIt (args.map (·.1)) r = .ok r' ∧
      PList r' (xs.filter fun x => args.all fun p => !dropIt x p.1) := by
  intro args
  induction args with
  | nil => intro r xs h _ _; exact ⟨r, rfl, by rw [List.filter_eq_self.2 (by simp)]; exact h⟩
  | cons p ps ih =>
    intro r xs h ha hd
    have h1 := removeLoop_spec (fun x => dropIt x p.1) (hd p (by simp)) xs [] r (by simpa using h) (by simp)
    simp only [List.nil_append] at h1
    obtain ⟨r', i1, i2⟩ := ih _ _ h1 (fun q hq => ha q (by simp [hq])) (fun q hq => hd q (by simp [hq]))
    refine ⟨r', ?_, ?_⟩
    · simp only [List.map_cons, setLoop, PList.isListP (ha p (by simp)), h.1.toArray]
      simpa using i1
    · rw [List.filter_filter] at i2
      simpa [List.all_cons, Bool.and_comm] using i2

/-! ### Association lists -/

/-- `Alist d kvs`: `d` is an association list (alist cells or ordinary pairs) with atom keys, none of them NaN. -/
inductive Spec.Alist : Data → List (Atom × Data) → Prop where
  | null : Alist .null []
  | empty (k : Kind) : Alist (.cell k .null .null) []
  | cons (k pk : Kind) (a : Atom) (v d : Data) (kvs : List (Atom × Data)) :
      k ≠ .acell → pk ≠ .alist → Settled a → Alist d kvs → Alist (.cell k (.cell pk (.atom a) v) d) ((a, v) :: kvs)

open Classical in
/-- Value of the first entry whose key equals `a`. -/
noncomputable def Spec.lookup (a : Atom) : List (Atom × Data) → Option Data
  | [] => none
  | (k, v) :: kvs => if AtomEq k a then some v else lookup a kvs

theorem isEqual_atoms [FrEq] {a b : Atom} (ha : Settled a) (hb : Settled b) :
    isEqual (.atom a) (.atom b) = true ↔ AtomEq a b := by
  rw [isEqual_iff (.atom a ha) (.atom b hb)]
  constructor
  · intro h; cases h with
    | nil _ _ h => exact absurd h not_Lst_atom
    | atom _ _ h => exact h
  · exact .atom a b

theorem lookup_congr {a b : Atom} (h : AtomEq a b) (kvs : List (Atom × Data)) : lookup a kvs = lookup b kvs := by
  induction kvs with
  | nil => rfl
  | cons p ps ih =>
    rcases p with ⟨k, v⟩
    simp only [lookup, ih]
    by_cases hk : AtomEq k a
    · simp [hk, hk.trans h]
    · have : ¬ AtomEq k b := fun h' => hk (h'.trans h.symm)
      simp [hk, this]

theorem Alist.notNaN {d : Data} {kvs : List (Atom × Data)} (h : Alist d kvs) : ∀ p ∈ kvs, Settled p.1 := by
  induction h with
  | null => simp
  | empty => simp
  | cons k pk a v d kvs _ _ ha _ ih =>
    intro p hp; rcases List.mem_cons.1 hp with rfl | hp
    · exact ha
    · exact ih p hp

theorem assocLoop_spec [FrEq] (a : Atom) (ha : Settled a) {d : Data} {kvs : List (Atom × Data)} (h : Alist d kvs) :
    (lookup a kvs = none → assocLoop isEqual (.atom a) d = .ok .null) ∧
    (∀ v, lookup a kvs = some v → ∃ pk k, pk ≠ .alist ∧ AtomEq k a ∧ assocLoop isEqual (.atom a) d = .ok (.cell pk (.atom k) v)) := by
  induction h with
  | null => simp [assocLoop, lookup]
  | empty => simp [assocLoop, lookup, isNil]
  | cons k pk b v d kvs hk hpk hb _ ih =>
    have e1 : isNil (.cell k (.cell pk (.atom b) v) d) = false := by cases d <;> rfl
    have e2 : (!isDotted (.cell pk (.atom b) v) && !isPair (.cell pk (.atom b) v)) = false := by
      cases pk <;> simp_all [isDotted, isPair]
    simp only [assocLoop, e1, e2, Bool.false_eq_true, if_false, car, lookup]
    by_cases he : AtomEq b a
    · simp only [he, if_true, (isEqual_atoms hb ha).2 he]
      refine ⟨by simp, fun w hw => ⟨pk, b, hpk, he, ?_⟩⟩
      simp at hw; subst hw; rfl
    · have : isEqual (.atom b) (.atom a) = false := by
        rw [← Bool.not_eq_true, isEqual_atoms hb ha]; exact he
      simp only [he, if_false, this, Bool.false_eq_true]
      exact ih

theorem setPair_spec [FrEq] (a : Atom) (w : Data) (ha : Settled a) {d : Data} {kvs : List (Atom × Data)} (h : Alist d kvs)
    (hf : lookup a kvs ≠ none) :
    ∃ kvs', Alist (setPair isEqual (.atom a) w d) kvs' ∧ lookup a kvs' = some w ∧ kvs'.map (·.1) = kvs.map (·.1) ∧
      ∀ b, ¬ AtomEq b a → lookup b kvs' = lookup b kvs := by
  induction h with
  | null => simp [lookup] at hf
  | empty => simp [lookup] at hf
  | cons k pk c v d kvs hk hpk hc hd ih =>
    have e1 : isNil (.cell k (.cell pk (.atom c) v) d) = false := by cases d <;> rfl
    have e2 : (!isDotted (.cell pk (.atom c) v) && !isPair (.cell pk (.atom c) v)) = false := by
      cases pk <;> simp_all [isDotted, isPair]
    simp only [setPair, e1, e2, Bool.false_eq_true, if_false, car]
    by_cases he : AtomEq c a
    · simp only [(isEqual_atoms hc ha).2 he, if_true]
      refine ⟨(c, w) :: kvs, .cons _ _ _ _ _ _ hk hpk hc hd, by simp [lookup, he], by simp, fun b hb => ?_⟩
      have : ¬ AtomEq c b := fun h => hb (h.symm.trans he)
      simp [lookup, this]
    · have : isEqual (.atom c) (.atom a) = false := by
        rw [← Bool.not_eq_true, isEqual_atoms hc ha]; exact he
      simp only [this, Bool.false_eq_true, if_false]
      simp only [lookup, he, if_false] at hf
      obtain ⟨kvs', i1, i2, i3, i4⟩ := ih hf
      refine ⟨(c, v) :: kvs', .cons _ _ _ _ _ _ hk hpk hc i1, by simp [lookup, he, i2], by simp [i3], fun b hb => ?_⟩
      simp [lookup, i4 b hb]

theorem acons_spec [FrEq] (a : Atom) (w : Data) (ha : Settled a) {d : Data} {kvs : List (Atom × Data)} (h : Alist d kvs) :
    ∃ kvs', Alist (acons (.atom a) w d) kvs' ∧ lookup a kvs' = some w ∧
      (∀ b, ¬ AtomEq b a → lookup b kvs' = lookup b kvs) ∧
      kvs'.map (·.1) = if lookup a kvs = none then a :: kvs.map (·.1) else kvs.map (·.1) := by
  obtain ⟨h1, h2⟩ := assocLoop_spec a ha h
  cases hf : lookup a kvs with
  | none =>
    refine ⟨(a, w) :: kvs, ?_, by simp [lookup, AtomEq.refl], fun b hb => ?_, by simp⟩
    · simp only [acons, assoc, h1 hf, isNil, if_true]
      exact .cons _ _ _ _ _ _ (by simp) (by simp) ha h
    · have : ¬ AtomEq a b := fun h => hb h.symm
      simp [lookup, this]
  | some v =>
    obtain ⟨pk, k, hpk, hk, e⟩ := h2 v hf
    obtain ⟨kvs', i1, i2, i3, i4⟩ := setPair_spec a w ha h (by simp [hf])
    refine ⟨kvs', ?_, i2, i4, by simp [i3]⟩
    have : isNil (.cell pk (.atom k) v) = false := by cases v <;> rfl
    simp only [acons, assoc, e, this, Bool.false_eq_true, if_false]
    exact i1

theorem lookup_append (a : Atom) (xs ys : List (Atom × Data)) : lookup a (xs ++ ys) = (lookup a xs).or (lookup a ys) := by
  induction xs with
  | nil => simp [lookup]
  | cons p ps ih =>
    simp only [List.cons_append, lookup, ih]
    by_cases h : AtomEq p.1 a <;> simp [h]

theorem dissocLoop_spec [FrEq] (a : Atom) (ha : Settled a) {d : Data} {kvs : List (Atom × Data)} (h : Alist d kvs) :
    ∀ (acc : Data) (accs : List (Atom × Data)), Alist acc accs →
    ∃ r kvs', dissocLoop (.atom a) d acc = .ok r ∧ Alist r kvs' ∧ lookup a kvs' = lookup a accs ∧
      (∀ b, ¬ AtomEq b a → lookup b kvs' = (lookup b kvs.reverse).or (lookup b accs)) := by
  induction h with
  | null => intro acc accs h; exact ⟨acc, accs, rfl, h, rfl, by simp [lookup]⟩
  | empty => intro acc accs h; exact ⟨acc, accs, rfl, h, rfl, by simp [lookup]⟩
  | cons k pk c v d kvs hk hpk hc hd ih =>
    intro acc accs hacc
    have e1 : isNil (.cell k (.cell pk (.atom c) v) d) = false := by cases d <;> rfl
    have e2 : (!isDotted (.cell pk (.atom c) v) && !isPair (.cell pk (.atom c) v)) = false := by
      cases pk <;> simp_all [isDotted, isPair]
    simp only [dissocLoop, e1, e2, Bool.false_eq_true, if_false, car, cdr]
    by_cases he : AtomEq c a
    · simp only [(isEqual_atoms hc ha).2 he, Bool.not_true, Bool.false_eq_true, if_false]
      obtain ⟨r, kvs', i1, i2, i3, i4⟩ := ih acc accs hacc
      refine ⟨r, kvs', i1, i2, i3, fun b hb => ?_⟩
      have : ¬ AtomEq c b := fun h => hb (h.symm.trans he)
      rw [i4 b hb]
      simp [lookup_append, lookup, this]
    · have : isEqual (.atom c) (.atom a) = false := by
        rw [← Bool.not_eq_true, isEqual_atoms hc ha]; exact he
      simp only [this, Bool.not_false, if_true]
      obtain ⟨accs', j1, j2, j3, _⟩ := acons_spec c v hc hacc
      obtain ⟨r, kvs', i1, i2, i3, i4⟩ := ih _ accs' j1
      refine ⟨r, kvs', i1, i2, ?_, fun b hb => ?_⟩
      · rw [i3, j3 a (fun h => he h.symm)]
      · rw [i4 b hb]
        simp only [List.reverse_cons, lookup_append, lookup]
        by_cases hbc : AtomEq b c
        · have : AtomEq c b := hbc.symm
          simp only [this, if_true]
          rw [lookup_congr hbc accs', j2]
          cases lookup b kvs.reverse <;> simp
        · have : ¬ AtomEq c b := fun h => hbc h.symm
          simp only [this, if_false]
          rw [j3 b hbc]
          cases lookup b kvs.reverse <;> simp

/-- Keys pairwise different. -/
def Spec.DistinctKeys (kvs : List (Atom × Data)) : Prop := kvs.Pairwise fun p q => ¬ AtomEq p.1 q.1

theorem lookup_reverse {kvs : List (Atom × Data)} (h : DistinctKeys kvs) (a : Atom) : lookup a kvs.reverse = lookup a kvs := by
  induction kvs with
  | nil => rfl
  | cons p ps ih =>
    simp only [DistinctKeys, List.pairwise_cons] at h
    simp only [List.reverse_cons, lookup_append, lookup]
    rw [ih h.2]
    by_cases he : AtomEq p.1 a
    · have : lookup a ps = none := by
        have hn : ∀ q ∈ ps, ¬ AtomEq q.1 a := fun q hq hqa => h.1 q hq (he.trans hqa.symm)
        clear ih h
        induction ps with
        | nil => rfl
        | cons q qs ih => simp only [lookup, hn q (by simp), if_false]; exact ih (fun r hr => hn r (by simp [hr]))
      simp [he, this]
    · simp [he]

end Golisp
