import Verif.SetLemmas
/-
Property theorems: set operations (C10), association lists (C11), `equal?` (C12).
-/
namespace Golisp.Props
open Data Spec Prim

/-! ## C12: equal? -/

/-- On plain data (atoms other than NaN, proper lists of plain data) `equal?` is exactly structural equality.
Missing for the full statement: dotted pairs and association lists, where the code's answer is wrong or not
symmetric (see the violations below); frames are treated in `Verif.Props.Frames`. -/
theorem C12_equal_structural_partial [FrEq] (d o : Data) (hd : Plain d) (ho : Plain o) : isEqual d o = true ↔ SEq d o :=
  isEqual_iff hd ho

theorem C12_equal_refl_partial [FrEq] (d : Data) (hd : Plain d) : isEqual d d = true := (isEqual_iff hd hd).2 (.refl hd)

theorem C12_equal_symm_partial [FrEq] (d o : Data) (hd : Plain d) (ho : Plain o) : isEqual d o = isEqual o d := by
  rw [Bool.eq_iff_iff, isEqual_iff hd ho, isEqual_iff ho hd]
  exact ⟨SEq.symm, SEq.symm⟩

theorem C12_equal_trans_partial [FrEq] (d o e : Data) (hd : Plain d) (ho : Plain o) (he : Plain e)
    (h1 : isEqual d o = true) (h2 : isEqual o e = true) : isEqual d e = true := by
  rw [isEqual_iff hd ho] at h1; rw [isEqual_iff ho he] at h2; rw [isEqual_iff hd he]; exact h1.trans h2

/-- Component-wise: two non-empty lists are equal exactly when they have equal heads and equal tails. -/
theorem C12_equal_cons_partial [FrEq] (a d a' d' : Data) (h : Plain (.cons a d)) (h' : Plain (.cons a' d'))
    (hn : isNil (.cons a d) = false) (hn' : isNil (.cons a' d') = false) :
    isEqual (.cons a d) (.cons a' d') = (isEqual a a' && isEqual d d') := by
  obtain ⟨h1, h2⟩ := (Plain.cons_iff a d).1 h
  obtain ⟨h1', h2'⟩ := (Plain.cons_iff a' d').1 h'
  rw [Bool.eq_iff_iff, isEqual_iff h h', Bool.and_eq_true, isEqual_iff h1 h1', isEqual_iff h2.plain h2'.plain,
    SEq.cons_iff ((isNil_false_iff_Lst _).1 hn)]
  exact ⟨fun h => h.2, fun h => ⟨(isNil_false_iff_Lst _).1 hn', h⟩⟩

/-- Violation: `(1 . 2)` and `(1 . 3)` are `equal?`: a dotted tail is never looked at. -/
theorem C12_dotted_violation [FrEq] : isEqual (.cons (.int 1) (.int 2)) (.cons (.int 1) (.int 3)) = true := by rfl

/-- Violation: `equal?` is not symmetric between an association list and the list of the same pairs. -/
theorem C12_alist_symm_violation [FrEq] :
    isEqual (.cell .alist (.cell .acell (.sym "a") (.int 1)) .null) (.cons (.cons (.sym "a") (.int 1)) .null) = true ∧
    isEqual (.cons (.cons (.sym "a") (.int 1)) .null) (.cell .alist (.cell .acell (.sym "a") (.int 1)) .null) = false := by
  exact ⟨rfl, rfl⟩

/-- NaN is not equal to itself, as in IEEE arithmetic. -/
theorem C12_nan [FrEq] : isEqual (.flt 0x7fc00000#32) (.flt 0x7fc00000#32) = false := by rfl

example : Plain (ofArray [.int 1, ofArray [.str "a", .emptyCons], .flt 0x80000000#32]) := by
  refine .list _ (.cons _ _ (.atom _ trivial) (.cons _ _ (.list _ (.cons _ _ (.atom _ trivial) (.cons _ _ ?_ .null))) (.cons _ _ (.atom _ ?_) .null)))
  · exact .list _ (.cons _ _ (.list _ .null) .null)
  · simp [Settled]

/-! ## C10: union, intersection, complement -/

/-- `(union a b …)` on lists of plain elements: never fails, contains an element equal to `x` exactly when one
of the arguments does, has no two equal elements, and its elements come from the arguments in order. -/
theorem C10_union [FrEq] (args : List (Data × List Data)) (h : ∀ p ∈ args, PList p.1 p.2) :
    ∃ r xs, union (args.map (·.1)) = .ok r ∧ Lst r xs ∧ xs.Sublist (args.flatMap (·.2)) ∧
      xs.Pairwise (fun a b => ¬ SEq a b) ∧ ∀ x, Mem x xs ↔ ∃ p ∈ args, Mem x p.2 := by
  obtain ⟨r, zs, h1, h2, h3, h4, h5⟩ := unionLoop_spec args .null [] ⟨.null, .null, by simp⟩ h List.Pairwise.nil
  refine ⟨r, zs, h1, by simpa using h2.1, h3, by simpa using h4, fun x => ?_⟩
  have := h5 x
  simpa [Mem] using this

/-- `(intersection a b …)` keeps, in order, exactly the elements of `a` that are members of every other list. -/
theorem C10_intersection [FrEq] (c : Data) (xs : List Data) (args : List (Data × List Data)) (hc : PList c xs)
    (h : ∀ p ∈ args, PList p.1 p.2) :
    ∃ r ys, intersection (c :: args.map (·.1)) = .ok r ∧ Lst r ys ∧ ys.Sublist xs ∧
      ∀ x, Plain x → (Mem x ys ↔ Mem x xs ∧ ∀ p ∈ args, Mem x p.2) := by
  have hd : ∀ p ∈ args, ∀ a b, Plain a → Plain b → SEq a b → (!memp a p.1) = (!memp b p.1) := by
    intro p hp a b pa pb hs
    congr 1
    rw [Bool.eq_iff_iff, memp_Mem pa (h p hp), memp_Mem pb (h p hp)]
    exact ⟨fun ⟨y, hy, e⟩ => ⟨y, hy, hs.symm.trans e⟩, fun ⟨y, hy, e⟩ => ⟨y, hy, hs.trans e⟩⟩
  obtain ⟨r, h1, h2⟩ := setLoop_spec "intersection" (fun x col => !memp x col) args c xs hc h hd
  refine ⟨r, _, ?_, h2.1, List.filter_sublist, fun x px => ?_⟩
  · simp only [intersection, PList.isListP hc, copy_plain c hc.2.1.plain]
    simpa using h1
  · constructor
    · rintro ⟨y, hy, hs⟩
      simp only [List.mem_filter, List.all_eq_true, Bool.not_not] at hy
      refine ⟨⟨y, hy.1, hs⟩, fun p hp => ?_⟩
      obtain ⟨z, hz, hs'⟩ := (memp_Mem (hc.plain y hy.1) (h p hp)).1 (hy.2 p hp)
      exact ⟨z, hz, hs.trans hs'⟩
    · rintro ⟨⟨y, hy, hs⟩, hall⟩
      refine ⟨y, ?_, hs⟩
      simp only [List.mem_filter, List.all_eq_true, Bool.not_not]
      refine ⟨hy, fun p hp => (memp_Mem (hc.plain y hy) (h p hp)).2 ?_⟩
      obtain ⟨z, hz, hs'⟩ := hall p hp
      exact ⟨z, hz, hs.symm.trans hs'⟩

/-- `(complement a b …)` keeps, in order, exactly the elements of `a` that are members of none of the other lists. -/
theorem C10_complement [FrEq] (c : Data) (xs : List Data) (args : List (Data × List Data)) (hc : PList c xs)
    (h : ∀ p ∈ args, PList p.1 p.2) :
    ∃ r ys, complement (c :: args.map (·.1)) = .ok r ∧ Lst r ys ∧ ys.Sublist xs ∧
      ∀ x, Plain x → (Mem x ys ↔ Mem x xs ∧ ∀ p ∈ args, ¬ Mem x p.2) := by
  have hd : ∀ p ∈ args, ∀ a b, Plain a → Plain b → SEq a b → memp a p.1 = memp b p.1 := by
    intro p hp a b pa pb hs
    rw [Bool.eq_iff_iff, memp_Mem pa (h p hp), memp_Mem pb (h p hp)]
    exact ⟨fun ⟨y, hy, e⟩ => ⟨y, hy, hs.symm.trans e⟩, fun ⟨y, hy, e⟩ => ⟨y, hy, hs.trans e⟩⟩
  obtain ⟨r, h1, h2⟩ := setLoop_spec "complement" (fun x col => memp x col) args c xs hc h hd
  refine ⟨r, _, ?_, h2.1, List.filter_sublist, fun x px => ?_⟩
  · simp only [complement, PList.isListP hc, copy_plain c hc.2.1.plain]
    simpa using h1
  · constructor
    · rintro ⟨y, hy, hs⟩
      simp only [List.mem_filter, List.all_eq_true, Bool.not_eq_true'] at hy
      refine ⟨⟨y, hy.1, hs⟩, fun p hp hm => ?_⟩
      obtain ⟨z, hz, hs'⟩ := hm
      have := (memp_Mem (hc.plain y hy.1) (h p hp)).2 ⟨z, hz, hs.symm.trans hs'⟩
      rw [hy.2 p hp] at this; cases this
    · rintro ⟨⟨y, hy, hs⟩, hall⟩
      refine ⟨y, ?_, hs⟩
      simp only [List.mem_filter, List.all_eq_true, Bool.not_eq_true']
      refine ⟨hy, fun p hp => ?_⟩
      rw [← Bool.not_eq_true, memp_Mem (hc.plain y hy) (h p hp)]
      rintro ⟨z, hz, hs'⟩
      exact hall p hp ⟨z, hz, hs.trans hs'⟩

/-- A non-list argument is an error. -/
theorem C10_non_list [FrEq] (c : Data) (xs : List Data) (hc : PList c xs) (bad : Data) (hb : isListP bad = false) :
    (∃ e, union [c, bad] = .err e) ∧ (∃ e, intersection [c, bad] = .err e) ∧ (∃ e, complement [c, bad] = .err e) ∧
    (∃ e, union [bad] = .err e) ∧ (∃ e, intersection [bad] = .err e) ∧ (∃ e, complement [bad] = .err e) := by
  simp [union, unionLoop, intersection, complement, setLoop, PList.isListP hc, hb]

example : @union .none [ofArray [.int 1, .int 2, .int 1], ofArray [.int 2, .int 3]] = .ok (ofArray [.int 1, .int 2, .int 3]) := by decide
example : @intersection .none [ofArray [.int 1, .int 2, .int 2, .int 3], ofArray [.int 2, .int 3], ofArray [.int 2]] =
    .ok (ofArray [.int 2, .int 2]) := by decide
example : PList (ofArray [.int 1, .int 2]) [.int 1, .int 2] := by
  refine ⟨?_, ?_, by simp⟩
  · exact .cons _ _ _ _ (by simp) (by simp) (.cons _ _ _ _ (by simp) (by simp) .null)
  · exact .cons _ _ (.atom _ trivial) (.cons _ _ (.atom _ trivial) .null)

/-! ## C11: association lists -/

/-- A lookup returns the first pair whose key equals the one asked for, nil when there is none. -/
theorem C11_assoc [FrEq] (a : Atom) (ha : Settled a) (al : Data) (kvs : List (Atom × Data)) (h : Alist al kvs) :
    (lookup a kvs = none → assoc (.atom a) al = .ok .null) ∧
    (∀ v, lookup a kvs = some v → ∃ p, assoc (.atom a) al = .ok p ∧ cdr p = v ∧ ∃ k, car p = .atom k ∧ AtomEq k a) := by
  obtain ⟨h1, h2⟩ := assocLoop_spec a ha h
  refine ⟨h1, fun v hv => ?_⟩
  obtain ⟨pk, k, _, hk, e⟩ := h2 v hv
  exact ⟨_, e, rfl, k, rfl, hk⟩

/-- After `(acons k v al)`, `k` is associated with `v` and every other key keeps its value. -/
theorem C11_acons [FrEq] (a : Atom) (w : Data) (ha : Settled a) (al : Data) (kvs : List (Atom × Data)) (h : Alist al kvs) :
    ∃ r kvs', aconsImpl (.atom a) w al = .ok r ∧ Alist r kvs' ∧ lookup a kvs' = some w ∧
      (∀ b, ¬ AtomEq b a → lookup b kvs' = lookup b kvs) ∧
      -- no key is duplicated by the operation
      (DistinctKeys kvs → DistinctKeys kvs') := by
  obtain ⟨kvs', h1, h2, h3, h4⟩ := acons_spec a w ha h
  refine ⟨_, kvs', by simp [aconsImpl, isPair], h1, h2, h3, fun hd => ?_⟩
  have key : ∀ l : List (Atom × Data), DistinctKeys l ↔ (l.map (·.1)).Pairwise (fun p q => ¬ AtomEq p q) := by
    intro l; rw [List.pairwise_map]; rfl
  rw [key, h4]
  split
  · rename_i hn
    rw [List.pairwise_cons]
    refine ⟨?_, (key _).1 hd⟩
    intro b hb hab
    obtain ⟨p, hp, rfl⟩ := List.mem_map.1 hb
    clear h h1 h2 h3 h4 hd hb
    induction kvs with
    | nil => simp at hp
    | cons q qs ih =>
      simp only [lookup] at hn
      by_cases hq : AtomEq q.1 a
      · simp [hq] at hn
      · simp only [hq, if_false] at hn
        rcases List.mem_cons.1 hp with rfl | hp
        · exact hq hab.symm
        · exact ih hn hp
  · exact (key _).1 hd

/-- After `(dissoc k al)`, `k` is not found, and every other key has the value of its *last* entry in `al`. -/
theorem C11_dissoc [FrEq] (a : Atom) (ha : Settled a) (al : Data) (kvs : List (Atom × Data)) (h : Alist al kvs) :
    ∃ r kvs', dissoc (.atom a) al = .ok r ∧ Alist r kvs' ∧ lookup a kvs' = none ∧
      ∀ b, ¬ AtomEq b a → lookup b kvs' = lookup b kvs.reverse := by
  obtain ⟨r, kvs', h1, h2, h3, h4⟩ := dissocLoop_spec a ha h .null [] .null
  exact ⟨r, kvs', h1, h2, by simpa [lookup] using h3, fun b hb => by simpa [lookup] using h4 b hb⟩

/-- Consequently, on an association list without duplicate keys every other key keeps its value.
Missing for the full statement: lists with duplicate keys, where it is false (next theorem). -/
theorem C11_dissoc_distinct_partial [FrEq] (a : Atom) (ha : Settled a) (al : Data) (kvs : List (Atom × Data)) (h : Alist al kvs)
    (hd : DistinctKeys kvs) :
    ∃ r kvs', dissoc (.atom a) al = .ok r ∧ Alist r kvs' ∧ lookup a kvs' = none ∧
      ∀ b, ¬ AtomEq b a → lookup b kvs' = lookup b kvs := by
  obtain ⟨r, kvs', h1, h2, h3, h4⟩ := C11_dissoc a ha al kvs h
  exact ⟨r, kvs', h1, h2, h3, fun b hb => by rw [h4 b hb, lookup_reverse hd]⟩

/-- Violation: with a duplicated key, removing *another* key changes the value found for the duplicated one. -/
theorem C11_dissoc_violation [FrEq] :
    let al := ofArray [Data.cons (.sym "a") (.int 1), Data.cons (.sym "a") (.int 2)]
    assoc (.sym "a") al = .ok (.cons (.sym "a") (.int 1)) ∧
    ∃ r, dissoc (.sym "b") al = .ok r ∧ assoc (.sym "a") r = .ok (.cell .acell (.sym "a") (.int 2)) := by
  exact ⟨rfl, _, rfl, rfl⟩

example : Alist (ofArray [Data.cons (.sym "a") (.int 1), Data.cons (.str "b") (.int 2)])
    [(.sym "a", .int 1), (.str "b", .int 2)] :=
  .cons _ _ _ _ _ _ (by simp) (by simp) trivial (.cons _ _ _ _ _ _ (by simp) (by simp) trivial .null)

end Golisp.Props
