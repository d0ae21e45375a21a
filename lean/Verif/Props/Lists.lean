import Verif.ListLemmas
/-
Property theorems about list primitives: value part of C01, C03, C04, C05.
-/
namespace Golisp.Props
open Data Spec Prim

/-! ## C01 (value part): append is concatenation -/

/-- `(append a b ...)` of proper lists has the elements of the arguments, in order, and nothing else. -/
theorem C01_append (args : List (Data × List Data))
    (h : ∀ p ∈ args, Lst p.1 p.2 ∧ isListP p.1 = true) :
    Lst (appendImpl (args.map (·.1))) ((args.map (·.2)).flatten.map elem) := by
  have key : (args.map (·.1)).flatMap (fun item => if isListP item then toArray item else [item])
      = (args.map (·.2)).flatten := by
    induction args with
    | nil => rfl
    | cons p ps ih =>
      have hp := h p (by simp)
      simp only [List.map_cons, List.flatMap_cons, List.flatten_cons, hp.2, if_true, hp.1.toArray]
      rw [ih (fun q hq => h q (by simp [hq]))]
  cases args with
  | nil => exact .null
  | cons p ps =>
    have : appendImpl ((p :: ps).map (·.1)) = ofArray (((p :: ps).map (·.2)).flatten) := by
      rw [← key]; rfl
    rw [this]; exact Lst.ofArray _

/-- The length of `(append a b)` is the sum of the lengths. -/
theorem C01_append_length (a b : Data) (xs ys : List Data) (ha : Lst a xs) (hb : Lst b ys)
    (ha' : isListP a = true) (hb' : isListP b = true) :
    Data.length (appendImpl [a, b]) = Data.length a + Data.length b := by
  have := C01_append [(a, xs), (b, ys)] (by simp; exact ⟨⟨ha, ha'⟩, hb, hb'⟩)
  have h2 : Data.length (appendImpl [a, b]) = (List.map elem [xs, ys].flatten).length := by
    simpa using this.length
  rw [h2, ha.length, hb.length]; simp

/-- Non-vacuity: two concrete lists, one sharing an empty-list element. -/
example : Lst (Data.cons (.int 1) (Data.cons .emptyCons .null)) [.int 1, .emptyCons] ∧
    appendImpl [Data.cons (.int 1) (Data.cons .emptyCons .null), Data.cons (.str "x") .null]
      = Data.cons (.int 1) (Data.cons .emptyCons (Data.cons (.str "x") .null)) := by
  refine ⟨?_, by decide⟩
  exact Lst.cons' (.inl (by simp)) (Lst.cons' (.inl (by simp)) .null)

/-! ## C03: reverse -/

/-- `(reverse l)` has the elements of `l` in opposite order, provided the first element is not a bare nil
(a cell holding a bare nil at the end of a chain reads as the empty list). -/
theorem C03_reverse_partial (d : Data) (xs : List Data) (h : Lst d xs) (hl : isListP d = true)
    (hd : xs.head? ≠ some .null) : Lst (reverse d) xs.reverse := by
  unfold reverse
  by_cases hn : d = .null
  · subst hn; cases h; simpa using Lst.null
  · simp only [hn, if_false, hl, Bool.not_true, Bool.false_eq_true]
    simpa using revLoop_spec h .null [] .null (fun _ => hd)

/-- Reversal keeps the length. -/
theorem C03_reverse_length_partial (d : Data) (xs : List Data) (h : Lst d xs) (hl : isListP d = true)
    (hd : xs.head? ≠ some .null) : Data.length (reverse d) = Data.length d := by
  rw [(C03_reverse_partial d xs h hl hd).length, h.length]; simp

/-- Reversing twice gives back the elements. -/
theorem C03_reverse_reverse_partial (d : Data) (xs : List Data) (h : Lst d xs) (hl : isListP d = true)
    (hd : xs.head? ≠ some .null) (hd' : xs.getLast? ≠ some .null) : Lst (reverse (reverse d)) xs := by
  have h1 := C03_reverse_partial d xs h hl hd
  have hl' : isListP (reverse d) = true := by
    apply h1.isListP
    intro hc
    unfold reverse at hc
    by_cases hn : d = .null
    · simp [hn] at hc
    · simp only [hn, if_false, hl, Bool.not_true, Bool.false_eq_true] at hc
      have aux : ∀ (e l : Data), l ≠ .cell .acell .null .null → revLoop e l ≠ .cell .acell .null .null := by
        intro e
        induction e with
        | null => intro l hl; simpa [revLoop]
        | atom a => intro l hl; simp [revLoop]
        | cell k a d _ ih =>
          intro l hl
          simp only [revLoop]
          split
          · exact hl
          · exact ih _ (by simp)
      exact aux d .null (by simp) hc
  have h2 := C03_reverse_partial (reverse d) xs.reverse h1 hl' (by simpa using hd')
  simpa using h2

/-- The full claim fails: a two-element list whose first element is a bare nil (for instance the result of
`(cons (for-each ...) '(1))`) reverses to a list of length 1. -/
theorem C03_reverse_violation :
    ∃ (d : Data) (xs : List Data), Lst d xs ∧ isListP d = true ∧ Data.length (reverse d) ≠ Data.length d := by
  refine ⟨Data.cons .null (Data.cons (.int 1) .null), [.null, .int 1], ?_, by decide, by decide⟩
  exact Lst.cons' (.inr (by simp)) (Lst.cons' (.inl (by simp)) .null)

example : Lst (Data.cons (.int 1) (Data.cons (.int 2) .null)) [.int 1, .int 2] ∧
    reverse (Data.cons (.int 1) (Data.cons (.int 2) .null)) = Data.cons (.int 2) (Data.cons (.int 1) .null) := by
  exact ⟨Lst.cons' (.inl (by simp)) (Lst.cons' (.inl (by simp)) .null), by decide⟩

/-! ## C04: indexing, take, drop, sublist -/

/-- `nth` is 1-based indexing; outside the list it gives nil. -/
theorem C04_nth (l : Data) (xs : List Data) (h : Lst l xs) (hp : isPair l = true) (n : BitVec 64) :
    nthImpl l (.int n) =
      .ok (if 1 ≤ n.toInt ∧ n.toInt ≤ xs.length then (xs[(n.toInt - 1).toNat]?).getD .null else .null) := by
  simp [nthImpl, hp, nth_spec h]

/-- `list-ref` with an in-range 0-based index is the element there. -/
theorem C04_list_ref (l : Data) (xs : List Data) (h : Lst l xs) (hp : isPair l = true) (n : BitVec 64)
    (h0 : 0 ≤ n.toInt) (h1 : n.toInt < xs.length) (hlen : (xs.length : Int) < 2 ^ 63) :
    listRef l (.int n) = .ok ((xs[n.toInt.toNat]?).getD .null) := by
  have hadd : (n + 1).toInt = n.toInt + 1 := by
    rw [BitVec.toInt_add]
    have h1' : (1#64).toInt = 1 := by decide
    show (n.toInt + (1#64).toInt).bmod (2 ^ 64) = _
    rw [h1']
    have := BitVec.toInt_lt (x := n)
    have := BitVec.le_toInt n
    apply Int.bmod_eq_of_le <;> omega
  simp only [listRef, hp, Bool.not_true, Bool.false_eq_true, if_false]
  rw [nth_spec h, hadd]
  rw [if_pos (by omega)]
  congr 3; omega

/-- `list-ref` with an index past the end gives nil. -/
theorem C04_list_ref_out (l : Data) (xs : List Data) (h : Lst l xs) (hp : isPair l = true) (n : BitVec 64)
    (h1 : n.toInt < 0 ∨ n.toInt ≥ xs.length) :
    listRef l (.int n) = .ok .null := by
  simp only [listRef, hp, Bool.not_true, Bool.false_eq_true, if_false]
  rw [nth_spec h, if_neg]
  rw [BitVec.toInt_add]
  show ¬ (1 ≤ (n.toInt + (1#64).toInt).bmod (2 ^ 64) ∧ (n.toInt + (1#64).toInt).bmod (2 ^ 64) ≤ _)
  have h1' : (1#64).toInt = 1 := by decide
  rw [h1']
  have := BitVec.toInt_lt (x := n)
  have := BitVec.le_toInt n
  by_cases hb : n.toInt + 1 < 2 ^ 63
  · rw [Int.bmod_eq_of_le] <;> omega
  · have : n.toInt + 1 = 2 ^ 63 := by omega
    rw [this]
    have : Int.bmod (2 ^ 63) (2 ^ 64) = - 2 ^ 63 := by decide
    omega

/-- `take`/`list-head` give the first `n` elements (all of them when `n` is larger, none when negative). -/
theorem C04_take (l : Data) (xs : List Data) (h : Lst l xs) (hp : isListP l = true) (n : BitVec 64) :
    ∃ r, Prim.take (.int n) l = .ok r ∧ listHead l (.int n) = .ok r ∧
      Lst r ((xs.take n.toInt.toNat).map elem) := by
  refine ⟨ofArray (takeLoop n.toInt.toNat l), by simp [Prim.take, hp], by simp [listHead, hp], ?_⟩
  rw [takeLoop_spec h]
  exact Lst.ofArray _

/-- `drop`/`list-tail` give the elements after the first `n`. -/
theorem C04_drop (l : Data) (xs : List Data) (h : Lst l xs) (hp : isListP l = true) (n : BitVec 64) :
    ∃ r, Prim.drop (.int n) l = .ok r ∧ listTail l (.int n) = .ok r ∧ Lst r (xs.drop n.toInt.toNat) := by
  refine ⟨dropLoop n.toInt.toNat l, by simp [Prim.drop, hp], by simp [listTail, hp], dropLoop_spec h _⟩

/-- Taking and dropping at the same point splits the list: appending the two parts restores its elements. -/
theorem C04_take_drop (l : Data) (xs : List Data) (h : Lst l xs) (hp : isListP l = true) (n : BitVec 64) :
    ∃ t d, Prim.take (.int n) l = .ok t ∧ Prim.drop (.int n) l = .ok d ∧
      ∃ as bs, Lst t as ∧ Lst d bs ∧ (as ++ bs).map elem = xs.map elem := by
  obtain ⟨t, ht, _, hta⟩ := C04_take l xs h hp n
  obtain ⟨d, hd, _, hdb⟩ := C04_drop l xs h hp n
  refine ⟨t, d, ht, hd, _, _, hta, hdb, ?_⟩
  have : ∀ x : Data, elem (elem x) = elem x := fun x => elem_of_ne (elem_ne_null x)
  simp only [List.map_append, List.map_map]
  have h2 : (elem ∘ elem) = elem := by funext x; exact this x
  rw [h2, ← List.map_append, List.take_append_drop]

/-- `(sublist l i j)` with positive indices is elements `i .. j-1`, 1-based, cut off at the end of the list;
it is nil when `i ≥ j`; a non-positive index is an error. -/
theorem C04_sublist (l : Data) (xs : List Data) (h : Lst l xs) (hp : isListP l = true) (i j : BitVec 64) :
    (i.toInt ≤ 0 ∨ j.toInt ≤ 0 → ∃ e, sublist l (.int i) (.int j) = .err e) ∧
    (0 < i.toInt → 0 < j.toInt → j.toInt ≤ i.toInt → sublist l (.int i) (.int j) = .ok .null) ∧
    (0 < i.toInt → i.toInt < j.toInt →
      ∃ r, sublist l (.int i) (.int j) = .ok r ∧
        Lst r (((xs.drop (i.toInt.toNat - 1)).take (j.toInt.toNat - i.toInt.toNat)).map elem)) := by
  refine ⟨?_, ?_, ?_⟩
  · intro hij
    by_cases hi : i.toInt ≤ 0
    · exact ⟨_, by simp [sublist, hp, hi]; rfl⟩
    · have hj : j.toInt ≤ 0 := by omega
      exact ⟨_, by simp [sublist, hp, hi, hj]; rfl⟩
  · intro hi hj hji
    have hi' : ¬ i.toInt ≤ 0 := by omega
    have hj' : ¬ j.toInt ≤ 0 := by omega
    simp [sublist, hp, hi', hj', hji]
  · intro hi hij
    have hi' : ¬ i.toInt ≤ 0 := by omega
    have hj' : ¬ j.toInt ≤ 0 := by omega
    have hji : ¬ j.toInt ≤ i.toInt := by omega
    refine ⟨_, by simp [sublist, hp, hi', hj', hji]; rfl, ?_⟩
    rw [takeLoop_spec (dropLoop_spec h _)]
    exact Lst.ofArray _

example : sublist (ofArray [.int 1, .int 2, .int 3, .int 4]) (.int 2) (.int 4) = .ok (ofArray [.int 2, .int 3]) := by
  decide

/-! ## C05: partition -/

/-- Specification: cut a list into consecutive chunks of `n` elements, the last one possibly shorter. -/
def IsChunking (n : Nat) (xs : List Data) (cs : List (List Data)) : Prop :=
  cs.flatten = xs ∧ (∀ c ∈ cs.dropLast, c.length = n) ∧ (∀ c ∈ cs, 0 < c.length ∧ c.length ≤ n)

theorem partLoop_spec (n : Nat) (hn : 0 < n) : ∀ (xs chunk : List Data), chunk.length ≤ n →
    ∃ cs, partLoop n xs chunk = cs.map ofArray ∧ IsChunking n (chunk ++ xs) cs := by
  intro xs
  induction xs with
  | nil =>
    intro chunk hc
    by_cases h : chunk = []
    · subst h; exact ⟨[], by simp [partLoop], by simp [IsChunking]⟩
    · have : 0 < chunk.length := List.length_pos_iff.2 h
      exact ⟨[chunk], by simp [partLoop, this], by simp [IsChunking, this, hc]⟩
  | cons x xs ih =>
    intro chunk hc
    by_cases h : chunk.length < n
    · obtain ⟨cs, h1, h2⟩ := ih (chunk ++ [x]) (by simp; omega)
      exact ⟨cs, by simp [partLoop, h, h1], by simpa using h2⟩
    · obtain ⟨cs, h1, h2, h3, h4⟩ := ih [x] (by simp; omega)
      have hlen : chunk.length = n := by omega
      have hcs : cs ≠ [] := by rintro rfl; simp at h2
      refine ⟨chunk :: cs, by simp [partLoop, h, h1], ?_, ?_, ?_⟩
      · simp [h2]
      · intro c hc
        rw [List.dropLast_cons_of_ne_nil hcs] at hc
        rcases List.mem_cons.1 hc with rfl | hc
        · exact hlen
        · exact h3 c hc
      · intro c hc
        rcases List.mem_cons.1 hc with rfl | hc
        · omega
        · exact h4 c hc

/-- `(partition n l)`: the result is a list of lists that is a chunking of `l`; a size below 1 is an error. -/
theorem C05_partition_size (n : BitVec 64) (l : Data) (xs : List Data) (h : Lst l xs) :
    (n.toInt < 1 → ∃ e, partitionBySize n l = .err e) ∧
    (1 ≤ n.toInt → ∃ r cs, partitionBySize n l = .ok r ∧ IsChunking n.toInt.toNat xs cs ∧
      ∃ ds, Lst r ds ∧ ds.length = cs.length ∧
        ∀ i (hi : i < cs.length), ∃ d, ds[i]? = some d ∧ Lst d (cs[i].map elem)) := by
  refine ⟨fun hn => ⟨_, by simp [partitionBySize, hn]; rfl⟩, fun hn => ?_⟩
  have hn' : ¬ n.toInt < 1 := by omega
  obtain ⟨cs, h1, h2⟩ := partLoop_spec n.toInt.toNat (by omega) xs [] (by simp)
  refine ⟨ofArray (cs.map ofArray), cs, ?_, by simpa using h2, _, Lst.ofArray _, by simp, ?_⟩
  · simp [partitionBySize, hn', h.toArray, h1]
  · intro i hi
    have hne : ∀ ys : List Data, elem (ofArray ys) = ofArray ys := by
      intro ys; apply elem_of_ne; cases ys <;> simp [Data.ofArray, Data.listWithTail]
    refine ⟨ofArray cs[i], by simp [hi, hne], Lst.ofArray _⟩

example : partitionBySize 2 (ofArray [.int 1, .int 2, .int 3]) =
    .ok (ofArray [ofArray [.int 1, .int 2], ofArray [.int 3]]) := by decide

variable {σ : Type}

theorem partPredLoop_spec (f : Data → M σ Data) : ∀ (xs ts fs : List Data) (s : σ),
    partPredLoop f xs ts fs s =
      match calls f (xs.map fun x => ofArray [x]) s with
      | (.ok vs, s') =>
          (.ok (ts ++ ((xs.zip vs).filter (fun p => boolValue p.2)).map (·.1),
                fs ++ ((xs.zip vs).filter (fun p => !boolValue p.2)).map (·.1)), s')
      | (.err e, s') => (.err e, s')
      | (.panic, s') => (.panic, s')
      | (.timeout, s') => (.timeout, s') := by
  intro xs
  induction xs with
  | nil => intro ts fs s; simp [partPredLoop, calls, M.pure]
  | cons x xs ih =>
    intro ts fs s
    simp only [partPredLoop, M.bind, List.map_cons, calls]
    rcases hf : f (ofArray [x]) s with ⟨o, s'⟩
    cases o with
    | ok v =>
      simp only
      cases hv : boolValue v <;> simp only [ih, Bool.false_eq_true, if_true, if_false] <;>
        rcases hc : calls f (List.map (fun x => ofArray [x]) xs) s' with ⟨o, s''⟩ <;>
        cases o <;> simp [hv]
    | err e => rfl
    | panic => rfl
    | timeout => rfl

/-- `(partition pred l)`: one call of `pred` per element in order; on success the result is the list of the
elements with a true answer and the list of the others, in original order. -/
theorem C05_partition_pred (f : Data → M σ Data) (l : Data) (xs : List Data) (h : Lst l xs) (s : σ) :
    partitionByPredicate f l s =
      match calls f (xs.map fun x => ofArray [x]) s with
      | (.ok vs, s') =>
          (.ok (ofArray [ofArray (((xs.zip vs).filter (fun p => boolValue p.2)).map (·.1)),
                         ofArray (((xs.zip vs).filter (fun p => !boolValue p.2)).map (·.1))]), s')
      | (.err e, s') => (.err e, s')
      | (.panic, s') => (.panic, s')
      | (.timeout, s') => (.timeout, s') := by
  simp only [partitionByPredicate, M.bind, h.toArray, partPredLoop_spec]
  rcases hc : calls f (List.map (fun x => ofArray [x]) xs) s with ⟨o, s''⟩
  cases o <;> simp [M.pure]

end Golisp.Props
