import Verif.SetLemmas
/-
Property theorems: accessors (C13) and flattening (C14).
-/
namespace Golisp.Props
open Data Spec Prim

/-! ## C13: c[ad]+r and general-car-cdr -/

/-- One access: `a` takes the first component of a pair, `d` the second; anything else gives nil. -/
def step : Char → Data → Data
  | 'a', .cell _ a _ => a
  | 'd', .cell _ _ d => d
  | _, _ => .null

theorem walkRev_step (c : Char) (hc : c = 'a' ∨ c = 'd') (ps : List Char) (d : Data) :
    walkRev (c :: ps) d = walkRev ps (step c d) ∨ (walkRev (c :: ps) d = .null ∧ step c d = .null) := by
  cases d with
  | null => right; rcases hc with rfl | rfl <;> simp [walkRev, step]
  | atom a => right; rcases hc with rfl | rfl <;> simp [walkRev, step, isPair, isAlist, isDotted]
  | cell k x y =>
    left
    rcases hc with rfl | rfl <;> cases k <;> simp [walkRev, step, isPair, isAlist, isDotted, car, cdr]

theorem walkRev_null : ∀ ps, (∀ c ∈ ps, c = 'a' ∨ c = 'd') → walkRev ps .null = .null := by
  intro ps _; cases ps <;> simp [walkRev]

/-- `c⟨path⟩r` is the composition of the single accesses, applied from the last letter to the first. -/
theorem C13_cxr (path : List Char) (h : ∀ c ∈ path, c = 'a' ∨ c = 'd') (d : Data) :
    walkList d path = path.foldr step d := by
  have aux : ∀ ps d, (∀ c ∈ ps, c = 'a' ∨ c = 'd') → walkRev ps d = ps.foldl (fun x c => step c x) d := by
    intro ps
    induction ps with
    | nil => intro d _; rfl
    | cons c ps ih =>
      intro d hc
      have hps : ∀ c ∈ ps, c = 'a' ∨ c = 'd' := fun c' h' => hc c' (by simp [h'])
      rcases walkRev_step c (hc c (by simp)) ps d with h1 | ⟨h1, h2⟩
      · rw [h1, ih _ hps]; rfl
      · rw [h1]
        simp only [List.foldl_cons, h2]
        rw [← ih _ hps, walkRev_null ps hps]
  rw [walkList, aux _ _ (by simpa using h), List.foldl_reverse]

/-- As soon as a non-pair is met the result is nil. -/
theorem C13_cxr_non_pair (pre post : List Char) (h : ∀ c ∈ pre ++ post, c = 'a' ∨ c = 'd') (d : Data) (hpre : pre ≠ [])
    (hn : ∀ k a b, walkList d post ≠ .cell k a b) : walkList d (pre ++ post) = .null := by
  rw [C13_cxr _ h, List.foldr_append]
  rw [C13_cxr post (fun c hc => h c (by simp [hc]))] at hn
  generalize List.foldr step d post = e at hn
  have hs : ∀ c, step c e = .null := by
    intro c; cases e with
    | cell k a b => exact absurd rfl (hn k a b)
    | _ => simp [step]
  induction pre with
  | nil => simp at hpre
  | cons c cs ih =>
    by_cases hcs : cs = []
    · subst hcs; simp [hs]
    · simp only [List.foldr_cons]
      rw [ih (fun c' h' => h c' (by simp at h' ⊢; exact .inr h')) hcs]
      simp [step]

/-- The path number of a sequence of accesses, first access in the least significant bit, closed by a leading 1. -/
def encode : List Char → Nat
  | [] => 1
  | c :: cs => 2 * encode cs + (if c = 'a' then 1 else 0)

theorem encode_pos (cs : List Char) : 0 < encode cs := by
  induction cs with
  | nil => simp [encode]
  | cons c cs ih => simp only [encode]; omega

theorem gcd_step_bit (n : Nat) (h : n < 2 ^ 63) (b : Nat) (hb : b < 2) (hlt : 2 * n + b < 2 ^ 63) :
    (BitVec.ofNat 64 (2 * n + b)).sshiftRight 1 = BitVec.ofNat 64 n ∧
    (BitVec.ofNat 64 (2 * n + b) &&& 1#64 = 0#64 ↔ b = 0) := by
  constructor
  · have hm : (BitVec.ofNat 64 (2 * n + b)).msb = false := by
      rw [BitVec.msb_eq_decide]; simp; omega
    rw [BitVec.sshiftRight_eq_of_msb_false hm]
    apply BitVec.eq_of_toNat_eq
    simp [BitVec.toNat_ushiftRight, Nat.shiftRight_eq_div_pow]
    omega
  · rw [← BitVec.toNat_inj]
    simp [BitVec.toNat_and, Nat.and_one_is_mod]
    omega

theorem gcdLoop_encode : ∀ (cs : List Char) (l : Data) (fuel : Nat), (∀ c ∈ cs, c = 'a' ∨ c = 'd') → encode cs < 2 ^ 63 →
    cs.length < fuel →
    gcdLoop fuel (BitVec.ofNat 64 (encode cs)) l = .ok (cs.foldl (fun x c => step c x) l) := by
  intro cs
  induction cs with
  | nil =>
    intro l fuel _ _ hf
    cases fuel with
    | zero => simp at hf
    | succ f => simp [gcdLoop, encode]
  | cons c cs ih =>
    intro l fuel hc he hf
    cases fuel with
    | zero => simp at hf
    | succ f =>
      have hp := encode_pos cs
      simp only [encode] at he ⊢
      have hb : (if c = 'a' then 1 else 0) < 2 := by split <;> omega
      generalize hbb : (if c = 'a' then 1 else 0) = b at he hb ⊢
      obtain ⟨h1, h2⟩ := gcd_step_bit (encode cs) (by omega) b hb he
      have hne : BitVec.ofNat 64 (2 * encode cs + b) ≠ 1#64 := by
        intro h
        have := congrArg BitVec.toNat h
        simp at this; omega
      simp only [gcdLoop, hne, if_false, h1]
      rw [ih _ f (fun c' h' => hc c' (by simp [h'])) (by omega) (by simp at hf; omega)]
      simp only [List.foldl_cons]
      congr 2
      rcases hc c (by simp) with rfl | rfl
      · simp at hbb; subst hbb
        have : ¬ (BitVec.ofNat 64 (2 * encode cs + 1) &&& 1#64 = 0#64) := by rw [h2]; simp
        simp only [this, if_false]
        cases l <;> simp [step, car]
      · simp at hbb; subst hbb
        have : BitVec.ofNat 64 (2 * encode cs + 0) &&& 1#64 = 0#64 := h2.2 rfl
        simp only [this, if_true]
        cases l <;> simp [step, cdr]

theorem length_lt_of_encode (cs : List Char) : 2 ^ cs.length ≤ encode cs := by
  induction cs with
  | nil => simp [encode]
  | cons c cs ih => simp only [encode, List.length_cons, Nat.pow_succ]; omega

/-- `general-car-cdr` with a positive path performs the accesses coded by its binary digits, from the least
significant bit up to (not including) the leading 1; 64 iterations always suffice. -/
theorem C13_general_car_cdr (cs : List Char) (h : ∀ c ∈ cs, c = 'a' ∨ c = 'd') (he : encode cs < 2 ^ 63) (l : Data)
    (fuel : Nat) (hf : 64 ≤ fuel) :
    generalCarCdr fuel l (.int (BitVec.ofNat 64 (encode cs))) = .ok (cs.foldl (fun x c => step c x) l) := by
  have hp := encode_pos cs
  have hne : BitVec.ofNat 64 (encode cs) ≠ 0#64 := by
    intro h
    have := congrArg BitVec.toNat h
    simp at this; omega
  have hl : cs.length < 63 := by
    have := length_lt_of_encode cs
    exact (Nat.pow_lt_pow_iff_right (by omega)).1 (Nat.lt_of_le_of_lt this he)
  simp only [generalCarCdr, intValue, hne, if_false]
  exact gcdLoop_encode cs l fuel h he (by omega)

/-- Every positive path codes some sequence of accesses, so the previous theorem covers all of them. -/
theorem C13_paths_covered (n : Nat) (hn : 0 < n) : ∃ cs : List Char, (∀ c ∈ cs, c = 'a' ∨ c = 'd') ∧ encode cs = n := by
  induction n using Nat.strongRecOn with
  | ind n ih =>
    by_cases h1 : n = 1
    · exact ⟨[], by simp, by simp [encode, h1]⟩
    · obtain ⟨cs, hc, he⟩ := ih (n / 2) (by omega) (by omega)
      rcases Nat.mod_two_eq_zero_or_one n with h | h
      · exact ⟨'d' :: cs, by intro c hc'; rcases List.mem_cons.1 hc' with rfl | h'; exact .inr rfl; exact hc c h',
          by simp [encode, he]; omega⟩
      · exact ⟨'a' :: cs, by intro c hc'; rcases List.mem_cons.1 hc' with rfl | h'; exact .inl rfl; exact hc c h',
          by simp [encode, he]; omega⟩

/-- Path zero is an error. -/
theorem C13_general_car_cdr_zero (fuel : Nat) (l : Data) : ∃ e, generalCarCdr fuel l (.int 0#64) = .err e := by
  simp [generalCarCdr, intValue]

/-- With a negative path the loop never ends: no number of iterations reaches a result. -/
theorem C13_general_car_cdr_negative (p : BitVec 64) (h : p.toInt < 0) (l : Data) (fuel : Nat) :
    generalCarCdr fuel l (.int p) = .timeout := by
  have aux : ∀ fuel (p : BitVec 64) l, p.msb = true → gcdLoop fuel p l = .timeout := by
    intro fuel
    induction fuel with
    | zero => intros; rfl
    | succ n ih =>
      intro p l hp
      have hne : p ≠ 1#64 := by rintro rfl; revert hp; decide
      simp only [gcdLoop, hne, if_false]
      apply ih
      rw [BitVec.msb_sshiftRight]; exact hp
  have hm : p.msb = true := by
    rw [BitVec.msb_eq_toInt]; simpa using h
  have hne : p ≠ 0#64 := by rintro rfl; simp at h
  simp only [generalCarCdr, intValue, hne, if_false]
  exact aux fuel p l hm

example : generalCarCdr 64 (ofArray [.int 1, .int 2, .int 3]) (.int 6) = .ok (.int 2) := by decide
example : encode ['d', 'a'] = 6 := by decide

/-! ## C14: flatten and flatten* -/

/-- `NLst d xs`: a list of elements `xs` closed by the nil pointer (not by an empty cell). -/
inductive NLst : Data → List Data → Prop where
  | null : NLst .null []
  | cons (k : Kind) (a d : Data) (xs : List Data) :
      ¬ (a = .null ∧ d = .null) → k ≠ .acell → NLst d xs → NLst (.cell k a d) (a :: xs)

theorem NLst.rawArray {d : Data} {xs : List Data} (h : NLst d xs) : rawArray d = xs := by
  induction h with
  | null => rfl
  | cons k a d xs _ _ _ ih => simp [Data.rawArray, ih]

/-- What `flatten` makes of one element: its elements when it is a non-empty list, itself when it is no list. -/
def Piece (x : Data) (ps : List Data) : Prop :=
  (isListP x = false ∧ ps = [x]) ∨ (NLst x ps ∧ ps ≠ [] ∧ isListP x = true)

inductive Pieces : List Data → List Data → Prop where
  | nil : Pieces [] []
  | cons (x : Data) (xs ps qs : List Data) : Piece x ps → Pieces xs qs → Pieces (x :: xs) (ps ++ qs)

theorem flattenLoop_spec {d : Data} {xs ps : List Data} (h : Lst d xs) (hp : Pieces xs ps) : flattenLoop d = ps := by
  induction h generalizing ps with
  | null => cases hp; rfl
  | empty k => cases hp; simp [flattenLoop, isNil]
  | cons k a d xs hn hk hd ih =>
    cases hp with
    | cons _ _ ps' qs h1 h2 =>
    have e : isNil (.cell k a d) = false := (isNil_cell_false k a d).2 hn
    simp only [flattenLoop, e, Bool.false_eq_true, if_false, ih h2]
    rcases h1 with ⟨h1, rfl⟩ | ⟨h1, _, h3⟩
    · simp [h1]
    · simp [h3, h1.rawArray]

/-- `(flatten l)` splices every non-empty list element in place, one level.
Missing for the full statement: an *empty* list element is kept as an element `()` (see the violation). -/
theorem C14_flatten_partial (d : Data) (xs ps : List Data) (h : Lst d xs) (hl : isListP d = true) (hd : d ≠ .null)
    (hp : Pieces xs ps) : flatten d = ofArray ps := by
  simp [flatten, hd, hl, flattenLoop_spec h hp]

/-- Violation: `(flatten '(1 () 2))` keeps the empty list. -/
theorem C14_flatten_violation :
    flatten (ofArray [.int 1, .emptyCons, .int 2]) = ofArray [.int 1, .emptyCons, .int 2] := by decide

mutual
/-- `Leaves d ls`: the non-list leaves of the list `d`, left to right; no empty list occurs inside. -/
inductive Leaves : Data → List Data → Prop where
  | null : Leaves .null []
  | cons (k : Kind) (a d : Data) (la ld : List Data) : k ≠ .acell → LeavesOf a la → Leaves d ld →
      Leaves (.cell k a d) (la ++ ld)
inductive LeavesOf : Data → List Data → Prop where
  | leaf (a : Data) : isListP a = false → LeavesOf a [a]
  | list (k : Kind) (a d : Data) (ls : List Data) : k ≠ .acell → Leaves (.cell k a d) ls → LeavesOf (.cell k a d) ls
end

theorem rawArray_listWithTail : ∀ xs : List Data, (∀ x ∈ xs, x ≠ .null) → rawArray (listWithTail xs .null) = xs := by
  intro xs
  induction xs with
  | nil => intro _; rfl
  | cons x xs ih =>
    intro h
    have : noNull x = x := by cases x <;> simp_all [noNull]
    simp [listWithTail, rawArray, this, ih (fun y hy => h y (by simp [hy]))]

theorem LeavesOf.ne_null {a : Data} {la : List Data} (h : LeavesOf a la) : a ≠ .null := by
  cases h with
  | leaf _ h => rintro rfl; simp [isListP, isPair] at h
  | list => simp

theorem rflattenLoop_spec : ∀ (d : Data) (ls : List Data), Leaves d ls →
    rflattenLoop d = ls ∧ (∀ x ∈ ls, x ≠ .null) ∧ (∀ k a d', d = .cell k a d' → ls ≠ []) := by
  intro d
  induction d with
  | null => intro ls h; cases h; simp [rflattenLoop]
  | atom a => intro ls h; cases h
  | cell k a d ia id =>
    intro ls h
    cases h with
    | cons _ _ _ la ld hk ha hd =>
    obtain ⟨h1, h2, _⟩ := id ld hd
    have e : isNil (.cell k a d) = false := (isNil_cell_false k a d).2 (fun h => ha.ne_null h.1)
    simp only [rflattenLoop, e, Bool.false_eq_true, if_false, h1]
    cases ha with
    | leaf _ hn =>
      refine ⟨?_, ?_, by simp⟩
      · cases a with
        | null => simp [isListP, isPair] at hn
        | atom => rfl
        | cell k' x y => cases k' <;> simp_all [isListP, isPair, isAlist]
      · intro x hx
        rcases List.mem_append.1 hx with hx | hx
        · simp at hx; subst hx; rintro rfl; simp [isListP, isPair] at hn
        · exact h2 x hx
    | list k' x y _ hk' hls =>
      obtain ⟨i1, i2, i3⟩ := ia la hls
      have hne := i3 k' x y rfl
      have hr : rawArray (ofArray (rflattenLoop (.cell k' x y))) = la := by
        rw [i1]
        cases la with
        | nil => simp at hne
        | cons z zs => exact rawArray_listWithTail (z :: zs) i2
      refine ⟨?_, ?_, by simp [hne]⟩
      · cases k' with
        | cons => simp only [hr]
        | alist => simp only [hr]
        | acell => simp at hk'
      · intro z hz
        rcases List.mem_append.1 hz with hz | hz
        · exact i2 z hz
        · exact h2 z hz

/-- `(flatten* l)` is the list of the non-list leaves of `l`, left to right, for lists without empty sublists.
Missing for the full statement: empty sublists, which remain as `()` leaves (see the violation). -/
theorem C14_flatten_star_partial (d : Data) (ls : List Data) (h : Leaves d ls) (hl : isListP d = true) (hd : d ≠ .null) :
    rflatten d = ofArray ls ∧ ∀ x ∈ ls, x ≠ .null := by
  obtain ⟨h1, h2, _⟩ := rflattenLoop_spec d ls h
  exact ⟨by simp [rflatten, hd, hl, h1], h2⟩

/-- Violation: `(flatten* '(1 (()) 2))` contains a list. -/
theorem C14_flatten_star_violation :
    rflatten (ofArray [.int 1, ofArray [.emptyCons], .int 2]) = ofArray [.int 1, .emptyCons, .int 2] := by decide

example : rflatten (ofArray [.int 1, ofArray [.int 2, ofArray [.int 3]], .int 4]) =
    ofArray [.int 1, .int 2, .int 3, .int 4] := by decide
example : Leaves (ofArray [.int 1, ofArray [.int 2, ofArray [.int 3]]]) [.int 1, .int 2, .int 3] :=
  .cons _ _ _ [_] _ (by simp) (.leaf _ rfl) (.cons _ _ _ [_, _] [] (by simp)
    (.list _ _ _ _ (by simp) (.cons _ _ _ [_] [_] (by simp) (.leaf _ rfl) (.cons _ _ _ [_] [] (by simp)
      (.list _ _ _ _ (by simp) (.cons _ _ _ [_] [] (by simp) (.leaf _ rfl) .null)) .null))) .null)

end Golisp.Props
