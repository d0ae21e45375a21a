import Verif.Num
import Verif.ListLemmas
import Verif.Spec
/-
Properties of the number primitives: C19 (+ - *), C20 (quotient, remainder), C21 (comparison), C22 (pow),
C25 (min, max, parity, sign), C26 (bit operations).  C23 and C24 are in `Verif.Props.Numbers2`.
-/
namespace Golisp.Props
open Golisp Golisp.Data Golisp.Prim Spec

/-! ### C19 -/

theorem intValue_int (n : BitVec 64) : intValue (.int n) = n := rfl

theorem anyFloats_ints (ns : List (BitVec 64)) : anyFloats (ns.map Data.int) = .ok false := by
  induction ns with
  | nil => rfl
  | cons n ns ih => simp [anyFloats, isNum, isInt, isFlt, ih]

theorem foldl_add (ns : List (BitVec 64)) (acc : BitVec 64) :
    (ns.map Data.int).foldl (fun acc d => acc + intValue d) acc =
      BitVec.ofInt 64 (acc.toInt + (ns.map BitVec.toInt).sum) := by
  induction ns generalizing acc with
  | nil => simp
  | cons n ns ih =>
    simp only [List.map_cons, List.foldl_cons, intValue_int, ih, List.sum_cons]
    rw [← BitVec.toInt_inj, BitVec.toInt_ofInt, BitVec.toInt_ofInt, BitVec.toInt_add, Int.bmod_add_bmod]
    congr 1; omega

theorem foldl_sub (ns : List (BitVec 64)) (acc : BitVec 64) :
    (ns.map Data.int).foldl (fun acc d => acc - intValue d) acc =
      BitVec.ofInt 64 (acc.toInt - (ns.map BitVec.toInt).sum) := by
  induction ns generalizing acc with
  | nil => simp
  | cons n ns ih =>
    simp only [List.map_cons, List.foldl_cons, intValue_int, ih, List.sum_cons]
    rw [← BitVec.toInt_inj, BitVec.toInt_ofInt, BitVec.toInt_ofInt, BitVec.toInt_sub, Int.bmod_sub_bmod]
    congr 1; omega

theorem foldl_mul (ns : List (BitVec 64)) (acc : BitVec 64) :
    (ns.map Data.int).foldl (fun acc d => acc * intValue d) acc =
      BitVec.ofInt 64 (acc.toInt * (ns.map BitVec.toInt).foldr (· * ·) 1) := by
  induction ns generalizing acc with
  | nil => simp
  | cons n ns ih =>
    simp only [List.map_cons, List.foldl_cons, intValue_int, ih, List.foldr_cons]
    rw [← BitVec.toInt_inj, BitVec.toInt_ofInt, BitVec.toInt_ofInt, BitVec.toInt_mul, Int.bmod_mul_bmod, Int.mul_assoc]

/-- `(+ n1 .. nk)` on integers is the mathematical sum reduced to a signed 64-bit integer. -/
theorem C19_add (ns : List (BitVec 64)) :
    add (ns.map Data.int) = .ok (.int (BitVec.ofInt 64 (ns.map BitVec.toInt).sum)) := by
  simp [add, arith, anyFloats_ints, addInts, foldl_add]

/-- `(- n1 n2 .. nk)` is `n1` minus the others, reduced to 64 bits; `(- n)` is `n` and `(-)` is 0. -/
theorem C19_subtract (n : BitVec 64) (ns : List (BitVec 64)) :
    subtract ((n :: ns).map Data.int) = .ok (.int (BitVec.ofInt 64 (n.toInt - (ns.map BitVec.toInt).sum))) ∧
    subtract [] = .ok (.int 0) := by
  have := anyFloats_ints (n :: ns)
  constructor
  · simp only [subtract, arith, this]
    simp only [subtractInts, List.map_cons, List.tail_cons, List.headD_cons, intValue_int, foldl_sub]
  · decide

/-- `(* n1 .. nk)` is the mathematical product reduced to 64 bits. -/
theorem C19_multiply (ns : List (BitVec 64)) :
    multiply (ns.map Data.int) = .ok (.int (BitVec.ofInt 64 ((ns.map BitVec.toInt).foldr (· * ·) 1))) := by
  simp [multiply, arith, anyFloats_ints, multiplyInts, foldl_mul]

/-- Neither `+` nor `*` depends on the order of its integer arguments. -/
theorem C19_order (ns ms : List (BitVec 64)) (h : ns.Perm ms) :
    add (ns.map Data.int) = add (ms.map Data.int) ∧ multiply (ns.map Data.int) = multiply (ms.map Data.int) := by
  rw [C19_add, C19_add, C19_multiply, C19_multiply]
  have h' := h.map BitVec.toInt
  have hs : (ns.map BitVec.toInt).sum = (ms.map BitVec.toInt).sum := by
    have aux : ∀ {l₁ l₂ : List Int}, l₁.Perm l₂ → l₁.sum = l₂.sum := by
      intro l₁ l₂ hp
      induction hp with
      | nil => rfl
      | cons x _ ih => simp [ih]
      | swap x y l => simp; omega
      | trans _ _ i1 i2 => exact i1.trans i2
    exact aux h'
  have hm : (ns.map BitVec.toInt).foldr (· * ·) 1 = (ms.map BitVec.toInt).foldr (· * ·) 1 := by
    have aux : ∀ {l₁ l₂ : List Int}, l₁.Perm l₂ → l₁.foldr (· * ·) 1 = l₂.foldr (· * ·) 1 := by
      intro l₁ l₂ hp
      induction hp with
      | nil => rfl
      | cons x _ ih => simp [ih]
      | swap x y l => simp [Int.mul_left_comm]
      | trans _ _ i1 i2 => exact i1.trans i2
    exact aux h'
  rw [hs, hm]; exact ⟨rfl, rfl⟩

/-- Results that fit in 64 bits are exact. -/
theorem C19_exact (ns : List (BitVec 64)) :
    (-(2 ^ 63 : Int) ≤ (ns.map BitVec.toInt).sum → (ns.map BitVec.toInt).sum < 2 ^ 63 →
      ∃ r, add (ns.map Data.int) = .ok (.int r) ∧ r.toInt = (ns.map BitVec.toInt).sum) ∧
    (-(2 ^ 63 : Int) ≤ (ns.map BitVec.toInt).foldr (· * ·) 1 → (ns.map BitVec.toInt).foldr (· * ·) 1 < 2 ^ 63 →
      ∃ r, multiply (ns.map Data.int) = .ok (.int r) ∧ r.toInt = (ns.map BitVec.toInt).foldr (· * ·) 1) := by
  refine ⟨fun h1 h2 => ⟨_, C19_add ns, ?_⟩, fun h1 h2 => ⟨_, C19_multiply ns, ?_⟩⟩ <;>
  · rw [BitVec.toInt_ofInt]; exact Int.bmod_eq_of_le (by omega) (by omega)

/-- `succ` and `pred` add and subtract one modulo 2^64, and `(pred (succ n)) = n`. -/
theorem C19_succ_pred (n : BitVec 64) :
    succ (.int n) = .ok (.int (BitVec.ofInt 64 (n.toInt + 1))) ∧
    pred (.int n) = .ok (.int (BitVec.ofInt 64 (n.toInt - 1))) ∧
    pred (.int (n + 1)) = .ok (.int n) := by
  refine ⟨?_, ?_, ?_⟩
  · simp [succ, BitVec.ofInt_add]
  · simp [pred, ← BitVec.toInt_inj, BitVec.toInt_ofInt, BitVec.toInt_sub]
  · simp [pred, BitVec.add_sub_cancel]

/-- An argument that is not a number, after integers only, is an error for each of the operations. -/
theorem C19_non_number (ns : List (BitVec 64)) (x : Data) (rest : List Data) (h : isNum x = false) :
    ∃ e, add (ns.map Data.int ++ x :: rest) = .err e ∧ subtract (ns.map Data.int ++ x :: rest) = .err e ∧
      multiply (ns.map Data.int ++ x :: rest) = .err e ∧ quotient (ns.map Data.int ++ x :: rest) = .err e := by
  have : anyFloats (ns.map Data.int ++ x :: rest) = .err (.msg "Number expected, received ") := by
    induction ns with
    | nil => simp [anyFloats, h]
    | cons n ns ih => simpa [anyFloats, isNum, isInt, isFlt] using ih
  exact ⟨.msg "Number expected, received ", by simp [add, arith, this], by simp [subtract, arith, this], by simp [multiply, arith, this],
    by simp [quotient, arith, this]⟩

example : add [.int (BitVec.ofInt 64 (2 ^ 63 - 1)), .int 1] = .ok (.int (BitVec.ofInt 64 (-2 ^ 63))) := by decide
example : subtract [.int 5, .int 7, .int 1] = .ok (.int (BitVec.ofInt 64 (-3))) := by decide
example : multiply [.int 5, .int (-7), .int 2] = .ok (.int (BitVec.ofInt 64 (-70))) := by decide
example : add [.int 5, .str "x"] = .err (.msg "Number expected, received ") := by decide

/-! ### C20 -/

/-- Quotient and remainder of integers by a non-zero divisor: both succeed; the quotient is truncated division
(exactly, unless the most negative integer is divided by -1, which wraps); the remainder is smaller than the divisor,
has the sign of the dividend, and `a = b*q + r` modulo 2^64. -/
theorem C20_division_partial (a b : BitVec 64) (hb : b ≠ 0) :
    ∃ q r, quotient [.int a, .int b] = .ok (.int q) ∧ remainder (.int a) (.int b) = .ok (.int r) ∧
      a = b * q + r ∧ r.toInt.natAbs < b.toInt.natAbs ∧ (0 ≤ a.toInt → 0 ≤ r.toInt) ∧ (a.toInt ≤ 0 → r.toInt ≤ 0) ∧
      q = BitVec.ofInt 64 (a.toInt.tdiv b.toInt) ∧
      (¬ (a.toInt = -2 ^ 63 ∧ b.toInt = -1) → q.toInt = a.toInt.tdiv b.toInt ∧ a.toInt = b.toInt * q.toInt + r.toInt) := by
  have hb' : ¬ b = 0#64 := hb
  have hb0 : b.toInt ≠ 0 := fun h => hb (by rw [← BitVec.toInt_inj]; simpa using h)
  have hq : a.sdiv b = BitVec.ofInt 64 (a.toInt.tdiv b.toInt) := by
    rw [← BitVec.toInt_inj, BitVec.toInt_sdiv, BitVec.toInt_ofInt]
  have hr : (a.srem b).toInt = a.toInt.tmod b.toInt := BitVec.toInt_srem ..
  have hdm := Int.mul_tdiv_add_tmod a.toInt b.toInt
  have hfit : ¬ (a.toInt = -2 ^ 63 ∧ b.toInt = -1) → (a.sdiv b).toInt = a.toInt.tdiv b.toInt := by
    intro hn
    rw [BitVec.toInt_sdiv]
    have h1 := BitVec.toInt_lt (x := a); have h2 := BitVec.le_toInt (x := a)
    have ha : (a.toInt.tdiv b.toInt).natAbs = a.toInt.natAbs / b.toInt.natAbs := Int.natAbs_tdiv a.toInt b.toInt
    have hle := Nat.div_le_self a.toInt.natAbs b.toInt.natAbs
    have : (a.toInt.tdiv b.toInt).natAbs ≤ 2 ^ 63 := by rw [ha]; omega
    by_cases he : (a.toInt.tdiv b.toInt) = 2 ^ 63
    · exfalso
      rw [he] at ha
      by_cases hb1 : b.toInt.natAbs = 1
      · have : b.toInt = 1 ∨ b.toInt = -1 := by omega
        rcases this with h | h
        · rw [h, Int.tdiv_one] at he; omega
        · rw [h] at he; simp at he; omega
      · have : a.toInt.natAbs / b.toInt.natAbs ≤ a.toInt.natAbs / 2 := Nat.div_le_div_left (by omega) (by omega)
        have h3 : ((2:Int) ^ 63).natAbs = 2 ^ 63 := by decide
        omega
    · exact Int.bmod_eq_of_le (by omega) (by omega)
  refine ⟨a.sdiv b, a.srem b, ?_, ?_, ?_, ?_, ?_, ?_, hq, ?_⟩
  · simp [quotient, arith, anyFloats, isNum, isInt, isFlt, quotIntLoop, intValue, hb']
  · simp [remainder, hb']
  · have hr' : a.srem b = BitVec.ofInt 64 (a.toInt.tmod b.toInt) := by rw [← hr, BitVec.ofInt_toInt]
    rw [hq, hr']
    conv => lhs; rw [← BitVec.ofInt_toInt (x := a), ← hdm, BitVec.ofInt_add, BitVec.ofInt_mul, BitVec.ofInt_toInt]
  · rw [hr, Int.natAbs_tmod]; exact Nat.mod_lt _ (by omega)
  · intro h; rw [hr]; exact Int.tmod_nonneg _ h
  · intro h; rw [hr]
    have := Int.tmod_nonneg b.toInt (a := -a.toInt) (by omega)
    rw [Int.neg_tmod] at this; omega
  · intro hn; exact ⟨hfit hn, by rw [hfit hn, hr]; omega⟩

/-- Dividing by zero is an error (whatever comes before and after the zero divisor). -/
theorem C20_quotient_zero (a : BitVec 64) (bs : List (BitVec 64)) (h : 0 ∈ bs) :
    ∃ e, quotient ((a :: bs).map Data.int) = .err e := by
  have := anyFloats_ints (a :: bs)
  refine ⟨.msg "Quotent:  -> Divide by zero.", ?_⟩
  simp only [quotient, arith, this]
  simp only [List.map_cons, List.tail_cons, List.headD_cons]
  have aux : ∀ acc, quotIntLoop (bs.map Data.int) acc = .err (.msg "Quotent:  -> Divide by zero.") := by
    clear this
    induction bs with
    | nil => simp at h
    | cons b bs ih =>
      intro acc
      by_cases hb : intValue (.int b) = 0
      · simp only [List.map_cons, quotIntLoop, if_pos hb]
      · simp only [List.map_cons, quotIntLoop, if_neg hb]
        exact ih ((List.mem_cons.1 h).resolve_left (fun e => hb e.symm)) _
  exact aux _

/-- Violation: the remainder by zero is not an error but a Go run-time panic, for every dividend. -/
theorem C20_remainder_zero_violation (a : BitVec 64) : remainder (.int a) (.int 0) = .panic := by
  simp [remainder]

/-- Non-integers are rejected by `%`. -/
theorem C20_remainder_non_integer (x y : Data) (h : isInt x = false ∨ isInt y = false) :
    ∃ e, remainder x y = .err e := by
  unfold remainder
  split
  · split
    · simp [isInt] at h
    · exact ⟨_, rfl⟩
  · exact ⟨_, rfl⟩

example : quotient [.int (-7), .int 2] = .ok (.int (-3)) ∧ remainder (.int (-7)) (.int 2) = .ok (.int (-1)) := by decide
example : quotient [.int (BitVec.ofInt 64 (-2 ^ 63)), .int (-1)] = .ok (.int (BitVec.ofInt 64 (-2 ^ 63))) := by decide
example : quotient [.int 7, .int 1, .int 0, .int 2] = .err (.msg "Quotent:  -> Divide by zero.") := by decide

/-! ### C21 -/

/-- Comparison of integers is sound: `<` and `>` only answer true when it is so, `<=` and `>=` answer true whenever it is so.
Missing for the full statement: the converse fails above 2^24 (`C21_violation`). -/
theorem C21_sound_partial (a b : BitVec 64) :
    (∃ r, lessThan (.int a) (.int b) = .ok (.bool r) ∧ (r = true → a.toInt < b.toInt)) ∧
    (∃ r, greaterThan (.int a) (.int b) = .ok (.bool r) ∧ (r = true → a.toInt > b.toInt)) ∧
    (∃ r, lessOrEqual (.int a) (.int b) = .ok (.bool r) ∧ (a.toInt ≤ b.toInt → r = true)) ∧
    (∃ r, greaterOrEqual (.int a) (.int b) = .ok (.bool r) ∧ (a.toInt ≥ b.toInt → r = true)) := by
  have hl : ∀ {x y : Int}, F32.lt (F32.ofInt x) (F32.ofInt y) = true → x < y := by
    intro x y h
    simp only [F32.lt, F32.not_isNaN_ofInt, Bool.not_false, Bool.true_and, decide_eq_true_eq] at h
    refine Classical.byContradiction fun hn => ?_
    have := F32.key_ofInt_mono (a := y) (b := x) (by omega)
    omega
  have hle : ∀ {x y : Int}, x ≤ y → F32.le (F32.ofInt x) (F32.ofInt y) = true := by
    intro x y h
    simp only [F32.le, F32.not_isNaN_ofInt, Bool.not_false, Bool.true_and, decide_eq_true_eq]
    exact F32.key_ofInt_mono h
  exact ⟨⟨_, rfl, hl⟩, ⟨_, rfl, hl⟩, ⟨_, rfl, hle⟩, ⟨_, rfl, hle⟩⟩

theorem key_lt_iff {a b : Int} (ha : a.natAbs ≤ 2 ^ 24) (hb : b.natAbs ≤ 2 ^ 24) :
    F32.key (F32.ofInt a) < F32.key (F32.ofInt b) ↔ a < b := by
  constructor
  · intro h; refine Classical.byContradiction fun hn => ?_
    have := F32.key_ofInt_mono (a := b) (b := a) (by omega); omega
  · intro h
    have h1 := F32.key_ofInt_mono (a := a) (b := b) (by omega)
    have h2 : F32.key (F32.ofInt a) ≠ F32.key (F32.ofInt b) := fun e => by
      have := F32.key_ofInt_inj ha hb e; omega
    omega

/-- Integers of magnitude at most 2^24 are compared exactly. -/
theorem C21_exact_partial (a b : BitVec 64) (ha : a.toInt.natAbs ≤ 2 ^ 24) (hb : b.toInt.natAbs ≤ 2 ^ 24) :
    lessThan (.int a) (.int b) = .ok (.bool (decide (a.toInt < b.toInt))) ∧
    greaterThan (.int a) (.int b) = .ok (.bool (decide (a.toInt > b.toInt))) ∧
    lessOrEqual (.int a) (.int b) = .ok (.bool (decide (a.toInt ≤ b.toInt))) ∧
    greaterOrEqual (.int a) (.int b) = .ok (.bool (decide (a.toInt ≥ b.toInt))) := by
  have h1 := key_lt_iff ha hb
  have h2 := key_lt_iff hb ha
  have hl : F32.lt (F32.ofInt a.toInt) (F32.ofInt b.toInt) = decide (a.toInt < b.toInt) := by
    simp only [F32.lt, F32.not_isNaN_ofInt, Bool.not_false, Bool.true_and]
    exact decide_eq_decide.2 h1
  have hl' : F32.lt (F32.ofInt b.toInt) (F32.ofInt a.toInt) = decide (b.toInt < a.toInt) := by
    simp only [F32.lt, F32.not_isNaN_ofInt, Bool.not_false, Bool.true_and]
    exact decide_eq_decide.2 h2
  have hle : F32.le (F32.ofInt a.toInt) (F32.ofInt b.toInt) = decide (a.toInt ≤ b.toInt) := by
    simp only [F32.le, F32.not_isNaN_ofInt, Bool.not_false, Bool.true_and]
    exact decide_eq_decide.2 (by omega)
  have hle' : F32.le (F32.ofInt b.toInt) (F32.ofInt a.toInt) = decide (b.toInt ≤ a.toInt) := by
    simp only [F32.le, F32.not_isNaN_ofInt, Bool.not_false, Bool.true_and]
    exact decide_eq_decide.2 (by omega)
  exact ⟨congrArg (fun r => Out.ok (Data.bool r)) hl, congrArg (fun r => Out.ok (Data.bool r)) hl',
    congrArg (fun r => Out.ok (Data.bool r)) hle, congrArg (fun r => Out.ok (Data.bool r)) hle'⟩

/-- Violation: 2^24 and 2^24+1 are neither `<` nor `>` in either order, and both `<=`. -/
theorem C21_violation :
    lessThan (.int 16777216) (.int 16777217) = .ok (.bool false) ∧
    lessOrEqual (.int 16777217) (.int 16777216) = .ok (.bool true) ∧
    greaterOrEqual (.int 16777216) (.int 16777217) = .ok (.bool true) := by decide

/-- Comparison with anything but numbers is an error. -/
theorem C21_non_number (x y : Data) (h : isNum x = false ∨ isNum y = false) :
    (∃ e, lessThan x y = .err e) ∧ (∃ e, greaterThan x y = .err e) ∧
    (∃ e, lessOrEqual x y = .err e) ∧ (∃ e, greaterOrEqual x y = .err e) := by
  have aux : ∀ r, ∃ e, numCompare r x y = .err e := by
    intro r; unfold numCompare
    rcases h with h | h
    · exact ⟨.msg "Number expected, received ", by simp [h]⟩
    · exact ⟨.msg "Number expected, received ", by simp [h]⟩
  exact ⟨aux _, aux _, aux _, aux _⟩

example : lessThan (.int (-3)) (.int 16777216) = .ok (.bool true) := by decide
example : (BitVec.ofInt 64 (-3)).toInt.natAbs ≤ 2 ^ 24 := by decide

/-! ### C22 -/

theorem powLoop_spec : ∀ (n : Nat) (R B : Int) (e : BitVec 64), 0 ≤ e.toInt → e.toNat < 2 ^ n →
    powLoop n (BitVec.ofInt 64 R) (BitVec.ofInt 64 B) e = BitVec.ofInt 64 (R * B ^ e.toNat) := by
  intro n
  induction n with
  | zero =>
    intro R B e h1 h2
    have : e.toNat = 0 := by omega
    simp [powLoop, this]
  | succ n ih =>
    intro R B e h1 h2
    have hm : e.msb = false := by
      rw [BitVec.msb_eq_toInt]; simpa using h1
    unfold powLoop
    split
    · next hpos =>
      have hs : (e.sshiftRight 1).toNat = e.toNat / 2 := by
        rw [BitVec.sshiftRight_eq_of_msb_false hm]; simp [Nat.shiftRight_succ]
      have hs1 : 0 ≤ (e.sshiftRight 1).toInt := by
        rw [BitVec.sshiftRight_eq_of_msb_false hm, BitVec.toInt_eq_toNat_cond]
        have : (e >>> 1).toNat = e.toNat / 2 := by simp [Nat.shiftRight_succ]
        have := e.isLt
        split <;> omega
      have hodd : (e &&& 1 ≠ 0) ↔ e.toNat % 2 = 1 := by
        rw [ne_eq, ← BitVec.toNat_inj]
        simp only [BitVec.toNat_and]
        have h1 : BitVec.toNat (1 : BitVec 64) = 2 ^ 1 - 1 := by decide
        have h0 : BitVec.toNat (0 : BitVec 64) = 0 := by decide
        rw [h1, h0, Nat.and_two_pow_sub_one_eq_mod]; omega
      have hsq : ∀ k, (B * B) ^ k = B ^ (2 * k) := by
        intro k; rw [Int.pow_mul]; congr 1; simp [Int.pow_succ]
      split
      · next ho =>
        rw [← BitVec.ofInt_mul, ← BitVec.ofInt_mul, ih _ _ _ hs1 (by omega), hs, hsq, Int.mul_assoc]
        have : e.toNat = 2 * (e.toNat / 2) + 1 := by have := hodd.1 ho; omega
        conv => rhs; rw [this]
        rw [Int.pow_succ, Int.mul_comm B]
      · next ho =>
        rw [← BitVec.ofInt_mul, ih _ _ _ hs1 (by omega), hs, hsq]
        have : e.toNat = 2 * (e.toNat / 2) := by have := mt hodd.2 ho; omega
        rw [← this]
    · next hpos =>
      rw [BitVec.slt_eq_decide] at hpos
      have h0 : e.toInt = 0 := by simp at hpos; omega
      have : e = 0 := by rw [← BitVec.toInt_inj]; simpa using h0
      subst this; simp

/-- `(pow b e)` for `e ≥ 0` is `b^e` reduced to 64 bits. -/
theorem C22_pow (b e : BitVec 64) (he : 0 ≤ e.toInt) :
    powInts (.int b) (.int e) = .ok (.int (BitVec.ofInt 64 (b.toInt ^ e.toNat))) := by
  have := powLoop_spec 64 1 b.toInt e he e.isLt
  rw [BitVec.ofInt_toInt, Int.one_mul] at this
  simp only [powInts, intValue_int]
  rw [← this]; rfl

/-- A negative exponent gives 1. -/
theorem C22_pow_negative (b e : BitVec 64) (he : e.toInt < 0) : powInts (.int b) (.int e) = .ok (.int 1) := by
  have : (0#64).slt e = false := by
    rw [BitVec.slt_eq_decide]; simp; omega
  simp [powInts, powLoop, intValue, this]

example : powInts (.int 3) (.int 13) = .ok (.int 1594323) := by decide
example : powInts (.int 2) (.int 64) = .ok (.int 0) := by decide

/-! ### C25 -/

theorem extInts_spec (better : BitVec 64 → BitVec 64 → Bool) (le : BitVec 64 → BitVec 64 → Prop)
    (hrefl : ∀ a, le a a) (htrans : ∀ a b c, le a b → le b c → le a c)
    (h1 : ∀ a b, better a b = true → le a b) (h2 : ∀ a b, better a b = false → le b a)
    (ns : List (BitVec 64)) (acc : BitVec 64) :
    ∃ m, extInts better (ns.map Data.int) acc = .ok (.int m) ∧ m ∈ acc :: ns ∧ ∀ n ∈ acc :: ns, le m n := by
  induction ns generalizing acc with
  | nil => exact ⟨acc, rfl, by simp, by simpa using hrefl acc⟩
  | cons n ns ih =>
    obtain ⟨m, e, hm, hle⟩ := ih (if better n acc then n else acc)
    refine ⟨m, by simpa [extInts] using e, ?_, ?_⟩
    · rcases List.mem_cons.1 hm with h | h
      · rw [h]; split <;> simp
      · simp [h]
    · have h0 := hle _ (List.mem_cons_self ..)
      intro x hx
      rcases List.mem_cons.1 hx with rfl | hx
      · cases hb : better n x
        · rwa [hb, if_neg (by simp)] at h0
        · rw [hb, if_pos rfl] at h0; exact htrans _ _ _ h0 (h1 _ _ hb)
      · rcases List.mem_cons.1 hx with rfl | hx
        · cases hb : better x acc
          · rw [hb, if_neg (by simp)] at h0; exact htrans _ _ _ h0 (h2 _ _ hb)
          · rwa [hb, if_pos rfl] at h0
        · exact hle _ (by simp [hx])

theorem extremum_ints {bi bf} (l : Data) (n : BitVec 64) (ns : List (BitVec 64)) (h : Lst l ((n :: ns).map Data.int)) :
    extremum bi bf l = extInts bi (ns.map Data.int) n := by
  have h1 : isListP l = true := h.isListP (by rintro rfl; cases h)
  have h2 : length l = ns.length + 1 := by rw [h.length]; simp
  have h3 : toArray l = (n :: ns).map Data.int := by
    rw [h.toArray]
  have h4 := anyFloats_ints (n :: ns)
  unfold extremum
  simp only [h1, h2, h3, h4]
  simp [isInt, intValue]

/-- `(min l)` of a non-empty list of integers is an element of the list that bounds the others from below. -/
theorem C25_min (l : Data) (n : BitVec 64) (ns : List (BitVec 64)) (h : Lst l ((n :: ns).map Data.int)) :
    ∃ m, Prim.min l = .ok (.int m) ∧ m ∈ n :: ns ∧ ∀ x ∈ n :: ns, m.toInt ≤ x.toInt := by
  obtain ⟨m, e, hm, hle⟩ := extInts_spec (fun n acc => n.slt acc) (fun a b => a.toInt ≤ b.toInt)
    (fun _ => by omega) (fun _ _ _ => by omega) (fun a b h => by simp [BitVec.slt_eq_decide] at h; omega)
    (fun a b h => by simp [BitVec.slt_eq_decide] at h; omega) ns n
  exact ⟨m, by rw [Prim.min, extremum_ints l n ns h, e], hm, hle⟩

/-- `(max l)` of a non-empty list of integers is an element of the list that bounds the others from above. -/
theorem C25_max (l : Data) (n : BitVec 64) (ns : List (BitVec 64)) (h : Lst l ((n :: ns).map Data.int)) :
    ∃ m, Prim.max l = .ok (.int m) ∧ m ∈ n :: ns ∧ ∀ x ∈ n :: ns, x.toInt ≤ m.toInt := by
  obtain ⟨m, e, hm, hle⟩ := extInts_spec (fun n acc => acc.slt n) (fun a b => b.toInt ≤ a.toInt)
    (fun _ => by omega) (fun _ _ _ => by omega) (fun a b h => by simp [BitVec.slt_eq_decide] at h; omega)
    (fun a b h => by simp [BitVec.slt_eq_decide] at h; omega) ns n
  exact ⟨m, by rw [Prim.max, extremum_ints l n ns h, e], hm, hle⟩

/-- The empty list has minimum and maximum 0. -/
theorem C25_min_max_empty (l : Data) (h : Lst l []) (h1 : isListP l = true) : Prim.min l = .ok (.int 0) ∧ Prim.max l = .ok (.int 0) := by
  have h2 : length l = 0 := by rw [h.length]; rfl
  simp [Prim.min, Prim.max, extremum, h1, h2]

/-- `even?` and `odd?` agree with divisibility by 2 and are complementary. -/
theorem C25_parity (n : BitVec 64) :
    evenP (.int n) = .ok (.bool (decide (2 ∣ n.toInt))) ∧ oddP (.int n) = .ok (.bool (!decide (2 ∣ n.toInt))) := by
  have h : (n.srem 2 == 0) = decide (2 ∣ n.toInt) := by
    rw [Bool.eq_iff_iff, beq_iff_eq, decide_eq_true_eq, ← BitVec.toInt_inj, BitVec.toInt_srem]
    have h2 : BitVec.toInt (2 : BitVec 64) = 2 := by decide
    have h0 : BitVec.toInt (0 : BitVec 64) = 0 := by decide
    rw [h2, h0]
    exact ⟨Int.dvd_of_tmod_eq_zero, Int.tmod_eq_zero_of_dvd⟩
  have h' : (n.srem 2 != 0) = !decide (2 ∣ n.toInt) := by rw [← h]; rfl
  simp only [evenP, oddP, h, h', and_self]

theorem key_sign (n : BitVec 64) : (0 < F32.key (F32.ofInt n.toInt) ↔ 0 < n.toInt) ∧
    (F32.key (F32.ofInt n.toInt) < 0 ↔ n.toInt < 0) := by
  have k0 : F32.key (F32.ofInt 0) = 0 := by decide
  have k1 : 0 < F32.key (F32.ofInt 1) := by decide
  have k2 : F32.key (F32.ofInt (-1)) < 0 := by decide
  have a := @F32.key_ofInt_mono n.toInt 0
  have b := @F32.key_ofInt_mono 0 n.toInt
  have c := @F32.key_ofInt_mono 1 n.toInt
  have d := @F32.key_ofInt_mono n.toInt (-1)
  constructor
  · constructor
    · intro h; refine Classical.byContradiction fun hn => ?_; have := a (by omega); omega
    · intro h; have := c (by omega); omega
  · constructor
    · intro h; refine Classical.byContradiction fun hn => ?_; have := b (by omega); omega
    · intro h; have := d (by omega); omega

theorem f32Eq_zero (f : BitVec 32) (hn : F32.isNaN f = false) : f32Eq f 0 = decide (F32.key f = 0) := by
  have h1 : f32IsNaN 0 = false := by decide
  have h2 : f32IsZero 0 = true := by decide
  have h3 : f32IsNaN f = F32.isNaN f := by
    unfold f32IsNaN F32.isNaN F32.infMag F32.mag
    rw [Bool.eq_iff_iff]
    simp only [Bool.and_eq_true, Bool.not_eq_true', beq_iff_eq, beq_eq_false_iff_ne, decide_eq_true_eq, ne_eq,
      ← BitVec.toNat_inj, BitVec.extractLsb'_toNat, Nat.shiftRight_eq_div_pow, BitVec.toNat_ofNat]
    omega
  have h4 : f32IsZero f = decide (F32.key f = 0) := by
    unfold f32IsZero F32.key F32.mag
    rw [Bool.eq_iff_iff]
    simp only [beq_iff_eq, decide_eq_true_eq, ← BitVec.toNat_inj, BitVec.extractLsb'_toNat, Nat.shiftRight_eq_div_pow,
      BitVec.toNat_ofNat]
    split <;> omega
  unfold f32Eq
  rw [h1, h2, h3, hn, ← h4]
  simp
  rintro rfl; exact h2

/-- `zero?`, `positive?`, `negative?` and `sign` agree with the sign of the integer (although they go through float32). -/
theorem C25_sign (n : BitVec 64) :
    zeroP (.int n) = .ok (.bool (decide (n.toInt = 0))) ∧
    positiveP (.int n) = .ok (.bool (decide (0 < n.toInt))) ∧
    negativeP (.int n) = .ok (.bool (decide (n.toInt < 0))) ∧
    sign (.int n) = .ok (.int (BitVec.ofInt 64 n.toInt.sign)) := by
  obtain ⟨hp, hn⟩ := key_sign n
  have k0 : F32.key 0 = 0 := by decide
  have n0 : F32.isNaN 0 = false := by decide
  have e1 : f32Eq (F32.ofInt n.toInt) 0 = decide (n.toInt = 0) := by
    rw [f32Eq_zero _ (F32.not_isNaN_ofInt _)]; exact decide_eq_decide.2 (by omega)
  have e2 : F32.lt 0 (F32.ofInt n.toInt) = decide (0 < n.toInt) := by
    simp only [F32.lt, n0, F32.not_isNaN_ofInt, Bool.not_false, Bool.true_and, k0]
    exact decide_eq_decide.2 hp
  have e3 : F32.lt (F32.ofInt n.toInt) 0 = decide (n.toInt < 0) := by
    simp only [F32.lt, n0, F32.not_isNaN_ofInt, Bool.not_false, Bool.true_and, k0]
    exact decide_eq_decide.2 hn
  refine ⟨congrArg (fun r => Out.ok (Data.bool r)) e1, congrArg (fun r => Out.ok (Data.bool r)) e2,
    congrArg (fun r => Out.ok (Data.bool r)) e3, ?_⟩
  have : sign (.int n) = .ok (.int (intSgn n)) := rfl
  rw [this]
  congr 2
  unfold intSgn sgn
  rw [e2, e3]
  by_cases h1 : n.toInt < 0
  · rw [Int.sign_eq_neg_one_of_neg h1]; simp [h1]
  · by_cases h2 : 0 < n.toInt
    · rw [Int.sign_eq_one_of_pos h2]; simp [h1, h2]
    · have : n.toInt = 0 := by omega
      simp [this]

theorem mag_ofInt (n : Int) : F32.mag (F32.ofInt n) = F32.round 0 (n.natAbs * 2 ^ 149) := by
  have h := F32.key_ofInt n
  unfold F32.key at h
  split at h <;> split at h <;> omega

/-- `(abs n)` is the magnitude of `n` for magnitudes up to 2^24.
Missing for the full statement: larger integers are rounded to float32 (`C25_abs_violation`). -/
theorem C25_abs_partial (n : BitVec 64) (h : n.toInt.natAbs ≤ 2 ^ 24) :
    Prim.abs (.int n) = .ok (.int (BitVec.ofNat 64 n.toInt.natAbs)) := by
  have hr := F32.round_le_inf 0 (n.toInt.natAbs * 2 ^ 149)
  have hi : F32.infMag < 2 ^ 31 := by decide
  have hex : F32.scaled (F32.round 0 (n.toInt.natAbs * 2 ^ 149)) = n.toInt.natAbs * 2 ^ 149 := by
    by_cases h24 : n.toInt.natAbs = 2 ^ 24
    · rw [h24]
      have := F32.scaled_round_exact 1 173 (by decide) (by decide)
      simpa using this
    · exact F32.scaled_round_exact _ _ (by omega) (by
        have : n.toInt.natAbs * 2 ^ 149 < 2 ^ 24 * 2 ^ 149 := by
          exact Nat.mul_lt_mul_of_pos_right (by omega) (by decide)
        have e : (2:Nat) ^ 24 * 2 ^ 149 ≤ 2 ^ 250 := by decide
        omega)
  have hnan : F32.isNaN (F32.mk false (F32.round 0 (n.toInt.natAbs * 2 ^ 149))) = false := by
    unfold F32.isNaN; rw [F32.mag_mk _ _ (by omega)]; exact decide_eq_false (by omega)
  have e : Prim.abs (.int n) = .ok (.int (F32.toInt64 (F32.mk false (F32.mag (F32.ofInt n.toInt))))) := rfl
  rw [e, mag_ofInt]
  congr 2
  unfold F32.toInt64
  rw [hnan, F32.mag_mk _ _ (by omega), F32.neg_mk _ _ (by omega), hex, if_neg]
  · rw [Nat.mul_div_cancel _ (by decide)]; simp
  · simp only [Bool.false_eq_true, false_or, ge_iff_le, Nat.not_le]
    exact Nat.mul_lt_mul_of_pos_right (by omega) (by decide)

/-- Violation: `(abs 16777217)` is 16777216. -/
theorem C25_abs_violation : Prim.abs (.int 16777217) = .ok (.int 16777216) := by decide

example : Prim.abs (.int (-7)) = .ok (.int 7) := by decide
example : evenP (.int (-4)) = .ok (.bool true) ∧ oddP (.int (-3)) = .ok (.bool true) := by decide
example : Prim.min (ofArray [.int 3, .int (-2), .int 7]) = .ok (.int (-2)) := by decide
example : Lst (ofArray [.int 3, .int (-2), .int 7]) ([3, -2, 7].map Data.int) := by
  simpa [elem] using Spec.Lst.ofArray [.int 3, .int (-2), .int 7]

/-! ### C26 -/

/-- `binary-and` and `binary-or` act on each of the 64 bits. -/
theorem C26_and_or (a b : BitVec 64) :
    (∃ r, binaryAnd (.int a) (.int b) = .ok (.int r) ∧ ∀ i, r.getLsbD i = (a.getLsbD i && b.getLsbD i)) ∧
    (∃ r, binaryOr (.int a) (.int b) = .ok (.int r) ∧ ∀ i, r.getLsbD i = (a.getLsbD i || b.getLsbD i)) :=
  ⟨⟨_, rfl, by simp⟩, ⟨_, rfl, by simp⟩⟩

/-- `binary-not` flips the low 32 bits and leaves the high 32 alone.
Missing for the full statement: the high bits (`C26_not_violation`). -/
theorem C26_not_partial (a : BitVec 64) :
    ∃ r, binaryNot (.int a) = .ok (.int r) ∧ ∀ i, r.getLsbD i = (if i < 32 then !a.getLsbD i else a.getLsbD i) := by
  refine ⟨_, rfl, fun i => ?_⟩
  have h : (0xFFFFFFFF#64).getLsbD i = decide (i < 32) := by
    have e : (0xFFFFFFFF#64) = BitVec.setWidth 64 (BitVec.allOnes 32) := by decide
    rw [e, BitVec.getLsbD_setWidth, BitVec.getLsbD_allOnes]
    by_cases h : i < 32
    · have : i < 64 := by omega
      simp [h, this]
    · simp [h]
  rw [BitVec.getLsbD_xor, h]
  by_cases hi : i < 32 <;> simp [hi]

/-- Violation: `(binary-not 0)` is not -1. -/
theorem C26_not_violation : binaryNot (.int 0) = .ok (.int 0xFFFFFFFF) := by decide

/-- `left-shift` multiplies by `2^n` modulo 2^64 and `right-shift` divides the unsigned value by `2^n`, for every
shift count (read as unsigned); in particular counts of 64 and above, and negative counts, give 0. -/
theorem C26_shift (a b : BitVec 64) :
    leftShift (.int a) (.int b) = .ok (.int (BitVec.ofNat 64 (a.toNat * 2 ^ b.toNat))) ∧
    rightShift (.int a) (.int b) = .ok (.int (BitVec.ofNat 64 (a.toNat / 2 ^ b.toNat))) ∧
    (64 ≤ b.toNat → leftShift (.int a) (.int b) = .ok (.int 0) ∧ rightShift (.int a) (.int b) = .ok (.int 0)) ∧
    (b.toInt < 0 → 64 ≤ b.toNat) := by
  have e1 : leftShift (.int a) (.int b) = .ok (.int (BitVec.ofNat 64 (a.toNat * 2 ^ b.toNat))) := by
    simp only [leftShift, bin2]
    congr 2
    rw [← BitVec.toNat_inj]
    split
    · next h =>
      simp only [BitVec.toNat_ofNat]
      exact (Nat.mod_eq_zero_of_dvd (Nat.dvd_trans (Nat.pow_dvd_pow 2 h) (Nat.dvd_mul_left ..))).symm
    · simp [Nat.shiftLeft_eq]
  have e2 : rightShift (.int a) (.int b) = .ok (.int (BitVec.ofNat 64 (a.toNat / 2 ^ b.toNat))) := by
    simp only [rightShift, bin2]
    congr 2
    rw [← BitVec.toNat_inj]
    split
    · next h =>
      rw [Nat.div_eq_of_lt (Nat.lt_of_lt_of_le a.isLt (Nat.pow_le_pow_right (by omega) h))]; simp
    · simp only [BitVec.toNat_ushiftRight, Nat.shiftRight_eq_div_pow, BitVec.toNat_ofNat]
      rw [Nat.mod_eq_of_lt]
      exact Nat.lt_of_le_of_lt (Nat.div_le_self _ _) a.isLt
  refine ⟨e1, e2, fun h => ?_, fun h => ?_⟩
  · have hp : 2 ^ 64 ∣ 2 ^ b.toNat := Nat.pow_dvd_pow 2 h
    constructor
    · rw [e1]; congr 2; rw [← BitVec.toNat_inj]
      simp only [BitVec.toNat_ofNat]
      exact Nat.mod_eq_zero_of_dvd (Nat.dvd_trans hp (Nat.dvd_mul_left ..))
    · rw [e2, Nat.div_eq_of_lt]
      · rfl
      exact Nat.lt_of_lt_of_le a.isLt (Nat.pow_le_pow_right (by omega) h)
  · rw [BitVec.toInt_eq_toNat_cond] at h
    split at h <;> omega

/-- For non-negative values `right-shift` is the mathematical `⌊a / 2^n⌋`. -/
theorem C26_right_shift_floor (a b : BitVec 64) (ha : 0 ≤ a.toInt) :
    ∃ r, rightShift (.int a) (.int b) = .ok (.int r) ∧ r.toInt = a.toInt / 2 ^ b.toNat := by
  refine ⟨_, (C26_shift a b).2.1, ?_⟩
  have h1 : a.toInt = a.toNat := by
    rw [BitVec.toInt_eq_toNat_cond] at ha ⊢
    have := a.isLt
    split <;> split at ha <;> omega
  have h2 : a.toNat / 2 ^ b.toNat ≤ a.toNat := Nat.div_le_self _ _
  have h3 : a.toInt < 2 ^ 63 := BitVec.toInt_lt
  rw [BitVec.toInt_eq_toNat_cond, BitVec.toNat_ofNat, Nat.mod_eq_of_lt (by omega), if_pos (by omega), h1]
  simp

/-- Arguments that are not integers are errors. -/
theorem C26_non_integer (x y : Data) (h : isInt x = false ∨ isInt y = false) :
    (∃ e, binaryAnd x y = .err e) ∧ (∃ e, binaryOr x y = .err e) ∧
    (∃ e, leftShift x y = .err e) ∧ (∃ e, rightShift x y = .err e) ∧ (isInt x = false → ∃ e, binaryNot x = .err e) := by
  have aux : ∀ op, ∃ e, bin2 op x y = .err e := by
    intro op
    unfold bin2
    split
    · split
      · simp [isInt] at h
      · exact ⟨_, rfl⟩
    · exact ⟨_, rfl⟩
  refine ⟨aux _, aux _, aux _, aux _, fun hx => ?_⟩
  unfold binaryNot
  split
  · simp [isInt] at hx
  · exact ⟨_, rfl⟩

example : binaryAnd (.int 0xF0F0) (.int 0xFF00) = .ok (.int 0xF000) := by decide
example : rightShift (.int (-1)) (.int 60) = .ok (.int 15) := by decide
example : leftShift (.int 1) (.int (-1)) = .ok (.int 0) := by decide
example : leftShift (.int 3) (.int 4) = .ok (.int 48) := by decide

end Golisp.Props
