import Verif.Props.Numbers
/-
C23 (`interval`) and C24 (`number->string`, `string->number`).
-/
namespace Golisp.Props
open Golisp Golisp.Data Golisp.Prim Spec

/-! ### C23 -/

/-- The loop visits `i, i+t, ..` as long as the test holds. -/
theorem intervalLoop_spec (up : Bool) (e t : BitVec 64) : ∀ (n fuel : Nat) (i : BitVec 64), n < fuel →
    (∀ k < n, (if up then (i + BitVec.ofNat 64 k * t).sle e else e.sle (i + BitVec.ofNat 64 k * t)) = true) →
    (if up then (i + BitVec.ofNat 64 n * t).sle e else e.sle (i + BitVec.ofNat 64 n * t)) = false →
    intervalLoop up fuel i e t = .ok ((List.range n).map fun k => .int (i + BitVec.ofNat 64 k * t)) := by
  intro n
  induction n with
  | zero =>
    intro fuel i hf _ hstop
    obtain ⟨f, rfl⟩ : ∃ f, fuel = f + 1 := ⟨fuel - 1, by omega⟩
    have h0 : i + BitVec.ofNat 64 0 * t = i := by simp
    rw [h0] at hstop
    unfold intervalLoop
    rw [if_neg (by simpa using hstop)]
    rfl
  | succ n ih =>
    intro fuel i hf hgo hstop
    obtain ⟨f, rfl⟩ : ∃ f, fuel = f + 1 := ⟨fuel - 1, by omega⟩
    have h0 : i + BitVec.ofNat 64 0 * t = i := by simp
    have hk : ∀ k, i + t + BitVec.ofNat 64 k * t = i + BitVec.ofNat 64 (k + 1) * t := by
      intro k
      have : BitVec.ofNat 64 (k + 1) = BitVec.ofNat 64 k + 1#64 := by rw [BitVec.ofNat_add]
      rw [this, BitVec.add_mul, BitVec.one_mul, BitVec.add_comm (BitVec.ofNat 64 k * t), BitVec.add_assoc]
    have h1 := hgo 0 (by omega)
    rw [h0] at h1
    unfold intervalLoop
    rw [if_pos h1, ih f (i + t) (by omega) (fun k hk' => by rw [hk]; exact hgo _ (by omega)) (by rw [hk]; exact hstop)]
    simp only [List.range_succ_eq_map, List.map_cons, List.map_map, h0]
    congr 2
    apply List.map_congr_left
    intro k _
    simp [hk]

/-- The numbers `s, s+t, ..` (n of them). -/
def steps (s t : Int) (n : Nat) : List Int := (List.range n).map fun (k : Nat) => s + k * t

theorem toInt_step (s t : BitVec 64) (k : Nat) (h1 : -(2 ^ 63) ≤ s.toInt + k * t.toInt) (h2 : s.toInt + k * t.toInt < 2 ^ 63) :
    (s + BitVec.ofNat 64 k * t).toInt = s.toInt + k * t.toInt := by
  have : s + BitVec.ofNat 64 k * t = BitVec.ofInt 64 (s.toInt + k * t.toInt) := by
    rw [BitVec.ofInt_add, BitVec.ofInt_mul, BitVec.ofInt_toInt, BitVec.ofInt_toInt, BitVec.ofInt_natCast]
  rw [this, BitVec.toInt_ofInt]
  exact Int.bmod_eq_of_le (by omega) (by omega)

theorem steps_eq (s t : BitVec 64) (n : Nat) :
    ((List.range n).map fun k => Data.int (s + BitVec.ofNat 64 k * t)) =
      (steps s.toInt t.toInt n).map fun v => Data.int (BitVec.ofInt 64 v) := by
  unfold steps
  rw [List.map_map]
  apply List.map_congr_left
  intro k _
  simp [BitVec.ofInt_add, BitVec.ofInt_mul]

theorem count_up {s e t : Int} (ht : 0 < t) (hs : s ≤ e) (k : Nat) : s + k * t ≤ e ↔ k < ((e - s) / t).toNat + 1 := by
  have hd : 0 ≤ (e - s) / t := Int.ediv_nonneg (by omega) (by omega)
  have h : (k : Int) ≤ (e - s) / t ↔ k * t ≤ e - s := Int.le_ediv_iff_mul_le ht
  omega

/-- Ascending loop: for a positive step and no overflow at the end, the loop yields `s, s+t, ..` up to `e`. -/
theorem loop_up (s e t : BitVec 64) (fuel : Nat) (ht : 0 < t.toInt) (hov : e.toInt + t.toInt < 2 ^ 63)
    (hs : s.toInt ≤ e.toInt) (hf : ((e.toInt - s.toInt) / t.toInt).toNat + 1 < fuel) :
    intervalLoop true fuel s e t =
      .ok ((steps s.toInt t.toInt (((e.toInt - s.toInt) / t.toInt).toNat + 1)).map fun v => .int (BitVec.ofInt 64 v)) := by
  have hlo : -(2 ^ 63) ≤ s.toInt := BitVec.le_toInt s
  have hr : ∀ k : Nat, k ≤ ((e.toInt - s.toInt) / t.toInt).toNat + 1 →
      -(2 ^ 63) ≤ s.toInt + k * t.toInt ∧ s.toInt + k * t.toInt < 2 ^ 63 := by
    intro k hk
    have h0 : 0 ≤ (k : Int) * t.toInt := Int.mul_nonneg (by omega) (by omega)
    refine ⟨by omega, ?_⟩
    cases k with
    | zero => simp; omega
    | succ j =>
      have := (count_up ht hs j).2 (by omega)
      have : ((j + 1 : Nat) : Int) * t.toInt = j * t.toInt + t.toInt := by
        rw [Int.natCast_add, Int.add_mul]; simp
      omega
  rw [intervalLoop_spec true e t (((e.toInt - s.toInt) / t.toInt).toNat + 1) fuel s hf]
  · rw [steps_eq s t _]
  · intro k hk
    have := hr k (by omega)
    simp only [if_true, BitVec.sle_eq_decide, toInt_step s t k this.1 this.2, decide_eq_true_eq]
    exact (count_up ht hs k).2 hk
  · have := hr _ (Nat.le_refl _)
    simp only [if_true, BitVec.sle_eq_decide, toInt_step s t _ this.1 this.2, decide_eq_false_iff_not]
    rw [count_up ht hs]; omega

theorem count_down {s e t : Int} (ht : t < 0) (hs : e ≤ s) (k : Nat) :
    e ≤ s + k * t ↔ k < ((s - e) / -t).toNat + 1 := by
  have := count_up (s := -s) (e := -e) (t := -t) (by omega) (by omega) k
  rw [show -e - -s = s - e by omega, Int.mul_neg] at this
  omega

/-- Descending loop. -/
theorem loop_down (s e t : BitVec 64) (fuel : Nat) (ht : t.toInt < 0) (hov : -(2 ^ 63) ≤ e.toInt + t.toInt)
    (hs : e.toInt ≤ s.toInt) (hf : ((s.toInt - e.toInt) / -t.toInt).toNat + 1 < fuel) :
    intervalLoop false fuel s e t =
      .ok ((steps s.toInt t.toInt (((s.toInt - e.toInt) / -t.toInt).toNat + 1)).map fun v => .int (BitVec.ofInt 64 v)) := by
  have hlo : s.toInt < 2 ^ 63 := BitVec.toInt_lt
  have hr : ∀ k : Nat, k ≤ ((s.toInt - e.toInt) / -t.toInt).toNat + 1 →
      -(2 ^ 63) ≤ s.toInt + k * t.toInt ∧ s.toInt + k * t.toInt < 2 ^ 63 := by
    intro k hk
    have h0 : (k : Int) * t.toInt ≤ 0 := Int.mul_nonpos_of_nonneg_of_nonpos (by omega) (by omega)
    refine ⟨?_, by omega⟩
    cases k with
    | zero => simp; omega
    | succ j =>
      have := (count_down ht hs j).2 (by omega)
      have : ((j + 1 : Nat) : Int) * t.toInt = j * t.toInt + t.toInt := by
        rw [Int.natCast_add, Int.add_mul]; simp
      omega
  rw [intervalLoop_spec false e t (((s.toInt - e.toInt) / -t.toInt).toNat + 1) fuel s hf]
  · rw [steps_eq s t _]
  · intro k hk
    have := hr k (by omega)
    simp only [Bool.false_eq_true, if_false, BitVec.sle_eq_decide, toInt_step s t k this.1 this.2, decide_eq_true_eq]
    exact (count_down ht hs k).2 hk
  · have := hr _ (Nat.le_refl _)
    simp only [Bool.false_eq_true, if_false, BitVec.sle_eq_decide, toInt_step s t _ this.1 this.2, decide_eq_false_iff_not]
    rw [count_down ht hs]; omega

theorem intSgn_eq (n : BitVec 64) : intSgn n = BitVec.ofInt 64 n.toInt.sign := by
  have h : sign (.int n) = .ok (.int (intSgn n)) := rfl
  have := (C25_sign n).2.2.2
  rw [h] at this
  simpa using this

theorem small_diff (s e : BitVec 64) (h : (e.toInt - s.toInt).natAbs < 2 ^ 45) : ¬ 2 ^ 45 < (e - s).toInt.natAbs + 1 := by
  rw [BitVec.toInt_sub, Int.bmod_eq_of_le] <;> omega

/-- `(interval s e t)` with `s ≤ e` and a positive step: the list `s, s+t, s+2t, ..`, as far as it does not pass `e`.
"No overflow" is `e + t` fitting in 64 bits; the range must be below 2^45 (preallocation); any fuel above the
number of elements is enough. -/
theorem C23_interval_up (s e t : BitVec 64) (fuel : Nat) (ht : 0 < t.toInt) (hs : s.toInt ≤ e.toInt)
    (hov : e.toInt + t.toInt < 2 ^ 63) (hsz : e.toInt - s.toInt < 2 ^ 45)
    (hf : ((e.toInt - s.toInt) / t.toInt).toNat + 1 < fuel) :
    interval fuel [.int s, .int e, .int t] = .ok (ofArray
      ((steps s.toInt t.toInt (((e.toInt - s.toInt) / t.toInt).toNat + 1)).map fun v => .int (BitVec.ofInt 64 v))) := by
  have h1 : e.slt s = false := by rw [BitVec.slt_eq_decide]; simpa using hs
  have h2 : intSgn t = 1 := by rw [intSgn_eq, Int.sign_eq_one_of_pos ht]; rfl
  have h3 := small_diff s e (by omega)
  have h4 := loop_up s e t fuel ht hov hs hf
  simp only [interval, intValue_int, h1, Bool.not_false, if_true, h2, ne_eq, not_true_eq_false, if_false, h4, if_neg h3]

/-- `(interval s e t)` with `s > e` and a negative step: descending. -/
theorem C23_interval_down (s e t : BitVec 64) (fuel : Nat) (ht : t.toInt < 0) (hs : e.toInt < s.toInt)
    (hov : -(2 ^ 63) ≤ e.toInt + t.toInt) (hsz : s.toInt - e.toInt < 2 ^ 45)
    (hf : ((s.toInt - e.toInt) / -t.toInt).toNat + 1 < fuel) :
    interval fuel [.int s, .int e, .int t] = .ok (ofArray
      ((steps s.toInt t.toInt (((s.toInt - e.toInt) / -t.toInt).toNat + 1)).map fun v => .int (BitVec.ofInt 64 v))) := by
  have h1 : e.slt s = true := by rw [BitVec.slt_eq_decide]; simpa using hs
  have h2 : intSgn t = -1 := by rw [intSgn_eq, Int.sign_eq_neg_one_of_neg ht]; rfl
  have h3 := small_diff s e (by omega)
  have h4 := loop_down s e t fuel ht hov (by omega) hf
  simp only [interval, intValue_int, h1, Bool.not_true, Bool.false_eq_true, h2, ne_eq, not_true_eq_false, if_false, h4, if_neg h3]

/-- `(interval s e)` steps by one towards `e`; `(interval n)` is `(interval 1 n)` for `n ≥ 1`. -/
theorem C23_interval_default (s e : BitVec 64) (fuel : Nat)
    (hsz : (e.toInt - s.toInt).natAbs < 2 ^ 45) (hf : (e.toInt - s.toInt).natAbs + 1 < fuel) :
    (s.toInt ≤ e.toInt → e.toInt + 1 < 2 ^ 63 →
      interval fuel [.int s, .int e] = .ok (ofArray
        ((steps s.toInt 1 ((e.toInt - s.toInt).toNat + 1)).map fun v => .int (BitVec.ofInt 64 v)))) ∧
    (e.toInt < s.toInt → -(2 ^ 63) ≤ e.toInt - 1 →
      interval fuel [.int s, .int e] = .ok (ofArray
        ((steps s.toInt (-1) ((s.toInt - e.toInt).toNat + 1)).map fun v => .int (BitVec.ofInt 64 v)))) ∧
    (s = 1 → 1 ≤ e.toInt → e.toInt + 1 < 2 ^ 63 → interval fuel [.int e] = interval fuel [.int s, .int e]) := by
  have t1 : (1 : BitVec 64).toInt = 1 := by decide
  have t2 : (-1 : BitVec 64).toInt = -1 := by decide
  have h3 := small_diff s e (by omega)
  refine ⟨fun h hov => ?_, fun h hov => ?_, fun h h' hov => ?_⟩
  · have h1 : e.slt s = false := by rw [BitVec.slt_eq_decide]; simpa using h
    have h4 := loop_up s e 1 fuel (by omega) (by omega) h (by rw [t1, Int.ediv_one]; omega)
    rw [t1, Int.ediv_one] at h4
    simp only [interval, intValue_int, h1, Bool.not_false, if_true, h4, if_neg h3]
  · have h1 : e.slt s = true := by rw [BitVec.slt_eq_decide]; simpa using h
    have h4 := loop_down s e (-1) fuel (by omega) (by omega) (by omega) (by rw [t2, Int.neg_neg, Int.ediv_one]; omega)
    rw [t2, Int.neg_neg, Int.ediv_one] at h4
    simp only [interval, intValue_int, h1, Bool.not_true, Bool.false_eq_true, if_false, h4, if_neg h3]
  · subst h
    have h1 : e.slt 1 = false := by rw [BitVec.slt_eq_decide]; simpa [t1] using h'
    simp only [interval, intValue_int, h1, Bool.not_false, if_true]
    rfl

/-- A step of the wrong sign (zero included) is an error; so is a step that is not an integer. -/
theorem C23_interval_bad_step (s e t : BitVec 64) (fuel : Nat)
    (h : (s.toInt ≤ e.toInt ∧ t.toInt ≤ 0) ∨ (e.toInt < s.toInt ∧ 0 ≤ t.toInt)) :
    ∃ x, interval fuel [.int s, .int e, .int t] = .err x := by
  have hsg := intSgn_eq t
  refine ⟨.msg "The sign of step has to match the direction of the interval", ?_⟩
  rcases h with ⟨h, ht⟩ | ⟨h, ht⟩
  · have h1 : e.slt s = false := by rw [BitVec.slt_eq_decide]; simpa using h
    have h2 : intSgn t ≠ 1 := by
      rw [hsg]
      rcases Int.lt_or_eq_of_le ht with ht | ht
      · rw [Int.sign_eq_neg_one_of_neg ht]; decide
      · rw [ht]; decide
    simp only [interval, intValue_int, h1, Bool.not_false, if_true, ne_eq, h2, not_false_eq_true]
  · have h1 : e.slt s = true := by rw [BitVec.slt_eq_decide]; simpa using h
    have h2 : intSgn t ≠ -1 := by
      rw [hsg]
      rcases Int.lt_or_eq_of_le ht with ht | ht
      · rw [Int.sign_eq_one_of_pos ht]; decide
      · rw [← ht]; decide
    simp only [interval, intValue_int, h1, Bool.not_true, Bool.false_eq_true, if_false, ne_eq, h2, not_false_eq_true, if_true]

/-- What the listed numbers are: for a positive step strictly increasing, starting at `s`, within `[s, e]`, and complete
(the number after the last would be past `e`). -/
theorem C23_steps_up (s e t : Int) (ht : 0 < t) (hs : s ≤ e) :
    let l := steps s t (((e - s) / t).toNat + 1)
    l.head? = some s ∧ (∀ v, v ∈ l ↔ s ≤ v ∧ v ≤ e ∧ t ∣ v - s) ∧ l.Pairwise (· < ·) := by
  refine ⟨?_, ?_, ?_⟩
  · simp [steps, List.range_succ_eq_map]
  · intro v
    simp only [steps, List.mem_map, List.mem_range]
    constructor
    · rintro ⟨k, hk, rfl⟩
      have := (count_up ht hs k).2 hk
      have h0 : 0 ≤ (k : Int) * t := Int.mul_nonneg (by omega) (by omega)
      exact ⟨by omega, this, ⟨k, by rw [Int.mul_comm]; omega⟩⟩
    · rintro ⟨h1, h2, ⟨q, hq⟩⟩
      have hq0 : 0 ≤ q := by
        refine Classical.byContradiction fun hn => ?_
        have := Int.mul_neg_of_pos_of_neg ht (show q < 0 by omega); omega
      have e1 : s + (q.toNat : Int) * t = v := by
        rw [Int.toNat_of_nonneg hq0, Int.mul_comm]; omega
      exact ⟨q.toNat, (count_up ht hs _).1 (by omega), e1⟩
  · rw [steps, List.pairwise_map]
    refine List.pairwise_lt_range.imp ?_
    intro a b hab
    have := Int.mul_lt_mul_of_pos_right (show (a : Int) < b by omega) ht
    omega

/-- The same for a negative step. -/
theorem C23_steps_down (s e t : Int) (ht : t < 0) (hs : e ≤ s) :
    let l := steps s t (((s - e) / -t).toNat + 1)
    l.head? = some s ∧ (∀ v, v ∈ l ↔ e ≤ v ∧ v ≤ s ∧ t ∣ v - s) ∧ l.Pairwise (· > ·) := by
  have hneg : ∀ n, steps s t n = (steps (-s) (-t) n).map (- ·) := by
    intro n; simp only [steps, List.map_map]; apply List.map_congr_left; intro k _
    simp only [Function.comp, Int.mul_neg]; omega
  obtain ⟨h1, h2, h3⟩ := C23_steps_up (-s) (-e) (-t) (by omega) (by omega)
  rw [show -e - -s = s - e by omega] at h1 h2 h3
  intro l
  have hl : l = _ := hneg _
  rw [hl]
  refine ⟨by rw [List.head?_map, h1]; simp, ?_, ?_⟩
  · intro v
    simp only [List.mem_map, h2]
    constructor
    · rintro ⟨w, ⟨h4, h5, h6⟩, rfl⟩
      refine ⟨by omega, by omega, ?_⟩
      rw [← Int.neg_dvd, ← Int.dvd_neg]
      rwa [show -(-w - s) = w - -s by omega]
    · rintro ⟨h4, h5, h6⟩
      refine ⟨-v, ⟨by omega, by omega, ?_⟩, by omega⟩
      rw [Int.neg_dvd, ← Int.dvd_neg]
      rwa [show -(-v - -s) = v - s by omega]
  · rw [List.pairwise_map]
    exact h3.imp (by intro a b h; omega)

/-- Violation of termination near the largest integer: `(interval n)` for `n` the largest integer is one case where no
number of iterations is enough (the counter wraps around). -/
theorem C23_interval_overflow_violation (fuel : Nat) :
    interval fuel [.int (BitVec.ofInt 64 (2 ^ 63 - 3)), .int (BitVec.ofInt 64 (2 ^ 63 - 1))] = .timeout := by
  have hl : ∀ fuel i, intervalLoop true fuel i (BitVec.ofInt 64 (2 ^ 63 - 1)) 1 = .timeout := by
    intro fuel
    induction fuel with
    | zero => intro i; rfl
    | succ n ih =>
      intro i
      unfold intervalLoop
      rw [if_pos, ih]
      simp only [if_true, BitVec.sle_eq_decide, decide_eq_true_eq]
      have : i.toInt < 2 ^ 63 := BitVec.toInt_lt
      have e : (BitVec.ofInt 64 (2 ^ 63 - 1)).toInt = 2 ^ 63 - 1 := by decide
      omega
  have h1 : (BitVec.ofInt 64 (2 ^ 63 - 1)).slt (BitVec.ofInt 64 (2 ^ 63 - 3)) = false := by decide
  have h2 : ¬ 2 ^ 45 < (BitVec.ofInt 64 (2 ^ 63 - 1) - BitVec.ofInt 64 (2 ^ 63 - 3)).toInt.natAbs + 1 := by decide
  simp only [interval, intValue_int, h1, Bool.not_false, if_true, hl, if_neg h2]

example : interval 100 [.int 2, .int 11, .int 3] = .ok (ofArray [.int 2, .int 5, .int 8, .int 11]) := by decide
example : interval 100 [.int 2, .int (-3), .int (-2)] = .ok (ofArray [.int 2, .int 0, .int (-2)]) := by decide
example : interval 100 [.int 3] = .ok (ofArray [.int 1, .int 2, .int 3]) := by decide
example : interval 100 [.int 2, .int 11, .int 0] =
  .err (.msg "The sign of step has to match the direction of the interval") := by decide

/-! ### C24 -/

theorem digitRaw_digitChar (d : Nat) (h : d < 16) : digitRaw (digitChar d) = d := by
  have : ∀ d : Fin 16, digitRaw (digitChar d) = d := by decide
  exact this ⟨d, h⟩

theorem digitChar_head (d : Nat) (h : d < 16) :
    scanBlank (digitChar d) = false ∧ digitChar d ≠ '-' ∧ digitChar d ≠ '+' := by
  have : ∀ d : Fin 16, scanBlank (digitChar d) = false ∧ digitChar d ≠ '-' ∧ digitChar d ≠ '+' := by decide
  exact this ⟨d, h⟩

theorem digits_head (b n : Nat) (hb : 2 ≤ b) (hb' : b ≤ 16) : ∃ d cs, d < 16 ∧ digits b n = digitChar d :: cs := by
  induction n using Nat.strongRecOn with
  | _ n ih =>
    unfold digits
    split
    · next h =>
      obtain ⟨d, cs, hd, e⟩ := ih (n / b) (Nat.div_lt_self (by omega) (by omega))
      exact ⟨d, cs ++ [digitChar (n % b)], hd, by rw [e]; rfl⟩
    · next h => exact ⟨n, [], by omega, rfl⟩

theorem scanDigits_digits (b n : Nat) (hb : 2 ≤ b) (hb' : b ≤ 16) (acc : Nat) (any : Bool) (ys : List Char) :
    scanDigits b (digits b n ++ ys) acc any = scanDigits b ys (acc * b ^ (digits b n).length + n) true := by
  induction n using Nat.strongRecOn generalizing acc any ys with
  | _ n ih =>
    unfold digits
    split
    · next h =>
      have hlt : n % b < b := Nat.mod_lt _ (by omega)
      rw [List.append_assoc, ih (n / b) (Nat.div_lt_self (by omega) (by omega))]
      have hv : digitVal b (digitChar (n % b)) = some (n % b) := by
        unfold digitVal; rw [digitRaw_digitChar _ (by omega), if_pos hlt]
      simp only [List.cons_append, List.nil_append, scanDigits, hv, List.length_append, List.length_cons,
        List.length_nil, Nat.zero_add]
      congr 1
      rw [Nat.add_mul, Nat.mul_assoc, ← Nat.pow_succ, Nat.add_assoc, Nat.mul_comm (n / b), Nat.div_add_mod]
    · next h =>
      have hv : digitVal b (digitChar n) = some n := by
        unfold digitVal; rw [digitRaw_digitChar _ (by omega), if_pos (by omega)]
      simp [scanDigits, hv]

theorem scanInt_formatInt (b : Nat) (hb : 2 ≤ b) (hb' : b ≤ 16) (n : Int) (h1 : -(2 ^ 63) ≤ n) (h2 : n < 2 ^ 63) :
    scanInt b (formatInt b n) = some n := by
  obtain ⟨d, cs, hd, e⟩ := digits_head b n.natAbs hb hb'
  obtain ⟨c1, c4, c5⟩ := digitChar_head d hd
  have hs := scanDigits_digits b n.natAbs hb hb' 0 false []
  simp only [List.append_nil, Nat.zero_mul, Nat.zero_add, scanDigits] at hs
  unfold formatInt
  split
  · next hn =>
    have e1 : scanSpace ('-' :: digits b n.natAbs) = '-' :: digits b n.natAbs := by
      simp [scanSpace, show scanBlank '-' = false from rfl]
    simp only [scanInt, splitSign, e1, hs, Bool.not_true, Bool.false_eq_true, if_false, if_true]
    rw [if_pos (by omega)]
    congr 1; omega
  · next hn =>
    have e1 : scanSpace (digits b n.natAbs) = digits b n.natAbs := by
      rw [e]; simp [scanSpace, c1]
    have e2 : splitSign (digits b n.natAbs) = (false, digits b n.natAbs) := by
      rw [e]; unfold splitSign
      split
      · next he => simp at he; exact absurd he.1 c4
      · next he => simp at he; exact absurd he.1 c5
      · rfl
    simp only [scanInt, e1, e2, hs, Bool.not_true, Bool.false_eq_true, if_false]
    rw [if_pos (by omega)]
    congr 1; omega

/-- The bases of `number->string` and `string->number`. -/
def okBase (b : BitVec 64) : Prop := b = 2 ∨ b = 8 ∨ b = 10 ∨ b = 16

/-- `(string->number (number->string n b) b) = n` for every integer and every supported base. -/
theorem C24_round_trip (n b : BitVec 64) (hb : okBase b) :
    ∃ s, numberToString (.int n) (some (.int b)) = .ok (.str s) ∧ stringToNumber (.str s) (some (.int b)) = .ok (.int n) := by
  have hb2 : 2 ≤ b.toNat ∧ b.toNat ≤ 16 := by
    rcases hb with rfl | rfl | rfl | rfl <;> decide
  have h := scanInt_formatInt b.toNat hb2.1 hb2.2 n.toInt (BitVec.le_toInt n) BitVec.toInt_lt
  refine ⟨_, if_pos hb, ?_⟩
  refine (if_pos hb).trans ?_
  simp [stringValue, intValue, h]

/-- Without a base both use base 10. -/
theorem C24_default_base (n : BitVec 64) (s : String) :
    numberToString (.int n) none = numberToString (.int n) (some (.int 10)) ∧
    stringToNumber (.str s) none = stringToNumber (.str s) (some (.int 10)) := ⟨rfl, rfl⟩

/-- Distinct integers have distinct texts. -/
theorem C24_injective (n m b : BitVec 64) (hb : okBase b)
    (h : numberToString (.int n) (some (.int b)) = numberToString (.int m) (some (.int b))) : n = m := by
  obtain ⟨s, e1, e2⟩ := C24_round_trip n b hb
  obtain ⟨s', e1', e2'⟩ := C24_round_trip m b hb
  rw [e1, e1'] at h
  have : s = s' := by simpa using h
  subst this
  rw [e2] at e2'
  simpa using e2'

/-- An unsupported base gives an explanatory string and 0, not an error. -/
theorem C24_unsupported_base (n b : BitVec 64) (s : String) (hb : ¬ okBase b) :
    (∃ t, numberToString (.int n) (some (.int b)) = .ok (.str ("Unsupported base: " ++ t))) ∧
    stringToNumber (.str s) (some (.int b)) = .ok (.int 0) := by
  constructor
  · exact ⟨_, if_neg hb⟩
  · exact if_neg hb

example : numberToString (.int (-255)) (some (.int 16)) = .ok (.str "-ff") := by
  simp [numberToString, formatInt, intValue, digits, digitChar]
example : okBase 16 := by simp [okBase]

/-- How a natural number is written in base `b`: lower-case digits, most significant first, no leading zero. -/
inductive Spec.Spelling (b : Nat) : List Char → Nat → Prop where
  | digit {c v} : "0123456789abcdef".toList[v]? = some c → v < b → Spelling b [c] v
  | more {cs c n v} : Spelling b cs n → 0 < n → "0123456789abcdef".toList[v]? = some c → v < b → Spelling b (cs ++ [c]) (n * b + v)

theorem digits_spelling (b n : Nat) (hb : 2 ≤ b) (hb' : b ≤ 16) : Spec.Spelling b (digits b n) n := by
  have hd : ∀ v, v < 16 → "0123456789abcdef".toList[v]? = some (digitChar v) := by decide
  induction n using Nat.strongRecOn with
  | _ n ih =>
    unfold digits
    split
    · next h =>
      have hv : n % b < b := Nat.mod_lt _ (by omega)
      have := Spec.Spelling.more (ih (n / b) (Nat.div_lt_self (by omega) (by omega))) (Nat.div_pos h.2 (by omega)) (hd _ (by omega)) hv
      rwa [Nat.div_add_mod'] at this
    · next h => exact .digit (hd n (by omega)) (by omega)

/-- The text of an integer is its numeral in the base, with a minus sign if it is negative. -/
theorem C24_text (n b : BitVec 64) (hb : okBase b) : ∃ t, numberToString (.int n) (some (.int b)) = .ok (.str (String.ofList t)) ∧
    ((0 ≤ n.toInt ∧ Spec.Spelling b.toNat t n.toInt.natAbs) ∨
      (n.toInt < 0 ∧ ∃ t', t = '-' :: t' ∧ Spec.Spelling b.toNat t' n.toInt.natAbs)) := by
  have hb2 : 2 ≤ b.toNat ∧ b.toNat ≤ 16 := by
    rcases hb with rfl | rfl | rfl | rfl <;> decide
  refine ⟨formatInt b.toNat n.toInt, if_pos hb, ?_⟩
  have hs := digits_spelling b.toNat n.toInt.natAbs hb2.1 hb2.2
  unfold formatInt
  by_cases h : n.toInt < 0
  · rw [if_pos h]; exact .inr ⟨h, _, rfl, hs⟩
  · rw [if_neg h]; exact .inl ⟨by omega, hs⟩

example : Spec.Spelling 16 "2f".toList 47 := .more (cs := ['2']) (n := 2) (v := 15) (.digit (by decide) (by decide)) (by decide) (by decide) (by decide)

end Golisp.Props
