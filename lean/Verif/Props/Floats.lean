import Verif.Props.Numbers
/-
C64: arithmetic with floats, and the correctness of the rounding used in the model of float32.
-/
namespace Golisp.Props
open Golisp Golisp.Data Golisp.Prim Spec

/-! ### Rounding -/

/-- The value of a rounded magnitude: a multiple of the last place kept. -/
private theorem scaled_round (j N : Nat) (h : F32.round j N < F32.infMag) :
    F32.scaled (F32.round j N) * 2 ^ j = (N / 2 ^ F32.cut j N + F32.up (F32.cut j N) N) * 2 ^ F32.cut j N ∧
    F32.round j N % 2 = (N / 2 ^ F32.cut j N + F32.up (F32.cut j N) N) % 2 := by
  have hj : j ≤ F32.cut j N := by unfold F32.cut; omega
  have h1 := F32.q_lt j N
  have h2 := F32.q_ge j N
  have h3 := F32.up_le (F32.cut j N) N
  have e : F32.round j N = (F32.cut j N - j) * 2 ^ 23 + (N / 2 ^ F32.cut j N + F32.up (F32.cut j N) N) := by
    unfold F32.round at h ⊢; omega
  rw [e]
  generalize F32.up (F32.cut j N) N = u at *
  generalize N / 2 ^ F32.cut j N = q at *
  obtain ⟨c, hc⟩ : ∃ c, F32.cut j N = j + c := ⟨F32.cut j N - j, by omega⟩
  rw [hc] at h2 ⊢
  rw [show j + c - j = c by omega]
  refine ⟨?_, by omega⟩
  rw [Nat.pow_add, Nat.mul_comm (2 ^ j) (2 ^ c), ← Nat.mul_assoc]
  congr 1
  unfold F32.scaled
  by_cases hq : q + u < 2 ^ 23
  · have : c = 0 := by
      rcases Nat.eq_zero_or_pos c with h | h
      · exact h
      · have := h2 (by omega); omega
    have hlt : c * 2 ^ 23 + (q + u) < 2 ^ 23 := by rw [this, Nat.zero_mul, Nat.zero_add]; exact hq
    rw [if_pos hlt, this, Nat.zero_mul, Nat.zero_add]; exact (Nat.mul_one _).symm
  · rw [if_neg (by omega)]
    by_cases hq' : q + u < 2 ^ 24
    · rw [show (c * 2 ^ 23 + (q + u)) % 2 ^ 23 = q + u - 2 ^ 23 by omega,
        show (c * 2 ^ 23 + (q + u)) / 2 ^ 23 - 1 = c by omega, show 2 ^ 23 + (q + u - 2 ^ 23) = q + u by omega]
    · rw [show (c * 2 ^ 23 + (q + u)) % 2 ^ 23 = 0 by omega,
        show (c * 2 ^ 23 + (q + u)) / 2 ^ 23 - 1 = c + 1 by omega, show q + u = 2 ^ 24 by omega, Nat.pow_succ 2 c]
      clear h hc e h2
      generalize (2 : Nat) ^ c = x
      omega

/-- Floats that are not multiples of the last place kept are below the leading power of two. -/
private theorem grid (j N m : Nat) :
    (∃ t, F32.scaled m * 2 ^ j = t * 2 ^ F32.cut j N) ∨
    (j < F32.cut j N ∧ F32.scaled m * 2 ^ j < 2 ^ 23 * 2 ^ F32.cut j N) := by
  have hj : j ≤ F32.cut j N := by unfold F32.cut; omega
  obtain ⟨c, hc⟩ : ∃ c, F32.cut j N = j + c := ⟨F32.cut j N - j, by omega⟩
  rw [hc]
  have hpos : 0 < 2 ^ j := Nat.pow_pos (by omega)
  have key : (∃ t, F32.scaled m = t * 2 ^ c) ∨ (0 < c ∧ F32.scaled m < 2 ^ 23 * 2 ^ c) := by
    unfold F32.scaled
    split
    · rename_i hm
      rcases Nat.eq_zero_or_pos c with h | h
      · exact .inl ⟨m, by subst h; simp⟩
      · refine .inr ⟨h, Nat.lt_of_lt_of_le hm ?_⟩
        exact Nat.le_mul_of_pos_right _ (Nat.pow_pos (by omega))
    · rename_i hm
      generalize he : m / 2 ^ 23 - 1 = e
      by_cases hle : c ≤ e
      · refine .inl ⟨(2 ^ 23 + m % 2 ^ 23) * 2 ^ (e - c), ?_⟩
        rw [Nat.mul_assoc, ← Nat.pow_add, show e - c + c = e by omega]
      · refine .inr ⟨by omega, ?_⟩
        have h1 : 2 ^ 23 + m % 2 ^ 23 < 2 ^ 24 := by
          have := Nat.mod_lt m (show 0 < 2 ^ 23 by omega); omega
        calc (2 ^ 23 + m % 2 ^ 23) * 2 ^ e < 2 ^ 24 * 2 ^ e := Nat.mul_lt_mul_of_pos_right h1 (Nat.pow_pos (by omega))
          _ = 2 ^ 23 * 2 ^ (e + 1) := by rw [Nat.pow_succ 2 e]; generalize 2 ^ e = x; omega
          _ ≤ 2 ^ 23 * 2 ^ c := Nat.mul_le_mul_left _ (Nat.pow_le_pow_right (by omega) (by omega))
  rw [Nat.pow_add, Nat.mul_comm (2 ^ j) (2 ^ c)]
  rcases key with ⟨t, ht⟩ | ⟨h1, h2⟩
  · exact .inl ⟨t, by rw [ht, Nat.mul_assoc]⟩
  · exact .inr ⟨by omega, by rw [← Nat.mul_assoc]; exact Nat.mul_lt_mul_of_pos_right h2 hpos⟩

/-- The rounding of the model is IEEE round to nearest, ties to even: no finite float is nearer to the exact value, and
when another float is as near then the chosen one has an even pattern.  (`scaled m` is the value of magnitude `m` in
units of 2^-149, the exact value is `N` in units of 2^-(149+j).) -/
theorem C64_round_nearest (j N : Nat) (h : F32.round j N < F32.infMag) (m : Nat) :
    ((F32.scaled (F32.round j N) * 2 ^ j : Nat) - (N : Int)).natAbs ≤ ((F32.scaled m * 2 ^ j : Nat) - (N : Int)).natAbs ∧
    (((F32.scaled (F32.round j N) * 2 ^ j : Nat) - (N : Int)).natAbs = ((F32.scaled m * 2 ^ j : Nat) - (N : Int)).natAbs →
      F32.scaled m ≠ F32.scaled (F32.round j N) → F32.round j N % 2 = 0) := by
  obtain ⟨e1, e2⟩ := scaled_round j N h
  have hneq : F32.scaled m ≠ F32.scaled (F32.round j N) → F32.scaled m * 2 ^ j ≠ F32.scaled (F32.round j N) * 2 ^ j := by
    intro hne he
    exact hne (Nat.eq_of_mul_eq_mul_right (Nat.pow_pos (by omega)) he)
  rw [e1] at hneq ⊢
  rw [e2]
  have h2 := F32.q_ge j N
  have hg := grid j N m
  generalize F32.scaled m * 2 ^ j = v at *
  generalize F32.scaled (F32.round j N) = w at *
  generalize F32.cut j N = k at *
  have hP : 0 < 2 ^ k := Nat.pow_pos (by omega)
  have hdm := Nat.div_add_mod N (2 ^ k)
  have hlt := Nat.mod_lt N hP
  have hup : (F32.up k N = 1 ∧ (2 * (N % 2 ^ k) > 2 ^ k ∨ (2 * (N % 2 ^ k) = 2 ^ k ∧ N / 2 ^ k % 2 = 1))) ∨
      (F32.up k N = 0 ∧ ¬ (2 * (N % 2 ^ k) > 2 ^ k ∨ (2 * (N % 2 ^ k) = 2 ^ k ∧ N / 2 ^ k % 2 = 1))) := by
    unfold F32.up
    split
    · exact .inl ⟨rfl, by assumption⟩
    · exact .inr ⟨rfl, by assumption⟩
  generalize F32.up k N = u at *
  rw [Nat.mul_comm] at hdm
  have hv : v ≤ N / 2 ^ k * 2 ^ k ∨ N / 2 ^ k * 2 ^ k + 2 ^ k ≤ v := by
    rcases hg with ⟨t, rfl⟩ | ⟨hj, hv⟩
    · by_cases ht : t ≤ N / 2 ^ k
      · exact .inl (Nat.mul_le_mul_right _ ht)
      · right
        have := Nat.mul_le_mul_right (2 ^ k) (show N / 2 ^ k + 1 ≤ t by omega)
        rwa [Nat.add_mul, Nat.one_mul] at this
    · left
      have := Nat.mul_le_mul_right (2 ^ k) (h2 hj)
      omega
  rw [Nat.add_mul] at hneq ⊢
  generalize N / 2 ^ k = q at *
  generalize N % 2 ^ k = r at *
  rcases hup with ⟨rfl, hu⟩ | ⟨rfl, hu⟩
  · rw [Nat.one_mul] at hneq ⊢
    generalize q * 2 ^ k = Q at *
    generalize 2 ^ k = P at *
    refine ⟨by omega, fun ha hb => ?_⟩
    have := hneq hb
    omega
  · rw [Nat.zero_mul, Nat.add_zero] at hneq ⊢
    generalize q * 2 ^ k = Q at *
    generalize 2 ^ k = P at *
    refine ⟨by omega, fun ha hb => ?_⟩
    have := hneq hb
    omega

/-- Representable values are not changed by rounding. -/
theorem C64_round_exact (m : Nat) (h : m < F32.infMag) : F32.round 0 (F32.scaled m) = m := by
  unfold F32.infMag at h
  have hup : ∀ k N, N % 2 ^ k = 0 → F32.up k N = 0 := by
    intro k N hN
    unfold F32.up
    have : 0 < 2 ^ k := Nat.pow_pos (by omega)
    rw [hN, if_neg (by omega)]
  unfold F32.scaled
  split
  · rename_i hm
    have hc : F32.cut 0 m = 0 := by
      unfold F32.cut
      by_cases h0 : m = 0
      · subst h0; simp
      · have : m.log2 < 23 := (Nat.log2_lt h0).2 hm
        omega
    unfold F32.round
    rw [hc, hup 0 m (by simp [Nat.mod_one])]
    simp only [Nat.sub_self, Nat.zero_mul, Nat.pow_zero, Nat.div_one, Nat.add_zero, Nat.zero_add]
    unfold F32.infMag
    omega
  · rename_i hm
    generalize he : m / 2 ^ 23 - 1 = e
    have hf : 2 ^ 23 + m % 2 ^ 23 < 2 ^ 24 := by
      have := Nat.mod_lt m (show 0 < 2 ^ 23 by omega); omega
    have hpos : 0 < 2 ^ e := Nat.pow_pos (by omega)
    have hlog : ((2 ^ 23 + m % 2 ^ 23) * 2 ^ e).log2 = 23 + e := by
      rw [Nat.log2_eq_iff (Nat.mul_ne_zero (by omega) (by omega))]
      constructor
      · rw [Nat.pow_add]; exact Nat.mul_le_mul_right _ (by omega)
      · rw [show 23 + e + 1 = 24 + e by omega, Nat.pow_add 2 24 e]
        exact Nat.mul_lt_mul_of_pos_right hf hpos
    have hc : F32.cut 0 ((2 ^ 23 + m % 2 ^ 23) * 2 ^ e) = e := by
      unfold F32.cut; rw [hlog]; omega
    unfold F32.round
    rw [hc, hup e _ (Nat.mul_mod_left _ _), Nat.mul_div_cancel _ hpos]
    unfold F32.infMag
    omega

/-- A finite float. -/
def _root_.Golisp.Spec.Finite (f : BitVec 32) : Prop := F32.mag f < F32.infMag

private theorem round_lt (j N : Nat) : F32.round j N < 2 ^ 31 :=
  Nat.lt_of_le_of_lt (F32.round_le_inf j N) (by decide)

private theorem mag_lt (f : BitVec 32) : F32.mag f < 2 ^ 31 := Nat.mod_lt _ (by decide)

private theorem ofScaled_nearest (j : Nat) (z : Bool) (v : Int) (hr : Finite (F32.ofScaled j z v)) (c : BitVec 32) :
    (F32.value (F32.ofScaled j z v) * 2 ^ j - v).natAbs ≤ (F32.value c * 2 ^ j - v).natAbs := by
  unfold F32.ofScaled Finite at *
  by_cases hv : v = 0
  · subst hv
    rw [if_pos rfl]
    have : F32.value (F32.mk z 0) = 0 := by cases z <;> decide
    rw [this]; simp
  · rw [if_neg hv] at hr ⊢
    rw [F32.mag_mk _ _ (round_lt _ _)] at hr
    have h1 := (C64_round_nearest j v.natAbs hr (F32.mag c)).1
    unfold F32.value
    rw [F32.neg_mk _ _ (round_lt _ _), F32.mag_mk _ _ (round_lt _ _)]
    rw [Int.natCast_mul, Int.natCast_mul, Int.natCast_pow] at h1
    have hp : (0 : Int) < 2 ^ j := Int.pow_pos (by omega)
    generalize hx : (F32.scaled (F32.round j v.natAbs) : Int) = x at *
    generalize hy : (F32.scaled (F32.mag c) : Int) = y at *
    have hx0 : 0 ≤ x * 2 ^ j := Int.mul_nonneg (by omega) (by omega)
    have hy0 : 0 ≤ y * 2 ^ j := Int.mul_nonneg (by omega) (by omega)
    have e : ((2 : Nat) : Int) ^ j = 2 ^ j := rfl
    rw [e] at h1
    by_cases hneg : v < 0 <;> cases F32.neg c <;>
      simp only [hneg, decide_true, decide_false, if_true, if_false, Int.neg_mul, Bool.false_eq_true] <;> omega

/-- C64: an integer becomes the float nearest to it. -/
theorem C64_of_int (n : BitVec 64) (c : BitVec 32) :
    Finite (F32.ofInt n.toInt) ∧
    (F32.value (F32.ofInt n.toInt) - n.toInt * 2 ^ 149).natAbs ≤ (F32.value c - n.toInt * 2 ^ 149).natAbs := by
  have hfin : Finite (F32.ofInt n.toInt) := by
    unfold Finite F32.ofInt F32.ofScaled
    split
    · decide
    · rw [F32.mag_mk _ _ (round_lt _ _)]
      have hle : (n.toInt * 2 ^ 149).natAbs ≤ 2 ^ 63 * 2 ^ 149 := by
        have h1 := BitVec.toInt_lt (x := n)
        have h2 := BitVec.le_toInt (x := n)
        omega
      have h1 := F32.round_mono 0 hle
      have h2 : F32.round 0 (2 ^ 63 * 2 ^ 149) < F32.infMag := by decide
      omega
  refine ⟨hfin, ?_⟩
  have := ofScaled_nearest 0 false (n.toInt * 2 ^ 149) hfin c
  simpa [F32.ofInt] using this

/-- C64: the sum of two finite floats is the float nearest to the exact sum, unless it overflows. -/
theorem C64_add_nearest (a b c : BitVec 32) (ha : Finite a) (hb : Finite b) (hr : Finite (F32.add a b)) :
    (F32.value (F32.add a b) - (F32.value a + F32.value b)).natAbs ≤
      (F32.value c - (F32.value a + F32.value b)).natAbs := by
  have e : F32.add a b = F32.ofScaled 0 (F32.neg a && F32.neg b) (F32.value a + F32.value b) := by
    unfold Finite at ha hb
    have h1 : F32.isNaN a = false := by unfold F32.isNaN; simp; omega
    have h2 : F32.isNaN b = false := by unfold F32.isNaN; simp; omega
    have h3 : F32.isInf a = false := by unfold F32.isInf; simp; omega
    have h4 : F32.isInf b = false := by unfold F32.isInf; simp; omega
    simp [F32.add, h1, h2, h3, h4]
  rw [e] at hr ⊢
  simpa using ofScaled_nearest 0 _ _ hr c

private theorem value_negate (b : BitVec 32) : F32.value (F32.negate b) = - F32.value b ∧ F32.mag (F32.negate b) = F32.mag b := by
  unfold F32.negate F32.value
  rw [F32.mag_mk _ _ (mag_lt b), F32.neg_mk _ _ (mag_lt b)]
  cases F32.neg b <;> simp

/-- C64: likewise the difference. -/
theorem C64_sub_nearest (a b c : BitVec 32) (ha : Finite a) (hb : Finite b) (hr : Finite (F32.sub a b)) :
    (F32.value (F32.sub a b) - (F32.value a - F32.value b)).natAbs ≤
      (F32.value c - (F32.value a - F32.value b)).natAbs := by
  have h2 : F32.isNaN b = false := by unfold Finite at hb; unfold F32.isNaN; simp; omega
  have e : F32.sub a b = F32.add a (F32.negate b) := by simp [F32.sub, h2]
  obtain ⟨v1, v2⟩ := value_negate b
  rw [e] at hr ⊢
  have := C64_add_nearest a (F32.negate b) c ha (by unfold Finite at *; rw [v2]; exact hb) hr
  rwa [v1, ← Int.sub_eq_add_neg] at this

/-- C64: likewise the product (values are in units of 2^-149, so the exact product is `value a * value b` in units of
2^-298). -/
theorem C64_mul_nearest (a b c : BitVec 32) (ha : Finite a) (hb : Finite b) (hr : Finite (F32.mul a b)) :
    (F32.value (F32.mul a b) * 2 ^ 149 - F32.value a * F32.value b).natAbs ≤
      (F32.value c * 2 ^ 149 - F32.value a * F32.value b).natAbs := by
  have e : F32.mul a b = F32.ofScaled 149 (F32.neg a != F32.neg b) (F32.value a * F32.value b) := by
    unfold Finite at ha hb
    have h1 : F32.isNaN a = false := by unfold F32.isNaN; simp; omega
    have h2 : F32.isNaN b = false := by unfold F32.isNaN; simp; omega
    have h3 : F32.isInf a = false := by unfold F32.isInf; simp; omega
    have h4 : F32.isInf b = false := by unfold F32.isInf; simp; omega
    simp [F32.mul, h1, h2, h3, h4]
  rw [e] at hr ⊢
  exact ofScaled_nearest 149 _ _ hr c

/-- Nearest to the truncated quotient with sticky bit is nearest to the quotient. -/
private theorem sticky {n d x y : Nat} (hd : 0 < d) (J : Nat)
    (h : ((x * (4 * J) : Nat) - ((2 * (n / d) + if n % d = 0 then 0 else 1 : Nat) : Int)).natAbs ≤
      ((y * (4 * J) : Nat) - ((2 * (n / d) + if n % d = 0 then 0 else 1 : Nat) : Int)).natAbs) :
    ((x * (4 * J) * d : Nat) - ((2 * n : Nat) : Int)).natAbs ≤ ((y * (4 * J) * d : Nat) - ((2 * n : Nat) : Int)).natAbs := by
  have hdm := Nat.div_add_mod n d
  have hlt := Nat.mod_lt n hd
  generalize n / d = q at *
  generalize hrr : n % d = r at *
  have h' : ∀ X Y : Nat, (∃ m, X + Y = 4 * m) →
      (((X : Int) - ((2 * q + if r = 0 then 0 else 1 : Nat) : Int)).natAbs ≤
        ((Y : Int) - ((2 * q + if r = 0 then 0 else 1 : Nat) : Int)).natAbs) →
      X ≤ Y ∧ 2 * (2 * q + if r = 0 then 0 else 1) ≤ X + Y ∨ Y ≤ X ∧ X + Y ≤ 2 * (2 * q + if r = 0 then 0 else 1) := by
    intro X Y _ hh
    split at hh <;> split <;> omega
  have hm : ∃ m, x * (4 * J) + y * (4 * J) = 4 * m := ⟨x * J + y * J, by
    rw [Nat.mul_left_comm x 4 J, Nat.mul_left_comm y 4 J, Nat.mul_add]⟩
  have hc := h' _ _ hm h
  obtain ⟨m, hm⟩ := hm
  generalize x * (4 * J) = X at *
  generalize y * (4 * J) = Y at *
  rw [hm] at hc
  have hsum : X * d + Y * d = 4 * (m * d) := by rw [← Nat.add_mul, hm, Nat.mul_assoc]
  have hcast : ∀ a b : Nat, a ≤ b → a * d ≤ b * d := fun a b hab => Nat.mul_le_mul_right d hab
  rcases hc with ⟨h1, h2⟩ | ⟨h1, h2⟩
  · have h3 := hcast _ _ h1
    have : n ≤ m * d := by
      by_cases hr0 : r = 0
      · simp only [hr0, if_true] at h2
        have := hcast q m (by omega)
        rw [Nat.mul_comm d q] at hdm
        omega
      · simp only [hr0, if_false] at h2
        have := hcast (q + 1) m (by omega)
        rw [Nat.add_mul, Nat.one_mul, Nat.mul_comm q d] at this
        omega
    omega
  · have h3 := hcast _ _ h1
    have : m * d ≤ n := by
      have := hcast m q (by split at h2 <;> omega)
      rw [Nat.mul_comm q d] at this
      omega
    omega

/-- C64: likewise the quotient by a non-zero float, with the division multiplied out. -/
theorem C64_div_nearest (a b c : BitVec 32) (ha : Finite a) (hb : Finite b) (hb0 : F32.mag b ≠ 0) (hr : Finite (F32.div a b)) :
    (F32.value (F32.div a b) * F32.value b - F32.value a * 2 ^ 149).natAbs ≤
      (F32.value c * F32.value b - F32.value a * 2 ^ 149).natAbs := by
  have h1 : F32.isNaN a = false := by unfold Finite at *; unfold F32.isNaN; simp; omega
  have h2 : F32.isNaN b = false := by unfold Finite at *; unfold F32.isNaN; simp; omega
  have h3 : F32.isInf a = false := by unfold Finite at *; unfold F32.isInf; simp; omega
  have h4 : F32.isInf b = false := by unfold Finite at *; unfold F32.isInf; simp; omega
  by_cases ha0 : F32.mag a = 0
  · have e : F32.div a b = F32.mk (F32.neg a != F32.neg b) 0 := by simp [F32.div, h1, h2, h3, h4, hb0, ha0]
    have : F32.value (F32.mk (F32.neg a != F32.neg b) 0) = 0 := by
      generalize (F32.neg a != F32.neg b) = z; cases z <;> decide
    have hva : F32.value a = 0 := by unfold F32.value; rw [ha0]; simp [F32.scaled]
    rw [e, this, hva]; simp
  · have e : F32.div a b = F32.mk (F32.neg a != F32.neg b) (F32.round 321
        (2 * (F32.scaled (F32.mag a) * 2 ^ (149 + 320) / F32.scaled (F32.mag b)) +
          if F32.scaled (F32.mag a) * 2 ^ (149 + 320) % F32.scaled (F32.mag b) = 0 then 0 else 1)) := by
      simp [F32.div, h1, h2, h3, h4, hb0, ha0]
    rw [e] at hr ⊢
    unfold Finite at hr
    rw [F32.mag_mk _ _ (round_lt _ _)] at hr
    have hd : 0 < F32.scaled (F32.mag b) := by
      unfold F32.scaled
      split
      · omega
      · exact Nat.mul_pos (by omega) (Nat.pow_pos (by omega))
    have hn := (C64_round_nearest 321 _ hr (F32.mag c)).1
    have hs := sticky hd (2 ^ 319) (n := F32.scaled (F32.mag a) * 2 ^ (149 + 320)) (by
      rw [show 4 * 2 ^ 319 = 2 ^ 321 by rfl]
      exact hn)
    unfold F32.value
    rw [F32.neg_mk _ _ (round_lt _ _), F32.mag_mk _ _ (round_lt _ _)]
    generalize F32.scaled (F32.round 321 _) = R at *
    generalize F32.scaled (F32.mag a) = A at *
    generalize F32.scaled (F32.mag b) = B at *
    generalize F32.scaled (F32.mag c) = C at *
    clear hn hr e
    have key : ((R * B : Nat) - ((A * 2 ^ 149 : Nat) : Int)).natAbs ≤ ((C * B : Nat) - ((A * 2 ^ 149 : Nat) : Int)).natAbs := by
      have e1 : ∀ Z : Nat, ((Z * (4 * 2 ^ 319) * B : Nat) - ((2 * (A * 2 ^ (149 + 320)) : Nat) : Int)).natAbs =
          ((Z * B : Nat) - ((A * 2 ^ 149 : Nat) : Int)).natAbs * 2 ^ 321 := by
        intro Z
        have a1 : Z * (4 * 2 ^ 319) * B = Z * B * 2 ^ 321 := by
          rw [show 4 * 2 ^ 319 = 2 ^ 321 by rfl, Nat.mul_right_comm]
        have a2 : 2 * (A * 2 ^ (149 + 320)) = A * 2 ^ 149 * 2 ^ 321 := by
          rw [Nat.mul_left_comm, Nat.mul_assoc]; rfl
        rw [a1, a2]
        generalize Z * B = u
        generalize A * 2 ^ 149 = w
        rw [Int.natCast_mul, Int.natCast_mul, ← Int.sub_mul, Int.natAbs_mul]; rfl
      rw [e1 R, e1 C] at hs
      exact Nat.le_of_mul_le_mul_right hs (by decide)
    have hA : (A : Int) * 2 ^ 149 = ((A * 2 ^ 149 : Nat) : Int) := by rw [Int.natCast_mul]; rfl
    rw [Int.natCast_mul, Int.natCast_mul C B] at key
    rw [← hA] at key
    have hR0 : 0 ≤ (R : Int) * B := Int.mul_nonneg (by omega) (by omega)
    have hC0 : 0 ≤ (C : Int) * B := Int.mul_nonneg (by omega) (by omega)
    have hA0 : 0 ≤ (A : Int) * 2 ^ 149 := Int.mul_nonneg (by omega) (by omega)
    generalize hRB : (R : Int) * B = RB at *
    generalize hCB : (C : Int) * B = CB at *
    generalize hA' : (A : Int) * 2 ^ 149 = A' at *
    cases F32.neg a <;> cases F32.neg b <;> cases F32.neg c <;>
      simp only [Bool.false_eq_true, if_true, if_false, bne_self_eq_false, Bool.true_bne, Bool.false_bne, Bool.not_false,
        Int.neg_mul, Int.mul_neg, Int.neg_neg, hRB, hCB, hA'] <;> omega

/-! ### The primitives -/

/-- The float an argument stands for: an integer is converted. -/
def _root_.Golisp.Spec.asFloat : Data → Option (BitVec 32)
  | .int n => some (F32.ofInt n.toInt)
  | .flt f => some f
  | _ => none

private theorem asFloat_num {d : Data} {f : BitVec 32} (h : asFloat d = some f) : isNum d = true ∧ floatValue d = f := by
  cases d with
  | atom a => cases a <;> simp_all [asFloat, isNum, isInt, isFlt, floatValue]
  | _ => simp [asFloat] at h

private theorem anyFloats_true : ∀ {args : List Data} {fs : List (BitVec 32)}, args.map asFloat = fs.map some →
    (∃ f, Data.flt f ∈ args) → anyFloats args = .ok true
  | [], _, _, h => by obtain ⟨_, h⟩ := h; cases h
  | d :: args, [], h, _ => by simp at h
  | d :: args, g :: fs, h, hf => by
    simp only [List.map_cons, List.cons.injEq] at h
    obtain ⟨h1, _⟩ := asFloat_num h.1
    unfold anyFloats
    rw [if_neg (by simp [h1])]
    by_cases hd : isFlt d = true
    · rw [if_pos hd]
    · rw [if_neg hd]
      refine anyFloats_true h.2 ?_
      obtain ⟨f, hm⟩ := hf
      rcases List.mem_cons.1 hm with rfl | hm
      · simp [isFlt] at hd
      · exact ⟨f, hm⟩

private theorem foldl_floats (op : BitVec 32 → BitVec 32 → BitVec 32) : ∀ {args : List Data} {fs : List (BitVec 32)} (acc : BitVec 32),
    args.map asFloat = fs.map some → args.foldl (fun acc d => op acc (floatValue d)) acc = fs.foldl op acc
  | [], [], _, _ => rfl
  | [], _ :: _, _, h => by simp at h
  | _ :: _, [], _, h => by simp at h
  | d :: args, f :: fs, acc, h => by
    simp only [List.map_cons, List.cons.injEq] at h
    simp only [List.foldl_cons, (asFloat_num h.1).2]
    exact foldl_floats op _ h.2

/-- C64: when one of the numbers added or multiplied is a float, all are converted to floats and the operations are
those of float32, from the left. -/
theorem C64_add_multiply {args : List Data} {fs : List (BitVec 32)} (h : args.map asFloat = fs.map some)
    (hf : ∃ f, Data.flt f ∈ args) :
    add args = .ok (.flt (fs.foldl F32.add 0#32)) ∧ multiply args = .ok (.flt (fs.foldl F32.mul (F32.ofInt 1))) := by
  have ha := anyFloats_true h hf
  have h1 : F32.ofInt 1 = 0x3f800000#32 := by decide
  constructor
  · simp only [add, arith, ha, addFloats, foldl_floats F32.add _ h]; rfl
  · simp only [multiply, arith, ha, multiplyFloats, foldl_floats F32.mul _ h, h1]

/-- C64: likewise for subtraction, starting from the first argument. -/
theorem C64_subtract {x : Data} {args : List Data} {f : BitVec 32} {fs : List (BitVec 32)} (hx : asFloat x = some f)
    (h : args.map asFloat = fs.map some) (hf : ∃ f, Data.flt f ∈ x :: args) :
    subtract (x :: args) = .ok (.flt (fs.foldl F32.sub f)) := by
  have ha := anyFloats_true (args := x :: args) (fs := f :: fs) (by simp [hx, h]) hf
  simp only [subtract, arith, ha, subtractFloats, List.tail_cons, List.headD_cons, (asFloat_num hx).2, foldl_floats F32.sub _ h]

private theorem isZero_iff (f : BitVec 32) : f32IsZero f = true ↔ F32.mag f = 0 := by
  unfold f32IsZero F32.mag
  rw [beq_iff_eq, ← BitVec.toNat_inj]
  simp [BitVec.extractLsb'_toNat]

/-- C64: likewise for division; a divisor that is a float zero (of either sign) is an error. -/
theorem C64_divide {x : Data} {args : List Data} {f : BitVec 32} {fs : List (BitVec 32)} (hx : asFloat x = some f)
    (h : args.map asFloat = fs.map some) (hf : ∃ f, Data.flt f ∈ x :: args) :
    ((∀ g ∈ fs, F32.mag g ≠ 0) → quotient (x :: args) = .ok (.flt (fs.foldl F32.div f))) ∧
    ((∃ g ∈ fs, F32.mag g = 0) → ∃ e, quotient (x :: args) = .err e) := by
  have ha := anyFloats_true (args := x :: args) (fs := f :: fs) (by simp [hx, h]) hf
  have hq : quotient (x :: args) = quotFltLoop args f := by
    simp only [quotient, arith, ha, List.tail_cons, List.headD_cons, (asFloat_num hx).2]
  rw [hq]
  clear ha hq hf hx
  induction args generalizing f fs with
  | nil =>
    cases fs with
    | nil => exact ⟨fun _ => rfl, fun ⟨g, hg, _⟩ => by cases hg⟩
    | cons _ _ => simp at h
  | cons d args ih =>
    cases fs with
    | nil => simp at h
    | cons g fs =>
      simp only [List.map_cons, List.cons.injEq] at h
      have hv := (asFloat_num h.1).2
      simp only [quotFltLoop, hv]
      by_cases hz : F32.mag g = 0
      · rw [if_pos ((isZero_iff g).2 hz)]
        exact ⟨fun hh => (hh g (by simp) hz).elim, fun _ => ⟨_, rfl⟩⟩
      · rw [if_neg (by rw [isZero_iff]; exact hz)]
        obtain ⟨i1, i2⟩ := ih (f := F32.div f g) h.2
        refine ⟨fun hh => i1 fun k hk => hh k (by simp [hk]), fun ⟨k, hk, hk0⟩ => i2 ?_⟩
        rcases List.mem_cons.1 hk with rfl | hk
        · exact (hz hk0).elim
        · exact ⟨k, hk, hk0⟩

/-- C64: not every non-number is reported.  After the first float, arguments are no longer checked, and anything that is
not a number counts as zero: `(+ 1.5 "a")` is `1.5`. -/
theorem C64_non_number_violation : add [.flt 0x3fc00000#32, .atom (.str "a")] = .ok (.flt 0x3fc00000#32) := by decide

/-- `(+ 1 2.5)`, `(* 2 0.5)`, `(/ 1.0 4)`. -/
example : add [.int 1, .flt 0x40200000#32] = .ok (.flt 0x40600000#32) ∧
    multiply [.int 2, .flt 0x3f000000#32] = .ok (.flt 0x3f800000#32) ∧
    quotient [.flt 0x3f800000#32, .int 4] = .ok (.flt 0x3e800000#32) ∧
    subtract [.flt 0x3f800000#32, .int 4] = .ok (.flt 0xc0400000#32) := by decide +kernel

/-- The hypotheses of the rounding theorems are met by ordinary numbers: 1/3. -/
example : Finite (F32.ofInt 1) ∧ Finite (F32.ofInt 3) ∧ F32.mag (F32.ofInt 3) ≠ 0 ∧
    Finite (F32.div (F32.ofInt 1) (F32.ofInt 3)) ∧ F32.div (F32.ofInt 1) (F32.ofInt 3) = 0x3eaaaaab#32 := by
  refine ⟨?_, ?_, ?_, ?_, ?_⟩ <;> first | decide +kernel | (unfold Finite; decide +kernel)

end Golisp.Props
