/-
IEEE-754 binary32 as used by Go's `float32` (`data.go:351`, `FloatValue`/`IntegerValue` `data.go:459-489`).
A float is its 32-bit pattern.  Conversions and arithmetic round to nearest, ties to even (the Go specification
requires IEEE-754; hardware is trusted).  Every NaN produced by an operation is modelled by one quiet NaN.
-/
namespace Golisp.F32

/-- Sign bit. -/
def neg (b : BitVec 32) : Bool := b.msb
/-- The 31 magnitude bits; larger magnitudes have larger patterns, infinity is `0x7f800000`, NaNs are above. -/
def mag (b : BitVec 32) : Nat := b.toNat % 2 ^ 31
def infMag : Nat := 0x7f800000
def isNaN (b : BitVec 32) : Bool := decide (infMag < mag b)
def isInf (b : BitVec 32) : Bool := decide (mag b = infMag)
/-- Pattern from sign and magnitude. -/
def mk (s : Bool) (m : Nat) : BitVec 32 := BitVec.ofNat 32 (m + if s then 2 ^ 31 else 0)
def qNaN : BitVec 32 := 0x7fc00000#32

/-- Sign-magnitude reading of the pattern: numeric order of (non-NaN) floats is the order of these integers. -/
def key (b : BitVec 32) : Int := if neg b then -(mag b : Int) else mag b

/-- Go's `<`, `<=` on float32. -/
def lt (a b : BitVec 32) : Bool := !isNaN a && !isNaN b && decide (key a < key b)
def le (a b : BitVec 32) : Bool := !isNaN a && !isNaN b && decide (key a ≤ key b)

/-- Value of a finite magnitude, in units of 2^-149 (the smallest positive float). -/
def scaled (m : Nat) : Nat := if m < 2 ^ 23 then m else (2 ^ 23 + m % 2 ^ 23) * 2 ^ (m / 2 ^ 23 - 1)

/-- Signed value in units of 2^-149. -/
def value (b : BitVec 32) : Int := if neg b then -(scaled (mag b) : Int) else scaled (mag b)

/-- Does `N / 2^k` round up (to nearest, ties to even)? -/
def up (k N : Nat) : Nat :=
  if 2 * (N % 2 ^ k) > 2 ^ k ∨ (2 * (N % 2 ^ k) = 2 ^ k ∧ N / 2 ^ k % 2 = 1) then 1 else 0

/-- Number of low bits of `N` (in units of 2^-(149+j)) that do not fit in a 24-bit significand. -/
def cut (j N : Nat) : Nat := max j (N.log2 - 23)

/-- Magnitude pattern nearest to `N · 2^-(149+j)`; too large values give infinity. -/
def round (j N : Nat) : Nat :=
  min ((cut j N - j) * 2 ^ 23 + (N / 2 ^ cut j N + up (cut j N) N)) infMag

/-- Round a signed value in units of 2^-(149+j); the sign of an exact zero is given. -/
def ofScaled (j : Nat) (zeroSign : Bool) (v : Int) : BitVec 32 :=
  if v = 0 then mk zeroSign 0 else mk (decide (v < 0)) (round j v.natAbs)

/-- `float32(n)` for an int64 (`data.go:485`). -/
def ofInt (n : Int) : BitVec 32 := ofScaled 0 false (n * 2 ^ 149)

/-- `int64(f)` (`data.go:469`): truncation; out of range and NaN give the smallest integer (amd64 behaviour,
implementation-defined in the Go specification). -/
def toInt64 (b : BitVec 32) : BitVec 64 :=
  if isNaN b ∨ scaled (mag b) ≥ 2 ^ 63 * 2 ^ 149 then BitVec.ofNat 64 (2 ^ 63)
  else BitVec.ofInt 64 (if neg b then -((scaled (mag b) / 2 ^ 149 : Nat) : Int) else (scaled (mag b) / 2 ^ 149 : Nat))

/-- `float32(math.Floor(float64(b)))`, `float32(math.Ceil(float64(b)))`: a zero keeps the sign of `b`. -/
def floor (b : BitVec 32) : BitVec 32 :=
  if isNaN b then qNaN else if isInf b then b else ofScaled 0 (neg b) (value b / 2 ^ 149 * 2 ^ 149)
def ceil (b : BitVec 32) : BitVec 32 :=
  if isNaN b then qNaN else if isInf b then b else ofScaled 0 (neg b) (-(-value b / 2 ^ 149 * 2 ^ 149))

/-- float32 addition. -/
def add (a b : BitVec 32) : BitVec 32 :=
  if isNaN a || isNaN b then qNaN
  else if isInf a then (if isInf b && neg a != neg b then qNaN else a)
  else if isInf b then b
  else ofScaled 0 (neg a && neg b) (value a + value b)

def negate (a : BitVec 32) : BitVec 32 := mk (!neg a) (mag a)

/-- float32 subtraction. -/
def sub (a b : BitVec 32) : BitVec 32 := if isNaN b then qNaN else add a (negate b)

/-- float32 multiplication. -/
def mul (a b : BitVec 32) : BitVec 32 :=
  let s := neg a != neg b
  if isNaN a || isNaN b then qNaN
  else if isInf a || isInf b then
    (if mag a = 0 ∨ mag b = 0 then qNaN else mk s infMag)
  else ofScaled 149 s (value a * value b)

/-- float32 division; the quotient is computed with 320 extra bits and a sticky bit. -/
def div (a b : BitVec 32) : BitVec 32 :=
  let s := neg a != neg b
  if isNaN a || isNaN b then qNaN
  else if isInf a then (if isInf b then qNaN else mk s infMag)
  else if isInf b then mk s 0
  else if mag b = 0 then (if mag a = 0 then qNaN else mk s infMag)
  else if mag a = 0 then mk s 0
  else
    let n := scaled (mag a) * 2 ^ (149 + 320)
    let q := n / scaled (mag b)
    let sticky := if n % scaled (mag b) = 0 then 0 else 1
    mk s (round 321 (2 * q + sticky))

/-! ### Rounding is monotone, and exact on 24-bit integers -/

theorem up_le (k N : Nat) : up k N ≤ 1 := by unfold up; split <;> omega

theorem q_lt (j N : Nat) : N / 2 ^ cut j N < 2 ^ 24 := by
  rw [Nat.div_lt_iff_lt_mul (by exact Nat.pow_pos (by omega))]
  have h1 : N < 2 ^ (N.log2 + 1) := Nat.lt_log2_self
  have h2 : N.log2 + 1 ≤ 24 + cut j N := by unfold cut; omega
  calc N < 2 ^ (N.log2 + 1) := h1
    _ ≤ 2 ^ (24 + cut j N) := Nat.pow_le_pow_right (by omega) h2
    _ = 2 ^ 24 * 2 ^ cut j N := by rw [Nat.pow_add]

theorem q_ge (j N : Nat) (h : j < cut j N) : 2 ^ 23 ≤ N / 2 ^ cut j N := by
  have hc : cut j N = N.log2 - 23 := by unfold cut at h ⊢; omega
  have hl : 23 < N.log2 := by unfold cut at h; omega
  have hN : N ≠ 0 := by rintro rfl; simp at hl
  rw [Nat.le_div_iff_mul_le (Nat.pow_pos (by omega)), hc, ← Nat.pow_add]
  rw [show 23 + (N.log2 - 23) = N.log2 by omega]
  exact Nat.log2_self_le hN

theorem log2_mono {a b : Nat} (h : a ≤ b) : a.log2 ≤ b.log2 := by
  by_cases ha : a = 0
  · subst ha; simp
  · by_cases hb : b = 0
    · omega
    · rw [Nat.le_log2 hb]
      exact Nat.le_trans (Nat.log2_self_le ha) h

theorem round_mono (j : Nat) {N N' : Nat} (h : N ≤ N') : round j N ≤ round j N' := by
  suffices hs : (cut j N - j) * 2 ^ 23 + (N / 2 ^ cut j N + up (cut j N) N) ≤
      (cut j N' - j) * 2 ^ 23 + (N' / 2 ^ cut j N' + up (cut j N') N') by
    unfold round; omega
  have hl := log2_mono h
  have hle : cut j N ≤ cut j N' := by unfold cut; omega
  have hj : j ≤ cut j N := by unfold cut; omega
  by_cases he : cut j N = cut j N'
  · rw [← he]
    generalize cut j N = k
    have hq : N / 2 ^ k ≤ N' / 2 ^ k := Nat.div_le_div_right h
    have hu := up_le k N
    by_cases hqq : N / 2 ^ k = N' / 2 ^ k
    · have hr : N % 2 ^ k ≤ N' % 2 ^ k := by
        have e1 := Nat.div_add_mod N (2 ^ k)
        have e2 := Nat.div_add_mod N' (2 ^ k)
        rw [hqq] at e1
        generalize 2 ^ k * (N' / 2 ^ k) = z at *
        omega
      have : up k N ≤ up k N' := by
        unfold up
        rw [hqq]
        generalize N % 2 ^ k = r at *
        generalize N' % 2 ^ k = r' at *
        generalize N' / 2 ^ k % 2 = q at *
        generalize 2 ^ k = p at *
        split <;> split <;> omega
      omega
    · omega
  · have h1 := q_lt j N
    have h2 := q_ge j N' (by omega)
    have h3 := up_le (cut j N) N
    have h4 : (cut j N - j) + 1 ≤ cut j N' - j := by omega
    have h5 := Nat.mul_le_mul_right (2 ^ 23) h4
    omega

/-- A value with at most 24 significant bits is represented exactly. -/
theorem scaled_round_exact (m t : Nat) (hm : m < 2 ^ 24) (hfit : m * 2 ^ t < 2 ^ 250) :
    scaled (round 0 (m * 2 ^ t)) = m * 2 ^ t := by
  by_cases hm0 : m = 0
  · subst hm0; simp [round, cut, up, infMag, scaled]
  have hN : m * 2 ^ t ≠ 0 := Nat.mul_ne_zero hm0 (Nat.pos_iff_ne_zero.1 (Nat.pow_pos (by omega)))
  have hlog : (m * 2 ^ t).log2 = m.log2 + t := by
    rw [Nat.log2_eq_iff hN]
    have h1 := Nat.log2_self_le hm0
    have h2 : m < 2 ^ (m.log2 + 1) := Nat.lt_log2_self
    constructor
    · rw [Nat.pow_add]; exact Nat.mul_le_mul_right _ h1
    · rw [show m.log2 + t + 1 = (m.log2 + 1) + t by omega, Nat.pow_add]
      exact Nat.mul_lt_mul_of_pos_right h2 (Nat.pow_pos (by omega))
  have hml : m.log2 < 24 := by
    rw [Nat.log2_lt hm0]; exact hm
  have hcut : cut 0 (m * 2 ^ t) = m.log2 + t - 23 := by simp [cut, hlog]
  have hkt : cut 0 (m * 2 ^ t) ≤ t := by omega
  have hsplit : 2 ^ t = 2 ^ (t - cut 0 (m * 2 ^ t)) * 2 ^ cut 0 (m * 2 ^ t) := by
    rw [← Nat.pow_add]; congr 1; omega
  have hr : m * 2 ^ t % 2 ^ cut 0 (m * 2 ^ t) = 0 := by
    generalize cut 0 (m * 2 ^ t) = k at *
    rw [hsplit, ← Nat.mul_assoc, Nat.mul_mod_left]
  have hup : up (cut 0 (m * 2 ^ t)) (m * 2 ^ t) = 0 := by
    unfold up
    rw [hr]
    have := Nat.pow_pos (n := cut 0 (m * 2 ^ t)) (show 0 < 2 by omega)
    split
    · omega
    · rfl
  have hq24 := q_lt 0 (m * 2 ^ t)
  have hdm := Nat.div_add_mod (m * 2 ^ t) (2 ^ cut 0 (m * 2 ^ t))
  rw [hr, Nat.add_zero] at hdm
  have hk : cut 0 (m * 2 ^ t) ≤ 253 := by
    have : (m * 2 ^ t).log2 < 250 := (Nat.log2_lt hN).2 hfit
    simp only [cut]; omega
  unfold round
  rw [hup, Nat.add_zero, Nat.sub_zero]
  by_cases hk0 : cut 0 (m * 2 ^ t) = 0
  · have hlt : m * 2 ^ t < 2 ^ 24 := by rw [hk0] at hq24; simpa using hq24
    rw [hk0]
    simp only [Nat.zero_mul, Nat.pow_zero, Nat.div_one, Nat.zero_add, infMag]
    rw [Nat.min_eq_left (by omega)]
    unfold scaled
    split
    · rfl
    · rename_i h
      have h1 : m * 2 ^ t / 2 ^ 23 = 1 := by omega
      rw [h1]; omega
  · have hq23 := q_ge 0 (m * 2 ^ t) (by omega)
    generalize hkk : cut 0 (m * 2 ^ t) = k at *
    generalize hqq : m * 2 ^ t / 2 ^ k = q at *
    rw [Nat.min_eq_left (by unfold infMag; omega)]
    unfold scaled
    rw [if_neg (by omega)]
    have h1 : (k * 2 ^ 23 + q) / 2 ^ 23 = k + 1 := by omega
    have h2 : (k * 2 ^ 23 + q) % 2 ^ 23 = q - 2 ^ 23 := by omega
    rw [h1, h2, show 2 ^ 23 + (q - 2 ^ 23) = q by omega, show k + 1 - 1 = k by omega, Nat.mul_comm]
    exact hdm

theorem round_le_inf (j N : Nat) : round j N ≤ infMag := by unfold round; omega

theorem mag_mk (s : Bool) (m : Nat) (h : m < 2 ^ 31) : mag (mk s m) = m := by
  unfold mag mk; cases s <;> simp <;> omega

theorem neg_mk (s : Bool) (m : Nat) (h : m < 2 ^ 31) : neg (mk s m) = s := by
  unfold neg mk; rw [BitVec.msb_eq_decide]; cases s <;> simp <;> omega

theorem key_ofInt (n : Int) :
    key (ofInt n) = if n < 0 then -(round 0 (n.natAbs * 2 ^ 149) : Int) else round 0 (n.natAbs * 2 ^ 149) := by
  have hi : infMag < 2 ^ 31 := by decide
  have hr := round_le_inf 0 (n.natAbs * 2 ^ 149)
  unfold ofInt ofScaled
  by_cases hn : n = 0
  · subst hn; decide
  · have h1 : n * 2 ^ 149 ≠ 0 := by omega
    have h2 : (n * 2 ^ 149).natAbs = n.natAbs * 2 ^ 149 := by rw [Int.natAbs_mul]; rfl
    rw [if_neg h1, h2]
    unfold key
    rw [mag_mk _ _ (by omega), neg_mk _ _ (by omega)]
    by_cases hneg : n < 0
    · have : n * 2 ^ 149 < 0 := by omega
      rw [decide_eq_true this, if_pos rfl, if_pos hneg]
    · have : ¬ n * 2 ^ 149 < 0 := by omega
      rw [decide_eq_false this, if_neg (by simp), if_neg hneg]

theorem not_isNaN_ofInt (n : Int) : isNaN (ofInt n) = false := by
  have hi : infMag < 2 ^ 31 := by decide
  unfold ofInt ofScaled
  split
  · decide
  · unfold isNaN
    have hr := round_le_inf 0 (n * 2 ^ 149).natAbs
    rw [mag_mk _ _ (by omega)]
    exact decide_eq_false (by omega)

theorem round_zero : round 0 0 = 0 := by decide

/-- Conversion of integers to float32 preserves the order weakly. -/
theorem key_ofInt_mono {a b : Int} (h : a ≤ b) : key (ofInt a) ≤ key (ofInt b) := by
  rw [key_ofInt, key_ofInt]
  split
  · split
    · have := round_mono 0 (show b.natAbs * 2 ^ 149 ≤ a.natAbs * 2 ^ 149 by omega)
      omega
    · omega
  · split
    · omega
    · have := round_mono 0 (show a.natAbs * 2 ^ 149 ≤ b.natAbs * 2 ^ 149 by omega)
      omega

/-- … and strictly on integers of magnitude at most 2^24. -/
theorem key_ofInt_inj {a b : Int} (ha : a.natAbs ≤ 2 ^ 24) (hb : b.natAbs ≤ 2 ^ 24) (h : key (ofInt a) = key (ofInt b)) :
    a = b := by
  have ex : ∀ n : Nat, n ≤ 2 ^ 24 → scaled (round 0 (n * 2 ^ 149)) = n * 2 ^ 149 := by
    intro n hn
    by_cases h : n = 2 ^ 24
    · subst h
      have := scaled_round_exact 1 173 (by omega) (by decide)
      simpa using this
    · exact scaled_round_exact n 149 (by omega) (by
        calc n * 2 ^ 149 < 2 ^ 24 * 2 ^ 149 := Nat.mul_lt_mul_of_pos_right (by omega) (by decide)
          _ ≤ 2 ^ 250 := by decide)
  have ea := ex a.natAbs ha
  have eb := ex b.natAbs hb
  rw [key_ofInt, key_ofInt] at h
  have hz : ∀ n : Nat, n ≤ 2 ^ 24 → round 0 (n * 2 ^ 149) = 0 → n = 0 := by
    intro n hn hz
    have := ex n hn
    rw [hz] at this
    simp [scaled] at this
    omega
  have hinj : round 0 (a.natAbs * 2 ^ 149) = round 0 (b.natAbs * 2 ^ 149) → a.natAbs = b.natAbs := by
    intro h; rw [h] at ea; rw [ea] at eb; omega
  have za := hz a.natAbs ha
  have zb := hz b.natAbs hb
  split at h <;> split at h <;> omega

end Golisp.F32
