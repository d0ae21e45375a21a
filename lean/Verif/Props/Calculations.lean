import Verif.NumberManual
import Verif.Props.Texts
import Verif.Props.Grammar
/- C81: the remaining numeric primitives called from Lisp code do what the manual (`Verif.NumberManual`) says. -/
namespace Golisp.Props
open Golisp Data Ev Spec Prim

variable {C : Conf} {e : Nat} {s s₁ : Store} {d : Data}

set_option maxRecDepth 20000

/-! ### Rounding -/

theorem mag_bound (b : BitVec 32) : F32.mag b < 2 ^ 31 := Nat.mod_lt _ (by decide)
theorem round_bound (j N : Nat) : F32.round j N < 2 ^ 31 := Nat.lt_of_le_of_lt (F32.round_le_inf j N) (by decide)

/-- A whole number that is small, or the value of a float, is rounded to itself. -/
theorem ofScaled_exact (z : Bool) (v : Int)
    (h : (∃ m, m < F32.infMag ∧ v.natAbs = F32.scaled m) ∨ ∃ q : Nat, q < 2 ^ 24 ∧ v.natAbs = q * 2 ^ 149) :
    Finite (F32.ofScaled 0 z v) ∧ F32.value (F32.ofScaled 0 z v) = v ∧ (v = 0 → F32.neg (F32.ofScaled 0 z v) = z) := by
  by_cases hv : v = 0
  · subst hv
    cases z <;> exact ⟨by unfold Finite; decide, by decide, fun _ => by decide⟩
  · have hr : F32.scaled (F32.round 0 v.natAbs) = v.natAbs ∧ F32.round 0 v.natAbs < F32.infMag := by
      rcases h with ⟨m, hm, he⟩ | ⟨q, hq, he⟩
      · rw [he, C64_round_exact m hm]; exact ⟨rfl, hm⟩
      · rw [he]
        have hle : q * 2 ^ 149 ≤ 2 ^ 24 * 2 ^ 149 := Nat.mul_le_mul_right _ (Nat.le_of_lt hq)
        refine ⟨F32.scaled_round_exact q 149 hq (Nat.lt_of_le_of_lt hle (by decide)), ?_⟩
        exact Nat.lt_of_le_of_lt (F32.round_mono 0 hle) (by decide +kernel)
    unfold F32.ofScaled
    rw [if_neg hv]
    refine ⟨?_, ?_, fun h => absurd h hv⟩
    · unfold Finite; rw [F32.mag_mk _ _ (round_bound _ _)]; exact hr.2
    · unfold F32.value
      rw [F32.neg_mk _ _ (round_bound _ _), F32.mag_mk _ _ (round_bound _ _), hr.1]
      by_cases hn : v < 0 <;> simp only [hn, decide_true, decide_false, if_true, Bool.false_eq_true, if_false] <;> omega

/-- A finite float is a whole number, or small. -/
theorem whole_or_small {m : Nat} (h : m < F32.infMag) : (∃ q, F32.scaled m = q * 2 ^ 149) ∨ F32.scaled m < 2 ^ 23 * 2 ^ 149 := by
  unfold F32.scaled
  split
  · next h => exact .inr (by omega)
  · next h =>
    by_cases hk : 149 ≤ m / 2 ^ 23 - 1
    · refine .inl ⟨(2 ^ 23 + m % 2 ^ 23) * 2 ^ (m / 2 ^ 23 - 1 - 149), ?_⟩
      rw [Nat.mul_assoc, ← Nat.pow_add]; congr 2; omega
    · refine .inr ?_
      have h1 : 2 ^ (m / 2 ^ 23 - 1) ≤ 2 ^ 148 := Nat.pow_le_pow_right (by decide) (by omega)
      have h2 : 2 ^ 23 + m % 2 ^ 23 < 2 ^ 24 := by omega
      calc (2 ^ 23 + m % 2 ^ 23) * 2 ^ (m / 2 ^ 23 - 1) ≤ (2 ^ 23 + m % 2 ^ 23) * 2 ^ 148 := Nat.mul_le_mul_left _ h1
        _ < 2 ^ 24 * 2 ^ 148 := Nat.mul_lt_mul_of_pos_right h2 (by decide)
        _ = _ := by decide

theorem value_natAbs (b : BitVec 32) : (F32.value b).natAbs = F32.scaled (F32.mag b) := by
  unfold F32.value; split <;> omega

/-- Rounding `v = value b` down to a multiple of one is exact; `w` is the rounded value. -/
theorem whole_exact {b : BitVec 32} (hb : Finite b) {q : Int} (h1 : (q - 1) * unit < F32.value b) (h2 : F32.value b < (q + 1) * unit)
    (hw : (∃ p : Int, F32.value b = p * unit) → F32.value b = q * unit) (z : Bool) :
    Finite (F32.ofScaled 0 z (q * unit)) ∧ F32.value (F32.ofScaled 0 z (q * unit)) = q * unit ∧
      (q * unit = 0 → F32.neg (F32.ofScaled 0 z (q * unit)) = z) := by
  refine ofScaled_exact z _ ?_
  have hv := value_natAbs b
  rcases whole_or_small hb with ⟨p, hp⟩ | hs
  · refine .inl ⟨F32.mag b, hb, ?_⟩
    have : F32.value b = q * unit := by
      apply hw
      rw [hp] at hv
      rcases Int.natAbs_eq (F32.value b) with h | h
      · exact ⟨p, by rw [h, hv]; unfold unit; simp⟩
      · exact ⟨-p, by rw [h, hv]; unfold unit; simp [Int.neg_mul]⟩
    rw [← this, hv]
  · refine .inr ⟨q.natAbs, ?_, by rw [Int.natAbs_mul]; rfl⟩
    unfold unit at h1 h2
    omega

theorem floor_is {b : BitVec 32} (hb : Finite b) : IsFloor b (F32.floor b) := by
  have h1 : F32.isNaN b = false := by unfold Finite at hb; unfold F32.isNaN; simp; omega
  have h2 : F32.isInf b = false := by unfold Finite at hb; unfold F32.isInf; simp; omega
  unfold F32.floor
  rw [h1, h2]
  simp only [Bool.false_eq_true, if_false]
  have hd : F32.value b / 2 ^ 149 * unit ≤ F32.value b ∧ F32.value b < (F32.value b / 2 ^ 149 + 1) * unit := by unfold unit; omega
  obtain ⟨k1, k2, k3⟩ := whole_exact (q := F32.value b / 2 ^ 149) hb (by unfold unit at *; omega) hd.2
    (by rintro ⟨p, hp⟩; unfold unit at *; omega) (F32.neg b)
  exact ⟨k1, ⟨_, k2, hd.1, hd.2⟩, fun h => k3 (k2.symm.trans h)⟩

theorem ceiling_is {b : BitVec 32} (hb : Finite b) : IsCeiling b (F32.ceil b) := by
  have h1 : F32.isNaN b = false := by unfold Finite at hb; unfold F32.isNaN; simp; omega
  have h2 : F32.isInf b = false := by unfold Finite at hb; unfold F32.isInf; simp; omega
  unfold F32.ceil
  rw [h1, h2]
  simp only [Bool.false_eq_true, if_false]
  have hd : (-(-F32.value b / 2 ^ 149) - 1) * unit < F32.value b ∧ F32.value b ≤ -(-F32.value b / 2 ^ 149) * unit := by unfold unit; omega
  obtain ⟨k1, k2, k3⟩ := whole_exact (q := -(-F32.value b / 2 ^ 149)) hb hd.1 (by unfold unit at *; omega)
    (by rintro ⟨p, hp⟩; unfold unit at *; omega) (F32.neg b)
  rw [show -(-F32.value b / 2 ^ 149 * 2 ^ 149) = -(-F32.value b / 2 ^ 149) * unit by unfold unit; omega]
  exact ⟨k1, ⟨_, k2, hd.1, hd.2⟩, fun h => k3 (k2.symm.trans h)⟩

/-! ### Numerals -/

theorem scanBlank_iff (c : Char) : scanBlank c = true ↔ Space c := by
  have hc : ∀ k : Char, (k = c) ↔ k.toNat = c.toNat := fun k => ⟨fun h => h ▸ rfl, fun h => Char.ext (UInt32.toNat_inj.1 h)⟩
  have hle : ∀ a b : Char, a ≤ b ↔ a.toNat ≤ b.toNat := fun a b => Iff.rfl
  unfold scanBlank Space
  simp only [Bool.or_eq_true, Bool.and_eq_true, decide_eq_true_eq, List.contains_eq_mem, List.mem_cons, List.not_mem_nil, or_false, hle,
    eq_comm (a := c), hc, eq_comm (b := c.toNat), show ' '.toNat = 0x20 from rfl, show '\t'.toNat = 0x09 from rfl, show '\r'.toNat = 0x0d from rfl,
    show '\x0b'.toNat = 0x0b from rfl, show '\x0c'.toNat = 0x0c from rfl, show '\u0085'.toNat = 0x85 from rfl,
    show ' '.toNat = 0xa0 from rfl, show ' '.toNat = 0x1680 from rfl, show ' '.toNat = 0x2028 from rfl,
    show ' '.toNat = 0x2029 from rfl, show ' '.toNat = 0x202f from rfl, show ' '.toNat = 0x205f from rfl,
    show '　'.toNat = 0x3000 from rfl, show ' '.toNat = 0x2000 from rfl, show ' '.toNat = 0x200a from rfl]
  omega

theorem scanSpace_split (cs : List Char) : ∃ sp, cs = sp ++ scanSpace cs ∧ (∀ c ∈ sp, Space c) ∧ ∀ c ∈ (scanSpace cs).head?, ¬ Space c := by
  induction cs with
  | nil => exact ⟨[], rfl, by simp, by simp [scanSpace]⟩
  | cons c cs ih =>
    simp only [scanSpace]
    by_cases h : scanBlank c = true
    · rw [if_pos h]
      obtain ⟨sp, h1, h2, h3⟩ := ih
      refine ⟨c :: sp, by rw [List.cons_append, ← h1], fun x hx => ?_, h3⟩
      rcases List.mem_cons.1 hx with rfl | hx
      · exact (scanBlank_iff _).1 h
      · exact h2 x hx
    · rw [if_neg h]
      exact ⟨[], rfl, by simp, by simpa [scanBlank_iff] using h⟩

theorem scanSpace_append {sp r : List Char} (h : ∀ c ∈ sp, Space c) (hr : ∀ c ∈ r.head?, ¬ Space c) : scanSpace (sp ++ r) = r := by
  induction sp with
  | nil => cases r with
    | nil => rfl
    | cons c r =>
      have : ¬ scanBlank c = true := by rw [scanBlank_iff]; exact hr c (by simp)
      simp [scanSpace, this]
  | cons c sp ih =>
    have : scanBlank c = true := (scanBlank_iff _).2 (h c (by simp))
    simp only [List.cons_append, scanSpace, this, if_true]
    exact ih fun c hc => h c (by simp [hc])

theorem digitVal_digit {b : Nat} (hb : b ≤ 16) {c : Char} {v : Nat} : digitVal b c = some v ↔ Digit b c v := by
  constructor
  · intro h
    unfold digitVal at h
    split at h
    · next hlt =>
      cases h
      refine ⟨hlt, ?_⟩
      have hc : ∀ {k : Char}, k.toNat = c.toNat → c = k := fun h => Char.ext (UInt32.toNat_inj.1 h.symm)
      unfold digitRaw at hlt ⊢
      have hle : ∀ a b : Char, a ≤ b ↔ a.toNat ≤ b.toNat := fun a b => Iff.rfl
      simp only [hle, show '0'.toNat = 48 from rfl, show '9'.toNat = 57 from rfl, show 'a'.toNat = 97 from rfl, show 'f'.toNat = 102 from rfl,
        show 'A'.toNat = 65 from rfl, show 'F'.toNat = 70 from rfl] at hlt ⊢
      have key : ∀ k : Fin 16, (k.1 < 10 → ("0123456789abcdef".toList.getD k ' ').toNat = k + 48) ∧
          (10 ≤ k.1 → ("0123456789abcdef".toList.getD k ' ').toNat = k + 87) ∧
          (10 ≤ k.1 → ("0123456789ABCDEF".toList.getD k ' ').toNat = k + 55) := by decide
      split at hlt
      · next h => rw [if_pos h]; exact .inl (hc (by have := (key ⟨c.toNat - 48, by omega⟩).1 (by simp; omega); simp at this ⊢; omega))
      · next h =>
        rw [if_neg h]
        split at hlt
        · next h' => rw [if_pos h']; exact .inl (hc (by have := (key ⟨c.toNat - 87, by omega⟩).2.1 (by simp; omega); simp at this ⊢; omega))
        · next h' =>
          rw [if_neg h']
          split at hlt
          · next h'' => rw [if_pos h'']; exact .inr (hc (by have := (key ⟨c.toNat - 55, by omega⟩).2.2 (by simp; omega); simp at this ⊢; omega))
          · omega
    · cases h
  · intro h
    unfold digitVal
    rw [digit_raw hb h, if_pos h.1]

/-- The digits at the beginning of a text. -/
theorem digits_split {b : Nat} (hb : b ≤ 16) (cs : List Char) : ∃ ds rest, cs = ds ++ rest ∧ (∀ c ∈ ds, ∃ v, Digit b c v) ∧
    (∀ c ∈ rest.head?, ¬ ∃ v, Digit b c v) := by
  induction cs with
  | nil => exact ⟨[], [], rfl, by simp, by simp⟩
  | cons c cs ih =>
    cases h : digitVal b c with
    | some v =>
      obtain ⟨ds, rest, rfl, h2, h3⟩ := ih
      refine ⟨c :: ds, rest, rfl, fun x hx => ?_, h3⟩
      rcases List.mem_cons.1 hx with rfl | hx
      · exact ⟨v, (digitVal_digit hb).1 h⟩
      · exact h2 x hx
    | none =>
      refine ⟨[], c :: cs, rfl, by simp, ?_⟩
      rintro x hx ⟨v, hv⟩
      simp at hx; subst hx
      rw [(digitVal_digit hb).2 hv] at h; cases h

theorem numeral_of_digits {b : Nat} : ∀ (ds : List Char), ds ≠ [] → (∀ c ∈ ds, ∃ v, Digit b c v) → ∃ n, Numeral b ds n := by
  suffices h : ∀ (rs : List Char), rs ≠ [] → (∀ c ∈ rs, ∃ v, Digit b c v) → ∃ n, Numeral b rs.reverse n by
    intro ds hne hd
    have := h ds.reverse (by simpa using hne) (by simpa using hd)
    rwa [List.reverse_reverse] at this
  intro rs
  induction rs with
  | nil => intro h; exact absurd rfl h
  | cons c rs ih =>
    intro _ hd
    obtain ⟨v, hv⟩ := hd c (by simp)
    by_cases hr : rs = []
    · subst hr; exact ⟨v, .one hv⟩
    · obtain ⟨n, hn⟩ := ih hr fun x hx => hd x (by simp [hx])
      rw [List.reverse_cons]
      exact ⟨_, .snoc hn hv⟩

theorem scanDigits_stop {b : Nat} (hb : b ≤ 16) {rest : List Char} (h : ∀ c ∈ rest.head?, ¬ ∃ v, Digit b c v) (acc : Nat) (any : Bool) :
    scanDigits b rest acc any = (acc, any) := by
  cases rest with
  | nil => rfl
  | cons c r =>
    cases hv : digitVal b c with
    | none => simp [scanDigits, hv]
    | some v => exact absurd ⟨v, (digitVal_digit hb).1 hv⟩ (h c (by simp))

theorem digit_not_space {b : Nat} (hb : b ≤ 16) {c : Char} {v : Nat} (h : Digit b c v) : ¬ Space c ∧ c ≠ '-' ∧ c ≠ '+' := by
  obtain ⟨-, -, h1, h2, h3, -, -⟩ := digit_char hb h
  refine ⟨fun h => ?_, h1, h2⟩
  rw [(scanBlank_iff c).2 h] at h3; cases h3

instance (z : Int) : Decidable (Representable z) := inferInstanceAs (Decidable (_ ∧ _))

theorem scanInt_eq {b : Nat} {cs ds : List Char} {g : Bool} {n : Nat} (h1 : splitSign (scanSpace cs) = (g, ds)) (h2 : scanDigits b ds 0 false = (n, true)) :
    scanInt b cs = if Representable (if g then -(n : Int) else n) then some (if g then -(n : Int) else n) else none := by
  unfold scanInt
  dsimp only
  rw [h1]
  dsimp only
  rw [h2]
  rfl

theorem scanInt_begins {b : Nat} (hb : b ≤ 16) {cs : List Char} {z : Int} (h : Begins b cs z) :
    scanInt b cs = if Representable z then some z else none := by
  obtain ⟨sp, sg, ds, rest, n, rfl, hsp, hn, hrest, hsg⟩ := h
  have hds := scanDigits_numeral hb hn rest 0 false
  rw [Nat.zero_mul, Nat.zero_add, scanDigits_stop hb hrest] at hds
  cases ds with
  | nil => exact absurd rfl (numeral_ne hn)
  | cons c ds =>
    obtain ⟨v, hv⟩ := numeral_digits hn c (by simp)
    obtain ⟨k1, k2, k3⟩ := digit_not_space hb hv
    have hm : ¬ Space '-' := by rw [← scanBlank_iff]; decide
    have hp : ¬ Space '+' := by rw [← scanBlank_iff]; decide
    have hs : splitSign (c :: ds ++ rest) = (false, c :: ds ++ rest) := by
      unfold splitSign
      split
      · next e => simp at e; exact absurd e.1 k2
      · next e => simp at e; exact absurd e.1 k3
      · rfl
    rcases hsg with ⟨rfl | rfl, rfl⟩ | ⟨rfl, rfl⟩
    · refine scanInt_eq (g := false) ?_ hds
      rw [List.nil_append, scanSpace_append hsp (by simpa using k1), hs]
    · refine scanInt_eq (g := false) ?_ hds
      rw [scanSpace_append hsp (by simpa using hp)]; rfl
    · refine scanInt_eq (g := true) ?_ hds
      rw [scanSpace_append hsp (by simpa using hm)]; rfl

theorem scanInt_not {b : Nat} (hb : b ≤ 16) {cs : List Char} (h : ∀ z, Begins b cs z → ¬ Representable z) : scanInt b cs = none := by
  obtain ⟨sp, h1, h2, h3⟩ := scanSpace_split cs
  obtain ⟨sg, r, z, hr, hz, hs⟩ : ∃ sg r, ∃ z : Nat → Int, scanSpace cs = sg ++ r ∧ (∀ n, (sg = [] ∨ sg = ['+']) ∧ z n = n ∨ sg = ['-'] ∧ z n = -(n : Int)) ∧
      ∃ g, splitSign (scanSpace cs) = (g, r) := by
    generalize scanSpace cs = t
    unfold splitSign
    split
    · exact ⟨['-'], _, fun n => -(n : Int), rfl, fun n => .inr ⟨rfl, rfl⟩, _, rfl⟩
    · exact ⟨['+'], _, fun n => n, rfl, fun n => .inl ⟨.inr rfl, rfl⟩, _, rfl⟩
    · exact ⟨[], _, fun n => n, rfl, fun n => .inl ⟨.inl rfl, rfl⟩, _, rfl⟩
  obtain ⟨ds, rest, rfl, hd, hrest⟩ := digits_split hb r
  by_cases hne : ds = []
  · subst hne
    obtain ⟨g, hg⟩ := hs
    unfold scanInt
    simp only [hg, List.nil_append, scanDigits_stop hb hrest, Bool.not_false, if_true]
  · obtain ⟨n, hn⟩ := numeral_of_digits ds hne hd
    have hB : Begins b cs (z n) := ⟨sp, sg, ds, rest, n, by rw [h1, hr], h2, hn, hrest, hz n⟩
    rw [scanInt_begins hb hB, if_neg (h _ hB)]

/-! ### The manual -/

theorem asFloat_some {v : Data} {b : BitVec 32} (h : asFloat v = some b) : isNum v = true ∧ floatValue v = b ∧ isInt v = !isFlt v := by
  cases v with
  | atom a => cases a <;> simp_all [asFloat, isNum, isInt, isFlt, floatValue]
  | _ => simp [asFloat] at h
theorem asFloat_none {v : Data} (h : asFloat v = none) : isNum v = false := by
  cases v with
  | atom a => cases a <;> simp_all [asFloat, isNum, isInt, isFlt]
  | _ => rfl

section
variable {x m : String} {P : Out Data → Prop} {v : Data}

theorem works_float {f : BitVec 32 → BitVec 32} {b : BitVec 32} (hx : (std C.host).prims x = some ⟨"1".toList, false, false, floatFnImpl C.host m f⟩)
    (hv : asFloat v = some b) (hP : P (.ok (.flt (f b)))) : Works C x [v] s P := by
  refine works_of hx count1 (r := .ok (.flt (f b))) nofun hP fun args e ha => ?_
  obtain ⟨h1, h2, -⟩ := asFloat_some hv
  simp only [floatFnImpl, (args1 ha).1, h1, h2, if_true]; rfl

theorem works_float_bad {f : BitVec 32 → BitVec 32} (hx : (std C.host).prims x = some ⟨"1".toList, false, false, floatFnImpl C.host m f⟩)
    (hv : asFloat v = none) : Works C x [v] s Objects := by
  refine works_bad hx count1 fun args e ha => Or.inr ⟨m, v, "", ?_⟩
  simp only [floatFnImpl, (args1 ha).1, asFloat_none hv, Bool.false_eq_true, if_false]

theorem works_class {f : BitVec 32 → Bool} {b : BitVec 32} (hx : (std C.host).prims x = some ⟨"1".toList, false, false, floatTestImpl C.host m f⟩)
    (hP : P (.ok (.bool (f b)))) : Works C x [.flt b] s P := by
  refine works_of hx count1 (r := .ok (.bool (f b))) nofun hP fun args e ha => ?_
  simp only [floatTestImpl, (args1 ha).1]; rfl

theorem works_class_int {f : BitVec 32 → Bool} {n : BitVec 64} (hx : (std C.host).prims x = some ⟨"1".toList, false, false, floatTestImpl C.host m f⟩) :
    Works C x [.int n] s (Gives (.bool false)) := by
  refine works_of hx count1 (r := .ok (.bool false)) nofun rfl fun args e ha => ?_
  simp only [floatTestImpl, (args1 ha).1]; rfl

theorem works_class_bad {f : BitVec 32 → Bool} (hx : (std C.host).prims x = some ⟨"1".toList, false, false, floatTestImpl C.host m f⟩)
    (hv : asFloat v = none) : Works C x [v] s Objects := by
  refine works_bad hx count1 fun args e ha => Or.inr ⟨m, v, "", ?_⟩
  simp only [floatTestImpl, (args1 ha).1, asFloat_none hv, Bool.false_eq_true, if_false]
end

theorem goMath_in (H : Host) {x : String} (h : x ∈ goMath) :
    (std H).prims x = some ⟨"1".toList, false, false, floatFnImpl H (x ++ " expects a number as a parameter, got ") (H.math x)⟩ := by
  simp only [goMath, List.mem_cons, List.not_mem_nil, or_false] at h
  rcases h with rfl | rfl | rfl | rfl | rfl | rfl | rfl | rfl | rfl | rfl | rfl | rfl | rfl | rfl | rfl | rfl | rfl | rfl | rfl | rfl |
    rfl | rfl | rfl | rfl | rfl | rfl | rfl | rfl | rfl <;> rfl

theorem progression_up {s e t : Int} (ht : 0 < t) (hs : s ≤ e) : Progression s t (· ≤ e) (steps s t (((e - s) / t).toNat + 1)) :=
  ⟨_, rfl, fun k => (count_up ht hs k).symm⟩
theorem progression_down {s e t : Int} (ht : t < 0) (hs : e ≤ s) : Progression s t (e ≤ ·) (steps s t (((s - e) / -t).toNat + 1)) :=
  ⟨_, rfl, fun k => (count_down ht hs k).symm⟩

theorem numbers_list (xs : List Int) : Lst (ofArray (xs.map wrapped)) (xs.map wrapped) := by
  have := Lst.ofArray (xs.map wrapped)
  rwa [map_elem_id (by simp [wrapped])] at this

theorem interval_none {n : BitVec 64} (fuel : Nat) (h1 : n.toInt < 1) (h2 : n.toInt.natAbs < 2 ^ 44) : Prim.interval (fuel + 1) [.int n] = .ok (ofArray []) := by
  have t1 : (1 : BitVec 64).toInt = 1 := by decide
  have hs := small_diff 1 n (by omega)
  have h2 : (1 : BitVec 64).sle n = false := by rw [BitVec.sle_eq_decide, decide_eq_false_iff_not, t1]; omega
  simp only [Prim.interval, intValue_int, if_neg hs, Prim.intervalLoop, if_true, h2, Bool.false_eq_true, if_false]

theorem count123 {vs : List Data} (h : vs.length = 1 ∨ vs.length = 2 ∨ vs.length = 3 := by simp) :
    Arity.checkArgumentCount (Arity.parseNumArgs "1|2|3".toList) vs.length = true := by
  rcases h with h | h | h <;> rw [h] <;> decide

theorem works_interval {vs : List Data} {P : Out Data → Prop} {r : Out Data} (hc : Arity.checkArgumentCount (Arity.parseNumArgs "1|2|3".toList) vs.length = true)
    (hr : Prim.interval (2 ^ 46) vs = r) (h0 : r ≠ .timeout) (hP : P r) : Works C "interval" vs s P :=
  works_of rfl hc h0 hP fun args e ha => by
    subst hr
    simp only [oL, ha.toArray]

theorem calculations_work {x : String} {vs : List Data} {P : Out Data → Prop} (hm : Calculations C.host x vs P) : Works C x vs s P := by
  cases hm
  case floor v b hv hf => exact works_float rfl hv ⟨_, rfl, floor_is hf⟩
  case ceiling v b hv hf => exact works_float rfl hv ⟨_, rfl, ceiling_is hf⟩
  case roundInfinite b hi hx =>
    have h1 : F32.isNaN b = false := by unfold Infinite at hi; unfold F32.isNaN; simp; omega
    have h2 : F32.isInf b = true := by unfold Infinite at hi; unfold F32.isInf; simp; omega
    simp only [List.mem_cons, List.not_mem_nil, or_false] at hx
    rcases hx with rfl | rfl
    · exact works_float rfl rfl (by rw [F32.floor, h1, h2]; rfl)
    · exact works_float rfl rfl (by rw [F32.ceil, h1, h2]; rfl)
  case roundUndefined b hi hx =>
    have h1 : F32.isNaN b = true := by unfold Undefined at hi; unfold F32.isNaN; simp; omega
    have hq : Undefined F32.qNaN := by unfold Undefined; decide
    simp only [List.mem_cons, List.not_mem_nil, or_false] at hx
    rcases hx with rfl | rfl
    · exact works_float rfl rfl (by rw [F32.floor, h1]; exact ⟨_, rfl, hq⟩)
    · exact works_float rfl rfl (by rw [F32.ceil, h1]; exact ⟨_, rfl, hq⟩)
  case isInf b => exact works_class rfl ⟨_, rfl, by simp [F32.isInf, Infinite]⟩
  case isNaN b => exact works_class rfl ⟨_, rfl, by simp [F32.isNaN, Undefined]⟩
  case intFinite n hx =>
    simp only [List.mem_cons, List.not_mem_nil, or_false] at hx
    rcases hx with rfl | rfl <;> exact works_class_int rfl
  case pow b e he =>
    refine works_of rfl count2 (r := .ok _) nofun rfl fun args env ha => ?_
    simp only [powImpl, ha.toArray, (args2 ha).1, (args2 ha).2.1, C22_pow b e he]
    rfl
  case powNegative b e he =>
    refine works_of rfl count2 (r := .ok _) nofun rfl fun args env ha => ?_
    simp only [powImpl, ha.toArray, (args2 ha).1, (args2 ha).2.1, C22_pow_negative b e he]
    rfl
  case powFloat v w a b hv hw hf =>
    refine works_of rfl count2 (r := .ok _) nofun rfl fun args env ha => ?_
    obtain ⟨v1, v2, v3⟩ := asFloat_some hv
    obtain ⟨w1, w2, w3⟩ := asFloat_some hw
    have h : Prim.anyFloats [v, w] = .ok true := by
      rcases hf with ⟨f, rfl⟩ | ⟨f, rfl⟩
      · rfl
      · simp only [Prim.anyFloats, v1, w1, Bool.not_true, Bool.false_eq_true, if_false, isFlt, if_true]
        split <;> rfl
    simp only [powImpl, ha.toArray, (args2 ha).1, (args2 ha).2.1, h, v2, w2]
    rfl
  case powBad v w hb =>
    refine works_bad rfl count2 fun args env ha => Or.inl ?_
    have h : Prim.anyFloats [v, w] = .err (.msg "Number expected, received ") := by
      rcases hb with h | ⟨⟨n, rfl⟩, h⟩
      · simp only [Prim.anyFloats, asFloat_none h, Bool.not_false, if_true]
      · have h1 : isNum (.int n) = true := rfl
        have h2 : isFlt (.int n) = false := rfl
        simp only [Prim.anyFloats, asFloat_none h, h1, h2, Bool.not_false, Bool.not_true, if_true, Bool.false_eq_true, if_false]
    simp only [powImpl, ha.toArray, h]
    exact ⟨_, rfl⟩
  case math v b hv hx => exact works_float (goMath_in C.host hx) hv rfl
  case intervalTo n hn =>
    have t1 : (1 : BitVec 64).toInt = 1 := by decide
    by_cases h1 : 1 ≤ n.toInt
    · obtain ⟨k1, -, k3⟩ := C23_interval_default 1 n (2 ^ 46) (by omega) (by omega)
      have hp := progression_up (s := 1) (e := n.toInt) (t := 1) (by decide) h1
      rw [Int.ediv_one] at hp
      refine works_interval count123 ((k3 rfl h1 (by omega)).trans (k1 (by omega) (by omega))) nofun ⟨_, ?_, _, rfl, numbers_list _⟩
      rw [t1]; exact hp
    · exact works_interval count123 (interval_none (2 ^ 46 - 1) (by omega) hn) nofun ⟨[], ⟨0, rfl, fun k => by omega⟩, _, rfl, numbers_list []⟩
  case interval s' e' h1 h2 h3 =>
    obtain ⟨k1, -, -⟩ := C23_interval_default s' e' (2 ^ 46) (by omega) (by omega)
    have hp := progression_up (t := 1) (by decide) h1
    rw [Int.ediv_one] at hp
    exact works_interval count123 (k1 h1 (by omega)) nofun ⟨_, hp, _, rfl, numbers_list _⟩
  case intervalDown s' e' h1 h2 h3 =>
    obtain ⟨-, k2, -⟩ := C23_interval_default s' e' (2 ^ 46) (by omega) (by omega)
    have hp := progression_down (t := -1) (by decide) (Int.le_of_lt h1)
    rw [Int.neg_neg, Int.ediv_one] at hp
    exact works_interval count123 (k2 h1 (by omega)) nofun ⟨_, hp, _, rfl, numbers_list _⟩
  case intervalStep s' e' t h1 h2 h3 h4 =>
    have hle : (e'.toInt - s'.toInt) / t.toInt ≤ e'.toInt - s'.toInt := Int.ediv_le_self _ (by omega)
    exact works_interval count123 (C23_interval_up s' e' t (2 ^ 46) h2 h1 h4.2 (by omega) (by omega)) nofun
      ⟨_, progression_up h2 h1, _, rfl, numbers_list _⟩
  case intervalStepDown s' e' t h1 h2 h3 h4 =>
    have hle : (s'.toInt - e'.toInt) / -t.toInt ≤ s'.toInt - e'.toInt := Int.ediv_le_self _ (by omega)
    exact works_interval count123 (C23_interval_down s' e' t (2 ^ 46) h2 h1 h4.1 (by omega) (by omega)) nofun
      ⟨_, progression_down h2 (Int.le_of_lt h1), _, rfl, numbers_list _⟩
  case intervalAway s' e' t h =>
    obtain ⟨m, hm⟩ := C23_interval_bad_step s' e' t (2 ^ 46) h
    exact works_interval count123 hm nofun ⟨_, rfl⟩
  case intervalBad v w z hz =>
    refine works_interval (r := .err (.msg "interval step must be an integer, received ")) count123 ?_ nofun ⟨_, rfl⟩
    simp only [Prim.interval]
  case numberIn cs b z hb hz hr =>
    have hb' : b.toNat ≤ 16 := by simp at hb; omega
    have hbb : b = 2 ∨ b = 8 ∨ b = 10 ∨ b = 16 := by
      simp only [List.mem_cons, List.not_mem_nil, or_false] at hb
      exact hb.imp (fun h => BitVec.eq_of_toNat_eq h) (.imp (fun h => BitVec.eq_of_toNat_eq h) (.imp (fun h => BitVec.eq_of_toNat_eq h)
        fun h => BitVec.eq_of_toNat_eq h))
    refine works_of rfl (count12 (n := 1) (by decide)) (r := .ok _) nofun rfl fun args e ha => ?_
    obtain ⟨k1, k2, k3⟩ := args2 ha
    simp only [second?, k1, k2, k3, if_true, Prim.stringToNumber, intValue_int, if_pos hbb, stringValue, String.toList_ofList,
      scanInt_begins hb' hz, if_pos hr]
    rfl
  case noNumberIn cs b hb hz =>
    have hb' : b.toNat ≤ 16 := by simp at hb; omega
    have hbb : b = 2 ∨ b = 8 ∨ b = 10 ∨ b = 16 := by
      simp only [List.mem_cons, List.not_mem_nil, or_false] at hb
      exact hb.imp (fun h => BitVec.eq_of_toNat_eq h) (.imp (fun h => BitVec.eq_of_toNat_eq h) (.imp (fun h => BitVec.eq_of_toNat_eq h)
        fun h => BitVec.eq_of_toNat_eq h))
    refine works_bad rfl (count12 (n := 1) (by decide)) fun args e ha => Or.inl ?_
    obtain ⟨k1, k2, k3⟩ := args2 ha
    simp only [second?, k1, k2, k3, if_true, Prim.stringToNumber, intValue_int, if_pos hbb, stringValue, String.toList_ofList,
      scanInt_not hb' hz]
    exact ⟨_, rfl⟩
  case number cs z hz hr =>
    refine works_of rfl (count12 (n := 0) (by decide)) (r := .ok _) nofun rfl fun args e ha => ?_
    obtain ⟨k1, k3⟩ := args1 ha
    have h12 : ¬ (1 = 2) := by decide
    have h10 : (10 : BitVec 64).toNat = 10 := rfl
    have := scanInt_begins (by decide) hz
    rw [if_pos hr] at this
    simp only [second?, k1, k3, h12, if_false, Prim.stringToNumber, or_true, true_or, if_true, stringValue, String.toList_ofList, h10, this]
    rfl
  case noNumber cs hz =>
    refine works_bad rfl (count12 (n := 0) (by decide)) fun args e ha => Or.inl ?_
    obtain ⟨k1, k3⟩ := args1 ha
    have h12 : ¬ (1 = 2) := by decide
    have h10 : (10 : BitVec 64).toNat = 10 := rfl
    have := scanInt_not (by decide) hz
    simp only [second?, k1, k3, h12, if_false, Prim.stringToNumber, or_true, true_or, if_true, stringValue, String.toList_ofList, h10, this]
    exact ⟨_, rfl⟩
  case otherBase v b hb =>
    have hbb : ¬ (b = 2 ∨ b = 8 ∨ b = 10 ∨ b = 16) := by
      rintro (rfl | rfl | rfl | rfl) <;> exact hb (by decide)
    refine works_of rfl (count12 (n := 1) (by decide)) (r := .ok _) nofun rfl fun args e ha => ?_
    obtain ⟨k1, k2, k3⟩ := args2 ha
    simp only [second?, k1, k2, k3, if_true, Prim.stringToNumber, intValue_int, if_neg hbb]
  case eof v =>
    refine works_of rfl count1 (r := .ok (.bool (@isEqual .none v (sym "__EOF__")))) nofun ⟨_, rfl, @isEqual_sym .none _ _⟩ fun args e ha => ?_
    simp only [test1, (args1 ha).1]; rfl
  case notNumber v hv hx =>
    simp only [List.mem_append, List.mem_cons, List.not_mem_nil, or_false] at hx
    rcases hx with (rfl | rfl | rfl | rfl) | hx
    · exact works_float_bad rfl hv
    · exact works_float_bad rfl hv
    · exact works_class_bad rfl hv
    · exact works_class_bad rfl hv
    · exact works_float_bad (goMath_in C.host hx) hv

/-- C81: a call of a numeric primitive: the outcome is one the manual allows, and the state is as it was after the
evaluation of the arguments. -/
theorem C81_calculations {x : String} {vs : List Data} {P : Out Data → Prop} (hm : Calculations C.host x vs P) (h : Calling C x vs d e s s₁) :
    ∃ r, P r ∧ ∀ r' t, Evals C d e s r' t ↔ r' = quoting d r ∧ t = s₁ :=
  works_evals h (calculations_work hm)

theorem spelling_numeral {b : Nat} {t : List Char} {n : Nat} (h : Props.Spec.Spelling b t n) : Numeral b t n := by
  have hd : ∀ {c : Char} {v : Nat}, "0123456789abcdef".toList[v]? = some c → v < b → Digit b c v := fun hc hv =>
    ⟨hv, .inl (by rw [List.getD_eq_getElem?_getD, hc]; rfl)⟩
  induction h with
  | digit hc hv => exact .one (hd hc hv)
  | more _ _ hc hv ih => exact .snoc ih (hd hc hv)

/-- C81: an integer written by `number->string` in a base is read back by `string->number` in that base. -/
theorem C81_read_back {n b : BitVec 64} (hb : b.toNat ∈ [2, 8, 10, 16]) (h : Calling C "number->string" [.int n, .int b] d e s s₁) :
    ∃ t, Evals C d e s (.ok (.str t)) s₁ ∧ ∀ d' e' s' s₁', Calling C "string->number" [.str t, .int b] d' e' s' s₁' →
      Evals C d' e' s' (.ok (.int n)) s₁' := by
  obtain ⟨r, ⟨t, rfl, ht⟩, hr⟩ := C77_texts (.numeral n b hb) h
  refine ⟨String.ofList t, (hr _ _).2 ⟨rfl, rfl⟩, fun d' e' s' s₁' h' => ?_⟩
  have hB : Begins b.toNat t n.toInt := by
    rcases ht with ⟨h0, hs⟩ | ⟨h0, t', rfl, hs⟩
    · exact ⟨[], [], t, [], _, by simp, by simp, spelling_numeral hs, by simp, .inl ⟨.inl rfl, by omega⟩⟩
    · exact ⟨[], ['-'], t', [], _, by simp, by simp, spelling_numeral hs, by simp, .inr ⟨rfl, by omega⟩⟩
  obtain ⟨r, rfl, hr'⟩ := C81_calculations (.numberIn t b _ hb hB ⟨BitVec.le_toInt n, BitVec.toInt_lt⟩) h'
  refine (hr' _ _).2 ⟨?_, rfl⟩
  rw [wrapped, BitVec.ofInt_toInt]; rfl

section
/-- C81: `(floor (/ -5 2.0))` is -3. -/
example : Demo.Ends "(floor (/ -5 (float 2)))" (.ok (.flt 0xc0400000#32)) := Demo.ends 10 (by decide +kernel) (by simp)
/-- C81: `(ceiling 7)`. -/
example : ∃ f, IsCeiling (F32.ofInt 7) f ∧ Evals Demo.C (Demo.code "(ceiling 7)") 1 Demo.s (.ok (.flt f)) Demo.s := by
  have h : Calling Demo.C "ceiling" [.int 7] (Demo.code "(ceiling 7)") 1 Demo.s Demo.s :=
    Demo.calling 10 (b := true) (xs := [.int 7]) (us := [.int 7])
      (by decide +kernel) (by decide +kernel) (by decide +kernel) (by decide +kernel) rfl (by decide +kernel) (by decide +kernel) rfl
  obtain ⟨r, ⟨f, rfl, hf⟩, hr⟩ := C81_calculations (.ceiling rfl (by unfold Finite; decide)) h
  exact ⟨f, hf, (hr _ _).2 ⟨rfl, rfl⟩⟩
example : IsFloor 0xc0200000#32 0xc0400000#32 := ⟨by unfold Finite; decide, ⟨-3, by decide, by decide, by decide⟩, by decide⟩
example : IsCeiling 0xbf000000#32 0x80000000#32 := ⟨by unfold Finite; decide, ⟨0, by decide, by decide, by decide⟩, by decide⟩

/-- C81: `(string->number " -1F!" 16)`. -/
example : Evals Demo.C (Demo.code "(string->number \" -1F!\" 16)") 1 Demo.s (.ok (.int (-31))) Demo.s := by
  have h : Calling Demo.C "string->number" [.str (String.ofList " -1F!".toList), .int 16] (Demo.code "(string->number \" -1F!\" 16)") 1 Demo.s Demo.s :=
    Demo.calling 10 (b := true) (xs := [.str " -1F!", .int 16]) (us := [.str " -1F!", .int 16])
      (by decide +kernel) (by decide +kernel) (by decide +kernel) (by decide +kernel) rfl (by decide +kernel) (by decide +kernel) rfl
  have hB : Begins 16 " -1F!".toList (-31) := by
    refine ⟨[' '], ['-'], ['1', 'F'], ['!'], 31, rfl, ?_, .snoc (.one (v := 1) ⟨by decide, by decide⟩) (v := 15) ⟨by decide, by decide⟩, ?_, .inr ⟨rfl, rfl⟩⟩
    · simp [Space]
    · rintro c hc ⟨v, hv⟩
      simp at hc; subst hc
      have := (digitVal_digit (b := 16) (by decide)).2 hv
      cases this
  obtain ⟨r, rfl, hr⟩ := C81_calculations (.numberIn _ 16 _ (by decide) hB (by unfold Representable; decide)) h
  exact (hr _ _).2 ⟨rfl, rfl⟩

example : Demo.Ends "(interval 5 1 -2)" (.ok (ofArray [.int 5, .int 3, .int 1])) := Demo.ends 10 (by decide +kernel) (by simp)
example : Demo.Ends "(pow 3 5)" (.ok (.int 243)) := Demo.ends 10 (by decide +kernel) (by simp)
example : Demo.Ends "(nan? 3)" (.ok (.bool false)) := Demo.ends 10 (by decide +kernel) (by simp)
end

end Golisp.Props
