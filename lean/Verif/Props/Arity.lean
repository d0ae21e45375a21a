import Verif.Arity
import Verif.Props.Numbers2
/-
C30, first half: which argument counts a primitive's count specification allows.  (That a wrong count stops the call
before any argument is evaluated is `C30_wrong_count` in `Verif.Props.Counts`.)
-/
namespace Golisp.Spec

/-- Value of a decimal digit string. -/
def decVal (cs : List Char) : Nat := cs.foldl (fun acc c => acc * 10 + (c.toNat - 48)) 0

/-- `cs` is a (non-empty) decimal numeral for `n`, which fits in a machine integer. -/
def Decimal (cs : List Char) (n : Nat) : Prop :=
  cs ≠ [] ∧ (∀ c ∈ cs, '0' ≤ c ∧ c ≤ '9') ∧ decVal cs = n ∧ n < 2 ^ 63

/-- Documented grammar of one alternative, with the argument counts it allows. -/
inductive Alt : List Char → (Nat → Prop) → Prop where
  | any : Alt ['*'] (fun _ => True)
  | exactly (cs n) : Decimal cs n → Alt cs (fun c => c = n)
  | atLeast (cs n) : Decimal cs n → Alt ('>' :: '=' :: cs) (fun c => n ≤ c)
  | range (as bs lo hi) : Decimal as lo → Decimal bs hi → Alt ('(' :: (as ++ ',' :: (bs ++ [')']))) (fun c => lo ≤ c ∧ c ≤ hi)

/-- A specification: alternatives separated by `|`; it allows what one of them allows. -/
inductive CountSpec : List Char → (Nat → Prop) → Prop where
  | one (t p) : Alt t p → CountSpec t p
  | alt (t p ts q) : Alt t p → CountSpec ts q → CountSpec (t ++ '|' :: ts) (fun c => p c ∨ q c)

end Golisp.Spec

namespace Golisp.Props
open Golisp Golisp.Arity Golisp.Prim Spec

theorem isDigit_iff (c : Char) : isDigit c = true ↔ '0' ≤ c ∧ c ≤ '9' := by simp [isDigit]

theorem digit_ne (c d : Char) (hc : isDigit c = true) (hd : isDigit d = false) : c ≠ d := by
  rintro rfl; rw [hc] at hd; cases hd

theorem digitRaw_digit (c : Char) (hc : isDigit c = true) : digitRaw c = c.toNat - 48 ∧ c.toNat - 48 < 10 := by
  have h := (isDigit_iff c).1 hc
  refine ⟨by simp [digitRaw, h], ?_⟩
  have h2 : c.toNat ≤ '9'.toNat := by
    have := h.2; rw [Char.le_def, UInt32.le_iff_toNat_le] at this; exact this
  have : '9'.toNat = 57 := by decide
  omega

theorem scanDigits_decVal (cs : List Char) (h : cs.all isDigit = true) (acc : Nat) (any : Bool) :
    (scanDigits 10 cs acc any).1 = cs.foldl (fun acc c => acc * 10 + (c.toNat - 48)) acc := by
  induction cs generalizing acc any with
  | nil => rfl
  | cons c cs ih =>
    simp only [List.all_cons, Bool.and_eq_true] at h
    obtain ⟨h1, h2⟩ := digitRaw_digit c h.1
    have hv : digitVal 10 c = some (c.toNat - 48) := by unfold digitVal; rw [h1, if_pos h2]
    simp only [scanDigits, hv, List.foldl_cons]
    exact ih h.2 _ _

theorem _root_.Golisp.Spec.Decimal.all {cs n} (h : Decimal cs n) : cs.all isDigit = true := by
  rw [List.all_eq_true]; intro c hc; exact (isDigit_iff c).2 (h.2.1 c hc)

theorem takeWhile_digits (cs : List Char) (r : List Char) (h : cs.all isDigit = true)
    (hr : ∀ c r', r = c :: r' → isDigit c = false) :
    (cs ++ r).takeWhile isDigit = cs ∧ (cs ++ r).dropWhile isDigit = r := by
  induction cs with
  | nil =>
    cases r with
    | nil => simp
    | cons c r' => simp [hr c r' rfl]
  | cons c cs ih =>
    simp only [List.all_cons, Bool.and_eq_true] at h
    simp [h.1, ih h.2]

theorem scanNat_decimal {cs n} (h : Decimal cs n) (r : List Char) (hr : ∀ c r', r = c :: r' → isDigit c = false) :
    scanNat (cs ++ r) = some (n, r) := by
  obtain ⟨h1, h2⟩ := takeWhile_digits cs r h.all hr
  have h3 := scanDigits_decVal cs h.all 0 false
  have h4 : (scanDigits 10 cs 0 false).1 = n := by rw [h3]; exact h.2.2.1
  simp only [scanNat, h1, h2, h4, if_pos h.2.2.2]

theorem rangeCommas_digits (len : Nat) (cs r : List Char) (h : cs.all isDigit = true) (i : Nat) :
    rangeCommas len i (cs ++ r) = rangeCommas len (i + cs.length) r := by
  induction cs generalizing i with
  | nil => rfl
  | cons c cs ih =>
    simp only [List.all_cons, Bool.and_eq_true] at h
    have hc : c ≠ ',' := digit_ne c ',' h.1 (by decide)
    simp only [List.cons_append, rangeCommas, hc, and_false, if_false, h.1, if_true, ih h.2, List.length_cons]
    congr 1; omega

theorem isRange_range {as bs lo hi} (ha : Decimal as lo) (hb : Decimal bs hi) :
    isRange ('(' :: (as ++ ',' :: (bs ++ [')']))) = true := by
  have la : 0 < as.length := List.length_pos_iff.2 ha.1
  have lb : 0 < bs.length := List.length_pos_iff.2 hb.1
  have e : as ++ ',' :: (bs ++ [')']) = (as ++ ',' :: bs) ++ [')'] := by simp
  unfold isRange
  rw [if_neg (by simp; omega), e]
  simp only [List.getLast?_append, List.getLast?_singleton, Option.some_or, ne_eq, not_true_eq_false, if_false,
    List.dropLast_concat, decide_eq_true_eq]
  rw [rangeCommas_digits _ _ _ ha.all]
  have h1 : 0 < 0 + as.length ∧ 0 + as.length < (as ++ ',' :: bs).length - 1 ∧ ',' = ',' := by
    simp; omega
  rw [rangeCommas, if_pos h1, ← List.append_nil bs, rangeCommas_digits _ _ _ hb.all]
  rfl

/-- What a parsed alternative allows. -/
def allows : Restr → Nat → Prop
  | .any, _ => True
  | .eq n, c => c = n
  | .gte n, c => n ≤ c
  | .range lo hi, c => lo ≤ c ∧ c ≤ hi

theorem check_iff (rs : List Restr) (c : Nat) : checkArgumentCount rs c = true ↔ ∃ r ∈ rs, allows r c := by
  induction rs with
  | nil => simp [checkArgumentCount]
  | cons r rs ih =>
    have e : (∃ x ∈ r :: rs, allows x c) ↔ allows r c ∨ ∃ x ∈ rs, allows x c := by simp
    rw [e, ← ih]
    cases r <;> simp only [checkArgumentCount, allows, true_or, Bool.ite_eq_true_distrib] <;>
      (split <;> simp_all <;> omega)

theorem parseTerm_alt {t p} (h : Alt t p) : t = ['*'] ∧ (∀ c, p c) ∨
    t ≠ ['*'] ∧ ∃ r, parseTerm t = some r ∧ ∀ c, allows r c ↔ p c := by
  cases h with
  | any => left; exact ⟨rfl, fun _ => trivial⟩
  | exactly cs n hd =>
    right
    have hj : isJustNum t = true := by
      simp only [isJustNum, hd.all, Bool.and_true]
      cases t with
      | nil => exact absurd rfl hd.1
      | cons => rfl
    refine ⟨?_, .eq n, ?_, fun c => Iff.rfl⟩
    · rintro rfl; exact absurd hj (by decide)
    · have := scanNat_decimal hd [] (by simp)
      rw [List.append_nil] at this
      simp [parseTerm, hj, this]
  | atLeast cs n hd =>
    right
    have hg : isGTE ('>' :: '=' :: cs) = true := by
      simp only [isGTE, hd.all, Bool.and_true]
      cases cs with
      | nil => exact absurd rfl hd.1
      | cons => rfl
    refine ⟨by simp, .gte n, ?_, fun c => Iff.rfl⟩
    have hj : isJustNum ('>' :: '=' :: cs) = false := by
      have : isDigit '>' = false := by decide
      simp [isJustNum, this]
    have := scanNat_decimal hd [] (by simp)
    rw [List.append_nil] at this
    simp [parseTerm, hj, hg, this]
  | range as bs lo hi ha hb =>
    right
    have hr := isRange_range ha hb
    refine ⟨by simp, .range lo hi, ?_, fun c => Iff.rfl⟩
    have hj : isJustNum ('(' :: (as ++ ',' :: (bs ++ [')']))) = false := by
      have : isDigit '(' = false := by decide
      simp [isJustNum, this]
    have hg : isGTE ('(' :: (as ++ ',' :: (bs ++ [')']))) = false := rfl
    have h1 := scanNat_decimal ha (',' :: (bs ++ [')'])) (by rintro c r' ⟨⟩; decide)
    have h2 := scanNat_decimal hb [')'] (by rintro c r' ⟨⟩; decide)
    simp [parseTerm, hj, hg, hr, h1, h2]

theorem splitBar_no_bar (t : List Char) (h : '|' ∉ t) : splitBar t = [t] := by
  induction t with
  | nil => rfl
  | cons c cs ih =>
    simp only [List.mem_cons, not_or] at h
    simp [splitBar, Ne.symm h.1, ih h.2]

theorem splitBar_append (t ts : List Char) (h : '|' ∉ t) : splitBar (t ++ '|' :: ts) = t :: splitBar ts := by
  induction t with
  | nil => simp [splitBar]
  | cons c cs ih =>
    simp only [List.mem_cons, not_or] at h
    simp [splitBar, Ne.symm h.1, ih h.2]

theorem _root_.Golisp.Spec.Decimal.no_bar {cs n} (h : Decimal cs n) : '|' ∉ cs := by
  intro hm
  have := (isDigit_iff '|').2 (h.2.1 _ hm)
  exact absurd this (by decide)

theorem _root_.Golisp.Spec.Alt.no_bar {t p} (h : Alt t p) : '|' ∉ t := by
  cases h with
  | any => simp
  | exactly _ _ hd => exact hd.no_bar
  | atLeast _ _ hd => simpa using hd.no_bar
  | range _ _ _ _ ha hb => simp [ha.no_bar, hb.no_bar]

theorem parseTerms_spec {s p} (h : CountSpec s p) : ∀ acc c,
    checkArgumentCount (parseTerms (splitBar s) acc) c = true ↔ (∃ r ∈ acc, allows r c) ∨ p c := by
  induction h with
  | one t p ht =>
    intro acc c
    rw [splitBar_no_bar _ ht.no_bar]
    rcases parseTerm_alt ht with ⟨rfl, hp⟩ | ⟨hne, r, hr, hrp⟩
    · simp [parseTerms, checkArgumentCount, hp]
    · simp only [parseTerms, if_neg hne, hr, check_iff, List.mem_append, List.mem_singleton]
      rw [← hrp]
      constructor
      · rintro ⟨x, hx | rfl, ha⟩
        · exact .inl ⟨x, hx, ha⟩
        · exact .inr ha
      · rintro (⟨x, hx, ha⟩ | ha)
        · exact ⟨x, .inl hx, ha⟩
        · exact ⟨r, .inr rfl, ha⟩
  | alt t p ts q ht _ ih =>
    intro acc c
    rw [splitBar_append _ _ ht.no_bar]
    rcases parseTerm_alt ht with ⟨rfl, hp⟩ | ⟨hne, r, hr, hrp⟩
    · simp [parseTerms, checkArgumentCount, hp]
    · simp only [parseTerms, if_neg hne, hr, ih, List.mem_append, List.mem_singleton]
      rw [← hrp]
      constructor
      · rintro (⟨x, hx | rfl, ha⟩ | hq)
        · exact .inl ⟨x, hx, ha⟩
        · exact .inr (.inl ha)
        · exact .inr (.inr hq)
      · rintro (⟨x, hx, ha⟩ | ha | hq)
        · exact .inl ⟨x, .inl hx, ha⟩
        · exact .inl ⟨r, .inr rfl, ha⟩
        · exact .inr hq

/-- A count is accepted exactly when one alternative of the specification text allows it. -/
theorem C30_count (s : List Char) (p : Nat → Prop) (h : CountSpec s p) (c : Nat) :
    checkArgumentCount (parseNumArgs s) c = true ↔ p c := by
  rw [parseNumArgs, parseTerms_spec h]; simp

example : CountSpec "1|(3,5)|>=9".toList (fun c => c = 1 ∨ (3 ≤ c ∧ c ≤ 5) ∨ 9 ≤ c) :=
  .alt ['1'] _ _ _ (.exactly _ _ (by unfold Decimal; decide))
    (.alt ['(', '3', ',', '5', ')'] _ _ _ (.range ['3'] ['5'] _ _ (by unfold Decimal; decide) (by unfold Decimal; decide))
      (.one _ _ (.atLeast ['9'] _ (by unfold Decimal; decide))))
example : (List.range 11).map (checkArgumentCount (parseNumArgs "1|(3,5)|>=9".toList)) =
    [false, true, false, true, true, true, false, false, false, true, true] := by decide

/-- A number too large for a machine integer: the alternative is dropped, so nothing is allowed by it. -/
theorem C30_huge_number_dropped (cs : List Char) (h1 : cs ≠ []) (h2 : ∀ c ∈ cs, '0' ≤ c ∧ c ≤ '9')
    (h3 : 2 ^ 63 ≤ decVal cs) (c : Nat) : checkArgumentCount (parseNumArgs cs) c = false := by
  have hall : cs.all isDigit = true := by rw [List.all_eq_true]; intro c hc; exact (isDigit_iff c).2 (h2 c hc)
  have hbar : '|' ∉ cs := by
    intro hm; exact absurd ((isDigit_iff '|').2 (h2 _ hm)) (by decide)
  have hj : isJustNum cs = true := by
    simp only [isJustNum, hall, Bool.and_true]
    cases cs with
    | nil => exact absurd rfl h1
    | cons => rfl
  have hne : cs ≠ ['*'] := by rintro rfl; exact absurd hj (by decide)
  obtain ⟨t1, t2⟩ := takeWhile_digits cs [] hall (by simp)
  rw [List.append_nil] at t1
  have hs : scanNat cs = none := by
    simp only [scanNat, t1]
    rw [if_neg]
    rw [scanDigits_decVal cs hall]; exact Nat.not_lt.2 h3
  simp [parseNumArgs, splitBar_no_bar _ hbar, parseTerms, hne, parseTerm, hj, hs, checkArgumentCount]

end Golisp.Props
