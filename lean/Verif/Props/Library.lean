import Verif.DemoCalls
import Verif.LibraryLemmas
/- C67: arithmetic, comparison and bit operations called from Lisp code do what the manual (`Verif.Manual`) says. -/
namespace Golisp.Props
open Golisp Data Ev Spec Prim

variable {C : Conf} {e : Nat} {s s₁ : Store} {d : Data}

set_option maxRecDepth 20000

theorem arithmetic_does {H : Host} {x : String} {vs : List Data} {P : Out Data → Prop} (hm : Arithmetic x vs P) : DoesIn H x vs P := by
  cases hm
  case equal a b ha hb hx =>
    have := fun q => @C12_equal_structural_partial q a b ha hb
    simp only [List.mem_cons, List.not_mem_nil, or_false] at hx
    rcases hx with rfl | rfl | rfl | rfl <;> exact doesIn_two rfl fun q => ⟨nofun, _, rfl, this q⟩
  case different a b ha hb hx =>
    have := fun q => @C12_equal_structural_partial q a b ha hb
    simp only [List.mem_cons, List.not_mem_nil, or_false] at hx
    rcases hx with rfl | rfl <;> exact doesIn_two rfl fun q => ⟨nofun, _, rfl, by rw [← this q]; simp⟩
  all_goals refine Does.toIn ?_
  case add ns => exact does_list rfl (C19_add ns) nofun rfl
  case subtract n ns => exact does_list rfl (C19_subtract n ns).1 nofun rfl
  case multiply ns => exact does_list rfl (C19_multiply ns) nofun rfl
  case divide a b hb hx =>
    obtain ⟨q, r, h1, _, _, _, _, _, h2, _⟩ := C20_division_partial a b hb
    subst h2
    simp only [List.mem_cons, List.not_mem_nil, or_false] at hx
    rcases hx with rfl | rfl <;> exact does_list rfl h1 nofun rfl
  case divideMany a bs hb hx =>
    have : quotient ((a :: bs).map Data.int) = .ok (.int (bs.foldl (fun q b => BitVec.ofInt 64 (q.toInt.tdiv b.toInt)) a)) := by
      rw [quotient_ints]; exact quotIntLoop_ints bs a hb
    simp only [List.mem_cons, List.not_mem_nil, or_false] at hx
    rcases hx with rfl | rfl <;> exact does_list rfl this nofun rfl
  case divideZero a bs hb hx =>
    obtain ⟨e, he⟩ := C20_quotient_zero a bs hb
    simp only [List.mem_cons, List.not_mem_nil, or_false] at hx
    rcases hx with rfl | rfl <;> exact does_list rfl he nofun ⟨_, rfl⟩
  case remainder a b hb hx =>
    have : remainder (.int a) (.int b) = .ok (wrapped (a.toInt.tmod b.toInt)) := by
      simp only [remainder, if_neg hb, wrapped, ← BitVec.toInt_srem, BitVec.ofInt_toInt]
    simp only [List.mem_cons, List.not_mem_nil, or_false] at hx
    rcases hx with rfl | rfl <;> exact does_two rfl this nofun rfl
  case remainderZero a hx =>
    simp only [List.mem_cons, List.not_mem_nil, or_false] at hx
    rcases hx with rfl | rfl <;> exact does_two rfl (C20_remainder_zero_violation a) nofun rfl
  case succ n => exact does_one rfl (C19_succ_pred n).1 nofun rfl
  case pred n => exact does_one rfl (C19_succ_pred n).2.1 nofun rfl
  case even n => exact does_one rfl (C25_parity n).1 nofun tells_decide
  case odd n => exact does_one rfl (C25_parity n).2 nofun ⟨_, rfl, by simp⟩
  case zero n => exact does_one rfl (C25_sign n).1 nofun tells_decide
  case positive n => exact does_one rfl (C25_sign n).2.1 nofun tells_decide
  case negative n => exact does_one rfl (C25_sign n).2.2.1 nofun tells_decide
  case sign n => exact does_one rfl (C25_sign n).2.2.2 nofun rfl
  case abs n hn => exact does_one rfl (C25_abs_partial n hn) nofun (by simp only [Gives, wrapped, BitVec.ofInt_natCast])
  case min l n ns hl =>
    obtain ⟨m, h1, h2⟩ := C25_min l n ns hl.1
    exact does_one rfl h1 nofun ⟨m, rfl, h2⟩
  case max l n ns hl =>
    obtain ⟨m, h1, h2⟩ := C25_max l n ns hl.1
    exact does_one rfl h1 nofun ⟨m, rfl, h2⟩
  case minMaxNone l hl hx =>
    obtain ⟨h1, h2⟩ := C25_min_max_empty l hl.1 hl.2
    simp only [List.mem_cons, List.not_mem_nil, or_false] at hx
    rcases hx with rfl | rfl
    · exact does_one rfl h1 nofun rfl
    · exact does_one rfl h2 nofun rfl
  case integer n => exact does_one rfl rfl nofun rfl
  case float n => exact does_one rfl rfl nofun rfl
  case floatFloat f => exact does_one rfl rfl nofun rfl
  case floatBits f => exact does_one rfl rfl nofun ⟨_, rfl, by
    simp only [BitVec.toNat_setWidth]; exact Nat.mod_eq_of_lt (Nat.lt_of_lt_of_le f.isLt (by decide))⟩
  case bitsFloat f n hn => exact does_one rfl rfl nofun (by
    simp only [Gives, bitsToFloat]
    congr 3
    apply BitVec.eq_of_toNat_eq
    rw [BitVec.toNat_setWidth, hn, Nat.mod_eq_of_lt f.isLt])
  case addFloats fs h1 h2 => exact does_list rfl (C64_add_multiply h1 h2).1 nofun rfl
  case multiplyFloats fs h1 h2 => exact does_list rfl (C64_add_multiply h1 h2).2 nofun rfl
  case subtractFloats h0 h1 h2 => exact does_list rfl (C64_subtract h0 h1 h2) nofun rfl
  case divideFloats h0 h1 h2 hg hx =>
    have := (C64_divide h0 h1 h2).1 hg
    simp only [List.mem_cons, List.not_mem_nil, or_false] at hx
    rcases hx with rfl | rfl <;> exact does_list rfl this nofun rfl
  case less a b ha hb => exact does_two rfl (C21_exact_partial a b ha hb).1 nofun tells_decide
  case greater a b ha hb => exact does_two rfl (C21_exact_partial a b ha hb).2.1 nofun tells_decide
  case lessEq a b ha hb => exact does_two rfl (C21_exact_partial a b ha hb).2.2.1 nofun tells_decide
  case greaterEq a b ha hb => exact does_two rfl (C21_exact_partial a b ha hb).2.2.2 nofun tells_decide
  case not a hx =>
    have : (!boolValue a) = true ↔ ¬ Truthy a := by rw [← boolValue_iff]; simp
    simp only [List.mem_cons, List.not_mem_nil, or_false] at hx
    rcases hx with rfl | rfl <;> exact does_one rfl rfl nofun ⟨_, rfl, this⟩
  case binaryAnd a b => obtain ⟨⟨r, h1, h2⟩, _⟩ := C26_and_or a b; exact does_two rfl h1 nofun ⟨r, rfl, h2⟩
  case binaryOr a b => obtain ⟨_, r, h1, h2⟩ := C26_and_or a b; exact does_two rfl h1 nofun ⟨r, rfl, h2⟩
  case binaryNot a => obtain ⟨r, h1, h2⟩ := C26_not_partial a; exact does_one rfl h1 nofun ⟨r, rfl, h2⟩
  case leftShift a b => exact does_two rfl (C26_shift a b).1 nofun ⟨_, rfl, BitVec.toNat_ofNat _ _⟩
  case rightShift a b => exact does_two rfl (C26_shift a b).2.1 nofun ⟨_, rfl, by
    dsimp only; rw [BitVec.toNat_ofNat]; exact Nat.mod_eq_of_lt (Nat.lt_of_le_of_lt (Nat.div_le_self _ _) a.isLt)⟩

/-- A call of an arithmetic primitive: the outcome is one the manual allows, and the state is as it was after the evaluation
of the arguments. -/
theorem C67_arithmetic {x : String} {vs : List Data} {P : Out Data → Prop} (hm : Arithmetic x vs P) (h : Calling C x vs d e s s₁) :
    ∃ r, P r ∧ ∀ r' t, Evals C d e s r' t ↔ r' = quoting d r ∧ t = s₁ :=
  doesIn_evals (arithmetic_does hm) h

example : Calling Demo.C "/" [.int 100, .int 7, .int 2] (Demo.code "(/ 100 (+ 3 4) 2)") 1 Demo.s Demo.s :=
  Demo.calling 10 (b := true) (xs := [.int 100, Demo.code "(+ 3 4)", .int 2]) (us := [.int 100, .int 7, .int 2]) (by decide +kernel) (by decide +kernel)
    (by decide +kernel) (by decide +kernel) rfl (by decide +kernel) (by decide +kernel) rfl
example : Arithmetic "/" [.int 100, .int 7, .int 2] (Gives (.int 7)) := .divideMany (x := "/") 100 [7, 2] (by simp) (by decide)
example : Demo.Ends "(/ 100 (+ 3 4) 2)" (.ok (.int 7)) := Demo.ends 10 (by decide +kernel) (by simp)
example : Arithmetic "+" [.int 1, .flt 0x40000000] (Gives (.flt 0x40400000)) :=
  .addFloats (fs := [0x3F800000, 0x40000000]) (by decide) ⟨0x40000000, by simp⟩

end Golisp.Props
