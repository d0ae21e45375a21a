import Verif.Samples
import Verif.ListLemmas
/- Derived rules of the textbook language, for programs written with the abbreviations of `Samples`. -/
namespace Golisp.Samples
open Golisp Data Spec

variable {Γ : Defs} {ρ : Vars}

/-- Not a function: such values can be held by variables. -/
def Plainly (v : Data) : Prop := ∀ i, v ≠ .atom (.func i)

theorem value_ne {d v : Data} (h : Value Γ ρ d v) : d ≠ .null := by cases h <;> simp

theorem lst_l {xs : List Data} (h : Data.null ∉ xs) : Lst (l xs) xs := by
  induction xs with
  | nil => exact .null
  | cons x xs ih =>
    simp only [List.mem_cons, not_or] at h
    exact Lst.cons' (.inl (Ne.symm h.1)) (ih h.2)

theorem chain_l (xs : List Data) : Chain (l xs) xs := by
  induction xs with
  | nil => exact .nil
  | cons x xs ih => exact .cons ih

theorem values_null {xs vs : List Data} (h : Values Γ ρ xs vs) : Data.null ∉ xs := by
  induction xs generalizing vs with
  | nil => simp
  | cons x xs ih =>
    cases h with
    | cons h1 h2 => simp only [List.mem_cons, not_or]; exact ⟨Ne.symm (value_ne h1), ih h2⟩

theorem v_prim {x : String} {xs vs : List Data} {v : Data} (h1 : ρ x = none) (h2 : Γ x = none) (h3 : Values Γ ρ xs vs) (h4 : Primitive x vs v) :
    Value Γ ρ (l (y x :: xs)) v := .prim h1 h2 (lst_l (values_null h3)) h3 h4

theorem v_call {f : String} {D : Defn} {xs vs : List Data} {v : Data} (h1 : ρ f = none) (h2 : Γ f = some D) (h3 : Values Γ ρ xs vs)
    (h4 : vs.length = D.params.length) (h5 : Value Γ (varsOf D.params vs) D.body v) : Value Γ ρ (l (y f :: xs)) v :=
  .call h1 h2 (lst_l (values_null h3)) h3 h4 h5

theorem vs1 {a v : Data} (h : Value Γ ρ a v) : Values Γ ρ [a] [v] := .cons h .nil
theorem vs2 {a b v w : Data} (h : Value Γ ρ a v) (h' : Value Γ ρ b w) : Values Γ ρ [a, b] [v, w] := .cons h (vs1 h')
theorem vs3 {a b c v w u : Data} (h : Value Γ ρ a v) (h' : Value Γ ρ b w) (h'' : Value Γ ρ c u) : Values Γ ρ [a, b, c] [v, w, u] := .cons h (vs2 h' h'')

theorem v_int (i : BitVec 64) : Value Γ ρ (n i) (n i) := .const nofun

theorem v_quote {d : Data} (h : ρ "quote" = none) (hd : d ≠ .null) : Value Γ ρ (l [y "quote", d]) d := .quote h (lst_l (by simpa using Ne.symm hd)) hd

theorem v_ifTrue {c a b v w : Data} (h : ρ "if" = none) (hb : b ≠ .null) (h1 : Value Γ ρ c v) (h2 : Truthy v) (h3 : Value Γ ρ a w) :
    Value Γ ρ (l [y "if", c, a, b]) w := by
  have : Data.null ∉ [c, a, b] := by simp [Ne.symm hb, Ne.symm (value_ne h1), Ne.symm (value_ne h3)]
  exact .ifTrue h (lst_l this) this h1 h2 h3

theorem v_ifFalse {c a b v w : Data} (h : ρ "if" = none) (ha : a ≠ .null) (h1 : Value Γ ρ c v) (h2 : ¬ Truthy v) (h3 : Value Γ ρ b w) :
    Value Γ ρ (l [y "if", c, a, b]) w := by
  have : Data.null ∉ [c, a, b] := by simp [Ne.symm ha, Ne.symm (value_ne h1), Ne.symm (value_ne h3)]
  exact .ifFalse h (lst_l this) this h1 h2 h3

theorem clauses_l {cls : List (Data × Data)} (h : ∀ p ∈ cls, p.2 ≠ .null) : Clauses (cls.map fun p => l [p.1, p.2]) := by
  intro cl hcl
  obtain ⟨p, hp, rfl⟩ := List.mem_map.mp hcl
  exact ⟨p.1, l [p.2], [p.2], rfl, lst_l (by simpa using Ne.symm (h p hp))⟩

theorem lst_clauses {cls : List (Data × Data)} : Lst (l (cls.map fun p => l [p.1, p.2])) (cls.map fun p => l [p.1, p.2]) := by
  refine lst_l fun h => ?_
  obtain ⟨p, _, h⟩ := List.mem_map.mp h
  cases h

theorem v_else {x w : Data} (h : ρ "cond" = none) (h1 : Value Γ ρ x w) : Value Γ ρ (cond [(y "else", x)]) w :=
  .condElse h (bd := l [x]) (cls := []) (lst_clauses (cls := [(y "else", x)])) nofun (lst_l (by simpa using Ne.symm (value_ne h1))) h1

theorem v_condHit {c x v w : Data} {cls : List (Data × Data)} (h : ρ "cond" = none) (hc : c ≠ .sym "else") (hcls : ∀ p ∈ cls, p.2 ≠ .null) (h1 : Value Γ ρ c v)
    (h2 : Truthy v) (h3 : Value Γ ρ x w) : Value Γ ρ (cond ((c, x) :: cls)) w :=
  .condHit h (bd := l [x]) (lst_clauses (cls := (c, x) :: cls)) (clauses_l hcls) hc (lst_l (by simpa using Ne.symm (value_ne h3))) h1 h2 h3

theorem v_condMiss {c x v w : Data} {cls : List (Data × Data)} (h : ρ "cond" = none) (hc : c ≠ .sym "else") (hx : x ≠ .null) (hcls : ∀ p ∈ cls, p.2 ≠ .null)
    (h1 : Value Γ ρ c v) (h2 : ¬ Truthy v) (h3 : Value Γ ρ (cond cls) w) : Value Γ ρ (cond ((c, x) :: cls)) w :=
  .condMiss h (bd := l [x]) (lst_clauses (cls := (c, x) :: cls)) (clauses_l hcls) hc (lst_l (by simpa using Ne.symm hx)) h1 h2 lst_clauses h3

theorem v_andLast {x v : Data} (h : ρ "and" = none) (h1 : Value Γ ρ x v) : Value Γ ρ (l [y "and", x]) v :=
  .andLast h (lst_l (by simpa using Ne.symm (value_ne h1))) (value_ne h1) h1

theorem v_andFalse {x v : Data} {xs : List Data} (h : ρ "and" = none) (hn : Data.null ∉ xs) (h1 : Value Γ ρ x v) (h2 : ¬ Truthy v) : Value Γ ρ (l (y "and" :: x :: xs)) v := by
  have : Data.null ∉ x :: xs := by simp [Ne.symm (value_ne h1), hn]
  exact .andFalse h (lst_l this) this h1 h2

theorem v_andTrue {x x' v w : Data} {xs : List Data} (h : ρ "and" = none) (hn : Data.null ∉ x' :: xs) (h1 : Value Γ ρ x v) (h2 : Truthy v)
    (h3 : Value Γ ρ (l (y "and" :: x' :: xs)) w) : Value Γ ρ (l (y "and" :: x :: x' :: xs)) w := by
  have : Data.null ∉ x :: x' :: xs := by simp only [List.mem_cons, not_or] at hn ⊢; exact ⟨Ne.symm (value_ne h1), hn⟩
  exact .andTrue h (lst_l this) this h1 h2 (lst_l hn) h3

theorem v_orLast {x v : Data} (h : ρ "or" = none) (h1 : Value Γ ρ x v) : Value Γ ρ (l [y "or", x]) v :=
  .orLast h (lst_l (by simpa using Ne.symm (value_ne h1))) (value_ne h1) h1

theorem v_orTrue {x v : Data} {xs : List Data} (h : ρ "or" = none) (hn : Data.null ∉ xs) (h1 : Value Γ ρ x v) (h2 : Truthy v) : Value Γ ρ (l (y "or" :: x :: xs)) v := by
  have : Data.null ∉ x :: xs := by simp [Ne.symm (value_ne h1), hn]
  exact .orTrue h (lst_l this) this h1 h2

theorem v_orFalse {x x' v w : Data} {xs : List Data} (h : ρ "or" = none) (hn : Data.null ∉ x' :: xs) (h1 : Value Γ ρ x v) (h2 : ¬ Truthy v)
    (h3 : Value Γ ρ (l (y "or" :: x' :: xs)) w) : Value Γ ρ (l (y "or" :: x :: x' :: xs)) w := by
  have : Data.null ∉ x :: x' :: xs := by simp only [List.mem_cons, not_or] at hn ⊢; exact ⟨Ne.symm (value_ne h1), hn⟩
  exact .orFalse h (lst_l this) this h1 h2 (lst_l hn) h3

theorem truthy_bool (b : Bool) : Truthy (.bool b) ↔ b = true := by
  cases b <;> simp [Truthy]

end Golisp.Samples
