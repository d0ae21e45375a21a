import Verif.FunSpec
import Verif.PureRules
/- Derived rules of the textbook language with functions, for programs written with the abbreviations of `Samples`. -/
namespace Golisp.Fun
open Golisp Data Spec Samples

variable {Γ : Defs} {ρ : Env}

theorem value_ne {d : Data} {v : Val} (h : Value Γ ρ d v) : d ≠ .null := by cases h <;> simp

theorem values_null {xs : List Data} {vs : List Val} (h : Values Γ ρ xs vs) : Data.null ∉ xs := by
  induction xs generalizing vs with
  | nil => simp
  | cons x xs ih =>
    cases h with
    | cons h1 h2 => simp only [List.mem_cons, not_or]; exact ⟨Ne.symm (value_ne h1), ih h2⟩

theorem f_vs1 {a : Data} {v : Val} (h : Value Γ ρ a v) : Values Γ ρ [a] [v] := .cons h .nil
theorem f_vs2 {a b : Data} {v w : Val} (h : Value Γ ρ a v) (h' : Value Γ ρ b w) : Values Γ ρ [a, b] [v, w] := .cons h (f_vs1 h')
theorem f_vs3 {a b c : Data} {v w u : Val} (h : Value Γ ρ a v) (h' : Value Γ ρ b w) (h'' : Value Γ ρ c u) : Values Γ ρ [a, b, c] [v, w, u] :=
  .cons h (f_vs2 h' h'')
theorem f_vs4 {a b c d : Data} {v w u t : Val} (h : Value Γ ρ a v) (h' : Value Γ ρ b w) (h'' : Value Γ ρ c u) (h''' : Value Γ ρ d t) :
    Values Γ ρ [a, b, c, d] [v, w, u, t] := .cons h (f_vs3 h' h'' h''')

theorem f_int (i : BitVec 64) : Value Γ ρ (n i) (.int i) := .const trivial nofun

/-- `(f x …)` -/
theorem f_app {f : Data} {xs : List Data} {u v : Val} {vs : List Val} (hh : Head f) (hq : ρ.lookup "quote" = none) (h1 : Value Γ ρ f u) (h2 : Values Γ ρ xs vs)
    (h3 : Result Γ u vs v) : Value Γ ρ (l (f :: xs)) v := .call hh hq h1 (lst_l (values_null h2)) h2 h3

/-- A call of a built-in procedure by its name. -/
theorem f_prim {x : String} {xs : List Data} {v : Val} {vs : List Val} (ho : Operator x) (hx : ρ.lookup x = none) (hg : Γ x = none)
    (hm : x ∈ purePrims ++ funPrims) (hq : ρ.lookup "quote" = none) (h2 : Values Γ ρ xs vs) (h3 : Result Γ (.builtin x) vs v) : Value Γ ρ (l (y x :: xs)) v :=
  f_app (.inl ⟨x, rfl, ho⟩) hq (.builtin hx hg hm) h2 h3

/-- A call of a named function. -/
theorem f_call {f : String} {D : Defn} {xs : List Data} {v : Val} {vs : List Val} (ho : Operator f) (hx : ρ.lookup f = none) (hg : Γ f = some D)
    (hq : ρ.lookup "quote" = none) (h2 : Values Γ ρ xs vs) (hl : vs.length = D.params.length) (h3 : Value Γ (D.params.zip vs) D.body v) :
    Value Γ ρ (l (y f :: xs)) v :=
  f_app (.inl ⟨f, rfl, ho⟩) hq (.function hx hg) h2 (.closure hl (by simpa using h3))

theorem f_quote {d : Data} {v : Val} (h : ρ.lookup "quote" = none) (hd : d ≠ .null) (hl : Literal d v) : Value Γ ρ (l [y "quote", d]) v :=
  .quote h (lst_l (by simpa using Ne.symm hd)) hd hl

theorem params_l (ps : List String) : Params (l (ps.map y)) ps none := by
  induction ps with
  | nil => exact .none .null
  | cons x xs ih => exact .cons ih

theorem f_lambda {p : String} {ps : List String} {b : Data} (h : ρ.lookup "lambda" = none) (hb : b ≠ .null) (hn : (p :: ps).Nodup) :
    Value Γ ρ (l [y "lambda", l ((p :: ps).map y), b]) (.closure (p :: ps) b ρ) :=
  .lambda h (lst_l (by simp [Ne.symm hb])) nofun rfl hb (params_l (p :: ps)) hn

theorem f_ifTrue {c a b : Data} {v w : Val} (h : ρ.lookup "if" = none) (hb : b ≠ .null) (h1 : Value Γ ρ c v) (h2 : Holds v) (h3 : Value Γ ρ a w) :
    Value Γ ρ (l [y "if", c, a, b]) w := by
  have : Data.null ∉ [c, a, b] := by simp [Ne.symm hb, Ne.symm (value_ne h1), Ne.symm (value_ne h3)]
  exact .ifTrue h (lst_l this) this h1 h2 h3

theorem f_ifFalse {c a b : Data} {v w : Val} (h : ρ.lookup "if" = none) (ha : a ≠ .null) (h1 : Value Γ ρ c v) (h2 : ¬ Holds v) (h3 : Value Γ ρ b w) :
    Value Γ ρ (l [y "if", c, a, b]) w := by
  have : Data.null ∉ [c, a, b] := by simp [Ne.symm ha, Ne.symm (value_ne h1), Ne.symm (value_ne h3)]
  exact .ifFalse h (lst_l this) this h1 h2 h3

theorem f_else {x : Data} {w : Val} (h : ρ.lookup "cond" = none) (h1 : Value Γ ρ x w) : Value Γ ρ (cond [(y "else", x)]) w :=
  .condElse h (bd := l [x]) (cls := []) (lst_clauses (cls := [(y "else", x)])) nofun (lst_l (by simpa using Ne.symm (value_ne h1))) h1

theorem f_condHit {c x : Data} {v w : Val} {cls : List (Data × Data)} (h : ρ.lookup "cond" = none) (hc : c ≠ .sym "else") (hcls : ∀ p ∈ cls, p.2 ≠ .null)
    (h1 : Value Γ ρ c v) (h2 : Holds v) (h3 : Value Γ ρ x w) : Value Γ ρ (cond ((c, x) :: cls)) w :=
  .condHit h (bd := l [x]) (lst_clauses (cls := (c, x) :: cls)) (clauses_l hcls) hc (lst_l (by simpa using Ne.symm (value_ne h3))) h1 h2 h3

theorem f_condMiss {c x : Data} {v w : Val} {cls : List (Data × Data)} (h : ρ.lookup "cond" = none) (hc : c ≠ .sym "else") (hx : x ≠ .null)
    (hcls : ∀ p ∈ cls, p.2 ≠ .null) (h1 : Value Γ ρ c v) (h2 : ¬ Holds v) (h3 : Value Γ ρ (cond cls) w) : Value Γ ρ (cond ((c, x) :: cls)) w :=
  .condMiss h (bd := l [x]) (lst_clauses (cls := (c, x) :: cls)) (clauses_l hcls) hc (lst_l (by simpa using Ne.symm hx)) h1 h2 lst_clauses h3

theorem value_not_lst {d : Data} {v : Val} (h : Value Γ ρ d v) : ¬ Lst d [] := by
  cases h <;> (intro h; cases h)
  rename_i h _; exact value_ne h rfl

/-- The variables of a loop, each with a first value and a step. -/
theorem doVars_l {ts : List (String × Data × Data)} (h : ∀ t ∈ ts, t.2.1 ≠ .null ∧ ¬ Lst t.2.2 []) :
    DoVars (l (ts.map fun t => l [y t.1, t.2.1, t.2.2])) (ts.map (·.1)) (ts.map (·.2.1)) (ts.map (·.2.2)) := by
  induction ts with
  | nil => exact .nil .null
  | cons t ts ih =>
    have h1 := h t List.mem_cons_self
    have h2 : t.2.2 ≠ .null := fun e => h1.2 (e ▸ .null)
    exact .step (lst_l (xs := [y t.1, t.2.1, t.2.2]) (by simp [Ne.symm h1.1, Ne.symm h2])) h1.2 (ih fun t' ht => h t' (List.mem_cons_of_mem _ ht))

theorem holds_bool (b : Bool) : Holds (.bool b) ↔ b = true := by
  cases b <;> simp [Holds, Val.bool]

end Golisp.Fun
