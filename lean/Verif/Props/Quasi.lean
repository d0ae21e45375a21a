import Verif.QuasiLemmas
import Verif.Demo
/- C43 (quasiquote) and C44 (macros). -/
namespace Golisp.Props
open Golisp Data Ev Spec

variable {C : Conf} {e : Nat} {s : Store} {r : Out Data} {s' : Store}

private theorem lst_args {xs : List Data} (hn : Data.null ∉ xs) : Lst (ofArray xs) xs := by
  have := Lst.ofArray xs; rwa [map_elem_id hn] at this

/-! ### C43: quasiquote -/

private theorem evals_quasi (hw : WF s) (hm : Means C s e "quasiquote") {t x : Data} (ht : Lst t [x]) (hn : x ≠ .null) :
    Evals C (.cons (.sym "quasiquote") t) e s r s' ↔
      ∃ r₀, RunsP (body C) (quasiquoteImpl (.cons x .null) e) s r₀ s' ∧ r = quoting (.cons (.sym "quasiquote") t) r₀ := by
  rw [evals_form (P := ⟨"1".toList, true, false, quasiquoteImpl⟩) hw hm rfl (fun _ => rfl) rfl rfl rfl ht (by rfl)]
  have : ofArray [x] = cons x null := by cases x <;> first | exact absurd rfl hn | rfl
  rw [this]

/-- Full statement: the value of a quasiquoted template is given by `Quasi`, for all templates and spliced lists.  Missing:
the templates and lists that `Quasi` leaves out (`C43_dotted_violation`, `C43_splice_open_violation`). -/
theorem C43_value_partial (hw : WF s) (hm : Means C s e "quasiquote") {t x y : Data} (ht : Lst t [x]) (hn : x ≠ .null) {s₁ : Store}
    (h : Quasi C e 1 [x] s (.ok [y]) s₁) (r : Out Data) (s' : Store) :
    Evals C (.cons (.sym "quasiquote") t) e s r s' ↔ r = .ok y ∧ s' = s₁ := by
  obtain ⟨p, hp, hc⟩ := (quasi_sound h (size x + 1) (by simp)).2 x rfl
  obtain ⟨d, rfl⟩ : ∃ d, p = cons y d := by cases hc; exact ⟨_, rfl⟩
  have hr : RunsP (body C) (quasiquoteImpl (.cons x .null) e) s (.ok y) s₁ := by
    show RunsP (body C) (qq (size x + 1) x 1 e >>= fun r => pure (car r)) s (.ok y) s₁
    rw [runsP_bind_ok hp]; exact runsP_pure.mpr ⟨rfl, rfl⟩
  rw [evals_quasi hw hm ht hn]
  constructor
  · rintro ⟨r₀, h1, rfl⟩
    obtain ⟨rfl, rfl⟩ := runsP_det hr h1
    exact ⟨rfl, rfl⟩
  · rintro ⟨rfl, rfl⟩; exact ⟨_, hr, rfl⟩

/-- An error while processing the template is the outcome. -/
theorem C43_error_partial (hw : WF s) (hm : Means C s e "quasiquote") {t x : Data} (ht : Lst t [x]) (hn : x ≠ .null) {er : Err} {s₁ : Store}
    (h : Quasi C e 1 [x] s (.err er) s₁) (r : Out Data) (s' : Store) :
    Evals C (.cons (.sym "quasiquote") t) e s r s' ↔ r = .err (.evaling (.cons (.sym "quasiquote") t) er) ∧ s' = s₁ := by
  have hp := (quasi_sound h (size x + 1) (by simp)).2 x rfl
  have hr : RunsP (body C) (quasiquoteImpl (.cons x .null) e) s (.err er) s₁ := by
    show RunsP (body C) (qq (size x + 1) x 1 e >>= fun r => pure (car r)) s (.err er) s₁
    rw [runsP_bind_err hp]; exact ⟨rfl, rfl⟩
  rw [evals_quasi hw hm ht hn]
  constructor
  · rintro ⟨r₀, h1, rfl⟩
    obtain ⟨rfl, rfl⟩ := runsP_det hr h1
    exact ⟨rfl, rfl⟩
  · rintro ⟨rfl, rfl⟩; exact ⟨_, hr, rfl⟩

/-- Full statement: every template without unquotes evaluates to itself.  Proved for templates made of proper lists.
Missing: dotted pairs, for which it is false (`C43_dotted_violation`). -/
theorem C43_plain_partial (hw : WF s) (hm : Means C s e "quasiquote") {t x : Data} (ht : Lst t [x]) (hx : Unmarked false x)
    (r : Out Data) (s' : Store) : Evals C (.cons (.sym "quasiquote") t) e s r s' ↔ r = .ok x ∧ s' = s := by
  have hn : x ≠ .null := by rintro rfl; cases hx
  have hb : quasiquoteImpl (.cons x .null) e = (pure x : Prog Data) := by
    show (qq (size x + 1) x 1 e >>= fun r => pure (car r)) = _
    rw [(qq_plain _).1 x 1 e (by omega) hx]; rfl
  rw [evals_quasi hw hm ht hn, hb]
  constructor
  · rintro ⟨r₀, h1, rfl⟩; obtain ⟨rfl, rfl⟩ := runsP_pure.mp h1; exact ⟨rfl, rfl⟩
  · rintro ⟨rfl, rfl⟩; exact ⟨_, runsP_pure.mpr ⟨rfl, rfl⟩, rfl⟩

section
open Demo

/-- A dotted tail is replaced by an empty list: `` `(1 . 2) `` is not `(1 . 2)`. -/
theorem C43_dotted_violation : Ends "(quasiquote (1 . 2))" (.ok (ofArray [int 1, emptyCons])) := ends 20 (by decide +kernel) (by simp)

/-- Splicing a list that ends in the empty list adds an empty list. -/
theorem C43_splice_open_violation :
    Ends "(quasiquote (1 (unquote-splicing (cons 5 '())) 2))" (.ok (ofArray [int 1, int 5, emptyCons, int 2])) :=
  ends 20 (by decide +kernel) (by simp)

example : Means Demo.C Demo.s 1 "quasiquote" := means "quasiquote" (b := true) (by decide +kernel)
/-- `` `(1 ,(+ 1 2) ,@'(5 6) ()) ``. -/
example : Quasi Demo.C 1 1 [code "(1 (unquote (+ 1 2)) (unquote-splicing '(5 6)) ())"] Demo.s
    (.ok [ofArray [int 1, int 3, int 5, int 6, emptyCons]]) Demo.s := by
  have hc : code "(1 (unquote (+ 1 2)) (unquote-splicing '(5 6)) ())" =
    cons (int 1) (cons (cons (sym "unquote") (cons (code "(+ 1 2)") null)) (cons (cons (sym "unquote-splicing") (cons (code "'(5 6)") null))
      (cons emptyCons null))) := by decide +kernel
  rw [hc]
  have p1 : Unmarked false (code "(+ 1 2)") := by
    rw [show code "(+ 1 2)" = cons (sym "+") (cons (int 1) (cons (int 2) null)) from by decide +kernel]
    exact .list (.cons (.atom _) (.cons (.atom _) (.cons (.atom _) .nil))) (by simp [Mark])
  have p2 : Unmarked false (code "'(5 6)") := by
    rw [show code "'(5 6)" = cons (sym "quote") (cons (cons (int 5) (cons (int 6) null)) null) from by decide +kernel]
    exact .list (.cons (.atom _) (.cons (.list (.cons (.atom _) (.cons (.atom _) .nil)) (by simp [Mark])) .nil)) (by simp [Mark])
  have e1 : Evals Demo.C (code "(+ 1 2)") 1 Demo.s (.ok (int 3)) Demo.s := ⟨20, by decide +kernel, by simp⟩
  have e2 : Evals Demo.C (code "'(5 6)") 1 Demo.s (.ok (cons (int 5) (cons (int 6) null))) Demo.s := ⟨20, by decide +kernel, by simp⟩
  exact .list (.cons _ _ _ _ (by simp) (by simp) (.cons _ _ _ _ (by simp) (by simp) (.cons _ _ _ _ (by simp) (by simp)
      (.cons _ _ _ _ (by simp) (by simp) .null)))) rfl (by simp [Mark])
    (.next (ys := [int 1]) .atom (.next (ys := [int 3]) (.value p1 e1)
      (.next (ys := [int 5, int 6]) (.splice p2 e2 (Or.inl ⟨.cons (.cons .nil), by simp⟩))
        (.list (ys := []) (.empty _) rfl (by simp) .done))))
example : Unmarked false (code "(1 (a ()) \"x\")") := by
  rw [show code "(1 (a ()) \"x\")" = cons (int 1) (cons (cons (sym "a") (cons emptyCons null)) (cons (.atom (.str "x")) null)) from by decide +kernel]
  exact .list (.cons (.atom _) (.cons (.list (.cons (.atom _) (.cons .empty .nil)) (by simp [Mark])) (.cons (.atom _) .nil))) (by simp [Mark])
/-- Nested: only the innermost unquote at level one is evaluated. -/
example : Ends "(quasiquote (1 (quasiquote (2 (unquote (+ 1 (unquote (+ 2 3))))))))"
    (.ok (code "(1 (quasiquote (2 (unquote (+ 1 5)))))")) := ends 20 (by decide +kernel) (by simp)

end

/-! ### C44: macros -/

/-- A combination whose operator is a macro: expand it, then evaluate the expansion, once, in the caller's environment.
No argument is evaluated except as part of the expansion. -/
theorem C44_call {h t : Data} (hs : shortcuts (.cons h t) = .cons h t) (hh : h ≠ .null) {m : Nat} {s₁ : Store}
    (hop : EvalsOp C h e s (.ok (.atom (.macro m))) s₁) {mr : MacRec} (hi : s₁.macs[m]? = some mr) (hg : GoodMac s₁ mr)
    {xs : List Data} (ht : Lst t xs) :
    Evals C (.cons h t) e s r s' ↔ ∃ r₀, r = quoting (.cons h t) r₀ ∧
      Then (Expands C m xs s₁) (fun d s₂ => Evals C d e s₂) r₀ s' := by
  rw [evals_comb hs hh hop rfl]
  refine exists_congr fun r₀ => ?_
  rw [and_comm]
  refine and_congr Iff.rfl ?_
  simp only [apply, callMacro, runsP_then, Then, runsP_expandMacro hi hg ht, runsP_eval]
  rfl

/-- `(expand m arg…)` is the expansion, unevaluated. -/
theorem C44_expand (hw : WF s) (hm : Means C s e "expand") {t ex : Data} {xs : List Data} (ht : Lst t (ex :: xs))
    (hn : Data.null ∉ ex :: xs) {m : Nat} {s₁ : Store} (hv : Evals C ex e s (.ok (.atom (.macro m))) s₁) {mr : MacRec}
    (hi : s₁.macs[m]? = some mr) (hg : GoodMac s₁ mr) :
    Evals C (.cons (.sym "expand") t) e s r s' ↔ ∃ r₀, r = quoting (.cons (.sym "expand") t) r₀ ∧ Expands C m xs s₁ r₀ s' := by
  rw [evals_form (P := ⟨">=1".toList, true, false, expandImpl C.host⟩) hw hm rfl (fun _ => rfl) rfl rfl rfl ht (count_ge1 (by simp))]
  refine exists_congr fun r₀ => ?_
  rw [and_comm]
  refine and_congr Iff.rfl ?_
  have hl := lst_args hn
  have c1 : car (ofArray (ex :: xs)) = ex := by rw [car_Lst hl]; rfl
  show RunsP (body C) (expandImpl C.host (ofArray (ex :: xs)) e) s r₀ s' ↔ _
  simp only [expandImpl, c1]
  rw [runsP_bind_ok (runsP_eval.mpr hv)]
  exact runsP_expandMacro hi hg (cdr_Lst hl)

/-- `(defmacro (name . params) body)` makes a macro of the current environment and binds its name here. -/
theorem C44_defmacro (hw : WF s) (hm : Means C s e "defmacro") {t params b : Data} {name : String}
    (ht : Lst t [.cons (.sym name) params, b]) (hn : b ≠ .null) :
    Evals C (.cons (.sym "defmacro") t) e s r s' ↔ ∃ r₀, r = quoting (.cons (.sym "defmacro") t) r₀ ∧
      BindsName { s with macs := s.macs ++ [⟨name, params, b, e⟩] } e name (.atom (.macro s.macs.length)) r₀ s' := by
  have hn' : Data.null ∉ [Data.cons (.sym name) params, b] := by simp; exact fun h => hn h.symm
  rw [evals_form (P := ⟨">=1".toList, true, false, defmacroImpl⟩) hw hm rfl (fun _ => rfl) rfl rfl rfl ht (by rfl)]
  refine exists_congr fun r₀ => ?_
  rw [and_comm]
  refine and_congr Iff.rfl ?_
  have hl := lst_args hn'
  have c1 : car (ofArray [.cons (.sym name) params, b]) = .cons (.sym name) params := by rw [car_Lst hl]; rfl
  have c2 : car (cdr (ofArray [.cons (.sym name) params, b])) = b := by rw [car_Lst (cdr_Lst hl)]; rfl
  show RunsP (body C) (defmacroImpl (ofArray [.cons (.sym name) params, b]) e) s r₀ s' ↔ _
  have hb : defmacroImpl (ofArray [.cons (.sym name) params, b]) e = (do
      let i ← Prog.op (.newMac name params b e)
      let _ ← Prog.op (.bind e name (.atom (.macro i)))
      pure (.atom (.macro i))) := by
    simp only [defmacroImpl, c1, c2]; rfl
  rw [hb]
  rw [runsP_op_bind (n := s.macs.length) (s₁ := { s with macs := s.macs ++ [⟨name, params, b, e⟩] }) rfl]
  exact runsP_bindName

/-- A macro's definition never changes. -/
theorem C44_fixed {d : Data} (h : Evals C d e s r s') {m : Nat} {mr : MacRec} (hi : s.macs[m]? = some mr) : s'.macs[m]? = some mr :=
  (runs_keeps keeps_grows h).macs m mr hi

section
open Demo
example : Means Demo.C Demo.s 1 "defmacro" := means "defmacro" (b := true) (by decide +kernel)
example : Means Demo.C Demo.s 1 "expand" := means "expand" (b := true) (by decide +kernel)
/-- The state after a `defmacro` has a macro that meets the hypotheses. -/
example : ∃ mr, (run 20 "(defmacro (twice x) `(begin ,x ,x))").2.macs[0]? = some mr ∧
    GoodMac (run 20 "(defmacro (twice x) `(begin ,x ,x))").2 mr := by
  refine ⟨⟨"twice", cons (sym "x") null, code "`(begin ,x ,x)", 1⟩, by decide +kernel, ⟨⟨"top", some 0, [("twice", ⟨.atom (.macro 0), false⟩)], none, false⟩, by decide +kernel⟩,
    ["x"], none, .cons (.none .null), by simp⟩
example : Writes "(begin (defmacro (twice x) `(begin ,x ,x)) (twice (write-line 1)))" (.ok null) ["1", "1"] :=
  writes 40 (by decide +kernel) (by decide +kernel) (by simp)
example : Ends "(begin (defmacro (twice x) `(begin ,x ,x)) (expand twice (write-line 1)))" (.ok (code "(begin (write-line 1) (write-line 1))")) :=
  ends 40 (by decide +kernel) (by simp)
/-- The body runs where the macro was defined, the expansion where it was called. -/
example : Ends "(begin (define y 1) (defmacro (m) `(list ,y y)) (let ((y 2)) (m)))" (.ok (ofArray [int 1, int 2])) :=
  ends 40 (by decide +kernel) (by simp)
end

end Golisp.Props
