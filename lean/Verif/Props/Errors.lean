import Verif.Props.Control
import Verif.DemoErrors
/- C41: how errors and panics leave the expressions they arise in. -/
namespace Golisp.Props
open Golisp Data Ev Spec

variable {H : Ev.Host}

/-- Full statement: an error in any evaluation that is part of evaluating `c`, not inside the first argument of an
`on-error`, is the outcome of `c`, with nothing but the expressions and functions on the way added to it, and nothing is
done after it arises.  Missing: the step expressions of `do` (`C41_step_violation`) and the predicate calls of `find`,
`find-tail` and `memp` (`C41_search_violation`); these two are excluded from the way down to the failing evaluation. -/
theorem C41_escapes_partial {c c' : Call} {s s' s'' : Store} {er : Err}
    (hw : Within (body (std H)) (fun c s c₁ => Guarded (std H) c s c₁ ∨ Replaced (std H) c s c₁) c s c' s')
    (hr : Runs (body (std H)) c' s' (.err er) s'') :
    ∃ er', Runs (body (std H)) c s (.err er') s'' ∧ Cause er er' := by
  induction hw with
  | self => exact ⟨er, hr, .same⟩
  | down hs hg _ ih =>
    obtain ⟨e₁, h1, h2⟩ := ih hr
    obtain ⟨e₂, h3, h4⟩ := starts_fails hs (fun h => hg (Or.inl h)) h1
    exact ⟨e₂, h3, cause_trans h2 (h4.resolve_left fun h => hg (Or.inr h))⟩

/-- Inside `find`, `find-tail` and `memp` too the whole fails, though perhaps with another error. -/
theorem C41_fails_partial {c c' : Call} {s s' s'' : Store} {er : Err}
    (hw : Within (body (std H)) (Guarded (std H)) c s c' s') (hr : Runs (body (std H)) c' s' (.err er) s'') :
    ∃ er', Runs (body (std H)) c s (.err er') s'' := by
  induction hw generalizing er with
  | self => exact ⟨er, hr⟩
  | down hs hg _ ih =>
    obtain ⟨e₁, h1⟩ := ih hr
    obtain ⟨e₂, h3, _⟩ := starts_fails hs hg h1
    exact ⟨e₂, h3⟩

/-- The message that arrives ends with the message that was raised. -/
theorem C41_message {er er' : Err} (h : Cause er er') (s : Store) : ∃ pre, H.errText s er' = pre ++ H.errText s er := by
  induction h with
  | same => exact ⟨"", by simp⟩
  | @evaling d e' _ ih =>
    obtain ⟨pre, h⟩ := ih
    exact ⟨"\nEvaling " ++ H.show s d ++ ". " ++ pre, by rw [Ev.Host.errText, h]; simp only [String.append_assoc]⟩
  | @inFn n e' _ ih =>
    obtain ⟨pre, h⟩ := ih
    exact ⟨"In '" ++ n ++ "': " ++ pre, by rw [Ev.Host.errText, h]; simp only [String.append_assoc]⟩

/-- A panic is intercepted by nothing, `on-error` included. -/
theorem C41_panic {C : Conf} {c c' : Call} {s s' s'' : Store} (hw : Within (body C) (fun _ _ _ => False) c s c' s')
    (hr : Runs (body C) c' s' .panic s'') : Runs (body C) c s .panic s'' := by
  induction hw with
  | self => exact hr
  | down hs _ _ ih => exact runs_iff.mpr (starts_panic hs (ih hr))

section
variable {C : Conf} {e : Nat} {s : Store} {r : Out Data} {s' : Store}

private theorem lst_args {xs : List Data} (hn : Data.null ∉ xs) : Lst (ofArray xs) xs := by
  have := Lst.ofArray xs; rwa [map_elem_id hn] at this

private theorem errText_arg {x : String} {ae : Nat} : Const (fun a => Evals C a ae) [str x] [str x] :=
  .cons (fun _ _ _ => by unfold Evals; rw [runs_iff]; exact runsP_ret) .nil

/-- `(on-error g h k)`: when `g` returns a value, the function that `k` gives is called without arguments and what it does
is the result; when `g` fails, `h` is evaluated and the function it gives is called with the text of the error. -/
theorem C41_on_error_three (hw : WF s) (hm : Means C s e "on-error") {t g h k : Data} (ht : Lst t [g, h, k])
    (hn : Data.null ∉ [g, h, k])
    (hdef : ∀ er s₁ s₂ i, Evals C g e s (.err er) s₁ → Evals C h e s₁ (.ok (.atom (.func i))) s₂ →
      ∃ fr, s₂.fns[i]? = some fr ∧ GoodFn s₂ fr)
    (hdef' : ∀ v s₁ s₂ i, Evals C g e s (.ok v) s₁ → Evals C k e s₁ (.ok (.atom (.func i))) s₂ →
      ∃ fr, s₂.fns[i]? = some fr ∧ GoodFn s₂ fr) :
    Evals C (.cons (.sym "on-error") t) e s r s' ↔ ∃ r₀, r = quoting (.cons (.sym "on-error") t) r₀ ∧
      ((∃ v s₁, Evals C g e s (.ok v) s₁ ∧ Then (Evals C k e s₁) (fun f s₂ r s' =>
         (∃ i, f = .atom (.func i) ∧ CallsV C i [] e none s₂ r s') ∨
         ((∀ i, f ≠ .atom (.func i)) ∧ r = .err (.msg "on-error requires a function as it's third argument") ∧ s' = s₂)) r₀ s') ∨
       (Evals C g e s .panic s' ∧ r₀ = .panic) ∨
       (∃ er s₁, Evals C g e s (.err er) s₁ ∧ Then (Evals C h e s₁) (fun f s₂ r s' =>
         (∃ i, f = .atom (.func i) ∧ CallsV C i [.str (C.host.errText s₂ er)] e none s₂ r s') ∨
         ((∀ i, f ≠ .atom (.func i)) ∧ r = .err (.msg "on-error requires a function as it's second argument") ∧ s' = s₂)) r₀ s')) := by
  rw [evals_form (P := ⟨"2|3".toList, true, false, onErrorImpl C.host⟩) hw hm rfl (fun _ => rfl) rfl rfl rfl ht (by rfl)]
  refine exists_congr fun r₀ => ?_
  rw [and_comm]
  refine and_congr Iff.rfl ?_
  have hl := lst_args hn
  have c1 : car (ofArray [g, h, k]) = g := by rw [car_Lst hl]; rfl
  have c2 : car (cdr (ofArray [g, h, k])) = h := by rw [car_Lst (cdr_Lst hl)]; rfl
  have c3 : car (cdr (cdr (ofArray [g, h, k]))) = k := by rw [car_Lst (cdr_Lst (cdr_Lst hl))]; rfl
  show RunsP (body C) (onErrorImpl C.host _ e) s r₀ s' ↔ _
  rw [onErrorImpl, runsP_attempt]
  simp only [runsP_eval, c1, c2, c3, hl.length, List.length_cons, List.length_nil]
  simp only [if_true]
  have hnil : Const (fun a => Evals C a e) [] [] := .nil
  refine Iff.trans (or_congr (b := _) Iff.rfl or_comm) (or_congr ?_ (or_congr Iff.rfl ?_))
  · refine exists_congr fun v => exists_congr fun s₁ => ?_
    constructor
    · rintro ⟨hg, hx⟩
      refine ⟨hg, ?_⟩
      rw [runsP_eval_then] at hx
      rcases hx with ⟨w, s₂, hv, hx⟩ | hx
      · refine Or.inl ⟨w, s₂, hv, ?_⟩
        split at hx
        · rename_i i
          obtain ⟨fr, hfr, hgood⟩ := hdef' v s₁ s₂ i hg hv
          rw [runsP_callFn_exprs hfr hgood .null, hnil.calls] at hx
          exact Or.inl ⟨i, rfl, hx⟩
        · rename_i hne
          exact Or.inr ⟨fun i h => hne i h, (runsP_fail.mp hx).1, (runsP_fail.mp hx).2⟩
      · exact Or.inr hx
    · rintro ⟨hg, hx⟩
      refine ⟨hg, ?_⟩
      rw [runsP_eval_then]
      rcases hx with ⟨w, s₂, hv, hx⟩ | hx
      · refine Or.inl ⟨w, s₂, hv, ?_⟩
        rcases hx with ⟨i, rfl, hx⟩ | ⟨hne, hx⟩
        · obtain ⟨fr, hfr, hgood⟩ := hdef' v s₁ s₂ i hg hv
          dsimp only
          rw [runsP_callFn_exprs hfr hgood .null, hnil.calls]
          exact hx
        · split
          · rename_i i; exact absurd rfl (hne i)
          · exact runsP_fail.mpr hx
      · exact Or.inr hx
  · refine exists_congr fun er => exists_congr fun s₁ => ?_
    constructor
    · rintro ⟨hg, hx⟩
      refine ⟨hg, ?_⟩
      rw [runsP_eval_then] at hx
      rcases hx with ⟨v, s₂, hv, hx⟩ | hx
      · refine Or.inl ⟨v, s₂, hv, ?_⟩
        split at hx
        · rename_i i
          obtain ⟨fr, hfr, hgood⟩ := hdef er s₁ s₂ i hg hv
          rw [runsP_get, runsP_callFn_exprs hfr hgood (lst_args (by simp)), errText_arg.calls] at hx
          exact Or.inl ⟨i, rfl, hx⟩
        · rename_i hne
          exact Or.inr ⟨fun i h => hne i h, (runsP_fail.mp hx).1, (runsP_fail.mp hx).2⟩
      · exact Or.inr hx
    · rintro ⟨hg, hx⟩
      refine ⟨hg, ?_⟩
      rw [runsP_eval_then]
      rcases hx with ⟨v, s₂, hv, hx⟩ | hx
      · refine Or.inl ⟨v, s₂, hv, ?_⟩
        rcases hx with ⟨i, rfl, hx⟩ | ⟨hne, hx⟩
        · obtain ⟨fr, hfr, hgood⟩ := hdef er s₁ s₂ i hg hv
          rw [runsP_get, runsP_callFn_exprs hfr hgood (lst_args (by simp)), errText_arg.calls]
          exact hx
        · split
          · rename_i i; exact absurd rfl (hne i)
          · exact runsP_fail.mpr hx
      · exact Or.inr hx
end

section
open Demo

/-- An error in a step expression of `do` is lost: there is no `on-error` in this program, `(error "lost")` is evaluated
and fails, and the program returns a value. -/
theorem C41_step_violation :
    (∃ e er s' s'', Within (body Demo.C) (fun _ _ _ => False) (.eval false (code "(do ((i 0 (error \"lost\"))) (#f) 7)") 1) Demo.s
      (.eval false (code "(error \"lost\")") e) s' ∧ Evals Demo.C (code "(error \"lost\")") e s' (.err er) s'') ∧
    Ends "(do ((i 0 (error \"lost\"))) (#f) 7)" (.ok (int 7)) := by
  refine ⟨?_, ends 12 (by decide +kernel) (by simp)⟩
  obtain ⟨s', s'', h⟩ := reachesAll (src := "(do ((i 0 (error \"lost\"))) (#f) 7)") (sub := "(error \"lost\")") (e := 2)
    (r := .err (.evaling (code "(error \"lost\")") (.msg "\"lost\""))) 12 [2, 2] (by decide +kernel) (by simp)
  exact ⟨_, _, s', s'', h⟩

/-- The error of a predicate given to `find` does not arrive; another does. -/
theorem C41_search_violation :
    Fails "(find (lambda (x) (error \"lost\")) '(1))"
      "\nEvaling (find (lambda (x) (error \"lost\")) '(1)). find needs a predicate function as its first argument." :=
  fails 12 (by decide +kernel)

/-! ### Examples -/

/-- An error four constructs down: the hypotheses of `C41_escapes_partial` hold, and it arrives with its way recorded. -/
example : ∃ s' s'' er, Within (body Demo.C) (fun c s c₁ => Guarded Demo.C c s c₁ ∨ Replaced Demo.C c s c₁)
    (.eval false (code "(let ((x 2)) (when (> x 1) (map (lambda (y) (+ y (car (error \"boom\")))) '(1 2))))") 1) Demo.s
    (.eval false (code "(error \"boom\")") 3) s' ∧ Evals Demo.C (code "(error \"boom\")") 3 s' (.err er) s'' := by
  obtain ⟨s', s'', h⟩ := reaches (src := "(let ((x 2)) (when (> x 1) (map (lambda (y) (+ y (car (error \"boom\")))) '(1 2))))")
    (sub := "(error \"boom\")") (e := 3) (er := .evaling (code "(error \"boom\")") (.msg "\"boom\"")) 12 [2, 2, 3, 0, 2, 1]
    (by decide +kernel)
  exact ⟨s', s'', _, h⟩
example : Ends "(on-error (car (error \"bad\")) (lambda (m) 1) (lambda () 2))" (.ok (int 1)) := ends 12 (by decide +kernel) (by simp)
example : Ends "(on-error (car '(3)) (lambda (m) 1) (lambda () 2))" (.ok (int 2)) := ends 12 (by decide +kernel) (by simp)
example : Ends "(on-error (panic! \"x\") (lambda (m) 1))" .panic := ends 12 (by decide +kernel) (by simp)
example : ∃ s' s'', Within (body Demo.C) (fun _ _ _ => False) (.eval false (code "(on-error (panic! \"x\") (lambda (m) 1))") 1) Demo.s
    (.eval false (code "(panic! \"x\")") 1) s' ∧ Evals Demo.C (code "(panic! \"x\")") 1 s' .panic s'' :=
  reachesAll 12 [1] (by decide +kernel) (by simp)
end

end Golisp.Props
