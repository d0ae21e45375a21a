import Verif.LispLemmas
import Verif.Demo
import Verif.DemoCalls
/- C70: the threading forms `->` and `=>`. -/
namespace Golisp.Spec
open Golisp Data Ev

/-- A step of a threading form with the value `v` put in as first argument: `(f a …)` becomes `(f v a …)`, anything else
`f` becomes `(f v)`. -/
inductive Placed : Data → Data → Data → Prop where
  | list {f as v} : Placed (.cons f as) v (.cons f (.cons v as))
  | atom {a v} : Placed (.atom a) v (.cons (.atom a) (.cons v .null))

/-- `->`: every step gets the value of the one before; the first that fails ends it. -/
inductive Threads (C : Conf) (e : Nat) : List Data → Data → Store → Out Data → Store → Prop where
  | done {v s} : Threads C e [] v s (.ok v) s
  | next {x xs d v w s s₁ r s'} : Placed x v d → Evals C d e s (.ok w) s₁ → Threads C e xs w s₁ r s' → Threads C e (x :: xs) v s r s'
  | stop {x xs d v s r s'} : Placed x v d → Evals C d e s r s' → ¬ Ok r → Threads C e (x :: xs) v s r s'

/-- `=>`: every step gets the same value, which is the result; the first that fails ends it. -/
inductive Taps (C : Conf) (e : Nat) (v : Data) : List Data → Store → Out Data → Store → Prop where
  | done {s} : Taps C e v [] s (.ok v) s
  | next {x xs d w s s₁ r s'} : Placed x v d → Evals C d e s (.ok w) s₁ → Taps C e v xs s₁ r s' → Taps C e v (x :: xs) s r s'
  | stop {x xs d s r s'} : Placed x v d → Evals C d e s r s' → ¬ Ok r → Taps C e v (x :: xs) s r s'

/-- A step can be a list or an atom. -/
def IsStep (x : Data) : Prop := (∃ f as, x = .cons f as) ∨ ∃ a, x = .atom a

/-- A value that evaluates to itself: an atom other than a symbol. -/
def Itself (v : Data) : Prop := ∃ a, v = .atom a ∧ ∀ x, a ≠ .sym x

end Golisp.Spec

namespace Golisp.Props
open Golisp Data Ev Spec

variable {C : Conf} {e : Nat} {s : Store} {r : Out Data} {s' : Store}

private theorem placed_iff {x v d : Data} (h : IsStep x) : Placed x v d ↔ d = chainExpr x v := by
  rcases h with ⟨f, as, rfl⟩ | ⟨a, rfl⟩
  · constructor
    · intro h; cases h; rfl
    · rintro rfl; exact .list
  · have hx : chainExpr (.atom a) v = .cons (.atom a) (.cons v .null) := by cases a <;> rfl
    constructor
    · intro h; cases h; exact hx.symm
    · rintro rfl; rw [hx]; exact .atom

private theorem chain_iff (xs : List Data) : ∀ (_ : ∀ x ∈ xs, IsStep x) (v : Data) (s : Store) (r : Out Data) (s' : Store),
    RunsP (body C) (chainLoop e xs v) s r s' ↔ Threads C e xs v s r s' := by
  induction xs with
  | nil =>
    intro _ v s r s'
    rw [chainLoop, runsP_pure]
    exact ⟨by rintro ⟨rfl, rfl⟩; exact .done, by intro h; cases h; exact ⟨rfl, rfl⟩⟩
  | cons x xs ih =>
    intro hx v s r s'
    have hp : ∀ {d}, Placed x v d ↔ d = chainExpr x v := placed_iff (hx x List.mem_cons_self)
    have ih := ih fun y hy => hx y (List.mem_cons_of_mem _ hy)
    rw [chainLoop, runsP_eval_then]
    constructor
    · rintro (⟨w, s₁, h1, h2⟩ | ⟨h1, h2⟩)
      · exact .next (hp.mpr rfl) h1 ((ih _ _ _ _).mp h2)
      · exact .stop (hp.mpr rfl) h1 h2
    · intro h
      cases h with
      | next h0 h1 h2 => obtain rfl := hp.mp h0; exact Or.inl ⟨_, _, h1, (ih _ _ _ _).mpr h2⟩
      | stop h0 h1 h2 => obtain rfl := hp.mp h0; exact Or.inr ⟨h1, h2⟩

private theorem tap_iff {v : Data} (xs : List Data) : ∀ (_ : ∀ x ∈ xs, IsStep x) (s : Store) (r : Out Data) (s' : Store),
    RunsP (body C) (tapLoop e v xs) s r s' ↔ Taps C e v xs s r s' := by
  induction xs with
  | nil =>
    intro _ s r s'
    rw [tapLoop, runsP_pure]
    exact ⟨by rintro ⟨rfl, rfl⟩; exact .done, by intro h; cases h; exact ⟨rfl, rfl⟩⟩
  | cons x xs ih =>
    intro hx s r s'
    have hp : ∀ {d}, Placed x v d ↔ d = chainExpr x v := placed_iff (hx x List.mem_cons_self)
    have ih := ih fun y hy => hx y (List.mem_cons_of_mem _ hy)
    rw [tapLoop, runsP_eval_then]
    constructor
    · rintro (⟨w, s₁, h1, h2⟩ | ⟨h1, h2⟩)
      · exact .next (hp.mpr rfl) h1 ((ih _ _ _).mp h2)
      · exact .stop (hp.mpr rfl) h1 h2
    · intro h
      cases h with
      | next h0 h1 h2 => obtain rfl := hp.mp h0; exact Or.inl ⟨_, _, h1, (ih _ _ _).mpr h2⟩
      | stop h0 h1 h2 => obtain rfl := hp.mp h0; exact Or.inr ⟨h1, h2⟩

private theorem step_not_null {xs : List Data} (h : ∀ x ∈ xs, IsStep x) : Data.null ∉ xs := by
  intro hm
  rcases h _ hm with ⟨_, _, h⟩ | ⟨_, h⟩ <;> cases h

/-- `(-> x step …)`: `x` is evaluated, then each step with the value so far put in as first argument. -/
theorem C70_thread (hw : WF s) (hm : Means C s e "->") {t x : Data} {xs : List Data} (ht : Lst t (x :: xs)) (hx : x ≠ .null)
    (hs : ∀ y ∈ xs, IsStep y) :
    Evals C (.cons (.sym "->") t) e s r s' ↔ ∃ r₀, r = quoting (.cons (.sym "->") t) r₀ ∧
      Then (Evals C x e s) (fun v s₁ r s' => Threads C e xs v s₁ r s') r₀ s' := by
  have hn : Data.null ∉ x :: xs := by
    intro h
    rcases List.mem_cons.mp h with h | h
    · exact hx h.symm
    · exact step_not_null hs h
  rw [evals_form (P := ⟨">=1".toList, true, false, chainImpl⟩) hw hm rfl (fun _ => rfl) rfl rfl rfl ht (count_ge1 (by simp))]
  have hl : Lst (ofArray (x :: xs)) (x :: xs) := by have := Lst.ofArray (x :: xs); rwa [map_elem_id hn] at this
  refine exists_congr fun r₀ => ?_
  rw [and_comm]
  refine and_congr Iff.rfl ?_
  show RunsP (body C) (chainImpl _ e) s r₀ s' ↔ _
  rw [chainImpl, runsP_eval_then, car_args hl, (cdr_Lst hl).toArray]
  exact Then.congr fun v s₁ => chain_iff xs hs v _ _ _

/-- `(=> x step …)`: `x` is evaluated, then each step with that value put in as first argument, and the value is
returned. -/
theorem C70_tap (hw : WF s) (hm : Means C s e "=>") {t x : Data} {xs : List Data} (ht : Lst t (x :: xs)) (hx : x ≠ .null)
    (hs : ∀ y ∈ xs, IsStep y) :
    Evals C (.cons (.sym "=>") t) e s r s' ↔ ∃ r₀, r = quoting (.cons (.sym "=>") t) r₀ ∧
      Then (Evals C x e s) (fun v s₁ r s' => Taps C e v xs s₁ r s') r₀ s' := by
  have hn : Data.null ∉ x :: xs := by
    intro h
    rcases List.mem_cons.mp h with h | h
    · exact hx h.symm
    · exact step_not_null hs h
  rw [evals_form (P := ⟨">=1".toList, true, false, tapImpl⟩) hw hm rfl (fun _ => rfl) rfl rfl rfl ht (count_ge1 (by simp))]
  have hl : Lst (ofArray (x :: xs)) (x :: xs) := by have := Lst.ofArray (x :: xs); rwa [map_elem_id hn] at this
  refine exists_congr fun r₀ => ?_
  rw [and_comm]
  refine and_congr Iff.rfl ?_
  show RunsP (body C) (tapImpl _ e) s r₀ s' ↔ _
  rw [tapImpl, runsP_eval_then, car_args hl, (cdr_Lst hl).toArray]
  exact Then.congr fun v s₁ => tap_iff xs hs _ _ _

/-- Full statement: the procedure of a step gets the value itself, whatever it is.  Proved here for values that evaluate to
themselves: a step `(f a …)` calls `f` with the value and the values of the `a …`, nothing else being evaluated.  Missing:
lists and symbols, which are evaluated once more (`C70_value_violation`). -/
theorem C70_first_argument_partial {f as v d : Data} {xs : List Data} (hd : Placed (.cons f as) v d) (hv : Itself v) (ha : Lst as xs) :
    (∃ t, d = .cons f t ∧ Lst t (v :: xs)) ∧
    ∀ us, Args C e (v :: xs) s (.ok us) s' ↔ ∃ ws, us = v :: ws ∧ Args C e xs s (.ok ws) s' := by
  obtain ⟨a, rfl, hns⟩ := hv
  have hself : ∀ {s r s'}, Evals C (.atom a) e s r s' ↔ r = .ok (.atom a) ∧ s' = s := by
    intro s r s'
    show Runs _ _ _ _ _ ↔ _
    rw [runs_iff]
    show RunsP _ (evalHelper C false (.atom a) e) _ _ _ ↔ _
    have : evalHelper C false (.atom a) e = pure (.atom a) := by
      cases a <;> first | rfl | exact absurd rfl (hns _)
    rw [this, runsP_pure]
  cases hd
  refine ⟨⟨_, rfl, .cons _ _ _ _ (by simp) (by simp) ha⟩, fun us => ?_⟩
  constructor
  · intro h
    cases h with
    | next h1 h2 =>
      obtain ⟨hv, rfl⟩ := hself.mp h1
      cases hv
      exact ⟨_, rfl, h2⟩
  · rintro ⟨ws, rfl, h⟩
    exact .next (hself.mpr ⟨rfl, rfl⟩) h

section
open Demo

/-- A value that is a list or a symbol is evaluated again before the step gets it: the list `(+ 1 2)` has three elements. -/
theorem C70_value_violation :
    Ends "(length '(+ 1 2))" (.ok (int 3)) ∧ Ends "(-> '(+ 1 2) length)" (.ok (int 0)) ∧
    Ends "(symbol? 'car)" (.ok (bool true)) ∧ Ends "(-> 'car symbol?)" (.ok (bool false)) :=
  ⟨ends 12 (by decide +kernel) (by simp), ends 12 (by decide +kernel) (by simp), ends 12 (by decide +kernel) (by simp),
    ends 12 (by decide +kernel) (by simp)⟩

example : Means Demo.C Demo.s 1 "->" := means _ (b := true) (by decide +kernel)
example : Means Demo.C Demo.s 1 "=>" := means _ (b := true) (by decide +kernel)
example : Ends "(-> 10 (- 3) succ (- 1 1))" (.ok (int 6)) := ends 12 (by decide +kernel) (by simp)
example : Writes "(=> 10 (write-line 3) write-line)" (.ok (int 10)) ["103", "10"] :=
  writes 12 (by decide +kernel) (by decide +kernel) (by simp)
example : ∀ y ∈ [code "(- 3)", code "succ"], IsStep y := by
  simp only [List.forall_mem_cons, List.not_mem_nil, false_implies, implies_true, and_true]
  exact ⟨Or.inl ⟨_, _, show code "(- 3)" = .cons (sym "-") (ofArray [int 3]) by decide +kernel⟩,
    Or.inr ⟨.sym "succ", show code "succ" = .sym "succ" by decide +kernel⟩⟩
example : Itself (int 3) := ⟨_, rfl, nofun⟩
example : Placed (code "(- 3)") (int 7) (code "(- 7 3)") := by
  rw [show code "(- 3)" = .cons (sym "-") (ofArray [int 3]) by decide +kernel,
    show code "(- 7 3)" = .cons (sym "-") (.cons (int 7) (ofArray [int 3])) by decide +kernel]
  exact .list
end

end Golisp.Props
