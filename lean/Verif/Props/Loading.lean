import Verif.Props.Environments
import Verif.Props.Grammar
import Verif.DemoCalls
/- C86: `load`. -/
namespace Golisp.Spec
open Golisp Data Ev

/-- The file of that name can be read and holds the text. -/
def HasFile (C : Conf) (f t : String) : Prop := C.host.files f = some t

/-- `()`, which a program file may hold like any other form. -/
def NilForm (d : Data) : Prop := d = .null ∨ ∃ k, d = .cell k .null .null

/-- Evaluate the forms in turn; if none of them fails, fail with the message `m`. -/
def SeqThenFail (C : Conf) (e : Nat) (ds : List Data) (m : String) (s : Store) (r : Out Data) (s' : Store) : Prop :=
  (∃ v, Seq C e ds .null s (.ok v) s' ∧ r = .err (.msg m)) ∨ (Seq C e ds .null s r s' ∧ ∀ v, r ≠ .ok v)

end Golisp.Spec

namespace Golisp.Props
open Golisp Data Ev Spec

variable {C : Conf} {e : Nat} {s s₁ : Store} {d : Data}

private theorem nilForm {d : Data} : isNil d = true ↔ NilForm d := by
  constructor
  · intro h
    cases d with
    | null => exact .inl rfl
    | atom a => cases h
    | cell k a b => cases a <;> cases b <;> first | exact .inr ⟨_, rfl⟩ | cases h
  · rintro (rfl | ⟨k, rfl⟩) <;> rfl

private theorem loop_seq {b : Bool} (ds : List Data) (hd : ∀ d ∈ ds, ¬ NilForm d) (tl : List Data) (htl : ∀ d, tl.head? = some d → NilForm d) : ∀ (v : Data) (s : Store) (r : Out Data) (t : Store),
    RunsP (body C) (loadLoopP e b (ds ++ tl) v) s r t ↔
      (∃ w, Seq C e ds v s (.ok w) t ∧ r = if b = true ∧ tl = [] then .err (.msg "parse") else .ok w) ∨ (Seq C e ds v s r t ∧ ∀ w, r ≠ .ok w) := by
  induction ds with
  | nil =>
    intro v s r t
    have hs : ∀ r, Seq C e [] v s r t ↔ r = .ok v ∧ t = s := by
      intro r
      constructor
      · intro h; cases h; exact ⟨rfl, rfl⟩
      · rintro ⟨rfl, rfl⟩; exact .done
    simp only [hs, List.nil_append]
    cases tl with
    | nil =>
      cases b with
      | true =>
        simp only [loadLoopP, if_true, runsP_fail, and_true]
        constructor
        · rintro ⟨rfl, rfl⟩; exact .inl ⟨v, ⟨rfl, rfl⟩, rfl⟩
        · rintro (⟨w, ⟨_, rfl⟩, rfl⟩ | ⟨⟨rfl, rfl⟩, h⟩)
          · exact ⟨rfl, rfl⟩
          · exact absurd rfl (h _)
      | false =>
        simp only [loadLoopP, Bool.false_eq_true, if_false, runsP_pure, false_and]
        constructor
        · rintro ⟨rfl, rfl⟩; exact .inl ⟨v, ⟨rfl, rfl⟩, rfl⟩
        · rintro (⟨w, ⟨h, rfl⟩, rfl⟩ | ⟨⟨rfl, rfl⟩, h⟩)
          · exact ⟨h, rfl⟩
          · exact absurd rfl (h _)
    | cons x xs =>
      have hx := nilForm.2 (htl x rfl)
      simp only [loadLoopP, hx, if_true, runsP_pure, reduceCtorEq, and_false, if_false]
      constructor
      · rintro ⟨rfl, rfl⟩; exact .inl ⟨v, ⟨rfl, rfl⟩, rfl⟩
      · rintro (⟨w, ⟨h, rfl⟩, rfl⟩ | ⟨⟨rfl, rfl⟩, h⟩)
        · exact ⟨h, rfl⟩
        · exact absurd rfl (h _)
  | cons d ds ih =>
    intro v s r t
    have hn : isNil d = false := by
      cases h : isNil d with
      | false => rfl
      | true => exact absurd (nilForm.1 h) (hd d List.mem_cons_self)
    have ih := ih fun x hx => hd x (List.mem_cons_of_mem _ hx)
    rw [List.cons_append, loadLoopP, hn]
    simp only [Bool.false_eq_true, if_false]
    rw [runsP_bind]
    simp only [runsP_eval, ih]
    constructor
    · rintro (⟨a, s₁, h1, ⟨w, h2, h3⟩ | ⟨h2, h3⟩⟩ | ⟨er, h1, rfl⟩ | ⟨h1, rfl⟩)
      · exact .inl ⟨w, .next h1 h2, h3⟩
      · exact .inr ⟨.next h1 h2, h3⟩
      · exact .inr ⟨.stop h1 (fun h => h), nofun⟩
      · exact .inr ⟨.stop h1 (fun h => h), nofun⟩
    · rintro (⟨w, h1, h3⟩ | ⟨h1, h3⟩)
      · cases h1 with
        | next h1 h2 => exact .inl ⟨_, _, h1, .inl ⟨w, h2, h3⟩⟩
        | stop _ hr => exact absurd trivial hr
      · cases h1 with
        | next h1 h2 => exact .inl ⟨_, _, h1, .inr ⟨h2, h3⟩⟩
        | stop h1 hr =>
          cases r with
          | ok a => exact absurd trivial hr
          | err er => exact .inr (.inl ⟨er, h1, rfl⟩)
          | panic => exact .inr (.inr ⟨h1, rfl⟩)
          | timeout => obtain ⟨_, _, h⟩ := h1; exact absurd rfl h

private theorem seq_any {ds : List Data} {r : Out Data} {t : Store} :
    (∃ w, Seq C e ds .null s (.ok w) t ∧ r = .ok w) ∨ (Seq C e ds .null s r t ∧ ∀ w, r ≠ .ok w) ↔ Seq C e ds .null s r t := by
  constructor
  · rintro (⟨w, h, rfl⟩ | ⟨h, _⟩) <;> exact h
  · intro h
    cases r with
    | ok w => exact .inl ⟨w, h, rfl⟩
    | _ => exact .inr ⟨h, nofun⟩

set_option maxRecDepth 20000 in
private theorem load_calling {f t : String} (h : Calling C "load" [.str f] d e s s₁) (he : s₁.restrictedEnv e = false) (hf : HasFile C f t)
    (r : Out Data) (u : Store) : Evals C d e s r u ↔ ∃ r₀, r = quoting d r₀ ∧
      RunsP (body C) (loadLoopP 0 (Reader.parseAll C.host.reader t.toList).2 (Reader.parseAll C.host.reader t.toList).1 .null) s₁ r₀ u := by
  obtain ⟨args, hl, hiff⟩ := calling_any h (spec := "1".toList) (impl := loadImpl C.host) rfl (fun _ => he) count1
  have hf' : C.host.files f = some t := hf
  rw [hiff]
  simp only [loadImpl, car_args hl, isStr, stringValue, Bool.not_true, Bool.false_eq_true, if_false, hf']

/-! ### C86 -/

/-- `(load f)` evaluates the forms of the file one after the other in the system global environment, wherever it is called;
the first that fails ends it, otherwise the value is that of the last.  Partial: no form of the file may be `()`
(`C86_nil_violation`). -/
theorem C86_load_partial {f t : String} {ds : List Data} (h : Calling C "load" [.str f] d e s s₁) (he : s₁.restrictedEnv e = false)
    (hf : HasFile C f t) (ht : Items C.host.reader t.toList ds) (hn : ∀ x ∈ ds, ¬ NilForm x) (r : Out Data) (u : Store) :
    Evals C d e s r u ↔ ∃ r₀, r = quoting d r₀ ∧ Seq C 0 ds .null s₁ r₀ u := by
  rw [load_calling h he hf, C65_items _ _ _ ht]
  refine exists_congr fun r₀ => and_congr Iff.rfl ?_
  have := loop_seq (C := C) (e := 0) (b := false) ds hn [] nofun .null s₁ r₀ u
  rw [List.append_nil] at this
  rw [this]
  simp only [Bool.false_eq_true, false_and, if_false]
  exact seq_any

/-- If the file ends in something that is not a form, the forms before it are evaluated all the same, and then it is an
error. -/
theorem C86_broken_partial {f t : String} {ds : List Data} (h : Calling C "load" [.str f] d e s s₁) (he : s₁.restrictedEnv e = false)
    (hf : HasFile C f t) (ht : BrokenItems C.host.reader t.toList ds) (hn : ∀ x ∈ ds, ¬ NilForm x) :
    ∃ m, ∀ r u, Evals C d e s r u ↔ ∃ r₀, r = quoting d r₀ ∧ SeqThenFail C 0 ds m s₁ r₀ u := by
  refine ⟨"parse", fun r u => ?_⟩
  rw [load_calling h he hf, C65_broken_items _ _ _ ht]
  refine exists_congr fun r₀ => and_congr Iff.rfl ?_
  have := loop_seq (C := C) (e := 0) (b := true) ds hn [] nofun .null s₁ r₀ u
  rw [List.append_nil] at this
  rw [this]
  simp only [true_and, if_true]
  exact Iff.rfl

/-- A form `()` ends the loading without an error: the forms after it are not evaluated, and whether the rest of the file is
made of forms at all does not matter. -/
theorem C86_nil_violation {f t : String} {ds rest : List Data} {x : Data} (h : Calling C "load" [.str f] d e s s₁) (he : s₁.restrictedEnv e = false)
    (hf : HasFile C f t) (ht : Items C.host.reader t.toList (ds ++ x :: rest) ∨ BrokenItems C.host.reader t.toList (ds ++ x :: rest))
    (hn : ∀ x ∈ ds, ¬ NilForm x) (hx : NilForm x) (r : Out Data) (u : Store) :
    Evals C d e s r u ↔ ∃ r₀, r = quoting d r₀ ∧ Seq C 0 ds .null s₁ r₀ u := by
  have hp : (Reader.parseAll C.host.reader t.toList).1 = ds ++ x :: rest := by
    rcases ht with ht | ht
    · rw [C65_items _ _ _ ht]
    · rw [C65_broken_items _ _ _ ht]
  rw [load_calling h he hf, hp]
  refine exists_congr fun r₀ => and_congr Iff.rfl ?_
  rw [loop_seq ds hn (x :: rest) (by intro y hy; cases hy; exact hx)]
  simp only [reduceCtorEq, and_false, if_false]
  exact seq_any

set_option maxRecDepth 20000 in
/-- A file that cannot be read, or a name that is not a string, is an error, and nothing is evaluated. -/
theorem C86_refused {v : Data} (h : Calling C "load" [v] d e s s₁) (he : s₁.restrictedEnv e = false)
    (hv : ∀ f t, v = .str f → ¬ HasFile C f t) : Refuses C d e s s₁ := by
  obtain ⟨args, hl, hiff⟩ := calling_any h (spec := "1".toList) (impl := loadImpl C.host) rfl (fun _ => he) count1
  by_cases hs : ∃ f, v = .str f
  · obtain ⟨f, rfl⟩ := hs
    have hf : C.host.files f = none := by
      cases hf : C.host.files f with
      | none => rfl
      | some t => exact absurd hf (hv f t rfl)
    refine refuses_of hiff (m := "load") fun r u => ?_
    simp only [loadImpl, car_args hl, isStr, stringValue, Bool.not_true, Bool.false_eq_true, if_false, hf]
    exact runsP_fail
  · have hns : isStr v = false := by
      cases v with
      | atom a => cases a <;> first | rfl | exact absurd ⟨_, rfl⟩ hs
      | _ => rfl
    refine refuses_of hiff (m := "Filename must be a string") fun r u => ?_
    simp only [loadImpl, car_args hl, hns, Bool.not_false, if_true]
    exact runsP_fail

/-! ### Examples -/

example : Demo.Ends "(begin (load \"lib.lsp\") (twice (+ y 1)))" (.ok (.int 86)) := Demo.ends 40 (by decide +kernel) (by simp)
example : Demo.Ends "(load \"lib.lsp\")" (.ok (.int 84)) := Demo.ends 30 (by decide +kernel) (by simp)
/-- `(define a 1) () (define b 2)` defines `a` and not `b`. -/
example : Demo.Ends "(begin (load \"gap.lsp\") (list a (environment-bound? (the-environment) 'b)))" (.ok (ofArray [.int 1, .bool false])) :=
  Demo.ends 40 (by decide +kernel) (by simp)
/-- `(define a 1) (define b (car` defines `a` before it fails. -/
example : Demo.Ends "(on-error (load \"bad.lsp\") (lambda (m) a))" (.ok (.int 1)) := Demo.ends 40 (by decide +kernel) (by simp)
example : Calling Demo.C "load" [.str "gap.lsp"] (Demo.code "(load \"gap.lsp\")") 1 Demo.s Demo.s :=
  Demo.calling 10 (b := true) (xs := [.str "gap.lsp"]) (us := [.str "gap.lsp"])
    (by decide +kernel) (by decide +kernel) (by decide +kernel) (by decide +kernel) rfl (by decide +kernel) (by decide +kernel) rfl
example : HasFile Demo.C "gap.lsp" "(define a 1) () (define b 2)" := rfl
example : Items asciiHost "x () y".toList ([.sym "x"] ++ .emptyCons :: [.sym "y"]) := by
  have sp : Blank asciiHost [' '] := .space _ _ (by decide) .nil
  have fx : Form asciiHost "x".toList (.sym "x") := .symbol ⟨'x', [], by decide, by decide, by decide, by simp, by decide⟩
  have fy : Form asciiHost "y".toList (.sym "y") := .symbol ⟨'y', [], by decide, by decide, by decide, by simp, by decide⟩
  have fn : Form asciiHost "()".toList .emptyCons := .list (t := []) (ds := []) (.nil .nil)
  have i3 : Items asciiHost " y".toList [.sym "y"] := .cons (w := [' ']) (t := ['y']) (u := []) sp fy (Reader.stop_nil _) (.nil .nil)
  have i2 : Items asciiHost " () y".toList [.emptyCons, .sym "y"] := .cons (w := [' ']) (t := "()".toList) (u := " y".toList) sp fn (Reader.stop_space _ _) i3
  exact .cons (w := []) (t := ['x']) (u := " () y".toList) .nil fx (Reader.stop_space _ _) i2

end Golisp.Props
