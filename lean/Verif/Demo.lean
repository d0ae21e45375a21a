import Verif.EvalInv
import Verif.Props.Reader
import Verif.Props.Sort
/-
A concrete interpreter for the examples beside the theorems: source text is read by the modelled reader and evaluated by
the modelled evaluator, and the kernel computes the outcome.
-/
namespace Golisp.Demo
open Golisp Data Ev Spec

/-- A host: maps are iterated in insertion order; values print as the modelled printer prints
them; letters are the ASCII ones; there is no float mathematics; there are three
files. -/
def H : Ev.Host where
  ord := fun _ l => l
  «show» := fun _ d => String.ofList (Reader.print Props.asciiHost d)
  iter := fun l => l
  iterPerm := List.Perm.refl
  files := fun n => if n = "lib.lsp" then some "(define (twice x) (* 2 x)) (define y (twice 21)) (twice y)"
    else if n = "gap.lsp" then some "(define a 1) () (define b 2)"
    else if n = "bad.lsp" then some "(define a 1) (define b (car" else none
  upper := fun s => String.ofList (s.toList.map Char.toUpper)
  lower := fun s => String.ofList (s.toList.map Char.toLower)
  reader := Props.asciiHost
  sorter := Sorting.insertion
  sorterOk := Props.C60_insertion_in_range
  pow := fun _ _ => F32.qNaN
  math := fun _ _ => F32.qNaN
def C : Conf := std H

/-- `Global` (environment 0) and one top-level environment below it (environment 1). -/
def s : Store :=
  { initStore H with
    envs := [globalEnv H, ⟨"top", some 0, [], none, false⟩]
    tops := [("SystemGlobal", 0), ("top", 1)] }

/-- The first expression of a text. -/
def code (src : String) : Data := (Reader.parse Props.asciiHost src.toList).getD .null

def run (n : Nat) (src : String) : Out Data × Store := recN (body C) n (.eval false (code src) 1) s

/-- The program `src`, evaluated at top level from the initial state, ends with outcome `r`. -/
def Ends (src : String) (r : Out Data) : Prop := ∃ s', Evals C (code src) 1 s r s'

theorem ends {src : String} {r : Out Data} (n : Nat) (h : (run n src).1 = r) (hr : r ≠ .timeout) : Ends src r :=
  ⟨(run n src).2, n, Prod.ext h rfl, hr⟩

/-- The same with what has been written by then. -/
def Writes (src : String) (r : Out Data) (out : List String) : Prop := ∃ s', Evals C (code src) 1 s r s' ∧ s'.out = out

theorem writes {src : String} {r : Out Data} {out : List String} (n : Nat) (h : (run n src).1 = r)
    (ho : (run n src).2.out = out) (hr : r ≠ .timeout) : Writes src r out :=
  ⟨(run n src).2, ⟨n, Prod.ext h rfl, hr⟩, ho⟩

/-- The same, failing with an error whose text is `m`. -/
def Fails (src m : String) : Prop := ∃ er s', Evals C (code src) 1 s (.err er) s' ∧ H.errText s' er = m

def failure (n : Nat) (src : String) : Option String :=
  match run n src with
  | (.err er, s') => some (H.errText s' er)
  | _ => none

theorem fails {src m : String} (n : Nat) (h : failure n src = some m) : Fails src m := by
  unfold failure at h
  cases hr : run n src with
  | mk r s' =>
    rw [hr] at h
    cases r with
    | err er => simp only [Option.some.injEq] at h; exact ⟨er, s', ⟨n, hr, by simp⟩, h⟩
    | _ => simp at h

theorem wf : WF s := by
  intro e r p h hp
  match e, h with
  | 0, h => cases h; cases hp
  | 1, h => cases h; cases hp; decide
  | n + 2, h => simp [s] at h

/-- The operators of the initial state are the primitives. -/
theorem means (x : String) {b : Bool} (h : s.localB 0 x = some ⟨.atom (.prim x), b⟩) : Means C s 1 x :=
  ⟨⟨0, b, .up rfl rfl (.here h)⟩, fun _ _ h => (by cases h), rfl⟩

example : Means C s 1 "if" := means "if" (b := true) (by decide +kernel)
example : Means C s 1 "boolean?" := means _ (b := true) (by decide +kernel)
example : Ends "(begin (define x 5) (if x (+ x 1) 2))" (.ok (int 6)) := ends 5 (by decide +kernel) (by simp)
example : Ends "(begin (define (fact n) (if (< n 2) 1 (* n (fact (- n 1))))) (fact 5))" (.ok (int 120)) :=
  ends 30 (by decide +kernel) (by simp)
example : Writes "(begin (write-line \"a\" 3) (map (lambda (x) (write-line x)) (list 1 2)) 7)" (.ok (int 7)) ["a3", "1", "2"] :=
  writes 30 (by decide +kernel) (by decide +kernel) (by simp)

end Golisp.Demo
