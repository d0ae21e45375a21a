import Verif.CallLemmas
import Verif.Props.Calls
/-
Calls of library primitives written in Lisp code: from an expression to the body of the primitive.
-/
namespace Golisp.Spec
open Golisp Data Ev

/-- `d` is a combination whose operator evaluates to the primitive `x` of the standard table; its arguments, evaluated left
to right, have the values `vs`, and `s₁` is the state after that.  (A Go nil among the values arrives as `()`.) -/
def Calling (C : Conf) (x : String) (vs : List Data) (d : Data) (e : Nat) (s s₁ : Store) : Prop :=
  ∃ h t xs us s₀, d = .cons h t ∧ shortcuts d = d ∧ h ≠ .null ∧ EvalsOp C h e s (.ok (.atom (.prim x))) s₀ ∧
    C.prims x = (std C.host).prims x ∧ Lst t xs ∧ Args C e xs s₀ (.ok us) s₁ ∧ vs = us.map elem

/-- Evaluating `d` returns `v`, in state `s'`, and can do nothing else. -/
def Returns (C : Conf) (d : Data) (e : Nat) (s : Store) (v : Data) (s' : Store) : Prop :=
  ∀ r t, Evals C d e s r t ↔ r = .ok v ∧ t = s'

/-- Evaluating `d` is an error that quotes `d`, in state `s'`. -/
def Refuses (C : Conf) (d : Data) (e : Nat) (s s' : Store) : Prop :=
  ∃ m, ∀ r t, Evals C d e s r t ↔ r = .err (.evaling d (.msg m)) ∧ t = s'

/-- Evaluating `d` panics in state `s'`. -/
def Crashes (C : Conf) (d : Data) (e : Nat) (s s' : Store) : Prop :=
  ∀ r t, Evals C d e s r t ↔ r = .panic ∧ t = s'

end Golisp.Spec

namespace Golisp.Props
open Golisp Data Ev Spec

variable {C : Conf} {e : Nat} {s s₁ : Store} {d : Data}

theorem args_det' {xs : List Data} {r₁ r₂ : Out (List Data)} {s₁ s₂ : Store} (h₁ : Args C e xs s r₁ s₁) (h₂ : Args C e xs s r₂ s₂) :
    r₁ = r₂ ∧ s₁ = s₂ := runsP_det ((runsP_evalAll xs _ _ _).mpr h₁) ((runsP_evalAll xs _ _ _).mpr h₂)

theorem elem_ne (x : Data) : elem x ≠ .null := by
  unfold elem; split
  · exact fun h => by cases h
  · assumption

/-- The simple way a call arises: the operator is a name that means the primitive. -/
theorem calling_sym (hw : WF s) {x : String} (hm : Means C s e x) (hx : isNaked (.sym x) = false) {t : Data} {xs us : List Data} (hs : shortcuts (.cons (.sym x) t) = .cons (.sym x) t)
    (ht : Lst t xs) (ha : Args C e xs s (.ok us) s₁) : Calling C x (us.map elem) (.cons (.sym x) t) e s s₁ :=
  ⟨.sym x, t, xs, us, s, rfl, hs, nofun, evalsOp_sym hw hm hx, hm.isStd, ht, ha, rfl⟩

theorem calling_not_null {x : String} {vs : List Data} (h : Calling C x vs d e s s₁) : Data.null ∉ vs := by
  obtain ⟨_, _, _, us, _, _, _, _, _, _, _, _, rfl⟩ := h
  simp only [List.mem_map, not_exists, not_and]
  exact fun y _ => elem_ne y

/-- The body of the primitive runs on the argument values, in the state after their evaluation. -/
theorem calling_iff {x : String} {vs : List Data} (h : Calling C x vs d e s s₁) {spec : List Char} {impl : Data → Nat → Prog Data}
    (hP : (std C.host).prims x = some ⟨spec, false, false, impl⟩)
    (hc : Arity.checkArgumentCount (Arity.parseNumArgs spec) vs.length = true) :
    ∃ args, Lst args vs ∧ ∀ r t, Evals C d e s r t ↔ ∃ r₀, r = quoting d r₀ ∧ RunsP (body C) (impl args e) s₁ r₀ t := by
  obtain ⟨hd, tl, xs, us, s₀, rfl, hs, hh, hop, hstd, ht, ha, rfl⟩ := h
  refine ⟨ofArray us, Lst.ofArray us, fun r t => ?_⟩
  have hlen : xs.length = us.length := (C32_once ha).symm
  rw [C32_primitive hs hh hop (P := ⟨spec, false, false, impl⟩) (by rw [hstd]; exact hP) rfl rfl ht (by rw [hlen]; simpa using hc)]
  refine exists_congr fun r₀ => and_congr Iff.rfl ?_
  constructor
  · rintro (⟨vs', s₃, ha', hr⟩ | ⟨er, ha', _⟩ | ⟨ha', _⟩)
    · obtain ⟨h1, h2⟩ := args_det' ha' ha
      cases h1; subst h2; exact hr
    · exact absurd (args_det' ha' ha).1 (by simp)
    · exact absurd (args_det' ha' ha).1 (by simp)
  · intro hr; exact Or.inl ⟨_, _, ha, hr⟩

section outcome
variable {p : Prog Data} (h : ∀ r t, Evals C d e s r t ↔ ∃ r₀, r = quoting d r₀ ∧ RunsP (body C) p s₁ r₀ t)
include h

theorem returns_of {v : Data} {s₂ : Store} (hp : ∀ r t, RunsP (body C) p s₁ r t ↔ r = .ok v ∧ t = s₂) : Returns C d e s v s₂ := by
  intro r t
  rw [h]
  simp only [hp]
  constructor
  · rintro ⟨_, rfl, rfl, rfl⟩; exact ⟨rfl, rfl⟩
  · rintro ⟨rfl, rfl⟩; exact ⟨_, rfl, rfl, rfl⟩

theorem refuses_of {m : String} {s₂ : Store} (hp : ∀ r t, RunsP (body C) p s₁ r t ↔ r = .err (.msg m) ∧ t = s₂) : Refuses C d e s s₂ := by
  refine ⟨m, fun r t => ?_⟩
  rw [h]
  simp only [hp]
  constructor
  · rintro ⟨_, rfl, rfl, rfl⟩; exact ⟨rfl, rfl⟩
  · rintro ⟨rfl, rfl⟩; exact ⟨_, rfl, rfl, rfl⟩

theorem crashes_of {s₂ : Store} (hp : ∀ r t, RunsP (body C) p s₁ r t ↔ r = .panic ∧ t = s₂) : Crashes C d e s s₂ := by
  intro r t
  rw [h]
  simp only [hp]
  constructor
  · rintro ⟨_, rfl, rfl, rfl⟩; exact ⟨rfl, rfl⟩
  · rintro ⟨rfl, rfl⟩; exact ⟨_, rfl, rfl, rfl⟩

end outcome

theorem car_args {args a : Data} {vs : List Data} (h : Lst args (a :: vs)) : car args = a := by rw [car_Lst h]; rfl
theorem cadr_args {args a b : Data} {vs : List Data} (h : Lst args (a :: b :: vs)) : car (cdr args) = b := by
  rw [car_Lst (cdr_Lst h)]; rfl
theorem caddr_args {args a b c : Data} {vs : List Data} (h : Lst args (a :: b :: c :: vs)) : car (cdr (cdr args)) = c := by
  rw [car_Lst (cdr_Lst (cdr_Lst h))]; rfl

end Golisp.Props
