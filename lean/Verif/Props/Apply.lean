import Verif.DemoCalls
import Verif.ApplyLemmas
import Verif.Demo
import Verif.Props.Library
import Verif.Props.Library2
/- C68: `apply` calls the procedure with the given values and the elements of the list. -/
namespace Golisp.Props
open Golisp Data Ev Spec

variable {C : Conf} {e : Nat} {s s₁ : Store} {d : Data}

theorem chain_tail {l : Data} {ws : List Data} (hl : Chain l ws) : ∀ pre : List Data, Data.null ∉ pre →
    Chain (listWithTail pre l) (pre ++ ws) := by
  intro pre
  induction pre with
  | nil => intro _; exact hl
  | cons v vs ih =>
    intro hn
    have hv : v ≠ .null := fun h => hn (h ▸ List.mem_cons_self)
    have : noNull v = v := by cases v <;> first | rfl | exact absurd rfl hv
    simp only [listWithTail, this]
    exact .cons (ih (fun h => hn (List.mem_cons_of_mem _ h)))

private theorem apply_iff {f l : Data} {pre : List Data} (hf : isFuncOrPrim f = true) (hl : isListP l = true)
    (h : Calling C "apply" (f :: (pre ++ [l])) d e s s₁) {r : Out Data} {t : Store} :
    Evals C d e s r t ↔ ∃ r₀, r = quoting d r₀ ∧ Applies C f (listWithTail pre l) e s₁ r₀ t := by
  obtain ⟨args, ha, hiff⟩ := calling_iff h (spec := ">=1".toList) (impl := applyImpl C.host) rfl (count_ge1'' _ (by simp))
  rw [hiff]
  have h1 : car args = f := car_args ha
  have h2 : toArray (cdr args) = pre ++ [l] := (cdr_Lst ha).toArray
  have h3 : spread (pre ++ [l]) = .ok (listWithTail pre l) := by
    simp only [spread, List.getLast?_append, List.getLast?_singleton, Option.some_or, hl, if_true, List.dropLast_concat]
    split
    · rfl
    · next hlen =>
      cases pre with
      | nil => rfl
      | cons => simp at hlen
  simp only [applyImpl, h1, h2, h3, hf, Bool.not_true, Bool.false_eq_true, if_false, Prog.ofOut]
  exact exists_congr fun r₀ => and_congr Iff.rfl runsP_app

/-- `(apply f a … l)` is the call of `f` with the values `a …` followed by the elements of `l`, in the caller's
environment. -/
theorem C68_apply {f l : Data} {pre ws : List Data} (hf : isFuncOrPrim f = true) (hl : ListOf l ws)
    (h : Calling C "apply" (f :: (pre ++ [l])) d e s s₁) : ∃ args, Lst args (pre ++ ws) ∧ (Chain l ws → Chain args (pre ++ ws)) ∧
      ∀ r t, Evals C d e s r t ↔ ∃ r₀, r = quoting d r₀ ∧ Applies C f args e s₁ r₀ t := by
  have hn : Data.null ∉ pre := fun hm => calling_not_null h (by simp [hm])
  exact ⟨listWithTail pre l, listWithTail_lst hl.1 pre hn, fun hc => chain_tail hc pre hn, fun r t => apply_iff hf hl.2 h⟩

/-- A user function gets exactly these values. -/
theorem C68_function {i : Nat} {fr : FnRec} {l : Data} {pre ws : List Data} (hi : s₁.fns[i]? = some fr) (hg : GoodFn s₁ fr)
    (hl : ListOf l ws) (h : Calling C "apply" (.atom (.func i) :: (pre ++ [l])) d e s s₁) {r : Out Data} {t : Store} :
    Evals C d e s r t ↔ ∃ r₀, r = quoting d r₀ ∧ CallsV C i (pre ++ ws) e (frameFor s₁ fr.slot e) s₁ r₀ t := by
  obtain ⟨args, ha, _, hiff⟩ := C68_apply rfl hl h
  rw [hiff]
  simp only [C31_apply hi hg ha]

/-- An ordinary primitive applied to a list that is not empty and is closed by the nil pointer does what it does when
called with these values directly.  (Missing: other lists, see the violations below.) -/
theorem C68_primitive_partial {x : String} {P : PrimDef} {l : Data} {pre ws : List Data} (hP : (std C.host).prims x = some P)
    (hx : C.prims x = (std C.host).prims x) (hsp : P.special = false) (hre : P.restricted = false) (hw : WF s₁)
    (hq : Means C s₁ e "quote") (hl : Chain l ws) (hlp : isListP l = true) (hne : pre ++ ws ≠ []) (hnn : Data.null ∉ ws)
    (hc : Arity.checkArgumentCount (Arity.parseNumArgs P.args) (pre ++ ws).length = true)
    (h : Calling C "apply" (.atom (.prim x) :: (pre ++ [l])) d e s s₁) :
    ∃ Q : Out Data → Store → Prop, (∀ r t, Evals C d e s r t ↔ ∃ r₀, r = quoting d r₀ ∧ Q r₀ t) ∧
      ∀ d' s₂, Calling C x (pre ++ ws) d' e s₂ s₁ → ∀ r t, Evals C d' e s₂ r t ↔ ∃ r₀, r = quoting d' r₀ ∧ Q r₀ t := by
  have hn : Data.null ∉ pre := fun hm => calling_not_null h (by simp [hm])
  refine ⟨fun r₀ t => RunsP (body C) (P.body (ofArray (pre ++ ws)) e) s₁ r₀ t, fun r t => ?_, fun d' s₂ h' r t => ?_⟩
  · rw [apply_iff rfl hlp h]
    have hid : (pre ++ ws).map elem = pre ++ ws := map_elem_id (fun hm => (List.mem_append.1 hm).elim hn hnn)
    simp only [applies_prim (hx.trans hP) hsp (by rw [hre]; rfl) hw hq (chain_tail hl pre hn) hne hc, hid]
  · exact calling_body h' hP hsp hre hc r t

private theorem does_apply {x : String} {P : Out Data → Prop} {l : Data} {pre ws : List Data} (hd : DoesIn C.host x (pre ++ ws) P)
    (hx : C.prims x = (std C.host).prims x) (hw : WF s₁) (hq : Means C s₁ e "quote") (hl : Chain l ws) (hlp : isListP l = true)
    (hne : pre ++ ws ≠ []) (hnn : Data.null ∉ ws) (h : Calling C "apply" (.atom (.prim x) :: (pre ++ [l])) d e s s₁) :
    ∃ r, P r ∧ ∀ r' t, Evals C d e s r' t ↔ r' = quoting d r ∧ t = s₁ := by
  obtain ⟨spec, impl, hP, hc, hi⟩ := hd
  have hn : Data.null ∉ pre := fun hm => calling_not_null h (by simp [hm])
  have hid : (pre ++ ws).map elem = pre ++ ws := map_elem_id (fun hm => (List.mem_append.1 hm).elim hn hnn)
  have hla : Lst (ofArray (pre ++ ws)) (pre ++ ws) := by
    have := Lst.ofArray (pre ++ ws); rwa [hid] at this
  obtain ⟨r, hp, hr⟩ := hi C _ e s₁ hla
  refine ⟨r, hp, fun r' t => ?_⟩
  rw [apply_iff rfl hlp h]
  simp only [applies_prim (P := ⟨spec, false, false, impl⟩) (hx.trans hP) rfl rfl hw hq (chain_tail hl pre hn) hne hc, hid, hr _ _]
  constructor
  · rintro ⟨_, rfl, rfl, rfl⟩; exact ⟨rfl, rfl⟩
  · rintro ⟨rfl, rfl⟩; exact ⟨_, rfl, rfl, rfl⟩

/-- Library functions applied to such a list do what the manual says about these argument values. -/
theorem C68_library_partial {x : String} {P : Out Data → Prop} {l : Data} {pre ws : List Data}
    (hm : Arithmetic x (pre ++ ws) P ∨ ListWork x (pre ++ ws) P)
    (hx : C.prims x = (std C.host).prims x) (hw : WF s₁) (hq : Means C s₁ e "quote") (hl : Chain l ws) (hlp : isListP l = true)
    (hne : pre ++ ws ≠ []) (hnn : Data.null ∉ ws) (h : Calling C "apply" (.atom (.prim x) :: (pre ++ [l])) d e s s₁) :
    ∃ r, P r ∧ ∀ r' t, Evals C d e s r' t ↔ r' = quoting d r ∧ t = s₁ := by
  have hn : Data.null ∉ pre := fun hm => calling_not_null h (by simp [hm])
  exact does_apply (hm.elim arithmetic_does (fun hm => listWork_does hm (fun h => (List.mem_append.1 h).elim hn hnn)))
    hx hw hq hl hlp hne hnn h

private theorem apply_prog {f : Data} {vs : List Data} (h : Calling C "apply" (f :: vs) d e s s₁) :
    ∃ args, Lst args (f :: vs) ∧ ∀ r t, Evals C d e s r t ↔ ∃ r₀, r = quoting d r₀ ∧ RunsP (body C) (applyImpl C.host args e) s₁ r₀ t :=
  calling_iff h (spec := ">=1".toList) (impl := applyImpl C.host) rfl (count_ge1'' _ (by simp))

/-- The first argument must be a procedure. -/
theorem C68_not_procedure {f : Data} {vs : List Data} (hf : isFuncOrPrim f = false) (h : Calling C "apply" (f :: vs) d e s s₁) :
    Refuses C d e s s₁ := by
  obtain ⟨args, ha, hiff⟩ := apply_prog h
  refine refuses_of hiff (m := "apply requires a function as it's first argument, but got " ++ C.host.show s₁ f ++ ".") fun r t => ?_
  simp only [applyImpl, car_args ha, hf, Bool.not_false, if_true, failShow, runsP_get, runsP_fail]

/-- The last argument must be a list. -/
theorem C68_not_list {f : Data} {pre : List Data} {a : Atom} (hf : isFuncOrPrim f = true)
    (h : Calling C "apply" (f :: (pre ++ [.atom a])) d e s s₁) : Refuses C d e s s₁ := by
  obtain ⟨args, ha, hiff⟩ := apply_prog h
  have h2 : toArray (cdr args) = pre ++ [.atom a] := (cdr_Lst ha).toArray
  have h3 : spread (pre ++ [.atom a]) = .err (.msg "The last argument to apply must be a list") := by
    simp only [spread, List.getLast?_append, List.getLast?_singleton, Option.some_or, isListP, isPair, isAlist, Bool.or_self,
      Bool.false_eq_true, if_false]
  refine refuses_of hiff (m := "The last argument to apply must be a list") fun r t => ?_
  simp only [applyImpl, car_args ha, hf, h2, h3, Bool.not_true, Bool.false_eq_true, if_false, Prog.ofOut]
  rw [runsP_bind_err (runsP_err.2 ⟨rfl, rfl⟩)]

/-- With no argument after the procedure the interpreter panics. -/
theorem C68_no_list_violation {f : Data} (hf : isFuncOrPrim f = true) (h : Calling C "apply" [f] d e s s₁) : Crashes C d e s s₁ := by
  obtain ⟨args, ha, hiff⟩ := apply_prog h
  have h2 : toArray (cdr args) = [] := (cdr_Lst ha).toArray
  refine crashes_of hiff fun r t => ?_
  simp only [applyImpl, car_args ha, hf, h2, spread, List.getLast?_nil, Bool.not_true, Bool.false_eq_true, if_false, Prog.ofOut]
  exact runsP_panic

/-- Applied to the empty list, a primitive gets one argument, the empty list. -/
theorem C68_empty_violation : Demo.Ends "(apply list '())" (.ok (ofArray [emptyCons])) := Demo.ends 20 (by decide +kernel) (by simp)

/-- Applied to a list made by `cons` onto the empty list, a primitive gets one argument too many. -/
theorem C68_open_violation : Demo.Ends "(apply list (cons 1 '()))" (.ok (ofArray [.int 1, emptyCons])) :=
  Demo.ends 20 (by decide +kernel) (by simp)

/-- A special form may be applied; it evaluates its arguments a second time. -/
theorem C68_form_violation : Demo.Ends "(apply if '(#t (+ 1 2) 3))" (.ok (.int 3)) := Demo.ends 20 (by decide +kernel) (by simp)

example : Calling Demo.C "apply" [.atom (.prim "+"), .int 1, ofArray [.int 2, .int 3]] (Demo.code "(apply + 1 '(2 3))") 1 Demo.s Demo.s :=
  Demo.calling 10 (b := true) (xs := [.sym "+", .int 1, Demo.code "'(2 3)"]) (us := [.atom (.prim "+"), .int 1, ofArray [.int 2, .int 3]]) (by decide +kernel) (by decide +kernel)
    (by decide +kernel) (by decide +kernel) rfl (by decide +kernel) (by decide +kernel) rfl
example : Chain (ofArray [.int 2, .int 3]) [.int 2, .int 3] := .cons (.cons .nil)
example : Means Demo.C Demo.s 1 "quote" := Demo.means _ (b := true) (by decide +kernel)
example : Arithmetic "+" ([.int 1] ++ [.int 2, .int 3]) (Gives (.int 6)) := .add [1, 2, 3]
example : Demo.Ends "(apply (lambda (x y) (list y x)) 1 '(2))" (.ok (ofArray [.int 2, .int 1])) := Demo.ends 20 (by decide +kernel) (by simp)
example : Demo.Fails "(apply 5 '(2))" "\nEvaling (apply 5 '(2)). apply requires a function as it's first argument, but got 5." :=
  Demo.fails 20 (by decide +kernel)
example : Demo.Fails "(apply + 5)" "\nEvaling (apply + 5). The last argument to apply must be a list" := Demo.fails 20 (by decide +kernel)

end Golisp.Props
