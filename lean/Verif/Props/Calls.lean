import Verif.CallLemmas
import Verif.Demo
/- C31 (parameters), C32 (evaluation of arguments), C33 (lexical scope). -/
namespace Golisp.Props
open Golisp Data Ev Spec

variable {C : Conf} {e : Nat} {s : Store} {r : Out Data} {s' : Store}

private theorem lst_args {xs : List Data} (hn : Data.null ∉ xs) : Lst (ofArray xs) xs := by
  have := Lst.ofArray xs; rwa [map_elem_id hn] at this

/-! ### C31: parameters -/

/-- Calling a user function with argument values is `CallsV`: with a fitting number of values, one new environment below
the function's own holds exactly the bindings of `selfBind` and `paramBinds` and the body runs in it; with any other
number the outcome is an error and nothing is evaluated. -/
theorem C31_apply {i : Nat} {fr : FnRec} (hi : s.fns[i]? = some fr) (hg : GoodFn s fr) {args : Data} {vs : List Data}
    (ha : Lst args vs) :
    Applies C (.atom (.func i)) args e s r s' ↔ CallsV C i vs e (frameFor s fr.slot e) s r s' := by
  unfold Applies
  rw [runs_iff]
  simp only [body, applyNoEval]
  rw [runsP_get, callFrame_eq hi, runsP_callFn_values hi hg ha]

/-- Position of the last binding of a name. -/
private theorem find_last {B : List (String × Data)} {x : String} {v : Data} (h : (B.map (·.1)).Nodup) (hm : (x, v) ∈ B) :
    B.reverse.find? (·.1 == x) = some (x, v) := by
  induction B with
  | nil => cases hm
  | cons p B ih =>
    simp only [List.map_cons, List.nodup_cons] at h
    simp only [List.reverse_cons, List.find?_append]
    rcases List.mem_cons.mp hm with rfl | hm
    · have : B.reverse.find? (·.1 == x) = none := by
        rw [List.find?_eq_none]
        intro q hq hqx
        simp only [beq_iff_eq] at hqx
        exact h.1 (List.mem_map.mpr ⟨q, List.mem_reverse.mp hq, hqx⟩)
      simp [this]
    · rw [ih h.2 hm]; rfl

private theorem zip_keys : ∀ (ps : List String) (vs : List Data), (ps.zip vs).map (·.1) = ps.take vs.length
  | [], _ => by simp
  | _ :: _, [] => by simp
  | p :: ps, v :: vs => by simp [zip_keys ps vs]

private theorem find?_append_right {α : Type} {p : α → Bool} (A B : List α) {a : α} (h : B.reverse.find? p = some a) :
    (A ++ B).reverse.find? p = some a := by
  rw [List.reverse_append, List.find?_append, h]; rfl

/-- What the environment of a call holds on entry: with distinct parameter names, the `j`-th parameter is bound to the
`j`-th argument value. -/
theorem C31_param {ps : List String} {rest : Option String} {vs : List Data} (hnd : (ps ++ rest.toList).Nodup)
    (hf : Fits ps rest vs.length) {p : Nat} {pr : EnvRec} {frame : Option Nat} {name : String} {self : List (String × Data)}
    {j : Nat} {x : String} {v : Data} (hx : ps[j]? = some x) (hv : vs[j]? = some v) :
    (pushEnv s p pr frame name (self ++ paramBinds ps rest vs)).localB s.envs.length x = some ⟨v, false⟩ := by
  rw [pushEnv_localB, alGet_binds]
  have hl : ps.length ≤ vs.length := by cases rest <;> simp [Fits] at hf <;> omega
  have hkeys : ((paramBinds ps rest vs).map (·.1)) = ps ++ rest.toList := by
    simp only [paramBinds, List.map_append, zip_keys, List.take_of_length_le hl]
    cases rest <;> rfl
  have hm : (x, v) ∈ paramBinds ps rest vs := by
    refine List.mem_append_left _ (List.mem_iff_getElem?.mpr ⟨j, ?_⟩)
    rw [List.getElem?_zip_eq_some]; exact ⟨hx, hv⟩
  rw [find?_append_right _ _ (find_last (by rw [hkeys]; exact hnd) hm)]
  rfl

/-- The rest parameter is bound to the list of the remaining values, in order. -/
theorem C31_rest {ps : List String} {y : String} {vs : List Data} {p : Nat} {pr : EnvRec} {frame : Option Nat}
    {name : String} {self : List (String × Data)} (hn : Data.null ∉ vs) :
    ∃ d, (pushEnv s p pr frame name (self ++ paramBinds ps (some y) vs)).localB s.envs.length y = some ⟨d, false⟩ ∧
      Lst d (vs.drop ps.length) := by
  refine ⟨_, ?_, lst_args (fun h => hn (List.mem_of_mem_drop h))⟩
  rw [pushEnv_localB, alGet_binds, paramBinds]
  simp

/-- Nothing else is bound in it: a name that is neither a parameter nor `self`. -/
theorem C31_only {ps : List String} {rest : Option String} {vs : List Data} {p : Nat} {pr : EnvRec} {frame : Option Nat}
    {name : String} {slot : Bool} {x : String} (hx : x ∉ ps) (hr : rest ≠ some x) (hs : x ≠ "self") :
    (pushEnv s p pr frame name (selfBind s slot frame e ++ paramBinds ps rest vs)).localB s.envs.length x = none := by
  rw [pushEnv_localB, alGet_binds]
  have : (selfBind s slot frame e ++ paramBinds ps rest vs).reverse.find? (·.1 == x) = none := by
    rw [List.find?_eq_none]
    intro q hq hqx
    simp only [beq_iff_eq] at hqx
    rcases List.mem_append.mp (List.mem_reverse.mp hq) with hq | hq
    · have : q.1 = "self" := by
        simp only [selfBind] at hq
        repeat' split at hq
        all_goals simp at hq
        all_goals rw [hq]
      exact hs (hqx.symm.trans this)
    · rcases List.mem_append.mp hq with hq | hq
      · have : q.1 ∈ ps := (List.of_mem_zip (a := q.1) (b := q.2) hq).1
        exact hx (hqx ▸ this)
      · cases rest with
        | none => simp at hq
        | some y => simp only [List.mem_singleton] at hq; subst hq; exact hr (by rw [← hqx])
  rw [this]; rfl

/-- Any other number of arguments: an error, the body does not run, no argument is evaluated, and nothing that existed
before has changed. -/
theorem C31_wrong_count {h t : Data} (hs : shortcuts (.cons h t) = .cons h t) (hh : h ≠ .null) {i : Nat} {s₁ : Store}
    (hop : EvalsOp C h e s (.ok (.atom (.func i))) s₁) {fr : FnRec} (hi : s₁.fns[i]? = some fr) (hg : GoodFn s₁ fr)
    {ps : List String} {rest : Option String} (hp : Params fr.params ps rest) {xs : List Data} (ht : Lst t xs)
    (hf : ¬ Fits ps rest xs.length) :
    ∃ m s₂, (∀ r s', Evals C (.cons h t) e s r s' ↔ r = .err (.evaling (.cons h t) (.msg m)) ∧ s' = s₂) ∧
      s₂.envs.take s₁.envs.length = s₁.envs ∧ s₂.fns = s₁.fns ∧ s₂.macs = s₁.macs ∧ s₂.frames = s₁.frames ∧
      s₂.gens = s₁.gens ∧ s₂.out = s₁.out ∧ s₂.stdout = s₁.stdout ∧ s₂.words = s₁.words := by
  obtain ⟨pr, hpr⟩ := hg.1
  refine ⟨fr.name ++ " expected " ++ (if rest.isSome then "at least " else "") ++ numText ps.length ++
      " parameters, received " ++ numText xs.length ++ ".",
    pushEnv s₁ fr.env pr (frameFor s₁ fr.slot e) fr.name (selfBind s₁ fr.slot (frameFor s₁ fr.slot e) e),
    fun r s' => ?_, by simp [pushEnv], rfl, rfl, rfl, rfl, rfl, rfl, rfl⟩
  rw [evals_comb hs hh hop rfl]
  simp only [apply, runsP_get, callFrame_eq hi, runsP_callFn_exprs hi hg ht]
  constructor
  · rintro ⟨r₀, hr, rfl⟩
    cases hr with
    | count hi' hpr' hp' hf' hm =>
      rw [hi] at hi'; cases hi'; rw [hpr] at hpr'; cases hpr'
      obtain ⟨rfl, rfl⟩ := Params.unique hp hp'
      exact ⟨by rw [hm]; rfl, rfl⟩
    | run hi' hpr' hp' hb' hf' =>
      rw [hi] at hi'; cases hi'
      obtain ⟨rfl, rfl⟩ := Params.unique hp hp'
      exact absurd hf' hf
    | argErr hi' hpr' hp' hf' =>
      rw [hi] at hi'; cases hi'
      obtain ⟨rfl, rfl⟩ := Params.unique hp hp'
      exact absurd hf' hf
    | argPanic hi' hpr' hp' hf' =>
      rw [hi] at hi'; cases hi'
      obtain ⟨rfl, rfl⟩ := Params.unique hp hp'
      exact absurd hf' hf
  · rintro ⟨rfl, rfl⟩
    exact ⟨_, .count hi hpr hp hf rfl, rfl⟩

/-! ### C32: arguments -/

/-- A call of a user function by an expression: after the operator, the arguments are evaluated one by one from left to
right in the caller's environment, each value being bound as soon as it is known (`CallsG`, `Binds`); the body runs only
when all have returned. -/
theorem C32_user {h t : Data} (hs : shortcuts (.cons h t) = .cons h t) (hh : h ≠ .null) {i : Nat} {s₁ : Store}
    (hop : EvalsOp C h e s (.ok (.atom (.func i))) s₁) {fr : FnRec} (hi : s₁.fns[i]? = some fr) (hg : GoodFn s₁ fr)
    {xs : List Data} (ht : Lst t xs) :
    Evals C (.cons h t) e s r s' ↔ ∃ r₀, r = quoting (.cons h t) r₀ ∧
      CallsG C (fun a => Evals C a e) i xs e (frameFor s₁ fr.slot e) s₁ r₀ s' := by
  rw [evals_comb hs hh hop rfl]
  simp only [apply, runsP_get, callFrame_eq hi, runsP_callFn_exprs hi hg ht]
  exact exists_congr fun _ => and_comm

/-- A call of an ordinary primitive: all arguments are evaluated, once each, from left to right, in the caller's
environment, and the primitive gets the values; it does not run if one fails. -/
theorem C32_primitive {h t : Data} (hs : shortcuts (.cons h t) = .cons h t) (hh : h ≠ .null) {x : String} {s₁ : Store}
    (hop : EvalsOp C h e s (.ok (.atom (.prim x))) s₁) {P : PrimDef} (hP : C.prims x = some P) (hsp : P.special = false)
    (hre : (P.restricted && s₁.restrictedEnv e) = false) {xs : List Data} (ht : Lst t xs)
    (hc : Arity.checkArgumentCount (Arity.parseNumArgs P.args) xs.length = true) :
    Evals C (.cons h t) e s r s' ↔ ∃ r₀, r = quoting (.cons h t) r₀ ∧
      ((∃ vs s₂, Args C e xs s₁ (.ok vs) s₂ ∧ RunsP (body C) (P.body (ofArray vs) e) s₂ r₀ s') ∨
       (∃ er, Args C e xs s₁ (.err er) s' ∧ r₀ = .err er) ∨ (Args C e xs s₁ .panic s' ∧ r₀ = .panic)) := by
  rw [evals_comb hs hh hop rfl]
  refine exists_congr fun r₀ => ?_
  rw [and_comm]
  refine and_congr Iff.rfl ?_
  simp only [apply, primApply, hP, runsP_get, hre, hsp, ht.length, ht.toArray, hc, Bool.not_true, Bool.false_eq_true, if_false]
  rw [runsP_bind]
  simp only [runsP_evalAll]

/-- A wrong number of arguments to a primitive is reported before any argument is evaluated. -/
theorem C32_primitive_count {h t : Data} (hs : shortcuts (.cons h t) = .cons h t) (hh : h ≠ .null) {x : String} {s₁ : Store}
    (hop : EvalsOp C h e s (.ok (.atom (.prim x))) s₁) {P : PrimDef} (hP : C.prims x = some P)
    (hre : (P.restricted && s₁.restrictedEnv e) = false) {xs : List Data} (ht : Lst t xs)
    (hc : Arity.checkArgumentCount (Arity.parseNumArgs P.args) xs.length = false) :
    ∃ m, ∀ r s', Evals C (.cons h t) e s r s' ↔ r = .err (.evaling (.cons h t) (.msg m)) ∧ s' = s₁ := by
  refine ⟨"Wrong number of args to " ++ x ++ ", expected " ++ String.ofList (Arity.argsString (Arity.parseNumArgs P.args)) ++
    " but got " ++ numText xs.length ++ ".", fun r s' => ?_⟩
  rw [evals_comb hs hh hop rfl]
  simp only [apply, primApply, hP, runsP_get, hre, ht.length, hc, Bool.not_false, Bool.false_eq_true, if_false, if_true,
    runsP_fail]
  constructor
  · rintro ⟨r₀, ⟨rfl, rfl⟩, rfl⟩; exact ⟨rfl, rfl⟩
  · rintro ⟨rfl, rfl⟩; exact ⟨_, ⟨rfl, rfl⟩, rfl⟩

/-- When an argument fails, the later ones play no part: whatever they are, the outcome and the state are the same. -/
theorem C32_stops_at_failure {G : Data → Store → Out Data → Store → Prop} {pre : List Data} {vs : List Data} {s₁ : Store}
    (h : Each G pre s (.ok vs) s₁) {x : Data} {er : Err} (hx : G x s₁ (.err er) s') (post : List Data) :
    Each G (pre ++ x :: post) s (.err er) s' := by
  induction pre generalizing s vs with
  | nil => cases h; exact .err hx
  | cons y pre ih => cases h with | next h1 h2 => exact .errLater h1 (ih h2)

/-- When all return, there are as many values as arguments: each was evaluated once. -/
theorem C32_once {G : Data → Store → Out Data → Store → Prop} {xs vs : List Data} (h : Each G xs s (.ok vs) s') :
    vs.length = xs.length := by
  induction xs generalizing s vs with
  | nil => cases h; rfl
  | cons x xs ih => cases h with | next _ h2 => simp [ih h2]

/-! ### C33: lexical scope -/

/-- `lambda` remembers the environment it is evaluated in, its parameters and its body. -/
theorem C33_lambda (hw : WF s) (hm : Means C s e "lambda") {t params : Data} {bs : List Data} (ht : Lst t (params :: bs))
    (hp : isPair params = true) (hn : Data.null ∉ params :: bs) :
    ∃ fr : FnRec, fr.env = e ∧ fr.params = params ∧ Lst fr.body bs ∧
      ∀ r s', Evals C (.cons (.sym "lambda") t) e s r s' ↔
        r = .ok (.atom (.func s.fns.length)) ∧ s' = { s with fns := s.fns ++ [fr] } := by
  have hl := lst_args hn
  refine ⟨⟨"unnamed", params, cdr (ofArray (params :: bs)), e, false⟩, rfl, rfl, cdr_Lst hl, fun r s' => ?_⟩
  rw [evals_form (P := ⟨">=1".toList, true, false, lambdaImpl⟩) hw hm rfl (fun _ => rfl) rfl rfl rfl ht (count_ge1 (by simp))]
  have c1 : car (ofArray (params :: bs)) = params := by rw [car_Lst hl]; rfl
  show (∃ r₀, RunsP (body C) (lambdaImpl _ e) s r₀ s' ∧ _) ↔ _
  simp only [lambdaImpl, c1, hp, Bool.not_true, Bool.false_eq_true, if_false, runsP_mkFn]
  constructor
  · rintro ⟨r₀, ⟨rfl, rfl⟩, rfl⟩; exact ⟨rfl, rfl⟩
  · rintro ⟨rfl, rfl⟩; exact ⟨_, ⟨rfl, rfl⟩, rfl⟩

/-- So does `named-lambda`. -/
theorem C33_named_lambda (hw : WF s) (hm : Means C s e "named-lambda") {t params : Data} {name : String} {bs : List Data}
    (ht : Lst t (.cons (.sym name) params :: bs)) (hn : Data.null ∉ bs) :
    ∃ fr : FnRec, fr.env = e ∧ fr.name = name ∧ fr.params = params ∧ Lst fr.body bs ∧
      ∀ r s', Evals C (.cons (.sym "named-lambda") t) e s r s' ↔
        r = .ok (.atom (.func s.fns.length)) ∧ s' = { s with fns := s.fns ++ [fr] } := by
  have hl : Lst (ofArray (.cons (.sym name) params :: bs)) (.cons (.sym name) params :: bs) := lst_args (by simpa using hn)
  refine ⟨⟨name, params, cdr (ofArray (.cons (.sym name) params :: bs)), e, false⟩, rfl, rfl, rfl, cdr_Lst hl, fun r s' => ?_⟩
  rw [evals_form (P := ⟨">=1".toList, true, false, namedLambdaImpl⟩) hw hm rfl (fun _ => rfl) rfl rfl rfl ht (count_ge1 (by simp))]
  have c1 : car (ofArray (.cons (.sym name) params :: bs)) = .cons (.sym name) params := by rw [car_Lst hl]; rfl
  show (∃ r₀, RunsP (body C) (namedLambdaImpl (ofArray (.cons (.sym name) params :: bs)) e) s r₀ s' ∧ _) ↔ _
  have hb : namedLambdaImpl (ofArray (.cons (.sym name) params :: bs)) e =
      mkFn name params (cdr (ofArray (.cons (.sym name) params :: bs))) e := by simp only [namedLambdaImpl, c1]; rfl
  simp only [hb, runsP_mkFn]
  constructor
  · rintro ⟨r₀, ⟨rfl, rfl⟩, rfl⟩; exact ⟨rfl, rfl⟩
  · rintro ⟨rfl, rfl⟩; exact ⟨_, ⟨rfl, rfl⟩, rfl⟩

/-- Nothing that happens later changes the environment, parameters or body of a procedure. -/
theorem C33_fixed {d : Data} (h : Evals C d e s r s') {i : Nat} {fr : FnRec} (hi : s.fns[i]? = some fr) :
    ∃ fr', s'.fns[i]? = some fr' ∧ fr'.env = fr.env ∧ fr'.params = fr.params ∧ fr'.body = fr.body ∧ fr'.name = fr.name := by
  obtain ⟨b, hb⟩ := (runs_keeps keeps_grows h).fns i fr hi
  exact ⟨_, hb, rfl, rfl, rfl, rfl⟩

/-- In a call, from entry on and whatever happens, a variable that is not local to the call refers to the binding seen
from the environment the procedure was created in. -/
theorem C33_free_variable {p : Nat} {pr : EnvRec} {frame : Option Nat} {name : String} {B : List (String × Data)} {s₂ : Store}
    (h : Grows (pushEnv s p pr frame name B) s₂) {x : String} (hx : s₂.localB s.envs.length x = none) {f : Nat} {b : Binding} :
    Visible s₂ s.envs.length x f b ↔ Visible s₂ p x f b := by
  have hpar : s₂.parentOf s.envs.length = some p := by
    obtain ⟨r', hr', hle⟩ := h.envs _ _ (pushEnv_top s p pr frame name B)
    simp only [Store.parentOf, hr', hle.parent]
  constructor
  · intro hv
    cases hv with
    | here hb => rw [hx] at hb; cases hb
    | up _ hp hv => rw [hpar] at hp; cases hp; exact hv
  · intro hv; exact .up hx hpar hv

/-- Nothing else of the call site matters: a procedure applied to the same values from anywhere else does the same.  (A
function found in a slot or a local variable runs in the caller's frame, C48.) -/
theorem C33_call_site {i : Nat} {fr : FnRec} (hi : s.fns[i]? = some fr) (hg : GoodFn s fr) (hsl : fr.slot = false) {args : Data}
    {vs : List Data} (ha : Lst args vs) (e₁ e₂ : Nat) :
    Applies C (.atom (.func i)) args e₁ s r s' ↔ Applies C (.atom (.func i)) args e₂ s r s' := by
  have hb : ∀ a, selfBind s fr.slot (frameFor s fr.slot a) a = [] := fun a => by rw [hsl]; rfl
  have key : ∀ a b, CallsV C i vs a (frameFor s fr.slot a) s r s' → CallsV C i vs b (frameFor s fr.slot b) s r s' := by
    intro a b h
    have hf : frameFor s fr.slot a = frameFor s fr.slot b := by rw [hsl]; rfl
    cases h with
    | run h1 h2 h3 h4 h5 h6 =>
      rw [hi] at h1; cases h1
      rw [hb, hf] at h6
      exact .run hi h2 h3 h4 h5 (by rw [hb]; exact h6)
    | count h1 h2 h3 h4 h5 =>
      rw [hi] at h1; cases h1
      have := CallsV.count (C := C) (ae := b) (frame := frameFor s fr.slot b) hi h2 h3 h4 h5
      rw [hb] at this
      rw [hb, hf]
      exact this
  rw [C31_apply hi hg ha, C31_apply hi hg ha]
  exact ⟨key _ _, key _ _⟩

theorem _root_.Golisp.Spec.Visible.encloses {x : String} {f : Nat} {b : Binding} (h : Visible s e x f b) : Encloses s f e := by
  induction h with
  | here => exact .refl
  | up _ hp _ ih => exact .up hp ih

theorem _root_.Golisp.Spec.Visible.found {x : String} {f : Nat} {b : Binding} (h : Visible s e x f b) : s.localB f x = some b := by
  induction h with
  | here h => exact h
  | up _ _ _ ih => exact ih

/-- The environments around one that existed before are what they were. -/
theorem encloses_old (h : Grows s s') (hw : WF s) {f e : Nat} (he : e < s.envs.length) :
    Encloses s' f e ↔ Encloses s f e := by
  have par : ∀ e, e < s.envs.length → s'.parentOf e = s.parentOf e := by
    intro e he
    obtain ⟨r', hr', hle⟩ := h.envs e s.envs[e] (List.getElem?_eq_getElem he)
    simp only [Store.parentOf, hr', hle.parent, List.getElem?_eq_getElem he]
  have lt : ∀ e p, s.parentOf e = some p → p < e := by
    intro e p hp
    simp only [Store.parentOf] at hp
    cases hr : s.envs[e]? with
    | none => simp [hr] at hp
    | some r => simp only [hr] at hp; exact hw e r p hr hp
  constructor
  · intro hx
    induction hx with
    | refl => exact .refl
    | @up a p hp _ ih =>
      rw [par _ he] at hp
      exact .up hp (ih (by have := lt _ _ hp; omega))
  · intro hx
    induction hx with
    | refl => exact .refl
    | @up a p hp _ ih =>
      exact .up ((par _ he).trans hp) (ih (by have := lt _ _ hp; omega))

/-- After any evaluation, what the caller's environment sees is still held by the environments that were around it
before: bindings made in environments created meanwhile (calls, `let`, …) are not visible to it. -/
theorem C33_invisible_after {d : Data} {e₁ : Nat} (h : Evals C d e₁ s r s') (hw : WF s) (he : e < s.envs.length) {x : String}
    {f : Nat} {b : Binding} (hv : Visible s' e x f b) : Encloses s f e ∧ f < s.envs.length := by
  have henc := (encloses_old (runs_keeps keeps_grows h) hw he).mp hv.encloses
  refine ⟨henc, ?_⟩
  clear hv
  induction henc with
  | refl => exact he
  | @up a p hp _ ih =>
    apply ih
    simp only [Store.parentOf] at hp
    cases hr : s.envs[a]? with
    | none => simp [hr] at hp
    | some r => simp only [hr] at hp; have := hw _ r p hr hp; omega

/-! ### The rest parameter without required ones -/

section
open Demo

/-- `(define (f . rest) …)` and `(named-lambda (f . rest) …)` never bind `rest` (`function.go:66-93` starts
accumulating only after a required parameter): `rest` is unbound in the body, so its value is `()` whatever the arguments;
with one required parameter it works. -/
theorem C31_rest_only_violation :
    Ends "((named-lambda (f . more) more) 1 2 3)" (.ok emptyCons) ∧
    Ends "((named-lambda (f a . more) more) 1 2 3)" (.ok (ofArray [int 2, int 3])) :=
  ⟨ends 20 (by decide +kernel) (by simp), ends 20 (by decide +kernel) (by simp)⟩

example : Params (cdr (code "(f a b . rest)")) ["a", "b"] (some "rest") := by
  rw [show cdr (code "(f a b . rest)") = cons (sym "a") (cons (sym "b") (sym "rest")) from by decide +kernel]
  exact .cons (.cons .rest)
example : Ends "(begin (define (f a b . c) (list c b a)) (f 1 2 3 4))" (.ok (ofArray [ofArray [int 3, int 4], int 2, int 1])) :=
  ends 20 (by decide +kernel) (by simp)
example : Writes "(begin (define (f a b) (write-line 0)) (on-error (f (begin (write-line 1) 1)) (lambda (m) (write-line m))))" (.ok null)
    ["\nEvaling (f (begin (write-line 1) 1)). f expected 2 parameters, received 1."] :=
  writes 20 (by decide +kernel) (by decide +kernel) (by simp)
example : Writes "(on-error (+ (begin (write-line 1) 1) (error \"stop\") (begin (write-line 3) 3)) (lambda (m) 9))" (.ok (int 9)) ["1"] :=
  writes 20 (by decide +kernel) (by decide +kernel) (by simp)
example : Ends "(begin (define x 1) (define (f) x) (let ((x 2)) (f)))" (.ok (int 1)) :=
  ends 20 (by decide +kernel) (by simp)
example : Ends "(begin (define (make) (let ((n 0)) (lambda () (set! n (+ n 1)) n))) (define c (make)) (define d (make)) (c) (c) (d) (c))"
    (.ok (int 3)) := ends 20 (by decide +kernel) (by simp)
end

end Golisp.Props
