import Verif.EvalSpec
import Verif.EvalPrims
import Verif.FrameLemmas
import Verif.ProgLemmas
import Verif.ListLemmas
/-
Which calls of the evaluator pass an error on.  The specification part says what it is for one evaluation to be part of
another and which evaluations are guarded; the rest shows that every program of the interpreter is made so that only a
guarded call can end in an error without the program ending in it.
-/
namespace Golisp.Spec
open Golisp Data Ev

/-- While program `p` runs from state `s`, the interpreter starts the call `c` in state `s₁`. -/
inductive Starts {α : Type} (B : Call → Prog Data) : Prog α → Store → Call → Store → Prop where
  | get {k s c s₁} : Starts B (k s) s c s₁ → Starts B (.get k) s c s₁
  | done {o k s n s' c s₁} : o.run s = (.ok n, s') → Starts B (k (.ok n)) s' c s₁ → Starts B (.act o k) s c s₁
  | refused {o k s e s' c s₁} : o.run s = (.err e, s') → Starts B (k (.error e)) s' c s₁ → Starts B (.act o k) s c s₁
  | here {c k s} : Starts B (.call c k) s c s
  | returned {c₀ k s v s' c s₁} : Runs B c₀ s (.ok v) s' → Starts B (k (.ok v)) s' c s₁ → Starts B (.call c₀ k) s c s₁
  | failed {c₀ k s e s' c s₁} : Runs B c₀ s (.err e) s' → Starts B (k (.error e)) s' c s₁ → Starts B (.call c₀ k) s c s₁

/-- The call `c'`, started in `s'`, is part of the call `c`, started in `s`: `c` itself, a call that `c` starts, a call
that this one starts, and so on, never through a guarded call. -/
inductive Within (B : Call → Prog Data) (G : Call → Store → Call → Prop) : Call → Store → Call → Store → Prop where
  | self {c s} : Within B G c s c s
  | down {c s c₁ s₁ c' s'} : Starts B (B c) s c₁ s₁ → ¬ G c s c₁ → Within B G c₁ s₁ c' s' → Within B G c s c' s'

/-- The evaluations whose errors do not reach the call they belong to: the first argument of `on-error`, and the step
expressions of `do`. -/
inductive Guarded (C : Conf) : Call → Store → Call → Prop where
  | onError {need d e s s₁} : EvalsOp C (car (shortcuts d)) e s (.ok (.atom (.prim "on-error"))) s₁ →
      Guarded C (.eval need d e) s (.eval false (elem (car (cdr (shortcuts d)))) e)
  | onErrorApplied {args e s} : Guarded C (.app (.atom (.prim "on-error")) args e) s (.eval false (elem (car args)) e)
  | step {bindings test bd res e s b} : b ∈ toArray bindings →
      Guarded C (.doLoop bindings test bd res e) s (.eval false (nth b 3) e)

/-- The primitives that replace an error of the procedure they are given by one of their own. -/
def searchers : List String := ["find", "find-tail", "memp"]

/-- The calls whose errors are so replaced. -/
inductive Replaced (C : Conf) : Call → Store → Call → Prop where
  | search {need d e s s₁ x f l} : x ∈ searchers → EvalsOp C (car (shortcuts d)) e s (.ok (.atom (.prim x))) s₁ →
      Replaced C (.eval need d e) s (.app f l e)
  | searchApplied {x args e s f l} : x ∈ searchers → Replaced C (.app (.atom (.prim x)) args e) s (.app f l e)

/-- `e'` is the error `e` with the expressions and functions it passed through added. -/
inductive Cause (e : Err) : Err → Prop where
  | same : Cause e e
  | evaling {d e'} : Cause e e' → Cause e (.evaling d e')
  | inFn {n e'} : Cause e e' → Cause e (.inFn n e')

end Golisp.Spec

namespace Golisp.Ev
open Golisp Data Spec

variable {α β : Type} {R G : Call → Prop}

theorem cause_trans {a b c : Err} (h : Cause a b) (h' : Cause b c) : Cause a c := by
  induction h' with
  | same => exact h
  | evaling _ ih => exact .evaling ih
  | inFn _ ih => exact .inFn ih

/-- Every call of the program that ends in an error ends the program with it, unless `R` holds of the call, and then the
program ends with another error, or `G` holds of the call. -/
inductive Strict (R G : Call → Prop) : Prog α → Prop where
  | ret {a} : Strict R G (.ret a)
  | err {e} : Strict R G (.err e)
  | panic : Strict R G .panic
  | get {k} : (∀ s, Strict R G (k s)) → Strict R G (.get k)
  | act {o k} : (∀ r, Strict R G (k r)) → Strict R G (.act o k)
  | call {c k} : (∀ v, Strict R G (k (.ok v))) → (∀ e, ∃ e', k (.error e) = .err e' ∧ (R c ∨ Cause e e')) → Strict R G (.call c k)
  | guarded {c k} : G c → (∀ r, Strict R G (k r)) → Strict R G (.call c k)

/-- All calls of the program satisfy `G`. -/
inductive Only (G : Call → Prop) : Prog α → Prop where
  | ret {a} : Only G (.ret a)
  | err {e} : Only G (.err e)
  | panic : Only G .panic
  | get {k} : (∀ s, Only G (k s)) → Only G (.get k)
  | act {o k} : (∀ r, Only G (k r)) → Only G (.act o k)
  | call {c k} : G c → (∀ r, Only G (k r)) → Only G (.call c k)

variable {B : Call → Prog Data}

theorem runsP_call {c : Call} {k : Except Err Data → Prog α} {s : Store} {r : Out α} {s' : Store} :
    RunsP B (.call c k) s r s' ↔
      (∃ v s₁, Runs B c s (.ok v) s₁ ∧ RunsP B (k (.ok v)) s₁ r s') ∨
      (∃ e s₁, Runs B c s (.err e) s₁ ∧ RunsP B (k (.error e)) s₁ r s') ∨ (Runs B c s .panic s' ∧ r = .panic) := by
  have h : (Prog.call c k : Prog α) = (Prog.call c Prog.ofExcept).attempt k := by
    show _ = Prog.call c _
    congr 1
    funext r
    cases r <;> rfl
  rw [h, runsP_attempt]
  have h' : ∀ r s', RunsP B (Prog.call c Prog.ofExcept) s r s' ↔ Runs B c s r s' := by
    intro r s'
    simp only [RunsP, Runs]
    refine exists_congr fun n => ?_
    rw [interp_call]
    generalize recN B n c s = x
    rcases x with ⟨_ | _ | _ | _, _⟩ <;> rfl
  simp only [h']

theorem runsP_act {o : Op} {k : Except Err Nat → Prog α} {s : Store} {r : Out α} {s' : Store} :
    RunsP B (.act o k) s r s' ↔
      (∃ v s₁, o.run s = (.ok v, s₁) ∧ RunsP B (k (.ok v)) s₁ r s') ∨
      (∃ e s₁, o.run s = (.err e, s₁) ∧ RunsP B (k (.error e)) s₁ r s') ∨ (o.run s = (.panic, s') ∧ r = .panic) := by
  have h : (Prog.act o k : Prog α) = (Prog.op o).attempt k := by
    show _ = Prog.act o _
    congr 1
    funext r
    cases r <;> rfl
  rw [h, runsP_attempt]
  simp only [runsP_op]

/-- A failing call ends the program that started it. -/
theorem strict_starts {p : Prog α} (hp : Strict R G p) : ∀ {s c s₁ e s₂}, Starts B p s c s₁ → ¬ G c →
    Runs B c s₁ (.err e) s₂ → ∃ e', RunsP B p s (.err e') s₂ ∧ (R c ∨ Cause e e') := by
  induction hp with
  | ret => intro s c s₁ e s₂ h; cases h
  | err => intro s c s₁ e s₂ h; cases h
  | panic => intro s c s₁ e s₂ h; cases h
  | get _ ih =>
    intro s c s₁ e s₂ h hg hr
    cases h with
    | get h => exact ih _ h hg hr
  | act _ ih =>
    intro s c s₁ e s₂ h hg hr
    cases h with
    | done ho h =>
      obtain ⟨e', h1, h2⟩ := ih _ h hg hr
      exact ⟨e', runsP_act.mpr (Or.inl ⟨_, _, ho, h1⟩), h2⟩
    | refused ho h =>
      obtain ⟨e', h1, h2⟩ := ih _ h hg hr
      exact ⟨e', runsP_act.mpr (Or.inr (Or.inl ⟨_, _, ho, h1⟩)), h2⟩
  | call _ he ih =>
    intro s c s₁ e s₂ h hg hr
    cases h with
    | here =>
      obtain ⟨e', h1, h2⟩ := he e
      exact ⟨e', runsP_call.mpr (Or.inr (Or.inl ⟨_, _, hr, by rw [h1]; exact runsP_err.mpr ⟨rfl, rfl⟩⟩)), h2⟩
    | returned ho h =>
      obtain ⟨e', h1, h2⟩ := ih _ h hg hr
      exact ⟨e', runsP_call.mpr (Or.inl ⟨_, _, ho, h1⟩), h2⟩
    | failed ho h =>
      obtain ⟨e', h1, h2⟩ := he _
      rw [h1] at h
      cases h
  | guarded hc _ ih =>
    intro s c s₁ e s₂ h hg hr
    cases h with
    | here => exact absurd hc hg
    | returned ho h =>
      obtain ⟨e', h1, h2⟩ := ih _ h hg hr
      exact ⟨e', runsP_call.mpr (Or.inl ⟨_, _, ho, h1⟩), h2⟩
    | failed ho h =>
      obtain ⟨e', h1, h2⟩ := ih _ h hg hr
      exact ⟨e', runsP_call.mpr (Or.inr (Or.inl ⟨_, _, ho, h1⟩)), h2⟩

/-- A panic in a call ends the program that started it. -/
theorem starts_panic {p : Prog α} {s c s₁ s₂} (h : Starts B p s c s₁) (hr : Runs B c s₁ .panic s₂) :
    RunsP B p s .panic s₂ := by
  induction h with
  | get _ ih => exact runsP_get.mpr (ih hr)
  | done ho _ ih => exact runsP_act.mpr (Or.inl ⟨_, _, ho, ih hr⟩)
  | refused ho _ ih => exact runsP_act.mpr (Or.inr (Or.inl ⟨_, _, ho, ih hr⟩))
  | here => exact runsP_call.mpr (Or.inr (Or.inr ⟨hr, rfl⟩))
  | returned ho _ ih => exact runsP_call.mpr (Or.inl ⟨_, _, ho, ih hr⟩)
  | failed ho _ ih => exact runsP_call.mpr (Or.inr (Or.inl ⟨_, _, ho, ih hr⟩))

/-! ### The combinators -/

theorem strict_pure {a : α} : Strict R G (pure a : Prog α) := .ret
theorem strict_fail {m : String} : Strict R G (.fail m : Prog α) := .err
theorem strict_failShow {H : Host} {a b : String} {d : Data} : Strict R G (failShow H a d b : Prog α) := .get fun _ => .err

theorem strict_bind {p : Prog α} {f : α → Prog β} (hp : Strict R G p) (hf : ∀ a, Strict R G (f a)) : Strict R G (p >>= f) := by
  show Strict R G (p.bind f)
  induction hp with
  | ret => exact hf _
  | err => exact .err
  | panic => exact .panic
  | get _ ih => exact .get ih
  | act _ ih => exact .act ih
  | call _ he ih =>
    refine .call ih fun e => ?_
    obtain ⟨e', h, h'⟩ := he e
    exact ⟨e', by rw [h]; rfl, h'⟩
  | guarded hc _ ih => exact .guarded hc ih

/-- An error passed on with something added. -/
theorem strict_attempt {p : Prog α} {f : Except Err α → Prog β} (hp : Strict R G p) (hf : ∀ a, Strict R G (f (.ok a)))
    (he : ∀ e, ∃ e', f (.error e) = .err e' ∧ Cause e e') : Strict R G (p.attempt f) := by
  have hs : ∀ e, Strict R G (f (.error e)) := fun e => by obtain ⟨e', h, _⟩ := he e; rw [h]; exact .err
  induction hp with
  | ret => exact hf _
  | err => exact hs _
  | panic => exact .panic
  | get _ ih => exact .get ih
  | act _ ih => exact .act ih
  | call _ he' ih =>
    refine .call ih fun e => ?_
    obtain ⟨e', h, h'⟩ := he' e
    obtain ⟨e'', h1, h2⟩ := he e'
    exact ⟨e'', by rw [h]; exact h1, h'.imp_right fun x => cause_trans x h2⟩
  | guarded hc _ ih => exact .guarded hc ih

/-- Errors of guarded calls may be dealt with in any way. -/
theorem strict_attempt_only {p : Prog α} {f : Except Err α → Prog β} (hp : Only G p) (hf : ∀ r, Strict R G (f r)) :
    Strict R G (p.attempt f) := by
  induction hp with
  | ret => exact hf _
  | err => exact hf _
  | panic => exact .panic
  | get _ ih => exact .get ih
  | act _ ih => exact .act ih
  | call hc _ ih => exact .guarded hc ih

theorem only_bind {p : Prog α} {f : α → Prog β} (hp : Only G p) (hf : ∀ a, Only G (f a)) : Only G (p >>= f) := by
  show Only G (p.bind f)
  induction hp with
  | ret => exact hf _
  | err => exact .err
  | panic => exact .panic
  | get _ ih => exact .get ih
  | act _ ih => exact .act ih
  | call hc _ ih => exact .call hc ih

theorem strict_call {c : Call} : Strict R G (.call c Prog.ofExcept) := .call (fun _ => .ret) fun e => ⟨e, rfl, Or.inr .same⟩
theorem strict_eval {d : Data} {e : Nat} : Strict R G (.eval d e) := strict_call
theorem strict_evalNeed {b : Bool} {d : Data} {e : Nat} : Strict R G (.evalNeed b d e) := strict_call
theorem strict_app {f l : Data} {e : Nat} : Strict R G (.app f l e) := strict_call
theorem strict_doLoop {b t y r : Data} {e : Nat} : Strict R G (.doLoop b t y r e) := strict_call
theorem strict_op {o : Op} : Strict R G (.op o) := .act fun r => by cases r <;> constructor
theorem strict_ofOut {o : Out α} : Strict R G (.ofOut o) := by cases o <;> constructor

/-- Go through a program made of the combinators. -/
macro "strict" : tactic => `(tactic| repeat' first
  | exact strict_pure | exact Strict.ret | exact Strict.err | exact Strict.panic | exact strict_fail | exact strict_failShow
  | exact strict_eval | exact strict_evalNeed | exact strict_app | exact strict_doLoop | exact strict_op | exact strict_ofOut
  | assumption
  | (refine strict_bind ?_ fun _ => ?_)
  | (refine Strict.get fun _ => ?_)
  | split)

/-! ### The functions of the evaluator -/

theorem strict_markFn {v : Data} {b : Bool} : Strict R G (markFn v b) := by unfold markFn; strict
theorem strict_valueOf {H : Host} {need : Bool} {x : String} {e : Nat} : Strict R G (valueOf H need x e) := by
  unfold valueOf
  refine .get fun s => ?_
  split
  · exact strict_markFn
  · refine strict_bind strict_ofOut fun _ => ?_
    dsimp only
    repeat' first | exact strict_markFn | exact strict_pure | split
theorem strict_setTo {H : Host} {x : String} {v : Data} {e : Nat} : Strict R G (setTo H x v e) := by
  unfold setTo
  refine .get fun s => ?_
  split
  · strict
  · dsimp only
    strict
theorem strict_evalSeq {e : Nat} (xs : List Data) : ∀ v, Strict R G (evalSeq e xs v) := by
  induction xs with
  | nil => intro v; exact strict_pure
  | cons x xs ih => intro v; exact strict_bind strict_eval fun _ => ih _
theorem strict_evalAll {e : Nat} (xs : List Data) : Strict R G (evalAll e xs) := by
  induction xs with
  | nil => exact strict_pure
  | cons x xs ih => exact strict_bind strict_eval fun _ => strict_bind ih fun _ => strict_pure
theorem strict_body {d : Data} {e : Nat} : Strict R G (evaluateBody d e) := strict_evalSeq _ _

theorem strict_bindLoop {g : Data → Prog Data} (hg : ∀ a, Strict R G (g a)) {le : Nat} (as : List Data) :
    ∀ p acc, Strict R G (bindLoop g le as p acc) := by
  induction as with
  | nil => intro p acc; cases acc <;> simp only [bindLoop] <;> strict
  | cons a as ih =>
    intro p acc
    cases acc with
    | none => exact strict_bind (hg _) fun _ => strict_bind strict_op fun _ => ih _ _
    | some q => exact strict_bind (hg _) fun _ => ih _ _
theorem strict_makeLocal {n : String} {p a : Data} {ae le : Nat} {ev : Bool} : Strict R G (makeLocalBindings n p a ae le ev) := by
  unfold makeLocalBindings
  split
  · exact strict_bindLoop (fun a => by split <;> strict) _ _ _
  · exact strict_fail
theorem strict_inFn {n : String} {p : Prog Data} (hp : Strict R G p) : Strict R G (inFn n p) :=
  strict_attempt hp (fun _ => .ret) fun _ => ⟨_, rfl, .inFn .same⟩
theorem strict_bindSelf {s : Store} {b : Bool} {f : Option Nat} {ae le : Nat} : Strict R G (bindSelf s b f ae le) := by
  unfold bindSelf; strict
theorem strict_callFn {f : Nat} {a : Data} {ae : Nat} {fr : Option Nat} {ev : Bool} : Strict R G (callFn f a ae fr ev) := by
  unfold callFn
  refine .get fun s => ?_
  split
  · exact .panic
  · exact strict_bind strict_op fun _ => strict_bind strict_bindSelf fun _ => strict_bind strict_makeLocal fun _ =>
      strict_inFn strict_body
theorem strict_expandMacro {m : Nat} {a : Data} {ae : Nat} : Strict R G (expandMacro m a ae) := by
  unfold expandMacro
  refine .get fun s => ?_
  split
  · exact .panic
  · exact strict_bind strict_op fun _ => strict_bind strict_makeLocal fun _ => strict_eval
theorem strict_callMacro {m : Nat} {a : Data} {ae : Nat} : Strict R G (callMacro m a ae) :=
  strict_bind strict_expandMacro fun _ => strict_eval

/-! ### Special forms -/

theorem strict_cond {e : Nat} (cls : List Data) : Strict R G (condLoop e cls) := by
  induction cls with
  | nil => exact strict_pure
  | cons c cls ih =>
    unfold condLoop
    repeat' first | exact strict_fail | exact strict_body | exact ih | (refine strict_bind strict_eval fun _ => ?_) | split
theorem strict_case [FrEq] {k : Data} {e : Nat} (cls : List Data) : Strict R G (caseLoop k e cls) := by
  induction cls with
  | nil => exact strict_pure
  | cons c cls ih =>
    unfold caseLoop
    repeat' first | exact strict_fail | exact strict_body | exact ih | split
theorem strict_and {e : Nat} (xs : List Data) : ∀ v, Strict R G (andLoop e xs v) := by
  induction xs with
  | nil => intro v; exact strict_pure
  | cons x xs ih => intro v; refine strict_bind strict_eval fun _ => ?_; split; exact strict_pure; exact ih _
theorem strict_or {e : Nat} (xs : List Data) : ∀ v, Strict R G (orLoop e xs v) := by
  induction xs with
  | nil => intro v; exact strict_pure
  | cons x xs ih => intro v; refine strict_bind strict_eval fun _ => ?_; split; exact strict_pure; exact ih _
theorem strict_mkFn {n : String} {p b : Data} {e : Nat} : Strict R G (mkFn n p b e) := strict_bind strict_op fun _ => strict_pure
theorem strict_define {H : Host} {a : Data} {e : Nat} : Strict R G (defineImpl H a e) := by
  simp only [defineImpl]
  repeat' (first | exact strict_fail | exact strict_pure | exact strict_mkFn | exact strict_op | exact strict_eval |
    exact strict_valueOf | (refine strict_bind ?_ fun _ => ?_) | split)
theorem strict_check {b : Bool} {le : Nat} (bs : List Data) : Strict R G (checkBindings b le bs) := by
  induction bs with
  | nil => exact strict_pure
  | cons x bs ih =>
    unfold checkBindings
    repeat' first | exact strict_fail | exact ih | (refine strict_bind strict_op fun _ => ?_) | split
theorem strict_bindAll {ee le : Nat} (bs : List Data) : Strict R G (bindAll ee le bs) := by
  induction bs with
  | nil => exact strict_pure
  | cons x bs ih => exact strict_bind strict_eval fun _ => strict_bind strict_op fun _ => ih
theorem strict_letCommon {a b : Bool} {d : Data} {e : Nat} : Strict R G (letCommon a b d e) := by
  unfold letCommon
  split
  · exact strict_fail
  · exact strict_bind strict_op fun _ => strict_bind (strict_bind (strict_check _) fun _ => strict_bindAll _) fun _ => strict_body
theorem strict_namedLet {a : Data} {e : Nat} : Strict R G (namedLetImpl a e) := by
  simp only [namedLetImpl]
  split
  · exact strict_fail
  · split
    · exact strict_fail
    · exact strict_bind strict_op fun _ => strict_bind strict_op fun _ => strict_bind strict_op fun _ =>
        strict_bind strict_op fun _ => strict_callFn
theorem strict_do {a : Data} {e : Nat} : Strict R G (doImpl a e) := by
  unfold doImpl
  split
  · exact strict_fail
  · split
    · exact strict_fail
    · exact strict_bind strict_op fun _ => strict_bind (strict_bind (strict_check _) fun _ => strict_bindAll _) fun _ =>
        strict_doLoop
theorem strict_chain {e : Nat} (xs : List Data) : ∀ v, Strict R G (chainLoop e xs v) := by
  induction xs with
  | nil => intro v; exact strict_pure
  | cons x xs ih => intro v; exact strict_bind strict_eval fun _ => ih _
theorem strict_tap {e : Nat} {v : Data} (xs : List Data) : Strict R G (tapLoop e v xs) := by
  induction xs with
  | nil => exact strict_pure
  | cons x xs ih => exact strict_bind strict_eval fun _ => ih
theorem strict_definitionOf {a : Data} {e : Nat} : Strict R G (definitionOfImpl a e) := by
  simp only [definitionOfImpl]
  strict
theorem strict_qqEach {f : Data → Prog Data} (hf : ∀ x, Strict R G (f x)) (xs : List Data) : Strict R G (qqEach f xs) := by
  induction xs with
  | nil => exact strict_pure
  | cons x xs ih => exact strict_bind (hf _) fun _ => strict_bind ih fun _ => strict_pure
theorem strict_qq {e : Nat} (n : Nat) : ∀ x l, Strict R G (qq n x l e) := by
  induction n with
  | zero => intro x l; exact .panic
  | succ n ih =>
    intro x l
    unfold qq
    repeat' (first | exact strict_pure | exact ih _ _ | exact strict_eval | exact strict_qqEach (fun y => ih y _) _ |
      (refine strict_bind ?_ fun _ => ?_) | split)
theorem strict_apply {H : Host} {a : Data} {e : Nat} : Strict R G (applyImpl H a e) := by unfold applyImpl; strict
theorem strict_expand {H : Host} {a : Data} {e : Nat} : Strict R G (expandImpl H a e) := by
  unfold expandImpl
  refine strict_bind strict_eval fun _ => ?_
  split
  · exact strict_expandMacro
  · exact strict_failShow
theorem strict_setVar {H : Host} {a : Data} {e : Nat} : Strict R G (setVarImpl H a e) := strict_bind strict_eval fun _ => strict_setTo

theorem strict_onError {H : Host} {a : Data} {e : Nat} (hg : G (.eval false (car a) e)) : Strict R G (onErrorImpl H a e) := by
  unfold onErrorImpl
  refine strict_attempt_only (.call hg fun r => by cases r <;> constructor) fun r => ?_
  cases r with
  | ok v =>
    dsimp only
    repeat' first | exact Strict.ret | exact strict_fail | exact strict_callFn | (refine strict_bind strict_eval fun _ => ?_) | split
  | error er =>
    dsimp only
    refine strict_bind strict_eval fun _ => ?_
    split
    · exact .get fun _ => strict_callFn
    · exact strict_fail

theorem only_markFn {v : Data} {b : Bool} : Only G (markFn v b) := by
  unfold markFn
  split
  · exact .act fun r => by cases r <;> constructor
  · exact .ret
theorem only_ofOut {o : Out α} : Only G (.ofOut o) := by cases o <;> constructor
theorem only_valueOf {H : Host} {need : Bool} {x : String} {e : Nat} : Only G (valueOf H need x e) := by
  unfold valueOf
  refine .get fun s => ?_
  split
  · exact only_markFn
  · refine only_bind only_ofOut fun _ => ?_
    dsimp only
    repeat' first | exact only_markFn | exact Only.ret | split

theorem only_stepValues {H : Host} {e : Nat} (bs : List Data) (hb : ∀ b ∈ bs, G (.eval false (nth b 3) e)) :
    Only G (stepValues H e bs) := by
  induction bs with
  | nil => exact .ret
  | cons b bs ih =>
    unfold stepValues
    dsimp only
    have hr : ∀ v, Only G (stepValues H e bs >>= fun r => pure (((b.nth 1).stringValue, v) :: r) : Prog _) := fun v =>
      only_bind (ih fun x hx => hb x (List.mem_cons_of_mem _ hx)) fun _ => .ret
    split
    · exact only_bind (.call (hb b List.mem_cons_self) fun r => by cases r <;> constructor) hr
    · exact only_bind only_valueOf hr
theorem only_bindPairs {e : Nat} (l : List (String × Data)) : Only G (bindPairs e l) := by
  induction l with
  | nil => exact .ret
  | cons x l ih => exact only_bind (.act fun r => by cases r <;> constructor) fun _ => ih

theorem strict_doIter {H : Host} {bs t b r : Data} {e : Nat} (hb : ∀ x ∈ toArray bs, G (.eval false (nth x 3) e)) :
    Strict R G (doIter H bs t b r e) := by
  unfold doIter
  refine strict_bind strict_eval fun _ => ?_
  split
  · exact strict_evalSeq _ _
  · refine strict_bind (strict_evalSeq _ _) fun _ => ?_
    refine strict_attempt_only (only_bind (only_stepValues _ hb) fun _ => only_bindPairs _) fun x => ?_
    cases x
    · exact .ret
    · exact strict_doLoop

/-! ### Procedures applied to list elements -/

section
variable {f : Data → Prog Data} (hf : ∀ x, Strict R G (f x))
include hf

theorem strict_mapLoop (n : Nat) : ∀ cols, Strict R G (mapLoopP f n cols) := by
  induction n with
  | zero => intro c; exact strict_pure
  | succ n ih => intro c; exact strict_bind (hf _) fun _ => strict_bind (ih _) fun _ => strict_pure
theorem strict_mapP {cols : List Data} : Strict R G (mapP f cols) := by
  unfold mapP
  repeat' first | exact strict_ofOut | exact strict_pure | (refine strict_bind (strict_mapLoop hf _ _) fun _ => ?_) | split
theorem strict_forEachLoop (n : Nat) : ∀ cols, Strict R G (forEachLoopP f n cols) := by
  induction n with
  | zero => intro c; exact strict_pure
  | succ n ih => intro c; exact strict_bind (hf _) fun _ => ih _
theorem strict_forEachP {cols : List Data} : Strict R G (forEachP f cols) := by
  unfold forEachP
  repeat' first | exact strict_fail | exact strict_pure | (refine strict_bind (strict_forEachLoop hf _ _) fun _ => ?_) | split
theorem strict_anyLoop (n : Nat) : ∀ cols, Strict R G (anyLoopP f n cols) := by
  induction n with
  | zero => intro c; exact strict_pure
  | succ n ih => intro c; refine strict_bind (hf _) fun _ => ?_; split; exact strict_pure; exact ih _
theorem strict_anyP {cols : List Data} : Strict R G (anyP f cols) := by
  unfold anyP
  repeat' first | exact strict_fail | exact strict_pure | exact strict_anyLoop hf _ _ | split
theorem strict_everyLoop (n : Nat) : ∀ cols, Strict R G (everyLoopP f n cols) := by
  induction n with
  | zero => intro c; exact strict_pure
  | succ n ih => intro c; refine strict_bind (hf _) fun _ => ?_; split; exact strict_pure; exact ih _
theorem strict_everyP {cols : List Data} : Strict R G (everyP f cols) := by
  unfold everyP
  repeat' first | exact strict_fail | exact strict_pure | exact strict_everyLoop hf _ _ | split
theorem strict_reduceFold {col : List Data} {b : Bool} (is : List Nat) : ∀ acc, Strict R G (reduceFoldP f col b is acc) := by
  induction is with
  | nil => intro acc; exact strict_pure
  | cons i is ih => intro acc; exact strict_bind (hf _) fun _ => ih _
theorem strict_reduceLeft {i c : Data} : Strict R G (reduceLeftP f i c) := by
  unfold reduceLeftP
  repeat' first | exact strict_fail | exact strict_pure | exact strict_reduceFold hf _ _ | split
theorem strict_reduceRight {i c : Data} : Strict R G (reduceRightP f i c) := by
  unfold reduceRightP
  repeat' first | exact strict_fail | exact strict_pure | exact strict_reduceFold hf _ _ | split
theorem strict_foldLeft {i c : Data} : Strict R G (foldLeftP f i c) := by
  unfold foldLeftP
  repeat' first | exact strict_fail | exact strict_reduceFold hf _ _ | split
theorem strict_foldRight {i c : Data} : Strict R G (foldRightP f i c) := by
  unfold foldRightP
  repeat' first | exact strict_fail | exact strict_reduceFold hf _ _ | split
theorem strict_filterLoop {w : Bool} (xs : List Data) : Strict R G (filterLoopP f w xs) := by
  induction xs with
  | nil => exact strict_pure
  | cons x xs ih =>
    unfold filterLoopP
    refine strict_bind (hf _) fun _ => ?_
    split
    · exact strict_bind ih fun _ => strict_pure
    · exact strict_fail
theorem strict_filterP {c : Data} : Strict R G (filterP f c) := by
  unfold filterP
  split
  · exact strict_fail
  · exact strict_bind (strict_filterLoop hf _) fun _ => strict_pure
theorem strict_removeP {c : Data} : Strict R G (removeP f c) := by
  unfold removeP
  split
  · exact strict_fail
  · exact strict_bind (strict_filterLoop hf _) fun _ => strict_pure
theorem strict_partPred (xs : List Data) : ∀ a b, Strict R G (partPredLoopP f xs a b) := by
  induction xs with
  | nil => intro a b; exact strict_pure
  | cons x xs ih => intro a b; refine strict_bind (hf _) fun _ => ?_; split <;> exact ih _ _
theorem strict_partPredP {c : Data} : Strict R G (partPredP f c) := strict_bind (strict_partPred hf _ _ _) fun _ => strict_pure
end

/-- A replaced error. -/
theorem strict_replace {c : Call} {f : Except Err Data → Prog α} (hc : R c) (hf : ∀ v, Strict R G (f (.ok v)))
    (he : ∀ e, ∃ e', f (.error e) = .err e') : Strict R G ((Prog.call c Prog.ofExcept).attempt f) :=
  .call hf fun e => by obtain ⟨e', h⟩ := he e; exact ⟨e', h, Or.inl hc⟩

section
variable {f : Data → Prog Data} (hf : ∀ x, ∃ c, R c ∧ f x = .call c Prog.ofExcept)
include hf
theorem strict_findTailLoop (d : Data) : Strict R G (findTailLoopP f d) := by
  induction d with
  | null => exact strict_pure
  | cell k a d _ ih =>
    unfold findTailLoopP
    split
    · exact strict_pure
    · obtain ⟨c, hc, h⟩ := hf (ofArray [a])
      rw [h]
      refine strict_replace hc (fun v => ?_) fun e => ⟨_, rfl⟩
      split
      · exact .ret
      · exact ih
      · exact strict_fail
  | atom x =>
    unfold findTailLoopP
    obtain ⟨c, hc, h⟩ := hf (ofArray [null])
    rw [h]
    refine strict_replace hc (fun v => ?_) fun e => ⟨_, rfl⟩
    split
    · exact .ret
    · exact .ret
    · exact strict_fail
theorem strict_findTailP {c : Data} : Strict R G (findTailP f c) := by
  unfold findTailP
  split
  · exact strict_fail
  · exact strict_findTailLoop hf _
theorem strict_findLoop (xs : List Data) : Strict R G (findLoopP f xs) := by
  induction xs with
  | nil => exact strict_pure
  | cons x xs ih =>
    unfold findLoopP
    obtain ⟨c, hc, h⟩ := hf (ofArray [x])
    rw [h]
    refine strict_replace hc (fun v => ?_) fun e => ⟨_, rfl⟩
    split
    · exact .ret
    · exact ih
    · exact strict_fail
theorem strict_findP {c : Data} : Strict R G (findP f c) := by
  unfold findP
  split
  · exact strict_fail
  · exact strict_findLoop hf _
end

theorem strict_withFn {m : String} {k : (Data → Prog Data) → Data → Prog Data}
    (hk : ∀ f, (∀ x, Strict R G (f x)) → ∀ r, Strict R G (k f r)) {a : Data} {e : Nat} : Strict R G (withFn m k a e) := by
  unfold withFn
  split
  · exact strict_fail
  · exact hk _ (fun _ => strict_app) _
theorem strict_withFn_only {m : String} {k : (Data → Prog Data) → Data → Prog Data} {e : Nat}
    (hk : ∀ f, (∀ x, ∃ c, R c ∧ f x = .call c Prog.ofExcept) → ∀ r, Strict R G (k f r)) (hg : ∀ f l, R (.app f l e)) {a : Data} :
    Strict R G (withFn m k a e) := by
  unfold withFn
  split
  · exact strict_fail
  · exact hk _ (fun _ => ⟨_, hg _ _, rfl⟩) _
theorem strict_partition {a : Data} {e : Nat} : Strict R G (partitionImpl a e) := by
  unfold partitionImpl
  repeat' first | exact strict_fail | exact strict_ofOut | exact strict_partPredP (fun _ => strict_app) | split

/-! ### System, environment and frame primitives -/

theorem strict_gensymPrefix {H : Host} {n : String} {a : Data} : Strict R G (gensymPrefix H n a) := by unfold gensymPrefix; strict
theorem strict_bindNames {le : Nat} (xs : List Data) : ∀ vs, Strict R G (bindNames le xs vs) := by
  induction xs with
  | nil => intro vs; exact strict_pure
  | cons x xs ih =>
    intro vs
    unfold bindNames
    split
    · exact strict_fail
    · exact strict_bind strict_op fun _ => ih _
theorem strict_makeTop {a : Data} {e : Nat} : Strict R G (makeTopImpl a e) := by
  simp only [makeTopImpl]
  refine strict_bind strict_op fun _ => ?_
  repeat' first | exact strict_fail | exact strict_pure | (refine strict_bind (strict_bindNames _ _) fun _ => ?_) | split
theorem strict_frameSlots {H : Host} : ∀ (xs : List Data) (m : FrameMap), Strict R G (frameSlots H xs m)
  | [], _ => strict_pure
  | [_], _ => strict_pure
  | k :: v :: r, m => by
    unfold frameSlots
    split
    · exact strict_failShow
    · exact strict_frameSlots r _
theorem strict_withSlot {H : Host} {n : String} {k : Nat → String → Prog Data} (hk : ∀ i x, Strict R G (k i x)) {a : Data} :
    Strict R G (withSlot H n k a) := by
  unfold withSlot
  split
  · split
    · exact strict_failShow
    · exact hk _ _
  · exact strict_failShow
theorem strict_withEnv {n : String} {k : Nat → Prog Data} (hk : ∀ i, Strict R G (k i)) {a : Data} : Strict R G (withEnv n k a) := by
  unfold withEnv
  split
  · exact hk _
  · exact strict_fail
theorem strict_withEnvSym {n : String} {k : Nat → String → Prog Data} (hk : ∀ i x, Strict R G (k i x)) {a : Data} :
    Strict R G (withEnvSym n k a) := by
  unfold withEnvSym
  split
  · split
    · exact hk _ _
    · exact strict_fail
  · exact strict_fail
theorem strict_hasSlot {H : Host} {i : Nat} {k : String} : Strict R G (hasSlotP H i k) := .get fun _ => strict_ofOut
theorem strict_getSlot {H : Host} {i : Nat} {k : String} : Strict R G (getSlotP H i k) := .get fun _ => strict_ofOut
theorem strict_methodOf {H : Host} {n : String} {i : Nat} {k : String} : Strict R G (methodOf H n i k) := by
  unfold methodOf
  refine strict_bind strict_hasSlot fun _ => ?_
  split
  · exact strict_failShow
  · refine strict_bind strict_getSlot fun _ => ?_
    split
    · exact strict_pure
    · exact strict_fail
theorem strict_callSuper {H : Host} {i : Nat} {k : String} {p : Prog Data} (hp : Strict R G p) {e : Nat} :
    Strict R G (callSuper H i k p e) := by
  unfold callSuper
  refine .get fun _ => strict_bind strict_ofOut fun _ => ?_
  split
  · exact strict_bind hp fun _ => .get fun _ => strict_bind strict_op fun _ => strict_bind strict_op fun _ => strict_callFn
  · exact strict_fail
theorem strict_applySlot {H : Host} {a : Data} {e : Nat} : Strict R G (applySlotImpl H a e) := by
  unfold applySlotImpl
  refine strict_bind strict_eval fun _ => ?_
  split
  · refine strict_bind strict_eval fun _ => ?_
    split
    · exact strict_failShow
    · exact strict_bind strict_methodOf fun _ => strict_bind (strict_evalAll _) fun _ => strict_bind strict_ofOut fun _ => strict_callFn
  · exact strict_failShow
theorem strict_applySlotSuper {H : Host} {a : Data} {e : Nat} : Strict R G (applySlotSuperImpl H a e) := by
  unfold applySlotSuperImpl
  refine .get fun _ => ?_
  split
  · exact strict_fail
  · refine strict_bind strict_eval fun _ => ?_
    split
    · exact strict_fail
    · exact strict_callSuper (strict_bind (strict_evalAll _) fun _ => strict_ofOut)
theorem strict_sendSuper {H : Host} {a : Data} {e : Nat} : Strict R G (sendSuperImpl H a e) := by
  unfold sendSuperImpl
  refine .get fun _ => ?_
  split
  · exact strict_fail
  · split
    · exact strict_fail
    · exact strict_callSuper strict_pure
theorem strict_send {H : Host} {a : Data} {e : Nat} : Strict R G (sendImpl H a e) :=
  strict_withSlot fun _ _ => strict_bind strict_methodOf fun _ => strict_callFn

/-! ### Copies -/

mutual
theorem strict_copyP {e : Nat} : ∀ d : Data, Strict R G (copyP e d)
  | .null => by unfold copyP; exact strict_pure
  | .atom a => by
    unfold copyP
    split
    · exact strict_eval
    · exact strict_pure
  | .cell .acell _ _ => by unfold copyP; exact strict_pure
  | .cell .cons a d => by
    unfold copyP
    split
    · exact strict_pure
    · exact strict_bind (strict_copyP a) fun _ => strict_bind (strict_copyP d) fun _ => strict_pure
  | .cell .alist p d => by
    unfold copyP
    exact strict_bind (strict_copyCarP p) fun _ => strict_bind (strict_copyCdrP p) fun _ => .get fun _ => strict_copyAlistP d _
theorem strict_copyAlistP {e : Nat} : ∀ d acc : Data, Strict R G (copyAlistP e d acc)
  | .null, _ => by unfold copyAlistP; exact strict_pure
  | .atom _, _ => by unfold copyAlistP; exact .get fun _ => strict_pure
  | .cell _ p d, _ => by
    unfold copyAlistP
    split
    · exact strict_pure
    · exact strict_bind (strict_copyCarP p) fun _ => strict_bind (strict_copyCdrP p) fun _ => .get fun _ => strict_copyAlistP d _
theorem strict_copyCarP {e : Nat} : ∀ d : Data, Strict R G (copyCarP e d)
  | .null => by unfold copyCarP; exact strict_pure
  | .atom _ => by unfold copyCarP; exact strict_pure
  | .cell _ a _ => by unfold copyCarP; exact strict_copyP a
theorem strict_copyCdrP {e : Nat} : ∀ d : Data, Strict R G (copyCdrP e d)
  | .null => by unfold copyCdrP; exact strict_pure
  | .atom _ => by unfold copyCdrP; exact strict_pure
  | .cell _ _ d => by unfold copyCdrP; exact strict_copyP d
end

theorem strict_copySlots {e : Nat} (m : FrameMap) : Strict R G (copySlots e m) := by
  induction m with
  | nil => exact strict_pure
  | cons p m ih => exact strict_bind (strict_copyP _) fun _ => strict_bind ih fun _ => strict_pure
theorem strict_copy {a : Data} {e : Nat} : Strict R G (copyImpl a e) := by
  unfold copyImpl
  split
  · exact .get fun _ => strict_bind (strict_copySlots _) fun _ => strict_bind strict_op fun _ => strict_pure
  · exact strict_copyP _
theorem strict_unionInner {e : Nat} (xs : List Data) : ∀ r, Strict R G (unionInnerP e xs r) := by
  induction xs with
  | nil => intro r; exact strict_pure
  | cons x xs ih =>
    intro r
    refine .get fun _ => ?_
    split
    · exact ih _
    · refine strict_bind ?_ fun _ => ih _
      unfold append1P
      split
      · exact strict_pure
      · exact strict_bind (strict_copyP _) fun _ => strict_pure
theorem strict_unionP {e : Nat} (xs : List Data) : ∀ r, Strict R G (unionP e xs r) := by
  induction xs with
  | nil => intro r; exact strict_pure
  | cons x xs ih =>
    intro r
    unfold unionP
    split
    · exact strict_fail
    · exact strict_bind (strict_unionInner _ _) fun _ => ih _
theorem strict_union {a : Data} {e : Nat} : Strict R G (unionImpl a e) := strict_unionP _ _
theorem strict_set {n : String} {f : FrEq → Data → Data → Bool} {a : Data} {e : Nat} : Strict R G (setP n f a e) := by
  unfold setP
  split
  · exact strict_pure
  · split
    · exact strict_fail
    · exact strict_bind (strict_copyP _) fun _ => .get fun _ => strict_ofOut
theorem strict_length {a : Data} {e : Nat} : Strict R G (lengthImpl a e) := by
  unfold lengthImpl
  split
  · exact .get fun _ => strict_pure
  · exact strict_pure
theorem strict_carCdr {a : Data} {e : Nat} : Strict R G (generalCarCdrImpl a e) := by
  unfold generalCarCdrImpl
  dsimp only
  split
  · exact strict_fail
  · split
    · exact strict_eval
    · exact strict_pure

/-! ### The tables -/

theorem strict_forms {H : Host} {n : String} {P : PrimDef} (h : (n, P) ∈ formTable H) (hn : n ≠ "on-error") (a : Data) (e : Nat) :
    Strict R G (P.body a e) := by
  simp only [formTable, List.mem_cons, List.not_mem_nil, or_false, form, prim, Prod.mk.injEq] at h
  rcases h with ⟨rfl, rfl⟩ | ⟨rfl, rfl⟩ | ⟨rfl, rfl⟩ | ⟨rfl, rfl⟩ | ⟨rfl, rfl⟩ | ⟨rfl, rfl⟩ | ⟨rfl, rfl⟩ | ⟨rfl, rfl⟩ | ⟨rfl, rfl⟩ |
    ⟨rfl, rfl⟩ | ⟨rfl, rfl⟩ | ⟨rfl, rfl⟩ | ⟨rfl, rfl⟩ | ⟨rfl, rfl⟩ | ⟨rfl, rfl⟩ | ⟨rfl, rfl⟩ | ⟨rfl, rfl⟩ | ⟨rfl, rfl⟩ | ⟨rfl, rfl⟩ |
    ⟨rfl, rfl⟩ | ⟨rfl, rfl⟩ | ⟨rfl, rfl⟩ | ⟨rfl, rfl⟩ | ⟨rfl, rfl⟩ | ⟨rfl, rfl⟩ | ⟨rfl, rfl⟩ | ⟨rfl, rfl⟩ <;> dsimp only
  · exact strict_cond _
  · exact strict_bind strict_eval fun _ => .get fun s => letI := Frame.eqIn s.frames; strict_case _
  · unfold ifImpl; strict
  · unfold whenImpl; refine strict_bind strict_eval fun _ => ?_; split; exact strict_body; exact strict_pure
  · unfold unlessImpl; refine strict_bind strict_eval fun _ => ?_; split; exact strict_body; exact strict_pure
  · unfold lambdaImpl; split; exact strict_fail; exact strict_mkFn
  · unfold namedLambdaImpl; repeat' first | exact strict_fail | exact strict_mkFn | split
  · exact strict_define
  · simp only [defmacroImpl]; strict
  · unfold letImpl; split; exact strict_namedLet; exact strict_letCommon
  · exact strict_letCommon
  · exact strict_letCommon
  · exact strict_evalSeq _ _
  · exact strict_do
  · exact strict_apply
  · exact strict_bind strict_eval fun _ => strict_chain _ _
  · exact strict_bind strict_eval fun _ => strict_tap _
  · exact strict_definitionOf
  · exact strict_pure
  · exact strict_bind (strict_qq _ _ _) fun _ => strict_pure
  · exact strict_fail
  · exact strict_fail
  · exact strict_expand
  · exact strict_setVar
  · exact strict_and _ _
  · exact strict_or _ _
  · exact absurd rfl hn

theorem strict_system {H : Host} {n : String} {P : PrimDef} (h : (n, P) ∈ systemTable H) (a : Data) (e : Nat) :
    Strict R G (P.body a e) := by
  simp only [systemTable, List.mem_cons, List.not_mem_nil, or_false, form, prim, rprim, Prod.mk.injEq] at h
  rcases h with ⟨rfl, rfl⟩ | ⟨rfl, rfl⟩ | ⟨rfl, rfl⟩ | ⟨rfl, rfl⟩ | ⟨rfl, rfl⟩ | ⟨rfl, rfl⟩ | ⟨rfl, rfl⟩ | ⟨rfl, rfl⟩ | ⟨rfl, rfl⟩ |
    ⟨rfl, rfl⟩ | ⟨rfl, rfl⟩ | ⟨rfl, rfl⟩ | ⟨rfl, rfl⟩ | ⟨rfl, rfl⟩ | ⟨rfl, rfl⟩ | ⟨rfl, rfl⟩ | ⟨rfl, rfl⟩ | ⟨rfl, rfl⟩ | ⟨rfl, rfl⟩ |
    ⟨rfl, rfl⟩ | ⟨rfl, rfl⟩ | ⟨rfl, rfl⟩ | ⟨rfl, rfl⟩ | ⟨rfl, rfl⟩ | ⟨rfl, rfl⟩ | ⟨rfl, rfl⟩ | ⟨rfl, rfl⟩ | ⟨rfl, rfl⟩ | ⟨rfl, rfl⟩ |
    ⟨rfl, rfl⟩ | ⟨rfl, rfl⟩ | ⟨rfl, rfl⟩ | ⟨rfl, rfl⟩ | ⟨rfl, rfl⟩ | ⟨rfl, rfl⟩ | ⟨rfl, rfl⟩ | ⟨rfl, rfl⟩ | ⟨rfl, rfl⟩ <;> dsimp only
  · exact .get fun _ => strict_pure
  · exact .get fun _ => strict_bind strict_op fun _ => strict_pure
  · unfold internImpl; strict
  · exact strict_bind strict_gensymPrefix fun _ => strict_bind strict_op fun _ => strict_pure
  · exact strict_bind strict_gensymPrefix fun _ => strict_bind strict_op fun _ => strict_pure
  · unfold evalImpl; strict
  · exact strict_eval
  · exact .panic
  · exact strict_failShow
  · exact strict_pure
  · exact strict_withEnv fun _ => .get fun _ => strict_pure
  · exact strict_withEnvSym fun _ _ => .get fun _ => by strict
  · exact strict_withEnvSym fun _ _ => .get fun _ => by strict
  · unfold envAssignedImpl; split; exact strict_fail; exact strict_withEnvSym fun _ _ => .get fun _ => by strict
  · exact strict_withEnvSym fun _ _ => .get fun _ => by strict
  · exact strict_withEnvSym fun _ _ => .get fun _ => by strict
  · exact strict_withEnvSym fun _ _ => .get fun _ => by strict
  · exact strict_withEnvSym fun _ _ => .get fun _ => by strict
  · exact strict_withEnvSym fun _ _ => strict_pure
  · exact strict_withEnvSym fun _ _ => by strict
  · exact .get fun _ => by strict
  · unfold procEnvImpl; strict
  · exact strict_bind strict_op fun _ => strict_pure
  · exact strict_withEnv fun _ => .get fun _ => by strict
  · exact strict_pure
  · exact strict_makeTop
  · unfold findTopImpl; strict
  · unfold makeFrameImpl
    split
    · exact strict_fail
    · exact strict_bind (strict_frameSlots _ _) fun _ => strict_bind strict_op fun _ => strict_pure
  · exact strict_withSlot fun _ _ => strict_bind strict_hasSlot fun _ => strict_pure
  · refine strict_withSlot fun _ _ => strict_bind strict_hasSlot fun _ => ?_
    split
    · exact strict_failShow
    · exact strict_getSlot
  · exact strict_withSlot fun _ _ => strict_getSlot
  · unfold removeSlotImpl
    split
    · exact strict_pure
    · exact strict_withSlot fun _ _ => strict_bind strict_op fun _ => strict_pure
  · exact strict_withSlot fun _ _ => strict_bind strict_op fun _ => strict_pure
  · exact strict_send
  · exact strict_sendSuper
  · exact strict_applySlot
  · exact strict_applySlotSuper
  · unfold cloneImpl; strict

theorem strict_math {n : String} {P : PrimDef} (h : (n, P) ∈ mathTable) (a : Data) (e : Nat) : Strict R G (P.body a e) := by
  have : ∀ q ∈ mathTable, Strict R G (q.2.body a e) := by
    simp only [mathTable, List.forall_mem_cons, List.not_mem_nil, false_implies, implies_true, and_true, prim, oL, o1, o2,
      withEq]
    repeat' first | exact strict_ofOut | exact .get fun _ => strict_ofOut | apply And.intro
  exact this _ h

theorem strict_access {n : String} {P : PrimDef} (h : (n, P) ∈ accessTable) (a : Data) (e : Nat) : Strict R G (P.body a e) := by
  have : ∀ q ∈ accessTable, Strict R G (q.2.body a e) := by
    simp only [accessTable, List.forall_mem_cons, List.not_mem_nil, false_implies, implies_true, and_true, prim, walk, p1, o1, o2,
      test1, withEq]
    repeat' first | exact strict_ofOut | exact strict_pure | exact .get fun _ => strict_ofOut | exact .get fun _ => strict_pure |
      exact strict_carCdr | apply And.intro
  exact this _ h

theorem strict_lists {n : String} {P : PrimDef} (h : (n, P) ∈ listTable) (hn : n ∉ searchers) (a : Data) (e : Nat) :
    Strict R G (P.body a e) := by
  have : ∀ q ∈ listTable, q.1 ∉ searchers → Strict R G (q.2.body a e) := by
    simp only [listTable, List.forall_mem_cons, List.not_mem_nil, false_implies, implies_true, and_true, prim, p1, oL, withEq]
    repeat' apply And.intro
    all_goals intro hx
    all_goals first
      | exact strict_ofOut
      | exact strict_pure
      | exact .get fun _ => strict_pure
      | exact strict_length
      | exact strict_copy
      | exact strict_union
      | exact strict_set
      | exact strict_partition
      | exact strict_withFn fun f hf r => strict_mapP hf
      | exact strict_withFn fun f hf r => strict_forEachP hf
      | exact strict_withFn fun f hf r => strict_anyP hf
      | exact strict_withFn fun f hf r => strict_everyP hf
      | exact strict_withFn fun f hf r => strict_reduceLeft hf
      | exact strict_withFn fun f hf r => strict_reduceRight hf
      | exact strict_withFn fun f hf r => strict_foldLeft hf
      | exact strict_withFn fun f hf r => strict_foldRight hf
      | exact strict_withFn fun f hf r => strict_filterP hf
      | exact strict_withFn fun f hf r => strict_removeP hf
      | exact absurd (by simp [searchers]) hx
  exact this _ h hn

/-! ### `Verif.TextPrims` -/

theorem strict_needStr {H : Host} {m : String} {d : Data} {k : String → Prog Data} (hk : ∀ s, Strict R G (k s)) : Strict R G (needStr H m d k) := by
  unfold needStr
  split
  · exact hk _
  · exact strict_failShow
theorem strict_joinLoop {H : Host} (xs : List Data) : Strict R G (joinLoopP H xs) := by
  induction xs with
  | nil => exact strict_pure
  | cons x xs ih => unfold joinLoopP; strict
theorem strict_split {H : Host} {a : Data} {e : Nat} : Strict R G (stringSplitImpl H a e) :=
  strict_needStr fun _ => strict_needStr fun _ => strict_pure
theorem strict_join {H : Host} {a : Data} {e : Nat} : Strict R G (stringJoinImpl H a e) := by
  have hj := strict_joinLoop (R := R) (G := G) (H := H)
  unfold stringJoinImpl
  dsimp only
  split
  · exact strict_failShow
  · split
    · exact strict_bind (hj _) fun _ => strict_pure
    · exact strict_needStr fun _ => strict_bind (hj _) fun _ => strict_pure
theorem strict_trim {H : Host} {sd : Str.Side} {a : Data} {e : Nat} : Strict R G (stringTrimImpl H sd a e) := by
  refine strict_needStr fun _ => ?_
  split
  · exact strict_needStr fun _ => strict_pure
  · exact strict_pure
theorem strict_capitalize {H : Host} {a : Data} {e : Nat} : Strict R G (stringCapitalizeImpl H a e) :=
  strict_needStr fun _ => by strict
theorem strict_substring {H : Host} {a : Data} {e : Nat} : Strict R G (substringImpl H a e) :=
  strict_needStr fun _ => by strict
theorem strict_stringTest {H : Host} {m : String} {f : String → String} {g : Str.GoStr → Str.GoStr → Bool} {a : Data} {e : Nat} :
    Strict R G (stringTestImpl H m f g a e) := strict_needStr fun _ => strict_needStr fun _ => strict_pure
theorem strict_parse {H : Host} {a : Data} {e : Nat} : Strict R G (parseImpl H a e) := by unfold parseImpl; strict
theorem strict_floatFn {H : Host} {m : String} {f : BitVec 32 → BitVec 32} {a : Data} {e : Nat} : Strict R G (floatFnImpl H m f a e) := by
  unfold floatFnImpl; strict
theorem strict_floatTest {H : Host} {m : String} {f : BitVec 32 → Bool} {a : Data} {e : Nat} : Strict R G (floatTestImpl H m f a e) := by
  unfold floatTestImpl; strict
theorem strict_pow {H : Host} {a : Data} {e : Nat} : Strict R G (powImpl H a e) := by unfold powImpl; strict
theorem strict_frameKeys {H : Host} {a : Data} {e : Nat} : Strict R G (frameKeysImpl H a e) := by unfold frameKeysImpl; strict
theorem strict_frameValues {H : Host} {a : Data} {e : Nat} : Strict R G (frameValuesImpl H a e) := by unfold frameValuesImpl; strict

theorem swapAt_some {arr : List Data} {i j : Nat} (hi : i < arr.length) (hj : j < arr.length) :
    ∃ arr', Sorting.swapAt arr i j = some arr' ∧ arr'.Perm arr := by
  have h1 : arr[i]? = some arr[i] := List.getElem?_eq_getElem hi
  have h2 : arr[j]? = some arr[j] := List.getElem?_eq_getElem hj
  exact ⟨(arr.set i arr[j]).set j arr[i], by simp only [Sorting.swapAt, h1, h2], List.set_set_perm hi hj⟩

/-- After the first error of the comparison nothing is called any more. -/
theorem sortRun_error {f : Data → Prog Data} {n : Nat} {t : Sorting.Tree} (ht : InRange n t) : ∀ {arr : List Data} {e : Err}, arr.length = n →
    ∃ arr', sortRunP f t arr (some e) = .ret (arr', some e) := by
  induction ht with
  | done => exact fun _ => ⟨_, rfl⟩
  | less hi hj _ ih => exact fun hl => ih false hl
  | swap hi hj _ ih =>
    intro arr e hl
    obtain ⟨arr', he, hp⟩ := swapAt_some (hl ▸ hi) (hl ▸ hj)
    simp only [sortRunP, he]
    exact ih (hp.length_eq.trans hl)

theorem strict_sortRun {fn : Data} {e : Nat} {n : Nat} {t : Sorting.Tree} (ht : InRange n t) : ∀ {arr : List Data}, arr.length = n →
    Strict R G ((sortRunP (fun l => Prog.app fn l e) t arr none).bind sortResult) := by
  induction ht with
  | done => exact fun _ => .ret
  | @less i j k hi hj hk ih =>
    intro arr hl
    rw [sortRunP, List.getElem?_eq_getElem (hl ▸ hi), List.getElem?_eq_getElem (hl ▸ hj)]
    refine Strict.call (fun v => ih _ hl) fun er => ⟨er, ?_, Or.inr .same⟩
    obtain ⟨arr', h⟩ := sortRun_error (f := fun l => Prog.app fn l e) (hk false) (e := er) hl
    show (sortRunP _ (k false) arr (some er)).bind sortResult = _
    rw [h]
    rfl
  | swap hi hj _ ih =>
    intro arr hl
    obtain ⟨arr', he, hp⟩ := swapAt_some (hl ▸ hi) (hl ▸ hj)
    rw [sortRunP, he]
    exact ih (hp.length_eq.trans hl)
theorem strict_sort {H : Host} {a : Data} {e : Nat} : Strict R G (sortImpl H a e) := by
  unfold sortImpl
  split
  · exact strict_fail
  split
  · exact strict_fail
  · exact strict_sortRun (H.sorterOk _) rfl

theorem strict_text {H : Host} {n : String} {P : PrimDef} (h : (n, P) ∈ textTable H) (a : Data) (e : Nat) : Strict R G (P.body a e) := by
  have : ∀ q ∈ textTable H, Strict R G (q.2.body a e) := by
    simp only [textTable, List.forall_mem_cons, List.not_mem_nil, false_implies, implies_true, and_true, prim, oL, test1, compareImpl,
      compareCiImpl]
    repeat' apply And.intro
    all_goals first
      | exact strict_ofOut
      | exact strict_pure
      | exact strict_split
      | exact strict_join
      | exact strict_trim
      | exact strict_needStr fun _ => strict_pure
      | exact strict_capitalize
      | exact strict_substring
      | exact strict_stringTest
      | exact strict_parse
      | exact strict_floatFn
      | exact strict_floatTest
      | exact strict_pow
      | exact strict_sort
      | exact strict_frameKeys
      | exact strict_frameValues
      | exact strict_withEnv fun _ => .get fun _ => strict_pure
  exact this _ h

theorem strict_float {H : Host} {n : String} {P : PrimDef} (h : (n, P) ∈ floatTable H) (a : Data) (e : Nat) : Strict R G (P.body a e) := by
  obtain ⟨m, _, hm⟩ := List.mem_map.mp h
  cases hm
  exact strict_floatFn (e := e)

theorem strict_writeTo {n : Nat} {a p : Data} {m t : String} : Strict R G (writeTo n a p m t) := by
  unfold writeTo
  repeat' split
  · exact strict_bind strict_op fun _ => strict_pure
  · exact strict_pure
  · exact strict_fail

theorem strict_writeString {a : Data} {e : Nat} : Strict R G (writeStringImpl a e) := by
  unfold writeStringImpl
  split
  · exact strict_fail
  · exact strict_writeTo

theorem strict_format {H : Host} {a : Data} {e : Nat} : Strict R G (formatImpl H a e) := by
  unfold formatImpl
  split
  · exact strict_failShow
  · split
    · refine .get fun s => ?_
      split
      · split
        · exact strict_pure
        · split
          · exact strict_bind strict_op fun _ => strict_pure
          · exact strict_pure
      · exact strict_fail
      · exact .panic
    · exact strict_fail

theorem strict_loadLoop {e : Nat} {b : Bool} (ds : List Data) : ∀ v, Strict R G (loadLoopP e b ds v) := by
  induction ds with
  | nil =>
    intro v
    unfold loadLoopP
    split
    · exact strict_fail
    · exact strict_pure
  | cons d ds ih =>
    intro v
    unfold loadLoopP
    split
    · exact strict_pure
    · exact strict_bind strict_eval fun v => ih v

theorem strict_load {H : Host} {a : Data} {e : Nat} : Strict R G (loadImpl H a e) := by
  unfold loadImpl
  split
  · exact strict_fail
  · split
    · exact strict_fail
    · exact strict_loadLoop _ _

theorem strict_withAtomic {m : String} {d : Data} {k : Nat → Prog Data} (h : ∀ a, Strict R G (k a)) : Strict R G (withAtomic m d k) := by
  unfold withAtomic
  repeat' split
  · exact h _
  · exact strict_fail
  · exact strict_fail

theorem strict_withInt {m p : String} {d : Data} {k : BitVec 64 → Prog Data} (h : ∀ a, Strict R G (k a)) : Strict R G (withInt m p d k) := by
  unfold withInt
  split
  · exact h _
  · exact strict_fail

theorem strict_io {H : Host} {n : String} {P : PrimDef} (h : (n, P) ∈ ioTable H) (a : Data) (e : Nat) : Strict R G (P.body a e) := by
  have : ∀ q ∈ ioTable H, Strict R G (q.2.body a e) := by
    simp only [ioTable, List.forall_mem_cons, List.not_mem_nil, false_implies, implies_true, and_true, prim, rprim, o1, o2]
    repeat' apply And.intro
    all_goals first
      | exact strict_ofOut
      | exact strict_writeString
      | exact strict_writeTo
      | exact .get fun _ => strict_writeTo
      | exact strict_format
      | exact strict_load
      | skip
    · unfold atomicImpl
      dsimp only
      split
      · exact strict_withInt fun _ => strict_bind strict_op fun _ => strict_pure
      · exact strict_bind strict_op fun _ => strict_pure
    · exact strict_withAtomic fun _ => .get fun _ => strict_pure
    · exact strict_withAtomic fun _ => strict_withInt fun _ => strict_bind strict_op fun _ => strict_pure
    · exact strict_withAtomic fun _ => strict_withInt fun _ => strict_bind strict_op fun _ => strict_pure
    · exact strict_withAtomic fun _ => strict_withInt fun _ => strict_bind strict_op fun _ => strict_pure
    · exact strict_withAtomic fun _ => strict_withInt fun _ => strict_withInt fun _ => strict_bind strict_op fun _ => strict_pure
  exact this _ h

theorem strict_prim {H : Host} {n : String} {P : PrimDef} (h : (std H).prims n = some P) (hn : n ≠ "on-error") (hs : n ∉ searchers)
    (a : Data) (e : Nat) : Strict R G (P.body a e) := by
  have := alGet_some_mem h
  simp only [stdTable, List.mem_append] at this
  rcases this with h | h | h | h | h | h | h | h
  · exact strict_forms h hn a e
  · exact strict_system h a e
  · exact strict_math h a e
  · exact strict_lists h hs a e
  · exact strict_access h a e
  · exact strict_text h a e
  · exact strict_float h a e
  · exact strict_io h a e

/-! ### Applying a procedure -/

/-- The calls guarded, and those replaced, when the procedure value `fn` is applied to the argument list `args`. -/
def GuardOf (fn args : Data) (e : Nat) (c : Call) : Prop :=
  fn = .atom (.prim "on-error") ∧ c = .eval false (elem (car args)) e
def ReplaceOf (fn : Data) (e : Nat) (c : Call) : Prop := ∃ x ∈ searchers, fn = .atom (.prim x) ∧ ∃ f l, c = .app f l e

theorem car_listed {args : Data} (h : length args ≠ 0) : car (ofArray (toArray args)) = elem (car args) := by
  have hn : ∀ x, noNull x = elem x := fun x => by cases x <;> rfl
  cases args with
  | null => exact absurd rfl h
  | atom _ => rfl
  | cell k a d =>
    unfold toArray
    split
    · rename_i hx
      exfalso; apply h
      cases k <;> first | rfl | (simp only [length, chainLen, hx]; rfl) | (simp [length, chainLen, hx])
    · exact hn a

theorem special_prims {H : Host} : (std H).prims "on-error" = some ⟨"2|3".toList, true, false, onErrorImpl H⟩ := rfl

set_option maxRecDepth 20000 in
theorem searcher_body {H : Host} {n : String} {P : PrimDef} (h : (std H).prims n = some P) (hs : n ∈ searchers)
    {R G : Call → Prop} {e : Nat} (hg : ∀ f l, R (.app f l e)) (a : Data) : Strict R G (P.body a e) ∧ P.special = false := by
  simp only [searchers, List.mem_cons, List.not_mem_nil, or_false] at hs
  rcases hs with rfl | rfl | rfl
  · obtain rfl := Option.some.inj ((show (std H).prims "find" = some ⟨"2".toList, false, false, _⟩ from rfl).symm.trans h)
    exact ⟨strict_withFn_only (fun f hf r => strict_findP hf) hg, rfl⟩
  · obtain rfl := Option.some.inj ((show (std H).prims "find-tail" = some ⟨"2".toList, false, false, _⟩ from rfl).symm.trans h)
    exact ⟨strict_withFn_only (fun f hf r => strict_findTailP hf) hg, rfl⟩
  · obtain rfl := Option.some.inj ((show (std H).prims "memp" = some ⟨"2".toList, false, false, _⟩ from rfl).symm.trans h)
    exact ⟨strict_withFn_only (fun f hf r => strict_findTailP hf) hg, rfl⟩

theorem strict_primApply {H : Host} {n : String} {args : Data} {e : Nat} (args' : Data)
    (ha : n = "on-error" → args' = args) :
    Strict (ReplaceOf (.atom (.prim n)) e) (GuardOf (.atom (.prim n)) args e) (primApply (std H) n args' e) := by
  unfold primApply
  split
  · exact .panic
  · rename_i P hP
    refine .get fun s => ?_
    split
    · exact strict_fail
    · split
      · exact strict_fail
      · rename_i _ hc
        by_cases hn : n = "on-error"
        · subst hn
          obtain rfl := Option.some.inj (special_prims.symm.trans hP)
          obtain rfl := ha rfl
          refine strict_onError ?_
          refine ⟨rfl, ?_⟩
          rw [car_listed]
          intro h0
          rw [h0] at hc
          exact hc rfl
        · by_cases hs : n ∈ searchers
          · dsimp only
            have hb := fun vs => (searcher_body (R := ReplaceOf (.atom (.prim n)) e) (G := GuardOf (.atom (.prim n)) args e)
              hP hs (fun f l => ⟨n, hs, rfl, f, l, rfl⟩) vs).1
            split
            · exact strict_bind strict_pure fun vs => hb _
            · exact strict_bind (strict_evalAll _) fun vs => hb _
          · dsimp only
            split
            · exact strict_bind strict_pure fun vs => strict_prim hP hn hs _ _
            · exact strict_bind (strict_evalAll _) fun vs => strict_prim hP hn hs _ _

theorem strict_applyFn {H : Host} {fn args : Data} {e : Nat} : Strict (ReplaceOf fn e) (GuardOf fn args e) (Ev.apply (std H) fn args e) := by
  unfold Ev.apply
  split
  · exact .get fun _ => strict_callFn
  · exact strict_callMacro
  · exact strict_primApply _ fun _ => rfl
  · split
    · exact strict_fail
    · exact strict_failShow

theorem strict_applyNoEval {H : Host} {fn args : Data} {e : Nat} : Strict (ReplaceOf fn e) (GuardOf fn args e) (applyNoEval (std H) fn args e) := by
  unfold applyNoEval
  split
  · exact .get fun _ => strict_callFn
  · exact strict_callMacro
  · unfold primApplyNoEval
    split
    · exact .panic
    · rename_i n P hP
      split
      · exact strict_primApply _ fun _ => rfl
      · rename_i hns
        refine strict_primApply _ fun hn => ?_
        subst hn
        obtain rfl := Option.some.inj (special_prims.symm.trans hP)
        exact absurd rfl hns
  · exact strict_fail
  · exact strict_failShow

/-- A call that fails outside every guard makes the call that started it fail, in the state it left. -/
theorem starts_fails {H : Host} {c : Call} {s : Store} {c₁ : Call} {s₁ : Store} {er : Err} {s₂ : Store}
    (h : Starts (body (std H)) (body (std H) c) s c₁ s₁) (hg : ¬ Guarded (std H) c s c₁)
    (hr : Runs (body (std H)) c₁ s₁ (.err er) s₂) :
    ∃ er', Runs (body (std H)) c s (.err er') s₂ ∧ (Replaced (std H) c s c₁ ∨ Cause er er') := by
  simp only [runs_iff (c := c)]
  cases c with
  | doLoop bs t b r e =>
    refine strict_starts (R := fun c => Replaced (std H) (.doLoop bs t b r e) s c)
      (G := fun c => Guarded (std H) (.doLoop bs t b r e) s c) ?_ h hg hr
    exact strict_doIter fun x hx => .step hx
  | app f args e =>
    obtain ⟨er', h1, h2⟩ := strict_starts (G := GuardOf f args e) strict_applyNoEval h
      (by rintro ⟨rfl, rfl⟩; exact hg .onErrorApplied) hr
    refine ⟨er', h1, h2.imp_left ?_⟩
    rintro ⟨x, hx, rfl, f', l, rfl⟩
    exact .searchApplied hx
  | eval need d e =>
    have hd : ∀ p, body (std H) (.eval need d e) = p → Starts (body (std H)) p s c₁ s₁ := fun p hp => hp ▸ h
    show ∃ er', RunsP _ (evalHelper (std H) need d e) _ _ _ ∧ _
    unfold evalHelper
    split
    · rename_i a d'
      replace h := hd (evalCombination (std H) (shortcuts (.cell .cons a d')) e) rfl
      unfold evalCombination at h ⊢
      split at h
      · cases h
      · rename_i hnil
        rw [if_neg hnil]
        cases h with
        | here => exact ⟨er, runsP_call.mpr (Or.inr (Or.inl ⟨_, _, hr, runsP_err.mpr ⟨rfl, rfl⟩⟩)), Or.inr .same⟩
        | failed _ h => cases h
        | @returned _ _ _ fn s' _ _ ho h =>
          have hs : Strict (ReplaceOf fn e) (GuardOf fn (cdr (shortcuts (.cell .cons a d'))) e)
              (if isNil fn then failShow (std H).host "Nil when function or macro expected for " (car (shortcuts (.cell .cons a d'))) "."
               else (Ev.apply (std H) fn (cdr (shortcuts (.cell .cons a d'))) e).attempt fun r => match r with
                | .ok v => .ret v
                | .error er => .err (.evaling (shortcuts (.cell .cons a d')) er)) := by
            split
            · exact strict_failShow
            · exact strict_attempt strict_applyFn (fun _ => .ret) fun e => ⟨_, rfl, .evaling .same⟩
          obtain ⟨er', h1, h2⟩ := strict_starts hs h (by
            rintro ⟨rfl, rfl⟩
            exact hg (.onError ho)) hr
          refine ⟨er', runsP_call.mpr (Or.inl ⟨_, _, ho, h1⟩), h2.imp_left ?_⟩
          rintro ⟨x, hx, rfl, f', l, rfl⟩
          exact .search hx ho
    · rename_i x
      replace h := hd (if isNaked (.atom (.sym x)) then pure (.atom (.sym x)) else valueOf (std H).host need x e) rfl
      obtain ⟨er', h1, h2⟩ := strict_starts (R := fun _ => False) (G := fun _ => False) (by
        split
        · exact strict_pure
        · exact strict_valueOf) h id hr
      exact ⟨er', h1, h2.imp_left False.elim⟩
    · rename_i hc hsym
      have h' := hd (pure d) (by
        show evalHelper (std H) need d e = _
        unfold evalHelper
        split
        · exact absurd rfl (hc _ _)
        · exact absurd rfl (hsym _)
        · rfl)
      cases h'

end Golisp.Ev
