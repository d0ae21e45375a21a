import Verif.EvalSpec
import Verif.ProgLemmas
import Verif.ListLemmas
/- Lemmas about the evaluator: scope, sequences, combinations. -/
namespace Golisp.Ev
open Golisp Data Spec

variable {C : Conf} {H : Host}

/-! ### Scope -/

theorem localB_none_of_no_env {s : Store} {e : Nat} (x : String) (h : s.envs[e]? = none) : s.localB e x = none := by
  simp [Store.localB, h]

theorem findN_sound {s : Store} {x : String} : ∀ (n e f : Nat) (b : Binding),
    s.findN x n e = some (f, b) → Visible s e x f b := by
  intro n
  induction n with
  | zero => intro e f b h; simp [Store.findN] at h
  | succ n ih =>
    intro e f b h
    simp only [Store.findN] at h
    cases he : s.envs[e]? with
    | none => simp [he] at h
    | some r =>
      simp only [he] at h
      cases hb : alGet r.binds x with
      | some b' =>
        simp only [hb, Option.some.injEq, Prod.mk.injEq] at h
        obtain ⟨rfl, rfl⟩ := h
        exact .here (by simp [Store.localB, he, hb])
      | none =>
        simp only [hb] at h
        cases hp : r.parent with
        | none => simp [hp] at h
        | some p =>
          simp only [hp] at h
          exact .up (by simp [Store.localB, he, hb]) (by simp [Store.parentOf, he, hp]) (ih _ _ _ h)

theorem findN_complete {s : Store} (hw : WF s) {x : String} {e f : Nat} {b : Binding} (h : Visible s e x f b) :
    ∀ n, e < n → s.findN x n e = some (f, b) := by
  induction h with
  | @here e x b hb =>
    intro n hn
    obtain ⟨n, rfl⟩ : ∃ m, n = m + 1 := ⟨n - 1, by omega⟩
    simp only [Store.localB] at hb
    simp only [Store.findN]
    cases he : s.envs[e]? with
    | none => simp [he] at hb
    | some r => simp only [he] at hb ⊢; simp [hb]
  | @up e x p f b hb hp _ ih =>
    intro n hn
    obtain ⟨n, rfl⟩ : ∃ m, n = m + 1 := ⟨n - 1, by omega⟩
    simp only [Store.localB] at hb
    simp only [Store.parentOf] at hp
    simp only [Store.findN]
    cases he : s.envs[e]? with
    | none => simp [he] at hp
    | some r =>
      simp only [he] at hb hp ⊢
      simp only [hb, hp]
      exact ih n (by have := hw e r p he hp; omega)

/-- Lookup finds exactly the visible binding. -/
theorem find_iff {s : Store} (hw : WF s) {x : String} {e f : Nat} {b : Binding} :
    s.find e x = some (f, b) ↔ Visible s e x f b :=
  ⟨findN_sound _ _ _ _, fun h => findN_complete hw h _ (Nat.lt_succ_self e)⟩

theorem find_none_iff {s : Store} (hw : WF s) {x : String} {e : Nat} :
    s.find e x = none ↔ ∀ f b, ¬ Visible s e x f b := by
  constructor
  · intro h f b hv; rw [(find_iff hw).mpr hv] at h; simp at h
  · intro h
    cases hf : s.find e x with
    | none => rfl
    | some p => obtain ⟨f, b⟩ := p; exact absurd ((find_iff hw).mp hf) (h f b)

theorem _root_.Golisp.Spec.Visible.unique {s : Store} {x : String} {e f f' : Nat} {b b' : Binding} (h : Visible s e x f b)
    (h' : Visible s e x f' b') : f = f' ∧ b = b' := by
  induction h with
  | here hb => cases h' with
    | here hb' => rw [hb] at hb'; cases hb'; exact ⟨rfl, rfl⟩
    | up hn => rw [hb] at hn; cases hn
  | up hn hp _ ih => cases h' with
    | here hb' => rw [hn] at hb'; cases hb'
    | up _ hp' h2 => rw [hp] at hp'; cases hp'; exact ih h2

theorem slotOf_noSlot {s : Store} {e : Nat} {x : String} (h : NoSlot H s e x) : slotOf H s e x = .ok none := by
  simp only [slotOf]
  cases hf : s.frameOf e with
  | none => rfl
  | some i => simp only [h i hf]

variable {bd : Call → Prog Data}

/-- Looking up a name bound to something that is not a user function. -/
theorem runsP_valueOf {s : Store} (hw : WF s) {x : String} {e f : Nat} {b : Binding} (need : Bool)
    (hv : Visible s e x f b) (hn : s.localB e x = none → NoSlot H s e x) (hf : isFunc b.val = false) {r : Out Data}
    {s' : Store} : RunsP bd (valueOf H need x e) s r s' ↔ r = .ok b.val ∧ s' = s := by
  have hm : ∀ t, markFn b.val t = pure b.val := by
    intro t; cases hb : b.val with
    | null => rfl
    | cell => rfl
    | atom a => cases a <;> first | rfl | simp [isFunc, hb] at hf
  rw [valueOf, runsP_get]
  cases hl : s.localB e x with
  | some b' =>
    have : b' = b := (Visible.unique (.here hl) hv).2
    subst this
    simp only [hm]; exact runsP_ret
  | none =>
    simp only [slotOf_noSlot (hn hl), (find_iff hw).mpr hv, hm]
    exact runsP_ret

/-! ### Sequences -/

theorem runsP_evalSeq {e : Nat} (xs : List Data) : ∀ (v : Data) (s : Store) (r : Out Data) (s' : Store),
    RunsP (body C) (evalSeq e xs v) s r s' ↔ Seq C e xs v s r s' := by
  induction xs with
  | nil =>
    intro v s r s'
    rw [evalSeq, runsP_pure]
    constructor
    · rintro ⟨rfl, rfl⟩; exact .done
    · intro h; cases h; exact ⟨rfl, rfl⟩
  | cons x xs ih =>
    intro v s r s'
    rw [evalSeq, runsP_bind]
    simp only [runsP_eval, ih]
    constructor
    · rintro (⟨a, s₁, h, h'⟩ | ⟨er, h, rfl⟩ | ⟨h, rfl⟩)
      · exact .next h h'
      · exact .stop h (fun h => h)
      · exact .stop h (fun h => h)
    · intro h
      cases h with
      | next h h' => exact Or.inl ⟨_, _, h, h'⟩
      | stop h hr =>
        cases r with
        | ok a => exact absurd trivial hr
        | err er => exact Or.inr (Or.inl ⟨er, h, rfl⟩)
        | panic => exact Or.inr (Or.inr ⟨h, rfl⟩)
        | timeout => obtain ⟨_, _, h⟩ := h; exact absurd rfl h

theorem runsP_body {e : Nat} {d : Data} {xs : List Data} (hd : Lst d xs) {s : Store} {r : Out Data} {s' : Store} :
    RunsP (body C) (evaluateBody d e) s r s' ↔ Seq C e xs .null s r s' := by
  rw [evaluateBody, hd.toArray, runsP_evalSeq]

theorem runsP_evalAll {e : Nat} (xs : List Data) : ∀ (s : Store) (r : Out (List Data)) (s' : Store),
    RunsP (body C) (evalAll e xs) s r s' ↔ Args C e xs s r s' := by
  induction xs with
  | nil =>
    intro s r s'
    rw [evalAll, runsP_pure]
    constructor
    · rintro ⟨rfl, rfl⟩; exact .done
    · intro h; cases h; exact ⟨rfl, rfl⟩
  | cons x xs ih =>
    intro s r s'
    rw [evalAll, runsP_bind]
    simp only [runsP_eval]
    constructor
    · rintro (⟨a, s₁, h, h'⟩ | ⟨er, h, rfl⟩ | ⟨h, rfl⟩)
      · rw [runsP_bind] at h'
        rcases h' with (⟨vs, s₂, h2, h3⟩ | ⟨er, h2, rfl⟩ | ⟨h2, rfl⟩)
        · obtain ⟨rfl, rfl⟩ := runsP_pure.mp h3
          exact .next h ((ih _ _ _).mp h2)
        · exact .errLater h ((ih _ _ _).mp h2)
        · exact .panicLater h ((ih _ _ _).mp h2)
      · exact .err h
      · exact .panic h
    · intro h
      cases h with
      | next h h' =>
        exact Or.inl ⟨_, _, h, runsP_bind.mpr (Or.inl ⟨_, _, (ih _ _ _).mpr h', runsP_pure.mpr ⟨rfl, rfl⟩⟩)⟩
      | err h => exact Or.inr (Or.inl ⟨_, h, rfl⟩)
      | panic h => exact Or.inr (Or.inr ⟨h, rfl⟩)
      | errLater h h' =>
        exact Or.inl ⟨_, _, h, runsP_bind.mpr (Or.inr (Or.inl ⟨_, (ih _ _ _).mpr h', rfl⟩))⟩
      | panicLater h h' =>
        exact Or.inl ⟨_, _, h, runsP_bind.mpr (Or.inr (Or.inr ⟨(ih _ _ _).mpr h', rfl⟩))⟩

/-! ### Choice -/

theorem boolValue_iff (v : Data) : boolValue v = true ↔ Truthy v := by
  cases v with
  | null => simp [boolValue, Truthy]
  | cell k a d =>
    by_cases h : isNil (.cell k a d) = true
    · obtain ⟨rfl, rfl⟩ := (isNil_cell k a d).mp h
      simp [boolValue, Truthy]
    · have h' := mt (isNil_cell k a d).mpr h
      simp only [boolValue, h, Truthy]
      simp only [Bool.false_eq_true, if_false, ne_eq, reduceCtorEq, not_false_eq_true, Data.cell.injEq, and_true, true_and, true_iff]
      intro k' hk; exact h' ⟨hk.2.1, hk.2.2⟩
  | atom a => cases a <;> simp [boolValue, Truthy]

theorem boolValue_false_iff (v : Data) : boolValue v = false ↔ ¬ Truthy v := by
  rw [← boolValue_iff]; simp

theorem runsP_then {p : Prog Data} {f : Data → Prog Data} {s : Store} {r : Out Data} {s' : Store} :
    RunsP bd (p >>= f) s r s' ↔ Then (RunsP bd p s) (fun v s₁ => RunsP bd (f v) s₁) r s' := by
  rw [runsP_bind]
  refine or_congr Iff.rfl ?_
  constructor
  · rintro (⟨er, h, rfl⟩ | ⟨h, rfl⟩) <;> exact ⟨h, fun h => h⟩
  · rintro ⟨h, hr⟩
    cases r with
    | ok a => exact absurd trivial hr
    | err er => exact Or.inl ⟨er, h, rfl⟩
    | panic => exact Or.inr ⟨h, rfl⟩
    | timeout => obtain ⟨_, _, h⟩ := h; exact absurd rfl h

theorem runsP_eval_then {d : Data} {e : Nat} {f : Data → Prog Data} {s : Store} {r : Out Data} {s' : Store} :
    RunsP (body C) (Prog.eval d e >>= f) s r s' ↔ Then (Evals C d e s) (fun v s₁ => RunsP (body C) (f v) s₁) r s' := by
  rw [runsP_then]; simp only [Then, runsP_eval]; rfl

theorem _root_.Golisp.Spec.Then.congr {p : Out Data → Store → Prop} {f g : Data → Store → Out Data → Store → Prop} {r : Out Data}
    {s' : Store} (h : ∀ v s₁, f v s₁ r s' ↔ g v s₁ r s') : Then p f r s' ↔ Then p g r s' := by
  simp only [Then, h]

theorem isEqual_sym [FrEq] (d : Data) (x : String) : isEqual d (sym x) = true ↔ d = sym x := by
  cases d with
  | null => simp [isEqual, isEqualN]
  | cell k a b =>
    simp only [isEqual, isEqualN]
    cases k <;> simp [isAlist, isListP, isPair, isDotted]
  | atom a =>
    simp only [isEqual, isEqualN]
    cases a <;> simp [atomEq]

theorem _root_.Golisp.Spec.Evals.not_timeout {d : Data} {e : Nat} {s : Store} {r : Out Data} {s' : Store} (h : Evals C d e s r s') :
    r ≠ .timeout := by obtain ⟨_, _, h⟩ := h; exact h

/-! ### Combinations -/

theorem runsP_quoting {p : Prog Data} {d : Data} {s : Store} {r : Out Data} {s' : Store} :
    RunsP bd (p.attempt fun r => match r with | .ok v => .ret v | .error er => .err (.evaling d er)) s r s' ↔
      ∃ r₀, RunsP bd p s r₀ s' ∧ r = quoting d r₀ := by
  rw [runsP_attempt]
  constructor
  · rintro (⟨a, s₁, h, h'⟩ | ⟨er, s₁, h, h'⟩ | ⟨h, rfl⟩)
    · obtain ⟨rfl, rfl⟩ := runsP_ret.mp h'; exact ⟨_, h, rfl⟩
    · obtain ⟨rfl, rfl⟩ := runsP_err.mp h'; exact ⟨_, h, rfl⟩
    · exact ⟨_, h, rfl⟩
  · rintro ⟨r₀, h, rfl⟩
    cases r₀ with
    | ok a => exact Or.inl ⟨_, _, h, runsP_ret.mpr ⟨rfl, rfl⟩⟩
    | err er => exact Or.inr (Or.inl ⟨_, _, h, runsP_err.mpr ⟨rfl, rfl⟩⟩)
    | panic => exact Or.inr (Or.inr ⟨h, rfl⟩)
    | timeout => obtain ⟨_, _, h⟩ := h; exact absurd rfl h

theorem runsP_naming {p : Prog Data} {d : String} {s : Store} {r : Out Data} {s' : Store} :
    RunsP bd (inFn d p) s r s' ↔ ∃ r₀, RunsP bd p s r₀ s' ∧ r = naming d r₀ := by
  rw [inFn, runsP_attempt]
  constructor
  · rintro (⟨a, s₁, h, h'⟩ | ⟨er, s₁, h, h'⟩ | ⟨h, rfl⟩)
    · obtain ⟨rfl, rfl⟩ := runsP_ret.mp h'; exact ⟨_, h, rfl⟩
    · obtain ⟨rfl, rfl⟩ := runsP_err.mp h'; exact ⟨_, h, rfl⟩
    · exact ⟨_, h, rfl⟩
  · rintro ⟨r₀, h, rfl⟩
    cases r₀ with
    | ok a => exact Or.inl ⟨_, _, h, runsP_ret.mpr ⟨rfl, rfl⟩⟩
    | err er => exact Or.inr (Or.inl ⟨_, _, h, runsP_err.mpr ⟨rfl, rfl⟩⟩)
    | panic => exact Or.inr (Or.inr ⟨h, rfl⟩)
    | timeout => obtain ⟨_, _, h⟩ := h; exact absurd rfl h

/-- A combination whose operator evaluates to `fn`. -/
theorem evals_comb {h t fn : Data} (hs : shortcuts (cons h t) = cons h t) (hh : h ≠ .null) {e : Nat} {s s₁ : Store}
    (hop : EvalsOp C h e s (.ok fn) s₁) (hfn : isNil fn = false) {r : Out Data} {s' : Store} :
    Evals C (cons h t) e s r s' ↔
      ∃ r₀, RunsP (body C) (apply C fn t e) s₁ r₀ s' ∧ r = quoting (cons h t) r₀ := by
  have hn : isNil (cons h t) = false := (isNil_cell_false _ _ _).mpr fun h' => hh h'.1
  unfold Evals
  rw [runs_iff]
  simp only [body, evalHelper, evalCombination, hs, hn, car, cdr, Bool.false_eq_true, if_false]
  rw [runsP_bind_ok (a := fn) (s₁ := s₁) (runsP_evalNeed.mpr hop)]
  simp only [hfn, Bool.false_eq_true, if_false]
  exact runsP_quoting

theorem evalsOp_sym {x : String} {e : Nat} {s : Store} (hw : WF s) (hm : Means C s e x)
    (hx : isNaked (sym x) = false) : EvalsOp C (sym x) e s (.ok (.atom (.prim x))) s := by
  obtain ⟨f, p, hv⟩ := hm.visible
  unfold EvalsOp
  rw [runs_iff]
  simp only [body, evalHelper, hx]
  exact (runsP_valueOf hw true hv hm.noSlot rfl).mpr ⟨rfl, rfl⟩

/-- A special form applied to a proper list of argument expressions. -/
theorem evals_form {x : String} {P : PrimDef} {e : Nat} {s : Store} (hw : WF s) (hm : Means C s e x)
    (hx : isNaked (sym x) = false) (hs : ∀ t, shortcuts (cons (sym x) t) = cons (sym x) t)
    (hP : (std C.host).prims x = some P) (hsp : P.special = true) (hre : P.restricted = false)
    {t : Data} {xs : List Data} (ht : Lst t xs) (hc : Arity.checkArgumentCount (Arity.parseNumArgs P.args) xs.length = true)
    {r : Out Data} {s' : Store} :
    Evals C (cons (sym x) t) e s r s' ↔
      ∃ r₀, RunsP (body C) (P.body (ofArray xs) e) s r₀ s' ∧ r = quoting (cons (sym x) t) r₀ := by
  rw [evals_comb (hs t) (by simp) (evalsOp_sym hw hm hx) rfl]
  simp only [apply, primApply, hm.isStd, hP, hsp, hre, ht.length, ht.toArray, hc, Bool.false_and, Bool.not_true,
    Bool.false_eq_true, if_false, if_true]
  rfl

theorem evals_null {e : Nat} {s : Store} {r : Out Data} {s' : Store} :
    Evals C .null e s r s' ↔ r = .ok .null ∧ s' = s := by
  unfold Evals; rw [runs_iff]; exact runsP_ret

theorem count_ge1 {xs : List Data} (h : xs ≠ []) :
    Arity.checkArgumentCount (Arity.parseNumArgs ">=1".toList) xs.length = true := by
  have : Arity.parseNumArgs ">=1".toList = [.gte 1] := by decide
  rw [this]
  cases xs with
  | nil => exact absurd rfl h
  | cons x xs => simp [Arity.checkArgumentCount]

theorem count_ge2 {c : Data} {xs : List Data} (h : xs ≠ []) :
    Arity.checkArgumentCount (Arity.parseNumArgs ">=2".toList) (c :: xs).length = true := by
  have : Arity.parseNumArgs ">=2".toList = [.gte 2] := by decide
  rw [this]
  cases xs with
  | nil => exact absurd rfl h
  | cons x xs => simp [Arity.checkArgumentCount]

end Golisp.Ev
