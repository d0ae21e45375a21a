import Verif.CallLemmas
/- Lemmas about the binding loops of `let` and `do`. -/
namespace Golisp.Ev
open Golisp Data Spec

variable {C : Conf} {bd : Call → Prog Data}

/-- A binding as the two loops of `bindLetLocals` see it: its name and its initial expression. -/
inductive Pairs : List Data → List String → List Data → Prop where
  | nil : Pairs [] [] []
  | cons {b bs x xs i is} : isPair b = true → car b = sym x → car (cdr b) = i → Pairs bs xs is → Pairs (b :: bs) (x :: xs) (i :: is)

theorem runsP_check_plain {le : Nat} {l : List Data} {xs : List String} {is : List Data} (h : Pairs l xs is) :
    checkBindings false le l = pure () := by
  induction h with
  | nil => rfl
  | cons h1 h2 _ _ ih => simp [checkBindings, h1, h2, isSym, ih]

theorem runsP_check_rec {l : List Data} {xs : List String} {is : List Data} (h : Pairs l xs is) :
    ∀ {s : Store} {p : Nat} {pr : EnvRec} {f : Option Nat} {name : String} {B : List (String × Data)} {r : Out Unit} {s' : Store},
    RunsP bd (checkBindings true s.envs.length l) (pushEnv s p pr f name B) r s' ↔
      r = .ok () ∧ s' = pushEnv s p pr f name (B ++ xs.map fun x => (x, null)) := by
  induction h with
  | nil => intros; simp only [checkBindings, runsP_pure, List.map_nil, List.append_nil]
  | @cons b bs x xs i is h1 h2 _ _ ih =>
    intro s p pr f name B r s'
    simp only [checkBindings, h1, h2, isSym, stringValue, Bool.not_true, Bool.false_eq_true, if_false, if_true]
    rw [runsP_op_bind (bind_pushEnv s p pr f name B x null), ih]
    simp

theorem runsP_bindAll {ie le : Nat} {l : List Data} {xs : List String} {is : List Data} (h : Pairs l xs is) :
    ∀ {s : Store} {r : Out Unit} {s' : Store},
    RunsP (body C) (bindAll ie le l) s r s' ↔ Binds (fun a => Evals C a ie) le xs none is s r s' := by
  induction h with
  | nil =>
    intro s r s'
    simp only [bindAll, runsP_pure]
    constructor
    · rintro ⟨rfl, rfl⟩; exact .done
    · intro h; cases h; exact ⟨rfl, rfl⟩
  | @cons b bs x xs i is h1 h2 h3 _ ih =>
    intro s r s'
    simp only [bindAll, h2, h3, stringValue]
    rw [runsP_bind]
    simp only [runsP_eval]
    constructor
    · rintro (⟨v, s₁, h, h'⟩ | ⟨er, h, rfl⟩ | ⟨h, rfl⟩)
      · rw [runsP_bind] at h'
        simp only [runsP_op] at h'
        rcases h' with (⟨n, s₂, h1, h2⟩ | ⟨er, h1, rfl⟩ | ⟨h1, rfl⟩)
        · exact .next h h1 (ih.mp h2)
        · exact .refused h h1
        · exact absurd h1 bind_no_panic
      · exact .err h
      · exact .panic h
    · intro h
      cases h with
      | next h h1 h2 =>
        refine Or.inl ⟨_, _, h, ?_⟩
        rw [runsP_bind]; simp only [runsP_op]
        exact Or.inl ⟨_, _, h1, ih.mpr h2⟩
      | err h => exact Or.inr (Or.inl ⟨_, h, rfl⟩)
      | panic h => exact Or.inr (Or.inr ⟨h, rfl⟩)
      | refused h h1 =>
        refine Or.inl ⟨_, _, h, ?_⟩
        rw [runsP_bind]; simp only [runsP_op]
        exact Or.inr (Or.inl ⟨_, h1, rfl⟩)

theorem _root_.Golisp.Spec.LetBindings.pairs {d : Data} {xs : List String} {is : List Data} (h : LetBindings d xs is) :
    Pairs (toArray d) xs is := by
  induction h with
  | nil h => rw [h.toArray]; exact .nil
  | @cons b d x i xs inits hb _ ih =>
    have hn : isNil (cons (cons (sym x) b) d) = false := (isNil_cell_false _ _ _).mpr fun h' => by simp at h'
    simp only [toArray, hn]
    refine .cons rfl rfl ?_ ih
    have := cdr_Lst hb
    rw [car_Lst this]; cases i <;> rfl

theorem _root_.Golisp.Spec.LetBindings.isPair {d : Data} {xs : List String} {is : List Data} (h : LetBindings d xs is)
    (hd : ∀ k, d = .cell k .null .null → k = .cons) : isPair d = true := by
  cases h with
  | nil h => cases h with
    | null => rfl
    | empty k => rw [hd k rfl]; rfl
  | cons => rfl

theorem _root_.Golisp.Spec.DoVars.pairs {d : Data} {xs : List String} {is ss : List Data} (h : DoVars d xs is ss) :
    Pairs (toArray d) xs is := by
  induction h with
  | nil h => rw [h.toArray]; exact .nil
  | @noStep b d x i xs inits _ hb _ _ ih =>
    have hn : isNil (cons (cons (sym x) b) d) = false := (isNil_cell_false _ _ _).mpr fun h' => by simp at h'
    simp only [toArray, hn]
    refine .cons rfl rfl ?_ ih
    have := cdr_Lst hb
    rw [car_Lst this]; rfl
  | @step b d x i st xs inits _ hb _ _ ih =>
    have hn : isNil (cons (cons (sym x) b) d) = false := (isNil_cell_false _ _ _).mpr fun h' => by simp at h'
    simp only [toArray, hn]
    refine .cons rfl rfl ?_ ih
    have := cdr_Lst hb
    rw [car_Lst this]; rfl

/-! ### The loop -/

theorem interp_bind_cases {R : Call → M Store Data} {α β : Type} {p : Prog α} {f : α → Prog β} {s : Store} {r : Out β} {s' : Store}
    (h : interp R (p >>= f) s = (r, s')) (hr : r ≠ .timeout) :
    (∃ a s₁, interp R p s = (.ok a, s₁) ∧ interp R (f a) s₁ = (r, s')) ∨ (∃ e, interp R p s = (.err e, s') ∧ r = .err e) ∨
      (interp R p s = (.panic, s') ∧ r = .panic) := by
  rw [interp_bind, M.bind] at h
  rcases hp : interp R p s with ⟨_ | _ | _ | _, s₁⟩ <;> simp only [hp] at h
  · exact Or.inl ⟨_, _, rfl, h⟩
  · cases h; exact Or.inr (Or.inl ⟨_, rfl, rfl⟩)
  · cases h; exact Or.inr (Or.inr ⟨rfl, rfl⟩)
  · cases h; exact absurd rfl hr

theorem interp_attempt_cases {R : Call → M Store Data} {α β : Type} {p : Prog α} {f : Except Err α → Prog β} {s : Store} {r : Out β}
    {s' : Store} (h : interp R (p.attempt f) s = (r, s')) (hr : r ≠ .timeout) :
    (∃ a s₁, interp R p s = (.ok a, s₁) ∧ interp R (f (.ok a)) s₁ = (r, s')) ∨
      (∃ e s₁, interp R p s = (.err e, s₁) ∧ interp R (f (.error e)) s₁ = (r, s')) ∨ (interp R p s = (.panic, s') ∧ r = .panic) := by
  rw [interp_attempt] at h
  unfold after at h
  rcases hp : interp R p s with ⟨_ | _ | _ | _, s₁⟩ <;> simp only [hp] at h
  · exact Or.inl ⟨_, _, rfl, h⟩
  · exact Or.inr (Or.inl ⟨_, _, rfl, h⟩)
  · cases h; exact Or.inr (Or.inr ⟨rfl, rfl⟩)
  · cases h; exact absurd rfl hr

theorem evals_sym {x : String} (hx : isNaked (sym x) = false) {e : Nat} {s : Store} {r : Out Data} {s' : Store} :
    RunsP (body C) (valueOf C.host false x e) s r s' ↔ Evals C (sym x) e s r s' := by
  unfold Evals
  rw [runs_iff]
  simp only [body, evalHelper, hx]
  exact Iff.rfl

/-- A variable as `rebindDoLocals` sees it. -/
inductive Steps : List Data → List String → List Data → Prop where
  | nil : Steps [] [] []
  | keep {b bs x xs ss} : nth b 1 = sym x → isNil (nth b 3) = true → isNaked (sym x) = false → Steps bs xs ss →
      Steps (b :: bs) (x :: xs) (sym x :: ss)
  | step {b bs x xs st ss} : nth b 1 = sym x → nth b 3 = st → isNil st = false → Steps bs xs ss → Steps (b :: bs) (x :: xs) (st :: ss)

theorem _root_.Golisp.Spec.DoVars.steps {d : Data} {xs : List String} {is ss : List Data} (h : DoVars d xs is ss) :
    Steps (toArray d) xs ss := by
  induction h with
  | nil h => rw [h.toArray]; exact .nil
  | @noStep b d x i xs inits _ hb hx _ ih =>
    have hn : isNil (cons (cons (sym x) b) d) = false := (isNil_cell_false _ _ _).mpr fun h' => by simp at h'
    simp only [toArray, hn]
    refine .keep ?_ ?_ hx ih
    · rw [nth_spec hb]; simp
    · rw [nth_spec hb]; simp [isNil]
  | @step b d x i st xs inits _ hb hst _ ih =>
    have hn : isNil (cons (cons (sym x) b) d) = false := (isNil_cell_false _ _ _).mpr fun h' => by simp at h'
    simp only [toArray, hn]
    refine .step ?_ ?_ ?_ ih
    · rw [nth_spec hb]; simp
    · rw [nth_spec hb]; simp
    · cases st with
      | null => exact absurd Lst.null hst
      | atom => rfl
      | cell k a d =>
        refine (isNil_cell_false _ _ _).mpr ?_
        rintro ⟨rfl, rfl⟩; exact hst (.empty k)

theorem runsP_stepValues {l : List Data} {xs : List String} {ss : List Data} (h : Steps l xs ss) {e : Nat} :
    ∀ {s : Store} {r : Out (List (String × Data))} {s' : Store},
    RunsP (body C) (stepValues C.host e l) s r s' ↔
      (∃ vs, Args C e ss s (.ok vs) s' ∧ r = .ok (xs.zip vs)) ∨ (∃ er, Args C e ss s (.err er) s' ∧ r = .err er) ∨
        (Args C e ss s .panic s' ∧ r = .panic) := by
  have key : ∀ (p : Prog Data) (x : String) (d : Data) (l : List Data) (xs : List String) (ss : List Data),
      (∀ s r s', RunsP (body C) p s r s' ↔ Evals C d e s r s') →
      (∀ {s : Store} {r : Out (List (String × Data))} {s' : Store},
        RunsP (body C) (stepValues C.host e l) s r s' ↔
          (∃ vs, Args C e ss s (.ok vs) s' ∧ r = .ok (xs.zip vs)) ∨ (∃ er, Args C e ss s (.err er) s' ∧ r = .err er) ∨
            (Args C e ss s .panic s' ∧ r = .panic)) →
      ∀ {s : Store} {r : Out (List (String × Data))} {s' : Store},
        RunsP (body C) (do let v ← p; let r ← stepValues C.host e l; pure ((x, v) :: r)) s r s' ↔
          (∃ vs, Args C e (d :: ss) s (.ok vs) s' ∧ r = .ok ((x :: xs).zip vs)) ∨
            (∃ er, Args C e (d :: ss) s (.err er) s' ∧ r = .err er) ∨ (Args C e (d :: ss) s .panic s' ∧ r = .panic) := by
    intro p x d l xs ss hp ih s r s'
    rw [runsP_bind]
    simp only [hp]
    constructor
    · rintro (⟨v, s₁, h, h'⟩ | ⟨er, h, rfl⟩ | ⟨h, rfl⟩)
      · rw [runsP_bind] at h'
        simp only [ih, runsP_pure] at h'
        rcases h' with ⟨a, s₂, (⟨vs, h1, h2⟩ | ⟨_, _, h2⟩ | ⟨_, h2⟩), rfl, rfl⟩ | ⟨er, (⟨vs, h1, h2⟩ | ⟨er', h1, h2⟩ | ⟨_, h2⟩), rfl⟩ |
          ⟨(⟨vs, h1, h2⟩ | ⟨er', h1, h2⟩ | ⟨h1, _⟩), rfl⟩
        · cases h2; exact Or.inl ⟨v :: vs, .next h h1, rfl⟩
        · cases h2
        · cases h2
        · cases h2
        · cases h2; exact Or.inr (Or.inl ⟨_, .errLater h h1, rfl⟩)
        · cases h2
        · cases h2
        · cases h2
        · exact Or.inr (Or.inr ⟨.panicLater h h1, rfl⟩)
      · exact Or.inr (Or.inl ⟨_, .err h, rfl⟩)
      · exact Or.inr (Or.inr ⟨.panic h, rfl⟩)
    · rintro (⟨vs, h, rfl⟩ | ⟨er, h, rfl⟩ | ⟨h, rfl⟩)
      · cases h with
        | next h h1 =>
          refine Or.inl ⟨_, _, h, ?_⟩
          rw [runsP_bind_ok (ih.mpr (Or.inl ⟨_, h1, rfl⟩)), runsP_pure]
          exact ⟨rfl, rfl⟩
      · cases h with
        | err h => exact Or.inr (Or.inl ⟨_, h, rfl⟩)
        | errLater h h1 =>
          refine Or.inl ⟨_, _, h, ?_⟩
          rw [runsP_bind_err (ih.mpr (Or.inr (Or.inl ⟨_, h1, rfl⟩)))]
          exact ⟨rfl, rfl⟩
      · cases h with
        | panic h => exact Or.inr (Or.inr ⟨h, rfl⟩)
        | panicLater h h1 =>
          refine Or.inl ⟨_, _, h, ?_⟩
          rw [runsP_bind]
          exact Or.inr (Or.inr ⟨ih.mpr (Or.inr (Or.inr ⟨h1, rfl⟩)), rfl⟩)
  induction h with
  | nil =>
    intro s r s'
    simp only [stepValues, runsP_pure]
    constructor
    · rintro ⟨rfl, rfl⟩; exact Or.inl ⟨[], .done, rfl⟩
    · rintro (⟨vs, h, rfl⟩ | ⟨er, h, _⟩ | ⟨h, _⟩)
      · cases h; exact ⟨rfl, rfl⟩
      · cases h
      · cases h
  | @keep b bs x xs ss h1 h2 hx _ ih =>
    intro s r s'
    have hs : stepValues C.host e (b :: bs) = (do let v ← valueOf C.host false x e; let r ← stepValues C.host e bs; pure ((x, v) :: r)) := by
      simp [stepValues, h1, h2, stringValue]
    rw [hs]
    exact key _ x _ bs xs ss (fun s r s' => evals_sym hx) ih
  | @step b bs x xs st ss h1 h2 h3 _ ih =>
    intro s r s'
    have hs : stepValues C.host e (b :: bs) = (do let v ← Prog.eval st e; let r ← stepValues C.host e bs; pure ((x, v) :: r)) := by
      simp [stepValues, h1, h2, h3, stringValue]
    rw [hs]
    exact key _ x _ bs xs ss (fun s r s' => runsP_eval) ih

theorem Steps.length {l : List Data} {xs : List String} {ss : List Data} (h : Steps l xs ss) : xs.length = ss.length := by
  induction h with
  | nil => rfl
  | keep _ _ _ _ ih => simp [ih]
  | step _ _ _ _ ih => simp [ih]

theorem _root_.Golisp.Spec.Each.length {G : Data → Store → Out Data → Store → Prop} {xs vs : List Data} {s s' : Store}
    (h : Each G xs s (.ok vs) s') : xs.length = vs.length := by
  generalize hr : Out.ok vs = r at h
  induction h generalizing vs with
  | done => cases hr; rfl
  | next _ _ ih => cases hr; simp [ih rfl]
  | _ => cases hr

theorem runsP_bindPairs {e : Nat} (xs : List String) : ∀ (vs : List Data), xs.length = vs.length → ∀ {s : Store} {r : Out Unit} {s' : Store},
    RunsP bd (bindPairs e (xs.zip vs)) s r s' ↔ Binds (fun a s r s' => r = .ok a ∧ s' = s) e xs none vs s r s' := by
  induction xs with
  | nil =>
    intro vs hl s r s'
    cases vs with
    | cons => simp at hl
    | nil =>
      simp only [List.zip_nil_left, bindPairs, runsP_pure]
      constructor
      · rintro ⟨rfl, rfl⟩; exact .done
      · intro h; cases h; exact ⟨rfl, rfl⟩
  | cons x xs ih =>
    intro vs hl s r s'
    cases vs with
    | nil => simp at hl
    | cons v vs =>
      simp only [List.length_cons, Nat.add_right_cancel_iff] at hl
      simp only [List.zip_cons_cons, bindPairs]
      rw [runsP_bind]
      simp only [runsP_op]
      constructor
      · rintro (⟨n, s₂, h1, h2⟩ | ⟨er, h1, rfl⟩ | ⟨h1, rfl⟩)
        · exact .next ⟨rfl, rfl⟩ h1 ((ih vs hl).mp h2)
        · exact .refused ⟨rfl, rfl⟩ h1
        · exact absurd h1 bind_no_panic
      · intro h
        cases h with
        | next h h1 h2 => obtain ⟨h, rfl⟩ := h; cases h; exact Or.inl ⟨_, _, h1, (ih vs hl).mpr h2⟩
        | err h => cases h.1
        | panic h => cases h.1
        | refused h h1 => obtain ⟨h, rfl⟩ := h; cases h; exact Or.inr (Or.inl ⟨_, h1, rfl⟩)

theorem binds_const_no_panic {e : Nat} {xs : List String} {vs : List Data} {s s' : Store}
    (h : Binds (fun a s r s' => r = .ok a ∧ s' = s) e xs none vs s .panic s') : False := by
  generalize hr : Out.panic = r at h
  generalize ho : (none : Option String) = o at h
  induction h with
  | next _ _ _ ih => exact ih hr ho
  | panic h => cases h.1
  | restPanic h => cases ho
  | _ => cases hr

theorem runsP_rebind {d : Data} {xs : List String} {is ss : List Data} (hd : DoVars d xs is ss) {e : Nat} {s : Store} {r : Out Unit}
    {s' : Store} : RunsP (body C) (rebindDoLocals C.host d e) s r s' ↔
      (∃ vs s₁, Args C e ss s (.ok vs) s₁ ∧ Binds (fun a s r s' => r = .ok a ∧ s' = s) e xs none vs s₁ r s') ∨
        (∃ er, Args C e ss s (.err er) s' ∧ r = .err er) ∨ (Args C e ss s .panic s' ∧ r = .panic) := by
  have hl := hd.steps.length
  rw [rebindDoLocals, runsP_bind]
  simp only [runsP_stepValues hd.steps]
  constructor
  · rintro (⟨l, s₁, (⟨vs, h1, h2⟩ | ⟨_, _, h2⟩ | ⟨_, h2⟩), h⟩ | ⟨er, (⟨vs, h1, h2⟩ | ⟨er', h1, h2⟩ | ⟨_, h2⟩), rfl⟩ |
      ⟨(⟨vs, h1, h2⟩ | ⟨er', h1, h2⟩ | ⟨h1, _⟩), rfl⟩)
    · cases h2
      exact Or.inl ⟨vs, s₁, h1, (runsP_bindPairs xs vs (by rw [hl, h1.length])).mp h⟩
    · cases h2
    · cases h2
    · cases h2
    · cases h2; exact Or.inr (Or.inl ⟨_, h1, rfl⟩)
    · cases h2
    · cases h2
    · cases h2
    · exact Or.inr (Or.inr ⟨h1, rfl⟩)
  · rintro (⟨vs, s₁, h1, h2⟩ | ⟨er, h1, rfl⟩ | ⟨h1, rfl⟩)
    · exact Or.inl ⟨_, s₁, Or.inl ⟨vs, h1, rfl⟩, (runsP_bindPairs xs vs (by rw [hl, h1.length])).mpr h2⟩
    · exact Or.inr (Or.inl ⟨_, Or.inr (Or.inl ⟨_, h1, rfl⟩), rfl⟩)
    · exact Or.inr (Or.inr ⟨Or.inr (Or.inr ⟨h1, trivial⟩), rfl⟩)

/-- What the code does with an error in a step: the loop ends and the value of the last body form is returned. -/
abbrev swallow : Err → Data → Out Data := fun _ w => .ok w

private theorem doLoop_sound {d t b test : Data} {xs : List String} {is ss res bs : List Data} (hd : DoVars d xs is ss)
    (ht : Lst t (test :: res)) (hb : Lst b bs) {e : Nat} :
    ∀ (n : Nat) (u : Data) (s : Store) (r : Out Data) (s' : Store), recN (body C) n (.doLoop d t b u e) s = (r, s') → r ≠ .timeout →
      Loop C swallow xs ss test res bs e u s r s' := by
  have c1 : car t = test := by rw [car_Lst ht]; rfl
  have c2 : Lst (cdr t) res := cdr_Lst ht
  intro n
  induction n with
  | zero => intro u s r s' h hr; cases h; exact absurd rfl hr
  | succ n ih =>
    intro u s r s' h hr
    have lift : ∀ {α : Type} {p : Prog α} {s : Store} {r : Out α} {s' : Store}, interp (recN (body C) n) p s = (r, s') → r ≠ .timeout →
        RunsP (body C) p s r s' := fun h hr => ⟨n, h, hr⟩
    rw [recN_succ] at h
    simp only [body, doIter, c1, c2.toArray, hb.toArray] at h
    rcases interp_bind_cases h hr with ⟨v, s₁, h1, h2⟩ | ⟨er, h1, rfl⟩ | ⟨h1, rfl⟩
    · have h1 : Evals C test e s (.ok v) s₁ := runsP_eval.mp (lift h1 (by simp))
      cases hv : boolValue v with
      | true =>
        simp only [hv, if_true] at h2
        exact .finish h1 ((boolValue_iff v).mp hv) ((runsP_evalSeq _ _ _ _ _).mp (lift h2 hr))
      | false =>
        have hv' := (boolValue_false_iff v).mp hv
        simp only [hv, Bool.false_eq_true, if_false] at h2
        rcases interp_bind_cases h2 hr with ⟨w, s₂, h3, h4⟩ | ⟨er, h3, rfl⟩ | ⟨h3, rfl⟩
        · have h3 := (runsP_evalSeq _ _ _ _ _).mp (lift h3 (by simp))
          rcases interp_attempt_cases h4 hr with ⟨_, s₃, h5, h6⟩ | ⟨er, s₃, h5, h6⟩ | ⟨h5, rfl⟩
          · rcases (runsP_rebind hd).mp (lift h5 (by simp)) with ⟨vs, s₄, h7, h8⟩ | ⟨_, _, h7⟩ | ⟨_, h7⟩
            · rw [interp_doLoop] at h6
              exact .again h1 hv' h3 h7 h8 (ih _ _ _ _ h6 hr)
            · cases h7
            · cases h7
          · cases h6
            rcases (runsP_rebind hd).mp (lift h5 (by simp)) with ⟨vs, s₄, h7, h8⟩ | ⟨_, h7, h8⟩ | ⟨_, h7⟩
            · exact .bindErr h1 hv' h3 h7 h8
            · cases h8; exact .stepErr (onStep := swallow) h1 hv' h3 h7
            · cases h7
          · rcases (runsP_rebind hd).mp (lift h5 (by simp)) with ⟨vs, s₄, h7, h8⟩ | ⟨_, _, h8⟩ | ⟨h7, _⟩
            · exact absurd h8 binds_const_no_panic
            · cases h8
            · exact .stepPanic h1 hv' h3 h7
        · exact .bodyFails h1 hv' ((runsP_evalSeq _ _ _ _ _).mp (lift h3 (by simp))) (fun h => h)
        · exact .bodyFails h1 hv' ((runsP_evalSeq _ _ _ _ _).mp (lift h3 (by simp))) (fun h => h)
    · exact .testFails (runsP_eval.mp (lift h1 (by simp))) (fun h => h)
    · exact .testFails (runsP_eval.mp (lift h1 (by simp))) (fun h => h)

theorem runs_doLoop {d t b test : Data} {xs : List String} {is ss res bs : List Data} (hd : DoVars d xs is ss)
    (ht : Lst t (test :: res)) (hb : Lst b bs) {e : Nat} {u : Data} {s : Store} {r : Out Data} {s' : Store} :
    Runs (body C) (.doLoop d t b u e) s r s' ↔ Loop C swallow xs ss test res bs e u s r s' := by
  have c1 : car t = test := by rw [car_Lst ht]; rfl
  have c2 : Lst (cdr t) res := cdr_Lst ht
  constructor
  · rintro ⟨n, h, hr⟩; exact doLoop_sound hd ht hb n u s r s' h hr
  · intro h
    induction h with
    | @finish u s v s₁ r s' h1 h2 h3 =>
      rw [runs_iff]; simp only [body, doIter, c1, c2.toArray]
      rw [runsP_bind_ok (runsP_eval.mpr h1), (boolValue_iff v).mpr h2, if_pos rfl]
      exact (runsP_evalSeq _ _ _ _ _).mpr h3
    | @testFails u s r s' h1 h2 =>
      rw [runs_iff]; simp only [body, doIter, c1]
      rw [runsP_bind]; simp only [runsP_eval]
      cases r with
      | ok => exact absurd trivial h2
      | err er => exact Or.inr (Or.inl ⟨_, h1, rfl⟩)
      | panic => exact Or.inr (Or.inr ⟨h1, rfl⟩)
      | timeout => exact absurd rfl (Evals.not_timeout h1)
    | @bodyFails u s v s₁ r s' h1 h2 h3 h4 =>
      rw [runs_iff]; simp only [body, doIter, c1, hb.toArray]
      rw [runsP_bind_ok (runsP_eval.mpr h1), (boolValue_false_iff v).mpr h2]
      simp only [Bool.false_eq_true, if_false]
      rw [runsP_bind]
      have h3 := (runsP_evalSeq _ _ _ _ _).mpr h3
      cases r with
      | ok => exact absurd trivial h4
      | err er => exact Or.inr (Or.inl ⟨_, h3, rfl⟩)
      | panic => exact Or.inr (Or.inr ⟨h3, rfl⟩)
      | timeout => obtain ⟨_, _, h⟩ := h3; exact absurd rfl h
    | @again u s v s₁ w s₂ vs s₃ s₄ r s' h1 h2 h3 h4 h5 _ ih =>
      rw [runs_iff]; simp only [body, doIter, c1, hb.toArray]
      rw [runsP_bind_ok (runsP_eval.mpr h1), (boolValue_false_iff v).mpr h2]
      simp only [Bool.false_eq_true, if_false]
      rw [runsP_bind_ok ((runsP_evalSeq _ _ _ _ _).mpr h3), runsP_attempt]
      exact Or.inl ⟨(), s₄, (runsP_rebind hd).mpr (Or.inl ⟨_, _, h4, h5⟩), runsP_doLoop.mpr ih⟩
    | @stepErr u s v s₁ w s₂ er s' h1 h2 h3 h4 =>
      rw [runs_iff]; simp only [body, doIter, c1, hb.toArray]
      rw [runsP_bind_ok (runsP_eval.mpr h1), (boolValue_false_iff v).mpr h2]
      simp only [Bool.false_eq_true, if_false]
      rw [runsP_bind_ok ((runsP_evalSeq _ _ _ _ _).mpr h3), runsP_attempt]
      exact Or.inr (Or.inl ⟨er, s', (runsP_rebind hd).mpr (Or.inr (Or.inl ⟨_, h4, rfl⟩)), runsP_ret.mpr ⟨rfl, rfl⟩⟩)
    | @stepPanic u s v s₁ w s₂ s' h1 h2 h3 h4 =>
      rw [runs_iff]; simp only [body, doIter, c1, hb.toArray]
      rw [runsP_bind_ok (runsP_eval.mpr h1), (boolValue_false_iff v).mpr h2]
      simp only [Bool.false_eq_true, if_false]
      rw [runsP_bind_ok ((runsP_evalSeq _ _ _ _ _).mpr h3), runsP_attempt]
      exact Or.inr (Or.inr ⟨(runsP_rebind hd).mpr (Or.inr (Or.inr ⟨h4, rfl⟩)), rfl⟩)
    | @bindErr u s v s₁ w s₂ vs s₃ er s' h1 h2 h3 h4 h5 =>
      rw [runs_iff]; simp only [body, doIter, c1, hb.toArray]
      rw [runsP_bind_ok (runsP_eval.mpr h1), (boolValue_false_iff v).mpr h2]
      simp only [Bool.false_eq_true, if_false]
      rw [runsP_bind_ok ((runsP_evalSeq _ _ _ _ _).mpr h3), runsP_attempt]
      exact Or.inr (Or.inl ⟨er, s', (runsP_rebind hd).mpr (Or.inl ⟨_, _, h4, h5⟩), runsP_ret.mpr ⟨rfl, rfl⟩⟩)

end Golisp.Ev
