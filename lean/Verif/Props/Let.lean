import Verif.LetLemmas
import Verif.Demo
import Verif.Props.Calls
/- C38 (the `let` family) and C40 (`do`). -/
namespace Golisp.Props
open Golisp Data Ev Spec

variable {C : Conf} {e : Nat} {s : Store} {r : Out Data} {s' : Store}

private theorem lst_args {xs : List Data} (hn : Data.null ∉ xs) : Lst (ofArray xs) xs := by
  have := Lst.ofArray xs; rwa [map_elem_id hn] at this

theorem _root_.Golisp.Spec.Visible.env {x : String} {f : Nat} {b : Binding} (h : Visible s e x f b) : ∃ pr, s.envs[e]? = some pr := by
  cases hq : s.envs[e]? with
  | some pr => exact ⟨pr, rfl⟩
  | none =>
    cases h with
    | here h => simp [Store.localB, hq] at h
    | up _ h _ => simp [Store.parentOf, hq] at h

theorem _root_.Golisp.Spec.Means.env {x : String} (hm : Means C s e x) : ∃ pr, s.envs[e]? = some pr := by
  obtain ⟨f, p, hv⟩ := hm.visible
  exact hv.env

/-! ### C38: `let`, `let*`, `letrec` -/

private theorem letRuns_iff {p : Prog Unit} {pr : EnvRec} (hpr : s.envs[e]? = some pr) {name : String} {B : List (String × Data)}
    {ie : Nat} {xs : List String} {inits bs : List Data} {bd : Data} (hb : Lst bd bs)
    (hp : ∀ r s', RunsP (body C) p (pushEnv s e pr none name []) r s' ↔
      Binds (fun a => Evals C a ie) s.envs.length xs none inits (pushEnv s e pr none name B) r s') :
    RunsP (body C) (do p; evaluateBody bd s.envs.length) (pushEnv s e pr none name []) r s' ↔
      LetRuns C e name B ie xs inits bs s r s' := by
  rw [runsP_bind]
  simp only [hp, runsP_body hb]
  constructor
  · rintro (⟨_, s₁, h, h1⟩ | ⟨er, h, rfl⟩ | ⟨h, rfl⟩)
    · exact .run hpr h h1
    · exact .err hpr h
    · exact .panic hpr h
  · intro h
    cases h with
    | run h0 h h1 => rw [hpr] at h0; cases h0; exact Or.inl ⟨(), _, h, h1⟩
    | err h0 h => rw [hpr] at h0; cases h0; exact Or.inr (Or.inl ⟨_, h, rfl⟩)
    | panic h0 h => rw [hpr] at h0; cases h0; exact Or.inr (Or.inr ⟨h, rfl⟩)

private theorem letCommon_iff (star rec : Bool) {pr : EnvRec} (hpr : s.envs[e]? = some pr) {args bd : Data} {bs : List Data}
    (hl : Lst args (bd :: bs)) {xs : List String} {inits : List Data} (hbd : LetBindings bd xs inits) (hp : isPair bd = true) :
    RunsP (body C) (letCommon star rec args e) s r s' ↔
      LetRuns C e "let" (if rec then xs.map fun x => (x, Data.null) else []) (if star || rec then s.envs.length else e) xs inits bs s r s' := by
  have c1 : car args = bd := by rw [car_Lst hl]; rfl
  rw [letCommon, c1, hp]
  simp only [Bool.not_true, Bool.false_eq_true, if_false]
  rw [runsP_op_bind (newEnv_run hpr none "let")]
  refine letRuns_iff hpr (cdr_Lst hl) ?_
  intro r s'
  rw [bindLetLocals]
  cases rec with
  | false =>
    rw [runsP_check_plain hbd.pairs, runsP_bind_ok (runsP_pure.mpr ⟨rfl, rfl⟩)]
    exact runsP_bindAll hbd.pairs
  | true =>
    rw [runsP_bind_ok ((runsP_check_rec hbd.pairs).mpr ⟨rfl, rfl⟩)]
    exact runsP_bindAll hbd.pairs

/-- The bindings are a list cell (the reader makes no other kind here). -/
private theorem isPair_ok {bd : Data} {xs : List String} {inits : List Data} (hbd : LetBindings bd xs inits)
    (hk : xs = [] → bd = .emptyCons) : isPair bd = true := by
  cases hbd with
  | nil h => rw [hk rfl]; rfl
  | cons => rfl

/-- `(let ((x init) …) body …)`: the initial expressions are evaluated in the surrounding environment `e`. -/
theorem C38_let (hw : WF s) (hm : Means C s e "let") {t bd : Data} {bs : List Data} (ht : Lst t (bd :: bs))
    (hn : Data.null ∉ bd :: bs) {xs : List String} {inits : List Data} (hbd : LetBindings bd xs inits) (hk : xs = [] → bd = .emptyCons) :
    Evals C (.cons (.sym "let") t) e s r s' ↔ ∃ r₀, r = quoting (.cons (.sym "let") t) r₀ ∧
      LetRuns C e "let" [] e xs inits bs s r₀ s' := by
  obtain ⟨pr, hpr⟩ := hm.env
  have hp := isPair_ok hbd hk
  have hl := lst_args hn
  have c1 : car (ofArray (bd :: bs)) = bd := by rw [car_Lst hl]; rfl
  rw [evals_form (P := ⟨">=1".toList, true, false, letImpl⟩) hw hm rfl (fun _ => rfl) rfl rfl rfl ht (count_ge1 (by simp))]
  refine exists_congr fun r₀ => ?_
  rw [and_comm]
  refine and_congr Iff.rfl ?_
  show RunsP (body C) (letImpl _ e) s r₀ s' ↔ _
  rw [letImpl, c1, show isSym bd = false from ?_]
  · exact letCommon_iff false false hpr hl hbd hp
  · cases hbd with
    | nil h => rw [hk rfl]; rfl
    | cons => rfl

/-- `(let* …)`: the initial expressions are evaluated in the new environment, so each sees the names bound before it. -/
theorem C38_let_star (hw : WF s) (hm : Means C s e "let*") {t bd : Data} {bs : List Data} (ht : Lst t (bd :: bs))
    (hn : Data.null ∉ bd :: bs) {xs : List String} {inits : List Data} (hbd : LetBindings bd xs inits) (hk : xs = [] → bd = .emptyCons) :
    Evals C (.cons (.sym "let*") t) e s r s' ↔ ∃ r₀, r = quoting (.cons (.sym "let*") t) r₀ ∧
      LetRuns C e "let" [] s.envs.length xs inits bs s r₀ s' := by
  obtain ⟨pr, hpr⟩ := hm.env
  have hp := isPair_ok hbd hk
  have hl := lst_args hn
  rw [evals_form (P := ⟨">=1".toList, true, false, letStarImpl⟩) hw hm rfl (fun _ => rfl) rfl rfl rfl ht (count_ge1 (by simp))]
  refine exists_congr fun r₀ => ?_
  rw [and_comm]
  exact and_congr Iff.rfl (letCommon_iff true false hpr hl hbd hp)

/-- `(letrec …)`: all the names are bound (to nil) before the first initial expression is evaluated. -/
theorem C38_letrec (hw : WF s) (hm : Means C s e "letrec") {t bd : Data} {bs : List Data} (ht : Lst t (bd :: bs))
    (hn : Data.null ∉ bd :: bs) {xs : List String} {inits : List Data} (hbd : LetBindings bd xs inits) (hk : xs = [] → bd = .emptyCons) :
    Evals C (.cons (.sym "letrec") t) e s r s' ↔ ∃ r₀, r = quoting (.cons (.sym "letrec") t) r₀ ∧
      LetRuns C e "let" (xs.map fun x => (x, Data.null)) s.envs.length xs inits bs s r₀ s' := by
  obtain ⟨pr, hpr⟩ := hm.env
  have hp := isPair_ok hbd hk
  have hl := lst_args hn
  rw [evals_form (P := ⟨">=1".toList, true, false, letRecImpl⟩) hw hm rfl (fun _ => rfl) rfl rfl rfl ht (count_ge1 (by simp))]
  refine exists_congr fun r₀ => ?_
  rw [and_comm]
  exact and_congr Iff.rfl (letCommon_iff false true hpr hl hbd hp)

/-- With initial expressions that are plain values (effect-free, always the same value), `let` is: one new environment
holding exactly these bindings, and the body in it. -/
theorem C38_let_values (hw : WF s) (hm : Means C s e "let") {t bd : Data} {bs : List Data} (ht : Lst t (bd :: bs))
    (hn : Data.null ∉ bd :: bs) {xs : List String} {inits vs : List Data} (hbd : LetBindings bd xs inits)
    (hk : xs = [] → bd = .emptyCons) (hlen : xs.length = inits.length) (hv : Const (fun a => Evals C a e) inits vs) {pr : EnvRec} (hpr : s.envs[e]? = some pr) :
    Evals C (.cons (.sym "let") t) e s r s' ↔ ∃ r₀, r = quoting (.cons (.sym "let") t) r₀ ∧
      Seq C s.envs.length bs .null (pushEnv s e pr none "let" (xs.zip vs)) r₀ s' := by
  rw [C38_let hw hm ht hn hbd hk]
  refine exists_congr fun r₀ => and_congr Iff.rfl ?_
  have hb := fun {r s'} => hv.binds (rest := none) xs hlen.symm (s := s) (p := e) (pr := pr) (f := none) (name := "let") (B := []) (r := r) (s' := s')
  simp only [paramBinds, List.append_nil, List.nil_append] at hb
  constructor
  · intro h
    cases h with
    | run h0 h1 h2 => rw [hpr] at h0; cases h0; obtain ⟨_, rfl⟩ := hb.mp h1; exact h2
    | err h0 h1 => rw [hpr] at h0; cases h0; cases (hb.mp h1).1
    | panic h0 h1 => rw [hpr] at h0; cases h0; cases (hb.mp h1).1
  · intro h
    exact .run hpr (hb.mpr ⟨rfl, rfl⟩) h

/-- Binding a name in the new environment leaves everything visible from the environment around it as it was: the
initial expressions of a `let` see none of the names. -/
theorem C38_hidden {le n : Nat} {x : String} {v : Data} (hw : WF s) (he : e < le) (hb : (Op.bind le x v).run s = (.ok n, s')) {y : String} {f : Nat}
    {b : Binding} : Visible s' e y f b ↔ Visible s e y f b := by
  have hloc : ∀ g, g ≠ le → s'.localB g y = s.localB g y := by
    intro g hg
    have hput : s' = s.putVal le x v := by
      simp only [Op.run] at hb
      repeat' split at hb
      all_goals first | (cases hb; rfl) | cases hb
    rw [hput, putVal_localB, if_neg]
    rintro ⟨rfl, _⟩; exact hg rfl
  have hpar : ∀ g, s'.parentOf g = s.parentOf g := by
    intro g
    have hput : s' = s.putVal le x v := by
      simp only [Op.run] at hb
      repeat' split at hb
      all_goals first | (cases hb; rfl) | cases hb
    rw [hput]
    simp only [Store.parentOf, putVal_envs]
    by_cases hg : g = le
    · subst hg
      cases hq : s.envs[g]? with
      | none => simp
      | some q => simp [EnvRec.put]
    · simp [hg]
  have up : ∀ {g p : Nat}, s.parentOf g = some p → p < g := by
    intro g p h
    simp only [Store.parentOf] at h
    cases hq : s.envs[g]? with
    | none => simp [hq] at h
    | some q => simp only [hq] at h; exact hw g q p hq h
  constructor
  · intro h
    induction h with
    | here h => rw [hloc _ (Nat.ne_of_lt he)] at h; exact .here h
    | up h1 h2 _ ih =>
      rw [hloc _ (Nat.ne_of_lt he)] at h1; rw [hpar] at h2
      exact .up h1 h2 (ih (Nat.lt_trans (up h2) he) hloc)
  · intro h
    induction h with
    | here h => exact .here ((hloc _ (Nat.ne_of_lt he)).trans h)
    | up h1 h2 _ ih =>
      exact .up ((hloc _ (Nat.ne_of_lt he)).trans h1) ((hpar _).trans h2) (ih (Nat.lt_trans (up h2) he) hloc)

/-- Binding a name in the new environment makes it visible there: `let*` and `letrec` inits, and the bodies, see it. -/
theorem C38_seen {le n : Nat} {x : String} {v : Data} (hb : (Op.bind le x v).run s = (.ok n, s')) {q : EnvRec} (hq : s.envs[le]? = some q) :
    ∃ p, Visible s' le x le ⟨v, p⟩ := by
  have hput : s' = s.putVal le x v := by
    simp only [Op.run] at hb
    repeat' split at hb
    all_goals first | (cases hb; rfl) | cases hb
  have : ∃ p, (s.putVal le x v).localB le x = some ⟨v, p⟩ := by
    rw [putVal_localB]
    simp only [and_self, if_true, hq]
    cases alGet q.binds x with
    | none => exact ⟨_, rfl⟩
    | some b => exact ⟨_, rfl⟩
  obtain ⟨p, h⟩ := this
  exact ⟨p, .here (hput ▸ h)⟩

/-- The binding steps touch the new environment only: whatever the initial expressions leave alone in another
environment is unchanged at the end. -/
theorem C38_only_new {G : Data → Store → Out Data → Store → Prop} {le : Nat} {xs : List String} {o : Option String} {as : List Data}
    {r : Out Unit} (h : Binds G le xs o as s r s') {f : Nat} {y : String} (hf : f ≠ le)
    (hG : ∀ a ∈ as, ∀ t r t', G a t r t' → t'.localB f y = t.localB f y) : s'.localB f y = s.localB f y := by
  have hop : ∀ {x v t t'} {o : Out Nat}, (Op.bind le x v).run t = (o, t') → t'.localB f y = t.localB f y := by
    intro x v t t' o h
    simp only [Op.run] at h
    repeat' split at h
    all_goals cases h
    all_goals first | rfl | (rw [putVal_localB, if_neg]; rintro ⟨rfl, _⟩; exact hf rfl)
  have each : ∀ {as : List Data} {s r s'}, (∀ a ∈ as, ∀ t r t', G a t r t' → t'.localB f y = t.localB f y) → Each G as s r s' →
      s'.localB f y = s.localB f y := by
    intro as s r s' hG h
    induction h with
    | done => rfl
    | next h _ ih => exact (ih fun a ha => hG a (by simp [ha])).trans (hG _ (by simp) _ _ _ h)
    | err h => exact hG _ (by simp) _ _ _ h
    | panic h => exact hG _ (by simp) _ _ _ h
    | errLater h _ ih => exact (ih fun a ha => hG a (by simp [ha])).trans (hG _ (by simp) _ _ _ h)
    | panicLater h _ ih => exact (ih fun a ha => hG a (by simp [ha])).trans (hG _ (by simp) _ _ _ h)
  induction h with
  | done => rfl
  | next h h1 _ ih => exact (ih fun a ha => hG a (by simp [ha])).trans ((hop h1).trans (hG _ (by simp) _ _ _ h))
  | err h => exact hG _ (by simp) _ _ _ h
  | panic h => exact hG _ (by simp) _ _ _ h
  | refused h h1 => exact (hop h1).trans (hG _ (by simp) _ _ _ h)
  | rest h h1 => exact (hop h1).trans (each hG h)
  | restErr h => exact each hG h
  | restPanic h => exact each hG h
  | restRefused h h1 => exact (hop h1).trans (each hG h)

private theorem params_syms (xs : List String) : Params (ofArray (xs.map sym)) xs none := by
  have key : ∀ xs : List String, xs ≠ [] → Params (listWithTail (xs.map sym) null) xs none := by
    intro xs
    induction xs with
    | nil => intro h; exact absurd rfl h
    | cons x xs ih =>
      intro _
      refine .cons ?_
      cases xs with
      | nil => exact .none .null
      | cons y ys => exact ih (by simp)
  cases xs with
  | nil => exact .none (.empty _)
  | cons x xs => exact key _ (by simp)

private theorem namedLetVars_eq {l : List Data} {xs : List String} {is : List Data} (h : Pairs l xs is) :
    namedLetVars l = some (xs.map sym, is) := by
  induction h with
  | nil => rfl
  | cons _ h2 h3 _ ih => simp [namedLetVars, h2, h3, isSym, ih]

/-- `(let name ((x init) …) body …)`: a new environment in which `name` is a function with the given parameters and body,
created there; it is called with the initial expressions, evaluated in the surrounding environment. -/
theorem C38_named_let (hw : WF s) (hm : Means C s e "let") {t bd : Data} {name : String} {bs : List Data} (ht : Lst t (.sym name :: bd :: bs))
    (hn : Data.null ∉ .sym name :: bd :: bs) {xs : List String} {inits : List Data} (hbd : LetBindings bd xs inits)
    (hk : xs = [] → bd = .emptyCons) (hi : Data.null ∉ inits) :
    ∃ pr bdy, s.envs[e]? = some pr ∧ Lst bdy bs ∧ ∀ r s', Evals C (.cons (.sym "let") t) e s r s' ↔
      ∃ r₀, r = quoting (.cons (.sym "let") t) r₀ ∧ CallsG C (fun a => Evals C a e) s.fns.length inits e none
        (pushEnv { s with fns := s.fns ++ [⟨name, ofArray (xs.map sym), bdy, s.envs.length, false⟩] } e pr none name
          [(name, .null), (name, .atom (.func s.fns.length))]) r₀ s' := by
  obtain ⟨pr, hpr⟩ := hm.env
  have hp := isPair_ok hbd hk
  have hl := lst_args hn
  have c1 : car (ofArray (.sym name :: bd :: bs)) = .sym name := by rw [car_Lst hl]; rfl
  have c2 : car (cdr (ofArray (.sym name :: bd :: bs))) = bd := by rw [car_Lst (cdr_Lst hl)]; rfl
  have c3 : Lst (cdr (cdr (ofArray (.sym name :: bd :: bs)))) bs := cdr_Lst (cdr_Lst hl)
  refine ⟨pr, _, hpr, c3, fun r s' => ?_⟩
  rw [evals_form (P := ⟨">=1".toList, true, false, letImpl⟩) hw hm rfl (fun _ => rfl) rfl rfl rfl ht (count_ge1 (by simp))]
  refine exists_congr fun r₀ => ?_
  rw [and_comm]
  refine and_congr Iff.rfl ?_
  have himp : letImpl (ofArray (.sym name :: bd :: bs)) e = (do
      let le ← Prog.op (.newEnv e none name)
      let _ ← Prog.op (.bind le name null)
      let i ← Prog.op (.newFn name (ofArray (xs.map sym)) (cdr (cdr (ofArray (.sym name :: bd :: bs)))) le)
      let _ ← Prog.op (.bind le name (.atom (.func i)))
      callFn i (ofArray inits) e none true) := by
    simp only [letImpl, namedLetImpl, c1, c2, isSym, stringValue, if_true, hp, namedLetVars_eq hbd.pairs]
    rfl
  simp only
  rw [himp]
  generalize hB : cdr (cdr (ofArray (.sym name :: bd :: bs))) = bdy at c3 ⊢
  rw [runsP_op_bind (newEnv_run hpr none name), runsP_op_bind (bind_pushEnv s e pr none name [] name null),
    runsP_op_bind (n := s.fns.length)
      (s₁ := pushEnv { s with fns := s.fns ++ [⟨name, ofArray (xs.map sym), bdy, s.envs.length, false⟩] } e pr none name [(name, .null)]) rfl,
    runsP_op_bind (bind_pushEnv { s with fns := s.fns ++ [⟨name, ofArray (xs.map sym), bdy, s.envs.length, false⟩] } e pr none name [(name, .null)]
      name (.atom (.func s.fns.length)))]
  refine runsP_callFn_exprs (fr := ⟨name, ofArray (xs.map sym), bdy, s.envs.length, false⟩) ?_ ⟨⟨_, pushEnv_top
    { s with fns := s.fns ++ [⟨name, ofArray (xs.map sym), bdy, s.envs.length, false⟩] } e pr none name _⟩, ⟨xs, none, params_syms xs, fun _ => rfl⟩,
    bs, c3⟩ (lst_args hi)
  simp [pushEnv]

/-! ### C40: `do` -/

/-- `(do ((x init step) …) (test res …) body …)`, as the code runs it: an error in a step ends the loop *without* error
(`swallow`).  The intended meaning is `DoRuns` with `fun er _ => .err er`. -/
theorem C40_do (hw : WF s) (hm : Means C s e "do") {t bd tc test : Data} {res bs : List Data} (ht : Lst t (bd :: tc :: bs))
    (hn : Data.null ∉ bd :: tc :: bs) {xs : List String} {inits steps : List Data} (hbd : DoVars bd xs inits steps)
    (hk : xs = [] → bd = .emptyCons) (htc : Lst tc (test :: res)) (hp : isPair tc = true) :
    Evals C (.cons (.sym "do") t) e s r s' ↔ ∃ r₀, r = quoting (.cons (.sym "do") t) r₀ ∧
      DoRuns C swallow e xs inits steps test res bs s r₀ s' := by
  obtain ⟨pr, hpr⟩ := hm.env
  have hpb : isPair bd = true := by
    cases hbd with
    | nil h => rw [hk rfl]; rfl
    | noStep => rfl
    | step => rfl
  have hl := lst_args hn
  have c1 : car (ofArray (bd :: tc :: bs)) = bd := by rw [car_Lst hl]; rfl
  have c2 : car (cdr (ofArray (bd :: tc :: bs))) = tc := by rw [car_Lst (cdr_Lst hl)]; rfl
  have c3 : Lst (cdr (cdr (ofArray (bd :: tc :: bs)))) bs := cdr_Lst (cdr_Lst hl)
  rw [evals_form (P := ⟨">=2".toList, true, false, doImpl⟩) hw hm rfl (fun _ => rfl) rfl rfl rfl ht (count_ge2 (by simp))]
  refine exists_congr fun r₀ => ?_
  rw [and_comm]
  refine and_congr Iff.rfl ?_
  show RunsP (body C) (doImpl _ e) s r₀ s' ↔ _
  simp only [doImpl, c1, c2, hpb, hp, Bool.not_true, Bool.false_eq_true, if_false]
  rw [runsP_op_bind (newEnv_run hpr none "do"), bindLetLocals, runsP_check_plain hbd.pairs]
  rw [runsP_bind]
  have hb : ∀ r s', RunsP (body C) ((pure () : Prog Unit) >>= fun _ => bindAll e s.envs.length (toArray bd)) (pushEnv s e pr none "do" []) r s' ↔
      Binds (fun a => Evals C a e) s.envs.length xs none inits (pushEnv s e pr none "do" []) r s' := by
    intro r s'
    exact runsP_bindAll hbd.pairs
  simp only [hb, runsP_doLoop, runs_doLoop hbd htc c3]
  constructor
  · rintro (⟨_, s₁, h, h1⟩ | ⟨er, h, rfl⟩ | ⟨h, rfl⟩)
    · exact .run hpr h h1
    · exact .err hpr h
    · exact .panic hpr h
  · intro h
    cases h with
    | run h0 h h1 => rw [hpr] at h0; cases h0; exact Or.inl ⟨(), _, h, h1⟩
    | err h0 h => rw [hpr] at h0; cases h0; exact Or.inr (Or.inl ⟨_, h, rfl⟩)
    | panic h0 h => rw [hpr] at h0; cases h0; exact Or.inr (Or.inr ⟨h, rfl⟩)

/-- The intended meaning of `do`: every error ends the loop with that error. -/
abbrev raise : Err → Data → Out Data := fun er _ => .err er

private theorem loop_agree {xs : List String} {steps : List Data} {test : Data} {res bs : List Data} {u : Data}
    (h : Loop C raise xs steps test res bs e u s r s') (hr : ∀ er, r ≠ .err er) : Loop C swallow xs steps test res bs e u s r s' := by
  induction h with
  | finish h1 h2 h3 => exact .finish h1 h2 h3
  | testFails h1 h2 => exact .testFails h1 h2
  | bodyFails h1 h2 h3 h4 => exact .bodyFails h1 h2 h3 h4
  | again h1 h2 h3 h4 h5 _ ih => exact .again h1 h2 h3 h4 h5 (ih hr)
  | stepErr => exact absurd rfl (hr _)
  | stepPanic h1 h2 h3 h4 => exact .stepPanic h1 h2 h3 h4
  | bindErr => exact absurd rfl (hr _)

private theorem loop_agree' {xs : List String} {steps : List Data} {test : Data} {res bs : List Data} {u : Data}
    (h : Loop C swallow xs steps test res bs e u s r s') (hr : ∀ v, r ≠ .ok v) : Loop C raise xs steps test res bs e u s r s' := by
  induction h with
  | finish h1 h2 h3 => exact .finish h1 h2 h3
  | testFails h1 h2 => exact .testFails h1 h2
  | bodyFails h1 h2 h3 h4 => exact .bodyFails h1 h2 h3 h4
  | again h1 h2 h3 h4 h5 _ ih => exact .again h1 h2 h3 h4 h5 (ih hr)
  | stepErr => exact absurd rfl (hr _)
  | stepPanic h1 h2 h3 h4 => exact .stepPanic h1 h2 h3 h4
  | bindErr => exact absurd rfl (hr _)

/-- Full statement: `Evals (do …) ↔ … DoRuns C raise …`.  Proved here: whenever the intended meaning is a value, that is
what `do` returns.  Missing: an error in a step expression (see `C40_step_error_violation`). -/
theorem C40_do_value_partial (hw : WF s) (hm : Means C s e "do") {t bd tc test : Data} {res bs : List Data} (ht : Lst t (bd :: tc :: bs))
    (hn : Data.null ∉ bd :: tc :: bs) {xs : List String} {inits steps : List Data} (hbd : DoVars bd xs inits steps)
    (hk : xs = [] → bd = .emptyCons) (htc : Lst tc (test :: res)) (hp : isPair tc = true) {v : Data}
    (h : DoRuns C raise e xs inits steps test res bs s (.ok v) s') : Evals C (.cons (.sym "do") t) e s (.ok v) s' := by
  rw [C40_do hw hm ht hn hbd hk htc hp]
  refine ⟨.ok v, rfl, ?_⟩
  cases h with
  | run h0 h1 h2 => exact .run h0 h1 (loop_agree h2 fun _ h => by cases h)

/-- The other way: an error from `do` is the error the intended meaning gives. -/
theorem C40_do_error_partial (hw : WF s) (hm : Means C s e "do") {t bd tc test : Data} {res bs : List Data} (ht : Lst t (bd :: tc :: bs))
    (hn : Data.null ∉ bd :: tc :: bs) {xs : List String} {inits steps : List Data} (hbd : DoVars bd xs inits steps)
    (hk : xs = [] → bd = .emptyCons) (htc : Lst tc (test :: res)) (hp : isPair tc = true) {er : Err}
    (h : Evals C (.cons (.sym "do") t) e s (.err er) s') :
    ∃ er', er = .evaling (.cons (.sym "do") t) er' ∧ DoRuns C raise e xs inits steps test res bs s (.err er') s' := by
  obtain ⟨r₀, hr, hd⟩ := (C40_do hw hm ht hn hbd hk htc hp).mp h
  cases r₀ with
  | err er' =>
    cases hr
    refine ⟨er', rfl, ?_⟩
    cases hd with
    | run h0 h1 h2 => exact .run h0 h1 (loop_agree' h2 fun _ h => by cases h)
    | err h0 h1 => exact .err h0 h1
  | _ => cases hr

section
open Demo

/-- An error in a step is swallowed: the loop ends with the value of the last body form. -/
theorem C40_step_error_violation : Ends "(do ((i 0 (error \"boom\"))) ((== i 3) 1) 42)" (.ok (int 42)) :=
  ends 20 (by decide +kernel) (by simp)

example : Means Demo.C Demo.s 1 "let" := means "let" (b := true) (by decide +kernel)
example : Means Demo.C Demo.s 1 "let*" := means "let*" (b := true) (by decide +kernel)
example : Means Demo.C Demo.s 1 "letrec" := means "letrec" (b := true) (by decide +kernel)
example : Means Demo.C Demo.s 1 "do" := means "do" (b := true) (by decide +kernel)
example : LetBindings (code "((x 2) (y x))") ["x", "y"] [int 2, sym "x"] := by
  rw [show code "((x 2) (y x))" = cons (cons (sym "x") (cons (int 2) null)) (cons (cons (sym "y") (cons (sym "x") null)) null) from by decide +kernel]
  exact .cons (.cons _ _ _ _ (by simp) (by simp) (.cons _ _ _ _ (by simp) (by simp) .null))
    (.cons (.cons _ _ _ _ (by simp) (by simp) (.cons _ _ _ _ (by simp) (by simp) .null)) (.nil .null))
example : DoVars (code "((i 0 (+ i 1)) (a 5))") ["i", "a"] [int 0, int 5] [code "(+ i 1)", sym "a"] := by
  rw [show code "((i 0 (+ i 1)) (a 5))" = cons (cons (sym "i") (cons (int 0) (cons (code "(+ i 1)") null)))
    (cons (cons (sym "a") (cons (int 5) null)) null) from by decide +kernel,
    show code "(+ i 1)" = cons (sym "+") (cons (sym "i") (cons (int 1) null)) from by decide +kernel]
  refine .step (.cons _ _ _ _ (by simp) (by simp) (.cons _ _ _ _ (by simp) (by simp) (.cons _ _ _ _ (by simp) (by simp) .null)))
    (fun h => by cases h) (.noStep (.cons _ _ _ _ (by simp) (by simp) (.cons _ _ _ _ (by simp) (by simp) .null)) rfl (.nil .null))
example : Ends "(let ((x 1)) (let ((x 2) (y x)) (list x y)))" (.ok (ofArray [int 2, int 1])) := ends 20 (by decide +kernel) (by simp)
example : Ends "(let* ((x 2) (y x)) (list x y))" (.ok (ofArray [int 2, int 2])) := ends 20 (by decide +kernel) (by simp)
example : Ends "(letrec ((f (lambda (n) (if (== n 0) 1 (* n (f (- n 1))))))) (f 4))" (.ok (int 24)) := ends 20 (by decide +kernel) (by simp)
example : Ends "(let loop ((i 0) (a 1)) (if (== i 3) a (loop (+ i 1) (* 2 a))))" (.ok (int 8)) := ends 30 (by decide +kernel) (by simp)
example : Ends "(begin (let ((x 1)) (define y 2)) y)" (.ok emptyCons) := ends 30 (by decide +kernel) (by simp)
example : Writes "(do ((i 0 (+ i 1)) (a 0 i)) ((== i 3) a) (write-line i))" (.ok (int 2)) ["0", "1", "2"] :=
  writes 20 (by decide +kernel) (by decide +kernel) (by simp)

end

end Golisp.Props
