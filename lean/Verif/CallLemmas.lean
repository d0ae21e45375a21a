import Verif.EvalInv
/- Lemmas about entering a user function or macro. -/
namespace Golisp.Ev
open Golisp Data Spec

variable {C : Conf} {bd : Call → Prog Data}

theorem Params_required {d : Data} {ps : List String} {rest : Option String} (h : Params d ps rest) :
    requiredArgs d = (ps.length, rest.isSome) := by
  induction h with
  | none h => cases h <;> simp [requiredArgs, isNil, Option.isSome]
  | rest => rfl
  | @cons p d ps rest _ ih =>
    have hn : isNil (cons (sym p) d) = false := (isNil_cell_false _ _ _).mpr fun h' => by simp at h'
    simp only [requiredArgs, hn, ih]; rfl

theorem Params.unique {d : Data} {ps qs : List String} {r t : Option String} (h : Params d ps r) (h' : Params d qs t) :
    ps = qs ∧ r = t := by
  induction h generalizing qs t with
  | none h =>
    cases h' with
    | none => exact ⟨rfl, rfl⟩
    | rest => cases h
    | cons _ => cases h
  | rest => cases h' with
    | none h' => cases h'
    | rest => exact ⟨rfl, rfl⟩
  | cons _ ih => cases h' with
    | none h' => cases h'
    | cons h' => obtain ⟨rfl, rfl⟩ := ih h'; exact ⟨rfl, rfl⟩

theorem countOk_iff {d : Data} {ps : List String} {rest : Option String} (h : Params d ps rest) (n : Nat) :
    countOk d n = true ↔ Fits ps rest n := by
  simp only [countOk, Params_required h, Fits]
  cases rest with
  | none => simp
  | some x => simp

theorem runsP_unit {o : Op} {s : Store} {r : Out Unit} {s' : Store} :
    RunsP bd (do let _ ← Prog.op o; pure ()) s r s' ↔
      (∃ n, o.run s = (.ok n, s') ∧ r = .ok ()) ∨ (∃ er, o.run s = (.err er, s') ∧ r = .err er) ∨
      (o.run s = (.panic, s') ∧ r = .panic) := by
  rw [runsP_bind]
  simp only [runsP_op, runsP_pure]
  constructor
  · rintro (⟨a, s₁, h, rfl, rfl⟩ | h | h)
    · exact Or.inl ⟨a, h, rfl⟩
    · exact Or.inr (Or.inl h)
    · exact Or.inr (Or.inr h)
  · rintro (⟨a, h, rfl⟩ | h | h)
    · exact Or.inl ⟨a, s', h, rfl, rfl⟩
    · exact Or.inr (Or.inl h)
    · exact Or.inr (Or.inr h)

theorem bind_no_panic {e : Nat} {x : String} {v : Data} {s s' : Store} : (Op.bind e x v).run s ≠ (.panic, s') := by
  simp only [Op.run]; repeat' split
  all_goals simp

section
variable {get : Data → Prog Data} {G : Data → Store → Out Data → Store → Prop}
  (hG : ∀ a s r s', RunsP bd (get a) s r s' ↔ G a s r s') {le : Nat}
include hG

theorem runsP_rest {x : String} (as : List Data) : ∀ (vs : List Data) (s : Store) (r : Out Unit) (s' : Store),
    RunsP bd (bindLoop get le as (sym x) (some (x, vs))) s r s' ↔
      (∃ ws s₁, Each G as s (.ok ws) s₁ ∧ RunsP bd (do let _ ← Prog.op (.bind le x (ofArray (vs ++ ws))); pure ()) s₁ r s') ∨
      (∃ er, Each G as s (.err er) s' ∧ r = .err er) ∨ (Each G as s .panic s' ∧ r = .panic) := by
  induction as with
  | nil =>
    intro vs s r s'
    rw [bindLoop]
    constructor
    · intro h; exact Or.inl ⟨[], s, .done, by rwa [List.append_nil]⟩
    · rintro (⟨ws, s₁, h, h'⟩ | ⟨er, h, _⟩ | ⟨h, _⟩)
      · cases h; rwa [List.append_nil] at h'
      · cases h
      · cases h
  | cons a as ih =>
    intro vs s r s'
    rw [bindLoop]
    simp only [isSym, stringValue, if_true]
    rw [runsP_bind]
    simp only [hG, ih]
    constructor
    · rintro (⟨v, s₁, h, ⟨ws, s₂, h1, h2⟩ | ⟨er, h1, rfl⟩ | ⟨h1, rfl⟩⟩ | ⟨er, h, rfl⟩ | ⟨h, rfl⟩)
      · exact Or.inl ⟨v :: ws, s₂, .next h h1, by simpa using h2⟩
      · exact Or.inr (Or.inl ⟨er, .errLater h h1, rfl⟩)
      · exact Or.inr (Or.inr ⟨.panicLater h h1, rfl⟩)
      · exact Or.inr (Or.inl ⟨er, .err h, rfl⟩)
      · exact Or.inr (Or.inr ⟨.panic h, rfl⟩)
    · rintro (⟨ws, s₁, h, h'⟩ | ⟨er, h, rfl⟩ | ⟨h, rfl⟩)
      · cases h with
        | next h h1 => exact Or.inl ⟨_, _, h, Or.inl ⟨_, _, h1, by simpa using h'⟩⟩
      · cases h with
        | err h => exact Or.inr (Or.inl ⟨_, h, rfl⟩)
        | errLater h h1 => exact Or.inl ⟨_, _, h, Or.inr (Or.inl ⟨_, h1, rfl⟩)⟩
      · cases h with
        | panic h => exact Or.inr (Or.inr ⟨h, rfl⟩)
        | panicLater h h1 => exact Or.inl ⟨_, _, h, Or.inr (Or.inr ⟨h1, rfl⟩)⟩

theorem runsP_restBinds {x : String} {as : List Data} {s : Store} {r : Out Unit} {s' : Store} :
    RunsP bd (bindLoop get le as (sym x) (some (x, []))) s r s' ↔ Binds G le [] (some x) as s r s' := by
  rw [runsP_rest hG]
  simp only [runsP_unit, List.nil_append]
  constructor
  · rintro (⟨ws, s₁, h, ⟨n, h1, rfl⟩ | ⟨er, h1, rfl⟩ | ⟨h1, rfl⟩⟩ | ⟨er, h, rfl⟩ | ⟨h, rfl⟩)
    · exact .rest h h1
    · exact .restRefused h h1
    · exact absurd h1 bind_no_panic
    · exact .restErr h
    · exact .restPanic h
  · intro h
    cases h with
    | rest h h1 => exact Or.inl ⟨_, _, h, Or.inl ⟨_, h1, rfl⟩⟩
    | restRefused h h1 => exact Or.inl ⟨_, _, h, Or.inr (Or.inl ⟨_, h1, rfl⟩)⟩
    | restErr h => exact Or.inr (Or.inl ⟨_, h, rfl⟩)
    | restPanic h => exact Or.inr (Or.inr ⟨h, rfl⟩)

theorem runsP_bindLoop {p : Data} {ps : List String} {rest : Option String} (hp : Params p ps rest) :
    ∀ (as : List Data), Fits ps rest as.length → ∀ (s : Store) (r : Out Unit) (s' : Store),
      RunsP bd (bindLoop get le as p (if isSym p then some (stringValue p, []) else none)) s r s' ↔
        Binds G le ps rest as s r s' := by
  induction hp with
  | none h =>
    intro as hf s r s'
    cases as with
    | cons a as => simp [Fits] at hf
    | nil =>
      have : ∀ d, Lst d [] → isSym d = false := by intro d h; cases h <;> rfl
      rw [this _ h]
      simp only [Bool.false_eq_true, if_false, bindLoop, runsP_pure]
      constructor
      · rintro ⟨rfl, rfl⟩; exact .done
      · intro h; cases h; exact ⟨rfl, rfl⟩
  | rest =>
    intro as _ s r s'
    simp only [isSym, if_true, stringValue]
    exact runsP_restBinds hG
  | @cons p d ps rest hp ih =>
    intro as hf s r s'
    cases as with
    | nil => cases rest <;> simp [Fits] at hf
    | cons a as =>
      have hf' : Fits ps rest as.length := by cases rest <;> simp [Fits] at hf ⊢ <;> omega
      simp only [isSym, Bool.false_eq_true, if_false, bindLoop, car, cdr, stringValue]
      rw [runsP_bind]
      simp only [hG]
      constructor
      · rintro (⟨v, s₁, h, h'⟩ | ⟨er, h, rfl⟩ | ⟨h, rfl⟩)
        · rw [runsP_bind] at h'
          simp only [runsP_op] at h'
          rcases h' with (⟨n, s₂, h1, h2⟩ | ⟨er, h1, rfl⟩ | ⟨h1, rfl⟩)
          · exact .next h h1 ((ih as hf' _ _ _).mp h2)
          · exact .refused h h1
          · exact absurd h1 bind_no_panic
        · exact .err h
        · exact .panic h
      · intro h
        cases h with
        | next h h1 h2 =>
          refine Or.inl ⟨_, _, h, ?_⟩
          rw [runsP_bind]; simp only [runsP_op]
          exact Or.inl ⟨_, _, h1, (ih as hf' _ _ _).mpr h2⟩
        | err h => exact Or.inr (Or.inl ⟨_, h, rfl⟩)
        | panic h => exact Or.inr (Or.inr ⟨h, rfl⟩)
        | refused h h1 =>
          refine Or.inl ⟨_, _, h, ?_⟩
          rw [runsP_bind]; simp only [runsP_op]
          exact Or.inr (Or.inl ⟨_, h1, rfl⟩)

theorem runsP_bindParams {p : Data} {ps : List String} {rest : Option String} (hp : Params p ps rest)
    (hr : ps = [] → rest = none) {as : List Data} (hf : Fits ps rest as.length) {s : Store} {r : Out Unit} {s' : Store} :
    RunsP bd (bindLoop get le as p none) s r s' ↔ Binds G le ps rest as s r s' := by
  have := runsP_bindLoop hG (le := le) hp as hf s r s'
  rwa [show isSym p = false from ?_] at this
  cases hp with
  | none h => cases h <;> rfl
  | rest => simp at hr
  | cons => rfl

end

/-! ### Entering a new environment -/

theorem newEnv_run {s : Store} {p : Nat} {pr : EnvRec} (h : s.envs[p]? = some pr) (f : Option Nat) (name : String) :
    (Op.newEnv p f name).run s = (.ok s.envs.length, pushEnv s p pr f name []) := by
  simp only [Op.run, h]; rfl

theorem alGet_binds (B : List (String × Data)) (x : String) :
    alGet (binds B) x = ((B.reverse.find? (·.1 == x)).map fun p => (⟨p.2, false⟩ : Binding)) := by
  simp only [binds, ← List.foldr_reverse]
  generalize B.reverse = L
  induction L with
  | nil => rfl
  | cons p L ih =>
    simp only [List.foldr_cons, alGet_set, List.find?_cons, ih]
    by_cases h : x = p.1
    · simp [h]
    · have : (p.1 == x) = false := by simp; exact fun h' => h h'.symm
      simp [h, this]

theorem pushEnv_top (s : Store) (p : Nat) (pr : EnvRec) (f : Option Nat) (name : String) (B : List (String × Data)) :
    (pushEnv s p pr f name B).envs[s.envs.length]? = some
      ⟨name, some p, binds B, (match f with | some i => some i | none => pr.frame), pr.restricted⟩ := by
  simp only [pushEnv, List.getElem?_concat_length]; rfl

theorem pushEnv_old (s : Store) (p : Nat) (pr : EnvRec) (f : Option Nat) (name : String) (B : List (String × Data))
    {e : Nat} (h : e < s.envs.length) : (pushEnv s p pr f name B).envs[e]? = s.envs[e]? := by
  simp [pushEnv, List.getElem?_append_left h]

theorem pushEnv_localB (s : Store) (p : Nat) (pr : EnvRec) (f : Option Nat) (name : String) (B : List (String × Data))
    (x : String) : (pushEnv s p pr f name B).localB s.envs.length x = alGet (binds B) x := by
  simp [Store.localB, pushEnv_top]

theorem binds_snoc (B : List (String × Data)) (x : String) (v : Data) :
    binds (B ++ [(x, v)]) = alSet (binds B) x ⟨v, false⟩ := by
  simp [binds, List.foldl_append]

theorem bind_pushEnv (s : Store) (p : Nat) (pr : EnvRec) (f : Option Nat) (name : String) (B : List (String × Data))
    (x : String) (v : Data) :
    (Op.bind s.envs.length x v).run (pushEnv s p pr f name B) = (.ok 0, pushEnv s p pr f name (B ++ [(x, v)])) := by
  have hp : ∀ b, alGet (binds B) x = some b → b.prot = false := by
    intro b hb
    rw [alGet_binds] at hb
    cases hf : B.reverse.find? (·.1 == x) with
    | none => simp [hf] at hb
    | some q => simp only [hf, Option.map, Option.some.injEq] at hb; rw [← hb]
  have hput : (pushEnv s p pr f name B).putVal s.envs.length x v = pushEnv s p pr f name (B ++ [(x, v)]) := by
    simp only [Store.putVal, pushEnv_top]
    simp only [pushEnv, binds_snoc]
    cases hb : alGet (binds B) x with
    | none => simp; rfl
    | some b => simp [hp b hb]; rfl
  simp only [Op.run, pushEnv_localB]
  cases hb : alGet (binds B) x with
  | none => simp only [hput]
  | some b => simp only [hp b hb, hput]; rfl

theorem runsP_bindSelf {s : Store} {slot : Bool} {frame : Option Nat} {ae : Nat} {p : Nat} {pr : EnvRec}
    {name : String} {r : Out Unit} {s' : Store} :
    RunsP bd (bindSelf s slot frame ae s.envs.length) (pushEnv s p pr frame name []) r s' ↔
      r = .ok () ∧ s' = pushEnv s p pr frame name (selfBind s slot frame ae) := by
  have key : ∀ v, RunsP bd (do let _ ← Prog.op (.bind s.envs.length "self" v); pure ()) (pushEnv s p pr frame name []) r s' ↔
      r = .ok () ∧ s' = pushEnv s p pr frame name [("self", v)] := by
    intro v
    rw [runsP_op_bind (bind_pushEnv s p pr frame name [] "self" v), runsP_pure]
    simp
  unfold bindSelf selfBind
  cases frame with
  | some i => exact key _
  | none =>
    cases slot with
    | false => exact runsP_pure
    | true =>
      cases hb : s.localB ae "self" with
      | none => exact runsP_pure
      | some b => exact key _

theorem runsP_callFn {i : Nat} {args : Data} {xs : List Data} {ae : Nat} {frame : Option Nat} {ev : Bool} {s : Store}
    {fr : FnRec} (hi : s.fns[i]? = some fr) (hg : GoodFn s fr) (ha : Lst args xs) {r : Out Data} {s' : Store} :
    RunsP (body C) (callFn i args ae frame ev) s r s' ↔
      CallsG C (fun a s r s' => if ev then Evals C a ae s r s' else r = .ok a ∧ s' = s) i xs ae frame s r s' := by
  obtain ⟨⟨pr, hpr⟩, ⟨ps, rest, hp, hps⟩, ⟨bs, hb⟩⟩ := hg
  have hG : ∀ a s r s', RunsP (body C) (if ev then Prog.eval a ae else pure a) s r s' ↔
      if ev then Evals C a ae s r s' else r = .ok a ∧ s' = s := by
    intro a s r s'; cases ev
    · exact runsP_pure
    · exact runsP_eval
  rw [callFn, runsP_get]
  simp only [hi]
  rw [runsP_op_bind (newEnv_run hpr frame fr.name), runsP_bind_ok (runsP_bindSelf.mpr ⟨rfl, rfl⟩), makeLocalBindings, ha.length,
    ha.toArray]
  by_cases hf : Fits ps rest xs.length
  · rw [(countOk_iff hp _).mpr hf, if_pos rfl, runsP_bind]
    simp only [runsP_bindParams hG hp hps hf, runsP_naming, runsP_body hb]
    constructor
    · rintro (⟨_, s₁, h, r₀, h1, rfl⟩ | ⟨er, h, rfl⟩ | ⟨h, rfl⟩)
      · exact .run hi hpr hp hb hf h h1
      · exact .argErr hi hpr hp hf h
      · exact .argPanic hi hpr hp hf h
    · intro h
      cases h with
      | run hi' hpr' hp' hb' hf' h h1 =>
        rw [hi] at hi'; cases hi'; rw [hpr] at hpr'; cases hpr'
        obtain ⟨rfl, rfl⟩ := Params.unique hp hp'
        obtain rfl := hb.unique hb'
        exact Or.inl ⟨(), _, h, _, h1, rfl⟩
      | argErr hi' hpr' hp' hf' h =>
        rw [hi] at hi'; cases hi'; rw [hpr] at hpr'; cases hpr'
        obtain ⟨rfl, rfl⟩ := Params.unique hp hp'
        exact Or.inr (Or.inl ⟨_, h, rfl⟩)
      | argPanic hi' hpr' hp' hf' h =>
        rw [hi] at hi'; cases hi'; rw [hpr] at hpr'; cases hpr'
        obtain ⟨rfl, rfl⟩ := Params.unique hp hp'
        exact Or.inr (Or.inr ⟨h, rfl⟩)
      | count hi' hpr' hp' hf' =>
        rw [hi] at hi'; cases hi'
        obtain ⟨rfl, rfl⟩ := Params.unique hp hp'
        exact absurd hf hf'
  · have hc : countOk fr.params xs.length = false := by
      rw [← Bool.not_eq_true, countOk_iff hp]; exact hf
    rw [hc]
    simp only [Bool.false_eq_true, if_false]
    rw [runsP_bind_err (runsP_fail.mpr ⟨rfl, rfl⟩), Params_required hp]
    constructor
    · rintro ⟨rfl, rfl⟩
      exact .count hi hpr hp hf rfl
    · intro h
      cases h with
      | count hi' hpr' hp' hf' hm =>
        rw [hi] at hi'; cases hi'; rw [hpr] at hpr'; cases hpr'
        obtain ⟨rfl, rfl⟩ := Params.unique hp hp'
        subst hm
        exact ⟨rfl, rfl⟩
      | run hi' hpr' hp' hb' hf' =>
        rw [hi] at hi'; cases hi'
        obtain ⟨rfl, rfl⟩ := Params.unique hp hp'
        exact absurd hf' hf
      | argErr hi' hpr' hp' hf' =>
        rw [hi] at hi'; cases hi'
        obtain ⟨rfl, rfl⟩ := Params.unique hp hp'
        exact absurd hf' hf
      | argPanic hi' hpr' hp' hf' =>
        rw [hi] at hi'; cases hi'
        obtain ⟨rfl, rfl⟩ := Params.unique hp hp'
        exact absurd hf' hf

/-! ### Argument values -/

section
variable {G : Data → Store → Out Data → Store → Prop}

/-- All the arguments evaluate to the given values without effect. -/
inductive Const (G : Data → Store → Out Data → Store → Prop) : List Data → List Data → Prop where
  | nil : Const G [] []
  | cons {a v as vs} : (∀ s r s', G a s r s' ↔ r = .ok v ∧ s' = s) → Const G as vs → Const G (a :: as) (v :: vs)

theorem Const.each {as vs : List Data} (h : Const G as vs) {s : Store} {r : Out (List Data)} {s' : Store} :
    Each G as s r s' ↔ r = .ok vs ∧ s' = s := by
  induction h generalizing s r s' with
  | nil =>
    constructor
    · intro h; cases h; exact ⟨rfl, rfl⟩
    · rintro ⟨rfl, rfl⟩; exact .done
  | cons h _ ih =>
    constructor
    · intro hx
      cases hx with
      | next h1 h2 => obtain ⟨h3, rfl⟩ := (h _ _ _).mp h1; cases h3; obtain ⟨h4, rfl⟩ := ih.mp h2; cases h4; exact ⟨rfl, rfl⟩
      | err h1 => cases ((h _ _ _).mp h1).1
      | panic h1 => cases ((h _ _ _).mp h1).1
      | errLater h1 h2 => cases (ih.mp h2).1
      | panicLater h1 h2 => cases (ih.mp h2).1
    · rintro ⟨rfl, rfl⟩; exact .next ((h _ _ _).mpr ⟨rfl, rfl⟩) (ih.mpr ⟨rfl, rfl⟩)

theorem Const.length {as vs : List Data} (h : Const G as vs) : as.length = vs.length := by
  induction h with
  | nil => rfl
  | cons _ _ ih => simp [ih]

theorem Const.binds {rest : Option String} : ∀ (ps : List String) {as vs : List Data}, Const G as vs →
    Fits ps rest as.length → ∀ {s : Store} {p : Nat} {pr : EnvRec} {f : Option Nat} {name : String} {B : List (String × Data)}
      {r : Out Unit} {s' : Store},
      Binds G s.envs.length ps rest as (pushEnv s p pr f name B) r s' ↔
        r = .ok () ∧ s' = pushEnv s p pr f name (B ++ paramBinds ps rest vs) := by
  intro ps
  induction ps with
  | nil =>
    intro as vs h hf s p pr f name B r s'
    cases rest with
    | none =>
      have hl := h.length
      simp only [Fits, List.length_nil] at hf
      obtain rfl : as = [] := List.length_eq_zero_iff.mp hf
      obtain rfl : vs = [] := List.length_eq_zero_iff.mp (by rw [← hl]; rfl)
      simp only [paramBinds, List.zip_nil_left, List.append_nil]
      constructor
      · intro h; cases h; exact ⟨rfl, rfl⟩
      · rintro ⟨rfl, rfl⟩; exact .done
    | some y =>
      simp only [paramBinds, List.zip_nil_left, List.nil_append, List.length_nil, List.drop_zero]
      constructor
      · intro hx
        cases hx with
        | rest h1 h2 =>
          obtain ⟨h3, rfl⟩ := h.each.mp h1; cases h3
          rw [bind_pushEnv] at h2; cases h2; exact ⟨rfl, rfl⟩
        | restErr h1 => cases (h.each.mp h1).1
        | restPanic h1 => cases (h.each.mp h1).1
        | restRefused h1 h2 =>
          obtain ⟨h3, rfl⟩ := h.each.mp h1; cases h3
          rw [bind_pushEnv] at h2; cases h2
      · rintro ⟨rfl, rfl⟩
        exact .rest (h.each.mpr ⟨rfl, rfl⟩) (bind_pushEnv ..)
  | cons x ps ih =>
    intro as vs h hf s p pr f name B r s'
    cases h with
    | nil => cases rest <;> simp [Fits] at hf
    | @cons a v as vs h h' =>
      have hf' : Fits ps rest as.length := by cases rest <;> simp [Fits] at hf ⊢ <;> omega
      have hB : B ++ paramBinds (x :: ps) rest (v :: vs) = (B ++ [(x, v)]) ++ paramBinds ps rest vs := by
        simp [paramBinds]
      rw [hB]
      constructor
      · intro hx
        cases hx with
        | next h1 h2 h3 =>
          obtain ⟨h4, rfl⟩ := (h _ _ _).mp h1; cases h4
          rw [bind_pushEnv] at h2; cases h2
          exact (ih h' hf').mp h3
        | err h1 => cases ((h _ _ _).mp h1).1
        | panic h1 => cases ((h _ _ _).mp h1).1
        | refused h1 h2 =>
          obtain ⟨h4, rfl⟩ := (h _ _ _).mp h1; cases h4
          rw [bind_pushEnv] at h2; cases h2
      · rintro ⟨rfl, rfl⟩
        exact .next ((h _ _ _).mpr ⟨rfl, rfl⟩) (bind_pushEnv ..) ((ih h' hf').mpr ⟨rfl, rfl⟩)

theorem Const.calls {i : Nat} {as vs : List Data} (h : Const G as vs) {ae : Nat} {frame : Option Nat} {s : Store}
    {r : Out Data} {s' : Store} :
    CallsG C G i as ae frame s r s' ↔ CallsV C i vs ae frame s r s' := by
  constructor
  · intro hx
    cases hx with
    | run hi hpr hp hb hf h1 h2 =>
      obtain ⟨_, rfl⟩ := (h.binds _ hf).mp h1
      exact .run hi hpr hp hb (h.length ▸ hf) h2
    | argErr hi hpr hp hf h1 => cases ((h.binds _ hf).mp h1).1
    | argPanic hi hpr hp hf h1 => cases ((h.binds _ hf).mp h1).1
    | count hi hpr hp hf hm => exact .count hi hpr hp (h.length ▸ hf) (h.length ▸ hm)
  · intro hx
    cases hx with
    | run hi hpr hp hb hf h2 =>
      rw [← h.length] at hf
      exact .run hi hpr hp hb hf ((h.binds _ hf).mpr ⟨rfl, rfl⟩) h2
    | count hi hpr hp hf hm => exact .count hi hpr hp (h.length ▸ hf) (h.length ▸ hm)
end

theorem const_values (vs : List Data) : Const (fun a s r s' => r = .ok a ∧ s' = s) vs vs := by
  induction vs with
  | nil => exact .nil
  | cons v vs ih => exact .cons (fun _ _ _ => Iff.rfl) ih

/-- Calling with argument values. -/
theorem runsP_callFn_values {i : Nat} {args : Data} {vs : List Data} {ae : Nat} {frame : Option Nat} {s : Store}
    {fr : FnRec} (hi : s.fns[i]? = some fr) (hg : GoodFn s fr) (ha : Lst args vs) {r : Out Data} {s' : Store} :
    RunsP (body C) (callFn i args ae frame false) s r s' ↔ CallsV C i vs ae frame s r s' := by
  rw [runsP_callFn hi hg ha]
  exact (const_values vs).calls

/-- Calling with argument expressions. -/
theorem runsP_callFn_exprs {i : Nat} {args : Data} {xs : List Data} {ae : Nat} {frame : Option Nat} {s : Store}
    {fr : FnRec} (hi : s.fns[i]? = some fr) (hg : GoodFn s fr) (ha : Lst args xs) {r : Out Data} {s' : Store} :
    RunsP (body C) (callFn i args ae frame true) s r s' ↔ CallsG C (fun a => Evals C a ae) i xs ae frame s r s' := by
  rw [runsP_callFn hi hg ha]
  rfl

theorem runsP_mkFn {name : String} {params b : Data} {e : Nat} {s : Store} {r : Out Data} {s' : Store} :
    RunsP bd (mkFn name params b e) s r s' ↔
      r = .ok (.atom (.func s.fns.length)) ∧ s' = { s with fns := s.fns ++ [⟨name, params, b, e, false⟩] } := by
  rw [mkFn, runsP_op_bind (n := s.fns.length) (s₁ := { s with fns := s.fns ++ [⟨name, params, b, e, false⟩] }) rfl]
  exact runsP_pure

theorem callFrame_eq {s : Store} {i : Nat} {fr : FnRec} (hi : s.fns[i]? = some fr) (e : Nat) :
    callFrame s i e = frameFor s fr.slot e := by
  simp [callFrame, hi, frameFor]

end Golisp.Ev
