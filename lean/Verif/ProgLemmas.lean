import Verif.Store
/- Laws of interpreter programs: sequencing, monotonicity in depth, rules for `Runs`, invariants. -/
namespace Golisp.Ev
open Golisp Data

variable {α β : Type} {R : Call → M Store Data}

/-! ### Meaning of the combinators -/

/-- Continue after an outcome: value and error go to `f`, panic and timeout end the run. -/
def after (r : Out α × Store) (f : Except Err α → M Store β) : Out β × Store :=
  match r with
  | (.ok a, s') => f (.ok a) s'
  | (.err e, s') => f (.error e) s'
  | (.panic, s') => (.panic, s')
  | (.timeout, s') => (.timeout, s')

theorem op_no_timeout (o : Op) (s : Store) : (o.run s).1 ≠ .timeout := by
  cases o <;> simp only [Op.run] <;> repeat' split
  all_goals simp

theorem interp_ret (a : α) (s : Store) : interp R (.ret a) s = (.ok a, s) := rfl
theorem interp_pure (a : α) (s : Store) : interp R (pure a : Prog α) s = (.ok a, s) := rfl
theorem interp_err (e : Err) (s : Store) : interp R (.err e : Prog α) s = (.err e, s) := rfl
theorem interp_fail (m : String) (s : Store) : interp R (.fail m : Prog α) s = (.err (.msg m), s) := rfl
theorem interp_panic (s : Store) : interp R (.panic : Prog α) s = (.panic, s) := rfl
theorem interp_get (k : Store → Prog α) (s : Store) : interp R (.get k) s = interp R (k s) s := rfl
theorem interp_state (s : Store) : interp R Prog.state s = (.ok s, s) := rfl
theorem interp_act (o : Op) (k : Except Err Nat → Prog α) (s : Store) :
    interp R (.act o k) s = after (o.run s) fun r => interp R (k r) := by
  unfold after
  simp only [interp]
  generalize o.run s = r
  rcases r with ⟨_ | _ | _ | _, _⟩ <;> rfl
theorem interp_call (c : Call) (k : Except Err Data → Prog α) (s : Store) :
    interp R (.call c k) s = after (R c s) fun r => interp R (k r) := by
  unfold after
  simp only [interp]
  generalize R c s = r
  rcases r with ⟨_ | _ | _ | _, _⟩ <;> rfl

theorem interp_bind' (p : Prog α) (f : α → Prog β) (s : Store) :
    interp R (p.bind f) s = M.bind (interp R p) (fun a => interp R (f a)) s := by
  induction p generalizing s with
  | ret a => rfl
  | err e => rfl
  | panic => rfl
  | get k ih => exact ih s s
  | act o k ih =>
    simp only [Prog.bind, M.bind, interp_act] at ih ⊢
    generalize o.run s = r
    rcases r with ⟨_ | _ | _ | _, _⟩ <;> simp only [after] <;> first | exact ih _ _ | rfl
  | call c k ih =>
    simp only [Prog.bind, M.bind, interp_call] at ih ⊢
    generalize R c s = r
    rcases r with ⟨_ | _ | _ | _, _⟩ <;> simp only [after] <;> first | exact ih _ _ | rfl

theorem interp_bind (p : Prog α) (f : α → Prog β) (s : Store) :
    interp R (p >>= f) s = M.bind (interp R p) (fun a => interp R (f a)) s := interp_bind' p f s

theorem interp_attempt (p : Prog α) (f : Except Err α → Prog β) (s : Store) :
    interp R (p.attempt f) s = after (interp R p s) fun r => interp R (f r) := by
  induction p generalizing s with
  | ret a => rfl
  | err e => rfl
  | panic => rfl
  | get k ih => exact ih s s
  | act o k ih =>
    simp only [Prog.attempt, interp_act] at ih ⊢
    generalize o.run s = r
    rcases r with ⟨_ | _ | _ | _, _⟩ <;> simp only [after] at ih ⊢ <;> exact ih _ _
  | call c k ih =>
    simp only [Prog.attempt, interp_call] at ih ⊢
    generalize R c s = r
    rcases r with ⟨_ | _ | _ | _, _⟩ <;> simp only [after] at ih ⊢ <;> exact ih _ _

theorem interp_op (o : Op) (s : Store) : interp R (.op o) s = o.run s := by
  rw [Prog.op, interp_act]
  generalize o.run s = r
  rcases r with ⟨_ | _ | _ | _, _⟩ <;> rfl
theorem interp_evalNeed (b : Bool) (d : Data) (e : Nat) (s : Store) :
    interp R (.evalNeed b d e) s = R (.eval b d e) s := by
  rw [Prog.evalNeed, interp_call]
  generalize R _ s = r
  rcases r with ⟨_ | _ | _ | _, _⟩ <;> rfl
theorem interp_eval (d : Data) (e : Nat) (s : Store) : interp R (.eval d e) s = R (.eval false d e) s :=
  interp_evalNeed false d e s
theorem interp_app (f a : Data) (e : Nat) (s : Store) : interp R (.app f a e) s = R (.app f a e) s := by
  rw [Prog.app, interp_call]
  generalize R _ s = r
  rcases r with ⟨_ | _ | _ | _, _⟩ <;> rfl
theorem interp_doLoop (b t y r : Data) (e : Nat) (s : Store) :
    interp R (.doLoop b t y r e) s = R (.doLoop b t y r e) s := by
  rw [Prog.doLoop, interp_call]
  generalize R _ s = r
  rcases r with ⟨_ | _ | _ | _, _⟩ <;> rfl

/-! ### Depth -/

theorem interp_mono {R S : Call → M Store Data} (h : ∀ c s, (R c s).1 ≠ .timeout → S c s = R c s) (p : Prog α) :
    ∀ s, (interp R p s).1 ≠ .timeout → interp S p s = interp R p s := by
  induction p with
  | ret a => intro s _; rfl
  | err e => intro s _; rfl
  | panic => intro s _; rfl
  | get k ih => intro s hs; exact ih s s hs
  | act o k ih =>
    intro s
    simp only [interp_act]
    generalize o.run s = r
    rcases r with ⟨_ | _ | _ | _, _⟩ <;> simp only [after] <;> intro hs <;> first | exact ih _ _ hs | trivial
  | call c k ih =>
    intro s
    simp only [interp_call]
    have hc := h c s
    generalize R c s = r at hc ⊢
    intro hs
    have : S c s = r := hc (by intro ht; rcases r with ⟨_ | _ | _ | _, _⟩ <;> simp_all [after])
    rw [this]
    rcases r with ⟨_ | _ | _ | _, _⟩ <;> simp only [after] at hs ⊢ <;> exact ih _ _ hs

variable {body : Call → Prog Data}

theorem recN_succ (n : Nat) (c : Call) : recN body (n + 1) c = interp (recN body n) (body c) := rfl

theorem recN_step (n : Nat) : ∀ c s, (recN body n c s).1 ≠ .timeout → recN body (n + 1) c s = recN body n c s := by
  induction n with
  | zero => intro c s h; exact absurd rfl h
  | succ n ih => intro c s h; exact interp_mono ih (body c) s h

theorem recN_mono {n m : Nat} (hnm : n ≤ m) (c : Call) (s : Store) (h : (recN body n c s).1 ≠ .timeout) :
    recN body m c s = recN body n c s := by
  induction hnm with
  | refl => rfl
  | step _ ih => rw [recN_step _ c s (by rw [ih]; exact h), ih]

theorem interp_recN_mono {n m : Nat} (hnm : n ≤ m) (p : Prog α) (s : Store)
    (h : (interp (recN body n) p s).1 ≠ .timeout) : interp (recN body m) p s = interp (recN body n) p s :=
  interp_mono (fun c s hs => recN_mono hnm c s hs) p s h

/-- A program finishes (at some depth of recursive calls) with outcome `r` in state `s'`. -/
def RunsP (body : Call → Prog Data) (p : Prog α) (s : Store) (r : Out α) (s' : Store) : Prop :=
  ∃ n, interp (recN body n) p s = (r, s') ∧ r ≠ .timeout

theorem runs_iff {c : Call} {s : Store} {r : Out Data} {s' : Store} :
    Runs body c s r s' ↔ RunsP body (body c) s r s' := by
  constructor
  · rintro ⟨n, h, hr⟩
    cases n with
    | zero => exact absurd (congrArg Prod.fst h).symm hr
    | succ n => exact ⟨n, h, hr⟩
  · rintro ⟨n, h, hr⟩; exact ⟨n + 1, h, hr⟩

theorem runs_det {c : Call} {s : Store} {r₁ r₂ : Out Data} {s₁ s₂ : Store} (h₁ : Runs body c s r₁ s₁)
    (h₂ : Runs body c s r₂ s₂) : r₁ = r₂ ∧ s₁ = s₂ := by
  obtain ⟨n, hn, h1⟩ := h₁
  obtain ⟨m, hm, h2⟩ := h₂
  have a := recN_mono (Nat.le_max_left n m) c s (by rw [hn]; exact h1)
  have b := recN_mono (Nat.le_max_right n m) c s (by rw [hm]; exact h2)
  rw [a, hn] at b; rw [hm] at b
  exact ⟨congrArg Prod.fst b, congrArg Prod.snd b⟩

theorem runsP_det {p : Prog α} {s : Store} {r₁ r₂ : Out α} {s₁ s₂ : Store} (h₁ : RunsP body p s r₁ s₁)
    (h₂ : RunsP body p s r₂ s₂) : r₁ = r₂ ∧ s₁ = s₂ := by
  obtain ⟨n, hn, h1⟩ := h₁
  obtain ⟨m, hm, h2⟩ := h₂
  have a := interp_recN_mono (Nat.le_max_left n m) p s (by rw [hn]; exact h1)
  have b := interp_recN_mono (Nat.le_max_right n m) p s (by rw [hm]; exact h2)
  rw [a, hn] at b; rw [hm] at b
  exact ⟨congrArg Prod.fst b, congrArg Prod.snd b⟩

theorem runsP_ret {a : α} {s : Store} {r : Out α} {s' : Store} :
    RunsP body (.ret a) s r s' ↔ r = .ok a ∧ s' = s := by
  constructor
  · rintro ⟨n, h, _⟩; rw [interp_ret] at h; cases h; exact ⟨rfl, rfl⟩
  · rintro ⟨rfl, rfl⟩; exact ⟨0, rfl, by simp⟩

theorem runsP_pure {a : α} {s : Store} {r : Out α} {s' : Store} :
    RunsP body (pure a : Prog α) s r s' ↔ r = .ok a ∧ s' = s := runsP_ret

theorem runsP_err {e : Err} {s : Store} {r : Out α} {s' : Store} :
    RunsP body (.err e) s r s' ↔ r = .err e ∧ s' = s := by
  constructor
  · rintro ⟨n, h, _⟩; rw [interp_err] at h; cases h; exact ⟨rfl, rfl⟩
  · rintro ⟨rfl, rfl⟩; exact ⟨0, rfl, by simp⟩

theorem runsP_fail {m : String} {s : Store} {r : Out α} {s' : Store} :
    RunsP body (.fail m) s r s' ↔ r = .err (.msg m) ∧ s' = s := runsP_err

theorem runsP_panic {s : Store} {r : Out α} {s' : Store} :
    RunsP body (.panic) s r s' ↔ r = .panic ∧ s' = s := by
  constructor
  · rintro ⟨n, h, _⟩; rw [interp_panic] at h; cases h; exact ⟨rfl, rfl⟩
  · rintro ⟨rfl, rfl⟩; exact ⟨0, rfl, by simp⟩

theorem runsP_get {k : Store → Prog α} {s : Store} {r : Out α} {s' : Store} :
    RunsP body (.get k) s r s' ↔ RunsP body (k s) s r s' := Iff.rfl

theorem runsP_eval {d : Data} {e : Nat} {s : Store} {r : Out Data} {s' : Store} :
    RunsP body (.eval d e) s r s' ↔ Runs body (.eval false d e) s r s' := by
  simp only [RunsP, Runs, interp_eval]

theorem runsP_evalNeed {b : Bool} {d : Data} {e : Nat} {s : Store} {r : Out Data} {s' : Store} :
    RunsP body (.evalNeed b d e) s r s' ↔ Runs body (.eval b d e) s r s' := by
  simp only [RunsP, Runs, interp_evalNeed]

theorem runsP_app {f a : Data} {e : Nat} {s : Store} {r : Out Data} {s' : Store} :
    RunsP body (.app f a e) s r s' ↔ Runs body (.app f a e) s r s' := by
  simp only [RunsP, Runs, interp_app]

theorem runsP_doLoop {b t y v : Data} {e : Nat} {s : Store} {r : Out Data} {s' : Store} :
    RunsP body (.doLoop b t y v e) s r s' ↔ Runs body (.doLoop b t y v e) s r s' := by
  simp only [RunsP, Runs, interp_doLoop]

theorem runsP_op {o : Op} {s : Store} {r : Out Nat} {s' : Store} :
    RunsP body (.op o) s r s' ↔ o.run s = (r, s') := by
  constructor
  · rintro ⟨n, h, _⟩; rwa [interp_op] at h
  · intro h; exact ⟨0, by rwa [interp_op], fun hr => op_no_timeout o s (by rw [h]; exact hr)⟩

/-- What may follow an outcome. -/
theorem runsP_attempt {p : Prog α} {f : Except Err α → Prog β} {s : Store} {r : Out β} {s' : Store} :
    RunsP body (p.attempt f) s r s' ↔
      (∃ a s₁, RunsP body p s (.ok a) s₁ ∧ RunsP body (f (.ok a)) s₁ r s') ∨
      (∃ e s₁, RunsP body p s (.err e) s₁ ∧ RunsP body (f (.error e)) s₁ r s') ∨
      (RunsP body p s .panic s' ∧ r = .panic) := by
  constructor
  · rintro ⟨n, h, hr⟩
    rw [interp_attempt] at h
    generalize hx : interp (recN body n) p s = x at h
    rcases x with ⟨a | e | _ | _, s₁⟩ <;> simp only [after] at h
    · exact Or.inl ⟨a, s₁, ⟨n, hx, by simp⟩, ⟨n, h, hr⟩⟩
    · exact Or.inr (Or.inl ⟨e, s₁, ⟨n, hx, by simp⟩, ⟨n, h, hr⟩⟩)
    · cases h; exact Or.inr (Or.inr ⟨⟨n, hx, by simp⟩, rfl⟩)
    · cases h; exact absurd rfl hr
  · rintro (⟨a, s₁, ⟨n, h, _⟩, ⟨m, h', hr⟩⟩ | ⟨a, s₁, ⟨n, h, _⟩, ⟨m, h', hr⟩⟩ | ⟨⟨n, h, _⟩, rfl⟩)
    · refine ⟨max n m, ?_, hr⟩
      rw [interp_attempt, interp_recN_mono (Nat.le_max_left n m) p s (by rw [h]; simp), h]
      show interp _ _ _ = _
      rw [interp_recN_mono (Nat.le_max_right n m) _ _ (by rw [h']; exact hr), h']
    · refine ⟨max n m, ?_, hr⟩
      rw [interp_attempt, interp_recN_mono (Nat.le_max_left n m) p s (by rw [h]; simp), h]
      show interp _ _ _ = _
      rw [interp_recN_mono (Nat.le_max_right n m) _ _ (by rw [h']; exact hr), h']
    · refine ⟨n, ?_, by simp⟩
      rw [interp_attempt, h]; rfl

theorem bind_eq_attempt (p : Prog α) (f : α → Prog β) :
    (p >>= f) = p.attempt fun r => match r with | .ok a => f a | .error e => .err e := by
  show p.bind f = _
  induction p with
  | ret a => rfl
  | err e => rfl
  | panic => rfl
  | get k ih => simp only [Prog.bind, Prog.attempt, ih]
  | act o k ih => simp only [Prog.bind, Prog.attempt, ih]
  | call c k ih => simp only [Prog.bind, Prog.attempt, ih]

theorem runsP_bind {p : Prog α} {f : α → Prog β} {s : Store} {r : Out β} {s' : Store} :
    RunsP body (p >>= f) s r s' ↔
      (∃ a s₁, RunsP body p s (.ok a) s₁ ∧ RunsP body (f a) s₁ r s') ∨
      (∃ e, RunsP body p s (.err e) s' ∧ r = .err e) ∨
      (RunsP body p s .panic s' ∧ r = .panic) := by
  rw [bind_eq_attempt, runsP_attempt]
  refine or_congr Iff.rfl (or_congr ?_ Iff.rfl)
  constructor
  · rintro ⟨e, s₁, h, h'⟩
    obtain ⟨rfl, rfl⟩ := runsP_err.mp h'
    exact ⟨e, h, rfl⟩
  · rintro ⟨e, h, rfl⟩; exact ⟨e, s', h, runsP_err.mpr ⟨rfl, rfl⟩⟩

/-- Sequencing when the first part is known. -/
theorem runsP_bind_ok {p : Prog α} {f : α → Prog β} {s s₁ : Store} {a : α} (h : RunsP body p s (.ok a) s₁)
    {r : Out β} {s' : Store} : RunsP body (p >>= f) s r s' ↔ RunsP body (f a) s₁ r s' := by
  rw [runsP_bind]
  constructor
  · rintro (⟨a', s₁', h1, h2⟩ | ⟨e, h1, _⟩ | ⟨h1, _⟩)
    · obtain ⟨h3, rfl⟩ := runsP_det h h1; cases h3; exact h2
    · exact absurd (runsP_det h h1).1 (by simp)
    · exact absurd (runsP_det h h1).1 (by simp)
  · intro h2; exact Or.inl ⟨a, s₁, h, h2⟩

theorem runsP_bind_err {p : Prog α} {f : α → Prog β} {s s₁ : Store} {e : Err} (h : RunsP body p s (.err e) s₁)
    {r : Out β} {s' : Store} : RunsP body (p >>= f) s r s' ↔ r = .err e ∧ s' = s₁ := by
  rw [runsP_bind]
  constructor
  · rintro (⟨a', s₁', h1, h2⟩ | ⟨e', h1, h2⟩ | ⟨h1, _⟩)
    · exact absurd (runsP_det h h1).1 (by simp)
    · obtain ⟨h3, rfl⟩ := runsP_det h h1; cases h3; exact ⟨h2, rfl⟩
    · exact absurd (runsP_det h h1).1 (by simp)
  · rintro ⟨rfl, rfl⟩; exact Or.inr (Or.inl ⟨e, h, rfl⟩)

theorem runsP_state_bind {f : Store → Prog β} {s : Store} {r : Out β} {s' : Store} :
    RunsP body (Prog.state >>= f) s r s' ↔ RunsP body (f s) s r s' := Iff.rfl

theorem runsP_op_bind {o : Op} {f : Nat → Prog β} {s s₁ : Store} {n : Nat} (h : o.run s = (.ok n, s₁))
    {r : Out β} {s' : Store} : RunsP body (Prog.op o >>= f) s r s' ↔ RunsP body (f n) s₁ r s' :=
  runsP_bind_ok (runsP_op.mpr h)

/-! ### Invariants -/

/-- A relation on states respected by every action. -/
structure Keeps (K : Store → Store → Prop) : Prop where
  refl : ∀ s, K s s
  trans : ∀ {a b c}, K a b → K b c → K a c
  op : ∀ (o : Op) (s : Store), K s (o.run s).2

theorem interp_keeps {K : Store → Store → Prop} (hK : Keeps K) (hR : ∀ c s, K s (R c s).2) (p : Prog α) :
    ∀ s, K s (interp R p s).2 := by
  induction p with
  | ret a => exact hK.refl
  | err e => exact hK.refl
  | panic => exact hK.refl
  | get k ih => intro s; exact ih s s
  | act o k ih =>
    intro s
    have h := hK.op o s
    rw [interp_act]
    generalize o.run s = r at h
    rcases r with ⟨_ | _ | _ | _, s₁⟩ <;> simp only [after] <;> first | exact hK.trans h (ih _ _) | exact h
  | call c k ih =>
    intro s
    have h := hR c s
    rw [interp_call]
    generalize R c s = r at h
    rcases r with ⟨_ | _ | _ | _, s₁⟩ <;> simp only [after] <;> first | exact hK.trans h (ih _ _) | exact h

theorem recN_keeps {K : Store → Store → Prop} (hK : Keeps K) (n : Nat) : ∀ c s, K s (recN body n c s).2 := by
  induction n with
  | zero => intro c s; exact hK.refl s
  | succ n ih => intro c s; exact interp_keeps hK ih (body c) s

theorem runs_keeps {K : Store → Store → Prop} (hK : Keeps K) {c : Call} {s : Store} {r : Out Data} {s' : Store}
    (h : Runs body c s r s') : K s s' := by
  obtain ⟨n, h, _⟩ := h
  have := recN_keeps (body := body) hK n c s
  rwa [h] at this

theorem runsP_keeps {K : Store → Store → Prop} (hK : Keeps K) {p : Prog α} {s : Store} {r : Out α} {s' : Store}
    (h : RunsP body p s r s') : K s s' := by
  obtain ⟨n, h, _⟩ := h
  have := interp_keeps hK (recN_keeps (body := body) hK n) p s
  rwa [h] at this

end Golisp.Ev
