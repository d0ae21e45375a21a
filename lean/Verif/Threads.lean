import Verif.EvalInv
/-
Several evaluations at once.  `fork` and `schedule` start goroutines that evaluate Lisp code in the same interpreter state
(`prim_concurrency.go:49-97,141-206`).  Here a thread is an interpreter program; one step of it is one look at the state, one action on the state, or the
entry into a recursive call.  The threads take their steps in any order, and at any time a new one may start, with any
call.

Simplifications.  A look is atomic: Go takes the locks of the environments one after the other when it searches a chain
of them.  An action is atomic: so they are in Go, under the locks of the symbol tables, the frames and the symbol
counters, and by `sync/atomic`; only `BindLocallyTo` looks for the binding before it takes the lock to store into it.
Which threads are started, by what, is not recorded.  A thread that panics stops (`callWithPanicProtection`,
`prim_concurrency.go:410-423`); in Go the main thread would end the process.
-/
namespace Golisp.Ev
open Golisp Data

variable {α : Type} {body : Call → Prog Data}

/-- Continue after an outcome. -/
def Prog.resume (k : Except Err α → Prog Data) : Out α → Prog Data
  | .ok n => k (.ok n)
  | .err e => k (.error e)
  | _ => .panic

/-- What a step did: nothing to the state, or an action with its outcome. -/
abbrev Event := Option (Op × Out Nat)

/-- One step of a thread; a finished thread has none. -/
def step (body : Call → Prog Data) : Prog Data → Store → Option (Event × Prog Data × Store)
  | .get k, s => some (none, k s, s)
  | .act o k, s => some (some (o, (o.run s).1), .resume k (o.run s).1, (o.run s).2)
  | .call c k, s => some (none, (body c).attempt k, s)
  | _, _ => none

/-- How a finished thread has ended. -/
inductive Finished : Prog Data → Out Data → Prop where
  | ret {v} : Finished (.ret v) (.ok v)
  | err {e} : Finished (.err e) (.err e)
  | panic : Finished .panic .panic

/-- The threads and the state they share. -/
structure Pool where
  threads : List (Prog Data)
  state : Store

/-- Executions: the steps, each with the number of the thread that takes it. -/
inductive Exec (body : Call → Prog Data) : Pool → List (Nat × Event) → Pool → Prop where
  | done {P} : Exec body P [] P
  | move {P i p ev q t tr P'} : P.threads[i]? = some p → step body p P.state = some (ev, q, t) →
      Exec body ⟨P.threads.set i q, t⟩ tr P' → Exec body P ((i, ev) :: tr) P'
  | start {P tr P'} (c : Call) : Exec body ⟨P.threads ++ [body c], P.state⟩ tr P' → Exec body P tr P'

/-- A schedule followed step by step; `none` when a thread that is to move is finished or missing. -/
def follow (body : Call → Prog Data) : List Nat → Pool → Option Pool
  | [], P => some P
  | i :: is, P =>
    match P.threads[i]? with
    | none => none
    | some p =>
      match step body p P.state with
      | none => none
      | some (_, q, t) => follow body is ⟨P.threads.set i q, t⟩

theorem exec_follow {is : List Nat} {P P' : Pool} (h : follow body is P = some P') : ∃ tr, Exec body P tr P' ∧ tr.map (·.1) = is := by
  induction is generalizing P with
  | nil => cases h; exact ⟨[], .done, rfl⟩
  | cons i is ih =>
    simp only [follow] at h
    split at h
    · cases h
    · next p hp =>
      split at h
      · cases h
      · next ev q t hs =>
        obtain ⟨tr, h1, h2⟩ := ih h
        exact ⟨(i, ev) :: tr, .move hp hs h1, by simp [h2]⟩

/-- The same with the events. -/
def record (body : Call → Prog Data) : List Nat → Pool → Option (List (Nat × Event) × Pool)
  | [], P => some ([], P)
  | i :: is, P =>
    match P.threads[i]? with
    | none => none
    | some p =>
      match step body p P.state with
      | none => none
      | some (ev, q, t) => (record body is ⟨P.threads.set i q, t⟩).map fun x => ((i, ev) :: x.1, x.2)

theorem exec_record {is : List Nat} {P P' : Pool} {tr : List (Nat × Event)} (h : record body is P = some (tr, P')) : Exec body P tr P' := by
  induction is generalizing P tr with
  | nil => cases h; exact .done
  | cons i is ih =>
    simp only [record] at h
    split at h
    · cases h
    · next p hp =>
      split at h
      · cases h
      · next ev q t hs =>
        obtain ⟨⟨tr', P₁⟩, h1, h2⟩ := Option.map_eq_some_iff.mp h
        cases h2
        exact .move hp hs (ih h1)

theorem Exec.trans {P P₁ P₂ : Pool} {l l' : List (Nat × Event)} (h : Exec body P l P₁) (h' : Exec body P₁ l' P₂) : Exec body P (l ++ l') P₂ := by
  induction h with
  | done => exact h'
  | move h1 h2 _ ih => exact .move h1 h2 (ih h')
  | start c _ ih => exact .start c (ih h')

/-! ### One thread -/

/-- The steps of one thread alone. -/
inductive Walk (body : Call → Prog Data) : Nat → Prog Data → Store → Prog Data → Store → Prop where
  | done {p s} : Walk body 0 p s p s
  | step {n p s ev q t p' s'} : step body p s = some (ev, q, t) → Walk body n q t p' s' → Walk body (n + 1) p s p' s'

theorem Walk.trans {n m : Nat} {p q r : Prog Data} {s t u : Store} (h : Walk body n p s q t) (h' : Walk body m q t r u) :
    Walk body (n + m) p s r u := by
  induction h with
  | done => simpa using h'
  | step h _ ih => rw [Nat.succ_add]; exact .step h (ih h')

theorem attempt_ofExcept (p : Prog Data) : p.attempt Prog.ofExcept = p := by
  induction p with
  | ret a => rfl
  | err e => rfl
  | panic => rfl
  | get k ih => simp only [Prog.attempt, ih]
  | act o k ih => simp only [Prog.attempt, ih]
  | call c k ih => simp only [Prog.attempt, ih]

theorem attempt_attempt {β γ : Type} (p : Prog α) (f : Except Err α → Prog β) (g : Except Err β → Prog γ) :
    (p.attempt f).attempt g = p.attempt fun r => (f r).attempt g := by
  induction p with
  | ret a => rfl
  | err e => rfl
  | panic => rfl
  | get k ih => simp only [Prog.attempt, ih]
  | act o k ih => simp only [Prog.attempt, ih]
  | call c k ih => simp only [Prog.attempt, ih]

theorem steps_of_interp (n : Nat) : ∀ (p : Prog Data) (s : Store) (r : Out Data) (s' : Store), interp (recN body n) p s = (r, s') → r ≠ .timeout →
    ∀ f : Except Err Data → Prog Data, ∃ m, Walk body m (p.attempt f) s (.resume f r) s' := by
  induction n with
  | zero =>
    intro p
    induction p with
    | ret a => intro s r s' h _ f; cases h; exact ⟨0, .done⟩
    | err e => intro s r s' h _ f; cases h; exact ⟨0, .done⟩
    | panic => intro s r s' h _ f; cases h; exact ⟨0, .done⟩
    | get k ih => intro s r s' h hr f; obtain ⟨m, hm⟩ := ih s s r s' h hr f; exact ⟨m + 1, .step rfl hm⟩
    | act o k ih =>
      intro s r s' h hr f
      rw [interp_act] at h
      generalize hx : o.run s = x at h
      have hst : step body ((Prog.act o k).attempt f) s = some (some (o, x.1), .resume (fun r => (k r).attempt f) x.1, x.2) := by
        simp only [Prog.attempt, step, hx]
      rcases x with ⟨a | e | _ | _, s₁⟩ <;> simp only [after] at h
      · obtain ⟨m, hm⟩ := ih _ s₁ r s' h hr f; exact ⟨m + 1, .step hst hm⟩
      · obtain ⟨m, hm⟩ := ih _ s₁ r s' h hr f; exact ⟨m + 1, .step hst hm⟩
      · cases h; exact ⟨1, .step hst .done⟩
      · cases h; exact absurd rfl hr
    | call c k ih => intro s r s' h hr f; cases h; exact absurd rfl hr
  | succ n ihn =>
    intro p
    induction p with
    | ret a => intro s r s' h _ f; cases h; exact ⟨0, .done⟩
    | err e => intro s r s' h _ f; cases h; exact ⟨0, .done⟩
    | panic => intro s r s' h _ f; cases h; exact ⟨0, .done⟩
    | get k ih => intro s r s' h hr f; obtain ⟨m, hm⟩ := ih s s r s' h hr f; exact ⟨m + 1, .step rfl hm⟩
    | act o k ih =>
      intro s r s' h hr f
      rw [interp_act] at h
      generalize hx : o.run s = x at h
      have hst : step body ((Prog.act o k).attempt f) s = some (some (o, x.1), .resume (fun r => (k r).attempt f) x.1, x.2) := by
        simp only [Prog.attempt, step, hx]
      rcases x with ⟨a | e | _ | _, s₁⟩ <;> simp only [after] at h
      · obtain ⟨m, hm⟩ := ih _ s₁ r s' h hr f; exact ⟨m + 1, .step hst hm⟩
      · obtain ⟨m, hm⟩ := ih _ s₁ r s' h hr f; exact ⟨m + 1, .step hst hm⟩
      · cases h; exact ⟨1, .step hst .done⟩
      · cases h; exact absurd rfl hr
    | call c k ih =>
      intro s r s' h hr f
      rw [interp_call, recN_succ] at h
      generalize hx : interp (recN body n) (body c) s = x at h
      have hst : step body ((Prog.call c k).attempt f) s = some (none, (body c).attempt fun r => (k r).attempt f, s) := rfl
      rcases x with ⟨a | e | _ | _, s₁⟩ <;> simp only [after] at h
      · obtain ⟨m, hm⟩ := ihn _ _ _ _ hx nofun fun r => (k r).attempt f
        obtain ⟨m', hm'⟩ := ih _ s₁ r s' h hr f
        exact ⟨m + m' + 1, .step hst (hm.trans hm')⟩
      · obtain ⟨m, hm⟩ := ihn _ _ _ _ hx nofun fun r => (k r).attempt f
        obtain ⟨m', hm'⟩ := ih _ s₁ r s' h hr f
        exact ⟨m + m' + 1, .step hst (hm.trans hm')⟩
      · cases h
        obtain ⟨m, hm⟩ := ihn _ _ _ _ hx nofun fun r => (k r).attempt f
        exact ⟨m + 1, .step hst hm⟩
      · cases h; exact absurd rfl hr

theorem runsP_called {c : Call} {k : Except Err Data → Prog Data} {s s₁ s' : Store} {r r' : Out Data} {f : Prog Data} (h : Runs body c s r s₁)
    (hk : f = .resume k r) (h' : RunsP body f s₁ r' s') : RunsP body (.call c k) s r' s' := by
  obtain ⟨n, h, hr⟩ := h
  obtain ⟨m, h', hr'⟩ := h'
  refine ⟨max n m, ?_, hr'⟩
  rw [interp_call, recN_mono (Nat.le_max_left n m) c s (by rw [h]; exact hr), h]
  rw [← interp_recN_mono (Nat.le_max_right n m) f s₁ (by rw [h']; exact hr'), hk] at h'
  cases r with
  | ok a => exact h'
  | err e => exact h'
  | panic => exact h'
  | timeout => exact absurd rfl hr

theorem runsP_of_steps : ∀ (n : Nat) (p : Prog Data) (f : Except Err Data → Prog Data) (s : Store) (q : Prog Data) (t : Store) (w : Out Data),
    Walk body n (p.attempt f) s q t → Finished q w →
    ∃ r s₁ m, m ≤ n ∧ RunsP body p s r s₁ ∧ Walk body m (.resume f r) s₁ q t := by
  intro n
  induction n using Nat.strongRecOn with
  | ind n ih =>
    intro p f s q t w h hq
    cases p with
    | ret a => exact ⟨.ok a, s, n, Nat.le_refl _, runsP_ret.mpr ⟨rfl, rfl⟩, h⟩
    | err e => exact ⟨.err e, s, n, Nat.le_refl _, runsP_err.mpr ⟨rfl, rfl⟩, h⟩
    | panic => exact ⟨.panic, s, n, Nat.le_refl _, runsP_panic.mpr ⟨rfl, rfl⟩, h⟩
    | get k =>
      cases h with
      | done => cases hq
      | step h1 h2 =>
        cases h1
        obtain ⟨r, s₁, m, h3, h4, h5⟩ := ih _ (Nat.lt_succ_self _) (k s) f s q t w h2 hq
        exact ⟨r, s₁, m, Nat.le_succ_of_le h3, h4, h5⟩
    | act o k =>
      cases h with
      | done => cases hq
      | step h1 h2 =>
        simp only [Prog.attempt, step, Option.some.injEq, Prod.mk.injEq] at h1
        obtain ⟨-, rfl, rfl⟩ := h1
        generalize hx : o.run s = x at h2
        rcases x with ⟨a | e | _ | _, s₀⟩
        · obtain ⟨r, s₁, m, h3, ⟨N, h4, h4'⟩, h5⟩ := ih _ (Nat.lt_succ_self _) (k (.ok a)) f s₀ q t w h2 hq
          exact ⟨r, s₁, m, Nat.le_succ_of_le h3, ⟨N, by rw [interp_act, hx]; exact h4, h4'⟩, h5⟩
        · obtain ⟨r, s₁, m, h3, ⟨N, h4, h4'⟩, h5⟩ := ih _ (Nat.lt_succ_self _) (k (.error e)) f s₀ q t w h2 hq
          exact ⟨r, s₁, m, Nat.le_succ_of_le h3, ⟨N, by rw [interp_act, hx]; exact h4, h4'⟩, h5⟩
        · exact ⟨.panic, s₀, _, Nat.le_succ _, ⟨0, by rw [interp_act, hx]; rfl, nofun⟩, h2⟩
        · exact absurd (congrArg Prod.fst hx) (op_no_timeout o s)
    | call c k =>
      cases h with
      | done => cases hq
      | step h1 h2 =>
        cases h1
        obtain ⟨r, s₁, m, h3, h4, h5⟩ := ih _ (Nat.lt_succ_self _) (body c) (fun r => (k r).attempt f) s q t w h2 hq
        have hr := runs_iff.mpr h4
        cases r with
        | ok a =>
          obtain ⟨r', s₂, m', h6, h7, h8⟩ := ih _ (Nat.lt_succ_of_le h3) (k (.ok a)) f s₁ q t w h5 hq
          exact ⟨r', s₂, m', Nat.le_succ_of_le (Nat.le_trans h6 h3), runsP_called hr rfl h7, h8⟩
        | err e =>
          obtain ⟨r', s₂, m', h6, h7, h8⟩ := ih _ (Nat.lt_succ_of_le h3) (k (.error e)) f s₁ q t w h5 hq
          exact ⟨r', s₂, m', Nat.le_succ_of_le (Nat.le_trans h6 h3), runsP_called hr rfl h7, h8⟩
        | panic => exact ⟨.panic, s₁, m, Nat.le_succ_of_le h3, runsP_called hr rfl (runsP_panic.mpr ⟨rfl, rfl⟩), h5⟩
        | timeout => obtain ⟨_, _, h⟩ := h4; exact absurd rfl h

/-- One thread alone computes what the interpreter computes. -/
theorem steps_iff {p : Prog Data} {s s' : Store} {r : Out Data} :
    RunsP body p s r s' ↔ ∃ n q, Walk body n p s q s' ∧ Finished q r := by
  constructor
  · rintro ⟨n, h, hr⟩
    obtain ⟨m, hm⟩ := steps_of_interp n p s r s' h hr Prog.ofExcept
    rw [attempt_ofExcept] at hm
    refine ⟨m, _, hm, ?_⟩
    cases r with
    | ok v => exact .ret
    | err e => exact .err
    | panic => exact .panic
    | timeout => exact absurd rfl hr
  · rintro ⟨n, q, h, hq⟩
    rw [← attempt_ofExcept p] at h
    obtain ⟨r', s₁, m, -, h1, h2⟩ := runsP_of_steps n p Prog.ofExcept s q s' r h hq
    have hf : ∀ {p : Prog Data} {r : Out Data} {u : Store}, Finished p r → Walk body m p u q s' → q = p ∧ s' = u := by
      intro p r u hp h
      cases h with
      | done => exact ⟨rfl, rfl⟩
      | step h _ => cases hp <;> cases h
    obtain ⟨n', h1', h1''⟩ := h1
    cases r' with
    | ok v => obtain ⟨rfl, rfl⟩ := hf .ret h2; cases hq; exact ⟨n', h1', h1''⟩
    | err e => obtain ⟨rfl, rfl⟩ := hf .err h2; cases hq; exact ⟨n', h1', h1''⟩
    | panic => obtain ⟨rfl, rfl⟩ := hf .panic h2; cases hq; exact ⟨n', h1', h1''⟩
    | timeout => exact absurd rfl h1''

theorem exec_of_steps {n : Nat} {p q : Prog Data} {s t : Store} (h : Walk body n p s q t) : ∃ tr, Exec body ⟨[p], s⟩ tr ⟨[q], t⟩ := by
  induction h with
  | done => exact ⟨[], .done⟩
  | step h _ ih => obtain ⟨tr, ht⟩ := ih; exact ⟨(0, _) :: tr, .move (i := 0) rfl h ht⟩

theorem exec_length {P P' : Pool} {tr : List (Nat × Event)} (h : Exec body P tr P') : P.threads.length ≤ P'.threads.length := by
  induction h with
  | done => exact Nat.le_refl _
  | move _ _ _ ih => simpa using ih
  | start c _ ih => simp at ih; omega

theorem steps_of_exec {P P' : Pool} {tr : List (Nat × Event)} (h : Exec body P tr P') : ∀ {p q : Prog Data}, P.threads = [p] → P'.threads = [q] →
    ∃ n, Walk body n p P.state q P'.state := by
  induction h with
  | done => intro p q h1 h2; rw [h1] at h2; cases h2; exact ⟨0, .done⟩
  | @move P i p₀ ev q₀ t tr P' hp hs _ ih =>
    intro p q h1 h2
    rw [h1] at hp ih
    cases i with
    | zero =>
      cases hp
      obtain ⟨n, hn⟩ := ih rfl h2
      exact ⟨n + 1, .step hs hn⟩
    | succ i => cases hp
  | @start P tr P' c h ih =>
    intro p q h1 h2
    have := exec_length h
    rw [h1, h2] at this
    simp at this

/-! ### Invariants -/

theorem step_keeps {K : Store → Store → Prop} (hK : Keeps K) {p q : Prog Data} {s t : Store} {ev : Event} (h : step body p s = some (ev, q, t)) : K s t := by
  cases p with
  | get k => cases h; exact hK.refl _
  | act o k => simp only [step, Option.some.injEq, Prod.mk.injEq] at h; obtain ⟨-, -, rfl⟩ := h; exact hK.op o s
  | call c k => cases h; exact hK.refl _
  | _ => cases h

/-- What every action respects, every execution respects. -/
theorem exec_keeps {K : Store → Store → Prop} (hK : Keeps K) {P P' : Pool} {tr : List (Nat × Event)} (h : Exec body P tr P') : K P.state P'.state := by
  induction h with
  | done => exact hK.refl _
  | move _ hs _ ih => exact hK.trans (step_keeps hK hs) ih
  | start c _ ih => exact ih

end Golisp.Ev
