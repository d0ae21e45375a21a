import Verif.CallLemmas
import Verif.Demo
/- C34 (`set!`), C35 (protected bindings), C36 (restricted environments). -/
namespace Golisp.Props
open Golisp Data Ev Spec

variable {C : Conf} {e : Nat} {s : Store} {r : Out Data} {s' : Store}

private theorem lst_args {xs : List Data} (hn : Data.null ∉ xs) : Lst (ofArray xs) xs := by
  have := Lst.ofArray xs; rwa [map_elem_id hn] at this

/-! ### C34: assignment -/

theorem localB_env {f : Nat} {x : String} {b : Binding} (h : s.localB f x = some b) :
    ∃ r, s.envs[f]? = some r ∧ alGet r.binds x = some b := by
  simp only [Store.localB] at h
  cases hr : s.envs[f]? with
  | none => simp [hr] at h
  | some r => simp only [hr] at h; exact ⟨r, rfl, h⟩

theorem putVal_only {f : Nat} {x : String} {b : Binding} (h : s.localB f x = some b) (v : Data) :
    OnlyBinding s (s.putVal f x v) f x v := by
  obtain ⟨r, hr, hb⟩ := localB_env h
  obtain ⟨h1, h2, h3, h4, h5, h6, h7⟩ := putVal_rest s f x v
  refine ⟨⟨b, h, ?_⟩, ?_, ?_, ⟨putVal_envs_len .., ?_⟩, h1, h2, h3, h4, h5, h6, putVal_rest' s f x v⟩
  · rw [putVal_localB]; simp [hr, hb]
  · intro e y hne
    rw [putVal_localB, if_neg]
    rintro ⟨rfl, rfl⟩; exact hne rfl
  · intro e
    simp only [Store.parentOf, putVal_envs]
    by_cases he : e = f
    · subst he; simp only [if_pos, hr, Option.map, EnvRec.put]
    · simp [he]
  · intro e
    simp only [Store.frameOf, Store.restrictedEnv, putVal_envs]
    by_cases he : e = f
    · subst he; simp only [if_pos, hr, Option.map, EnvRec.put, and_self]
    · simp [he]

private theorem assign_run {f : Nat} {x : String} {b : Binding} (h : s.localB f x = some b) (v : Data) :
    (Op.assign f x v).run s = if b.prot then (.err (.msg (x ++ " is a protected binding")), s) else (.ok 0, s.putVal f x v) := by
  simp only [Op.run, h]; rfl

theorem visible_found {x : String} {f : Nat} {b : Binding} (h : Visible s e x f b) : s.localB f x = some b := by
  induction h with
  | here h => exact h
  | up _ _ _ ih => exact ih

private theorem runs_assign {f : Nat} {x : String} {b : Binding} (h : s.localB f x = some b) {v : Data} :
    RunsP (body C) (do let _ ← Prog.op (.assign f x v); pure v) s r s' ↔
      (b.prot = true ∧ r = .err (.msg (x ++ " is a protected binding")) ∧ s' = s) ∨
      (b.prot = false ∧ r = .ok v ∧ s' = s.putVal f x v) := by
  cases hp : b.prot with
  | true =>
    rw [runsP_bind_err (runsP_op.mpr ((assign_run h v).trans (by rw [hp]; rfl)))]
    simp
  | false =>
    rw [runsP_op_bind ((assign_run h v).trans (by rw [hp]; rfl)), runsP_pure]
    simp

private theorem setTo_assigns (hw : WF s) {x : String} {v : Data} :
    ∃ r s', RunsP (body C) (setTo C.host x v e) s r s' ∧ Assigns C.host s e x v r s' := by
  have bnd : ∀ f b, Visible s e x f b → (s.localB e x = none → NoSlot C.host s e x) →
      ∃ r s', RunsP (body C) (do let _ ← Prog.op (.assign f x v); pure v) s r s' ∧ Assigns C.host s e x v r s' := by
    intro f b hv hn
    have hl := visible_found hv
    cases hp : b.prot with
    | true => exact ⟨_, _, (runs_assign hl).mpr (Or.inl ⟨hp, rfl, rfl⟩), .guarded hv hn hp⟩
    | false => exact ⟨_, _, (runs_assign hl).mpr (Or.inr ⟨hp, rfl, rfl⟩), .binding hv hn hp (putVal_only hl v)⟩
  have other : NoSlot C.host s e x →
      ∃ r s', RunsP (body C) (match s.find e x with
        | some (e', _) => do let _ ← Prog.op (.assign e' x v); pure v
        | none => .fail (x ++ " is undefined")) s r s' ∧ Assigns C.host s e x v r s' := by
    intro hn
    cases hf : s.find e x with
    | none => exact ⟨_, _, runsP_fail.mpr ⟨rfl, rfl⟩, .unbound ((find_none_iff hw).mp hf) hn⟩
    | some p => exact bnd p.1 p.2 ((find_iff hw).mp hf) fun _ => hn
  cases hl : s.localB e x with
  | some b =>
    obtain ⟨r, s', h1, h2⟩ := bnd e b (.here hl) (fun h => by rw [hl] at h; cases h)
    exact ⟨r, s', by rw [setTo, runsP_get]; simp only [hl]; exact h1, h2⟩
  | none =>
    simp only [setTo, runsP_get, hl]
    cases hfr : s.frameOf e with
    | none => exact other fun i hi => by rw [hfr] at hi; cases hi
    | some i =>
      simp only
      cases hs : Frame.hasSlot s.frames C.host.ord i (nakedName x) with
      | ok b =>
        cases b with
        | true =>
          exact ⟨_, _, (runsP_op_bind (o := .setSlot i (nakedName x) v) rfl).mpr (runsP_pure.mpr ⟨rfl, rfl⟩), .slot hl hfr hs⟩
        | false => exact other fun j hj => by rw [hfr] at hj; cases hj; exact hs
      | err er => exact ⟨_, _, runsP_err.mpr ⟨rfl, rfl⟩, .broken hl hfr (by simp [hs]) (fun h => h)⟩
      | panic => exact ⟨_, _, runsP_panic.mpr ⟨rfl, rfl⟩, .broken hl hfr (by simp [hs]) (fun h => h)⟩
      | timeout => exact ⟨_, _, runsP_panic.mpr ⟨rfl, rfl⟩, .broken hl hfr (by simp [hs]) (fun h => h)⟩

private theorem set_form (hw : WF s) (hm : Means C s e "set!") {t ex : Data} {x : String} (ht : Lst t [.sym x, ex])
    (hn : ex ≠ .null) : Evals C (.cons (.sym "set!") t) e s r s' ↔ ∃ r₀, r = quoting (.cons (.sym "set!") t) r₀ ∧
      Then (Evals C ex e s) (fun v s₁ => RunsP (body C) (setTo C.host x v e) s₁) r₀ s' := by
  have hn' : Data.null ∉ [Data.sym x, ex] := by simp; exact fun h => hn h.symm
  rw [evals_form (P := ⟨"2".toList, true, false, setVarImpl C.host⟩) hw hm rfl (fun _ => rfl) rfl rfl rfl ht (by rfl)]
  refine exists_congr fun r₀ => ?_
  rw [and_comm]
  refine and_congr Iff.rfl ?_
  have hl := lst_args hn'
  have c1 : car (ofArray [.sym x, ex]) = .sym x := by rw [car_Lst hl]; rfl
  have c2 : car (cdr (ofArray [.sym x, ex])) = ex := by rw [car_Lst (cdr_Lst hl)]; rfl
  show RunsP (body C) (setVarImpl C.host (ofArray [.sym x, ex]) e) s r₀ s' ↔ _
  simp only [setVarImpl, c1, c2, stringValue]
  exact runsP_eval_then

/-- `(set! x ex)`: the expression is evaluated, then its value is assigned (`Assigns`): the innermost visible binding and
nothing else changes; a protected or missing binding is an error and changes nothing. -/
theorem C34_set (hw : WF s) (hm : Means C s e "set!") {t ex : Data} {x : String} (ht : Lst t [.sym x, ex]) (hn : ex ≠ .null)
    (h : Evals C (.cons (.sym "set!") t) e s r s') : ∃ r₀, r = quoting (.cons (.sym "set!") t) r₀ ∧
      Then (Evals C ex e s) (fun v s₁ => Assigns C.host s₁ e x v) r₀ s' := by
  obtain ⟨r₀, hr, h⟩ := (set_form hw hm ht hn).mp h
  refine ⟨r₀, hr, ?_⟩
  rcases h with ⟨v, s₁, h1, h2⟩ | h
  · have hw' : WF s₁ := runs_keeps keeps_WF h1 hw
    obtain ⟨r', s'', h3, h4⟩ := setTo_assigns (C := C) (e := e) (x := x) (v := v) hw'
    obtain ⟨rfl, rfl⟩ := runsP_det h2 h3
    exact Or.inl ⟨v, s₁, h1, h4⟩
  · exact Or.inr h

/-- And it does end whenever the expression's evaluation does. -/
theorem C34_set_ends (hw : WF s) (hm : Means C s e "set!") {t ex : Data} {x : String} (ht : Lst t [.sym x, ex]) (hn : ex ≠ .null)
    {v : Data} {s₁ : Store} (h : Evals C ex e s (.ok v) s₁) :
    ∃ r s', Evals C (.cons (.sym "set!") t) e s r s' := by
  have hw' : WF s₁ := runs_keeps keeps_WF h hw
  obtain ⟨r', s', h3, _⟩ := setTo_assigns (C := C) (e := e) (x := x) (v := v) hw'
  exact ⟨_, s', (set_form hw hm ht hn).mpr ⟨r', rfl, Or.inl ⟨v, s₁, h, h3⟩⟩⟩

/-- Assignment to a variable that is visible and not protected, where no frame is in the way. -/
theorem evals_set (hw : WF s) (hm : Means C s e "set!") {t ex : Data} {x : String} (ht : Lst t [.sym x, ex]) (hn : ex ≠ .null)
    {v : Data} {s₁ : Store} (h : Evals C ex e s (.ok v) s₁) {f : Nat} {b : Binding} (hv : Visible s₁ e x f b) (hp : b.prot = false)
    (hfr : s₁.frameOf e = none) : Evals C (.cons (.sym "set!") t) e s (.ok v) (s₁.putVal f x v) := by
  refine (set_form hw hm ht hn).mpr ⟨.ok v, rfl, Or.inl ⟨v, s₁, h, ?_⟩⟩
  have hw' : WF s₁ := runs_keeps keeps_WF h hw
  have hf := (find_iff hw').mpr hv
  show RunsP (body C) (setTo C.host x v e) s₁ (.ok v) (s₁.putVal f x v)
  have hr := (runs_assign (C := C) (v := v) (r := .ok v) (visible_found hv)).mpr (Or.inr ⟨hp, rfl, rfl⟩)
  cases hl : s₁.localB e x with
  | some b' =>
    have : e = f := by cases hv with
      | here => rfl
      | up h => rw [hl] at h; cases h
    subst this
    rw [setTo, runsP_get]; simp only [hl]; exact hr
  | none => simp only [setTo, runsP_get, hl, hfr, hf]; exact hr

/-- Assignment never creates a binding anywhere and never changes the value of any other variable. -/
theorem C34_never_creates {H : Host} {x : String} {v : Data} (h : Assigns H s e x v r s') (f : Nat) (y : String) :
    (s.localB f y).isSome = (s'.localB f y).isSome ∧
      (s'.localB f y ≠ s.localB f y → y = x ∧ ∃ b, Visible s e x f b) := by
  cases h with
  | @binding f' b' _ hv _ _ ho =>
    by_cases hfy : (f, y) = (f', x)
    · cases hfy
      obtain ⟨b, h1, h2⟩ := ho.value
      exact ⟨by rw [h1, h2]; rfl, fun _ => ⟨rfl, _, hv⟩⟩
    · rw [ho.others f y hfy]; exact ⟨rfl, fun h => absurd rfl h⟩
  | slot => exact ⟨rfl, fun h => absurd rfl h⟩
  | guarded => exact ⟨rfl, fun h => absurd rfl h⟩
  | broken => exact ⟨rfl, fun h => absurd rfl h⟩
  | unbound => exact ⟨rfl, fun h => absurd rfl h⟩

/-! ### C35: protected bindings -/

/-- `(define x ex)`: the expression is evaluated, then `x` is bound in this very environment; a protected binding there
is an error and nothing changes. -/
theorem C35_define (hw : WF s) (hm : Means C s e "define") {t ex : Data} {x : String} (ht : Lst t [.sym x, ex]) (hn : ex ≠ .null) :
    Evals C (.cons (.sym "define") t) e s r s' ↔ ∃ r₀, r = quoting (.cons (.sym "define") t) r₀ ∧
      Then (Evals C ex e s) (fun v s₁ r s' =>
        ((∃ b, s₁.localB e x = some b ∧ b.prot = true) ∧ r = .err (.msg (x ++ " is a protected binding")) ∧ s' = s₁) ∨
        ((∀ b, s₁.localB e x = some b → b.prot = false) ∧ r = .ok v ∧ s' = s₁.putVal e x v)) r₀ s' := by
  have hn' : Data.null ∉ [Data.sym x, ex] := by simp; exact fun h => hn h.symm
  rw [evals_form (P := ⟨">=1".toList, true, false, defineImpl C.host⟩) hw hm rfl (fun _ => rfl) rfl rfl rfl ht (by rfl)]
  refine exists_congr fun r₀ => ?_
  rw [and_comm]
  refine and_congr Iff.rfl ?_
  have hl := lst_args hn'
  have c1 : car (ofArray [.sym x, ex]) = .sym x := by rw [car_Lst hl]; rfl
  have c2 : car (cdr (ofArray [.sym x, ex])) = ex := by rw [car_Lst (cdr_Lst hl)]; rfl
  show RunsP (body C) (defineImpl C.host (ofArray [.sym x, ex]) e) s r₀ s' ↔ _
  simp only [defineImpl, c1, c2, isSym, stringValue, if_true]
  rw [runsP_eval_then]
  refine Then.congr fun v s₁ => ?_
  cases hb : s₁.localB e x with
  | none =>
    rw [runsP_op_bind (n := 0) (s₁ := s₁.putVal e x v) (by simp only [Op.run, hb]), runsP_pure]
    simp
  | some b =>
    cases hp : b.prot with
    | true =>
      rw [runsP_bind_err (e := Op.protErr x) (s₁ := s₁) (runsP_op.mpr (by simp only [Op.run, hb, hp, if_true]))]
      simp [hp, Op.protErr]
    | false =>
      rw [runsP_op_bind (n := 0) (s₁ := s₁.putVal e x v) (by simp [Op.run, hb, hp]), runsP_pure]
      simp [hp]

/-- No evaluation of anything changes a protected binding, except through `environment-assign!` (which records what it
writes in the ghost field `raw`). -/
theorem C35_protected {d : Data} (h : Evals C d e s r s') {f : Nat} {x : String} {b : Binding} (hb : s.localB f x = some b)
    (hp : b.prot = true) (hraw : (f, x) ∉ s'.raw) : s'.localB f x = some b := by
  rcases (runs_keeps keeps_grows h).prot f x b hb hp with h | h
  · exact absurd h hraw
  · exact h

/-- The mark itself is never removed, by anything. -/
theorem C35_mark_kept {d : Data} (h : Evals C d e s r s') {f : Nat} {x : String} {b : Binding} (hb : s.localB f x = some b) :
    ∃ b', s'.localB f x = some b' ∧ b'.prot = b.prot := by
  obtain ⟨q, hq, hb⟩ := localB_env hb
  obtain ⟨q', hq', hle⟩ := (runs_keeps keeps_grows h).envs f q hq
  obtain ⟨b', h1, h2⟩ := hle.binds x b hb
  exact ⟨b', by simp only [Store.localB, hq', h1], h2⟩

/-! ### C36: restricted environments -/

/-- A restricted primitive called in a restricted environment fails before anything else is done: no argument is
evaluated and the state does not change. -/
theorem C36_refused {h t : Data} (hs : shortcuts (.cons h t) = .cons h t) (hh : h ≠ .null) {x : String} {s₁ : Store}
    (hop : EvalsOp C h e s (.ok (.atom (.prim x))) s₁) {P : PrimDef} (hP : C.prims x = some P) (hr : P.restricted = true)
    (he : s₁.restrictedEnv e = true) :
    Evals C (.cons h t) e s r s' ↔ r = .err (.evaling (.cons h t)
      (.msg ("The " ++ x ++ " primitive is restricted from execution in this environment\n"))) ∧ s' = s₁ := by
  rw [evals_comb hs hh hop rfl]
  simp only [apply, primApply, hP, runsP_get, hr, he, Bool.and_self, if_true, runsP_fail]
  constructor
  · rintro ⟨r₀, ⟨rfl, rfl⟩, rfl⟩; exact ⟨rfl, rfl⟩
  · rintro ⟨rfl, rfl⟩; exact ⟨_, ⟨rfl, rfl⟩, rfl⟩

/-- Also when it is reached through `apply`, `map` and the like. -/
theorem C36_refused_apply {x : String} {P : PrimDef} (hP : C.prims x = some P) (hr : P.restricted = true)
    (he : s.restrictedEnv e = true) {args : Data} :
    Applies C (.atom (.prim x)) args e s r s' ↔
      r = .err (.msg ("The " ++ x ++ " primitive is restricted from execution in this environment\n")) ∧ s' = s := by
  unfold Applies
  rw [runs_iff]
  simp only [body, applyNoEval, primApplyNoEval, hP]
  split <;> simp only [primApply, hP, runsP_get, hr, he, Bool.and_self, if_true, runsP_fail]

/-- The mark is never cleared. -/
theorem C36_mark_kept {d : Data} (h : Evals C d e s r s') {f : Nat} (hf : s.restrictedEnv f = true) :
    s'.restrictedEnv f = true := by
  simp only [Store.restrictedEnv] at hf ⊢
  cases hq : s.envs[f]? with
  | none => simp [hq] at hf
  | some q =>
    simp only [hq] at hf
    obtain ⟨q', hq', hle⟩ := (runs_keeps keeps_grows h).envs f q hq
    simp only [hq', hle.restricted hf]

private theorem parentOf_some {f p : Nat} (h : s.parentOf f = some p) : ∃ q, s.envs[f]? = some q ∧ q.parent = some p := by
  simp only [Store.parentOf] at h
  cases hq : s.envs[f]? with
  | none => simp [hq] at h
  | some q => simp only [hq] at h; exact ⟨q, rfl, h⟩

private theorem restricted_some {f : Nat} (h : s.restrictedEnv f = true) : ∃ q, s.envs[f]? = some q ∧ q.restricted = true := by
  simp only [Store.restrictedEnv] at h
  cases hq : s.envs[f]? with
  | none => simp [hq] at h
  | some q => simp only [hq] at h; exact ⟨q, rfl, h⟩

private theorem op_below (n e₀ : Nat) (o : Op) (s : Store) (hn : n ≤ s.envs.length ∧ e₀ < n)
    (hw : WF s)
    (h : ∀ c, Below n s e₀ c → s.restrictedEnv c = true) :
    (n ≤ (o.run s).2.envs.length ∧ e₀ < n) ∧ ∀ c, Below n (o.run s).2 e₀ c → (o.run s).2.restrictedEnv c = true := by
  have hg := op_grows o s
  have keep : ∀ c, s.restrictedEnv c = true → (o.run s).2.restrictedEnv c = true := by
    intro c hc
    obtain ⟨q, hq, hr⟩ := restricted_some hc
    obtain ⟨q', hq', hle⟩ := hg.envs c q hq
    simp only [Store.restrictedEnv, hq', hle.restricted hr]
  have len : s.envs.length ≤ (o.run s).2.envs.length := by
    rcases Nat.lt_or_ge (o.run s).2.envs.length s.envs.length with hlt | hge
    · obtain ⟨q', hq', _⟩ := hg.envs _ _ (List.getElem?_eq_getElem hlt)
      have := (List.getElem?_eq_some_iff.mp hq').1
      omega
    · exact hge
  refine ⟨⟨Nat.le_trans hn.1 len, hn.2⟩, ?_⟩
  have old : ∀ c, c < s.envs.length → Below n (o.run s).2 e₀ c → ∀ p, (o.run s).2.parentOf c = some p → s.parentOf c = some p := by
    intro c hc _ p hp
    obtain ⟨q', hq', hle⟩ := hg.envs c s.envs[c] (List.getElem?_eq_getElem hc)
    simp only [Store.parentOf, hq', hle.parent] at hp
    simp only [Store.parentOf, List.getElem?_eq_getElem hc]; exact hp
  have new : ∀ c, s.envs.length ≤ c → ∀ p, (o.run s).2.parentOf c = some p →
      p < s.envs.length ∧ (o.run s).2.restrictedEnv c = s.restrictedEnv p := by
    intro c hc p hp
    obtain ⟨q, hq, hqp⟩ := parentOf_some hp
    have hlt := (List.getElem?_eq_some_iff.mp hq).1
    have hput : ∀ e x v, (s.putVal e x v).envs.length = s.envs.length := putVal_envs_len s
    cases o with
    | newEnv p' f name =>
      simp only [Op.run] at hp hq hlt ⊢
      cases hp' : s.envs[p']? with
      | none => simp only [hp'] at hlt; omega
      | some pr =>
        simp only [hp', List.length_append, List.length_cons, List.length_nil] at hlt hq
        have hceq : c = s.envs.length := by omega
        subst hceq
        simp only [List.getElem?_concat_length, Option.some.injEq] at hq
        subst hq
        simp only [Option.some.injEq] at hqp
        subst hqp
        simp only [Store.restrictedEnv, List.getElem?_concat_length, hp', and_true]
        exact (List.getElem?_eq_some_iff.mp hp').1
    | bind e x v =>
      simp only [Op.run] at hlt
      repeat' split at hlt
      all_goals simp only [hput] at hlt; omega
    | assign e x v =>
      simp only [Op.run] at hlt
      repeat' split at hlt
      all_goals simp only [hput] at hlt; omega
    | assignRaw e x v =>
      simp only [Op.run] at hlt
      repeat' split at hlt
      all_goals simp only [hput] at hlt; omega
    | flag f b => simp only [Op.run] at hlt; split at hlt <;> simp only at hlt <;> omega
    | newFn => simp only [Op.run] at hlt; omega
    | newMac => simp only [Op.run] at hlt; omega
    | newFrame => simp only [Op.run] at hlt; omega
    | setSlot => simp only [Op.run] at hlt; omega
    | remSlot => simp only [Op.run] at hlt; omega
    | gensym => simp only [Op.run] at hlt; omega
    | emit => simp only [Op.run] at hlt; omega
    | print => simp only [Op.run] at hlt; omega
    | newWord => simp only [Op.run] at hlt; omega
    | rmw => simp only [Op.run] at hlt; omega
    | restrict e =>
      simp only [Op.run] at hlt
      split at hlt <;> simp only [List.length_set] at hlt <;> omega
  have key : ∀ c, Below n (o.run s).2 e₀ c → (c < s.envs.length → Below n s e₀ c) ∧ (o.run s).2.restrictedEnv c = true := by
    intro c hc
    induction hc with
    | self => exact ⟨fun _ => .self, keep _ (h _ .self)⟩
    | @child p c hb hnc hp ih =>
      by_cases hc : c < s.envs.length
      · have hp' := old c hc (.child hb hnc hp) p hp
        have hpl : p < s.envs.length := by
          obtain ⟨q, hq, hqp⟩ := parentOf_some hp'
          exact Nat.lt_trans (hw c q p hq hqp) hc
        have hb' := Below.child (ih.1 hpl) hnc hp'
        exact ⟨fun _ => hb', keep _ (h _ hb')⟩
      · obtain ⟨hpl, hr⟩ := new c (by omega) p hp
        exact ⟨fun h => absurd h hc, by rw [hr]; exact h _ (ih.1 hpl)⟩
  exact fun c hc => (key c hc).2

/-- Once an environment is restricted, it and every environment created below it afterwards stay restricted, whatever
is evaluated. -/
theorem C36_inherited {d : Data} {f : Nat} (h : Evals C d f s r s') (hw : WF s) {e₀ : Nat} (he : s.restrictedEnv e₀ = true)
    {c : Nat} (hb : Below s.envs.length s' e₀ c) : s'.restrictedEnv c = true := by
  have hlt : e₀ < s.envs.length := by
    obtain ⟨q, hq, _⟩ := restricted_some he; exact (List.getElem?_eq_some_iff.mp hq).1
  have hk : Keeps fun a b => (WF a ∧ (s.envs.length ≤ a.envs.length ∧ e₀ < s.envs.length) ∧
        ∀ c, Below s.envs.length a e₀ c → a.restrictedEnv c = true) →
      (WF b ∧ (s.envs.length ≤ b.envs.length ∧ e₀ < s.envs.length) ∧
        ∀ c, Below s.envs.length b e₀ c → b.restrictedEnv c = true) :=
    keeps_inv fun o a ⟨h0, h1, h2⟩ => ⟨op_WF o a h0, op_below _ _ o a h1 h0 h2⟩
  refine (runs_keeps hk h ⟨hw, ⟨Nat.le_refl _, hlt⟩, fun c hc => ?_⟩).2.2 c hb
  induction hc with
  | self => exact he
  | @child p c hb hnc hp ih =>
    obtain ⟨q, hq, _⟩ := parentOf_some hp
    have := (List.getElem?_eq_some_iff.mp hq).1
    omega

set_option maxRecDepth 20000 in
private theorem restricted_table (H : Host) :
    (stdTable H).all (fun p => p.2.restricted == decide (p.1 ∈ ["global-eval", "panic!", "environment-parent",
      "system-global-environment", "make-top-level-environment", "find-top-level-environment", "load"])) = true := rfl

set_option maxRecDepth 20000 in
/-- Which of the modelled primitives are restricted: those that leave the environment they are called in, and
`panic!`. -/
theorem C36_restricted (H : Host) (x : String) :
    (∃ P, (std H).prims x = some P ∧ P.restricted = true) ↔
      x ∈ ["global-eval", "panic!", "environment-parent", "system-global-environment", "make-top-level-environment",
        "find-top-level-environment", "load"] := by
  have hall := restricted_table H
  rw [List.all_eq_true] at hall
  constructor
  · rintro ⟨P, hP, hr⟩
    have := hall _ (alGet_some_mem hP)
    simpa [hr] using this
  · intro hx
    have hs : ∀ y ∈ ["global-eval", "panic!", "environment-parent", "system-global-environment",
        "make-top-level-environment", "find-top-level-environment", "load"], ((alGet (stdTable H) y).any (·.restricted)) = true := by
      intro y hy
      simp only [List.mem_cons, List.not_mem_nil, or_false] at hy
      rcases hy with rfl | rfl | rfl | rfl | rfl | rfl | rfl <;> rfl
    have := hs x hx
    cases hg : alGet (stdTable H) x with
    | none => rw [hg] at this; cases this
    | some P => rw [hg] at this; exact ⟨P, hg, this⟩

/-- Together: in a restricted environment, or any environment created below it afterwards, a restricted primitive is
refused. -/
theorem C36_sandbox {d : Data} {f : Nat} {s₀ : Store} {r₀ : Out Data} (h0 : Evals C d f s₀ r₀ s) (hw : WF s₀) {e₀ : Nat}
    (he : s₀.restrictedEnv e₀ = true) (hb : Below s₀.envs.length s e₀ e) {x : String} {P : PrimDef} (hP : C.prims x = some P)
    (hr : P.restricted = true) {args : Data} :
    Applies C (.atom (.prim x)) args e s r s' ↔
      r = .err (.msg ("The " ++ x ++ " primitive is restricted from execution in this environment\n")) ∧ s' = s :=
  C36_refused_apply hP hr (C36_inherited h0 hw he hb)

section
open Demo

/-- The inheritance goes through environments created *after* the mark: a function made earlier in an inner environment
still runs a restricted primitive, although its call environment is created below the restricted one afterwards.  Here
`g`'s environment lies below the top-level environment, which is restricted before `g` is called. -/
theorem C36_older_closure_violation :
    Ends "(begin (define g ((lambda () (lambda () (global-eval 5))))) (restrict-environment) (g))" (.ok (int 5)) :=
  ends 20 (by decide +kernel) (by simp)

example : Ends "(begin (define x 1) (define (f) (set! x 2)) (let ((x 5)) (f) (list x (f))))" (.ok (ofArray [int 5, int 2])) :=
  ends 20 (by decide +kernel) (by simp)
example : Ends "(begin (define x 1) (define (f) (set! x 2)) (f) x)" (.ok (int 2)) := ends 20 (by decide +kernel) (by simp)
example : Fails "(set! zz 1)" "\nEvaling (set! zz 1). zz is undefined" := fails 20 (by decide +kernel)
example : Fails "(set! car 1)" "\nEvaling (set! car 1). car is a protected binding" := fails 20 (by decide +kernel)
example : Means Demo.C Demo.s 1 "set!" := means "set!" (b := true) (by decide +kernel)
example : Means Demo.C Demo.s 1 "define" := means "define" (b := true) (by decide +kernel)
example : ∃ b, Demo.s.localB 0 "car" = some b ∧ b.prot = true := ⟨⟨.atom (.prim "car"), true⟩, by decide +kernel, rfl⟩
/-- `environment-assign!` does change a protected binding (the exception of `C35_protected`). -/
theorem C35_environment_assign_bypasses :
    Ends "(begin (environment-assign! (system-global-environment) 'car 5) (eval 'car (system-global-environment)))" (.ok (int 5)) :=
  ends 20 (by decide +kernel) (by simp)
example : Fails "(begin (restrict-environment) (global-eval (begin (write-line 1) 5)))"
    ("\nEvaling (begin (restrict-environment) (global-eval (begin (write-line 1) 5))). \nEvaling (global-eval (begin (write-line 1) 5))."
      ++ " The global-eval primitive is restricted from execution in this environment\n") := fails 20 (by decide +kernel)
example : Writes "(begin (restrict-environment) (on-error ((lambda () (global-eval (begin (write-line 1) 5)))) (lambda (m) 3)))"
    (.ok (int 3)) [] := writes 20 (by decide +kernel) (by decide +kernel) (by simp)
end

end Golisp.Props
