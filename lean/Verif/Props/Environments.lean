import Verif.EnvManual
import Verif.LibraryLemmas
import Verif.DemoCalls
import Verif.Props.Scope
/- C79: the environment primitives do what the manual (`Verif.EnvManual`) says. -/
namespace Golisp.Props
open Golisp Data Ev Golisp.Spec Prim

variable {C : Conf} {e : Nat} {s s₁ : Store} {d : Data}

set_option maxRecDepth 20000

/-! ### Names are not held twice -/

theorem op_tidy (o : Op) (s : Store) (h : Tidy s) : Tidy (o.run s).2 := by
  have put : ∀ e x v, Tidy (s.putVal e x v) := by
    intro e x v e' r hr
    rw [putVal_envs] at hr
    by_cases he : e' = e
    · subst he
      simp only [if_pos] at hr
      cases h0 : s.envs[e']? with
      | none => simp [h0] at hr
      | some r0 =>
        simp only [h0, Option.map, Option.some.injEq] at hr
        rw [← hr]; exact alSet_nodup (h e' r0 h0) _ _
    · simp only [he, if_false] at hr; exact h e' r hr
  cases o with
  | newEnv p f name =>
    simp only [Op.run]
    cases hp : s.envs[p]? with
    | none => exact h
    | some r =>
      intro e r' hr
      simp only at hr
      by_cases he : e < s.envs.length
      · rw [List.getElem?_append_left he] at hr; exact h e r' hr
      · rw [List.getElem?_append_right (by omega)] at hr
        cases hx : e - s.envs.length with
        | zero => simp only [hx, List.getElem?_cons_zero, Option.some.injEq] at hr; subst hr; simp
        | succ k => simp [hx] at hr
  | bind e x v =>
    simp only [Op.run]
    repeat' split
    all_goals first | exact h | exact put e x v
  | assign e x v =>
    simp only [Op.run]
    repeat' split
    all_goals first | exact h | exact put e x v
  | assignRaw e x v =>
    simp only [Op.run]
    split
    · exact put e x v
    · exact h
  | flag f b => simp only [Op.run]; split <;> exact h
  | newFn => exact h
  | newMac => exact h
  | newFrame => exact h
  | setSlot => exact h
  | remSlot => exact h
  | gensym => exact h
  | emit => exact h
  | print => exact h
  | newWord => exact h
  | rmw => exact h
  | restrict e =>
    simp only [Op.run]
    cases he : s.envs[e]? with
    | none => exact h
    | some r =>
      intro e' q hq
      simp only [getElem?_set'] at hq
      by_cases hg : e' = e
      · subst hg; simp only [if_pos, he, Option.map, Option.some.injEq] at hq; rw [← hq]; exact h e' r he
      · simp only [hg, if_false] at hq; exact h e' q hq

/-- C79: in the initial state, and after any evaluation, no environment holds a name twice. -/
theorem C79_tidy {r : Out Data} {s' : Store} (h : Evals C d e s r s') (ht : Tidy s) : Tidy s' :=
  runs_keeps (keeps_inv op_tidy) h ht

theorem C79_tidy_start (H : Host) : Tidy (initStore H) := by
  have hk : (stdTable H).map Prod.fst = (stdTable Demo.H).map Prod.fst := by
    simp only [stdTable, formTable, systemTable, textTable, floatTable, ioTable, List.map_append, List.map_cons, List.map_nil, List.map_map,
      Function.comp_def, form, prim, rprim]
  have hn : ("nil" :: (stdTable Demo.H).map Prod.fst).Nodup := by decide +kernel
  intro e r hr
  match e, hr with
  | 0, hr =>
    cases hr
    rw [← hk] at hn
    simpa only [globalEnv, List.map_cons, List.map_map, Function.comp_def] using hn
  | n + 1, hr => simp [initStore] at hr

/-! ### Calls -/

/-- The primitive `x` of the table accepts this number of arguments and, run from environment `e` in state `s`, ends with
an outcome and a state in `P`; if it is restricted, `e` is not. -/
def Acts (C : Conf) (x : String) (vs : List Data) (e : Nat) (s : Store) (P : Out Data → Store → Prop) : Prop :=
  ∃ spec res impl, (std C.host).prims x = some ⟨spec, false, res, impl⟩ ∧ (res = true → s.restrictedEnv e = false) ∧
    Arity.checkArgumentCount (Arity.parseNumArgs spec) vs.length = true ∧
    ∀ args, Lst args vs → ∃ r t, P r t ∧ ∀ r' t', RunsP (body C) (impl args e) s r' t' ↔ r' = r ∧ t' = t

theorem args_mark {xs us : List Data} {s₀ : Store} (h : Args C e xs s₀ (.ok us) s₁) {f : Nat} (hf : s₀.restrictedEnv f = true) :
    s₁.restrictedEnv f = true := by
  induction xs generalizing s₀ us with
  | nil => cases h; exact hf
  | cons x xs ih => cases h with | next h1 h2 => exact ih h2 (C36_mark_kept h1 hf)

/-- What every operation on the state keeps, evaluating the operator and the arguments of a call keeps. -/
theorem calling_inv {P : Store → Prop} (hP : ∀ (o : Op) (s : Store), P s → P (o.run s).2) {x : String} {vs : List Data}
    (h : Calling C x vs d e s s₁) (h0 : P s) : P s₁ := by
  obtain ⟨h, t, xs, us, s₀, _, _, _, hop, _, ht, ha, hv⟩ := h
  have h1 : P s₀ := runs_keeps (keeps_inv hP) hop h0
  clear hop h0 ht hv
  induction xs generalizing s₀ us with
  | nil => cases ha; exact h1
  | cons x xs ih => cases ha with | next h2 h3 => exact ih _ _ h3 (runs_keeps (keeps_inv hP) h2 h1)

/-- A call of a primitive of the table, restricted or not. -/
theorem calling_any {x : String} {vs : List Data} (h : Calling C x vs d e s s₁) {spec : List Char} {res : Bool} {impl : Data → Nat → Prog Data}
    (hx : (std C.host).prims x = some ⟨spec, false, res, impl⟩) (hre : res = true → s₁.restrictedEnv e = false)
    (hc : Arity.checkArgumentCount (Arity.parseNumArgs spec) vs.length = true) :
    ∃ args, Lst args vs ∧ ∀ r t, Evals C d e s r t ↔ ∃ r₀, r = quoting d r₀ ∧ RunsP (body C) (impl args e) s₁ r₀ t := by
  obtain ⟨hd, tl, xs, us, s₀, rfl, hs, hh, hop, hstd, ht, ha, rfl⟩ := h
  refine ⟨ofArray us, Lst.ofArray us, fun r t => ?_⟩
  have hlen : xs.length = us.length := (C32_once ha).symm
  have hre' : (res && s₀.restrictedEnv e) = false := by
    cases hb : res with
    | false => rfl
    | true =>
      cases hz : s₀.restrictedEnv e with
      | false => rfl
      | true => have := args_mark ha hz; rw [hre hb] at this; cases this
  rw [C32_primitive hs hh hop (P := ⟨spec, false, res, impl⟩) (by rw [hstd]; exact hx) rfl hre' ht (by rw [hlen]; simpa using hc)]
  refine exists_congr fun r₀ => and_congr Iff.rfl ?_
  constructor
  · rintro (⟨vs', s₃, ha', hr'⟩ | ⟨er, ha', _⟩ | ⟨ha', _⟩)
    · obtain ⟨h1, rfl⟩ := args_det' ha' ha
      cases h1
      exact hr'
    · exact absurd (args_det' ha' ha).1 (by simp)
    · exact absurd (args_det' ha' ha).1 (by simp)
  · exact fun hr => .inl ⟨_, _, ha, hr⟩

theorem acts_evals {x : String} {vs : List Data} {P : Out Data → Store → Prop} (h : Calling C x vs d e s s₁) (hd : Acts C x vs e s₁ P) :
    ∃ r t, P r t ∧ ∀ r' t', Evals C d e s r' t' ↔ r' = quoting d r ∧ t' = t := by
  obtain ⟨spec, res, impl, hx, hre, hc, hi⟩ := hd
  obtain ⟨args, hl, hiff⟩ := calling_any h hx hre hc
  obtain ⟨r, t, hP, hr⟩ := hi args hl
  refine ⟨r, t, hP, fun r' t' => ?_⟩
  rw [hiff]
  constructor
  · rintro ⟨r₀, rfl, hr'⟩
    obtain ⟨rfl, rfl⟩ := (hr _ _).1 hr'
    exact ⟨rfl, rfl⟩
  · rintro ⟨rfl, rfl⟩; exact ⟨_, rfl, (hr _ _).2 ⟨rfl, rfl⟩⟩

section
variable {x : String} {vs : List Data} {spec : String} {res : Bool} {impl : Data → Nat → Prog Data}

theorem acts_of {P : Out Data → Store → Prop} (hx : (std C.host).prims x = some ⟨spec.toList, false, res, impl⟩)
    (hre : res = true → s.restrictedEnv e = false)
    (hc : Arity.checkArgumentCount (Arity.parseNumArgs spec.toList) vs.length = true) {r : Out Data} {t : Store} (hP : P r t)
    (hi : ∀ args, Lst args vs → ∀ r' t', RunsP (body C) (impl args e) s r' t' ↔ r' = r ∧ t' = t) : Acts C x vs e s P :=
  ⟨_, _, _, hx, hre, hc, fun args hl => ⟨r, t, hP, hi args hl⟩⟩

/-- The primitive only looks at the state. -/
theorem acts_asks {P : Out Data → Prop} (hx : (std C.host).prims x = some ⟨spec.toList, false, res, impl⟩)
    (hre : res = true → s.restrictedEnv e = false)
    (hc : Arity.checkArgumentCount (Arity.parseNumArgs spec.toList) vs.length = true) {r : Out Data} (h0 : r ≠ .timeout) (hP : P r)
    (hi : ∀ args, Lst args vs → (∃ k, impl args e = .get k ∧ k s = Prog.ofOut r) ∨ impl args e = Prog.ofOut r) : Acts C x vs e s (Asks s P) := by
  refine acts_of hx hre hc (t := s) ⟨hP, rfl⟩ fun args hl r' t' => ?_
  rcases hi args hl with ⟨k, h1, h2⟩ | h1
  · rw [h1, runsP_get, h2]; exact runs_ofOut h0
  · rw [h1]; exact runs_ofOut h0
end

theorem count0 : Arity.checkArgumentCount (Arity.parseNumArgs "0".toList) 0 = true := by decide

theorem isMacro_iff {v : Data} : isMacro v = true ↔ ∃ m, v = .atom (.macro m) := by
  constructor
  · intro h
    cases v with
    | atom a => cases a <;> first | exact ⟨_, rfl⟩ | cases h
    | _ => cases h
  · rintro ⟨m, rfl⟩; rfl

theorem isMacro_false {v : Data} (h : ∀ m, v ≠ .atom (.macro m)) : isMacro v = false := by
  cases hm : isMacro v with
  | false => rfl
  | true => obtain ⟨m, rfl⟩ := isMacro_iff.1 hm; exact absurd rfl (h m)

theorem standing_unique {v : Data} {k l : String} (h : Standing v k) (h' : Standing v l) : k = l := by
  cases h with
  | unassigned => cases h' with
    | unassigned => rfl
    | normal _ h1 => exact absurd rfl h1
  | keyword m => cases h' with
    | keyword => rfl
    | normal _ _ h1 => exact absurd rfl (h1 m)
  | normal _ h1 h2 => cases h' with
    | unassigned => exact absurd rfl h1
    | keyword m => exact absurd rfl (h2 m)
    | normal => rfl

theorem bindsOf_local (H : Host) (ht : Tidy s) (i : Nat) : ((bindsOf H s i).map (·.1)).Nodup ∧
    ∀ x v, (x, v) ∈ bindsOf H s i ↔ ∃ b, s.localB i x = some b ∧ b.val = v := by
  simp only [bindsOf, Store.localB]
  cases hr : s.envs[i]? with
  | none => simp
  | some r =>
    have hn := ht i r hr
    have hp := H.iterPerm (r.binds.map Prod.fst)
    simp only [List.map_map, Function.comp_def, List.map_id']
    refine ⟨hp.nodup_iff.2 hn, fun x v => ?_⟩
    rw [List.mem_map]
    constructor
    · rintro ⟨y, hy, he⟩
      rw [hp.mem_iff, List.mem_map] at hy
      obtain ⟨⟨k, b⟩, hm, rfl⟩ := hy
      cases hg : alGet r.binds k with
      | none => exact absurd hm (by
          intro hm
          have : ∀ {l : List (String × Binding)}, (k, b) ∈ l → alGet l k ≠ none := by
            intro l
            induction l with
            | nil => simp
            | cons q l ih =>
              obtain ⟨k', b'⟩ := q
              intro hm
              by_cases hk : k' = k
              · simp [alGet, hk]
              · simp only [alGet, hk, if_false]
                rcases List.mem_cons.1 hm with h | h
                · cases h; exact absurd rfl hk
                · exact ih h
          exact this hm hg)
      | some b' =>
        simp only [hg, Prod.mk.injEq] at he
        obtain ⟨rfl, rfl⟩ := he
        exact ⟨b', hg, rfl⟩
    · rintro ⟨b, hb, rfl⟩
      exact ⟨x, hp.mem_iff.2 (List.mem_map.2 ⟨_, alGet_some_mem hb, rfl⟩), by simp only [hb]⟩

theorem seen_iff (hw : WF s) (i : Nat) (x : String) : (s.find i x).isSome = true ↔ ¬ Unseen s i x := by
  cases h : s.find i x with
  | none => simpa [Unseen] using (find_none_iff hw).1 h
  | some p => simpa using fun hu : Unseen s i x => hu p.1 p.2 ((find_iff hw).1 h)

theorem ofArray_cons_ne (x : Data) (xs : List Data) : ofArray (x :: xs) ≠ .null := by
  cases xs <;> simp [ofArray, listWithTail, cons]

theorem bindNames_runs (s : Store) (pr : EnvRec) (name : String) : ∀ (xs : List String) (vs us : List Data) (B : List (String × Data)),
    us.length = xs.length → (∀ k : Nat, k < xs.length → (vs[k]?).getD .null = (us[k]?).getD .null) → ∀ r t,
    RunsP (body C) (bindNames s.envs.length (xs.map .sym) vs) (pushEnv s 0 pr none name B) r t ↔
      r = .ok () ∧ t = pushEnv s 0 pr none name (B ++ xs.zip us)
  | [], vs, us, B, hl, _, r, t => by
    simp only [List.map_nil, bindNames, List.zip_nil_left, List.append_nil]; exact runsP_pure
  | x :: xs, vs, u :: us, B, hl, hv, r, t => by
    have h0 : vs.headD .null = u := by
      have := hv 0 (by simp)
      cases vs <;> simpa using this
    have hs : isSym (Data.sym x) = true := rfl
    simp only [List.map_cons, bindNames, hs, Bool.not_true, Bool.false_eq_true, if_false, h0]
    rw [runsP_op_bind (bind_pushEnv s 0 pr none name B _ u), bindNames_runs s pr name xs vs.tail us _ (by simpa using hl) (fun k hk => by
      have := hv (k + 1) (by simpa using hk)
      cases vs <;> simpa using this)]
    simp only [List.zip_cons_cons, List.append_assoc, List.singleton_append]
    rfl

theorem list_not_str {l : Data} {xs : List Data} (h : ListOf l xs) : isStr l = false := by
  cases h.1 <;> rfl

/-- How the arguments split into a name and the rest. -/
def Split (args : Data) (name : String) (a : Data) : Prop :=
  (isStr (car args) = true ∧ stringValue (car args) = name ∧ cdr args = a) ∨
    (isStr (car args) = false ∧ name = "anonymous top level" ∧ args = a)

theorem make_start {pr : EnvRec} {args a : Data} {name : String} (h0 : s.envs[0]? = some pr) (hs : Split args name a) (r t) :
    RunsP (body C) (makeTopImpl args e) s r t ↔
    RunsP (body C) (
      if length a = 1 then
        if !isListP (car a) then .fail "make-top-level-environment expects binding names to be a list"
        else do
          bindNames s.envs.length (toArray (car a)) []
          pure (.atom (.env s.envs.length))
      else if length a = 2 then
        if !isListP (car a) then .fail "make-top-level-environment expects binding names to be a list"
        else if !isListP (car (cdr a)) then .fail "make-top-level-environment expects binding values to be a list"
        else if length (car a) ≠ length (car (cdr a)) then
          .fail "make-top-level-environment expects binding names and values lists to be the same length"
        else do
          bindNames s.envs.length (toArray (car a)) (toArray (car (cdr a)))
          pure (.atom (.env s.envs.length))
      else pure (.atom (.env s.envs.length))) (pushEnv s 0 pr none name []) r t := by
  rcases hs with ⟨h1, h2, h3⟩ | ⟨h1, h2, rfl⟩
  · simp only [makeTopImpl, h1, if_true, h2, h3]
    rw [runsP_op_bind (newEnv_run h0 none _)]
  · simp only [makeTopImpl, h1, Bool.false_eq_true, if_false, h2]
    rw [runsP_op_bind (newEnv_run h0 none _)]

theorem make_plain {pr : EnvRec} {args a : Data} {name : String} (h0 : s.envs[0]? = some pr) (ha : Lst a []) (hs : Split args name a) (r t) :
    RunsP (body C) (makeTopImpl args e) s r t ↔ r = .ok (E s.envs.length) ∧ t = pushEnv s 0 pr none name [] := by
  rw [make_start h0 hs, ha.length]
  exact runsP_pure

theorem make_names {pr : EnvRec} {args a l : Data} {name : String} {xs : List String} (h0 : s.envs[0]? = some pr)
    (hl : ListOf l (xs.map .sym)) (ha : Lst a [l]) (hs : Split args name a) (r t) :
    RunsP (body C) (makeTopImpl args e) s r t ↔
      r = .ok (E s.envs.length) ∧ t = pushEnv s 0 pr none name (xs.map fun x => (x, .null)) := by
  rw [make_start h0 hs, ha.length]
  have hz : ∀ xs : List String, xs.map (fun x => (x, Data.null)) = xs.zip (List.replicate xs.length .null) := fun xs => by
    induction xs with
    | nil => rfl
    | cons x xs ih => simp [List.replicate_succ, List.zip_cons_cons, ih]
  have := bindNames_runs (C := C) s pr name xs [] (List.replicate xs.length .null) [] (by simp) (by intro k hk; simp [hk])
  simp only [List.length_singleton, if_true, car_args ha, hl.2, Bool.not_true, Bool.false_eq_true, if_false, hl.1.toArray, hz]
  rw [runsP_bind_ok ((this _ _).2 ⟨rfl, rfl⟩), runsP_pure]
  rfl

theorem make_bindings {pr : EnvRec} {args a l m : Data} {name : String} {xs : List String} {vs : List Data} (h0 : s.envs[0]? = some pr)
    (hl : ListOf l (xs.map .sym)) (hm : ListOf m vs) (hn : xs.length = vs.length) (ha : Lst a [l, m]) (hs : Split args name a) (r t) :
    RunsP (body C) (makeTopImpl args e) s r t ↔
      r = .ok (E s.envs.length) ∧ t = pushEnv s 0 pr none name (xs.zip vs) := by
  rw [make_start h0 hs, ha.length]
  have := bindNames_runs (C := C) s pr name xs vs vs [] hn.symm (fun _ _ => rfl)
  simp only [List.length_cons, List.length_nil, car_args ha, cadr_args ha, hl.2, hm.2, Bool.not_true, Bool.false_eq_true, if_false, hl.1.toArray,
    hm.1.toArray, hl.1.length, hm.1.length, List.length_map, hn, ne_eq, not_true]
  rw [if_neg (by decide), if_pos (by decide), runsP_bind_ok ((this _ _).2 ⟨rfl, rfl⟩), runsP_pure]
  rfl

theorem make_uneven {pr : EnvRec} {args a l m : Data} {name : String} {xs : List String} {vs : List Data} (h0 : s.envs[0]? = some pr)
    (hl : ListOf l (xs.map .sym)) (hm : ListOf m vs) (hn : xs.length ≠ vs.length) (ha : Lst a [l, m]) (hs : Split args name a) (r t) :
    RunsP (body C) (makeTopImpl args e) s r t ↔
      r = .err (.msg "make-top-level-environment expects binding names and values lists to be the same length") ∧ t = pushEnv s 0 pr none name [] := by
  rw [make_start h0 hs, ha.length]
  simp only [List.length_cons, List.length_nil, car_args ha, cadr_args ha, hl.2, hm.2, Bool.not_true, Bool.false_eq_true, if_false,
    hl.1.length, hm.1.length, List.length_map, ne_eq, hn, not_false_eq_true, if_true]
  rw [if_neg (by decide)]
  exact runsP_fail

theorem env_cases (v : Data) : (∃ i, v = E i) ∨ ∀ i, v ≠ E i := by
  cases v with
  | atom a => cases a <;> first | exact .inl ⟨_, rfl⟩ | exact .inr nofun
  | _ => exact .inr nofun

theorem withEnv_bad {name : String} {k : Nat → Prog Data} {args : Data} (h : ∀ i, car args ≠ E i) :
    ∃ msg, withEnv name k args = Prog.ofOut (.err msg) := by
  unfold withEnv
  split
  · exact absurd (by assumption) (h _)
  · exact ⟨_, rfl⟩

theorem withEnvSym_bad {name : String} {k : Nat → String → Prog Data} {args : Data} (h : (∀ i, car args ≠ E i) ∨ ∀ y, car (cdr args) ≠ .sym y) :
    ∃ msg, withEnvSym name k args = Prog.ofOut (.err msg) := by
  simp only [withEnvSym]
  split
  · rename_i i hi
    split
    · rename_i y hy
      rcases h with h | h
      · exact absurd hi (h _)
      · exact absurd hy (h _)
    · exact ⟨_, rfl⟩
  · exact ⟨_, rfl⟩

/-- A primitive that refuses, whatever its message. -/
theorem acts_refuses {x : String} {vs : List Data} {spec : String} {impl : Data → Nat → Prog Data}
    (hx : (std C.host).prims x = some ⟨spec.toList, false, false, impl⟩)
    (hc : Arity.checkArgumentCount (Arity.parseNumArgs spec.toList) vs.length = true)
    (hi : ∀ args, Lst args vs → ∃ msg, impl args e = Prog.ofOut (.err msg)) : Acts C x vs e s (Asks s Objects) := by
  refine ⟨_, _, _, hx, nofun, hc, fun args hl => ?_⟩
  obtain ⟨msg, hm⟩ := hi args hl
  exact ⟨.err msg, s, ⟨⟨_, rfl⟩, rfl⟩, fun r' t' => by simp only [hm]; exact runs_ofOut (by nofun)⟩

/-- C79: the environment primitives answer and do what the manual says, and nothing else. -/
theorem C79_environments (hw : WF s) (ht : Tidy s) {x : String} {vs : List Data} {P : Out Data → Store → Prop}
    (hm : Environs s₁ e x vs P) (h : Calling C x vs d e s s₁) :
    ∃ r t, P r t ∧ ∀ r' t', Evals C d e s r' t' ↔ r' = quoting d r ∧ t' = t := by
  replace hw : WF s₁ := calling_inv op_WF h hw
  replace ht : Tidy s₁ := calling_inv op_tidy h ht
  refine acts_evals h ?_
  cases hm with
  | isEnv v =>
    refine acts_asks (r := .ok (.bool (isEnv v))) (impl := test1 isEnv) rfl nofun count1 nofun ⟨_, rfl, ?_⟩ fun args hl => .inr ?_
    · cases v with
      | atom a => cases a <;> simp [isEnv]
      | _ => simp [isEnv]
    · simp only [test1, car_args hl]; rfl
  | hasParent i =>
    refine acts_asks (impl := envHasParentImpl) rfl nofun count1 (r := .ok (.bool _)) nofun ⟨_, rfl, Option.isSome_iff_exists⟩
      fun args hl => .inl ⟨_, by simp only [envHasParentImpl, withEnv, car_args hl]; rfl, rfl⟩
  | parent hr hp =>
    refine acts_asks (impl := envParentImpl) rfl (fun _ => hr) count1 (r := .ok _) nofun rfl
      fun args hl => .inl ⟨_, by simp only [envParentImpl, withEnv, car_args hl]; rfl, by simp only [hp]; rfl⟩
  | noParent hr hp =>
    refine acts_asks (impl := envParentImpl) rfl (fun _ => hr) count1 (r := .ok _) nofun rfl
      fun args hl => .inl ⟨_, by simp only [envParentImpl, withEnv, car_args hl]; rfl, by simp only [hp]; rfl⟩
  | global hr => exact acts_asks (impl := sysGlobalImpl) rfl (fun _ => hr) count0 (r := .ok _) nofun rfl fun args hl => .inr rfl
  | here he =>
    exact acts_asks (impl := theEnvImpl) rfl nofun count0 (r := .ok _) nofun rfl fun args hl => .inl ⟨_, rfl, by simp only [he, if_true]; rfl⟩
  | hereInner h1 h2 =>
    exact acts_asks (impl := theEnvImpl) rfl nofun count0 (r := .err _) nofun ⟨_, rfl⟩
      fun args hl => .inl ⟨_, rfl, by rw [if_neg (fun h => h.elim h1 h2)]; rfl⟩
  | procedure hf =>
    exact acts_asks (impl := procEnvImpl) rfl nofun count1 (r := .ok _) nofun rfl
      fun args hl => .inl ⟨_, by simp only [procEnvImpl, car_args hl]; rfl, by simp only [hf]; rfl⟩
  | names i =>
    obtain ⟨h1, h2⟩ := bindsOf_local C.host ht i
    refine acts_asks (impl := envBoundNamesImpl C.host) rfl nofun count1 (r := .ok _) nofun
      ⟨_, (bindsOf C.host s₁ i).map (·.1), rfl, ?_, h1, fun x => ?_⟩
      fun args hl => .inl ⟨_, by simp only [envBoundNamesImpl, withEnv, car_args hl]; rfl, rfl⟩
    · have := Lst.ofArray ((bindsOf C.host s₁ i).map fun p => Data.sym p.1)
      rw [map_elem_id (by simp)] at this
      simpa [Function.comp_def] using this
    · rw [List.mem_map]
      constructor
      · rintro ⟨⟨y, v⟩, hy, rfl⟩
        obtain ⟨b, hb, _⟩ := (h2 y v).1 hy
        exact ⟨b, hb⟩
      · rintro ⟨b, hb⟩; exact ⟨(x, b.val), (h2 _ _).2 ⟨b, hb, rfl⟩, rfl⟩
  | macroNames i =>
    obtain ⟨h1, h2⟩ := bindsOf_local C.host ht i
    refine acts_asks (impl := envMacroNamesImpl C.host) rfl nofun count1 (r := .ok _) nofun
      ⟨_, ((bindsOf C.host s₁ i).filter fun p => isMacro p.2).map (·.1), rfl, ?_, ?_, fun x => ?_⟩
      fun args hl => .inl ⟨_, by simp only [envMacroNamesImpl, withEnv, car_args hl]; rfl, rfl⟩
    · have := Lst.ofArray (((bindsOf C.host s₁ i).filter fun p => isMacro p.2).map fun p => Data.sym p.1)
      rw [map_elem_id (by simp)] at this
      simpa [Function.comp_def] using this
    · exact h1.sublist (List.filter_sublist.map _)
    · simp only [List.mem_map, List.mem_filter]
      constructor
      · rintro ⟨⟨y, v⟩, ⟨hy, hm⟩, rfl⟩
        obtain ⟨b, hb, rfl⟩ := (h2 y v).1 hy
        obtain ⟨m, hm⟩ := isMacro_iff.1 hm
        exact ⟨b, m, hb, hm⟩
      · rintro ⟨b, m, hb, hm⟩; exact ⟨(x, b.val), ⟨(h2 _ _).2 ⟨b, hb, rfl⟩, isMacro_iff.2 ⟨m, hm⟩⟩, rfl⟩
  | bindings i =>
    obtain ⟨h1, h2⟩ := bindsOf_local C.host ht i
    refine acts_asks (impl := envBindingsImpl C.host) rfl nofun count1 (r := .ok _) nofun
      ⟨_, _, rfl, Lst.ofArray ((bindsOf C.host s₁ i).map fun p => if isNil p.2 then ofArray [.sym p.1] else ofArray [.sym p.1, p.2]),
        bindsOf C.host s₁ i, h1, h2, by simp, ?_⟩
      fun args hl => .inl ⟨_, by simp only [envBindingsImpl, withEnv, car_args hl]; rfl, rfl⟩
    intro k d x v hd hp
    simp only [List.getElem?_map, hp, Option.map_some, Option.some.injEq] at hd
    subst hd
    cases hn : isNil v with
    | true =>
      rw [if_pos rfl]
      refine .unset ((isNil_iff_Lst _).1 hn) ?_
      rw [elem_of_ne (ofArray_cons_ne _ _)]
      exact Lst.ofArray [Data.sym x]
    | false =>
      rw [if_neg nofun]
      have hv : ¬ Lst v [] := (isNil_false_iff_Lst _).1 hn
      refine .set hv ?_
      rw [elem_of_ne (ofArray_cons_ne _ _)]
      have := Lst.ofArray [Data.sym x, v]
      rwa [map_elem_id (by
        intro h
        simp at h
        exact hv (h ▸ .null))] at this
  | bound i x =>
    exact acts_asks (impl := envBoundImpl "environment-bound?") rfl nofun count2 (r := .ok (.bool _)) nofun ⟨_, rfl, seen_iff hw i x⟩
      fun args hl => .inl ⟨_, by simp only [envBoundImpl, withEnvSym, car_args hl, cadr_args hl]; rfl, rfl⟩
  | assignable i x =>
    exact acts_asks (impl := envBoundImpl "environment-assignable?") rfl nofun count2 (r := .ok (.bool _)) nofun ⟨_, rfl, seen_iff hw i x⟩
      fun args hl => .inl ⟨_, by simp only [envBoundImpl, withEnvSym, car_args hl, cadr_args hl]; rfl, rfl⟩
  | @sort i x f b k hv hk =>
    refine acts_asks (impl := envRefTypeImpl) rfl nofun count2 (r := .ok (.sym k)) nofun rfl
      fun args hl => .inl ⟨_, by simp only [envRefTypeImpl, withEnvSym, car_args hl, cadr_args hl]; rfl, ?_⟩
    simp only [(find_iff hw).2 hv]
    generalize b.val = v at hk
    cases hk with
    | unassigned => rfl
    | keyword m => rfl
    | normal _ h1 h2 => rw [if_neg h1, if_neg (by rw [isMacro_false h2]; nofun)]; rfl
  | sortUnseen hu =>
    exact acts_asks (impl := envRefTypeImpl) rfl nofun count2 (r := .ok _) nofun rfl
      fun args hl => .inl ⟨_, by simp only [envRefTypeImpl, withEnvSym, car_args hl, cadr_args hl]; rfl, by simp only [(find_none_iff hw).2 hu]; rfl⟩
  | @assigned i x f b k hv hk hne =>
    have hE : isEnv (E i) = true := rfl
    refine acts_asks (impl := envAssignedImpl) rfl nofun count2 (r := .ok (.bool (decide (k = "normal")))) nofun ⟨_, rfl, by simp⟩
      fun args hl => .inl ⟨_, by simp only [envAssignedImpl, withEnvSym, car_args hl, cadr_args hl, hE]; rfl, ?_⟩
    simp only [(find_iff hw).2 hv]
    generalize b.val = v at hk
    cases hk with
    | unassigned => rfl
    | keyword m => exact absurd rfl hne
    | normal _ h1 h2 => rw [if_neg h1, if_neg (by rw [isMacro_false h2]; nofun)]; rfl
  | @assignedBad i x hu =>
    have hE : isEnv (E i) = true := rfl
    rcases hu with hu | ⟨f, b, hv, hk⟩
    · exact acts_asks (impl := envAssignedImpl) rfl nofun count2 (r := .err _) nofun ⟨_, rfl⟩
        fun args hl => .inl ⟨_, by simp only [envAssignedImpl, withEnvSym, car_args hl, cadr_args hl, hE]; rfl,
          by simp only [(find_none_iff hw).2 hu]; rfl⟩
    · have hn : b.val ≠ .null ∧ isMacro b.val = true := by
        generalize b.val = v at hk
        generalize hq : "macro" = q at hk
        cases hk with
        | unassigned => exact absurd hq (by decide)
        | keyword m => exact ⟨nofun, rfl⟩
        | normal => exact absurd hq (by decide)
      exact acts_asks (impl := envAssignedImpl) rfl nofun count2 (r := .err _) nofun ⟨_, rfl⟩
        fun args hl => .inl ⟨_, by simp only [envAssignedImpl, withEnvSym, car_args hl, cadr_args hl, hE]; rfl,
          by simp only [(find_iff hw).2 hv, hn, if_true, if_false]; rfl⟩
  | @lookup i x f b hv hk =>
    have hn : b.val ≠ .null ∧ isMacro b.val = false := by
      generalize b.val = v at hk
      generalize hq : "normal" = q at hk
      cases hk with
      | unassigned => exact absurd hq (by decide)
      | keyword m => exact absurd hq (by decide)
      | normal _ h1 h2 => exact ⟨h1, isMacro_false h2⟩
    exact acts_asks (impl := envLookupImpl) rfl nofun count2 (r := .ok b.val) nofun rfl
      fun args hl => .inl ⟨_, by simp only [envLookupImpl, withEnvSym, car_args hl, cadr_args hl]; rfl,
        by simp only [(find_iff hw).2 hv, hn, if_false, Bool.false_eq_true]; rfl⟩
  | @lookupBad i x hu =>
    rcases hu with hu | ⟨f, b, hv, hk⟩
    · exact acts_asks (impl := envLookupImpl) rfl nofun count2 (r := .err _) nofun ⟨_, rfl⟩
        fun args hl => .inl ⟨_, by simp only [envLookupImpl, withEnvSym, car_args hl, cadr_args hl]; rfl,
          by simp only [(find_none_iff hw).2 hu]; rfl⟩
    · by_cases hn : b.val = .null
      · exact acts_asks (impl := envLookupImpl) rfl nofun count2 (r := .err _) nofun ⟨_, rfl⟩
          fun args hl => .inl ⟨_, by simp only [envLookupImpl, withEnvSym, car_args hl, cadr_args hl]; rfl,
            by simp only [(find_iff hw).2 hv, hn, if_true]; rfl⟩
      · have hm : isMacro b.val = true := by
          cases hm : isMacro b.val with
          | true => rfl
          | false => exact absurd (.normal _ hn fun m h => by rw [h] at hm; cases hm) hk
        exact acts_asks (impl := envLookupImpl) rfl nofun count2 (r := .err _) nofun ⟨_, rfl⟩
          fun args hl => .inl ⟨_, by simp only [envLookupImpl, withEnvSym, car_args hl, cadr_args hl]; rfl,
            by simp only [(find_iff hw).2 hv, hn, hm, if_true, if_false]; rfl⟩
  | @lookupMacro i x f b m hv hk =>
    exact acts_asks (impl := envLookupMacroImpl) rfl nofun count2 (r := .ok _) nofun rfl
      fun args hl => .inl ⟨_, by simp only [envLookupMacroImpl, withEnvSym, car_args hl, cadr_args hl]; rfl,
        by simp only [(find_iff hw).2 hv, hk]; rfl⟩
  | @lookupNoMacro i x hk =>
    refine acts_asks (impl := envLookupMacroImpl) rfl nofun count2 (r := .ok _) nofun rfl
      fun args hl => .inl ⟨_, by simp only [envLookupMacroImpl, withEnvSym, car_args hl, cadr_args hl]; rfl, ?_⟩
    cases hf : s₁.find i x with
    | none => rfl
    | some p =>
      have := isMacro_false fun m => hk p.1 p.2 m ((find_iff hw).1 hf)
      simp only [this, Bool.false_eq_true, if_false]; rfl
  | @assign i x f b v hv =>
    have hb := visible_found hv
    refine acts_of (impl := envAssignImpl) rfl nofun count3 (r := .ok v) (t := { s₁.putVal f x v with raw := s₁.raw ++ [(f, x)] }) ⟨rfl, ?_⟩
      fun args hl r' t' => ?_
    · obtain ⟨h1, h2, h3, h4, h5⟩ := putVal_only hb v
      exact ⟨h1, h2, h3, h4, h5⟩
    · simp only [envAssignImpl, withEnvSym, car_args hl, cadr_args hl, caddr_args hl, runsP_get, (find_iff hw).2 hv]
      rw [runsP_op_bind (n := 0) (s₁ := { s₁.putVal f x v with raw := s₁.raw ++ [(f, x)] }) (by simp only [Op.run, hb]), runsP_pure]
  | @assignUnseen i x v hu =>
    exact acts_asks (impl := envAssignImpl) rfl nofun count3 (r := .ok _) nofun rfl
      fun args hl => .inl ⟨_, by simp only [envAssignImpl, withEnvSym, car_args hl, cadr_args hl]; rfl, by simp only [(find_none_iff hw).2 hu]; rfl⟩
  | definable i x =>
    exact acts_asks (impl := envDefinableImpl) rfl nofun count2 (r := .ok _) nofun rfl
      fun args hl => .inr (by simp only [envDefinableImpl, withEnvSym, car_args hl, cadr_args hl]; rfl)
  | @define i x v hi hp =>
    refine acts_of (impl := envDefineImpl) rfl nofun count3 (r := .ok v) (t := s₁.putVal i x v) ⟨rfl, ?_⟩ fun args hl r' t' => ?_
    · have hr : s₁.envs[i]? = some s₁.envs[i] := List.getElem?_eq_getElem hi
      obtain ⟨h1, h2, h3, h4, h5, h6, h7⟩ := putVal_rest s₁ i x v
      refine ⟨?_, ?_, ⟨putVal_envs_len .., ?_⟩, h1, h2, h3, h4, h5, h6, putVal_rest' s₁ i x v⟩
      · rw [putVal_localB]
        simp only [and_self, if_true, hr, Option.map]
        cases hb : alGet (s₁.envs[i]).binds x with
        | none => rfl
        | some b => simp only [hp b (by simp only [Store.localB, hr, hb])]
      · intro e y hne
        rw [putVal_localB, if_neg]
        rintro ⟨rfl, rfl⟩; exact hne rfl
      · intro e
        simp only [Store.parentOf, Store.frameOf, Store.restrictedEnv, putVal_envs]
        by_cases he : e = i
        · subst he; simp only [if_pos, hr, Option.map, EnvRec.put, and_self]
        · simp [he]
    · simp only [envDefineImpl, withEnvSym, car_args hl, cadr_args hl, caddr_args hl]
      have : (Op.bind i x v).run s₁ = (.ok 0, s₁.putVal i x v) := by
        simp only [Op.run]
        cases hb : s₁.localB i x with
        | none => rfl
        | some b => simp only [hp b hb]; rfl
      rw [runsP_op_bind this, runsP_pure]
  | @defineBad i x b v hb hp =>
    refine acts_of (impl := envDefineImpl) rfl nofun count3 (r := .err (Op.protErr x)) (t := s₁) ⟨⟨_, rfl⟩, rfl⟩ fun args hl r' t' => ?_
    simp only [envDefineImpl, withEnvSym, car_args hl, cadr_args hl]
    rw [runsP_bind_err (e := Op.protErr x) (s₁ := s₁) (runsP_op.mpr (by simp only [Op.run, hb, hp, if_true]))]
  | restrict he =>
    have hr : s₁.envs[e]? = some s₁.envs[e] := List.getElem?_eq_getElem he
    refine acts_of (impl := restrictImpl) rfl nofun count0 (r := .ok (.str "OK"))
      (t := { s₁ with envs := s₁.envs.set e { s₁.envs[e] with restricted := true } }) ⟨rfl, ?_⟩ fun args hl r' t' => ?_
    · refine ⟨?_, ?_, ⟨by simp, ?_⟩, rfl, rfl, rfl, rfl, rfl, rfl, rfl, rfl⟩
      · simp only [Store.restrictedEnv, getElem?_set', if_true, hr, Option.map]
      · intro f hf
        simp only [Store.restrictedEnv, getElem?_set', hf, if_false]
      · intro f
        simp only [Store.parentOf, Store.frameOf, Store.localB, getElem?_set']
        by_cases hf : f = e
        · subst hf; simp [hr]
        · simp [hf]
    · simp only [restrictImpl]
      rw [runsP_op_bind (n := 0) (s₁ := { s₁ with envs := s₁.envs.set e { s₁.envs[e] with restricted := true } }) (by simp only [Op.run, hr]), runsP_pure]
  | @make pr name hr h0 =>
    refine acts_of (impl := makeTopImpl) rfl (fun _ => hr) (show Arity.checkArgumentCount (Arity.parseNumArgs "1|2|3".toList) 1 = true by decide) ⟨rfl, rfl⟩ fun args hl => ?_
    exact make_plain h0 (cdr_Lst hl) (.inl ⟨by rw [car_args hl]; rfl, by rw [car_args hl]; rfl, rfl⟩)
  | @makeNames pr l name xs hr h0 hL =>
    exact acts_of (impl := makeTopImpl) rfl (fun _ => hr) (show Arity.checkArgumentCount (Arity.parseNumArgs "1|2|3".toList) 2 = true by decide) ⟨rfl, rfl⟩ fun args hl =>
      make_names h0 hL (cdr_Lst hl) (.inl ⟨by rw [car_args hl]; rfl, by rw [car_args hl]; rfl, rfl⟩)
  | @makeAnonNames pr l xs hr h0 hL =>
    exact acts_of (impl := makeTopImpl) rfl (fun _ => hr) (show Arity.checkArgumentCount (Arity.parseNumArgs "1|2|3".toList) 1 = true by decide) ⟨rfl, rfl⟩ fun args hl =>
      make_names h0 hL hl (.inr ⟨by rw [car_args hl]; exact list_not_str hL, rfl, rfl⟩)
  | @makeBindings pr l m name xs us hr h0 hL hM hlen =>
    exact acts_of (impl := makeTopImpl) rfl (fun _ => hr) (show Arity.checkArgumentCount (Arity.parseNumArgs "1|2|3".toList) 3 = true by decide) ⟨rfl, rfl⟩ fun args hl =>
      make_bindings h0 hL hM hlen (cdr_Lst hl) (.inl ⟨by rw [car_args hl]; rfl, by rw [car_args hl]; rfl, rfl⟩)
  | @makeAnon pr l m xs us hr h0 hL hM hlen =>
    exact acts_of (impl := makeTopImpl) rfl (fun _ => hr) (show Arity.checkArgumentCount (Arity.parseNumArgs "1|2|3".toList) 2 = true by decide) ⟨rfl, rfl⟩ fun args hl =>
      make_bindings h0 hL hM hlen hl (.inr ⟨by rw [car_args hl]; exact list_not_str hL, rfl, rfl⟩)
  | @makeUneven pr l m name xs us hr h0 hL hM hlen =>
    exact acts_of (impl := makeTopImpl) rfl (fun _ => hr) (show Arity.checkArgumentCount (Arity.parseNumArgs "1|2|3".toList) 3 = true by decide) ⟨⟨_, rfl⟩, rfl⟩ fun args hl =>
      make_uneven h0 hL hM hlen (cdr_Lst hl) (.inl ⟨by rw [car_args hl]; rfl, by rw [car_args hl]; rfl, rfl⟩)
  | @find v x i hr hv hg =>
    refine acts_asks (impl := findTopImpl) rfl (fun _ => hr) count1 (r := .ok _) nofun rfl fun args hl => .inl ?_
    cases hv <;> exact ⟨_, by simp only [findTopImpl, car_args hl]; rfl, by simp only [stringValue, hg]; rfl⟩
  | @findNone v x hr hv hg =>
    refine acts_asks (impl := findTopImpl) rfl (fun _ => hr) count1 (r := .ok _) nofun rfl fun args hl => .inl ?_
    cases hv <;> exact ⟨_, by simp only [findTopImpl, car_args hl]; rfl, by simp only [stringValue, hg]; rfl⟩
  | notEnv1 hv hx =>
    simp only [List.mem_cons, List.not_mem_nil, or_false] at hx
    rcases hx with rfl | rfl | rfl | rfl <;>
      exact acts_refuses rfl count1 fun args hl => withEnv_bad (by rw [car_args hl]; exact hv)
  | @notEnv2 x v w hv hx =>
    have hb : ∀ args, Lst args [v, w] → (∀ i, car args ≠ E i) ∨ ∀ y, car (cdr args) ≠ .sym y :=
      fun args hl => by rw [car_args hl, cadr_args hl]; exact hv
    simp only [List.mem_cons, List.not_mem_nil, or_false] at hx
    rcases hx with rfl | rfl | rfl | rfl | rfl | rfl | rfl
    case inr.inr.inl =>
      refine acts_refuses (impl := envAssignedImpl) rfl count2 fun args hl => ?_
      simp only [envAssignedImpl]
      split
      · exact ⟨_, rfl⟩
      · exact withEnvSym_bad (hb args hl)
    all_goals exact acts_refuses rfl count2 fun args hl => withEnvSym_bad (hb args hl)
  | @notEnv3 x v w z hv hx =>
    have hb : ∀ args, Lst args [v, w, z] → (∀ i, car args ≠ E i) ∨ ∀ y, car (cdr args) ≠ .sym y :=
      fun args hl => by rw [car_args hl, cadr_args hl]; exact hv
    simp only [List.mem_cons, List.not_mem_nil, or_false] at hx
    rcases hx with rfl | rfl <;> exact acts_refuses rfl count3 fun args hl => withEnvSym_bad (hb args hl)
  | notProcedure hv =>
    refine acts_refuses (impl := procEnvImpl) rfl count1 fun args hl => ?_
    simp only [procEnvImpl, car_args hl]
    exact ⟨_, rfl⟩

/-- C79: what `environment-define` bound, `environment-lookup` finds. -/
theorem C79_define_lookup {i : Nat} {x : String} {v d' : Data} {e' : Nat} {r : Out Data} {t : Store} (hw : WF s) (ht : Tidy s)
    (hi : i < s₁.envs.length) (hp : ∀ b, s₁.localB i x = some b → b.prot = false) (hm : ∀ m, v ≠ .atom (.macro m))
    (h : Calling C "environment-define" [E i, .sym x, v] d e s s₁) (hev : Evals C d e s r t)
    (h' : Calling C "environment-lookup" [E i, .sym x] d' e' t t) : r = .ok v ∧ Evals C d' e' t (.ok v) t := by
  have hv : v ≠ .null := fun hz => calling_not_null h (by simp [hz])
  obtain ⟨r₀, t₀, ⟨rfl, hB⟩, hiff⟩ := C79_environments hw ht (.define v hi hp) h
  have hw' : WF t := runs_keeps (keeps_inv op_WF) hev hw
  have ht' : Tidy t := C79_tidy hev ht
  obtain ⟨rfl, rfl⟩ := (hiff _ _).1 hev
  refine ⟨rfl, ?_⟩
  obtain ⟨r₁, t₁, ⟨rfl, rfl⟩, hiff'⟩ := C79_environments hw' ht' (.lookup (.here hB.value) (.normal v hv hm)) h'
  exact (hiff' _ _).2 ⟨rfl, rfl⟩

/-- C79: what `environment-assign!` assigned, `environment-lookup` finds, from any environment that sees that binding. -/
theorem C79_assign_lookup {i j f : Nat} {x : String} {b : Binding} {v d' : Data} {e' : Nat} {r : Out Data} {t : Store} (hw : WF s) (ht : Tidy s)
    (hvis : Visible s₁ i x f b) (hvis' : Visible s₁ j x f b) (hm : ∀ m, v ≠ .atom (.macro m))
    (h : Calling C "environment-assign!" [E i, .sym x, v] d e s s₁) (hev : Evals C d e s r t)
    (h' : Calling C "environment-lookup" [E j, .sym x] d' e' t t) : r = .ok v ∧ Evals C d' e' t (.ok v) t := by
  have hv : v ≠ .null := fun hz => calling_not_null h (by simp [hz])
  obtain ⟨r₀, t₀, ⟨rfl, hB⟩, hiff⟩ := C79_environments hw ht (.assign v hvis) h
  have hw' : WF t := runs_keeps (keeps_inv op_WF) hev hw
  have ht' : Tidy t := C79_tidy hev ht
  obtain ⟨rfl, rfl⟩ := (hiff _ _).1 hev
  refine ⟨rfl, ?_⟩
  have hvis'' : ∃ b' : Binding, b'.val = v ∧ Visible t j x f b' := by
    obtain ⟨⟨b₁, _, hb⟩, ho, hpar, _⟩ := hB
    refine ⟨⟨v, b₁.prot⟩, rfl, ?_⟩
    clear h' hiff hev h hvis hw'
    induction hvis' with
    | here => exact .here hb
    | @up a y p g c hn hp hz ih =>
      refine .up ?_ (by rw [hpar]; exact hp) (ih ho (by assumption) hb)
      rw [ho _ _ (fun hq => ?_)]
      · exact hn
      · cases hq
        have := visible_found hz
        rw [hn] at this; cases this
  obtain ⟨b', hb, hvis''⟩ := hvis''
  obtain ⟨r₁, t₁, ⟨rfl, rfl⟩, hiff'⟩ := C79_environments hw' ht' (.lookup hvis'' (by rw [hb]; exact .normal v hv hm)) h'
  rw [hb] at hiff'
  exact (hiff' _ _).2 ⟨rfl, rfl⟩

/-! ### Evaluation in a given environment -/

/-- C79: `(eval x)` evaluates the value of `x` once more, in the environment of the call. -/
theorem C79_eval {v : Data} (h : Calling C "eval" [v] d e s s₁) {r : Out Data} {t : Store} :
    Evals C d e s r t ↔ ∃ r₀, r = quoting d r₀ ∧ Evals C v e s₁ r₀ t := by
  obtain ⟨args, hl, hiff⟩ := calling_any h (spec := "1|2".toList) (impl := evalImpl C.host) rfl nofun (by simp; decide)
  rw [hiff]
  simp only [evalImpl, hl.length, car_args hl]
  exact exists_congr fun r₀ => and_congr Iff.rfl runsP_eval

/-- C79: `(eval x env)` evaluates it in that environment. -/
theorem C79_eval_in {v : Data} {i : Nat} (h : Calling C "eval" [v, E i] d e s s₁) {r : Out Data} {t : Store} :
    Evals C d e s r t ↔ ∃ r₀, r = quoting d r₀ ∧ Evals C v i s₁ r₀ t := by
  obtain ⟨args, hl, hiff⟩ := calling_any h (spec := "1|2".toList) (impl := evalImpl C.host) rfl nofun (by simp; decide)
  rw [hiff]
  simp only [evalImpl, hl.length, car_args hl, cadr_args hl]
  exact exists_congr fun r₀ => and_congr Iff.rfl runsP_eval

/-- C79: anything but an environment in second place is refused and nothing is evaluated. -/
theorem C79_eval_refused {v w : Data} (hw : ∀ i, w ≠ E i) (h : Calling C "eval" [v, w] d e s s₁) :
    ∃ er, ∀ r t, Evals C d e s r t ↔ r = .err er ∧ t = s₁ := by
  obtain ⟨args, hl, hiff⟩ := calling_any h (spec := "1|2".toList) (impl := evalImpl C.host) rfl nofun (by simp; decide)
  have hi : evalImpl C.host args e = failShow C.host "eval expects an environment as it's second argument, but recieved " w "." := by
    simp only [evalImpl, hl.length, cadr_args hl]
    exact if_pos rfl
  refine ⟨.evaling d (.msg ("eval expects an environment as it's second argument, but recieved " ++ C.host.show s₁ w ++ ".")), fun r t => ?_⟩
  rw [hiff, hi]
  simp only [failShow, runsP_get, runsP_fail]
  constructor
  · rintro ⟨_, rfl, rfl, rfl⟩; exact ⟨rfl, rfl⟩
  · rintro ⟨rfl, rfl⟩; exact ⟨_, rfl, rfl, rfl⟩

/-- C79: `(global-eval x)` evaluates it in the global environment. -/
theorem C79_global_eval {v : Data} (hr : s₁.restrictedEnv e = false) (h : Calling C "global-eval" [v] d e s s₁) {r : Out Data} {t : Store} :
    Evals C d e s r t ↔ ∃ r₀, r = quoting d r₀ ∧ Evals C v 0 s₁ r₀ t := by
  obtain ⟨args, hl, hiff⟩ := calling_any h (spec := "1".toList) (impl := globalEvalImpl) rfl (fun _ => hr) count1
  rw [hiff]
  simp only [globalEvalImpl, car_args hl]
  exact exists_congr fun r₀ => and_congr Iff.rfl runsP_eval

/-! ### Where the code does not do what the names say -/

/-- C79 violation: `environment-definable?` answers `#t` for a name that `environment-define` then refuses to define, since
every primitive is protected in the global environment. -/
theorem C79_definable_violation :
    Demo.Ends "(environment-definable? (system-global-environment) 'car)" (.ok (.bool true)) ∧
    Demo.Ends "(environment-define (system-global-environment) 'car 1)"
      (.err (.evaling (Demo.code "(environment-define (system-global-environment) 'car 1)") (Op.protErr "car"))) :=
  ⟨Demo.ends 40 (by decide +kernel) (by simp), Demo.ends 40 (by decide +kernel) (by simp)⟩

/-- C79 violation: a name given to `make-top-level-environment` need not find that environment again.  A call of a function
defined in the global environment runs in a new environment below it, which is entered among the top-level environments under
the function's name. -/
theorem C79_top_level_violation :
    Demo.Ends "(begin (global-eval '(define (box) 1)) (make-top-level-environment \"box\") (find-top-level-environment \"box\"))" (.ok (E 2)) ∧
    Demo.Ends "(begin (global-eval '(define (box) 1)) (make-top-level-environment \"box\") (box) (find-top-level-environment \"box\"))" (.ok (E 3)) :=
  ⟨Demo.ends 60 (by decide +kernel) (by simp), Demo.ends 60 (by decide +kernel) (by simp)⟩

/-! ### The hypotheses are met -/

section
open Demo

theorem demo_tidy : Tidy Demo.s := by
  intro e r hr
  match e, hr with
  | 0, hr => exact C79_tidy_start Demo.H 0 r hr
  | 1, hr => cases hr; exact List.nodup_nil
  | n + 2, hr => simp [Demo.s] at hr

/-- C79: `(environment-define (the-environment) 'x (+ 2 3))`. -/
example : ∃ t, Bound Demo.s t 1 "x" (.int 5) ∧
    Evals Demo.C (Demo.code "(environment-define (the-environment) 'x (+ 2 3))") 1 Demo.s (.ok (.int 5)) t := by
  have h : Calling Demo.C "environment-define" [E 1, .sym "x", .int 5] (Demo.code "(environment-define (the-environment) 'x (+ 2 3))") 1 Demo.s Demo.s :=
    Demo.calling 10 (b := true) (xs := [Demo.code "(the-environment)", Demo.code "'x", Demo.code "(+ 2 3)"]) (us := [E 1, .sym "x", .int 5])
      (by decide +kernel) (by decide +kernel) (by decide +kernel) (by decide +kernel) rfl (by decide +kernel) (by decide +kernel) rfl
  obtain ⟨r, t, ⟨rfl, hB⟩, hr⟩ := C79_environments Demo.wf demo_tidy (.define (i := 1) (x := "x") (.int 5) (by decide) (by
    intro b hb; cases hb)) h
  exact ⟨t, hB, (hr _ _).2 ⟨rfl, rfl⟩⟩

/-- C79: `(environment-bound-names (system-global-environment))` lists exactly the global names, each once. -/
example : ∃ l, ∃ xs : List String, Lst l (xs.map .sym) ∧ xs.Nodup ∧ "car" ∈ xs ∧ "x" ∉ xs ∧
    Evals Demo.C (Demo.code "(environment-bound-names (system-global-environment))") 1 Demo.s (.ok l) Demo.s := by
  have h : Calling Demo.C "environment-bound-names" [E 0] (Demo.code "(environment-bound-names (system-global-environment))") 1 Demo.s Demo.s :=
    Demo.calling 10 (b := true) (xs := [Demo.code "(system-global-environment)"]) (us := [E 0])
      (by decide +kernel) (by decide +kernel) (by decide +kernel) (by decide +kernel) rfl (by decide +kernel) (by decide +kernel) rfl
  obtain ⟨r, t, ⟨⟨l, xs, rfl, hl, hn, hx⟩, rfl⟩, hr⟩ := C79_environments Demo.wf demo_tidy (.names 0) h
  have h1 : Demo.s.localB 0 "car" = some ⟨.atom (.prim "car"), true⟩ := by decide +kernel
  have h2 : Demo.s.localB 0 "x" = none := by decide +kernel
  refine ⟨l, xs, hl, hn, (hx _).2 ⟨_, h1⟩, fun hz => ?_, (hr _ _).2 ⟨rfl, rfl⟩⟩
  obtain ⟨b, hb⟩ := (hx _).1 hz
  rw [h2] at hb; cases hb

/-- C79: `(make-top-level-environment "t" '(a b) '(1 2))`. -/
example : Evals Demo.C (Demo.code "(make-top-level-environment \"t\" '(a b) '(1 2))") 1 Demo.s (.ok (E 2))
    (pushEnv Demo.s 0 (globalEnv Demo.H) none "t" [("a", .int 1), ("b", .int 2)]) := by
  have h : Calling Demo.C "make-top-level-environment" [.str "t", ofArray [.sym "a", .sym "b"], ofArray [.int 1, .int 2]]
      (Demo.code "(make-top-level-environment \"t\" '(a b) '(1 2))") 1 Demo.s Demo.s :=
    Demo.calling 10 (b := true) (xs := [.str "t", Demo.code "'(a b)", Demo.code "'(1 2)"]) (us := [.str "t", ofArray [.sym "a", .sym "b"], ofArray [.int 1, .int 2]])
      (by decide +kernel) (by decide +kernel) (by decide +kernel) (by decide +kernel) rfl (by decide +kernel) (by decide +kernel) rfl
  obtain ⟨r, t, ⟨rfl, rfl⟩, hr⟩ := C79_environments Demo.wf demo_tidy
    (.makeBindings "t" ["a", "b"] [.int 1, .int 2] rfl rfl ⟨Lst.ofArray [.sym "a", .sym "b"], rfl⟩ ⟨Lst.ofArray [.int 1, .int 2], rfl⟩ rfl) h
  exact (hr _ _).2 ⟨rfl, rfl⟩

/-- C79: `(eval '(+ 1 2) (the-environment))`. -/
example : ∀ r t, Evals Demo.C (Demo.code "(eval '(+ 1 2) (the-environment))") 1 Demo.s r t ↔
    ∃ r₀, r = quoting (Demo.code "(eval '(+ 1 2) (the-environment))") r₀ ∧ Evals Demo.C (Demo.code "(+ 1 2)") 1 Demo.s r₀ t := by
  have h : Calling Demo.C "eval" [Demo.code "(+ 1 2)", E 1] (Demo.code "(eval '(+ 1 2) (the-environment))") 1 Demo.s Demo.s :=
    Demo.calling 10 (b := true) (xs := [Demo.code "'(+ 1 2)", Demo.code "(the-environment)"]) (us := [Demo.code "(+ 1 2)", E 1])
      (by decide +kernel) (by decide +kernel) (by decide +kernel) (by decide +kernel) rfl (by decide +kernel) (by decide +kernel) (by decide +kernel)
  exact fun r t => C79_eval_in h

example : Demo.Ends "(begin (environment-define (the-environment) 'x 5) (environment-lookup (the-environment) 'x))" (.ok (.int 5)) :=
  Demo.ends 40 (by decide +kernel) (by simp)

end

end Golisp.Props
