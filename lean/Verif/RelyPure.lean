import Verif.Rely
/- Lemmas for C91: the textbook language among other threads. -/
namespace Golisp.Ev.Rely
open Golisp Data Spec

variable {α β : Type} {C : Conf} {Γ : Defs} {ρ ρ' : Vars} {g e n₀ : Nat} {K K' K₀ : List Nat} {s s' : Store}

private theorem lst_args {xs : List Data} (hn : Data.null ∉ xs) : Lst (ofArray xs) xs := by
  have := Lst.ofArray xs; rwa [map_elem_id hn] at this

theorem Plain.yields {p : Nat → Prog Data} {v : Data} (h : ∀ e, Plain (p e) v) : YieldsP C Γ n₀ g ρ p v := by
  refine ⟨1, fun K s e hh hi hs => ?_⟩
  generalize h e = hp
  revert hp
  generalize p e = q
  intro hp
  cases hp with
  | ret => exact .ret (post_refl hh)
  | look hk =>
    refine .get fun s' ho => ?_
    rw [hk s']
    exact .ret ⟨rfl, fun _ h => h, hh.others ho, ho⟩

theorem frame_of (hi : Implements C Γ s g) (hs : Scope K s g ρ e) : s.frameOf e = none := hs.inside.frame hi.frame

section
variable (hg : g < n₀)
include hg

/-- A variable, or the name of a form or a primitive. -/
theorem yields_name {need : Bool} {x : String} {v : Data} (hx : isNaked (sym x) = false) (hf : isFunc v = false)
    (h : ∀ K s e, Implements C Γ s g → Scope K s g ρ e → ∃ f p, Visible s e x f ⟨v, p⟩) :
    YieldsP C Γ n₀ g ρ (fun e => Ev.body C (.eval need (sym x) e)) v := by
  refine ⟨1, fun K s e hh hi hs => ?_⟩
  simp only [Ev.body, evalHelper, hx, Bool.false_eq_true, if_false]
  refine safe_valueOf (v := v) (n := 0) fun s' ho => ?_
  have hi' := implements_others hi ho hh.wf hg
  have hs' := hs.others ho fun _ h => h
  refine ⟨ho.wf hh.wf, frame_of hi' hs', h K s' e hi' hs', fun b => ?_⟩
  have : markFn v b = pure v := by
    cases v with
    | atom a => cases a <;> first | rfl | simp [isFunc] at hf
    | _ => rfl
  rw [this]
  exact .ret ⟨rfl, fun _ h => h, hh.others ho, ho⟩

theorem yields_op {x : String} (hx : isNaked (sym x) = false) (hs : x ≠ "self") (hρ : ρ x = none) (hm : ∀ s, Implements C Γ s g → Means C s g x) :
    YieldsP C Γ n₀ g ρ (fun e => Ev.body C (.eval true (sym x) e)) (.atom (.prim x)) := by
  refine yields_name hg hx rfl fun K s e hi hsc => ?_
  obtain ⟨⟨f, p, hv⟩, -, -⟩ := hm s hi
  exact ⟨f, p, hsc.inside.global hs hρ hv⟩

omit hg in
theorem safe_comb {x : String} {t : Data} {n m : Nat} {Q : List Nat → Store → Data → Prop} (hsh : shortcuts (cons (sym x) t) = cons (sym x) t)
    (h : Safe (Ev.body C) n₀ (Dependence Γ) (fun K' s' fn => isNil fn = false ∧ Safe (Ev.body C) n₀ (Dependence Γ) Q m K' s' (apply C fn t e)) n K s
      (Ev.body C (.eval true (sym x) e))) :
    Safe (Ev.body C) n₀ (Dependence Γ) Q (n + 1 + m) K s (Ev.body C (.eval false (cons (sym x) t) e)) := by
  simp only [Ev.body, evalHelper, hsh, evalCombination, show isNil (cons (sym x) t) = false from rfl, Bool.false_eq_true, if_false]
  refine Safe.bind ((safe_call h).weaken fun K' s' fn hfn => ?_)
  obtain ⟨h1, h2⟩ := hfn
  simp only [h1, Bool.false_eq_true, if_false]
  exact Safe.attempt (m := 0) (h2.weaken fun K'' s'' a ha => .ret ha)

theorem yields_comb {x : String} {t fn v : Data} (hsh : shortcuts (cons (sym x) t) = cons (sym x) t)
    (hop : YieldsP C Γ n₀ g ρ (fun e => Ev.body C (.eval true (sym x) e)) fn) (hfn : isNil fn = false)
    (h : YieldsP C Γ n₀ g ρ (fun e => apply C fn t e) v) : Yields C Γ n₀ g ρ (cons (sym x) t) v := by
  obtain ⟨n, hop⟩ := hop
  obtain ⟨m, h⟩ := h
  refine ⟨n + 1 + m, fun K s e hh hi hs => safe_comb hsh ((hop K s e hh hi hs).weaken ?_)⟩
  rintro K' s' a ⟨rfl, h2, h3, h4⟩
  exact ⟨hfn, (h K' s' e h3 (implements_others hi h4 hh.wf hg) (hs.others h4 h2)).weaken fun K'' s'' b hb => Post.after (v := a) ⟨rfl, h2, h3, h4⟩ hb⟩

/-- A special form. -/
theorem yields_form {x : String} {P : PrimDef} {t v : Data} {xs : List Data} (hx : x ∈ pureForms) (hρ : ρ x = none)
    (hnk : isNaked (sym x) = false) (hsh : ∀ t, shortcuts (cons (sym x) t) = cons (sym x) t)
    (hP : (std C.host).prims x = some P) (hsp : P.special = true) (hre : P.restricted = false)
    (ht : Lst t xs) (hc : Arity.checkArgumentCount (Arity.parseNumArgs P.args) xs.length = true)
    (h : YieldsP C Γ n₀ g ρ (fun e => P.body (ofArray xs) e) v) : Yields C Γ n₀ g ρ (cons (sym x) t) v := by
  have hself : x ≠ "self" := by rintro rfl; simp [pureForms] at hx
  refine yields_comb hg (hsh t) (yields_op hg hnk hself hρ fun s hi => hi.forms x hx) rfl ?_
  obtain ⟨n, h⟩ := h
  refine ⟨n + 1, fun K s e hh hi hs => ?_⟩
  have hP' : C.prims x = some P := (hi.forms x hx).isStd.trans hP
  simp only [apply, primApply, hP', hsp, hre, ht.length, ht.toArray, hc, Bool.false_and, Bool.not_true, Bool.false_eq_true, if_false, if_true]
  refine .get fun s' ho => ?_
  exact (h K s' e (hh.others ho) (implements_others hi ho hh.wf hg) (hs.others ho fun _ h => h)).weaken fun K' s'' a ⟨h1, h2, h3, h4⟩ =>
    ⟨h1, h2, h3, ho.trans h4⟩

end

inductive YieldsL (C : Conf) (Γ : Defs) (n₀ g : Nat) (ρ : Vars) : List Data → List Data → Prop where
  | nil : YieldsL C Γ n₀ g ρ [] []
  | cons {x v xs vs} : Yields C Γ n₀ g ρ x v → YieldsL C Γ n₀ g ρ xs vs → YieldsL C Γ n₀ g ρ (x :: xs) (v :: vs)

theorem YieldsL.length {xs vs : List Data} (h : YieldsL C Γ n₀ g ρ xs vs) : xs.length = vs.length := by
  induction h with
  | nil => rfl
  | cons _ _ ih => simp [ih]

section
variable (hg : g < n₀)
include hg

theorem yields_all {xs vs : List Data} (h : YieldsL C Γ n₀ g ρ xs vs) : YieldsP C Γ n₀ g ρ (fun e => evalAll e xs) vs := by
  induction h with
  | nil => exact yieldsP_pure
  | cons h1 _ ih => exact h1.eval.bind hg (F := fun v e => evalAll e _ >>= fun vs => pure (v :: vs)) (ih.bind hg (F := fun vs _ => pure (_ :: vs)) yieldsP_pure)

theorem yields_seq {x v : Data} (h : Yields C Γ n₀ g ρ x v) : YieldsP C Γ n₀ g ρ (fun e => evalSeq e [x] null) v :=
  h.eval.bind hg (F := fun v _ => pure v) yieldsP_pure

theorem yields_body {d x v : Data} (hd : Lst d [x]) (h : Yields C Γ n₀ g ρ x v) : YieldsP C Γ n₀ g ρ (fun e => evaluateBody d e) v := by
  simp only [evaluateBody, hd.toArray]
  exact yields_seq hg h

/-- A call of a primitive. -/
theorem yields_prim {x : String} (hx : ρ x = none) (hΓ : Γ x = none) {t v : Data} {xs vs : List Data} (ht : Lst t xs)
    (h : YieldsL C Γ n₀ g ρ xs vs) (hp : Primitive x vs v) : Yields C Γ n₀ g ρ (cons (sym x) t) v := by
  obtain ⟨hmem, P, hP, hsp, hre, hc, ⟨hnk, hsh⟩, hself, hrun⟩ := primitive_ok (C := C) hp
  refine yields_comb hg (hsh t) (yields_op hg hnk hself hx fun s hi => hi.prims x hmem hΓ) rfl ?_
  have key : YieldsP C Γ n₀ g ρ (fun e => evalAll e xs >>= fun vs => P.body (ofArray vs) e) v :=
    (yields_all hg h).bind hg (F := fun vs e => P.body (ofArray vs) e) (Plain.yields hrun)
  obtain ⟨n, key⟩ := key
  refine ⟨n + 1, fun K s e hh hi hs => ?_⟩
  have hP' : C.prims x = some P := (hi.prims x hmem hΓ).isStd.trans hP
  have hc' : Arity.checkArgumentCount (Arity.parseNumArgs P.args) xs.length = true := by rw [h.length]; exact hc
  simp only [apply, primApply, hP', hsp, hre, ht.length, ht.toArray, hc', Bool.false_and, Bool.not_true, Bool.false_eq_true, if_false]
  refine .get fun s' ho => ?_
  exact (key K s' e (hh.others ho) (implements_others hi ho hh.wf hg) (hs.others ho fun _ h => h)).weaken fun K' s'' a ⟨h1, h2, h3, h4⟩ =>
    ⟨h1, h2, h3, ho.trans h4⟩

end

/-- Evaluate and bind, one after the other. -/
def binding (le ae : Nat) : List (String × Data) → Prog Unit
  | [] => pure ()
  | (x, d) :: r => do
    let v ← Prog.eval d ae
    let _ ← Prog.op (.bind le x v)
    binding le ae r

theorem bindLoop_binding {le ae : Nat} {p : Data} {ps : List String} (hp : Params p ps none) : ∀ {xs : List Data}, ps.length = xs.length →
    bindLoop (fun a => Prog.eval a ae) le xs p none = binding le ae (ps.zip xs) := by
  generalize hr : (none : Option String) = rest at hp
  induction hp with
  | none h => intro xs hl; obtain rfl := List.length_eq_zero_iff.mp hl.symm; rfl
  | rest => cases hr
  | @cons p d ps rest hp ih =>
    subst hr
    intro xs hl
    cases xs with
    | nil => cases hl
    | cons x xs =>
      have hd : isSym d = false := by cases hp with
        | none h => cases h <;> rfl
        | cons => rfl
      simp only [bindLoop, car, cdr, stringValue, hd, Bool.false_eq_true, if_false, List.zip_cons_cons, binding, ih rfl (by simpa using hl)]

theorem bindAll_binding {le ae : Nat} {l : List Data} {ps : List String} {xs : List Data} (h : Pairs l ps xs) :
    bindAll ae le l = binding le ae (ps.zip xs) := by
  induction h with
  | nil => rfl
  | cons _ h2 h3 _ ih => simp only [bindAll, h2, h3, stringValue, List.zip_cons_cons, binding, ih]

/-- What a step of the thread leaves as it was, seen from before. -/
theorem Post.others {v : α} {a : α} (h : Post n₀ (Dependence Γ) K s v K' s' a) : Others n₀ (Dependence Γ) K s s' := h.2.2.2

section
variable (hg : g < n₀)
include hg

omit hg in
/-- One more variable in an environment of the thread. -/
theorem safe_bind {le : Nat} {r : EnvRec} {B : List (String × Data)} {p : String} {a : Data} (hle : le ∈ K) (hle₀ : le ∉ K₀) (hk : ∀ e ∈ K₀, e ∈ K) (hh : Holds n₀ K s)
    (hr : s.envs[le]? = some r) (hb : r.binds = binds B) :
    Safe (Ev.body C) n₀ (Dependence Γ) (fun K' s' _ => K' = K ∧ Holds n₀ K s' ∧ Others n₀ (Dependence Γ) K₀ s s' ∧
      s'.envs[le]? = some { r with binds := binds (B ++ [(p, a)]) }) 1 K s (Prog.op (.bind le p a)) := by
  refine safe_op (.inl hle) fun s₂ o2 => ?_
  have hr₂ := o2.own _ _ hle hr
  have hh₂ := hh.others o2
  have hrun : (Op.bind le p a).run s₂ = (.ok 0, s₂.putVal le p a) := by
    simp only [Op.run]
    cases hb' : s₂.localB le p with
    | none => rfl
    | some b =>
      have : b.prot = false := binds_prot (B := B) (x := p) (by simpa [Store.localB, hr₂, hb] using hb')
      simp [this]
  have hr₃ : (s₂.putVal le p a).envs[le]? = some { r with binds := binds (B ++ [(p, a)]) } := by
    rw [putVal_envs, if_pos rfl, hr₂]
    simp only [Option.map_some, EnvRec.put, binds_snoc, hb]
    congr 3
    cases ha : alGet (binds B) p with
    | none => rfl
    | some b => simp [binds_prot ha]
  have hw₃ : WF (s₂.putVal le p a) := by have := op_WF (.bind le p a) s₂ hh₂.wf; rwa [hrun] at this
  have o3 : Others n₀ (Dependence Γ) K₀ s₂ (s₂.putVal le p a) := by
    have := op_others (K := K₀) (J := [le]) (o := .bind le p a) (s := s₂) (n₀ := n₀) (N := Dependence Γ) (.inl (by simp))
      (fun e he => by obtain rfl : e = le := by simpa using he
                      exact ⟨(hh.own _ hle).1, hle₀⟩) (fun e he => (hh.own e (hk e he)).1)
    rwa [hrun] at this
  exact ⟨0, s₂.putVal le p a, hrun, rfl, ⟨hw₃, by rw [putVal_envs_len]; exact hh₂.base, fun e he => by rw [putVal_envs_len]; exact hh₂.own e he⟩,
    (o2.sub hk).trans o3, hr₃⟩

omit hg in
/-- `self`, if it is bound. -/
theorem safe_self {le ae : Nat} {r : EnvRec} {t : Store} {slot : Bool} (hle : le ∈ K) (hle₀ : le ∉ K₀) (hk : ∀ e ∈ K₀, e ∈ K) (hh : Holds n₀ K s)
    (hr : s.envs[le]? = some r) (hb : r.binds = binds []) :
    Safe (Ev.body C) n₀ (Dependence Γ) (fun K' s' _ => K' = K ∧ Holds n₀ K s' ∧ Others n₀ (Dependence Γ) K₀ s s' ∧
      ∃ B : List (String × Data), (∀ q ∈ B, q.1 = "self") ∧ s'.envs[le]? = some { r with binds := binds B }) 1 K s (bindSelf t slot none ae le) := by
  have none_ : Safe (Ev.body C) n₀ (Dependence Γ) (fun K' s' _ => K' = K ∧ Holds n₀ K s' ∧ Others n₀ (Dependence Γ) K₀ s s' ∧
      ∃ B : List (String × Data), (∀ q ∈ B, q.1 = "self") ∧ s'.envs[le]? = some { r with binds := binds B }) 1 K s (pure ()) :=
    .ret ⟨rfl, hh, .refl s, [], by simp, by rw [hr, ← hb]⟩
  simp only [bindSelf]
  cases slot with
  | false => exact none_
  | true =>
    simp only [if_true]
    cases t.localB ae "self" with
    | none => exact none_
    | some b =>
      refine Safe.bind (n := 1) (m := 0) ((safe_bind hle hle₀ hk hh hr hb).weaken ?_)
      rintro K' s' - ⟨h1, h2, h3, h4⟩
      exact .ret ⟨h1, h2, h3, [("self", b.val)], by simp, h4⟩

theorem safe_binding {xs vs : List Data} (h : YieldsL C Γ n₀ g ρ xs vs) : ∃ n, ∀ (ps : List String) (K₀ K : List Nat) (s : Store) (ae le : Nat) (B : List (String × Data)) (r : EnvRec),
    ps.length = xs.length → le ∈ K → le ∉ K₀ → (∀ e ∈ K₀, e ∈ K) → Holds n₀ K s → Implements C Γ s g → Scope K₀ s g ρ ae → s.envs[le]? = some r → r.binds = binds B →
    Safe (Ev.body C) n₀ (Dependence Γ) (fun K' s' _ => (∀ e ∈ K, e ∈ K') ∧ Holds n₀ K' s' ∧ Others n₀ (Dependence Γ) K₀ s s' ∧
      s'.envs[le]? = some { r with binds := binds (B ++ ps.zip vs) }) n K s (binding le ae (ps.zip xs)) := by
  induction h with
  | nil =>
    refine ⟨0, fun ps K₀ K s ae le B r hl _ _ _ hh _ _ hr hb => ?_⟩
    obtain rfl := List.length_eq_zero_iff.mp hl
    exact .ret ⟨fun _ h => h, hh, .refl s, by simp [hr, ← hb]⟩
  | @cons x v xs vs h1 _ ih =>
    obtain ⟨n, h1⟩ := h1.eval
    obtain ⟨m, ih⟩ := ih
    refine ⟨n + (1 + m), fun ps K₀ K s ae le B r hl hle hle₀ hk hh hi hs hr hb => ?_⟩
    cases ps with
    | nil => cases hl
    | cons p ps =>
      simp only [List.zip_cons_cons, binding]
      refine Safe.bind ((h1 K s ae hh hi (hs.others (n₀ := n₀) (N := Dependence Γ) (.refl s) hk)).weaken ?_)
      rintro K₁ s₁ a ⟨rfl, k1, hh₁, o1⟩
      have hk₁ : ∀ e ∈ K₀, e ∈ K₁ := fun e he => k1 e (hk e he)
      refine Safe.bind ((safe_bind (k1 _ hle) hle₀ hk₁ hh₁ (o1.own _ _ hle hr) hb).weaken ?_)
      rintro K₂ s₂ - ⟨rfl, hh₂, o2, hr₂⟩
      have o : Others n₀ (Dependence Γ) K₀ s s₂ := (o1.sub hk).trans o2
      refine (ih ps K₀ K₂ _ ae le (B ++ [(p, a)]) _ (by simpa using hl) (k1 _ hle) hle₀ hk₁ hh₂
        (implements_others hi o hh.wf hg) (hs.others o fun _ h => h) hr₂ rfl).weaken ?_
      rintro K' s' - ⟨a1, a2, a3, a4⟩
      exact ⟨fun e he => a1 e (k1 e he), a2, o.trans a3, by simpa using a4⟩

/-- The parameters are bound, then the body runs in the new environment. -/
theorem safe_block {xs vs : List Data} (h : YieldsL C Γ n₀ g ρ xs vs) {ps : List String} (hl : ps.length = xs.length) (hn : ps.Nodup) {b w : Data}
    (hb : Yields C Γ n₀ g (inner (varsOf ps vs) ρ') b w) : ∃ n, ∀ (F : Prog Data → Prog Data) (d : Data) (K₀ K : List Nat) (s : Store) (ae p le : Nat)
      (B : List (String × Data)) (r : EnvRec),
    (∀ {Q n K s p}, Safe (Ev.body C) n₀ (Dependence Γ) Q n K s p → Safe (Ev.body C) n₀ (Dependence Γ) Q n K s (F p)) → Lst d [b] →
    le ∈ K → le ∉ K₀ → (∀ e ∈ K₀, e ∈ K) → Holds n₀ K s → Implements C Γ s g → Scope K₀ s g ρ ae → Scope K₀ s g ρ' p →
    s.envs[le]? = some r → r.parent = some p → r.frame = none → r.binds = binds B → (∀ q ∈ B, q.1 = "self") →
    Safe (Ev.body C) n₀ (Dependence Γ) (fun K' s' a => a = w ∧ (∀ e ∈ K, e ∈ K') ∧ Holds n₀ K' s' ∧ Others n₀ (Dependence Γ) K₀ s s') n K s
      (binding le ae (ps.zip xs) >>= fun _ => F (evaluateBody d le)) := by
  obtain ⟨n, h⟩ := safe_binding hg h
  obtain ⟨m, hb⟩ := yields_seq hg hb
  refine ⟨n + m, fun F d K₀ K s ae p le B r hF hd hle hle₀ hk hh hi hs hs' hr hp hf hB hB' =>
    Safe.bind ((h ps K₀ K s ae le B r hl hle hle₀ hk hh hi hs hr hB).weaken ?_)⟩
  rintro K₁ s₁ - ⟨k1, hh₁, o1, hr₁⟩
  have hk₁ : ∀ e ∈ K₀, e ∈ K₁ := fun e he => k1 e (hk e he)
  simp only [evaluateBody, hd.toArray]
  refine hF ((hb K₁ s₁ le hh₁ (implements_others hi o1 hh.wf hg) ?_).weaken ?_)
  · refine .child (hs'.others o1 hk₁) (k1 _ hle) (by simp [Store.parentOf, hr₁, hp]) (by simp [Store.frameOf, hr₁, hf]) fun x hx => ?_
    simp only [Store.localB, hr₁]
    exact alGet_params hn vs hB' hx
  · rintro K' s' a ⟨a1, a2, a3, a4⟩
    exact ⟨a1, fun e he => a2 e (k1 e he), a3, o1.trans (a4.sub hk₁)⟩

omit hg in
/-- A new environment. -/
theorem safe_newEnv {p : Nat} {name : String} {n : Nat} {k : Nat → Prog α} {Q : List Nat → Store → α → Prop} (hh : Holds n₀ K s)
    (hp : ∀ s', Others n₀ (Dependence Γ) K s s' → ∃ pr, s'.envs[p]? = some pr)
    (h : ∀ s' pr, Others n₀ (Dependence Γ) K s s' → s'.envs[p]? = some pr → Others n₀ (Dependence Γ) K s (pushEnv s' p pr none name []) →
      Holds n₀ (s'.envs.length :: K) (pushEnv s' p pr none name []) → s'.envs.length ∉ K →
      Safe (Ev.body C) n₀ (Dependence Γ) Q n (s'.envs.length :: K) (pushEnv s' p pr none name []) (k s'.envs.length)) :
    Safe (Ev.body C) n₀ (Dependence Γ) Q (1 + n) K s (Prog.op (.newEnv p none name) >>= k) := by
  refine Safe.bind (safe_op trivial fun s' ho => ?_)
  obtain ⟨pr, hpr⟩ := hp s' ho
  have hh' := hh.others ho
  have hrun := newEnv_run (f := none) (name := name) hpr
  have o1 : Others n₀ (Dependence Γ) K s' (pushEnv s' p pr none name []) := by
    have := op_others (K := K) (J := []) (o := .newEnv p none name) (s := s') (n₀ := n₀) (N := Dependence Γ) trivial (by simp) fun e he => (hh'.own e he).1
    rwa [hrun] at this
  refine ⟨_, _, hrun, h s' pr ho hpr (ho.trans o1) ⟨pushEnv_WF hh'.wf hpr _ _ _, Nat.le_trans hh'.base o1.more, fun e he => ?_⟩ fun hm => ?_⟩
  · rcases List.mem_cons.mp he with rfl | he
    · exact ⟨hh'.base, by simp [pushEnv]⟩
    · exact ⟨(hh'.own e he).1, Nat.lt_of_lt_of_le (hh'.own e he).2 o1.more⟩
  · exact absurd (hh'.own _ hm).2 (by omega)

/-- `let`. -/
theorem yields_let {t bd b w : Data} {ps : List String} {inits vs : List Data} (hρ : ρ "let" = none) (ht : Lst t [bd, b]) (hbd : LetBindings bd ps inits)
    (hne : ps ≠ []) (hbn : b ≠ .null) (hn : ps.Nodup) (h : YieldsL C Γ n₀ g ρ inits vs) (hb : Yields C Γ n₀ g (inner (varsOf ps vs) ρ) b w) :
    Yields C Γ n₀ g ρ (cons (sym "let") t) w := by
  have hl : ps.length = inits.length := by
    clear hne hn h hb ht
    induction hbd with
    | nil => rfl
    | cons _ _ ih => simp [ih]
  refine yields_form hg (P := ⟨">=1".toList, true, false, letImpl⟩) (by simp [pureForms]) hρ rfl (fun _ => rfl) rfl rfl rfl ht (count_ge1 (by simp)) ?_
  have hnull : Data.null ∉ [bd, b] := by
    rintro (_ | ⟨_, h⟩)
    · cases hbd; exact absurd rfl hne
    · cases h with
      | head => exact hbn rfl
      | tail _ h => cases h
  have hargs := lst_args hnull
  have hcar : car (ofArray [bd, b]) = bd := by rw [car_Lst hargs]; rfl
  have hcdr : Lst (cdr (ofArray [bd, b])) [b] := cdr_Lst hargs
  have hbp : isPair bd = true := hbd.isPair fun k hk => by subst hk; cases hbd; exact absurd rfl hne
  have hbs : isSym bd = false := by cases hbd with
    | nil => exact absurd rfl hne
    | cons => rfl
  obtain ⟨n, hblock⟩ := safe_block hg h hl hn hb
  refine ⟨1 + n, fun K s e hh hi hs => ?_⟩
  simp only [letImpl, hcar, hbs, Bool.false_eq_true, if_false, letCommon, hbp, Bool.not_true, Bool.or_self, bindLetLocals, runsP_check_plain hbd.pairs,
    bindAll_binding hbd.pairs]
  refine safe_newEnv hh (fun s' ho => ?_) fun s' pr ho hpr o1 hh1 hnew => ?_
  · obtain ⟨r, hr, -⟩ := (implements_others hi ho hh.wf hg).exists_
    exact (hs.others ho fun _ h => h).inside.env ⟨r, hr⟩
  · have hi' := implements_others hi ho hh.wf hg
    have hs' := hs.others ho (K' := K) fun _ h => h
    have hi1 := implements_others hi o1 hh.wf hg
    have hs1 := hs.others o1 (K' := K) fun _ h => h
    refine (hblock id _ K _ _ e e s'.envs.length [] _ (fun h => h) hcdr (by simp) hnew (fun e he => by simp [he]) hh1 hi1 hs1 hs1 (pushEnv_top _ _ _ _ _ _) rfl ?_ rfl (by simp)).weaken ?_
    · have := frame_of hi' hs'
      simpa [Store.frameOf, hpr] using this
    · rintro K' s'' a ⟨a1, a2, a3, a4⟩
      exact ⟨a1, fun e he => a2 e (by simp [he]), a3, o1.trans a4⟩

/-- A call of a function of the program. -/
theorem yields_call {f : String} {D : Defn} (hx : ρ f = none) (hΓ : Γ f = some D) {t v : Data} {xs vs : List Data} (ht : Lst t xs)
    (h : YieldsL C Γ n₀ g ρ xs vs) (hl : vs.length = D.params.length) (hb : Yields C Γ n₀ g (varsOf D.params vs) D.body v) :
    Yields C Γ n₀ g ρ (cons (sym f) t) v := by
  have hin : varsOf D.params vs = inner (varsOf D.params vs) noVars := by funext x; simp [inner, noVars]
  rw [hin] at hb
  have hlen : D.params.length = xs.length := by rw [← hl, h.length]
  by_cases hnd : D.params.Nodup
  · obtain ⟨n, hblock⟩ := safe_block hg h hlen hnd hb
    refine ⟨2 + 1 + (1 + (1 + (1 + (1 + n)))), fun K s e hh hi hs => ?_⟩
    obtain ⟨hself, ⟨hnk, hsh⟩, -⟩ := hi.names f D hΓ
    obtain ⟨i, fr, k, p, hv, hfr, henv, hps, hbd⟩ := hi.functions f D hΓ
    refine safe_comb (hsh t) ?_
    simp only [Ev.body, evalHelper, hnk, Bool.false_eq_true, if_false]
    refine (safe_valueOf (v := .atom (.func i)) (n := 1)
      (Q := fun K' s' fn => fn = .atom (.func i) ∧ K' = K ∧ Others n₀ (Dependence Γ) K s s') fun s₁ o1 => ?_).weaken ?_
    · have hi₁ := implements_others hi o1 hh.wf hg
      have hs₁ := hs.others o1 (K' := K) fun _ h => h
      refine ⟨o1.wf hh.wf, frame_of hi₁ hs₁, ⟨k, p, hs₁.inside.global hself hx (o1.visible hh.wf hg (.inr (.inr (by simp [hΓ]))) hv)⟩, fun b => ?_⟩
      refine Safe.bind (n := 1) (m := 0) (safe_op trivial fun s₂ o2 => ?_)
      have o12 := o1.trans o2
      obtain ⟨b', hb'⟩ := o12.fns i fr hfr
      obtain ⟨s₃, h3, -, -⟩ := flag_quiet hb' b
      have o3 : Others n₀ (Dependence Γ) K s₂ s₃ := by
        have := op_others (K := K) (J := []) (o := .flag i b) (s := s₂) (n₀ := n₀) (N := Dependence Γ) trivial (by simp) fun e he => (hh.own e he).1
        rwa [h3] at this
      exact ⟨0, s₃, h3, .ret ⟨rfl, rfl, o12.trans o3⟩⟩
    · rintro K₁ s₁ fn ⟨rfl, rfl, o1⟩
      refine ⟨rfl, ?_⟩
      have hh₁ := hh.others o1
      simp only [apply]
      rw [Nat.add_comm 1]
      refine .get fun s₂ o2 => ?_
      have o12 := o1.trans o2
      have hframe : callFrame s₂ i e = none := by
        simp only [callFrame, frame_of (implements_others hi o12 hh.wf hg) (hs.others o12 (K' := K₁) fun _ h => h)]
        repeat' split
        all_goals rfl
      rw [hframe, Nat.add_comm 1]
      refine .get fun s₃ o3 => ?_
      have o13 := o12.trans o3
      obtain ⟨b, hb₃⟩ := o13.fns i fr hfr
      simp only [hb₃]
      refine safe_newEnv (hh.others o13) (fun s' ho => ?_) fun s₄ pr o4 hpr o5 hh5 hnew => ?_
      · obtain ⟨r, hr, -⟩ := (implements_others hi (o13.trans ho) hh.wf hg).exists_
        exact ⟨r, henv ▸ hr⟩
      · have o := o13.trans o5
        have hi₄ := implements_others hi (o13.trans o4) hh.wf hg
        have hfr₄ : (pr.frame : Option Nat) = none := by
          obtain ⟨r, hr, hf⟩ := hi₄.exists_
          rw [henv, hr] at hpr; cases hpr; exact hf
        refine Safe.bind (n := 1) (m := n) ((safe_self (K₀ := K₁) (by simp) hnew (fun e he => by simp [he]) hh5 (pushEnv_top _ _ _ _ _ _)
          (show _ = binds [] from rfl)).weaken ?_)
        rintro K₂ s₅ - ⟨rfl, hh₅, o6, B, hB, hr₅⟩
        have o' := o.trans o6
        have hi₅ := implements_others hi o' hh.wf hg
        have hcount : countOk fr.params (length t) = true := (countOk_iff hps _).mpr (by simp only [Fits]; rw [ht.length, hlen])
        simp only [makeLocalBindings, hcount, if_true, ht.toArray, bindLoop_binding hps hlen]
        refine (hblock (inFn fr.name) _ K₁ _ _ e g s₄.envs.length B _ (fun h => Safe.attempt (m := 0) (h.weaken fun K'' s'' a ha => .ret ha)) hbd (by simp) hnew
          (fun e he => by simp [he]) hh₅ hi₅ (hs.others o' fun _ h => h) .top hr₅ (by simp [henv]) hfr₄ rfl hB).weaken ?_
        rintro K' s' a ⟨a1, a2, a3, a4⟩
        exact ⟨a1, fun e he => a2 e (by simp [he]), a3, o'.trans a4⟩
  · exact ⟨0, fun K s e _ hi _ => absurd (hi.names f D hΓ).2.2 hnd⟩

end

/-! ### Every expression of the language -/

/-- The loop of `cond`, `and` and `or`. -/
def loopOf (x : String) (xs : List Data) (v : Data) (e : Nat) : Prog Data :=
  if x = "cond" then condLoop e xs else if x = "and" then andLoop e xs null else if x = "or" then orLoop e xs null else pure v

/-- The value of an expression, and of the clauses of one that is a `cond`, an `and` or an `or`. -/
structure Core (C : Conf) (Γ : Defs) (n₀ g : Nat) (ρ : Vars) (d v : Data) : Prop where
  yields : Yields C Γ n₀ g ρ d v
  loop : ∀ x t xs, d = cons (sym x) t → Lst t xs → YieldsP C Γ n₀ g ρ (loopOf x xs v) v

theorem Core.other {d v : Data} (h : Yields C Γ n₀ g ρ d v) (hd : ∀ x t, d = cons (sym x) t → x ≠ "cond" ∧ x ≠ "and" ∧ x ≠ "or") : Core C Γ n₀ g ρ d v := by
  refine ⟨h, fun x t xs he _ => ?_⟩
  obtain ⟨h1, h2, h3⟩ := hd x t he
  unfold loopOf
  simp only [h1, h2, h3, if_false]
  exact yieldsP_pure

theorem undefined (hi : Implements C Γ s g) {x : String} (hx : x ∈ pureForms) : Γ x = none := by
  cases h : Γ x with
  | none => rfl
  | some D =>
    obtain ⟨i, _, k, p, hv, -⟩ := hi.functions x D h
    obtain ⟨⟨f, q, hv'⟩, -, -⟩ := hi.forms x hx
    have := (hv.unique hv').2
    cases this

theorem Core.call {x : String} {t v : Data} {D : Defn} (h : Yields C Γ n₀ g ρ (cons (sym x) t) v) (hΓ : Γ x = some D) : Core C Γ n₀ g ρ (cons (sym x) t) v := by
  refine ⟨h, fun y t' xs he _ => ?_⟩
  obtain ⟨rfl, rfl⟩ : x = y ∧ t = t' := by simpa using he
  by_cases hx : x ∈ pureForms
  · exact ⟨0, fun K s e _ hi _ => by rw [undefined hi hx] at hΓ; cases hΓ⟩
  · have h1 : x ≠ "cond" := by rintro rfl; exact hx (by simp [pureForms])
    have h2 : x ≠ "and" := by rintro rfl; exact hx (by simp [pureForms])
    have h3 : x ≠ "or" := by rintro rfl; exact hx (by simp [pureForms])
    unfold loopOf
    simp only [h1, h2, h3, if_false]
    exact yieldsP_pure

section
variable (hg : g < n₀)
include hg

theorem Core.cond {t v : Data} {cls : List Data} (hρ : ρ "cond" = none) (ht : Lst t cls) (hn : Data.null ∉ cls)
    (h : YieldsP C Γ n₀ g ρ (fun e => condLoop e cls) v) : Core C Γ n₀ g ρ (cons (sym "cond") t) v := by
  refine ⟨?_, fun x t' xs he hl => ?_⟩
  · refine yields_form hg (P := ⟨"*".toList, true, false, condImpl⟩) (by simp [pureForms]) hρ rfl (fun _ => rfl) rfl rfl rfl ht (by rfl) ?_
    simp only [condImpl, (lst_args hn).toArray]
    exact h
  · obtain ⟨rfl, rfl⟩ : "cond" = x ∧ t = t' := by simpa using he
    rw [hl.unique ht]
    exact h

theorem Core.and {t x v : Data} {xs : List Data} (hρ : ρ "and" = none) (ht : Lst t (x :: xs)) (hn : Data.null ∉ x :: xs)
    (h : YieldsP C Γ n₀ g ρ (fun e => andLoop e (x :: xs) null) v) : Core C Γ n₀ g ρ (cons (sym "and") t) v := by
  refine ⟨?_, fun x t' xs he hl => ?_⟩
  · refine yields_form hg (P := ⟨"*".toList, true, false, andImpl⟩) (by simp [pureForms]) hρ rfl (fun _ => rfl) rfl rfl rfl ht (by rfl) ?_
    simp only [andImpl, (lst_args hn).toArray]
    exact h
  · obtain ⟨rfl, rfl⟩ : "and" = x ∧ t = t' := by simpa using he
    rw [hl.unique ht]
    exact h

theorem Core.or {t x v : Data} {xs : List Data} (hρ : ρ "or" = none) (ht : Lst t (x :: xs)) (hn : Data.null ∉ x :: xs)
    (h : YieldsP C Γ n₀ g ρ (fun e => orLoop e (x :: xs) null) v) : Core C Γ n₀ g ρ (cons (sym "or") t) v := by
  refine ⟨?_, fun x t' xs he hl => ?_⟩
  · refine yields_form hg (P := ⟨"*".toList, true, false, orImpl⟩) (by simp [pureForms]) hρ rfl (fun _ => rfl) rfl rfl rfl ht (by rfl) ?_
    simp only [orImpl, (lst_args hn).toArray]
    exact h
  · obtain ⟨rfl, rfl⟩ : "or" = x ∧ t = t' := by simpa using he
    rw [hl.unique ht]
    exact h

omit hg in
private theorem clauses_null {cls : List Data} {c bd : Data} (hc : Clauses cls) : Data.null ∉ cons c bd :: cls := by
  rintro (_ | ⟨_, h⟩)
  obtain ⟨_, _, _, h, _⟩ := hc _ h
  cases h

private theorem yields_if {t c a b v w : Data} (hρ : ρ "if" = none) (ht : Lst t [c, a, b]) (hn : Data.null ∉ [c, a, b]) (h1 : Yields C Γ n₀ g ρ c v)
    (h2 : Yields C Γ n₀ g ρ (if boolValue v then a else b) w) : Yields C Γ n₀ g ρ (cons (sym "if") t) w := by
  refine yields_form hg (P := ⟨"2|3".toList, true, false, ifImpl⟩) (by simp [pureForms]) hρ rfl (fun _ => rfl) rfl rfl rfl ht (by rfl) ?_
  have hl := lst_args hn
  have n2 : nth (ofArray [c, a, b]) 2 = a := by rw [nth_spec hl]; simp
  have n3 : nth (ofArray [c, a, b]) 3 = b := by rw [nth_spec hl]; simp
  have n1 : car (ofArray [c, a, b]) = c := by rw [car_Lst hl]; simp
  simp only [ifImpl, n1, n2, n3]
  refine h1.eval.bind hg (F := fun c e => if boolValue c = true then Prog.eval a e else Prog.eval b e) ?_
  cases hv : boolValue v with
  | true => simp only [hv, if_true] at h2 ⊢; exact h2.eval
  | false => simp only [hv, Bool.false_eq_true, if_false] at h2 ⊢; exact h2.eval

omit hg in
private theorem else_ne {c : Data} (h : c ≠ sym "else") : @isEqual .none c (sym "else") = false :=
  Bool.eq_false_iff.mpr fun h' => h ((@isEqual_sym .none _ _).mp h')

omit hg in
private theorem yields_const {a : Atom} (ha : ∀ x, a ≠ .sym x) : Yields C Γ n₀ g ρ (.atom a) (.atom a) := by
  refine ⟨0, fun K s e hh _ _ => ?_⟩
  cases a <;> first | exact .ret (post_refl hh) | exact absurd rfl (ha _)

mutual
theorem core {d v : Data} {ρ : Vars} (h : Value Γ ρ d v) : Core C Γ n₀ g ρ d v := by
  match h with
  | .const ha => exact .other (yields_const ha) (by simp)
  | .var hx hs hk hf =>
    refine .other (yields_name hg hk ?_ fun K s e hi hsc => hsc.inside.var hs hx) (by simp)
    cases v with
    | atom a => cases a <;> first | rfl | exact absurd rfl (hf _)
    | _ => rfl
  | .quote hq ht hd =>
    refine .other (yields_form hg (P := ⟨"1".toList, true, false, quoteImpl⟩) (by simp [pureForms]) hq rfl (fun _ => rfl) rfl rfl rfl ht (by rfl) ?_)
      (by rintro x t he; obtain ⟨rfl, -⟩ : "quote" = x ∧ _ = t := by simpa using he
          decide)
    have : noNull (car (ofArray [v])) = v := by cases v <;> first | rfl | exact absurd rfl hd
    show YieldsP C Γ n₀ g ρ (fun e => pure (noNull (car (ofArray [v])))) v
    rw [this]
    exact yieldsP_pure
  | .ifTrue hq ht hn h1 hv h2 =>
    refine .other (yields_if hg hq ht hn (core h1).yields (by rw [(boolValue_iff _).mpr hv]; exact (core h2).yields)) ?_
    rintro x t he; obtain ⟨rfl, -⟩ : "if" = x ∧ _ = t := by simpa using he
    decide
  | .ifFalse hq ht hn h1 hv h2 =>
    refine .other (yields_if hg hq ht hn (core h1).yields (by rw [if_neg (fun h => hv ((boolValue_iff _).mp h))]; exact (core h2).yields)) ?_
    rintro x t he; obtain ⟨rfl, -⟩ : "if" = x ∧ _ = t := by simpa using he
    decide
  | .condElse hq ht hc hb h1 =>
    refine .cond hg hq ht (clauses_null hc) ?_
    have he : @isEqual .none (sym "else") (sym "else") = true := (@isEqual_sym .none _ _).mpr rfl
    simp only [condLoop, isPair, car, cdr, Bool.not_true, Bool.false_eq_true, if_false, he, if_true]
    exact yields_body hg hb (core h1).yields
  | .condHit hq ht hc hne hb h1 hv h2 =>
    refine .cond hg hq ht (clauses_null hc) ?_
    simp only [condLoop, isPair, car, cdr, Bool.not_true, Bool.false_eq_true, if_false, else_ne hne]
    refine (core h1).yields.eval.bind hg (F := fun c e => if boolValue c = true then evaluateBody _ e else condLoop e _) ?_
    simp only [(boolValue_iff _).mpr hv, if_true]
    exact yields_body hg hb (core h2).yields
  | .condMiss hq ht hc hne hb h1 hv ht' h2 =>
    refine .cond hg hq ht (clauses_null hc) ?_
    simp only [condLoop, isPair, car, cdr, Bool.not_true, Bool.false_eq_true, if_false, else_ne hne]
    refine (core h1).yields.eval.bind hg (F := fun c e => if boolValue c = true then evaluateBody _ e else condLoop e _) ?_
    simp only [show boolValue _ = false from Bool.eq_false_iff.mpr fun h => hv ((boolValue_iff _).mp h), Bool.false_eq_true, if_false]
    exact (core h2).loop "cond" _ _ rfl ht'
  | .andLast hq ht hn h1 =>
    refine .and hg hq ht (by simpa using Ne.symm hn) ?_
    simp only [andLoop]
    refine (core h1).yields.eval.bind hg (F := fun v e => if (!boolValue v) = true then pure v else pure v) ?_
    simp only [ite_self]
    exact yieldsP_pure
  | .andFalse hq ht hn h1 hv =>
    refine .and hg hq ht hn ?_
    simp only [andLoop]
    refine (core h1).yields.eval.bind hg (F := fun v e => if (!boolValue v) = true then pure v else andLoop e _ v) ?_
    simp only [show boolValue _ = false from Bool.eq_false_iff.mpr fun h => hv ((boolValue_iff _).mp h), Bool.not_false, if_true]
    exact yieldsP_pure
  | .andTrue hq ht hn h1 hv ht' h2 =>
    refine .and hg hq ht hn ?_
    rw [show andLoop = fun e xs r => andLoop e xs r from rfl]
    refine (core h1).yields.eval.bind hg (F := fun v e => if (!boolValue v) = true then pure v else andLoop e _ v) ?_
    simp only [(boolValue_iff _).mpr hv, Bool.not_true, Bool.false_eq_true, if_false]
    exact (core h2).loop "and" _ _ rfl ht'
  | .orLast hq ht hn h1 =>
    refine .or hg hq ht (by simpa using Ne.symm hn) ?_
    simp only [orLoop]
    refine (core h1).yields.eval.bind hg (F := fun v e => if boolValue v = true then pure v else pure v) ?_
    simp only [ite_self]
    exact yieldsP_pure
  | .orTrue hq ht hn h1 hv =>
    refine .or hg hq ht hn ?_
    simp only [orLoop]
    refine (core h1).yields.eval.bind hg (F := fun v e => if boolValue v = true then pure v else orLoop e _ v) ?_
    simp only [(boolValue_iff _).mpr hv, if_true]
    exact yieldsP_pure
  | .orFalse hq ht hn h1 hv ht' h2 =>
    refine .or hg hq ht hn ?_
    refine (core h1).yields.eval.bind hg (F := fun v e => if boolValue v = true then pure v else orLoop e _ v) ?_
    simp only [show boolValue _ = false from Bool.eq_false_iff.mpr fun h => hv ((boolValue_iff _).mp h), Bool.false_eq_true, if_false]
    exact (core h2).loop "or" _ _ rfl ht'
  | .letIn hq ht hbd hne hb hnd h1 h2 =>
    refine .other (yields_let hg hq ht hbd hne hb hnd (cores h1) (core h2).yields) ?_
    rintro x t he; obtain ⟨rfl, -⟩ : "let" = x ∧ _ = t := by simpa using he
    decide
  | .prim hx hΓ ht h1 hp =>
    refine .other (yields_prim hg hx hΓ ht (cores h1) hp) ?_
    obtain ⟨hmem, -⟩ := primitive_ok (C := C) hp
    rintro x t he; obtain ⟨rfl, -⟩ := (by simpa using he : _ = x ∧ _ = t)
    refine ⟨?_, ?_, ?_⟩ <;> (rintro rfl; simp [purePrims] at hmem)
  | .call hx hΓ ht h1 hl h2 => exact .call (yields_call hg hx hΓ ht (cores h1) hl (core h2).yields) hΓ
theorem cores {xs vs : List Data} {ρ : Vars} (h : Values Γ ρ xs vs) : YieldsL C Γ n₀ g ρ xs vs := by
  match h with
  | .nil => exact .nil
  | .cons h1 h2 => exact .cons (core h1).yields (cores h2)
end

end

end Golisp.Ev.Rely
