import Verif.FunSpec
import Verif.PureLemmas
import Verif.ApplyLemmas
import Verif.Props.Procedures
/-
Lemmas for C88.  While a call is being prepared its new environment gets its bindings one by one; `RepK K` and `HeldK K` say
that a value and the variables do not involve the environments in `K`, so that they survive this.
-/
namespace Golisp.Fun
open Golisp Data Ev Spec Props

variable {C : Conf} {Γ : Defs} {ρ : Env} {s s' s₁ s₂ : Store} {g e : Nat} {K : Nat → Prop}

/-! ### Calm runs -/

theorem Calm.refl (s : Store) : Calm s s := ⟨⟨[], by simp⟩, fun _ fr h => ⟨fr.slot, h⟩, rfl, rfl, rfl, rfl, rfl, rfl, rfl⟩

theorem Calm.trans (h : Calm s s₁) (h' : Calm s₁ s₂) : Calm s s₂ := by
  obtain ⟨⟨m, hm⟩, hf, h1, h2, h3, h4, h5, h6, h7⟩ := h
  obtain ⟨⟨m', hm'⟩, hf', h1', h2', h3', h4', h5', h6', h7'⟩ := h'
  refine ⟨⟨m ++ m', by rw [hm', hm, List.append_assoc]⟩, fun i fr h => ?_, h1'.trans h1, h2'.trans h2, h3'.trans h3,
    h4'.trans h4, h5'.trans h5, h6'.trans h6, h7'.trans h7⟩
  obtain ⟨b, hb⟩ := hf i fr h
  obtain ⟨b', hb'⟩ := hf' i _ hb
  exact ⟨b', hb'⟩

theorem Calm.of (h : Quiet s s') : Calm s s' := ⟨h.envs, h.fns.2, h.rest⟩

theorem Calm.env (h : Calm s s') {r : EnvRec} (hr : s.envs[e]? = some r) : s'.envs[e]? = some r := by
  obtain ⟨m, hm⟩ := h.envs
  rw [hm]; exact getElem?_append_of_some hr m

theorem Calm.le (h : Calm s s') : s.envs.length ≤ s'.envs.length := by
  obtain ⟨m, hm⟩ := h.envs
  rw [hm]; simp

theorem Calm.localB (h : Calm s s') {r : EnvRec} (hr : s.envs[e]? = some r) (x : String) : s'.localB e x = s.localB e x := by
  simp only [Store.localB, hr, h.env hr]

theorem Calm.parentOf (h : Calm s s') {p : Nat} (hp : s.parentOf e = some p) : s'.parentOf e = some p := by
  obtain ⟨r, hr, hrp⟩ := parentOf_some hp
  simp only [Store.parentOf, h.env hr, hrp]

theorem Calm.frameOf (h : Calm s s') {r : EnvRec} (hr : s.envs[e]? = some r) : s'.frameOf e = s.frameOf e := by
  simp only [Store.frameOf, hr, h.env hr]

theorem Calm.visible (h : Calm s s') {x : String} {f : Nat} {b : Binding} (hv : Visible s e x f b) : Visible s' e x f b := by
  induction hv with
  | here hb =>
    obtain ⟨r, hr⟩ := localB_some hb
    exact .here (by rw [h.localB hr]; exact hb)
  | up hn hp _ ih =>
    obtain ⟨r, hr, _⟩ := parentOf_some hp
    exact .up (by rw [h.localB hr]; exact hn) (h.parentOf hp) ih

theorem means_calm (h : Calm s s') {x : String} {r : EnvRec} (hr : s.envs[e]? = some r) (hf : r.frame = none) (hm : Means C s e x) : Means C s' e x := by
  obtain ⟨⟨f, p, hv⟩, _, hs⟩ := hm
  exact ⟨⟨f, p, h.visible hv⟩, fun _ => noSlot_of (by simp [Store.frameOf, h.env hr, hf]) x, hs⟩

theorem Implements.calm (hi : Implements C Γ s g) (h : Calm s s') : Implements C Γ s' g := by
  obtain ⟨r, hr, hf⟩ := hi.exists_
  refine ⟨⟨⟨r, h.env hr, hf⟩, fun x hx => means_calm h hr hf (hi.forms x hx), fun x hx hg => means_calm h hr hf (hi.prims x hx hg), hi.names,
    fun f D hD => ?_⟩, hi.table, fun x hx => means_calm h hr hf (hi.moreForms x hx), fun x hx hg => means_calm h hr hf (hi.morePrims x hx hg)⟩
  obtain ⟨i, fr, k, p, h1, h2, h3, h4, h5⟩ := hi.functions f D hD
  obtain ⟨b, hb⟩ := h.fns i fr h2
  exact ⟨i, _, k, p, h.visible h1, hb, h3, h4, h5⟩

theorem Implements.noFrame (h : Implements C Γ s g) : s.frameOf g = none := by
  obtain ⟨r, hr, hf⟩ := h.exists_
  simp [Store.frameOf, hr, hf]

/-! ### Values and variables -/

mutual
inductive RepK (s : Store) (g : Nat) (K : Nat → Prop) : Val → Data → Prop where
  | const {a} : Plain a → RepK s g K (.const a) (.atom a)
  | nil {d} : Empty d → RepK s g K .nil d
  | pair {v w x y} : x ≠ .null → RepK s g K v x → RepK s g K w y → RepK s g K (.pair v w) (.cons x y)
  | builtin {x} : RepK s g K (.builtin x) (.atom (.prim x))
  | closure {ps b ρ i fr} : s.fns[i]? = some fr → Params fr.params ps none → ps.Nodup → Lst fr.body [b] → HeldK s g K ρ fr.env →
      RepK s g K (.closure ps b ρ) (.atom (.func i))
inductive HeldK (s : Store) (g : Nat) (K : Nat → Prop) : Env → Nat → Prop where
  | top : HeldK s g K [] g
  | child {new ρ p e} (at_ : String → Data) : ¬ K e → HeldK s g K ρ p → s.parentOf e = some p → s.frameOf e = none →
      (∀ x, x ≠ "self" → s.localB e x = (new.lookup x).map fun _ => ⟨at_ x, false⟩) →
      (∀ x v, new.lookup x = some v → RepK s g K v (at_ x)) → HeldK s g K (new ++ ρ) e
end

mutual
theorem RepK.toRep {v : Val} {d : Data} (h : RepK s g K v d) : Rep s g v d := by
  match h with
  | .const h => exact .const h
  | .nil h => exact .nil h
  | .pair h h1 h2 => exact .pair h h1.toRep h2.toRep
  | .builtin => exact .builtin
  | .closure h1 h2 h3 h4 h5 => exact .closure h1 h2 h3 h4 h5.toHeld
theorem HeldK.toHeld {ρ : Env} {e : Nat} (h : HeldK s g K ρ e) : Held s g ρ e := by
  match h with
  | .top => exact .top
  | .child at_ _ h1 h2 h3 h4 h5 => exact .child at_ h1.toHeld h2 h3 h4 fun x v hx => (h5 x v hx).toRep
end

mutual
theorem Rep.toK {v : Val} {d : Data} (h : Rep s g v d) : RepK s g (fun _ => False) v d := by
  match h with
  | .const h => exact .const h
  | .nil h => exact .nil h
  | .pair h h1 h2 => exact .pair h h1.toK h2.toK
  | .builtin => exact .builtin
  | .closure h1 h2 h3 h4 h5 => exact .closure h1 h2 h3 h4 h5.toK
theorem Held.toK {ρ : Env} {e : Nat} (h : Held s g ρ e) : HeldK s g (fun _ => False) ρ e := by
  match h with
  | .top => exact .top
  | .child at_ h1 h2 h3 h4 h5 => exact .child at_ id h1.toK h2 h3 h4 fun x v hx => (h5 x v hx).toK
end

/-- From `s` to `s'` nothing has changed outside `K`. -/
structure Keeps (K : Nat → Prop) (s s' : Store) : Prop where
  envs : ∀ (e : Nat) (r : EnvRec), ¬ K e → s.envs[e]? = some r → s'.envs[e]? = some r
  fns : ∀ (i : Nat) (fr : FnRec), s.fns[i]? = some fr → ∃ b, s'.fns[i]? = some { fr with slot := b }

theorem Calm.keeps (h : Calm s s') (K : Nat → Prop) : Keeps K s s' := ⟨fun _ _ _ hr => h.env hr, h.fns⟩

theorem keeps_putVal {le : Nat} (h : K le) (x : String) (v : Data) : Keeps K s (s.putVal le x v) := by
  refine ⟨fun e r he hr => ?_, fun i fr hi => ⟨fr.slot, by rw [(putVal_rest ..).1]; exact hi⟩⟩
  rw [putVal_envs, if_neg (by rintro rfl; exact he h)]
  exact hr

mutual
/-- Values and variables that do not involve `K` are kept by changes inside `K`; and `K` may change in places that do not
exist yet. -/
theorem RepK.keep {K' : Nat → Prop} (hk : Keeps K s s') (hK : ∀ k, k < s.envs.length → K' k → K k) {v : Val} {d : Data} (h : RepK s g K v d) :
    RepK s' g K' v d := by
  match h with
  | .const h => exact .const h
  | .nil h => exact .nil h
  | .pair h h1 h2 => exact .pair h (h1.keep hk hK) (h2.keep hk hK)
  | .builtin => exact .builtin
  | .closure h1 h2 h3 h4 h5 =>
    obtain ⟨b, hb⟩ := hk.fns _ _ h1
    exact .closure hb h2 h3 h4 (h5.keep hk hK)
theorem HeldK.keep {K' : Nat → Prop} (hk : Keeps K s s') (hK : ∀ k, k < s.envs.length → K' k → K k) {ρ : Env} {e : Nat} (h : HeldK s g K ρ e) :
    HeldK s' g K' ρ e := by
  match h with
  | .top => exact .top
  | .child at_ h0 h1 h2 h3 h4 h5 =>
    obtain ⟨r, hr, hp⟩ := parentOf_some h2
    have hr' := hk.envs _ _ h0 hr
    refine .child at_ (fun h => h0 (hK _ (List.getElem?_eq_some_iff.mp hr).1 h)) (h1.keep hk hK) (by simp only [Store.parentOf, hr', hp]) ?_ (fun x hx => ?_)
      fun x v hx => (h5 x v hx).keep hk hK
    · simp only [Store.frameOf, hr] at h3; simp only [Store.frameOf, hr', h3]
    · have := h4 x hx; simp only [Store.localB, hr] at this; simp only [Store.localB, hr', this]
end

theorem RepK.calm (h : Calm s s') {v : Val} {d : Data} (hr : RepK s g K v d) : RepK s' g K v d := hr.keep (h.keeps K) fun _ _ h => h
theorem HeldK.calm (h : Calm s s') (hr : HeldK s g K ρ e) : HeldK s' g K ρ e := hr.keep (h.keeps K) fun _ _ h => h

/-- Values without closures do not depend on the state. -/
theorem RepK.flat {v : Val} (hv : Flat v) : ∀ {d : Data}, RepK s g K v d → ∀ (s' : Store) (K' : Nat → Prop), RepK s' g K' v d := by
  induction hv with
  | const => intro d h s' K'; cases h with | const h => exact .const h
  | nil => intro d h s' K'; cases h with | nil h => exact .nil h
  | pair _ _ ih1 ih2 => intro d h s' K'; cases h with | pair h h1 h2 => exact .pair h (ih1 h1 s' K') (ih2 h2 s' K')
  | builtin => intro d h s' K'; cases h; exact .builtin

theorem HeldK.frame (h : HeldK s g K ρ e) (hg : s.frameOf g = none) : s.frameOf e = none := by
  cases h with
  | top => exact hg
  | child _ _ _ _ hf => exact hf

theorem HeldK.env (h : HeldK s g K ρ e) (hg : ∃ r, s.envs[g]? = some r) : ∃ r, s.envs[e]? = some r := by
  cases h with
  | top => exact hg
  | child _ _ _ hp => obtain ⟨r, hr, _⟩ := parentOf_some hp; exact ⟨r, hr⟩

theorem HeldK.var {ρ : Env} {e : Nat} (h : HeldK s g K ρ e) {x : String} (hx : x ≠ "self") {v : Val} (hv : ρ.lookup x = some v) :
    ∃ f p d, Visible s e x f ⟨d, p⟩ ∧ RepK s g K v d := by
  match h with
  | .top => cases hv
  | .child (new := new) (ρ := ρ') at_ _ h1 h2 _ h4 h5 =>
    have hl := h4 x hx
    rw [List.lookup_append] at hv
    cases hn : new.lookup x with
    | none =>
      rw [hn] at hv hl
      obtain ⟨f, q, d, hv, hr⟩ := h1.var hx (by simpa using hv)
      exact ⟨f, q, d, .up (by simpa using hl) h2 hv, hr⟩
    | some w =>
      rw [hn] at hv hl
      obtain rfl : w = v := by simpa using hv
      exact ⟨_, _, _, .here (by simpa using hl), h5 x w hn⟩

theorem HeldK.global {ρ : Env} {e : Nat} (h : HeldK s g K ρ e) {x : String} (hx : x ≠ "self") (hn : ρ.lookup x = none) {f : Nat} {b : Binding}
    (hv : Visible s g x f b) : Visible s e x f b := by
  match h with
  | .top => exact hv
  | .child (new := new) (ρ := ρ') at_ _ h1 h2 _ h4 _ =>
    have hl := h4 x hx
    rw [List.lookup_append] at hn
    cases hw : new.lookup x with
    | none =>
      rw [hw] at hn hl
      exact .up (by simpa using hl) h2 (h1.global hx (by simpa using hn) hv)
    | some w => rw [hw] at hn; simp at hn

theorem means_held (h : HeldK s g K ρ e) (hg : s.frameOf g = none) {x : String} (hx : x ≠ "self") (hn : ρ.lookup x = none) (hm : Means C s g x) :
    Means C s e x := by
  obtain ⟨⟨f, p, hv⟩, _, hs⟩ := hm
  exact ⟨⟨f, p, h.global hx hn hv⟩, fun _ => noSlot_of (h.frame hg) x, hs⟩

theorem RepK.truthy {v : Val} {d : Data} (h : RepK s g K v d) : Truthy d ↔ Holds v := by
  cases h with
  | @const a h => cases a <;> simp [Truthy, Holds]
  | nil h => rcases h with rfl | rfl <;> simp [Truthy, Holds]
  | pair h => simp [Truthy, Holds, h]
  | builtin => simp [Truthy, Holds]
  | closure => simp [Truthy, Holds]

theorem literal_rep {d : Data} {v : Val} (h : Literal d v) : RepK s g K v d := by
  induction h with
  | atom h => exact .const h
  | nil h => exact .nil h
  | pair h _ _ ih1 ih2 => exact .pair h ih1 ih2

/-! ### Lists of values -/

inductive Reps (s : Store) (g : Nat) (K : Nat → Prop) : List Val → List Data → Prop where
  | nil : Reps s g K [] []
  | cons {v vs d ds} : RepK s g K v d → Reps s g K vs ds → Reps s g K (v :: vs) (d :: ds)

theorem Reps.length {vs : List Val} {ds : List Data} (h : Reps s g K vs ds) : vs.length = ds.length := by
  induction h with
  | nil => rfl
  | cons _ _ ih => simp [ih]

theorem Reps.keep {K' : Nat → Prop} (hk : Keeps K s s') (hK : ∀ k, k < s.envs.length → K' k → K k) {vs : List Val} {ds : List Data}
    (h : Reps s g K vs ds) : Reps s' g K' vs ds := by
  induction h with
  | nil => exact .nil
  | cons h _ ih => exact .cons (h.keep hk hK) ih

theorem Reps.calm (h : Calm s s') {vs : List Val} {ds : List Data} (hr : Reps s g K vs ds) : Reps s' g K vs ds := hr.keep (h.keeps K) fun _ _ h => h

theorem RepK.elem {v : Val} {d : Data} (h : RepK s g K v d) : RepK s g K v (Spec.elem d) := by
  unfold Spec.elem
  split
  · next hd => subst hd; cases h; exact .nil (.inr rfl)
  · exact h

theorem Reps.elems {vs : List Val} {ds : List Data} (h : Reps s g K vs ds) : Reps s g K vs (ds.map Spec.elem) := by
  induction h with
  | nil => exact .nil
  | cons h _ ih => exact .cons h.elem ih

theorem null_elems (ds : List Data) : Data.null ∉ ds.map Spec.elem := by
  intro h
  obtain ⟨x, _, h⟩ := List.mem_map.1 h
  exact elem_ne_null x h

/-- The data object of a list value. -/
theorem rep_list {vs : List Val} : ∀ {d : Data}, RepK s g K (.list vs) d → ∃ ds, ListOf d ds ∧ Reps s g K vs ds ∧ Data.null ∉ ds := by
  induction vs with
  | nil =>
    intro d h
    cases h with
    | nil h => rcases h with rfl | rfl <;> first | exact ⟨[], ⟨.null, rfl⟩, .nil, by simp⟩ | exact ⟨[], ⟨.empty _, rfl⟩, .nil, by simp⟩
  | cons v vs ih =>
    intro d h
    cases h with
    | pair hn h1 h2 =>
      obtain ⟨ds, h3, h4, h5⟩ := ih h2
      exact ⟨_, ⟨Lst.cons' (.inl hn) h3.1, rfl⟩, .cons h1 h4, by simp [Ne.symm hn, h5]⟩

theorem rep_newList {vs : List Val} {ds : List Data} (h : Reps s g K vs ds) (hn : Data.null ∉ ds) {d : Data} (hd : NewList d ds) :
    RepK s g K (.list vs) d := by
  have key : ∀ {vs : List Val} {ds : List Data}, Reps s g K vs ds → Data.null ∉ ds → ∀ {d : Data}, Chain d ds → RepK s g K (.list vs) d := by
    intro vs ds h
    induction h with
    | nil => intro _ d hc; cases hc; exact .nil (.inl rfl)
    | cons h _ ih =>
      intro hn d hc
      cases hc with
      | cons hc =>
        simp only [List.mem_cons, not_or] at hn
        exact .pair (Ne.symm hn.1) h (ih hn.2 hc)
  cases hd with
  | null => cases h; exact .nil (.inl rfl)
  | empty => cases h; exact .nil (.inr rfl)
  | chain hc => exact key h hn hc

theorem newList_array {ds : List Data} (hn : Data.null ∉ ds) : NewList (ofArray ds) ds := by
  have key : ∀ ds : List Data, Data.null ∉ ds → Chain (listWithTail ds .null) ds := by
    intro ds
    induction ds with
    | nil => intro _; exact .nil
    | cons d ds ih =>
      intro hn
      simp only [List.mem_cons, not_or] at hn
      have : noNull d = d := by cases d <;> first | rfl | exact absurd rfl hn.1
      simp only [listWithTail, this]
      exact .cons (ih hn.2)
  cases ds with
  | nil => exact .empty
  | cons d ds => exact .chain (key _ hn)

/-! ### The environment of a call -/

theorem alGet_params' {ps : List String} (hn : ps.Nodup) {ds : List Data} (hl : ps.length = ds.length) {B : List (String × Data)}
    (hB : ∀ p ∈ B, p.1 = "self" ∨ p.1 ∈ ps) {x : String} (hx : x ≠ "self") :
    alGet (binds (B ++ ps.zip ds)) x = (varsOf ps ds x).map (⟨·, false⟩) := by
  rw [alGet_binds, List.reverse_append, List.find?_append, find?_reverse_nodup hn]
  simp only [varsOf]
  cases hf : (ps.zip ds).find? (·.1 == x) with
  | some q => rfl
  | none =>
    have : B.reverse.find? (·.1 == x) = none := by
      rw [List.find?_eq_none]
      intro p hp h
      have hpx : p.1 = x := by simpa using h
      rcases hB p (by simpa using hp) with h | h
      · exact hx (hpx ▸ h)
      · obtain ⟨i, hi, hpi⟩ := List.getElem_of_mem h
        have hm : (ps[i], ds[i]'(hl ▸ hi)) ∈ ps.zip ds := by
          rw [← List.getElem_zip (h := by simpa [← hl] using hi)]
          exact List.getElem_mem _
        exact List.find?_eq_none.mp hf _ hm (by simp [hpi, hpx])
    simp [this]

theorem vars_lookup {vs : List Val} {ds : List Data} (h : Reps s g K vs ds) : ∀ (ps : List String), ps.length = vs.length →
    (∀ x, varsOf ps ds x = ((ps.zip vs).lookup x).map fun _ => (varsOf ps ds x).getD .null) ∧
      ∀ x v, (ps.zip vs).lookup x = some v → RepK s g K v ((varsOf ps ds x).getD .null) := by
  induction h with
  | nil =>
    intro ps hl
    obtain rfl : ps = [] := List.length_eq_zero_iff.mp hl
    exact ⟨fun _ => rfl, nofun⟩
  | @cons v vs d ds h _ ih =>
    intro ps hl
    cases ps with
    | nil => cases hl
    | cons p ps =>
      obtain ⟨h1, h2⟩ := ih ps (by simpa using hl)
      have hv : ∀ x, varsOf (p :: ps) (d :: ds) x = if p = x then some d else varsOf ps ds x := by
        intro x
        simp only [varsOf, List.zip_cons_cons, List.find?_cons]
        by_cases hx : p = x
        · simp [hx]
        · have : (p == x) = false := by simpa using hx
          simp [hx, this]
      have hl : ∀ x, ((p :: ps).zip (v :: vs)).lookup x = if p = x then some v else (ps.zip vs).lookup x := by
        intro x
        simp only [List.zip_cons_cons, List.lookup_cons]
        by_cases hx : p = x
        · subst hx; simp
        · have : (x == p) = false := by simpa using fun h => hx h.symm
          simp [hx, this]
      refine ⟨fun x => ?_, fun x w => ?_⟩
      · rw [hv, hl]
        by_cases hx : p = x
        · simp [hx]
        · simpa [hx] using h1 x
      · rw [hv, hl]
        by_cases hx : p = x
        · simp only [hx, if_true, Option.some.injEq, Option.getD_some]; rintro rfl; exact h
        · simpa [hx] using h2 x w

/-- The new environment holds the parameters. -/
theorem held_child {le p : Nat} {r : EnvRec} (hr : s.envs[le]? = some r) (hp : r.parent = some p) (hf : r.frame = none) (hk : ¬ K le)
    {B : List (String × Data)} {ps : List String} {ds : List Data} (hb : r.binds = binds (B ++ ps.zip ds)) (hn : ps.Nodup)
    (hB : ∀ p ∈ B, p.1 = "self" ∨ p.1 ∈ ps) {vs : List Val} (hl : ps.length = vs.length) (hv : Reps s g K vs ds) (h : HeldK s g K ρ p) :
    HeldK s g K (ps.zip vs ++ ρ) le := by
  obtain ⟨h1, h2⟩ := vars_lookup hv ps hl
  refine .child (fun x => (varsOf ps ds x).getD .null) hk h (by simp [Store.parentOf, hr, hp]) (by simp [Store.frameOf, hr, hf]) (fun x hx => ?_) h2
  simp only [Store.localB, hr, hb]
  rw [alGet_params' hn (hl.trans hv.length) hB hx]
  generalize hd : (varsOf ps ds x).getD .null = d
  rw [h1 x, hd, Option.map_map]
  rfl

/-! ### Where things run -/

/-- What evaluation needs of its surroundings. -/
structure Ctx (C : Conf) (Γ : Defs) (g : Nat) (K : Nat → Prop) (s : Store) (e : Nat) : Prop where
  wf : WF s
  impl : Implements C Γ s g
  old : ∀ k, K k → k < s.envs.length
  env : ∃ r, s.envs[e]? = some r ∧ r.frame = none
  quote : Means C s e "quote"

theorem Ctx.calm (h : Ctx C Γ g K s e) (q : Calm s s') (w : WF s') : Ctx C Γ g K s' e := by
  obtain ⟨r, hr, hf⟩ := h.env
  exact ⟨w, h.impl.calm q, fun k hk => Nat.lt_of_lt_of_le (h.old k hk) q.le, ⟨r, q.env hr, hf⟩, means_calm q hr hf h.quote⟩

theorem Ctx.frame (h : Ctx C Γ g K s e) : s.frameOf e = none := by
  obtain ⟨r, hr, hf⟩ := h.env
  simp [Store.frameOf, hr, hf]

/-- What evaluating an expression gives, wherever the program and the variables are. -/
def Stable (C : Conf) (Γ : Defs) (g : Nat) (ρ : Env) (x : Data) (v : Val) : Prop :=
  ∀ (K : Nat → Prop) (s : Store) (e : Nat), WF s → Implements C Γ s g → (∀ k, K k → k < s.envs.length) → HeldK s g K ρ e →
    ∃ d s', Evals C x e s (.ok d) s' ∧ RepK s' g K v d ∧ Calm s s'

inductive Stables (C : Conf) (Γ : Defs) (g : Nat) (ρ : Env) : List Data → List Val → Prop where
  | nil : Stables C Γ g ρ [] []
  | cons {x v xs vs} : Stable C Γ g ρ x v → Stables C Γ g ρ xs vs → Stables C Γ g ρ (x :: xs) (v :: vs)

theorem Stables.length {xs : List Data} {vs : List Val} (h : Stables C Γ g ρ xs vs) : xs.length = vs.length := by
  induction h with
  | nil => rfl
  | cons _ _ ih => simp [ih]

/-- What calling a procedure with values gives, wherever the program is. -/
def StableCall (C : Conf) (Γ : Defs) (g : Nat) (u : Val) (vs : List Val) (v : Val) : Prop :=
  ∀ (K : Nat → Prop) (s : Store) (e : Nat) (f : Data) (ds : List Data), Ctx C Γ g K s e → RepK s g K u f → Reps s g K vs ds →
    ∃ d s', With C f e ds s (.ok d) s' ∧ RepK s' g K v d ∧ Calm s s' ∧ WF s'

/-- What running a built-in procedure on values gives. -/
def StablePrim (C : Conf) (Γ : Defs) (g : Nat) (x : String) (vs : List Val) (v : Val) : Prop :=
  x ∈ purePrims ++ funPrims ∧ vs ≠ [] ∧ ∃ P, (std C.host).prims x = some P ∧ P.special = false ∧ P.restricted = false ∧
    Arity.checkArgumentCount (Arity.parseNumArgs P.args) vs.length = true ∧
    ∀ (K : Nat → Prop) (s : Store) (e : Nat) (ds : List Data), Ctx C Γ g K s e → Reps s g K vs ds →
      ∃ d s', RunsP (body C) (P.body (ofArray ds) e) s (.ok d) s' ∧ RepK s' g K v d ∧ Calm s s'

theorem stables_args {xs : List Data} {vs : List Val} (h : Stables C Γ g ρ xs vs) : ∀ {s : Store}, WF s → Implements C Γ s g →
    (∀ k, K k → k < s.envs.length) → HeldK s g K ρ e → ∃ ds s', Args C e xs s (.ok ds) s' ∧ Reps s' g K vs ds ∧ Calm s s' ∧ WF s' := by
  induction h with
  | nil => intro s hw _ _ _; exact ⟨[], s, .done, .nil, Calm.refl s, hw⟩
  | cons h1 _ ih =>
    intro s hw hi hk hin
    obtain ⟨d, s₁, e1, r1, q1⟩ := h1 K s e hw hi hk hin
    obtain ⟨ds, s₂, e2, r2, q2, w2⟩ := ih (evals_WF hw e1) (hi.calm q1) (fun k h => Nat.lt_of_lt_of_le (hk k h) q1.le) (hin.calm q1)
    exact ⟨d :: ds, s₂, .next e1 e2, .cons (r1.calm q2) r2, q1.trans q2, w2⟩

theorem calm_putVal {s₀ : Store} (h : Calm s₀ s) {le : Nat} (hle : s₀.envs.length ≤ le) (x : String) (v : Data) : Calm s₀ (s.putVal le x v) := by
  obtain ⟨⟨m, hm⟩, hf, hr⟩ := h
  obtain ⟨h1, h2, h3, h4, h5, h6, h7⟩ := putVal_rest s le x v
  obtain ⟨h8, h9⟩ := putVal_rest' s le x v
  refine ⟨?_, by rw [h1]; exact hf, by rw [h2, h3, h4, h6, h7, h8, h9]; exact hr⟩
  simp only [Store.putVal]
  split
  · exact ⟨m, hm⟩
  · exact ⟨_, by rw [hm, List.set_append_right _ _ hle]⟩

/-- One binding in a new environment. -/
theorem bind_run {le : Nat} {r : EnvRec} (hr : s.envs[le]? = some r) {B : List (String × Data)} (hb : r.binds = binds B) (p : String) (v : Data) :
    (Op.bind le p v).run s = (.ok 0, s.putVal le p v) ∧ (s.putVal le p v).envs[le]? = some { r with binds := binds (B ++ [(p, v)]) } := by
  constructor
  · simp only [Op.run]
    cases hl : s.localB le p with
    | none => rfl
    | some b =>
      have : b.prot = false := binds_prot (B := B) (x := p) (by simpa [Store.localB, hr, hb] using hl)
      simp [this]
  · rw [putVal_envs, if_pos rfl, hr]
    simp only [Option.map_some, EnvRec.put, binds_snoc, hb]
    congr 3
    cases ha : alGet (binds B) p with
    | none => rfl
    | some b => simp [binds_prot ha]

/-- Evaluate the arguments in `e`, binding each value in the new environment `le`. -/
theorem stables_binds {xs : List Data} {vs : List Val} (h : Stables C Γ g ρ xs vs) {s₀ : Store} {le : Nat} (hle : s₀.envs.length ≤ le)
    (h₀ : Implements C Γ s₀ g) (hK : ∀ k, K k → k < s₀.envs.length) (hin₀ : HeldK s₀ g K ρ e) :
    ∀ (ps : List String) (B : List (String × Data)) {s : Store} {r : EnvRec}, ps.length = xs.length →
      Calm s₀ s → WF s → s.envs[le]? = some r → r.binds = binds B →
      ∃ ds s', Binds (fun a => Evals C a e) le ps none xs s (.ok ()) s' ∧ Reps s' g (fun k => K k ∨ k = le) vs ds ∧ Calm s₀ s' ∧ WF s' ∧
        s'.envs[le]? = some { r with binds := binds (B ++ ps.zip ds) } ∧ Keeps (fun k => K k ∨ k = le) s s' := by
  induction h with
  | nil =>
    intro ps B s r hlen q w hr hb
    obtain rfl : ps = [] := List.length_eq_zero_iff.mp hlen
    exact ⟨[], s, .done, .nil, q, w, by simp [hr, ← hb], (Calm.refl s).keeps _⟩
  | @cons x v xs vs h1 _ ih =>
    intro ps B s r hlen q w hr hb
    cases ps with
    | nil => cases hlen
    | cons p ps =>
      have hin : HeldK s g (fun k => K k ∨ k = le) ρ e :=
        (hin₀.keep (K' := fun k => K k ∨ k = le) ((Calm.refl s₀).keeps K) (fun k hk h => h.resolve_right (by omega))).calm q
      have hlt : le < s.envs.length := (List.getElem?_eq_some_iff.mp hr).1
      obtain ⟨d, s₁, e1, r1, q1⟩ := h1 (fun k => K k ∨ k = le) s e w (h₀.calm q)
        (fun k hk => hk.elim (fun h => Nat.lt_of_lt_of_le (hK k h) q.le) (fun h => h ▸ hlt)) hin
      have w₁ := evals_WF w e1
      obtain ⟨hbind, hr₂⟩ := bind_run (q1.env hr) hb p d
      have w₂ : WF (s₁.putVal le p d) := by have := op_WF (.bind le p d) s₁ w₁; rwa [hbind] at this
      have k1 : Keeps (fun k => K k ∨ k = le) s₁ (s₁.putVal le p d) := keeps_putVal (.inr rfl) p d
      obtain ⟨ds, s', e2, r2, q2, w2, hr', k2⟩ := ih ps (B ++ [(p, d)]) (by simpa using hlen) (calm_putVal (q.trans q1) hle p d) w₂ hr₂ rfl
      have k0 := q1.keeps (fun k => K k ∨ k = le)
      refine ⟨d :: ds, s', .next e1 hbind e2, .cons ((r1.keep k1 fun _ _ h => h).keep k2 fun _ _ h => h) r2, q2, w2, by simpa using hr', ?_, fun i fr hi => ?_⟩
      · exact fun e r he hr => k2.envs e r he (k1.envs e r he (k0.envs e r he hr))
      · obtain ⟨b, hb⟩ := k0.fns i fr hi
        obtain ⟨b, hb⟩ := k1.fns i _ hb
        obtain ⟨b, hb⟩ := k2.fns i _ hb
        exact ⟨b, hb⟩

theorem pushEnv_calm (s : Store) (p : Nat) (pr : EnvRec) (f : Option Nat) (name : String) (B : List (String × Data)) : Calm s (pushEnv s p pr f name B) :=
  .of (pushEnv_quiet s p pr f name B)

theorem quoting_ok {d v : Data} {r : Out Data} (h : .ok v = quoting d r) : r = .ok v := by
  cases r <;> simp_all [quoting]

/-! ### Operators and arguments -/

theorem prim_names {x : String} (h : x ∈ purePrims ++ funPrims) : Operator x ∧ x ≠ "self" := by
  simp only [purePrims, funPrims, List.cons_append, List.nil_append, List.mem_cons, List.not_mem_nil, or_false] at h
  rcases h with rfl | rfl | rfl | rfl | rfl | rfl | rfl | rfl | rfl | rfl | rfl | rfl | rfl | rfl | rfl | rfl | rfl | rfl | rfl | rfl | rfl | rfl | rfl | rfl | rfl | rfl
  all_goals exact ⟨⟨rfl, fun _ => rfl⟩, by simp⟩

theorem Implements.prim (hi : Implements C Γ s g) {x : String} (hx : x ∈ purePrims ++ funPrims) (hg : Γ x = none) : Means C s g x := by
  rcases List.mem_append.1 hx with h | h
  · exact hi.prims x h hg
  · exact hi.morePrims x h hg

/-- Looking a name up, as an operand or as an operator. -/
theorem lookup_rep (hw : WF s) (need : Bool) {x : String} {f : Nat} {p : Bool} {d : Data} {v : Val} (hv : Visible s e x f ⟨d, p⟩) (hfr : s.frameOf e = none)
    (hx : isNaked (sym x) = false) (hr : RepK s g K v d) : ∃ s', Runs (body C) (.eval need (sym x) e) s (.ok d) s' ∧ RepK s' g K v d ∧ Calm s s' := by
  have go : ∀ {s'}, RunsP (body C) (valueOf C.host need x e) s (.ok d) s' → Runs (body C) (.eval need (sym x) e) s (.ok d) s' := by
    intro s' h
    rw [runs_iff]
    simp only [body, evalHelper, hx]
    exact h
  have val : isFunc d = false → ∃ s', Runs (body C) (.eval need (sym x) e) s (.ok d) s' ∧ RepK s' g K v d ∧ Calm s s' := fun hf =>
    ⟨s, go ((runsP_valueOf hw need hv (fun _ => noSlot_of hfr x) hf).mpr ⟨rfl, rfl⟩), hr, Calm.refl s⟩
  cases hr with
  | @const a h => exact val (by cases a <;> first | rfl | exact h.elim)
  | nil h => rcases h with rfl | rfl <;> exact val rfl
  | pair => exact val rfl
  | builtin => exact val rfl
  | closure h1 h2 h3 h4 h5 =>
    obtain ⟨s₁, b, q, h6, h7⟩ := runsP_valueOf_fn (H := C.host) (bd := body C) hw need hv (fun _ => noSlot_of hfr x) h1
    exact ⟨s₁, go h7, .closure h6 h2 h3 h4 (h5.calm (.of q)), .of q⟩

/-- A procedure that can be called with these values. -/
def Callable (C : Conf) (Γ : Defs) (g : Nat) (u : Val) (vs : List Val) (v : Val) : Prop :=
  (∃ ps b ρ, u = .closure ps b ρ ∧ vs.length = ps.length ∧ Stable C Γ g (ps.zip vs ++ ρ) b v) ∨ ∃ x, u = .builtin x ∧ StablePrim C Γ g x vs v

theorem seq_one {x v u : Data} (h : Evals C x e s (.ok v) s') : Seq C e [x] u s (.ok v) s' := .next h .done

theorem noFrame_for {sl : Bool} (h : s.frameOf e = none) : frameFor s sl e = none := by simp only [frameFor, h]; split <;> rfl

theorem HeldK.pr (h : HeldK s g K ρ e) (hi : Implements C Γ s g) : ∃ pr, s.envs[e]? = some pr ∧ pr.frame = none := by
  obtain ⟨rg, hrg, _⟩ := hi.exists_
  obtain ⟨pr, hpr⟩ := h.env ⟨rg, hrg⟩
  exact ⟨pr, hpr, by simpa [Store.frameOf, hpr] using h.frame hi.noFrame⟩

theorem callable_with {u v : Val} {vs : List Val} (h : Callable C Γ g u vs v) : StableCall C Γ g u vs v := by
  intro K s e f ds hc hf hds
  rcases h with ⟨ps, b, ρ, rfl, hl, hb⟩ | ⟨x, rfl, hmem, hne, P, hP, hsp, hre, hcount, hrun⟩
  · cases hf with
    | @closure _ _ _ i fr h1 h2 h3 h4 h5 =>
      obtain ⟨pr, hpr, hpf⟩ := h5.pr hc.impl
      let B := selfBind s fr.slot none e
      have hlen := hds.length
      have q := pushEnv_calm s fr.env pr none fr.name (B ++ ps.zip (ds.map Spec.elem))
      have w := pushEnv_WF hc.wf hpr none fr.name (B ++ ps.zip (ds.map Spec.elem))
      have hnk : ¬ K s.envs.length := fun h => Nat.lt_irrefl _ (hc.old _ h)
      have hh := held_child (K := K) (pushEnv_top s fr.env pr none fr.name (B ++ ps.zip (ds.map Spec.elem))) rfl hpf hnk rfl h3
        (fun p hp => .inl (selfBind_names _ _ _ _ p hp)) hl.symm (hds.elems.calm q) (h5.calm q)
      obtain ⟨d, s', e1, r1, q1⟩ := hb K _ _ w (hc.impl.calm q) (fun k hk => Nat.lt_of_lt_of_le (hc.old k hk) q.le) hh
      refine ⟨d, s', (Props.C69_function h1 ⟨⟨pr, hpr⟩, ⟨ps, none, h2, fun _ => rfl⟩, _, h4⟩).mpr ?_, r1, q.trans q1, evals_WF w e1⟩
      rw [noFrame_for hc.frame]
      exact CallsV.run (r := .ok d) h1 hpr h2 h4 (by simp [Fits, ← hlen, hl]) (by simpa [paramBinds] using seq_one e1)
  · cases hf
    have hne' : ds ≠ [] := by rintro rfl; cases hds; exact hne rfl
    obtain ⟨d, s', h1, r1, q1⟩ := hrun K s e ds hc hds
    have hch : Chain (ofArray ds) (ds.map Spec.elem) := by
      have := newList_array (null_elems ds)
      rw [ofArray_elem] at this
      generalize hm : ds.map Spec.elem = es at this
      generalize ofArray ds = l at this
      cases this with
      | chain h => exact h
      | _ => simp at hm; exact absurd hm hne'
    have hw : With C (.atom (.prim x)) e ds s (.ok d) s' := by
      unfold With
      rw [applies_prim ((hc.impl.table x hmem).trans hP) hsp (by simp [hre]) hc.wf hc.quote hch (by simpa using hne') (by simpa [← hds.length] using hcount),
        ofArray_elem, ofArray_elem]
      exact h1
    exact ⟨d, s', hw, r1, q1, runs_keeps keeps_WF hw hc.wf⟩

theorem call_ok {u v : Val} {vs : List Val} (h : Callable C Γ g u vs v) {f t : Data} {xs : List Data} (hs : shortcuts (.cons f t) = .cons f t) (hh : f ≠ .null)
    (hq : ρ.lookup "quote" = none)
    (hop : ∀ (K : Nat → Prop) (s : Store) (e : Nat), WF s → Implements C Γ s g → (∀ k, K k → k < s.envs.length) → HeldK s g K ρ e →
      ∃ d s', EvalsOp C f e s (.ok d) s' ∧ RepK s' g K u d ∧ Calm s s')
    (ht : Lst t xs) (hxs : Stables C Γ g ρ xs vs) : Stable C Γ g ρ (.cons f t) v := by
  intro K s e hw hi hK hin
  obtain ⟨fn, s₁, e0, r0, q0⟩ := hop K s e hw hi hK hin
  have w₁ : WF s₁ := runs_keeps keeps_WF e0 hw
  have hi₁ := hi.calm q0
  have hin₁ := hin.calm q0
  have hK₁ : ∀ k, K k → k < s₁.envs.length := fun k hk => Nat.lt_of_lt_of_le (hK k hk) q0.le
  rcases h with ⟨ps, b, ρ', rfl, hl, hb⟩ | ⟨x, rfl, hmem, hne, P, hP, hsp, hre, hcount, hrun⟩
  · cases r0 with
    | @closure _ _ _ i fr h1 h2 h3 h4 h5 =>
      obtain ⟨pr, hpr, hpf⟩ := h5.pr hi₁
      let B := selfBind s₁ fr.slot none e
      have hnk : ¬ K s₁.envs.length := fun h => Nat.lt_irrefl _ (hK₁ _ h)
      obtain ⟨ds, s₂, e2, r2, q2, w2, hr2, _⟩ := stables_binds hxs (s₀ := s₁) (Nat.le_refl _) hi₁ hK₁ hin₁ ps B (by rw [← hl, hxs.length])
        (pushEnv_calm s₁ fr.env pr none fr.name B) (pushEnv_WF w₁ hpr none fr.name B) (pushEnv_top s₁ fr.env pr none fr.name B) rfl
      have hr2' := r2.keep (K' := K) ((Calm.refl s₂).keeps _) fun _ _ h => .inl h
      have hh := held_child (K := K) hr2 rfl hpf hnk rfl h3 (fun p hp => .inl (selfBind_names _ _ _ _ p hp)) hl.symm hr2' (h5.calm q2)
      obtain ⟨d, s', e3, r3, q3⟩ := hb K _ _ w2 (hi₁.calm q2) (fun k hk => Nat.lt_of_lt_of_le (hK₁ k hk) q2.le) hh
      refine ⟨d, s', (Props.C32_user hs ‹_› e0 h1 ⟨⟨pr, hpr⟩, ⟨ps, none, h2, fun _ => rfl⟩, _, h4⟩ ht).mpr ⟨.ok d, rfl, ?_⟩, r3, q0.trans (q2.trans q3)⟩
      rw [noFrame_for (hin₁.frame hi₁.noFrame)]
      exact CallsG.run (r := .ok d) h1 hpr h2 h4 (by simp [Fits, ← hl, hxs.length]) e2 (seq_one e3)
  · cases r0
    obtain ⟨ds, s₂, e2, r2, q2, w2⟩ := stables_args hxs w₁ hi₁ hK₁ hin₁
    have hi₂ := hi₁.calm q2
    have hin₂ := hin₁.calm q2
    have hc : Ctx C Γ g K s₂ e := ⟨w2, hi₂, fun k hk => Nat.lt_of_lt_of_le (hK₁ k hk) q2.le, hin₂.pr hi₂,
      means_held hin₂ hi₂.noFrame (by simp) hq (hi₂.forms _ (by simp [pureForms]))⟩
    obtain ⟨d, s', h1, r1, q1⟩ := hrun K s₂ e ds hc r2
    exact ⟨d, s', (Props.C32_primitive hs ‹_› e0 ((hi.table x hmem).trans hP) hsp (by simp [hre]) ht (by rw [hxs.length]; exact hcount)).mpr
      ⟨.ok d, rfl, .inl ⟨ds, s₂, e2, h1⟩⟩, r1, q0.trans (q2.trans q1)⟩

/-! ### Built-in procedures -/

theorem runs_value {p : Prog Data} {v : Data} (h : p = pure v) (s : Store) : RunsP (body C) p s (.ok v) s := by
  rw [h]; exact runsP_pure.mpr ⟨rfl, rfl⟩

theorem rep_elem {v : Val} {d : Data} (h : RepK s g K v d) : RepK s g K v (noNull d) := by rw [← elem_eq_noNull]; exact h.elem

theorem isEqual_plain [FrEq] {a b : Atom} (ha : Plain a) (hf : ∀ n, a ≠ .flt n) : isEqual (.atom a) (.atom b) = decide (a = b) := by
  simp only [isEqual, isEqualN]
  by_cases h : a = b
  · subst h; cases a <;> first | exact ha.elim | exact absurd rfl (hf _) | simp [atomEq]
  · cases a <;> cases b <;> first | exact ha.elim | exact absurd rfl (hf _) | simp_all [atomEq]

theorem reps_one {v : Val} {ds : List Data} (h : Reps s g K [v] ds) : ∃ d, ds = [d] ∧ RepK s g K v d := by
  cases h with | cons h1 h2 => cases h2; exact ⟨_, rfl, h1⟩
theorem reps_two {v w : Val} {ds : List Data} (h : Reps s g K [v, w] ds) : ∃ d d', ds = [d, d'] ∧ RepK s g K v d ∧ RepK s g K w d' := by
  cases h with | cons h1 h2 => obtain ⟨d, rfl, h⟩ := reps_one h2; exact ⟨_, _, rfl, h1, h⟩
theorem reps_three {u v w : Val} {ds : List Data} (h : Reps s g K [u, v, w] ds) :
    ∃ d d' d'', ds = [d, d', d''] ∧ RepK s g K u d ∧ RepK s g K v d' ∧ RepK s g K w d'' := by
  cases h with | cons h1 h2 => obtain ⟨d, d', rfl, h, h'⟩ := reps_two h2; exact ⟨_, _, _, rfl, h1, h, h'⟩

theorem rep_const {a : Atom} {d : Data} (h : RepK s g K (.const a) d) : d = .atom a ∧ Plain a := by cases h with | const h => exact ⟨rfl, h⟩
theorem rep_nil {d : Data} (h : RepK s g K .nil d) : Empty d := by cases h with | nil h => exact h
theorem rep_pair {v w : Val} {d : Data} (h : RepK s g K (.pair v w) d) : ∃ x y, d = .cons x y ∧ x ≠ .null ∧ RepK s g K v x ∧ RepK s g K w y := by
  cases h with | pair h1 h2 h3 => exact ⟨_, _, rfl, h1, h2, h3⟩

set_option maxRecDepth 20000 in
theorem builtin_ok {x : String} {vs : List Val} {v : Val} (h : Builtin x vs v) : StablePrim C Γ g x vs v := by
  cases h with
  | @add a b =>
    refine ⟨by simp [purePrims], by simp, _, rfl, rfl, rfl, rfl, fun K s e ds hc hd => ?_⟩
    obtain ⟨_, _, rfl, h1, h2⟩ := reps_two hd
    obtain ⟨rfl, _⟩ := rep_const h1; obtain ⟨rfl, _⟩ := rep_const h2
    refine ⟨_, s, runs_value (v := int (0 + a + b)) rfl s, ?_, Calm.refl s⟩
    have : (0 : BitVec 64) + a + b = a + b := by simp
    rw [this]; exact .const trivial
  | @sub a b =>
    refine ⟨by simp [purePrims], by simp, _, rfl, rfl, rfl, rfl, fun K s e ds hc hd => ?_⟩
    obtain ⟨_, _, rfl, h1, h2⟩ := reps_two hd
    obtain ⟨rfl, _⟩ := rep_const h1; obtain ⟨rfl, _⟩ := rep_const h2
    exact ⟨_, s, runs_value rfl s, .const trivial, Calm.refl s⟩
  | @mul a b =>
    refine ⟨by simp [purePrims], by simp, _, rfl, rfl, rfl, rfl, fun K s e ds hc hd => ?_⟩
    obtain ⟨_, _, rfl, h1, h2⟩ := reps_two hd
    obtain ⟨rfl, _⟩ := rep_const h1; obtain ⟨rfl, _⟩ := rep_const h2
    refine ⟨_, s, runs_value (v := int (1 * a * b)) rfl s, ?_, Calm.refl s⟩
    have : (1 : BitVec 64) * a * b = a * b := by simp
    rw [this]; exact .const trivial
  | @less a b ha hb =>
    refine ⟨by simp [purePrims], by simp, _, rfl, rfl, rfl, rfl, fun K s e ds hc hd => ?_⟩
    obtain ⟨_, _, rfl, h1, h2⟩ := reps_two hd
    obtain ⟨rfl, _⟩ := rep_const h1; obtain ⟨rfl, _⟩ := rep_const h2
    refine ⟨_, s, runs_value (v := bool (decide (a.toInt < b.toInt))) ?_ s, .const trivial, Calm.refl s⟩
    show Prog.ofOut (Prim.lessThan (int a) (int b)) = _
    rw [(Props.C21_exact_partial a b ha hb).1]
    rfl
  | @greater a b ha hb =>
    refine ⟨by simp [purePrims], by simp, _, rfl, rfl, rfl, rfl, fun K s e ds hc hd => ?_⟩
    obtain ⟨_, _, rfl, h1, h2⟩ := reps_two hd
    obtain ⟨rfl, _⟩ := rep_const h1; obtain ⟨rfl, _⟩ := rep_const h2
    refine ⟨_, s, runs_value (v := bool (decide (b.toInt < a.toInt))) ?_ s, .const trivial, Calm.refl s⟩
    show Prog.ofOut (Prim.greaterThan (int a) (int b)) = _
    rw [(Props.C21_exact_partial a b ha hb).2.1]
    rfl
  | @same x a b hx ha hb hf =>
    rcases hx with rfl | rfl | rfl
    all_goals
      refine ⟨by simp [purePrims], by simp, _, rfl, rfl, rfl, rfl, fun K s e ds hc hd => ?_⟩
      obtain ⟨_, _, rfl, h1, h2⟩ := reps_two hd
      obtain ⟨rfl, _⟩ := rep_const h1; obtain ⟨rfl, _⟩ := rep_const h2
      refine ⟨_, s, runsP_get.mpr (runs_value (v := bool (decide (a = b))) ?_ s), .const trivial, Calm.refl s⟩
      rw [← @isEqual_plain (Frame.eqIn s.frames) a b ha hf]
      rfl
  | @not a =>
    refine ⟨by simp [purePrims], by simp, _, rfl, rfl, rfl, rfl, fun K s e ds hc hd => ?_⟩
    obtain ⟨_, rfl, h1⟩ := reps_one hd
    obtain ⟨rfl, _⟩ := rep_const h1
    exact ⟨_, s, runs_value (v := bool (!a)) (by cases a <;> rfl) s, .const trivial, Calm.refl s⟩
  | @cons v w =>
    refine ⟨by simp [purePrims], by simp, _, rfl, rfl, rfl, rfl, fun K s e ds hc hd => ?_⟩
    obtain ⟨a, d, rfl, h1, h2⟩ := reps_two hd
    exact ⟨_, s, runs_value (v := cons (noNull a) (noNull d)) rfl s, .pair (noNull_ne_null a) (rep_elem h1) (rep_elem h2), Calm.refl s⟩
  | @list _ hne =>
    refine ⟨by simp [purePrims], hne, _, rfl, rfl, rfl, ?_, fun K s e ds hc hd => ?_⟩
    · rfl
    · refine ⟨_, s, runs_value (v := ofArray ds) rfl s, ?_, Calm.refl s⟩
      rw [← ofArray_elem]
      exact rep_newList hd.elems (null_elems ds) (newList_array (null_elems ds))
  | @car v w =>
    refine ⟨by simp [purePrims], by simp, _, rfl, rfl, rfl, rfl, fun K s e ds hc hd => ?_⟩
    obtain ⟨_, rfl, h1⟩ := reps_one hd
    obtain ⟨a, d, rfl, hn, h2, h3⟩ := rep_pair h1
    exact ⟨a, s, runs_value rfl s, h2, Calm.refl s⟩
  | @cdr v w =>
    refine ⟨by simp [purePrims], by simp, _, rfl, rfl, rfl, rfl, fun K s e ds hc hd => ?_⟩
    obtain ⟨_, rfl, h1⟩ := reps_one hd
    obtain ⟨a, d, rfl, hn, h2, h3⟩ := rep_pair h1
    exact ⟨d, s, runs_value rfl s, h3, Calm.refl s⟩
  | @cadr _ v w =>
    refine ⟨by simp [purePrims], by simp, _, rfl, rfl, rfl, rfl, fun K s e ds hc hd => ?_⟩
    obtain ⟨_, rfl, h1⟩ := reps_one hd
    obtain ⟨a, d, rfl, hn, h2, h3⟩ := rep_pair h1
    obtain ⟨a', d', rfl, hn', h2', h3'⟩ := rep_pair h3
    exact ⟨a', s, runs_value rfl s, h2', Calm.refl s⟩
  | @cddr _ v w =>
    refine ⟨by simp [funPrims], by simp, _, rfl, rfl, rfl, rfl, fun K s e ds hc hd => ?_⟩
    obtain ⟨_, rfl, h1⟩ := reps_one hd
    obtain ⟨a, d, rfl, hn, h2, h3⟩ := rep_pair h1
    obtain ⟨a', d', rfl, hn', h2', h3'⟩ := rep_pair h3
    exact ⟨d', s, runs_value rfl s, h3', Calm.refl s⟩
  | @caddr _ _ v w =>
    refine ⟨by simp [purePrims], by simp, _, rfl, rfl, rfl, rfl, fun K s e ds hc hd => ?_⟩
    obtain ⟨_, rfl, h1⟩ := reps_one hd
    obtain ⟨a, d, rfl, hn, h2, h3⟩ := rep_pair h1
    obtain ⟨a', d', rfl, hn', h2', h3'⟩ := rep_pair h3
    obtain ⟨a'', d'', rfl, hn'', h2'', h3''⟩ := rep_pair h3'
    exact ⟨a'', s, runs_value rfl s, h2'', Calm.refl s⟩
  | @empty x hx =>
    rcases hx with rfl | rfl
    all_goals
      refine ⟨by simp [purePrims], by simp, _, rfl, rfl, rfl, rfl, fun K s e ds hc hd => ?_⟩
      obtain ⟨_, rfl, h1⟩ := reps_one hd
      refine ⟨_, s, runs_value (v := bool true) ?_ s, .const trivial, Calm.refl s⟩
      rcases rep_nil h1 with rfl | rfl <;> rfl
  | @notEmpty x v w hx =>
    rcases hx with rfl | rfl
    all_goals
      refine ⟨by simp [purePrims], by simp, _, rfl, rfl, rfl, rfl, fun K s e ds hc hd => ?_⟩
      obtain ⟨_, rfl, h1⟩ := reps_one hd
      obtain ⟨a, d, rfl, hn, h2, h3⟩ := rep_pair h1
      refine ⟨_, s, runs_value (v := bool false) ?_ s, .const trivial, Calm.refl s⟩
      show (pure (bool (isNil (Data.cons a d))) : Prog Data) = _
      rw [(isNil_cell_false .cons a d).mpr fun h => hn h.1]
  | @pair x v w hx =>
    rcases hx with rfl | rfl
    all_goals
      refine ⟨by simp [purePrims], by simp, _, rfl, rfl, rfl, rfl, fun K s e ds hc hd => ?_⟩
      obtain ⟨_, rfl, h1⟩ := reps_one hd
      obtain ⟨a, d, rfl, hn, h2, h3⟩ := rep_pair h1
      exact ⟨_, s, runs_value (v := bool true) rfl s, .const trivial, Calm.refl s⟩
  | @notPair x a hx =>
    rcases hx with rfl | rfl
    all_goals
      refine ⟨by simp [purePrims], by simp, _, rfl, rfl, rfl, rfl, fun K s e ds hc hd => ?_⟩
      obtain ⟨_, rfl, h1⟩ := reps_one hd
      obtain ⟨rfl, _⟩ := rep_const h1
      exact ⟨_, s, runs_value (v := bool false) rfl s, .const trivial, Calm.refl s⟩
  | @symbol x =>
    refine ⟨by simp [purePrims], by simp, _, rfl, rfl, rfl, rfl, fun K s e ds hc hd => ?_⟩
    obtain ⟨_, rfl, h1⟩ := reps_one hd
    obtain ⟨rfl, _⟩ := rep_const h1
    exact ⟨_, s, runs_value (v := bool true) rfl s, .const trivial, Calm.refl s⟩
  | @notSymbol a ha =>
    refine ⟨by simp [purePrims], by simp, _, rfl, rfl, rfl, rfl, fun K s e ds hc hd => ?_⟩
    obtain ⟨_, rfl, h1⟩ := reps_one hd
    obtain ⟨rfl, _⟩ := rep_const h1
    exact ⟨_, s, runs_value (v := bool false) (by cases a <;> first | rfl | exact absurd rfl (ha _)) s, .const trivial, Calm.refl s⟩
  | @number n =>
    refine ⟨by simp [purePrims], by simp, _, rfl, rfl, rfl, rfl, fun K s e ds hc hd => ?_⟩
    obtain ⟨_, rfl, h1⟩ := reps_one hd
    obtain ⟨rfl, _⟩ := rep_const h1
    exact ⟨_, s, runs_value (v := bool true) rfl s, .const trivial, Calm.refl s⟩
  | @notNumber a ha ha' =>
    refine ⟨by simp [purePrims], by simp, _, rfl, rfl, rfl, rfl, fun K s e ds hc hd => ?_⟩
    obtain ⟨_, rfl, h1⟩ := reps_one hd
    obtain ⟨rfl, _⟩ := rep_const h1
    exact ⟨_, s, runs_value (v := bool false) (by cases a <;> first | rfl | exact absurd rfl (ha _) | exact absurd rfl (ha' _)) s, .const trivial, Calm.refl s⟩

/-! ### Procedures that take a procedure -/

/-- What a call of the built-in procedure with these (quoted) values does, its body does. -/
theorem body_of {x : String} {P : PrimDef} (hmem : x ∈ purePrims ++ funPrims) (hP : (std C.host).prims x = some P) (hsp : P.special = false)
    (hre : P.restricted = false) (hc : Ctx C Γ g K s e) {ds : List Data} (hn : Arity.checkArgumentCount (Arity.parseNumArgs P.args) ds.length = true) :
    ∃ q, Calling C x (ds.map Spec.elem) q e s s ∧ ∀ v s', Evals C q e s (.ok v) s' → RunsP (body C) (P.body (ofArray ds) e) s (.ok v) s' := by
  have hop : EvalsOp C (.atom (.prim x)) e s (.ok (.atom (.prim x))) s := by
    unfold EvalsOp
    rw [runs_iff]
    exact runsP_pure.mpr ⟨rfl, rfl⟩
  have hcall : Calling C x (ds.map Spec.elem) (.cons (.atom (.prim x)) (ofArray (ds.map quoteIt))) e s s :=
    ⟨_, _, _, ds.map Spec.elem, s, rfl, rfl, nofun, hop, hc.impl.table x hmem, lst_quoted ds, (args_quoted hc.wf hc.quote ds).mpr ⟨rfl, rfl⟩,
      (map_elem_id (null_elems ds)).symm⟩
  refine ⟨_, hcall, fun v s' h => ?_⟩
  obtain ⟨r₀, hr, h⟩ := (calling_body hcall hP hsp hre (by simpa using hn) _ _).mp h
  obtain rfl := quoting_ok hr
  rwa [ofArray_elem] at h

theorem rep_proc {f : Val} {d : Data} (hf : Procedure f) (h : RepK s g K f d) : isFuncOrPrim (Spec.elem d) = true := by
  cases h <;> first | exact hf.elim | rfl

/-- One call per element. -/
def MapStable (C : Conf) (Γ : Defs) (g : Nat) (f : Val) (vs ws : List Val) : Prop :=
  ∀ (K : Nat → Prop) (s : Store) (e : Nat) (p : Data) (ds : List Data), Ctx C Γ g K s e → RepK s g K f p → Reps s g K vs ds →
    ∃ os s', Calls (With C p e) (ds.map ([·])) s (.ok os) s' ∧ Reps s' g K ws os ∧ Calm s s'

theorem mapStable_cons {f v w : Val} {vs ws : List Val} (h : StableCall C Γ g f [v] w) (h' : MapStable C Γ g f vs ws) : MapStable C Γ g f (v :: vs) (w :: ws) := by
  intro K s e p ds hc hp hds
  cases hds with
  | cons h1 h2 =>
    obtain ⟨o, s₁, e1, r1, q1, w1⟩ := h K s e p _ hc hp (.cons h1 .nil)
    obtain ⟨os, s₂, e2, r2, q2⟩ := h' K s₁ e p _ (hc.calm q1 w1) (hp.calm q1) (h2.calm q1)
    exact ⟨o :: os, s₂, .next e1 e2, .cons (r1.calm q2) r2, q1.trans q2⟩

def FilterStable (C : Conf) (Γ : Defs) (g : Nat) (f : Val) (vs ws : List Val) : Prop :=
  ∀ (K : Nat → Prop) (s : Store) (e : Nat) (p : Data) (ds : List Data) (m : String), Ctx C Γ g K s e → RepK s g K f p → Reps s g K vs ds → Data.null ∉ ds →
    ∃ os s', Selects (fun y => With C p e [y]) true m ds s (.ok os) s' ∧ Reps s' g K ws os ∧ Data.null ∉ os ∧ Calm s s'

theorem filterStable_keep {f v : Val} {vs ws : List Val} (h : StableCall C Γ g f [v] (.bool true)) (h' : FilterStable C Γ g f vs ws) :
    FilterStable C Γ g f (v :: vs) (v :: ws) := by
  intro K s e p ds m hc hp hds hn
  cases hds with
  | cons h1 h2 =>
    simp only [List.mem_cons, not_or] at hn
    obtain ⟨o, s₁, e1, r1, q1, w1⟩ := h K s e p _ hc hp (.cons h1 .nil)
    obtain ⟨rfl, _⟩ := rep_const r1
    obtain ⟨os, s₂, e2, r2, n2, q2⟩ := h' K s₁ e p _ m (hc.calm q1 w1) (hp.calm q1) (h2.calm q1) hn.2
    exact ⟨_ :: os, s₂, .keep e1 e2, .cons (h1.calm (q1.trans q2)) r2, by simp [hn.1, n2], q1.trans q2⟩

theorem filterStable_skip {f v : Val} {vs ws : List Val} (h : StableCall C Γ g f [v] (.bool false)) (h' : FilterStable C Γ g f vs ws) :
    FilterStable C Γ g f (v :: vs) ws := by
  intro K s e p ds m hc hp hds hn
  cases hds with
  | cons h1 h2 =>
    simp only [List.mem_cons, not_or] at hn
    obtain ⟨o, s₁, e1, r1, q1, w1⟩ := h K s e p _ hc hp (.cons h1 .nil)
    obtain ⟨rfl, _⟩ := rep_const r1
    obtain ⟨os, s₂, e2, r2, n2, q2⟩ := h' K s₁ e p _ m (hc.calm q1 w1) (hp.calm q1) (h2.calm q1) hn.2
    exact ⟨os, s₂, .skip e1 e2, r2, n2, q1.trans q2⟩

def FoldLStable (C : Conf) (Γ : Defs) (g : Nat) (f u : Val) (vs : List Val) (w : Val) : Prop :=
  ∀ (K : Nat → Prop) (s : Store) (e : Nat) (p a : Data) (ds : List Data), Ctx C Γ g K s e → RepK s g K f p → RepK s g K u a → Reps s g K vs ds →
    ∃ o s', Folds (fun a x => With C p e [a, x]) a ds s (.ok o) s' ∧ RepK s' g K w o ∧ Calm s s'

theorem foldLStable_cons {f u v u' w : Val} {vs : List Val} (h : StableCall C Γ g f [u, v] u') (h' : FoldLStable C Γ g f u' vs w) :
    FoldLStable C Γ g f u (v :: vs) w := by
  intro K s e p a ds hc hp ha hds
  cases hds with
  | cons h1 h2 =>
    obtain ⟨o, s₁, e1, r1, q1, w1⟩ := h K s e p _ hc hp (.cons ha (.cons h1 .nil))
    obtain ⟨o', s₂, e2, r2, q2⟩ := h' K s₁ e p o _ (hc.calm q1 w1) (hp.calm q1) r1 (h2.calm q1)
    exact ⟨o', s₂, .next e1 e2, r2, q1.trans q2⟩

def FoldRStable (C : Conf) (Γ : Defs) (g : Nat) (f u : Val) (vs : List Val) (w : Val) : Prop :=
  ∀ (K : Nat → Prop) (s : Store) (e : Nat) (p a : Data) (ds : List Data), Ctx C Γ g K s e → RepK s g K f p → RepK s g K u a → Reps s g K vs ds →
    ∃ o s', Folds (fun a x => With C p e [x, a]) a ds.reverse s (.ok o) s' ∧ RepK s' g K w o ∧ Calm s s' ∧ WF s'

theorem folds_snoc {G : Data → Data → Store → Out Data → Store → Prop} {a b o x : Data} {xs : List Data} (h : Folds G a xs s (.ok b) s₁)
    (h' : G b x s₁ (.ok o) s₂) : Folds G a (xs ++ [x]) s (.ok o) s₂ := by
  generalize hr : Out.ok b = r at h
  induction h with
  | done => cases hr; exact .next h' .done
  | next h1 _ ih => exact .next h1 (ih h' hr)
  | stop _ hn => exact absurd (hr ▸ trivial) hn

theorem foldRStable_cons {f u v u' w : Val} {vs : List Val} (h : StableCall C Γ g f [v, u'] w) (h' : FoldRStable C Γ g f u vs u') :
    FoldRStable C Γ g f u (v :: vs) w := by
  intro K s e p a ds hc hp ha hds
  cases hds with
  | cons h1 h2 =>
    obtain ⟨o, s₁, e1, r1, q1, w1⟩ := h' K s e p a _ hc hp ha h2
    obtain ⟨o', s₂, e2, r2, q2, w2⟩ := h K s₁ e p _ (hc.calm q1 w1) (hp.calm q1) (.cons (h1.calm q1) (.cons r1 .nil))
    exact ⟨o', s₂, by rw [List.reverse_cons]; exact folds_snoc e1 e2, r2, q1.trans q2, w2⟩

theorem rows_one (ds : List Data) : Rows [ds] (ds.map ([·])) := by
  induction ds with
  | nil => exact .stop (by simp)
  | cons d ds ih => exact .next [(d, ds)] ih

set_option maxRecDepth 20000 in
theorem map_ok {f : Val} {vs ws : List Val} (hf : Procedure f) (h : MapStable C Γ g f vs ws) : StablePrim C Γ g "map" [f, .list vs] (.list ws) := by
  refine ⟨by simp [funPrims], by simp, _, rfl, rfl, rfl, rfl, fun K s e ds hc hd => ?_⟩
  obtain ⟨p, l, rfl, h1, h2⟩ := reps_two hd
  obtain ⟨es, h3, h4, h5⟩ := rep_list h2.elem
  obtain ⟨q, hcall, hq⟩ := body_of (x := "map") (ds := [p, l]) (by simp [funPrims]) rfl rfl rfl hc rfl
  obtain ⟨os, s', e1, r1, q1⟩ := h K s e _ es hc h1.elem h4
  obtain ⟨r₀, hb, hev⟩ := (C69_map (rep_proc hf h1) (ls := [(Spec.elem l, es)]) (by simp) (by simpa using h3) (rows_one es) hcall).2 _ _ e1
  cases hb with
  | ok hb => exact ⟨_, s', hq _ _ hev, rep_newList r1.elems (null_elems os) hb, q1⟩

set_option maxRecDepth 20000 in
theorem filter_ok {f : Val} {vs ws : List Val} (hf : Procedure f) (h : FilterStable C Γ g f vs ws) : StablePrim C Γ g "filter" [f, .list vs] (.list ws) := by
  refine ⟨by simp [funPrims], by simp, _, rfl, rfl, rfl, rfl, fun K s e ds hc hd => ?_⟩
  obtain ⟨p, l, rfl, h1, h2⟩ := reps_two hd
  obtain ⟨es, h3, h4, h5⟩ := rep_list h2.elem
  obtain ⟨q, hcall, hq⟩ := body_of (x := "filter") (ds := [p, l]) (by simp [funPrims]) rfl rfl rfl hc rfl
  obtain ⟨m, hper⟩ := C69_filter_remove (x := "filter") (want := true) (rep_proc hf h1) h3 (by simp) h5 hcall
  obtain ⟨os, s', e1, r1, n1, q1⟩ := h K s e _ es m hc h1.elem h4 h5
  obtain ⟨r₀, hb, hev⟩ := hper.2 _ _ e1
  cases hb with
  | ok hb => exact ⟨_, s', hq _ _ hev, rep_newList r1 n1 hb, q1⟩

set_option maxRecDepth 20000 in
theorem foldLeft_ok {f u w : Val} {vs : List Val} (hf : Procedure f) (h : FoldLStable C Γ g f u vs w) :
    StablePrim C Γ g "fold-left" [f, u, .list vs] w := by
  refine ⟨by simp [funPrims], by simp, _, rfl, rfl, rfl, rfl, fun K s e ds hc hd => ?_⟩
  obtain ⟨p, a, l, rfl, h1, h2, h3⟩ := reps_three hd
  obtain ⟨es, h4, h5, h6⟩ := rep_list h3.elem
  obtain ⟨q, hcall, hq⟩ := body_of (x := "fold-left") (ds := [p, a, l]) (by simp [funPrims]) rfl rfl rfl hc rfl
  obtain ⟨o, s', e1, r1, q1⟩ := h K s e _ _ es hc h1.elem h2.elem h5
  obtain ⟨r₀, hb, hev⟩ := (C69_fold_left (rep_proc hf h1) h4 hcall).2 _ _ e1
  cases hb with
  | ok hb => subst hb; exact ⟨_, s', hq _ _ hev, r1, q1⟩

set_option maxRecDepth 20000 in
theorem foldRight_ok {f u w : Val} {vs : List Val} (hf : Procedure f) (h : FoldRStable C Γ g f u vs w) :
    StablePrim C Γ g "fold-right" [f, u, .list vs] w := by
  refine ⟨by simp [funPrims], by simp, _, rfl, rfl, rfl, rfl, fun K s e ds hc hd => ?_⟩
  obtain ⟨p, a, l, rfl, h1, h2, h3⟩ := reps_three hd
  obtain ⟨es, h4, h5, h6⟩ := rep_list h3.elem
  obtain ⟨q, hcall, hq⟩ := body_of (x := "fold-right") (ds := [p, a, l]) (by simp [funPrims]) rfl rfl rfl hc rfl
  obtain ⟨o, s', e1, r1, q1, _⟩ := h K s e _ _ es hc h1.elem h2.elem h5
  obtain ⟨r₀, hb, hev⟩ := (C69_fold_right (rep_proc hf h1) h4 hcall).2 _ _ e1
  cases hb with
  | ok hb => subst hb; exact ⟨_, s', hq _ _ hev, r1, q1⟩

/-! ### Loops -/

/-- Give the loop variables their new values. -/
theorem binds_const {s₀ : Store} {le : Nat} (hle : s₀.envs.length ≤ le) : ∀ (ps : List String) (ds : List Data) (B : List (String × Data)) {s : Store} {r : EnvRec},
    ps.length = ds.length → Calm s₀ s → WF s → s.envs[le]? = some r → r.binds = binds B →
      ∃ s', Binds (fun a s r s' => r = .ok a ∧ s' = s) le ps none ds s (.ok ()) s' ∧ Calm s₀ s' ∧ WF s' ∧
        s'.envs[le]? = some { r with binds := binds (B ++ ps.zip ds) } := by
  intro ps
  induction ps with
  | nil =>
    intro ds B s r hl q w hr hb
    obtain rfl : ds = [] := List.length_eq_zero_iff.mp hl.symm
    exact ⟨s, .done, q, w, by simp [hr, ← hb]⟩
  | cons p ps ih =>
    intro ds B s r hl q w hr hb
    cases ds with
    | nil => cases hl
    | cons d ds =>
      obtain ⟨h1, h2⟩ := bind_run hr hb p d
      have w₂ : WF (s.putVal le p d) := by have := op_WF (.bind le p d) s w; rwa [h1] at this
      obtain ⟨s', h3, q', w', hr'⟩ := ih ds (B ++ [(p, d)]) (by simpa using hl) (calm_putVal q hle p d) w₂ h2 rfl
      exact ⟨s', .next ⟨rfl, rfl⟩ h1 h3, q', w', by simpa using hr'⟩

def LoopStable (C : Conf) (Γ : Defs) (g : Nat) (ρ : Env) (xs : List String) (steps : List Data) (test res : Data) (vs : List Val) (w : Val) : Prop :=
  xs.length = steps.length → ∀ (K : Nat → Prop) (s₀ s : Store) (e : Nat) (r : EnvRec) (B : List (String × Data)) (ds : List Data) (u : Data), Implements C Γ s₀ g →
    (∀ k, K k → k < s₀.envs.length) → HeldK s₀ g K ρ e → Calm s₀ s → WF s → s.envs[s₀.envs.length]? = some r → r.parent = some e → r.frame = none →
    r.binds = binds (B ++ xs.zip ds) → xs.Nodup → (∀ p ∈ B, p.1 = "self" ∨ p.1 ∈ xs) → xs.length = vs.length → Reps s g K vs ds → (∀ v ∈ vs, Flat v) →
    ∃ d s', Loop C swallow xs steps test [res] [] s₀.envs.length u s (.ok d) s' ∧ RepK s' g K w d ∧ Calm s₀ s'

theorem reps_flat {vs : List Val} (hf : ∀ v ∈ vs, Flat v) {ds : List Data} (h : Reps s g K vs ds) (s' : Store) (K' : Nat → Prop) : Reps s' g K' vs ds := by
  induction h with
  | nil => exact .nil
  | cons h _ ih => exact .cons (h.flat (hf _ (by simp)) s' K') (ih fun v hv => hf v (by simp [hv]))

theorem loop_held {s₀ : Store} {r : EnvRec} {B : List (String × Data)} {ds : List Data} {vs : List Val} {xs : List String}
    (hK : ∀ k, K k → k < s₀.envs.length) (hin : HeldK s₀ g K ρ e) (q : Calm s₀ s)
    (hr : s.envs[s₀.envs.length]? = some r) (hp : r.parent = some e) (hf : r.frame = none)
    (hb : r.binds = binds (B ++ xs.zip ds)) (hn : xs.Nodup) (hB : ∀ p ∈ B, p.1 = "self" ∨ p.1 ∈ xs) (hl : xs.length = vs.length) (hv : Reps s g K vs ds) :
    HeldK s g K (xs.zip vs ++ ρ) s₀.envs.length :=
  held_child hr hp hf (fun h => Nat.lt_irrefl _ (hK _ h)) hb hn hB hl hv (hin.calm q)

theorem loop_finish {xs : List String} {steps : List Data} {test res : Data} {vs : List Val} {v w : Val} (h1 : Stable C Γ g (xs.zip vs ++ ρ) test v) (hv : Holds v)
    (h2 : Stable C Γ g (xs.zip vs ++ ρ) res w) : LoopStable C Γ g ρ xs steps test res vs w := by
  intro hls K s₀ s e r B ds u hi hK hin q hw hr hp hf hb hn hB hl hds _
  have hh := loop_held hK hin q hr hp hf hb hn hB hl hds
  have hK' : ∀ k, K k → k < s.envs.length := fun k h => Nat.lt_of_lt_of_le (hK k h) q.le
  obtain ⟨d, s₁, e1, r1, q1⟩ := h1 K s _ hw (hi.calm q) hK' hh
  obtain ⟨d', s₂, e2, r2, q2⟩ := h2 K s₁ _ (evals_WF hw e1) (hi.calm (q.trans q1)) (fun k h => Nat.lt_of_lt_of_le (hK' k h) q1.le) (hh.calm q1)
  exact ⟨d', s₂, .finish e1 (r1.truthy.mpr hv) (seq_one e2), r2, q.trans (q1.trans q2)⟩

theorem loop_again {xs : List String} {steps : List Data} {test res : Data} {vs vs' : List Val} {v w : Val} (h1 : Stable C Γ g (xs.zip vs ++ ρ) test v)
    (hv : ¬ Holds v) (h2 : Stables C Γ g (xs.zip vs ++ ρ) steps vs') (hfl : ∀ v ∈ vs', Flat v) (h3 : LoopStable C Γ g ρ xs steps test res vs' w) :
    LoopStable C Γ g ρ xs steps test res vs w := by
  intro hls K s₀ s e r B ds u hi hK hin q hw hr hp hf hb hn hB hl hds _
  have hh := loop_held hK hin q hr hp hf hb hn hB hl hds
  have hK' : ∀ k, K k → k < s.envs.length := fun k h => Nat.lt_of_lt_of_le (hK k h) q.le
  obtain ⟨d, s₁, e1, r1, q1⟩ := h1 K s _ hw (hi.calm q) hK' hh
  have w1 := evals_WF hw e1
  obtain ⟨ds', s₂, e2, r2, q2, w2⟩ := stables_args h2 w1 (hi.calm (q.trans q1)) (fun k h => Nat.lt_of_lt_of_le (hK' k h) q1.le) (hh.calm q1)
  have hl' : xs.length = vs'.length := hls.trans h2.length
  obtain ⟨s₃, e3, q3, w3, hr3⟩ := binds_const (s₀ := s₀) (Nat.le_refl _) xs ds' _ (hl'.trans r2.length) (q.trans (q1.trans q2)) w2 ((q1.trans q2).env hr) hb
  obtain ⟨d', s₄, e4, r4, q4⟩ := h3 hls K s₀ s₃ e _ (B ++ xs.zip ds) ds' u hi hK hin q3 w3 hr3 hp hf rfl hn
    (fun p hp => (List.mem_append.1 hp).elim (hB p) fun h => .inr (List.of_mem_zip h).1) hl' (reps_flat hfl r2 s₃ K) hfl
  exact ⟨d', s₄, .again e1 (fun h => hv (r1.truthy.mp h)) .done e2 e3 e4, r4, q4⟩

end Golisp.Fun
