import Verif.PureSpec
import Verif.Props.Control
import Verif.Props.Calls
import Verif.Props.Let
import Verif.Props.Numbers
/- Lemmas for C75: the interpreter on the textbook language. -/
namespace Golisp.Ev
open Golisp Data Spec

variable {C : Conf} {Γ : Defs} {ρ : Vars} {s s' s₁ s₂ : Store} {g e : Nat}

/-! ### Quiet runs -/

theorem _root_.Golisp.Spec.Quiet.refl (s : Store) : Quiet s s := ⟨⟨[], by simp⟩, ⟨rfl, fun _ fr h => ⟨fr.slot, h⟩⟩, rfl, rfl, rfl, rfl, rfl, rfl, rfl⟩

theorem _root_.Golisp.Spec.Quiet.trans (h : Quiet s s₁) (h' : Quiet s₁ s₂) : Quiet s s₂ := by
  obtain ⟨⟨m, hm⟩, ⟨hl, hf⟩, h1, h2, h3, h4, h5, h6, h7⟩ := h
  obtain ⟨⟨m', hm'⟩, ⟨hl', hf'⟩, h1', h2', h3', h4', h5', h6', h7'⟩ := h'
  refine ⟨⟨m ++ m', by rw [hm', hm, List.append_assoc]⟩, ⟨hl'.trans hl, fun i fr h => ?_⟩, h1'.trans h1, h2'.trans h2, h3'.trans h3,
    h4'.trans h4, h5'.trans h5, h6'.trans h6, h7'.trans h7⟩
  obtain ⟨b, hb⟩ := hf i fr h
  obtain ⟨b', hb'⟩ := hf' i _ hb
  exact ⟨b', hb'⟩

theorem _root_.Golisp.Spec.Quiet.env (h : Quiet s s') {r : EnvRec} (hr : s.envs[e]? = some r) : s'.envs[e]? = some r := by
  obtain ⟨m, hm⟩ := h.envs
  rw [hm]; exact getElem?_append_of_some hr m

theorem parentOf_some {p : Nat} (h : s.parentOf e = some p) : ∃ r, s.envs[e]? = some r ∧ r.parent = some p := by
  simp only [Store.parentOf] at h
  split at h
  · cases h
  · rename_i r hr; exact ⟨r, hr, h⟩

theorem localB_some {x : String} {b : Binding} (h : s.localB e x = some b) : ∃ r, s.envs[e]? = some r := by
  simp only [Store.localB] at h
  split at h
  · cases h
  · rename_i r hr; exact ⟨r, hr⟩

theorem _root_.Golisp.Spec.Quiet.localB (h : Quiet s s') {r : EnvRec} (hr : s.envs[e]? = some r) (x : String) : s'.localB e x = s.localB e x := by
  simp only [Store.localB, hr, h.env hr]

theorem _root_.Golisp.Spec.Quiet.parentOf (h : Quiet s s') {p : Nat} (hp : s.parentOf e = some p) : s'.parentOf e = some p := by
  obtain ⟨r, hr, hrp⟩ := parentOf_some hp
  simp only [Store.parentOf, h.env hr, hrp]

theorem _root_.Golisp.Spec.Quiet.visible (h : Quiet s s') {x : String} {f : Nat} {b : Binding} (hv : Visible s e x f b) : Visible s' e x f b := by
  induction hv with
  | here hb =>
    obtain ⟨r, hr⟩ := localB_some hb
    exact .here (by rw [h.localB hr]; exact hb)
  | up hn hp _ ih =>
    obtain ⟨r, hr, _⟩ := parentOf_some hp
    exact .up (by rw [h.localB hr]; exact hn) (h.parentOf hp) ih

theorem _root_.Golisp.Spec.Quiet.frameOf (h : Quiet s s') {r : EnvRec} (hr : s.envs[e]? = some r) : s'.frameOf e = s.frameOf e := by
  simp only [Store.frameOf, hr, h.env hr]

theorem noSlot_of {H : Host} (h : s.frameOf e = none) (x : String) : NoSlot H s e x := by
  intro i hi; rw [h] at hi; cases hi

/-! ### The program and the variables stay where they are -/

theorem _root_.Golisp.Spec.Implements.frame (h : Implements C Γ s g) : s.frameOf g = none := by
  obtain ⟨r, hr, hf⟩ := h.exists_
  simp [Store.frameOf, hr, hf]

theorem means_quiet (h : Quiet s s') {x : String} {r : EnvRec} (hr : s.envs[g]? = some r) (hf : r.frame = none) (hm : Means C s g x) : Means C s' g x := by
  obtain ⟨⟨f, p, hv⟩, _, hs⟩ := hm
  exact ⟨⟨f, p, h.visible hv⟩, fun _ => noSlot_of (by simp [Store.frameOf, h.env hr, hf]) x, hs⟩

theorem _root_.Golisp.Spec.Implements.quiet (hi : Implements C Γ s g) (h : Quiet s s') : Implements C Γ s' g := by
  obtain ⟨r, hr, hf⟩ := hi.exists_
  refine ⟨⟨r, h.env hr, hf⟩, fun x hx => means_quiet h hr hf (hi.forms x hx), fun x hx hg => means_quiet h hr hf (hi.prims x hx hg), hi.names,
    fun f D hD => ?_⟩
  obtain ⟨i, fr, k, p, h1, h2, h3, h4, h5⟩ := hi.functions f D hD
  obtain ⟨b, hb⟩ := h.fns.2 i fr h2
  exact ⟨i, _, k, p, h.visible h1, hb, h3, h4, h5⟩

theorem _root_.Golisp.Spec.Inside.quiet (hi : Inside s g ρ e) (h : Quiet s s') : Inside s' g ρ e := by
  induction hi with
  | top => exact .top
  | child _ hp hf hl ih =>
    obtain ⟨r, hr, _⟩ := parentOf_some hp
    exact .child ih (h.parentOf hp) (by rw [h.frameOf hr]; exact hf) fun x hx => by rw [h.localB hr]; exact hl x hx

theorem _root_.Golisp.Spec.Inside.frame (hi : Inside s g ρ e) (hg : s.frameOf g = none) : s.frameOf e = none := by
  cases hi with
  | top => exact hg
  | child _ _ hf _ => exact hf

theorem _root_.Golisp.Spec.Inside.env (hi : Inside s g ρ e) (hg : ∃ r, s.envs[g]? = some r) : ∃ r, s.envs[e]? = some r := by
  cases hi with
  | top => exact hg
  | child _ hp _ _ => obtain ⟨r, hr, _⟩ := parentOf_some hp; exact ⟨r, hr⟩

theorem _root_.Golisp.Spec.Inside.var (hi : Inside s g ρ e) {x : String} (hx : x ≠ "self") {v : Data} (h : ρ x = some v) :
    ∃ f p, Visible s e x f ⟨v, p⟩ := by
  induction hi with
  | top => cases h
  | @child new ρ p e _ hp _ hl ih =>
    have hl := hl x hx
    cases hn : new x with
    | none =>
      obtain ⟨f, q, hv⟩ := ih (by simpa [inner, hn] using h)
      exact ⟨f, q, .up (by simpa [hn] using hl) hp hv⟩
    | some w =>
      obtain rfl : w = v := by simpa [inner, hn] using h
      exact ⟨_, _, .here (by simpa [hn] using hl)⟩

theorem _root_.Golisp.Spec.Inside.global (hi : Inside s g ρ e) {x : String} (hx : x ≠ "self") (h : ρ x = none) {f : Nat} {b : Binding}
    (hv : Visible s g x f b) : Visible s e x f b := by
  induction hi with
  | top => exact hv
  | @child new ρ p e _ hp _ hl ih =>
    have hl := hl x hx
    cases hn : new x with
    | none => exact .up (by simpa [hn] using hl) hp (ih (by simpa [inner, hn] using h))
    | some w => simp [inner, hn] at h

theorem means_inside (hi : Inside s g ρ e) (hg : s.frameOf g = none) {x : String} (hx : x ≠ "self") (h : ρ x = none) (hm : Means C s g x) :
    Means C s e x := by
  obtain ⟨⟨f, p, hv⟩, _, hs⟩ := hm
  exact ⟨⟨f, p, hi.global hx h hv⟩, fun _ => noSlot_of (hi.frame hg) x, hs⟩

/-! ### Variables -/

theorem flag_quiet {i : Nat} {fr : FnRec} (hi : s.fns[i]? = some fr) (b : Bool) :
    ∃ s₁, (Op.flag i b).run s = (.ok 0, s₁) ∧ Quiet s s₁ ∧ s₁.fns[i]? = some { fr with slot := b } := by
  refine ⟨{ s with fns := s.fns.set i { fr with slot := b } }, by simp only [Op.run, hi], ⟨⟨[], by simp⟩, ⟨by simp, fun j fr' hj => ?_⟩, rfl, rfl, rfl, rfl, rfl, rfl, rfl⟩, ?_⟩
  · rw [getElem?_set']
    split
    · next h => subst h; rw [hi] at hj; cases hj; exact ⟨b, by simp [hi]⟩
    · exact ⟨fr'.slot, hj⟩
  · simp [getElem?_set', hi]

/-- A name that denotes a user function. -/
theorem runsP_valueOf_fn {H : Host} {bd : Call → Prog Data} (hw : WF s) {x : String} {f i : Nat} {p : Bool} (need : Bool) (hv : Visible s e x f ⟨.atom (.func i), p⟩)
    (hn : s.localB e x = none → NoSlot H s e x) {fr : FnRec} (hi : s.fns[i]? = some fr) :
    ∃ s₁ b, Quiet s s₁ ∧ s₁.fns[i]? = some { fr with slot := b } ∧ RunsP bd (valueOf H need x e) s (.ok (.atom (.func i))) s₁ := by
  have hm : ∀ t, ∃ s₁, Quiet s s₁ ∧ s₁.fns[i]? = some { fr with slot := t } ∧ RunsP bd (markFn (.atom (.func i)) t) s (.ok (.atom (.func i))) s₁ := by
    intro t
    obtain ⟨s₁, h1, h2, h3⟩ := flag_quiet hi t
    exact ⟨s₁, h2, h3, (runsP_op_bind h1).mpr (runsP_pure.mpr ⟨rfl, rfl⟩)⟩
  unfold valueOf
  simp only [runsP_get]
  cases hb : s.localB e x with
  | some b =>
    obtain ⟨rfl, rfl⟩ := hv.unique (.here hb)
    obtain ⟨s₁, h1, h2, h3⟩ := hm true
    exact ⟨s₁, true, h1, h2, h3⟩
  | none =>
    obtain ⟨s₁, h1, h2, h3⟩ := hm false
    refine ⟨s₁, false, h1, h2, ?_⟩
    simp only [slotOf_noSlot (hn hb), (find_iff hw).mpr hv]
    exact h3

/-- A variable. -/
theorem evals_var (hw : WF s) {x : String} {f : Nat} {v : Data} {p : Bool} (hv : Visible s e x f ⟨v, p⟩) (hfr : s.frameOf e = none)
    (hx : isNaked (sym x) = false) (hfn : ∀ i, v ≠ .atom (.func i)) : Evals C (sym x) e s (.ok v) s := by
  have hf : isFunc v = false := by
    cases v with
    | atom a => cases a <;> first | rfl | exact absurd rfl (hfn _)
    | _ => rfl
  unfold Evals
  rw [runs_iff]
  simp only [body, evalHelper, hx]
  exact (runsP_valueOf hw false hv (fun _ => noSlot_of hfr x) hf).mpr ⟨rfl, rfl⟩

/-- A function's name in operator position. -/
theorem evalsOp_fn (hw : WF s) {x : String} {f i : Nat} {p : Bool} (hv : Visible s e x f ⟨.atom (.func i), p⟩) (hfr : s.frameOf e = none)
    (hx : isNaked (sym x) = false) {fr : FnRec} (hi : s.fns[i]? = some fr) :
    ∃ s₁ b, Quiet s s₁ ∧ s₁.fns[i]? = some { fr with slot := b } ∧ EvalsOp C (sym x) e s (.ok (.atom (.func i))) s₁ := by
  obtain ⟨s₁, b, h1, h2, h3⟩ := runsP_valueOf_fn (H := C.host) (bd := body C) hw true hv (fun _ => noSlot_of hfr x) hi
  refine ⟨s₁, b, h1, h2, ?_⟩
  unfold EvalsOp
  rw [runs_iff]
  simp only [body, evalHelper, hx]
  exact h3

/-! ### Binding parameters -/

theorem binds_prot {B : List (String × Data)} {x : String} {b : Binding} (h : alGet (binds B) x = some b) : b.prot = false := by
  rw [alGet_binds] at h
  cases hf : B.reverse.find? (·.1 == x) with
  | none => simp [hf] at h
  | some p => simp only [hf, Option.map_some, Option.some.injEq] at h; rw [← h]

theorem quiet_putVal {s₀ : Store} (h : Quiet s₀ s) {le : Nat} (hle : s₀.envs.length ≤ le) (x : String) (v : Data) : Quiet s₀ (s.putVal le x v) := by
  obtain ⟨⟨m, hm⟩, hf, hr⟩ := h
  obtain ⟨h1, h2, h3, h4, h5, h6, h7⟩ := putVal_rest s le x v
  obtain ⟨h8, h9⟩ := putVal_rest' s le x v
  refine ⟨?_, by rw [h1]; exact hf, by rw [h2, h3, h4, h6, h7, h8, h9]; exact hr⟩
  simp only [Store.putVal]
  split
  · exact ⟨m, hm⟩
  · exact ⟨_, by rw [hm, List.set_append_right _ _ hle]⟩

/-- What evaluating an expression in `e` gives in every state in which the program and the variables are there. -/
def Stable (C : Conf) (Γ : Defs) (g : Nat) (ρ : Vars) (x v : Data) : Prop :=
  ∀ (s : Store) (e : Nat), WF s → Implements C Γ s g → Inside s g ρ e → ∃ s', Evals C x e s (.ok v) s' ∧ Quiet s s'

inductive Stables (C : Conf) (Γ : Defs) (g : Nat) (ρ : Vars) : List Data → List Data → Prop where
  | nil : Stables C Γ g ρ [] []
  | cons {x v xs vs} : Stable C Γ g ρ x v → Stables C Γ g ρ xs vs → Stables C Γ g ρ (x :: xs) (v :: vs)

theorem Stables.length {xs vs : List Data} (h : Stables C Γ g ρ xs vs) : xs.length = vs.length := by
  induction h with
  | nil => rfl
  | cons _ _ ih => simp [ih]

theorem evals_WF {d : Data} {r : Out Data} (hw : WF s) (h : Evals C d e s r s') : WF s' := runs_keeps keeps_WF h hw

theorem stables_args {xs vs : List Data} (h : Stables C Γ g ρ xs vs) : ∀ {s : Store}, WF s → Implements C Γ s g → Inside s g ρ e →
    ∃ s', Args C e xs s (.ok vs) s' ∧ Quiet s s' ∧ WF s' := by
  induction h with
  | nil => intro s hw _ _; exact ⟨s, .done, Quiet.refl s, hw⟩
  | cons h1 _ ih =>
    intro s hw hi hin
    obtain ⟨s₁, e1, q1⟩ := h1 s e hw hi hin
    obtain ⟨s₂, e2, q2, w2⟩ := ih (evals_WF hw e1) (hi.quiet q1) (hin.quiet q1)
    exact ⟨s₂, .next e1 e2, q1.trans q2, w2⟩

theorem stables_binds {xs vs : List Data} (h : Stables C Γ g ρ xs vs) {s₀ : Store} {le : Nat} (hle : s₀.envs.length ≤ le)
    (h₀ : Implements C Γ s₀ g) (hin₀ : Inside s₀ g ρ e) : ∀ (ps : List String) (B : List (String × Data)) {s : Store} {r : EnvRec}, ps.length = xs.length →
      Quiet s₀ s → WF s → s.envs[le]? = some r → r.binds = binds B →
      ∃ s', Binds (fun a => Evals C a e) le ps none xs s (.ok ()) s' ∧ Quiet s₀ s' ∧ WF s' ∧
        s'.envs[le]? = some { r with binds := binds (B ++ ps.zip vs) } := by
  induction h with
  | nil =>
    intro ps B s r hlen q w hr hb
    obtain rfl : ps = [] := List.length_eq_zero_iff.mp hlen
    exact ⟨s, .done, q, w, by simp [hr, ← hb]⟩
  | @cons x v xs vs h1 _ ih =>
    intro ps B s r hlen q w hr hb
    cases ps with
    | nil => cases hlen
    | cons p ps =>
      obtain ⟨s₁, e1, q1⟩ := h1 s e w (h₀.quiet q) (hin₀.quiet q)
      have hr₁ := q1.env hr
      have w₁ := evals_WF w e1
      have hbind : (Op.bind le p v).run s₁ = (.ok 0, s₁.putVal le p v) := by
        simp only [Op.run]
        cases hl : s₁.localB le p with
        | none => rfl
        | some b =>
          have : b.prot = false := binds_prot (B := B) (x := p) (by simpa [Store.localB, hr₁, hb] using hl)
          simp [this]
      have hr₂ : (s₁.putVal le p v).envs[le]? = some { r with binds := binds (B ++ [(p, v)]) } := by
        rw [putVal_envs, if_pos rfl, hr₁]
        simp only [Option.map_some, EnvRec.put, binds_snoc, hb]
        congr 3
        cases ha : alGet (binds B) p with
        | none => rfl
        | some b => simp [binds_prot ha]
      have w₂ : WF (s₁.putVal le p v) := by have := op_WF (.bind le p v) s₁ w₁; rwa [hbind] at this
      obtain ⟨s', e2, q2, w2, hr'⟩ := ih ps (B ++ [(p, v)]) (by simpa using hlen) (quiet_putVal (q.trans q1) hle p v) w₂ hr₂ rfl
      exact ⟨s', .next e1 hbind e2, q2, w2, by simpa using hr'⟩

theorem pushEnv_quiet (s : Store) (p : Nat) (pr : EnvRec) (f : Option Nat) (name : String) (B : List (String × Data)) : Quiet s (pushEnv s p pr f name B) :=
  ⟨⟨_, rfl⟩, ⟨rfl, fun _ fr h => ⟨fr.slot, h⟩⟩, rfl, rfl, rfl, rfl, rfl, rfl, rfl⟩

theorem pushEnv_WF (hw : WF s) {p : Nat} {pr : EnvRec} (h : s.envs[p]? = some pr) (f : Option Nat) (name : String) (B : List (String × Data)) :
    WF (pushEnv s p pr f name B) := by
  intro e r q he hq
  by_cases hlt : e < s.envs.length
  · rw [pushEnv_old _ _ _ _ _ _ hlt] at he; exact hw e r q he hq
  · have hlen : e < (pushEnv s p pr f name B).envs.length := (List.getElem?_eq_some_iff.mp he).1
    obtain rfl : e = s.envs.length := by simp [pushEnv] at hlen; omega
    rw [pushEnv_top] at he
    cases he
    cases hq
    exact (List.getElem?_eq_some_iff.mp h).1

theorem find?_reverse_nodup {ps : List String} (hn : ps.Nodup) (vs : List Data) (x : String) :
    (ps.zip vs).reverse.find? (·.1 == x) = (ps.zip vs).find? (·.1 == x) := by
  induction ps generalizing vs with
  | nil => rfl
  | cons p ps ih =>
    cases vs with
    | nil => rfl
    | cons v vs =>
      obtain ⟨hp, hn⟩ := List.nodup_cons.mp hn
      simp only [List.zip_cons_cons, List.reverse_cons, List.find?_append, List.find?_cons, List.find?_nil, ih hn vs]
      by_cases hx : p = x
      · subst hx
        rw [List.find?_eq_none.mpr]
        · simp
        · intro q hq h
          have : q.1 = p := by simpa using h
          exact hp (this ▸ (List.of_mem_zip hq).1)
      · have : (p == x) = false := by simpa using hx
        simp only [this]
        cases List.find? (fun x_1 => x_1.1 == x) (ps.zip vs) <;> rfl

/-- The new environment holds the parameters. -/
theorem alGet_params {ps : List String} (hn : ps.Nodup) (vs : List Data) {B : List (String × Data)} (hB : ∀ p ∈ B, p.1 = "self") {x : String}
    (hx : x ≠ "self") : alGet (binds (B ++ ps.zip vs)) x = (varsOf ps vs x).map (⟨·, false⟩) := by
  rw [alGet_binds, List.reverse_append, List.find?_append, find?_reverse_nodup hn]
  have : B.reverse.find? (·.1 == x) = none := by
    rw [List.find?_eq_none]
    intro p hp h
    exact hx ((by simpa using h : p.1 = x) ▸ hB p (by simpa using hp))
  simp only [this, Option.or_none, varsOf, Option.map_map]
  rfl

theorem selfBind_names (s : Store) (slot : Bool) (frame : Option Nat) (ae : Nat) : ∀ p ∈ selfBind s slot frame ae, p.1 = "self" := by
  intro p hp
  unfold selfBind at hp
  repeat' split at hp
  all_goals simp at hp
  all_goals simp [hp]

/-! ### Primitives -/

private theorem operator {x : String} (h1 : isNaked (sym x) = false) (h2 : ∀ t, shortcuts (cons (sym x) t) = cons (sym x) t) : Operator x := ⟨h1, h2⟩

private theorem noNull_ne {d : Data} (h : d ≠ null) : noNull d = d := by cases d <;> first | rfl | exact absurd rfl h

private theorem isEqual_int [FrEq] (a b : BitVec 64) : isEqual (int a) (int b) = decide (a = b) := by
  simp only [isEqual, isEqualN]
  by_cases h : a = b <;> simp [atomEq, h]

private theorem isEqual_syms [FrEq] (a b : String) : isEqual (sym a) (sym b) = decide (a = b) := by
  cases h : decide (a = b) with
  | true => exact (isEqual_sym _ _).mpr (by simpa using h)
  | false =>
    rw [Bool.eq_false_iff]
    intro h'
    have := (isEqual_sym _ _).mp h'
    simp_all

private theorem chain_ofArray {l : Data} {xs : List Data} (h : Chain l xs) (hn : Data.null ∉ xs) (hne : xs ≠ []) : ofArray xs = l := by
  have key : ∀ {l : Data} {xs : List Data}, Chain l xs → Data.null ∉ xs → listWithTail xs null = l := by
    intro l xs h
    induction h with
    | nil => intro _; rfl
    | cons h ih =>
      intro hn
      simp only [List.mem_cons, not_or] at hn
      simp only [listWithTail, ih hn.2, noNull_ne (Ne.symm hn.1)]
  cases xs with
  | nil => exact absurd rfl hne
  | cons x xs => exact key h hn

/-- The program only looks at the state and gives the value. -/
inductive Plain : Prog Data → Data → Prop where
  | ret {v} : Plain (.ret v) v
  | look {k v} : (∀ s, k s = pure v) → Plain (.get k) v

theorem Plain.runs {p : Prog Data} {v : Data} (h : Plain p v) (s : Store) : RunsP (body C) p s (.ok v) s := by
  induction h with
  | ret => exact runsP_ret.mpr ⟨rfl, rfl⟩
  | look h => exact runsP_get.mpr (by rw [h s]; exact runsP_pure.mpr ⟨rfl, rfl⟩)

private theorem runs_value {p : Prog Data} {v : Data} (h : p = pure v) : Plain p v := by
  rw [h]; exact .ret

private theorem notNull {l x : Data} {xs : List Data} (h : Lst l (x :: xs)) : noNull l = l := by cases h; rfl

set_option maxRecDepth 20000 in
/-- The primitives of the textbook language do what it says, without touching the state. -/
theorem primitive_ok {x : String} {vs : List Data} {v : Data} (h : Primitive x vs v) : x ∈ purePrims ∧ ∃ P, (std C.host).prims x = some P ∧
    P.special = false ∧ P.restricted = false ∧ Arity.checkArgumentCount (Arity.parseNumArgs P.args) vs.length = true ∧
    Operator x ∧ x ≠ "self" ∧ ∀ e : Nat, Plain (P.body (ofArray vs) e) v := by
  cases h with
  | @add a b =>
    refine ⟨by simp [purePrims], _, rfl, rfl, rfl, rfl, operator rfl fun _ => rfl, by simp, fun e => runs_value ?_⟩
    show (pure (int (0 + a + b)) : Prog Data) = _
    simp
  | @sub a b => exact ⟨by simp [purePrims], _, rfl, rfl, rfl, rfl, operator rfl fun _ => rfl, by simp, fun e => runs_value rfl⟩
  | @mul a b =>
    refine ⟨by simp [purePrims], _, rfl, rfl, rfl, rfl, operator rfl fun _ => rfl, by simp, fun e => runs_value ?_⟩
    show (pure (int (1 * a * b)) : Prog Data) = _
    simp
  | @less a b ha hb =>
    refine ⟨by simp [purePrims], _, rfl, rfl, rfl, rfl, operator rfl fun _ => rfl, by simp, fun e => runs_value ?_⟩
    show Prog.ofOut (Prim.lessThan (int a) (int b)) = _
    rw [(Props.C21_exact_partial a b ha hb).1]
    rfl
  | @greater a b ha hb =>
    refine ⟨by simp [purePrims], _, rfl, rfl, rfl, rfl, operator rfl fun _ => rfl, by simp, fun e => runs_value ?_⟩
    show Prog.ofOut (Prim.greaterThan (int a) (int b)) = _
    rw [(Props.C21_exact_partial a b ha hb).2.1]
    rfl
  | @sameInt x a b hx =>
    rcases hx with rfl | rfl | rfl
    all_goals
      refine ⟨by simp [purePrims], _, rfl, rfl, rfl, rfl, operator rfl fun _ => rfl, by simp, fun e => .look fun s => ?_⟩
      rw [← @isEqual_int (Frame.eqIn s.frames)]
      rfl
  | @sameSym x a b hx =>
    rcases hx with rfl | rfl | rfl
    all_goals
      refine ⟨by simp [purePrims], _, rfl, rfl, rfl, rfl, operator rfl fun _ => rfl, by simp, fun e => .look fun s => ?_⟩
      rw [← @isEqual_syms (Frame.eqIn s.frames)]
      rfl
  | @not a => exact ⟨by simp [purePrims], _, rfl, rfl, rfl, rfl, operator rfl fun _ => rfl, by simp, fun e => runs_value (by cases a <;> rfl)⟩
  | @cons a d ha hd =>
    refine ⟨by simp [purePrims], _, rfl, rfl, rfl, rfl, operator rfl fun _ => rfl, by simp, fun e => runs_value ?_⟩
    show (pure (cons (noNull a) (noNull d)) : Prog Data) = _
    rw [noNull_ne ha, noNull_ne hd]
  | @list xs l hc hn hne =>
    refine ⟨by simp [purePrims], _, rfl, rfl, rfl, rfl, operator rfl fun _ => rfl, by simp, fun e => runs_value ?_⟩
    show (pure (ofArray vs) : Prog Data) = _
    rw [chain_ofArray hc hn hne]
  | @car l x xs hl =>
    refine ⟨by simp [purePrims], _, rfl, rfl, rfl, rfl, operator rfl fun _ => rfl, by simp, fun e => runs_value ?_⟩
    cases hl with
    | cons k a d xs h1 h2 h3 => cases k <;> first | rfl | exact absurd rfl h1 | exact absurd rfl h2
  | @cdr l x xs hl =>
    refine ⟨by simp [purePrims], _, rfl, rfl, rfl, rfl, operator rfl fun _ => rfl, by simp, fun e => runs_value ?_⟩
    rfl
  | @cadr l x y xs hl =>
    refine ⟨by simp [purePrims], _, rfl, rfl, rfl, rfl, operator rfl fun _ => rfl, by simp, fun e => runs_value ?_⟩
    cases hl with
    | cons k a d xs h1 h2 h3 => cases h3 with | cons k' a' d' xs' h1' h2' h3' => cases k <;> cases k' <;> first | rfl | exact absurd rfl h2 | exact absurd rfl h2'
  | @caddr l x y z xs hl =>
    refine ⟨by simp [purePrims], _, rfl, rfl, rfl, rfl, operator rfl fun _ => rfl, by simp, fun e => runs_value ?_⟩
    cases hl with
    | cons k a d xs h1 h2 h3 => cases h3 with
      | cons k' a' d' xs' h1' h2' h3' => cases h3' with
        | cons k'' a'' d'' xs'' h1'' h2'' h3'' =>
          cases k <;> cases k' <;> cases k'' <;> first | rfl | exact absurd rfl h2 | exact absurd rfl h2' | exact absurd rfl h2''
  | @empty x l hx hl =>
    rcases hx with rfl | rfl
    all_goals
      refine ⟨by simp [purePrims], _, rfl, rfl, rfl, rfl, operator rfl fun _ => rfl, by simp, fun e => runs_value ?_⟩
      cases hl <;> rfl
  | @notEmpty x l y ys hx hl =>
    rcases hx with rfl | rfl
    all_goals
      refine ⟨by simp [purePrims], _, rfl, rfl, rfl, rfl, operator rfl fun _ => rfl, by simp, fun e => runs_value ?_⟩
      cases hl with
      | cons k a d xs h1 h2 h3 =>
        show (pure (bool (isNil (cell k y d))) : Prog Data) = _
        rw [(isNil_cell_false k y d).mpr h1]
  | @pair x a d hx =>
    rcases hx with rfl | rfl
    all_goals exact ⟨by simp [purePrims], _, rfl, rfl, rfl, rfl, operator rfl fun _ => rfl, by simp, fun e => runs_value rfl⟩
  | @notPair x a hx =>
    rcases hx with rfl | rfl
    all_goals exact ⟨by simp [purePrims], _, rfl, rfl, rfl, rfl, operator rfl fun _ => rfl, by simp, fun e => runs_value rfl⟩
  | @symbol a => exact ⟨by simp [purePrims], _, rfl, rfl, rfl, rfl, operator rfl fun _ => rfl, by simp, fun e => runs_value rfl⟩
  | @notSymbol v hv =>
    refine ⟨by simp [purePrims], _, rfl, rfl, rfl, rfl, operator rfl fun _ => rfl, by simp, fun e => runs_value ?_⟩
    cases v with
    | atom a => cases a <;> first | rfl | exact absurd rfl (hv _)
    | _ => rfl
  | @number a => exact ⟨by simp [purePrims], _, rfl, rfl, rfl, rfl, operator rfl fun _ => rfl, by simp, fun e => runs_value rfl⟩
  | @notNumber v hv hv' =>
    refine ⟨by simp [purePrims], _, rfl, rfl, rfl, rfl, operator rfl fun _ => rfl, by simp, fun e => runs_value ?_⟩
    cases v with
    | atom a => cases a <;> first | rfl | exact absurd rfl (hv _) | exact absurd rfl (hv' _)
    | _ => rfl

end Golisp.Ev
