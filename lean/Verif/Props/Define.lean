import Verif.PureLemmas
import Verif.Demo
/- C33, C75: what the definition of a function does. -/
namespace Golisp.Props
open Golisp Data Ev Spec

variable {C : Conf} {Γ : Defs} {s s' : Store} {g e : Nat} {r : Out Data}

private theorem lst_args {xs : List Data} (hn : Data.null ∉ xs) : Lst (ofArray xs) xs := by
  have := Lst.ofArray xs; rwa [map_elem_id hn] at this

private theorem free_replaceable {f : String} (h : Free s e f) : Replaceable s e f := fun k b hv => by
  obtain ⟨rfl, hp, i, fr, hb, hi⟩ := h k b hv
  exact ⟨fun _ => hp, by rw [hb]; rfl, fun j hj => ⟨fr, by rw [hb] at hj; cases hj; exact hi⟩⟩

private theorem oldValue (hw : WF s) (hfr : s.frameOf e = none) {f : String} (hf : Replaceable s e f) :
    ∃ s₁ v, Quiet s s₁ ∧ isPrim v = false ∧ RunsP (body C) (valueOf C.host false f e) s (.ok v) s₁ := by
  cases h : s.find e f with
  | none =>
    refine ⟨s, emptyCons, Quiet.refl s, rfl, ?_⟩
    have hl : s.localB e f = none := by
      cases hl : s.localB e f with
      | none => rfl
      | some b => exact absurd (.here hl) ((find_none_iff hw).mp h _ b)
    rw [valueOf, runsP_get]
    simp only [hl, slotOf, hfr, h]
    exact runsP_pure.mpr ⟨rfl, rfl⟩
  | some q =>
    obtain ⟨k, b⟩ := q
    have hv := (find_iff hw).mp h
    obtain ⟨_, hp, hi⟩ := hf k b hv
    obtain ⟨v, p⟩ := b
    cases hfn : isFunc v with
    | false => exact ⟨s, v, Quiet.refl s, hp, (runsP_valueOf hw false hv (fun _ => noSlot_of hfr f) hfn).mpr ⟨rfl, rfl⟩⟩
    | true =>
      obtain ⟨i, rfl⟩ : ∃ i, v = .atom (.func i) := by
        cases v with
        | atom a => cases a <;> first | exact ⟨_, rfl⟩ | cases hfn
        | _ => cases hfn
      obtain ⟨fr, hi⟩ := hi i rfl
      obtain ⟨s₁, t, q1, _, h1⟩ := runsP_valueOf_fn (H := C.host) (bd := body C) hw false hv (fun _ => noSlot_of hfr f) hi
      exact ⟨s₁, _, q1, rfl, h1⟩

/-- `(define (f . params) body …)`: a new function, closed over this environment, is bound in this environment.  What the name
means further out does not matter, unless it is a primitive. -/
theorem C33_define_local (hw : WF s) (hm : Means C s e "define") (hfr : s.frameOf e = none) (he : e < s.envs.length) {t params : Data} {f : String}
    {bs : List Data} (ht : Lst t (.cons (.sym f) params :: bs)) (hn : Data.null ∉ bs) (hf : Replaceable s e f) :
    ∃ s₁ fr, Quiet s s₁ ∧ fr.env = e ∧ fr.name = f ∧ fr.params = params ∧ Lst fr.body bs ∧ fr.slot = false ∧
      ∀ r s', Evals C (.cons (.sym "define") t) e s r s' ↔ r = .ok (.atom (.func s.fns.length)) ∧
        s' = ({ s₁ with fns := s₁.fns ++ [fr] } : Store).putVal e f (.atom (.func s.fns.length)) := by
  have hl : Lst (ofArray (.cons (.sym f) params :: bs)) (.cons (.sym f) params :: bs) := lst_args (by simpa using hn)
  obtain ⟨s₁, v, q1, hv, h1⟩ := oldValue (C := C) hw hfr hf
  refine ⟨s₁, ⟨f, params, cdr (ofArray (.cons (.sym f) params :: bs)), e, false⟩, q1, rfl, rfl, rfl, cdr_Lst hl, rfl, fun r s' => ?_⟩
  rw [evals_form (P := ⟨">=1".toList, true, false, defineImpl C.host⟩) hw hm rfl (fun _ => rfl) rfl rfl rfl ht (count_ge1 (by simp))]
  have c1 : car (ofArray (.cons (.sym f) params :: bs)) = .cons (.sym f) params := by rw [car_Lst hl]; rfl
  show (∃ r₀, RunsP (body C) (defineImpl C.host (ofArray (.cons (.sym f) params :: bs)) e) s r₀ s' ∧ _) ↔ _
  have hrun : RunsP (body C) (defineImpl C.host (ofArray (.cons (.sym f) params :: bs)) e) s (.ok (.atom (.func s.fns.length)))
      (({ s₁ with fns := s₁.fns ++ [⟨f, params, cdr (ofArray (.cons (.sym f) params :: bs)), e, false⟩] } : Store).putVal e f (.atom (.func s.fns.length))) := by
    have c2 : car (.cons (.sym f) params) = .sym f := rfl
    have c3 : cdr (.cons (.sym f) params) = params := rfl
    have c5 : isPair (.cons (.sym f) params) = true := rfl
    simp only [defineImpl, c1, c2, c3, c5, isSym, stringValue, Bool.false_eq_true, if_false, if_true, Bool.not_true]
    refine runsP_bind.mpr (Or.inl ⟨v, s₁, h1, ?_⟩)
    simp only [hv, Bool.false_eq_true, if_false]
    refine runsP_bind.mpr (Or.inl ⟨_, _, runsP_mkFn.mpr ⟨rfl, rfl⟩, ?_⟩)
    rw [← q1.fns.1]
    refine (runsP_op_bind (n := 0) ?_).mpr (runsP_pure.mpr ⟨rfl, rfl⟩)
    simp only [Op.run]
    have hloc : ({ s₁ with fns := s₁.fns ++ [⟨f, params, cdr (ofArray (.cons (.sym f) params :: bs)), e, false⟩] } : Store).localB e f = s.localB e f :=
      q1.localB (List.getElem?_eq_getElem he) f
    cases hb : s.localB e f with
    | none => simp only [hloc, hb]
    | some b => simp [hloc, hb, (hf e b (.here hb)).1 rfl]
  constructor
  · rintro ⟨r₀, h, rfl⟩
    obtain ⟨rfl, rfl⟩ := runsP_det h hrun
    exact ⟨rfl, rfl⟩
  · rintro ⟨rfl, rfl⟩
    exact ⟨_, hrun, rfl⟩

/-- The same for a name that is unbound or bound to a function here. -/
theorem C33_define (hw : WF s) (hm : Means C s e "define") (hfr : s.frameOf e = none) (he : e < s.envs.length) {t params : Data} {f : String}
    {bs : List Data} (ht : Lst t (.cons (.sym f) params :: bs)) (hn : Data.null ∉ bs) (hf : Free s e f) :
    ∃ s₁ fr, Quiet s s₁ ∧ fr.env = e ∧ fr.name = f ∧ fr.params = params ∧ Lst fr.body bs ∧ fr.slot = false ∧
      ∀ r s', Evals C (.cons (.sym "define") t) e s r s' ↔ r = .ok (.atom (.func s.fns.length)) ∧
        s' = ({ s₁ with fns := s₁.fns ++ [fr] } : Store).putVal e f (.atom (.func s.fns.length)) :=
  C33_define_local hw hm hfr he ht hn (free_replaceable hf)

/-- A name that denotes a primitive cannot be defined as a function, whatever environment the primitive is bound in. -/
theorem C33_define_primitive (hw : WF s) (hm : Means C s e "define") {t params : Data} {f : String} {bs : List Data}
    (ht : Lst t (.cons (.sym f) params :: bs)) (hn : Data.null ∉ bs) {y : String} {k : Nat} {p : Bool} (hv : Visible s e f k ⟨.atom (.prim y), p⟩)
    (hns : s.localB e f = none → NoSlot C.host s e f) :
    Evals C (.cons (.sym "define") t) e s r s' ↔
      r = .err (.evaling (.cons (.sym "define") t) (.msg ("Primitive function " ++ f ++ " can not be redefined."))) ∧ s' = s := by
  have hl : Lst (ofArray (.cons (.sym f) params :: bs)) (.cons (.sym f) params :: bs) := lst_args (by simpa using hn)
  rw [evals_form (P := ⟨">=1".toList, true, false, defineImpl C.host⟩) hw hm rfl (fun _ => rfl) rfl rfl rfl ht (count_ge1 (by simp))]
  have c1 : car (ofArray (.cons (.sym f) params :: bs)) = .cons (.sym f) params := by rw [car_Lst hl]; rfl
  show (∃ r₀, RunsP (body C) (defineImpl C.host (ofArray (.cons (.sym f) params :: bs)) e) s r₀ s' ∧ _) ↔ _
  have hrun : RunsP (body C) (defineImpl C.host (ofArray (.cons (.sym f) params :: bs)) e) s
      (.err (.msg ("Primitive function " ++ f ++ " can not be redefined."))) s := by
    have c2 : car (.cons (.sym f) params) = .sym f := rfl
    have c5 : isPair (.cons (.sym f) params) = true := rfl
    simp only [defineImpl, c1, c2, c5, isSym, stringValue, Bool.false_eq_true, if_false, if_true, Bool.not_true]
    refine runsP_bind.mpr (Or.inl ⟨_, s, (runsP_valueOf hw false hv hns rfl).mpr ⟨rfl, rfl⟩, ?_⟩)
    exact runsP_fail.mpr ⟨rfl, rfl⟩
  constructor
  · rintro ⟨r₀, h, rfl⟩
    obtain ⟨rfl, rfl⟩ := runsP_det h hrun
    exact ⟨rfl, rfl⟩
  · rintro ⟨rfl, rfl⟩
    exact ⟨_, hrun, rfl⟩

/-! ### Loading a program of the textbook language -/

private theorem visible_put {x f : String} {v : Data} {k : Nat} {b : Binding} (hne : x ≠ f) {e' : Nat} :
    Visible (s.putVal g f v) e' x k b ↔ Visible s e' x k b := by
  have hl : ∀ e', (s.putVal g f v).localB e' x = s.localB e' x := fun e' => by rw [putVal_localB, if_neg (by simp [hne])]
  have hp : ∀ e', (s.putVal g f v).parentOf e' = s.parentOf e' := by
    intro e'
    simp only [Store.parentOf, putVal_envs]
    by_cases h : e' = g
    · subst h
      cases h : s.envs[e']? <;> simp [EnvRec.put]
    · simp [h]
  clear hne
  constructor
  · intro h
    induction h with
    | here hb => exact .here (by rwa [hl] at hb)
    | up hn hpar _ ih => exact .up (by rwa [hl] at hn) (by rwa [hp] at hpar) (ih hl)
  · intro h
    induction h with
    | here hb => exact .here (by rwa [hl])
    | up hn hpar _ ih => exact .up (by rwa [hl]) (by rwa [hp]) (ih hl)

private theorem visible_fns {x : String} {fs : List FnRec} {k : Nat} {b : Binding} {e' : Nat} :
    Visible ({ s with fns := fs } : Store) e' x k b ↔ Visible s e' x k b := by
  constructor
  · intro h
    induction h with
    | here hb => exact .here hb
    | up hn hpar _ ih => exact .up hn hpar ih
  · intro h
    induction h with
    | here hb => exact .here hb
    | up hn hpar _ ih => exact .up hn hpar ih

private theorem visible_back {x : String} {k : Nat} {b : Binding} (q : Quiet s s') (hw : WF s) (hg : g < s.envs.length) (hv : Visible s' g x k b) : Visible s g x k b := by
  induction hv with
  | here hb =>
    rw [q.localB (List.getElem?_eq_getElem hg)] at hb
    exact .here hb
  | @up e x p f b hn hp hv ih =>
    rw [q.localB (List.getElem?_eq_getElem hg)] at hn
    have hp' : s.parentOf e = some p := by
      simp only [Store.parentOf, q.env (List.getElem?_eq_getElem hg)] at hp
      simp only [Store.parentOf, List.getElem?_eq_getElem hg]
      exact hp
    obtain ⟨r, hr, hrp⟩ := parentOf_some hp'
    have := hw e r p hr hrp
    exact .up hn hp' (ih (by omega))

/-- Defining a function adds it to the program. -/
theorem C75_define {d : Data} {f : String} {D : Defn} (hd : Defines d f D) (hw : WF s) (hi : Implements C Γ s g) (hm : Means C s g "define")
    (hf : Free s g f) (hself : f ≠ "self") (hop : Operator f) :
    ∃ s', (∀ r s'', Evals C d g s r s'' ↔ r = .ok (.atom (.func s.fns.length)) ∧ s'' = s') ∧ WF s' ∧ Implements C (Γ.add f D) s' g ∧
      (∀ x, Means C s g x → Means C s' g x) ∧ ∀ h, Free s g h → Free s' g h := by
  obtain ⟨ht, hb, hps, hnd⟩ := hd
  obtain ⟨rg, hrg, hfg⟩ := hi.exists_
  have hlt : g < s.envs.length := (List.getElem?_eq_some_iff.mp hrg).1
  obtain ⟨s₁, fr, q, h1, _, h3, h4, _, hrun⟩ := C33_define hw hm hi.frame hlt ht (by simpa using Ne.symm hb) hf
  refine ⟨_, hrun, ?_⟩
  have hE := (hrun _ _).mpr ⟨rfl, rfl⟩
  have w' := evals_WF hw hE
  have hrg₁ : s₁.envs[g]? = some rg := q.env hrg
  have hfrg : (Store.putVal { s₁ with fns := s₁.fns ++ [fr] } g f (.atom (.func s.fns.length))).frameOf g = none := by
    simp [Store.frameOf, putVal_envs, hrg₁, EnvRec.put, hfg]
  have hvis : ∀ {x k b}, x ≠ f → (Visible (Store.putVal { s₁ with fns := s₁.fns ++ [fr] } g f (.atom (.func s.fns.length))) g x k b ↔ Visible s g x k b) := by
    intro x k b hx
    rw [visible_put hx, visible_fns]
    exact ⟨visible_back q hw hlt, q.visible⟩
  have hmeans : ∀ {x}, x ≠ f → Means C s g x → Means C (Store.putVal { s₁ with fns := s₁.fns ++ [fr] } g f (.atom (.func s.fns.length))) g x := by
    rintro x hx ⟨⟨k, p, hv⟩, _, hs⟩
    exact ⟨⟨k, p, (hvis hx).mpr hv⟩, fun _ => noSlot_of hfrg x, hs⟩
  have hnot : ∀ {x}, Means C s g x → x ≠ f := by
    rintro x ⟨⟨k, p, hv⟩, _, _⟩ rfl
    obtain ⟨_, _, i, fr, h, _⟩ := hf k _ hv
    cases h
  have hprot : ∀ b, s₁.localB g f = some b → b.prot = false := by
    intro b hb
    rw [q.localB hrg] at hb
    exact (hf g b (.here hb)).2.1
  have hlast : (Store.putVal { s₁ with fns := s₁.fns ++ [fr] } g f (.atom (.func s.fns.length))).fns[s.fns.length]? = some fr := by
    rw [(putVal_rest ..).1, ← q.fns.1]
    simp
  have hold : ∀ {i : Nat} {fr' : FnRec}, s.fns[i]? = some fr' →
      ∃ b, (Store.putVal { s₁ with fns := s₁.fns ++ [fr] } g f (.atom (.func s.fns.length))).fns[i]? = some ({ fr' with slot := b } : FnRec) := by
    intro i fr' hi'
    obtain ⟨b, hb⟩ := q.fns.2 i fr' hi'
    exact ⟨b, by rw [(putVal_rest ..).1]; exact getElem?_append_of_some hb _⟩
  have hhere : ∃ p : Bool, p = false ∧ (Store.putVal { s₁ with fns := s₁.fns ++ [fr] } g f (.atom (.func s.fns.length))).localB g f = some ⟨.atom (.func s.fns.length), p⟩ := by
    rw [putVal_localB]
    simp only [and_self, if_true, hrg₁, Option.map_some]
    refine ⟨_, ?_, rfl⟩
    cases hal : alGet rg.binds f with
    | none => rfl
    | some b => exact hprot b (by simp [Store.localB, hrg₁, hal])
  obtain ⟨p₀, hp₀, hhere⟩ := hhere
  refine ⟨w', ⟨⟨rg.put f (.atom (.func s.fns.length)), by simp [putVal_envs, hrg₁], hfg⟩, fun x hx => hmeans (hnot (hi.forms x hx)) (hi.forms x hx), ?_, ?_, ?_⟩,
    fun x h => hmeans (hnot h) h, ?_⟩
  · intro x hx hg
    have hxf : x ≠ f := by rintro rfl; simp [Defs.add] at hg
    simp only [Defs.add, hxf, if_false] at hg
    exact hmeans hxf (hi.prims x hx hg)
  · intro x D' hg
    simp only [Defs.add] at hg
    split at hg
    · next h => cases hg; subst h; exact ⟨hself, hop, hnd⟩
    · exact hi.names x D' hg
  · intro x D' hg
    simp only [Defs.add] at hg
    split at hg
    · next h =>
      cases hg; subst h
      exact ⟨_, fr, g, p₀, .here hhere, hlast, h1, by rw [h3]; exact hps, h4⟩
    · next h =>
      obtain ⟨i, fr', k, p, hv, hi', h5, h6, h7⟩ := hi.functions x D' hg
      obtain ⟨b, hb⟩ := hold hi'
      exact ⟨i, _, k, p, (hvis h).mpr hv, hb, h5, h6, h7⟩
  · intro h hfree k b hv
    by_cases hh : h = f
    · subst hh
      cases hv with
      | here hb => rw [hhere] at hb; cases hb; exact ⟨rfl, hp₀, _, fr, rfl, hlast⟩
      | up hn _ _ => rw [hhere] at hn; cases hn
    · obtain ⟨e1, e2, i, fr', e3, e4⟩ := hfree k b ((hvis hh).mp hv)
      obtain ⟨b', hb'⟩ := hold e4
      exact ⟨e1, e2, i, _, e3, hb'⟩

/-- Evaluating the definitions of a program in order puts the program in place. -/
theorem C75_load {ds : List Data} {prog : List (String × Defn)} (hds : Program ds prog) (hw : WF s)
    (hi : Implements C Γ s g) (hm : Means C s g "define") (hf : ∀ p ∈ prog, Free s g p.1 ∧ p.1 ≠ "self" ∧ Operator p.1) {u : Data} :
    ∃ v s', (∀ r s'', Seq C g ds u s r s'' ↔ r = .ok v ∧ s'' = s') ∧ WF s' ∧ Implements C (Γ.addAll prog) s' g ∧
      ∀ x, Means C s g x → Means C s' g x := by
  induction hds generalizing s Γ u with
  | nil =>
    refine ⟨u, s, fun r s'' => ⟨fun h => by cases h; exact ⟨rfl, rfl⟩, ?_⟩, hw, hi, fun _ h => h⟩
    rintro ⟨rfl, rfl⟩; exact .done
  | @cons d ds f D prog hd _ ih =>
    obtain ⟨h1, h2, h3⟩ := hf (f, D) List.mem_cons_self
    obtain ⟨s₁, hE, w1, i1, m1, f1⟩ := C75_define hd hw hi hm h1 h2 h3
    obtain ⟨v, s', hS, w', i', m'⟩ := ih w1 i1 (m1 _ hm) (fun p hp => by
      obtain ⟨h1, h2, h3⟩ := hf p (List.mem_cons_of_mem _ hp)
      exact ⟨f1 _ h1, h2, h3⟩) (u := .atom (.func s.fns.length))
    refine ⟨v, s', fun r s'' => ?_, w', i', fun x h => m' x (m1 x h)⟩
    rw [← hS]
    constructor
    · intro h
      cases h with
      | next h1 h2 => obtain ⟨h, rfl⟩ := (hE _ _).mp h1; cases h; exact h2
      | stop h1 h2 => obtain ⟨rfl, _⟩ := (hE _ _).mp h1; exact absurd trivial h2
    · intro h
      exact .next ((hE _ _).mpr ⟨rfl, rfl⟩) h

/-! A new name can be defined in the initial state; `car` denotes a primitive there, bound in the enclosing environment. -/
example : Means Demo.C Demo.s 1 "define" ∧ Demo.s.frameOf 1 = none ∧ Free Demo.s 1 "twice" := by
  refine ⟨Demo.means _ (b := true) (by decide +kernel), rfl, fun k b hv => ?_⟩
  cases hv with
  | here hb => cases hb
  | up _ hp hv =>
    cases hp
    cases hv with
    | here hb => rw [show Demo.s.localB 0 "twice" = none by decide +kernel] at hb; cases hb
    | up _ hp _ => cases hp
example : Visible Demo.s 1 "car" 0 ⟨.atom (.prim "car"), true⟩ := .up rfl rfl (.here (by decide +kernel))
example : Demo.Ends "(begin (define (twice x) (* 2 x)) (twice 4))" (.ok (.int 8)) := Demo.ends 30 (by decide +kernel) (by simp)
/-! Inside a procedure a name of the top level can be taken again, for the inside only. -/
example : Demo.Ends "(begin (define (twice x) (* 2 x)) (define (f x) (define (twice x) (+ x 100)) (twice x)) (list (f 1) (twice 1)))" (.ok (Demo.code "(101 2)")) :=
  Demo.ends 40 (by decide +kernel) (by simp)
example : Replaceable Demo.s 1 "twice" := by
  intro k b hv
  cases hv with
  | here hb => cases hb
  | up _ hp hv =>
    cases hp
    cases hv with
    | here hb => rw [show Demo.s.localB 0 "twice" = none by decide +kernel] at hb; cases hb
    | up _ hp _ => cases hp
/-- `(define (twice x) (* 2 x))` as a definition of the textbook language. -/
example : Defines (Demo.code "(define (twice x) (* 2 x))") "twice" ⟨["x"], Demo.code "(* 2 x)"⟩ := by
  have h1 : Demo.code "(define (twice x) (* 2 x))" =
      .cons (.sym "define") (.cons (.cons (.sym "twice") (.cons (.sym "x") .null)) (.cons (Demo.code "(* 2 x)") .null)) := by decide +kernel
  have h2 : Demo.code "(* 2 x)" ≠ .null := by decide +kernel
  rw [h1]
  exact .function (Lst.cons' (.inl nofun) (Lst.cons' (.inl h2) .null)) h2 (.cons (.none .null)) (by decide)

end Golisp.Props
