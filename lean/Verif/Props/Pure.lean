import Verif.PureLemmas
/- C75: the interpreter computes the values of the textbook language. -/
namespace Golisp.Props
open Golisp Data Ev Spec

variable {C : Conf} {Γ : Defs} {ρ : Vars} {s s' : Store} {g e : Nat}

private theorem evalsLit {a : Atom} (h : ∀ x, a ≠ .sym x) : Evals C (.atom a) e s (.ok (.atom a)) s := by
  unfold Evals
  rw [runs_iff]
  cases a <;> first | exact runsP_pure.mpr ⟨rfl, rfl⟩ | exact absurd rfl (h _)

private theorem evals_quote (hw : WF s) (hm : Means C s e "quote") {t d : Data} (ht : Lst t [d]) (hd : d ≠ .null) :
    Evals C (.cons (.sym "quote") t) e s (.ok d) s := by
  rw [evals_form (P := ⟨"1".toList, true, false, quoteImpl⟩) hw hm rfl (fun _ => rfl) rfl rfl rfl ht (by rfl)]
  refine ⟨.ok d, ?_, rfl⟩
  have : noNull (car (ofArray [d])) = d := by cases d <;> first | rfl | exact absurd rfl hd
  show RunsP (body C) (pure (noNull (car (ofArray [d])))) s (.ok d) s
  rw [this]
  exact runsP_pure.mpr ⟨rfl, rfl⟩

private theorem seq_one {x v u : Data} (h : Evals C x e s (.ok v) s') : Seq C e [x] u s (.ok v) s' := .next h .done

private theorem unquote_ok {d v : Data} {r : Out Data} (h : .ok v = quoting d r) : r = .ok v := by
  cases r <;> simp_all [quoting]

private theorem letBindings_length {d : Data} {xs : List String} {inits : List Data} (h : LetBindings d xs inits) : xs.length = inits.length := by
  induction h with
  | nil => rfl
  | cons _ _ ih => simp [ih]

private theorem lets_ok {xs : List String} {inits vs : List Data} (h : Stables C Γ g ρ inits vs) (hl : xs.length = inits.length) (hn : xs.Nodup)
    (hw : WF s) (hi : Implements C Γ s g) (hin : Inside s g ρ e) {b w : Data} (hb : Stable C Γ g (inner (varsOf xs vs) ρ) b w) :
    ∃ s', LetRuns C e "let" [] e xs inits [b] s (.ok w) s' ∧ Quiet s s' := by
  obtain ⟨rg, hrg, hfg⟩ := hi.exists_
  obtain ⟨pr, hpr⟩ := hin.env ⟨rg, hrg⟩
  have hpf : pr.frame = none := by have := hin.frame hi.frame; simpa [Store.frameOf, hpr] using this
  obtain ⟨s₁, h1, q1, w1, hr1⟩ := stables_binds h (s₀ := s) (Nat.le_refl _) hi hin xs [] hl (pushEnv_quiet s e pr none "let" [])
    (pushEnv_WF hw hpr none "let" []) (pushEnv_top s e pr none "let" []) rfl
  have hin' : Inside s₁ g (inner (varsOf xs vs) ρ) s.envs.length := by
    refine .child (hin.quiet q1) (by simp [Store.parentOf, hr1]) (by simp [Store.frameOf, hr1, hpf]) fun x hx => ?_
    simp only [Store.localB, hr1]
    exact alGet_params hn vs (B := []) (by simp) hx
  obtain ⟨s₂, h2, q2⟩ := hb s₁ _ w1 (hi.quiet q1) hin'
  exact ⟨s₂, .run hpr h1 (seq_one h2), q1.trans q2⟩

private theorem prim_ok (hw : WF s) (hi : Implements C Γ s g) (hin : Inside s g ρ e) {x : String} (hx : ρ x = none) (hg : Γ x = none)
    {t v : Data} {xs vs : List Data} (ht : Lst t xs) (h : Stables C Γ g ρ xs vs) (hp : Primitive x vs v) :
    ∃ s', Evals C (.cons (.sym x) t) e s (.ok v) s' ∧ Quiet s s' := by
  obtain ⟨hmem, P, hP, hsp, hre, hc, ⟨hnk, hsh⟩, hself, hrun⟩ := primitive_ok (C := C) hp
  have hm := means_inside hin hi.frame hself hx (hi.prims x hmem hg)
  obtain ⟨s₁, h1, q1, w1⟩ := stables_args h hw hi hin
  refine ⟨s₁, (C32_primitive (hsh t) (by simp) (evalsOp_sym hw hm hnk) (hm.isStd.trans hP) hsp (by simp [hre]) ht (by rw [h.length]; exact hc)).mpr
    ⟨.ok v, rfl, Or.inl ⟨vs, s₁, h1, (hrun e).runs s₁⟩⟩, q1⟩

private theorem call_ok (hw : WF s) (hi : Implements C Γ s g) (hin : Inside s g ρ e) {f : String} {D : Defn} (hx : ρ f = none) (hg : Γ f = some D)
    {t v : Data} {xs vs : List Data} (ht : Lst t xs) (h : Stables C Γ g ρ xs vs) (hl : vs.length = D.params.length)
    (hb : Stable C Γ g (varsOf D.params vs) D.body v) : ∃ s', Evals C (.cons (.sym f) t) e s (.ok v) s' ∧ Quiet s s' := by
  obtain ⟨hself, ⟨hnk, hsh⟩, hnd⟩ := hi.names f D hg
  obtain ⟨i, fr, k, p, hv, hfr, henv, hps, hbd⟩ := hi.functions f D hg
  obtain ⟨s₁, sl, q1, hfr₁, hop⟩ := evalsOp_fn (C := C) hw (hin.global hself hx hv) (hin.frame hi.frame) hnk hfr
  have w1 : WF s₁ := runs_keeps keeps_WF hop hw
  have hi₁ := hi.quiet q1
  have hin₁ := hin.quiet q1
  obtain ⟨pr, hpr, hpf⟩ := hi₁.exists_
  have hframe : frameFor s₁ sl e = none := by simp only [frameFor, hin₁.frame hi₁.frame]; split <;> rfl
  let B := selfBind s₁ sl none e
  obtain ⟨s₂, h2, q2, w2, hr2⟩ := stables_binds h (s₀ := s₁) (Nat.le_refl _) hi₁ hin₁ D.params B (by rw [← hl, h.length])
    (pushEnv_quiet s₁ g pr none fr.name B) (pushEnv_WF w1 hpr none fr.name B) (pushEnv_top s₁ g pr none fr.name B) rfl
  have hin₂ : Inside s₂ g (varsOf D.params vs) s₁.envs.length := by
    have : varsOf D.params vs = inner (varsOf D.params vs) noVars := by funext x; simp [inner, noVars]
    rw [this]
    refine .child .top (by simp [Store.parentOf, hr2]) (by simp [Store.frameOf, hr2, hpf]) fun x hx => ?_
    simp only [Store.localB, hr2]
    exact alGet_params hnd vs (selfBind_names _ _ _ _) hx
  obtain ⟨s₃, h3, q3⟩ := hb s₂ _ w2 (hi₁.quiet q2) hin₂
  refine ⟨s₃, (C32_user (hsh t) (by simp) hop hfr₁ ?_ ht).mpr ⟨.ok v, rfl, ?_⟩, q1.trans (q2.trans q3)⟩
  · exact ⟨⟨pr, by rw [← henv] at hpr; exact hpr⟩, ⟨D.params, none, hps, fun _ => rfl⟩, ⟨_, hbd⟩⟩
  · have := CallsG.run (C := C) (G := fun a => Evals C a e) (i := i) (xs := xs) (ae := e) (frame := none) (s := s₁) (fr := { fr with slot := sl }) (pr := pr)
      (ps := D.params) (rest := none) (bs := [D.body]) (s₁ := s₂) (r := .ok v) (s' := s₃) hfr₁ (by simpa [henv] using hpr) hps hbd
      (by simp only [Fits]; rw [← hl, h.length]) (by simpa [henv] using h2) (seq_one h3)
    rw [hframe]
    exact this

mutual
private theorem stable {d v : Data} {ρ : Vars} (h : Value Γ ρ d v) : Stable C Γ g ρ d v := by
  intro s e hw hi hin
  have hm : ∀ {x}, x ∈ pureForms → ρ x = none → Means C s e x := fun {x} hx h =>
    means_inside hin hi.frame (by rintro rfl; simp [pureForms] at hx) h (hi.forms x hx)
  match h with
  | .const ha => exact ⟨s, evalsLit ha, Quiet.refl s⟩
  | .var hx hs hk hf =>
    obtain ⟨f, p, hv⟩ := hin.var hs hx
    exact ⟨s, evals_var hw hv (hin.frame hi.frame) hk hf, Quiet.refl s⟩
  | .quote hq ht hd => exact ⟨s, evals_quote hw (hm (by simp [pureForms]) hq) ht hd, Quiet.refl s⟩
  | .ifTrue hq ht hn h1 hv h2 =>
    obtain ⟨s₁, e1, q1⟩ := stable h1 s e hw hi hin
    obtain ⟨s₂, e2, q2⟩ := stable h2 s₁ e (evals_WF hw e1) (hi.quiet q1) (hin.quiet q1)
    exact ⟨s₂, (C37_if hw (hm (by simp [pureForms]) hq) ht hn).mpr ⟨_, rfl, Or.inl ⟨_, s₁, e1, Or.inl ⟨hv, e2⟩⟩⟩, q1.trans q2⟩
  | .ifFalse hq ht hn h1 hv h2 =>
    obtain ⟨s₁, e1, q1⟩ := stable h1 s e hw hi hin
    obtain ⟨s₂, e2, q2⟩ := stable h2 s₁ e (evals_WF hw e1) (hi.quiet q1) (hin.quiet q1)
    exact ⟨s₂, (C37_if hw (hm (by simp [pureForms]) hq) ht hn).mpr ⟨_, rfl, Or.inl ⟨_, s₁, e1, Or.inr ⟨hv, e2⟩⟩⟩, q1.trans q2⟩
  | .condElse hq ht hc hb h1 =>
    obtain ⟨s₁, e1, q1⟩ := stable h1 s e hw hi hin
    refine ⟨s₁, (C37_cond hw (hm (by simp [pureForms]) hq) ht ?_).mpr ⟨_, rfl, .otherwise hb (seq_one e1)⟩, q1⟩
    rintro cl (_ | ⟨_, hcl⟩)
    · exact ⟨_, _, _, rfl, hb⟩
    · exact hc cl ‹_›
  | .condHit hq ht hc hne hb h1 hv h2 =>
    obtain ⟨s₁, e1, q1⟩ := stable h1 s e hw hi hin
    obtain ⟨s₂, e2, q2⟩ := stable h2 s₁ e (evals_WF hw e1) (hi.quiet q1) (hin.quiet q1)
    refine ⟨s₂, (C37_cond hw (hm (by simp [pureForms]) hq) ht ?_).mpr ⟨_, rfl, .hit hne e1 hv hb (seq_one e2)⟩, q1.trans q2⟩
    rintro cl (_ | ⟨_, hcl⟩)
    · exact ⟨_, _, _, rfl, hb⟩
    · exact hc cl ‹_›
  | .condMiss hq ht hc hne hb h1 hv ht' h2 =>
    obtain ⟨s₁, e1, q1⟩ := stable h1 s e hw hi hin
    have w1 := evals_WF hw e1
    obtain ⟨s₂, e2, q2⟩ := stable h2 s₁ e w1 (hi.quiet q1) (hin.quiet q1)
    have hm₁ : Means C s₁ e "cond" := means_inside (hin.quiet q1) (hi.quiet q1).frame (by simp) hq ((hi.quiet q1).forms _ (by simp [pureForms]))
    obtain ⟨r₀, hr, hcond⟩ := (C37_cond w1 hm₁ ht' hc).mp e2
    obtain rfl := unquote_ok hr
    refine ⟨s₂, (C37_cond hw (hm (by simp [pureForms]) hq) ht ?_).mpr ⟨_, rfl, .miss hne e1 hv hcond⟩, q1.trans q2⟩
    rintro cl (_ | ⟨_, hcl⟩)
    · exact ⟨_, _, _, rfl, hb⟩
    · exact hc cl ‹_›
  | .andLast hq ht hn h1 =>
    obtain ⟨s₁, e1, q1⟩ := stable h1 s e hw hi hin
    refine ⟨s₁, (C37_and hw (hm (by simp [pureForms]) hq) ht (by simpa using Ne.symm hn)).mpr ⟨.ok _, rfl, ?_⟩, q1⟩
    by_cases hv : Truthy v
    · exact .next e1 hv .done
    · exact .decided e1 hv
  | .andFalse hq ht hn h1 hv =>
    obtain ⟨s₁, e1, q1⟩ := stable h1 s e hw hi hin
    exact ⟨s₁, (C37_and hw (hm (by simp [pureForms]) hq) ht hn).mpr ⟨_, rfl, .decided e1 hv⟩, q1⟩
  | .andTrue hq ht hn h1 hv ht' h2 =>
    obtain ⟨s₁, e1, q1⟩ := stable h1 s e hw hi hin
    have w1 := evals_WF hw e1
    obtain ⟨s₂, e2, q2⟩ := stable h2 s₁ e w1 (hi.quiet q1) (hin.quiet q1)
    have hm₁ : Means C s₁ e "and" := means_inside (hin.quiet q1) (hi.quiet q1).frame (by simp) hq ((hi.quiet q1).forms _ (by simp [pureForms]))
    obtain ⟨r₀, hr, hall⟩ := (C37_and w1 hm₁ ht' (fun h => hn (by simp only [List.mem_cons] at h ⊢; exact Or.inr h))).mp e2
    obtain rfl := unquote_ok hr
    refine ⟨s₂, (C37_and hw (hm (by simp [pureForms]) hq) ht hn).mpr ⟨.ok _, rfl, .next e1 hv ?_⟩, q1.trans q2⟩
    cases hall with
    | next a b c => exact .next a b c
    | decided a b => exact .decided a b
    | stop a b => exact .stop a b
  | .orLast hq ht hn h1 =>
    obtain ⟨s₁, e1, q1⟩ := stable h1 s e hw hi hin
    refine ⟨s₁, (C37_or hw (hm (by simp [pureForms]) hq) ht (by simpa using Ne.symm hn)).mpr ⟨.ok _, rfl, ?_⟩, q1⟩
    by_cases hv : Truthy v
    · exact .decided e1 hv
    · exact .next e1 hv .done
  | .orTrue hq ht hn h1 hv =>
    obtain ⟨s₁, e1, q1⟩ := stable h1 s e hw hi hin
    exact ⟨s₁, (C37_or hw (hm (by simp [pureForms]) hq) ht hn).mpr ⟨_, rfl, .decided e1 hv⟩, q1⟩
  | .orFalse hq ht hn h1 hv ht' h2 =>
    obtain ⟨s₁, e1, q1⟩ := stable h1 s e hw hi hin
    have w1 := evals_WF hw e1
    obtain ⟨s₂, e2, q2⟩ := stable h2 s₁ e w1 (hi.quiet q1) (hin.quiet q1)
    have hm₁ : Means C s₁ e "or" := means_inside (hin.quiet q1) (hi.quiet q1).frame (by simp) hq ((hi.quiet q1).forms _ (by simp [pureForms]))
    obtain ⟨r₀, hr, hall⟩ := (C37_or w1 hm₁ ht' (fun h => hn (by simp only [List.mem_cons] at h ⊢; exact Or.inr h))).mp e2
    obtain rfl := unquote_ok hr
    refine ⟨s₂, (C37_or hw (hm (by simp [pureForms]) hq) ht hn).mpr ⟨.ok _, rfl, .next e1 hv ?_⟩, q1.trans q2⟩
    cases hall with
    | next a b c => exact .next a b c
    | decided a b => exact .decided a b
    | stop a b => exact .stop a b
  | .letIn hq ht hbd hne hb hnd h1 h2 =>
    have hl := letBindings_length hbd
    obtain ⟨s₁, h3, q⟩ := lets_ok (stables h1) hl hnd hw hi hin (stable h2)
    refine ⟨s₁, (C38_let hw (hm (by simp [pureForms]) hq) ht ?_ hbd (fun h => absurd h hne)).mpr ⟨_, rfl, h3⟩, q⟩
    rintro (_ | ⟨_, h⟩)
    · cases hbd; exact absurd rfl hne
    · cases h with
      | head => exact hb rfl
      | tail _ h => cases h
  | .prim hx hg ht h1 hp => exact prim_ok hw hi hin hx hg ht (stables h1) hp
  | .call hx hg ht h1 hl h2 => exact call_ok hw hi hin hx hg ht (stables h1) hl (stable h2)
private theorem stables {xs vs : List Data} {ρ : Vars} (h : Values Γ ρ xs vs) : Stables C Γ g ρ xs vs := by
  match h with
  | .nil => exact .nil
  | .cons h1 h2 => exact .cons (stable h1) (stables h2)
end

/-- The interpreter gives every expression of the textbook language its value, whatever state the program is held in, and
the evaluation leaves everything as it was. -/
theorem C75_value {d v : Data} (h : Value Γ ρ d v) (hw : WF s) (hi : Implements C Γ s g) (hin : Inside s g ρ e) :
    ∃ s', Quiet s s' ∧ ∀ r s'', Evals C d e s r s'' ↔ r = .ok v ∧ s'' = s' := by
  obtain ⟨s', h1, h2⟩ := stable h s e hw hi hin
  refine ⟨s', h2, fun r s'' => ⟨fun h => ?_, ?_⟩⟩
  · exact runs_det h h1
  · rintro ⟨rfl, rfl⟩; exact h1

end Golisp.Props
