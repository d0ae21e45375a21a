import Verif.TestLemmas
import Verif.Demo
import Verif.Props.Library
/- C94: the assertions of the shipped test framework record what they find, once, and nothing else. -/
namespace Golisp.Props
open Golisp Data Ev Spec Testing
open Golisp.Fun (Calm)
open Golisp.Fmt (Arg)
open Golisp.Samples (l y n)
open Golisp.Imp (Fills)

variable {C : Conf} {s s' s₁ s₂ s₃ : Store} {g e : Nat} {c : Tally} {k : Check} {x v : Data}

/-! ### The expansion -/

theorem quasi_fills {σ : List (String × Data)} {ts ds : List Data} (h : Fills σ ts ds)
    (hσ : ∀ p d, σ.lookup p = some d → p ≠ "self" → isNaked (.sym p) = false → Evals C (.sym p) e s (.ok d) s) : Quasi C e 1 ts s (.ok ds) s := by
  induction h with
  | nil => exact .done
  | atom _ ih => exact .next .atom ih
  | list h1 h2 h3 _ _ ih1 ih2 => exact .next (.list h1 h2 h3 ih1) ih2
  | hole h1 h2 h3 _ ih => exact .next (.value (.atom _) (hσ _ _ h1 h2 h3)) ih

/-- The expression that an assertion about `x` stands for. -/
private def expansion (k : Check) (x : Data) : Data :=
  l [y "let", l [l [y "actual", x], l [y "msg", l [y "format", no, t ("(" ++ k.label ++ " ~A)"), l [y "quote", x]]]],
    l [y "if", k.test, l [y "log-pass", y "msg"], l [y "log-failure", y "msg", t k.complaint]]]

theorem unmarked {x : String} (h : x ∉ ["quasiquote", "unquote", "unquote-splicing"]) : ¬ Mark (.sym x) := by
  rintro (h' | h' | h') <;> cases h' <;> simp at h

private theorem test_ok (hk : k ∈ checks) : k.test ≠ .null ∧ ∀ {σ xs ys}, Fills σ xs ys → Fills σ (k.test :: xs) (k.test :: ys) := by
  simp only [checks, List.mem_cons, List.not_mem_nil, or_false] at hk
  have one : ∀ {z : String} {σ xs ys}, z ∉ ["quasiquote", "unquote", "unquote-splicing"] → ∀ {d}, d ≠ .null → (∀ {xs ys}, Fills σ xs ys → Fills σ (d :: xs) (d :: ys)) → Fills σ xs ys →
      Fills σ (l [y z, d] :: xs) (l [y z, d] :: ys) := by
    intro z σ xs ys hz d hd hf h
    exact Streams.fills_l (by simpa using Ne.symm hd) (unmarked hz) (.atom (hf .nil)) (by simp) (by simpa using Ne.symm hd) h
  rcases hk with rfl | rfl | rfl | rfl
  · exact ⟨by simp [assertTrue], fun h => .atom h⟩
  · exact ⟨by simp [assertFalse], fun h => one (by decide) (by simp) .atom h⟩
  · exact ⟨by simp [assertNil], fun h => one (by decide) (by simp) .atom h⟩
  · exact ⟨by simp [assertNotNil], fun h => one (by decide) (by simp) (fun h => one (by decide) (by simp) .atom h) h⟩

private theorem body_fills (hk : k ∈ checks) (hx : x ≠ .null) : Fills [("sexpr", x)] [k.body] [expansion k x] := by
  have hole : ∀ {xs ys}, Fills [("sexpr", x)] xs ys → Fills [("sexpr", x)] (Testing.hole "sexpr" :: xs) (x :: ys) := fun h => .hole rfl (by simp) rfl h
  have hx' := Ne.symm hx
  have ht := Ne.symm (test_ok hk).1
  have cell : ∀ {a d : Data}, ¬ Mark (.cons a d) := by rintro a d (h | h | h) <;> cases h
  refine Streams.fills_l (by simp) (unmarked (by decide)) (.atom (Streams.fills_l (by simp) cell
    (Streams.fills_l (by simp) (unmarked (by decide)) (.atom (hole .nil)) (by simp) (by simpa using hx')
      (Streams.fills_l (by simp) (unmarked (by decide)) (.atom (Streams.fills_l (by simp) (unmarked (by decide))
        (.atom (.atom (.atom (Streams.fills_l (by simp) (unmarked (by decide)) (.atom (hole .nil)) (by simp) (by simpa using hx') .nil)))) (by simp) (by simp) .nil)) (by simp) (by simp) .nil)) (by simp) (by simp)
    (Streams.fills_l (by simpa using ht) (unmarked (by decide)) (.atom ((test_ok hk).2 (Streams.fills_l (by simp) (unmarked (by decide)) (.atom (.atom .nil)) (by simp) (by simp)
      (Streams.fills_l (by simp) (unmarked (by decide)) (.atom (.atom (.atom .nil))) (by simp) (by simp) .nil)))) (by simp) (by simpa using ht) .nil))) (by simp) (by simp) .nil

private theorem expands_on (hl : Loaded C g s) {σ : List (String × Data)} {ps : List String} {xs : List Data} (hσn : ∀ p ∈ σ, p.1 ∉ Testing.names)
    (hσ : ∀ p d, σ.lookup p = some d → alGet (binds σ) p = some ⟨d, false⟩ ∧ ∀ i, d ≠ .atom (.func i)) {d ex : Data} (hd : d ≠ .null)
    (hfill : Fills σ [d] [ex]) {i : Nat} {mr : MacRec} (hi : s.macs[i]? = some mr) (hp : Params mr.params ps none) (hfit : Fits ps none xs.length) (hb' : paramBinds ps none xs = σ)
    (hb : mr.body = l [y "quasiquote", d]) {gr : EnvRec} (hg : s.envs[mr.env]? = some gr) (he : mr.env = g) (hgf : gr.frame = none) :
    Expands C i xs s (.ok ex) (pushEnv s mr.env gr none mr.name σ) := by
  have q := Fun.pushEnv_calm s mr.env gr none mr.name σ
  have hw := pushEnv_WF hl.wf hg none mr.name σ
  have top := pushEnv_top s mr.env gr none mr.name σ
  have hl' := Loaded.only hl (only_calm q []) hw clear0
  have hs := Sees.below (B := σ) (sees_self hl') top (by rw [he]) hgf rfl hσn
  subst hb'
  refine .run hi hg hp hfit ?_
  rw [hb]
  refine (C43_value_partial hw (hs.means hl' (by simp [words])) (t := l [d]) (Samples.lst_l (by simpa using Ne.symm hd)) hd (quasi_fills hfill fun z v h1 h2 h3 => ?_) _ _).mpr
    ⟨rfl, rfl⟩
  obtain ⟨h4, h5⟩ := hσ z v h1
  exact evals_var hw (p := false) (.here (by rw [pushEnv_localB]; exact h4)) (noFrame hs.env) h3 h5

private theorem expands_to (hl : Loaded C g s) (hf : isFunc x = false) {p : String} (hpn : p ∉ Testing.names) {d ex : Data} (hd : d ≠ .null)
    (hfill : Fills [(p, x)] [d] [ex]) {i : Nat} {mr : MacRec} (hi : s.macs[i]? = some mr) (hp : Params mr.params [p] none)
    (hb : mr.body = l [y "quasiquote", d]) {gr : EnvRec} (hg : s.envs[mr.env]? = some gr) (he : mr.env = g) (hgf : gr.frame = none) :
    Expands C i [x] s (.ok ex) (pushEnv s mr.env gr none mr.name [(p, x)]) := by
  refine expands_on hl (σ := [(p, x)]) (ps := [p]) (xs := [x]) (by simpa using hpn) (fun z v h1 => ?_) hd hfill hi hp rfl rfl hb hg he hgf
  obtain ⟨rfl, rfl⟩ : z = p ∧ x = v := by
    simp only [List.lookup_cons, List.lookup_nil] at h1
    split at h1
    · next h => exact ⟨eq_of_beq h, Option.some.inj h1⟩
    · cases h1
  exact ⟨by rw [alGet_binds]; simp, by rintro i rfl; cases hf⟩

private theorem expands (hk : k ∈ checks) (hl : Loaded C g s) (hx : x ≠ .null) (hf : isFunc x = false) {i : Nat} {mr : MacRec} (hi : s.macs[i]? = some mr) (hp : Params mr.params ["sexpr"] none)
    (hb : mr.body = l [y "quasiquote", k.body]) {gr : EnvRec} (hg : s.envs[mr.env]? = some gr) (he : mr.env = g) (hgf : gr.frame = none) :
    Expands C i [x] s (.ok (expansion k x)) (pushEnv s mr.env gr none mr.name [("sexpr", x)]) :=
  expands_to hl hf (by decide) (by simp [Check.body]) (body_fills hk hx) hi hp hb hg he hgf

/-! ### The test -/

/-- The test of the assertion tells whether the value is as it should be. -/
private theorem test_tells (hk : k ∈ checks) (hl : Loaded C g s) (hs : Sees s g e) {f : Nat} {b : Bool} (hv : Visible s e "actual" f ⟨v, b⟩)
    (hkn : ∀ i, v = .atom (.func i) → ∃ fr, s.fns[i]? = some fr) : ∃ w s', Evals C k.test e s (.ok w) s' ∧ Calm s s' ∧ (Truthy w ↔ k.holds v) := by
  obtain ⟨s', h1, q⟩ := lookup (C := C) hl.wf hv (noFrame hs.env) rfl hkn
  have bt : ∀ b : Bool, Truthy (.bool b) ↔ b = true := fun b => by rw [← boolValue_iff]; cases b <;> decide
  simp only [checks, List.mem_cons, List.not_mem_nil, or_false] at hk
  rcases hk with rfl | rfl | rfl | rfl
  · exact ⟨v, s', h1, q, Iff.rfl⟩
  · refine ⟨_, s', evals_not hl.wf (hs.means hl (by simp [words])) (by simp) h1, q, ?_⟩
    rw [bt, Bool.not_eq_true']
    exact boolValue_false_iff v
  · refine ⟨_, s', evals_nil hl.wf (hs.means hl (by simp [words])) (by simp) h1, q, ?_⟩
    rw [bt]
    exact isNil_iff v
  · refine ⟨_, s', evals_not hl.wf (hs.means hl (by simp [words])) (by simp) (evals_nil hl.wf (hs.means hl (by simp [words])) (by simp) h1), q, ?_⟩
    rw [bt, Bool.not_eq_true']
    show boolValue (.bool (isNil v)) = false ↔ ¬ Lst v []
    rw [← isNil_iff]
    cases isNil v <;> decide

private theorem name_format {z : String} (ht : Tame ("(" ++ z ++ " ")) (hw : WF s) (hm : Means C s e "format") (hq : Means C s e "quote") (hx : x ≠ .null) :
    Evals C (l [y "format", no, t ("(" ++ z ++ " ~A)"), l [y "quote", x]]) e s (.ok (.str ("(" ++ z ++ " " ++ shown C.host s x ++ ")"))) s := by
  obtain ⟨a, h1, h2⟩ := format_arg C.host s x
  have he : elem x = x := by simp [elem, hx]
  refine evals_format (as := [l [y "quote", x]]) (us := [x]) (ps := pieces ("(" ++ z ++ " ") ++ (hereA :: (pieces ")" ++ []))) (fs := [a]) hw hm (by simp)
    (.next (evals_quote hw hq (Samples.lst_l (by simpa using Ne.symm hx)) hx) .done) ?_ (by simp only [List.map_cons, List.map_nil, he]; exact .cons h1 .nil) ?_
  · have := spelled_text _ ht (spelled_A (spelled_text ")" (by unfold Tame; decide +kernel) .nil))
    have he : text ("(" ++ z ++ " ~A)").toList = text ("(" ++ z ++ " ").toList ++ (text "~A".toList ++ (text ")".toList ++ [])) := by
      have : text " ~A)".toList = text " ".toList ++ (text "~A".toList ++ text ")".toList) := by decide +kernel
      simp only [text_app, this, List.append_assoc, List.append_nil]
    rw [he]
    exact this
  · simp only [sticky, sticky_text, Bool.or_false]
    have := renders_text ("(" ++ z ++ " ") (renders_A (x := a) (renders_text ")" (.nil (as := []))))
    have he : text ("(" ++ z ++ " " ++ shown C.host s x ++ ")").toList = text ("(" ++ z ++ " ").toList ++ (a.shown ++ (text ")".toList ++ [])) := by
      simp only [text_app, h2, List.append_assoc, List.append_nil]
    rw [he]
    simpa using this

private theorem label_format (hk : k ∈ checks) (hw : WF s) (hm : Means C s e "format") (hq : Means C s e "quote") (hx : x ≠ .null) :
    Evals C (l [y "format", no, t ("(" ++ k.label ++ " ~A)"), l [y "quote", x]]) e s (.ok (.str ("(" ++ k.label ++ " " ++ shown C.host s x ++ ")"))) s := by
  refine name_format ?_ hw hm hq hx
  simp only [checks, List.mem_cons, List.not_mem_nil, or_false] at hk
  unfold Tame
  rcases hk with rfl | rfl | rfl | rfl <;> decide +kernel

/-! ### C94 -/

/-- An assertion about an expression evaluates the expression, once, in the environment of the assertion.  If it has a value, the
assertion returns nil; exactly one pass or one failure (with a report) is recorded, as the value is or is not as asserted; and apart
from what the expression did, nothing else changes.  If the expression fails, so does the assertion, and nothing is recorded. -/
theorem C94_assertion_partial (hk : k ∈ checks) (hl : Loaded C g s) (hs : Sees s g e) (hx : x ≠ .null) (hf : isFunc x = false) :
    ∃ s₀ own, Calm s s₀ ∧ WF s₀ ∧ s.envs.length ≤ own ∧
      (∀ v s₁ c, Evals C x e s₀ (.ok v) s₁ → (∀ i, v = .atom (.func i) → ∃ fr, s₁.fns[i]? = some fr) → Loaded C g s₁ → Sees s₁ g e → Tells g s₁ c →
        s₁.envs[own]? = s₀.envs[own]? → ∃ c' xs s', Recorded C.host (s₁.putVal own "actual" v) k x v c c' xs ∧ Evals C (l [y k.name, x]) e s (.ok .null) s' ∧
          Loaded C g s' ∧ Sees s' g e ∧ Tells g s' c' ∧ Only (xs.map (g, ·) ++ [(own, "actual"), (own, "msg")]) s₁ s') ∧
      (∀ er s₁, Evals C x e s₀ (.err er) s₁ → ∃ er', Evals C (l [y k.name, x]) e s (.err er') s₁) ∧
      ∀ s₁, Evals C x e s₀ .panic s₁ → Evals C (l [y k.name, x]) e s .panic s₁ := by
  obtain ⟨i, mr, b, h1, h2, h3, h4, h5⟩ := hl.checks k hk
  obtain ⟨gr, hgr, hgf⟩ := hl.env
  obtain ⟨er, her, hef⟩ := hs.env
  obtain ⟨f, b', v1, v2⟩ := hs.names k.name (by simp only [Testing.names, List.mem_append, List.mem_map]; exact .inl (.inl (.inl (.inr ⟨k, hk, rfl⟩))))
  obtain ⟨rfl, rfl⟩ := v1.unique (.here h1)
  have hnk : isNaked (.sym k.name) = false ∧ ∀ t, shortcuts (.cons (.sym k.name) t) = .cons (.sym k.name) t := by
    simp only [checks, List.mem_cons, List.not_mem_nil, or_false] at hk
    rcases hk with rfl | rfl | rfl | rfl <;> exact ⟨rfl, fun _ => rfl⟩
  have hop : EvalsOp C (.sym k.name) e s (.ok (.atom (.macro i))) s := by
    unfold EvalsOp
    rw [runs_iff]
    simp only [body, evalHelper, hnk.1]
    exact (runsP_valueOf hl.wf true v2 (fun _ => noSlot_of (noFrame hs.env) _) rfl).mpr ⟨rfl, rfl⟩
  have hgr' : s.envs[mr.env]? = some gr := by rw [h5]; exact hgr
  have ex := expands hk hl hx hf h2 h3 h4 hgr' h5 hgf
  -- the expansion
  have qa := Fun.pushEnv_calm s mr.env gr none mr.name [("sexpr", x)]
  have hwa := pushEnv_WF hl.wf hgr' none mr.name [("sexpr", x)]
  have la : (pushEnv s mr.env gr none mr.name [("sexpr", x)]).envs.length = s.envs.length + 1 := by simp [pushEnv]
  have call : ∀ {r₀ : Out Data} {s'}, Evals C (expansion k x) e (pushEnv s mr.env gr none mr.name [("sexpr", x)]) r₀ s' →
      Evals C (l [y k.name, x]) e s (quoting (l [y k.name, x]) r₀) s' := fun h =>
    (C44_call (hnk.2 _) nofun hop h2 ⟨⟨gr, hgr'⟩, ["sexpr"], none, h3, fun _ => rfl⟩ (Samples.lst_l (xs := [x]) (by simpa using Ne.symm hx))).mpr ⟨_, rfl, .inl ⟨_, _, ex, h⟩⟩
  generalize pushEnv s mr.env gr none mr.name [("sexpr", x)] = sa at *
  have hla := Loaded.only hl (only_calm qa []) hwa clear0
  have hsa := Sees.only hs (only_calm qa []) clear0
  have hera := qa.env her
  -- the `let`
  have q0 := Fun.pushEnv_calm sa e er none "let" []
  have hw0 := pushEnv_WF hwa hera none "let" []
  have top0 := pushEnv_top sa e er none "let" []
  have hlet : ∀ {r₀ : Out Data} {s'}, LetRuns C e "let" [] e ["actual", "msg"] [x, l [y "format", no, t ("(" ++ k.label ++ " ~A)"), l [y "quote", x]]]
      [l [y "if", k.test, l [y "log-pass", y "msg"], l [y "log-failure", y "msg", t k.complaint]]] sa r₀ s' → Evals C (expansion k x) e sa (quoting (expansion k x) r₀) s' := fun h =>
    (C38_let hwa (hsa.means hla (by simp [words])) (Samples.lst_l (xs := [_, _]) (by simp)) (by simp)
      (.cons (x := "actual") (is := [x]) (Samples.lst_l (xs := [y "actual", x]) (by simpa using Ne.symm hx))
        (.cons (x := "msg") (is := [_]) (Samples.lst_l (xs := [y "msg", _]) (by simp)) (.nil .null))) (by simp)).mpr ⟨_, rfl, h⟩
  refine ⟨pushEnv sa e er none "let" [], sa.envs.length, qa.trans q0, hw0, by omega, fun v s₁ c hv hkn hl₁ hs₁ ht₁ hown => ?_, fun er' s₁ hv => ?_, fun s₁ hv => ?_⟩
  · have hr₁ := hown.trans top0
    obtain ⟨bind₁, hr₂⟩ := Fun.bind_run (B := []) hr₁ rfl "actual" v
    have o2 : Only [(sa.envs.length, "actual")] s₁ (s₁.putVal sa.envs.length "actual" v) := only_put _ (by simp) _
    have hw₂ := Imp.putVal_WF hl₁.wf sa.envs.length "actual" v
    have hl₂ := Loaded.only hl₁ o2 hw₂ (clear1 (by decide))
    have hs₂ := Sees.only hs₁ o2 (clear1 (by decide))
    have e2 := label_format hk hw₂ (hs₂.means hl₂ (by simp [words])) (hs₂.means hl₂ (by simp [words])) hx
    have hkn₂ : ∀ i, v = .atom (.func i) → ∃ fr, (s₁.putVal sa.envs.length "actual" v).fns[i]? = some fr := fun i hi => by
      rw [(putVal_rest _ _ _ _).1]; exact hkn i hi
    generalize s₁.putVal sa.envs.length "actual" v = s₂ at *
    obtain ⟨m, hm⟩ : ∃ m, m = "(" ++ k.label ++ " " ++ shown C.host s₂ x ++ ")" := ⟨_, rfl⟩
    rw [← hm] at e2
    obtain ⟨bind₂, hr₃⟩ := Fun.bind_run hr₂ rfl "msg" (.str m)
    have o3 : Only [(sa.envs.length, "msg")] s₂ (s₂.putVal sa.envs.length "msg" (.str m)) := only_put _ (by simp) _
    have hw₃ := Imp.putVal_WF hw₂ sa.envs.length "msg" (.str m)
    have hl₃ := Loaded.only hl₂ o3 hw₃ (clear1 (by decide))
    have hkn₃ : ∀ i, v = .atom (.func i) → ∃ fr, (s₂.putVal sa.envs.length "msg" (.str m)).fns[i]? = some fr := fun i hi => by
      rw [(putVal_rest _ _ _ _).1]; exact hkn₂ i hi
    have ht₃ := Tells.only (Tells.only ht₁ o2 (clear1 (by decide))) o3 (clear1 (by decide))
    have hs₃e := Sees.only hs₂ o3 (clear1 (by decide))
    generalize s₂.putVal sa.envs.length "msg" (.str m) = s₃ at *
    have hs₃ : Sees s₃ f sa.envs.length := Sees.below hs₃e hr₃ rfl hef rfl (by simp; decide)
    have va : Visible s₃ sa.envs.length "actual" sa.envs.length ⟨v, false⟩ := .here (by simp [Store.localB, hr₃, alGet_binds])
    have vm : Visible s₃ sa.envs.length "msg" sa.envs.length ⟨.str m, false⟩ := .here (by simp [Store.localB, hr₃, alGet_binds])
    obtain ⟨w, s₄, e3, q4, hw⟩ := test_tells hk hl₃ hs₃ va hkn₃
    have hw₄ : WF s₄ := runs_keeps keeps_WF e3 hl₃.wf
    have hl₄ := Loaded.only hl₃ (only_calm q4 []) hw₄ clear0
    have hs₄ := Sees.only hs₃ (only_calm q4 []) clear0
    have hs₄e := Sees.only hs₃e (only_calm q4 []) clear0
    have ht₄ := Tells.only ht₃ (only_calm q4 []) clear0
    have fr₄ := noFrame hs₄.env
    obtain ⟨r₄, hr₄, _⟩ := hs₄.env
    have steady : ∀ s', Calm s₄ s' → WF s' → Evals C (y "msg") sa.envs.length s' (.ok (.str m)) s' := fun s' q hw =>
      evals_var hw (q.visible (q4.visible vm)) (by rw [q.frameOf hr₄]; exact fr₄) rfl (by simp)
    have fin : ∀ {s'}, (Truthy w ∧ Evals C (l [y "log-pass", y "msg"]) sa.envs.length s₄ (.ok .null) s' ∨
        ¬ Truthy w ∧ Evals C (l [y "log-failure", y "msg", t k.complaint]) sa.envs.length s₄ (.ok .null) s') → Evals C (l [y k.name, x]) e s (.ok .null) s' := fun h =>
      call (r₀ := .ok .null) (hlet (r₀ := .ok .null) (.run hera (.next hv bind₁ (.next e2 bind₂ .done)) (.next ((C37_if hl₃.wf (hs₃.means hl₃ (by simp [words]))
        (Samples.lst_l (xs := [_, _, _]) (by simpa using Ne.symm (test_ok hk).1)) (by simpa using Ne.symm (test_ok hk).1)).mpr ⟨.ok .null, rfl, .inl ⟨w, s₄, e3, h⟩⟩) .done)))
    by_cases hh : k.holds v
    · obtain ⟨s', h6, h7, h8, h9⟩ := log_pass hl₄ ht₄ hs₄ (by simp) (.cons steady .nil)
      refine ⟨_, _, s', .pass hh, fin (.inl ⟨hw.mpr hh, h6⟩), h7, Sees.only hs₄e h9 (clear1 (by decide)), h8, ?_⟩
      exact Only.trans (Only.mono o2 (by simp)) (Only.trans (Only.mono o3 (by simp)) (Only.trans (only_calm q4 _) (Only.mono h9 (by simp))))
    · obtain ⟨s', h6, h7, h8, h9⟩ := log_failure (m' := k.complaint) hl₄ ht₄ hs₄ (by simp) (.cons steady (.cons (fun _ _ _ => evals_lit (by simp)) .nil))
      refine ⟨_, _, s', .failure hh, fin (.inr ⟨fun h => hh (hw.mp h), h6⟩), h7, Sees.only hs₄e h9 ?_, ?_, ?_⟩
      · intro p hp
        simp at hp
        rcases hp with rfl | rfl
        · show "number-of-failures" ∉ _
          decide
        · show "failure-messages" ∉ _
          decide
      · rw [hm] at h8
        exact h8
      · exact Only.trans (Only.mono o2 (by simp)) (Only.trans (Only.mono o3 (by simp)) (Only.trans (only_calm q4 _) (Only.mono h9 (by simp))))
  · exact ⟨_, call (hlet (.err hera (.err hv)))⟩
  · exact call (hlet (.panic hera (.panic hv)))

/-- In particular: an assertion about an expression that has the value `v` and changes nothing. -/
theorem C94_value_partial (hk : k ∈ checks) (hl : Loaded C g s) (hs : Sees s g e) (ht : Tells g s c) (hx : x ≠ .null) (hf : isFunc x = false)
    (hv : ∀ s₀, Calm s s₀ → WF s₀ → Evals C x e s₀ (.ok v) s₀) (hn : ∀ i, v = .atom (.func i) → ∃ fr, s.fns[i]? = some fr) :
    ∃ c' xs s₀ s', Only [] s s₀ ∧ Recorded C.host s₀ k x v c c' xs ∧ Evals C (l [y k.name, x]) e s (.ok .null) s' ∧ Loaded C g s' ∧ Sees s' g e ∧ Tells g s' c' ∧
      Only (xs.map (g, ·)) s s' := by
  obtain ⟨s₀, own, q, hw, ho, h, _⟩ := C94_assertion_partial hk hl hs hx hf
  obtain ⟨c', xs, s', h1, h2, h3, h4, h5, h6⟩ := h v s₀ c (hv s₀ q hw) (fun i hi => by obtain ⟨fr, hfr⟩ := hn i hi; obtain ⟨b, hb⟩ := (only_calm q []).fns i fr hfr; exact ⟨_, hb⟩)
    (Loaded.only hl (only_calm q []) hw clear0) (Sees.only hs (only_calm q []) clear0) (Tells.only ht (only_calm q []) clear0) rfl
  refine ⟨c', xs, _, s', ?_, h1, h2, h3, h4, h5, ?_⟩
  · exact Only.fresh (xs := []) (ys := [(own, "actual")]) (Only.trans (only_calm q _) (only_put _ (by simp) _)) (by simpa using ho)
  · exact Only.fresh (Only.trans (only_calm q _) h6) (by simp [ho])

/-! ### Assertions about errors -/

/-- The expression that an assertion about whether `x` fails stands for. -/
private def trialExpansion (k : Trial) (x : Data) : Data :=
  l [y "let", l [l [y "msg", l [y "format", no, t ("(" ++ k.name ++ " ~A)"), l [y "quote", x]]]],
    l [y "on-error", x, l [y "lambda", l [y "err"], k.caught], l [y "lambda", .emptyCons, k.done]]]

private theorem trial_ok {k : Trial} (hk : k ∈ trials) : (k.caught ≠ .null ∧ k.done ≠ .null) ∧ (∀ {σ xs ys}, Fills σ xs ys → Fills σ (k.caught :: xs) (k.caught :: ys)) ∧
    ∀ {σ xs ys}, Fills σ xs ys → Fills σ (k.done :: xs) (k.done :: ys) := by
  simp only [trials, List.mem_cons, List.not_mem_nil, or_false] at hk
  rcases hk with rfl | rfl
  · refine ⟨⟨nofun, nofun⟩, fun h => ?_, fun h => ?_⟩
    · exact Streams.fills_l (by simp) (unmarked (by decide)) (.atom (.atom .nil)) (by simp) (by simp) h
    · exact Streams.fills_l (by simp) (unmarked (by decide)) (.atom (.atom (.atom .nil))) (by simp) (by simp) h
  · refine ⟨⟨nofun, nofun⟩, fun h => ?_, fun h => ?_⟩
    · exact Streams.fills_l (by simp) (unmarked (by decide)) (.atom (.atom (Streams.fills_l (by simp) (unmarked (by decide)) (.atom (.atom (.atom (.atom .nil)))) (by simp) (by simp) .nil))) (by simp) (by simp) h
    · exact Streams.fills_l (by simp) (unmarked (by decide)) (.atom (.atom .nil)) (by simp) (by simp) h

private theorem trial_fills {k : Trial} (hk : k ∈ trials) (hx : x ≠ .null) : Fills [("**sexpr**", x)] [k.body] [trialExpansion k x] := by
  have hole : ∀ {xs ys}, Fills [("**sexpr**", x)] xs ys → Fills [("**sexpr**", x)] (Testing.hole "**sexpr**" :: xs) (x :: ys) := fun h => .hole rfl (by simp) rfl h
  obtain ⟨⟨h1, h2⟩, h3, h4⟩ := trial_ok hk
  have hx' := Ne.symm hx
  have h1' := Ne.symm h1
  have h2' := Ne.symm h2
  have cell : ∀ {a d : Data}, ¬ Mark (.cons a d) := by rintro a d (h | h | h) <;> cases h
  have empty : ∀ {xs ys}, Fills [("**sexpr**", x)] xs ys → Fills [("**sexpr**", x)] (.emptyCons :: xs) (.emptyCons :: ys) := fun h => .list (zs := []) (.empty _) rfl (by simp) .nil h
  refine Streams.fills_l (by simp) (unmarked (by decide)) (.atom (Streams.fills_l (by simp) cell
    (Streams.fills_l (by simp) (unmarked (by decide)) (.atom (Streams.fills_l (by simp) (unmarked (by decide))
        (.atom (.atom (.atom (Streams.fills_l (by simp) (unmarked (by decide)) (.atom (hole .nil)) (by simp) (by simpa using hx') .nil)))) (by simp) (by simp) .nil)) (by simp) (by simp) .nil) (by simp) (by simp)
    (Streams.fills_l (by simp) (unmarked (by decide)) (.atom (hole (Streams.fills_l (by simpa using h1') (unmarked (by decide))
      (.atom (Streams.fills_l (by simp) (unmarked (by decide)) (.atom .nil) (by simp) (by simp) (h3 .nil))) (by simp) (by simpa using h1')
      (Streams.fills_l (by simpa using h2') (unmarked (by decide)) (.atom (empty (h4 .nil))) (by simp) (by simpa using h2') .nil)))) (by simp) (by simpa using hx') .nil))) (by simp) (by simp) .nil

/-- A procedure made by `lambda` and called at once. -/
private theorem handler {own : Nat} (hl : Loaded C g s) (hs : Sees s g own) {params b : Data} {ps : List String} (hp : Params params ps none) (hpp : isPair params = true) (hpn : params ≠ .null) (hb : b ≠ .null) :
    ∃ i s₂, Evals C (l [y "lambda", params, b]) own s (.ok (.atom (.func i))) s₂ ∧ Calm s s₂ ∧ (∃ fr, s₂.fns[i]? = some fr ∧ GoodFn s₂ fr) ∧
      ∀ vs : List Data, ps.length = vs.length → ∃ s₃ r B, Calm s₂ s₃ ∧ WF s₃ ∧ s₃.envs[s₂.envs.length]? = some r ∧ r.parent = some own ∧ r.frame = none ∧ r.binds = binds (B ++ ps.zip vs) ∧
        (∀ p ∈ B, p.1 = "self") ∧ ∀ w s', Evals C b s₂.envs.length s₃ (.ok w) s' → CallsV C i vs own none s₂ (.ok w) s' := by
  obtain ⟨fr, f1, f2, f3, f4⟩ := C33_lambda hl.wf (hs.means hl (by simp [words])) (t := l [params, b]) (Samples.lst_l (by simp [Ne.symm hpn, Ne.symm hb])) hpp (by simp [Ne.symm hpn, Ne.symm hb])
  obtain ⟨pr, hpr, hpf⟩ := hs.env
  have hi : (s.fns ++ [fr])[s.fns.length]? = some fr := by simp
  have hq : Calm s { s with fns := s.fns ++ [fr] } := ⟨⟨[], by simp⟩, fun i f h => ⟨f.slot, by
    show (s.fns ++ [fr])[i]? = _
    rw [List.getElem?_append_left (List.getElem?_eq_some_iff.mp h).1]; exact h⟩, rfl, rfl, rfl, rfl, rfl, rfl, rfl⟩
  refine ⟨s.fns.length, _, (f4 _ _).mpr ⟨rfl, rfl⟩, hq, ⟨fr, hi, ⟨pr, by rw [f1]; exact hpr⟩, ⟨ps, none, by rw [f2]; exact hp, fun _ => rfl⟩, _, f3⟩, fun vs hv => ?_⟩
  have hw₂ : WF { s with fns := s.fns ++ [fr] } := hl.wf
  refine ⟨pushEnv { s with fns := s.fns ++ [fr] } own pr none fr.name (selfBind { s with fns := s.fns ++ [fr] } fr.slot none own ++ ps.zip vs), _, _, Fun.pushEnv_calm .., pushEnv_WF hw₂ hpr _ _ _,
    pushEnv_top .., rfl, hpf, rfl, selfBind_names _ _ _ _, fun w s' h => ?_⟩
  have := CallsV.run (C := C) (i := s.fns.length) (vs := vs) (ae := own) (frame := none) (s := { s with fns := s.fns ++ [fr] }) (r := .ok w) (s' := s') hi (by rw [f1]; exact hpr) (by rw [f2]; exact hp) f3
    (by simp [Fits, hv]) (by
      rw [f1]
      simp only [paramBinds, List.append_nil]
      exact .next h .done)
  exact this

/-- The message for an error that was not wanted. -/
private theorem error_format (hw : WF s) (hm : Means C s e "format") {m : String} (hv : Evals C (y "err") e s (.ok (.str m)) s) :
    Evals C (l [y "format", no, t "expected no error, but error was ~A", y "err"]) e s (.ok (.str ("expected no error, but error was " ++ m))) s := by
  obtain ⟨a, h1, h2⟩ := format_arg C.host s (.str m)
  refine evals_format (as := [y "err"]) (us := [.str m]) (ps := pieces "expected no error, but error was " ++ (hereA :: [])) (fs := [a]) hw hm (by simp)
    (.next hv .done) ?_ (.cons h1 .nil) ?_
  · have := spelled_text "expected no error, but error was " (by unfold Tame; decide +kernel) (spelled_A .nil)
    have he : text "expected no error, but error was ~A".toList = text "expected no error, but error was ".toList ++ (text "~A".toList ++ []) := by decide +kernel
    rw [he]
    exact this
  · simp only [sticky, sticky_text, Bool.or_false]
    have := renders_text "expected no error, but error was " (renders_A (x := a) (.nil (as := [])))
    have he : text ("expected no error, but error was " ++ m).toList = text "expected no error, but error was ".toList ++ (a.shown ++ []) := by
      simp only [text_app, h2, List.append_nil]; rfl
    rw [he]
    simpa using this

private theorem clear2 (g : Nat) : Clear Testing.names [(g, "number-of-failures"), (g, "failure-messages")] := by
  intro p hp
  simp at hp
  rcases hp with rfl | rfl
  · show "number-of-failures" ∉ _
    decide
  · show "failure-messages" ∉ _
    decide

/-- What a procedure made by `lambda` does when it logs: `m` is the message in the variable `msg`. -/
private theorem logs {own : Nat} {r : EnvRec} {B : List (String × Data)} {m : String} {j : Nat} (hl : Loaded C g s) (ht : Tells g s c) (hso : Sees s g own)
    (hm : s.localB own "msg" = some ⟨.str m, false⟩) (hr : s.envs[j]? = some r) (hp : r.parent = some own) (hf : r.frame = none) (hb : r.binds = binds B)
    (hB : ∀ p ∈ B, p.1 = "self" ∨ p.1 = "err") :
    (∃ s', Evals C (l [y "log-pass", y "msg"]) j s (.ok .null) s' ∧ Loaded C g s' ∧ Tells g s' (passed c) ∧ Only [(g, "number-of-passes")] s s') ∧
    ∀ a m', a ≠ .null → (∀ s', Calm s s' → WF s' → Means C s' j "format" → Evals C a j s' (.ok (.str m')) s') → ∃ s', Evals C (l [y "log-failure", y "msg", a]) j s (.ok .null) s' ∧ Loaded C g s' ∧
      Tells g s' (failed (summary c.context c.it m m') c) ∧ Only [(g, "number-of-failures"), (g, "failure-messages")] s s' := by
  have hs : Sees s g j := Sees.below hso hr hp hf hb fun p hp h => by
    rcases hB p hp with he | he <;> rw [he] at h <;> revert h <;> decide
  have vm : Visible s j "msg" own ⟨.str m, false⟩ := .up (absent hr hb fun p hp he => by rcases hB p hp with h | h <;> rw [h] at he <;> simp at he) (by simp [Store.parentOf, hr, hp]) (.here hm)
  have steady : ∀ s', Calm s s' → WF s' → Evals C (y "msg") j s' (.ok (.str m)) s' := fun s' q hw =>
    evals_var hw (q.visible vm) (by rw [q.frameOf hr]; exact noFrame hs.env) rfl (by simp)
  refine ⟨log_pass hl ht hs (by simp) (.cons steady .nil), fun a m' ha h => log_failure hl ht hs (by simpa using Ne.symm ha) (.cons steady (.cons (fun s' q hw => ?_) .nil))⟩
  exact h s' q hw ((Sees.only hs (only_calm q []) clear0).means (Loaded.only hl (only_calm q []) hw clear0) (by simp [words]))

/-- An assertion that an expression fails, or that it does not, evaluates the expression, once, in a new environment below that of
the assertion (in which `msg` is bound).  It returns nil, and exactly one pass or one failure (with a report) is recorded, as the
expression does what it should or does not; apart from what the expression did, nothing else changes. -/
theorem C94_trial_partial {k : Trial} (hk : k ∈ trials) (hl : Loaded C g s) (hs : Sees s g e) (hx : x ≠ .null) (hf : isFunc x = false) :
    ∃ s₀ own r m z, Calm s s₀ ∧ WF s₀ ∧ s.envs.length ≤ own ∧ s₀.envs[own]? = some r ∧ r.parent = some e ∧ r.binds = binds [("msg", m)] ∧ r.frame = none ∧ Only [] s z ∧
      (∀ v s₁ c, Evals C x own s₀ (.ok v) s₁ → Loaded C g s₁ → Sees s₁ g e → Tells g s₁ c → s₁.envs[own]? = s₀.envs[own]? →
        ∃ c' xs s', Tried C.host z k x none c c' xs ∧ Evals C (l [y k.name, x]) e s (.ok .null) s' ∧ Loaded C g s' ∧ Sees s' g e ∧ Tells g s' c' ∧ Only (xs.map (g, ·)) s₁ s') ∧
      (∀ er s₁ c, Evals C x own s₀ (.err er) s₁ → Loaded C g s₁ → Sees s₁ g e → Tells g s₁ c → s₁.envs[own]? = s₀.envs[own]? →
        ∃ c' xs s₂ s', Calm s₁ s₂ ∧ Tried C.host z k x (some (C.host.errText s₂ er)) c c' xs ∧ Evals C (l [y k.name, x]) e s (.ok .null) s' ∧ Loaded C g s' ∧ Sees s' g e ∧ Tells g s' c' ∧
          Only (xs.map (g, ·)) s₁ s') ∧
      ∀ s₁, Evals C x own s₀ .panic s₁ → Evals C (l [y k.name, x]) e s .panic s₁ := by
  obtain ⟨i, mr, b, h1, h2, h3, h4, h5⟩ := hl.trials k hk
  obtain ⟨gr, hgr, hgf⟩ := hl.env
  obtain ⟨pe, her, hef⟩ := hs.env
  obtain ⟨f, b', v1, v2⟩ := hs.names k.name (by simp only [Testing.names, List.mem_append, List.mem_map]; exact .inl (.inl (.inr ⟨k, hk, rfl⟩)))
  obtain ⟨rfl, rfl⟩ := v1.unique (.here h1)
  have hnk : isNaked (.sym k.name) = false ∧ ∀ t, shortcuts (.cons (.sym k.name) t) = .cons (.sym k.name) t := by
    simp only [trials, List.mem_cons, List.not_mem_nil, or_false] at hk
    rcases hk with rfl | rfl <;> exact ⟨rfl, fun _ => rfl⟩
  have htame : Tame ("(" ++ k.name ++ " ") := by
    simp only [trials, List.mem_cons, List.not_mem_nil, or_false] at hk
    unfold Tame
    rcases hk with rfl | rfl <;> decide +kernel
  have hop : EvalsOp C (.sym k.name) e s (.ok (.atom (.macro i))) s := by
    unfold EvalsOp
    rw [runs_iff]
    simp only [body, evalHelper, hnk.1]
    exact (runsP_valueOf hl.wf true v2 (fun _ => noSlot_of (noFrame hs.env) _) rfl).mpr ⟨rfl, rfl⟩
  have hgr' : s.envs[mr.env]? = some gr := by rw [h5]; exact hgr
  have ex := expands_to hl hf (by decide) (by simp [Trial.body]) (trial_fills hk hx) h2 h3 h4 hgr' h5 hgf
  have qa := Fun.pushEnv_calm s mr.env gr none mr.name [("**sexpr**", x)]
  have hwa := pushEnv_WF hl.wf hgr' none mr.name [("**sexpr**", x)]
  have la : (pushEnv s mr.env gr none mr.name [("**sexpr**", x)]).envs.length = s.envs.length + 1 := by simp [pushEnv]
  have call : ∀ {r₀ : Out Data} {s'}, Evals C (trialExpansion k x) e (pushEnv s mr.env gr none mr.name [("**sexpr**", x)]) r₀ s' →
      Evals C (l [y k.name, x]) e s (quoting (l [y k.name, x]) r₀) s' := fun h =>
    (C44_call (hnk.2 _) nofun hop h2 ⟨⟨gr, hgr'⟩, ["**sexpr**"], none, h3, fun _ => rfl⟩ (Samples.lst_l (xs := [x]) (by simpa using Ne.symm hx))).mpr ⟨_, rfl, .inl ⟨_, _, ex, h⟩⟩
  generalize pushEnv s mr.env gr none mr.name [("**sexpr**", x)] = sa at *
  have hla := Loaded.only hl (only_calm qa []) hwa clear0
  have hsa := Sees.only hs (only_calm qa []) clear0
  have hera := qa.env her
  -- the `let`
  have q0 := Fun.pushEnv_calm sa e pe none "let" []
  have hw0 := pushEnv_WF hwa hera none "let" []
  have hl0 := Loaded.only hla (only_calm q0 []) hw0 clear0
  have hs0 := Sees.only hsa (only_calm q0 []) clear0
  have top0 := pushEnv_top sa e pe none "let" []
  have e2 := name_format htame hw0 (hs0.means hl0 (by simp [words])) (hs0.means hl0 (by simp [words])) hx
  have hlet : ∀ {r₀ : Out Data} {s'}, LetRuns C e "let" [] e ["msg"] [l [y "format", no, t ("(" ++ k.name ++ " ~A)"), l [y "quote", x]]]
      [l [y "on-error", x, l [y "lambda", l [y "err"], k.caught], l [y "lambda", .emptyCons, k.done]]] sa r₀ s' → Evals C (trialExpansion k x) e sa (quoting (trialExpansion k x) r₀) s' := fun h =>
    (C38_let hwa (hsa.means hla (by simp [words])) (Samples.lst_l (xs := [_, _]) (by simp)) (by simp)
      (.cons (x := "msg") (is := [_]) (Samples.lst_l (xs := [y "msg", _]) (by simp)) (.nil .null)) (by simp)).mpr ⟨_, rfl, h⟩
  obtain ⟨m, hm⟩ : ∃ m, m = "(" ++ k.name ++ " " ++ shown C.host (pushEnv sa e pe none "let" []) x ++ ")" := ⟨_, rfl⟩
  rw [← hm] at e2
  obtain ⟨bind₁, hr₀⟩ := Fun.bind_run (B := []) top0 rfl "msg" (.str m)
  have qb : Calm s ((pushEnv sa e pe none "let" []).putVal sa.envs.length "msg" (.str m)) := Fun.calm_putVal (qa.trans q0) (by omega) _ _
  have hwb := Imp.putVal_WF hw0 sa.envs.length "msg" (.str m)
  have hlb := Loaded.only hl (only_calm qb []) hwb clear0
  have run : ∀ {r₀ : Data} {s'}, Evals C (l [y "on-error", x, l [y "lambda", l [y "err"], k.caught], l [y "lambda", .emptyCons, k.done]]) sa.envs.length
      ((pushEnv sa e pe none "let" []).putVal sa.envs.length "msg" (.str m)) (.ok r₀) s' → Evals C (l [y k.name, x]) e s (.ok r₀) s' := fun h =>
    call (r₀ := .ok _) (hlet (r₀ := .ok _) (.run hera (.next e2 bind₁ .done) (.next h .done)))
  have runp : ∀ {s'}, Evals C (l [y "on-error", x, l [y "lambda", l [y "err"], k.caught], l [y "lambda", .emptyCons, k.done]]) sa.envs.length
      ((pushEnv sa e pe none "let" []).putVal sa.envs.length "msg" (.str m)) .panic s' → Evals C (l [y k.name, x]) e s .panic s' := fun h =>
    call (r₀ := .panic) (hlet (r₀ := .panic) (.run hera (.next e2 bind₁ .done) (.stop h id)))
  have hsb : Sees ((pushEnv sa e pe none "let" []).putVal sa.envs.length "msg" (.str m)) f sa.envs.length :=
    Sees.below (Sees.only hs (only_calm qb []) clear0) hr₀ rfl hef rfl (by simp; decide)
  refine ⟨_, sa.envs.length, _, .str m, pushEnv sa e pe none "let" [], qb, hwb, by omega, hr₀, rfl, rfl, hef, only_calm (qa.trans q0) _, ?_⟩
  clear hlet call bind₁ e2
  generalize (pushEnv sa e pe none "let" []).putVal sa.envs.length "msg" (.str m) = s₀ at *
  have three := fun (r : Out Data) (s' : Store) => C41_on_error_three (C := C) (r := r) (s' := s') hwb (hsb.means hlb (by simp [words])) (t := l [x, l [y "lambda", l [y "err"], k.caught], l [y "lambda", .emptyCons, k.done]])
    (Samples.lst_l (by simpa using Ne.symm hx)) (by simpa using Ne.symm hx)
  obtain ⟨⟨hc, hd⟩, -⟩ := trial_ok hk
  -- the state in which the procedure's body runs
  have prep : ∀ {s₁ c}, Loaded C f s₁ → Sees s₁ f e → Tells f s₁ c → s₁.envs[sa.envs.length]? = s₀.envs[sa.envs.length]? → Sees s₁ f sa.envs.length ∧ ∀ s₃, Calm s₁ s₃ → WF s₃ → Loaded C f s₃ ∧
      Tells f s₃ c ∧ Sees s₃ f sa.envs.length ∧ s₃.localB sa.envs.length "msg" = some ⟨.str m, false⟩ ∧ Sees s₃ f e := fun hl₁ hs₁ ht₁ ho => by
    have hr₁ := ho.trans hr₀
    have hso := Sees.below hs₁ hr₁ rfl hef rfl (by simp; decide)
    exact ⟨hso, fun s₃ q hw => ⟨Loaded.only hl₁ (only_calm q []) hw clear0, Tells.only ht₁ (only_calm q []) clear0, Sees.only hso (only_calm q []) clear0,
      by simp [Store.localB, q.env hr₁, alGet_binds], Sees.only hs₁ (only_calm q []) clear0⟩⟩
  refine ⟨fun v s₁ c hv hl₁ hs₁ ht₁ hown => ?_, fun er s₁ c hv hl₁ hs₁ ht₁ hown => ?_, fun s₁ hv => ?_⟩
  · obtain ⟨hso, pr⟩ := prep hl₁ hs₁ ht₁ hown
    obtain ⟨j, s₂, h6, q₂, good, hcall⟩ := handler hl₁ hso (params := .emptyCons) (b := k.done) (.none (.empty _)) rfl (by simp) hd
    obtain ⟨s₃, r, B, q₃, hw₃, hr, hrp, hrf, hrb, hB, go⟩ := hcall [] rfl
    obtain ⟨hl₃, ht₃, hso₃, hm₃, hs₃⟩ := pr s₃ (q₂.trans q₃) hw₃
    obtain ⟨hpass, hfail⟩ := logs hl₃ ht₃ hso₃ hm₃ hr hrp hrf hrb (fun p hp => .inl (hB p (by simpa using hp)))
    obtain ⟨c', xs, s', h7, h8, h9, h10, h11, h12⟩ : ∃ c' xs s', Tried C.host (pushEnv sa e pe none "let" []) k x none c c' xs ∧ Evals C k.done s₂.envs.length s₃ (.ok .null) s' ∧ Loaded C f s' ∧ Tells f s' c' ∧
        Only (xs.map (f, ·)) s₃ s' ∧ Clear Testing.names (xs.map (f, ·)) := by
      simp only [trials, List.mem_cons, List.not_mem_nil, or_false] at hk
      rcases hk with rfl | rfl
      · obtain ⟨s', a, b, d, o⟩ := hfail (t (assertError.complaint none)) (assertError.complaint none) (by simp) (fun _ _ _ _ => evals_lit (by simp))
        exact ⟨_, _, s', .failure (by decide), a, b, by rw [hm] at d; exact d, o, clear2 f⟩
      · obtain ⟨s', a, b, d, o⟩ := hpass
        exact ⟨_, _, s', .pass rfl, a, b, d, o, clear1 (by decide)⟩
    refine ⟨c', xs, s', h7, run ((three _ _ ?_ ?_).mpr ⟨.ok .null, rfl, .inl ⟨v, s₁, hv, .inl ⟨_, s₂, h6, .inl ⟨j, rfl, go _ _ h8⟩⟩⟩⟩), h9, Sees.only hs₃ h11 h12, h10, (only_calm (q₂.trans q₃) _).trans h11⟩
    · intro er s₁' s₂' i' hv' _
      cases (runs_det hv hv').1
    · intro v' s₁' s₂' i' hv' hk'
      obtain ⟨-, rfl⟩ := runs_det hv hv'
      obtain ⟨h, rfl⟩ := runs_det h6 hk'
      cases h
      exact good
  · obtain ⟨hso, pr⟩ := prep hl₁ hs₁ ht₁ hown
    obtain ⟨j, s₂, h6, q₂, good, hcall⟩ := handler hl₁ hso (params := l [y "err"]) (b := k.caught) (.cons (.none .null)) rfl (by simp) hc
    obtain ⟨s₃, r, B, q₃, hw₃, hr, hrp, hrf, hrb, hB, go⟩ := hcall [.str (C.host.errText s₂ er)] rfl
    obtain ⟨hl₃, ht₃, hso₃, hm₃, hs₃⟩ := pr s₃ (q₂.trans q₃) hw₃
    obtain ⟨hpass, hfail⟩ := logs hl₃ ht₃ hso₃ hm₃ hr hrp hrf hrb (fun p hp => by
      rcases List.mem_append.mp hp with hp | hp
      · exact .inl (hB p hp)
      · exact .inr (by simp at hp; rw [hp]))
    have ve : Visible s₃ s₂.envs.length "err" s₂.envs.length ⟨.str (C.host.errText s₂ er), false⟩ := .here (by simp [Store.localB, hr, hrb, alGet_binds])
    obtain ⟨c', xs, s', h7, h8, h9, h10, h11, h12⟩ : ∃ c' xs s', Tried C.host (pushEnv sa e pe none "let" []) k x (some (C.host.errText s₂ er)) c c' xs ∧ Evals C k.caught s₂.envs.length s₃ (.ok .null) s' ∧
        Loaded C f s' ∧ Tells f s' c' ∧ Only (xs.map (f, ·)) s₃ s' ∧ Clear Testing.names (xs.map (f, ·)) := by
      simp only [trials, List.mem_cons, List.not_mem_nil, or_false] at hk
      rcases hk with rfl | rfl
      · obtain ⟨s', a, b, d, o⟩ := hpass
        exact ⟨_, _, s', .pass rfl, a, b, d, o, clear1 (by decide)⟩
      · obtain ⟨s', a, b, d, o⟩ := hfail (l [y "format", no, t "expected no error, but error was ~A", y "err"]) _ (by simp) (fun s' q hw hm => error_format hw hm
          (evals_var hw (q.visible ve) (by rw [q.frameOf hr]; simp [Store.frameOf, hr, hrf]) rfl (by simp)))
        exact ⟨_, _, s', .failure (by simp [assertNoError]), a, b, by rw [hm] at d; exact d, o, clear2 f⟩
    refine ⟨c', xs, s₂, s', q₂, h7, run ((three _ _ ?_ ?_).mpr ⟨.ok .null, rfl, .inr (.inr ⟨er, s₁, hv, .inl ⟨_, s₂, h6, .inl ⟨j, rfl, go _ _ h8⟩⟩⟩)⟩), h9, Sees.only hs₃ h11 h12, h10,
      (only_calm (q₂.trans q₃) _).trans h11⟩
    · intro er' s₁' s₂' i' hv' hk'
      obtain ⟨-, rfl⟩ := runs_det hv hv'
      obtain ⟨h, rfl⟩ := runs_det h6 hk'
      cases h
      exact good
    · intro v' s₁' s₂' i' hv' _
      cases (runs_det hv hv').1
  · refine runp ((three _ _ ?_ ?_).mpr ⟨.panic, rfl, .inr (.inl ⟨hv, rfl⟩)⟩)
    · intro er' s₁' s₂' i' hv' _
      cases (runs_det hv hv').1
    · intro er' s₁' s₂' i' hv' _
      cases (runs_det hv hv').1

/-! ### Assertions about two values -/

/-- The expression that an assertion about `x` and `z` stands for. -/
private def pairExpansion (k : Comparison) (x z : Data) : Data :=
  l [y "let*", l [l [y "actual", x], l [y "expected", z], l [y "msg", l [y "format", no, t ("(" ++ k.name ++ " ~A ~A)"), l [y "quote", x], l [y "quote", z]]]],
    l [y "if", l [y k.test, y "actual", y "expected"], l [y "log-pass", y "msg"], l [y "log-failure", y "msg", k.remark]]]

private theorem pair_ok {k : Comparison} (hk : k ∈ comparisons) : k.remark ≠ .null ∧ (∀ {σ xs ys}, Fills σ xs ys → Fills σ (k.remark :: xs) (k.remark :: ys)) ∧
    k.test ∉ ["quasiquote", "unquote", "unquote-splicing"] := by
  simp only [comparisons, List.mem_cons, List.not_mem_nil, or_false] at hk
  rcases hk with rfl | rfl
  · exact ⟨nofun, fun h => Streams.fills_l (by simp) (unmarked (by decide)) (.atom (.atom (.atom (.atom (.atom .nil))))) (by simp) (by simp) h, by decide⟩
  · exact ⟨nofun, fun h => Streams.fills_l (by simp) (unmarked (by decide)) (.atom (.atom (.atom (.atom .nil)))) (by simp) (by simp) h, by decide⟩

private theorem pair_fills {k : Comparison} (hk : k ∈ comparisons) {z : Data} (hx : x ≠ .null) (hz : z ≠ .null) :
    Fills [("sexpr", x), ("expected-sexpr", z)] [k.body] [pairExpansion k x z] := by
  have h1 : ∀ {xs ys}, Fills [("sexpr", x), ("expected-sexpr", z)] xs ys → Fills [("sexpr", x), ("expected-sexpr", z)] (Testing.hole "sexpr" :: xs) (x :: ys) :=
    fun h => .hole rfl (by simp) rfl h
  have h2 : ∀ {xs ys}, Fills [("sexpr", x), ("expected-sexpr", z)] xs ys → Fills [("sexpr", x), ("expected-sexpr", z)] (Testing.hole "expected-sexpr" :: xs) (z :: ys) :=
    fun h => .hole rfl (by simp) rfl h
  obtain ⟨hr, hr2, ht⟩ := pair_ok hk
  have hx' := Ne.symm hx
  have hz' := Ne.symm hz
  have hr' := Ne.symm hr
  have cell : ∀ {a d : Data}, ¬ Mark (.cons a d) := by rintro a d (h | h | h) <;> cases h
  refine Streams.fills_l (by simp) (unmarked (by decide)) (.atom (Streams.fills_l (by simp) cell
    (Streams.fills_l (by simp) (unmarked (by decide)) (.atom (h1 .nil)) (by simp) (by simpa using hx')
      (Streams.fills_l (by simp) (unmarked (by decide)) (.atom (h2 .nil)) (by simp) (by simpa using hz')
      (Streams.fills_l (by simp) (unmarked (by decide)) (.atom (Streams.fills_l (by simp) (unmarked (by decide))
        (.atom (.atom (.atom (Streams.fills_l (by simp) (unmarked (by decide)) (.atom (h1 .nil)) (by simp) (by simpa using hx')
          (Streams.fills_l (by simp) (unmarked (by decide)) (.atom (h2 .nil)) (by simp) (by simpa using hz') .nil))))) (by simp) (by simp) .nil)) (by simp) (by simp) .nil))) (by simp) (by simp)
    (Streams.fills_l (by simp) (unmarked (by decide)) (.atom (Streams.fills_l (by simp) (unmarked ht) (.atom (.atom (.atom .nil))) (by simp) (by simp)
      (Streams.fills_l (by simp) (unmarked (by decide)) (.atom (.atom .nil)) (by simp) (by simp)
      (Streams.fills_l (by simpa using hr') (unmarked (by decide)) (.atom (.atom (hr2 .nil))) (by simp) (by simpa using hr') .nil)))) (by simp) (by simp) .nil))) (by simp) (by simp) .nil

/-- The name of the assertion in reports. -/
private theorem pair_format {k : Comparison} (hk : k ∈ comparisons) {z : Data} (hw : WF s) (hm : Means C s e "format") (hq : Means C s e "quote") (hx : x ≠ .null) (hz : z ≠ .null) :
    Evals C (l [y "format", no, t ("(" ++ k.name ++ " ~A ~A)"), l [y "quote", x], l [y "quote", z]]) e s
      (.ok (.str ("(" ++ k.name ++ " " ++ shown C.host s x ++ " " ++ shown C.host s z ++ ")"))) s := by
  have ht : Tame ("(" ++ k.name ++ " ") := by
    simp only [comparisons, List.mem_cons, List.not_mem_nil, or_false] at hk
    unfold Tame
    rcases hk with rfl | rfl <;> decide +kernel
  obtain ⟨a, h1, h2⟩ := format_arg C.host s x
  obtain ⟨a', h1', h2'⟩ := format_arg C.host s z
  have he : elem x = x := by simp [elem, hx]
  have he' : elem z = z := by simp [elem, hz]
  refine evals_format (as := [l [y "quote", x], l [y "quote", z]]) (us := [x, z]) (ps := pieces ("(" ++ k.name ++ " ") ++ (hereA :: (pieces " " ++ (hereA :: (pieces ")" ++ []))))) (fs := [a, a']) hw hm (by simp)
    (.next (evals_quote hw hq (Samples.lst_l (by simpa using Ne.symm hx)) hx) (.next (evals_quote hw hq (Samples.lst_l (by simpa using Ne.symm hz)) hz) .done)) ?_
    (by simp only [List.map_cons, List.map_nil, he, he']; exact .cons h1 (.cons h1' .nil)) ?_
  · have := spelled_text _ ht (spelled_A (spelled_text " " (by unfold Tame; decide +kernel) (spelled_A (spelled_text ")" (by unfold Tame; decide +kernel) .nil))))
    have he : text ("(" ++ k.name ++ " ~A ~A)").toList = text ("(" ++ k.name ++ " ").toList ++ (text "~A".toList ++ (text " ".toList ++ (text "~A".toList ++ (text ")".toList ++ [])))) := by
      have : text " ~A ~A)".toList = text " ".toList ++ (text "~A".toList ++ (text " ".toList ++ (text "~A".toList ++ text ")".toList))) := by decide +kernel
      simp only [text_app, this, List.append_assoc, List.append_nil]
    rw [he]
    exact this
  · simp only [sticky, sticky_text, Bool.or_false]
    have := renders_text ("(" ++ k.name ++ " ") (renders_A (x := a) (renders_text " " (renders_A (x := a') (renders_text ")" (.nil (as := []))))))
    have he : text ("(" ++ k.name ++ " " ++ shown C.host s x ++ " " ++ shown C.host s z ++ ")").toList =
        text ("(" ++ k.name ++ " ").toList ++ (a.shown ++ (text " ".toList ++ (a'.shown ++ (text ")".toList ++ [])))) := by
      simp only [text_app, h2, h2', List.append_assoc, List.append_nil]
    rw [he]
    simpa using this

private theorem shown_elem (H : Host) (s : Store) (hs : H.show s .emptyCons = H.show s .null) (v : Data) : shown H s (elem v) = shown H s v := by
  unfold elem
  split
  · next h => subst h; exact hs
  · rfl

/-- The complaint. -/
private theorem remark_format {k : Comparison} (hk : k ∈ comparisons) {v w : Data} (hw : WF s) (hm : Means C s e "format") (hn : C.host.show s .emptyCons = C.host.show s .null)
    (hv : Evals C (y "actual") e s (.ok v) s) (hv' : Evals C (y "expected") e s (.ok w) s) :
    Evals C k.remark e s (.ok (.str (k.complaint (shown C.host s w) (shown C.host s v)))) s := by
  obtain ⟨a, h1, h2⟩ := format_arg C.host s (elem v)
  obtain ⟨a', h1', h2'⟩ := format_arg C.host s (elem w)
  rw [shown_elem _ _ hn] at h2 h2'
  simp only [comparisons, List.mem_cons, List.not_mem_nil, or_false] at hk
  rcases hk with rfl | rfl
  · refine evals_format (as := [y "expected", y "actual"]) (us := [w, v]) (ps := pieces "expected " ++ (hereA :: (pieces ", but was " ++ (hereA :: [])))) (fs := [a', a]) hw hm (by simp)
      (.next hv' (.next hv .done)) ?_ (.cons h1' (.cons h1 .nil)) ?_
    · have := spelled_text "expected " (by unfold Tame; decide +kernel) (spelled_A (spelled_text ", but was " (by unfold Tame; decide +kernel) (spelled_A .nil)))
      have he : text "expected ~A, but was ~A".toList = text "expected ".toList ++ (text "~A".toList ++ (text ", but was ".toList ++ (text "~A".toList ++ []))) := by decide +kernel
      rw [he]
      exact this
    · simp only [sticky, sticky_text, Bool.or_false]
      have := renders_text "expected " (renders_A (x := a') (renders_text ", but was " (renders_A (x := a) (.nil (as := [])))))
      have he : text (assertEq.complaint (shown C.host s w) (shown C.host s v)).toList = text "expected ".toList ++ (a'.shown ++ (text ", but was ".toList ++ (a.shown ++ []))) := by
        simp only [assertEq, text_app, h2, h2', List.append_nil, List.append_assoc]
      rw [he]
      simpa using this
  · refine evals_format (as := [y "expected"]) (us := [w]) (ps := pieces "did not expect " ++ (hereA :: (pieces ", but it was" ++ []))) (fs := [a']) hw hm (by simp)
      (.next hv' .done) ?_ (.cons h1' .nil) ?_
    · have := spelled_text "did not expect " (by unfold Tame; decide +kernel) (spelled_A (spelled_text ", but it was" (by unfold Tame; decide +kernel) .nil))
      have he : text "did not expect ~A, but it was".toList = text "did not expect ".toList ++ (text "~A".toList ++ (text ", but it was".toList ++ [])) := by decide +kernel
      rw [he]
      exact this
    · simp only [sticky, sticky_text, Bool.or_false]
      have := renders_text "did not expect " (renders_A (x := a') (renders_text ", but it was" (.nil (as := []))))
      have he : text (assertNeq.complaint (shown C.host s w) (shown C.host s v)).toList = text "did not expect ".toList ++ (a'.shown ++ (text ", but it was".toList ++ [])) := by
        simp only [assertNeq, text_app, h2', List.append_nil, List.append_assoc]
      rw [he]
      simpa using this

private theorem plain_elem (h : Plain v) : Plain (elem v) := by
  unfold elem
  split
  · exact .list _ (.cons _ _ (.list _ .null) .null)
  · exact h

private theorem lst_elem : Lst (elem v) [] ↔ Lst v [] := by
  rw [← isNil_iff, ← isNil_iff, nil_elem]

private theorem seq_elem {w : Data} : SEq (elem v) (elem w) ↔ SEq v w := by
  have one : ∀ {w : Data}, SEq (.emptyCons) (elem w) ↔ Lst w [] := fun {w} => by
    rw [← lst_elem]
    constructor
    · intro h
      generalize hw : elem w = u at h
      cases h with
      | nil _ _ _ h => exact h
      | cell _ _ _ _ h => exact absurd (.empty _) h
    · exact fun h => .nil _ _ (.empty _) h
  have one' : ∀ {w : Data}, SEq .null w ↔ Lst w [] := ⟨fun h => by cases h with | nil _ _ _ h => exact h, fun h => .nil _ _ .null h⟩
  have two : ∀ {v : Data}, SEq v .emptyCons ↔ Lst v [] := fun {v} => by
    constructor
    · intro h
      cases h with
      | nil _ _ h => exact h
      | cell _ _ _ _ _ h => exact absurd (.empty _) h
    · exact fun h => .nil _ _ h (.empty _)
  have two' : ∀ {v : Data}, SEq v .null ↔ Lst v [] := ⟨fun h => by cases h with | nil _ _ h => exact h, fun h => .nil _ _ h .null⟩
  by_cases h1 : v = .null
  · subst h1
    exact one.trans one'.symm
  · have : elem v = v := by simp [elem, h1]
    rw [this]
    by_cases h2 : w = .null
    · subst h2
      exact two.trans two'.symm
    · have : elem w = w := by simp [elem, h2]
      rw [this]

/-- The test of the assertion tells whether the values are as they should be. -/
private theorem pair_tells {k : Comparison} (hk : k ∈ comparisons) (hl : Loaded C g s) (hs : Sees s g e) {v w : Data} (hv : Evals C (y "actual") e s (.ok v) s)
    (hv' : Evals C (y "expected") e s (.ok w) s) (hp : Plain v) (hp' : Plain w) :
    ∃ b : Data, Evals C (l [y k.test, y "actual", y "expected"]) e s (.ok b) s ∧ (Truthy b ↔ k.holds v w) := by
  have bt : ∀ b : Bool, Truthy (.bool b) ↔ b = true := fun b => by rw [← boolValue_iff]; cases b <;> decide
  simp only [comparisons, List.mem_cons, List.not_mem_nil, or_false] at hk
  rcases hk with rfl | rfl
  · obtain ⟨r, ⟨b, rfl, hb⟩, h⟩ := C67_arithmetic (C := C) (.equal (x := "eq?") (by simp) (plain_elem hp) (plain_elem hp'))
      (calling_sym hl.wf (hs.means hl (by simp [words])) rfl rfl (Samples.lst_l (xs := [y "actual", y "expected"]) (by simp)) (.next hv (.next hv' .done)))
    exact ⟨_, (h _ _).mpr ⟨rfl, rfl⟩, (bt b).trans (hb.trans seq_elem)⟩
  · obtain ⟨r, ⟨b, rfl, hb⟩, h⟩ := C67_arithmetic (C := C) (.different (x := "neq?") (by simp) (plain_elem hp) (plain_elem hp'))
      (calling_sym hl.wf (hs.means hl (by simp [words])) rfl rfl (Samples.lst_l (xs := [y "actual", y "expected"]) (by simp)) (.next hv (.next hv' .done)))
    exact ⟨_, (h _ _).mpr ⟨rfl, rfl⟩, (bt b).trans (hb.trans (not_congr seq_elem))⟩

/-- The text of a value does not depend on the state, and the two forms of the empty list have the same. -/
def Written (H : Host) (v : Data) : Prop := ∀ s s', H.show s v = H.show s' v ∧ H.show s .emptyCons = H.show s .null

/-- An assertion about two expressions evaluates the first, then the second, once each, in one environment made for the purpose;
in it the value of the first is bound to `actual` when the second is evaluated.  If both have values, the assertion returns nil; exactly
one pass or one failure (with a report) is recorded, as the values are in the relation or not; and apart from what the expressions
did, nothing else changes.  If one of the expressions fails, so does the assertion, and nothing is recorded. -/
theorem C94_comparison_partial {k : Comparison} (hk : k ∈ comparisons) (hl : Loaded C g s) (hs : Sees s g e) {z : Data} (hx : x ≠ .null) (hf : isFunc x = false)
    (hz : z ≠ .null) (hzf : isFunc z = false) :
    ∃ s₀ own r, Calm s s₀ ∧ WF s₀ ∧ s.envs.length ≤ own ∧ s₀.envs[own]? = some r ∧ r.parent = some e ∧ r.frame = none ∧ r.binds = [] ∧
      (∀ v s₁ w s₂ c, Evals C x own s₀ (.ok v) s₁ → s₁.envs[own]? = some r → Evals C z own (s₁.putVal own "actual" v) (.ok w) s₂ →
        s₂.envs[own]? = (s₁.putVal own "actual" v).envs[own]? → Loaded C g s₂ → Sees s₂ g e → Tells g s₂ c → Plain v → Plain w → isFunc v = false → isFunc w = false →
        Written C.host v → Written C.host w →
        ∃ c' xs s', Compared C.host (s₂.putVal own "expected" w) k x z v w c c' xs ∧ Evals C (l [y k.name, x, z]) e s (.ok .null) s' ∧
          Loaded C g s' ∧ Sees s' g e ∧ Tells g s' c' ∧ Only (xs.map (g, ·) ++ [(own, "expected"), (own, "msg")]) s₂ s') ∧
      (∀ er s₁, Evals C x own s₀ (.err er) s₁ → ∃ er', Evals C (l [y k.name, x, z]) e s (.err er') s₁) ∧
      (∀ v s₁ er s₂, Evals C x own s₀ (.ok v) s₁ → s₁.envs[own]? = some r → Evals C z own (s₁.putVal own "actual" v) (.err er) s₂ →
        ∃ er', Evals C (l [y k.name, x, z]) e s (.err er') s₂) := by
  obtain ⟨i, mr, b, h1, h2, h3, h4, h5⟩ := hl.comparisons k hk
  obtain ⟨gr, hgr, hgf⟩ := hl.env
  obtain ⟨pe, her, hef⟩ := hs.env
  obtain ⟨f, b', v1, v2⟩ := hs.names k.name (by simp only [Testing.names, List.mem_append, List.mem_map]; exact .inl (.inr ⟨k, hk, rfl⟩))
  obtain ⟨rfl, rfl⟩ := v1.unique (.here h1)
  have hnk : isNaked (.sym k.name) = false ∧ ∀ t, shortcuts (.cons (.sym k.name) t) = .cons (.sym k.name) t := by
    simp only [comparisons, List.mem_cons, List.not_mem_nil, or_false] at hk
    rcases hk with rfl | rfl <;> exact ⟨rfl, fun _ => rfl⟩
  have hop : EvalsOp C (.sym k.name) e s (.ok (.atom (.macro i))) s := by
    unfold EvalsOp
    rw [runs_iff]
    simp only [body, evalHelper, hnk.1]
    exact (runsP_valueOf hl.wf true v2 (fun _ => noSlot_of (noFrame hs.env) _) rfl).mpr ⟨rfl, rfl⟩
  have hgr' : s.envs[mr.env]? = some gr := by rw [h5]; exact hgr
  have ex : Expands C i [x, z] s (.ok (pairExpansion k x z)) (pushEnv s mr.env gr none mr.name [("sexpr", x), ("expected-sexpr", z)]) :=
    expands_on hl (σ := [("sexpr", x), ("expected-sexpr", z)]) (ps := ["sexpr", "expected-sexpr"]) (xs := [x, z]) (by simp; decide) (by
      intro p d hpd
      simp only [List.lookup_cons, List.lookup_nil] at hpd
      split at hpd
      · next h => obtain rfl := eq_of_beq h; cases hpd; exact ⟨rfl, by rintro i rfl; cases hf⟩
      · split at hpd
        · next h => obtain rfl := eq_of_beq h; cases hpd; exact ⟨rfl, by rintro i rfl; cases hzf⟩
        · cases hpd) (by simp [Comparison.body]) (pair_fills hk hx hz) h2 h3 rfl rfl h4 hgr' h5 hgf
  -- the expansion
  have qa := Fun.pushEnv_calm s mr.env gr none mr.name [("sexpr", x), ("expected-sexpr", z)]
  have hwa := pushEnv_WF hl.wf hgr' none mr.name [("sexpr", x), ("expected-sexpr", z)]
  have la : (pushEnv s mr.env gr none mr.name [("sexpr", x), ("expected-sexpr", z)]).envs.length = s.envs.length + 1 := by simp [pushEnv]
  have call : ∀ {r₀ : Out Data} {s'}, Evals C (pairExpansion k x z) e (pushEnv s mr.env gr none mr.name [("sexpr", x), ("expected-sexpr", z)]) r₀ s' →
      Evals C (l [y k.name, x, z]) e s (quoting (l [y k.name, x, z]) r₀) s' := fun h =>
    (C44_call (hnk.2 _) nofun hop h2 ⟨⟨gr, hgr'⟩, ["sexpr", "expected-sexpr"], none, h3, fun _ => rfl⟩
      (Samples.lst_l (xs := [x, z]) (by simpa using ⟨Ne.symm hx, Ne.symm hz⟩))).mpr ⟨_, rfl, .inl ⟨_, _, ex, h⟩⟩
  generalize pushEnv s mr.env gr none mr.name [("sexpr", x), ("expected-sexpr", z)] = sa at *
  have hla := Loaded.only hl (only_calm qa []) hwa clear0
  have hsa := Sees.only hs (only_calm qa []) clear0
  have hera := qa.env her
  -- the `let*`
  have q0 := Fun.pushEnv_calm sa e pe none "let" []
  have hw0 := pushEnv_WF hwa hera none "let" []
  have top0 := pushEnv_top sa e pe none "let" []
  have hlet : ∀ {r₀ : Out Data} {s'}, LetRuns C e "let" [] sa.envs.length ["actual", "expected", "msg"]
      [x, z, l [y "format", no, t ("(" ++ k.name ++ " ~A ~A)"), l [y "quote", x], l [y "quote", z]]]
      [l [y "if", l [y k.test, y "actual", y "expected"], l [y "log-pass", y "msg"], l [y "log-failure", y "msg", k.remark]]] sa r₀ s' →
      Evals C (pairExpansion k x z) e sa (quoting (pairExpansion k x z) r₀) s' := fun h =>
    (C38_let_star hwa (hsa.means hla (by simp [words])) (Samples.lst_l (xs := [_, _]) (by simp)) (by simp)
      (.cons (x := "actual") (is := [x]) (Samples.lst_l (xs := [y "actual", x]) (by simpa using Ne.symm hx))
        (.cons (x := "expected") (is := [z]) (Samples.lst_l (xs := [y "expected", z]) (by simpa using Ne.symm hz))
          (.cons (x := "msg") (is := [_]) (Samples.lst_l (xs := [y "msg", _]) (by simp)) (.nil .null)))) (by simp)).mpr ⟨_, rfl, h⟩
  refine ⟨pushEnv sa e pe none "let" [], sa.envs.length, _, qa.trans q0, hw0, by omega, top0, rfl, hef, rfl,
    fun v s₁ w s₂ c hv hown hz₂ hown₂ hl₂ hs₂ ht₂ hp hp' hvf hwf hwr hwr' => ?_, fun er' s₁ hv => ?_, fun v s₁ er' s₂ hv hown hz₂ => ?_⟩
  · obtain ⟨bind₁, hr₁⟩ := Fun.bind_run (B := []) hown rfl "actual" v
    have hr₂ := hown₂.trans hr₁
    obtain ⟨bind₂, hr₃⟩ := Fun.bind_run hr₂ rfl "expected" w
    have o3 : Only [(sa.envs.length, "expected")] s₂ (s₂.putVal sa.envs.length "expected" w) := only_put _ (by simp) _
    have hw₃ := Imp.putVal_WF hl₂.wf sa.envs.length "expected" w
    have hl₃ := Loaded.only hl₂ o3 hw₃ (clear1 (by decide))
    have hs₃e := Sees.only hs₂ o3 (clear1 (by decide))
    have ht₃ := Tells.only ht₂ o3 (clear1 (by decide))
    generalize s₂.putVal sa.envs.length "expected" w = s₃ at *
    have hs₃ : Sees s₃ f sa.envs.length := Sees.below hs₃e hr₃ rfl hef rfl (by simp; decide)
    have e3 := pair_format hk hw₃ (hs₃.means hl₃ (by simp [words])) (hs₃.means hl₃ (by simp [words])) hx hz
    obtain ⟨m, hm⟩ : ∃ m, m = "(" ++ k.name ++ " " ++ shown C.host s₃ x ++ " " ++ shown C.host s₃ z ++ ")" := ⟨_, rfl⟩
    rw [← hm] at e3
    obtain ⟨bind₃, hr₄⟩ := Fun.bind_run hr₃ rfl "msg" (.str m)
    have o4 : Only [(sa.envs.length, "msg")] s₃ (s₃.putVal sa.envs.length "msg" (.str m)) := only_put _ (by simp) _
    have hw₄ := Imp.putVal_WF hw₃ sa.envs.length "msg" (.str m)
    have hl₄ := Loaded.only hl₃ o4 hw₄ (clear1 (by decide))
    have ht₄ := Tells.only ht₃ o4 (clear1 (by decide))
    have hs₄e := Sees.only hs₃e o4 (clear1 (by decide))
    generalize s₃.putVal sa.envs.length "msg" (.str m) = s₄ at *
    have hs₄ : Sees s₄ f sa.envs.length := Sees.below hs₄e hr₄ rfl hef rfl (by simp; decide)
    have va : Visible s₄ sa.envs.length "actual" sa.envs.length ⟨v, false⟩ := .here (by simp [Store.localB, hr₄, alGet_binds])
    have ve : Visible s₄ sa.envs.length "expected" sa.envs.length ⟨w, false⟩ := .here (by simp [Store.localB, hr₄, alGet_binds])
    have vm : Visible s₄ sa.envs.length "msg" sa.envs.length ⟨.str m, false⟩ := .here (by simp [Store.localB, hr₄, alGet_binds])
    have fr₄ := noFrame hs₄.env
    have var : ∀ {p : String} {d : Data}, isNaked (.sym p) = false → isFunc d = false → Visible s₄ sa.envs.length p sa.envs.length ⟨d, false⟩ →
        ∀ s', Calm s₄ s' → WF s' → Evals C (.sym p) sa.envs.length s' (.ok d) s' := fun hp hd hv s' q hw =>
      evals_var hw (q.visible hv) (by rw [q.frameOf hr₄]; exact fr₄) hp (by rintro i rfl; cases hd)
    have va' := var rfl hvf va
    have ve' := var rfl hwf ve
    have vm' := var rfl rfl vm
    obtain ⟨u, e4, hu⟩ := pair_tells hk hl₄ hs₄ (va' _ (.refl _) hw₄) (ve' _ (.refl _) hw₄) hp hp'
    have fin : ∀ {s'}, (Truthy u ∧ Evals C (l [y "log-pass", y "msg"]) sa.envs.length s₄ (.ok .null) s' ∨
        ¬ Truthy u ∧ Evals C (l [y "log-failure", y "msg", k.remark]) sa.envs.length s₄ (.ok .null) s') → Evals C (l [y k.name, x, z]) e s (.ok .null) s' := fun h =>
      call (r₀ := .ok .null) (hlet (r₀ := .ok .null) (.run hera (.next hv bind₁ (.next hz₂ bind₂ (.next e3 bind₃ .done))) (.next ((C37_if hl₄.wf (hs₄.means hl₄ (by simp [words]))
        (Samples.lst_l (xs := [_, _, _]) (by simp)) (by simp)).mpr ⟨.ok .null, rfl, .inl ⟨u, s₄, e4, h⟩⟩) .done)))
    by_cases hh : k.holds v w
    · obtain ⟨s', h6, h7, h8, h9⟩ := log_pass hl₄ ht₄ hs₄ (by simp) (.cons vm' .nil)
      refine ⟨_, _, s', .pass hh, fin (.inl ⟨hu.mpr hh, h6⟩), h7, Sees.only hs₄e h9 (clear1 (by decide)), h8, ?_⟩
      exact Only.trans (Only.mono o3 (by simp)) (Only.trans (Only.mono o4 (by simp)) (Only.mono h9 (by simp)))
    · have same : ∀ s', shown C.host s' w = shown C.host s₃ w ∧ shown C.host s' v = shown C.host s₃ v := fun s' => by
        have one : ∀ {d : Data}, Written C.host d → shown C.host s' d = shown C.host s₃ d := fun {d} h => by
          unfold shown
          split
          · rfl
          · exact (h s' s₃).1
        exact ⟨one hwr', one hwr⟩
      obtain ⟨s', h6, h7, h8, h9⟩ := log_failure (m' := k.complaint (shown C.host s₃ w) (shown C.host s₃ v)) hl₄ ht₄ hs₄ (by simpa using Ne.symm (pair_ok hk).1)
        (.cons vm' (.cons (fun s' q hw => by
          have := remark_format (C := C) hk hw ((Sees.only hs₄ (only_calm q []) clear0).means (Loaded.only hl₄ (only_calm q []) hw clear0) (by simp [words])) (hwr s' s').2 (va' s' q hw) (ve' s' q hw)
          rwa [(same s').1, (same s').2] at this) .nil))
      refine ⟨_, _, s', .failure hh, fin (.inr ⟨fun h => hh (hu.mp h), h6⟩), h7, Sees.only hs₄e h9 (clear2 _), ?_, ?_⟩
      · rw [hm] at h8
        exact h8
      · exact Only.trans (Only.mono o3 (by simp)) (Only.trans (Only.mono o4 (by simp)) (Only.mono h9 (by simp)))
  · exact ⟨_, call (hlet (.err hera (.err hv)))⟩
  · obtain ⟨bind₁, hr₁⟩ := Fun.bind_run (B := []) hown rfl "actual" v
    exact ⟨_, call (hlet (.err hera (.next hv bind₁ (.err hz₂))))⟩

/-! ### Groups of assertions -/

/-- The expression that `it` stands for. -/
private def itExpansion (lab : String) (bs : List Data) : Data :=
  l [y "begin", l [y "when", y "verbose-tests", l [y "format", yes, t "~%  ~A~%", t lab]], l [y "set!", y "it-name", t lab],
    l [y "on-error", l (y "begin" :: bs), l [y "lambda", l [y "err"], excuse]]]

private theorem excuse_fills {σ : List (String × Data)} : Fills σ [l [y "lambda", l [y "err"], excuse]] [l [y "lambda", l [y "err"], excuse]] := by
  have cell : ∀ {a d : Data}, ¬ Mark (.cons a d) := by rintro a d (h | h | h) <;> cases h
  refine Streams.fills_l (by simp [excuse]) (unmarked (by decide)) (.atom (Streams.fills_l (by simp) (unmarked (by decide)) (.atom .nil) (by simp) (by simp)
    (Streams.fills_l (by simp) (unmarked (by decide)) (.atom (Streams.fills_l (by simp) cell
      (Streams.fills_l (by simp) (unmarked (by decide)) (.atom (Streams.fills_l (by simp) (unmarked (by decide)) (.atom (.atom (.atom .nil))) (by simp) (by simp) .nil)) (by simp) (by simp)
        (Streams.fills_l (by simp) (unmarked (by decide)) (.atom (Streams.fills_l (by simp) (unmarked (by decide)) (.atom (Streams.fills_l (by simp) (unmarked (by decide)) (.atom (.atom .nil)) (by simp) (by simp) .nil))
          (by simp) (by simp) .nil)) (by simp) (by simp) .nil)) (by simp) (by simp)
      (Streams.fills_l (by simp) (unmarked (by decide)) (.atom (Streams.fills_l (by simp) (unmarked (by decide)) (.atom (Streams.fills_l (by simp) (unmarked (by decide)) (.atom (.atom (.atom .nil)))
        (by simp) (by simp) .nil)) (by simp) (by simp) .nil)) (by simp) (by simp) .nil))) (by simp) (by simp) .nil))) (by simp) (by simp [excuse]) .nil

private theorem it_quasi {lab : String} {bs : List Data} (hn : Data.null ∉ bs) (h1 : Evals C (y "label") e s (.ok (t lab)) s) (h2 : Evals C (y "body") e s (.ok (l bs)) s) :
    Quasi C e 1 [itTemplate] s (.ok [itExpansion lab bs]) s := by
  have fill : ∀ {ts ds : List Data}, Fills [("label", t lab)] ts ds → Quasi C e 1 ts s (.ok ds) s := fun h => quasi_fills h fun p d hp _ _ => by
    obtain ⟨rfl, rfl⟩ : p = "label" ∧ t lab = d := by
      simp only [List.lookup_cons, List.lookup_nil] at hp
      split at hp
      · next h => exact ⟨eq_of_beq h, Option.some.inj hp⟩
      · cases hp
    exact h1
  have hole : ∀ {xs ys}, Fills [("label", t lab)] xs ys → Fills [("label", t lab)] (Testing.hole "label" :: xs) (t lab :: ys) := fun h => .hole rfl (by simp) rfl h
  have sub : ∀ {z : Data} {ts ds : List Data}, Data.null ∉ z :: ts → ¬ Mark z → ds ≠ [] → Data.null ∉ ds → Quasi C e 1 (z :: ts) s (.ok ds) s → Quasi C e 1 [l (z :: ts)] s (.ok [l ds]) s := by
    intro z ts ds h1 h2 h3 h4 h
    rw [← Streams.ofArray_l h3 h4]
    exact .list (Samples.lst_l h1) rfl (by simpa using h2) h
  have hbegin : Quasi C e 1 [l [y "begin", many "body"]] s (.ok [l (y "begin" :: bs)]) s :=
    sub (by simp) (unmarked (by decide)) (by simp) (by simpa using hn) (by
      have := Quasi.next (C := C) (e := e) (n := 1) (s := s) (.atom (a := .sym "begin")) (Quasi.splice (s' := s) (.atom _) h2 (.inl ⟨Samples.chain_l bs, hn⟩))
      exact this)
  have hon : Quasi C e 1 [l [y "on-error", l [y "begin", many "body"], l [y "lambda", l [y "err"], excuse]]] s
      (.ok [l [y "on-error", l (y "begin" :: bs), l [y "lambda", l [y "err"], excuse]]]) s :=
    sub (by simp) (unmarked (by decide)) (by simp) (by simp) (.next .atom (.next hbegin (fill excuse_fills)))
  have hwhen : Quasi C e 1 [l [y "when", y "verbose-tests", l [y "format", yes, t "~%  ~A~%", Testing.hole "label"]]] s (.ok [l [y "when", y "verbose-tests", l [y "format", yes, t "~%  ~A~%", t lab]]]) s := fill
    (Streams.fills_l (by simp) (unmarked (by decide)) (.atom (.atom (Streams.fills_l (by simp) (unmarked (by decide)) (.atom (.atom (.atom (hole .nil)))) (by simp) (by simp) .nil))) (by simp) (by simp) .nil)
  have hset : Quasi C e 1 [l [y "set!", y "it-name", Testing.hole "label"]] s (.ok [l [y "set!", y "it-name", t lab]]) s := fill
    (Streams.fills_l (by simp) (unmarked (by decide)) (.atom (.atom (hole .nil))) (by simp) (by simp) .nil)
  exact sub (by simp) (unmarked (by decide)) (by simp) (by simp) (.next .atom (.next hwhen (.next hset hon)))

/-- One-argument tests. -/
theorem evals_test {p : String} {f : Data → Bool} (hP : (std C.host).prims p = some ⟨"1".toList, false, false, test1 f⟩) (hx : isNaked (.sym p) = false)
    (hsx : ∀ t, shortcuts (.cons (.sym p) t) = .cons (.sym p) t) (hw : WF s) (hm : Means C s e p) {a v : Data} (hn : a ≠ .null) (hv : v ≠ .null) (ha : Evals C a e s (.ok v) s₁) :
    Evals C (l [y p, a]) e s (.ok (.bool (f v))) s₁ := by
  refine Testing.call (x := p) (impl := test1 f) (spec := "1".toList) hw hm hx hsx hP (as := [a]) (us := [v]) (by simpa using Ne.symm hn) (by rfl) (.next ha .done) fun args h => ?_
  have he : elem v = v := by simp [elem, hv]
  simp only [test1, car_args h, he]
  exact runsP_pure.mpr ⟨rfl, rfl⟩

set_option maxRecDepth 10000 in
private theorem it_expands (hl : Loaded C g s) {lab : String} {bs : List Data} (hb : bs ≠ []) (hn : Data.null ∉ bs) {i : Nat} {mr : MacRec} (hi : s.macs[i]? = some mr)
    (hp : Params mr.params ["label"] (some "body")) (hmb : mr.body = itBody) {gr : EnvRec} (hg : s.envs[mr.env]? = some gr) (he : mr.env = g) (hgf : gr.frame = none) :
    Expands C i (t lab :: bs) s (.ok (itExpansion lab bs)) (pushEnv s mr.env gr none mr.name [("label", t lab), ("body", l bs)]) := by
  have q := Fun.pushEnv_calm s mr.env gr none mr.name [("label", t lab), ("body", l bs)]
  have hw := pushEnv_WF hl.wf hg none mr.name [("label", t lab), ("body", l bs)]
  have top := pushEnv_top s mr.env gr none mr.name [("label", t lab), ("body", l bs)]
  have hl' := Loaded.only hl (only_calm q []) hw clear0
  have hs := Sees.below (B := [("label", t lab), ("body", l bs)]) (sees_self hl') top (by rw [he]) hgf rfl (by simp; decide)
  have fr := noFrame hs.env
  have v1 : Evals C (y "label") s.envs.length (pushEnv s mr.env gr none mr.name [("label", t lab), ("body", l bs)]) (.ok (t lab)) (pushEnv s mr.env gr none mr.name [("label", t lab), ("body", l bs)]) :=
    evals_var hw (p := false) (.here (by rw [pushEnv_localB]; rfl)) fr rfl (by simp)
  have v2 : Evals C (y "body") s.envs.length (pushEnv s mr.env gr none mr.name [("label", t lab), ("body", l bs)]) (.ok (l bs)) (pushEnv s mr.env gr none mr.name [("label", t lab), ("body", l bs)]) :=
    evals_var hw (p := false) (.here (by rw [pushEnv_localB]; rfl)) fr rfl (by cases bs with | nil => exact absurd rfl hb | cons a d => simp)
  have hpb : paramBinds ["label"] (some "body") (t lab :: bs) = [("label", t lab), ("body", l bs)] := by
    simp only [paramBinds, List.zip_cons_cons, List.zip_nil_left, List.length_singleton, List.drop_succ_cons, List.drop_zero, Streams.ofArray_l hb hn]
    rfl
  have bt : ∀ b : Bool, Truthy (.bool b) ↔ b = true := fun b => by rw [← boolValue_iff]; cases b <;> decide
  refine .run hi hg hp (by simp [Fits]) ?_
  rw [hpb, hmb]
  generalize pushEnv s mr.env gr none mr.name [("label", t lab), ("body", l bs)] = s₁ at *
  have t1 := evals_test (p := "symbol?") (f := isSym) rfl rfl (fun _ => rfl) hw (hs.means hl' (by simp [words])) (by simp) (by simp) v1
  have t2 := evals_test (p := "string?") (f := isStr) rfl rfl (fun _ => rfl) hw (hs.means hl' (by simp [words])) (by simp) (by simp) v1
  have t3 : Evals C (l [y "or", l [y "symbol?", y "label"], l [y "string?", y "label"]]) s.envs.length s₁ (.ok (.bool true)) s₁ :=
    (C37_or hw (hs.means hl' (by simp [words])) (Samples.lst_l (xs := [l [y "symbol?", y "label"], l [y "string?", y "label"]]) (by simp)) (by simp)).mpr
      ⟨.ok (.bool true), rfl, .next t1 (by rw [bt]; exact Bool.false_ne_true) (.decided t2 ((bt true).mpr rfl))⟩
  have t4 := evals_not hw (hs.means hl' (by simp [words])) (by simp) t3
  exact (C37_if hw (hs.means hl' (by simp [words])) (Samples.lst_l (xs := [_, _, _]) (by simp)) (by simp)).mpr ⟨.ok _, rfl, .inl ⟨_, s₁, t4, .inr ⟨(fun h => absurd ((bt false).mp h) Bool.false_ne_true),
    (C43_value_partial hw (hs.means hl' (by simp [words])) (t := l [itTemplate]) (Samples.lst_l (by simp [itTemplate])) (by simp [itTemplate]) (it_quasi hn v1 v2) _ _).mpr ⟨rfl, rfl⟩⟩⟩⟩

/-- `it` with a text as label makes the text the name of the test that runs, and nothing else; then it evaluates the expressions in
order, in the environment where it stands, and returns the last value.  If one of them fails, the rest are not evaluated, and a
procedure of one parameter with body `excuse`, made where `it` stands, is called with the text of the error; what it returns, `it`
returns. -/
theorem C95_it_partial (hl : Loaded C g s) (hs : Sees s g e) (ht : Tells g s c) {lab : String} {bs : List Data} (hb : bs ≠ []) (hn : Data.null ∉ bs)
    (hit : s.localB g "it-name" = some ⟨.str c.it, false⟩) (hvi : ∀ b, s.localB g "it-name" = some b → Visible s e "it-name" g b)
    (hvv : ∀ b, s.localB g "verbose-tests" = some b → Visible s e "verbose-tests" g b) :
    ∃ s₀, Loaded C g s₀ ∧ Sees s₀ g e ∧ Tells g s₀ { c with it := lab } ∧ Only [(g, "it-name")] s s₀ ∧
      (∀ v s₁, Seq C e bs .null s₀ (.ok v) s₁ → Evals C (l (y "it" :: t lab :: bs)) e s (.ok v) s₁) ∧
      (∀ s₁, Seq C e bs .null s₀ .panic s₁ → Evals C (l (y "it" :: t lab :: bs)) e s .panic s₁) ∧
      ∀ er s₁, Seq C e bs .null s₀ (.err er) s₁ → Loaded C g s₁ → Sees s₁ g e →
        ∃ er' i fr s₂, quoting (l (y "begin" :: bs)) (.err er) = .err er' ∧ Calm s₁ s₂ ∧ WF s₂ ∧ s₂.fns[i]? = some fr ∧ fr.params = l [y "err"] ∧ Lst fr.body [excuse] ∧ fr.env = e ∧
          ∀ w s', CallsV C i [.str (C.host.errText s₂ er')] e none s₂ (.ok w) s' → Evals C (l (y "it" :: t lab :: bs)) e s (.ok w) s' := by
  obtain ⟨i, mr, b, h1, h2, h3, h4, h5⟩ := hl.it
  obtain ⟨gr, hgr, hgf⟩ := hl.env
  obtain ⟨f, b', v1, v2⟩ := hs.names "it" (by simp [Testing.names])
  obtain ⟨rfl, rfl⟩ := v1.unique (.here h1)
  have hop : EvalsOp C (.sym "it") e s (.ok (.atom (.macro i))) s := by
    unfold EvalsOp
    rw [runs_iff]
    exact (runsP_valueOf hl.wf true v2 (fun _ => noSlot_of (noFrame hs.env) _) rfl).mpr ⟨rfl, rfl⟩
  have hgr' : s.envs[mr.env]? = some gr := by rw [h5]; exact hgr
  have hsc : ∀ t, shortcuts (.cons (.sym "it") t) = .cons (.sym "it") t := fun _ => rfl
  have ex := it_expands hl (lab := lab) hb hn h2 h3 h4 hgr' h5 hgf
  have qa := Fun.pushEnv_calm s mr.env gr none mr.name [("label", t lab), ("body", l bs)]
  have hwa := pushEnv_WF hl.wf hgr' none mr.name [("label", t lab), ("body", l bs)]
  have call : ∀ {r₀ : Out Data} {s'}, Evals C (itExpansion lab bs) e (pushEnv s mr.env gr none mr.name [("label", t lab), ("body", l bs)]) r₀ s' →
      Evals C (l (y "it" :: t lab :: bs)) e s (quoting (l (y "it" :: t lab :: bs)) r₀) s' := fun h =>
    (C44_call (hsc _) nofun hop h2 ⟨⟨gr, hgr'⟩, ["label"], some "body", h3, nofun⟩ (Samples.lst_l (xs := t lab :: bs) (by simpa using hn))).mpr ⟨_, rfl, .inl ⟨_, _, ex, h⟩⟩
  generalize pushEnv s mr.env gr none mr.name [("label", t lab), ("body", l bs)] = sa at *
  have hla := Loaded.only hl (only_calm qa []) hwa clear0
  have hsa := Sees.only hs (only_calm qa []) clear0
  have hta := Tells.only ht (only_calm qa []) clear0
  have hfa := noFrame hsa.env
  have hita : sa.localB f "it-name" = some ⟨.str c.it, false⟩ := by rw [qa.localB hgr]; exact hit
  -- the steps
  obtain ⟨vv, bv, hs1, hs2⟩ := hl.silent
  have e1 := evals_when hla hsa (qa.visible (hvv _ hs1)) hs2 rfl (d := l [y "format", yes, t "~%  ~A~%", t lab]) (by simp)
  have e2 := evals_set hwa (hsa.means hla (by simp [words])) (t := l [y "it-name", t lab]) (Samples.lst_l (xs := [.sym "it-name", t lab]) (by simp)) (by simp)
    (evals_lit (by simp)) (qa.visible (hvi _ hit)) rfl hfa
  have o2 : Only [(f, "it-name")] sa (sa.putVal f "it-name" (t lab)) := only_put _ (by simp) _
  have hw2 := Imp.putVal_WF hwa f "it-name" (t lab)
  obtain ⟨b₁, h6, h7⟩ := (putVal_only hita (t lab)).value
  rw [hita] at h6
  cases h6
  have hl2 := Loaded.only hla o2 hw2 (clear1 (by decide))
  have hs2 := Sees.only hsa o2 (clear1 (by decide))
  have ht2 : Tells f (sa.putVal f "it-name" (t lab)) { c with it := lab } := by
    obtain ⟨a1, a2, ⟨a3, a3'⟩, ⟨bc, a4⟩, -⟩ := hta
    have keep : ∀ {z : String} {b : Binding}, z ≠ "it-name" → sa.localB f z = some b → (sa.putVal f "it-name" (t lab)).localB f z = some b := by
      intro z b hz hb
      obtain ⟨r, hr⟩ := localB_some hb
      rw [o2.vars _ _ (lt_of_some hr) (by simpa using hz)]
      exact hb
    exact ⟨keep (by simp) a1, keep (by simp) a2, ⟨keep (by simp) a3, a3'⟩, ⟨bc, keep (by simp) a4⟩, false, h7⟩
  have whole : ∀ {r₀ : Out Data} {s'}, (∃ w, r₀ = .ok w) ∨ r₀ = .panic → Evals C (l [y "on-error", l (y "begin" :: bs), l [y "lambda", l [y "err"], excuse]]) e (sa.putVal f "it-name" (t lab)) r₀ s' →
      Evals C (l (y "it" :: t lab :: bs)) e s r₀ s' := by
    intro r₀ s' hr h
    have hseq : Seq C e [l [y "when", y "verbose-tests", l [y "format", yes, t "~%  ~A~%", t lab]], l [y "set!", y "it-name", t lab],
        l [y "on-error", l (y "begin" :: bs), l [y "lambda", l [y "err"], excuse]]] .null sa r₀ s' := by
      refine .next e1 (.next e2 ?_)
      rcases hr with ⟨w, rfl⟩ | rfl
      · exact .next h .done
      · exact .stop h id
    have := call ((C39_begin hwa (hsa.means hla (by simp [words])) (Samples.lst_l (xs := [_, _, _]) (by simp)) (by simp)).mpr ⟨r₀, rfl, hseq⟩)
    rcases hr with ⟨w, rfl⟩ | rfl
    · exact this
    · exact this
  have begins : ∀ {r₀ : Out Data} {s'}, Seq C e bs .null (sa.putVal f "it-name" (t lab)) r₀ s' → Evals C (l (y "begin" :: bs)) e (sa.putVal f "it-name" (t lab)) (quoting (l (y "begin" :: bs)) r₀) s' :=
    fun h => (C39_begin hw2 (hs2.means hl2 (by simp [words])) (Samples.lst_l (xs := bs) hn) hn).mpr ⟨_, rfl, h⟩
  refine ⟨sa.putVal f "it-name" (t lab), hl2, hs2, ht2, (only_calm qa _).trans o2, ?_⟩
  clear call e2 o2 ex
  generalize sa.putVal f "it-name" (t lab) = s₀ at *
  have on := fun (r : Out Data) (s' : Store) => C41_on_error (C := C) (r := r) (s' := s') hw2 (hs2.means hl2 (by simp [words])) (t := l [l (y "begin" :: bs), l [y "lambda", l [y "err"], excuse]])
    (Samples.lst_l (by simp)) (by simp)
  refine ⟨fun v s₁ h => whole (.inl ⟨v, rfl⟩) ((on _ _ ?_).mpr ⟨.ok v, rfl, .inl ⟨v, begins h, rfl⟩⟩), fun s₁ h => whole (.inr rfl) ((on _ _ ?_).mpr ⟨.panic, rfl, .inr (.inl ⟨begins h, rfl⟩)⟩),
    fun er s₁ h hl₁ hs₁ => ?_⟩
  · intro er' s₁' s₂' i' hv' _
    cases (runs_det (begins h) hv').1
  · intro er' s₁' s₂' i' hv' _
    cases (runs_det (begins h) hv').1
  · have hv := begins h
    obtain ⟨fr, f1, f2, f3, f4⟩ := C33_lambda hl₁.wf (hs₁.means hl₁ (by simp [words])) (t := l [l [y "err"], excuse]) (Samples.lst_l (by simp [excuse])) rfl (by simp [excuse])
    obtain ⟨pr, hpr, -⟩ := hs₁.env
    have hi : (s₁.fns ++ [fr])[s₁.fns.length]? = some fr := by simp
    have hq : Calm s₁ { s₁ with fns := s₁.fns ++ [fr] } := ⟨⟨[], by simp⟩, fun i f h => ⟨f.slot, by
      show (s₁.fns ++ [fr])[i]? = _
      rw [List.getElem?_append_left (List.getElem?_eq_some_iff.mp h).1]; exact h⟩, rfl, rfl, rfl, rfl, rfl, rfl, rfl⟩
    have h6 := (f4 _ _).mpr ⟨rfl, rfl⟩
    refine ⟨_, s₁.fns.length, fr, _, rfl, hq, hl₁.wf, hi, f2, f3, f1, fun w s' hc => whole (.inl ⟨w, rfl⟩) ((on _ _ ?_).mpr ⟨.ok w, rfl, .inr (.inr ⟨_, s₁, hv, .inl ⟨_, _, h6, .inl ⟨_, rfl, hc⟩⟩⟩)⟩)⟩
    intro er' s₁' s₂' i' hv' hk'
    obtain ⟨-, rfl⟩ := runs_det hv hv'
    obtain ⟨h, rfl⟩ := runs_det h6 hk'
    cases h
    exact ⟨fr, hi, ⟨pr, by rw [f1]; exact hpr⟩, ⟨["err"], none, by rw [f2]; exact .cons (.none .null), fun _ => rfl⟩, _, f3⟩

/-! ### The framework as shipped, in the interpreter as modelled -/

/-- The whole of the text, read and evaluated at top level in the initial state. -/
private def shipped : Data := l (y "begin" :: (Reader.parseAll Props.asciiHost source).1)
/-- The value that an evaluation returns with so many levels of recursion, if it does. -/
def value (C : Conf) (n : Nat) (d : Data) (e : Nat) (s : Store) : Option Data := match (recN (body C) n (.eval false d e) s).1 with | .ok v => some v | _ => none
def later (C : Conf) (n : Nat) (d : Data) (e : Nat) (s : Store) : Store := (recN (body C) n (.eval false d e) s).2

theorem evals_value {d : Data} {n : Nat} (h : (value C n d e s).isSome = true) : ∃ v, Evals C d e s (.ok v) (later C n d e s) := by
  unfold value at h
  split at h
  · exact ⟨_, n, Prod.ext (by assumption) rfl, by simp⟩
  · cases h

/-- The state after the text was evaluated. -/
@[irreducible] def after : Store := later Demo.C 20 shipped 1 Demo.s

set_option maxRecDepth 100000

private theorem evals_shipped : ∃ v, Evals Demo.C shipped 1 Demo.s (.ok v) after := by
  unfold after
  exact evals_value (by decide +kernel)

/-- What the file has defined, as far as the theorem needs to know. -/
def vars : List (String × Data) :=
  [("number-of-passes", n 0), ("number-of-failures", n 0), ("failure-messages", .emptyCons), ("verbose-tests", .emptyCons), ("context-name", t ""), ("it-name", t ""),
    ("log-pass", .atom (.func 1)), ("it", .atom (.macro 1)), ("context", .atom (.macro 0)), ("log-failure", .atom (.func 2)), ("log-error", .atom (.func 3)), ("number-of-errors", n 0), ("error-messages", .emptyCons), ("assert-true", .atom (.macro 2)), ("assert-false", .atom (.macro 3)),
    ("assert-nil", .atom (.macro 4)), ("assert-not-nil", .atom (.macro 5)), ("assert-eq", .atom (.macro 6)), ("assert-neq", .atom (.macro 7)), ("assert-error", .atom (.macro 8)), ("assert-nerror", .atom (.macro 9))]

theorem after_facts : (after.envs[1]?.map (·.frame), after.parentOf 1) = (some none, some 0) ∧
    (∀ x ∈ words, after.localB 1 x = none ∧ after.localB 0 x = some ⟨.atom (.prim x), true⟩) ∧
    (∀ p ∈ vars, after.localB 1 p.1 = some ⟨p.2, false⟩) ∧
    after.fns[1]? = some ⟨"log-pass", l [y "msg"], l logPass, 1, false⟩ ∧ after.fns[2]? = some ⟨"log-failure", l [y "prefix", y "msg"], l logFailure, 1, false⟩ ∧
    after.fns[3]? = some ⟨"log-error", l [y "err"], l logError, 1, false⟩ ∧
    after.macs[0]? = some ⟨"context", .cons (y "label") (.cons (y "setup") (y "body")), contextBody, 1⟩ ∧
    after.macs[1]? = some ⟨"it", .cons (y "label") (y "body"), itBody, 1⟩ ∧
    after.macs[2]? = some ⟨"assert-true", l [y "sexpr"], l [y "quasiquote", assertTrue.body], 1⟩ ∧
    after.macs[3]? = some ⟨"assert-false", l [y "sexpr"], l [y "quasiquote", assertFalse.body], 1⟩ ∧
    after.macs[4]? = some ⟨"assert-nil", l [y "sexpr"], l [y "quasiquote", assertNil.body], 1⟩ ∧
    after.macs[5]? = some ⟨"assert-not-nil", l [y "sexpr"], l [y "quasiquote", assertNotNil.body], 1⟩ ∧
    after.macs[6]? = some ⟨"assert-eq", l [y "sexpr", y "expected-sexpr"], l [y "quasiquote", assertEq.body], 1⟩ ∧
    after.macs[7]? = some ⟨"assert-neq", l [y "sexpr", y "expected-sexpr"], l [y "quasiquote", assertNeq.body], 1⟩ ∧
    after.macs[8]? = some ⟨"assert-error", l [y "**sexpr**"], l [y "quasiquote", assertError.body], 1⟩ ∧
    after.macs[9]? = some ⟨"assert-nerror", l [y "**sexpr**"], l [y "quasiquote", assertNoError.body], 1⟩ := by decide +kernel

private theorem after_frame : ∃ r, after.envs[1]? = some r ∧ r.frame = none := by
  have := after_facts.1
  cases h : after.envs[1]? with
  | none => simp [h] at this
  | some r => exact ⟨r, rfl, by simp [h] at this; exact this.1⟩

theorem after_loaded : Loaded Demo.C 1 after := by
  obtain ⟨h0, hwords, hvars, f1, f2, f3, m0, m1, m2, m3, m4, m5, m6, m7, m8, m9⟩ := after_facts
  have hpar : after.parentOf 1 = some 0 := congrArg Prod.snd h0
  obtain ⟨_, hrun⟩ := evals_shipped
  have hwf : WF after := runs_keeps keeps_WF hrun Demo.wf
  have hfr := after_frame
  clear hrun h0
  generalize after = s at *
  refine ⟨hwf, hfr, fun x hx => ?_, fun p hp => ?_, fun k hk => ?_, fun k hk => ?_, fun k hk => ?_, ?_, ?_, ?_⟩
  · obtain ⟨h1, h2⟩ := hwords x hx
    exact ⟨⟨0, true, .up h1 hpar (.here h2)⟩, fun _ => noSlot_of (noFrame hfr) x, rfl⟩
  · simp only [procs, List.mem_cons, List.not_mem_nil, or_false] at hp
    rcases hp with rfl | rfl | rfl
    · exact ⟨1, _, _, hvars ("log-pass", _) (by simp [vars]), f1, .cons (.none .null), Samples.lst_l (by decide), rfl⟩
    · exact ⟨2, _, _, hvars ("log-failure", _) (by simp [vars]), f2, .cons (.cons (.none .null)), Samples.lst_l (by decide), rfl⟩
    · exact ⟨3, _, _, hvars ("log-error", _) (by simp [vars]), f3, .cons (.none .null), Samples.lst_l (by decide), rfl⟩
  · simp only [checks, List.mem_cons, List.not_mem_nil, or_false] at hk
    rcases hk with rfl | rfl | rfl | rfl
    · exact ⟨2, _, _, hvars ("assert-true", _) (by simp [vars]), m2, .cons (.none .null), rfl, rfl⟩
    · exact ⟨3, _, _, hvars ("assert-false", _) (by simp [vars]), m3, .cons (.none .null), rfl, rfl⟩
    · exact ⟨4, _, _, hvars ("assert-nil", _) (by simp [vars]), m4, .cons (.none .null), rfl, rfl⟩
    · exact ⟨5, _, _, hvars ("assert-not-nil", _) (by simp [vars]), m5, .cons (.none .null), rfl, rfl⟩
  · simp only [trials, List.mem_cons, List.not_mem_nil, or_false] at hk
    rcases hk with rfl | rfl
    · exact ⟨8, _, _, hvars ("assert-error", _) (by simp [vars]), m8, .cons (.none .null), rfl, rfl⟩
    · exact ⟨9, _, _, hvars ("assert-nerror", _) (by simp [vars]), m9, .cons (.none .null), rfl, rfl⟩
  · simp only [comparisons, List.mem_cons, List.not_mem_nil, or_false] at hk
    rcases hk with rfl | rfl
    · exact ⟨6, _, _, hvars ("assert-eq", _) (by simp [vars]), m6, .cons (.cons (.none .null)), rfl, rfl⟩
    · exact ⟨7, _, _, hvars ("assert-neq", _) (by simp [vars]), m7, .cons (.cons (.none .null)), rfl, rfl⟩
  · exact ⟨1, _, _, hvars ("it", _) (by simp [vars]), m1, .cons .rest, rfl, rfl⟩
  · exact ⟨0, _, _, hvars ("context", _) (by simp [vars]), m0, .cons (.cons .rest), rfl, rfl⟩
  · exact ⟨.emptyCons, false, hvars ("verbose-tests", _) (by simp [vars]), by rw [← boolValue_iff]; decide⟩

/-- Nothing has been recorded yet. -/
theorem after_tells : Tells 1 after ⟨0, 0, .emptyCons, "", ""⟩ := by
  have hvars := after_facts.2.2.1
  generalize after = s at *
  exact ⟨hvars ("number-of-passes", _) (by simp [vars]), hvars ("number-of-failures", _) (by simp [vars]),
    ⟨hvars ("failure-messages", _) (by simp [vars]), nofun⟩, ⟨false, hvars ("context-name", _) (by simp [vars])⟩, ⟨false, hvars ("it-name", _) (by simp [vars])⟩⟩

theorem after_sees : Sees after 1 1 := sees_self after_loaded

/-- An assertion that fails: one failure is recorded, with its report. -/
example : ∃ s', Evals Demo.C (l [y "assert-nil", n 5]) 1 after (.ok .null) s' ∧
    Tells 1 s' ⟨0, 1, .cons (t " :\n    (assert-null 5)\n      - expected nil, but wasn't") .emptyCons, "", ""⟩ ∧ Only [(1, "number-of-failures"), (1, "failure-messages")] after s' := by
  obtain ⟨c', xs, s₀, s', -, h1, h2, -, -, h3, h4⟩ := C94_value_partial (k := assertNil) (x := n 5) (v := n 5) (by simp [checks]) after_loaded after_sees after_tells (by simp) rfl
    (fun _ _ _ => evals_lit nofun) nofun
  cases h1 with
  | pass h => exact absurd h (show ¬ Lst (n 5) [] by rw [← isNil_iff]; decide)
  | failure h =>
    have hn : Demo.C.host.show s₀ (n 5) = "5" := show String.ofList (Reader.print Props.asciiHost (n 5)) = "5" by decide +kernel
    refine ⟨s', h2, ?_, h4⟩
    simp only [failed, report, shown, hn] at h3
    exact h3

/-- One that passes. -/
example : ∃ s', Evals Demo.C (l [y "assert-true", n 5]) 1 after (.ok .null) s' ∧ Tells 1 s' ⟨1, 0, .emptyCons, "", ""⟩ ∧ Only [(1, "number-of-passes")] after s' := by
  obtain ⟨c', xs, s₀, s', -, h1, h2, -, -, h3, h4⟩ := C94_value_partial (k := assertTrue) (x := n 5) (v := n 5) (by simp [checks]) after_loaded after_sees after_tells (by simp) rfl
    (fun _ _ _ => evals_lit nofun) nofun
  cases h1 with
  | pass h => exact ⟨s', h2, h3, h4⟩
  | failure h => exact absurd (show Truthy (n 5) by rw [← boolValue_iff]; decide) h

/-- An assertion that fails because its expression does not. -/
example : ∃ c s', Evals Demo.C (l [y "assert-error", n 5]) 1 after (.ok .null) s' ∧ Tells 1 s' c ∧ c.passes = 0 ∧ c.failures = 1 ∧
    Only [(1, "number-of-failures"), (1, "failure-messages")] after s' := by
  obtain ⟨s₀, own, r, m, z, q, hw, -, -, -, -, -, -, h, -⟩ := C94_trial_partial (k := assertError) (x := n 5) (by simp [trials]) after_loaded after_sees (by simp) rfl
  obtain ⟨c', xs, s', h1, h2, -, -, h3, h4⟩ := h (n 5) s₀ _ (evals_lit nofun) (Loaded.only after_loaded (only_calm q []) hw clear0) (Sees.only after_sees (only_calm q []) clear0)
    (Tells.only after_tells (only_calm q []) clear0) rfl
  cases h1 with
  | pass h => cases h
  | failure h => exact ⟨_, s', h2, h3, rfl, rfl, (only_calm q _).trans h4⟩

/-- An assertion that two values are equal fails, with its report. -/
example : ∃ s', Evals Demo.C (l [y "assert-eq", n 5, n 6]) 1 after (.ok .null) s' ∧
    Tells 1 s' ⟨0, 1, .cons (t " :\n    (assert-eq 5 6)\n      - expected 6, but was 5") .emptyCons, "", ""⟩ ∧ Only [(1, "number-of-failures"), (1, "failure-messages")] after s' := by
  obtain ⟨s₀, own, r, q, hw, ho, hr, -, -, hb, h, -⟩ := C94_comparison_partial (k := assertEq) (x := n 5) (z := n 6) (by simp [comparisons]) after_loaded after_sees (by simp) rfl (by simp) rfl
  have q' : Only [] after (s₀.putVal own "actual" (n 5)) :=
    Only.fresh (xs := []) (ys := [(own, "actual")]) (Only.trans (only_calm q _) (only_put _ (by simp) _)) (by simpa using ho)
  have hw' := Imp.putVal_WF hw own "actual" (n 5)
  have hwr : ∀ i, Written Demo.C.host (n i) := fun i s s' => ⟨rfl, show String.ofList (Reader.print Props.asciiHost .emptyCons) = String.ofList (Reader.print Props.asciiHost .null) by decide +kernel⟩
  obtain ⟨c', xs, s', h1, h2, -, -, h3, h4⟩ := h (n 5) s₀ (n 6) _ _ (evals_lit nofun) hr (evals_lit nofun) rfl (Loaded.only after_loaded q' hw' clear0) (Sees.only after_sees q' clear0)
    (Tells.only after_tells q' clear0) (.atom _ (by simp [Settled])) (.atom _ (by simp [Settled])) rfl rfl (hwr 5) (hwr 6)
  cases h1 with
  | pass h =>
    exfalso
    cases h with
    | nil _ _ h => cases h
    | atom _ _ h => rcases h with h | h <;> simp at h
  | failure h =>
    have hn : ∀ s, Demo.C.host.show s (n 5) = "5" := fun _ => show String.ofList (Reader.print Props.asciiHost (n 5)) = "5" by decide +kernel
    have hn' : ∀ s, Demo.C.host.show s (n 6) = "6" := fun _ => show String.ofList (Reader.print Props.asciiHost (n 6)) = "6" by decide +kernel
    refine ⟨s', h2, ?_, ?_⟩
    · simp only [failed, reportPair, shown, hn, hn', assertEq] at h3
      exact h3
    · exact Only.fresh (ys := [(own, "actual"), (own, "expected"), (own, "msg")]) (Only.trans (Only.trans (only_calm q _) (only_put _ (by simp) _)) (Only.mono h4 (by simp))) (by simp [ho])

/-- A test with one assertion: the assertion is recorded, and the test has its name. -/
example : ∃ s', Evals Demo.C (l [y "it", t "counts", l [y "assert-true", n 5]]) 1 after (.ok .null) s' ∧ Tells 1 s' ⟨1, 0, .emptyCons, "", "counts"⟩ ∧
    Only [(1, "it-name"), (1, "number-of-passes")] after s' := by
  have hv : after.localB 1 "it-name" = some ⟨t "", false⟩ := after_facts.2.2.1 ("it-name", _) (by simp [vars])
  obtain ⟨s₀, hl, hs, ht, ho, h, -⟩ := C95_it_partial (lab := "counts") (bs := [l [y "assert-true", n 5]]) after_loaded after_sees after_tells (by simp) (by simp) hv
    (fun _ h => .here h) (fun _ h => .here h)
  obtain ⟨c', xs, s₁, s', -, h1, h2, -, -, h3, h4⟩ := C94_value_partial (k := assertTrue) (x := n 5) (v := n 5) (by simp [checks]) hl hs ht (by simp) rfl (fun _ _ _ => evals_lit nofun) nofun
  cases h1 with
  | pass _ => exact ⟨s', h _ _ (.next h2 .done), h3, Only.trans (Only.mono ho (by simp)) (Only.mono h4 (by simp))⟩
  | failure h => exact absurd (show Truthy (n 5) by rw [← boolValue_iff]; decide) h

/-! ### What the framework gets wrong -/

/-- The text `src` is evaluated at top level in the shipped framework, and then the variable `x` has the value `v`. -/
def Reaches (src x : String) (v : Data) : Prop := ∃ d s', Evals Demo.C (Demo.code src) 1 after (.ok d) s' ∧ (s'.localB 1 x).map (·.val) = some v

theorem reaches {src x : String} {v : Data} (n : Nat) (h : (value Demo.C n (Demo.code src) 1 after).isSome = true ∧
    ((later Demo.C n (Demo.code src) 1 after).localB 1 x).map (·.val) = some v) : Reaches src x v := by
  obtain ⟨d, hd⟩ := evals_value h.1
  exact ⟨d, _, hd, h.2⟩

/-- The expected value of `assert-eq` is computed where `actual` is the tested value, so an expectation that mentions a variable
named `actual` is met by whatever is tested. -/
theorem C94_capture_violation : Reaches "(let ((actual 5)) (assert-eq 1 actual))" "number-of-passes" (n 1) ∧
    Reaches "(let ((wanted 5)) (assert-eq 1 wanted))" "number-of-passes" (n 0) := ⟨reaches 30 (by decide +kernel), reaches 30 (by decide +kernel)⟩

/-- The expression of `assert-error` is evaluated where `msg` is the text of the assertion. -/
theorem C94_msg_violation : Reaches "(let ((msg 1)) (assert-error (if (integer? msg) (error \"wanted\") 2)))" "number-of-passes" (n 0) ∧
    Reaches "(let ((val 1)) (assert-error (if (integer? val) (error \"wanted\") 2)))" "number-of-passes" (n 1) := ⟨reaches 30 (by decide +kernel), reaches 30 (by decide +kernel)⟩

/-- `assert-memq` evaluates the object twice. -/
theorem C94_twice_violation : Reaches "(begin (define c 0) (assert-memq '(1 2) (begin (set! c (+ c 1)) c)))" "c" (n 2) ∧
    Reaches "(begin (define c 0) (assert-eq 1 (begin (set! c (+ c 1)) c)))" "c" (n 1) := ⟨reaches 30 (by decide +kernel), reaches 30 (by decide +kernel)⟩

/-- A label that is a symbol passes the check, but then it is evaluated: the test gets the value of the variable as its name. -/
theorem C95_label_violation : Reaches "(it addition (assert-true 1))" "it-name" .emptyCons ∧ Reaches "(begin (define addition 5) (it addition (assert-true 1)))" "it-name" (n 5) :=
  ⟨reaches 30 (by decide +kernel), reaches 30 (by decide +kernel)⟩

end Golisp.Props
