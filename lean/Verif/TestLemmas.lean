import Verif.TestSpec
import Verif.StreamLemmas
import Verif.Props.Control
import Verif.Props.Let
import Verif.Props.Quasi
import Verif.Props.Output
import Verif.Props.Scope
import Verif.Demo
/- Lemmas about states in which the test framework is loaded, and about the procedures that keep the tally. -/
namespace Golisp.Testing
open Golisp Data Ev Spec
open Golisp.Fun (Calm)
open Golisp.Props
open Golisp.Fmt (Arg)
open Golisp.Samples (l y n)

variable {C : Conf} {s s' s₁ s₂ s₃ : Store} {g e k : Nat} {xs ys : List (Nat × String)}

/-! ### What stays -/

theorem only_calm (h : Calm s s') (xs : List (Nat × String)) : Only xs s s' := by
  have look : ∀ e, e < s.envs.length → ∃ r, s.envs[e]? = some r := fun e he => ⟨_, List.getElem?_eq_getElem he⟩
  refine ⟨h.le, fun e x he _ => ?_, fun e he => ?_, h.fns, h.rest⟩
  · obtain ⟨r, hr⟩ := look e he
    exact h.localB hr x
  · obtain ⟨r, hr⟩ := look e he
    exact ⟨by simp only [Store.parentOf, hr, h.env hr], h.frameOf hr⟩

theorem Only.trans (h : Only xs s s₁) (h' : Only xs s₁ s₂) : Only xs s s₂ := by
  refine ⟨Nat.le_trans h.le h'.le, fun e x he hx => (h'.vars e x (Nat.lt_of_lt_of_le he h.le) hx).trans (h.vars e x he hx), fun e he => ?_, fun i fr hi => ?_, ?_⟩
  · obtain ⟨a, b⟩ := h.envs e he
    obtain ⟨a', b'⟩ := h'.envs e (Nat.lt_of_lt_of_le he h.le)
    exact ⟨a'.trans a, b'.trans b⟩
  · obtain ⟨b, hb⟩ := h.fns i fr hi
    obtain ⟨b', hb'⟩ := h'.fns i _ hb
    exact ⟨b', hb'⟩
  · obtain ⟨a1, a2, a3, a4, a5, a6, a7⟩ := h.rest
    obtain ⟨b1, b2, b3, b4, b5, b6, b7⟩ := h'.rest
    exact ⟨b1.trans a1, b2.trans a2, b3.trans a3, b4.trans a4, b5.trans a5, b6.trans a6, b7.trans a7⟩

theorem only_put (s : Store) {e : Nat} {x : String} (h : (e, x) ∈ xs) (v : Data) : Only xs s (s.putVal e x v) := by
  obtain ⟨a1, a2, a3, a4, a5, a6, a7⟩ := putVal_rest s e x v
  obtain ⟨a8, a9⟩ := putVal_rest' s e x v
  refine ⟨by rw [putVal_envs_len]; exact Nat.le_refl _, fun f z hf hz => ?_, fun f hf => ⟨Imp.putVal_parentOf .., Imp.putVal_frameOf ..⟩, fun i fr hi => ⟨fr.slot, by rw [a1]; exact hi⟩,
    a2, a3, a4, a6, a7, a8, a9⟩
  rw [putVal_localB, if_neg]
  rintro ⟨rfl, rfl⟩
  exact hz h

theorem Only.mono (h : Only xs s s') (hs : ∀ p ∈ xs, p ∈ ys) : Only ys s s' :=
  ⟨h.le, fun e x he hx => h.vars e x he fun h' => hx (hs _ h'), h.envs, h.fns, h.rest⟩

/-- Writes into environments that did not exist do not count. -/
theorem Only.fresh (h : Only (xs ++ ys) s s') (hf : ∀ p ∈ ys, s.envs.length ≤ p.1) : Only xs s s' := by
  refine ⟨h.le, fun e x he hx => h.vars e x he fun h' => ?_, h.envs, h.fns, h.rest⟩
  rcases List.mem_append.1 h' with h' | h'
  · exact hx h'
  · have := hf _ h'
    simp only at this
    omega

theorem lt_of_some {r : EnvRec} (h : s.envs[e]? = some r) : e < s.envs.length := (List.getElem?_eq_some_iff.mp h).1

theorem Only.visible (h : Only xs s s') {x : String} (hx : ∀ p ∈ xs, p.2 ≠ x) {f : Nat} {b : Binding} (hv : Visible s e x f b) : Visible s' e x f b := by
  have hn : ∀ e, (e, x) ∉ xs := fun e h => hx _ h rfl
  induction hv with
  | here hb =>
    obtain ⟨r, hr⟩ := localB_some hb
    exact .here (by rw [h.vars _ _ (lt_of_some hr) (hn _)]; exact hb)
  | up hb hp _ ih =>
    obtain ⟨r, hr, _⟩ := parentOf_some hp
    exact .up (by rw [h.vars _ _ (lt_of_some hr) (hn _)]; exact hb) (by rw [(h.envs _ (lt_of_some hr)).1]; exact hp) (ih hx hn)

theorem Only.env (h : Only xs s s') (he : ∃ r, s.envs[e]? = some r ∧ r.frame = none) : ∃ r, s'.envs[e]? = some r ∧ r.frame = none := by
  obtain ⟨r, hr, hf⟩ := he
  have hlt := lt_of_some hr
  refine ⟨_, List.getElem?_eq_getElem (Nat.lt_of_lt_of_le hlt h.le), ?_⟩
  have := (h.envs e hlt).2
  simp only [Store.frameOf, hr, List.getElem?_eq_getElem (Nat.lt_of_lt_of_le hlt h.le)] at this
  rw [this, hf]

theorem noFrame (h : ∃ r, s.envs[e]? = some r ∧ r.frame = none) : s.frameOf e = none := by
  obtain ⟨r, hr, hf⟩ := h
  simp [Store.frameOf, hr, hf]

/-- The names of the variables in the list are not among those that matter. -/
def Clear (zs : List String) (xs : List (Nat × String)) : Prop := ∀ p ∈ xs, p.2 ∉ zs

theorem Clear.ne {zs : List String} (h : Clear zs xs) {x : String} (hx : x ∈ zs) : ∀ p ∈ xs, p.2 ≠ x := fun p hp he => h p hp (he ▸ hx)

theorem clear1 {zs : List String} {x : String} (h : x ∉ zs) : Clear zs [(e, x)] := by
  intro p hp
  obtain rfl : p = (e, x) := by simpa using hp
  exact h

theorem clear0 {zs : List String} : Clear zs [] := fun _ h => by cases h

theorem Clear.keep {zs : List String} (hc : Clear zs xs) (h : Only xs s s') {x : String} (hx : x ∈ zs) {b : Binding} (hb : s.localB e x = some b) : s'.localB e x = some b := by
  obtain ⟨r, hr⟩ := localB_some hb
  rw [h.vars _ _ (lt_of_some hr) fun h' => hc _ h' hx]
  exact hb

theorem Loaded.only (hl : Loaded C g s) (h : Only xs s s') (hw : WF s') (hc : Clear ("verbose-tests" :: Testing.names) xs) : Loaded C g s' := by
  refine ⟨hw, h.env hl.env, fun x hx => ?_, fun p hp => ?_, fun c hp => ?_, fun c hp => ?_, fun c hp => ?_, ?_, ?_, ?_⟩
  · obtain ⟨⟨f, b, hv⟩, _, hs⟩ := hl.words x hx
    refine ⟨⟨f, b, h.visible (hc.ne (by simp [Testing.names, hx])) hv⟩, fun _ => noSlot_of (noFrame (h.env hl.env)) x, hs⟩
  · obtain ⟨i, fr, b, h1, h2, h3⟩ := hl.procs p hp
    obtain ⟨sl, h4⟩ := h.fns i fr h2
    exact ⟨i, _, b, hc.keep h (by simp only [Testing.names, List.mem_cons, List.mem_append, List.mem_map]; exact .inr (.inl (.inl (.inl (.inl (.inr ⟨p, hp, rfl⟩)))))) h1, h4, h3⟩
  · obtain ⟨i, mr, b, h1, h2, h3⟩ := hl.checks c hp
    exact ⟨i, mr, b, hc.keep h (by simp only [Testing.names, List.mem_cons, List.mem_append, List.mem_map]; exact .inr (.inl (.inl (.inl (.inr ⟨c, hp, rfl⟩))))) h1, by rw [h.rest.1]; exact h2, h3⟩
  · obtain ⟨i, mr, b, h1, h2, h3⟩ := hl.trials c hp
    exact ⟨i, mr, b, hc.keep h (by simp only [Testing.names, List.mem_cons, List.mem_append, List.mem_map]; exact .inr (.inl (.inl (.inr ⟨c, hp, rfl⟩)))) h1, by rw [h.rest.1]; exact h2, h3⟩
  · obtain ⟨i, mr, b, h1, h2, h3⟩ := hl.comparisons c hp
    exact ⟨i, mr, b, hc.keep h (by simp only [Testing.names, List.mem_cons, List.mem_append, List.mem_map]; exact .inr (.inl (.inr ⟨c, hp, rfl⟩))) h1, by rw [h.rest.1]; exact h2, h3⟩
  · obtain ⟨i, mr, b, h1, h2, h3⟩ := hl.it
    exact ⟨i, mr, b, hc.keep h (by simp [Testing.names]) h1, by rw [h.rest.1]; exact h2, h3⟩
  · obtain ⟨i, mr, b, h1, h2, h3⟩ := hl.context
    exact ⟨i, mr, b, hc.keep h (by simp [Testing.names]) h1, by rw [h.rest.1]; exact h2, h3⟩
  · obtain ⟨v, b, h1, h2⟩ := hl.silent
    exact ⟨v, b, hc.keep h (by simp) h1, h2⟩

theorem Sees.only (hs : Sees s g e) (h : Only xs s s') (hc : Clear Testing.names xs) : Sees s' g e := by
  refine ⟨h.env hs.env, fun x hx => ?_⟩
  obtain ⟨f, b, h1, h2⟩ := hs.names x hx
  exact ⟨f, b, h.visible (hc.ne hx) h1, h.visible (hc.ne hx) h2⟩

def tallied : List String := ["number-of-passes", "number-of-failures", "failure-messages", "context-name", "it-name"]

theorem Tells.only {c : Tally} (ht : Tells g s c) (h : Only xs s s') (hc : Clear tallied xs) : Tells g s' c := by
  obtain ⟨h1, h2, ⟨h3, h3'⟩, ⟨b, h4⟩, b', h5⟩ := ht
  exact ⟨hc.keep h (by simp [tallied]) h1, hc.keep h (by simp [tallied]) h2, ⟨hc.keep h (by simp [tallied]) h3, h3'⟩, ⟨b, hc.keep h (by simp [tallied]) h4⟩,
    b', hc.keep h (by simp [tallied]) h5⟩

/-- A word of the language, used where the names mean what they should. -/
theorem Sees.means (hs : Sees s g e) (hl : Loaded C g s) {x : String} (hx : x ∈ words) : Means C s e x := by
  obtain ⟨⟨f, b, hv⟩, _, hstd⟩ := hl.words x hx
  obtain ⟨f', b', h1, h2⟩ := hs.names x (by simp [Testing.names, hx])
  obtain ⟨rfl, rfl⟩ := h1.unique hv
  exact ⟨⟨_, b, h2⟩, fun _ => noSlot_of (noFrame hs.env) x, hstd⟩

theorem sees_self (hl : Loaded C g s) : Sees s g g := by
  refine ⟨hl.env, fun x hx => ?_⟩
  simp only [Testing.names, List.mem_append, List.mem_map] at hx
  rcases hx with ((((hx | ⟨p, hp, rfl⟩) | ⟨c, hc, rfl⟩) | ⟨c, hc, rfl⟩) | ⟨c, hc, rfl⟩) | hx
  · obtain ⟨⟨f, b, hv⟩, _⟩ := hl.words x hx
    exact ⟨f, _, hv, hv⟩
  · obtain ⟨i, fr, b, h1, _⟩ := hl.procs p hp
    exact ⟨g, _, .here h1, .here h1⟩
  · obtain ⟨i, mr, b, h1, _⟩ := hl.checks c hc
    exact ⟨g, _, .here h1, .here h1⟩
  · obtain ⟨i, mr, b, h1, _⟩ := hl.trials c hc
    exact ⟨g, _, .here h1, .here h1⟩
  · obtain ⟨i, mr, b, h1, _⟩ := hl.comparisons c hc
    exact ⟨g, _, .here h1, .here h1⟩
  · obtain ⟨i, mr, b, h1, _⟩ := hl.it
    obtain ⟨i', mr', b', h1', _⟩ := hl.context
    obtain rfl | rfl : x = "it" ∨ x = "context" := by simpa using hx
    · exact ⟨g, _, .here h1, .here h1⟩
    · exact ⟨g, _, .here h1', .here h1'⟩

theorem absent {r : EnvRec} (hr : s.envs[k]? = some r) {B : List (String × Data)} (hb : r.binds = binds B) {x : String} (hB : ∀ p ∈ B, p.1 ≠ x) : s.localB k x = none := by
  simp only [Store.localB, hr, hb, alGet_binds]
  have : B.reverse.find? (·.1 == x) = none := by
    rw [List.find?_eq_none]
    intro p hp he
    exact hB p (List.mem_reverse.1 hp) (eq_of_beq he)
  rw [this]; rfl

/-- A new environment below one from which the names can be seen. -/
theorem Sees.below (hs : Sees s g e) {r : EnvRec} (hr : s.envs[k]? = some r) (hp : r.parent = some e) (hf : r.frame = none) {B : List (String × Data)} (hb : r.binds = binds B)
    (hB : ∀ p ∈ B, p.1 ∉ Testing.names) : Sees s g k := by
  refine ⟨⟨r, hr, hf⟩, fun x hx => ?_⟩
  obtain ⟨f, b, h1, h2⟩ := hs.names x hx
  refine ⟨f, b, h1, .up ?_ (by simp [Store.parentOf, hr, hp]) h2⟩
  exact absent hr hb fun p hp he => hB p hp (he ▸ hx)

/-! ### Calls of primitives -/

/-- A variable, whatever its value. -/
theorem lookup (hw : WF s) {x : String} {f : Nat} {v : Data} {p : Bool} (hv : Visible s e x f ⟨v, p⟩) (hfr : s.frameOf e = none) (hx : isNaked (.sym x) = false)
    (hk : ∀ i, v = .atom (.func i) → ∃ fr, s.fns[i]? = some fr) : ∃ s', Evals C (.sym x) e s (.ok v) s' ∧ Calm s s' := by
  by_cases h : ∃ i, v = .atom (.func i)
  · obtain ⟨i, rfl⟩ := h
    obtain ⟨fr, hi⟩ := hk i rfl
    obtain ⟨s₁, b, h1, _, h3⟩ := runsP_valueOf_fn (H := C.host) (bd := body C) hw false hv (fun _ => noSlot_of hfr x) hi
    refine ⟨s₁, ?_, .of h1⟩
    unfold Evals
    rw [runs_iff]
    simp only [body, evalHelper, hx]
    exact h3
  · exact ⟨s, evals_var hw hv hfr hx fun i hi => h ⟨i, hi⟩, .refl s⟩

theorem call (hw : WF s) {x : String} (hm : Means C s e x) (hx : isNaked (.sym x) = false) (hs : ∀ t, shortcuts (.cons (.sym x) t) = .cons (.sym x) t)
    {spec : List Char} {impl : Data → Nat → Prog Data} (hP : (std C.host).prims x = some ⟨spec, false, false, impl⟩) {as us : List Data} (hn : Data.null ∉ as)
    (hc : Arity.checkArgumentCount (Arity.parseNumArgs spec) us.length = true) (ha : Args C e as s (.ok us) s₁) {w : Data}
    (hr : ∀ args, Lst args (us.map elem) → RunsP (body C) (impl args e) s₁ (.ok w) s₂) : Evals C (.cons (.sym x) (l as)) e s (.ok w) s₂ := by
  obtain ⟨args, h1, h2⟩ := calling_iff (calling_sym hw hm hx (hs _) (Samples.lst_l hn) ha) hP (by simpa using hc)
  exact (h2 _ _).mpr ⟨.ok w, rfl, hr args h1⟩

theorem bool_elem (v : Data) : boolValue (elem v) = boolValue v := by
  unfold elem
  split
  · next h => subst h; rfl
  · rfl

theorem nil_elem (v : Data) : isNil (elem v) = isNil v := by
  unfold elem
  split
  · next h => subst h; rfl
  · rfl

theorem isNil_iff (v : Data) : isNil v = true ↔ Lst v [] := by
  constructor
  · intro h
    cases v with
    | null => exact .null
    | atom a => cases h
    | cell k a d =>
      cases a <;> cases d <;> first | exact .empty k | cases h
  · intro h
    cases h <;> rfl

theorem evals_not (hw : WF s) (hm : Means C s e "not") {a v : Data} (hn : a ≠ .null) (ha : Evals C a e s (.ok v) s₁) :
    Evals C (l [y "not", a]) e s (.ok (.bool (!boolValue v))) s₁ := by
  refine call (x := "not") (impl := o1 Prim.boolNot) (spec := "1".toList) hw hm rfl (fun _ => rfl) rfl (as := [a]) (us := [v]) (by simpa using Ne.symm hn) (by rfl) (.next ha .done) fun args h => ?_
  simp only [o1, car_args h, Prim.boolNot, bool_elem]
  exact runsP_pure.mpr ⟨rfl, rfl⟩

set_option maxRecDepth 10000 in
theorem evals_nil (hw : WF s) (hm : Means C s e "nil?") {a v : Data} (hn : a ≠ .null) (ha : Evals C a e s (.ok v) s₁) :
    Evals C (l [y "nil?", a]) e s (.ok (.bool (isNil v))) s₁ := by
  refine call (x := "nil?") (impl := test1 isNil) (spec := "1".toList) hw hm rfl (fun _ => rfl) rfl (as := [a]) (us := [v]) (by simpa using Ne.symm hn) (by rfl) (.next ha .done) fun args h => ?_
  simp only [test1, car_args h, nil_elem]
  exact runsP_pure.mpr ⟨rfl, rfl⟩

theorem evals_succ (hw : WF s) (hm : Means C s e "succ") {a : Data} {i : BitVec 64} (hn : a ≠ .null) (ha : Evals C a e s (.ok (.int i)) s₁) :
    Evals C (l [y "succ", a]) e s (.ok (.int (i + 1))) s₁ := by
  refine call (x := "succ") (impl := o1 Prim.succ) (spec := "1".toList) hw hm rfl (fun _ => rfl) rfl (as := [a]) (us := [.int i]) (by simpa using Ne.symm hn) (by rfl) (.next ha .done) fun args h => ?_
  simp only [o1, car_args h, elem, Prim.succ]
  exact runsP_pure.mpr ⟨rfl, rfl⟩

theorem evals_cons (hw : WF s) (hm : Means C s e "cons") {a b u v : Data} (hn : a ≠ .null) (hn' : b ≠ .null) (ha : Evals C a e s (.ok u) s₁) (hb : Evals C b e s₁ (.ok v) s₂) :
    Evals C (l [y "cons", a, b]) e s (.ok (.cons (elem u) (elem v))) s₂ := by
  refine call (x := "cons") (impl := fun args _ => pure (.cons (car args) (car (cdr args)))) (spec := "2".toList) hw hm rfl (fun _ => rfl) rfl (as := [a, b]) (us := [u, v])
    (by simpa using ⟨Ne.symm hn, Ne.symm hn'⟩) (by rfl) (.next ha (.next hb .done)) fun args h => ?_
  simp only [car_args h, cadr_args h]
  exact runsP_pure.mpr ⟨rfl, rfl⟩

theorem evals_lit {a : Atom} (h : ∀ x, a ≠ .sym x) : Evals C (.atom a) e s (.ok (.atom a)) s := by
  unfold Evals
  rw [runs_iff]
  cases a <;> first | exact runsP_pure.mpr ⟨rfl, rfl⟩ | exact absurd rfl (h _)

theorem evals_quote (hw : WF s) (hm : Means C s e "quote") {t d : Data} (ht : Lst t [d]) (hd : d ≠ .null) :
    Evals C (.cons (.sym "quote") t) e s (.ok d) s := by
  rw [evals_form (P := ⟨"1".toList, true, false, quoteImpl⟩) hw hm rfl (fun _ => rfl) rfl rfl rfl ht (by rfl)]
  refine ⟨.ok d, ?_, rfl⟩
  have : noNull (car (ofArray [d])) = d := by cases d <;> first | rfl | exact absurd rfl hd
  show RunsP (body C) (pure (noNull (car (ofArray [d])))) s (.ok d) s
  rw [this]
  exact runsP_pure.mpr ⟨rfl, rfl⟩

/-! ### Text -/

/-- The bytes of a text, as pieces of a control string. -/
def pieces (t : String) : List Ctl := (text t.toList).map .byte
/-- `~A` -/
abbrev hereA : Ctl := .dir .none false .show
/-- `~%` -/
abbrev hereNl : Ctl := .dir .none false .newline

/-- The text contains no tilde. -/
def Tame (t : String) : Prop := ∀ b ∈ text t.toList, b ≠ 126

theorem text_app (a b : String) : text (a ++ b).toList = text a.toList ++ text b.toList := by
  rw [String.toList_append]; simp [text]

theorem spelled_text {ps : List Ctl} {u : Str.GoStr} (a : String) (ha : Tame a) (h : Spelled ps u) : Spelled (pieces a ++ ps) (text a.toList ++ u) := by
  unfold pieces
  unfold Tame at ha
  generalize text a.toList = bs at ha
  induction bs with
  | nil => exact h
  | cons b bs ih => exact .byte (ha b (by simp)) (ih fun c hc => ha c (by simp [hc]))

theorem spelled_A {ps : List Ctl} {u : Str.GoStr} (h : Spelled ps u) : Spelled (hereA :: ps) (text "~A".toList ++ u) :=
  .dir (n := .none) (cs := []) (a := false) (b := 65) .none (.show (.inr rfl)) h

theorem spelled_nl {ps : List Ctl} {u : Str.GoStr} (h : Spelled ps u) : Spelled (hereNl :: ps) (text "~%".toList ++ u) :=
  .dir (n := .none) (cs := []) (a := false) (b := 37) .none .newline h

theorem sticky_text (a : String) (ps : List Ctl) : sticky false (pieces a ++ ps) = pieces a ++ sticky false ps := by
  unfold pieces
  induction text a.toList with
  | nil => rfl
  | cons b bs ih => simp only [List.map_cons, List.cons_append, sticky, ih]

theorem renders_text {ps : List Ctl} {as r : List Arg} {o : Str.GoStr} (a : String) (h : Renders ps as o r) : Renders (pieces a ++ ps) as (text a.toList ++ o) r := by
  unfold pieces
  induction text a.toList with
  | nil => exact h
  | cons b bs ih => exact .byte ih

theorem renders_A {ps : List Ctl} {x : Arg} {as r : List Arg} {o : Str.GoStr} (h : Renders ps as o r) : Renders (hereA :: ps) (x :: as) (x.shown ++ o) r := by
  exact Renders.show (a := false) (x := x) (p := x.shown) .none ⟨0, by simp, by omega, .inl rfl⟩ h

theorem renders_nl {ps : List Ctl} {as r : List Arg} {o : Str.GoStr} (h : Renders ps as o r) : Renders (hereNl :: ps) as (text "\n".toList ++ o) r :=
  .newline .none h

theorem format_arg (H : Host) (s : Store) (v : Data) : ∃ a, FormatArg H s v a ∧ a.shown = text (shown H s v).toList := by
  by_cases h1 : ∃ i, v = .int i
  · obtain ⟨i, rfl⟩ := h1; exact ⟨_, .int, rfl⟩
  · by_cases h2 : ∃ t, v = .str t
    · obtain ⟨t, rfl⟩ := h2; exact ⟨_, .str, rfl⟩
    · refine ⟨_, .other (fun i hi => h1 ⟨i, hi⟩) fun t ht => h2 ⟨t, ht⟩, ?_⟩
      have : shown H s v = H.show s v := by
        unfold shown
        split
        · exact absurd ⟨_, rfl⟩ h2
        · rfl
      rw [this]

/-- A call of `format` that makes a string. -/
theorem evals_format (hw : WF s) (hm : Means C s e "format") {ctl txt : String} {as us : List Data} (hn : Data.null ∉ as) (ha : Args C e as s (.ok us) s₁)
    {ps : List Ctl} {fs : List Arg} (hp : Spelled ps (text ctl.toList)) (hf : FormatArgs C.host s₁ (us.map elem) fs) (hr : Renders (sticky false ps) fs (text txt.toList) []) :
    Evals C (.cons (.sym "format") (l (no :: t ctl :: as))) e s (.ok (.str txt)) s₁ := by
  have hc : Calling C "format" (([no, t ctl] ++ us).map elem) (.cons (.sym "format") (l (no :: t ctl :: as))) e s s₁ :=
    calling_sym hw hm rfl rfl (Samples.lst_l (by simpa using hn)) (.next (evals_lit nofun) (.next (evals_lit nofun) ha))
  exact ((C85_format (to := false) (ctl := ctl) (vs := us.map elem) hc hp hf hr).2 rfl _ _).mpr ⟨rfl, rfl⟩

/-! ### The procedures -/

/-- Expressions that have these values in every later state, and change nothing. -/
inductive Steady (C : Conf) (e : Nat) (s : Store) : List Data → List Data → Prop where
  | nil : Steady C e s [] []
  | cons {a v as vs} : (∀ s', Calm s s' → WF s' → Evals C a e s' (.ok v) s') → Steady C e s as vs → Steady C e s (a :: as) (v :: vs)

theorem Steady.length {as vs : List Data} (h : Steady C e s as vs) : as.length = vs.length := by
  induction h with
  | nil => rfl
  | cons _ _ ih => simp [ih]

theorem steady_binds {as vs : List Data} (h : Steady C e s as vs) (hw : WF s₁) (hc : Calm s s₁) {p : Nat} {pr : EnvRec} (hpr : s₁.envs[p]? = some pr) {f : Option Nat} {name : String} :
    ∀ (ps : List String) (B : List (String × Data)), ps.length = as.length →
      Binds (fun a => Evals C a e) s₁.envs.length ps none as (pushEnv s₁ p pr f name B) (.ok ()) (pushEnv s₁ p pr f name (B ++ ps.zip vs)) := by
  induction h with
  | nil =>
    intro ps B hl
    obtain rfl : ps = [] := List.length_eq_zero_iff.mp hl
    simp only [List.zip_nil_left, List.append_nil]
    exact .done
  | @cons a v as vs h _ ih =>
    intro ps B hl
    cases ps with
    | nil => cases hl
    | cons x ps =>
      have := ih ps (B ++ [(x, v)]) (by simpa using hl)
      rw [List.append_assoc] at this
      exact .next (h _ (hc.trans (Fun.pushEnv_calm ..)) (pushEnv_WF hw hpr _ _ _)) (bind_pushEnv ..) this

/-- A call of one of the procedures: its body runs in a new environment below `g` that holds the arguments. -/
theorem enter (hl : Loaded C g s) {x : String} {ps : List String} {bs : List Data} (hp : (x, ps, bs) ∈ procs) (hx : isNaked (.sym x) = false)
    (hsx : ∀ t, shortcuts (.cons (.sym x) t) = .cons (.sym x) t) (hs : Sees s g e) {as vs : List Data} (hn : Data.null ∉ as) (hlen : ps.length = as.length)
    (ha : Steady C e s as vs) {P : Data → Store → Prop}
    (hb : ∀ (s₂ : Store) (k : Nat) (r : EnvRec) (B : List (String × Data)), Calm s s₂ → WF s₂ → s.envs.length ≤ k → s₂.envs[k]? = some r → r.parent = some g → r.frame = none →
      r.binds = binds (B ++ ps.zip vs) → (∀ p ∈ B, p.1 = "self") → ∃ w s₃, Seq C k bs .null s₂ (.ok w) s₃ ∧ P w s₃) :
    ∃ w s', Evals C (.cons (.sym x) (l as)) e s (.ok w) s' ∧ P w s' := by
  obtain ⟨i, fr, b, h1, h2, h3, h4, h5⟩ := hl.procs _ hp
  obtain ⟨f, b', v1, v2⟩ := hs.names x (by simp only [Testing.names, List.mem_append, List.mem_map]; exact .inl (.inl (.inl (.inl (.inr ⟨_, hp, rfl⟩)))))
  obtain ⟨rfl, rfl⟩ := v1.unique (.here h1)
  obtain ⟨s₁, sl, q, h6, h7⟩ := evalsOp_fn (C := C) hl.wf v2 (noFrame hs.env) hx h2
  have hw₁ : WF s₁ := runs_keeps keeps_WF h7 hl.wf
  have hc : Calm s s₁ := .of q
  obtain ⟨gr, hgr, hgf⟩ := hl.env
  have hgr₁ := hc.env hgr
  have hfr : s₁.frameOf e = none := by
    obtain ⟨r, hr, hf⟩ := hs.env
    simp [Store.frameOf, hc.env hr, hf]
  obtain ⟨w, s₃, h8, h9⟩ := hb (pushEnv s₁ f gr none fr.name (selfBind s₁ sl none e ++ ps.zip vs)) s₁.envs.length _ (selfBind s₁ sl none e) (hc.trans (Fun.pushEnv_calm ..))
    (pushEnv_WF hw₁ hgr₁ _ _ _) hc.le (pushEnv_top ..) rfl hgf rfl (selfBind_names _ _ _ _)
  refine ⟨w, s₃, (C32_user (hsx _) nofun h7 h6 ⟨⟨gr, by rw [h5]; exact hgr₁⟩, ⟨ps, none, h3, fun _ => rfl⟩, _, h4⟩ (Samples.lst_l hn)).mpr ⟨.ok w, rfl, ?_⟩, h9⟩
  rw [Fun.noFrame_for hfr]
  exact CallsG.run (r := .ok w) h6 (by rw [h5]; exact hgr₁) h3 h4 (by simp [Fits, hlen]) (by
    rw [h5]
    exact steady_binds ha hw₁ hc hgr₁ ps _ hlen) h8

theorem evals_count (hl : Loaded C g s) (hs : Sees s g e) {x : String} {f : Nat} {i : BitVec 64} (hv : Visible s e x f ⟨.int i, false⟩) (hx : isNaked (.sym x) = false) :
    Evals C (count x) e s (.ok (.int (i + 1))) (s.putVal f x (.int (i + 1))) :=
  evals_set hl.wf (hs.means hl (by simp [words])) (ex := l [y "succ", y x]) (Samples.lst_l (xs := [.sym x, l [y "succ", y x]]) (by simp)) (by simp)
    (evals_succ hl.wf (hs.means hl (by simp [words])) (by simp) (evals_var hl.wf hv (noFrame hs.env) hx (by simp))) hv rfl (noFrame hs.env)

theorem evals_when (hl : Loaded C g s) (hs : Sees s g e) {x : String} {f : Nat} {v : Data} {p : Bool} (hv : Visible s e x f ⟨v, p⟩) (ht : ¬ Truthy v)
    (hx : isNaked (.sym x) = false) {d : Data} (hd : d ≠ .null) : Evals C (l [y "when", y x, d]) e s (.ok .null) s :=
  (C37_when hl.wf (hs.means hl (by simp [words])) (t := l [y x, d]) (Samples.lst_l (xs := [y x, d]) (by simpa using Ne.symm hd)) (by simpa using Ne.symm hd) (by simp)).mpr
    ⟨.ok .null, rfl, .inl ⟨v, s, evals_var hl.wf hv (noFrame hs.env) hx (by rintro i rfl; exact ht ⟨nofun, nofun, nofun⟩), .inr ⟨ht, rfl, rfl⟩⟩⟩

theorem passed_tells {c : Tally} (h : Tells g s c) : Tells g (s.putVal g "number-of-passes" (.int (c.passes + 1))) (passed c) := by
  obtain ⟨h1, h2, ⟨h3, h3'⟩, ⟨b, h4⟩, b', h5⟩ := h
  have ho := putVal_only h1 (.int (c.passes + 1))
  obtain ⟨b₁, h6, h7⟩ := ho.value
  rw [h1] at h6
  cases h6
  exact ⟨h7, (ho.others _ _ (by simp)).trans h2, ⟨(ho.others _ _ (by simp)).trans h3, h3'⟩, ⟨b, (ho.others _ _ (by simp)).trans h4⟩, b', (ho.others _ _ (by simp)).trans h5⟩

theorem failed_tells {c : Tally} (h : Tells g s c) (r : String) (hs : s'.localB g "number-of-failures" = some ⟨.int (c.failures + 1), false⟩)
    (ho : Only [(g, "number-of-failures")] s s') : Tells g (s'.putVal g "failure-messages" (.cons (.str r) (elem c.messages))) (failed r c) := by
  obtain ⟨h1, h2, ⟨h3, h3'⟩, ⟨b, h4⟩, b', h5⟩ := h
  have keep : ∀ {x : String} {b : Binding}, x ≠ "number-of-failures" → s.localB g x = some b → s'.localB g x = some b := by
    intro x b hx hb
    obtain ⟨r, hr⟩ := localB_some hb
    rw [ho.vars _ _ (lt_of_some hr) (by simpa using hx)]
    exact hb
  have h3 := keep (by simp) h3
  have hp := putVal_only h3 (.cons (.str r) (elem c.messages))
  obtain ⟨b₁, h6, h7⟩ := hp.value
  rw [h3] at h6
  cases h6
  exact ⟨(hp.others _ _ (by simp)).trans (keep (by simp) h1), (hp.others _ _ (by simp)).trans hs, ⟨h7, nofun⟩, ⟨b, (hp.others _ _ (by simp)).trans (keep (by simp) h4)⟩,
    b', (hp.others _ _ (by simp)).trans (keep (by simp) h5)⟩

/-- `log-pass` counts one more pass. -/
theorem log_pass (hl : Loaded C g s) {c : Tally} (ht : Tells g s c) (hs : Sees s g e) {a m : Data} (hn : a ≠ .null) (ha : Steady C e s [a] [m]) :
    ∃ s', Evals C (l [y "log-pass", a]) e s (.ok .null) s' ∧ Loaded C g s' ∧ Tells g s' (passed c) ∧ Only [(g, "number-of-passes")] s s' := by
  obtain ⟨w, s', h1, rfl, h2⟩ := enter (x := "log-pass") (ps := ["msg"]) (bs := logPass) hl (by simp [procs]) rfl (fun _ => rfl) hs (as := [a]) (vs := [m])
    (by simpa using Ne.symm hn) rfl ha (P := fun w s' => w = .null ∧ Loaded C g s' ∧ Tells g s' (passed c) ∧ Only [(g, "number-of-passes")] s s') (by
      intro s₂ k r B hc hw hk hr hp hf hb hB
      have hl₂ := Loaded.only hl (only_calm hc []) hw clear0
      have ht₂ := Tells.only ht (only_calm hc []) clear0
      have hB' : ∀ p ∈ B ++ ["msg"].zip [m], p.1 = "self" ∨ p.1 = "msg" := by
        intro p hp
        rcases List.mem_append.1 hp with hp | hp
        · exact .inl (hB p hp)
        · exact .inr (by simp at hp; simp [hp])
      have hs₂ := Sees.below (sees_self hl₂) hr hp hf hb fun p hp => by rcases hB' p hp with h | h <;> rw [h] <;> decide
      have hpar : s₂.parentOf k = some g := by simp [Store.parentOf, hr, hp]
      have up : ∀ {s₃ : Store} {x : String} {b : Binding}, Only [(g, "number-of-passes")] s₂ s₃ → x ≠ "self" → x ≠ "msg" → s₃.localB g x = some b → (k, x) ∉ [(g, "number-of-passes")] →
          Visible s₃ k x g b := by
        intro s₃ x b ho h1 h2 h3 h4
        refine .up ?_ (by rw [(ho.envs k (lt_of_some hr)).1]; exact hpar) (.here h3)
        rw [ho.vars _ _ (lt_of_some hr) h4]
        exact absent hr hb fun p hp he => by rcases hB' p hp with h | h <;> rw [h] at he <;> simp_all
      have hkg : k ≠ g := by
        obtain ⟨gr, hgr, _⟩ := hl.env
        have := lt_of_some hgr
        omega
      have e1 := evals_count hl₂ hs₂ (up (only_calm (.refl _) _) (by simp) (by simp) ht₂.passes (by simp [hkg])) rfl
      have o1 : Only [(g, "number-of-passes")] s₂ (s₂.putVal g "number-of-passes" (.int (c.passes + 1))) := only_put _ (by simp) _
      have hl₃ := Loaded.only hl₂ o1 (Imp.putVal_WF hw _ _ _) (clear1 (by decide))
      have hs₃ := Sees.only hs₂ o1 (clear1 (by decide))
      obtain ⟨v, b, h1, h2⟩ := hl₃.silent
      have e2 := evals_when hl₃ hs₃ (up o1 (by simp) (by simp) h1 (by simp)) h2 rfl (d := l [y "format", yes, t "    ~A~%", y "msg"]) (by simp)
      exact ⟨.null, _, .next e1 (.next e2 .done), rfl, hl₃, passed_tells ht₂, Only.trans (only_calm hc _) o1⟩)
  exact ⟨s', h1, h2⟩

theorem summary_spelled : Spelled (hereA :: (pieces " " ++ (hereA :: (pieces ":" ++ (hereNl :: (pieces "    " ++ (hereA :: (hereNl :: (pieces "      - " ++ (hereA :: []))))))))))
    (text "~A ~A:~%    ~A~%      - ~A".toList) := by
  have := spelled_A (spelled_text " " (by unfold Tame; decide +kernel) (spelled_A (spelled_text ":" (by unfold Tame; decide +kernel) (spelled_nl (spelled_text "    " (by unfold Tame; decide +kernel)
    (spelled_A (spelled_nl (spelled_text "      - " (by unfold Tame; decide +kernel) (spelled_A .nil)))))))))
  have he : text "~A ~A:~%    ~A~%      - ~A".toList = text "~A".toList ++ (text " ".toList ++ (text "~A".toList ++ (text ":".toList ++ (text "~%".toList ++ (text "    ".toList ++
    (text "~A".toList ++ (text "~%".toList ++ (text "      - ".toList ++ (text "~A".toList ++ []))))))))) := by decide +kernel
  rw [he]
  exact this

/-- The text of a report. -/
def summary (context it a b : String) : String := context ++ (" " ++ (it ++ (":\n    " ++ (a ++ ("\n      - " ++ b)))))

theorem summary_format (hw : WF s) (hm : Means C s e "format") {as : List Data} {c i a b : String} (hn : Data.null ∉ as) (ha : Args C e as s (.ok [.str c, .str i, .str a, .str b]) s) :
    Evals C (.cons (.sym "format") (l (no :: t "~A ~A:~%    ~A~%      - ~A" :: as))) e s (.ok (.str (summary c i a b))) s := by
  refine evals_format hw hm hn ha summary_spelled (.cons .str (.cons .str (.cons .str (.cons .str .nil)))) ?_
  simp only [sticky, sticky_text, Bool.or_false]
  have := renders_A (x := ⟨text c.toList, text (C.host.show s (.str c)).toList, none⟩) (renders_text " " (renders_A (x := ⟨text i.toList, text (C.host.show s (.str i)).toList, none⟩)
    (renders_text ":" (renders_nl (renders_text "    " (renders_A (x := ⟨text a.toList, text (C.host.show s (.str a)).toList, none⟩) (renders_nl (renders_text "      - "
      (renders_A (x := ⟨text b.toList, text (C.host.show s (.str b)).toList, none⟩) (.nil (as := [])))))))))))
  have he : text (summary c i a b).toList = text c.toList ++ (text " ".toList ++ (text i.toList ++ (text ":".toList ++ (text "\n".toList ++ (text "    ".toList ++
    (text a.toList ++ (text "\n".toList ++ (text "      - ".toList ++ (text b.toList ++ []))))))))) := by
    have h1 : text ":\n    ".toList = text ":".toList ++ (text "\n".toList ++ text "    ".toList) := by decide +kernel
    have h2 : text "\n      - ".toList = text "\n".toList ++ text "      - ".toList := by decide +kernel
    simp only [summary, text_app, h1, h2, List.append_assoc, List.append_nil]
  rw [he]
  exact this

/-- `log-failure` counts one more failure and keeps a report. -/
theorem log_failure (hl : Loaded C g s) {c : Tally} (ht : Tells g s c) (hs : Sees s g e) {a a' : Data} {m m' : String} (hn : Data.null ∉ [a, a'])
    (ha : Steady C e s [a, a'] [.str m, .str m']) :
    ∃ s', Evals C (l [y "log-failure", a, a']) e s (.ok .null) s' ∧ Loaded C g s' ∧ Tells g s' (failed (summary c.context c.it m m') c) ∧
      Only [(g, "number-of-failures"), (g, "failure-messages")] s s' := by
  obtain ⟨w, s', h1, rfl, h2⟩ := enter (x := "log-failure") (ps := ["prefix", "msg"]) (bs := logFailure) hl (by simp [procs]) rfl (fun _ => rfl) hs (as := [a, a'])
    (vs := [.str m, .str m']) hn rfl ha (P := fun w s' => w = .null ∧ Loaded C g s' ∧ Tells g s' (failed (summary c.context c.it m m') c) ∧
      Only [(g, "number-of-failures"), (g, "failure-messages")] s s') (by
      intro s₂ k r B hc hw hk hr hp hf hb hB
      have hl₂ := Loaded.only hl (only_calm hc []) hw clear0
      have ht₂ := Tells.only ht (only_calm hc []) clear0
      have hB' : ∀ p ∈ B ++ ["prefix", "msg"].zip [.str m, .str m'], p.1 ∈ ["self", "prefix", "msg"] := by
        intro p hp
        rcases List.mem_append.1 hp with hp | hp
        · simp [hB p hp]
        · simp at hp
          rcases hp with rfl | rfl <;> simp
      have hB'' : ∀ {x : String}, x ∉ ["self", "prefix", "msg"] → ∀ p ∈ B ++ ["prefix", "msg"].zip [.str m, .str m'], p.1 ≠ x := fun hx p hp he => hx (he ▸ hB' p hp)
      have hs₂ := Sees.below (sees_self hl₂) hr hp hf hb fun p hp h => by
        have := hB' p hp
        simp only [List.mem_cons, List.not_mem_nil, or_false] at this
        rcases this with h' | h' | h' <;> rw [h'] at h <;> revert h <;> decide
      have hpar : s₂.parentOf k = some g := by simp [Store.parentOf, hr, hp]
      have hkg : k ≠ g := by
        obtain ⟨gr, hgr, _⟩ := hl.env
        have := lt_of_some hgr
        omega
      have ht₂f := ht₂.failures
      have e1 := evals_count hl₂ hs₂ (.up (absent hr hb (hB'' (by decide))) hpar (.here ht₂f)) (x := "number-of-failures") rfl
      -- the state after the count
      have o1 : Only [(g, "number-of-failures")] s₂ (s₂.putVal g "number-of-failures" (.int (c.failures + 1))) := only_put _ (by simp) _
      obtain ⟨b₁, h6, hcount⟩ := (putVal_only ht₂f (.int (c.failures + 1))).value
      rw [ht₂f] at h6
      cases h6
      have hr₃ : (s₂.putVal g "number-of-failures" (.int (c.failures + 1))).envs[k]? = some r := by rw [putVal_envs, if_neg hkg]; exact hr
      have hw₃ := Imp.putVal_WF hw g "number-of-failures" (.int (c.failures + 1))
      generalize s₂.putVal g "number-of-failures" (.int (c.failures + 1)) = s₃ at *
      have hl₃ := Loaded.only hl₂ o1 hw₃ (clear1 (by decide))
      have hs₃ := Sees.only hs₂ o1 (clear1 (by decide))
      -- the environment of the `let`
      have q₄ := Fun.pushEnv_calm s₃ k r none "let" []
      have hw₄ := pushEnv_WF hw₃ hr₃ none "let" []
      have hr₄ : (pushEnv s₃ k r none "let" []).envs[k]? = some r := q₄.env hr₃
      have hl₄ := Loaded.only hl₃ (only_calm q₄ []) hw₄ clear0
      have hs₄ := Sees.only hs₃ (only_calm q₄ []) clear0
      have o4 : Only [(g, "number-of-failures")] s₂ (pushEnv s₃ k r none "let" []) := Only.trans o1 (only_calm q₄ _)
      have par : ∀ {s' : Store}, s'.envs[k]? = some r → s'.parentOf k = some g := fun h => by simp [Store.parentOf, h, hp]
      have keep : ∀ {s' : Store} {x : String} {b : Binding}, Only [(g, "number-of-failures")] s₂ s' → x ≠ "number-of-failures" → s₂.localB g x = some b → s'.localB g x = some b := by
        intro s' x b ho hx hb
        obtain ⟨r, hr⟩ := localB_some hb
        rw [ho.vars _ _ (lt_of_some hr) (by simpa using hx)]
        exact hb
      have own : ∀ {s' : Store} {x : String} {v : Data}, s'.envs[k]? = some r → ((B ++ ["prefix", "msg"].zip [Data.str m, Data.str m']).reverse.find? (·.1 == x)).map (·.2) = some v →
          Visible s' k x k ⟨v, false⟩ := by
        intro s' x v hr hx
        refine .here ?_
        simp only [Store.localB, hr, hb, alGet_binds]
        cases hfd : (B ++ ["prefix", "msg"].zip [Data.str m, Data.str m']).reverse.find? (·.1 == x) with
        | none => rw [hfd] at hx; cases hx
        | some q => rw [hfd] at hx; cases hx; rfl
      obtain ⟨bc, hctx⟩ := ht₂.context
      obtain ⟨bi, hit⟩ := ht₂.it
      have fr₄ := noFrame hs₄.env
      have e2 : Evals C (l [y "format", no, t "~A ~A:~%    ~A~%      - ~A", y "context-name", y "it-name", y "prefix", y "msg"]) k (pushEnv s₃ k r none "let" [])
          (.ok (.str (summary c.context c.it m m'))) (pushEnv s₃ k r none "let" []) := by
        refine summary_format hw₄ (hs₄.means hl₄ (by simp [words])) (as := [y "context-name", y "it-name", y "prefix", y "msg"]) (by simp) (.next (s₁ := pushEnv s₃ k r none "let" []) ?_
          (.next (s₁ := pushEnv s₃ k r none "let" []) ?_ (.next (s₁ := pushEnv s₃ k r none "let" []) ?_ (.next (s₁ := pushEnv s₃ k r none "let" []) ?_ .done))))
        · exact evals_var hw₄ (.up (absent hr₄ hb (hB'' (by decide))) (par hr₄) (.here (keep o4 (by simp) hctx))) fr₄ rfl (by simp)
        · exact evals_var hw₄ (.up (absent hr₄ hb (hB'' (by decide))) (par hr₄) (.here (keep o4 (by simp) hit))) fr₄ rfl (by simp)
        · exact evals_var hw₄ (own hr₄ (by simp)) fr₄ rfl (by simp)
        · exact evals_var hw₄ (own hr₄ (by simp)) fr₄ rfl (by simp)
      -- inside the `let`
      have q₅ := Fun.pushEnv_calm s₃ k r none "let" [("failure-message", .str (summary c.context c.it m m'))]
      have hw₅ := pushEnv_WF hw₃ hr₃ none "let" [("failure-message", .str (summary c.context c.it m m'))]
      have top := pushEnv_top s₃ k r none "let" [("failure-message", .str (summary c.context c.it m m'))]
      have hbind := bind_pushEnv s₃ k r none "let" [] "failure-message" (.str (summary c.context c.it m m'))
      rw [List.nil_append] at hbind
      have hr₅ := q₅.env hr₃
      have o5 : Only [(g, "number-of-failures")] s₂ (pushEnv s₃ k r none "let" [("failure-message", .str (summary c.context c.it m m'))]) := Only.trans o1 (only_calm q₅ _)
      have hc₅ : (pushEnv s₃ k r none "let" [("failure-message", .str (summary c.context c.it m m'))]).localB g "number-of-failures" = some ⟨.int (c.failures + 1), false⟩ := by
        obtain ⟨r', hr'⟩ := localB_some hcount
        rw [q₅.localB hr']; exact hcount
      have hs₅ : Sees (pushEnv s₃ k r none "let" [("failure-message", .str (summary c.context c.it m m'))]) g s₃.envs.length :=
        Sees.below (Sees.only hs₃ (only_calm q₅ []) clear0) top rfl hf rfl (by simp; decide)
      have hl₅ := Loaded.only hl₃ (only_calm q₅ []) hw₅ clear0
      have hdown : ∀ {x : String}, x ≠ "failure-message" → (pushEnv s₃ k r none "let" [("failure-message", .str (summary c.context c.it m m'))]).localB s₃.envs.length x = none :=
        fun hx => absent top rfl (by simpa using Ne.symm hx)
      have hpar₅ : (pushEnv s₃ k r none "let" [("failure-message", .str (summary c.context c.it m m'))]).parentOf s₃.envs.length = some k := by simp [Store.parentOf, top]
      have hfm : Visible (pushEnv s₃ k r none "let" [("failure-message", .str (summary c.context c.it m m'))]) s₃.envs.length "failure-message" s₃.envs.length
          ⟨.str (summary c.context c.it m m'), false⟩ := .here (by rw [pushEnv_localB]; rfl)
      generalize pushEnv s₃ k r none "let" [("failure-message", .str (summary c.context c.it m m'))] = s₅ at *
      have vm : Visible s₅ s₃.envs.length "failure-messages" g ⟨c.messages, false⟩ :=
        .up (hdown (by simp)) hpar₅ (.up (absent hr₅ hb (hB'' (by decide))) (par hr₅) (.here (keep o5 (by simp) ht₂.messages.1)))
      have fr₅ := noFrame hs₅.env
      have e3 := evals_set hw₅ (hs₅.means hl₅ (by simp [words])) (t := l [y "failure-messages", l [y "cons", y "failure-message", y "failure-messages"]])
        (Samples.lst_l (xs := [.sym "failure-messages", l [y "cons", y "failure-message", y "failure-messages"]]) (by simp)) (by simp)
        (evals_cons hw₅ (hs₅.means hl₅ (by simp [words])) (by simp) (by simp) (evals_var hw₅ hfm fr₅ rfl (by simp)) (evals_var hw₅ vm fr₅ rfl ht₂.messages.2)) vm rfl fr₅
      have o6 : Only [(g, "failure-messages")] s₅ (s₅.putVal g "failure-messages" (.cons (.str (summary c.context c.it m m')) (elem c.messages))) := only_put _ (by simp) _
      have hl₆ := Loaded.only hl₅ o6 (Imp.putVal_WF hw₅ _ _ _) (clear1 (by decide))
      have hs₆ := Sees.only hs₅ o6 (clear1 (by decide))
      have ht₆ := failed_tells ht₂ (summary c.context c.it m m') hc₅ o5
      obtain ⟨v, bv, h7, h8⟩ := hl₅.silent
      have e4 := evals_when hl₆ hs₆ (Only.visible o6 (by simp) (.up (hdown (by simp)) hpar₅ (.up (absent hr₅ hb (hB'' (by decide))) (par hr₅) (.here h7)))) h8 rfl
        (d := l [y "format", yes, t "    ~A~%      - ~A~%", y "prefix", y "msg"]) (by simp)
      refine ⟨.null, _, .next e1 (.next ((C38_let hw₃ (hs₃.means hl₃ (by simp [words]))
        (t := l [l [l [y "failure-message", l [y "format", no, t "~A ~A:~%    ~A~%      - ~A", y "context-name", y "it-name", y "prefix", y "msg"]]],
          l [y "set!", y "failure-messages", l [y "cons", y "failure-message", y "failure-messages"]],
          l [y "when", y "verbose-tests", l [y "format", yes, t "    ~A~%      - ~A~%", y "prefix", y "msg"]]]) (Samples.lst_l (by simp)) (by simp)
        (.cons (x := "failure-message") (is := [_]) (Samples.lst_l (xs := [y "failure-message", _]) (by simp)) (.nil .null)) (by simp)).mpr
        ⟨.ok .null, rfl, .run hr₃ (.next e2 hbind .done) (.next e3 (.next e4 .done))⟩) .done), rfl, hl₆, ht₆, ?_⟩
      exact Only.trans (only_calm hc _) (Only.trans (Only.mono o5 (by simp)) (Only.mono o6 (by simp))))
  exact ⟨s', h1, h2⟩

theorem error_spelled : Spelled (hereA :: (pieces " " ++ (hereA :: (pieces ":" ++ (hereNl :: (pieces "    ERROR: " ++ (hereA :: [])))))))
    (text "~A ~A:~%    ERROR: ~A".toList) := by
  have := spelled_A (spelled_text " " (by unfold Tame; decide +kernel) (spelled_A (spelled_text ":" (by unfold Tame; decide +kernel) (spelled_nl (spelled_text "    ERROR: " (by unfold Tame; decide +kernel)
    (spelled_A .nil))))))
  have he : text "~A ~A:~%    ERROR: ~A".toList = text "~A".toList ++ (text " ".toList ++ (text "~A".toList ++ (text ":".toList ++ (text "~%".toList ++ (text "    ERROR: ".toList ++
    (text "~A".toList ++ [])))))) := by decide +kernel
  rw [he]
  exact this

theorem error_summary (hw : WF s) (hm : Means C s e "format") {as : List Data} {c : Tally} {v : Data} (hn : Data.null ∉ as) (ha : Args C e as s (.ok [.str c.context, .str c.it, v]) s) :
    Evals C (.cons (.sym "format") (l (no :: t "~A ~A:~%    ERROR: ~A" :: as))) e s (.ok (.str (reportError C.host s (elem v) c))) s := by
  obtain ⟨a, h1, h2⟩ := format_arg C.host s (elem v)
  refine evals_format hw hm hn ha error_spelled (.cons .str (.cons .str (.cons h1 .nil))) ?_
  simp only [sticky, sticky_text, Bool.or_false]
  have := renders_A (x := ⟨text c.context.toList, text (C.host.show s (.str c.context)).toList, none⟩) (renders_text " " (renders_A (x := ⟨text c.it.toList, text (C.host.show s (.str c.it)).toList, none⟩)
    (renders_text ":" (renders_nl (renders_text "    ERROR: " (renders_A (x := a) (.nil (as := []))))))))
  have he : text (reportError C.host s (elem v) c).toList = text c.context.toList ++ (text " ".toList ++ (text c.it.toList ++ (text ":".toList ++ (text "\n".toList ++ (text "    ERROR: ".toList ++
    (a.shown ++ [])))))) := by
    have h3 : text ":\n    ERROR: ".toList = text ":".toList ++ (text "\n".toList ++ text "    ERROR: ".toList) := by decide +kernel
    simp only [reportError, text_app, h2, h3, List.append_assoc, List.append_nil]
  rw [he]
  exact this

/-- `log-error` counts one more error and keeps a report. -/
theorem log_error (hl : Loaded C g s) {c : Tally} (ht : Tells g s c) (hs : Sees s g e) {i : BitVec 64} {ms : Data} (hne : s.localB g "number-of-errors" = some ⟨.int i, false⟩)
    (hme : s.localB g "error-messages" = some ⟨ms, false⟩) (hms : isFunc ms = false) {a v : Data} (hn : a ≠ .null) (hvf : isFunc v = false) (ha : Steady C e s [a] [v]) :
    ∃ z s', Only [(g, "number-of-errors")] s z ∧ Evals C (l [y "log-error", a]) e s (.ok .null) s' ∧ Loaded C g s' ∧ s'.localB g "number-of-errors" = some ⟨.int (i + 1), false⟩ ∧
      s'.localB g "error-messages" = some ⟨.cons (.str (reportError C.host z (elem v) c)) (elem ms), false⟩ ∧ Only [(g, "number-of-errors"), (g, "error-messages")] s s' := by
  obtain ⟨w, s', h1, rfl, z, h2⟩ := enter (x := "log-error") (ps := ["err"]) (bs := logError) hl (by simp [procs]) rfl (fun _ => rfl) hs (as := [a])
    (vs := [v]) (by simpa using Ne.symm hn) rfl ha (P := fun w s' => w = .null ∧ ∃ z, Only [(g, "number-of-errors")] s z ∧ Loaded C g s' ∧
      s'.localB g "number-of-errors" = some ⟨.int (i + 1), false⟩ ∧ s'.localB g "error-messages" = some ⟨.cons (.str (reportError C.host z (elem v) c)) (elem ms), false⟩ ∧
      Only [(g, "number-of-errors"), (g, "error-messages")] s s') (by
      intro s₂ k r B hc hw hk hr hp hf hb hB
      have hl₂ := Loaded.only hl (only_calm hc []) hw clear0
      have ht₂ := Tells.only ht (only_calm hc []) clear0
      have same : ∀ {x : String} {b : Binding}, s.localB g x = some b → s₂.localB g x = some b := fun h => by
        obtain ⟨r, hr⟩ := localB_some h
        rw [hc.localB hr]
        exact h
      have hne₂ := same hne
      have hme₂ := same hme
      have hB' : ∀ p ∈ B ++ ["err"].zip [v], p.1 ∈ ["self", "err"] := by
        intro p hp
        rcases List.mem_append.1 hp with hp | hp
        · simp [hB p hp]
        · simp at hp
          simp [hp]
      have hB'' : ∀ {x : String}, x ∉ ["self", "err"] → ∀ p ∈ B ++ ["err"].zip [v], p.1 ≠ x := fun hx p hp he => hx (he ▸ hB' p hp)
      have hs₂ := Sees.below (sees_self hl₂) hr hp hf hb fun p hp h => by
        have := hB' p hp
        simp only [List.mem_cons, List.not_mem_nil, or_false] at this
        rcases this with h' | h' <;> rw [h'] at h <;> revert h <;> decide
      have hpar : s₂.parentOf k = some g := by simp [Store.parentOf, hr, hp]
      have hkg : k ≠ g := by
        obtain ⟨gr, hgr, _⟩ := hl.env
        have := lt_of_some hgr
        omega
      have e1 := evals_count hl₂ hs₂ (.up (absent hr hb (hB'' (by decide))) hpar (.here hne₂)) (x := "number-of-errors") rfl
      -- the state after the count
      have o1 : Only [(g, "number-of-errors")] s₂ (s₂.putVal g "number-of-errors" (.int (i + 1))) := only_put _ (by simp) _
      obtain ⟨b₁, h6, hcount⟩ := (putVal_only hne₂ (.int (i + 1))).value
      rw [hne₂] at h6
      cases h6
      have hr₃ : (s₂.putVal g "number-of-errors" (.int (i + 1))).envs[k]? = some r := by rw [putVal_envs, if_neg hkg]; exact hr
      have hw₃ := Imp.putVal_WF hw g "number-of-errors" (.int (i + 1))
      generalize s₂.putVal g "number-of-errors" (.int (i + 1)) = s₃ at *
      have hl₃ := Loaded.only hl₂ o1 hw₃ (clear1 (by decide))
      have hs₃ := Sees.only hs₂ o1 (clear1 (by decide))
      -- the environment of the `let`
      have q₄ := Fun.pushEnv_calm s₃ k r none "let" []
      have hw₄ := pushEnv_WF hw₃ hr₃ none "let" []
      have hr₄ : (pushEnv s₃ k r none "let" []).envs[k]? = some r := q₄.env hr₃
      have hl₄ := Loaded.only hl₃ (only_calm q₄ []) hw₄ clear0
      have hs₄ := Sees.only hs₃ (only_calm q₄ []) clear0
      have o4 : Only [(g, "number-of-errors")] s₂ (pushEnv s₃ k r none "let" []) := Only.trans o1 (only_calm q₄ _)
      have par : ∀ {s' : Store}, s'.envs[k]? = some r → s'.parentOf k = some g := fun h => by simp [Store.parentOf, h, hp]
      have keep : ∀ {s' : Store} {x : String} {b : Binding}, Only [(g, "number-of-errors")] s₂ s' → x ≠ "number-of-errors" → s₂.localB g x = some b → s'.localB g x = some b := by
        intro s' x b ho hx hb
        obtain ⟨r, hr⟩ := localB_some hb
        rw [ho.vars _ _ (lt_of_some hr) (by simpa using hx)]
        exact hb
      have own : ∀ {s' : Store} {x : String} {v' : Data}, s'.envs[k]? = some r → ((B ++ ["err"].zip [v]).reverse.find? (·.1 == x)).map (·.2) = some v' →
          Visible s' k x k ⟨v', false⟩ := by
        intro s' x v' hr hx
        refine .here ?_
        simp only [Store.localB, hr, hb, alGet_binds]
        cases hfd : (B ++ ["err"].zip [v]).reverse.find? (·.1 == x) with
        | none => rw [hfd] at hx; cases hx
        | some q => rw [hfd] at hx; cases hx; rfl
      obtain ⟨bc, hctx⟩ := ht₂.context
      obtain ⟨bi, hit⟩ := ht₂.it
      have fr₄ := noFrame hs₄.env
      have oz : Only [(g, "number-of-errors")] s (pushEnv s₃ k r none "let" []) := Only.trans (only_calm hc _) o4
      have e2 : Evals C (l [y "format", no, t "~A ~A:~%    ERROR: ~A", y "context-name", y "it-name", y "err"]) k (pushEnv s₃ k r none "let" [])
          (.ok (.str (reportError C.host (pushEnv s₃ k r none "let" []) (elem v) c))) (pushEnv s₃ k r none "let" []) := by
        refine error_summary hw₄ (hs₄.means hl₄ (by simp [words])) (as := [y "context-name", y "it-name", y "err"]) (by simp) (.next (s₁ := pushEnv s₃ k r none "let" []) ?_
          (.next (s₁ := pushEnv s₃ k r none "let" []) ?_ (.next (s₁ := pushEnv s₃ k r none "let" []) ?_ .done)))
        · exact evals_var hw₄ (.up (absent hr₄ hb (hB'' (by decide))) (par hr₄) (.here (keep o4 (by simp) hctx))) fr₄ rfl (by simp)
        · exact evals_var hw₄ (.up (absent hr₄ hb (hB'' (by decide))) (par hr₄) (.here (keep o4 (by simp) hit))) fr₄ rfl (by simp)
        · exact evals_var hw₄ (own hr₄ (by simp)) fr₄ rfl (by rintro j rfl; cases hvf)
      obtain ⟨rep, hrep⟩ : ∃ rep, rep = reportError C.host (pushEnv s₃ k r none "let" []) (elem v) c := ⟨_, rfl⟩
      rw [← hrep] at e2
      -- inside the `let`
      have q₅ := Fun.pushEnv_calm s₃ k r none "let" [("error-message", .str rep)]
      have hw₅ := pushEnv_WF hw₃ hr₃ none "let" [("error-message", .str rep)]
      have top := pushEnv_top s₃ k r none "let" [("error-message", .str rep)]
      have hbind := bind_pushEnv s₃ k r none "let" [] "error-message" (.str rep)
      rw [List.nil_append] at hbind
      have hr₅ := q₅.env hr₃
      have o5 : Only [(g, "number-of-errors")] s₂ (pushEnv s₃ k r none "let" [("error-message", .str rep)]) := Only.trans o1 (only_calm q₅ _)
      have hc₅ : (pushEnv s₃ k r none "let" [("error-message", .str rep)]).localB g "number-of-errors" = some ⟨.int (i + 1), false⟩ := by
        obtain ⟨r', hr'⟩ := localB_some hcount
        rw [q₅.localB hr']; exact hcount
      have hs₅ : Sees (pushEnv s₃ k r none "let" [("error-message", .str rep)]) g s₃.envs.length :=
        Sees.below (Sees.only hs₃ (only_calm q₅ []) clear0) top rfl hf rfl (by simp; decide)
      have hl₅ := Loaded.only hl₃ (only_calm q₅ []) hw₅ clear0
      have hdown : ∀ {x : String}, x ≠ "error-message" → (pushEnv s₃ k r none "let" [("error-message", .str rep)]).localB s₃.envs.length x = none :=
        fun hx => absent top rfl (by simpa using Ne.symm hx)
      have hpar₅ : (pushEnv s₃ k r none "let" [("error-message", .str rep)]).parentOf s₃.envs.length = some k := by simp [Store.parentOf, top]
      have hfm : Visible (pushEnv s₃ k r none "let" [("error-message", .str rep)]) s₃.envs.length "error-message" s₃.envs.length
          ⟨.str rep, false⟩ := .here (by rw [pushEnv_localB]; rfl)
      generalize pushEnv s₃ k r none "let" [("error-message", .str rep)] = s₅ at *
      have hme₅ := keep o5 (by simp) hme₂
      have vm : Visible s₅ s₃.envs.length "error-messages" g ⟨ms, false⟩ :=
        .up (hdown (by simp)) hpar₅ (.up (absent hr₅ hb (hB'' (by decide))) (par hr₅) (.here hme₅))
      have fr₅ := noFrame hs₅.env
      have e3 := evals_set hw₅ (hs₅.means hl₅ (by simp [words])) (t := l [y "error-messages", l [y "cons", y "error-message", y "error-messages"]])
        (Samples.lst_l (xs := [.sym "error-messages", l [y "cons", y "error-message", y "error-messages"]]) (by simp)) (by simp)
        (evals_cons hw₅ (hs₅.means hl₅ (by simp [words])) (by simp) (by simp) (evals_var hw₅ hfm fr₅ rfl (by simp))
          (evals_var hw₅ vm fr₅ rfl (by rintro j rfl; cases hms))) vm rfl fr₅
      have o6 : Only [(g, "error-messages")] s₅ (s₅.putVal g "error-messages" (.cons (.str rep) (elem ms))) := only_put _ (by simp) _
      have hl₆ := Loaded.only hl₅ o6 (Imp.putVal_WF hw₅ _ _ _) (clear1 (by decide))
      have hs₆ := Sees.only hs₅ o6 (clear1 (by decide))
      have hput := putVal_only hme₅ (.cons (.str rep) (elem ms))
      obtain ⟨b₂, h9, h10⟩ := hput.value
      rw [hme₅] at h9
      cases h9
      have hc₆ := (hput.others g "number-of-errors" (by simp)).trans hc₅
      obtain ⟨v', bv, h7, h8⟩ := hl₅.silent
      have e4 := evals_when hl₆ hs₆ (Only.visible o6 (by simp) (.up (hdown (by simp)) hpar₅ (.up (absent hr₅ hb (hB'' (by decide))) (par hr₅) (.here h7)))) h8 rfl
        (d := l [y "format", yes, t "    ERROR: ~A~%", y "err"]) (by simp)
      rw [hrep] at h10
      refine ⟨.null, _, .next e1 (.next ((C38_let hw₃ (hs₃.means hl₃ (by simp [words]))
        (t := l [l [l [y "error-message", l [y "format", no, t "~A ~A:~%    ERROR: ~A", y "context-name", y "it-name", y "err"]]],
          l [y "set!", y "error-messages", l [y "cons", y "error-message", y "error-messages"]],
          l [y "when", y "verbose-tests", l [y "format", yes, t "    ERROR: ~A~%", y "err"]]]) (Samples.lst_l (by simp)) (by simp)
        (.cons (x := "error-message") (is := [_]) (Samples.lst_l (xs := [y "error-message", _]) (by simp)) (.nil .null)) (by simp)).mpr
        ⟨.ok .null, rfl, .run hr₃ (.next e2 hbind .done) (.next e3 (.next e4 .done))⟩) .done), rfl, _, oz, hl₆, hc₆, by rw [← hrep] at *; exact h10, ?_⟩
      exact Only.trans (only_calm hc _) (Only.trans (Only.mono o5 (by simp)) (Only.mono o6 (by simp))))
  exact ⟨z, s', h2.1, h1, h2.2⟩

end Golisp.Testing
