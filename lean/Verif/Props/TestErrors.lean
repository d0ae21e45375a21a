import Verif.Props.TestKit
import Verif.Props.Texts
import Verif.Props.Library3
/- C95: what the test framework records of a test that fails with an error. -/
namespace Golisp.Props
open Golisp Data Ev Spec Testing
open Golisp.Fun (Calm)
open Golisp.Samples (l y n)

variable {C : Conf} {s s' s₁ s₂ s₃ : Store} {g e : Nat} {c : Tally} {v : Data}

/-- What `it` tells of an error with the text `m`: of the last line, the part after the first full stop and blank, up to the next;
nothing if there is none. -/
inductive Blamed (m : List Char) : Data → Prop where
  | piece {ls : List (List Char)} {last p q : List Char} {ps : List (List Char)} : Splits ['\n'] m (ls ++ [last]) → Splits ['.', ' '] last (p :: q :: ps) →
      Blamed m (.str (String.ofList q))
  | none {ls : List (List Char)} {last p : List Char} : Splits ['\n'] m (ls ++ [last]) → Splits ['.', ' '] last [p] → Blamed m .emptyCons

private theorem splits_ne {α : Type} {sep b : List α} {ps : List (List α)} (h : Splits sep b ps) : ps ≠ [] := by cases h <;> simp

private theorem null_T (qs : List (List Char)) : Data.null ∉ qs.map T := by simp [T]

private theorem map_T {qs : List (List Char)} (h : qs ≠ []) : qs.map T ≠ [] := fun h' => h (List.map_eq_nil_iff.mp h')

set_option maxRecDepth 10000 in
private theorem evals_split (C : Conf) (cs : List Char) {sep : String} (hsep : sep.toList ≠ []) : ∃ qs, Splits sep.toList cs qs ∧
    ∀ {s : Store} {e : Nat} {a : Data}, WF s → Means C s e "string-split" → a ≠ .null → Evals C a e s (.ok (T cs)) s →
      Evals C (l [y "string-split", a, t sep]) e s (.ok (l (qs.map T))) s := by
  have hnil : text sep.toList ≠ [] := mt Str.text_eq_nil.1 hsep
  obtain ⟨qs, hq, hsp⟩ := splits_text hsep (str_splitN_spec hnil _ _ (Nat.le_refl _)) (cs := cs) rfl
  refine ⟨qs, hsp, fun {s e a} hw hm hn ha => Testing.call (x := "string-split") (impl := stringSplitImpl C.host) (spec := "2".toList) hw hm rfl (fun _ => rfl) rfl (as := [a, t sep]) (us := [T cs, t sep])
    (by simpa using Ne.symm hn) (by rfl) (.next ha (.next (evals_lit (by simp)) .done)) fun args h => ?_⟩
  have h1 : car args = T cs := car_args h
  have h2 : car (cdr args) = T sep.toList := by
    rw [cadr_args h]
    simp [T, elem]
  have : ofBytes ∘ text = T := funext ofBytes_text
  simp only [stringSplitImpl, h1, h2, needStr_T, bytes_T, Str.split, hnil, if_false, hq, List.map_map, this, Streams.ofArray_l (map_T (splits_ne hsp)) (null_T qs)]
  exact runsP_pure.mpr ⟨rfl, rfl⟩

private theorem lastPairLoop_l (xs : List Data) (z : Data) (hn : Data.null ∉ xs ++ [z]) : Prim.lastPairLoop (l (xs ++ [z])) = l [z] := by
  induction xs with
  | nil => rfl
  | cons x xs ih =>
    have h := ih (by simp at hn ⊢; exact hn.2)
    obtain ⟨a, d, hd, ha⟩ : ∃ a d, l (xs ++ [z]) = .cons a d ∧ a ≠ .null := by
      cases xs with
      | nil => exact ⟨z, .null, rfl, by simp at hn; exact Ne.symm hn.2⟩
      | cons w ws => exact ⟨w, _, rfl, by simp at hn; exact Ne.symm hn.2.1⟩
    have e1 : isNil (l (xs ++ [z])) = false := by rw [hd]; cases a <;> simp_all [isNil]
    have e2 : isPair (l (xs ++ [z])) = true := by rw [hd]; rfl
    show Prim.lastPairLoop (.cons x (l (xs ++ [z]))) = _
    simp only [Prim.lastPairLoop, e1, e2, Bool.not_false, Bool.and_self, if_true]
    exact h

set_option maxRecDepth 10000 in
private theorem evals_last (hw : WF s) (h1 : Means C s e "car") (h2 : Means C s e "last-pair") {a z : Data} {xs : List Data} (hn : Data.null ∉ xs ++ [z]) (ha : a ≠ .null)
    (hv : Evals C a e s (.ok (l (xs ++ [z]))) s) : Evals C (l [y "car", l [y "last-pair", a]]) e s (.ok z) s := by
  have hz : z ≠ .null := by simp at hn; exact Ne.symm hn.2
  obtain ⟨b, d, hd, hb⟩ : ∃ b d, l (xs ++ [z]) = .cons b d ∧ b ≠ .null := by
    cases xs with
    | nil => exact ⟨z, .null, rfl, hz⟩
    | cons w ws => exact ⟨w, _, rfl, by simp at hn; exact Ne.symm hn.1⟩
  have e1 : isNil (l (xs ++ [z])) = false := by rw [hd]; cases b <;> simp_all [isNil]
  have e2 : isListP (l (xs ++ [z])) = true := by rw [hd]; rfl
  have e3 : elem (l (xs ++ [z])) = l (xs ++ [z]) := by rw [hd]; rfl
  have step : Evals C (l [y "last-pair", a]) e s (.ok (l [z])) s := by
    refine Testing.call (x := "last-pair") (impl := o1 Prim.lastPair) (spec := "1".toList) hw h2 rfl (fun _ => rfl) rfl (as := [a]) (us := [l (xs ++ [z])])
      (by simpa using Ne.symm ha) (by rfl) (.next hv .done) fun args h => ?_
    simp only [o1, car_args h, e3, Prim.lastPair, e1, e2, lastPairLoop_l xs z hn, Bool.not_true, Bool.false_eq_true, if_false]
    exact (runs_ofOut (by simp)).mpr ⟨rfl, rfl⟩
  refine Testing.call (x := "car") (impl := walk "a") (spec := "1".toList) hw h1 rfl (fun _ => rfl) rfl (as := [l [y "last-pair", a]]) (us := [l [z]])
    (by simp) (by rfl) (.next step .done) fun args h => ?_
  have : car args = l [z] := car_args h
  simp only [walk, p1, this]
  exact runsP_pure.mpr ⟨rfl, rfl⟩

set_option maxRecDepth 10000 in
private theorem evals_second (hw : WF s) (h1 : Means C s e "cadr") {a : Data} {xs : List Data} (hx : xs ≠ []) (hn : Data.null ∉ xs) (ha : a ≠ .null) (hv : Evals C a e s (.ok (l xs)) s) :
    Evals C (l [y "cadr", a]) e s (.ok (xs[1]?.getD .null)) s := by
  refine Testing.call (x := "cadr") (impl := walk "ad") (spec := "1".toList) hw h1 rfl (fun _ => rfl) rfl (as := [a]) (us := [l xs])
    (by simpa using Ne.symm ha) (by rfl) (.next hv .done) fun args h => ?_
  have hc := car_args h
  match xs, hx with
  | [x], _ =>
    have : car args = l [x] := hc
    simp only [walk, p1, this]
    exact runsP_pure.mpr ⟨rfl, rfl⟩
  | x :: z :: ws, _ =>
    have : car args = l (x :: z :: ws) := hc
    simp only [walk, p1, this]
    exact runsP_pure.mpr ⟨rfl, rfl⟩

set_option maxRecDepth 10000 in
/-- The handler of `it`, where `err` holds the text of an error. -/
private theorem excuse_runs {j : Nat} {r : EnvRec} {m : String} (hl : Loaded C g s) (ht : Tells g s c) (hs : Sees s g j) {i : BitVec 64} {ms : Data}
    (hne : s.localB g "number-of-errors" = some ⟨.int i, false⟩) (hme : s.localB g "error-messages" = some ⟨ms, false⟩) (hms : isFunc ms = false)
    (hr : s.envs[j]? = some r) (hf : r.frame = none) (hv : Visible s j "err" j ⟨.str m, false⟩) :
    ∃ v z s', Blamed m.toList v ∧ Only [(g, "number-of-errors")] s z ∧ Evals C excuse j s (.ok .null) s' ∧ Loaded C g s' ∧
      s'.localB g "number-of-errors" = some ⟨.int (i + 1), false⟩ ∧ s'.localB g "error-messages" = some ⟨.cons (.str (reportError C.host z v c)) (elem ms), false⟩ ∧
      Only [(g, "number-of-errors"), (g, "error-messages")] s s' := by
  have q := fun B => Fun.pushEnv_calm s j r none "let" B
  have hw := fun B => pushEnv_WF hl.wf hr none "let" B
  have top := fun B => pushEnv_top s j r none "let" B
  have hl' := fun B => Loaded.only hl (only_calm (q B) []) (hw B) clear0
  have hs' : ∀ B, (∀ p ∈ B, p.1 ∉ Testing.names) → Sees (pushEnv s j r none "let" B) g s.envs.length := fun B hB =>
    Sees.below (Sees.only hs (only_calm (q B) []) clear0) (top B) rfl hf rfl hB
  -- the lines
  have s0 := hs' [] (by simp)
  have v0 : Evals C (y "err") s.envs.length (pushEnv s j r none "let" []) (.ok (T m.toList)) (pushEnv s j r none "let" []) := by
    have := evals_var (C := C) (x := "err") (hw []) (.up (absent (top []) rfl (by simp)) (by simp [Store.parentOf, top []]) ((q []).visible hv)) (noFrame s0.env) rfl (by simp)
    simpa [T] using this
  obtain ⟨ls, hsp, split1⟩ := evals_split C m.toList (sep := "\n") (by decide)
  have e1 := split1 (hw []) (s0.means (hl' []) (by simp [words])) (by simp) v0
  have b1 := bind_pushEnv s j r none "let" [] "err-parts" (l (ls.map T))
  rw [List.nil_append] at b1
  -- the last line
  obtain ⟨ls, last, rfl⟩ : ∃ xs z, ls = xs ++ [z] := ⟨_, _, (List.dropLast_concat_getLast (splits_ne hsp)).symm⟩
  have s1 := hs' [("err-parts", l ((ls ++ [last]).map T))] (by simp; decide)
  have v1 : Evals C (y "err-parts") s.envs.length (pushEnv s j r none "let" [("err-parts", l ((ls ++ [last]).map T))]) (.ok (l ((ls ++ [last]).map T))) (pushEnv s j r none "let" [("err-parts", l ((ls ++ [last]).map T))]) :=
    evals_var (hw _) (p := false) (.here (by rw [pushEnv_localB]; rfl)) (noFrame s1.env) rfl (by intro i h; cases ls <;> simp at h)
  have hmap : (ls ++ [last]).map T = ls.map T ++ [T last] := by simp
  have e2 : Evals C (l [y "car", l [y "last-pair", y "err-parts"]]) s.envs.length (pushEnv s j r none "let" [("err-parts", l ((ls ++ [last]).map T))]) (.ok (T last))
      (pushEnv s j r none "let" [("err-parts", l ((ls ++ [last]).map T))]) :=
    evals_last (xs := ls.map T) (hw _) (s1.means (hl' _) (by simp [words])) (s1.means (hl' _) (by simp [words])) (by rw [← hmap]; exact null_T _) (by simp) (by
      have := v1
      rwa [show Out.ok (l ((ls ++ [last]).map T)) = Out.ok (l (ls.map T ++ [T last])) by rw [hmap]] at this)
  have b2 := bind_pushEnv s j r none "let" [("err-parts", l ((ls ++ [last]).map T))] "last-line" (T last)
  rw [List.cons_append, List.nil_append] at b2
  have s2 := hs' [("err-parts", l ((ls ++ [last]).map T)), ("last-line", T last)] (by simp; decide)
  have v2 : Visible (pushEnv s j r none "let" [("err-parts", l ((ls ++ [last]).map T)), ("last-line", T last)]) s.envs.length "last-line" s.envs.length ⟨T last, false⟩ := .here (by rw [pushEnv_localB]; rfl)
  have hq := q [("err-parts", l ((ls ++ [last]).map T)), ("last-line", T last)]
  have hw2 := hw [("err-parts", l ((ls ++ [last]).map T)), ("last-line", T last)]
  have hl2 := hl' [("err-parts", l ((ls ++ [last]).map T)), ("last-line", T last)]
  have top2 := top [("err-parts", l ((ls ++ [last]).map T)), ("last-line", T last)]
  have whole : ∀ {s'}, Evals C (l [y "log-error", l [y "cadr", l [y "string-split", y "last-line", t ". "]]]) s.envs.length
      (pushEnv s j r none "let" [("err-parts", l ((ls ++ [last]).map T)), ("last-line", T last)]) (.ok .null) s' → Evals C excuse j s (.ok .null) s' := by
    intro s' h
    exact (C38_let_star hl.wf (hs.means hl (by simp [words])) (Samples.lst_l (xs := [_, _]) (by simp)) (by simp)
      (.cons (x := "err-parts") (is := [_]) (Samples.lst_l (xs := [y "err-parts", _]) (by simp))
        (.cons (x := "last-line") (is := [_]) (Samples.lst_l (xs := [y "last-line", _]) (by simp)) (.nil .null))) (by simp)).mpr
      ⟨.ok .null, rfl, .run hr (.next e1 b1 (.next e2 b2 .done)) (.next h .done)⟩
  clear q hw top hl' hs' e1 e2 b1 b2 v1 v0 s0 s1
  generalize pushEnv s j r none "let" [("err-parts", l ((ls ++ [last]).map T)), ("last-line", T last)] = sa at *
  have o := only_calm hq [(g, "number-of-errors")]
  have o' := only_calm hq [(g, "number-of-errors"), (g, "error-messages")]
  have same : ∀ {x : String} {b : Binding}, s.localB g x = some b → sa.localB g x = some b := fun h => by
    obtain ⟨r, hr⟩ := localB_some h
    rw [hq.localB hr]
    exact h
  -- what is told
  obtain ⟨ps, hp, split2⟩ := evals_split C last (sep := ". ") (by decide)
  have steady : Steady C s.envs.length sa [l [y "cadr", l [y "string-split", y "last-line", t ". "]]] [(ps.map T)[1]?.getD .null] := by
    refine .cons (fun s' q' hw' => ?_) .nil
    have ss := Sees.only s2 (only_calm q' []) clear0
    have ll := Loaded.only hl2 (only_calm q' []) hw' clear0
    have v3 : Evals C (y "last-line") s.envs.length s' (.ok (T last)) s' := evals_var hw' (q'.visible v2) (noFrame ss.env) rfl (by simp [T])
    exact evals_second hw' (ss.means ll (by simp [words])) (map_T (splits_ne hp)) (null_T ps) (by simp) (split2 hw' (ss.means ll (by simp [words])) (by simp) v3)
  have hfn : isFunc ((ps.map T)[1]?.getD .null) = false := by
    match ps with
    | [] => rfl
    | [_] => rfl
    | _ :: _ :: _ => rfl
  obtain ⟨z, s', h1, h2, h3, h4, h5, h6⟩ := log_error hl2 (Tells.only ht (only_calm hq []) clear0) s2 (same hne) (same hme) hms (by simp) hfn steady
  refine ⟨_, z, s', ?_, Only.trans o h1, whole h2, h3, h4, h5, Only.trans o' h6⟩
  match ps, hp with
  | [], hp => exact absurd rfl (splits_ne hp)
  | [p], hp => exact .none hsp hp
  | p :: q :: ps, hp => exact .piece hsp hp

/-- A test that fails with an error: the expressions after the one that fails are not evaluated, and exactly one error is recorded,
with a report that names the context and the test; `it` returns nil.  Apart from what the expressions did, nothing else changes. -/
theorem C95_error_partial (hl : Loaded C g s) (hs : Sees s g e) (ht : Tells g s c) {lab : String} {bs : List Data} (hb : bs ≠ []) (hn : Data.null ∉ bs)
    (hit : s.localB g "it-name" = some ⟨.str c.it, false⟩) (hvi : ∀ b, s.localB g "it-name" = some b → Visible s e "it-name" g b)
    (hvv : ∀ b, s.localB g "verbose-tests" = some b → Visible s e "verbose-tests" g b) :
    ∃ s₀, Loaded C g s₀ ∧ Sees s₀ g e ∧ Tells g s₀ { c with it := lab } ∧ Only [(g, "it-name")] s s₀ ∧
      ∀ er s₁ c₁ i ms, Seq C e bs .null s₀ (.err er) s₁ → Loaded C g s₁ → Sees s₁ g e → Tells g s₁ c₁ → s₁.localB g "number-of-errors" = some ⟨.int i, false⟩ →
        s₁.localB g "error-messages" = some ⟨ms, false⟩ → isFunc ms = false →
        ∃ er' s₂ v z s', quoting (l (y "begin" :: bs)) (.err er) = .err er' ∧ Calm s₁ s₂ ∧ Blamed (C.host.errText s₂ er').toList v ∧ Only [(g, "number-of-errors")] s₁ z ∧
          Evals C (l (y "it" :: t lab :: bs)) e s (.ok .null) s' ∧ Loaded C g s' ∧ Sees s' g e ∧ Tells g s' c₁ ∧
          s'.localB g "number-of-errors" = some ⟨.int (i + 1), false⟩ ∧ s'.localB g "error-messages" = some ⟨.cons (.str (reportError C.host z v c₁)) (elem ms), false⟩ ∧
          Only [(g, "number-of-errors"), (g, "error-messages")] s₁ s' := by
  obtain ⟨s₀, h1, h2, h3, h4, -, -, h5⟩ := C95_it_partial hl hs ht (lab := lab) hb hn hit hvi hvv
  refine ⟨s₀, h1, h2, h3, h4, fun er s₁ c₁ i ms hseq hl₁ hs₁ ht₁ hne hme hms => ?_⟩
  obtain ⟨er', j, fr, s₂, h6, hq, hl₂, hj, f1, f2, f3, h7⟩ := h5 er s₁ hseq hl₁ hs₁
  obtain ⟨pr, hpr, hpf⟩ := hs₁.env
  have hpr₂ := hq.env hpr
  have q := Fun.pushEnv_calm s₂ e pr none fr.name (selfBind s₂ fr.slot none e ++ ["err"].zip [.str (C.host.errText s₂ er')])
  have hw := pushEnv_WF hl₂ hpr₂ none fr.name (selfBind s₂ fr.slot none e ++ ["err"].zip [.str (C.host.errText s₂ er')])
  have top := pushEnv_top s₂ e pr none fr.name (selfBind s₂ fr.slot none e ++ ["err"].zip [.str (C.host.errText s₂ er')])
  have run : ∀ w s', Evals C excuse s₂.envs.length (pushEnv s₂ e pr none fr.name (selfBind s₂ fr.slot none e ++ ["err"].zip [.str (C.host.errText s₂ er')])) (.ok w) s' →
      CallsV C j [.str (C.host.errText s₂ er')] e none s₂ (.ok w) s' := fun w s' h => by
    have := CallsV.run (C := C) (i := j) (vs := [.str (C.host.errText s₂ er')]) (ae := e) (frame := none) (s := s₂) (r := .ok w) (s' := s') hj (by rw [f3]; exact hpr₂)
      (ps := ["err"]) (rest := none) (by rw [f1]; exact .cons (.none .null)) f2 (by simp [Fits]) (by
        rw [f3]
        simp only [paramBinds, List.append_nil]
        exact .next h .done)
    exact this
  have hB : ∀ p ∈ selfBind s₂ fr.slot none e ++ ["err"].zip [Data.str (C.host.errText s₂ er')], p.1 = "self" ∨ p.1 = "err" := by
    intro p hp
    rcases List.mem_append.1 hp with hp | hp
    · exact .inl (selfBind_names _ _ _ _ p hp)
    · exact .inr (by simp at hp; simp [hp])
  have ve : Visible (pushEnv s₂ e pr none fr.name (selfBind s₂ fr.slot none e ++ ["err"].zip [.str (C.host.errText s₂ er')])) s₂.envs.length "err" s₂.envs.length
      ⟨.str (C.host.errText s₂ er'), false⟩ := .here (by rw [pushEnv_localB, alGet_binds]; simp)
  have hc := hq.trans q
  clear q
  generalize hsa : pushEnv s₂ e pr none fr.name (selfBind s₂ fr.slot none e ++ ["err"].zip [.str (C.host.errText s₂ er')]) = sa at *
  have same : ∀ {x : String} {b : Binding}, s₁.localB g x = some b → sa.localB g x = some b := fun h => by
    obtain ⟨r, hr⟩ := localB_some h
    rw [hc.localB hr]
    exact h
  have hla := Loaded.only hl₁ (only_calm hc []) hw clear0
  have hse := Sees.only hs₁ (only_calm hc []) clear0
  have hsj : Sees sa g s₂.envs.length := Sees.below hse top rfl hpf rfl fun p hp h => by
    rcases hB p hp with he | he <;> rw [he] at h <;> revert h <;> decide
  have hta := Tells.only ht₁ (only_calm hc []) clear0
  obtain ⟨v, z, s', h8, h9, h10, h11, h12, h13, h14⟩ := excuse_runs hla hta hsj (same hne) (same hme) hms top hpf ve
  refine ⟨er', s₂, v, z, s', h6, hq, h8, Only.trans (only_calm hc _) h9, h7 _ _ (run _ _ h10), h11, Sees.only hse h14 ?_, Tells.only hta h14 ?_, h12, h13, Only.trans (only_calm hc _) h14⟩
  · intro p hp
    simp at hp
    rcases hp with rfl | rfl
    · show "number-of-errors" ∉ _
      decide
    · show "error-messages" ∉ _
      decide
  · intro p hp
    simp at hp
    rcases hp with rfl | rfl
    · show "number-of-errors" ∉ _
      decide
    · show "error-messages" ∉ _
      decide

/-! ### A test that fails with an error, in the framework as shipped -/

set_option maxRecDepth 10000 in
example : ∃ s' v z, Evals Demo.C (l [y "it", t "fails", l [y "last-pair", n 5], l [y "assert-true", n 5]]) 1 after (.ok .null) s' ∧ Tells 1 s' ⟨0, 0, .emptyCons, "", "fails"⟩ ∧
    s'.localB 1 "number-of-errors" = some ⟨n 1, false⟩ ∧
    s'.localB 1 "error-messages" = some ⟨.cons (.str (reportError Demo.C.host z v ⟨0, 0, .emptyCons, "", "fails"⟩)) .emptyCons, false⟩ ∧
    Only [(1, "it-name"), (1, "number-of-errors"), (1, "error-messages")] after s' := by
  have hv : ∀ p ∈ vars, after.localB 1 p.1 = some ⟨p.2, false⟩ := after_facts.2.2.1
  have hit := hv ("it-name", t "") (by simp [vars])
  obtain ⟨s₀, hl, hs, ht, ho, h⟩ := C95_error_partial (lab := "fails") (bs := [l [y "last-pair", n 5], l [y "assert-true", n 5]]) after_loaded after_sees after_tells (by simp) (by simp) hit
    (fun _ h => .here h) (fun _ h => .here h)
  obtain ⟨er, he⟩ := C67_misuse (.notList (x := "last-pair") (n 5) _ rfl (by simp)) (calling_sym (C := Demo.C) hl.wf (hs.means hl (by simp [words])) rfl rfl
    (Samples.lst_l (xs := [n 5]) (by simp)) (.next (evals_lit nofun) .done))
  obtain ⟨r₀, hr₀⟩ : ∃ r, r = quoting (.cons (.sym "last-pair") (l [n 5])) (.err er) := ⟨_, rfl⟩
  have hev := (he _ _).mpr ⟨hr₀, rfl⟩
  have keep : ∀ {x : String} {b : Binding}, x ≠ "it-name" → after.localB 1 x = some b → s₀.localB 1 x = some b := by
    intro x b hx hb
    obtain ⟨r, hr⟩ := localB_some hb
    rw [ho.vars _ _ (lt_of_some hr) (by simpa using hx)]
    exact hb
  obtain ⟨er', s₂, v, z, s', -, -, -, -, h1, -, -, h2, h3, h4, h5⟩ := h _ s₀ _ 0 .emptyCons (.stop (hr₀ ▸ hev) (by simp [Ok])) hl hs ht (keep (by simp) (hv ("number-of-errors", n 0) (by simp [vars])))
    (keep (by simp) (hv ("error-messages", .emptyCons) (by simp [vars]))) rfl
  exact ⟨s', v, z, h1, h2, h3, h4, Only.trans (Only.mono ho (by simp)) (Only.mono h5 (by simp))⟩

private theorem no_occurs {a : Char} {r cs : List Char} (h : a ∉ cs) : ¬ Occurs (a :: r) cs := by
  rintro ⟨u, v, rfl⟩
  simp at h

/-- A text of two lines, of which the second has two parts. -/
example : Blamed ['x', '\n', 'a', '.', ' ', 'b'] (.str "b") := by
  refine .piece (ls := [['x']]) (last := ['a', '.', ' ', 'b']) (p := ['a']) (q := ['b']) (ps := []) (.cut (p := ['x']) (r := ['a', '.', ' ', 'b']) ?_ (.last (no_occurs (by decide))))
    (.cut (p := ['a']) (r := ['b']) ?_ (.last (no_occurs (by decide))))
  · intro u v h
    have := congrArg List.length h
    rcases u with _ | ⟨_, _ | ⟨_, u⟩⟩ <;> simp at h this ⊢
    exact h.2
  · intro u v h
    have := congrArg List.length h
    rcases u with _ | ⟨_, _ | ⟨_, u⟩⟩ <;> simp at h this ⊢
    · exact h.2
    · omega

/-- Of a text that has no full stop in its last line nothing is told. -/
example : Blamed "nothing to see".toList .emptyCons := .none (ls := []) (.last (no_occurs (by decide))) (.last (no_occurs (by decide)))

end Golisp.Props
