import Verif.Props.TestKit
import Verif.Props.Procedures
import Verif.Props.Environments
/- C96: the macro `context` of the shipped test framework runs its tests one after the other, each after the setup. -/
namespace Golisp.Props
open Golisp Data Ev Spec Testing
open Golisp.Fun (Calm)
open Golisp.Samples (l y n)
open Golisp.Imp (Fills)

variable {C : Conf} {s s' s₁ s₂ s₃ : Store} {g e : Nat} {c : Tally} {x v : Data}

/-- The setup as it is written: `()`, or a list of expressions. -/
def Setup (su : Data) (ss : List Data) : Prop := su = .emptyCons ∧ ss = [] ∨ ss ≠ [] ∧ su = l ss

/-- The expression that `context` stands for. -/
private def ctxExpansion (lab : String) (ss bs : List Data) : Data :=
  l [y "begin", l [y "when", y "verbose-tests", l [y "format", yes, t "~%~A~%", t lab]], l [y "set!", y "context-name", t lab],
    l [y "for-each", l (y "lambda" :: l [y "it-clause"] :: (ss ++ [l [y "eval", y "it-clause"]])), l [y "quote", l bs]]]

private theorem ctx_quasi {lab : String} {su : Data} {ss bs : List Data} (hsu : Setup su ss) (hns : Data.null ∉ ss) (hb : bs ≠ []) (h1 : Evals C (y "label") e s (.ok (t lab)) s)
    (h2 : Evals C (y "setup") e s (.ok su) s) (h3 : Evals C (y "body") e s (.ok (l bs)) s) : Quasi C e 1 [contextTemplate] s (.ok [ctxExpansion lab ss bs]) s := by
  have hbn : l bs ≠ .null := by cases bs with | nil => exact absurd rfl hb | cons a d => simp
  have fill : ∀ {ts ds : List Data}, Fills [("label", t lab), ("body", l bs)] ts ds → Quasi C e 1 ts s (.ok ds) s := fun h => quasi_fills h fun p d hp _ _ => by
    simp only [List.lookup_cons, List.lookup_nil] at hp
    split at hp
    · next h =>
      obtain rfl := eq_of_beq h
      cases hp
      exact h1
    · split at hp
      · next h =>
        obtain rfl := eq_of_beq h
        cases hp
        exact h3
      · cases hp
  have hole : ∀ {xs ys}, Fills [("label", t lab), ("body", l bs)] xs ys → Fills [("label", t lab), ("body", l bs)] (Testing.hole "label" :: xs) (t lab :: ys) := fun h => .hole rfl (by simp) rfl h
  have hole' : ∀ {xs ys}, Fills [("label", t lab), ("body", l bs)] xs ys → Fills [("label", t lab), ("body", l bs)] (Testing.hole "body" :: xs) (l bs :: ys) := fun h => .hole rfl (by simp) rfl h
  have sub : ∀ {z : Data} {ts ds : List Data}, Data.null ∉ z :: ts → ¬ Mark z → ds ≠ [] → Data.null ∉ ds → Quasi C e 1 (z :: ts) s (.ok ds) s → Quasi C e 1 [l (z :: ts)] s (.ok [l ds]) s := by
    intro z ts ds h1 h2 h3 h4 h
    rw [← Streams.ofArray_l h3 h4]
    exact .list (Samples.lst_l h1) rfl (by simpa using h2) h
  have hspl : Quasi C e 1 [many "setup"] s (.ok ss) s := by
    refine Quasi.splice (s' := s) (.atom _) h2 ?_
    rcases hsu with ⟨rfl, rfl⟩ | ⟨-, rfl⟩
    · exact .inr ⟨rfl, rfl⟩
    · exact .inl ⟨Samples.chain_l ss, hns⟩
  have heval : Quasi C e 1 [l [y "eval", y "it-clause"]] s (.ok [l [y "eval", y "it-clause"]]) s := fill (Streams.fills_l (by simp) (unmarked (by decide)) (.atom (.atom .nil)) (by simp) (by simp) .nil)
  have hpar : Quasi C e 1 [l [y "it-clause"]] s (.ok [l [y "it-clause"]]) s := fill (Streams.fills_l (by simp) (unmarked (by decide)) (.atom .nil) (by simp) (by simp) .nil)
  have hlam : Quasi C e 1 [l [y "lambda", l [y "it-clause"], many "setup", l [y "eval", y "it-clause"]]] s (.ok [l (y "lambda" :: l [y "it-clause"] :: (ss ++ [l [y "eval", y "it-clause"]]))]) s :=
    sub (by simp) (unmarked (by decide)) (by simp) (by simpa using hns) (Quasi.next .atom (Quasi.next hpar (Quasi.next hspl heval)))
  have hquote : Quasi C e 1 [l [y "quote", Testing.hole "body"]] s (.ok [l [y "quote", l bs]]) s := fill
    (Streams.fills_l (by simp) (unmarked (by decide)) (.atom (hole' .nil)) (by simp) (by simpa using Ne.symm hbn) .nil)
  have hfor : Quasi C e 1 [l [y "for-each", l [y "lambda", l [y "it-clause"], many "setup", l [y "eval", y "it-clause"]], l [y "quote", Testing.hole "body"]]] s
      (.ok [l [y "for-each", l (y "lambda" :: l [y "it-clause"] :: (ss ++ [l [y "eval", y "it-clause"]])), l [y "quote", l bs]]]) s :=
    sub (by simp) (unmarked (by decide)) (by simp) (by simp) (Quasi.next .atom (Quasi.next hlam hquote))
  have hwhen : Quasi C e 1 [l [y "when", y "verbose-tests", l [y "format", yes, t "~%~A~%", Testing.hole "label"]]] s (.ok [l [y "when", y "verbose-tests", l [y "format", yes, t "~%~A~%", t lab]]]) s := fill
    (Streams.fills_l (by simp) (unmarked (by decide)) (.atom (.atom (Streams.fills_l (by simp) (unmarked (by decide)) (.atom (.atom (.atom (hole .nil)))) (by simp) (by simp) .nil))) (by simp) (by simp) .nil)
  have hset : Quasi C e 1 [l [y "set!", y "context-name", Testing.hole "label"]] s (.ok [l [y "set!", y "context-name", t lab]]) s := fill
    (Streams.fills_l (by simp) (unmarked (by decide)) (.atom (.atom (hole .nil))) (by simp) (by simp) .nil)
  exact sub (by simp) (unmarked (by decide)) (by simp) (by simp) (Quasi.next .atom (Quasi.next hwhen (Quasi.next hset hfor)))

private theorem setup_plain {su : Data} {ss : List Data} (h : Setup su ss) : su ≠ .null ∧ isFunc su = false ∧ noNull su = su := by
  rcases h with ⟨rfl, rfl⟩ | ⟨h, rfl⟩
  · exact ⟨nofun, rfl, rfl⟩
  · cases ss with
    | nil => exact absurd rfl h
    | cons a d => exact ⟨nofun, rfl, rfl⟩

set_option maxRecDepth 10000 in
private theorem ctx_expands (hl : Loaded C g s) {lab : String} {su : Data} {ss bs : List Data} (hsu : Setup su ss) (hns : Data.null ∉ ss) (hb : bs ≠ []) (hn : Data.null ∉ bs) {i : Nat} {mr : MacRec}
    (hi : s.macs[i]? = some mr) (hp : Params mr.params ["label", "setup"] (some "body")) (hmb : mr.body = contextBody) {gr : EnvRec} (hg : s.envs[mr.env]? = some gr) (he : mr.env = g) (hgf : gr.frame = none) :
    Expands C i (t lab :: su :: bs) s (.ok (ctxExpansion lab ss bs)) (pushEnv s mr.env gr none mr.name [("label", t lab), ("setup", su), ("body", l bs)]) := by
  have q := Fun.pushEnv_calm s mr.env gr none mr.name [("label", t lab), ("setup", su), ("body", l bs)]
  have hw := pushEnv_WF hl.wf hg none mr.name [("label", t lab), ("setup", su), ("body", l bs)]
  have top := pushEnv_top s mr.env gr none mr.name [("label", t lab), ("setup", su), ("body", l bs)]
  have hl' := Loaded.only hl (only_calm q []) hw clear0
  have hs : Sees (pushEnv s mr.env gr none mr.name [("label", t lab), ("setup", su), ("body", l bs)]) g s.envs.length := Sees.below (sees_self hl') top (by rw [he]) hgf rfl (by simp; decide)
  have fr := noFrame hs.env
  obtain ⟨p1, p2, -⟩ := setup_plain hsu
  have v1 : Evals C (y "label") s.envs.length (pushEnv s mr.env gr none mr.name [("label", t lab), ("setup", su), ("body", l bs)]) (.ok (t lab)) (pushEnv s mr.env gr none mr.name [("label", t lab), ("setup", su), ("body", l bs)]) :=
    evals_var hw (p := false) (.here (by rw [pushEnv_localB]; rfl)) fr rfl (by simp)
  have v3 : Evals C (y "setup") s.envs.length (pushEnv s mr.env gr none mr.name [("label", t lab), ("setup", su), ("body", l bs)]) (.ok su) (pushEnv s mr.env gr none mr.name [("label", t lab), ("setup", su), ("body", l bs)]) :=
    evals_var hw (p := false) (.here (by rw [pushEnv_localB]; rfl)) fr rfl (by rintro i rfl; cases p2)
  have v2 : Evals C (y "body") s.envs.length (pushEnv s mr.env gr none mr.name [("label", t lab), ("setup", su), ("body", l bs)]) (.ok (l bs)) (pushEnv s mr.env gr none mr.name [("label", t lab), ("setup", su), ("body", l bs)]) :=
    evals_var hw (p := false) (.here (by rw [pushEnv_localB]; rfl)) fr rfl (by cases bs with | nil => exact absurd rfl hb | cons a d => simp)
  have hpb : paramBinds ["label", "setup"] (some "body") (t lab :: su :: bs) = [("label", t lab), ("setup", su), ("body", l bs)] := by
    simp only [paramBinds, List.zip_cons_cons, List.zip_nil_left, List.length_cons, List.length_nil, List.drop_succ_cons, List.drop_zero, Streams.ofArray_l hb hn]
    rfl
  have bt : ∀ b : Bool, Truthy (.bool b) ↔ b = true := fun b => by rw [← boolValue_iff]; cases b <;> decide
  refine .run hi hg hp (by simp [Fits]) ?_
  rw [hpb, hmb]
  generalize pushEnv s mr.env gr none mr.name [("label", t lab), ("setup", su), ("body", l bs)] = s₁ at *
  have t1 := evals_test (p := "symbol?") (f := isSym) rfl rfl (fun _ => rfl) hw (hs.means hl' (by simp [words])) (by simp) (by simp) v1
  have t2 := evals_test (p := "string?") (f := isStr) rfl rfl (fun _ => rfl) hw (hs.means hl' (by simp [words])) (by simp) (by simp) v1
  have t3 : Evals C (l [y "or", l [y "symbol?", y "label"], l [y "string?", y "label"]]) s.envs.length s₁ (.ok (.bool true)) s₁ :=
    (C37_or hw (hs.means hl' (by simp [words])) (Samples.lst_l (xs := [l [y "symbol?", y "label"], l [y "string?", y "label"]]) (by simp)) (by simp)).mpr
      ⟨.ok (.bool true), rfl, .next t1 (by rw [bt]; exact Bool.false_ne_true) (.decided t2 ((bt true).mpr rfl))⟩
  have t4 := evals_not hw (hs.means hl' (by simp [words])) (by simp) t3
  exact (C37_if hw (hs.means hl' (by simp [words])) (Samples.lst_l (xs := [_, _, _]) (by simp)) (by simp)).mpr ⟨.ok _, rfl, .inl ⟨_, s₁, t4, .inr ⟨(fun h => absurd ((bt false).mp h) Bool.false_ne_true),
    (C43_value_partial hw (hs.means hl' (by simp [words])) (t := l [contextTemplate]) (Samples.lst_l (by simp [contextTemplate])) (by simp [contextTemplate]) (ctx_quasi hsu hns hb v1 v3 v2) _ _).mpr ⟨rfl, rfl⟩⟩⟩⟩

private theorem rows_one : ∀ bs : List Data, Rows [bs] (bs.map ([·]))
  | [] => .stop (by simp)
  | b :: bs => .next [(b, bs)] (rows_one bs)

set_option maxRecDepth 10000 in
/-- `context` with a text as label makes the text the name of the context in reports, and nothing else; then it makes, where it
stands, a procedure of one parameter whose body is the setup followed by `(eval it-clause)`, and calls it with the tests as they are
written, once with each, in order.  It returns nil; a call that fails ends it. -/
theorem C96_context_partial (hl : Loaded C g s) (hs : Sees s g e) (ht : Tells g s c) {lab : String} {su : Data} {ss bs : List Data} (hsu : Setup su ss) (hns : Data.null ∉ ss)
    (hb : bs ≠ []) (hn : Data.null ∉ bs) (hctx : s.localB g "context-name" = some ⟨.str c.context, false⟩) (hvi : ∀ b, s.localB g "context-name" = some b → Visible s e "context-name" g b)
    (hvv : ∀ b, s.localB g "verbose-tests" = some b → Visible s e "verbose-tests" g b) :
    ∃ s₀ i fr s₂, Loaded C g s₀ ∧ Sees s₀ g e ∧ Tells g s₀ { c with context := lab } ∧ Only [(g, "context-name")] s s₀ ∧ Calm s₀ s₂ ∧ WF s₂ ∧ s₂.fns[i]? = some fr ∧
      fr.params = l [y "it-clause"] ∧ Lst fr.body (ss ++ [l [y "eval", y "it-clause"]]) ∧ fr.env = e ∧
      (∀ vs s', Calls (With C (.atom (.func i)) e) (bs.map ([·])) s₂ (.ok vs) s' → Evals C (l (y "context" :: t lab :: su :: bs)) e s (.ok .null) s') ∧
      (∀ er s', Calls (With C (.atom (.func i)) e) (bs.map ([·])) s₂ (.err er) s' → ∃ er', Evals C (l (y "context" :: t lab :: su :: bs)) e s (.err er') s') ∧
      ∀ s', Calls (With C (.atom (.func i)) e) (bs.map ([·])) s₂ .panic s' → Evals C (l (y "context" :: t lab :: su :: bs)) e s .panic s' := by
  obtain ⟨i, mr, b, h1, h2, h3, h4, h5⟩ := hl.context
  obtain ⟨gr, hgr, hgf⟩ := hl.env
  obtain ⟨f, b', v1, v2⟩ := hs.names "context" (by simp [Testing.names])
  obtain ⟨rfl, rfl⟩ := v1.unique (.here h1)
  obtain ⟨p1, p2, -⟩ := setup_plain hsu
  have hop : EvalsOp C (.sym "context") e s (.ok (.atom (.macro i))) s := by
    unfold EvalsOp
    rw [runs_iff]
    exact (runsP_valueOf hl.wf true v2 (fun _ => noSlot_of (noFrame hs.env) _) rfl).mpr ⟨rfl, rfl⟩
  have hgr' : s.envs[mr.env]? = some gr := by rw [h5]; exact hgr
  have hsc : ∀ t, shortcuts (.cons (.sym "context") t) = .cons (.sym "context") t := fun _ => rfl
  have ex := ctx_expands hl (lab := lab) hsu hns hb hn h2 h3 h4 hgr' h5 hgf
  have qa := Fun.pushEnv_calm s mr.env gr none mr.name [("label", t lab), ("setup", su), ("body", l bs)]
  have hwa := pushEnv_WF hl.wf hgr' none mr.name [("label", t lab), ("setup", su), ("body", l bs)]
  have call : ∀ {r₀ : Out Data} {s'}, Evals C (ctxExpansion lab ss bs) e (pushEnv s mr.env gr none mr.name [("label", t lab), ("setup", su), ("body", l bs)]) r₀ s' →
      Evals C (l (y "context" :: t lab :: su :: bs)) e s (quoting (l (y "context" :: t lab :: su :: bs)) r₀) s' := fun h =>
    (C44_call (hsc _) nofun hop h2 ⟨⟨gr, hgr'⟩, ["label", "setup"], some "body", h3, nofun⟩ (Samples.lst_l (xs := t lab :: su :: bs) (by simpa using ⟨Ne.symm p1, hn⟩))).mpr ⟨_, rfl, .inl ⟨_, _, ex, h⟩⟩
  generalize pushEnv s mr.env gr none mr.name [("label", t lab), ("setup", su), ("body", l bs)] = sa at *
  have hla := Loaded.only hl (only_calm qa []) hwa clear0
  have hsa := Sees.only hs (only_calm qa []) clear0
  have hta := Tells.only ht (only_calm qa []) clear0
  have hfa := noFrame hsa.env
  have hca : sa.localB f "context-name" = some ⟨.str c.context, false⟩ := by rw [qa.localB hgr]; exact hctx
  -- the steps
  obtain ⟨vv, bv, hs1, hs2⟩ := hl.silent
  have e1 := evals_when hla hsa (qa.visible (hvv _ hs1)) hs2 rfl (d := l [y "format", yes, t "~%~A~%", t lab]) (by simp)
  have e2 := evals_set hwa (hsa.means hla (by simp [words])) (t := l [y "context-name", t lab]) (Samples.lst_l (xs := [.sym "context-name", t lab]) (by simp)) (by simp)
    (evals_lit (by simp)) (qa.visible (hvi _ hctx)) rfl hfa
  have o2 : Only [(f, "context-name")] sa (sa.putVal f "context-name" (t lab)) := only_put _ (by simp) _
  have hw2 := Imp.putVal_WF hwa f "context-name" (t lab)
  obtain ⟨b₁, h6, h7⟩ := (putVal_only hca (t lab)).value
  rw [hca] at h6
  cases h6
  have hl2 := Loaded.only hla o2 hw2 (clear1 (by decide))
  have hs2 := Sees.only hsa o2 (clear1 (by decide))
  have ht2 : Tells f (sa.putVal f "context-name" (t lab)) { c with context := lab } := by
    obtain ⟨a1, a2, ⟨a3, a3'⟩, -, ⟨bc, a4⟩⟩ := hta
    have keep : ∀ {z : String} {b : Binding}, z ≠ "context-name" → sa.localB f z = some b → (sa.putVal f "context-name" (t lab)).localB f z = some b := by
      intro z b hz hb
      obtain ⟨r, hr⟩ := localB_some hb
      rw [o2.vars _ _ (lt_of_some hr) (by simpa using hz)]
      exact hb
    exact ⟨keep (by simp) a1, keep (by simp) a2, ⟨keep (by simp) a3, a3'⟩, ⟨false, h7⟩, bc, keep (by simp) a4⟩
  have whole : ∀ {r₀ : Out Data} {s'}, Evals C (l [y "for-each", l (y "lambda" :: l [y "it-clause"] :: (ss ++ [l [y "eval", y "it-clause"]])), l [y "quote", l bs]]) e
      (sa.putVal f "context-name" (t lab)) r₀ s' → Evals C (l (y "context" :: t lab :: su :: bs)) e s (quoting (l (y "context" :: t lab :: su :: bs)) (quoting (ctxExpansion lab ss bs) r₀)) s' := by
    intro r₀ s' h
    refine call ((C39_begin hwa (hsa.means hla (by simp [words])) (Samples.lst_l (xs := [_, _, _]) (by simp)) (by simp)).mpr ⟨r₀, rfl, .next e1 (.next e2 ?_)⟩)
    cases r₀ with
    | ok w => exact .next h .done
    | err er => exact .stop h id
    | panic => exact .stop h id
    | timeout => exact .stop h id
  clear call e2 ex
  have oo : Only [(f, "context-name")] s (sa.putVal f "context-name" (t lab)) := (only_calm qa _).trans o2
  clear o2
  generalize sa.putVal f "context-name" (t lab) = s₀ at *
  -- the procedure
  have hnl : Data.null ∉ l [y "it-clause"] :: (ss ++ [l [y "eval", y "it-clause"]]) := by simpa using hns
  obtain ⟨fr, f1, f2, f3, f4⟩ := C33_lambda hl2.wf (hs2.means hl2 (by simp [words])) (t := l (l [y "it-clause"] :: (ss ++ [l [y "eval", y "it-clause"]]))) (Samples.lst_l hnl) rfl hnl
  have hi : (s₀.fns ++ [fr])[s₀.fns.length]? = some fr := by simp
  have hq : Calm s₀ { s₀ with fns := s₀.fns ++ [fr] } := ⟨⟨[], by simp⟩, fun i f h => ⟨f.slot, by
    show (s₀.fns ++ [fr])[i]? = _
    rw [List.getElem?_append_left (List.getElem?_eq_some_iff.mp h).1]; exact h⟩, rfl, rfl, rfl, rfl, rfl, rfl, rfl⟩
  have hlam := (f4 _ _).mpr ⟨rfl, rfl⟩
  have hwf : WF { s₀ with fns := s₀.fns ++ [fr] } := hl2.wf
  have hl3 := Loaded.only hl2 (only_calm hq []) hwf clear0
  have hs3 := Sees.only hs2 (only_calm hq []) clear0
  have hbn : l bs ≠ .null := by cases bs with | nil => exact absurd rfl hb | cons a d => simp
  have hquote : Evals C (l [y "quote", l bs]) e { s₀ with fns := s₀.fns ++ [fr] } (.ok (l bs)) { s₀ with fns := s₀.fns ++ [fr] } :=
    evals_quote hwf (hs3.means hl3 (by simp [words])) (Samples.lst_l (xs := [l bs]) (by simpa using Ne.symm hbn)) hbn
  have calling := calling_sym (x := "for-each") hl2.wf (hs2.means hl2 (by simp [words])) rfl (t := l [l (y "lambda" :: l [y "it-clause"] :: (ss ++ [l [y "eval", y "it-clause"]])), l [y "quote", l bs]]) rfl
    (Samples.lst_l (by simp)) (.next hlam (.next hquote .done))
  have hel : ([Data.atom (.func s₀.fns.length), l bs].map elem) = .atom (.func s₀.fns.length) :: [(l bs, bs)].map (·.1) := by
    simp [elem, hbn]
  rw [hel] at calling
  have perf := C69_for_each (f := .atom (.func s₀.fns.length)) (ls := [(l bs, bs)]) (rs := bs.map ([·])) rfl (by simp) (by
    simp only [List.mem_singleton]
    rintro p rfl
    exact ⟨Samples.lst_l hn, by cases bs with | nil => exact absurd rfl hb | cons a d => rfl⟩) (rows_one bs) calling
  refine ⟨s₀, s₀.fns.length, fr, _, hl2, hs2, ht2, oo, hq, hwf, hi, f2, f3, f1, fun vs s' hc => ?_, fun er s' hc => ?_, fun s' hc => ?_⟩
  · obtain ⟨r₀, hb', h⟩ := perf.2 _ _ hc
    cases hb' with
    | ok h' => subst h'; exact whole h
  · obtain ⟨r₀, hb', h⟩ := perf.2 _ _ hc
    cases hb'
    exact ⟨_, whole h⟩
  · obtain ⟨r₀, hb', h⟩ := perf.2 _ _ hc
    cases hb'
    exact whole h

/-- `s₀` is `s` with a new environment `k` directly below `e`, in which the test `x` is bound to `it-clause` and nothing else but perhaps `self`. -/
structure Fresh (s s₀ : Store) (e k : Nat) (x : Data) : Prop where
  calm : Calm s s₀
  wf : WF s₀
  new : s.envs.length ≤ k
  env : ∃ r B, s₀.envs[k]? = some r ∧ r.parent = some e ∧ r.frame = none ∧ r.binds = binds (B ++ [("it-clause", x)]) ∧ ∀ p ∈ B, p.1 = "self"

private theorem seq_keeps {K : Store → Store → Prop} (hK : Keeps K) : ∀ {xs : List Data} {u : Data} {s : Store} {r : Out Data}, Seq C e xs u s r s' → K s s'
  | [], _, _, _, h => by cases h; exact hK.refl _
  | x :: xs, _, _, _, h => by
    cases h with
    | next h1 h2 => exact hK.trans (runs_keeps hK h1) (seq_keeps hK h2)
    | stop h1 _ => exact runs_keeps hK h1

/-- One of those calls: in a new environment below that of the context, in which only `it-clause` (and perhaps `self`) is bound, the
setup is evaluated and then, there, the test, which is the result.  The setup may define what it likes, but not change `it-clause` or hide
`eval`; if it fails the test is not run. -/
theorem C96_clause_partial (hw : WF s) (he : ∃ r, s.envs[e]? = some r ∧ r.frame = none) {i : Nat} {fr : FnRec} {ss : List Data} (hi : s.fns[i]? = some fr) (hp : fr.params = l [y "it-clause"])
    (hb : Lst fr.body (ss ++ [l [y "eval", y "it-clause"]])) (hen : fr.env = e) (hx : x ≠ .null) (hf : isFunc x = false) :
    ∃ s₀ k, Fresh s s₀ e k x ∧
      (∀ u s₁ v s', Seq C k ss .null s₀ (.ok u) s₁ → s₁.localB k "it-clause" = some ⟨x, false⟩ → Means C s₁ k "eval" → Evals C x k s₁ (.ok v) s' → With C (.atom (.func i)) e [x] s (.ok v) s') ∧
      (∀ u s₁ er s', Seq C k ss .null s₀ (.ok u) s₁ → s₁.localB k "it-clause" = some ⟨x, false⟩ → Means C s₁ k "eval" → Evals C x k s₁ (.err er) s' →
        ∃ er', With C (.atom (.func i)) e [x] s (.err er') s') ∧
      (∀ u s₁ s', Seq C k ss .null s₀ (.ok u) s₁ → s₁.localB k "it-clause" = some ⟨x, false⟩ → Means C s₁ k "eval" → Evals C x k s₁ .panic s' → With C (.atom (.func i)) e [x] s .panic s') ∧
      (∀ er s₁, Seq C k ss .null s₀ (.err er) s₁ → ∃ er', With C (.atom (.func i)) e [x] s (.err er') s₁) ∧
      ∀ s₁, Seq C k ss .null s₀ .panic s₁ → With C (.atom (.func i)) e [x] s .panic s₁ := by
  obtain ⟨pr, hpr, hpf⟩ := he
  have hpr' : s.envs[fr.env]? = some pr := by rw [hen]; exact hpr
  have hpp : Params fr.params ["it-clause"] none := by rw [hp]; exact .cons (.none .null)
  have hg : GoodFn s fr := ⟨⟨pr, hpr'⟩, ⟨["it-clause"], none, hpp, fun _ => rfl⟩, _, hb⟩
  have hfe : s.frameOf e = none := noFrame ⟨pr, hpr, hpf⟩
  have hel : [x].map elem = [x] := by simp [elem, hx]
  have run : ∀ {r : Out Data} {s'}, Seq C s.envs.length (ss ++ [l [y "eval", y "it-clause"]]) .null (pushEnv s e pr none fr.name (selfBind s fr.slot none e ++ [("it-clause", x)])) r s' →
      With C (.atom (.func i)) e [x] s (naming fr.name r) s' := by
    intro r s' h
    rw [C69_function hi hg, hel, Fun.noFrame_for hfe]
    exact .run hi hpr' hpp hb (by simp [Fits]) (by rw [hen]; exact h)
  have top := pushEnv_top s e pr none fr.name (selfBind s fr.slot none e ++ [("it-clause", x)])
  have seq : ∀ {ss : List Data} {u w : Data} {s₀ s₁ : Store} {d : Data} {r : Out Data} {s'}, Seq C s.envs.length ss w s₀ (.ok u) s₁ → Evals C d s.envs.length s₁ r s' →
      Seq C s.envs.length (ss ++ [d]) w s₀ r s' := by
    intro ss
    induction ss with
    | nil =>
      intro u w s₀ s₁ d r s' h hd
      cases h
      cases r with
      | ok w => exact .next hd .done
      | err er => exact .stop hd id
      | panic => exact .stop hd id
      | timeout => exact .stop hd id
    | cons a ss ih =>
      intro u w s₀ s₁ d r s' h hd
      cases h with
      | next h1 h2 => exact .next h1 (ih h2 hd)
      | stop h1 h2 => exact absurd trivial h2
  have stop : ∀ {ss : List Data} {w : Data} {s₀ s₁ : Store} {d : Data} {r : Out Data}, (∀ u, r ≠ .ok u) → Seq C s.envs.length ss w s₀ r s₁ → Seq C s.envs.length (ss ++ [d]) w s₀ r s₁ := by
    intro ss
    induction ss with
    | nil => intro w s₀ s₁ d r hr h; cases h; exact absurd rfl (hr _)
    | cons a ss ih =>
      intro w s₀ s₁ d r hr h
      cases h with
      | next h1 h2 => exact .next h1 (ih hr h2)
      | stop h1 h2 => exact .stop h1 h2
  have clause : ∀ {s₁ : Store} {r₀ : Out Data} {s'}, WF s₁ → s₁.localB s.envs.length "it-clause" = some ⟨x, false⟩ → s₁.frameOf s.envs.length = none →
      Means C s₁ s.envs.length "eval" → Evals C x s.envs.length s₁ r₀ s' → Evals C (l [y "eval", y "it-clause"]) s.envs.length s₁ (quoting (l [y "eval", y "it-clause"]) r₀) s' := by
    intro s₁ r₀ s' h1 h2 h3 h4 h5
    have hv : Evals C (y "it-clause") s.envs.length s₁ (.ok x) s₁ := evals_var h1 (.here h2) h3 rfl (by rintro i rfl; cases hf)
    have calling := calling_sym (x := "eval") h1 h4 rfl (t := l [y "it-clause"]) rfl (Samples.lst_l (by simp)) (.next hv .done)
    rw [hel] at calling
    exact (C79_eval calling).mpr ⟨_, rfl, h5⟩
  have hw0 := pushEnv_WF hw hpr none fr.name (selfBind s fr.slot none e ++ [("it-clause", x)])
  have after : ∀ {r : Out Data} {s₁ : Store}, Seq C s.envs.length ss .null (pushEnv s e pr none fr.name (selfBind s fr.slot none e ++ [("it-clause", x)])) r s₁ →
      WF s₁ ∧ s₁.frameOf s.envs.length = none := by
    intro r s₁ h
    obtain ⟨r', h1, h2⟩ := (seq_keeps keeps_grows h).envs _ _ top
    exact ⟨seq_keeps keeps_WF h hw0, noFrame ⟨r', h1, h2.frame.trans hpf⟩⟩
  refine ⟨_, s.envs.length, ⟨Fun.pushEnv_calm .., hw0, Nat.le_refl _, _, selfBind s fr.slot none e, top, rfl, hpf, rfl, ?_⟩, ?_, ?_, ?_, ?_, ?_⟩
  · intro p hp
    simp only [selfBind] at hp
    split at hp
    · rw [List.mem_singleton] at hp
      rw [hp]
    · cases hp
  · intro u s₁ v s' h1 h3 h5 h6
    exact run (seq h1 (clause (after h1).1 h3 (after h1).2 h5 h6))
  · intro u s₁ er s' h1 h3 h5 h6
    exact ⟨_, run (seq h1 (clause (after h1).1 h3 (after h1).2 h5 h6))⟩
  · intro u s₁ s' h1 h3 h5 h6
    exact run (seq h1 (clause (after h1).1 h3 (after h1).2 h5 h6))
  · intro er s₁ h1
    exact ⟨_, run (stop (by simp) h1)⟩
  · intro s₁ h1
    exact run (stop (by simp) h1)

/-- Both together, for tests that return: if what holds after so many tests leads, by the setup and the next test in a new environment below
that of the context, to what is to hold after one more, then the context returns nil and what is to hold after all tests does. -/
theorem C96_all_partial (hl : Loaded C g s) (hs : Sees s g e) (ht : Tells g s c) {lab : String} {su : Data} {ss bs : List Data} (hsu : Setup su ss) (hns : Data.null ∉ ss)
    (hb : bs ≠ []) (hn : Data.null ∉ bs) (hf : ∀ x ∈ bs, isFunc x = false) (hctx : s.localB g "context-name" = some ⟨.str c.context, false⟩)
    (hvi : ∀ b, s.localB g "context-name" = some b → Visible s e "context-name" g b) (hvv : ∀ b, s.localB g "verbose-tests" = some b → Visible s e "verbose-tests" g b)
    {P : Nat → Store → Prop} (hstart : ∀ s₀, Loaded C g s₀ → Sees s₀ g e → Tells g s₀ { c with context := lab } → Only [(g, "context-name")] s s₀ → P 0 s₀)
    (hstep : ∀ m x s₁ s₂ k, bs[m]? = some x → P m s₁ → Fresh s₁ s₂ e k x → ∃ u s₃ v s₄, Seq C k ss .null s₂ (.ok u) s₃ ∧ s₃.localB k "it-clause" = some ⟨x, false⟩ ∧ Means C s₃ k "eval" ∧
      Evals C x k s₃ (.ok v) s₄ ∧ P (m + 1) s₄) :
    ∃ s', Evals C (l (y "context" :: t lab :: su :: bs)) e s (.ok .null) s' ∧ P bs.length s' := by
  obtain ⟨s₀, i, fr, s₂, h1, h2, h3, h4, q, hw, f1, f2, f3, f4, h, -⟩ := C96_context_partial hl hs ht hsu hns hb hn hctx hvi hvv
  have hs2 := Sees.only h2 (only_calm q []) clear0
  have hP : P 0 s₂ := hstart s₂ (Loaded.only h1 (only_calm q []) hw clear0) hs2 (Tells.only h3 (only_calm q []) clear0) (h4.trans (only_calm q _))
  have go : ∀ (xs ys : List Data) (s₁ : Store) (fr : FnRec), bs = ys ++ xs → WF s₁ → (∃ r, s₁.envs[e]? = some r ∧ r.frame = none) → s₁.fns[i]? = some fr → fr.params = l [y "it-clause"] →
      Lst fr.body (ss ++ [l [y "eval", y "it-clause"]]) → fr.env = e → P ys.length s₁ → ∃ vs s', Calls (With C (.atom (.func i)) e) (xs.map ([·])) s₁ (.ok vs) s' ∧ P bs.length s' := by
    intro xs
    induction xs with
    | nil =>
      intro ys s₁ fr hy _ _ _ _ _ _ hP
      rw [List.append_nil] at hy
      exact ⟨[], s₁, .done, hy ▸ hP⟩
    | cons x xs ih =>
      intro ys s₁ fr hy hw he f1 f2 f3 f4 hP
      have hx : x ∈ bs := by rw [hy]; simp
      obtain ⟨s₂, k, hfresh, hc, -⟩ := C96_clause_partial (C := C) (x := x) hw he f1 f2 f3 f4 (fun h => hn (h ▸ hx)) (hf x hx)
      obtain ⟨u, s₃, v, s₄, g1, g2, g3, g4, g5⟩ := hstep ys.length x s₁ s₂ k (by rw [hy]; simp) hP hfresh
      have hgr : ∀ {K : Store → Store → Prop}, Keeps K → K s₂ s₄ := fun hK => hK.trans (seq_keeps hK g1) (runs_keeps hK g4)
      obtain ⟨r, he1, he2⟩ := he
      obtain ⟨r', e1, e2⟩ : ∃ r', s₂.envs[e]? = some r' ∧ r'.frame = none := by
        obtain ⟨L, hL⟩ := hfresh.calm.envs
        exact ⟨r, by rw [hL, List.getElem?_append_left (List.getElem?_eq_some_iff.mp he1).1]; exact he1, he2⟩
      obtain ⟨r'', e3, e4⟩ := (hgr keeps_grows).envs _ _ e1
      obtain ⟨b, f5⟩ := hfresh.calm.fns i fr f1
      obtain ⟨b', f6⟩ := (hgr keeps_grows).fns _ _ f5
      obtain ⟨vs, s', k1, k2⟩ := ih (ys ++ [x]) s₄ _ (by simpa using hy) (hgr keeps_WF hfresh.wf) ⟨r'', e3, e4.frame.trans e2⟩ f6 f2 f3 f4 (by simpa using g5)
      exact ⟨_, s', .next (hc u s₃ v s₄ g1 g2 g3 g4) k1, k2⟩
  obtain ⟨vs, s', k1, k2⟩ := go bs [] s₂ fr rfl hw hs2.env f1 f2 f3 f4 hP
  exact ⟨s', h vs s' k1, k2⟩

set_option maxRecDepth 10000 in
/-- A context with any number of tests, each of one assertion: all assertions are recorded, in a test and a context of the names given. -/
example (labs : List String) (hne : labs ≠ []) : ∃ s' it, Evals Demo.C (l (y "context" :: t "sums" :: .emptyCons :: labs.map fun x => l [y "it", t x, l [y "assert-true", n 5]])) 1 after (.ok .null) s' ∧
    Tells 1 s' ⟨BitVec.ofNat 64 labs.length, 0, .emptyCons, "sums", it⟩ ∧ labs.getLast? = some it := by
  have hv : ∀ p ∈ vars, after.localB 1 p.1 = some ⟨p.2, false⟩ := after_facts.2.2.1
  obtain ⟨s', h1, it, -, -, h2, -, h3⟩ := C96_all_partial (lab := "sums") (su := .emptyCons) (ss := []) (bs := labs.map fun x => l [y "it", t x, l [y "assert-true", n 5]])
    (P := fun m s => ∃ it, Loaded Demo.C 1 s ∧ Sees s 1 1 ∧ Tells 1 s ⟨BitVec.ofNat 64 m, 0, .emptyCons, "sums", it⟩ ∧ s.localB 1 "it-name" = some ⟨t it, false⟩ ∧ (0 < m → labs[m - 1]? = some it))
    after_loaded after_sees after_tells (.inl ⟨rfl, rfl⟩) (by simp) (by simpa using hne) (by simp) (by
      intro x hx
      obtain ⟨_, _, rfl⟩ := List.mem_map.mp hx
      rfl) (hv ("context-name", t "") (by simp [vars])) (fun _ h => .here h) (fun _ h => .here h) (by
      intro s₀ hl hs ht ho
      refine ⟨"", hl, hs, ht, ?_, by simp⟩
      have h := hv ("it-name", t "") (by simp [vars])
      obtain ⟨r, hr⟩ := localB_some h
      rw [ho.vars _ _ (lt_of_some hr) (by simp)]
      exact h) (by
      rintro m x s₁ s₃ k hx ⟨it, hl, hs, ht, hit, -⟩ ⟨q3, hw3, -, r, B, hr, hp, hf, hbi, hB⟩
      rw [List.getElem?_map] at hx
      obtain ⟨lab, hlab, rfl⟩ := Option.map_eq_some_iff.mp hx
      have hl3 := Loaded.only hl (only_calm q3 []) hw3 clear0
      have hs1 := Sees.only hs (only_calm q3 []) clear0
      have ht3 := Tells.only ht (only_calm q3 []) clear0
      have hs3 : Sees s₃ 1 k := Sees.below hs1 hr hp hf hbi (by
        intro p hp
        rw [List.mem_append, List.mem_singleton] at hp
        rcases hp with hp | rfl
        · rw [hB p hp]; decide
        · show "it-clause" ∉ Testing.names
          decide)
      have hpar : s₃.parentOf k = some 1 := by simp [Store.parentOf, hr, hp]
      have up : ∀ {x : String} {b : Binding}, x ≠ "self" → x ≠ "it-clause" → s₃.localB 1 x = some b → Visible s₃ k x 1 b := by
        intro x b h1 h2 h
        refine .up (absent hr hbi fun p hp he => ?_) hpar (.here h)
        rw [List.mem_append, List.mem_singleton] at hp
        rcases hp with hp | rfl
        · exact h1 (he ▸ hB p hp)
        · exact h2 he.symm
      have hit3 : s₃.localB 1 "it-name" = some ⟨t it, false⟩ := by
        obtain ⟨r, hr⟩ := localB_some hit
        rw [(only_calm q3 []).vars _ _ (lt_of_some hr) (by simp)]
        exact hit
      have hcl : s₃.localB k "it-clause" = some ⟨l [y "it", t lab, l [y "assert-true", n 5]], false⟩ := by
        simp only [Store.localB, hr, hbi, alGet_binds]
        simp
      obtain ⟨s₄, hl4, hs4, ht4, o4, h4, -⟩ := C95_it_partial (lab := lab) (bs := [l [y "assert-true", n 5]]) hl3 hs3 ht3 (by simp) (by simp) hit3
        (fun _ h => up (by simp) (by simp) h) (fun _ h => up (by simp) (by simp) h)
      obtain ⟨c', xs, s₅, s', -, h5, h6, hl6, -, h7, o6⟩ := C94_value_partial (k := assertTrue) (x := n 5) (v := n 5) (by simp [checks]) hl4 hs4 ht4 (by simp) rfl (fun _ _ _ => evals_lit nofun) nofun
      cases h5 with
      | failure h => exact absurd (show Truthy (n 5) by rw [← boolValue_iff]; decide) h
      | pass _ =>
        have ev := h4 _ _ (.next h6 .done)
        refine ⟨_, s₃, _, s', .done, hcl, hs3.means hl3 (by simp [words]), ev, lab, hl6, sees_self hl6, ?_, ?_, fun _ => hlab⟩
        · simpa [passed, BitVec.ofNat_add] using h7
        · obtain ⟨b, hb⟩ := h7.it
          obtain ⟨r, hr1⟩ := localB_some hit3
          obtain ⟨r', hr2, hle⟩ := (runs_keeps keeps_grows ev).envs _ _ hr1
          obtain ⟨b', hb1, hb2⟩ := hle.binds "it-name" ⟨t it, false⟩ (by simpa [Store.localB, hr1] using hit3)
          have : s'.localB 1 "it-name" = some b' := by simpa [Store.localB, hr2] using hb1
          rw [this] at hb
          cases hb
          rw [this]
          exact congrArg (fun b => some (⟨t lab, b⟩ : Binding)) hb2)
  have hpos : 0 < labs.length := List.length_pos_iff.mpr hne
  rw [List.length_map] at h2 h3
  exact ⟨s', it, h1, h2, by rw [List.getLast?_eq_getElem?]; exact h3 hpos⟩

/-- The setup is run anew for each test: what it defines is not what the test before has left. -/
example : Reaches "(context \"sums\" ((define c 0)) (it \"one\" (set! c (+ c 1)) (assert-eq c 1)) (it \"two\" (set! c (+ c 1)) (assert-eq c 1)))" "number-of-passes" (n 2) :=
  reaches 60 (by decide +kernel)

/-- A label that is a symbol passes the check, but then it is evaluated: the context gets the value of the variable as its name. -/
theorem C96_label_violation : Reaches "(context addition () (it \"adds\" (assert-true 1)))" "context-name" .emptyCons ∧
    Reaches "(begin (define addition 5) (context addition () (it \"adds\" (assert-true 1))))" "context-name" (n 5) := ⟨reaches 60 (by decide +kernel), reaches 60 (by decide +kernel)⟩

/-- A variable named `it-clause` that a test uses is not the one outside: it is the test itself. -/
theorem C96_capture_violation : Reaches "(let ((it-clause 1)) (context \"sums\" () (it \"one\" (assert-eq it-clause 1))))" "number-of-passes" (n 0) ∧
    Reaches "(let ((clause 1)) (context \"sums\" () (it \"one\" (assert-eq clause 1))))" "number-of-passes" (n 1) := ⟨reaches 60 (by decide +kernel), reaches 60 (by decide +kernel)⟩

end Golisp.Props
