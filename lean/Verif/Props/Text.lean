import Verif.Text
import Verif.Props.Crash
import Verif.Props.Grammar
/- C72: evaluating a text evaluates its forms. -/
namespace Golisp.Spec
open Golisp Data Ev

/-- Evaluating the text `t`, in environment `e` from state `s`, has outcome `r` and leaves state `s'`. -/
def EvalsText (C : Conf) (R : Reader.Host) (t : List Char) (e : Nat) (s : Store) (r : Out Data) (s' : Store) : Prop :=
  RunsP (body C) (evalText R t e) s r s'

/-- The forms before the first `()`. -/
def beforeNil (ds : List Data) : List Data := ds.takeWhile fun d => !isNil d

end Golisp.Spec

namespace Golisp.Props
open Golisp Data Ev Spec

variable {C : Conf} {R : Reader.Host} {e : Nat} {s s' : Store} {r : Out Data}

private def syntaxError (C : Conf) (e : Nat) (ds : List Data) (res : Data) (s : Store) (r : Out Data) (s' : Store) : Prop :=
  Then (Seq C e ds res s) (fun _ s₁ r s' => r = .err (.msg "syntax error") ∧ s' = s₁) r s'

private theorem seq_cons {d : Data} {ds : List Data} {res : Data} : Seq C e (d :: ds) res s r s' ↔
    (∃ v s₁, Evals C d e s (.ok v) s₁ ∧ Seq C e ds v s₁ r s') ∨ (Evals C d e s r s' ∧ ¬ Ok r) := by
  constructor
  · intro h
    cases h with
    | next h1 h2 => exact Or.inl ⟨_, _, h1, h2⟩
    | stop h1 h2 => exact Or.inr ⟨h1, h2⟩
  · rintro (⟨v, s₁, h1, h2⟩ | ⟨h1, h2⟩)
    · exact .next h1 h2
    · exact .stop h1 h2

private theorem syntax_cons {d : Data} {ds : List Data} {res : Data} : syntaxError C e (d :: ds) res s r s' ↔
    (∃ v s₁, Evals C d e s (.ok v) s₁ ∧ syntaxError C e ds v s₁ r s') ∨ (Evals C d e s r s' ∧ ¬ Ok r) := by
  unfold syntaxError Then
  simp only [seq_cons]
  constructor
  · rintro (⟨v, s₁, ⟨w, s₂, h1, h2⟩ | ⟨_, h⟩, h3⟩ | ⟨⟨w, s₂, h1, h2⟩ | h, h3⟩)
    · exact Or.inl ⟨w, s₂, h1, Or.inl ⟨v, s₁, h2, h3⟩⟩
    · exact absurd trivial h
    · exact Or.inl ⟨w, s₂, h1, Or.inr ⟨h2, h3⟩⟩
    · exact Or.inr h
  · rintro (⟨w, s₂, h1, ⟨v, s₁, h2, h3⟩ | ⟨h2, h3⟩⟩ | h)
    · exact Or.inl ⟨v, s₁, Or.inl ⟨w, s₂, h1, h2⟩, h3⟩
    · exact Or.inr ⟨Or.inl ⟨w, s₂, h1, h2⟩, h3⟩
    · exact Or.inr ⟨Or.inr h, h.2⟩

private theorem eval_then {d : Data} {f : Data → Prog Data} : RunsP (body C) (Prog.eval d e >>= f) s r s' ↔
    (∃ v s₁, Evals C d e s (.ok v) s₁ ∧ RunsP (body C) (f v) s₁ r s') ∨ (Evals C d e s r s' ∧ ¬ Ok r) := runsP_eval_then

/-- The loop, over the forms that are read. -/
private theorem textN (n : Nat) : ∀ (ts : List Reader.Tok) (res : Data) (s : Store) (r : Out Data) (s' : Store) (ds : List Data) (b : Bool),
    Reader.parseAllN R n ts = (ds, b) → (RunsP (body C) (evalTextN R e n ts res) s r s' ↔
      if (b && !ds.any isNil) = true then syntaxError C e (beforeNil ds) res s r s' else Seq C e (beforeNil ds) res s r s') := by
  have hf : ∀ res s r s', syntaxError C e [] res s r s' ↔ r = .err (.msg "syntax error") ∧ s' = s := by
    intro res s r s'
    unfold syntaxError Then
    constructor
    · rintro (⟨v, s₁, h1, h2⟩ | ⟨h1, h2⟩)
      · cases h1; exact h2
      · cases h1; exact absurd trivial h2
    · rintro h
      exact Or.inl ⟨res, s, .done, h⟩
  have hd : ∀ res s r s', Seq C e [] res s r s' ↔ r = .ok res ∧ s' = s := by
    intro res s r s'
    constructor
    · intro h; cases h; exact ⟨rfl, rfl⟩
    · rintro ⟨rfl, rfl⟩; exact .done
  induction n with
  | zero =>
    intro ts res s r s' ds b h
    cases h
    rw [evalTextN, runsP_fail]
    simp only [List.any_nil, Bool.not_false, Bool.and_self, if_true, beforeNil, List.takeWhile_nil]
    exact (hf ..).symm
  | succ n ih =>
    intro ts res s r s' ds b h
    unfold Reader.parseAllN at h
    unfold evalTextN
    split at h
    · rename_i d rest hp
      cases h
      simp only [hp]
      cases hn : isNil d with
      | true =>
        simp only [if_true, List.any_cons, hn, Bool.true_or, Bool.not_true, Bool.and_false, Bool.false_eq_true, if_false, beforeNil,
          List.takeWhile_cons]
        rw [runsP_pure]
        exact (hd ..).symm
      | false =>
        have hb : beforeNil (d :: (Reader.parseAllN R n rest).1) = d :: beforeNil (Reader.parseAllN R n rest).1 := by
          simp [beforeNil, hn]
        simp only [Bool.false_eq_true, if_false, List.any_cons, hn, Bool.false_or, hb]
        rw [eval_then]
        simp only [ih rest _ _ _ _ _ _ rfl]
        split
        · exact syntax_cons.symm
        · exact seq_cons.symm
    · rename_i hp
      cases h
      simp only [hp, Bool.false_and, Bool.false_eq_true, if_false, beforeNil, List.takeWhile_nil]
      rw [runsP_pure]
      exact (hd ..).symm
    · rename_i hp
      cases h
      simp only [hp, List.any_nil, Bool.not_false, Bool.and_self, if_true, beforeNil, List.takeWhile_nil]
      rw [runsP_fail]
      exact (hf ..).symm
    · rename_i hp
      cases h
      simp only [hp, List.any_nil, Bool.not_false, Bool.and_self, if_true, beforeNil, List.takeWhile_nil]
      rw [runsP_fail]
      exact (hf ..).symm

private theorem before_all {ds : List Data} (h : ∀ d ∈ ds, isNil d = false) : beforeNil ds = ds ∧ ds.any isNil = false := by
  constructor
  · unfold beforeNil
    induction ds with
    | nil => rfl
    | cons d ds ih =>
      rw [List.takeWhile_cons, h d List.mem_cons_self]
      simp [ih fun d hd => h d (List.mem_cons_of_mem _ hd)]
  · rw [List.any_eq_false]
    intro d hd
    simp [h d hd]

/-- Full statement: evaluating a well-formed text evaluates its forms in order; the value is that of the last one and the
first that fails ends it.  Missing: texts with a form `()` at top level (`C72_nil`). -/
theorem C72_text_partial {t : List Char} {ds : List Data} (ht : Items R t ds) (hn : ∀ d ∈ ds, isNil d = false) :
    EvalsText C R t e s r s' ↔ Seq C e ds .null s r s' := by
  obtain ⟨h1, h2⟩ := before_all hn
  have := textN (C := C) (e := e) _ (Reader.lex R t) .null s r s' ds false (C65_items R t ds ht)
  rw [h1] at this
  exact this

/-- The same for a text that is known to be read as the forms `ds`. -/
theorem C72_parsed {t : List Char} {ds : List Data} (ht : Reader.parseAll R t = (ds, false)) (hn : ∀ d ∈ ds, isNil d = false) :
    EvalsText C R t e s r s' ↔ Seq C e ds .null s r s' := by
  obtain ⟨h1, h2⟩ := before_all hn
  have := textN (C := C) (e := e) _ (Reader.lex R t) .null s r s' ds false ht
  rw [h1] at this
  exact this

/-- A syntax error is reported when it is reached: the forms before it have been evaluated. -/
theorem C72_syntax_partial {t : List Char} {ds : List Data} (ht : BrokenItems R t ds) (hn : ∀ d ∈ ds, isNil d = false) :
    EvalsText C R t e s r s' ↔
      Then (Seq C e ds .null s) (fun _ s₁ r s' => r = .err (.msg "syntax error") ∧ s' = s₁) r s' := by
  obtain ⟨h1, h2⟩ := before_all hn
  have := textN (C := C) (e := e) _ (Reader.lex R t) .null s r s' ds true (C65_broken_items R t ds ht)
  rw [h1, h2] at this
  exact this

/-- A form `()` at top level silently ends the evaluation: what comes after it is not evaluated. -/
theorem C72_nil {t : List Char} {ds : List Data} (ht : Items R t ds) : EvalsText C R t e s r s' ↔ Seq C e (beforeNil ds) .null s r s' := by
  have := textN (C := C) (e := e) _ (Reader.lex R t) .null s r s' ds false (C65_items R t ds ht)
  simpa [EvalsText, evalText] using this

/-- Nor is a syntax error after it reported. -/
theorem C72_nil_syntax {t : List Char} {ds : List Data} (ht : BrokenItems R t ds) {d : Data} (hd : d ∈ ds) (hn : isNil d = true) :
    EvalsText C R t e s r s' ↔ Seq C e (beforeNil ds) .null s r s' := by
  have := textN (C := C) (e := e) _ (Reader.lex R t) .null s r s' ds true (C65_broken_items R t ds ht)
  rw [show ds.any isNil = true from List.any_eq_true.mpr ⟨d, hd, hn⟩] at this
  simpa [EvalsText, evalText] using this

/-- The form that evaluates only the first form of the text. -/
theorem C72_first {t : List Char} {d : Data} {ds : List Data} (ht : Items R t (d :: ds)) (hn : isNil d = false) :
    RunsP (body C) (evalFirst R t e) s r s' ↔ Evals C d e s r s' := by
  have h := C65_items R t (d :: ds) ht
  have hp : Reader.parse R t = some d := by
    unfold Reader.parseAll at h
    unfold Reader.parse
    dsimp only at h
    unfold Reader.parseAllN at h
    split at h
    · rename_i hp
      rw [hp, (List.cons.inj (Prod.mk.inj h).1).1]
    all_goals cases h
  unfold evalFirst
  rw [hp]
  simp only [hn, Bool.false_eq_true, if_false]
  exact runsP_eval

/-- Evaluating a text crashes only for the causes of C71. -/
theorem C72_crash {H : Ev.Host} (hord : Reorders H.ord) {t : List Char} {s₀ : Store} (h₀ : Sound (std H) s₀) (hs : Session (std H) s₀ s)
    (he : EnvOk s e) (hr : EvalsText (std H) R t e s .panic s') :
    ¬ ParentsOk s'.frames ∨ ∃ d ∈ (Reader.parseAll R t).1, ∃ s₁ c₂ s₂, Session (std H) s₀ s₁ ∧
      Within (body (std H)) (fun _ _ _ => False) (.eval false d e) s₁ c₂ s₂ ∧ Crashing (std H) c₂ s₂ := by
  have hseq : Seq (std H) e (beforeNil (Reader.parseAll R t).1) .null s .panic s' := by
    have := (textN (C := std H) (e := e) _ (Reader.lex R t) .null s .panic s' _ _ rfl).mp hr
    split at this
    · rcases this with ⟨_, _, _, h, _⟩ | ⟨h, _⟩
      · cases h
      · exact h
    · exact this
  have hl : ∀ d ∈ (Reader.parseAll R t).1, ∀ s, Live (std H) s d := by
    intro d hd s
    have hn : ∃ n ts, d ∈ (Reader.parseAllN R n ts).1 := ⟨_, _, hd⟩
    obtain ⟨n, ts, hd⟩ := hn
    induction n generalizing ts with
    | zero => cases hd
    | succ n ih =>
      unfold Reader.parseAllN at hd
      split at hd
      · rename_i hp
        rcases List.mem_cons.mp hd with rfl | hd
        · exact Reader.live_parseExpr R hp
        · exact ih _ hd
      all_goals cases hd
  have hsub : ∀ d ∈ beforeNil (Reader.parseAll R t).1, d ∈ (Reader.parseAll R t).1 := fun d hd => (List.takeWhile_sublist _).subset hd
  generalize beforeNil (Reader.parseAll R t).1 = ds at hseq hsub
  clear hr
  generalize hrp : Out.panic = r at hseq
  generalize Data.null = u₀ at hseq
  induction hseq with
  | done => cases hrp
  | @next d ds u v s s₁ r s' h1 h2 ih =>
    subst hrp
    have hd := hl d (hsub d List.mem_cons_self) s
    have hE := (C71_references hord (C71_session hord h₀ hs) (c := .eval false d e) ⟨hd, he⟩ h1 nofun).2.1
    exact ih (.value (c := .eval false d e) hs ⟨hd, he⟩ h1) (EnvOk.mono hE he) (fun d hd => hsub d (List.mem_cons_of_mem _ hd)) rfl
  | @stop d ds u s r s' h1 h2 =>
    subst hrp
    have hd := hl d (hsub d List.mem_cons_self) s
    rcases C71_crash hord (C71_session hord h₀ hs) (c := .eval false d e) ⟨hd, he⟩ h1 with h | ⟨c₂, s₂, h3, h4⟩
    · exact Or.inl h
    · exact Or.inr ⟨d, hsub d List.mem_cons_self, s, c₂, s₂, hs, h3, h4⟩

section
open Demo
private theorem text_run {n : Nat} {t : List Char} {q : Store → Prop} (h : (interp (recN (body Demo.C) n) (evalText asciiHost t 1) Demo.s).1 = r)
    (hr : r ≠ .timeout) (hq : q (interp (recN (body Demo.C) n) (evalText asciiHost t 1) Demo.s).2) :
    ∃ s', EvalsText Demo.C asciiHost t 1 Demo.s r s' ∧ q s' := ⟨_, ⟨n, Prod.ext h rfl, hr⟩, hq⟩

private theorem form_fx : Form asciiHost "(f x)".toList (listOf [.sym "f", .sym "x"]) := by
  have sp : Blank asciiHost [' '] := .space _ _ (by decide) .nil
  have ff : Form asciiHost "f".toList (.sym "f") := .symbol ⟨'f', [], by decide, by decide, by decide, by simp, by decide⟩
  have fx : Form asciiHost "x".toList (.sym "x") := .symbol ⟨'x', [], by decide, by decide, by decide, by simp, by decide⟩
  have i2 : Items asciiHost " x".toList [.sym "x"] := .cons (w := [' ']) (t := ['x']) (u := []) sp fx (Reader.stop_nil _) (.nil .nil)
  exact .list (.cons (w := []) (t := ['f']) (u := " x".toList) .nil ff (Reader.stop_space _ _) i2)

/-- `(f x) () x`. -/
private theorem items_nil : Items asciiHost "(f x) () x".toList [listOf [.sym "f", .sym "x"], emptyCons, .sym "x"] := by
  have sp : Blank asciiHost [' '] := .space _ _ (by decide) .nil
  have fx : Form asciiHost "x".toList (.sym "x") := .symbol ⟨'x', [], by decide, by decide, by decide, by simp, by decide⟩
  have i2 : Items asciiHost " x".toList [.sym "x"] := .cons (w := [' ']) (t := ['x']) (u := []) sp fx (Reader.stop_nil _) (.nil .nil)
  have hn : Form asciiHost "()".toList emptyCons := .list (t := []) (ds := []) (.nil .nil)
  have i3 : Items asciiHost " () x".toList [emptyCons, .sym "x"] :=
    .cons (w := [' ']) (t := "()".toList) (u := " x".toList) sp hn (Reader.stop_space _ _) i2
  exact .cons (w := []) (t := "(f x)".toList) (u := " () x".toList) .nil form_fx (Reader.stop_space _ _) i3

/-- The forms after `()` are not evaluated. -/
theorem C72_nil_violation : ∃ s', EvalsText Demo.C asciiHost "(define x 1) () (define x 2)".toList 1 Demo.s (.ok (.int 1)) s' ∧
    s'.localB 1 "x" = some ⟨.int 1, false⟩ :=
  text_run (n := 10) (q := fun s' => s'.localB 1 "x" = some ⟨.int 1, false⟩) (by decide +kernel) nofun (by decide +kernel)

example : beforeNil [listOf [.sym "f", .sym "x"], emptyCons, .sym "x"] = [listOf [.sym "f", .sym "x"]] := by decide
example : ∃ ds, Items asciiHost "(f x) () x".toList ds ∧ ∃ d ∈ ds, isNil d = true := ⟨_, items_nil, emptyCons, by simp, rfl⟩
/-! `(f x)` alone, and with a stray bracket after it. -/
example : Items asciiHost "(f x)".toList [listOf [.sym "f", .sym "x"]] ∧ isNil (listOf [.sym "f", .sym "x"]) = false :=
  ⟨.cons (w := []) (t := "(f x)".toList) (u := []) .nil form_fx (Reader.stop_nil _) (.nil .nil), rfl⟩
example : BrokenItems asciiHost "(f x) #q".toList [listOf [.sym "f", .sym "x"]] :=
  .later (w := []) (t := "(f x)".toList) (u := " #q".toList) .nil form_fx (Reader.stop_space _ _)
    (.here (w := [' ']) (t := "#q".toList) (.space _ _ (by decide) .nil) (.hash (by intro c hc; simp at hc; subst hc; decide)))
/-! Definitions before a syntax error stay; so does what a failing form did before it failed. -/
example : ∃ s', EvalsText Demo.C asciiHost "(define x 1) (define y (+ x 1)) (+ x y) ; done".toList 1 Demo.s (.ok (.int 3)) s' ∧
    s'.localB 1 "y" = some ⟨.int 2, false⟩ :=
  text_run (n := 10) (q := fun s' => s'.localB 1 "y" = some ⟨.int 2, false⟩) (by decide +kernel) nofun (by decide +kernel)
example : ∃ s', EvalsText Demo.C asciiHost "(define x 1) (define y 2".toList 1 Demo.s (.err (.msg "syntax error")) s' ∧
    s'.localB 1 "x" = some ⟨.int 1, false⟩ :=
  text_run (n := 10) (q := fun s' => s'.localB 1 "x" = some ⟨.int 1, false⟩) (by decide +kernel) nofun (by decide +kernel)
example : ∃ s', EvalsText Demo.C asciiHost "(define x 1) (% x 0) (define x 2)".toList 1 Demo.s .panic s' ∧
    s'.localB 1 "x" = some ⟨.int 1, false⟩ :=
  text_run (n := 10) (q := fun s' => s'.localB 1 "x" = some ⟨.int 1, false⟩) (by decide +kernel) nofun (by decide +kernel)
end

end Golisp.Props
