import Verif.Props.Utilities
import Verif.Props.Texts
import Verif.Props.Format
import Verif.FormatCall
/- C85: output to standard output and `format`, called from Lisp code. -/
namespace Golisp.Spec
open Golisp Data Ev Str Fmt

/-- Evaluating `d` writes the text `t` to standard output after evaluating the arguments (state `s₁`), does nothing else and
answers nil. -/
def Says (C : Conf) (d : Data) (e : Nat) (s s₁ : Store) (t : String) : Prop :=
  Returns C d e s .null { s₁ with stdout := s₁.stdout ++ [t] }

/-- What `format` is to know of a value: its text as displayed and as written, and its value if it is an integer. -/
inductive FormatArg (H : Host) (s : Store) : Data → Arg → Prop where
  | int {i : BitVec 64} : FormatArg H s (.int i) ⟨text (H.show s (.int i)).toList, text (H.show s (.int i)).toList, some i.toInt⟩
  | str {t : String} : FormatArg H s (.str t) ⟨text t.toList, text (H.show s (.str t)).toList, none⟩
  | other {v : Data} : (∀ i, v ≠ .int i) → (∀ t, v ≠ .str t) → FormatArg H s v ⟨text (H.show s v).toList, text (H.show s v).toList, none⟩

inductive FormatArgs (H : Host) (s : Store) : List Data → List Arg → Prop where
  | nil : FormatArgs H s [] []
  | cons {v vs a as} : FormatArg H s v a → FormatArgs H s vs as → FormatArgs H s (v :: vs) (a :: as)

/-- The text goes to standard output for `#t` and is the value of the call for `#f`. -/
def Delivers (C : Conf) (to : Bool) (d : Data) (e : Nat) (s s₁ : Store) (t : String) : Prop :=
  (to = true → Says C d e s s₁ t) ∧ (to = false → Returns C d e s (.str t) s₁)

end Golisp.Spec

namespace Golisp.Props
open Golisp Data Ev Spec Str Fmt

variable {C : Conf} {e : Nat} {s s₁ : Store} {d : Data}

set_option maxRecDepth 20000

/-! ### Writing -/

private theorem runs_print {t : String} {r : Out Data} {u : Store} :
    RunsP (body C) (do let _ ← Prog.op (.print t); pure .null) s₁ r u ↔ r = .ok .null ∧ u = { s₁ with stdout := s₁.stdout ++ [t] } := by
  rw [runsP_op_bind (n := 0) rfl]
  exact runsP_pure

private theorem isPort_false {p : Data} (h : ∀ i, p ≠ .atom (.port i)) : isPort p = false := by
  cases p with
  | atom a => cases a <;> first | rfl | exact absurd rfl (h _)
  | _ => rfl

/-- `(write-string t)` writes the characters of the string. -/
theorem C85_write_string {t : String} (h : Calling C "write-string" [.str t] d e s s₁) : Says C d e s s₁ t := by
  obtain ⟨args, hl, hiff⟩ := calling_iff h (spec := "1|2".toList) (impl := writeStringImpl) rfl rfl
  refine returns_of hiff fun r u => ?_
  simp only [writeStringImpl, writeTo, car_args hl, hl.length, isStr, stringValue, Bool.not_true, Bool.false_eq_true, if_false]
  exact runs_print

/-- `(write x)` writes the value as it prints. -/
theorem C85_write {v : Data} (h : Calling C "write" [v] d e s s₁) : Says C d e s s₁ (C.host.show s₁ v) := by
  obtain ⟨args, hl, hiff⟩ := calling_iff h (spec := "1|2".toList) (impl := writeImpl C.host) rfl rfl
  refine returns_of hiff fun r u => ?_
  simp only [writeImpl, runsP_get, writeTo, car_args hl, hl.length]
  exact runs_print

/-- `(newline)` writes a line end. -/
theorem C85_newline (h : Calling C "newline" [] d e s s₁) : Says C d e s s₁ "\n" := by
  obtain ⟨args, hl, hiff⟩ := calling_iff h (spec := "0|1".toList) (impl := newlineImpl) rfl (by decide)
  refine returns_of hiff fun r u => ?_
  simp only [newlineImpl, writeTo, hl.length]
  exact runs_print

/-- A value that is not a string, or a destination that is not a port, is refused and nothing is written. -/
theorem C85_write_refused {x : String} {vs : List Data} (h : Calling C x vs d e s s₁)
    (hx : (x = "write-string" ∧ ∃ v, (vs = [v] ∨ ∃ p, vs = [v, p]) ∧ ∀ t, v ≠ .str t) ∨
      ((x = "write-string" ∨ x = "write") ∧ ∃ v p, vs = [v, p] ∧ ∀ i, p ≠ .atom (.port i)) ∨
      (x = "newline" ∧ ∃ p, vs = [p] ∧ ∀ i, p ≠ .atom (.port i))) : Refuses C d e s s₁ := by
  have notstr : ∀ {v : Data}, (∀ t, v ≠ .str t) → isStr v = false := by
    intro v hv
    cases v with
    | atom a => cases a <;> first | rfl | exact absurd rfl (hv _)
    | _ => rfl
  rcases hx with ⟨rfl, v, hvs, hv⟩ | ⟨hx, v, p, rfl, hp⟩ | ⟨rfl, p, rfl, hp⟩
  · have hc : Arity.checkArgumentCount (Arity.parseNumArgs "1|2".toList) vs.length = true := by
      rcases hvs with rfl | ⟨p, rfl⟩ <;> rfl
    obtain ⟨args, hl, hiff⟩ := calling_iff h (spec := "1|2".toList) (impl := writeStringImpl) rfl hc
    refine refuses_of hiff (m := "write-string expects its first argument to be a string") fun r u => ?_
    have hcar : car args = v := by rcases hvs with rfl | ⟨p, rfl⟩ <;> exact car_args hl
    simp only [writeStringImpl, hcar, notstr hv, Bool.not_false, if_true]
    exact runsP_fail
  · rcases hx with rfl | rfl
    · obtain ⟨args, hl, hiff⟩ := calling_iff h (spec := "1|2".toList) (impl := writeStringImpl) rfl rfl
      by_cases hv : isStr v = true
      · refine refuses_of hiff (m := "write-string expects its second argument be a port") fun r u => ?_
        simp only [writeStringImpl, writeTo, car_args hl, cadr_args hl, hl.length, hv, isPort_false hp, Bool.not_true, Bool.false_eq_true, if_false]
        exact runsP_fail
      · refine refuses_of hiff (m := "write-string expects its first argument to be a string") fun r u => ?_
        simp only [writeStringImpl, car_args hl, hv, Bool.not_false, if_true]
        exact runsP_fail
    · obtain ⟨args, hl, hiff⟩ := calling_iff h (spec := "1|2".toList) (impl := writeImpl C.host) rfl rfl
      refine refuses_of hiff (m := "write expects its second argument be a port") fun r u => ?_
      simp only [writeImpl, runsP_get, writeTo, car_args hl, cadr_args hl, hl.length, isPort_false hp, Bool.false_eq_true, if_false]
      exact runsP_fail
  · obtain ⟨args, hl, hiff⟩ := calling_iff h (spec := "0|1".toList) (impl := newlineImpl) rfl rfl
    refine refuses_of hiff (m := "newline expects its argument be a port") fun r u => ?_
    simp only [newlineImpl, writeTo, car_args hl, hl.length, isPort_false hp, Bool.false_eq_true, if_false]
    exact runsP_fail

/-- What has been written stays written, whatever the program does and however it ends. -/
theorem C85_kept {r : Out Data} (h : Evals C d e s r s₁) : s.stdout <+: s₁.stdout ∧ s.out <+: s₁.out := by
  refine runs_keeps (K := fun s s' => s.stdout <+: s'.stdout ∧ s.out <+: s'.out)
    ⟨fun _ => ⟨List.prefix_refl _, List.prefix_refl _⟩, fun h h' => ⟨h.1.trans h'.1, h.2.trans h'.2⟩, fun o s => ?_⟩ h
  have put : ∀ e x v, (s.putVal e x v).stdout = s.stdout ∧ (s.putVal e x v).out = s.out := by
    intro e x v
    unfold Store.putVal
    split <;> exact ⟨rfl, rfl⟩
  cases o <;> simp only [Op.run] <;> (repeat' split) <;>
    first
    | exact ⟨List.prefix_refl _, List.prefix_refl _⟩
    | exact ⟨List.prefix_append _ _, List.prefix_refl _⟩
    | exact ⟨List.prefix_refl _, List.prefix_append _ _⟩
    | (rw [(put _ _ _).1, (put _ _ _).2]; exact ⟨List.prefix_refl _, List.prefix_refl _⟩)

/-! ### format -/

private theorem show_arg {H : Host} {v : Data} {a : Arg} (h : FormatArg H s v a) : a = fmtArg H s v := by
  cases h with
  | int => rfl
  | str => rfl
  | other h1 h2 =>
    have hs : isStr v = false := by
      cases v with
      | atom a => cases a <;> first | rfl | exact absurd rfl (h2 _)
      | _ => rfl
    cases v with
    | atom a => cases a <;> first | rfl | exact absurd rfl (h1 _) | exact absurd rfl (h2 _)
    | _ => rfl

private theorem show_args {H : Host} {vs : List Data} {as : List Arg} (h : FormatArgs H s vs as) : as = vs.map (fmtArg H s) := by
  induction h with
  | nil => rfl
  | cons h _ ih => rw [ih, show_arg h]; rfl

/-- Every value can be given to `format`. -/
theorem C85_format_args (H : Host) (s : Store) : ∀ vs : List Data, ∃ as, FormatArgs H s vs as
  | [] => ⟨_, .nil⟩
  | v :: vs => by
    obtain ⟨as, h⟩ := C85_format_args H s vs
    by_cases h1 : ∃ i, v = .int i
    · obtain ⟨i, rfl⟩ := h1; exact ⟨_, .cons .int h⟩
    · by_cases h2 : ∃ t, v = .str t
      · obtain ⟨t, rfl⟩ := h2; exact ⟨_, .cons .str h⟩
      · exact ⟨_, .cons (.other (fun i hi => h1 ⟨i, hi⟩) fun t ht => h2 ⟨t, ht⟩) h⟩

private theorem format_calling {to : Bool} {ctl : String} {vs : List Data} (h : Calling C "format" (.bool to :: .str ctl :: vs) d e s s₁) :
    ∀ r t, Evals C d e s r t ↔ ∃ r₀, r = quoting d r₀ ∧ RunsP (body C)
      (match Fmt.format (text ctl.toList) (vs.map (fmtArg C.host s₁)) with
        | .ok t => if to = true then (do let _ ← Prog.op (.print (stringValue (ofBytes t))); pure .null) else pure (ofBytes t)
        | .err => .fail "format"
        | .panic => .panic) s₁ r₀ t := by
  obtain ⟨args, hl, hiff⟩ := calling_iff h (spec := ">=2".toList) (impl := formatImpl C.host) rfl (count_ge2 (List.cons_ne_nil _ _))
  intro r t
  rw [hiff]
  have h2 : toArray (cdr (cdr args)) = vs := (cdr_Lst (cdr_Lst hl)).toArray
  have h3 : (Data.bool to).isBool = true := rfl
  have h4 : isPort (Data.bool to) = false := rfl
  have h5 : boolValue (Data.bool to) = to := by cases to <;> rfl
  simp only [formatImpl, car_args hl, cadr_args hl, h2, h3, h4, h5, Bool.not_true, Bool.false_and, Bool.false_eq_true, if_false, runsP_get]
  rfl

/-- `format` with a control string made of the pieces `ps`: the text that the pieces stand for, every piece after one with
the `@` modifier taken as having it. -/
theorem C85_format {to : Bool} {ctl t : String} {vs : List Data} {ps : List Ctl} {as : List Arg}
    (h : Calling C "format" (.bool to :: .str ctl :: vs) d e s s₁) (hp : Spelled ps (text ctl.toList)) (ha : FormatArgs C.host s₁ vs as)
    (hr : Renders (sticky false ps) as (text t.toList) []) : Delivers C to d e s s₁ t := by
  have hf : Fmt.format (text ctl.toList) (vs.map (fmtArg C.host s₁)) = .ok (text t.toList) := by
    rw [← show_args ha]; exact C73_sticky hp hr
  have hiff := format_calling h
  rw [hf] at hiff
  have hb : ofBytes (text t.toList) = .str t := by rw [ofBytes_text]; simp [T]
  simp only [hb, stringValue] at hiff
  constructor
  · rintro rfl
    refine returns_of hiff fun r u => ?_
    exact runs_print
  · rintro rfl
    refine returns_of hiff fun r u => ?_
    exact runsP_pure

/-- The text that the pieces stand for.  Partial: only if the `@` modifier is not followed by pieces without it for which it
matters (`C73_modifier_violation`). -/
theorem C85_format_partial {to : Bool} {ctl t : String} {vs : List Data} {ps : List Ctl} {as : List Arg}
    (h : Calling C "format" (.bool to :: .str ctl :: vs) d e s s₁) (hp : Spelled ps (text ctl.toList)) (ha : FormatArgs C.host s₁ vs as)
    (hr : Renders ps as (text t.toList) []) (hm : MarksLast ps) : Delivers C to d e s s₁ t :=
  C85_format h hp ha (renders_sticky hr hm (by simp))

private theorem format_refuses {to : Bool} {ctl : String} {vs : List Data} {as : List Arg}
    (h : Calling C "format" (.bool to :: .str ctl :: vs) d e s s₁) (ha : FormatArgs C.host s₁ vs as)
    (hf : Fmt.format (text ctl.toList) as = .err) : Refuses C d e s s₁ := by
  rw [show_args ha] at hf
  have hiff := format_calling h
  rw [hf] at hiff
  exact refuses_of hiff (m := "format") fun r u => runsP_fail

/-- Too many arguments are an error, and nothing is written. -/
theorem C85_format_surplus {to : Bool} {ctl : String} {vs : List Data} {ps : List Ctl} {as : List Arg} {o : GoStr} {x : Arg} {r : List Arg}
    (h : Calling C "format" (.bool to :: .str ctl :: vs) d e s s₁) (hp : Spelled ps (text ctl.toList)) (ha : FormatArgs C.host s₁ vs as)
    (hr : Renders ps as o (x :: r)) (hm : MarksLast ps) : Refuses C d e s s₁ :=
  format_refuses h ha (C73_surplus hp hr hm)

/-- A directive that does not exist, or whose number is out of range, is an error, and nothing is written. -/
theorem C85_format_unsupported {to : Bool} {ctl : String} {vs : List Data} {ps : List Ctl} {t u : GoStr}
    (h : Calling C "format" (.bool to :: .str ctl :: vs) d e s s₁) (hc : text ctl.toList = t ++ u) (hp : Spelled ps t) (hu : Unsupported u) :
    Refuses C d e s s₁ := by
  obtain ⟨as, ha⟩ := C85_format_args C.host s₁ vs
  exact format_refuses h ha (by rw [hc]; exact C73_unsupported hp hu as)

/-- A destination that is neither a boolean nor a port, or a control string that is not a string, is an error. -/
theorem C85_format_refused {to ctl : Data} {vs : List Data} (h : Calling C "format" (to :: ctl :: vs) d e s s₁)
    (hb : ((∀ b, to ≠ .bool b) ∧ ∀ i, to ≠ .atom (.port i)) ∨ ∀ t, ctl ≠ .str t) : Refuses C d e s s₁ := by
  obtain ⟨args, hl, hiff⟩ := calling_iff h (spec := ">=2".toList) (impl := formatImpl C.host) rfl (count_ge2 (List.cons_ne_nil _ _))
  by_cases ht : (!isBool to && !isPort to) = true
  · refine refuses_of hiff (m := "format expects its second argument be a boolean or port, but was " ++ C.host.show s₁ to ++ "") fun r u => ?_
    simp only [formatImpl, car_args hl, ht, if_true, failShow, runsP_get]
    exact runsP_fail
  · have hctl : ∀ t, ctl ≠ .str t := by
      rcases hb with ⟨h1, h2⟩ | h
      · exfalso
        apply ht
        rw [isPort_false h2]
        cases to with
        | atom a => cases a <;> first | rfl | exact absurd rfl (h1 _)
        | _ => rfl
      · exact h
    refine refuses_of hiff (m := "format expects its second argument be a string") fun r u => ?_
    simp only [formatImpl, car_args hl, cadr_args hl]
    rw [if_neg ht]
    exact runsP_fail

/-- `format` crashes the interpreter exactly when its control string ends inside a directive that it gets to. -/
theorem C85_format_crash {to : Bool} {ctl : String} {vs : List Data} (h : Calling C "format" (.bool to :: .str ctl :: vs) d e s s₁) :
    Crashes C d e s s₁ ↔ CutShort (text ctl.toList) vs := by
  have hiff := format_calling h
  rw [← Fmt.format_panic (arg := fmtArg C.host s₁) fun v => fmtArg_int v]
  constructor
  · intro hc
    obtain ⟨r₀, hr, hrun⟩ := (hiff _ _).1 ((hc .panic s₁).2 ⟨rfl, rfl⟩)
    cases hf : Fmt.format (text ctl.toList) (vs.map (fmtArg C.host s₁)) with
    | panic => rfl
    | err =>
      rw [hf] at hrun
      obtain ⟨rfl, _⟩ := runsP_fail.1 hrun
      cases hr
    | ok t =>
      rw [hf] at hrun
      dsimp only at hrun
      split at hrun
      · obtain ⟨rfl, _⟩ := runs_print.1 hrun
        cases hr
      · obtain ⟨rfl, _⟩ := runsP_pure.1 hrun
        cases hr
  · intro hf
    rw [hf] at hiff
    exact crashes_of hiff fun r u => runsP_panic

/-- Otherwise it answers, writes or refuses. -/
theorem C85_format_total {to : Bool} {ctl : String} {vs : List Data} (h : Calling C "format" (.bool to :: .str ctl :: vs) d e s s₁)
    (hc : ¬ CutShort (text ctl.toList) vs) : (∃ t, Delivers C to d e s s₁ t) ∨ Refuses C d e s s₁ := by
  have hiff := format_calling h
  rw [← Fmt.format_panic (arg := fmtArg C.host s₁) fun v => fmtArg_int v] at hc
  cases hf : Fmt.format (text ctl.toList) (vs.map (fmtArg C.host s₁)) with
  | panic => exact absurd hf hc
  | err => rw [hf] at hiff; exact .inr (refuses_of hiff (m := "format") fun r u => runsP_fail)
  | ok t =>
    rw [hf] at hiff
    refine .inl ⟨stringValue (ofBytes t), ?_, ?_⟩
    · rintro rfl; exact returns_of hiff fun r u => runs_print
    · rintro rfl; exact returns_of hiff fun r u => runsP_pure

/-! ### Examples -/

/-- The program ends with that outcome and has written these texts to standard output. -/
def _root_.Golisp.Demo.Prints (src : String) (r : Out Data) (out : List String) : Prop :=
  ∃ s', Evals Demo.C (Demo.code src) 1 Demo.s r s' ∧ s'.stdout = out

theorem _root_.Golisp.Demo.prints {src : String} {r : Out Data} {out : List String} (n : Nat) (h : (Demo.run n src).1 = r)
    (ho : (Demo.run n src).2.stdout = out) (hr : r ≠ .timeout) : Demo.Prints src r out :=
  ⟨(Demo.run n src).2, ⟨n, Prod.ext h rfl, hr⟩, ho⟩

example : Demo.Prints "(begin (write-string \"a\") (newline) (write-string \"b\") (car 1))"
    (Demo.run 30 "(begin (write-string \"a\") (newline) (write-string \"b\") (car 1))").1 ["a", "\n", "b"] :=
  Demo.prints 30 rfl (by decide +kernel) (by decide +kernel)
example : Demo.Prints "(format #t \"~a: ~s~%\" \"x\" \"y\")" (.ok .null) ["x: \"y\"\n"] :=
  Demo.prints 20 (by decide +kernel) (by decide +kernel) (by simp)
example : Demo.Ends "(format #f \"<~5@a|~va>\" 12 4 \"z\")" (.ok (.str "<   12|   z>")) := Demo.ends 20 (by decide +kernel) (by simp)
example : Demo.Ends "(format #f \"100~\" 5)" .panic := Demo.ends 20 (by decide +kernel) (by simp)
example : Calling Demo.C "format" [.bool false, .str "~a!", .int 7] (Demo.code "(format #f \"~a!\" 7)") 1 Demo.s Demo.s :=
  Demo.calling 10 (b := true) (xs := [.bool false, .str "~a!", .int 7]) (us := [.bool false, .str "~a!", .int 7])
    (by decide +kernel) (by decide +kernel) (by decide +kernel) (by decide +kernel) rfl (by decide +kernel) (by decide +kernel) rfl
example : Spelled [.dir .none false .show, .byte 33] (text "~a!".toList) :=
  .dir (n := .none) (cs := []) (a := false) (b := 97) .none (.show (.inl rfl)) (.byte (by decide) .nil)
example : Renders [.dir .none false .show, .byte 33] [⟨text "7".toList, text "7".toList, some 7⟩] (text "7!".toList) [] :=
  .show .none ⟨0, rfl, by decide, .inl rfl⟩ (.byte .nil)
example : CutShort (text "100~".toList) [.int 5] :=
  ⟨[.byte 49, .byte 48, .byte 48], _, [126], .none, _, _, rfl, .byte (by decide) (.byte (by decide) (.byte (by decide) .nil)),
    .count (n := .none) (cs := []) (a := false) .none, .byte (.byte (.byte .nil)), .plain nofun⟩

end Golisp.Props
