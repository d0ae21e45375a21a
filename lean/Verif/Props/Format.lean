import Verif.FormatLemmas
/-
C73: `format` renders its control string.
-/
namespace Golisp.Props
open Golisp Str Fmt Spec

private theorem ran {ps : List Ctl} {t : GoStr} (h : Spelled ps t) {as r : List Arg} {o : GoStr} (hr : Renders (sticky false ps) as o r)
    {u : GoStr} (hu : ∀ b, u.head? = some b → ¬ White b) : ∃ at', run (t ++ u) as false [] = run u r at' o := by
  obtain ⟨at', e⟩ := go_renders hr []
  refine ⟨at', ?_⟩
  rw [run_spelled h hu, e]
  simp

private theorem tilde_head {u : GoStr} : ∀ b, (126 :: u).head? = some b → ¬ White b := by
  intro b hb
  cases hb
  simp [White]

private theorem cut_head {u : GoStr} {n : Count} (h : Cut u n) : ∀ b, u.head? = some b → ¬ White b := by
  cases h <;> exact tilde_head

private theorem unsupported_head {u : GoStr} (h : Unsupported u) : ∀ b, u.head? = some b → ¬ White b := by
  cases h <;> exact tilde_head

/-- Every control string falls into pieces, up to its end, a directive cut off, or a directive that does not exist. -/
theorem C73_texts (t : GoStr) : ∃ ps t1 u, t = t1 ++ u ∧ Spelled ps t1 ∧ (u = [] ∨ (∃ n, Cut u n) ∨ Unsupported u) :=
  splits_all t.length t (Nat.le_refl _)

/-- What `format` makes of a sound control string, with the modifier taken as the code takes it: once given, it stays. -/
theorem C73_sticky {ps : List Ctl} {t : GoStr} (h : Spelled ps t) {as : List Arg} {o : GoStr} (hr : Renders (sticky false ps) as o []) :
    format t as = .ok o := by
  obtain ⟨at', e⟩ := ran h hr (u := []) (by simp)
  rw [List.append_nil] at e
  rw [format_eq, e, run_nil]

/-- The text `format` makes is the one the control string stands for, provided no directive without the modifier follows one
with it. -/
theorem C73_format_partial {ps : List Ctl} {t : GoStr} (h : Spelled ps t) {as : List Arg} {o : GoStr} (hr : Renders ps as o [])
    (hm : MarksLast ps) : format t as = .ok o := C73_sticky h (renders_sticky hr hm (by simp))

/-- Arguments left over are an error. -/
theorem C73_surplus {ps : List Ctl} {t : GoStr} (h : Spelled ps t) {as : List Arg} {o : GoStr} {x : Arg} {r : List Arg}
    (hr : Renders ps as o (x :: r)) (hm : MarksLast ps) : format t as = .err := by
  obtain ⟨at', e⟩ := ran h (renders_sticky hr hm (by simp)) (u := []) (by simp)
  rw [List.append_nil] at e
  rw [format_eq, e, run_nil]

/-- A directive that does not exist is an error, whatever the arguments and whatever follows. -/
theorem C73_unsupported {ps : List Ctl} {t u : GoStr} (h : Spelled ps t) (hu : Unsupported u) (as : List Arg) : format (t ++ u) as = .err := by
  rw [format_eq, run_spelled h (unsupported_head hu)]
  cases go ps as false [] with
  | none => rfl
  | some x => dsimp only; rw [run_unsupported hu]

/-- `~v` with something else than an integer is an error, whatever follows. -/
theorem C73_size {ps : List Ctl} {t : GoStr} (h : Spelled ps t) {as : List Arg} {o : GoStr} {r : List Arg} (hr : Renders ps as o r)
    (hm : MarksLast ps) (hx : ∀ x, r.head? = some x → x.int = none) {b : Byte} (hb : b = 118 ∨ b = 86) (u : GoStr) :
    format (t ++ 126 :: b :: u) as = .err := by
  obtain ⟨at', e⟩ := ran h (renders_sticky hr hm (by simp)) (u := 126 :: b :: u) tilde_head
  have hn : (next r).1.int = none := by
    cases r with
    | nil => rfl
    | cons x r => exact hx x rfl
  rw [format_eq, e, run_dir]
  rcases hb with rfl | rfl <;> simp [count, isDigit, hn]

/-- A control string that ends inside a directive gives no text. -/
theorem C73_cut {ps : List Ctl} {t u : GoStr} {n : Count} (h : Spelled ps t) (hu : Cut u n) (as : List Arg) (o : GoStr) :
    format (t ++ u) as ≠ .ok o := by
  rw [format_eq, run_spelled h (cut_head hu)]
  cases go ps as false [] with
  | none => simp
  | some x =>
    dsimp only
    rcases run_cut_ok hu (args := x.2.1) (at_ := x.2.2) (out := x.1) with e | e <;> rw [e] <;> simp

/-- Such a control string crashes the host instead of being an error: whenever its sound part can be rendered. -/
theorem C73_cut_violation {ps : List Ctl} {t u : GoStr} {n : Count} (h : Spelled ps t) (hu : Cut u n) {as : List Arg} {o : GoStr}
    {r r' : List Arg} {k : Int} (hr : Renders ps as o r) (hm : MarksLast ps) (hn : Number n r k r') : format (t ++ u) as = .panic := by
  obtain ⟨at', e⟩ := ran h (renders_sticky hr hm (by simp)) (cut_head hu)
  rw [format_eq, e, run_cut hu hn]

/-- `format` never crashes on any other control string. -/
theorem C73_crash {t : GoStr} {as : List Arg} (h : format t as = .panic) : ∃ ps t1 u n, t = t1 ++ u ∧ Spelled ps t1 ∧ Cut u n := by
  obtain ⟨ps, t1, u, rfl, hs, hu⟩ := C73_texts t
  rcases hu with rfl | ⟨n, hu⟩ | hu
  · rw [List.append_nil] at h
    have e := run_spelled hs (u := []) (by simp) as false []
    rw [List.append_nil] at e
    rw [format_eq, e] at h
    cases hg : go ps as false [] with
    | none => rw [hg] at h; cases h
    | some x =>
      rw [hg] at h
      obtain ⟨o, r, a⟩ := x
      dsimp only at h
      rw [run_nil] at h
      cases r <;> cases h
  · exact ⟨ps, t1, u, n, rfl, hs, hu⟩
  · rw [C73_unsupported hs hu] at h; cases h

/-- An argument that is missing is no error: `()` is printed in its place. -/
theorem C73_missing_violation {ps : List Ctl} {t : GoStr} (h : Spelled ps t) {as : List Arg} {o : GoStr} (hr : Renders ps as o [])
    (hm : MarksLast ps) : format (t ++ [126, 97]) as = .ok (o ++ [40, 41]) := by
  obtain ⟨at', e⟩ := ran h (renders_sticky hr hm (by simp)) (u := [126, 97]) tilde_head
  have : ∀ a, run [126, 97] [] a o = .ok (o ++ [40, 41], []) := by
    intro a
    rw [run_dir]
    cases a <;> simp [count, isDigit, letter, next, run_nil, pad, missing]
  rw [format_eq, e, this]

/-- `~@4a~4a`: both arguments are aligned to the right, though only the first should be. -/
theorem C73_modifier_violation : ∃ ps t as o o', Spelled ps t ∧ Renders ps as o [] ∧ format t as = .ok o' ∧ o ≠ o' := by
  have x : ∀ b : Byte, Number (.lit 4) [⟨[b], [b], none⟩] (4 : Nat) [⟨[b], [b], none⟩] := fun b => .lit
  refine ⟨[.dir (.lit 4) true .show, .dir (.lit 4) false .show], [126, 52, 64, 97, 126, 52, 97],
    [⟨[120], [120], none⟩, ⟨[121], [121], none⟩], [32, 32, 32, 120] ++ ([121, 32, 32, 32] ++ []),
    [32, 32, 32, 120, 32, 32, 32, 121], ?_, ?_, by decide, by decide⟩
  · exact .dir (cs := [52]) (.lit (.one (b := 52) (by decide) (by decide)) (by decide)) (.show (.inl rfl))
      (.dir (cs := [52]) (a := false) (.lit (.one (b := 52) (by decide) (by decide)) (by decide)) (.show (.inl rfl)) .nil)
  · exact .show .lit ⟨3, rfl, by decide, .inr rfl⟩ (.show .lit ⟨3, rfl, by decide, .inr rfl⟩ .nil)

/- `"a~5s~%"` with one argument. -/
private theorem demo_spelled : Spelled [.byte 97, .dir (.lit 15) false .write, .dir .none false .newline] [97, 126, 49, 53, 115, 126, 37] :=
  .byte (by decide) (.dir (cs := [49, 53]) (a := false)
    (.lit (.more (.one (b := 49) (by decide) (by decide)) (b := 53) (by decide) (by decide)) (by decide)) (.write (.inl rfl))
    (.dir (cs := []) (a := false) .none .newline .nil))
private theorem demo_marks : MarksLast [.byte 97, .dir (.lit 15) false .write, .dir .none false .newline] := by
  simp [MarksLast, hasMark]
private theorem demo_renders (x : Arg) (hx : x.written.length = 15) (r : List Arg) :
    Renders [.byte 97, .dir (.lit 15) false .write, .dir .none false .newline] (x :: r) (97 :: ((x.written ++ []) ++ ([10] ++ []))) r :=
  .byte (.write .lit ⟨0, by simp, by simp [hx], .inl rfl⟩ (.newline (a := false) .none .nil))
private def fifteen : Arg := ⟨[40, 41], List.replicate 15 120, none⟩

example : format [97, 126, 49, 53, 115, 126, 37] [fifteen] = .ok (97 :: List.replicate 15 120 ++ [10]) :=
  C73_format_partial demo_spelled (demo_renders fifteen rfl []) demo_marks
example : format [97, 126, 49, 53, 115, 126, 37] [fifteen, fifteen] = .err :=
  C73_surplus demo_spelled (demo_renders fifteen rfl [fifteen]) demo_marks
example : format ([97, 126, 49, 53, 115, 126, 37] ++ [126, 120]) [fifteen] = .err :=
  C73_unsupported demo_spelled (.letter (n := .none) (cs := []) (a := false) (b := 120) .none
    (by intro d h; cases h <;> (rename_i h; revert h; decide)) (by decide) (by decide) (by decide) (fun _ _ => by decide)) _
example : format ([97, 126, 49, 53, 115, 126, 37] ++ 126 :: 118 :: [97]) [fifteen] = .err :=
  C73_size demo_spelled (demo_renders fifteen rfl []) demo_marks (by simp) (.inl rfl) _
example : format ([97, 126, 49, 53, 115, 126, 37] ++ [126]) [fifteen] = .panic :=
  C73_cut_violation demo_spelled (.count (n := .none) (cs := []) (a := false) .none) (demo_renders fifteen rfl []) demo_marks .none
example : format ([97, 126, 49, 53, 115, 126, 37] ++ [126, 97]) [fifteen] = .ok ((97 :: ((List.replicate 15 120 ++ []) ++ ([10] ++ []))) ++ [40, 41]) :=
  C73_missing_violation demo_spelled (demo_renders fifteen rfl []) demo_marks
example : format [126, 64, 97, 126, 10, 32, 120] [fifteen] = .ok ([40, 41] ++ [10, 120]) := by decide

end Golisp.Props
