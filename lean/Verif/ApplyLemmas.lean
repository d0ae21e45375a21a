import Verif.QuasiLemmas
import Verif.LispLemmas
/-
Calls of primitives with argument values (`ApplyWithoutEval`): the values are quoted and the quotations evaluated.
-/
namespace Golisp.Props
open Golisp Data Ev Spec

variable {C : Conf} {e : Nat} {s : Store} {r : Out Data} {s' : Store}

theorem quoteIt_eq (v : Data) : quoteIt v = .cons (.sym "quote") (.cons (elem v) .null) := by
  have : (if v = .null then emptyCons else v) = elem v := rfl
  simp only [quoteIt, this, ofArray, listWithTail, ← elem_eq_noNull]
  have h2 : elem (elem v) = elem v := if_neg (elem_ne v)
  rw [h2]; rfl

/-- A quoted value is that value. -/
theorem evals_quoteIt (hw : WF s) (hq : Means C s e "quote") (v : Data) :
    Evals C (quoteIt v) e s r s' ↔ r = .ok (elem v) ∧ s' = s := by
  have hl : Lst (.cons (elem v) .null) [elem v] := .cons _ _ _ _ (fun h => elem_ne v h.1) nofun .null
  rw [quoteIt_eq, evals_form (P := ⟨"1".toList, true, false, quoteImpl⟩) hw hq rfl (fun _ => rfl) rfl rfl rfl hl (by rfl)]
  have hb : quoteImpl (ofArray [elem v]) e = .ret (elem v) := by
    have h2 : noNull (elem v) = elem v := by rw [← elem_eq_noNull]; exact if_neg (elem_ne v)
    simp only [quoteImpl, ofArray, listWithTail, car, h2]
    rfl
  simp only [hb, runsP_ret]
  constructor
  · rintro ⟨_, ⟨rfl, rfl⟩, rfl⟩; exact ⟨rfl, rfl⟩
  · rintro ⟨rfl, rfl⟩; exact ⟨_, ⟨rfl, rfl⟩, rfl⟩

theorem args_quoted (hw : WF s) (hq : Means C s e "quote") {r : Out (List Data)} : ∀ vs : List Data,
    Args C e (vs.map quoteIt) s r s' ↔ r = .ok (vs.map elem) ∧ s' = s := by
  intro vs
  have go : Args C e (vs.map quoteIt) s (.ok (vs.map elem)) s := by
    induction vs with
    | nil => exact .done
    | cons v vs ih => exact .next ((evals_quoteIt hw hq v).2 ⟨rfl, rfl⟩) ih
  constructor
  · intro h; exact args_det' h go
  · rintro ⟨rfl, rfl⟩; exact go

theorem quoteAll_chain {args : Data} {vs : List Data} (h : Chain args vs) (hne : vs ≠ []) : quoteAll args = ofArray (vs.map quoteIt) := by
  have : args ≠ .null := by rintro rfl; cases h; exact hne rfl
  simp only [quoteAll, this, if_false, h.raw]

theorem quoteIt_ne (v : Data) : quoteIt v ≠ .null := by rw [quoteIt_eq]; nofun

theorem lst_quoted (vs : List Data) : Lst (ofArray (vs.map quoteIt)) (vs.map quoteIt) := by
  have := Lst.ofArray (vs.map quoteIt)
  rwa [map_elem_id (fun h => by
    obtain ⟨v, _, hv⟩ := List.mem_map.1 h
    exact quoteIt_ne v hv)] at this

/-- An ordinary primitive called with a (non-empty, properly closed) list of values gets exactly these values. -/
theorem applies_prim {x : String} {P : PrimDef} (hP : C.prims x = some P) (hsp : P.special = false)
    (hre : (P.restricted && s.restrictedEnv e) = false) (hw : WF s) (hq : Means C s e "quote") {args : Data} {vs : List Data}
    (hch : Chain args vs) (hne : vs ≠ []) (hc : Arity.checkArgumentCount (Arity.parseNumArgs P.args) vs.length = true) :
    Applies C (.atom (.prim x)) args e s r s' ↔ RunsP (body C) (P.body (ofArray (vs.map elem)) e) s r s' := by
  unfold Applies
  rw [runs_iff]
  have hl := lst_quoted vs
  simp only [body, applyNoEval, primApplyNoEval, hP, hsp, Bool.false_eq_true, if_false, primApply, runsP_get, hre,
    quoteAll_chain hch hne, hl.length, hl.toArray, List.length_map, hc, Bool.not_true]
  rw [runsP_bind]
  simp only [runsP_evalAll]
  constructor
  · rintro (⟨ws, s₂, h1, h2⟩ | ⟨er, h1, _⟩ | ⟨h1, _⟩)
    · obtain ⟨h3, rfl⟩ := (args_quoted hw hq vs).1 h1
      cases h3; exact h2
    · cases ((args_quoted hw hq vs).1 h1).1
    · cases ((args_quoted hw hq vs).1 h1).1
  · intro h; exact .inl ⟨_, _, (args_quoted hw hq vs).2 ⟨rfl, rfl⟩, h⟩

/-- The count is checked first. -/
theorem applies_count {x : String} {P : PrimDef} (hP : C.prims x = some P) (hsp : P.special = false)
    (hre : (P.restricted && s.restrictedEnv e) = false) {args : Data} {vs : List Data}
    (hch : Chain args vs) (hne : vs ≠ []) (hc : Arity.checkArgumentCount (Arity.parseNumArgs P.args) vs.length = false) :
    ∃ m, ∀ r s', Applies C (.atom (.prim x)) args e s r s' ↔ r = .err (.msg m) ∧ s' = s := by
  refine ⟨"Wrong number of args to " ++ x ++ ", expected " ++ String.ofList (Arity.argsString (Arity.parseNumArgs P.args)) ++
    " but got " ++ numText vs.length ++ ".", fun r s' => ?_⟩
  unfold Applies
  rw [runs_iff]
  have hl := lst_quoted vs
  simp only [body, applyNoEval, primApplyNoEval, hP, hsp, Bool.false_eq_true, if_false, primApply, runsP_get, hre,
    quoteAll_chain hch hne, hl.length, List.length_map, hc, Bool.not_false, if_true, runsP_fail]

theorem ofArray_elem (us : List Data) : ofArray (us.map elem) = ofArray us := by
  have go : ∀ us : List Data, listWithTail (us.map elem) .null = listWithTail us .null := by
    intro us
    induction us with
    | nil => rfl
    | cons u us ih =>
      have : noNull (elem u) = noNull u := by rw [← elem_eq_noNull, ← elem_eq_noNull]; exact if_neg (elem_ne u)
      simp only [List.map_cons, listWithTail, this, ih]
  cases us with
  | nil => rfl
  | cons u us => exact go (u :: us)

/-- `calling_iff` with the argument list spelt out. -/
theorem calling_body {d : Data} {s₁ : Store} {x : String} {vs : List Data} (h : Calling C x vs d e s s₁) {P : PrimDef}
    (hP : (std C.host).prims x = some P) (hsp : P.special = false) (hre : P.restricted = false)
    (hc : Arity.checkArgumentCount (Arity.parseNumArgs P.args) vs.length = true) (r : Out Data) (t : Store) :
    Evals C d e s r t ↔ ∃ r₀, r = quoting d r₀ ∧ RunsP (body C) (P.body (ofArray vs) e) s₁ r₀ t := by
  obtain ⟨hd, tl, xs, us, s₀, rfl, hs, hh, hop, hstd, ht, ha, rfl⟩ := h
  have hlen : xs.length = us.length := (C32_once ha).symm
  rw [C32_primitive hs hh hop (by rw [hstd]; exact hP) hsp (by rw [hre]; rfl) ht (by rw [hlen]; simpa using hc), ofArray_elem]
  constructor
  · rintro ⟨r₀, rfl, ⟨ws, s₂, h1, h2⟩ | ⟨er, h1, _⟩ | ⟨h1, _⟩⟩
    · obtain ⟨h3, rfl⟩ := args_det' h1 ha
      cases h3; exact ⟨_, rfl, h2⟩
    · cases (args_det' h1 ha).1
    · cases (args_det' h1 ha).1
  · rintro ⟨r₀, rfl, h2⟩; exact ⟨_, rfl, .inl ⟨_, _, ha, h2⟩⟩

end Golisp.Props
