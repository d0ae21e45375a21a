import Verif.ProcLemmas
import Verif.DemoCalls
import Verif.LibraryLemmas
import Verif.Props.Library
import Verif.Props.Library2
/-
C69: the primitives that take a procedure, as called from Lisp code.  `With C f e vs` is one call of the procedure with the
argument values `vs`; the first three theorems say what that is for user functions and for primitives.
-/
namespace Golisp.Props
open Golisp Data Ev Spec

set_option maxRecDepth 20000

variable {C : Conf} {e : Nat} {s s₁ : Store} {d f : Data}

/-! ### One call -/

/-- A user function is called with exactly these values. -/
theorem C69_function {i : Nat} {fr : FnRec} {vs : List Data} (hi : s.fns[i]? = some fr) (hg : GoodFn s fr) {r : Out Data} {t : Store} :
    With C (.atom (.func i)) e vs s r t ↔ CallsV C i (vs.map elem) e (frameFor s fr.slot e) s r t :=
  C31_apply hi hg (Lst.ofArray vs)

private theorem chain_ofArray {vs : List Data} (hn : Data.null ∉ vs) (hne : vs ≠ []) : Chain (ofArray vs) vs := by
  have go : ∀ vs : List Data, Data.null ∉ vs → Chain (listWithTail vs .null) vs := by
    intro vs
    induction vs with
    | nil => intro _; exact .nil
    | cons v vs ih =>
      intro hn
      have hv : v ≠ .null := fun h => hn (h ▸ List.mem_cons_self)
      have : noNull v = v := by cases v <;> first | rfl | exact absurd rfl hv
      simp only [listWithTail, this]
      exact .cons (ih (fun h => hn (List.mem_cons_of_mem _ h)))
  cases vs with
  | nil => exact absurd rfl hne
  | cons v vs => exact go _ hn

private theorem newList_ofArray (vs : List Data) : NewList (ofArray vs) (vs.map elem) := by
  cases vs with
  | nil => exact .empty
  | cons v vs =>
    rw [← ofArray_elem]
    refine .chain (chain_ofArray ?_ (by simp))
    intro h
    obtain ⟨x, _, h⟩ := List.mem_map.1 h
    unfold elem at h
    split at h
    · cases h
    · exact absurd h ‹_›

/-- A library function does what the manual says about these values, and leaves the state alone. -/
theorem C69_library {x : String} {P : Out Data → Prop} {vs : List Data} (hm : Arithmetic x vs P ∨ ListWork x vs P)
    (hx : C.prims x = (std C.host).prims x) (hw : WF s) (hq : Means C s e "quote") (hne : vs ≠ []) (hn : Data.null ∉ vs) :
    ∃ r, P r ∧ ∀ r' t, With C (.atom (.prim x)) e vs s r' t ↔ r' = r ∧ t = s := by
  obtain ⟨spec, impl, hP, hc, hi⟩ := hm.elim arithmetic_does (fun hm => listWork_does hm hn)
  have hid : vs.map elem = vs := map_elem_id hn
  have hla : Lst (ofArray vs) vs := by
    have := Lst.ofArray vs; rwa [hid] at this
  obtain ⟨r, hp, hr⟩ := hi C _ e s hla
  refine ⟨r, hp, fun r' t => ?_⟩
  rw [With, applies_prim (P := ⟨spec, false, false, impl⟩) (hx.trans hP) rfl rfl hw hq (chain_ofArray hn hne) hne hc, hid]
  exact hr _ _

/-- Any other ordinary primitive does what it does when an expression calls it with these values. -/
theorem C69_primitive {x : String} {P : PrimDef} {vs : List Data} (hP : (std C.host).prims x = some P)
    (hx : C.prims x = (std C.host).prims x) (hsp : P.special = false) (hre : P.restricted = false) (hw : WF s)
    (hq : Means C s e "quote") (hne : vs ≠ []) (hn : Data.null ∉ vs)
    (hc : Arity.checkArgumentCount (Arity.parseNumArgs P.args) vs.length = true) {d : Data} {s₀ : Store}
    (h : Calling C x vs d e s₀ s) {r : Out Data} {t : Store} :
    Evals C d e s₀ r t ↔ ∃ r₀, r = quoting d r₀ ∧ With C (.atom (.prim x)) e vs s r₀ t := by
  rw [calling_body h hP hsp hre hc r t]
  simp only [With, applies_prim (hx.trans hP) hsp (by rw [hre]; rfl) hw hq (chain_ofArray hn hne) hne hc, map_elem_id hn]

/-! ### The primitives -/

private theorem performs_of {α : Type} {p : Prog Data} {Q : Out α → Store → Prop} {P : α → Data → Prop}
    (h : ∀ r t, Evals C d e s r t ↔ ∃ r₀, r = quoting d r₀ ∧ RunsP (body C) p s₁ r₀ t)
    (h1 : ∀ r t, RunsP (body C) p s₁ r t → ∃ o, Q o t ∧ Becomes P o r)
    (h2 : ∀ o t, Q o t → ∃ r, Becomes P o r ∧ RunsP (body C) p s₁ r t) : Performs C d e s Q P := by
  refine ⟨fun r t hr => ?_, fun o t ho => ?_⟩
  · obtain ⟨r₀, rfl, hr₀⟩ := (h r t).1 hr
    obtain ⟨o, ho, hb⟩ := h1 r₀ t hr₀
    exact ⟨o, r₀, ho, hb, rfl⟩
  · obtain ⟨r₀, hb, hr⟩ := h2 o t ho
    exact ⟨r₀, hb, (h _ _).2 ⟨r₀, rfl, hr⟩⟩

private theorem with_eq : With C f e = Gives1 (body C) (fun a => .app f a e) := by
  funext vs s r t
  exact propext runsP_app.symm

private theorem fn_iff {x : String} {vs : List Data} (h : Calling C x (f :: vs) d e s s₁) {spec : List Char} {m : String}
    {k : (Data → Prog Data) → Data → Prog Data} (hP : (std C.host).prims x = some ⟨spec, false, false, withFn m k⟩)
    (hc : Arity.checkArgumentCount (Arity.parseNumArgs spec) (f :: vs).length = true) (hf : isFuncOrPrim f = true) :
    ∃ args, Lst args vs ∧ ∀ r t, Evals C d e s r t ↔ ∃ r₀, r = quoting d r₀ ∧ RunsP (body C) (k (fun a => .app f a e) args) s₁ r₀ t := by
  obtain ⟨args, ha, hiff⟩ := calling_iff h hP hc
  refine ⟨cdr args, cdr_Lst ha, fun r t => ?_⟩
  rw [hiff]
  simp only [withFn, car_args ha, hf, Bool.not_true, Bool.false_eq_true, if_false]

private theorem isNil_lists {ls : List (Data × List Data)} {rs : List (List Data)} (h : Rows (ls.map (·.2)) rs) :
    (rs = [] ∧ ∃ p ∈ ls, p.2 = []) ∨ (∀ p ∈ ls, p.2 ≠ []) := by
  generalize he : ls.map (·.2) = xss at h
  cases h with
  | stop h =>
    rw [← he] at h
    obtain ⟨p, hp, h0⟩ := List.mem_map.1 h
    exact .inl ⟨rfl, p, hp, h0⟩
  | next qs h =>
    refine .inr fun p hp h0 => ?_
    have : p.2 ∈ qs.map fun p => p.1 :: p.2 := by rw [← he]; exact List.mem_map.2 ⟨p, hp, rfl⟩
    obtain ⟨q, _, hq⟩ := List.mem_map.1 this
    rw [h0] at hq; cases hq

section lists
variable {ls : List (Data × List Data)} {rs : List (List Data)} (hf : isFuncOrPrim f = true) (hne : ls ≠ [])
  (hl : ∀ p ∈ ls, ListOf p.1 p.2) (hr : Rows (ls.map (·.2)) rs)
include hf hne hl hr

/-- `map` calls the procedure with the first elements, then with the second elements, and so on, and returns the list of the
values; the first failing call ends it. -/
theorem C69_map (h : Calling C "map" (f :: ls.map (·.1)) d e s s₁) :
    Performs C d e s (Calls (With C f e) rs s₁) (fun vs v => NewList v (vs.map elem)) := by
  obtain ⟨args, ha, hiff⟩ := fn_iff h (spec := ">=2".toList) rfl (count_ge2 (by cases ls <;> simp_all)) hf
  have hl1 : ∀ p ∈ ls, Lst p.1 p.2 := fun p hp => (hl p hp).1
  have hloop := runsP_mapLoop (bd := body C) (f := fun a => .app f a e) hr ls rfl hl1
  have hmin := rows_cols hr rfl hne hl1
  rw [with_eq]
  rw [ha.toArray] at hiff
  rcases isNil_lists hr with ⟨rfl, hemp⟩ | hpos
  · have hp : ∀ g, mapP g (ls.map (·.1)) = pure .null := by
      intro g; simp only [mapP, mapScan_empty (fun p hp => ⟨(hl p hp).1, (hl p hp).2⟩) hemp]; rfl
    refine performs_of hiff (fun r t hr => ?_) (fun o t ho => ?_)
    · rw [hp, runsP_pure] at hr
      obtain ⟨rfl, rfl⟩ := hr; exact ⟨_, .done, .ok NewList.null⟩
    · cases ho; exact ⟨_, .ok NewList.null, by rw [hp, runsP_pure]; exact ⟨rfl, rfl⟩⟩
  · have hp : ∀ g, mapP g (ls.map (·.1)) = (mapLoopP g rs.length (ls.map (·.1)) >>= fun vs => pure (ofArray vs)) := by
      intro g; simp only [mapP, mapScan_none (fun p hp => ⟨(hl p hp).1, (hl p hp).2⟩) hpos, hmin]
    refine performs_of hiff (fun r t hr => ?_) (fun o t ho => ?_)
    · rw [hp, runsP_bind] at hr
      rcases hr with (⟨vs, s₂, h1, h2⟩ | ⟨er, h1, rfl⟩ | ⟨h1, rfl⟩)
      · obtain ⟨rfl, rfl⟩ := runsP_pure.1 h2; exact ⟨_, (hloop _ _ _).1 h1, .ok (newList_ofArray vs)⟩
      · exact ⟨_, (hloop _ _ _).1 h1, .err⟩
      · exact ⟨_, (hloop _ _ _).1 h1, .panic⟩
    · cases o with
      | ok vs => exact ⟨_, .ok (newList_ofArray vs), by rw [hp, runsP_bind]; exact .inl ⟨_, _, (hloop _ _ _).2 ho, runsP_pure.2 ⟨rfl, rfl⟩⟩⟩
      | err er => exact ⟨_, .err, by rw [hp, runsP_bind]; exact .inr (.inl ⟨_, (hloop _ _ _).2 ho, rfl⟩)⟩
      | panic => exact ⟨_, .panic, by rw [hp, runsP_bind]; exact .inr (.inr ⟨(hloop _ _ _).2 ho, rfl⟩)⟩
      | timeout => cases ho

/-- `for-each` makes the same calls and returns nil. -/
theorem C69_for_each (h : Calling C "for-each" (f :: ls.map (·.1)) d e s s₁) :
    Performs C d e s (Calls (With C f e) rs s₁) (fun _ v => v = .null) := by
  obtain ⟨args, ha, hiff⟩ := fn_iff h (spec := ">=2".toList) rfl (count_ge2 (by cases ls <;> simp_all)) hf
  have hl1 : ∀ p ∈ ls, Lst p.1 p.2 := fun p hp => (hl p hp).1
  have hloop := runsP_forEachLoop (bd := body C) (f := fun a => .app f a e) hr ls rfl hl1
  have hmin := rows_cols hr rfl hne hl1
  rw [with_eq]
  rw [ha.toArray] at hiff
  have hp : ∀ g, forEachP g (ls.map (·.1)) = (forEachLoopP g rs.length (ls.map (·.1)) >>= fun _ => pure .null) := by
    intro g; simp only [forEachP, allLists_true (fun p hp => (hl p hp).2), hmin, Bool.not_true, Bool.false_eq_true, if_false]
  refine performs_of hiff (fun r t hr => ?_) (fun o t ho => ?_)
  · rw [hp, runsP_bind] at hr
    rcases hr with (⟨vs, s₂, h1, h2⟩ | ⟨er, h1, rfl⟩ | ⟨h1, rfl⟩) <;> obtain ⟨o, ho, he⟩ := (hloop _ _ _).1 h1 <;> cases o <;> cases he
    · obtain ⟨rfl, rfl⟩ := runsP_pure.1 h2; exact ⟨_, ho, .ok rfl⟩
    · exact ⟨_, ho, .err⟩
    · exact ⟨_, ho, .panic⟩
  · cases o with
    | ok vs => exact ⟨_, .ok rfl, by rw [hp, runsP_bind]; exact .inl ⟨_, _, (hloop _ _ _).2 ⟨_, ho, rfl⟩, runsP_pure.2 ⟨rfl, rfl⟩⟩⟩
    | err er => exact ⟨_, .err, by rw [hp, runsP_bind]; exact .inr (.inl ⟨_, (hloop _ _ _).2 ⟨_, ho, rfl⟩, rfl⟩)⟩
    | panic => exact ⟨_, .panic, by rw [hp, runsP_bind]; exact .inr (.inr ⟨(hloop _ _ _).2 ⟨_, ho, rfl⟩, rfl⟩)⟩
    | timeout => cases ho

omit hf hne in
private theorem until_performs (stop : Bool) {p : Prog Data}
    (hiff : ∀ r t, Evals C d e s r t ↔ ∃ r₀, r = quoting d r₀ ∧ RunsP (body C) p s₁ r₀ t)
    (hp : p = (if stop then anyLoopP (fun a => .app f a e) else everyLoopP (fun a => .app f a e)) rs.length (ls.map (·.1))) :
    Performs C d e s (Until (With C f e) stop rs s₁) (fun b v => v = .bool b) := by
  have hl1 : ∀ p ∈ ls, Lst p.1 p.2 := fun p hp => (hl p hp).1
  have hloop := runsP_untilLoop (bd := body C) (f := fun a => .app f a e) stop hr ls rfl hl1
  subst hp
  rw [with_eq]
  refine performs_of hiff (fun r t hr => ?_) (fun o t ho => ?_)
  · obtain ⟨o, ho, rfl⟩ := (hloop _ _ _).1 hr
    refine ⟨o, ho, ?_⟩
    cases o with
    | ok b => exact .ok rfl
    | err er => exact .err
    | panic => exact .panic
    | timeout => obtain ⟨_, _, h⟩ := hr; exact absurd rfl h
  · have h1 := (hloop _ _ _).2 ⟨_, ho, rfl⟩
    cases o with
    | ok b => exact ⟨_, .ok rfl, h1⟩
    | err er => exact ⟨_, .err, h1⟩
    | panic => exact ⟨_, .panic, h1⟩
    | timeout => obtain ⟨_, _, h⟩ := h1; exact absurd rfl h

/-- `any` stops at the first true answer and returns `#t`; otherwise it returns `#f`. -/
theorem C69_any (h : Calling C "any" (f :: ls.map (·.1)) d e s s₁) :
    Performs C d e s (Until (With C f e) true rs s₁) (fun b v => v = .bool b) := by
  obtain ⟨args, ha, hiff⟩ := fn_iff h (spec := ">=2".toList) rfl (count_ge2 (by cases ls <;> simp_all)) hf
  rw [ha.toArray] at hiff
  refine until_performs hl hr true hiff ?_
  simp only [anyP, allLists_true (fun p hp => (hl p hp).2), rows_cols hr rfl hne (fun p hp => (hl p hp).1), Bool.not_true,
    Bool.false_eq_true, if_false, if_true]

/-- `every` stops at the first false answer and returns `#f`; otherwise it returns `#t`. -/
theorem C69_every (h : Calling C "every" (f :: ls.map (·.1)) d e s s₁) :
    Performs C d e s (Until (With C f e) false rs s₁) (fun b v => v = .bool b) := by
  obtain ⟨args, ha, hiff⟩ := fn_iff h (spec := ">=2".toList) rfl (count_ge2 (by cases ls <;> simp_all)) hf
  rw [ha.toArray] at hiff
  refine until_performs hl hr false hiff ?_
  simp only [everyP, allLists_true (fun p hp => (hl p hp).2), rows_cols hr rfl hne (fun p hp => (hl p hp).1), Bool.not_true,
    Bool.false_eq_true, if_false]

end lists

section one
variable {l : Data} {xs : List Data} (hf : isFuncOrPrim f = true) (hl : ListOf l xs)
include hf hl

omit hf hl in
private theorem folds_performs {G : Data → Data → Store → Out Data → Store → Prop} {init : Data} {ys : List Data} {p : Prog Data}
    (hiff : ∀ r t, Evals C d e s r t ↔ ∃ r₀, r = quoting d r₀ ∧ RunsP (body C) p s₁ r₀ t)
    (hp : ∀ r t, RunsP (body C) p s₁ r t ↔ Folds G init ys s₁ r t) :
    Performs C d e s (Folds G init ys s₁) (fun a v => v = a) := by
  refine performs_of hiff (fun r t hr => ?_) (fun o t ho => ?_)
  · refine ⟨r, (hp r t).1 hr, ?_⟩
    cases r with
    | ok b => exact .ok rfl
    | err er => exact .err
    | panic => exact .panic
    | timeout => obtain ⟨_, _, h⟩ := hr; exact absurd rfl h
  · have h1 := (hp o t).2 ho
    refine ⟨o, ?_, h1⟩
    cases o with
    | ok b => exact .ok rfl
    | err er => exact .err
    | panic => exact .panic
    | timeout => obtain ⟨_, _, h⟩ := h1; exact absurd rfl h

/-- `(fold-left f init l)` calls `(f acc x)` for the elements from left to right. -/
theorem C69_fold_left {init : Data} (h : Calling C "fold-left" [f, init, l] d e s s₁) :
    Performs C d e s (Folds (fun a x => With C f e [a, x]) init xs s₁) (fun a v => v = a) := by
  obtain ⟨args, ha, hiff⟩ := fn_iff h (spec := "3".toList) rfl count3 hf
  refine folds_performs hiff fun r t => ?_
  simp only [foldLeftP, car_args ha, cadr_args ha, hl.2, Bool.not_true, Bool.false_eq_true, if_false, hl.1.toArray]
  rw [runsP_foldProc, with_eq]
  rfl

/-- `(fold-right f init l)` calls `(f x acc)` for the elements from right to left. -/
theorem C69_fold_right {init : Data} (h : Calling C "fold-right" [f, init, l] d e s s₁) :
    Performs C d e s (Folds (fun a x => With C f e [x, a]) init xs.reverse s₁) (fun a v => v = a) := by
  obtain ⟨args, ha, hiff⟩ := fn_iff h (spec := "3".toList) rfl count3 hf
  refine folds_performs hiff fun r t => ?_
  simp only [foldRightP, car_args ha, cadr_args ha, hl.2, Bool.not_true, Bool.false_eq_true, if_false, hl.1.toArray]
  rw [runsP_foldProc, with_eq]
  rfl

/-- `reduce` and `reduce-left` start with the first element; the given initial value is used for an empty list only. -/
theorem C69_reduce_left {x : String} (hx : x ∈ ["reduce", "reduce-left"]) {init y : Data} {ys : List Data} (he : xs = y :: ys)
    (h : Calling C x [f, init, l] d e s s₁) :
    Performs C d e s (Folds (fun a x => With C f e [a, x]) y ys s₁) (fun a v => v = a) := by
  obtain ⟨args, ha, hiff⟩ : ∃ args, Lst args [init, l] ∧ ∀ r t, Evals C d e s r t ↔ ∃ r₀, r = quoting d r₀ ∧
      RunsP (body C) (reduceLeftP (fun a => .app f a e) (car args) (car (cdr args))) s₁ r₀ t := by
    simp only [List.mem_cons, List.not_mem_nil, or_false] at hx
    rcases hx with rfl | rfl <;> exact fn_iff h (spec := "3".toList) rfl count3 hf
  refine folds_performs hiff fun r t => ?_
  subst he
  simp only [reduceLeftP, cadr_args ha, hl.2, Bool.not_true, Bool.false_eq_true, if_false, hl.1.toArray]
  rw [runsP_foldProc, with_eq]
  rfl

/-- `reduce-right` starts with the last element. -/
theorem C69_reduce_right {init y : Data} {ys : List Data} (he : xs = ys ++ [y]) (h : Calling C "reduce-right" [f, init, l] d e s s₁) :
    Performs C d e s (Folds (fun a x => With C f e [x, a]) y ys.reverse s₁) (fun a v => v = a) := by
  obtain ⟨args, ha, hiff⟩ := fn_iff h (spec := "3".toList) rfl count3 hf
  refine folds_performs hiff fun r t => ?_
  subst he
  simp only [reduceRightP, cadr_args ha, hl.2, Bool.not_true, Bool.false_eq_true, if_false, hl.1.toArray,
    List.getLast?_append, List.getLast?_singleton, Option.some_or, List.dropLast_concat]
  rw [runsP_foldProc, with_eq]
  rfl

/-- Reducing an empty list makes no call and returns the initial value. -/
theorem C69_reduce_empty {x : String} (hx : x ∈ ["reduce", "reduce-left", "reduce-right"]) {init : Data} (he : xs = [])
    (h : Calling C x [f, init, l] d e s s₁) : Returns C d e s init s₁ := by
  subst he
  simp only [List.mem_cons, List.not_mem_nil, or_false] at hx
  rcases hx with rfl | rfl | rfl
  · obtain ⟨args, ha, hiff⟩ := fn_iff h (spec := "3".toList) rfl count3 hf
    refine returns_of hiff fun r t => ?_
    simp only [reduceLeftP, car_args ha, cadr_args ha, hl.2, Bool.not_true, Bool.false_eq_true, if_false, hl.1.toArray, runsP_pure]
  · obtain ⟨args, ha, hiff⟩ := fn_iff h (spec := "3".toList) rfl count3 hf
    refine returns_of hiff fun r t => ?_
    simp only [reduceLeftP, car_args ha, cadr_args ha, hl.2, Bool.not_true, Bool.false_eq_true, if_false, hl.1.toArray, runsP_pure]
  · obtain ⟨args, ha, hiff⟩ := fn_iff h (spec := "3".toList) rfl count3 hf
    refine returns_of hiff fun r t => ?_
    simp only [reduceRightP, car_args ha, cadr_args ha, hl.2, Bool.not_true, Bool.false_eq_true, if_false, hl.1.toArray,
      List.getLast?_nil, runsP_pure]

/-- `filter` keeps the elements answered `#t` and `remove` those answered `#f`, in order. -/
theorem C69_filter_remove {x : String} {want : Bool} (hx : (x, want) ∈ [("filter", true), ("remove", false)]) (hn : Data.null ∉ xs)
    (h : Calling C x [f, l] d e s s₁) :
    ∃ m, Performs C d e s (Selects (fun y => With C f e [y]) want m xs s₁) (fun ys v => NewList v ys) := by
  refine ⟨"filter needs a predicate function as its first argument.", ?_⟩
  obtain ⟨args, ha, hiff⟩ : ∃ args, Lst args [l] ∧ ∀ r t, Evals C d e s r t ↔ ∃ r₀, r = quoting d r₀ ∧
      RunsP (body C) (filterLoopP (fun a => .app f a e) want xs >>= fun r => pure (ofArray r)) s₁ r₀ t := by
    simp only [List.mem_cons, List.not_mem_nil, or_false, Prod.mk.injEq] at hx
    rcases hx with ⟨rfl, rfl⟩ | ⟨rfl, rfl⟩
    · obtain ⟨args, ha, hiff⟩ := fn_iff h (spec := "2".toList) rfl count2 hf
      refine ⟨args, ha, fun r t => ?_⟩
      rw [hiff]
      simp only [filterP, car_args ha, hl.2, Bool.not_true, Bool.false_eq_true, if_false, hl.1.toArray]
    · obtain ⟨args, ha, hiff⟩ := fn_iff h (spec := "2".toList) rfl count2 hf
      refine ⟨args, ha, fun r t => ?_⟩
      rw [hiff]
      simp only [removeP, car_args ha, hl.2, Bool.not_true, Bool.false_eq_true, if_false, hl.1.toArray]
  have hloop := runsP_filterLoop (bd := body C) (f := fun a => .app f a e) want xs hn
  rw [with_eq]
  have hsel : ∀ {ys : List Data} {t}, Selects (fun y => Gives1 (body C) (fun a => .app f a e) [y]) want
      "filter needs a predicate function as its first argument." xs s₁ (.ok ys) t → NewList (ofArray ys) ys := by
    intro ys t hy
    have hsub : ∀ {xs : List Data} {s₁ : Store} {o : Out (List Data)} {t : Store}, Selects (fun y => Gives1 (body C) (fun a => .app f a e) [y]) want
      "filter needs a predicate function as its first argument." xs s₁ o t → ∀ ys, o = .ok ys → ∀ y ∈ ys, y ∈ xs := by
      intro xs s₁ o t h
      induction h with
      | done => intro ys hy; cases hy; simp
      | keep _ _ ih =>
        intro ys hy; cases hy
        intro y hy
        rcases List.mem_cons.1 hy with rfl | hy
        · exact List.mem_cons_self
        · exact List.mem_cons_of_mem _ (ih _ rfl y hy)
      | skip _ _ ih => intro ys hy; cases hy; exact fun y hy => List.mem_cons_of_mem _ (ih _ rfl y hy)
      | odd | err | panic | errLater | panicLater => intro ys hy; cases hy
    have := newList_ofArray ys
    rwa [map_elem_id (fun h0 => hn (hsub hy _ rfl _ h0))] at this
  refine performs_of hiff (fun r t hr => ?_) (fun o t ho => ?_)
  · rw [runsP_bind] at hr
    rcases hr with (⟨vs, s₂, h1, h2⟩ | ⟨er, h1, rfl⟩ | ⟨h1, rfl⟩)
    · obtain ⟨rfl, rfl⟩ := runsP_pure.1 h2
      have h1 := (hloop _ _ _).1 h1
      exact ⟨_, h1, .ok (hsel h1)⟩
    · exact ⟨_, (hloop _ _ _).1 h1, .err⟩
    · exact ⟨_, (hloop _ _ _).1 h1, .panic⟩
  · cases o with
    | ok vs => exact ⟨_, .ok (hsel ho), by rw [runsP_bind]; exact .inl ⟨_, _, (hloop _ _ _).2 ho, runsP_pure.2 ⟨rfl, rfl⟩⟩⟩
    | err er => exact ⟨_, .err, by rw [runsP_bind]; exact .inr (.inl ⟨_, (hloop _ _ _).2 ho, rfl⟩)⟩
    | panic => exact ⟨_, .panic, by rw [runsP_bind]; exact .inr (.inr ⟨(hloop _ _ _).2 ho, rfl⟩)⟩
    | timeout => obtain ⟨_, _, h⟩ := (hloop _ _ _).2 ho; exact absurd rfl h

/-- `find` asks about one element after the other and returns the first answered `#t`, or `#f`. -/
theorem C69_find (h : Calling C "find" [f, l] d e s s₁) : ∃ m, Performs C d e s (Finds (fun y => With C f e [y]) m xs s₁)
    (fun o v => v = match o with | none => .bool false | some p => p.1) := by
  refine ⟨"find needs a predicate function as its first argument.", ?_⟩
  obtain ⟨args, ha, hiff⟩ := fn_iff h (spec := "2".toList) rfl count2 hf
  have hloop := runsP_findLoop (bd := body C) (f := fun a => .app f a e) xs
  have hp : ∀ g, findP g (car args) = findLoopP g xs := by
    intro g; simp only [findP, car_args ha, hl.2, Bool.not_true, Bool.false_eq_true, if_false, hl.1.toArray]
  rw [with_eq]
  refine performs_of hiff (fun r t hr => ?_) (fun o t ho => ?_)
  · rw [hp] at hr
    obtain ⟨o, ho, rfl⟩ := (hloop _ _ _).1 hr
    refine ⟨o, ho, ?_⟩
    cases o with
    | ok b => cases b <;> exact .ok rfl
    | err er => exact .err
    | panic => exact .panic
    | timeout => obtain ⟨_, _, h⟩ := hr; exact absurd rfl h
  · have h1 := (hloop _ _ _).2 ⟨_, ho, rfl⟩
    rw [hp]
    cases o with
    | ok b => cases b <;> exact ⟨_, .ok rfl, h1⟩
    | err er => exact ⟨_, .err, h1⟩
    | panic => exact ⟨_, .panic, h1⟩
    | timeout => obtain ⟨_, _, h⟩ := h1; exact absurd rfl h

/-- `find-tail` and `memp` return the list from that element on. -/
theorem C69_find_tail {x : String} (hx : x ∈ ["find-tail", "memp"]) (h : Calling C x [f, l] d e s s₁) :
    ∃ m, Performs C d e s (Finds (fun y => With C f e [y]) m xs s₁) FoundTail := by
  refine ⟨"find-tail needs a predicate function as its first argument.", ?_⟩
  obtain ⟨args, ha, hiff⟩ : ∃ args, Lst args [l] ∧ ∀ r t, Evals C d e s r t ↔ ∃ r₀, r = quoting d r₀ ∧
      RunsP (body C) (findTailP (fun a => .app f a e) (car args)) s₁ r₀ t := by
    simp only [List.mem_cons, List.not_mem_nil, or_false] at hx
    rcases hx with rfl | rfl <;> exact fn_iff h (spec := "2".toList) rfl count2 hf
  have hloop := runsP_findTailLoop (bd := body C) (f := fun a => .app f a e) hl.1
  have hp : ∀ g, findTailP g (car args) = findTailLoopP g l := by
    intro g; simp only [findTailP, car_args ha, hl.2, Bool.not_true, Bool.false_eq_true, if_false]
  rw [with_eq]
  simp only [hp] at hiff
  exact performs_of hiff (fun r t hr => (hloop _ _ _).1 hr) (fun o t ho => (hloop _ .panic _).2 o ho)

/-- `(partition f l)` asks about every element and returns the list of two lists: those with a true answer and the others. -/
theorem C69_partition (hn : Data.null ∉ xs) (h : Calling C "partition" [f, l] d e s s₁) :
    Performs C d e s (Calls (fun y => With C f e [y]) xs s₁) (fun vs v => ∃ ts fs lt lf, Parted xs vs ts fs ∧
      Lst v [lt, lf] ∧ Lst lt ts ∧ Lst lf fs) := by
  obtain ⟨args, ha, hiff⟩ := calling_iff h (spec := "2".toList) (impl := partitionImpl) rfl count2
  have hi : isInt f = false := by cases f <;> first | rfl | (rename_i a; cases a <;> first | rfl | cases hf)
  have hp : partitionImpl args e = (partPredLoopP (fun a => .app f a e) xs [] [] >>= fun p => pure (ofArray [ofArray p.1, ofArray p.2])) := by
    simp only [partitionImpl, car_args ha, cadr_args ha, hi, hf, hl.2, Bool.not_true, Bool.false_eq_true, if_false, Bool.not_false,
      Bool.and_false, partPredP, hl.1.toArray]
  have hloop := runsP_partLoop (bd := body C) (f := fun a => .app f a e) xs [] []
  have hparts : ∀ {xs vs ts fs : List Data}, Parted xs vs ts fs → Data.null ∉ xs → Data.null ∉ ts ∧ Data.null ∉ fs := by
    intro xs vs ts fs h
    induction h with
    | nil => simp
    | yes _ _ ih => intro hn; simp only [List.mem_cons, not_or] at hn ⊢; exact ⟨⟨hn.1, (ih hn.2).1⟩, (ih hn.2).2⟩
    | no _ _ ih => intro hn; simp only [List.mem_cons, not_or] at hn ⊢; exact ⟨(ih hn.2).1, hn.1, (ih hn.2).2⟩
  have hlst : ∀ {ts : List Data}, Data.null ∉ ts → Lst (ofArray ts) ts := by
    intro ts h0
    have := Lst.ofArray ts; rwa [map_elem_id h0] at this
  have hnn : ∀ ts : List Data, Data.null ≠ ofArray ts := by intro ts; cases ts <;> nofun
  have htwo : ∀ ts fs : List Data, Lst (ofArray [ofArray ts, ofArray fs]) [ofArray ts, ofArray fs] := fun ts fs =>
    hlst (by simp only [List.mem_cons, List.not_mem_nil, or_false, not_or]; exact ⟨hnn ts, hnn fs⟩)
  have hpart : ∀ (xs vs : List Data), xs.length = vs.length → ∃ ts fs, Parted xs vs ts fs := by
    intro xs
    induction xs with
    | nil => intro vs hv; cases vs with | nil => exact ⟨_, _, .nil⟩ | cons => cases hv
    | cons x xs ih =>
      intro vs hv
      cases vs with
      | nil => cases hv
      | cons v vs =>
        obtain ⟨ts, fs, h⟩ := ih vs (by simpa using hv)
        by_cases ht : Truthy v
        · exact ⟨_, _, .yes ht h⟩
        · exact ⟨_, _, .no ht h⟩
  have hlen : ∀ {G : Data → Store → Out Data → Store → Prop} {xs : List Data} {s : Store} {o : Out (List Data)} {t : Store}, Calls G xs s o t →
      ∀ vs, o = .ok vs → xs.length = vs.length := by
    intro G xs s o t h
    induction h with
    | done => intro vs h; cases h; rfl
    | next _ _ ih => intro vs h; cases h; simp [ih _ rfl]
    | err | panic | errLater | panicLater => intro vs h; cases h
  rw [with_eq]
  rw [hp] at hiff
  refine performs_of hiff (fun r t hr => ?_) (fun o t ho => ?_)
  · rw [runsP_bind] at hr
    rcases hr with (⟨p, s₂, h1, h2⟩ | ⟨er, h1, rfl⟩ | ⟨h1, rfl⟩) <;>
      rcases (hloop _ _ _).1 h1 with (⟨vs, us, ws, h3, h4, h5⟩ | ⟨er', h3, h5⟩ | ⟨h3, h5⟩) <;> cases h5
    · obtain ⟨rfl, rfl⟩ := runsP_pure.1 h2
      exact ⟨_, h3, .ok ⟨us, ws, _, _, h4, htwo _ _, hlst (hparts h4 hn).1, hlst (hparts h4 hn).2⟩⟩
    · exact ⟨_, h3, .err⟩
    · exact ⟨_, h3, .panic⟩
  · cases o with
    | ok vs =>
      obtain ⟨us, ws, h4⟩ := hpart xs vs (hlen ho _ rfl)
      exact ⟨_, .ok ⟨us, ws, _, _, h4, htwo _ _, hlst (hparts h4 hn).1, hlst (hparts h4 hn).2⟩, by
        rw [runsP_bind]; exact .inl ⟨_, _, (hloop _ _ _).2 (.inl ⟨_, _, _, ho, h4, rfl⟩), runsP_pure.2 ⟨rfl, rfl⟩⟩⟩
    | err er => exact ⟨_, .err, by rw [runsP_bind]; exact .inr (.inl ⟨_, (hloop _ _ _).2 (.inr (.inl ⟨_, ho, rfl⟩)), rfl⟩)⟩
    | panic => exact ⟨_, .panic, by rw [runsP_bind]; exact .inr (.inr ⟨(hloop _ _ _).2 (.inr (.inr ⟨ho, rfl⟩)), rfl⟩)⟩
    | timeout => cases ho

end one

/-! ### Misuse -/

/-- The first argument must be a procedure. -/
theorem C69_not_procedure {x : String} (hx : x ∈ ["map", "for-each", "any", "every"]) {vs : List Data} (hv : vs ≠ [])
    (hf : isFuncOrPrim f = false) (h : Calling C x (f :: vs) d e s s₁) : Refuses C d e s s₁ := by
  have key : ∀ {m : String} {k : (Data → Prog Data) → Data → Prog Data},
      (std C.host).prims x = some ⟨">=2".toList, false, false, withFn m k⟩ → Refuses C d e s s₁ := by
    intro m k hP
    obtain ⟨args, ha, hiff⟩ := calling_iff h hP (count_ge2 (by cases vs <;> simp_all))
    refine refuses_of hiff (m := m) fun r t => ?_
    simp only [withFn, car_args ha, hf, Bool.not_false, if_true, runsP_fail]
  simp only [List.mem_cons, List.not_mem_nil, or_false] at hx
  rcases hx with rfl | rfl | rfl | rfl <;> exact key rfl

theorem C69_not_procedure_one {x : String} (hx : x ∈ ["reduce", "reduce-left", "reduce-right", "fold-left", "fold-right"]) {a b : Data}
    (hf : isFuncOrPrim f = false) (h : Calling C x [f, a, b] d e s s₁) : Refuses C d e s s₁ := by
  have key : ∀ {m : String} {k : (Data → Prog Data) → Data → Prog Data},
      (std C.host).prims x = some ⟨"3".toList, false, false, withFn m k⟩ → Refuses C d e s s₁ := by
    intro m k hP
    obtain ⟨args, ha, hiff⟩ := calling_iff h hP count3
    refine refuses_of hiff (m := m) fun r t => ?_
    simp only [withFn, car_args ha, hf, Bool.not_false, if_true, runsP_fail]
  simp only [List.mem_cons, List.not_mem_nil, or_false] at hx
  rcases hx with rfl | rfl | rfl | rfl | rfl <;> exact key rfl

theorem C69_not_procedure_two {x : String} (hx : x ∈ ["filter", "remove", "find", "find-tail", "memp"]) {a : Data}
    (hf : isFuncOrPrim f = false) (h : Calling C x [f, a] d e s s₁) : Refuses C d e s s₁ := by
  have key : ∀ {m : String} {k : (Data → Prog Data) → Data → Prog Data},
      (std C.host).prims x = some ⟨"2".toList, false, false, withFn m k⟩ → Refuses C d e s s₁ := by
    intro m k hP
    obtain ⟨args, ha, hiff⟩ := calling_iff h hP count2
    refine refuses_of hiff (m := m) fun r t => ?_
    simp only [withFn, car_args ha, hf, Bool.not_false, if_true, runsP_fail]
  simp only [List.mem_cons, List.not_mem_nil, or_false] at hx
  rcases hx with rfl | rfl | rfl | rfl | rfl <;> exact key rfl

private theorem refuses_fail {p : Prog Data} (h : ∀ r t, Evals C d e s r t ↔ ∃ r₀, r = quoting d r₀ ∧ RunsP (body C) p s₁ r₀ t)
    (hp : ∃ m, p = .fail m) : Refuses C d e s s₁ := by
  obtain ⟨m, rfl⟩ := hp
  exact refuses_of h fun r t => runsP_fail

/-- A non-list among the collections is an error, and the procedure is not called. -/
theorem C69_not_list {x : String} (hx : x ∈ ["for-each", "any", "every"]) {pre post : List Data} {a : Atom} (hf : isFuncOrPrim f = true)
    (h : Calling C x (f :: (pre ++ .atom a :: post)) d e s s₁) : Refuses C d e s s₁ := by
  have hall : Prim.allLists (pre ++ .atom a :: post) = false := by
    clear h
    induction pre with
    | nil => simp [Prim.allLists, isListP, isPair, isAlist]
    | cons p pre ih => simp [Prim.allLists, ih]
  simp only [List.mem_cons, List.not_mem_nil, or_false] at hx
  rcases hx with rfl | rfl | rfl
  all_goals
    obtain ⟨args, ha, hiff⟩ := fn_iff h (spec := ">=2".toList) rfl (count_ge2 (by simp)) hf
    refine refuses_fail hiff ?_
    simp only [forEachP, anyP, everyP, ha.toArray, hall, Bool.not_false, if_true]
    exact ⟨_, rfl⟩

/-- `map` looks at its lists from left to right: a non-list is an error unless an empty list comes before it. -/
theorem C69_map_not_list {ls : List (Data × List Data)} {post : List Data} {a : Atom} (hf : isFuncOrPrim f = true)
    (hl : ∀ p ∈ ls, ListOf p.1 p.2 ∧ p.2 ≠ []) (h : Calling C "map" (f :: (ls.map (·.1) ++ .atom a :: post)) d e s s₁) :
    Refuses C d e s s₁ := by
  obtain ⟨args, ha, hiff⟩ := fn_iff h (spec := ">=2".toList) rfl (count_ge2 (by simp)) hf
  have hscan : Prim.mapScan (ls.map (·.1) ++ .atom a :: post) = some (.err (.msg "map needs lists as its other arguments")) := by
    clear h ha hiff
    induction ls with
    | nil => simp [Prim.mapScan, isListP, isPair, isAlist]
    | cons p ls ih =>
      have h1 := hl p (by simp)
      have hn : isNil p.1 = false := by
        have := h1.1.1.isNil_iff; have := h1.2
        cases hn : isNil p.1 <;> simp_all
      simp only [List.map_cons, List.cons_append, Prim.mapScan, h1.1.2, hn, Bool.not_true, Bool.false_eq_true, if_false]
      exact ih (fun q hq => hl q (List.mem_cons_of_mem _ hq))
  refine refuses_of hiff (m := "map needs lists as its other arguments") fun r t => ?_
  simp only [mapP, ha.toArray, hscan]
  exact runsP_err

/-- The third argument of the folds must be a list. -/
theorem C69_fold_not_list {x : String} (hx : x ∈ ["reduce", "reduce-left", "reduce-right", "fold-left", "fold-right"]) {init : Data} {a : Atom}
    (hf : isFuncOrPrim f = true) (h : Calling C x [f, init, .atom a] d e s s₁) : Refuses C d e s s₁ := by
  have hli : isListP (.atom a) = false := rfl
  simp only [List.mem_cons, List.not_mem_nil, or_false] at hx
  rcases hx with rfl | rfl | rfl | rfl | rfl
  all_goals
    obtain ⟨args, ha, hiff⟩ := fn_iff h (spec := "3".toList) rfl count3 hf
    refine refuses_fail hiff ?_
    simp only [reduceLeftP, reduceRightP, foldLeftP, foldRightP, cadr_args ha, hli, Bool.not_false, if_true]
    exact ⟨_, rfl⟩

/-- The second argument of the selections and searches must be a list. -/
theorem C69_select_not_list {x : String} (hx : x ∈ ["filter", "remove", "find", "find-tail", "memp", "partition"]) {a : Atom}
    (hf : isFuncOrPrim f = true) (h : Calling C x [f, .atom a] d e s s₁) : Refuses C d e s s₁ := by
  have hli : isListP (.atom a) = false := rfl
  simp only [List.mem_cons, List.not_mem_nil, or_false] at hx
  rcases hx with rfl | rfl | rfl | rfl | rfl | rfl
  case _ | _ | _ | _ | _ =>
    obtain ⟨args, ha, hiff⟩ := fn_iff h (spec := "2".toList) rfl count2 hf
    refine refuses_fail hiff ?_
    simp only [filterP, removeP, findP, findTailP, car_args ha, hli, Bool.not_false, if_true]
    exact ⟨_, rfl⟩
  all_goals
    obtain ⟨args, ha, hiff⟩ := calling_iff h (spec := "2".toList) (impl := partitionImpl) rfl count2
    refine refuses_of hiff (m := "partition requires a list as it's second argument.") fun r t => ?_
    simp only [partitionImpl, car_args ha, cadr_args ha, hli, hf, Bool.not_true, Bool.and_false, Bool.false_eq_true, if_false,
      Bool.not_false, if_true]
    exact runsP_fail

/-! ### Examples -/

example : Rows [[.int 1, .int 2, .int 3], [.int 4, .int 5]] [[.int 1, .int 4], [.int 2, .int 5]] :=
  .next [(.int 1, [.int 2, .int 3]), (.int 4, [.int 5])] (.next [(.int 2, [.int 3]), (.int 5, [])] (.stop (by simp)))
example : Calling Demo.C "map" [.atom (.prim "+"), ofArray [.int 1, .int 2], ofArray [.int 4, .int 5]]
    (Demo.code "(map + '(1 2) '(4 5))") 1 Demo.s Demo.s :=
  Demo.calling 10 (b := true) (xs := [.sym "+", Demo.code "'(1 2)", Demo.code "'(4 5)"])
    (us := [.atom (.prim "+"), ofArray [.int 1, .int 2], ofArray [.int 4, .int 5]]) (by decide +kernel) (by decide +kernel)
    (by decide +kernel) (by decide +kernel) rfl (by decide +kernel) (by decide +kernel) rfl
example : Demo.Ends "(map (lambda (x y) (+ x y)) '(1 2 3) '(4 5))" (.ok (ofArray [.int 5, .int 7])) := Demo.ends 20 (by decide +kernel) (by simp)
example : Demo.Ends "(any (lambda (x) (> x 1)) '(1 2 x))" (.ok (.bool true)) := Demo.ends 20 (by decide +kernel) (by simp)
example : Demo.Ends "(every even? '(2 3 x))" (.ok (.bool false)) := Demo.ends 20 (by decide +kernel) (by simp)
example : Demo.Ends "(fold-left - 0 '(1 2 3))" (.ok (.int (-6))) := Demo.ends 20 (by decide +kernel) (by simp)
example : Demo.Ends "(fold-right - 0 '(1 2 3))" (.ok (.int 2)) := Demo.ends 20 (by decide +kernel) (by simp)
example : Demo.Ends "(reduce - 0 '(10 2 3))" (.ok (.int 5)) := Demo.ends 20 (by decide +kernel) (by simp)
example : Demo.Ends "(reduce-right - 0 '(10 2 3))" (.ok (.int 11)) := Demo.ends 20 (by decide +kernel) (by simp)
example : Demo.Ends "(filter even? '(1 2 3 4))" (.ok (ofArray [.int 2, .int 4])) := Demo.ends 20 (by decide +kernel) (by simp)
example : Demo.Ends "(remove even? '(1 2 3 4))" (.ok (ofArray [.int 1, .int 3])) := Demo.ends 20 (by decide +kernel) (by simp)
example : Demo.Ends "(find even? '(1 2 x))" (.ok (.int 2)) := Demo.ends 20 (by decide +kernel) (by simp)
example : Demo.Ends "(partition even? '(1 2 3))" (.ok (ofArray [ofArray [.int 2], ofArray [.int 1, .int 3]])) :=
  Demo.ends 20 (by decide +kernel) (by simp)
example : Demo.Fails "(map 5 '(2))" "\nEvaling (map 5 '(2)). map needs a function as its first argument" := Demo.fails 20 (by decide +kernel)
example : Demo.Fails "(map + 5)" "\nEvaling (map + 5). map needs lists as its other arguments" := Demo.fails 20 (by decide +kernel)

end Golisp.Props
