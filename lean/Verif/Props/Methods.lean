import Verif.CallLemmas
import Verif.LetLemmas
import Verif.Demo
import Verif.Props.Frame
import Verif.Props.Calls
/- C48 (methods). -/
namespace Golisp.Spec
open Golisp Data Ev Frame

/-- Sending the message `k` with argument values `vs` to frame `i`: the inherited function runs with the receiver as its
frame; no such slot, or a slot that holds something else, is an error and nothing happens. -/
inductive Sends (C : Conf) (i : Nat) (k : String) (vs : List Data) (e : Nat) (s : Store) : Out Data → Store → Prop where
  | call {j r s'} : Inherits s.frames k i (.atom (.func j)) → CallsV C j vs e (some i) s r s' → Sends C i k vs e s r s'
  | noSlot {m} : (∀ j, Ancestor s.frames i j → slot s.frames j k = none) → Sends C i k vs e s (.err (.msg m)) s
  | notFunction {v m} : Inherits s.frames k i v → (∀ j, v ≠ .atom (.func j)) → Sends C i k vs e s (.err (.msg m)) s

end Golisp.Spec

namespace Golisp.Props
open Golisp Data Ev Spec Frame

variable {C : Conf} {e : Nat} {s : Store} {r : Out Data} {s' : Store}

private theorem lst_args {xs : List Data} (hn : Data.null ∉ xs) : Lst (ofArray xs) xs := by
  have := Lst.ofArray xs; rwa [map_elem_id hn] at this

private theorem inherits_of_ancestor {F : Frames} {k : String} {i j : Nat} (h : Ancestor F i j) (hs : (slot F j k).isSome = true) :
    ∃ v, Inherits F k i v := by
  induction h with
  | self i =>
    obtain ⟨v, hv⟩ := Option.isSome_iff_exists.mp hs
    exact ⟨v, .own hv⟩
  | @step i p j hp _ ih =>
    cases hv : slot F i k with
    | some v => exact ⟨v, .own hv⟩
    | none =>
      obtain ⟨v, h⟩ := ih hs
      exact ⟨v, .parent hv hp h⟩

private theorem args_det {xs : List Data} {r₁ r₂ : Out (List Data)} {s₁ s₂ : Store} (h₁ : Args C e xs s r₁ s₁) (h₂ : Args C e xs s r₂ s₂) :
    r₁ = r₂ ∧ s₁ = s₂ := runsP_det ((runsP_evalAll xs _ _ _).mpr h₁) ((runsP_evalAll xs _ _ _).mpr h₂)

/-- What `methodOf` finds. -/
inductive Found' (C : Conf) (name : String) (i : Nat) (k : String) (s : Store) : Prop where
  | fn (j : Nat) : Inherits s.frames k i (.atom (.func j)) → RunsP (body C) (methodOf C.host name i k) s (.ok j) s → Found' C name i k s
  | none (m : String) : (∀ j, Ancestor s.frames i j → slot s.frames j k = none) →
      RunsP (body C) (methodOf C.host name i k) s (.err (.msg m)) s → Found' C name i k s
  | other (v : Data) (m : String) : Inherits s.frames k i v → (∀ j, v ≠ .atom (.func j)) →
      RunsP (body C) (methodOf C.host name i k) s (.err (.msg m)) s → Found' C name i k s

theorem found (hord : Reorders C.host.ord) (hok : ParentsOk s.frames) (name : String) (i : Nat) (k : String) : Found' C name i k s := by
  obtain ⟨b, hb, hbi⟩ := C45_has_slot s.frames hok C.host.ord hord i k
  obtain ⟨v, hgv, hn, hz⟩ := C45_get s.frames hok C.host.ord hord i k
  have hh : RunsP (body C) (hasSlotP C.host i k) s (.ok b) s := by
    rw [hasSlotP, runsP_get, hb]; exact runsP_pure.mpr ⟨rfl, rfl⟩
  have hgg : RunsP (body C) (getSlotP C.host i k) s (.ok v) s := by
    rw [getSlotP, runsP_get, hgv]; exact runsP_pure.mpr ⟨rfl, rfl⟩
  cases b with
  | false =>
    refine .none (name ++ " requires an existing slot, but was given " ++ C.host.show s (sym k) ++ ".") (fun j hj => ?_) ?_
    · cases hs : slot s.frames j k with
      | none => rfl
      | some v => exact absurd (hbi.mpr ⟨j, hj, by simp [hs]⟩) (by simp)
    · rw [methodOf, runsP_bind_ok hh]
      simp only [Bool.not_false, if_true, failShow, runsP_get]
      exact runsP_fail.mpr ⟨rfl, rfl⟩
  | true =>
    obtain ⟨j, hj, hs⟩ := hbi.mp rfl
    have hinh : Inherits s.frames k i v := by
      by_cases h0 : v = null
      · obtain ⟨w, hw⟩ := inherits_of_ancestor hj hs
        have := hz h0 w hw
        rw [h0, ← this]; exact hw
      · exact hn h0
    by_cases hf : ∃ j, v = .atom (.func j)
    · obtain ⟨j, rfl⟩ := hf
      refine .fn j hinh ?_
      rw [methodOf, runsP_bind_ok hh]
      simp only [Bool.not_true, Bool.false_eq_true, if_false]
      rw [runsP_bind_ok hgg]; exact runsP_pure.mpr ⟨rfl, rfl⟩
    · refine .other v (name ++ " requires a function slot, but was given a slot containing a " ++ typeName v ++ ".") hinh (fun j hj => hf ⟨j, hj⟩) ?_
      rw [methodOf, runsP_bind_ok hh]
      simp only [Bool.not_true, Bool.false_eq_true, if_false]
      rw [runsP_bind_ok hgg]
      split
      · next j => exact absurd ⟨j, rfl⟩ hf
      · exact runsP_fail.mpr ⟨rfl, rfl⟩

section send
variable {h t : Data} (hs : shortcuts (.cons h t) = .cons h t) (hh : h ≠ .null) {s₁ s₂ : Store}
  (hop : EvalsOp C h e s (.ok (.atom (.prim "send"))) s₁) (hstd : C.prims "send" = (std C.host).prims "send")
  {xs : List Data} (ht : Lst t xs) {i : Nat} {k : String} {vs : List Data} (hk : isNaked (.sym k) = true) (hn : Data.null ∉ vs)
  (hargs : Args C e xs s₁ (.ok (.atom (.frame i) :: .sym k :: vs)) s₂)
  (hord : Reorders C.host.ord) (hok : ParentsOk s₂.frames)
include hs hh hop hstd ht hk hn hargs

private theorem evals_send : ∃ args, Lst args vs ∧ ∀ r s', Evals C (.cons h t) e s r s' ↔ ∃ r₀, r = quoting (.cons h t) r₀ ∧
    RunsP (body C) (do let j ← methodOf C.host "send" i k; callFn j args e (some i) false) s₂ r₀ s' := by
  have hl := lst_args (xs := .atom (.frame i) :: .sym k :: vs) (by simpa using hn)
  refine ⟨_, cdr_Lst (cdr_Lst hl), fun r s' => ?_⟩
  have hlen : xs.length = (Data.atom (.frame i) :: .sym k :: vs).length := hargs.length
  rw [C32_primitive hs hh hop (P := ⟨">=2".toList, false, false, sendImpl C.host⟩) (by rw [hstd]; rfl) rfl rfl ht
    (by rw [hlen]; exact count_ge2 (by simp))]
  refine exists_congr fun r₀ => and_congr Iff.rfl ?_
  have c1 : car (ofArray (.atom (.frame i) :: .sym k :: vs)) = .atom (.frame i) := by rw [car_Lst hl]; rfl
  have c2 : car (cdr (ofArray (.atom (.frame i) :: .sym k :: vs))) = .sym k := by rw [car_Lst (cdr_Lst hl)]; rfl
  have hb : sendImpl C.host (ofArray (.atom (.frame i) :: .sym k :: vs)) e = (do
      let j ← methodOf C.host "send" i k
      callFn j (cdr (cdr (ofArray (.atom (.frame i) :: .sym k :: vs)))) e (some i) false) := by
    simp only [sendImpl, withSlot, c1, c2, hk, Bool.not_true, Bool.false_eq_true, if_false, stringValue]
  constructor
  · rintro (⟨vs', s₃, ha, hr⟩ | ⟨er, ha, _⟩ | ⟨ha, _⟩)
    · obtain ⟨h1, h2⟩ := args_det ha hargs
      cases h1; subst h2
      have hr' : RunsP (body C) (sendImpl C.host (ofArray (.atom (.frame i) :: .sym k :: vs)) e) _ r₀ s' := hr
      rwa [hb] at hr'
    · exact absurd (args_det ha hargs).1 (by simp)
    · exact absurd (args_det ha hargs).1 (by simp)
  · intro hr
    refine Or.inl ⟨_, _, hargs, ?_⟩
    show RunsP (body C) (sendImpl C.host (ofArray (.atom (.frame i) :: .sym k :: vs)) e) s₂ r₀ s'
    rwa [hb]

include hord hok

/-- Whatever `send` does is what `Sends` allows, in whatever order parents are searched. -/
theorem C48_send (hg : ∀ j, Inherits s₂.frames k i (.atom (.func j)) → ∃ fr, s₂.fns[j]? = some fr ∧ GoodFn s₂ fr)
    (hev : Evals C (.cons h t) e s r s') : ∃ r₀, r = quoting (.cons h t) r₀ ∧ Sends C i k vs e s₂ r₀ s' := by
  obtain ⟨args, hl, hiff⟩ := evals_send hs hh hop hstd ht hk hn hargs
  obtain ⟨r₀, rfl, hr⟩ := (hiff r s').mp hev
  refine ⟨r₀, rfl, ?_⟩
  cases found hord hok "send" i k with
  | fn j hj hm =>
    rw [runsP_bind_ok hm] at hr
    obtain ⟨fr, hfr, hgood⟩ := hg j hj
    exact .call hj ((runsP_callFn_values hfr hgood hl).mp hr)
  | none m h0 hm => rw [runsP_bind_err hm] at hr; obtain ⟨rfl, rfl⟩ := hr; exact .noSlot h0
  | other v m h0 h1 hm => rw [runsP_bind_err hm] at hr; obtain ⟨rfl, rfl⟩ := hr; exact .notFunction h0 h1

/-- When the slot seen from the receiver is one function, sending is calling that function with the receiver as frame. -/
theorem C48_send_calls {j : Nat} (hj : Inherits s₂.frames k i (.atom (.func j)))
    (huniq : ∀ v, Inherits s₂.frames k i v → v = .atom (.func j)) {fr : FnRec} (hfr : s₂.fns[j]? = some fr) (hg : GoodFn s₂ fr) :
    Evals C (.cons h t) e s r s' ↔ ∃ r₀, r = quoting (.cons h t) r₀ ∧ CallsV C j vs e (some i) s₂ r₀ s' := by
  obtain ⟨args, hl, hiff⟩ := evals_send hs hh hop hstd ht hk hn hargs
  rw [hiff]
  refine exists_congr fun r₀ => and_congr Iff.rfl ?_
  cases found hord hok "send" i k with
  | fn j' hj' hm =>
    cases huniq _ hj'
    rw [runsP_bind_ok hm]
    exact runsP_callFn_values hfr hg hl
  | none m h0 hm =>
    obtain ⟨j', ha, hs'⟩ := C45_inherited_is_ancestors _ _ _ _ hj
    rw [h0 j' ha] at hs'; cases hs'
  | other v m h0 h1 hm => exact absurd (huniq v h0) (h1 j)

/-- No slot of that name in the receiver or an ancestor: an error, nothing runs. -/
theorem C48_no_slot (hno : ∀ j, Ancestor s₂.frames i j → slot s₂.frames j k = none) :
    ∃ m, ∀ r s', Evals C (.cons h t) e s r s' ↔ r = .err (.evaling (.cons h t) (.msg m)) ∧ s' = s₂ := by
  obtain ⟨args, hl, hiff⟩ := evals_send hs hh hop hstd ht hk hn hargs
  cases found hord hok "send" i k with
  | none m h0 hm =>
    refine ⟨m, fun r s' => ?_⟩
    rw [hiff]
    simp only [runsP_bind_err hm]
    constructor
    · rintro ⟨_, rfl, rfl, rfl⟩; exact ⟨rfl, rfl⟩
    · rintro ⟨rfl, rfl⟩; exact ⟨_, rfl, rfl, rfl⟩
  | fn j hj hm =>
    obtain ⟨j', ha, hs'⟩ := C45_inherited_is_ancestors _ _ _ _ hj
    rw [hno j' ha] at hs'; cases hs'
  | other v m h0 h1 hm =>
    obtain ⟨j', ha, hs'⟩ := C45_inherited_is_ancestors _ _ _ _ h0
    rw [hno j' ha] at hs'; cases hs'

/-- A slot holding anything but a function: an error, nothing runs. -/
theorem C48_not_function {v : Data} (hv : Inherits s₂.frames k i v) (hnf : ∀ v, Inherits s₂.frames k i v → ∀ j, v ≠ .atom (.func j)) :
    ∃ m, ∀ r s', Evals C (.cons h t) e s r s' ↔ r = .err (.evaling (.cons h t) (.msg m)) ∧ s' = s₂ := by
  obtain ⟨args, hl, hiff⟩ := evals_send hs hh hop hstd ht hk hn hargs
  cases found hord hok "send" i k with
  | other v' m h0 h1 hm =>
    refine ⟨m, fun r s' => ?_⟩
    rw [hiff]
    simp only [runsP_bind_err hm]
    constructor
    · rintro ⟨_, rfl, rfl, rfl⟩; exact ⟨rfl, rfl⟩
    · rintro ⟨rfl, rfl⟩; exact ⟨_, rfl, rfl, rfl⟩
  | fn j hj hm => exact absurd rfl (hnf _ hj j)
  | none m h0 hm =>
    obtain ⟨j', ha, hs'⟩ := C45_inherited_is_ancestors _ _ _ _ hv
    rw [h0 j' ha] at hs'; cases hs'

end send

/-- The environment a method runs in: `self` is the receiver (unless a parameter has that name), and the receiver is the
environment's frame. -/
theorem C48_self {p : Nat} {pr : EnvRec} {i : Nat} {name : String} {slot : Bool} {ps : List String} {rest : Option String}
    {vs : List Data} (hp : "self" ∉ ps) (hr : rest ≠ some "self") :
    (pushEnv s p pr (some i) name (selfBind s slot (some i) e ++ paramBinds ps rest vs)).localB s.envs.length "self" =
        some ⟨.atom (.frame i), false⟩ ∧
      (pushEnv s p pr (some i) name (selfBind s slot (some i) e ++ paramBinds ps rest vs)).frameOf s.envs.length = some i := by
  constructor
  · rw [pushEnv_localB, alGet_binds]
    have : (paramBinds ps rest vs).reverse.find? (·.1 == "self") = none := by
      rw [List.find?_eq_none]
      intro q hq hqx
      simp only [beq_iff_eq] at hqx
      rcases List.mem_append.mp (List.mem_reverse.mp hq) with hq | hq
      · exact hp (hqx ▸ (List.of_mem_zip (a := q.1) (b := q.2) hq).1)
      · cases rest with
        | none => simp at hq
        | some y => simp only [List.mem_singleton] at hq; subst hq; exact hr (by rw [← hqx])
    simp only [selfBind, List.cons_append, List.nil_append, List.reverse_cons, List.find?_append, this]
    rfl
  · simp [Store.frameOf, pushEnv]

/-- In an environment with frame `i`, a name that is not local and has a slot is that slot's value, as seen from `i`. -/
theorem C48_slot_variable (hord : Reorders C.host.ord) (hok : ParentsOk s.frames) {x : String} (hx : isNaked (.sym x) = false)
    (hl : s.localB e x = none) {i : Nat} (hi : s.frameOf e = some i) {v : Data} (hv : Inherits s.frames (nakedName x) i v)
    (huniq : ∀ w, Inherits s.frames (nakedName x) i w → w = v) (hf : ∀ j, v ≠ .atom (.func j)) :
    Evals C (.sym x) e s r s' ↔ r = .ok v ∧ s' = s := by
  rw [← evals_sym hx, valueOf, runsP_get]
  obtain ⟨b, hb, hbi⟩ := C45_has_slot s.frames hok C.host.ord hord i (nakedName x)
  obtain ⟨w, hw, hn, hz⟩ := C45_get s.frames hok C.host.ord hord i (nakedName x)
  obtain ⟨j, ha, hs⟩ := C45_inherited_is_ancestors _ _ _ _ hv
  obtain rfl := hbi.mpr ⟨j, ha, by simp [hs]⟩
  have : w = v := by
    by_cases h0 : w = null
    · rw [h0, hz h0 v hv]
    · exact huniq w (hn h0)
  subst this
  have hs : slotOf C.host s e x = .ok (some (i, w)) := by simp [slotOf, hi, hb, hw]
  simp only [hl, hs]
  have ho : RunsP (body C) (Prog.ofOut (.ok (some (i, w)))) s (.ok (some (i, w))) s := runsP_pure.mpr ⟨rfl, rfl⟩
  rw [runsP_bind_ok ho]
  have : isFunc w = false := by
    cases w with
    | atom a => cases a <;> first | rfl | exact absurd rfl (hf _)
    | _ => rfl
  simp only [this, Bool.false_eq_true, if_false, Bool.not_false, if_true]
  exact runsP_pure

/-- `(k:> f arg…)` is `(send f k: arg…)`. -/
theorem C48_shortcut {k : String} {f t : Data} (hk : ("<-".toList).isPrefixOf (k ++ ":>").toList = false) (hf : f ≠ .null) :
    Evals C (.cons (.sym (k ++ ":>")) (.cons f t)) e s r s' ↔ Evals C (.cons (.sym "send") (.cons f (.cons (.sym (k ++ ":")) t))) e s r s' := by
  have h1 : shortcuts (.cons (.sym (k ++ ":>")) (.cons f t)) = .cons (.sym "send") (.cons f (.cons (.sym (k ++ ":")) t)) := by
    simp only [shortcuts, car, shortcutCases, hk]
    simp [stripSuffix, List.isSuffixOf, listWithTail, noNull, cdr]
    apply String.ext
    simp only [String.toList_ofList, String.toList_append, List.take_append]
    rw [List.take_of_length_le (by simp)]
    simp
  have h2 : ∀ t, shortcuts (.cons (.sym "send") t) = .cons (.sym "send") t := fun _ => rfl
  unfold Evals
  rw [runs_iff, runs_iff]
  simp only [body, evalHelper, h1, h2]

section
open Demo
/-- A state with a child and a parent frame that meets the hypotheses. -/
private def classes : Store := (run 40 "(begin (define a {x: 1 get: (lambda (n) (list x n))}) (define b {p*: a x: 2}))").2
private theorem classes_frames : classes.frames =
    [[("x:", int 1), ("get:", .atom (.func 0))], [("p*:", .atom (.frame 0)), ("x:", int 2)]] := by decide +kernel
example : Reorders Demo.C.host.ord := fun _ _ _ => Iff.rfl
example : ParentsOk classes.frames := by
  rw [classes_frames]
  intro i k v hk hm
  match i with
  | 0 | 1 => all_goals
      simp [Frame.get?] at hm
      rcases hm with ⟨rfl, rfl⟩ | ⟨rfl, rfl⟩ <;> first | exact Or.inr ⟨_, rfl⟩ | exact absurd hk (by decide)
  | i + 2 => simp [Frame.get?] at hm
example : Inherits classes.frames "get:" 1 (.atom (.func 0)) := by
  rw [classes_frames]
  exact .parent (p := 0) (by decide) ⟨"p*:", by decide, by simp [Frame.get?]⟩ (.own (by decide))
example : ∃ fr, classes.fns[0]? = some fr ∧ GoodFn classes fr :=
  ⟨⟨"unnamed", cons (sym "n") null, code "((list x n))", 1, false⟩, by decide +kernel,
    ⟨⟨"top", some 0, [("a", ⟨.atom (.frame 0), false⟩), ("b", ⟨.atom (.frame 1), false⟩)], none, false⟩, by decide +kernel⟩,
    ⟨["n"], none, .cons (.none .null), by simp⟩,
    ⟨[code "(list x n)"], by
      rw [show code "((list x n))" = cons (code "(list x n)") null from by decide +kernel]
      exact .cons _ _ _ _ (by decide +kernel) (by simp) .null⟩⟩
/-- The method found in the parent sees the receiver's slot. -/
example : Ends "(begin (define a {x: 1 get: (lambda (n) (list x n))}) (define b {p*: a x: 2}) (send b get: 7))" (.ok (ofArray [int 2, int 7])) :=
  ends 40 (by decide +kernel) (by simp)
example : Ends "(begin (define a {me: (lambda () self)}) (define b {p*: a}) (eq? (me:> b) b))" (.ok (.bool true)) :=
  ends 40 (by decide +kernel) (by simp)
example : Fails "(send {x: 1} y:)" "\nEvaling (send (make-frame x: 1) y:). send requires an existing slot, but was given y:." :=
  fails 40 (by decide +kernel)
example : Fails "(send {x: 1} x:)"
    "\nEvaling (send (make-frame x: 1) x:). send requires a function slot, but was given a slot containing a Integer." :=
  fails 40 (by decide +kernel)
end

end Golisp.Props
