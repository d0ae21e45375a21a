import Verif.LispLemmas
import Verif.Props.Methods
/- C66: the frame primitives as called from Lisp code. -/
namespace Golisp.Spec
open Golisp Data Ev Frame

/-- The values alternate between naked symbols and slot values. -/
inductive KeysAndValues : List Data → List (String × Data) → Prop where
  | nil : KeysAndValues [] []
  | cons {k v vs kvs} : isNaked (.sym k) = true → KeysAndValues vs kvs → KeysAndValues (.sym k :: v :: vs) ((k, v) :: kvs)

/-- The value given last for `k`. -/
def lastFor (kvs : List (String × Data)) (k : String) : Option Data := (kvs.reverse.find? (·.1 == k)).map (·.2)

/-- `s'` differs from `s` at most in the slots of frames. -/
def SameButFrames (s s' : Store) : Prop := s' = { s with frames := s'.frames }

/-- A value of slot `k` as seen from some parent of `i`. -/
def FromParent (F : Frames) (k : String) (i : Nat) (v : Data) : Prop := ∃ p, Parent F i p ∧ Inherits F k p v

end Golisp.Spec

namespace Golisp.Props
open Golisp Data Ev Spec Frame

variable {C : Conf} {e : Nat} {s s₁ : Store} {d : Data}

private theorem count_exact1 : Arity.checkArgumentCount (Arity.parseNumArgs "1".toList) 1 = true := by decide
private theorem count_exact2 : Arity.checkArgumentCount (Arity.parseNumArgs "2".toList) 2 = true := by decide
private theorem count_exact3 : Arity.checkArgumentCount (Arity.parseNumArgs "3".toList) 3 = true := by decide
private theorem count_star (n : Nat) : Arity.checkArgumentCount (Arity.parseNumArgs "*".toList) n = true := by
  have : Arity.parseNumArgs "*".toList = [.any] := by decide
  rw [this]; rfl
private theorem count_ge1' (n : Nat) : Arity.checkArgumentCount (Arity.parseNumArgs ">=1".toList) (n + 1) = true := by
  have := count_ge1 (xs := List.replicate (n + 1) .null) (by simp)
  simpa using this

private theorem runs_failShow {α : Type} {m n : String} {x : Data} {r : Out α} {t : Store} :
    RunsP (body C) (failShow C.host m x n) s r t ↔ r = .err (.msg (m ++ C.host.show s x ++ n)) ∧ t = s := by
  simp only [failShow, runsP_get]; exact runsP_fail

private theorem isSome_inherits {F : Frames} {k : String} {i j : Nat} (h : Ancestor F i j) (hs : (slot F j k).isSome = true) :
    ∃ v, Inherits F k i v := by
  induction h with
  | self i =>
    obtain ⟨v, hv⟩ := Option.isSome_iff_exists.mp hs
    exact ⟨v, .own hv⟩
  | @step i p j hp _ ih =>
    cases hv : slot F i k with
    | some v => exact ⟨v, .own hv⟩
    | none => obtain ⟨v, h⟩ := ih hs; exact ⟨v, .parent hv hp h⟩

/-! ### Making frames -/

private theorem frameSlots_runs {vs : List Data} {kvs : List (String × Data)} (h : KeysAndValues vs kvs) (m : FrameMap) :
    frameSlots C.host vs m = pure (kvs.foldl (fun m b => alSet m b.1 b.2) m) := by
  induction h generalizing m with
  | nil => rfl
  | cons hk _ ih => simp only [frameSlots, hk, Bool.not_true, Bool.false_eq_true, if_false, stringValue, ih, List.foldl_cons]

private theorem alGet_foldl (kvs : List (String × Data)) (m : FrameMap) (k : String) :
    alGet (kvs.foldl (fun m b => alSet m b.1 b.2) m) k = (lastFor kvs k).or (alGet m k) := by
  induction kvs generalizing m with
  | nil => rfl
  | cons b kvs ih =>
    simp only [List.foldl_cons, ih, lastFor, List.reverse_cons, List.find?_append, alGet_set, List.find?_cons, List.find?_nil]
    cases List.find? (fun x => x.1 == k) kvs.reverse with
    | some q => rfl
    | none =>
      by_cases hb : b.1 = k
      · simp [hb]
      · have : ¬ k = b.1 := fun h => hb h.symm
        have hf : (b.1 == k) = false := by simp [hb]
        simp [this, hf]

/-- `(make-frame k: v …)` and `{k: v …}` return a new frame whose slots are the given ones, a key given twice having the last
value; no other frame and nothing else changes. -/
theorem C66_make_frame {vs : List Data} (h : Calling C "make-frame" vs d e s s₁) {kvs : List (String × Data)} (hkv : KeysAndValues vs kvs) :
    ∃ s₂, Returns C d e s (.atom (.frame s₁.frames.length)) s₂ ∧ SameButFrames s₁ s₂ ∧ s₂.frames.length = s₁.frames.length + 1 ∧
      (∀ k, slot s₂.frames s₁.frames.length k = lastFor kvs k) ∧ ∀ j k, j < s₁.frames.length → slot s₂.frames j k = slot s₁.frames j k := by
  obtain ⟨args, hl, hiff⟩ := calling_iff h (spec := "*".toList) (impl := makeFrameImpl C.host) rfl (count_star _)
  have hev : length args % 2 = 0 := by
    rw [hl.length]; clear h hl hiff
    induction hkv with
    | nil => rfl
    | cons _ _ ih => simp only [List.length_cons]; omega
  refine ⟨{ s₁ with frames := s₁.frames ++ [kvs.foldl (fun m b => alSet m b.1 b.2) []] }, returns_of hiff fun r t => ?_, rfl, by simp, fun k => ?_, fun j k hj => ?_⟩
  · rw [makeFrameImpl, if_neg (by simp [hev]), hl.toArray, frameSlots_runs hkv]
    have h1 : RunsP (body C) (pure (kvs.foldl (fun m b => alSet m b.1 b.2) []) : Prog FrameMap) s₁ (.ok _) s₁ := runsP_pure.mpr ⟨rfl, rfl⟩
    rw [runsP_bind_ok h1, runsP_op_bind (n := s₁.frames.length) rfl]
    exact runsP_pure
  · simp only [slot, Frame.get?, List.getElem?_concat_length, Option.getD_some, alGet_foldl]
    simp [alGet]
  · simp [slot, Frame.get?, List.getElem?_append_left hj]

/-- An odd number of arguments is an error; no frame is made. -/
theorem C66_make_frame_odd {vs : List Data} (h : Calling C "make-frame" vs d e s s₁) (ho : vs.length % 2 = 1) : Refuses C d e s s₁ := by
  obtain ⟨args, hl, hiff⟩ := calling_iff h (spec := "*".toList) (impl := makeFrameImpl C.host) rfl (count_star _)
  refine refuses_of hiff (m := "Frames must be initialized with an even number of arguments.") fun r t => ?_
  rw [makeFrameImpl, if_pos (by rw [hl.length, ho]; simp)]
  exact runsP_fail

/-- A key that is not a naked symbol is an error; no frame is made. -/
theorem C66_make_frame_key {vs pre post : List Data} {kvs : List (String × Data)} {k v : Data} (h : Calling C "make-frame" vs d e s s₁)
    (hvs : vs = pre ++ k :: v :: post) (hpre : KeysAndValues pre kvs) (hk : isNaked k = false) (he : vs.length % 2 = 0) : Refuses C d e s s₁ := by
  obtain ⟨args, hl, hiff⟩ := calling_iff h (spec := "*".toList) (impl := makeFrameImpl C.host) rfl (count_star _)
  refine refuses_of hiff (m := "Frame keys must be naked symbols, but was given " ++ C.host.show s₁ k ++ ".") fun r t => ?_
  rw [makeFrameImpl, if_neg (by rw [hl.length, he]; simp), hl.toArray, hvs]
  have : ∀ m, frameSlots C.host (pre ++ k :: v :: post) m = failShow C.host "Frame keys must be naked symbols, but was given " k "." := by
    intro m
    clear hvs h
    induction hpre generalizing m with
    | nil => simp [frameSlots, hk]
    | cons hn _ ih => simp only [List.cons_append, frameSlots, hn, Bool.not_true, Bool.false_eq_true, if_false, ih]
  rw [this]
  have hf : RunsP (body C) (failShow C.host "Frame keys must be naked symbols, but was given " k "." : Prog FrameMap) s₁ (.err _) s₁ :=
    runs_failShow.mpr ⟨rfl, rfl⟩
  rw [runsP_bind_err hf]

/-! ### Reading slots -/

section lookup
variable {i : Nat} {k : String} (hk : isNaked (.sym k) = true) (hord : Reorders C.host.ord) (hok : ParentsOk s₁.frames)

private theorem has_runs (hord : Reorders C.host.ord) (hok : ParentsOk s₁.frames) : ∃ b, RunsP (body C) (hasSlotP C.host i k) s₁ (.ok b) s₁ ∧
    (b = true ↔ ∃ j, Ancestor s₁.frames i j ∧ (slot s₁.frames j k).isSome) := by
  obtain ⟨b, hb, hbi⟩ := C45_has_slot s₁.frames hok C.host.ord hord i k
  exact ⟨b, by rw [hasSlotP, runsP_get, hb]; exact runsP_pure.mpr ⟨rfl, rfl⟩, hbi⟩

private theorem get_runs (hord : Reorders C.host.ord) (hok : ParentsOk s₁.frames) : ∃ v, (∀ r t, RunsP (body C) (getSlotP C.host i k) s₁ r t ↔ r = .ok v ∧ t = s₁) ∧
    ((∃ w, Inherits s₁.frames k i w) → Inherits s₁.frames k i v) ∧ ((∀ w, ¬ Inherits s₁.frames k i w) → v = null) := by
  obtain ⟨v, hv, hn, hz⟩ := C45_get s₁.frames hok C.host.ord hord i k
  refine ⟨v, fun r t => ?_, fun ⟨w, hw⟩ => ?_, fun hno => ?_⟩
  · rw [getSlotP, runsP_get, hv]; exact runsP_pure
  · by_cases h0 : v = null
    · have := hz h0 w hw; rw [h0, ← this]; exact hw
    · exact hn h0
  · by_cases h0 : v = null
    · exact h0
    · exact absurd (hn h0) (hno v)

include hk hord hok

/-- `(has-slot? f k:)` is true exactly when the frame or an ancestor has the slot. -/
theorem C66_has_slot (h : Calling C "has-slot?" [.atom (.frame i), .sym k] d e s s₁) :
    ∃ b, Returns C d e s (.bool b) s₁ ∧ (b = true ↔ ∃ j, Ancestor s₁.frames i j ∧ (slot s₁.frames j k).isSome) := by
  obtain ⟨args, hl, hiff⟩ := calling_iff h (spec := "2".toList) (impl := hasSlotImpl C.host) rfl count_exact2
  obtain ⟨b, hb, hbi⟩ := has_runs (k := k) (i := i) hord hok
  refine ⟨b, returns_of hiff fun r t => ?_, hbi⟩
  simp only [hasSlotImpl, withSlot, car_args hl, cadr_args hl, hk, Bool.not_true, Bool.false_eq_true, if_false, stringValue]
  rw [runsP_bind_ok hb]
  exact runsP_pure

/-- `(get-slot f k:)` of a slot the frame or an ancestor has is a value inherited by the frame. -/
theorem C66_get_slot (h : Calling C "get-slot" [.atom (.frame i), .sym k] d e s s₁) (hv : ∃ v, Inherits s₁.frames k i v) :
    ∃ v, Inherits s₁.frames k i v ∧ Returns C d e s v s₁ := by
  obtain ⟨args, hl, hiff⟩ := calling_iff h (spec := "2".toList) (impl := getSlotImpl C.host) rfl count_exact2
  obtain ⟨b, hb, hbi⟩ := has_runs (k := k) (i := i) hord hok
  obtain ⟨v, hr, hin, _⟩ := get_runs (k := k) (i := i) hord hok
  refine ⟨v, hin hv, returns_of hiff fun r t => ?_⟩
  obtain ⟨w, hw⟩ := hv
  obtain ⟨j, ha, hs⟩ := C45_inherited_is_ancestors _ _ _ _ hw
  obtain rfl : b = true := hbi.mpr ⟨j, ha, by simp [hs]⟩
  simp only [getSlotImpl, withSlot, car_args hl, cadr_args hl, hk, Bool.not_true, Bool.false_eq_true, if_false, stringValue]
  rw [runsP_bind_ok hb]
  exact hr r t

/-- `(get-slot f k:)` of a slot that neither the frame nor an ancestor has is an error. -/
theorem C66_get_slot_absent (h : Calling C "get-slot" [.atom (.frame i), .sym k] d e s s₁)
    (hno : ∀ j, Ancestor s₁.frames i j → slot s₁.frames j k = none) : Refuses C d e s s₁ := by
  obtain ⟨args, hl, hiff⟩ := calling_iff h (spec := "2".toList) (impl := getSlotImpl C.host) rfl count_exact2
  obtain ⟨b, hb, hbi⟩ := has_runs (k := k) (i := i) hord hok
  obtain rfl : b = false := by
    cases b with
    | false => rfl
    | true => obtain ⟨j, ha, hs⟩ := hbi.mp rfl; rw [hno j ha] at hs; cases hs
  refine refuses_of hiff (m := "get-slot requires an existing slot, but was given " ++ C.host.show s₁ (.sym k) ++ ".") fun r t => ?_
  simp only [getSlotImpl, withSlot, car_args hl, cadr_args hl, hk, Bool.not_true, Bool.false_eq_true, if_false, stringValue]
  rw [runsP_bind_ok hb]
  exact runs_failShow

/-- `(get-slot-or-nil f k:)` is the same value, or nil when there is no such slot. -/
theorem C66_get_slot_or_nil (h : Calling C "get-slot-or-nil" [.atom (.frame i), .sym k] d e s s₁) :
    ∃ v, Returns C d e s v s₁ ∧ (Inherits s₁.frames k i v ∨ v = null ∧ ∀ j, Ancestor s₁.frames i j → slot s₁.frames j k = none) := by
  obtain ⟨args, hl, hiff⟩ := calling_iff h (spec := "2".toList) (impl := getSlotOrNilImpl C.host) rfl count_exact2
  obtain ⟨v, hr, hin, hno⟩ := get_runs (k := k) (i := i) hord hok
  refine ⟨v, returns_of hiff fun r t => ?_, ?_⟩
  · simp only [getSlotOrNilImpl, withSlot, car_args hl, cadr_args hl, hk, Bool.not_true, Bool.false_eq_true, if_false, stringValue]
    exact hr r t
  · by_cases hx : ∃ w, Inherits s₁.frames k i w
    · exact .inl (hin hx)
    · refine .inr ⟨hno fun w hw => hx ⟨w, hw⟩, fun j ha => ?_⟩
      cases hs : slot s₁.frames j k with
      | none => rfl
      | some w => exact absurd (isSome_inherits ha (by simp [hs])) hx

end lookup

/-! ### Changing slots -/

section change
variable {i : Nat} {k : String} (hk : isNaked (.sym k) = true)
include hk

/-- `(set-slot! f k: v)` returns `v`; afterwards that slot of that frame itself is `v` and no other slot of any frame has
changed, nor anything else. -/
theorem C66_set_slot (hi : i < s₁.frames.length) {v : Data} (h : Calling C "set-slot!" [.atom (.frame i), .sym k, v] d e s s₁) :
    ∃ s₂, Returns C d e s v s₂ ∧ SameButFrames s₁ s₂ ∧ s₂.frames.length = s₁.frames.length ∧
      slot s₂.frames i k = some v ∧ ∀ j x, (j, x) ≠ (i, k) → slot s₂.frames j x = slot s₁.frames j x := by
  obtain ⟨args, hl, hiff⟩ := calling_iff h (spec := "3".toList) (impl := setSlotImpl C.host) rfl count_exact3
  refine ⟨{ s₁ with frames := Frame.set s₁.frames i k v }, returns_of hiff fun r t => ?_, rfl, by simp [Frame.set], ?_, fun j x hne => ?_⟩
  · simp only [setSlotImpl, withSlot, car_args hl, cadr_args hl, caddr_args hl, hk, Bool.not_true, Bool.false_eq_true, if_false, stringValue]
    rw [runsP_op_bind (n := 0) rfl]
    exact runsP_pure
  · rw [C46_set_local _ _ hi]; simp
  · rw [C46_set_local _ _ hi, if_neg]
    rintro ⟨rfl, rfl⟩; exact hne rfl

/-- `(remove-slot! f k:)` tells whether the frame itself had the slot; afterwards it does not, and nothing else has changed. -/
theorem C66_remove_slot (h : Calling C "remove-slot!" [.atom (.frame i), .sym k] d e s s₁) :
    ∃ s₂, Returns C d e s (.bool (slot s₁.frames i k).isSome) s₂ ∧ SameButFrames s₁ s₂ ∧ s₂.frames.length = s₁.frames.length ∧
      slot s₂.frames i k = none ∧ ∀ j x, (j, x) ≠ (i, k) → slot s₂.frames j x = slot s₁.frames j x := by
  obtain ⟨args, hl, hiff⟩ := calling_iff h (spec := "2".toList) (impl := removeSlotImpl C.host) rfl count_exact2
  refine ⟨{ s₁ with frames := (Frame.remove s₁.frames i k).2 }, returns_of hiff fun r t => ?_, rfl, ?_, ?_, fun j x hne => ?_⟩
  · simp only [removeSlotImpl, withSlot, car_args hl, cadr_args hl, hk, Bool.not_true, Bool.false_eq_true, if_false, stringValue]
    rw [if_neg (by simp [isNil]), runsP_op_bind rfl]
    have := C46_remove_local s₁.frames i k i k
    have hb : ((if (Frame.remove s₁.frames i k).1 = true then 1 else 0 : Nat) == 1) = (slot s₁.frames i k).isSome := by
      cases hb : (Frame.remove s₁.frames i k).1 <;> cases hs : (slot s₁.frames i k).isSome <;> simp_all
    rw [hb]
    exact runsP_pure
  · unfold Frame.remove; split <;> simp
  · rw [(C46_remove_local _ _ _ _ _).2]; simp
  · rw [(C46_remove_local _ _ _ _ _).2, if_neg]
    rintro ⟨rfl, rfl⟩; exact hne rfl

end change

/-- `(remove-slot! nil k:)` is false. -/
theorem C66_remove_slot_nil {x y : Data} (hx : isNil x = true) (h : Calling C "remove-slot!" [x, y] d e s s₁) : Returns C d e s (.bool false) s₁ := by
  obtain ⟨args, hl, hiff⟩ := calling_iff h (spec := "2".toList) (impl := removeSlotImpl C.host) rfl count_exact2
  refine returns_of hiff fun r t => ?_
  rw [removeSlotImpl, car_args hl, if_pos hx]
  exact runsP_pure

/-- `(clone f)` returns a new frame with the slots of `f`; no existing frame changes. -/
theorem C66_clone {i : Nat} (h : Calling C "clone" [.atom (.frame i)] d e s s₁) :
    ∃ s₂, Returns C d e s (.atom (.frame s₁.frames.length)) s₂ ∧ SameButFrames s₁ s₂ ∧ s₂.frames.length = s₁.frames.length + 1 ∧
      (∀ k, slot s₂.frames s₁.frames.length k = slot s₁.frames i k) ∧ ∀ j k, j < s₁.frames.length → slot s₂.frames j k = slot s₁.frames j k := by
  obtain ⟨args, hl, hiff⟩ := calling_iff h (spec := "1".toList) (impl := cloneImpl C.host) rfl count_exact1
  refine ⟨{ s₁ with frames := s₁.frames ++ [Frame.get? s₁.frames i] }, returns_of hiff fun r t => ?_, rfl, by simp, fun k => ?_, fun j k hj => ?_⟩
  · simp only [cloneImpl, car_args hl, runsP_get]
    rw [runsP_op_bind (n := s₁.frames.length) rfl]
    exact runsP_pure
  · simp [slot, Frame.get?]
  · simp [slot, Frame.get?, List.getElem?_append_left hj]

/-! ### Wrong arguments -/

/-- A first argument that is not a frame is an error, and nothing changes. -/
theorem C66_not_frame {x : String} {vs : List Data} {f : Data} (hf : ∀ i, f ≠ .atom (.frame i)) (h : Calling C x (f :: vs) d e s s₁)
    (hx : ((x = "has-slot?" ∨ x = "get-slot" ∨ x = "get-slot-or-nil") ∧ vs.length = 1) ∨ (x = "remove-slot!" ∧ vs.length = 1 ∧ isNil f = false) ∨
      (x = "set-slot!" ∧ vs.length = 2) ∨ (x = "clone" ∧ vs = [])) : Refuses C d e s s₁ := by
  have hw : ∀ {args : Data}, Lst args (f :: vs) → ∀ (name : String) (k : Nat → String → Prog Data),
      withSlot C.host name k args = failShow C.host (name ++ " requires a frame as it's first argument, but was given ") f "." := by
    intro args hl name k
    simp only [withSlot, car_args hl]
  rcases hx with ⟨rfl | rfl | rfl, hn⟩ | ⟨rfl, hn, hz⟩ | ⟨rfl, hn⟩ | ⟨rfl, rfl⟩
  · obtain ⟨args, hl, hiff⟩ := calling_iff h (spec := "2".toList) (impl := hasSlotImpl C.host) rfl (by simp only [List.length_cons, hn]; exact count_exact2)
    exact refuses_of hiff fun r t => by rw [hasSlotImpl, hw hl]; exact runs_failShow
  · obtain ⟨args, hl, hiff⟩ := calling_iff h (spec := "2".toList) (impl := getSlotImpl C.host) rfl (by simp only [List.length_cons, hn]; exact count_exact2)
    exact refuses_of hiff fun r t => by rw [getSlotImpl, hw hl]; exact runs_failShow
  · obtain ⟨args, hl, hiff⟩ := calling_iff h (spec := "2".toList) (impl := getSlotOrNilImpl C.host) rfl (by simp only [List.length_cons, hn]; exact count_exact2)
    exact refuses_of hiff fun r t => by rw [getSlotOrNilImpl, hw hl]; exact runs_failShow
  · obtain ⟨args, hl, hiff⟩ := calling_iff h (spec := "2".toList) (impl := removeSlotImpl C.host) rfl (by simp only [List.length_cons, hn]; exact count_exact2)
    exact refuses_of hiff fun r t => by rw [removeSlotImpl, car_args hl, if_neg (by simp [hz]), hw hl]; exact runs_failShow
  · obtain ⟨args, hl, hiff⟩ := calling_iff h (spec := "3".toList) (impl := setSlotImpl C.host) rfl (by simp only [List.length_cons, hn]; exact count_exact3)
    exact refuses_of hiff fun r t => by rw [setSlotImpl, hw hl]; exact runs_failShow
  · obtain ⟨args, hl, hiff⟩ := calling_iff h (spec := "1".toList) (impl := cloneImpl C.host) rfl count_exact1
    exact refuses_of hiff fun r t => by simp only [cloneImpl, car_args hl]; exact runs_failShow

/-- A slot name that is not a naked symbol is an error, and nothing changes. -/
theorem C66_not_key {x : String} {i : Nat} {k : Data} {vs : List Data} (hk : isNaked k = false) (h : Calling C x (.atom (.frame i) :: k :: vs) d e s s₁)
    (hx : ((x = "has-slot?" ∨ x = "get-slot" ∨ x = "get-slot-or-nil" ∨ x = "remove-slot!") ∧ vs = []) ∨ (x = "set-slot!" ∧ vs.length = 1)) :
    Refuses C d e s s₁ := by
  have hw : ∀ {args : Data}, Lst args (.atom (.frame i) :: k :: vs) → ∀ (name : String) (g : Nat → String → Prog Data),
      withSlot C.host name g args = failShow C.host (name ++ " requires a naked symbol as it's second argument, but was given ") k "." := by
    intro args hl name g
    simp only [withSlot, car_args hl, cadr_args hl, hk, Bool.not_false, if_true]
  rcases hx with ⟨rfl | rfl | rfl | rfl, rfl⟩ | ⟨rfl, hn⟩
  · obtain ⟨args, hl, hiff⟩ := calling_iff h (spec := "2".toList) (impl := hasSlotImpl C.host) rfl count_exact2
    exact refuses_of hiff fun r t => by rw [hasSlotImpl, hw hl]; exact runs_failShow
  · obtain ⟨args, hl, hiff⟩ := calling_iff h (spec := "2".toList) (impl := getSlotImpl C.host) rfl count_exact2
    exact refuses_of hiff fun r t => by rw [getSlotImpl, hw hl]; exact runs_failShow
  · obtain ⟨args, hl, hiff⟩ := calling_iff h (spec := "2".toList) (impl := getSlotOrNilImpl C.host) rfl count_exact2
    exact refuses_of hiff fun r t => by rw [getSlotOrNilImpl, hw hl]; exact runs_failShow
  · obtain ⟨args, hl, hiff⟩ := calling_iff h (spec := "2".toList) (impl := removeSlotImpl C.host) rfl count_exact2
    exact refuses_of hiff fun r t => by
      rw [removeSlotImpl, car_args hl, if_neg (by simp [isNil]), hw hl]; exact runs_failShow
  · obtain ⟨args, hl, hiff⟩ := calling_iff h (spec := "3".toList) (impl := setSlotImpl C.host) rfl (by simp only [List.length_cons, hn]; exact count_exact3)
    exact refuses_of hiff fun r t => by rw [setSlotImpl, hw hl]; exact runs_failShow

/-! ### send-super -/

private theorem superLoop_spec (hord : Reorders C.host.ord) (hok : ParentsOk s₁.frames) (k : String) (ps : List (Option Nat))
    (hps : none ∉ ps) : ∃ v, superLoop C.host s₁ k ps = .ok v ∧
      (v ≠ null → ∃ p, some p ∈ ps ∧ Inherits s₁.frames k p v) ∧ (v = null → ∀ p w, some p ∈ ps → Inherits s₁.frames k p w → w = null) := by
  induction ps with
  | nil => exact ⟨null, rfl, by simp, by simp⟩
  | cons p ps ih =>
    obtain _ | p := p
    · exact absurd List.mem_cons_self hps
    obtain ⟨v, hv, h1, h2⟩ := ih (fun h => hps (List.mem_cons_of_mem _ h))
    obtain ⟨w, hw, hn, hz⟩ := C45_get s₁.frames hok C.host.ord hord p k
    simp only [superLoop, hw]
    by_cases h0 : w = null
    · rw [if_pos h0]
      refine ⟨v, hv, fun hv0 => ?_, fun hv0 q u hq hu => ?_⟩
      · obtain ⟨q, hq, hi⟩ := h1 hv0; exact ⟨q, List.mem_cons_of_mem _ hq, hi⟩
      · rcases List.mem_cons.mp hq with hq | hq
        · cases hq; exact hz h0 u hu
        · exact h2 hv0 q u hq hu
    · rw [if_neg h0]
      exact ⟨w, rfl, fun _ => ⟨p, List.mem_cons_self, hn h0⟩, fun h => absurd h h0⟩

private theorem mem_parents {F : Frames} {i p : Nat} : some p ∈ parents F i ↔ Parent F i p := by
  unfold parents Parent
  simp only [List.mem_filterMap]
  constructor
  · rintro ⟨⟨k, v⟩, hm, hif⟩
    split at hif
    · next hc =>
      simp only [Bool.and_eq_true] at hc
      split at hif
      · next j hj => cases hif; exact ⟨k, hc.1, by rw [← hj]; exact hm⟩
      · cases hif
    · cases hif
  · rintro ⟨k, hk, hm⟩
    exact ⟨_, hm, by simp [hk]⟩

theorem superFunction_spec (hord : Reorders C.host.ord) (hok : ParentsOk s₁.frames) (i : Nat) (k : String) :
    ∃ v, superFunction C.host s₁ i k = .ok v ∧ (v ≠ null → FromParent s₁.frames k i v) ∧
      (v = null → ∀ w, FromParent s₁.frames k i w → w = null) := by
  have hnone : none ∉ parents s₁.frames i := by
    unfold parents
    simp only [List.mem_filterMap, not_exists, not_and]
    rintro ⟨k, v⟩ hm hif
    split at hif
    · next hc =>
      simp only [Bool.and_eq_true, Bool.not_eq_true', decide_eq_false_iff_not] at hc
      rcases hok i k v hc.1 hm with h | ⟨j, rfl⟩
      · exact hc.2 h
      · cases hif
    · cases hif
  obtain ⟨v, hv, h1, h2⟩ := superLoop_spec (s₁ := s₁) hord hok k (C.host.ord [i] (parents s₁.frames i)) (fun h => hnone ((hord _ _ _).mp h))
  refine ⟨v, hv, fun h => ?_, fun h w ⟨p, hp, hi⟩ => h2 h p w ((hord _ _ _).mpr (mem_parents.mpr hp)) hi⟩
  obtain ⟨p, hp, hi⟩ := h1 h
  exact ⟨p, mem_parents.mp ((hord _ _ _).mp hp), hi⟩

section super
variable {i : Nat} {k : String} {vs : List Data} (h : Calling C "send-super" (.sym k :: vs) d e s s₁) (hk : isNaked (.sym k) = true)
  {pr : EnvRec} (he : s₁.envs[e]? = some pr) (hf : pr.frame = some i) (hord : Reorders C.host.ord) (hok : ParentsOk s₁.frames)

private theorem super_iff {p : Data} (h : Calling C "send-super" (p :: vs) d e s s₁) : ∃ args, Lst args (p :: vs) ∧
    ∀ r t, Evals C d e s r t ↔ ∃ r₀, r = quoting d r₀ ∧ RunsP (body C) (sendSuperImpl C.host args e) s₁ r₀ t :=
  calling_iff h (spec := ">=1".toList) (impl := sendSuperImpl C.host) rfl (count_ge1' _)

include h hk he hf hord hok

/-- `(send-super k: arg…)` in a method: when what the parents of the current frame (and not the frame itself) have under that
name is one function, it is called; it is called from a new environment below the caller's in which `self` and the frame are
the caller's frame.  (The body of the method does not see that environment: `C66_send_super_self_violation`.) -/
theorem C66_send_super {j : Nat} (hj : FromParent s₁.frames k i (.atom (.func j)))
    (huniq : ∀ v, FromParent s₁.frames k i v → v = .atom (.func j)) {fr : FnRec} (hfr : s₁.fns[j]? = some fr) (hg : GoodFn s₁ fr)
    {r : Out Data} {s' : Store} :
    Evals C d e s r s' ↔ ∃ r₀, r = quoting d r₀ ∧
      CallsV C j vs s₁.envs.length none (pushEnv s₁ e pr (some i) (pr.name ++ "'") [("self", .atom (.frame i))]) r₀ s' := by
  obtain ⟨args, hl, hiff⟩ := super_iff h
  rw [hiff]
  refine exists_congr fun r₀ => and_congr Iff.rfl ?_
  have hfo : s₁.frameOf e = some i := by simp [Store.frameOf, he, hf]
  obtain ⟨v, hv, h1, h2⟩ := superFunction_spec (s₁ := s₁) hord hok i k
  obtain rfl : v = .atom (.func j) := by
    by_cases h0 : v = null
    · exact absurd (h2 h0 _ hj) (by simp)
    · exact huniq v (h1 h0)
  rw [sendSuperImpl, runsP_get]
  simp only [hfo, car_args hl, hk, Bool.not_true, Bool.false_eq_true, if_false, stringValue, callSuper, runsP_get, hv, Prog.ofOut]
  have hp : ∀ {α : Type} (a : α), RunsP (body C) (pure a : Prog α) s₁ (.ok a) s₁ := fun a => runsP_pure.mpr ⟨rfl, rfl⟩
  have hq : ∀ {α : Type} (a : α), RunsP (body C) (Prog.ret a : Prog α) s₁ (.ok a) s₁ := fun a => runsP_pure.mpr ⟨rfl, rfl⟩
  rw [runsP_bind_ok (hq _)]
  dsimp only
  rw [runsP_bind_ok (hp _), runsP_get]
  have hn : (Op.newEnv e (some i) (((s₁.envs[e]?).map (·.name)).getD "" ++ "'")).run s₁ =
      (.ok s₁.envs.length, pushEnv s₁ e pr (some i) (pr.name ++ "'") []) := by
    simp only [Op.run, he, Option.map_some, Option.getD_some]; rfl
  rw [runsP_op_bind hn]
  have hb : (Op.bind s₁.envs.length "self" (.atom (.frame i))).run (pushEnv s₁ e pr (some i) (pr.name ++ "'") []) =
      (.ok 0, pushEnv s₁ e pr (some i) (pr.name ++ "'") [("self", .atom (.frame i))]) := by
    simp only [Op.run, pushEnv_localB]
    simp only [binds, List.foldl_nil, alGet, Store.putVal, pushEnv_top]
    simp [pushEnv, binds, alSet]
  rw [runsP_op_bind hb]
  have hlt : ∀ (x : EnvRec) (n : Nat), s₁.envs[n]? = some x →
      ∃ y, (pushEnv s₁ e pr (some i) (pr.name ++ "'") [("self", .atom (.frame i))]).envs[n]? = some y := by
    intro x n hx
    have : n < s₁.envs.length := (List.getElem?_eq_some_iff.mp hx).1
    exact ⟨x, by rw [pushEnv_old _ _ _ _ _ _ this]; exact hx⟩
  obtain ⟨⟨q, hq⟩, hpar, hbody⟩ := hg
  exact runsP_callFn_values (fr := fr) (by simpa [pushEnv] using hfr) ⟨hlt q _ hq, hpar, hbody⟩ (cdr_Lst hl)

/-- When no parent has a function under that name, `send-super` is an error and nothing happens. -/
theorem C66_send_super_absent (hno : ∀ v, FromParent s₁.frames k i v → ∀ j, v ≠ .atom (.func j)) : Refuses C d e s s₁ := by
  obtain ⟨args, hl, hiff⟩ := super_iff h
  have hfo : s₁.frameOf e = some i := by simp [Store.frameOf, he, hf]
  obtain ⟨v, hv, h1, h2⟩ := superFunction_spec (s₁ := s₁) hord hok i k
  have hnf : ∀ j, v ≠ .atom (.func j) := by
    intro j hj
    exact hno v (h1 (by rw [hj]; simp)) j hj
  refine refuses_of hiff (m := "Message sent must select a function slot but was " ++ typeName v ++ ".") fun r t => ?_
  rw [sendSuperImpl, runsP_get]
  simp only [hfo, car_args hl, hk, Bool.not_true, Bool.false_eq_true, if_false, stringValue, callSuper, runsP_get, hv, Prog.ofOut]
  have hq : ∀ {α : Type} (a : α), RunsP (body C) (Prog.ret a : Prog α) s₁ (.ok a) s₁ := fun a => runsP_pure.mpr ⟨rfl, rfl⟩
  rw [runsP_bind_ok (hq _)]
  split
  · next j => exact absurd rfl (hnf j)
  · exact runsP_fail

end super

/-- `send-super` outside a method is an error. -/
theorem C66_send_super_outside {vs : List Data} {k : Data} (h : Calling C "send-super" (k :: vs) d e s s₁) (hf : s₁.frameOf e = none) : Refuses C d e s s₁ := by
  obtain ⟨args, hl, hiff⟩ := super_iff h
  refine refuses_of hiff (m := "send-super can only be used within the context of a frame.") fun r t => ?_
  rw [sendSuperImpl, runsP_get]
  simp only [hf]
  exact runsP_fail

/-- The intended meaning, that the inherited method runs with `self` the receiver as it does under `send`, does not hold: the
new environment that binds `self` is only the one the call is made from, and the method body runs below the environment
the method was written in, with no frame.  Here the same method gives the receiver when inherited, and `()` under
`send-super`. -/
theorem C66_send_super_self_violation :
    Demo.Ends "(begin (define a {me: (lambda () self)}) (define b {p*: a}) (send b me:))" (.ok (.atom (.frame 1))) ∧
    Demo.Ends "(begin (define a {me: (lambda () self)}) (define b {p*: a me: (lambda () (send-super me:))}) (send b me:))" (.ok .emptyCons) :=
  ⟨Demo.ends 60 (by decide +kernel) (by simp), Demo.ends 60 (by decide +kernel) (by simp)⟩

section
open Demo

private theorem calls (x : String) {b : Bool} (h : Demo.s.localB 0 x = some ⟨.atom (.prim x), b⟩) (hx : isNaked (.sym x) = false) {t : Data} {xs us : List Data}
    {s₁ : Store} (hs : shortcuts (.cons (.sym x) t) = .cons (.sym x) t) (ht : Lst t xs) (ha : Args Demo.C 1 xs Demo.s (.ok us) s₁) :
    Calling Demo.C x (us.map elem) (.cons (.sym x) t) 1 Demo.s s₁ := calling_sym Demo.wf (Demo.means x h) hx hs ht ha

private theorem evals_run {d : Data} {s : Store} (n : Nat) {r : Out Data} {s' : Store} (h : recN (body Demo.C) n (.eval false d 1) s = (r, s'))
    (hr : r ≠ .timeout) : Evals Demo.C d 1 s r s' := ⟨n, h, hr⟩

/-- `(make-frame a: 1 b: 2 a: 3)` meets the hypotheses of `C66_make_frame`. -/
example : ∃ s₁, Calling Demo.C "make-frame" [sym "a:", int 1, sym "b:", int 2, sym "a:", int 3] (code "{a: 1 b: 2 a: 3}") 1 Demo.s s₁ := by
  have hc : code "{a: 1 b: 2 a: 3}" = cons (sym "make-frame") (ofArray [sym "a:", int 1, sym "b:", int 2, sym "a:", int 3]) := by decide +kernel
  rw [hc]
  have hev : ∀ d, (d = sym "a:" ∨ d = sym "b:" ∨ ∃ n, d = int n) → Evals Demo.C d 1 Demo.s (.ok d) Demo.s := by
    rintro d (rfl | rfl | ⟨n, rfl⟩) <;> exact evals_run 1 rfl nofun
  exact ⟨Demo.s, calls "make-frame" (b := true) (us := [sym "a:", int 1, sym "b:", int 2, sym "a:", int 3]) (by decide +kernel) (by decide) rfl (Lst.ofArray _)
    (.next (hev _ (.inl rfl)) (.next (hev _ (.inr (.inr ⟨_, rfl⟩))) (.next (hev _ (.inr (.inl rfl))) (.next (hev _ (.inr (.inr ⟨_, rfl⟩)))
      (.next (hev _ (.inl rfl)) (.next (hev _ (.inr (.inr ⟨_, rfl⟩))) .done))))))⟩
example : KeysAndValues [sym "a:", int 1, sym "b:", int 2, sym "a:", int 3] [("a:", int 1), ("b:", int 2), ("a:", int 3)] :=
  .cons (by decide) (.cons (by decide) (.cons (by decide) .nil))
example : lastFor [("a:", int 1), ("b:", int 2), ("a:", int 3)] "a:" = some (int 3) := by decide
example : Ends "(get-slot {a: 1 b: 2 a: 3} a:)" (.ok (int 3)) := ends 20 (by decide +kernel) (by simp)
example : Fails "{a: 1 b:}" "\nEvaling (make-frame a: 1 b:). Frames must be initialized with an even number of arguments." := fails 20 (by decide +kernel)
example : Fails "{a: 1 2 3}" "\nEvaling (make-frame a: 1 2 3). Frame keys must be naked symbols, but was given 2." := fails 20 (by decide +kernel)
example : Ends "(let ((f {a: 1})) (let ((g {p*: f})) (list (has-slot? g a:) (has-slot? g b:) (get-slot g a:))))"
    (.ok (ofArray [.bool true, .bool false, int 1])) := ends 20 (by decide +kernel) (by simp)
example : Ends "(get-slot-or-nil {a: 1} b:)" (.ok .null) := ends 20 (by decide +kernel) (by simp)
example : Ends "(let ((f {a: 1})) (let ((g {p*: f})) (let ((v (set-slot! g a: 2))) (list v (get-slot g a:) (get-slot f a:)))))"
    (.ok (ofArray [int 2, int 2, int 1])) := ends 20 (by decide +kernel) (by simp)
example : Ends "(let ((f {a: 1})) (let ((g {p*: f a: 5})) (list (remove-slot! g a:) (get-slot g a:) (remove-slot! g a:))))"
    (.ok (ofArray [.bool true, int 1, .bool false])) := ends 20 (by decide +kernel) (by simp)
example : Ends "(let ((f {a: 1})) (let ((g (clone f))) (set-slot! g a: 2) (get-slot f a:)))" (.ok (int 1)) := ends 20 (by decide +kernel) (by simp)
example : Ends "(begin (define a {inc: (lambda (n) (+ n 1))}) (define b {p*: a inc: (lambda (n) (* 10 (send-super inc: n)))}) (send b inc: 4))"
    (.ok (int 50)) := ends 60 (by decide +kernel) (by simp)
example : Fails "(send-super get:)" "\nEvaling (send-super get:). send-super can only be used within the context of a frame." := fails 20 (by decide +kernel)
/-- A state with an environment of a frame whose parent has the method. -/
private def inMethod : Store :=
  { Demo.s with
    envs := Demo.s.envs ++ [⟨"m", some 1, [("self", ⟨.atom (.frame 1), false⟩)], some 1, false⟩]
    fns := [⟨"get", .null, ofArray [sym "x"], 1, false⟩]
    frames := [[("get:", .atom (.func 0))], [("p*:", .atom (.frame 0)), ("get:", int 5)]] }
example : FromParent inMethod.frames "get:" 1 (.atom (.func 0)) :=
  ⟨0, ⟨"p*:", by decide, by decide⟩, .own (by decide)⟩
example : ∀ v, FromParent inMethod.frames "get:" 1 v → v = .atom (.func 0) := by
  rintro v ⟨p, ⟨k, hk, hm⟩, hi⟩
  simp [inMethod, Frame.get?] at hm
  obtain ⟨rfl, rfl⟩ := hm
  cases hi with
  | own h => exact (Option.some.inj h).symm
  | parent h => exact absurd h (by decide)
example : ∃ fr, inMethod.fns[0]? = some fr ∧ GoodFn inMethod fr :=
  ⟨_, rfl, ⟨_, rfl⟩, ⟨[], none, .none .null, fun _ => rfl⟩, [sym "x"], Lst.ofArray [sym "x"]⟩
end

end Golisp.Props
