import Verif.Strict
import Verif.DemoCalls
/-
Computing which calls a call starts, for the examples beside the theorems about errors.
-/
namespace Golisp.Demo
open Golisp Data Ev Spec

deriving instance DecidableEq for Call

/-- The calls started by a program, in order, with the states they are started in; `n` bounds their depth. -/
def started (n : Nat) : Prog Data → Store → List (Call × Store)
  | .ret _, _ => []
  | .err _, _ => []
  | .panic, _ => []
  | .get k, s => started n (k s) s
  | .act o k, s => match o.run s with
    | (.ok v, s') => started n (k (.ok v)) s'
    | (.err e, s') => started n (k (.error e)) s'
    | _ => []
  | .call c k, s => (c, s) :: match recN (body C) n c s with
    | (.ok v, s') => started n (k (.ok v)) s'
    | (.err e, s') => started n (k (.error e)) s'
    | _ => []

theorem started_sound {n : Nat} (p : Prog Data) : ∀ {s x}, x ∈ started n p s → Starts (body C) p s x.1 x.2 := by
  induction p with
  | ret => intro s x h; simp [started] at h
  | err => intro s x h; simp [started] at h
  | panic => intro s x h; simp [started] at h
  | get k ih => intro s x h; exact .get (ih s h)
  | act o k ih =>
    intro s x h
    unfold started at h
    split at h
    · rename_i v s' ho; exact .done ho (ih _ h)
    · rename_i e s' ho; exact .refused ho (ih _ h)
    · simp at h
  | call c k ih =>
    intro s x h
    unfold started at h
    rcases List.mem_cons.mp h with rfl | h
    · exact .here
    · split at h
      · rename_i v s' ho; exact .returned ⟨n, ho, by simp⟩ (ih _ h)
      · rename_i e s' ho; exact .failed ⟨n, ho, by simp⟩ (ih _ h)
      · simp at h

/-- A procedure value that guards nothing and replaces nothing. -/
def plain (f : Data) : Bool := match f with
  | .atom (.prim x) => x != "on-error" && !searchers.contains x
  | _ => true

/-- The call neither guards nor replaces the calls it starts. -/
def open? (n : Nat) (c : Call) (s : Store) : Bool := match c with
  | .eval _ d e => match recN (body C) n (.eval true (car (shortcuts d)) e) s with
    | (.ok f, _) => plain f
    | (.timeout, _) => false
    | _ => true
  | .app f _ _ => plain f
  | .doLoop .. => false

theorem open_sound {n : Nat} {c : Call} {s : Store} (h : open? n c s = true) (c₁ : Call) :
    ¬ (Guarded C c s c₁ ∨ Replaced C c s c₁) := by
  have hp : ∀ x, plain (.atom (.prim x)) = true → x ≠ "on-error" ∧ x ∉ searchers := by
    intro x hx; simpa [plain] using hx
  have hop : ∀ need d e f s₁, open? n (.eval need d e) s = true → EvalsOp C (car (shortcuts d)) e s (.ok f) s₁ → plain f = true := by
    intro need d e f s₁ h ho
    unfold open? at h
    dsimp only at h
    split at h
    · rename_i g s' hr
      have := runs_det ho ⟨n, hr, by simp⟩
      obtain ⟨h1, _⟩ := this
      cases h1
      exact h
    · cases h
    · rename_i r hr hno hnt
      obtain ⟨m, hm, hmt⟩ := ho
      exfalso
      have hd : ∃ r' s', recN (body C) n (.eval true (car (shortcuts d)) e) s = (r', s') ∧ r' ≠ .timeout := by
        refine ⟨_, _, rfl, fun ht => ?_⟩
        exact hnt _ (Prod.ext ht rfl)
      obtain ⟨r', s', hr', hrt⟩ := hd
      obtain ⟨h1, h2⟩ := runs_det (⟨n, hr', hrt⟩ : Runs (body C) _ s r' s') ⟨m, hm, hmt⟩
      subst h1 h2
      exact hno _ _ hr'
  rintro (hg | hg)
  · cases hg with
    | onError ho => exact (hp _ (hop _ _ _ _ _ h ho)).1 rfl
    | onErrorApplied => exact (hp "on-error" h).1 rfl
    | step _ => cases h
  · cases hg with
    | search hx ho => exact (hp _ (hop _ _ _ _ _ h ho)).2 hx
    | @searchApplied x _ _ _ _ _ hx => exact (hp x h).2 hx

/-- Go down from a call to the `i`-th call it starts, and so on. -/
def descend (n : Nat) : List Nat → Call → Store → Option (Call × Store)
  | [], c, s => some (c, s)
  | i :: is, c, s => if open? n c s then match (started n (body C c) s)[i]? with
      | some (c₁, s₁) => descend n is c₁ s₁
      | none => none
    else none

theorem descend_sound {n : Nat} (is : List Nat) : ∀ {c s c' s'}, descend n is c s = some (c', s') →
    Within (body C) (fun c s c₁ => Guarded C c s c₁ ∨ Replaced C c s c₁) c s c' s' := by
  induction is with
  | nil => intro c s c' s' h; cases h; exact .self
  | cons i is ih =>
    intro c s c' s' h
    unfold descend at h
    split at h
    · rename_i ho
      split at h
      · rename_i c₁ s₁ hi
        exact .down (started_sound _ (List.mem_of_getElem? hi)) (open_sound ho _) (ih h)
      · cases h
    · cases h

/-- The call reached, and what it ends in. -/
def reached (n : Nat) (is : List Nat) (src : String) : Option (Call × Out Data) :=
  (descend n is (.eval false (code src) 1) s).map fun x => (x.1, (recN (body C) n x.1 x.2).1)

/-- In the program `src` the expression `sub` is evaluated, outside every guard, and fails. -/
theorem reaches {src sub : String} {e : Nat} {er : Err} (n : Nat) (is : List Nat)
    (h : reached n is src = some (.eval false (code sub) e, .err er)) :
    ∃ s' s'', Within (body C) (fun c s c₁ => Guarded C c s c₁ ∨ Replaced C c s c₁) (.eval false (code src) 1) s
      (.eval false (code sub) e) s' ∧ Evals C (code sub) e s' (.err er) s'' := by
  unfold reached at h
  cases hd : descend n is (.eval false (code src) 1) s with
  | none => rw [hd] at h; cases h
  | some x =>
    obtain ⟨c', s'⟩ := x
    rw [hd] at h
    simp only [Option.map_some, Option.some.injEq, Prod.mk.injEq] at h
    obtain ⟨rfl, h⟩ := h
    exact ⟨s', _, descend_sound _ hd, n, Prod.ext h rfl, by simp⟩

/-- The same, guards or not. -/
def descendAll (n : Nat) : List Nat → Call → Store → Option (Call × Store)
  | [], c, s => some (c, s)
  | i :: is, c, s => match (started n (body C c) s)[i]? with
      | some (c₁, s₁) => descendAll n is c₁ s₁
      | none => none

theorem descendAll_sound {n : Nat} (is : List Nat) : ∀ {c s c' s'}, descendAll n is c s = some (c', s') →
    Within (body C) (fun _ _ _ => False) c s c' s' := by
  induction is with
  | nil => intro c s c' s' h; cases h; exact .self
  | cons i is ih =>
    intro c s c' s' h
    unfold descendAll at h
    split at h
    · rename_i c₁ s₁ hi
      exact .down (started_sound _ (List.mem_of_getElem? hi)) id (ih h)
    · cases h

def reachedAll (n : Nat) (is : List Nat) (src : String) : Option (Call × Out Data) :=
  (descendAll n is (.eval false (code src) 1) s).map fun x => (x.1, (recN (body C) n x.1 x.2).1)

/-- In the program `src` the expression `sub` is evaluated with the outcome `r`. -/
theorem reachesAll {src sub : String} {e : Nat} {r : Out Data} (n : Nat) (is : List Nat)
    (h : reachedAll n is src = some (.eval false (code sub) e, r)) (hr : r ≠ .timeout) :
    ∃ s' s'', Within (body C) (fun _ _ _ => False) (.eval false (code src) 1) s (.eval false (code sub) e) s' ∧
      Evals C (code sub) e s' r s'' := by
  unfold reachedAll at h
  cases hd : descendAll n is (.eval false (code src) 1) s with
  | none => rw [hd] at h; cases h
  | some x =>
    obtain ⟨c', s'⟩ := x
    rw [hd] at h
    simp only [Option.map_some, Option.some.injEq, Prod.mk.injEq] at h
    obtain ⟨rfl, h⟩ := h
    exact ⟨s', _, descendAll_sound _ hd, n, Prod.ext h rfl, hr⟩

end Golisp.Demo
