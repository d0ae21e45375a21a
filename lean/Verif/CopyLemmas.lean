import Verif.EvalLemmas
import Verif.SetLemmas
import Verif.LispLemmas
/- Copying values that hold no frames does not touch the state. -/
namespace Golisp.Spec
open Golisp Data

mutual
theorem Plain.frameless {d : Data} : Plain d → Frameless d
  | .atom a h => by cases a <;> first | trivial | exact h.elim
  | .list _ h => h.frameless
theorem PlainList.frameless {d : Data} : PlainList d → Frameless d
  | .null => trivial
  | .cons _ _ h1 h2 => ⟨h1.frameless, h2.frameless⟩
end
end Golisp.Spec

namespace Golisp.Ev
open Golisp Data Spec Prim

variable {C : Conf} {e : Nat} {s : Store}

theorem fl_setPair {eq : Data → Data → Bool} {x v d : Data} (h : Frameless d) (hv : Frameless v) : Frameless (setPair eq x v d) := by
  induction d with
  | null => trivial
  | cell k a d _ ih =>
    unfold setPair
    split
    · exact h
    · split
      · exact h
      · split
        · split
          · exact ⟨⟨h.1.1, hv⟩, h.2⟩
          · exact h
        · exact ⟨h.1, ih h.2⟩
  | atom a => exact h
theorem fl_acons [FrEq] {x v l : Data} (hx : Frameless x) (hv : Frameless v) (hl : Frameless l) : Frameless (acons x v l) := by
  unfold acons
  split
  · exact ⟨⟨hx, hv⟩, hl⟩
  · split
    · exact ⟨⟨hx, hv⟩, hl⟩
    · exact fl_setPair hl hv

mutual
theorem fl_copy [FrEq] : ∀ d : Data, Frameless d → Frameless (copy d)
  | .null, _ => by unfold copy; trivial
  | .atom _, h => by unfold copy; exact h
  | .cell .acell _ _, h => by unfold copy; exact h
  | .cell .cons a d, h => by
    unfold copy
    split
    · exact h
    · exact ⟨fl_copy a h.1, fl_copy d h.2⟩
  | .cell .alist p d, h => by
    unfold copy
    exact fl_copyAlist d _ h.2 (fl_acons (fl_copyCar p h.1) (fl_copyCdr p h.1) trivial)
theorem fl_copyAlist [FrEq] : ∀ d acc : Data, Frameless d → Frameless acc → Frameless (copyAlist d acc)
  | .null, _, _, ha => by unfold copyAlist; exact ha
  | .atom _, _, _, ha => by unfold copyAlist; exact fl_acons trivial trivial ha
  | .cell _ p d, _, h, ha => by
    unfold copyAlist
    split
    · exact ha
    · exact fl_copyAlist d _ h.2 (fl_acons (fl_copyCar p h.1) (fl_copyCdr p h.1) ha)
theorem fl_copyCar [FrEq] : ∀ d : Data, Frameless d → Frameless (copyCar d)
  | .null, _ => by unfold copyCar; trivial
  | .atom _, _ => by unfold copyCar; trivial
  | .cell _ a _, h => by unfold copyCar; exact fl_copy a h.1
theorem fl_copyCdr [FrEq] : ∀ d : Data, Frameless d → Frameless (copyCdr d)
  | .null, _ => by unfold copyCdr; trivial
  | .atom _, _ => by unfold copyCdr; trivial
  | .cell _ _ d, h => by unfold copyCdr; exact fl_copy d h.2
end

theorem fl_setLastCdr {v d : Data} (h : Frameless d) (hv : Frameless v) : Frameless (setLastCdr v d) := by
  induction d with
  | null => trivial
  | cell k a d _ ih =>
    unfold setLastCdr
    split
    · exact ⟨h.1, hv⟩
    · split
      · exact h
      · exact ⟨h.1, ih h.2⟩
  | atom a => exact h
theorem fl_append1 [FrEq] {l v : Data} (h : Frameless l) (hv : Frameless v) : Frameless (append1 l v) := by
  unfold append1
  split
  · exact ⟨hv, trivial⟩
  · exact fl_setLastCdr (fl_copy _ h) ⟨hv, trivial⟩
theorem fl_toArray {d : Data} (h : Frameless d) : ∀ x ∈ toArray d, Frameless x := by
  induction d with
  | null => intro x hx; simp [toArray] at hx
  | atom a => intro x hx; simp [toArray] at hx; subst hx; trivial
  | cell k a d _ ih =>
    intro x hx
    unfold toArray at hx
    split at hx
    · cases hx
    · rcases List.mem_cons.mp hx with rfl | hx
      · exact h.1
      · exact ih h.2 x hx

/-- The program, from this state, does nothing but give `r`. -/
def Yields (C : Conf) (p : Prog α) (s : Store) (r : Out α) : Prop := ∀ r' t, RunsP (body C) p s r' t ↔ r' = r ∧ t = s

theorem yields_pure {v : α} : Yields C (pure v) s (.ok v) := fun _ _ => runsP_pure
theorem yields_fail {m : String} : Yields C (.fail m : Prog α) s (.err (.msg m)) := fun _ _ => runsP_fail
theorem yields_get {k : Store → Prog α} {r : Out α} (h : Yields C (k s) s r) : Yields C (.get k) s r := fun r' t => runsP_get.trans (h r' t)
theorem yields_bind {p : Prog α} {f : α → Prog β} {v : α} {r : Out β} (hp : Yields C p s (.ok v)) (hf : Yields C (f v) s r) :
    Yields C (p >>= f) s r := by
  intro r' t
  constructor
  · intro h
    rcases runsP_bind.mp h with ⟨a, s₁, h1, h2⟩ | h
    · obtain ⟨h3, rfl⟩ := (hp _ _).mp h1
      cases h3
      exact (hf _ _).mp h2
    · rcases h with ⟨x, h1, _⟩ | ⟨h1, _⟩ <;> cases ((hp _ _).mp h1).1
  · rintro ⟨rfl, rfl⟩
    exact (runsP_bind_ok ((hp _ _).mpr ⟨rfl, rfl⟩)).mpr ((hf _ _).mpr ⟨rfl, rfl⟩)
theorem yields_ofOut {o : Out Data} (h : o ≠ .timeout) : Yields C (.ofOut o) s o := by
  intro r' t
  cases o with
  | ok v => exact runsP_ret
  | err e => exact runsP_err
  | panic => exact runsP_panic
  | timeout => exact absurd rfl h

mutual
theorem copyP_yields : ∀ d : Data, Frameless d → Yields C (copyP e d) s (.ok (@copy (Frame.eqIn s.frames) d))
  | .null, _ => by unfold copyP copy; exact yields_pure
  | .atom a, h => by unfold copyP copy; cases a <;> first | exact yields_pure | exact h.elim
  | .cell .acell _ _, _ => by unfold copyP copy; exact yields_pure
  | .cell .cons a d, h => by
    unfold copyP copy
    split
    · exact yields_pure
    · exact yields_bind (copyP_yields a h.1) (yields_bind (copyP_yields d h.2) yields_pure)
  | .cell .alist p d, h => by
    unfold copyP copy
    exact yields_bind (copyCarP_yields p h.1) (yields_bind (copyCdrP_yields p h.1) (yields_get (copyAlistP_yields d _ h.2)))
theorem copyAlistP_yields : ∀ d acc : Data, Frameless d → Yields C (copyAlistP e d acc) s (.ok (@copyAlist (Frame.eqIn s.frames) d acc))
  | .null, _, _ => by unfold copyAlistP copyAlist; exact yields_pure
  | .atom _, _, _ => by unfold copyAlistP copyAlist; exact yields_get yields_pure
  | .cell _ p d, _, h => by
    unfold copyAlistP copyAlist
    split
    · exact yields_pure
    · exact yields_bind (copyCarP_yields p h.1) (yields_bind (copyCdrP_yields p h.1) (yields_get (copyAlistP_yields d _ h.2)))
theorem copyCarP_yields : ∀ d : Data, Frameless d → Yields C (copyCarP e d) s (.ok (@copyCar (Frame.eqIn s.frames) d))
  | .null, _ => by unfold copyCarP copyCar; exact yields_pure
  | .atom _, _ => by unfold copyCarP copyCar; exact yields_pure
  | .cell _ a _, h => by unfold copyCarP copyCar; exact copyP_yields a h.1
theorem copyCdrP_yields : ∀ d : Data, Frameless d → Yields C (copyCdrP e d) s (.ok (@copyCdr (Frame.eqIn s.frames) d))
  | .null, _ => by unfold copyCdrP copyCdr; exact yields_pure
  | .atom _, _ => by unfold copyCdrP copyCdr; exact yields_pure
  | .cell _ _ d, h => by unfold copyCdrP copyCdr; exact copyP_yields d h.2
end

theorem append1P_yields {l v : Data} (h : Frameless l) : Yields C (append1P e l v) s (.ok (@append1 (Frame.eqIn s.frames) l v)) := by
  unfold append1P append1
  split
  · exact yields_pure
  · exact yields_bind (copyP_yields _ h) yields_pure

theorem unionInnerP_yields (xs : List Data) : ∀ {r : Data}, (∀ x ∈ xs, Frameless x) → Frameless r →
    Yields C (unionInnerP e xs r) s (.ok (@unionInner (Frame.eqIn s.frames) xs r)) := by
  induction xs with
  | nil => exact fun _ _ => yields_pure
  | cons x xs ih =>
    intro r hx hr
    unfold unionInnerP unionInner
    refine yields_get ?_
    have hx' : ∀ y ∈ xs, Frameless y := fun y hy => hx y (List.mem_cons_of_mem _ hy)
    split
    · exact ih hx' hr
    · exact yields_bind (append1P_yields hr) (ih hx' (@fl_append1 (Frame.eqIn s.frames) _ _ hr (hx x List.mem_cons_self)))
theorem fl_unionInner [FrEq] (xs : List Data) : ∀ {r : Data}, (∀ x ∈ xs, Frameless x) → Frameless r → Frameless (unionInner xs r) := by
  induction xs with
  | nil => exact fun _ h => h
  | cons x xs ih =>
    intro r hx hr
    unfold unionInner
    refine ih (fun y hy => hx y (List.mem_cons_of_mem _ hy)) ?_
    split
    · exact hr
    · exact fl_append1 hr (hx x List.mem_cons_self)

theorem unionP_yields (cs : List Data) : ∀ {r : Data}, (∀ x ∈ cs, Frameless x) → Frameless r →
    Yields C (unionP e cs r) s (@unionLoop (Frame.eqIn s.frames) cs r) := by
  induction cs with
  | nil => exact fun _ _ => yields_pure
  | cons c cs ih =>
    intro r hx hr
    have hc := fl_toArray (hx c List.mem_cons_self)
    unfold unionP unionLoop
    split
    · exact yields_fail
    · exact yields_bind (unionInnerP_yields _ hc hr)
        (ih (fun y hy => hx y (List.mem_cons_of_mem _ hy)) (@fl_unionInner (Frame.eqIn s.frames) _ _ hc hr))

theorem setLoop_timeout [FrEq] {n : String} {f : Data → Data → Bool} (cs : List Data) : ∀ {r : Data}, setLoop n f cs r ≠ .timeout := by
  induction cs with
  | nil => nofun
  | cons c cs ih =>
    intro r
    unfold setLoop
    split
    · nofun
    · exact ih

theorem intersectionP_yields {args : Data} (h : ∀ x ∈ toArray args, Frameless x) :
    Yields C (setP "intersection" (fun _ x col => !memp x col) args e) s (@intersection (Frame.eqIn s.frames) (toArray args)) := by
  unfold setP intersection
  generalize toArray args = l at h
  cases l with
  | nil => exact yields_pure
  | cons c cs =>
    dsimp only
    split
    · exact yields_fail
    · exact yields_bind (copyP_yields _ (h c List.mem_cons_self)) (yields_get (yields_ofOut (@setLoop_timeout (Frame.eqIn _) _ _ _ _)))

theorem complementP_yields {args : Data} (h : ∀ x ∈ toArray args, Frameless x) :
    Yields C (setP "complement" (fun _ x col => memp x col) args e) s (@complement (Frame.eqIn s.frames) (toArray args)) := by
  unfold setP complement
  generalize toArray args = l at h
  cases l with
  | nil => exact yields_pure
  | cons c cs =>
    dsimp only
    split
    · exact yields_fail
    · exact yields_bind (copyP_yields _ (h c List.mem_cons_self)) (yields_get (yields_ofOut (@setLoop_timeout (Frame.eqIn _) _ _ _ _)))

end Golisp.Ev
