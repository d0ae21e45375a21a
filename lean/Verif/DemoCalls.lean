import Verif.ApplyLemmas
import Verif.Demo
/-
Calls in concrete programs, for the examples beside the theorems about calls.
-/
namespace Golisp.Demo
open Golisp Data Ev Spec Props

/-- The call written in `src` has the argument values `vs`, if the kernel finds so with recursion depth `n`. -/
theorem calling {x src : String} {b : Bool} (n : Nat) {t : Data} {xs us vs : List Data} (hx : isNaked (.sym x) = false)
    (hb : s.localB 0 x = some ⟨.atom (.prim x), b⟩) (hc : code src = .cons (.sym x) t)
    (hs : shortcuts (code src) = code src) (ht : t = ofArray xs) (hn : xs.all (· ≠ .null) = true)
    (ha : interp (recN (body C) n) (evalAll 1 xs) s = (.ok us, s)) (hv : us.map elem = vs) :
    Calling C x vs (code src) 1 s s := by
  subst hv ht
  rw [hc] at hs ⊢
  have hl : Lst (ofArray xs) xs := by
    have := Lst.ofArray xs
    rwa [map_elem_id (fun h => by simpa using List.all_eq_true.1 hn _ h)] at this
  exact calling_sym wf (means x hb) hx hs hl ((runsP_evalAll xs _ _ _).1 ⟨n, ha, nofun⟩)

example : Calling C "+" [int 1, int 5] (code "(+ 1 (+ 2 3))") 1 s s :=
  calling 10 (b := true) (xs := [int 1, code "(+ 2 3)"]) (us := [int 1, int 5]) (by decide +kernel) (by decide +kernel)
    (by decide +kernel) (by decide +kernel) rfl (by decide +kernel) (by decide +kernel) rfl

end Golisp.Demo
