import Verif.Good
import Verif.Reader
/-
What the reader produces refers to nothing in the state.
-/
namespace Golisp.Reader
open Golisp Data Ev Spec

variable (H : Host) {C : Conf} {s : Store}

/-- The value read, if any, is `Live`. -/
def LiveR (C : Conf) (s : Store) : PRes → Prop
  | .ok d _ => Live C s d
  | _ => True

theorem liveR_wrap {nm : String} {x : PRes} (h : LiveR C s x) : LiveR C s (wrap nm x) := by
  cases x with
  | ok d r => exact ⟨trivial, h, trivial⟩
  | _ => trivial
theorem liveR_closeDot {cells : List Data} {x : PRes} (hc : LiveL C s cells) (h : LiveR C s x) : LiveR C s (closeDot cells x) := by
  cases x with
  | ok d r =>
    dsimp only [closeDot]
    split
    · exact live_listWithTail hc h
    · trivial
  | _ => trivial
theorem liveR_next {k : Data → List Tok → PRes} {x : PRes} (h : LiveR C s x) (hk : ∀ d r, Live C s d → LiveR C s (k d r)) :
    LiveR C s (next k x) := by
  cases x with
  | ok d r => exact hk d r h
  | _ => trivial
theorem liveR_mkInt {b : Nat} {cs : List Char} {r : List Tok} : LiveR C s (mkInt b cs r) := by
  unfold mkInt
  repeat' split
  all_goals trivial

theorem liveL_snoc {l : List Data} {d : Data} (hl : LiveL C s l) (hd : Live C s d) : LiveL C s (l ++ [d]) := by
  intro x hx
  rcases List.mem_append.mp hx with h | h
  · exact hl x h
  · rw [List.mem_singleton.mp h]; exact hd

theorem liveR_rec (n : Nat) : (∀ ts, LiveR C s ((recN H n).expr ts)) ∧
    (∀ ts cells, LiveL C s cells → LiveR C s ((recN H n).consLoop ts cells)) ∧
    (∀ ts cells, LiveL C s cells → LiveR C s ((recN H n).bytesLoop ts cells)) ∧
    (∀ ts cells, LiveL C s cells → LiveR C s ((recN H n).frameLoop ts cells)) := by
  induction n with
  | zero => exact ⟨fun _ => trivial, fun _ _ _ => trivial, fun _ _ _ => trivial, fun _ _ _ => trivial⟩
  | succ n ih =>
    obtain ⟨h1, h2, h3, h4⟩ := ih
    refine ⟨fun ts => ?_, fun ts cells hc => ?_, fun ts cells hc => ?_, fun ts cells hc => ?_⟩
    · show LiveR C s (exprStep H (recN H n) ts)
      unfold exprStep
      repeat' split
      all_goals first | trivial | exact liveR_mkInt | exact h2 _ _ liveL_nil | exact h3 _ _ liveL_nil | exact h4 _ _ liveL_nil | exact liveR_wrap (h1 _) | exact fun (h : "frame" = "Atomic") => absurd h (by decide)
    · show LiveR C s (consStep (recN H n) ts cells)
      unfold consStep
      repeat' split
      · exact live_ofArray hc
      · exact liveR_closeDot hc (h1 _)
      · exact liveR_next (h1 _) fun d r hd => h2 _ _ (liveL_snoc hc hd)
    · show LiveR C s (bytesStep (recN H n) ts cells)
      unfold bytesStep
      split
      · show Live C s _
        split
        · trivial
        · exact live_ofArray (liveL_cons live_sym (liveL_cons (live_cons live_sym (live_ofArray hc)) liveL_nil))
      · refine liveR_next (h1 _) fun d r hd => ?_
        repeat' split
        all_goals first | trivial | exact h3 _ _ (liveL_snoc hc hd)
    · show LiveR C s (frameStep (recN H n) ts cells)
      unfold frameStep
      split
      · exact live_cons trivial (live_ofArray hc)
      · exact liveR_next (h1 _) fun d r hd => h4 _ _ (liveL_snoc hc hd)

theorem live_parseExpr {ts r : List Tok} {d : Data} (h : parseExpr H ts = .ok d r) : Live C s d := by
  have := (liveR_rec (C := C) (s := s) H (2 * ts.length + 1)).1 ts
  rw [show (recN H (2 * ts.length + 1)).expr ts = .ok d r from h] at this
  exact this

theorem live_parse {src : List Char} {d : Data} (h : parse H src = some d) : Live C s d := by
  unfold parse at h
  split at h
  · rename_i hp; cases h; exact live_parseExpr H hp
  · cases h; trivial
  · cases h

end Golisp.Reader
