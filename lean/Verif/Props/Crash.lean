import Verif.GoodPrims
import Verif.ReadLive
import Verif.Props.Errors
/- C71: what can crash the host. -/
namespace Golisp.Spec
open Golisp Data Ev

/-- State `s` arises from `s₀` by calls that refer to what exists and end with a value or an error. -/
inductive Session (C : Conf) (s₀ : Store) : Store → Prop where
  | start : Session C s₀ s₀
  | value {s c v s'} : Session C s₀ s → LiveCall C s c → Runs (body C) c s (.ok v) s' → Session C s₀ s'
  | error {s c er s'} : Session C s₀ s → LiveCall C s c → Runs (body C) c s (.err er) s' → Session C s₀ s'

end Golisp.Spec

namespace Golisp.Props
open Golisp Data Ev Spec

variable {H : Ev.Host}

/-- What exists is never removed, and nothing else is referred to: neither by the state a call ends in nor by its value. -/
theorem C71_references (hord : Reorders H.ord) {c : Call} {s s' : Store} {r : Out Data} (hs : Sound (std H) s)
    (hc : LiveCall (std H) s c) (hr : Runs (body (std H)) c s r s') (hp : r ≠ .panic) :
    Sound (std H) s' ∧ Ext s s' ∧ ∀ v, r = .ok v → Live (std H) s' v := by
  obtain ⟨n, hn, ht⟩ := hr
  obtain ⟨h1, h2, -⟩ := good_runs (good_body hord) n c s hs hc r s' hn
  cases r with
  | ok v => exact ⟨(h1 v rfl).1, (h1 v rfl).2.1, fun w h => by cases h; exact (h1 v rfl).2.2⟩
  | err e => exact ⟨(h2 e rfl).1, (h2 e rfl).2, nofun⟩
  | panic => exact absurd rfl hp
  | timeout => exact absurd rfl ht

private theorem alGet_isSome_of_mem {α : Type} {l : List (String × α)} {q : String × α} (h : q ∈ l) : (alGet l q.1).isSome = true := by
  induction l with
  | nil => cases h
  | cons a l ih =>
    unfold alGet
    split
    · rfl
    · rename_i hne
      rcases List.mem_cons.mp h with rfl | h
      · exact absurd rfl hne
      · exact ih h

/-- The initial state refers to nothing that does not exist. -/
theorem C71_initial : Sound (std H) (initStore H) where
  root := Nat.zero_lt_one
  wf := by
    intro e r p h hp
    match e, h with
    | 0, h => cases h; cases hp
    | n + 1, h => simp [initStore] at h
  inFrame := by
    intro r hr i hi
    simp only [initStore, List.mem_singleton] at hr
    subst hr
    cases hi
  binds := by
    intro r hr p hp
    simp only [initStore, List.mem_singleton] at hr
    subst hr
    rcases List.mem_cons.mp hp with rfl | hp
    · exact ⟨trivial, trivial⟩
    · obtain ⟨q, hq, rfl⟩ := List.mem_map.mp hp
      show (alGet (stdTable H) q.1).isSome = true
      exact alGet_isSome_of_mem hq
  fns := nofun
  macs := nofun
  slots := nofun
  tops := by
    intro p hp
    simp only [initStore, List.mem_singleton] at hp
    subst hp
    exact Nat.zero_lt_one

/-- A session keeps the state in order. -/
theorem C71_session (hord : Reorders H.ord) {s₀ s : Store} (h₀ : Sound (std H) s₀) (h : Session (std H) s₀ s) :
    Sound (std H) s := by
  induction h with
  | start => exact h₀
  | value _ hc hr ih => exact (C71_references hord ih hc hr nofun).1
  | error _ hc hr ih => exact (C71_references hord ih hc hr nofun).1

/-- A crash has one of two causes: somewhere in the execution a primitive is called in one of the ways listed in `Fatal`,
or some frame has been given a parent that is not a frame. -/
theorem C71_crash (hord : Reorders H.ord) {c : Call} {s s' : Store} (hs : Sound (std H) s) (hc : LiveCall (std H) s c)
    (hr : Runs (body (std H)) c s .panic s') :
    ¬ ParentsOk s'.frames ∨ ∃ c₁ s₁, Within (body (std H)) (fun _ _ _ => False) c s c₁ s₁ ∧ Crashing (std H) c₁ s₁ := by
  obtain ⟨n, hn, _⟩ := hr
  exact (good_runs (good_body hord) n c s hs hc _ s' hn).2.2 rfl

/-- Each of the listed calls does crash, and with it the whole execution. -/
theorem C71_fatal {c c₁ : Call} {s s₁ : Store} (hw : Within (body (std H)) (fun _ _ _ => False) c s c₁ s₁)
    (hc : Crashing (std H) c₁ s₁) : ∃ s', Runs (body (std H)) c s .panic s' := by
  obtain ⟨s', h⟩ := crashing hc
  exact ⟨s', C41_panic hw h⟩

/-- With all frame parents in order at the end, crashing is exactly executing one of the listed calls. -/
theorem C71_exact (hord : Reorders H.ord) {c : Call} {s s' : Store} {r : Out Data} (hs : Sound (std H) s)
    (hc : LiveCall (std H) s c) (hr : Runs (body (std H)) c s r s') (hp : ParentsOk s'.frames) :
    r = .panic ↔ ∃ c₁ s₁, Within (body (std H)) (fun _ _ _ => False) c s c₁ s₁ ∧ Crashing (std H) c₁ s₁ := by
  constructor
  · rintro rfl
    exact (C71_crash hord hs hc hr).resolve_left fun h => h hp
  · rintro ⟨c₁, s₁, hw, hc⟩
    obtain ⟨s₂, h⟩ := C71_fatal hw hc
    exact (runs_det hr h).1

/-- What the reader produces refers to nothing. -/
theorem C71_read (R : Reader.Host) {src : List Char} {d : Data} {C : Conf} {s : Store} (h : Reader.parse R src = some d) : Live C s d :=
  Reader.live_parse R h

/-- So: text read and evaluated in a session started from the initial state crashes only for these causes. -/
theorem C71_program (hord : Reorders H.ord) (R : Reader.Host) {src : List Char} {d : Data} {e : Nat} {s s' : Store}
    (hs : Session (std H) (initStore H) s) (hd : Reader.parse R src = some d) (he : EnvOk s e)
    (hr : Evals (std H) d e s .panic s') :
    ¬ ParentsOk s'.frames ∨ ∃ c₁ s₁, Within (body (std H)) (fun _ _ _ => False) (.eval false d e) s c₁ s₁ ∧
      Crashing (std H) c₁ s₁ :=
  C71_crash hord (C71_session hord C71_initial hs) ⟨C71_read R hd, he⟩ hr

section
open Demo

theorem demo_sound : Sound Demo.C Demo.s := by
  have h := C71_initial (H := Demo.H)
  have hg : ∀ r ∈ Demo.s.envs, r = globalEnv Demo.H ∨ r = ⟨"top", some 0, [], none, false⟩ := by
    intro r hr; simpa [Demo.s] using hr
  refine ⟨by unfold EnvOk; decide, Demo.wf, ?_, ?_, nofun, nofun, nofun, ?_⟩
  · intro r hr i hi
    rcases hg r hr with rfl | rfl <;> cases hi
  · intro r hr p hp
    rcases hg r hr with rfl | rfl
    · rcases List.mem_cons.mp hp with rfl | hp
      · exact ⟨trivial, trivial⟩
      · obtain ⟨q, hq, rfl⟩ := List.mem_map.mp hp
        exact alGet_isSome_of_mem (l := stdTable Demo.H) hq
    · cases hp
  · intro p hp
    simp only [Demo.s, List.mem_cons, List.not_mem_nil, or_false] at hp
    rcases hp with rfl | rfl <;> (unfold EnvOk; decide)
private theorem demo_ord : Reorders Demo.H.ord := fun _ _ _ => Iff.rfl
private theorem demo_live (src : String) : LiveCall Demo.C Demo.s (.eval false (code src) 1) := by
  refine ⟨?_, by unfold EnvOk; decide⟩
  unfold code
  cases h : Reader.parse asciiHost src.toList with
  | none => trivial
  | some d => exact Reader.live_parse asciiHost h

private theorem demo_run {n : Nat} {src : String} {r : Out Data} (h : (run n src).1 = r) (hr : r ≠ .timeout) :
    Evals Demo.C (code src) 1 Demo.s r (run n src).2 := ⟨n, Prod.ext h rfl, hr⟩

/-! A crash deep in a program, under `on-error`; it is the remainder. -/
example : Ends "(map (lambda (n) (on-error (modulo 7 n) (lambda (m) 0))) '(2 1 0))" .panic := ends 14 (by decide +kernel) (by simp)
example : Reorders Demo.H.ord ∧ Sound Demo.C Demo.s ∧
    LiveCall Demo.C Demo.s (.eval false (code "(map (lambda (n) (on-error (modulo 7 n) (lambda (m) 0))) '(2 1 0))") 1) :=
  ⟨demo_ord, demo_sound, demo_live _⟩
example : Crashing Demo.C (.eval false (code "(% (+ 3 4) 0)") 1) Demo.s := by
  have hc : code "(% (+ 3 4) 0)" = .cell .cons (.sym "%") (ofArray [code "(+ 3 4)", .int 0]) := by decide +kernel
  rw [hc]
  refine .eval (x := "%") (us := [.int 7, .int 0]) (s₁ := Demo.s) (s₂ := Demo.s) ⟨5, by decide +kernel, nofun⟩ ?_ .remainder rfl nofun
  exact (runsP_evalAll _ _ _ _).mp ⟨10, by decide +kernel, nofun⟩
/-! The other listed calls crash too, `%` even in a restricted environment, where `panic!` is refused. -/
example : Ends "(apply car)" .panic := ends 10 (by decide +kernel) (by simp)
example : Ends "(take -1 [1 2])" .panic := ends 10 (by decide +kernel) (by simp)
example : Ends "(drop -1 [1 2])" .panic := ends 10 (by decide +kernel) (by simp)
example : Ends "(string-capitalize (string-trim \" \"))" .panic := ends 10 (by decide +kernel) (by simp)
example : Ends "(substring \"abc\" -1 2)" .panic := ends 10 (by decide +kernel) (by simp)
example : Fatal "interval" [.int (BitVec.ofNat 64 (2 ^ 62))] := .interval (Or.inl (by decide))
example : Fatal "interval" [.int (BitVec.ofNat 64 (2 ^ 63 - 2)), .int (BitVec.ofNat 64 (2 ^ 63 - 1))] := by
  refine .intervalUp (by decide) (Or.inr fun k _ => ?_)
  have h : (intValue (.int (BitVec.ofNat 64 (2 ^ 63 - 1)))).toInt = 2 ^ 63 - 1 := by decide
  rw [if_pos rfl, h]
  have := BitVec.toInt_lt (x := intValue (.int (BitVec.ofNat 64 (2 ^ 63 - 2))) + BitVec.ofNat 64 k * 1)
  omega
example : Ends "(substring \"abc\" 1 3)" (.ok (str "bc")) := ends 10 (by decide +kernel) (by simp)
example : Ends "(interval 3 1)" (.ok (ofArray [int 3, int 2, int 1])) := ends 10 (by decide +kernel) (by simp)
example : Ends "(let ((x 3)) (restrict-environment) (% x 0))" .panic := ends 12 (by decide +kernel) (by simp)
example : Fails "(let ((x 3)) (restrict-environment) (panic! x))" ("\nEvaling (let ((x 3)) (restrict-environment) (panic! x)). " ++
    "\nEvaling (panic! x). The panic! primitive is restricted from execution in this environment\n") := fails 12 (by decide +kernel)
/-! The other cause: a parent slot holding a number. -/
example : ∃ s', Evals Demo.C (code "(let ((f {parent*: 3})) (get-slot f x:))") 1 Demo.s .panic s' ∧ ¬ ParentsOk s'.frames := by
  refine ⟨(run 14 "(let ((f {parent*: 3})) (get-slot f x:))").2, demo_run (by decide +kernel) nofun, fun h => ?_⟩
  have hm : ("parent*:", int 3) ∈ Frame.get? (run 14 "(let ((f {parent*: 3})) (get-slot f x:))").2.frames 0 := by decide +kernel
  rcases h 0 "parent*:" (int 3) (by decide +kernel) hm with h | ⟨j, h⟩ <;> cases h
/-! Without either cause there is no crash, whatever goes wrong otherwise. -/
example : ∃ s', Evals Demo.C (code "(let ((f {a: 3})) (get-slot f x:))") 1 Demo.s
    (.err (.evaling (code "(let ((f {a: 3})) (get-slot f x:))") (.evaling (code "(get-slot f x:)") (.msg "get-slot requires an existing slot, but was given x:.")))) s' ∧ ParentsOk s'.frames := by
  refine ⟨(run 14 "(let ((f {a: 3})) (get-slot f x:))").2, demo_run (by decide +kernel) nofun, ?_⟩
  have hm : (run 14 "(let ((f {a: 3})) (get-slot f x:))").2.frames = [[("a:", int 3)]] := by decide +kernel
  rw [hm]
  intro i k v hk hv
  match i, hv with
  | 0, hv =>
    rcases List.mem_singleton.mp hv with ⟨rfl, rfl⟩
    exact absurd hk (by decide +kernel)
  | n + 1, hv => simp [Frame.get?] at hv
end

end Golisp.Props
