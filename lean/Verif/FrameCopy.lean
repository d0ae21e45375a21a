import Verif.CopyLemmas
import Verif.LetLemmas
import Verif.FrameEqual
import Verif.LispLemmas
/- Copying values with frames in them: specification and lemmas (C83). -/
namespace Golisp.Spec
open Golisp Data

/-- The frames in `d` exist and are nested to a finite depth.  (Pairs of association lists are shared by copies: what is in
them does not matter.) -/
inductive Grounded (F : Frames) : Data → Prop where
  | null : Grounded F .null
  | atom {a} : (∀ i, a ≠ .frame i) → Grounded F (.atom a)
  | dotted {a d} : Grounded F (.cell .acell a d)
  | cell {a d} : Grounded F a → Grounded F d → Grounded F (.cons a d)
  | frame {i} : i < F.length → (∀ p ∈ Frame.get? F i, Grounded F p.2) → Grounded F (.atom (.frame i))

/-- `w` is a copy of `d` in which every frame is one of those from number `lo` on. -/
inductive Copied (F : Frames) (lo : Nat) : Data → Data → Prop where
  | null : Copied F lo .null .null
  | atom {a} : (∀ i, a ≠ .frame i) → Copied F lo (.atom a) (.atom a)
  | dotted {a d} : Copied F lo (.cell .acell a d) (.cell .acell a d)
  | cell {a d a' d'} : Copied F lo a a' → Copied F lo d d' → Copied F lo (.cons a d) (.cons a' d')
  | frame {i j} : i < lo → lo ≤ j → j < F.length → (Frame.get? F j).map Prod.fst = (Frame.get? F i).map Prod.fst →
      (∀ k v w, Frame.slot F i k = some v → Frame.slot F j k = some w → Copied F lo v w) →
      Copied F lo (.atom (.frame i)) (.atom (.frame j))

/-- No association lists (made with `alist`) in `d`. -/
def NoAlist : Data → Prop
  | .cell .alist _ _ => False
  | .cell .acell _ _ => True
  | .cell .cons a d => NoAlist a ∧ NoAlist d
  | _ => True

/-- Every frame in `d` exists. -/
def FramesIn (F : Frames) : Data → Prop
  | .cell _ a d => FramesIn F a ∧ FramesIn F d
  | .atom (.frame i) => i < F.length
  | _ => True

/-- Frame `i` can be found from `d` by taking cars, cdrs and slots. -/
inductive Reaches (F : Frames) : Data → Nat → Prop where
  | here {i} : Reaches F (.atom (.frame i)) i
  | car {k a d i} : Reaches F a i → Reaches F (.cell k a d) i
  | cdr {k a d i} : Reaches F d i → Reaches F (.cell k a d) i
  | slot {j k v i} : Frame.slot F j k = some v → Reaches F v i → Reaches F (.atom (.frame j)) i
end Golisp.Spec

namespace Golisp.Ev
open Golisp Data Spec

variable {C : Conf} {e : Nat} {s : Store}

/-! ### A primitive called from Go code on values that evaluate to themselves -/

/-- Anything but a list or a symbol. -/
def SelfEval : Data → Prop
  | .null => False
  | .cell _ _ _ => False
  | .atom (.sym _) => False
  | .atom _ => True

private theorem selfEval_body {need : Bool} {v : Data} (h : SelfEval v) : body C (.eval need v e) = pure v := by
  cases v with
  | null => exact h.elim
  | cell => exact h.elim
  | atom a => cases a <;> first | exact h.elim | rfl

private theorem evals_self {v : Data} (h : SelfEval v) : Evals C v e s (.ok v) s := by
  unfold Evals
  rw [runs_iff, selfEval_body h]
  exact runsP_pure.mpr ⟨rfl, rfl⟩

/-- The evaluation of self-evaluating arguments. -/
private theorem args_self {vs : List Data} (hv : ∀ v ∈ vs, SelfEval v) : Args C e vs s (.ok vs) s := by
  induction vs with
  | nil => exact .done
  | cons v vs ih => exact .next (evals_self (hv v List.mem_cons_self)) (ih fun w hw => hv w (List.mem_cons_of_mem _ hw))

private theorem interp_self {n : Nat} {need : Bool} {v : Data} (h : SelfEval v) {r : Out Data} {t : Store}
    (hi : interp (recN (body C) n) (Prog.evalNeed need v e) s = (r, t)) (hr : r ≠ .timeout) : r = .ok v ∧ t = s := by
  rw [interp_evalNeed] at hi
  cases n with
  | zero => cases hi; exact absurd rfl hr
  | succ n => rw [recN, selfEval_body h] at hi; cases hi; exact ⟨rfl, rfl⟩

private theorem interp_selves {n : Nat} {vs : List Data} (hv : ∀ v ∈ vs, SelfEval v) : ∀ {r : Out (List Data)} {t : Store},
    interp (recN (body C) n) (evalAll e vs) s = (r, t) → r ≠ .timeout → r = .ok vs ∧ t = s := by
  induction vs with
  | nil => intro r t h hr; cases h; exact ⟨rfl, rfl⟩
  | cons v vs ih =>
    intro r t h hr
    rw [evalAll] at h
    have h1 : ∀ {r t}, interp (recN (body C) n) (Prog.eval v e) s = (r, t) → r ≠ .timeout → r = .ok v ∧ t = s :=
      fun h hr => interp_self (need := false) (hv v List.mem_cons_self) h hr
    have h2 := @ih fun w hw => hv w (List.mem_cons_of_mem _ hw)
    rcases interp_bind_cases h hr with ⟨a, s₁, ha, hb⟩ | ⟨x, ha, _⟩ | ⟨ha, _⟩
    · obtain ⟨h3, rfl⟩ := h1 ha nofun
      cases h3
      rcases interp_bind_cases hb hr with ⟨as, s₂, hc, hd⟩ | ⟨x, hc, _⟩ | ⟨hc, _⟩
      · obtain ⟨h4, rfl⟩ := h2 hc nofun
        cases h4; cases hd; exact ⟨rfl, rfl⟩
      · cases (h2 hc nofun).1
      · cases (h2 hc nofun).1
    · cases (h1 ha nofun).1
    · cases (h1 ha nofun).1

section
variable {x : String} {P : PrimDef} (hP : C.prims x = some P) (hsp : P.special = false) (hre : P.restricted = false)
  {vs : List Data} {tl : Data} (ht : Lst tl vs) (hv : ∀ v ∈ vs, SelfEval v)
  (hc : Arity.checkArgumentCount (Arity.parseNumArgs P.args) vs.length = true)
include hP hsp hre ht hv hc

/-- The call runs the body of the primitive. -/
theorem direct_runs {r₀ : Out Data} {t : Store} (h : RunsP (body C) (P.body (ofArray vs) e) s r₀ t) :
    RunsP (body C) (Prog.eval (.cons (.atom (.prim x)) tl) e) s (quoting (.cons (.atom (.prim x)) tl) r₀) t := by
  rw [runsP_eval]
  have hop : EvalsOp C (.atom (.prim x)) e s (.ok (.atom (.prim x))) s := by
    unfold EvalsOp
    rw [runs_iff, selfEval_body (by trivial)]
    exact runsP_pure.mpr ⟨rfl, rfl⟩
  exact (Props.C32_primitive (h := .atom (.prim x)) rfl nofun hop hP hsp (by rw [hre]; rfl) ht hc).mpr ⟨r₀, rfl, .inl ⟨vs, s, args_self hv, h⟩⟩

/-- The call has run the body of the primitive, at a smaller depth. -/
theorem direct_depth {n : Nat} {r : Out Data} {t : Store}
    (h : interp (recN (body C) n) (Prog.eval (.cons (.atom (.prim x)) tl) e) s = (r, t)) (hr : r ≠ .timeout) :
    ∃ m r₀, m < n ∧ interp (recN (body C) m) (P.body (ofArray vs) e) s = (r₀, t) ∧ r₀ ≠ .timeout ∧
      r = quoting (.cons (.atom (.prim x)) tl) r₀ := by
  rw [show Prog.eval (.cons (.atom (.prim x)) tl) e = Prog.evalNeed false (.cons (.atom (.prim x)) tl) e from rfl, interp_evalNeed] at h
  cases n with
  | zero => cases h; exact absurd rfl hr
  | succ n =>
    have hn : isNil (.cons (.atom (.prim x)) tl) = false := (isNil_cell_false _ _ _).mpr nofun
    have hb : body C (.eval false (.cons (.atom (.prim x)) tl) e) = evalCombination C (.cons (.atom (.prim x)) tl) e := rfl
    rw [recN, hb, evalCombination, hn] at h
    simp only [Bool.false_eq_true, if_false] at h
    have h1 : ∀ {r t}, interp (recN (body C) n) (Prog.evalNeed true (car (.cons (.atom (.prim x)) tl)) e) s = (r, t) → r ≠ .timeout →
        r = .ok (.atom (.prim x)) ∧ t = s := fun h hr => interp_self (v := .atom (.prim x)) trivial h hr
    rcases interp_bind_cases h hr with ⟨a, s₁, ha, hb⟩ | ⟨_, ha, _⟩ | ⟨ha, _⟩
    · obtain ⟨h3, rfl⟩ := h1 ha nofun
      cases h3
      have hq : isNil (.atom (.prim x)) = false := rfl
      simp only [hq, Bool.false_eq_true, if_false] at hb
      have key : ∀ {r₀ t}, interp (recN (body C) n) (apply C (.atom (.prim x)) (cdr (.cons (.atom (.prim x)) tl)) e) s₁ = (r₀, t) → r₀ ≠ .timeout →
          interp (recN (body C) n) (P.body (ofArray vs) e) s₁ = (r₀, t) := by
        intro r₀ t h0 hr0
        simp only [apply, primApply, hP, interp_get, hre, hsp, cdr, ht.length, ht.toArray, hc, Bool.false_and, Bool.not_true,
          Bool.false_eq_true, if_false] at h0
        rcases interp_bind_cases h0 hr0 with ⟨as, s₂, hd, he⟩ | ⟨_, hd, _⟩ | ⟨hd, _⟩
        · obtain ⟨h4, rfl⟩ := interp_selves hv hd nofun
          cases h4; exact he
        · cases (interp_selves hv hd nofun).1
        · cases (interp_selves hv hd nofun).1
      rcases interp_attempt_cases hb hr with ⟨a, s₂, hd, he⟩ | ⟨x, s₂, hd, he⟩ | ⟨hd, rfl⟩
      · cases he; exact ⟨n, _, Nat.lt_succ_self n, key hd nofun, nofun, rfl⟩
      · cases he; exact ⟨n, _, Nat.lt_succ_self n, key hd nofun, nofun, rfl⟩
      · exact ⟨n, _, Nat.lt_succ_self n, key hd nofun, nofun, rfl⟩
    · cases (h1 ha nofun).1
    · cases (h1 ha nofun).1
end

/-! ### Growing tables of frames -/

theorem get?_append {F G : Frames} {i : Nat} (h : i < F.length) : Frame.get? (F ++ G) i = Frame.get? F i := by
  simp [Frame.get?, List.getElem?_append_left h]
theorem slot_append {F G : Frames} {i : Nat} {k : String} (h : i < F.length) : Frame.slot (F ++ G) i k = Frame.slot F i k := by
  simp only [Frame.slot, get?_append h]

theorem _root_.Golisp.Spec.Grounded.append {F : Frames} {d : Data} (G : Frames) (h : Grounded F d) : Grounded (F ++ G) d := by
  induction h with
  | null => exact .null
  | atom h => exact .atom h
  | dotted => exact .dotted
  | cell _ _ i1 i2 => exact .cell i1 i2
  | frame h _ ih => exact .frame (by simp; omega) fun p hp => ih p (by rwa [get?_append h] at hp)

theorem _root_.Golisp.Spec.Copied.append {F : Frames} {lo : Nat} {d w : Data} (G : Frames) (h : Copied F lo d w) :
    Copied (F ++ G) lo d w := by
  induction h with
  | null => exact .null
  | atom h => exact .atom h
  | dotted => exact .dotted
  | cell _ _ i1 i2 => exact .cell i1 i2
  | frame h1 h2 h3 h4 _ ih =>
    have h5 := Nat.lt_trans (Nat.lt_of_lt_of_le h1 h2) h3
    refine .frame h1 h2 (by simp; omega) (by rw [get?_append h3, get?_append h5]; exact h4) fun k v w hv hw => ?_
    rw [slot_append h5] at hv
    rw [slot_append h3] at hw
    exact ih k v w hv hw

/-- A copy made later is a copy. -/
theorem _root_.Golisp.Spec.Copied.lower {F F₀ : Frames} {lo lo' : Nat} {d w : Data} (h : Copied F lo' d w) (hl : lo ≤ lo')
    (hd : Grounded F₀ d) (h0 : F₀.length ≤ lo) (hF : ∃ G, F = F₀ ++ G) : Copied F lo d w := by
  induction h with
  | null => exact .null
  | atom h => exact .atom h
  | dotted => exact .dotted
  | cell _ _ i1 i2 => cases hd with | cell h1 h2 => exact .cell (i1 h1) (i2 h2)
  | @frame i j h1 h2 h3 h4 _ ih =>
    cases hd with
    | atom h => exact absurd rfl (h _)
    | frame h6 h7 =>
      refine .frame (by omega) (by omega) h3 h4 fun k v w hv hw => ih k v w hv hw ?_
      obtain ⟨G, rfl⟩ := hF
      rw [slot_append h6] at hv
      exact h7 _ (alGet_some_mem hv)

/-! ### Copying -/

/-- Slot by slot. -/
inductive Zip (R : Data → Data → Prop) : FrameMap → FrameMap → Prop where
  | nil : Zip R [] []
  | cons {k v w m m'} : R v w → Zip R m m' → Zip R ((k, v) :: m) ((k, w) :: m')

theorem Zip.mono {R R' : Data → Data → Prop} {m m' : FrameMap} (hz : Zip R m m') (h : ∀ p ∈ m, ∀ w, R p.2 w → R' p.2 w) : Zip R' m m' := by
  induction hz with
  | nil => exact .nil
  | cons h1 _ ih => exact .cons (h _ List.mem_cons_self _ h1) (ih fun p hp => h p (List.mem_cons_of_mem _ hp))
theorem Zip.keys {R : Data → Data → Prop} {m m' : FrameMap} (hz : Zip R m m') : m'.map Prod.fst = m.map Prod.fst := by
  induction hz with
  | nil => rfl
  | cons _ _ ih => simp [ih]
theorem Zip.get {R : Data → Data → Prop} {m m' : FrameMap} (hz : Zip R m m') {k : String} {v w : Data} (hv : alGet m k = some v)
    (hw : alGet m' k = some w) : R v w := by
  induction hz with
  | nil => cases hv
  | @cons k' v' w' m m' h1 _ ih =>
    simp only [alGet] at hv hw
    split at hv
    · rename_i h
      rw [if_pos h] at hw
      cases hv; cases hw; exact h1
    · rename_i h
      rw [if_neg h] at hw
      exact ih hv hw

private theorem one_arg : Arity.checkArgumentCount (Arity.parseNumArgs "1".toList) 1 = true := by decide

theorem copy_entry {H : Host} : (std H).prims "copy" = some ⟨"1".toList, false, false, copyImpl⟩ := by
  set_option maxRecDepth 20000 in rfl

variable (hcp : C.prims "copy" = (std C.host).prims "copy")
include hcp

theorem copyFrame_runs {i : Nat} {v : Data} {t : Store} (h : RunsP (body C) (copyImpl (ofArray [.atom (.frame i)]) e) s (.ok v) t) :
    RunsP (body C) (copyFrame i e) s (.ok v) t :=
  direct_runs (tl := ofArray [.atom (.frame i)]) (vs := [.atom (.frame i)]) (hcp.trans copy_entry) rfl rfl (Lst.ofArray _)
    (by intro v hv; simp at hv; subst hv; trivial) one_arg h

theorem copyFrame_depth {i n : Nat} {r : Out Data} {t : Store} (h : interp (recN (body C) n) (copyFrame i e) s = (r, t)) (hr : r ≠ .timeout) :
    ∃ m r₀, m < n ∧ interp (recN (body C) m) (copyImpl (ofArray [.atom (.frame i)]) e) s = (r₀, t) ∧ r₀ ≠ .timeout := by
  obtain ⟨m, r₀, h1, h2, h3, _⟩ := direct_depth (tl := ofArray [.atom (.frame i)]) (vs := [.atom (.frame i)]) (hcp.trans copy_entry) rfl rfl
    (Lst.ofArray _) (by intro v hv; simp at hv; subst hv; trivial) one_arg h hr
  exact ⟨m, r₀, h1, h2, h3⟩

omit hcp in
private theorem copySlots_finite {F : Frames} {m : FrameMap} (hm : ∀ p ∈ m, Grounded F p.2)
    (ih : ∀ p ∈ m, ∀ s : Store, (∃ G, s.frames = F ++ G) → ∃ w G, RunsP (body C) (copyP e p.2) s (.ok w) { s with frames := s.frames ++ G } ∧
      Copied (s.frames ++ G) s.frames.length p.2 w) : ∀ s : Store, (∃ G, s.frames = F ++ G) →
    ∃ m' G, RunsP (body C) (copySlots e m) s (.ok m') { s with frames := s.frames ++ G } ∧ Zip (Copied (s.frames ++ G) s.frames.length) m m' := by
  induction m with
  | nil => intro s _; exact ⟨[], [], runsP_pure.mpr ⟨rfl, by simp⟩, .nil⟩
  | cons p m ih' =>
    obtain ⟨k, v⟩ := p
    rintro s ⟨G₀, hs⟩
    obtain ⟨w, G, h1, h2⟩ := ih _ List.mem_cons_self s ⟨G₀, hs⟩
    obtain ⟨m', G', h3, h4⟩ := ih' (fun p hp => hm p (List.mem_cons_of_mem _ hp)) (fun p hp => ih p (List.mem_cons_of_mem _ hp))
      { s with frames := s.frames ++ G } ⟨G₀ ++ G, by simp [hs]⟩
    refine ⟨(k, w) :: m', G ++ G', ?_, .cons ?_ ?_⟩
    · rw [copySlots, runsP_bind_ok h1, runsP_bind_ok h3]
      exact runsP_pure.mpr ⟨rfl, by simp⟩
    · rw [← List.append_assoc]; exact h2.append G'
    · rw [← List.append_assoc]
      refine h4.mono fun p hp w hw => hw.lower (F₀ := F) (by simp) (hm p (List.mem_cons_of_mem _ hp)) (by simp [hs]) ⟨G₀ ++ G ++ G', by simp [hs]⟩

private theorem copyImpl_frame {F : Frames} {i : Nat} (hi : i < F.length) (hm : ∀ p ∈ Frame.get? F i, Grounded F p.2)
    (ih : ∀ p ∈ Frame.get? F i, ∀ s : Store, (∃ G, s.frames = F ++ G) → ∃ w G, RunsP (body C) (copyP e p.2) s (.ok w) { s with frames := s.frames ++ G } ∧
      Copied (s.frames ++ G) s.frames.length p.2 w) (s : Store) (hs : ∃ G, s.frames = F ++ G) :
    ∃ w G, RunsP (body C) (copyImpl (ofArray [.atom (.frame i)]) e) s (.ok w) { s with frames := s.frames ++ G } ∧
      Copied (s.frames ++ G) s.frames.length (.atom (.frame i)) w := by
  obtain ⟨m', G, h1, h2⟩ := copySlots_finite hm ih s hs
  obtain ⟨G₀, hs⟩ := hs
  have hg : Frame.get? s.frames i = Frame.get? F i := by rw [hs, get?_append hi]
  have hi' : i < s.frames.length := by rw [hs]; simp; omega
  have hj : Frame.get? (s.frames ++ (G ++ [m'])) (s.frames ++ G).length = m' := by
    rw [← List.append_assoc, Frame.get?, List.getElem?_concat_length]; rfl
  refine ⟨.atom (.frame (s.frames ++ G).length), G ++ [m'], ?_, .frame hi' (by simp) (by simp) ?_ ?_⟩
  · have : copyImpl (ofArray [.atom (.frame i)]) e = .get fun s => copySlots e (Frame.get? s.frames i) >>= fun m => Prog.op (.newFrame m) >>= fun j => pure (.atom (.frame j)) := rfl
    rw [this, runsP_get, hg, runsP_bind_ok h1, runsP_op_bind (s₁ := { s with frames := s.frames ++ (G ++ [m']) }) (n := (s.frames ++ G).length) (by simp [Op.run])]
    exact runsP_pure.mpr ⟨rfl, rfl⟩
  · rw [hj, get?_append hi', hg]; exact h2.keys
  · intro k v w hv hw
    rw [slot_append hi', Frame.slot, hg] at hv
    rw [Frame.slot, hj] at hw
    have := (h2.get hv hw).append [m']
    rwa [List.append_assoc] at this

/-- Copying a finite value ends. -/
theorem copyP_finite {F : Frames} {d : Data} (h : Grounded F d) : ∀ s : Store, (∃ G, s.frames = F ++ G) →
    ∃ w G, RunsP (body C) (copyP e d) s (.ok w) { s with frames := s.frames ++ G } ∧ Copied (s.frames ++ G) s.frames.length d w := by
  induction h with
  | null => intro s _; refine ⟨.null, [], ?_, .null⟩; unfold copyP; exact runsP_pure.mpr ⟨rfl, by simp⟩
  | @atom a h =>
    intro s _
    refine ⟨.atom a, [], ?_, .atom h⟩
    unfold copyP
    cases a <;> first | exact runsP_pure.mpr ⟨rfl, by simp⟩ | exact absurd rfl (h _)
  | @dotted a d => intro s _; refine ⟨.cell .acell a d, [], ?_, .dotted⟩; unfold copyP; exact runsP_pure.mpr ⟨rfl, by simp⟩
  | @cell a d ha hd i1 i2 =>
    rintro s ⟨G₀, hs⟩
    by_cases hn : isNil (.cell .cons a d) = true
    · have : a = .null ∧ d = .null := by
        rcases (isNil_iff_Lst _).1 hn with _ | _
        exact ⟨rfl, rfl⟩
      obtain ⟨rfl, rfl⟩ := this
      refine ⟨.cons .null .null, [], ?_, .cell .null .null⟩
      unfold copyP
      exact runsP_pure.mpr ⟨rfl, by simp⟩
    · obtain ⟨a', G, h1, h2⟩ := i1 s ⟨G₀, hs⟩
      obtain ⟨d', G', h3, h4⟩ := i2 { s with frames := s.frames ++ G } ⟨G₀ ++ G, by simp [hs]⟩
      refine ⟨.cons a' d', G ++ G', ?_, .cell ?_ ?_⟩
      · unfold copyP
        rw [if_neg hn, runsP_bind_ok h1, runsP_bind_ok h3]
        exact runsP_pure.mpr ⟨rfl, by simp⟩
      · rw [← List.append_assoc]; exact h2.append G'
      · rw [← List.append_assoc]
        exact h4.lower (F₀ := F) (by simp) hd (by simp [hs]) ⟨G₀ ++ G ++ G', by simp [hs]⟩
  | @frame i hi hm ih =>
    intro s hs
    obtain ⟨w, G, h1, h2⟩ := copyImpl_frame hcp hi hm ih s hs
    refine ⟨w, G, ?_, h2⟩
    unfold copyP
    exact copyFrame_runs hcp h1

theorem copyImpl_finite {F : Frames} {d args : Data} (hl : Lst args [d]) (h : Grounded F d) (s : Store) (hs : ∃ G, s.frames = F ++ G) :
    ∃ w G, RunsP (body C) (copyImpl args e) s (.ok w) { s with frames := s.frames ++ G } ∧ Copied (s.frames ++ G) s.frames.length d w := by
  have hc : car args = d := car_Lst hl
  by_cases hf : ∃ i, d = .atom (.frame i)
  · obtain ⟨i, rfl⟩ := hf
    have : copyImpl args e = copyImpl (ofArray [.atom (.frame i)]) e := by simp only [copyImpl, hc]; rfl
    rw [this]
    cases h with
    | atom h => exact absurd rfl (h i)
    | frame hi hm => exact copyImpl_frame hcp hi hm (fun p hp => copyP_finite hcp (hm p hp)) s hs
  · have : copyImpl args e = copyP e d := by
      unfold copyImpl
      rw [hc]
      split
      · exact absurd ⟨_, rfl⟩ hf
      · rfl
    rw [this]
    exact copyP_finite hcp h s hs

/-! ### Copying only ends for finite values -/

omit hcp in
/-- The parts of a run that ends end. -/
private theorem bind_first {n : Nat} {α β : Type} {p : Prog α} {f : α → Prog β} {r : Out β} {t : Store}
    (h : interp (recN (body C) n) (p >>= f) s = (r, t)) (hr : r ≠ .timeout) :
    ∃ r₁ s₁, interp (recN (body C) n) p s = (r₁, s₁) ∧ r₁ ≠ .timeout ∧ ∀ a, r₁ = .ok a → interp (recN (body C) n) (f a) s₁ = (r, t) := by
  rcases interp_bind_cases h hr with ⟨a, s₁, h1, h2⟩ | ⟨x, h1, _⟩ | ⟨h1, _⟩
  · exact ⟨_, _, h1, nofun, fun b hb => by cases hb; exact h2⟩
  · exact ⟨_, _, h1, nofun, nofun⟩
  · exact ⟨_, _, h1, nofun, nofun⟩

private theorem after_copy {F : Frames} {n : Nat} {d : Data} {r : Out Data} {t : Store} (hd : Grounded F d) (hs : ∃ G, s.frames = F ++ G)
    (h : interp (recN (body C) n) (copyP e d) s = (r, t)) (hr : r ≠ .timeout) : (∃ w, r = .ok w) ∧ ∃ G, t.frames = F ++ G := by
  obtain ⟨w, G, h1, _⟩ := copyP_finite hcp hd s hs
  obtain ⟨rfl, rfl⟩ := runsP_det ⟨n, h, hr⟩ h1
  obtain ⟨G₀, hs⟩ := hs
  exact ⟨⟨w, rfl⟩, G₀ ++ G, by simp [hs]⟩

private theorem copySlots_only {F : Frames} {m : Nat} {l : FrameMap}
    (ih : ∀ p ∈ l, ∀ (s : Store) (r : Out Data) t, (∃ G, s.frames = F ++ G) → interp (recN (body C) m) (copyP e p.2) s = (r, t) → r ≠ .timeout → Grounded F p.2) :
    ∀ (s : Store) (r : Out FrameMap) t, (∃ G, s.frames = F ++ G) → interp (recN (body C) m) (copySlots e l) s = (r, t) → r ≠ .timeout →
      ∀ p ∈ l, Grounded F p.2 := by
  induction l with
  | nil => intro _ _ _ _ _ _ p hp; cases hp
  | cons q l ih' =>
    obtain ⟨k, v⟩ := q
    intro s r t hs h hr
    rw [copySlots] at h
    obtain ⟨r₁, s₁, h1, h2, h3⟩ := bind_first h hr
    have hv := ih _ List.mem_cons_self s r₁ s₁ hs h1 h2
    obtain ⟨⟨w, rfl⟩, hs₁⟩ := after_copy hcp hv hs h1 h2
    obtain ⟨r₂, s₂, h4, h5, _⟩ := bind_first (h3 w rfl) hr
    have := ih' (fun p hp => ih p (List.mem_cons_of_mem _ hp)) s₁ r₂ s₂ hs₁ h4 h5
    intro p hp
    rcases List.mem_cons.1 hp with rfl | hp
    · exact hv
    · exact this p hp

private theorem copyImpl_only {F : Frames} {i m : Nat} (hi : i < F.length)
    (ih : ∀ p ∈ Frame.get? F i, ∀ (s : Store) (r : Out Data) t, (∃ G, s.frames = F ++ G) → interp (recN (body C) m) (copyP e p.2) s = (r, t) →
      r ≠ .timeout → Grounded F p.2) {r : Out Data} {t : Store} (hs : ∃ G, s.frames = F ++ G)
    (h : interp (recN (body C) m) (copyImpl (ofArray [.atom (.frame i)]) e) s = (r, t)) (hr : r ≠ .timeout) : Grounded F (.atom (.frame i)) := by
  have : copyImpl (ofArray [.atom (.frame i)]) e = .get fun s => copySlots e (Frame.get? s.frames i) >>= fun m => Prog.op (.newFrame m) >>= fun j => pure (.atom (.frame j)) := rfl
  obtain ⟨G, hG⟩ := hs
  rw [this, interp_get, hG, get?_append hi] at h
  obtain ⟨r₁, s₁, h1, h2, _⟩ := bind_first h hr
  exact .frame hi (copySlots_only hcp ih s r₁ s₁ ⟨G, hG⟩ h1 h2)

/-- Values that can be in a program that does not use `alist`. -/
def Known (F : Frames) (d : Data) : Prop := NoAlist d ∧ FramesIn F d

theorem copyP_only {F : Frames} (hF : ∀ i, ∀ p ∈ Frame.get? F i, Known F p.2) : ∀ (n : Nat) (d : Data), Known F d →
    ∀ (s : Store) (r : Out Data) t, (∃ G, s.frames = F ++ G) → interp (recN (body C) n) (copyP e d) s = (r, t) → r ≠ .timeout → Grounded F d := by
  intro n
  induction n using Nat.strongRecOn with
  | _ n ih =>
  intro d
  induction d with
  | null => intro _ _ _ _ _ _ _; exact .null
  | atom a =>
    intro hk s r t hs h hr
    by_cases hf : ∃ i, a = .frame i
    · obtain ⟨i, rfl⟩ := hf
      unfold copyP at h
      obtain ⟨m, r₀, h1, h2, h3⟩ := copyFrame_depth hcp h hr
      exact copyImpl_only hcp hk.2 (fun p hp s r t => ih m h1 p.2 (hF i p hp) s r t) hs h2 h3
    · exact .atom fun i h => hf ⟨i, h⟩
  | cell k a d i1 i2 =>
    intro hk s r t hs h hr
    cases k with
    | alist => exact hk.1.elim
    | acell => exact .dotted
    | cons =>
      unfold copyP at h
      split at h
      · rename_i hn
        have : a = .null ∧ d = .null := by
          rcases (isNil_iff_Lst _).1 hn with _ | _
          exact ⟨rfl, rfl⟩
        obtain ⟨rfl, rfl⟩ := this
        exact .cell .null .null
      · obtain ⟨r₁, s₁, h1, h2, h3⟩ := bind_first h hr
        have ha := i1 ⟨hk.1.1, hk.2.1⟩ s r₁ s₁ hs h1 h2
        obtain ⟨⟨w, rfl⟩, hs₁⟩ := after_copy hcp ha hs h1 h2
        obtain ⟨r₂, s₂, h4, h5, _⟩ := bind_first (h3 w rfl) hr
        exact .cell ha (i2 ⟨hk.1.2, hk.2.2⟩ s₁ r₂ s₂ hs₁ h4 h5)

theorem copyImpl_ends {d args : Data} (hl : Lst args [d]) (hF : ∀ i, ∀ p ∈ Frame.get? s.frames i, Known s.frames p.2) (hk : Known s.frames d)
    {r : Out Data} {t : Store} (h : RunsP (body C) (copyImpl args e) s r t) : Grounded s.frames d := by
  have hc : car args = d := car_Lst hl
  obtain ⟨n, h, hr⟩ := h
  by_cases hf : ∃ i, d = .atom (.frame i)
  · obtain ⟨i, rfl⟩ := hf
    have : copyImpl args e = copyImpl (ofArray [.atom (.frame i)]) e := by simp only [copyImpl, hc]; rfl
    rw [this] at h
    exact copyImpl_only hcp hk.2 (fun p hp => copyP_only hcp hF n p.2 (hF i p hp)) ⟨[], by simp⟩ h hr
  · have : copyImpl args e = copyP e d := by
      unfold copyImpl
      rw [hc]
      split
      · exact absurd ⟨_, rfl⟩ hf
      · rfl
    rw [this] at h
    exact copyP_only hcp hF n d hk s r t ⟨[], by simp⟩ h hr

end Golisp.Ev
