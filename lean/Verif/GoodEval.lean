import Verif.Good
import Verif.FrameLemmas
import Verif.EvalLemmas
import Verif.QuasiLemmas
/-
The evaluator and the special forms in the logic of `Verif.Good`.
-/
namespace Golisp.Ev
open Golisp Data Spec

variable {C : Conf} {s s' : Store} {α β : Type} {Z : Prop}

/-! ### Looking things up -/

theorem sound_localB (hs : Sound C s) {e : Nat} {x : String} {b : Binding} (h : s.localB e x = some b) : Live C s b.val := by
  unfold Store.localB at h
  split at h
  · cases h
  · rename_i r hr
    exact hs.binds r (List.mem_of_getElem? hr) (x, b) (alGet_some_mem h)
theorem sound_find (hs : Sound C s) {e f : Nat} {x : String} {b : Binding} (h : s.find e x = some (f, b)) :
    Live C s b.val ∧ (s.localB f x).isSome = true := by
  have hv := (find_iff hs.wf).mp h
  have hl : s.localB f x = some b := by
    clear h
    induction hv with
    | here hr => exact hr
    | up _ _ _ ih => exact ih
  exact ⟨sound_localB hs hl, by rw [hl]; rfl⟩
theorem sound_frameOf (hs : Sound C s) {e i : Nat} (h : s.frameOf e = some i) : FrameOk s i := by
  unfold Store.frameOf at h
  split at h
  · cases h
  · rename_i r hr
    exact hs.inFrame r (List.mem_of_getElem? hr) i h
theorem sound_parentOf (hs : Sound C s) {e i : Nat} (he : EnvOk s e) (h : s.parentOf e = some i) : EnvOk s i := by
  unfold Store.parentOf at h
  split at h
  · cases h
  · rename_i r hr
    exact Nat.lt_trans (hs.wf e r i hr h) he
theorem sound_frame (hs : Sound C s) (i : Nat) : LiveM C s (Frame.get? s.frames i) := by
  unfold Frame.get?
  cases h : s.frames[i]? with
  | none => exact ⟨nofun, List.nodup_nil⟩
  | some m => exact hs.slots m (List.mem_of_getElem? h)
theorem sound_fn (hs : Sound C s) {i : Nat} {f : FnRec} (h : s.fns[i]? = some f) : EnvOk s f.env ∧ Live C s f.params ∧ Live C s f.body :=
  hs.fns f (List.mem_of_getElem? h)
theorem sound_mac (hs : Sound C s) {i : Nat} {f : MacRec} (h : s.macs[i]? = some f) : EnvOk s f.env ∧ Live C s f.params ∧ Live C s f.body :=
  hs.macs f (List.mem_of_getElem? h)

variable {H : Host}

theorem get_live (hs : Sound C s) (hord : Reorders H.ord) {i : Nat} {k : String} {v : Data} (h : Frame.get s.frames H.ord i k = .ok v) : Live C s v := by
  by_cases hn : v = .null
  · rw [hn]; exact live_null
  · have hf := Frame.search_sound hord h hn
    clear h
    induction hf with
    | own hv => exact (sound_frame hs _).1 _ (alGet_some_mem hv)
    | parent _ _ _ ih => exact ih hn

theorem get_safe (hord : Reorders H.ord) {i : Nat} {k : String} (hp : ParentsOk s.frames) : ∃ v, Frame.get s.frames H.ord i k = .ok v :=
  Frame.search_ok hord hp i
theorem hasSlot_safe (hord : Reorders H.ord) {i : Nat} {k : String} (hp : ParentsOk s.frames) : ∃ v, Frame.hasSlot s.frames H.ord i k = .ok v :=
  Frame.search_ok hord hp i

/-- A computation that leaves the state alone. -/
theorem good_ofOut_bind {Q : Store → β → Prop} {o : Out α} {f : α → Prog β} (hok : ∀ a, o = .ok a → Good C Z Q s (f a))
    (hp : o = .panic → Z ∨ ¬ ParentsOk s.frames) (ht : o ≠ .timeout) : Good C Z Q s (.ofOut o >>= f) := by
  cases o with
  | ok a => exact hok a rfl
  | err e => exact .err
  | panic => exact .panic (hp rfl)
  | timeout => exact absurd rfl ht

theorem good_ofOut' {Q : Store → α → Prop} {o : Out α} (hok : ∀ a, o = .ok a → Q s a)
    (hp : o = .panic → Z ∨ ¬ ParentsOk s.frames) (ht : o ≠ .timeout) : Good C Z Q s (.ofOut o) := by
  cases o with
  | ok a => exact .ret (hok a rfl)
  | err e => exact .err
  | panic => exact .panic (hp rfl)
  | timeout => exact absurd rfl ht

/-- A lookup in frames either finds, or there is a broken parent slot. -/
theorem safe_out {o : Out α} (h : ParentsOk s.frames → ∃ v, o = .ok v) : o = .panic → Z ∨ ¬ ParentsOk s.frames := by
  rintro rfl
  refine Or.inr fun hp => ?_
  obtain ⟨v, h⟩ := h hp
  cases h

theorem hasSlot_timeout (hord : Reorders H.ord) {i : Nat} {k : String} : Frame.hasSlot s.frames H.ord i k ≠ .timeout := Frame.search_total hord i
theorem get_timeout (hord : Reorders H.ord) {i : Nat} {k : String} : Frame.get s.frames H.ord i k ≠ .timeout := Frame.search_total hord i

/-! ### Tactics -/

/-- Programs already dealt with. -/
syntax "known" : tactic
macro_rules | `(tactic| known) => `(tactic| with_reducible assumption)
macro_rules | `(tactic| known) => `(tactic| ((with_reducible refine good_eval ?_ ?_) <;> (live; done)))
macro_rules | `(tactic| known) => `(tactic| ((with_reducible refine good_evalNeed ?_ ?_) <;> (live; done)))
macro_rules | `(tactic| known) => `(tactic| ((with_reducible refine good_app ?_ ?_ ?_) <;> (live; done)))

/-- Go through a program made of the combinators. -/
macro "good" : tactic => `(tactic| repeat' first
  | with_reducible exact good_fail | with_reducible exact good_failShow | with_reducible exact Good.err
  | ((with_reducible refine good_pure ?_) <;> (live; done)) | ((with_reducible refine Good.ret ?_) <;> (live; done))
  | known
  | ((with_reducible apply good_bind); (focus known); (focus assumption); intro _ _ _ hx _; lift hx; clear hx)
  | split)

/-! ### Variables -/

theorem good_flag {f : Nat} {b : Bool} (h : FnOk s f) : Good C Z (fun s n => Made s n (.flag f b)) s (.op (.flag f b)) := good_op h

theorem good_markFn {v : Data} {b : Bool} (hs : Sound C s) (hv : Live C s v) : Good C Z (LiveQ C) s (markFn v b) := by
  unfold markFn
  split
  · refine good_bind (good_op (o := .flag _ b) hv) hs fun _ _ _ hx _ => ?_
    exact good_pure (Live.mono hx hv)
  · exact good_pure hv

theorem slotOf_timeout (hord : Reorders H.ord) {e : Nat} {x : String} : slotOf H s e x ≠ .timeout := by
  unfold slotOf
  split
  · nofun
  · rename_i i _
    have h1 := hasSlot_timeout (s := s) hord (i := i) (k := nakedName x)
    have h2 := get_timeout (s := s) hord (i := i) (k := nakedName x)
    cases h3 : Frame.hasSlot s.frames H.ord i (nakedName x) with
    | ok b =>
      cases b with
      | false => nofun
      | true => cases h4 : Frame.get s.frames H.ord i (nakedName x) with
        | timeout => exact absurd h4 h2
        | _ => nofun
    | timeout => exact absurd h3 h1
    | _ => nofun
theorem slotOf_safe (hord : Reorders H.ord) {e : Nat} {x : String} (hp : ParentsOk s.frames) : ∃ v, slotOf H s e x = .ok v := by
  unfold slotOf
  split
  · exact ⟨_, rfl⟩
  · rename_i i _
    obtain ⟨b, hb⟩ := hasSlot_safe hord (i := i) (k := nakedName x) hp
    obtain ⟨v, hv⟩ := get_safe hord (i := i) (k := nakedName x) hp
    rw [hb, hv]
    cases b <;> exact ⟨_, rfl⟩
theorem slotOf_live (hs : Sound C s) (hord : Reorders H.ord) {e i : Nat} {x : String} {v : Data} (h : slotOf H s e x = .ok (some (i, v))) : Live C s v := by
  unfold slotOf at h
  repeat' split at h
  all_goals first | (cases h; done) | skip
  rename_i hv
  cases h
  exact get_live hs hord hv

theorem good_valueOf {need : Bool} {x : String} {e : Nat} (hs : Sound C s) (hord : Reorders H.ord) : Good C Z (LiveQ C) s (valueOf H need x e) := by
  unfold valueOf
  refine .get ?_
  split
  · rename_i b hb
    exact good_markFn hs (sound_localB hs hb)
  · refine good_ofOut_bind (fun sl hsl => ?_) (safe_out (slotOf_safe hord)) (slotOf_timeout hord)
    have hother : Good C Z (LiveQ C) s (match s.find e x with | some (_, b) => markFn b.val false | none => pure emptyCons) := by
      split
      · rename_i hf
        exact good_markFn hs (sound_find hs hf).1
      · exact good_pure live_empty
    dsimp only
    split
    · have hv := slotOf_live hs hord hsl
      split
      · exact good_markFn hs hv
      · split
        · exact good_pure hv
        · exact hother
    · exact hother

theorem good_setTo {x : String} {v : Data} {e : Nat} (hs : Sound C s) (hord : Reorders H.ord) (hv : Live C s v) : Good C Z (LiveQ C) s (setTo H x v e) := by
  unfold setTo
  refine .get ?_
  have hput : ∀ e', (s.localB e' x).isSome = true → Good C Z (LiveQ C) s (do let _ ← Prog.op (.assign e' x v); pure v) := fun e' he =>
    good_bind (good_op (o := .assign e' x v) ⟨hv, he⟩) hs fun _ _ _ hx _ => good_pure (Live.mono hx hv)
  split
  · rename_i b hb
    exact hput e (by rw [hb]; rfl)
  · have hother : Good C Z (LiveQ C) s (match s.find e x with
        | some (e', _) => do let _ ← Prog.op (.assign e' x v); pure v
        | none => .fail (x ++ " is undefined")) := by
      split
      · rename_i hf
        exact hput _ (sound_find hs hf).2
      · exact good_fail
    dsimp only
    split
    · exact hother
    · refine good_ofOut_bind (fun b _ => ?_) (safe_out (hasSlot_safe hord)) (hasSlot_timeout hord)
      split
      · exact good_bind (good_op (o := .setSlot _ _ v) hv) hs fun _ _ _ hx _ => good_pure (Live.mono hx hv)
      · exact hother

/-! ### Sequences and functions -/

theorem good_evalSeq {e : Nat} (xs : List Data) : ∀ {s : Store} {res : Data}, Sound C s → LiveL C s xs → Live C s res → EnvOk s e →
    Good C Z (LiveQ C) s (evalSeq e xs res) := by
  induction xs with
  | nil => exact fun _ _ h _ => good_pure h
  | cons x xs ih =>
    intro s res hs hx hr he
    refine good_bind (good_eval hx.head he) hs fun v s' hs' h hv => ?_
    exact ih hs' (LiveL.mono h hx.tail) hv (EnvOk.mono h he)

theorem good_evalAll {e : Nat} (xs : List Data) : ∀ {s : Store}, Sound C s → LiveL C s xs → EnvOk s e →
    Good C Z (fun s vs => LiveL C s vs ∧ vs.length = xs.length) s (evalAll e xs) := by
  induction xs with
  | nil => exact fun _ _ _ => good_pure ⟨liveL_nil, rfl⟩
  | cons x xs ih =>
    intro s hs hx he
    refine good_bind (good_eval hx.head he) hs fun v s' hs' h hv => ?_
    refine good_bind (ih hs' (LiveL.mono h hx.tail) (EnvOk.mono h he)) hs' fun vs s'' hs'' h' hvs => ?_
    exact good_pure ⟨liveL_cons (Live.mono h' hv) hvs.1, by simp [hvs.2]⟩

theorem good_evaluateBody {d : Data} {e : Nat} (hs : Sound C s) (hd : Live C s d) (he : EnvOk s e) : Good C Z (LiveQ C) s (evaluateBody d e) :=
  good_evalSeq _ hs (live_toArray hd) live_null he
macro_rules | `(tactic| known) => `(tactic| ((with_reducible refine good_evaluateBody ?_ ?_ ?_) <;> (live; done)))

theorem good_bindOp {e : Nat} {x : String} {v : Data} (h : Live C s v) : Good C Z (fun s n => Made s n (.bind e x v)) s (.op (.bind e x v)) := good_op h
macro_rules | `(tactic| known) => `(tactic| ((with_reducible refine good_bindOp ?_) <;> (live; done)))

theorem good_bindLoop {get : Data → Prog Data} {le : Nat} {I : Store → Prop} (hI : ∀ s s', I s → Ext s s' → I s')
    (hg : ∀ s a, Sound C s → I s → Live C s a → Good C Z (LiveQ C) s (get a)) (as : List Data) :
    ∀ {s : Store} {p : Data} {acc : Option (String × List Data)}, Sound C s → I s → LiveL C s as →
      (∀ x vs, acc = some (x, vs) → LiveL C s vs) → Good C Z (fun _ _ => True) s (bindLoop get le as p acc) := by
  induction as with
  | nil =>
    intro s p acc hs _ _ hacc
    cases acc with
    | none => exact good_pure trivial
    | some y =>
      obtain ⟨x, vs⟩ := y
      unfold bindLoop
      exact good_bind (good_bindOp (live_ofArray (hacc x vs rfl))) hs fun _ _ _ _ _ => good_pure trivial
  | cons a as ih =>
    intro s p acc hs hi ha hacc
    cases acc with
    | none =>
      unfold bindLoop
      refine good_bind (hg s a hs hi ha.head) hs fun v s1 hs1 hx hv => ?_
      refine good_bind (good_bindOp hv) hs1 fun _ s2 hs2 hx2 _ => ?_
      refine ih hs2 (hI _ _ (hI _ _ hi hx) hx2) (LiveL.mono (hx.trans hx2) ha.tail) ?_
      intro x vs h
      split at h
      · cases h; exact liveL_nil
      · cases h
    | some y =>
      obtain ⟨x, vs⟩ := y
      unfold bindLoop
      refine good_bind (hg s a hs hi ha.head) hs fun v s1 hs1 hx hv => ?_
      refine ih hs1 (hI _ _ hi hx) (LiveL.mono hx ha.tail) ?_
      intro x' vs' h
      cases h
      exact liveL_append (LiveL.mono hx (hacc x vs rfl)) (liveL_cons hv liveL_nil)

theorem good_makeLocalBindings {name : String} {p args : Data} {ae le : Nat} {ev : Bool} (hs : Sound C s) (ha : Live C s args) (he : EnvOk s ae) :
    Good C Z (fun _ _ => True) s (makeLocalBindings name p args ae le ev) := by
  unfold makeLocalBindings
  split
  · refine good_bindLoop (I := fun s => EnvOk s ae) (fun s s' h hx => EnvOk.mono hx h) (fun s a hs he ha => ?_) _ hs he (live_toArray ha) nofun
    cases ev with
    | true => exact good_eval ha he
    | false => exact good_pure ha
  · exact good_fail

theorem good_inFn {name : String} {p : Prog Data} (hs : Sound C s) (hp : Good C Z (LiveQ C) s p) : Good C Z (LiveQ C) s (inFn name p) :=
  good_attempt hp hs (fun _ _ _ _ _ h => .ret h) fun _ _ _ _ _ => .err

theorem good_bindSelf {t : Store} {slot : Bool} {f : Option Nat} {ae le : Nat} (hs : Sound C s) (hf : OptOk s f)
    (ht : ∀ b, t.localB ae "self" = some b → Live C s b.val) : Good C Z (fun _ _ => True) s (bindSelf t slot f ae le) := by
  unfold bindSelf
  split
  · rename_i i
    exact good_bind (good_bindOp (show Live C s (.atom (.frame i)) from hf i rfl)) hs fun _ _ _ _ _ => good_pure trivial
  · split
    · split
      · rename_i b hb
        exact good_bind (good_bindOp (ht b hb)) hs fun _ _ _ _ _ => good_pure trivial
      · exact good_pure trivial
    · exact good_pure trivial

theorem good_newEnv {p : Nat} {f : Option Nat} {n : String} (h : EnvOk s p) (hf : OptOk s f) :
    Good C Z (fun s e => EnvOk s e) s (.op (.newEnv p f n)) := good_op (o := .newEnv p f n) ⟨h, hf⟩
theorem optOk_none : OptOk s none := nofun
theorem optOk_some {i : Nat} (h : FrameOk s i) : OptOk s (some i) := by rintro _ ⟨⟩; exact h

theorem good_callFn {f : Nat} {args : Data} {ae : Nat} {fr : Option Nat} {ev : Bool} (hs : Sound C s) (hf : FnOk s f) (ha : Live C s args)
    (he : EnvOk s ae) (hfr : OptOk s fr) : Good C Z (LiveQ C) s (callFn f args ae fr ev) := by
  unfold callFn
  refine .get ?_
  cases h : s.fns[f]? with
  | none => exact absurd (List.getElem?_eq_none_iff.mp h) (Nat.not_le.mpr hf)
  | some r =>
    obtain ⟨h1, h2, h3⟩ := sound_fn hs h
    dsimp only
    refine good_bind (good_newEnv h1 hfr) hs fun le s1 hs1 hx1 hle => ?_
    have hself : ∀ b, s.localB ae "self" = some b → Live C s1 b.val := fun b hb => Live.mono hx1 (sound_localB hs hb)
    refine good_bind (good_bindSelf hs1 (OptOk.mono hx1 hfr) hself) hs1 fun _ s2 hs2 hx2 _ => ?_
    have hx := hx1.trans hx2
    refine good_bind (good_makeLocalBindings hs2 (Live.mono hx ha) (EnvOk.mono hx he)) hs2 fun _ s3 hs3 hx3 _ => ?_
    have hx' := hx.trans hx3
    exact good_inFn hs3 (good_evaluateBody hs3 (Live.mono hx' h3) (EnvOk.mono (hx2.trans hx3) hle))

theorem callFrame_ok {f e : Nat} (hs : Sound C s) : OptOk s (callFrame s f e) := by
  unfold callFrame
  split
  · split
    · exact fun i hi => sound_frameOf hs hi
    · exact optOk_none
  · exact optOk_none

theorem good_expandMacro {m : Nat} {args : Data} {ae : Nat} (hs : Sound C s) (hm : m < s.macs.length) (ha : Live C s args) (he : EnvOk s ae) :
    Good C Z (LiveQ C) s (expandMacro m args ae) := by
  unfold expandMacro
  refine .get ?_
  cases h : s.macs[m]? with
  | none => exact absurd (List.getElem?_eq_none_iff.mp h) (Nat.not_le.mpr hm)
  | some r =>
    obtain ⟨h1, h2, h3⟩ := sound_mac hs h
    dsimp only
    refine good_bind (good_newEnv h1 optOk_none) hs fun le s1 hs1 hx1 hle => ?_
    refine good_bind (good_makeLocalBindings hs1 (Live.mono hx1 ha) (EnvOk.mono hx1 he)) hs1 fun _ s3 hs3 hx3 _ => ?_
    exact good_eval (Live.mono (hx1.trans hx3) h3) (EnvOk.mono hx3 hle)

theorem good_callMacro {m : Nat} {args : Data} {ae : Nat} (hs : Sound C s) (hm : m < s.macs.length) (ha : Live C s args) (he : EnvOk s ae) :
    Good C Z (LiveQ C) s (callMacro m args ae) :=
  good_bind (good_expandMacro hs hm ha he) hs fun _ _ _ hx hv => good_eval hv (EnvOk.mono hx he)

/-! ### Special forms -/

theorem good_condLoop {e : Nat} (xs : List Data) : ∀ {s : Store}, Sound C s → LiveL C s xs → EnvOk s e → Good C Z (LiveQ C) s (condLoop e xs) := by
  induction xs with
  | nil => exact fun _ _ _ => good_pure live_null
  | cons x xs ih =>
    intro s hs hx he
    have h1 := hx.head
    have h2 := hx.tail
    unfold condLoop
    good
    exact ih (by assumption) h2 he

theorem good_caseLoop [FrEq] {e : Nat} (xs : List Data) : ∀ {s : Store} {key : Data}, Sound C s → LiveL C s xs → EnvOk s e →
    Good C Z (LiveQ C) s (caseLoop key e xs) := by
  induction xs with
  | nil => exact fun _ _ _ => good_pure live_null
  | cons x xs ih =>
    intro s key hs hx he
    have h1 := hx.head
    have h2 := hx.tail
    unfold caseLoop
    good
    exact ih (by assumption) h2 he

theorem good_andLoop {e : Nat} (xs : List Data) : ∀ {s : Store} {r : Data}, Sound C s → LiveL C s xs → Live C s r → EnvOk s e →
    Good C Z (LiveQ C) s (andLoop e xs r) := by
  induction xs with
  | nil => exact fun _ _ h _ => good_pure h
  | cons x xs ih =>
    intro s key hs hx hr he
    have h1 := hx.head
    have h2 := hx.tail
    unfold andLoop
    good
    exact ih (by assumption) h2 (by assumption) he

theorem good_orLoop {e : Nat} (xs : List Data) : ∀ {s : Store} {r : Data}, Sound C s → LiveL C s xs → Live C s r → EnvOk s e →
    Good C Z (LiveQ C) s (orLoop e xs r) := by
  induction xs with
  | nil => exact fun _ _ h _ => good_pure h
  | cons x xs ih =>
    intro s key hs hx hr he
    have h1 := hx.head
    have h2 := hx.tail
    unfold orLoop
    good
    exact ih (by assumption) h2 (by assumption) he

theorem good_newFn {n : String} {p b : Data} {e : Nat} (hp : Live C s p) (hb : Live C s b) (he : EnvOk s e) :
    Good C Z (fun s i => FnOk s i) s (.op (.newFn n p b e)) := good_op (o := .newFn n p b e) ⟨hp, hb, he⟩
theorem good_mkFn {n : String} {p b : Data} {e : Nat} (hs : Sound C s) (hp : Live C s p) (hb : Live C s b) (he : EnvOk s e) :
    Good C Z (LiveQ C) s (mkFn n p b e) :=
  good_bind (good_newFn hp hb he) hs fun i _ _ _ h => good_pure (show Live C _ (.atom (.func i)) from h)
macro_rules | `(tactic| known) => `(tactic| ((with_reducible refine good_mkFn ?_ ?_ ?_ ?_) <;> (live; done)))

theorem good_checkBindings {b : Bool} {le : Nat} (xs : List Data) : ∀ {s : Store}, Sound C s → Good C Z (fun _ _ => True) s (checkBindings b le xs) := by
  induction xs with
  | nil => exact fun _ => good_pure trivial
  | cons x xs ih =>
    intro s hs
    unfold checkBindings
    good
    · exact ih (by assumption)
    · exact ih (by assumption)

theorem good_bindAll {ee le : Nat} (xs : List Data) : ∀ {s : Store}, Sound C s → LiveL C s xs → EnvOk s ee → Good C Z (fun _ _ => True) s (bindAll ee le xs) := by
  induction xs with
  | nil => exact fun _ _ _ => good_pure trivial
  | cons x xs ih =>
    intro s hs hx he
    have h1 := hx.head
    have h2 := hx.tail
    unfold bindAll
    good
    exact ih (by assumption) h2 he

theorem good_bindLetLocals {f : Data} {b : Bool} {le ee : Nat} (hs : Sound C s) (hf : Live C s f) (he : EnvOk s ee) :
    Good C Z (fun _ _ => True) s (bindLetLocals f b le ee) := by
  unfold bindLetLocals
  refine good_bind (good_checkBindings _ hs) hs fun _ s1 hs1 hx _ => ?_
  exact good_bindAll _ hs1 (live_toArray (Live.mono hx hf)) (EnvOk.mono hx he)

theorem good_letCommon {a b : Bool} {args : Data} {e : Nat} (hs : Sound C s) (ha : Live C s args) (he : EnvOk s e) :
    Good C Z (LiveQ C) s (letCommon a b args e) := by
  unfold letCommon
  split
  · exact good_fail
  · refine good_bind (good_newEnv he optOk_none) hs fun le s1 hs1 hx hle => ?_
    lift hx
    refine good_bind (good_bindLetLocals hs1 (live_car ha) ?_) hs1 fun _ s2 hs2 hx2 _ => ?_
    · split <;> assumption
    · lift hx2
      good

theorem namedLetVars_live : ∀ (xs : List Data) {a b : List Data}, LiveL C s xs → namedLetVars xs = some (a, b) → LiveL C s a ∧ LiveL C s b := by
  intro xs
  induction xs with
  | nil => intro a b _ h; cases h; exact ⟨liveL_nil, liveL_nil⟩
  | cons x xs ih =>
    intro a b hx h
    unfold namedLetVars at h
    split at h
    · cases h
    · split at h
      · cases h
      · rename_i h'
        cases h
        obtain ⟨h1, h2⟩ := ih hx.tail h'
        exact ⟨liveL_cons (live_car hx.head) h1, liveL_cons (live_car (live_cdr hx.head)) h2⟩

theorem good_namedLet {args : Data} {e : Nat} (hs : Sound C s) (ha : Live C s args) (he : EnvOk s e) : Good C Z (LiveQ C) s (namedLetImpl args e) := by
  unfold namedLetImpl
  dsimp only
  split
  · exact good_fail
  · split
    · exact good_fail
    · rename_i h
      obtain ⟨h1, h2⟩ := namedLetVars_live _ (live_toArray (live_car (live_cdr ha))) h
      clear h
      refine good_bind (good_newEnv he optOk_none) hs fun le s1 hs1 hx hle => ?_
      lift hx
      refine good_bind (good_bindOp live_null) hs1 fun _ s2 hs2 hx _ => ?_
      lift hx
      refine good_bind (good_newFn (live_ofArray h1) (live_cdr (live_cdr ha)) hle) hs2 fun i s3 hs3 hx hi => ?_
      lift hx
      refine good_bind (good_bindOp (show Live C _ (.atom (.func i)) from hi)) hs3 fun _ s4 hs4 hx _ => ?_
      lift hx
      exact good_callFn hs4 hi (live_ofArray h2) he optOk_none

theorem good_stepValues (hord : Reorders H.ord) {e : Nat} (xs : List Data) : ∀ {s : Store}, Sound C s → LiveL C s xs → EnvOk s e →
    Good C Z (fun s l => ∀ p ∈ l, Live C s p.2) s (stepValues H e xs) := by
  induction xs with
  | nil => exact fun _ _ _ => good_pure nofun
  | cons x xs ih =>
    intro s hs hx he
    have h1 := hx.head
    have h2 := hx.tail
    have hv : Good C Z (LiveQ C) s (if !isNil (nth x 3) then Prog.eval (nth x 3) e else valueOf H false (stringValue (nth x 1)) e) := by
      split
      · good
      · exact good_valueOf hs hord
    have hk : ∀ v s', Sound C s' → Ext s s' → Live C s' v → Good C Z (fun s l => ∀ p ∈ l, Live C s p.2) s'
        (do let r ← stepValues H e xs; pure ((stringValue (nth x 1), v) :: r)) := by
      intro v s1 hs1 hx1 hv
      lift hx1
      refine good_bind (ih hs1 h2 he) hs1 fun l s2 hs2 hx2 hl => ?_
      refine good_pure fun p hp => ?_
      rcases List.mem_cons.mp hp with rfl | hp
      · exact Live.mono hx2 hv
      · exact hl p hp
    have := good_bind hv hs hk
    unfold stepValues
    split
    · rename_i hc
      rwa [if_pos hc] at this
    · rename_i hc
      rwa [if_neg hc] at this

theorem good_bindPairs {e : Nat} (xs : List (String × Data)) : ∀ {s : Store}, Sound C s → (∀ p ∈ xs, Live C s p.2) → Good C Z (fun _ _ => True) s (bindPairs e xs) := by
  induction xs with
  | nil => exact fun _ _ => good_pure trivial
  | cons x xs ih =>
    intro s hs hx
    obtain ⟨x, v⟩ := x
    unfold bindPairs
    refine good_bind (good_bindOp (hx (x, v) List.mem_cons_self)) hs fun _ s1 hs1 h _ => ?_
    exact ih hs1 fun p hp => Live.mono h (hx p (List.mem_cons_of_mem _ hp))

theorem good_rebind (hord : Reorders H.ord) {b : Data} {e : Nat} (hs : Sound C s) (hb : Live C s b) (he : EnvOk s e) :
    Good C Z (fun _ _ => True) s (rebindDoLocals H b e) :=
  good_bind (good_stepValues hord _ hs (live_toArray hb) he) hs fun _ _ hs1 _ hl => good_bindPairs _ hs1 hl

theorem good_doIter (hord : Reorders H.ord) {b t y r : Data} {e : Nat} (hs : Sound C s) (hb : Live C s b) (ht : Live C s t) (hy : Live C s y)
    (hr : Live C s r) (he : EnvOk s e) : Good C Z (LiveQ C) s (doIter H b t y r e) := by
  unfold doIter
  refine good_bind (good_eval (live_car ht) he) hs fun v s1 hs1 hx _ => ?_
  lift hx
  split
  · exact good_evalSeq _ hs1 (live_toArray (live_cdr ht)) hr he
  · refine good_bind (good_evalSeq _ hs1 (live_toArray hy) hr he) hs1 fun w s2 hs2 hx hw => ?_
    lift hx
    refine good_attempt (good_rebind hord hs2 hb he) hs2 (fun _ s3 _ hs3 hx _ => ?_) fun _ s3 _ hs3 hx => ?_
    · lift hx
      exact good_doLoop hb ht hy hw he
    · exact .ret (Live.mono hx hw)

theorem live_chainExpr {x v : Data} (hx : Live C s x) (hv : Live C s v) : Live C s (chainExpr x v) := by
  unfold chainExpr
  split <;> live
theorem good_chainLoop {e : Nat} (xs : List Data) : ∀ {s : Store} {v : Data}, Sound C s → LiveL C s xs → Live C s v → EnvOk s e →
    Good C Z (LiveQ C) s (chainLoop e xs v) := by
  induction xs with
  | nil => exact fun _ _ h _ => good_pure h
  | cons x xs ih =>
    intro s v hs hx hv he
    refine good_bind (good_eval (live_chainExpr hx.head hv) he) hs fun w s1 hs1 h hw => ?_
    lift h
    exact ih hs1 hx.tail hw he
theorem good_tapLoop {e : Nat} (xs : List Data) : ∀ {s : Store} {v : Data}, Sound C s → LiveL C s xs → Live C s v → EnvOk s e →
    Good C Z (LiveQ C) s (tapLoop e v xs) := by
  induction xs with
  | nil => exact fun _ _ h _ => good_pure h
  | cons x xs ih =>
    intro s v hs hx hv he
    refine good_bind (good_eval (live_chainExpr hx.head hv) he) hs fun w s1 hs1 h hw => ?_
    lift h
    exact ih hs1 hx.tail hv he

/-! ### Quotation -/

theorem good_qqEach {f : Data → Prog Data} {e : Nat} (xs : List Data) :
    (∀ x ∈ xs, ∀ s, Sound C s → Live C s x → EnvOk s e → Good C Z (LiveQ C) s (f x)) →
    ∀ {s : Store}, Sound C s → LiveL C s xs → EnvOk s e → Good C Z (fun s l => LiveL C s l) s (qqEach f xs) := by
  induction xs with
  | nil => exact fun _ _ _ _ _ => good_pure liveL_nil
  | cons x xs ih =>
    intro hf s hs hx he
    refine good_bind (hf x List.mem_cons_self s hs hx.head he) hs fun v s1 hs1 h hv => ?_
    lift h
    refine good_bind (ih (fun y hy => hf y (List.mem_cons_of_mem _ hy)) hs1 hx.tail he) hs1 fun vs s2 hs2 h hvs => ?_
    lift h
    refine good_pure ?_
    split
    · assumption
    · exact liveL_cons hv hvs

theorem size_toArray (d x : Data) (h : x ∈ toArray d) : size x ≤ size d ∧ (isListP d = true → size x < size d) := by
  induction d with
  | null => cases h
  | cell k a d _ ih =>
    simp only [toArray] at h
    split at h
    · cases h
    · simp only [size]
      rcases List.mem_cons.mp h with rfl | h
      · exact ⟨by omega, fun _ => by omega⟩
      · have := (ih h).1
        exact ⟨by omega, fun _ => by omega⟩
  | atom a =>
    simp only [toArray, List.mem_singleton] at h
    subst h
    exact ⟨by simp [size], nofun⟩

theorem good_qq {e : Nat} (n : Nat) : ∀ {s : Store} {x : Data} {l : Nat}, size x < n → Sound C s → Live C s x → EnvOk s e →
    Good C Z (LiveQ C) s (qq n x l e) := by
  induction n with
  | zero => exact fun h => absurd h (Nat.not_lt_zero _)
  | succ n ih =>
    intro s x l hn hs hx he
    unfold qq
    have hcar : headIs "quasiquote" x = true ∨ headIs "unquote" x = true ∨ headIs "unquote-splicing" x = true → size (car (cdr x)) < n := by
      intro h
      have hc : ∃ k a d, x = .cell k a d := by
        cases x with
        | cell k a d => exact ⟨k, a, d, rfl⟩
        | _ => rcases h with h | h | h <;> cases h
      obtain ⟨k, a, d, rfl⟩ := hc
      have h2 : size (car d) ≤ size d := by cases d <;> simp [car, size]; omega
      simp only [size] at hn
      simp only [cdr]
      omega
    split
    · good
    split
    · rename_i h
      refine good_bind (ih (hcar (Or.inl h)) hs (by live) he) hs fun v s1 hs1 h hv => ?_
      exact good_pure (by live)
    split
    · rename_i h
      split
      · refine good_bind (ih (hcar (Or.inr (Or.inl h))) hs (by live) he) hs fun v s1 hs1 h hv => ?_
        lift h
        good
      · refine good_bind (ih (hcar (Or.inr (Or.inl h))) hs (by live) he) hs fun v s1 hs1 h hv => ?_
        exact good_pure (by live)
    split
    · rename_i h
      split
      · refine good_bind (ih (hcar (Or.inr (Or.inr h))) hs (by live) he) hs fun v s1 hs1 h hv => ?_
        lift h
        good
      · refine good_bind (ih (hcar (Or.inr (Or.inr h))) hs (by live) he) hs fun v s1 hs1 h hv => ?_
        exact good_pure (by live)
    · rename_i hl _ _ _
      refine good_bind (good_qqEach (e := e) _ (fun y hy s hs hy' he => ih ?_ hs hy' he) hs (live_toArray hx) he) hs fun v s1 hs1 h hv => ?_
      · have := (size_toArray x y hy).2 (by simpa using hl)
        omega
      · exact good_pure (live_cons (live_flatten (live_ofArray hv)) live_null)

end Golisp.Ev
