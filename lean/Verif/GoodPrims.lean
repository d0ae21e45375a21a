import Verif.GoodText
import Verif.FormatCall
import Verif.ReadLive
/-
The primitives in the logic of `Verif.Good`, and the whole interpreter.
-/
namespace Golisp.Spec
open Golisp Data Ev

/-- The calls of a primitive that crash the host: `panic!`; a remainder by zero; `apply` of a procedure to nothing; a
negative number of bytes taken or dropped; the capital form of an empty string; a piece of a string before its beginning;
an `interval` that counts for ever or needs more memory than there can be; `format` with a control string that ends
inside a directive. -/
inductive Fatal : String → List Data → Prop where
  | panic {v} : Fatal "panic!" [v]
  | remainder {a} : Fatal "%" [.int a, .int 0]
  | modulo {a} : Fatal "modulo" [.int a, .int 0]
  | apply {f} : isFuncOrPrim f = true → Fatal "apply" [f]
  | take {k bs} : k.toInt < 0 → Fatal "take" [.int k, .bytes bs]
  | drop {k bs} : k.toInt < 0 → Fatal "drop" [.int k, .bytes bs]
  | capitalize : Fatal "string-capitalize" [.str ""]
  | substring {x : String} {i j : BitVec 64} : i.toInt < 0 → i.toInt ≤ j.toInt → j.toInt ≤ (text x.toList).length → Fatal "substring" [.str x, .int i, .int j]
  | interval {a} : Runaway true 1 (intValue a) 1 → Fatal "interval" [a]
  | intervalUp {a b} : (intValue a).toInt ≤ (intValue b).toInt → Runaway true (intValue a) (intValue b) 1 → Fatal "interval" [a, b]
  | intervalDown {a b} : (intValue b).toInt < (intValue a).toInt → Runaway false (intValue a) (intValue b) (-1) → Fatal "interval" [a, b]
  | intervalUpBy {a b t} : (intValue a).toInt ≤ (intValue b).toInt → 0 < t.toInt → Runaway true (intValue a) (intValue b) t →
      Fatal "interval" [a, b, .int t]
  | intervalDownBy {a b t} : (intValue b).toInt < (intValue a).toInt → t.toInt < 0 → Runaway false (intValue a) (intValue b) t →
      Fatal "interval" [a, b, .int t]
  | format {d : Data} {t : String} {vs : List Data} : isBool d = true ∨ isPort d = true → CutShort (text t.toList) vs →
      Fatal "format" (d :: .str t :: vs)

/-- The call is such a call: the evaluation of an expression, or the application of a primitive, in which the arguments
have such values.  (`panic!` is refused in restricted environments.) -/
inductive Crashing (C : Conf) : Call → Store → Prop where
  | eval {need a b e s x us s₁ s₂} : EvalsOp C (car (shortcuts (.cell .cons a b))) e s (.ok (.atom (.prim x))) s₁ →
      Args C e (toArray (cdr (shortcuts (.cell .cons a b)))) s₁ (.ok us) s₂ → Fatal x us →
      length (cdr (shortcuts (.cell .cons a b))) = us.length → (x = "panic!" → s₁.restrictedEnv e = false) →
      Crashing C (.eval need (.cell .cons a b) e) s
  | app {args e s x us s₁} : Args C e (toArray (quoteAll args)) s (.ok us) s₁ → Fatal x us → length (quoteAll args) = us.length →
      (x = "panic!" → s.restrictedEnv e = false) → Crashing C (.app (.atom (.prim x)) args e) s

end Golisp.Spec

namespace Golisp.Ev
open Golisp Data Spec

variable {C : Conf} {s s' : Store} {α β : Type} {Z : Prop} {H : Host}

/-! ### Procedures applied to elements -/

section callbacks
variable {f : Data → Prog Data} {I : Store → Prop} (hI : ∀ s s', I s → Ext s s' → I s')
  (hf : ∀ s a, Sound C s → I s → Live C s a → Good C Z (LiveQ C) s (f a))
include hI hf

theorem good_mapLoop (n : Nat) : ∀ {s : Store} {cols : List Data}, Sound C s → I s → LiveL C s cols →
    Good C Z (fun s l => LiveL C s l) s (mapLoopP f n cols) := by
  induction n with
  | zero => exact fun _ _ _ => good_pure liveL_nil
  | succ n ih =>
    intro s cols hs hi hc
    refine good_bind (hf s _ hs hi (live_ofArray (liveL_map hc fun _ => live_car))) hs fun v s1 hs1 hx hv => ?_
    have hi1 := hI _ _ hi hx
    lift hx
    refine good_bind (ih hs1 hi1 (liveL_map hc fun _ => live_cdr)) hs1 fun vs s2 hs2 hx hvs => ?_
    lift hx
    exact good_pure (liveL_cons hv hvs)
theorem good_mapP {cols : List Data} (hs : Sound C s) (hi : I s) (hc : LiveL C s cols) : Good C Z (LiveQ C) s (mapP f cols) := by
  unfold mapP
  split
  · rename_i r hr
    have hr : OutOk C s Z r := by
      clear hi hc
      induction cols with
      | nil => cases hr
      | cons a l ih =>
        unfold Prim.mapScan at hr
        repeat' split at hr
        all_goals first | exact ih hr | (cases hr; first | exact outOk_ok live_null | exact outOk_err)
    exact good_ofOut hr
  · split
    · exact good_pure live_null
    · exact good_bind (good_mapLoop hI hf _ hs hi hc) hs fun _ _ _ _ h => good_pure (live_ofArray h)
theorem good_forEachLoop (n : Nat) : ∀ {s : Store} {cols : List Data}, Sound C s → I s → LiveL C s cols →
    Good C Z (fun _ _ => True) s (forEachLoopP f n cols) := by
  induction n with
  | zero => exact fun _ _ _ => good_pure trivial
  | succ n ih =>
    intro s cols hs hi hc
    refine good_bind (hf s _ hs hi (live_ofArray (liveL_map hc fun _ => live_car))) hs fun v s1 hs1 hx hv => ?_
    have hi1 := hI _ _ hi hx
    lift hx
    exact ih hs1 hi1 (liveL_map hc fun _ => live_cdr)
theorem good_forEachP {cols : List Data} (hs : Sound C s) (hi : I s) (hc : LiveL C s cols) : Good C Z (LiveQ C) s (forEachP f cols) := by
  unfold forEachP
  split
  · exact good_fail
  · split
    · exact good_pure live_null
    · exact good_bind (good_forEachLoop hI hf _ hs hi hc) hs fun _ _ _ _ _ => good_pure live_null
theorem good_anyLoop (n : Nat) : ∀ {s : Store} {cols : List Data}, Sound C s → I s → LiveL C s cols →
    Good C Z (LiveQ C) s (anyLoopP f n cols) := by
  induction n with
  | zero => exact fun _ _ _ => good_pure live_bool
  | succ n ih =>
    intro s cols hs hi hc
    refine good_bind (hf s _ hs hi (live_ofArray (liveL_map hc fun _ => live_car))) hs fun v s1 hs1 hx hv => ?_
    have hi1 := hI _ _ hi hx
    lift hx
    split
    · exact good_pure live_bool
    · exact ih hs1 hi1 (liveL_map hc fun _ => live_cdr)
theorem good_anyP {cols : List Data} (hs : Sound C s) (hi : I s) (hc : LiveL C s cols) : Good C Z (LiveQ C) s (anyP f cols) := by
  unfold anyP
  split
  · exact good_fail
  · split
    · exact good_pure live_null
    · exact good_anyLoop hI hf _ hs hi hc
theorem good_everyLoop (n : Nat) : ∀ {s : Store} {cols : List Data}, Sound C s → I s → LiveL C s cols →
    Good C Z (LiveQ C) s (everyLoopP f n cols) := by
  induction n with
  | zero => exact fun _ _ _ => good_pure live_bool
  | succ n ih =>
    intro s cols hs hi hc
    refine good_bind (hf s _ hs hi (live_ofArray (liveL_map hc fun _ => live_car))) hs fun v s1 hs1 hx hv => ?_
    have hi1 := hI _ _ hi hx
    lift hx
    split
    · exact good_pure live_bool
    · exact ih hs1 hi1 (liveL_map hc fun _ => live_cdr)
theorem good_everyP {cols : List Data} (hs : Sound C s) (hi : I s) (hc : LiveL C s cols) : Good C Z (LiveQ C) s (everyP f cols) := by
  unfold everyP
  split
  · exact good_fail
  · split
    · exact good_pure live_null
    · exact good_everyLoop hI hf _ hs hi hc
theorem good_reduceFold {rtl : Bool} (is : List Nat) : ∀ {s : Store} {col : List Data} {acc : Data}, Sound C s → I s → LiveL C s col → Live C s acc →
    Good C Z (LiveQ C) s (reduceFoldP f col rtl is acc) := by
  induction is with
  | nil => exact fun _ _ _ h => good_pure h
  | cons i is ih =>
    intro s col acc hs hi hc ha
    unfold reduceFoldP
    refine good_bind (hf s _ hs hi (live_ofArray ?_)) hs fun v s1 hs1 hx hv => ?_
    · split
      · exact liveL_cons (liveL_getD hc) (liveL_cons ha liveL_nil)
      · exact liveL_cons ha (liveL_cons (liveL_getD hc) liveL_nil)
    · exact ih hs1 (hI _ _ hi hx) (LiveL.mono hx hc) hv
theorem good_reduceLeft {i c : Data} (hs : Sound C s) (hi : I s) (h1 : Live C s i) (hc : Live C s c) : Good C Z (LiveQ C) s (reduceLeftP f i c) := by
  unfold reduceLeftP
  split
  · exact good_fail
  · have h := live_toArray hc
    split
    · exact good_pure h1
    · rename_i hx
      rw [hx] at h
      exact good_reduceFold hI hf _ hs hi h.tail h.head
theorem good_reduceRight {i c : Data} (hs : Sound C s) (hi : I s) (h1 : Live C s i) (hc : Live C s c) : Good C Z (LiveQ C) s (reduceRightP f i c) := by
  unfold reduceRightP
  split
  · exact good_fail
  · have h := live_toArray hc
    split
    · exact good_pure h1
    · rename_i hx
      exact good_reduceFold hI hf _ hs hi (liveL_dropLast h) (liveL_getLast h hx)
theorem good_foldLeft {i c : Data} (hs : Sound C s) (hi : I s) (h1 : Live C s i) (hc : Live C s c) : Good C Z (LiveQ C) s (foldLeftP f i c) := by
  unfold foldLeftP
  split
  · exact good_fail
  · exact good_reduceFold hI hf _ hs hi (live_toArray hc) h1
theorem good_foldRight {i c : Data} (hs : Sound C s) (hi : I s) (h1 : Live C s i) (hc : Live C s c) : Good C Z (LiveQ C) s (foldRightP f i c) := by
  unfold foldRightP
  split
  · exact good_fail
  · exact good_reduceFold hI hf _ hs hi (live_toArray hc) h1
theorem good_filterLoop {b : Bool} (xs : List Data) : ∀ {s : Store}, Sound C s → I s → LiveL C s xs →
    Good C Z (fun s l => LiveL C s l) s (filterLoopP f b xs) := by
  induction xs with
  | nil => exact fun _ _ _ => good_pure liveL_nil
  | cons x xs ih =>
    intro s hs hi hx
    unfold filterLoopP
    refine good_bind (hf s _ hs hi (live_cons hx.head live_null)) hs fun v s1 hs1 h hv => ?_
    have hi1 := hI _ _ hi h
    lift h
    split
    · refine good_bind (ih hs1 hi1 hx.tail) hs1 fun l s2 hs2 h hl => ?_
      lift h
      refine good_pure ?_
      split
      · exact liveL_cons hx.head hl
      · exact hl
    · exact good_fail
theorem good_filterP {c : Data} (hs : Sound C s) (hi : I s) (hc : Live C s c) : Good C Z (LiveQ C) s (filterP f c) := by
  unfold filterP
  split
  · exact good_fail
  · exact good_bind (good_filterLoop hI hf _ hs hi (live_toArray hc)) hs fun _ _ _ _ h => good_pure (live_ofArray h)
theorem good_removeP {c : Data} (hs : Sound C s) (hi : I s) (hc : Live C s c) : Good C Z (LiveQ C) s (removeP f c) := by
  unfold removeP
  split
  · exact good_fail
  · exact good_bind (good_filterLoop hI hf _ hs hi (live_toArray hc)) hs fun _ _ _ _ h => good_pure (live_ofArray h)
theorem good_findTailLoop (d : Data) : ∀ {s : Store}, Sound C s → I s → Live C s d → Good C Z (LiveQ C) s (findTailLoopP f d) := by
  induction d with
  | null => exact fun _ _ _ => good_pure live_bool
  | cell k a d _ ih =>
    intro s hs hi hd
    unfold findTailLoopP
    split
    · exact good_pure live_bool
    · refine good_attempt (hf s _ hs hi (live_ofArray (liveL_cons hd.1 liveL_nil))) hs (fun v s1 _ hs1 hx hv => ?_) fun e s1 _ hs1 hx => good_fail
      have hi1 := hI _ _ hi hx
      lift hx
      split
      · exact .ret hd
      · exact ih hs1 hi1 hd.2
      · exact good_fail
  | atom a =>
    intro s hs hi hd
    unfold findTailLoopP
    refine good_attempt (hf s _ hs hi (live_ofArray (liveL_cons live_null liveL_nil))) hs (fun v s1 _ hs1 hx hv => ?_) fun e s1 _ hs1 hx => good_fail
    lift hx
    split
    · exact .ret hd
    · exact .ret live_bool
    · exact good_fail
theorem good_findTailP {c : Data} (hs : Sound C s) (hi : I s) (hc : Live C s c) : Good C Z (LiveQ C) s (findTailP f c) := by
  unfold findTailP
  split
  · exact good_fail
  · exact good_findTailLoop hI hf _ hs hi hc
theorem good_findLoop (xs : List Data) : ∀ {s : Store}, Sound C s → I s → LiveL C s xs → Good C Z (LiveQ C) s (findLoopP f xs) := by
  induction xs with
  | nil => exact fun _ _ _ => good_pure live_bool
  | cons x xs ih =>
    intro s hs hi hd
    unfold findLoopP
    refine good_attempt (hf s _ hs hi (live_ofArray (liveL_cons hd.head liveL_nil))) hs (fun v s1 _ hs1 hx hv => ?_) fun e s1 _ hs1 hx => good_fail
    have hi1 := hI _ _ hi hx
    lift hx
    split
    · exact .ret hd.head
    · exact ih hs1 hi1 hd.tail
    · exact good_fail
theorem good_findP {c : Data} (hs : Sound C s) (hi : I s) (hc : Live C s c) : Good C Z (LiveQ C) s (findP f c) := by
  unfold findP
  split
  · exact good_fail
  · exact good_findLoop hI hf _ hs hi (live_toArray hc)
theorem good_partPredLoop (xs : List Data) : ∀ {s : Store} {ts fs : List Data}, Sound C s → I s → LiveL C s xs → LiveL C s ts → LiveL C s fs →
    Good C Z (fun s p => LiveL C s p.1 ∧ LiveL C s p.2) s (partPredLoopP f xs ts fs) := by
  induction xs with
  | nil => exact fun _ _ _ h1 h2 => good_pure ⟨h1, h2⟩
  | cons x xs ih =>
    intro s ts fs hs hi hd h1 h2
    unfold partPredLoopP
    refine good_bind (hf s _ hs hi (live_ofArray (liveL_cons hd.head liveL_nil))) hs fun v s1 hs1 hx hv => ?_
    have hi1 := hI _ _ hi hx
    lift hx
    split
    · exact ih hs1 hi1 hd.tail (liveL_append h1 (liveL_cons hd.head liveL_nil)) h2
    · exact ih hs1 hi1 hd.tail h1 (liveL_append h2 (liveL_cons hd.head liveL_nil))
theorem good_partPredP {c : Data} (hs : Sound C s) (hi : I s) (hc : Live C s c) : Good C Z (LiveQ C) s (partPredP f c) := by
  unfold partPredP
  refine good_bind (good_partPredLoop hI hf _ hs hi (live_toArray hc) liveL_nil liveL_nil) hs fun p _ _ _ h => good_pure ?_
  exact live_ofArray (liveL_cons (live_ofArray h.1) (liveL_cons (live_ofArray h.2) liveL_nil))
end callbacks

/-- The procedure and environment of a callback exist. -/
def CbOk (C : Conf) (fn : Data) (e : Nat) (s : Store) : Prop := Live C s fn ∧ EnvOk s e
theorem cb_mono {fn : Data} {e : Nat} (s s' : Store) (h : CbOk C fn e s) (hx : Ext s s') : CbOk C fn e s' := ⟨Live.mono hx h.1, EnvOk.mono hx h.2⟩
theorem cb_good {fn : Data} {e : Nat} (s : Store) (a : Data) (_ : Sound C s) (h : CbOk C fn e s) (ha : Live C s a) :
    Good C Z (LiveQ C) s (Prog.app fn a e) := good_app h.1 ha h.2

theorem good_withFn {m : String} {k : (Data → Prog Data) → Data → Prog Data} {args : Data} {e : Nat}
    (hk : CbOk C (car args) e s → Live C s (cdr args) → Good C Z (LiveQ C) s (k (fun a => Prog.app (car args) a e) (cdr args)))
    (ha : Live C s args) (he : EnvOk s e) : Good C Z (LiveQ C) s (withFn m k args e) := by
  unfold withFn
  split
  · exact good_fail
  · exact hk ⟨live_car ha, he⟩ (live_cdr ha)

theorem good_partition {args : Data} {e : Nat} (hs : Sound C s) (ha : Live C s args) (he : EnvOk s e) : Good C Z (LiveQ C) s (partitionImpl args e) := by
  unfold partitionImpl
  split
  · exact good_fail
  split
  · exact good_fail
  split
  · exact good_ofOut (outOk_partition (by live))
  · exact good_partPredP cb_mono cb_good hs ⟨by live, he⟩ (by live)

/-! ### Special forms with state -/

theorem spread_out {vs : List Data} (hv : LiveL C s vs) (hn : vs = [] → Z) : OutOk C s Z (spread vs) := by
  unfold spread
  split
  · rename_i h
    exact outOk_panic (hn (List.getLast?_eq_none_iff.mp h))
  · rename_i l h
    split
    · split
      · exact outOk_ok (live_listWithTail (liveL_dropLast hv) (liveL_getLast hv h))
      · exact outOk_ok (liveL_headD hv)
    · exact outOk_err

theorem good_define (hord : Reorders H.ord) {args : Data} {e : Nat} (hs : Sound C s) (ha : Live C s args) (he : EnvOk s e) :
    Good C Z (LiveQ C) s (defineImpl H args e) := by
  unfold defineImpl
  dsimp only
  split
  · good
  split
  · split
    · exact good_fail
    · refine good_bind (good_valueOf hs hord) hs fun v s1 hs1 hx _ => ?_
      lift hx
      split
      · exact good_fail
      · refine good_bind (good_mkFn hs1 (by live) (by live) he) hs1 fun v s1 hs1 hx hv => ?_
        lift hx
        refine good_bind (good_bindOp hv) hs1 fun _ s2 hs2 hx _ => ?_
        lift hx
        exact good_pure hv
  · exact good_fail

theorem good_newMac {n : String} {p b : Data} {e : Nat} (hp : Live C s p) (hb : Live C s b) (he : EnvOk s e) :
    Good C Z (fun s i => Live C s (.atom (.macro i))) s (.op (.newMac n p b e)) := good_op (o := .newMac n p b e) ⟨hp, hb, he⟩
theorem good_defmacro {args : Data} {e : Nat} (hs : Sound C s) (ha : Live C s args) (he : EnvOk s e) : Good C Z (LiveQ C) s (defmacroImpl args e) := by
  unfold defmacroImpl
  dsimp only
  split
  · split
    · exact good_fail
    · refine good_bind (good_newMac (by live) (by live) he) hs fun i s1 hs1 hx hi => ?_
      lift hx
      refine good_bind (good_bindOp hi) hs1 fun _ s2 hs2 hx _ => ?_
      lift hx
      exact good_pure hi
  · exact good_fail

theorem good_do {args : Data} {e : Nat} (hs : Sound C s) (ha : Live C s args) (he : EnvOk s e) : Good C Z (LiveQ C) s (doImpl args e) := by
  unfold doImpl
  split
  · exact good_fail
  split
  · exact good_fail
  · refine good_bind (good_newEnv he optOk_none) hs fun le s1 hs1 hx hle => ?_
    lift hx
    refine good_bind (good_bindLetLocals hs1 (live_car ha) he) hs1 fun _ s2 hs2 hx2 _ => ?_
    lift hx2
    exact good_doLoop (by live) (by live) (by live) live_null hle

theorem good_definitionOf {args : Data} {e : Nat} (hs : Sound C s) (ha : Live C s args) (he : EnvOk s e) : Good C Z (LiveQ C) s (definitionOfImpl args e) := by
  unfold definitionOfImpl
  dsimp only
  refine good_bind (good_eval (by live) he) hs fun f s1 hs1 hx hf => ?_
  lift hx
  split
  · rename_i i
    refine .get ?_
    cases h : s1.fns[i]? with
    | none => exact absurd (List.getElem?_eq_none_iff.mp h) (Nat.not_le.mpr hf)
    | some r =>
      obtain ⟨_, h2, h3⟩ := sound_fn hs1 h
      dsimp only
      have hn : Live C s1 (if isSym (car args) = true then car args else sym "anonymous") := by split <;> live
      split
      · exact good_pure (by live)
      · exact good_pure (by live)
  · exact good_fail

theorem good_expand {args : Data} {e : Nat} (hs : Sound C s) (ha : Live C s args) (he : EnvOk s e) : Good C Z (LiveQ C) s (expandImpl H args e) := by
  unfold expandImpl
  refine good_bind (good_eval (by live) he) hs fun f s1 hs1 hx hf => ?_
  lift hx
  split
  · exact good_expandMacro hs1 hf (by live) he
  · exact good_failShow

theorem good_onError {args : Data} {e : Nat} (hs : Sound C s) (ha : Live C s args) (he : EnvOk s e) : Good C Z (LiveQ C) s (onErrorImpl H args e) := by
  unfold onErrorImpl
  refine good_attempt (good_eval (by live) he) hs (fun v s1 _ hs1 hx hv => ?_) fun er s1 _ hs1 hx => ?_
  · lift hx
    dsimp only
    split
    · refine good_bind (good_eval (by live) he) hs1 fun f s2 hs2 hx hf => ?_
      lift hx
      split
      · exact good_callFn hs2 hf live_null he optOk_none
      · exact good_fail
    · exact .ret hv
  · lift hx
    refine good_bind (good_eval (by live) he) hs1 fun f s2 hs2 hx hf => ?_
    lift hx
    split
    · exact .get (good_callFn hs2 hf (live_ofArray (liveL_cons live_str liveL_nil)) he optOk_none)
    · exact good_fail

/-! ### System and environment primitives -/

theorem good_gensymPrefix {n : String} {args : Data} : Good C Z (fun _ _ => True) s (gensymPrefix H n args) := by
  unfold gensymPrefix
  split
  · exact good_pure trivial
  split
  · exact good_failShow
  · exact good_pure trivial

theorem good_withEnv {n : String} {k : Nat → Prog Data} {args : Data} (hk : ∀ e, EnvOk s e → Good C Z (LiveQ C) s (k e)) (ha : Live C s args) :
    Good C Z (LiveQ C) s (withEnv n k args) := by
  unfold withEnv
  split
  · rename_i e h
    have := live_car ha
    rw [h] at this
    exact hk e this
  · exact good_fail
theorem good_withEnvSym {n : String} {k : Nat → String → Prog Data} {args : Data} (hk : ∀ e x, EnvOk s e → Good C Z (LiveQ C) s (k e x))
    (ha : Live C s args) : Good C Z (LiveQ C) s (withEnvSym n k args) := by
  unfold withEnvSym
  split
  · rename_i e h
    have := live_car ha
    rw [h] at this
    split
    · exact hk e _ this
    · exact good_fail
  · exact good_fail

theorem good_bindNames {le : Nat} (xs : List Data) : ∀ {s : Store} {vs : List Data}, Sound C s → LiveL C s vs → Good C Z (fun _ _ => True) s (bindNames le xs vs) := by
  induction xs with
  | nil => exact fun _ _ => good_pure trivial
  | cons x xs ih =>
    intro s vs hs hv
    unfold bindNames
    split
    · exact good_fail
    · refine good_bind (good_bindOp (liveL_headD hv)) hs fun _ s1 hs1 hx _ => ?_
      lift hx
      exact ih hs1 (liveL_tail hv)

theorem good_makeTop {args : Data} {e : Nat} (hs : Sound C s) (ha : Live C s args) : Good C Z (LiveQ C) s (makeTopImpl args e) := by
  unfold makeTopImpl
  dsimp only
  have ha : Live C s (if isStr (car args) = true then cdr args else args) := by split <;> live
  revert ha
  generalize (if isStr (car args) = true then cdr args else args) = l
  intro ha
  refine good_bind (good_newEnv hs.root optOk_none) hs fun le s1 hs1 hx hle => ?_
  lift hx
  have hr : ∀ s', EnvOk s' le → Live C s' (.atom (.env le)) := fun _ h => h
  split
  · split
    · exact good_fail
    · refine good_bind (good_bindNames _ hs1 liveL_nil) hs1 fun _ s2 hs2 hx _ => ?_
      lift hx
      exact good_pure (hr _ hle)
  split
  · split
    · exact good_fail
    split
    · exact good_fail
    split
    · exact good_fail
    · refine good_bind (good_bindNames _ hs1 (by live)) hs1 fun _ s2 hs2 hx _ => ?_
      lift hx
      exact good_pure (hr _ hle)
  · exact good_pure (hr _ hle)

/-! ### Frame primitives -/

theorem good_hasSlot (hord : Reorders H.ord) {i : Nat} {k : String} : Good C Z (fun _ _ => True) s (hasSlotP H i k) :=
  .get (good_ofOut' (fun _ _ => trivial) (safe_out (hasSlot_safe hord)) (hasSlot_timeout hord))
theorem good_getSlot (hs : Sound C s) (hord : Reorders H.ord) {i : Nat} {k : String} : Good C Z (LiveQ C) s (getSlotP H i k) :=
  .get (good_ofOut' (fun _ h => get_live hs hord h) (safe_out (get_safe hord)) (get_timeout hord))

theorem good_withSlot {n : String} {k : Nat → String → Prog Data} {args : Data} (hk : ∀ i x, FrameOk s i → Good C Z (LiveQ C) s (k i x))
    (ha : Live C s args) : Good C Z (LiveQ C) s (withSlot H n k args) := by
  unfold withSlot
  split
  · rename_i i h
    have := live_car ha
    rw [h] at this
    split
    · exact good_failShow
    · exact hk i _ this
  · exact good_failShow

theorem liveM_alSet {m : FrameMap} {k : String} {v : Data} (h : LiveM C s m) (hv : Live C s v) : LiveM C s (alSet m k v) := by
  refine ⟨fun p hp => ?_, alSet_nodup h.2 _ _⟩
  rcases mem_alSet hp with hp | hp
  · exact h.1 p hp
  · rw [hp]; exact hv

theorem good_frameSlots : ∀ (xs : List Data) {m : FrameMap}, LiveL C s xs → LiveM C s m → Good C Z (fun s m => LiveM C s m) s (frameSlots H xs m)
  | [], _, _, h => good_pure h
  | [_], _, _, h => good_pure h
  | k :: v :: r, m, hx, h => by
    unfold frameSlots
    split
    · exact good_failShow
    · exact good_frameSlots r hx.tail.tail (liveM_alSet h hx.tail.head)

theorem good_methodOf (hs : Sound C s) (hord : Reorders H.ord) {n : String} {i : Nat} {k : String} : Good C Z (fun s j => FnOk s j) s (methodOf H n i k) := by
  unfold methodOf
  refine good_bind (good_hasSlot hord) hs fun b s1 hs1 hx _ => ?_
  split
  · exact good_failShow
  · refine good_bind (good_getSlot hs1 hord) hs1 fun f s2 hs2 hx hf => ?_
    split
    · exact good_pure hf
    · exact good_fail

theorem superLoop_out (hs : Sound C s) (hord : Reorders H.ord) {k : String} (l : List (Option Nat)) :
    (∀ v, superLoop H s k l = .ok v → Live C s v) ∧ superLoop H s k l ≠ .timeout ∧
    (superLoop H s k l = .panic → none ∈ l ∨ ¬ ParentsOk s.frames) := by
  induction l with
  | nil => exact ⟨fun v h => by cases h; exact live_null, nofun, nofun⟩
  | cons x l ih =>
    cases x with
    | none => exact ⟨nofun, nofun, fun _ => Or.inl List.mem_cons_self⟩
    | some p =>
      unfold superLoop
      cases hg : Frame.get s.frames H.ord p k with
      | ok v =>
        dsimp only
        split
        · exact ⟨ih.1, ih.2.1, fun h => (ih.2.2 h).imp_left (List.mem_cons_of_mem _)⟩
        · exact ⟨fun w h => by cases h; exact get_live hs hord hg, nofun, nofun⟩
      | err e => exact ⟨nofun, nofun, nofun⟩
      | panic => exact ⟨nofun, nofun, fun _ => Or.inr fun hp => by obtain ⟨v, h⟩ := get_safe hord (i := p) (k := k) hp; rw [h] at hg; cases hg⟩
      | timeout => exact absurd hg (get_timeout hord)

theorem good_callSuper (hs : Sound C s) (hord : Reorders H.ord) {i : Nat} {k : String} {p : Prog Data} {e : Nat} (hi : FrameOk s i) (he : EnvOk s e)
    (hp : Good C Z (LiveQ C) s p) : Good C Z (LiveQ C) s (callSuper H i k p e) := by
  unfold callSuper
  refine .get ?_
  obtain ⟨h1, h2, h3⟩ := superLoop_out hs hord (k := k) (H.ord [i] (Frame.parents s.frames i))
  refine good_ofOut_bind (fun f hf => ?_) (fun h => ?_) h2
  · have hf := h1 f hf
    split
    · refine good_bind hp hs fun l s1 hs1 hx hl => ?_
      lift hx
      refine .get ?_
      refine good_bind (good_newEnv he (optOk_some hi)) hs1 fun fe s2 hs2 hx hfe => ?_
      lift hx
      refine good_bind (good_bindOp (show Live C s2 (.atom (.frame i)) from hi)) hs2 fun _ s3 hs3 hx _ => ?_
      lift hx
      exact good_callFn hs3 hf hl hfe optOk_none
    · exact good_fail
  · refine Or.inr ?_
    rcases h3 h with h | h
    · exact fun hp => Frame.none_not_parent hp i ((hord _ _ _).mp h)
    · exact h

theorem good_sendSuper (hs : Sound C s) (hord : Reorders H.ord) {args : Data} {e : Nat} (ha : Live C s args) (he : EnvOk s e) :
    Good C Z (LiveQ C) s (sendSuperImpl H args e) := by
  unfold sendSuperImpl
  refine .get ?_
  split
  · exact good_fail
  · rename_i i h
    split
    · exact good_fail
    · exact good_callSuper hs hord (sound_frameOf hs h) he (good_pure (by live))

theorem good_applySlot (hs : Sound C s) (hord : Reorders H.ord) {args : Data} {e : Nat} (ha : Live C s args) (he : EnvOk s e)
    (hn : toArray (cdr (cdr args)) ≠ [] ∨ car args = emptyCons) :
    Good C Z (LiveQ C) s (applySlotImpl H args e) := by
  unfold applySlotImpl
  refine good_bind' (good_eval (by live) he) hs fun f s1 hr hs1 hx hf => ?_
  lift hx
  split
  · rename_i i
    rcases hn with hn | hn
    · refine good_bind (good_eval (by live) he) hs1 fun k s2 hs2 hx hk => ?_
      lift hx
      split
      · exact good_failShow
      · refine good_bind (good_methodOf hs2 hord) hs2 fun j s3 hs3 hx hj => ?_
        lift hx
        refine good_bind (good_evalAll _ hs3 (by live) he) hs3 fun vs s4 hs4 hx hvs => ?_
        obtain ⟨hvs, hlen⟩ := hvs
        lift hx
        have hne : vs ≠ [] := by
          rintro rfl
          exact hn (List.length_eq_zero_iff.mp hlen.symm)
        refine good_bind (good_ofOut (spread_out hvs fun h => absurd h hne)) hs4 fun l s5 hs5 hx hl => ?_
        lift hx
        exact good_callFn hs5 hj hl he (optOk_some hf)
    · rw [hn] at hr
      have hr := runsP_eval.mp hr
      have h0 : Runs (body C) (.eval false emptyCons e) s (.ok emptyCons) s := by
        rw [runs_iff]
        exact runsP_pure.mpr ⟨rfl, rfl⟩
      cases (runs_det hr h0).1
  · exact good_failShow

theorem good_applySlotSuper (hs : Sound C s) (hord : Reorders H.ord) {args : Data} {e : Nat} (ha : Live C s args) (he : EnvOk s e)
    (hn : toArray (cdr args) ≠ [] ∨ car args = emptyCons) :
    Good C Z (LiveQ C) s (applySlotSuperImpl H args e) := by
  unfold applySlotSuperImpl
  refine .get ?_
  split
  · exact good_fail
  · rename_i i hi
    have hi := sound_frameOf hs hi
    refine good_bind' (good_eval (by live) he) hs fun k s1 hr hs1 hx hk => ?_
    lift hx
    split
    · exact good_fail
    · rename_i hk'
      rcases hn with hn | hn
      · refine good_callSuper hs1 hord hi he ?_
        refine good_bind (good_evalAll _ hs1 (by live) he) hs1 fun vs s4 hs4 hx hvs => ?_
        obtain ⟨hvs, hlen⟩ := hvs
        have hne : vs ≠ [] := by
          rintro rfl
          exact hn (List.length_eq_zero_iff.mp hlen.symm)
        exact good_ofOut (spread_out hvs fun h => absurd h hne)
      · rw [hn] at hr
        have hr := runsP_eval.mp hr
        have h0 : Runs (body C) (.eval false emptyCons e) s (.ok emptyCons) s := by
          rw [runs_iff]
          exact runsP_pure.mpr ⟨rfl, rfl⟩
        cases (runs_det hr h0).1
        exact absurd rfl hk'

/-! ### The tables -/

theorem length_toArray (args : Data) : length args = (toArray args).length ∨ length args = 0 ∨ toArray args = [.null] := by
  have hc : ∀ d, chainLen d = (toArray d).length := by
    intro d
    induction d with
    | null => rfl
    | cell k a d _ ih => simp only [chainLen, toArray]; split <;> simp [ih]
    | atom _ => rfl
  cases args with
  | null => exact Or.inl rfl
  | atom a => exact Or.inr (Or.inr rfl)
  | cell k a d =>
    cases k with
    | cons => exact Or.inl (hc _)
    | alist => exact Or.inl (hc _)
    | acell => exact Or.inr (Or.inl rfl)

/-- The argument values a primitive's body can be given. -/
structure Enough (P : PrimDef) (us : List Data) : Prop where
  ok : ∃ args, Arity.checkArgumentCount (Arity.parseNumArgs P.args) (length args) = true ∧ us.length = (toArray args).length ∧
    (P.special = true → us = toArray args)

/-- What is required of a primitive. -/
def PrimOk (C : Conf) (x : String) (P : PrimDef) : Prop :=
  ∀ (s : Store) (us : List Data) (e : Nat), Sound C s → EnvOk s e → LiveL C s us → Enough P us →
    Good C (P.special = false ∧ Fatal x us) (LiveQ C) s (P.body (ofArray us) e)

theorem enough_two {us : List Data} {b : Data → Nat → Prog Data} (h : Enough ⟨"2".toList, false, false, b⟩ us) : us.length = 2 ∨ us.length = 1 := by
  obtain ⟨args, h1, h2, _⟩ := h.ok
  have h1 : length args = 2 := by
    have : Arity.parseNumArgs "2".toList = [.eq 2] := by decide
    rw [this] at h1
    simpa [Arity.checkArgumentCount] using h1
  rcases length_toArray args with h | h | h
  · exact Or.inl (by omega)
  · omega
  · rw [h] at h2; exact Or.inr h2
theorem enough_one {us : List Data} {b : Data → Nat → Prog Data} (h : Enough ⟨">=1".toList, false, false, b⟩ us) : us ≠ [] := by
  obtain ⟨args, h1, h2, _⟩ := h.ok
  have h1 : 1 ≤ length args := by
    have : Arity.parseNumArgs ">=1".toList = [.gte 1] := by decide
    rw [this] at h1
    simpa [Arity.checkArgumentCount] using h1
  rintro rfl
  rcases length_toArray args with h | h | h
  · simp at h2; omega
  · omega
  · rw [h] at h2; cases h2
theorem enough_gte {n : Nat} {spec : String} (hsp : Arity.parseNumArgs spec.toList = [.gte (n + 1)]) {us : List Data} {b : Data → Nat → Prog Data}
    (h : Enough ⟨spec.toList, true, false, b⟩ us) : n + 1 ≤ us.length ∨ us = [.null] := by
  obtain ⟨args, h1, h2, h3⟩ := h.ok
  have h1 : n + 1 ≤ length args := by
    rw [show Arity.parseNumArgs (PrimDef.args ⟨spec.toList, true, false, b⟩) = [.gte (n + 1)] from hsp] at h1
    simpa [Arity.checkArgumentCount] using h1
  rcases length_toArray args with h | h | h
  · exact Or.inl (by omega)
  · omega
  · exact Or.inr (by rw [h3 rfl, h])

theorem enough_single {us : List Data} {r : Bool} {b : Data → Nat → Prog Data} (h : Enough ⟨"1".toList, false, r, b⟩ us) : us.length = 1 := by
  obtain ⟨args, h1, h2, _⟩ := h.ok
  have h1 : length args = 1 := by
    have : Arity.parseNumArgs "1".toList = [.eq 1] := by decide
    rw [this] at h1
    simpa [Arity.checkArgumentCount] using h1
  rcases length_toArray args with h | h | h
  · omega
  · omega
  · rw [h] at h2; exact h2

theorem toArray_ofArray (us : List Data) : toArray (ofArray us) = us.map elem := (Lst.ofArray us).toArray
theorem elem_atom {x : Data} {a : Atom} (h : elem x = .atom a) : x = .atom a := by
  unfold elem at h
  split at h
  · cases h
  · exact h
theorem car_us {us : List Data} {a : Atom} (h : car (ofArray us) = .atom a) : ∃ r, us = .atom a :: r := by
  cases us with
  | nil => cases h
  | cons x r =>
    have h : elem x = .atom a := by
      rw [← h]; cases x <;> rfl
    exact ⟨r, by rw [elem_atom h]⟩
theorem cadr_us {us : List Data} {a : Atom} (h : car (cdr (ofArray us)) = .atom a) : ∃ x r, us = x :: .atom a :: r := by
  cases us with
  | nil => cases h
  | cons y r =>
    cases r with
    | nil => cases h
    | cons x r =>
      have h : elem x = .atom a := by
        rw [← h]; cases x <;> rfl
      exact ⟨y, r, by rw [elem_atom h]⟩

theorem two_us {us : List Data} {b : Data → Nat → Prog Data} (h : Enough ⟨"2".toList, false, false, b⟩ us) {a a' : Atom}
    (h1 : car (ofArray us) = .atom a) (h2 : car (cdr (ofArray us)) = .atom a') : us = [.atom a, .atom a'] := by
  obtain ⟨r, rfl⟩ := car_us h1
  obtain ⟨x, r, h⟩ := cadr_us h2
  cases h
  cases r with
  | nil => rfl
  | cons y r => rcases enough_two h with h | h <;> simp at h

theorem good_apply {us : List Data} {e : Nat} (hs : Sound C s) (hu : LiveL C s us) (he : EnvOk s e) :
    Good C (Fatal "apply" us) (LiveQ C) s (applyImpl H (ofArray us) e) := by
  have ha := live_ofArray hu
  unfold applyImpl
  split
  · exact good_failShow
  · rename_i hf
    have hz : toArray (cdr (ofArray us)) = [] → Fatal "apply" us := by
      intro h
      cases us with
      | nil => exact absurd rfl hf
      | cons x r =>
        cases r with
        | nil =>
          refine .apply ?_
          have : car (ofArray [x]) = elem x := by cases x <;> rfl
          rw [this] at hf
          unfold elem at hf
          split at hf
          · exact absurd rfl hf
          · simpa using hf
        | cons y r =>
          have : cdr (ofArray (x :: y :: r)) = ofArray (y :: r) := rfl
          rw [this, toArray_ofArray] at h
          cases h
    refine good_bind (good_ofOut (spread_out (by live) hz)) hs fun l s1 hs1 hx hl => ?_
    lift hx
    good

theorem good_forms (hord : Reorders H.ord) : ∀ q ∈ formTable H, PrimOk C q.1 q.2 := by
  simp only [formTable, List.forall_mem_cons, List.not_mem_nil, false_implies, implies_true, and_true, form, prim]
  repeat' apply And.intro
  all_goals intro s us e hs he hu hn
  all_goals have ha := live_ofArray hu
  all_goals dsimp only
  · exact good_condLoop _ hs (by live) he
  · unfold caseImpl
    refine good_bind (good_eval (by live) he) hs fun v s1 hs1 hx hv => ?_
    lift hx
    letI := Frame.eqIn s1.frames
    exact .get (good_caseLoop _ hs1 (by live) he)
  · unfold ifImpl; good
  · unfold whenImpl; good
  · unfold unlessImpl; good
  · unfold lambdaImpl; good
  · unfold namedLambdaImpl; good
  · exact good_define hord hs ha he
  · exact good_defmacro hs ha he
  · unfold letImpl
    split
    · exact good_namedLet hs ha he
    · exact good_letCommon hs ha he
  · exact good_letCommon hs ha he
  · exact good_letCommon hs ha he
  · exact good_evaluateBody hs ha he
  · exact good_do hs ha he
  · exact (good_apply hs hu he).mono (fun h => ⟨rfl, h⟩) fun _ _ h => h
  · unfold chainImpl
    refine good_bind (good_eval (by live) he) hs fun v s1 hs1 hx hv => ?_
    lift hx
    exact good_chainLoop _ hs1 (by live) hv he
  · unfold tapImpl
    refine good_bind (good_eval (by live) he) hs fun v s1 hs1 hx hv => ?_
    lift hx
    exact good_tapLoop _ hs1 (by live) hv he
  · exact good_definitionOf hs ha he
  · exact good_pure (live_noNull (by live))
  · exact good_bind (good_qq _ (Nat.lt_succ_self _) hs (by live) he) hs fun v s1 hs1 hx hv => good_pure (live_car hv)
  · exact good_fail
  · exact good_fail
  · exact good_expand hs ha he
  · unfold setVarImpl
    refine good_bind (good_eval (by live) he) hs fun v s1 hs1 hx hv => ?_
    exact good_setTo hs1 hord hv
  · exact good_andLoop _ hs (by live) live_null he
  · exact good_orLoop _ hs (by live) live_null he
  · exact good_onError hs ha he

theorem good_system (hord : Reorders H.ord) : ∀ q ∈ systemTable H, PrimOk C q.1 q.2 := by
  simp only [systemTable, List.forall_mem_cons, List.not_mem_nil, false_implies, implies_true, and_true, form, prim, rprim]
  repeat' apply And.intro
  all_goals intro s us e hs he hu hn
  all_goals have ha := live_ofArray hu
  all_goals dsimp only
  · exact .get (good_pure live_str)
  · exact .get (good_bind (good_op (o := .emit _) trivial) hs fun _ _ _ _ _ => good_pure live_null)
  · unfold internImpl; good
  · exact good_bind good_gensymPrefix hs fun _ _ hs1 _ _ => good_bind (good_op (o := .gensym _) trivial) hs1 fun _ _ _ _ _ => good_pure live_sym
  · exact good_bind good_gensymPrefix hs fun _ _ hs1 _ _ => good_bind (good_op (o := .gensym _) trivial) hs1 fun _ _ _ _ _ => good_pure live_sym
  · unfold evalImpl
    split
    · split
      · rename_i e' h
        have h1 : Live C s (car (cdr (ofArray us))) := by live
        rw [h] at h1
        exact good_eval (by live) h1
      · exact good_failShow
    · good
  · exact good_eval (by live) hs.root
  · refine .panic (Or.inl ⟨rfl, ?_⟩)
    match us, enough_single hn with
    | [v], _ => exact .panic
  · exact good_failShow
  · exact good_pure live_bool
  · exact good_withEnv (fun e he => .get (good_pure live_bool)) ha
  · refine good_withEnvSym (fun e x he => .get ?_) ha
    good
  · exact good_withEnvSym (fun e x he => .get (good_pure live_bool)) ha
  · unfold envAssignedImpl
    split
    · exact good_fail
    · refine good_withEnvSym (fun e x he => .get ?_) ha
      good
  · refine good_withEnvSym (fun e x he => .get ?_) ha
    split
    · exact good_fail
    · rename_i hf
      have := (sound_find hs hf).1
      good
  · refine good_withEnvSym (fun e x he => .get ?_) ha
    split
    · rename_i hf
      have := (sound_find hs hf).1
      good
    · exact good_pure live_bool
  · exact good_withEnvSym (fun e x he => .get (good_pure live_bool)) ha
  · refine good_withEnvSym (fun e x he => .get ?_) ha
    split
    · rename_i hf
      have := (sound_find hs hf).2
      refine good_bind (good_op (o := .assignRaw _ x _) ⟨by live, this⟩) hs fun _ s1 hs1 hx _ => ?_
      lift hx
      good
    · exact good_pure live_null
  · exact good_withEnvSym (fun e x he => good_pure live_bool) ha
  · refine good_withEnvSym (fun e x he => ?_) ha
    refine good_bind (good_bindOp (by live)) hs fun _ s1 hs1 hx _ => ?_
    lift hx
    good
  · refine .get ?_
    split
    · exact good_pure he
    · exact good_fail
  · unfold procEnvImpl
    split
    · rename_i i h
      have h1 : Live C s (car (ofArray us)) := by live
      rw [h] at h1
      refine .get ?_
      cases h : s.fns[i]? with
      | none => exact absurd (List.getElem?_eq_none_iff.mp h) (Nat.not_le.mpr h1)
      | some r => exact good_pure (sound_fn hs h).1
    · exact good_fail
  · exact good_bind (good_op (o := .restrict _) he) hs fun _ _ _ _ _ => good_pure live_str
  · refine good_withEnv (fun e he => .get ?_) ha
    split
    · rename_i h
      exact good_pure (sound_parentOf hs he h)
    · exact good_pure live_null
  · exact good_pure hs.root
  · exact good_makeTop hs ha
  · unfold findTopImpl
    split
    · exact good_fail
    · refine .get ?_
      split
      · rename_i h
        exact good_pure (hs.tops _ (alGet_some_mem h))
      · exact good_pure live_null
  · unfold makeFrameImpl
    split
    · exact good_fail
    · refine good_bind (good_frameSlots _ (by live) ⟨nofun, List.nodup_nil⟩) hs fun m s1 hs1 hx hm => ?_
      exact good_bind (good_op (o := .newFrame m) hm) hs1 fun i _ _ _ hi => good_pure hi
  · exact good_withSlot (fun i k _ => good_bind (good_hasSlot hord) hs fun _ _ _ _ _ => good_pure live_bool) ha
  · refine good_withSlot (fun i k _ => good_bind (good_hasSlot hord) hs fun _ _ hs1 _ _ => ?_) ha
    split
    · exact good_failShow
    · exact good_getSlot hs1 hord
  · exact good_withSlot (fun i k _ => good_getSlot hs hord) ha
  · unfold removeSlotImpl
    split
    · exact good_pure live_bool
    · exact good_withSlot (fun i k _ => good_bind (good_op (o := .remSlot i k) trivial) hs fun _ _ _ _ _ => good_pure live_bool) ha
  · refine good_withSlot (fun i k _ => ?_) ha
    have hv : Live C s (car (cdr (cdr (ofArray us)))) := by live
    exact good_bind (good_op (o := .setSlot i k _) hv) hs fun _ _ _ hx _ => good_pure (Live.mono hx hv)
  · refine good_withSlot (fun i k hi => ?_) ha
    refine good_bind (good_methodOf hs hord) hs fun j s1 hs1 hx hj => ?_
    lift hx
    exact good_callFn hs1 hj (by live) he (optOk_some hi)
  · exact good_sendSuper hs hord ha he
  · refine good_applySlot hs hord ha he ?_
    rcases enough_gte (n := 2) (by decide) hn with h | rfl
    · match us, h with
      | a :: b :: c :: r, _ =>
        refine Or.inl ?_
        have : cdr (cdr (ofArray (a :: b :: c :: r))) = ofArray (c :: r) := rfl
        rw [this, toArray_ofArray]
        nofun
    · exact Or.inr rfl
  · refine good_applySlotSuper hs hord ha he ?_
    rcases enough_gte (n := 1) (by decide) hn with h | rfl
    · match us, h with
      | b :: c :: r, _ =>
        refine Or.inl ?_
        have : cdr (ofArray (b :: c :: r)) = ofArray (c :: r) := rfl
        rw [this, toArray_ofArray]
        nofun
    · exact Or.inr rfl
  · unfold cloneImpl
    split
    · exact .get (good_bind (good_op (o := .newFrame _) (sound_frame hs _)) hs fun j _ _ _ hj => good_pure hj)
    · exact good_failShow

/-! ### Copies -/

mutual
theorem good_copyP (hC : (C.prims "copy").isSome = true) {e : Nat} : ∀ (d : Data) {s : Store}, Sound C s → EnvOk s e → Live C s d →
    Good C Z (LiveQ C) s (copyP e d)
  | .null, _, _, _, _ => by unfold copyP; exact good_pure trivial
  | .atom a, _, _, he, hd => by
    unfold copyP
    split
    · exact good_eval (live_ofArray (liveL_cons hC (liveL_cons hd liveL_nil))) he
    · exact good_pure hd
  | .cell .acell _ _, _, _, _, hd => by unfold copyP; exact good_pure hd
  | .cell .cons a d, _, hs, he, hd => by
    unfold copyP
    split
    · exact good_pure hd
    · refine good_bind (good_copyP hC a hs he hd.1) hs fun a' s1 hs1 hx ha => ?_
      have h2 := Live.mono hx hd.2
      have he := EnvOk.mono hx he
      refine good_bind (good_copyP hC d hs1 he h2) hs1 fun d' s2 hs2 hx hd => ?_
      exact good_pure ⟨Live.mono hx ha, hd⟩
  | .cell .alist p d, _, hs, he, hd => by
    unfold copyP
    refine good_bind (good_copyCarP hC p hs he hd.1) hs fun k s1 hs1 hx hk => ?_
    have hd := Live.mono hx hd
    have he := EnvOk.mono hx he
    refine good_bind (good_copyCdrP hC p hs1 he hd.1) hs1 fun v s2 hs2 hx hv => .get ?_
    have hd := Live.mono hx hd
    have he := EnvOk.mono hx he
    exact good_copyAlistP hC d _ hs2 he hd.2 (@live_acons _ _ _ _ _ (Frame.eqIn _) (Live.mono hx hk) hv trivial)
theorem good_copyAlistP (hC : (C.prims "copy").isSome = true) {e : Nat} : ∀ (d acc : Data) {s : Store}, Sound C s → EnvOk s e → Live C s d →
    Live C s acc → Good C Z (LiveQ C) s (copyAlistP e d acc)
  | .null, _, _, _, _, _, ha => by unfold copyAlistP; exact good_pure ha
  | .atom _, _, _, _, _, _, ha => by
    unfold copyAlistP
    exact .get (good_pure (@live_acons _ _ _ _ _ (Frame.eqIn _) trivial trivial ha))
  | .cell _ p d, _, _, hs, he, hd, ha => by
    unfold copyAlistP
    split
    · exact good_pure ha
    · refine good_bind (good_copyCarP hC p hs he hd.1) hs fun k s1 hs1 hx hk => ?_
      have hd := Live.mono hx hd
      have he := EnvOk.mono hx he
      have ha := Live.mono hx ha
      refine good_bind (good_copyCdrP hC p hs1 he hd.1) hs1 fun v s2 hs2 hx hv => .get ?_
      have hd := Live.mono hx hd
      have he := EnvOk.mono hx he
      have ha := Live.mono hx ha
      exact good_copyAlistP hC d _ hs2 he hd.2 (@live_acons _ _ _ _ _ (Frame.eqIn _) (Live.mono hx hk) hv ha)
theorem good_copyCarP (hC : (C.prims "copy").isSome = true) {e : Nat} : ∀ (d : Data) {s : Store}, Sound C s → EnvOk s e → Live C s d →
    Good C Z (LiveQ C) s (copyCarP e d)
  | .null, _, _, _, _ => by unfold copyCarP; exact good_pure trivial
  | .atom _, _, _, _, _ => by unfold copyCarP; exact good_pure trivial
  | .cell _ a _, _, hs, he, hd => by unfold copyCarP; exact good_copyP hC a hs he hd.1
theorem good_copyCdrP (hC : (C.prims "copy").isSome = true) {e : Nat} : ∀ (d : Data) {s : Store}, Sound C s → EnvOk s e → Live C s d →
    Good C Z (LiveQ C) s (copyCdrP e d)
  | .null, _, _, _, _ => by unfold copyCdrP; exact good_pure trivial
  | .atom _, _, _, _, _ => by unfold copyCdrP; exact good_pure trivial
  | .cell _ _ d, _, hs, he, hd => by unfold copyCdrP; exact good_copyP hC d hs he hd.2
end

theorem good_copySlots (hC : (C.prims "copy").isSome = true) {e : Nat} (m : FrameMap) : ∀ {s : Store}, Sound C s → EnvOk s e → (∀ p ∈ m, Live C s p.2) →
    Good C Z (fun s m' => (∀ p ∈ m', Live C s p.2) ∧ m'.map Prod.fst = m.map Prod.fst) s (copySlots e m) := by
  induction m with
  | nil => exact fun _ _ _ => good_pure ⟨nofun, rfl⟩
  | cons p m ih =>
    intro s hs he hm
    refine good_bind (good_copyP hC _ hs he (hm p (by simp))) hs fun v s1 hs1 hx hv => ?_
    refine good_bind (ih hs1 (EnvOk.mono hx he) fun q hq => Live.mono hx (hm q (by simp [hq]))) hs1 fun m' s2 hs2 hx hm' => ?_
    refine good_pure ⟨fun q hq => ?_, by simp [hm'.2]⟩
    rcases List.mem_cons.mp hq with rfl | hq
    · exact Live.mono hx hv
    · exact hm'.1 q hq

theorem good_copy (hC : (C.prims "copy").isSome = true) {a : Data} {e : Nat} (hs : Sound C s) (he : EnvOk s e) (ha : Live C s a) :
    Good C Z (LiveQ C) s (copyImpl a e) := by
  unfold copyImpl
  split
  · refine .get (good_bind (good_copySlots hC _ hs he (sound_frame hs _).1) hs fun m s1 hs1 hx hm => ?_)
    refine good_bind (good_op (o := .newFrame m) ⟨hm.1, ?_⟩) hs1 fun i _ _ _ hi => good_pure hi
    rw [hm.2]
    exact (sound_frame hs _).2
  · exact good_copyP hC _ hs he (live_car ha)

theorem good_unionInner (hC : (C.prims "copy").isSome = true) {e : Nat} (xs : List Data) : ∀ {r : Data} {s : Store}, Sound C s → EnvOk s e →
    LiveL C s xs → Live C s r → Good C Z (LiveQ C) s (unionInnerP e xs r) := by
  induction xs with
  | nil => exact fun _ _ _ h => good_pure h
  | cons x xs ih =>
    intro r s hs he hx hr
    refine .get ?_
    split
    · exact ih hs he hx.tail hr
    · refine good_bind (Q := LiveQ C) ?_ hs fun r' s1 hs1 hx1 hr' => ih hs1 (EnvOk.mono hx1 he) (fun y hy => Live.mono hx1 (hx.tail y hy)) hr'
      unfold append1P
      split
      · exact good_pure ⟨hx.head, trivial⟩
      · refine good_bind (good_copyP hC _ hs he hr) hs fun l s1 hs1 hx1 hl => ?_
        exact good_pure (live_setLastCdr hl ⟨Live.mono hx1 hx.head, trivial⟩)

theorem good_union (hC : (C.prims "copy").isSome = true) {e : Nat} (xs : List Data) : ∀ {r : Data} {s : Store}, Sound C s → EnvOk s e →
    LiveL C s xs → Live C s r → Good C Z (LiveQ C) s (unionP e xs r) := by
  induction xs with
  | nil => exact fun _ _ _ h => good_pure h
  | cons x xs ih =>
    intro r s hs he hx hr
    unfold unionP
    split
    · exact good_fail
    · exact good_bind (good_unionInner hC _ hs he (live_toArray hx.head) hr) hs fun r' s1 hs1 hx1 hr' =>
        ih hs1 (EnvOk.mono hx1 he) (fun y hy => Live.mono hx1 (hx.tail y hy)) hr'

theorem good_set (hC : (C.prims "copy").isSome = true) {n : String} {f : FrEq → Data → Data → Bool} {a : Data} {e : Nat} (hs : Sound C s)
    (he : EnvOk s e) (ha : LiveL C s (toArray a)) : Good C Z (LiveQ C) s (setP n f a e) := by
  unfold setP
  split
  · exact good_pure trivial
  · rename_i h
    rw [h] at ha
    split
    · exact good_fail
    · exact good_bind (good_copyP hC _ hs he ha.head) hs fun c s1 hs1 hx1 hc => .get (good_ofOut (@outOk_setLoop _ _ _ (Frame.eqIn _) _ _ _ _ hc))

theorem good_length {a : Data} {e : Nat} : Good C Z (LiveQ C) s (lengthImpl a e) := by
  unfold lengthImpl
  split
  · exact .get (good_pure trivial)
  · exact good_pure trivial

theorem live_carCdrN (n : Nat) : ∀ {d : Data} {p : Nat}, Live C s d → Live C s (carCdrN n d p) := by
  induction n with
  | zero => exact fun h => h
  | succ n ih =>
    intro d p h
    unfold carCdrN
    split
    · exact h
    · refine ih ?_
      split
      · exact live_cdr h
      · exact live_car h

theorem good_carCdr (hC : (C.prims "general-car-cdr").isSome = true) {a : Data} {e : Nat} (he : EnvOk s e) (ha : Live C s a) :
    Good C Z (LiveQ C) s (generalCarCdrImpl a e) := by
  unfold generalCarCdrImpl
  dsimp only
  split
  · exact good_fail
  · split
    · exact good_eval (live_ofArray (liveL_cons hC (liveL_cons live_bool (liveL_cons live_int liveL_nil)))) he
    · exact good_pure (live_carCdrN _ (live_car ha))

theorem good_compare {f : FrEq → Data → Data → Out Data} {a : Data} {e : Nat}
    (hf : ∀ q, f q ∈ [@Prim.equalTo q, @Prim.notEqual q]) : Good C Z (LiveQ C) s (withEq (fun q => o2 (f q)) a e) := by
  refine .get (good_ofOut (@outOk_num2 _ _ _ _ _ (Frame.eqIn s.frames) _ ?_))
  have := hf (Frame.eqIn s.frames)
  simp only [List.mem_cons, List.not_mem_nil, or_false] at this
  rcases this with h | h <;> simp [h]

theorem good_math : ∀ q ∈ mathTable, PrimOk C q.1 q.2 := by
  simp only [mathTable, List.forall_mem_cons, List.not_mem_nil, false_implies, implies_true, and_true, prim]
  repeat' apply And.intro
  all_goals intro s us e hs he hu hn
  all_goals dsimp only
  all_goals first
    | exact good_ofOut outOk_add
    | exact good_ofOut outOk_subtract
    | exact good_ofOut outOk_multiply
    | exact good_ofOut outOk_quotient
    | (refine good_ofOut (outOk_num1 ?_); simp; done)
    | (refine good_ofOut (@outOk_num2 _ _ _ _ _ .none _ ?_); simp; done)
    | exact good_compare fun _ => by simp
    | exact good_ofOut (outOk_remainder fun a h1 h2 => ⟨rfl, by rw [two_us hn h1 h2]; first | exact .remainder | exact .modulo⟩)

theorem good_access (hC : (C.prims "general-car-cdr").isSome = true) : ∀ q ∈ accessTable, PrimOk C q.1 q.2 := by
  simp only [accessTable, List.forall_mem_cons, List.not_mem_nil, false_implies, implies_true, and_true, prim, walk]
  repeat' apply And.intro
  all_goals intro s us e hs he hu hn
  all_goals have h1 : Live C s (car (ofArray us)) := live_car (live_ofArray hu)
  all_goals have h2 : Live C s (car (cdr (ofArray us))) := live_car (live_cdr (live_ofArray hu))
  all_goals dsimp only
  all_goals first
    | exact good_pure (live_walkList h1)
    | exact good_pure (live_nth h1)
    | exact good_pure live_bool
    | exact .get (good_pure (@live_mkAlist _ _ _ (Frame.eqIn _) h1))
    | exact good_ofOut (outOk_nth h1)
    | exact good_ofOut (outOk_listRef h1)
    | exact good_ofOut (outOk_listHead h1)
    | exact good_ofOut (outOk_listTail h1)
    | exact good_ofOut (outOk_lastPair h1)
    | exact .get (good_ofOut (@outOk_assoc _ _ _ _ _ (Frame.eqIn _) h2))
    | exact .get (good_ofOut (@outOk_dissoc _ _ _ _ _ (Frame.eqIn _) h2))
    | exact .get (good_ofOut (@outOk_rassoc _ _ _ _ _ (Frame.eqIn _) h2))
    | exact good_ofOut (outOk_take h2 fun k bs h1 h2 hk => ⟨rfl, by rw [two_us hn h1 h2]; exact .take hk⟩)
    | exact good_ofOut (outOk_drop h2 fun k bs h1 h2 hk => ⟨rfl, by rw [two_us hn h1 h2]; exact .drop hk⟩)
    | exact good_carCdr hC he (live_ofArray hu)

theorem good_lists (hC : (C.prims "copy").isSome = true) : ∀ q ∈ listTable, PrimOk C q.1 q.2 := by
  simp only [listTable, List.forall_mem_cons, List.not_mem_nil, false_implies, implies_true, and_true, prim]
  repeat' apply And.intro
  all_goals intro s us e hs he hu hn
  all_goals have ha : Live C s (ofArray us) := live_ofArray hu
  all_goals have hA : LiveL C s (toArray (ofArray us)) := live_toArray ha
  all_goals have h1 : Live C s (car (ofArray us)) := live_car ha
  all_goals have h2 : Live C s (car (cdr (ofArray us))) := live_car (live_cdr ha)
  all_goals dsimp only
  all_goals first
    | exact good_pure ha
    | exact good_ofOut (outOk_makeList h2)
    | exact good_length
    | exact good_pure (live_cons h1 h2)
    | exact good_ofOut (outOk_consStar hA (by rw [toArray_ofArray]; simpa using enough_one hn))
    | exact good_pure (live_reverse h1)
    | exact good_pure (live_flatten h1)
    | exact good_pure (live_rflatten h1)
    | exact good_pure (live_appendImpl hA)
    | exact good_partition hs ha he
    | exact good_ofOut (outOk_sublist h1)
    | exact good_withFn (fun hc hr => good_mapP cb_mono cb_good hs hc (live_toArray hr)) ha he
    | exact good_withFn (fun hc hr => good_forEachP cb_mono cb_good hs hc (live_toArray hr)) ha he
    | exact good_withFn (fun hc hr => good_anyP cb_mono cb_good hs hc (live_toArray hr)) ha he
    | exact good_withFn (fun hc hr => good_everyP cb_mono cb_good hs hc (live_toArray hr)) ha he
    | exact good_withFn (fun hc hr => good_reduceLeft cb_mono cb_good hs hc (live_car hr) (live_car (live_cdr hr))) ha he
    | exact good_withFn (fun hc hr => good_reduceRight cb_mono cb_good hs hc (live_car hr) (live_car (live_cdr hr))) ha he
    | exact good_withFn (fun hc hr => good_foldLeft cb_mono cb_good hs hc (live_car hr) (live_car (live_cdr hr))) ha he
    | exact good_withFn (fun hc hr => good_foldRight cb_mono cb_good hs hc (live_car hr) (live_car (live_cdr hr))) ha he
    | exact good_withFn (fun hc hr => good_filterP cb_mono cb_good hs hc (live_car hr)) ha he
    | exact good_withFn (fun hc hr => good_removeP cb_mono cb_good hs hc (live_car hr)) ha he
    | exact good_withFn (fun hc hr => good_findTailP cb_mono cb_good hs hc (live_car hr)) ha he
    | exact good_withFn (fun hc hr => good_findP cb_mono cb_good hs hc (live_car hr)) ha he
    | exact .get (good_pure (@live_memq _ _ _ _ (Frame.eqIn _) h2))
    | exact good_union hC _ hs he hA trivial
    | exact good_set hC hs he hA
    | exact good_copy hC hs he ha

theorem enough_three {us : List Data} {b : Data → Nat → Prog Data} (h : Enough ⟨"3".toList, false, false, b⟩ us) : us.length = 3 ∨ us.length = 1 := by
  obtain ⟨args, h1, h2, _⟩ := h.ok
  have h1 : length args = 3 := by
    have : Arity.parseNumArgs "3".toList = [.eq 3] := by decide
    rw [this] at h1
    simpa [Arity.checkArgumentCount] using h1
  rcases length_toArray args with h | h | h
  · exact Or.inl (by omega)
  · omega
  · rw [h] at h2; exact Or.inr h2
theorem caddr_us {us : List Data} {a : Atom} (h : car (cdr (cdr (ofArray us))) = .atom a) : ∃ x y r, us = x :: y :: .atom a :: r := by
  match us with
  | [] => cases h
  | [_] => cases h
  | [_, _] => cases h
  | x :: y :: z :: r =>
    have h : elem z = .atom a := by
      rw [← h]; cases z <;> rfl
    exact ⟨x, y, r, by rw [elem_atom h]⟩
theorem three_us {us : List Data} {b : Data → Nat → Prog Data} (h : Enough ⟨"3".toList, false, false, b⟩ us) {a a' a'' : Atom}
    (h1 : car (ofArray us) = .atom a) (h2 : car (cdr (ofArray us)) = .atom a') (h3 : car (cdr (cdr (ofArray us))) = .atom a'') :
    us = [.atom a, .atom a', .atom a''] := by
  obtain ⟨r, rfl⟩ := car_us h1
  obtain ⟨x, r, h⟩ := cadr_us h2
  cases h
  obtain ⟨x, y, r, h⟩ := caddr_us h3
  cases h
  cases r with
  | nil => rfl
  | cons y r => rcases enough_three h with h | h <;> simp at h
theorem one_us {us : List Data} {b : Data → Nat → Prog Data} (h : Enough ⟨"1".toList, false, false, b⟩ us) {a : Atom}
    (h1 : car (ofArray us) = .atom a) : us = [.atom a] := by
  obtain ⟨r, rfl⟩ := car_us h1
  have := enough_single h
  cases r with
  | nil => rfl
  | cons y r => simp at this

theorem intValue_elem (d : Data) : intValue (elem d) = intValue d := by
  cases d with
  | null => rfl
  | atom a => rfl
  | cell k a d => rfl

/-- When `interval` fails to end, and that it ends well otherwise. -/
theorem interval_out (us : List Data) :
    (∃ R : Prop, ((∃ v, Prim.interval (2 ^ 46) (us.map elem) = .ok v ∧ Live C s v ∧ ¬ R) ∨
        ((Prim.interval (2 ^ 46) (us.map elem) = .panic ∨ Prim.interval (2 ^ 46) (us.map elem) = .timeout) ∧ R)) ∧ (R → Fatal "interval" us)) ∨
      ∃ er, Prim.interval (2 ^ 46) (us.map elem) = .err er := by
  have t1 : (1 : BitVec 64).toInt = 1 := by decide
  have t2 : (-1 : BitVec 64).toInt = -1 := by decide
  match us with
  | [] => exact Or.inr ⟨_, rfl⟩
  | [a] =>
    refine Or.inl ⟨_, interval_go true 1 (intValue (elem a)) 1, fun h => .interval ?_⟩
    rwa [intValue_elem] at h
  | [a, b] =>
    left
    simp only [Prim.interval, List.map_cons, List.map_nil, intValue_elem]
    cases h : (intValue b).slt (intValue a) with
    | false =>
      refine ⟨_, interval_go true (intValue a) (intValue b) 1, fun hr => .intervalUp ?_ hr⟩
      rw [BitVec.slt_eq_decide] at h
      simpa using h
    | true =>
      refine ⟨_, interval_go false (intValue a) (intValue b) (-1), fun hr => .intervalDown ?_ hr⟩
      rw [BitVec.slt_eq_decide] at h
      simpa using h
  | [a, b, t] =>
    by_cases ht : ∃ n, t = .int n
    · obtain ⟨n, rfl⟩ := ht
      have hsg := Props.intSgn_eq n
      simp only [Prim.interval, List.map_cons, List.map_nil, intValue_elem, show elem (.int n) = .int n from rfl]
      cases h : (intValue b).slt (intValue a) with
      | false =>
        by_cases hs : Prim.intSgn n = 1
        · left
          simp only [Bool.not_false, if_true, hs, ne_eq, not_true_eq_false, if_false]
          refine ⟨_, interval_go true (intValue a) (intValue b) n, fun hr => .intervalUpBy ?_ ?_ hr⟩
          · rw [BitVec.slt_eq_decide] at h
            simpa using h
          · rw [hsg] at hs
            rcases Int.lt_trichotomy n.toInt 0 with h1 | h1 | h1
            · rw [Int.sign_eq_neg_one_of_neg h1] at hs; exact absurd hs (by decide)
            · rw [h1] at hs; exact absurd hs (by decide)
            · exact h1
        · right
          simp only [Bool.not_false, if_true, ne_eq, hs, not_false_eq_true]
          exact ⟨_, rfl⟩
      | true =>
        by_cases hs : Prim.intSgn n = -1
        · left
          simp only [Bool.not_true, Bool.false_eq_true, if_false, hs, ne_eq, not_true_eq_false]
          refine ⟨_, interval_go false (intValue a) (intValue b) n, fun hr => .intervalDownBy ?_ ?_ hr⟩
          · rw [BitVec.slt_eq_decide] at h
            simpa using h
          · rw [hsg] at hs
            rcases Int.lt_trichotomy n.toInt 0 with h1 | h1 | h1
            · exact h1
            · rw [h1] at hs; exact absurd hs (by decide)
            · rw [Int.sign_eq_one_of_pos h1] at hs; exact absurd hs (by decide)
        · right
          simp only [Bool.not_true, Bool.false_eq_true, if_false, ne_eq, hs, not_false_eq_true, if_true]
          exact ⟨_, rfl⟩
    · right
      have : ∀ n, elem t ≠ .int n := fun n h => ht ⟨n, elem_atom h⟩
      simp only [Prim.interval, List.map_cons, List.map_nil]
      exact ⟨_, rfl⟩
  | _ :: _ :: _ :: _ :: _ => exact Or.inr ⟨_, rfl⟩

theorem good_text : ∀ q ∈ textTable H, PrimOk C q.1 q.2 := by
  simp only [textTable, List.forall_mem_cons, List.not_mem_nil, false_implies, implies_true, and_true, prim, compareImpl, compareCiImpl]
  repeat' apply And.intro
  all_goals intro s us e hs he hu hn
  all_goals have ha : Live C s (ofArray us) := live_ofArray hu
  all_goals dsimp only
  all_goals first
    | exact good_pure live_bool
    | exact good_split
    | exact good_join hs
    | exact good_trim
    | exact good_needStr fun _ _ => good_pure trivial
    | exact good_capitalize fun h => ⟨rfl, by rw [one_us hn h]; exact .capitalize⟩
    | exact good_substring fun x i j h1 h2 h3 h4 h5 h6 => ⟨rfl, by rw [three_us hn h1 h2 h3]; exact .substring h4 h5 h6⟩
    | exact good_stringTest
    | exact good_parse
    | exact good_ofOut outOk_numberToString
    | exact good_ofOut outOk_stringToNumber
    | exact good_floatFn
    | exact good_floatTest
    | exact good_pow
    | exact good_frameKeys
    | skip
  · show Good _ _ _ _ (.ofOut (Prim.interval (2 ^ 46) (toArray (ofArray us))))
    rw [toArray_ofArray]
    rcases interval_out (C := C) (s := s) us with ⟨R, h, hr⟩ | ⟨er, h⟩
    · exact good_ofOut_or h fun h => ⟨rfl, hr h⟩
    · rw [h]; exact good_ofOut outOk_err
  · unfold sortImpl
    split
    · exact good_fail
    split
    · exact good_fail
    · refine good_bind (good_sortRun cb_mono cb_good (H.sorterOk _) rfl hs ⟨?_, he⟩ (live_toArray (live_car ha))) hs fun p _ _ _ h => good_sortResult h
      live
  · unfold frameValuesImpl
    split
    · refine .get (good_pure (live_ofArray fun x hx => ?_))
      obtain ⟨k, _, rfl⟩ := List.mem_map.mp hx
      rename_i i _ _
      cases h : alGet (Frame.get? s.frames i) k with
      | none => trivial
      | some v => exact (sound_frame hs i).1 _ (alGet_some_mem h)
    · exact good_failShow
  · refine good_withEnv (fun e he => .get (good_pure ?_)) ha
    refine live_ofArray fun x hx => ?_
    obtain ⟨p, _, rfl⟩ := List.mem_map.mp hx
    trivial
  · refine good_withEnv (fun e he => .get (good_pure ?_)) ha
    refine live_ofArray fun x hx => ?_
    obtain ⟨p, _, rfl⟩ := List.mem_map.mp hx
    trivial
  · refine good_withEnv (fun e he => .get (good_pure (live_ofArray fun x hx => ?_))) ha
    obtain ⟨p, hp, rfl⟩ := List.mem_map.mp hx
    split
    · exact ⟨trivial, trivial⟩
    · exact live_ofArray (liveL_cons live_sym (liveL_cons (live_binds hs p hp) liveL_nil))

theorem good_float : ∀ q ∈ floatTable H, PrimOk C q.1 q.2 := by
  intro q hq
  obtain ⟨m, _, rfl⟩ := List.mem_map.mp hq
  exact fun s us e _ _ _ _ => good_floatFn (e := e)

/-! ### Byte arrays, output, files, atomics -/

theorem outOk_boxBytes {o : Out (List (BitVec 8))} (h : o ≠ .panic) (h' : o ≠ .timeout) : OutOk C s Z (Prim.boxBytes o) := by
  cases o with
  | ok bs => exact outOk_ok trivial
  | err e => exact outOk_err
  | panic => exact absurd rfl h
  | timeout => exact absurd rfl h'

theorem collectBytes_out (xs : List Data) : ∀ acc, Prim.collectBytes xs acc ≠ .panic ∧ Prim.collectBytes xs acc ≠ .timeout := by
  induction xs with
  | nil => exact fun acc => ⟨nofun, nofun⟩
  | cons x xs ih =>
    intro acc
    unfold Prim.collectBytes
    repeat' split
    all_goals first | exact ih _ | exact ⟨nofun, nofun⟩

theorem listBytes_out (d : Data) : Prim.listBytes d ≠ .panic ∧ Prim.listBytes d ≠ .timeout := by
  unfold Prim.listBytes
  repeat' split
  all_goals first | exact collectBytes_out _ _ | exact ⟨nofun, nofun⟩

theorem outOk_listToBytes {d : Data} : OutOk C s Z (Prim.listToBytes d) := outOk_boxBytes (listBytes_out d).1 (listBytes_out d).2

theorem outOk_bytesToList {d : Data} : OutOk C s Z (Prim.bytesToList d) := by
  unfold Prim.bytesToList
  split
  · refine outOk_ok (live_ofArray fun x hx => ?_)
    obtain ⟨b, _, rfl⟩ := List.mem_map.mp hx
    exact live_int
  · exact outOk_err

theorem outOk_replaceByte {d i v : Data} : OutOk C s Z (Prim.replaceByte d i v) := by
  unfold Prim.replaceByte
  repeat' split
  all_goals first | exact outOk_err | exact outOk_ok trivial

theorem outOk_extractByte {d i : Data} : OutOk C s Z (Prim.extractByte d i) := by
  unfold Prim.extractByte
  repeat' split
  all_goals first | exact outOk_err | exact outOk_ok trivial | skip
  rename_i h1 h2 _ h
  rw [List.getElem?_eq_none_iff] at h
  omega

theorem outOk_appendBytes {d : Data} : OutOk C s Z (Prim.appendBytes d) := by
  unfold Prim.appendBytes
  have h : Prim.extraBytes d ≠ .panic ∧ Prim.extraBytes d ≠ .timeout := by
    unfold Prim.extraBytes
    repeat' split
    all_goals first | exact listBytes_out _ | exact ⟨nofun, nofun⟩
  split
  · cases hx : Prim.extraBytes d with
    | ok ys => exact outOk_ok trivial
    | err e => exact outOk_err
    | panic => exact absurd hx h.1
    | timeout => exact absurd hx h.2
  · exact outOk_err

theorem outOk_extractBytes {f : Data → String} {d i n : Data} : OutOk C s Z (Prim.extractBytes f d i n) := by
  unfold Prim.extractBytes
  split
  · split
    · split
      · exact outOk_err
      · rename_i bs _ i h1
        split
        · rename_i k
          split
          · exact outOk_err
          · rename_i h2
            split
            · exact outOk_err
            · have hd : Prim.drop (.int i) (.bytes bs) = .ok (.bytes (bs.drop i.toInt.toNat)) := by
                simp only [Prim.drop, show isListP (.bytes bs) = false from rfl, Bool.false_eq_true, if_false]
                rw [if_neg (by omega), if_neg (by omega)]
              rw [hd]
              simp only [Prim.take, show ∀ b, isListP (.bytes b) = false from fun _ => rfl, Bool.false_eq_true, if_false]
              split
              · exact outOk_ok trivial
              · exact outOk_ok trivial
        · exact outOk_err
    · exact outOk_err
  · exact outOk_err

theorem good_writeTo {n : Nat} {a p : Data} {m t : String} (hs : Sound C s) : Good C Z (LiveQ C) s (writeTo n a p m t) := by
  unfold writeTo
  repeat' split
  · exact good_bind (good_op (o := .print _) trivial) hs fun _ _ _ _ _ => good_pure live_null
  · exact good_pure live_null
  · exact good_fail

theorem fmtArg_int (d : Data) : (fmtArg H s d).int = Fmt.intOf d := by
  unfold fmtArg Fmt.intOf
  cases d with
  | atom a => cases a <;> rfl
  | _ => rfl

theorem formatRest (d : Data) (t : String) (vs : List Data) : toArray (cdr (cdr (ofArray (d :: .str t :: vs)))) = vs.map elem := by
  have h := cdr_Lst (cdr_Lst (Lst.ofArray (d :: .str t :: vs)))
  rw [h.toArray]; rfl

theorem good_format {us : List Data} {e : Nat} (hs : Sound C s) (hz : ∀ d t vs, us = d :: .str t :: vs → isBool d = true ∨ isPort d = true →
    CutShort (text t.toList) vs → Z) : Good C Z (LiveQ C) s (formatImpl H (ofArray us) e) := by
  unfold formatImpl
  split
  · exact good_failShow
  · rename_i hb
    split
    · rename_i ctl hc
      refine .get ?_
      split
      · split
        · exact good_pure live_null
        · split
          · exact good_bind (good_op (o := .print _) trivial) hs fun _ _ _ _ _ => good_pure live_null
          · exact good_pure live_str
      · exact good_fail
      · rename_i hp
        obtain ⟨d, vs, rfl⟩ := cadr_us hc
        refine .panic (Or.inl (hz d ctl vs rfl ?_ ?_))
        · have : car (ofArray (d :: .atom (.str ctl) :: vs)) = elem d := by cases d <;> rfl
          rw [this] at hb
          cases d with
          | atom a => cases a <;> first | exact Or.inl rfl | exact Or.inr rfl | exact absurd rfl hb
          | _ => exact absurd rfl hb
        · have : toArray (cdr (cdr (ofArray (d :: .atom (.str ctl) :: vs)))) = vs.map elem := formatRest d ctl vs
          rw [this, List.map_map] at hp
          refine (Fmt.format_panic (arg := fmtArg H s ∘ elem) fun x => ?_).mp hp
          show (fmtArg H s (elem x)).int = _
          rw [fmtArg_int]
          cases x <;> rfl
    · exact good_fail

theorem live_parseAllN {R : Reader.Host} (n : Nat) : ∀ ts, LiveL C s (Reader.parseAllN R n ts).1 := by
  induction n with
  | zero => exact fun ts => liveL_nil
  | succ n ih =>
    intro ts
    unfold Reader.parseAllN
    split
    · rename_i h
      exact liveL_cons (Reader.live_parseExpr R h) (ih _)
    all_goals exact liveL_nil

theorem good_loadLoop {e : Nat} {b : Bool} (ds : List Data) : ∀ {s : Store} {v : Data}, Sound C s → EnvOk s e → LiveL C s ds → Live C s v →
    Good C Z (LiveQ C) s (loadLoopP e b ds v) := by
  induction ds with
  | nil =>
    intro s v hs he hd hv
    unfold loadLoopP
    split
    · exact good_fail
    · exact good_pure hv
  | cons d ds ih =>
    intro s v hs he hd hv
    unfold loadLoopP
    split
    · exact good_pure hv
    · exact good_bind (good_eval hd.head he) hs fun v s' hs' hx hv => ih hs' (EnvOk.mono hx he) (LiveL.mono hx hd.tail) hv

theorem good_load {a : Data} {e : Nat} (hs : Sound C s) : Good C Z (LiveQ C) s (loadImpl H a e) := by
  unfold loadImpl
  split
  · exact good_fail
  · split
    · exact good_fail
    · exact good_loadLoop _ hs hs.root (live_parseAllN _ _) live_null

theorem good_withAtomic {m : String} {d : Data} {k : Nat → Prog Data} (h : ∀ a, Good C Z (LiveQ C) s (k a)) :
    Good C Z (LiveQ C) s (withAtomic m d k) := by
  unfold withAtomic
  repeat' split
  · exact h _
  · exact good_fail
  · exact good_fail

theorem good_withInt {m p : String} {d : Data} {k : BitVec 64 → Prog Data} (h : ∀ a, Good C Z (LiveQ C) s (k a)) :
    Good C Z (LiveQ C) s (withInt m p d k) := by
  unfold withInt
  split
  · exact h _
  · exact good_fail

theorem good_word {o : Op} {v : Nat → Data} (ho : OpOk C s o) (hs : Sound C s) (hv : ∀ s n, Live C s (v n)) :
    Good C Z (LiveQ C) s (do let a ← Prog.op o; pure (v a)) :=
  good_bind (good_op ho) hs fun a s' _ _ _ => good_pure (hv s' a)

theorem good_io : ∀ q ∈ ioTable H, PrimOk C q.1 q.2 := by
  simp only [ioTable, List.forall_mem_cons, List.not_mem_nil, false_implies, implies_true, and_true, prim, rprim]
  repeat' apply And.intro
  all_goals intro s us e hs he hu hn
  all_goals dsimp only
  all_goals first
    | exact good_ofOut outOk_listToBytes
    | exact good_ofOut outOk_bytesToList
    | exact good_ofOut outOk_replaceByte
    | exact good_ofOut outOk_extractByte
    | exact good_ofOut outOk_appendBytes
    | exact good_ofOut outOk_extractBytes
    | exact good_writeTo hs
    | exact .get (good_writeTo hs)
    | exact good_load hs
    | skip
  · unfold writeStringImpl
    split
    · exact good_fail
    · exact good_writeTo hs
  · exact good_format hs fun d t vs h h1 h2 => ⟨rfl, by rw [h]; exact .format h1 h2⟩
  · unfold atomicImpl
    dsimp only
    split
    · exact good_withInt fun _ => good_bind (good_op (o := .newWord _) trivial) hs fun a s' _ _ ha => good_pure fun _ => ha
    · exact good_bind (good_op (o := .newWord _) trivial) hs fun a s' _ _ ha => good_pure fun _ => ha
  · exact good_withAtomic fun _ => .get (good_pure live_int)
  · exact good_withAtomic fun _ => good_withInt fun _ => good_word (o := .rmw _ _) trivial hs fun _ _ => trivial
  · exact good_withAtomic fun _ => good_withInt fun _ => good_word (o := .rmw _ _) trivial hs fun _ _ => trivial
  · exact good_withAtomic fun _ => good_withInt fun _ => good_word (o := .rmw _ _) trivial hs fun _ _ => trivial
  · exact good_withAtomic fun _ => good_withInt fun _ => good_withInt fun _ => good_word (o := .rmw _ _) trivial hs fun _ _ => trivial

theorem good_prim (hord : Reorders H.ord) {x : String} {P : PrimDef} (h : (std H).prims x = some P) : PrimOk (std H) x P := by
  have := alGet_some_mem h
  simp only [stdTable, List.mem_append] at this
  rcases this with h | h | h | h | h | h | h | h
  · exact good_forms hord _ h
  · exact good_system hord _ h
  · exact good_math _ h
  · exact good_lists rfl _ h
  · exact good_access rfl _ h
  · exact good_text _ h
  · exact good_float _ h
  · exact good_io _ h

/-! ### The interpreter -/

set_option maxRecDepth 20000 in
theorem fatal_spec {x : String} {us : List Data} (hf : Fatal x us) {P : PrimDef} (hp : (std H).prims x = some P) :
    P.special = false ∧ P.args = (if x = "panic!" ∨ x = "string-capitalize" then "1" else if x = "apply" then ">=1" else
      if x = "substring" then "3" else if x = "interval" then "1|2|3" else if x = "format" then ">=2" else "2").toList := by
  cases hf
  all_goals
    rw [show (std H).prims _ = some _ from rfl] at hp
    cases hp
    exact ⟨rfl, by simp⟩

theorem fatal_length {x : String} {P : PrimDef} {args : Data} {us : List Data} {e : Nat} {s₁ : Store} (hp : (std H).prims x = some P)
    (hc : Arity.checkArgumentCount (Arity.parseNumArgs P.args) (length args) = true) (hlen : us.length = (toArray args).length)
    (hA : Args (std H) e (toArray args) s (.ok us) s₁) (hf : Fatal x us) : length args = us.length := by
  have hsp := (fatal_spec hf hp).2
  rw [hsp] at hc
  rcases length_toArray args with h | h | h
  · omega
  · exfalso
    rw [h] at hc
    revert hc
    cases hf <;> decide
  · rw [h] at hlen hA
    cases hf with
    | panic =>
      have : Arity.parseNumArgs "1".toList = [.eq 1] := by decide
      simp only [true_or, if_true, this] at hc
      simpa [Arity.checkArgumentCount] using hc
    | apply hf =>
      exfalso
      cases hA with
      | next h1 h2 =>
        cases h2
        cases (runs_det h1 (show Evals (std H) .null e s (.ok .null) s by unfold Evals; rw [runs_iff]; exact runsP_ret.mpr ⟨rfl, rfl⟩)).1
        cases hf
    | interval hf =>
      exfalso
      cases hA with
      | next h1 h2 =>
        cases h2
        cases (runs_det h1 (show Evals (std H) .null e s (.ok .null) s by unfold Evals; rw [runs_iff]; exact runsP_ret.mpr ⟨rfl, rfl⟩)).1
        rcases hf with hf | hf
        · revert hf; decide
        · exact absurd (hf 0 (by decide)) (by decide)
    | capitalize =>
      exfalso
      cases hA with
      | next h1 h2 =>
        cases h2
        cases (runs_det h1 (show Evals (std H) .null e s (.ok .null) s by unfold Evals; rw [runs_iff]; exact runsP_ret.mpr ⟨rfl, rfl⟩)).1
    | _ => cases hlen

theorem good_primApply (hord : Reorders H.ord) {x : String} {args : Data} {e : Nat} (hs : Sound (std H) s) (hx : Live (std H) s (.atom (.prim x)))
    (ha : Live (std H) s args) (he : EnvOk s e) (hz : ∀ us s₁, Args (std H) e (toArray args) s (.ok us) s₁ → Fatal x us →
      length args = us.length → (x = "panic!" → s.restrictedEnv e = false) → Z) :
    Good (std H) Z (LiveQ (std H)) s (primApply (std H) x args e) := by
  unfold primApply
  cases hp : (std H).prims x with
  | none =>
    have hx : ((std H).prims x).isSome = true := hx
    rw [hp] at hx
    cases hx
  | some P =>
    have hP := good_prim hord hp
    dsimp only
    refine .get ?_
    split
    · exact good_fail
    rename_i hre
    split
    · exact good_fail
    · rename_i hc
      have hc : Arity.checkArgumentCount (Arity.parseNumArgs P.args) (length args) = true := by simpa using hc
      cases hsp : P.special with
      | true =>
        exact (hP s (toArray args) e hs he (live_toArray ha) ⟨args, hc, rfl, fun _ => rfl⟩).mono (fun h => by rw [hsp] at h; cases h.1) fun _ _ h => h
      | false =>
        refine good_bind' (good_evalAll _ hs (live_toArray ha) he) hs fun us s1 hr hs1 hx hu => ?_
        obtain ⟨hu, hlen⟩ := hu
        lift hx
        refine (hP s1 us e hs1 he hu ⟨args, hc, hlen, fun h => by rw [hsp] at h; cases h⟩).mono (fun h => ?_) fun _ _ h => h
        have hA := (runsP_evalAll _ _ _ _).mp hr
        refine hz us s1 hA h.2 (fatal_length hp hc hlen hA h.2) fun hx => ?_
        subst hx
        have : P.restricted = true := by
          have : (std H).prims "panic!" = some (rprim "panic!" "1" panicImpl).2 := rfl
          rw [this] at hp
          cases hp
          rfl
        simpa [this] using hre

theorem live_shortcutCases {x : List Char} {d : Data} (h : Live C s d) : Live C s (shortcutCases x d) := by
  unfold shortcutCases
  repeat' first | split | (live; done)
theorem live_shortcuts {d : Data} (h : Live C s d) : Live C s (shortcuts d) := by
  unfold shortcuts
  split
  · exact live_shortcutCases h
  · exact h

theorem good_body (hord : Reorders H.ord) (c : Call) (s : Store) (hs : Sound (std H) s) (hc : LiveCall (std H) s c) :
    Good (std H) (Crashing (std H) c s) (LiveQ (std H)) s (body (std H) c) := by
  cases c with
  | eval need d e =>
    obtain ⟨hd, he⟩ := hc
    show Good _ _ _ s (evalHelper (std H) need d e)
    unfold evalHelper
    split
    · have hsd := live_shortcuts hd
      unfold evalCombination
      split
      · exact good_pure live_empty
      · refine good_bind' (good_evalNeed (live_car hsd) he) hs fun fn s1 hr hs1 hx hfn => ?_
        have hr := runsP_evalNeed.mp hr
        lift hx
        split
        · exact good_failShow
        · refine good_attempt (Q := LiveQ (std H)) ?_ hs1 (fun _ _ _ _ _ h => .ret h) fun _ _ _ _ _ => .err
          unfold apply
          split
          · exact .get (good_callFn hs1 hfn (by live) he (callFrame_ok hs1))
          · exact good_callMacro hs1 hfn (by live) he
          · exact good_primApply hord hs1 hfn (by live) he fun us s₁ h1 h2 h3 h4 => .eval hr h1 h2 h3 h4
          · split
            · exact good_fail
            · exact good_failShow
    · split
      · exact good_pure hd
      · exact good_valueOf hs hord
    · exact good_pure hd
  | app f args e =>
    obtain ⟨hf, ha, he⟩ := hc
    show Good _ _ _ s (applyNoEval (std H) f args e)
    unfold applyNoEval
    split
    · exact .get (good_callFn hs hf ha he (callFrame_ok hs))
    · exact good_callMacro hs hf ha he
    · rename_i x
      unfold primApplyNoEval
      split
      · rename_i h
        have hf : ((std H).prims x).isSome = true := hf
        rw [h] at hf
        cases hf
      · rename_i P hP
        split
        · rename_i hsp
          refine good_primApply hord hs hf ha he fun us s₁ h1 h2 _ _ => ?_
          rw [(fatal_spec h2 hP).1] at hsp
          cases hsp
        · exact good_primApply hord hs hf (live_quoteAll ha) he fun us s₁ h1 h2 h3 h4 => .app h1 h2 h3 h4
    · exact good_fail
    · exact good_failShow
  | doLoop b t y r e =>
    obtain ⟨h1, h2, h3, h4, h5⟩ := hc
    exact good_doIter hord hs h1 h2 h3 h4 h5

/-! ### The fatal calls are fatal -/

theorem ofOut_panic {o : Out Data} {s : Store} (h : o = .panic) : RunsP (body C) (Prog.ofOut o) s .panic s := by
  subst h; exact runsP_panic.mpr ⟨rfl, rfl⟩

set_option maxRecDepth 20000 in
theorem fatal_body {x : String} {us : List Data} (hf : Fatal x us) {P : PrimDef} (hp : (std H).prims x = some P) {e : Nat} {s : Store} :
    RunsP (body (std H)) (P.body (ofArray us) e) s .panic s := by
  cases hf
  case panic =>
    rw [show (std H).prims _ = some _ from rfl] at hp
    cases hp
    exact runsP_panic.mpr ⟨rfl, rfl⟩
  case apply f hf =>
    rw [show (std H).prims _ = some _ from rfl] at hp
    cases hp
    show RunsP (body (std H)) (applyImpl H (ofArray [f]) e) s .panic s
    have h1 : car (ofArray [f]) = f := by cases f <;> first | rfl | cases hf
    have h2 : toArray (cdr (ofArray [f])) = [] := rfl
    unfold applyImpl
    rw [h1, h2, hf]
    exact runsP_panic.mpr ⟨rfl, rfl⟩
  case remainder a =>
    rw [show (std H).prims _ = some _ from rfl] at hp
    cases hp
    exact ofOut_panic rfl
  case modulo a =>
    rw [show (std H).prims _ = some _ from rfl] at hp
    cases hp
    exact ofOut_panic rfl
  case take k bs hk =>
    rw [show (std H).prims _ = some _ from rfl] at hp
    cases hp
    refine ofOut_panic ?_
    show Prim.take (.int k) (.bytes bs) = _
    have h : ¬ (bs.length : Int) ≤ k.toInt := by omega
    simp [Prim.take, hk, h, show isListP (.bytes bs) = false from rfl]
  case drop k bs hk =>
    rw [show (std H).prims _ = some _ from rfl] at hp
    cases hp
    refine ofOut_panic ?_
    show Prim.drop (.int k) (.bytes bs) = _
    have h : ¬ (bs.length : Int) ≤ k.toInt := by omega
    simp [Prim.drop, hk, h, show isListP (.bytes bs) = false from rfl]
  case capitalize =>
    rw [show (std H).prims _ = some _ from rfl] at hp
    cases hp
    exact runsP_panic.mpr ⟨rfl, rfl⟩
  case substring x i j h1 h2 h3 =>
    rw [show (std H).prims _ = some _ from rfl] at hp
    cases hp
    show RunsP (body (std H)) (if i.toInt > (text x.toList).length then _ else if j.toInt > (text x.toList).length then _ else
      if i.toInt > j.toInt then _ else if i.toInt < 0 then Prog.panic else _) s .panic s
    rw [if_neg (by omega), if_neg (by omega), if_neg (by omega), if_pos h1]
    exact runsP_panic.mpr ⟨rfl, rfl⟩
  case format d t vs hd hc =>
    rw [show (std H).prims _ = some _ from rfl] at hp
    cases hp
    show RunsP (body (std H)) (formatImpl H _ e) s .panic s
    have h1 : car (ofArray (d :: .str t :: vs)) = d := by
      cases d with
      | null => rcases hd with h | h <;> cases h
      | _ => rfl
    have h2 : car (cdr (ofArray (d :: .str t :: vs))) = .str t := rfl
    have h3 : (!isBool d && !isPort d) = false := by rcases hd with h | h <;> simp [h]
    unfold formatImpl
    rw [h1, h2, h3]
    simp only [Bool.false_eq_true, if_false]
    rw [runsP_get, formatRest, List.map_map, show bytes t = text t.toList from rfl, (Fmt.format_panic (fun x => ?_)).mpr hc]
    · exact runsP_panic.mpr ⟨rfl, rfl⟩
    · show (fmtArg H s (elem x)).int = _
      rw [fmtArg_int]
      cases x <;> rfl
  all_goals
    rename_i hr
    rw [show (std H).prims _ = some _ from rfl] at hp
    cases hp
    show RunsP (body (std H)) (Prog.ofOut (Prim.interval (2 ^ 46) (toArray (ofArray _)))) s .panic s
    rw [toArray_ofArray]
    have hn : ∀ o : Out Data, (o = .panic ∨ o = .timeout) → RunsP (body (std H)) (Prog.ofOut o) s .panic s := by
      rintro o (rfl | rfl) <;> exact runsP_panic.mpr ⟨rfl, rfl⟩
    refine hn _ ?_
    simp only [Prim.interval, List.map_cons, List.map_nil, intValue_elem]
  · rcases interval_go (C := std H) (s := s) true 1 _ 1 with ⟨v, h, _, h'⟩ | h
    · exact absurd hr h'
    · exact h.1
  · rename_i h
    rw [show (intValue _).slt (intValue _) = false by rw [BitVec.slt_eq_decide]; simpa using h]
    rcases interval_go (C := std H) (s := s) true _ _ 1 with ⟨v, h, _, h'⟩ | h
    · exact absurd hr h'
    · exact h.1
  · rename_i h
    rw [show (intValue _).slt (intValue _) = true by rw [BitVec.slt_eq_decide]; simpa using h]
    rcases interval_go (C := std H) (s := s) false _ _ (-1) with ⟨v, h, _, h'⟩ | h
    · exact absurd hr h'
    · exact h.1
  · rename_i h ht
    rw [show (intValue _).slt (intValue _) = false by rw [BitVec.slt_eq_decide]; simpa using h]
    simp only [show ∀ n, elem (.int n) = .int n from fun _ => rfl, Props.intSgn_eq, Int.sign_eq_one_of_pos ht]
    rw [if_neg (by decide)]
    rcases interval_go (C := std H) (s := s) true _ _ _ with ⟨v, h, _, h'⟩ | h
    · exact absurd hr h'
    · exact h.1
  · rename_i h ht
    rw [show (intValue _).slt (intValue _) = true by rw [BitVec.slt_eq_decide]; simpa using h]
    simp only [show ∀ n, elem (.int n) = .int n from fun _ => rfl, Props.intSgn_eq, Int.sign_eq_neg_one_of_neg ht]
    rw [if_neg (by decide)]
    rcases interval_go (C := std H) (s := s) false _ _ _ with ⟨v, h, _, h'⟩ | h
    · exact absurd hr h'
    · exact h.1

set_option maxRecDepth 20000 in
theorem fatal_primApply {x : String} {us : List Data} {args : Data} {e : Nat} {s s' : Store}
    (hA : Args (std H) e (toArray args) s (.ok us) s') (hf : Fatal x us) (hl : length args = us.length)
    (hre : x = "panic!" → s.restrictedEnv e = false) : RunsP (body (std H)) (primApply (std H) x args e) s .panic s' := by
  obtain ⟨P, hp⟩ : ∃ P, (std H).prims x = some P := by cases hf <;> exact ⟨_, rfl⟩
  unfold primApply
  rw [hp]
  dsimp only
  rw [runsP_get]
  obtain ⟨h1, h2⟩ := fatal_spec hf hp
  have hc : Arity.checkArgumentCount (Arity.parseNumArgs P.args) (length args) = true := by
    rw [hl, h2]
    cases hf
    case format => exact count_ge2 (List.cons_ne_nil _ _)
    all_goals simp only [List.length_cons, List.length_nil]; decide
  have hr : (P.restricted && s.restrictedEnv e) = false := by
    cases hf
    case panic => rw [hre rfl, Bool.and_false]
    all_goals
      rw [show (std H).prims _ = some _ from rfl] at hp
      cases hp
      rfl
  rw [hr, hc, h1]
  simp only [Bool.false_eq_true, if_false, Bool.not_true]
  rw [runsP_bind]
  exact Or.inl ⟨us, s', (runsP_evalAll _ _ _ _).mpr hA, fatal_body hf hp⟩

set_option maxRecDepth 20000 in
theorem crashing {c : Call} {s : Store} (h : Crashing (std H) c s) : ∃ s', Runs (body (std H)) c s .panic s' := by
  cases h with
  | @eval need a b e s x us s₁ s₂ ho hA hf hl hre =>
    refine ⟨s₂, runs_iff.mpr ?_⟩
    show RunsP _ (evalCombination (std H) (shortcuts (.cell .cons a b)) e) s .panic s₂
    unfold evalCombination
    split
    · rename_i hn
      exfalso
      have hc : car (shortcuts (.cell .cons a b)) = .null := by
        generalize shortcuts (.cell .cons a b) = d at hn
        cases d with
        | null => rfl
        | atom a => rfl
        | cell k a d => simp only [isNil] at hn; simp [car]; revert hn; cases a <;> simp
      rw [hc] at ho
      cases (runs_det ho (show EvalsOp (std H) .null e s (.ok .null) s by unfold EvalsOp; rw [runs_iff]; exact runsP_ret.mpr ⟨rfl, rfl⟩)).1
    · rw [runsP_bind]
      refine Or.inl ⟨_, s₁, runsP_evalNeed.mpr ho, ?_⟩
      show RunsP _ ((primApply (std H) x _ e).attempt _) s₁ .panic s₂
      rw [runsP_attempt]
      exact Or.inr (Or.inr ⟨fatal_primApply hA hf hl hre, rfl⟩)
  | @app args e s x us s₁ hA hf hl hre =>
    refine ⟨s₁, runs_iff.mpr ?_⟩
    show RunsP _ (primApplyNoEval (std H) x args e) s .panic s₁
    obtain ⟨P, hp⟩ : ∃ P, (std H).prims x = some P := by cases hf <;> exact ⟨_, rfl⟩
    have hsp := (fatal_spec hf hp).1
    unfold primApplyNoEval
    rw [hp]
    simp only [hsp, Bool.false_eq_true, if_false]
    exact fatal_primApply hA hf hl hre

end Golisp.Ev
