import Verif.GoodEval
import Verif.Props.Numbers2
/-
The primitives of `Verif.TextPrims` in the logic of `Verif.Good`.
-/
namespace Golisp.Spec
open Golisp Data Ev

/-- Counting from `s` by `t` up (or down) to `e` gets nowhere: there is no room for `|e - s| + 1` numbers, or the first
2^46 numbers (modulo 2^64) all lie before the end. -/
def Runaway (up : Bool) (s e t : BitVec 64) : Prop :=
  2 ^ 45 < (e - s).toInt.natAbs + 1 ∨
  ∀ k < 2 ^ 46, if up then (s + BitVec.ofNat 64 k * t).toInt ≤ e.toInt else e.toInt ≤ (s + BitVec.ofNat 64 k * t).toInt

end Golisp.Spec

namespace Golisp.Ev
open Golisp Data Spec

variable {C : Conf} {s s' : Store} {α β : Type} {Z : Prop} {H : Host}

theorem good_needStr {m : String} {d : Data} {k : String → Prog Data} (hk : ∀ x, d = .str x → Good C Z (LiveQ C) s (k x)) :
    Good C Z (LiveQ C) s (needStr H m d k) := by
  unfold needStr
  split
  · rename_i h
    cases d with
    | atom a => cases a <;> first | exact hk _ rfl | cases h
    | _ => cases h
  · exact good_failShow

theorem good_joinLoop (xs : List Data) (hs : Sound C s) : Good C Z (fun _ _ => True) s (joinLoopP H xs) := by
  induction xs with
  | nil => exact good_pure trivial
  | cons x xs ih =>
    unfold joinLoopP
    split
    · exact good_bind ih hs fun _ _ _ _ _ => good_pure trivial
    · exact good_failShow
theorem live_strs {ps : List Str.GoStr} : Live C s (ofArray (ps.map ofBytes)) := by
  refine live_ofArray fun x hx => ?_
  obtain ⟨p, _, rfl⟩ := List.mem_map.mp hx
  trivial
theorem live_syms {ps : List String} : Live C s (ofArray (ps.map .sym)) := by
  refine live_ofArray fun x hx => ?_
  obtain ⟨p, _, rfl⟩ := List.mem_map.mp hx
  trivial
theorem good_split {a : Data} {e : Nat} : Good C Z (LiveQ C) s (stringSplitImpl H a e) :=
  good_needStr fun _ _ => good_needStr fun _ _ => good_pure live_strs
theorem good_join {a : Data} {e : Nat} (hs : Sound C s) : Good C Z (LiveQ C) s (stringJoinImpl H a e) := by
  unfold stringJoinImpl
  dsimp only
  split
  · exact good_failShow
  · split
    · exact good_bind (good_joinLoop _ hs) hs fun _ _ _ _ _ => good_pure live_str
    · exact good_needStr fun _ _ => good_bind (good_joinLoop _ hs) hs fun _ _ _ _ _ => good_pure live_str
theorem good_trim {sd : Str.Side} {a : Data} {e : Nat} : Good C Z (LiveQ C) s (stringTrimImpl H sd a e) := by
  refine good_needStr fun _ _ => ?_
  split
  · exact good_needStr fun _ _ => good_pure live_str
  · exact good_pure live_str
theorem good_capitalize {a : Data} {e : Nat} (hz : car a = .str "" → Z) : Good C Z (LiveQ C) s (stringCapitalizeImpl H a e) := by
  refine good_needStr fun x hx => ?_
  split
  · rename_i h
    refine .panic (Or.inl (hz ?_))
    rw [hx]
    congr 2
    have := Str.decode_text x.toList
    rw [show text x.toList = [] from h] at this
    rw [← String.ofList_toList (s := x), ← this]
    rfl
  · exact good_pure live_str
theorem good_substring {a : Data} {e : Nat} (hz : ∀ x i j, car a = .str x → car (cdr a) = .int i → car (cdr (cdr a)) = .int j →
    i.toInt < 0 → i.toInt ≤ j.toInt → j.toInt ≤ (text x.toList).length → Z) : Good C Z (LiveQ C) s (substringImpl H a e) := by
  refine good_needStr fun x hx => ?_
  split
  · rename_i i hi
    split
    · exact good_fail
    split
    · rename_i j hj
      split
      · exact good_fail
      split
      · exact good_fail
      split
      · rename_i h1 h2 h3
        exact .panic (Or.inl (hz x i j hx hi hj h3 (by omega) (by have : (bytes x).length = (text x.toList).length := rfl; omega)))
      · exact good_pure live_str
    · exact good_failShow
  · exact good_failShow
theorem good_stringTest {m : String} {f : String → String} {g : Str.GoStr → Str.GoStr → Bool} {a : Data} {e : Nat} :
    Good C Z (LiveQ C) s (stringTestImpl H m f g a e) := good_needStr fun _ _ => good_needStr fun _ _ => good_pure live_bool
theorem good_floatFn {m : String} {f : BitVec 32 → BitVec 32} {a : Data} {e : Nat} : Good C Z (LiveQ C) s (floatFnImpl H m f a e) := by
  unfold floatFnImpl
  split
  · exact good_pure live_flt
  · exact good_failShow
theorem good_floatTest {m : String} {f : BitVec 32 → Bool} {a : Data} {e : Nat} : Good C Z (LiveQ C) s (floatTestImpl H m f a e) := by
  unfold floatTestImpl
  split
  · exact good_pure live_bool
  · exact good_failShow
theorem anyFloats_out (xs : List Data) : Prim.anyFloats xs ≠ .panic ∧ Prim.anyFloats xs ≠ .timeout := by
  induction xs with
  | nil => exact ⟨nofun, nofun⟩
  | cons x xs ih =>
    unfold Prim.anyFloats
    repeat' split
    all_goals first | exact ih | exact ⟨nofun, nofun⟩
theorem good_pow {a : Data} {e : Nat} : Good C Z (LiveQ C) s (powImpl H a e) := by
  unfold powImpl
  have h := anyFloats_out (toArray a)
  refine good_ofOut_bind (fun b _ => ?_) (fun hp => absurd hp h.1) h.2
  split
  · exact good_pure live_flt
  · exact good_ofOut (outOk_ok live_int)
theorem outOk_numberToString {d : Data} {b : Option Data} : OutOk C s Z (Prim.numberToString d b) := by
  unfold Prim.numberToString
  cases b <;> dsimp only <;> split <;> exact outOk_ok live_str
theorem outOk_stringToNumber {d : Data} {b : Option Data} : OutOk C s Z (Prim.stringToNumber d b) := by
  unfold Prim.stringToNumber
  cases b <;> dsimp only <;> repeat' split
  all_goals first | exact outOk_err | exact outOk_ok live_int

/-! ### `parse` -/

/-- What the reader makes holds no references. -/
def PLive (C : Conf) (s : Store) (r : Reader.PRes) : Prop := ∀ d rest, r = .ok d rest → Live C s d

theorem plive_ok {d : Data} {rest : List Reader.Tok} (h : Live C s d) : PLive C s (.ok d rest) := fun _ _ e => by cases e; exact h
theorem plive_next {k : Data → List Reader.Tok → Reader.PRes} {x : Reader.PRes} (hx : PLive C s x)
    (hk : ∀ d r, Live C s d → PLive C s (k d r)) : PLive C s (Reader.next k x) := by
  cases x with
  | ok d r => exact hk _ _ (hx _ _ rfl)
  | _ => exact nofun
theorem plive_wrap {nm : String} {x : Reader.PRes} (hx : PLive C s x) : PLive C s (Reader.wrap nm x) := by
  cases x with
  | ok d r => exact plive_ok ⟨trivial, hx _ _ rfl, trivial⟩
  | _ => exact nofun
theorem plive_mkInt {b : Nat} {cs : List Char} {r : List Reader.Tok} : PLive C s (Reader.mkInt b cs r) := by
  unfold Reader.mkInt
  split
  · exact plive_ok live_int
  · exact nofun
theorem plive_recN (R : Reader.Host) (n : Nat) :
    (∀ ts, PLive C s ((Reader.recN R n).expr ts)) ∧ (∀ ts l, LiveL C s l → PLive C s ((Reader.recN R n).consLoop ts l)) ∧
    (∀ ts l, LiveL C s l → PLive C s ((Reader.recN R n).bytesLoop ts l)) ∧
    (∀ ts l, LiveL C s l → PLive C s ((Reader.recN R n).frameLoop ts l)) := by
  induction n with
  | zero =>
    refine ⟨?_, ?_, ?_, ?_⟩
    all_goals intros; intro _ _ h; cases h
  | succ n ih =>
    obtain ⟨h1, h2, h3, h4⟩ := ih
    refine ⟨fun ts => ?_, fun ts l hl => ?_, fun ts l hl => ?_, fun ts l hl => ?_⟩
    · show PLive C s (Reader.exprStep R (Reader.recN R n) ts)
      unfold Reader.exprStep
      repeat' first
        | exact plive_mkInt | exact h2 _ _ liveL_nil | exact h3 _ _ liveL_nil | exact h4 _ _ liveL_nil | exact plive_wrap (h1 _) | exact plive_ok (fun (h : "frame" = "Atomic") => absurd h (by decide))
        | exact plive_ok trivial | (intro _ _ h; cases h; done) | split
    · show PLive C s (Reader.consStep (Reader.recN R n) ts l)
      unfold Reader.consStep
      split
      · exact plive_ok (live_ofArray hl)
      split
      · generalize hx : (Reader.recN R n).expr ts.tail = x
        have := h1 ts.tail
        rw [hx] at this
        cases x with
        | ok d r =>
          simp only [Reader.closeDot]
          split
          · exact plive_ok (live_listWithTail hl (this _ _ rfl))
          · exact nofun
        | _ => exact nofun
      · exact plive_next (h1 _) fun d r hd => h2 _ _ (liveL_append hl (liveL_cons hd liveL_nil))
    · show PLive C s (Reader.bytesStep (Reader.recN R n) ts l)
      unfold Reader.bytesStep
      split
      · refine plive_ok ?_
        split
        · trivial
        · exact live_ofArray (liveL_cons live_sym (liveL_cons ⟨trivial, live_ofArray hl⟩ liveL_nil))
      · refine plive_next (h1 _) fun d r hd => ?_
        split
        · exact nofun
        split
        · exact nofun
        · exact h3 _ _ (liveL_append hl (liveL_cons hd liveL_nil))
    · show PLive C s (Reader.frameStep (Reader.recN R n) ts l)
      unfold Reader.frameStep
      split
      · exact plive_ok ⟨trivial, live_ofArray hl⟩
      · exact plive_next (h1 _) fun d r hd => h4 _ _ (liveL_append hl (liveL_cons hd liveL_nil))
theorem live_parse {R : Reader.Host} {cs : List Char} {d : Data} (h : Reader.parse R cs = some d) : Live C s d := by
  unfold Reader.parse at h
  split at h
  · rename_i hr
    cases h
    exact (plive_recN R _).1 _ _ _ hr
  · cases h; trivial
  · cases h
theorem good_parse {a : Data} {e : Nat} : Good C Z (LiveQ C) s (parseImpl H a e) := by
  unfold parseImpl
  split
  · split
    · rename_i h
      exact good_pure (live_parse h)
    · exact good_fail
  · exact good_failShow

/-! ### `interval` -/

theorem intervalLoop_timeout (up : Bool) (e t : BitVec 64) : ∀ (fuel : Nat) (i : BitVec 64),
    (∃ l, Prim.intervalLoop up fuel i e t = .ok l ∧ LiveL C s l) ∧
      (¬ ∀ k < fuel, if up then (i + BitVec.ofNat 64 k * t).toInt ≤ e.toInt else e.toInt ≤ (i + BitVec.ofNat 64 k * t).toInt) ∨
    Prim.intervalLoop up fuel i e t = .timeout ∧
      (∀ k < fuel, if up then (i + BitVec.ofNat 64 k * t).toInt ≤ e.toInt else e.toInt ≤ (i + BitVec.ofNat 64 k * t).toInt) := by
  intro fuel
  induction fuel with
  | zero => exact fun i => Or.inr ⟨rfl, nofun⟩
  | succ n ih =>
    intro i
    have hk : ∀ k, i + t + BitVec.ofNat 64 k * t = i + BitVec.ofNat 64 (k + 1) * t := by
      intro k
      have : BitVec.ofNat 64 (k + 1) = BitVec.ofNat 64 k + 1#64 := by rw [BitVec.ofNat_add]
      rw [this, BitVec.add_mul, BitVec.one_mul, BitVec.add_comm (BitVec.ofNat 64 k * t), BitVec.add_assoc]
    have h0 : i + BitVec.ofNat 64 0 * t = i := by simp
    have hc : ((if up then i.sle e else e.sle i) = true) ↔ (if up then i.toInt ≤ e.toInt else e.toInt ≤ i.toInt) := by
      cases up <;> simp [BitVec.sle_eq_decide]
    by_cases hi : (if up then i.sle e else e.sle i) = true
    · simp only [Prim.intervalLoop, if_pos hi]
      rw [hc] at hi
      rcases ih (i + t) with ⟨⟨l, h1, h2⟩, h3⟩ | ⟨h1, h3⟩
      · refine Or.inl ⟨⟨.int i :: l, by rw [h1], liveL_cons live_int h2⟩, fun h => h3 fun k hk' => ?_⟩
        rw [hk]; exact h (k + 1) (by omega)
      · refine Or.inr ⟨by rw [h1], fun k hk' => ?_⟩
        cases k with
        | zero => rw [h0]; exact hi
        | succ k => have := h3 k (by omega); rw [hk] at this; exact this
    · simp only [Prim.intervalLoop, if_neg hi]
      refine Or.inl ⟨⟨[], rfl, liveL_nil⟩, fun h => hi (hc.mpr ?_)⟩
      have := h 0 (by omega)
      rwa [h0] at this

/-- What becomes of the counting. -/
theorem interval_go (up : Bool) (a e t : BitVec 64) :
    let o : Out Data := if 2 ^ 45 < (e - a).toInt.natAbs + 1 then .panic else
      match Prim.intervalLoop up (2 ^ 46) a e t with
      | .ok l => .ok (ofArray l)
      | .err x => .err x
      | .panic => .panic
      | .timeout => .timeout
    (∃ v, o = .ok v ∧ Live C s v ∧ ¬ Runaway up a e t) ∨ ((o = .panic ∨ o = .timeout) ∧ Runaway up a e t) := by
  dsimp only
  split
  · rename_i h
    exact Or.inr ⟨Or.inl rfl, Or.inl h⟩
  · rename_i h
    rcases intervalLoop_timeout (C := C) (s := s) up e t (2 ^ 46) a with ⟨⟨l, h1, h2⟩, h3⟩ | ⟨h1, h3⟩
    · rw [h1]
      exact Or.inl ⟨_, rfl, live_ofArray h2, fun hr => hr.elim h h3⟩
    · rw [h1]
      exact Or.inr ⟨Or.inr rfl, Or.inr h3⟩

theorem good_ofOut_or {o : Out Data} {R : Prop} (h : (∃ v, o = .ok v ∧ Live C s v ∧ ¬ R) ∨ ((o = .panic ∨ o = .timeout) ∧ R)) (hz : R → Z) :
    Good C Z (LiveQ C) s (.ofOut o) := by
  rcases h with ⟨v, rfl, hv, _⟩ | ⟨rfl | rfl, hr⟩
  · exact .ret hv
  · exact .panic (Or.inl (hz hr))
  · exact .panic (Or.inl (hz hr))

/-! ### `sort` -/

theorem good_sortRun {f : Data → Prog Data} {I : Store → Prop} (hI : ∀ s s', I s → Ext s s' → I s')
    (hf : ∀ s a, Sound C s → I s → Live C s a → Good C Z (LiveQ C) s (f a)) {n : Nat} {t : Sorting.Tree} (ht : InRange n t) :
    ∀ {s : Store} {arr : List Data} {er : Option Err}, arr.length = n → Sound C s → I s → LiveL C s arr →
      Good C Z (fun s p => LiveL C s p.1) s (sortRunP f t arr er) := by
  induction ht with
  | done => exact fun _ _ _ h => .ret h
  | @less i j k hi hj _ ih =>
    intro s arr er hl hs hi' ha
    cases er with
    | some e => exact ih false hl hs hi' ha
    | none =>
      have h1 : arr[i]? = some arr[i] := List.getElem?_eq_getElem (hl ▸ hi)
      have h2 : arr[j]? = some arr[j] := List.getElem?_eq_getElem (hl ▸ hj)
      rw [sortRunP, h1, h2]
      refine good_attempt (hf s _ hs hi' (live_ofArray (liveL_cons (ha _ (List.getElem_mem _)) (liveL_cons (ha _ (List.getElem_mem _)) liveL_nil)))) hs
        (fun v s1 _ hs1 hx _ => ih _ hl hs1 (hI _ _ hi' hx) (LiveL.mono hx ha))
        fun e s1 _ hs1 hx => ih _ hl hs1 (hI _ _ hi' hx) (LiveL.mono hx ha)
  | swap hi hj _ ih =>
    intro s arr er hl hs hi' ha
    obtain ⟨arr', he, hp⟩ := swapAt_some (hl ▸ hi) (hl ▸ hj)
    rw [sortRunP, he]
    exact ih (hp.length_eq.trans hl) hs hi' fun x hx => ha x (hp.mem_iff.mp hx)

theorem good_sortResult {p : List Data × Option Err} (h : LiveL C s p.1) : Good C Z (LiveQ C) s (sortResult p) := by
  rcases p with ⟨arr, _ | e⟩
  · exact .ret (live_ofArray h)
  · exact .err

/-! ### Names and keys -/

theorem good_frameKeys {a : Data} {e : Nat} : Good C Z (LiveQ C) s (frameKeysImpl H a e) := by
  unfold frameKeysImpl
  split
  · exact .get (good_pure live_syms)
  · exact good_failShow
theorem live_binds {e : Nat} (hs : Sound C s) : ∀ p ∈ bindsOf H s e, Live C s p.2 := by
  intro p hp
  unfold bindsOf at hp
  split at hp
  · cases hp
  · rename_i r hr
    obtain ⟨x, _, rfl⟩ := List.mem_map.mp hp
    dsimp only
    split
    · rename_i b hb
      exact hs.binds r (List.mem_of_getElem? hr) (x, b) (alGet_some_mem hb)
    · trivial

end Golisp.Ev
