import Verif.FrameCopy
import Verif.LibraryLemmas
import Verif.Live
import Verif.Props.Access
import Verif.Props.Methods
/- C83: frames as values: comparing, measuring and copying them; `general-car-cdr` in programs. -/
namespace Golisp.Spec
open Golisp Data

/-- No slot holds an empty list. -/
def Full (F : Frames) : Prop := ∀ i k v, Frame.slot F i k = some v → ¬ Lst v []
end Golisp.Spec

namespace Golisp.Props
open Golisp Data Ev Spec

set_option maxRecDepth 20000
variable {C : Conf} {e : Nat} {s s₁ : Store} {d : Data}

/-! ### Comparing -/

private theorem eq_runs {x : String} {a b : Data} (f : FrEq → Data → Data → Out Data)
    (hx : (std C.host).prims x = some ⟨"2".toList, false, false, withEq fun q => o2 (f q)⟩) {v : Data}
    (hf : f (Frame.eqIn s₁.frames) a b = .ok v) (h : Calling C x [a, b] d e s s₁) : Returns C d e s v s₁ := by
  obtain ⟨args, hl, hiff⟩ := calling_iff h hx count2
  refine returns_of hiff fun r t => ?_
  rw [withEq, runsP_get, o2, car_args hl, cadr_args hl, hf]
  exact runsP_ret

/-- The comparisons tell whether two values are the same, frames being compared by their slots; nothing changes. -/
theorem C83_equal {x : String} (hx : x = "==" ∨ x = "eqv?" ∨ x = "eq?" ∨ x = "equal?") {a b : Data} (h : Calling C x [a, b] d e s s₁)
    (hF : TameFrames s₁.frames) (ha : Tame a) (hb : Tame b) : ∃ r : Bool, Returns C d e s (.bool r) s₁ ∧ (r = true ↔ Alike s₁.frames a b) := by
  refine ⟨@isEqual (Frame.eqIn s₁.frames) a b, ?_, Frame.isEqual_same hF ha hb⟩
  rcases hx with rfl | rfl | rfl | rfl <;> exact eq_runs (fun q => @Prim.equalTo q) rfl rfl h

/-- The negated comparisons tell the opposite. -/
theorem C83_unequal {x : String} (hx : x = "!=" ∨ x = "neq?") {a b : Data} (h : Calling C x [a, b] d e s s₁)
    (hF : TameFrames s₁.frames) (ha : Tame a) (hb : Tame b) : ∃ r : Bool, Returns C d e s (.bool r) s₁ ∧ (r = true ↔ ¬ Alike s₁.frames a b) := by
  refine ⟨!@isEqual (Frame.eqIn s₁.frames) a b, ?_, ?_⟩
  · rcases hx with rfl | rfl <;> exact eq_runs (fun q => @Prim.notEqual q) rfl rfl h
  · rw [← Frame.isEqual_same hF ha hb]; simp

private theorem same_refl {F : Frames} : ∀ {d : Data}, (Tame d → Alike F d d) ∧ (TameList d → Alike F d d)
  | .null => ⟨fun _ => .nil .null .null, fun _ => .nil .null .null⟩
  | .atom a => by
    refine ⟨fun _ => ?_, fun h => absurd h TameList.not_atom⟩
    by_cases hf : ∃ i, a = .frame i
    · obtain ⟨i, rfl⟩ := hf; exact .frame .self
    · exact .atom (.refl a) fun i h => hf ⟨i, h⟩
  | .cell k a d => by
    have key : TameList (.cell k a d) → Alike F (.cell k a d) (.cell k a d) := by
      intro h
      cases h with
      | cons _ _ h1 h2 =>
        by_cases hn : Lst (.cons a d) []
        · exact .nil hn hn
        · exact .cell hn hn (same_refl.1 h1) (same_refl.2 h2)
    refine ⟨fun h => ?_, key⟩
    cases h with | list _ h => exact key h

/-- Every value is the same as itself. -/
theorem C83_reflexive {F : Frames} {d : Data} (hd : Tame d) : Alike F d d := same_refl.1 hd

private theorem same_nil {F : Frames} {d o : Data} (h : Alike F d o) (ho : Lst o []) : Lst d [] := by
  cases h with
  | nil h1 => exact h1
  | atom => exact absurd ho not_Lst_atom
  | frame => exact absurd ho not_Lst_atom
  | cell _ h2 => exact absurd ho h2
private theorem same_nil' {F : Frames} {d o : Data} (h : Alike F d o) (ho : Lst d []) : Lst o [] := by
  cases h with
  | nil _ h1 => exact h1
  | atom => exact absurd ho not_Lst_atom
  | frame => exact absurd ho not_Lst_atom
  | cell h2 => exact absurd ho h2

/-- The names of the slots of two such frames agree. -/
private theorem same_keys {F : Frames} (hF : TameFrames F) (hn : Full F) {i j : Nat} (hl : (Frame.get? F i).length = (Frame.get? F j).length)
    (hs : ∀ k v, Frame.slot F i k = some v → Alike F v ((Frame.slot F j k).getD .null)) {k : String} {w : Data} (hw : Frame.slot F j k = some w) :
    ∃ v, Frame.slot F i k = some v := by
  have hsub : ∀ x ∈ (Frame.get? F i).map Prod.fst, x ∈ (Frame.get? F j).map Prod.fst := by
    intro x hx
    cases hi : Frame.slot F i x with
    | none =>
      exfalso
      obtain ⟨p, hp, rfl⟩ := List.mem_map.1 hx
      rw [Frame.slot, Frame.alGet_nodup (hF i).2 hp] at hi
      cases hi
    | some v =>
      have := hs x v hi
      cases hj : Frame.slot F j x with
      | none => rw [hj] at this; exact absurd (same_nil this .null) (hn i x v hi)
      | some w => exact List.mem_map.2 ⟨(x, w), alGet_some_mem hj, rfl⟩
  have hk : k ∈ (Frame.get? F i).map Prod.fst := by
    have hm : k ∈ (Frame.get? F j).map Prod.fst := List.mem_map.2 ⟨(k, w), alGet_some_mem hw, rfl⟩
    refine subset_full (hF i).2 hsub (by simp [hl]) hm
  obtain ⟨p, hp, rfl⟩ := List.mem_map.1 hk
  exact ⟨p.2, Frame.alGet_nodup (hF i).2 hp⟩
where
  subset_full {l m : List String} (hl : l.Nodup) (h : ∀ x ∈ l, x ∈ m) (hlen : l.length = m.length) {k : String} (hk : k ∈ m) : k ∈ l := by
    induction l generalizing m with
    | nil => rw [List.length_eq_zero_iff.1 hlen.symm] at hk; exact hk
    | cons a l ih =>
      by_cases he : k = a
      · exact he ▸ List.mem_cons_self
      · have ham := h a List.mem_cons_self
        rw [List.nodup_cons] at hl
        refine List.mem_cons_of_mem _ (ih (m := m.erase a) hl.2 (fun x hx => ?_) ?_ ?_)
        · have : x ≠ a := fun h => hl.1 (h ▸ hx)
          exact (List.mem_erase_of_ne this).2 (h x (List.mem_cons_of_mem _ hx))
        · rw [List.length_erase_of_mem ham, ← hlen]; rfl
        · exact (List.mem_erase_of_ne he).2 hk

mutual
private theorem same_symm {F : Frames} (hF : TameFrames F) (hn : Full F) {d o : Data} : Alike F d o → Alike F o d
  | .nil h1 h2 => .nil h2 h1
  | .atom h1 h2 => .atom h1.symm fun i hi => by
    rcases h1 with rfl | ⟨_, _, _, h, _⟩
    · exact h2 i hi
    · subst hi; cases h
  | .frame h => .frame (sameFrame_symm hF hn h)
  | .cell h1 h2 h3 h4 => .cell h2 h1 (same_symm hF hn h3) (same_symm hF hn h4)
private theorem sameFrame_symm {F : Frames} (hF : TameFrames F) (hn : Full F) {i j : Nat} : AlikeFrame F i j → AlikeFrame F j i
  | .self => .self
  | .slots hl hs => .slots hl.symm fun k w hw => by
    obtain ⟨v, hv⟩ := same_keys hF hn hl hs hw
    have := same_symm hF hn (hs k v hv)
    rwa [hw, Option.getD_some, ← Option.getD_some (a := v) (b := .null), ← hv] at this
end

mutual
private theorem same_trans {F : Frames} (hn : Full F) {a b c : Data} : Alike F a b → Alike F b c → Alike F a c
  | .nil h1 h2, h => .nil h1 (same_nil' h h2)
  | .atom h1 h2, h => by
    cases h with
    | nil h => exact absurd h not_Lst_atom
    | atom h3 _ => exact .atom (h1.trans h3) h2
    | frame h =>
      rcases h1 with rfl | ⟨_, _, _, h, _⟩
      · exact absurd rfl (h2 _)
      · cases h
  | .frame h1, h => by
    cases h with
    | nil h => exact absurd h not_Lst_atom
    | atom _ h => exact absurd rfl (h _)
    | frame h => exact .frame (sameFrame_trans hn h1 h)
  | .cell h1 h2 h3 h4, h => by
    cases h with
    | nil h => exact absurd h h2
    | cell _ h5 h6 h7 => exact .cell h1 h5 (same_trans hn h3 h6) (same_trans hn h4 h7)
private theorem sameFrame_trans {F : Frames} (hn : Full F) {i j k : Nat} : AlikeFrame F i j → AlikeFrame F j k → AlikeFrame F i k
  | .self, h => h
  | .slots hl hs, h => by
    cases h with
    | self => exact .slots hl hs
    | slots hl' hs' =>
      refine .slots (hl.trans hl') fun x v hv => ?_
      cases hw : Frame.slot F j x with
      | none => have h1 := hs x v hv; rw [hw] at h1; exact absurd (same_nil h1 .null) (hn i x v hv)
      | some w =>
        refine same_trans hn (hs x v hv) ?_
        rw [hw]
        exact hs' x w hw
end

/-- Comparison is not symmetric: a missing slot counts as one that holds nil, but only in the second frame. -/
theorem C83_symmetric_violation : Demo.Ends "(eq? {a: nil b: 1} {b: 1 c: 2})" (.ok (.bool true)) ∧
    Demo.Ends "(eq? {b: 1 c: 2} {a: nil b: 1})" (.ok (.bool false)) :=
  ⟨Demo.ends 20 (by decide +kernel) (by simp), Demo.ends 20 (by decide +kernel) (by simp)⟩

/-- Nor is it transitive. -/
theorem C83_transitive_violation : Demo.Ends "(eq? {a: nil} {b: nil})" (.ok (.bool true)) ∧
    Demo.Ends "(eq? {b: nil} {a: 5})" (.ok (.bool true)) ∧ Demo.Ends "(eq? {a: nil} {a: 5})" (.ok (.bool false)) :=
  ⟨Demo.ends 20 (by decide +kernel) (by simp), Demo.ends 20 (by decide +kernel) (by simp), Demo.ends 20 (by decide +kernel) (by simp)⟩

/-- As long as no slot holds an empty list it is an equivalence.  Missing for the full claim: frames with nil in a slot. -/
theorem C83_equivalence_partial {F : Frames} (hF : TameFrames F) (hn : Full F) :
    (∀ a, Tame a → Alike F a a) ∧ (∀ a b, Alike F a b → Alike F b a) ∧ ∀ a b c, Alike F a b → Alike F b c → Alike F a c :=
  ⟨fun _ => C83_reflexive, fun _ _ => same_symm hF hn, fun _ _ _ => same_trans hn⟩

/-! ### Measuring -/

/-- `(length frame)` is the number of slots of its own. -/
theorem C83_length {i : Nat} (h : Calling C "length" [.atom (.frame i)] d e s s₁) :
    Returns C d e s (.int (BitVec.ofNat 64 (Frame.get? s₁.frames i).length)) s₁ := by
  obtain ⟨args, hl, hiff⟩ := calling_iff h (spec := "1".toList) (impl := lengthImpl) rfl count1
  refine returns_of hiff fun r t => ?_
  rw [lengthImpl, car_args hl]
  exact runsP_get.trans runsP_pure

/-! ### Copying -/

private theorem calling_table {x : String} {vs : List Data} (h : Calling C x vs d e s s₁) : C.prims x = (std C.host).prims x := by
  obtain ⟨_, _, _, _, _, _, _, _, _, h, _⟩ := h; exact h

/-- `(copy v)` gives a copy in which every frame is new, however deep it is; the frames there were stay as they are, and so
does everything else. -/
theorem C83_copy {v : Data} (h : Calling C "copy" [v] d e s s₁) (hv : Grounded s₁.frames v) :
    ∃ w G, Returns C d e s w { s₁ with frames := s₁.frames ++ G } ∧ Copied (s₁.frames ++ G) s₁.frames.length v w := by
  obtain ⟨args, hl, hiff⟩ := calling_iff h (spec := "1".toList) (impl := copyImpl) copy_entry count1
  obtain ⟨w, G, h1, h2⟩ := copyImpl_finite (e := e) (calling_table h) hl hv s₁ ⟨[], by simp⟩
  refine ⟨w, G, returns_of hiff fun r t => ⟨fun hr => ?_, ?_⟩, h2⟩
  · obtain ⟨rfl, rfl⟩ := runsP_det hr h1; exact ⟨rfl, rfl⟩
  · rintro ⟨rfl, rfl⟩; exact h1

private theorem nodup_alGet {m m' : FrameMap} (h : m'.map Prod.fst = m.map Prod.fst) (k : String) : (alGet m' k).isSome = (alGet m k).isSome := by
  induction m generalizing m' with
  | nil => rw [List.map_eq_nil_iff.1 h]
  | cons p m ih =>
    cases m' with
    | nil => cases h
    | cons q m' =>
      obtain ⟨a, b⟩ := p
      obtain ⟨a', b'⟩ := q
      simp only [List.map_cons, List.cons.injEq] at h
      obtain ⟨rfl, h⟩ := h
      simp only [alGet]
      split
      · rfl
      · exact ih h

private theorem copied_nil {F : Frames} {lo : Nat} {v w : Data} (h : Copied F lo v w) : Lst v [] ↔ Lst w [] := by
  rw [← isNil_iff_Lst, ← isNil_iff_Lst]
  cases h with
  | null => rfl
  | atom => rfl
  | dotted => rfl
  | frame => rfl
  | @cell a d a' d' h1 h2 =>
    have hnull : ∀ {x y : Data}, Copied F lo x y → (x = .null ↔ y = .null) := by
      intro x y h; cases h <;> simp
    rw [isNil_iff_Lst, isNil_iff_Lst]
    have : ∀ {a d : Data}, Lst (.cons a d) [] ↔ a = .null ∧ d = .null := by
      intro a d
      constructor
      · intro h; cases h; exact ⟨rfl, rfl⟩
      · rintro ⟨rfl, rfl⟩; exact .empty _
    rw [this, this, hnull h1, hnull h2]

private theorem copied_same {F : Frames} {lo : Nat} {v w : Data} (h : Copied F lo v w) (hn : ∀ i k x, i < lo → Frame.slot F i k = some x → Tame x)
    (hv : Tame v) : Alike F v w := by
  induction h with
  | null => exact .nil .null .null
  | @atom a h => exact .atom (.refl a) h
  | dotted => cases hv.cell_kind
  | @cell a d a' d' h1 h2 i1 i2 =>
    obtain ⟨ha, hd⟩ := (Tame.cons_iff _ _).1 hv
    by_cases hx : Lst (.cons a d) []
    · exact .nil hx ((copied_nil (.cell h1 h2)).1 hx)
    · exact .cell hx (fun hy => hx ((copied_nil (.cell h1 h2)).2 hy)) (i1 ha) (i2 (.list _ hd))
  | @frame i j h1 h2 h3 h4 _ ih =>
    refine .frame (.slots ?_ fun k x hx => ?_)
    · have := congrArg List.length h4
      simp only [List.length_map] at this
      exact this.symm
    · have h5 := nodup_alGet h4 k
      simp only [Frame.slot] at hx ⊢ ih
      rw [hx] at h5
      obtain ⟨y, hy⟩ := Option.isSome_iff_exists.mp h5
      rw [hy]
      exact ih k x y hx hy (hn i k x h1 hx)

/-- The copy compares equal to the original. -/
theorem C83_copy_same {v : Data} (h : Calling C "copy" [v] d e s s₁) (hg : Grounded s₁.frames v) (hF : TameFrames s₁.frames) (hv : Tame v) :
    ∃ w s₂, Returns C d e s w s₂ ∧ Alike s₂.frames v w := by
  obtain ⟨w, G, h1, h2⟩ := C83_copy h hg
  refine ⟨w, _, h1, copied_same h2 (fun i k x hi hx => ?_) hv⟩
  rw [slot_append hi] at hx
  exact (hF i).1 _ (alGet_some_mem hx)

/-- No frame that can be reached from the copy was there before, so no change of the copy shows in the original or the other
way round.  (Association lists share their pairs: none may be in the value.) -/
theorem C83_copy_fresh {F : Frames} {lo : Nat} {v w : Data} (h : Copied F lo v w) (hv : Tame v)
    (hn : ∀ i k x, i < lo → Frame.slot F i k = some x → Tame x) {i : Nat} (hi : Reaches F w i) : lo ≤ i := by
  induction h generalizing i with
  | null => cases hi
  | @atom a h =>
    cases hi with
    | here => exact absurd rfl (h _)
    | slot => exact absurd rfl (h _)
  | dotted => cases hv.cell_kind
  | cell h1 h2 i1 i2 =>
    obtain ⟨ha, hd⟩ := (Tame.cons_iff _ _).1 hv
    cases hi with
    | car hi => exact i1 ha hi
    | cdr hi => exact i2 (.list _ hd) hi
  | @frame i₀ j h1 h2 h3 h4 _ ih =>
    cases hi with
    | here => exact h2
    | @slot _ k y _ hy hi =>
      have h5 := nodup_alGet h4 k
      simp only [Frame.slot] at hy ih hn
      rw [hy] at h5
      obtain ⟨x, hx⟩ := Option.isSome_iff_exists.mp h5.symm
      exact ih k x y hx hy (hn _ k x h1 hx) hi

/-- `copy` ends only for values whose frames are nested to a finite depth: a frame that can be reached from itself is copied for
ever.  (In Go, until the stack is exhausted, which ends the process.) -/
theorem C83_copy_ends {v : Data} (h : Calling C "copy" [v] d e s s₁) (hv : Known s₁.frames v)
    (hF : ∀ i, ∀ p ∈ Frame.get? s₁.frames i, Known s₁.frames p.2) :
    (∃ r t, Evals C d e s r t) ↔ Grounded s₁.frames v := by
  constructor
  · rintro ⟨r, t, hr⟩
    have hc := calling_table h
    obtain ⟨args, hl, hiff⟩ := calling_iff h (spec := "1".toList) (impl := copyImpl) copy_entry count1
    obtain ⟨r₀, _, h1⟩ := (hiff r t).1 hr
    exact copyImpl_ends hc hl hF hv h1
  · intro hg
    obtain ⟨w, G, h1, _⟩ := C83_copy h hg
    exact ⟨_, _, (h1 _ _).2 ⟨rfl, rfl⟩⟩

/-- A value from which a frame can be reached that can be reached from its own slots is not nested to a finite depth. -/
theorem C83_cycle {F : Frames} (hF : TameFrames F) {v : Data} (hv : Tame v) {i : Nat}
    (h : Reaches F v i) {k : String} {w : Data} (hs : Frame.slot F i k = some w) (hw : Reaches F w i) : ¬ Grounded F v := by
  intro hg
  induction hg generalizing i k w with
  | null => cases h
  | atom ha => cases h <;> exact absurd rfl (ha _)
  | dotted => cases hv.cell_kind
  | cell _ _ i1 i2 =>
    obtain ⟨ha, hd⟩ := (Tame.cons_iff _ _).1 hv
    cases h with
    | car h => exact i1 ha h hs hw
    | cdr h => exact i2 (.list _ hd) h hs hw
  | @frame j _ _ ih =>
    cases h with
    | here => exact ih _ (alGet_some_mem hs) ((hF _).1 _ (alGet_some_mem hs)) hw hs hw
    | slot h1 h2 => exact ih _ (alGet_some_mem h1) ((hF _).1 _ (alGet_some_mem h1)) h2 hs hw

/-! ### general-car-cdr -/

private theorem carCdrN_encode (cs : List Char) (hc : ∀ c ∈ cs, c = 'a' ∨ c = 'd') : ∀ (n : Nat) (l : Data), cs.length ≤ n →
    carCdrN n l (encode cs) = cs.foldl (fun x c => step c x) l := by
  induction cs with
  | nil => intro n l _; cases n <;> simp [carCdrN, encode]
  | cons c cs ih =>
    intro n l hn
    cases n with
    | zero => simp at hn
    | succ n =>
      have hp := encode_pos cs
      simp only [encode, List.foldl_cons]
      have ih := fun l => ih (fun c h => hc c (List.mem_cons_of_mem _ h)) n l (by simp at hn; omega)
      rcases hc c List.mem_cons_self with rfl | rfl
      · have h1 : ¬ 2 * encode cs + 1 ≤ 1 := by omega
        have h2 : ¬ (2 * encode cs + 1) % 2 = 0 := by omega
        have h3 : (2 * encode cs + 1) / 2 = encode cs := by omega
        simp only [if_true, carCdrN, if_neg h1, if_neg h2, h3, ih]
        cases l <;> simp [step, car]
      · have h1 : ¬ 2 * encode cs + 0 ≤ 1 := by omega
        have h2 : (2 * encode cs + 0) % 2 = 0 := by omega
        have h3 : (2 * encode cs + 0) / 2 = encode cs := by omega
        have h4 : ¬ 'd' = 'a' := by decide
        simp only [if_neg h4, carCdrN, if_neg h1, h2, if_true, h3, ih]
        cases l <;> simp [step, cdr]

private theorem general_entry {H : Host} : (std H).prims "general-car-cdr" = some ⟨"2".toList, false, false, generalCarCdrImpl⟩ := by
  set_option maxRecDepth 20000 in rfl

/-- `(general-car-cdr v path)` takes the cars and cdrs coded by the binary digits of the path below the leading one, lowest first. -/
theorem C83_general_car_cdr {v : Data} {cs : List Char} (hc : ∀ c ∈ cs, c = 'a' ∨ c = 'd') (he : encode cs < 2 ^ 63)
    (h : Calling C "general-car-cdr" [v, .int (BitVec.ofNat 64 (encode cs))] d e s s₁) :
    Returns C d e s (cs.foldl (fun x c => step c x) v) s₁ := by
  obtain ⟨args, hl, hiff⟩ := calling_iff h general_entry count2
  refine returns_of hiff fun r t => ?_
  have hp := encode_pos cs
  have hn : (BitVec.ofNat 64 (encode cs)).toNat = encode cs := by
    rw [BitVec.toNat_ofNat]; exact Nat.mod_eq_of_lt (by omega)
  have h0 : ¬ BitVec.ofNat 64 (encode cs) = 0 := by
    intro h; have := congrArg BitVec.toNat h; rw [hn] at this; simp at this; omega
  have h1 : ¬ (BitVec.ofNat 64 (encode cs)).toInt < 0 := by
    rw [BitVec.toInt_eq_toNat_of_lt (by rw [hn]; omega), hn]; omega
  have hlen : cs.length ≤ 64 := by
    have := (Nat.pow_lt_pow_iff_right (a := 2) (by omega)).1 (Nat.lt_of_le_of_lt (length_lt_of_encode cs) he)
    omega
  simp only [generalCarCdrImpl, car_args hl, cadr_args hl, intValue, if_neg h0, if_neg h1, hn, carCdrN_encode cs hc 64 v hlen]
  exact runsP_pure

/-- Path zero is refused. -/
theorem C83_general_car_cdr_zero {v : Data} (h : Calling C "general-car-cdr" [v, .int 0] d e s s₁) : Refuses C d e s s₁ := by
  obtain ⟨args, hl, hiff⟩ := calling_iff h general_entry count2
  refine refuses_of hiff (m := "general-car-cdr requires a non-zero path specifier") fun r t => ?_
  simp only [generalCarCdrImpl, cadr_args hl, intValue, if_true]
  exact runsP_fail

/-- With a negative path the call never ends. -/
theorem C83_general_car_cdr_negative {v : Data} {p : BitVec 64} (hp : p.toInt < 0) (h : Calling C "general-car-cdr" [v, .int p] d e s s₁)
    (r : Out Data) (t : Store) : ¬ Evals C d e s r t := by
  have hg := (calling_table h).trans general_entry
  obtain ⟨args, hl, hiff⟩ := calling_iff h general_entry count2
  intro hr
  obtain ⟨r₀, _, n, h1, h2⟩ := (hiff r t).1 hr
  have hne : ¬ p = 0 := by rintro rfl; simp at hp
  have key : ∀ n r t, interp (recN (body C) n) (Prog.eval (ofArray [.atom (.prim "general-car-cdr"), .bool false, .int (-1)]) e) s₁ = (r, t) → r = .timeout := by
    intro n
    induction n using Nat.strongRecOn with
    | _ n ih =>
    intro r t h
    apply Classical.byContradiction
    intro hr
    obtain ⟨m, r₀, h1, h2, h3, _⟩ := direct_depth (tl := ofArray [.bool false, .int (-1)]) (vs := [.bool false, .int (-1)]) hg rfl rfl
      (Lst.ofArray _) (by intro v hv; simp at hv; rcases hv with rfl | rfl <;> trivial) count2 h hr
    exact h3 (ih m h1 r₀ t h2)
  simp only [generalCarCdrImpl, cadr_args hl, intValue, if_neg hne, if_pos hp] at h1
  exact h2 (key n r₀ t h1)

/-! ### Instances -/

section
open Demo

private def two : Store := { Demo.s with frames := [[("a:", int 1)], [("a:", int 1)]] }

/-- `(x {a: 1} {a: 1})` calls `x` with two frames, in a state that has just these. -/
private theorem calls_two (x : String) {b : Bool} (h : Demo.s.localB 0 x = some ⟨.atom (.prim x), b⟩) (hx : isNaked (.sym x) = false)
    (hs : ∀ t, shortcuts (.cons (.sym x) t) = .cons (.sym x) t) :
    Calling Demo.C x [.atom (.frame 0), .atom (.frame 1)] (.cons (.sym x) (ofArray [code "{a: 1}", code "{a: 1}"])) 1 Demo.s two :=
  calling_sym (us := [.atom (.frame 0), .atom (.frame 1)]) Demo.wf (Demo.means x h) hx (hs _) (Lst.ofArray _)
    (.next (s₁ := { Demo.s with frames := [[("a:", int 1)]] }) ⟨20, by rfl, nofun⟩ (.next ⟨20, by rfl, nofun⟩ .done))
private theorem two_tame : TameFrames two.frames := by
  intro i
  rcases i with _ | _ | i
  · exact ⟨by intro p hp; simp [two, Frame.get?] at hp; subst hp; exact .atom _ nofun, by decide⟩
  · exact ⟨by intro p hp; simp [two, Frame.get?] at hp; subst hp; exact .atom _ nofun, by decide⟩
  · exact ⟨by intro p hp; simp [two, Frame.get?] at hp, by simp [two, Frame.get?]⟩
/-- The hypotheses of `C83_equal` hold for `(eq? {a: 1} {a: 1})`. -/
example : Calling Demo.C "eq?" [.atom (.frame 0), .atom (.frame 1)] (.cons (.sym "eq?") (ofArray [code "{a: 1}", code "{a: 1}"])) 1 Demo.s two ∧
    TameFrames two.frames ∧ Tame (.atom (.frame 0)) ∧ Full two.frames :=
  ⟨calls_two "eq?" (b := true) (by decide +kernel) (by decide) fun _ => rfl, two_tame, .atom _ nofun, by
    intro i k v hv hl
    have := alGet_some_mem hv
    rcases i with _ | _ | i
    · simp [two, Frame.get?] at this; obtain ⟨_, rfl⟩ := this; exact not_Lst_atom hl
    · simp [two, Frame.get?] at this; obtain ⟨_, rfl⟩ := this; exact not_Lst_atom hl
    · simp [two, Frame.get?] at this⟩
example : Grounded two.frames (.atom (.frame 0)) := .frame (by decide) (by intro p hp; simp [two, Frame.get?] at hp; subst hp; exact .atom nofun)
example : Alike two.frames (.atom (.frame 0)) (.atom (.frame 1)) := by
  refine .frame (.slots rfl fun k v hv => ?_)
  have := alGet_some_mem hv
  simp [two, Frame.get?] at this
  obtain ⟨rfl, rfl⟩ := this
  exact .atom (.refl _) nofun
/-- A frame that holds itself. -/
example : ¬ Grounded [[("me:", .atom (.frame 0))]] (.atom (.frame 0)) := by
  refine C83_cycle (k := "me:") ?_ (.atom _ nofun) .here rfl .here
  intro i
  rcases i with _ | i
  · exact ⟨by intro p hp; simp [Frame.get?] at hp; subst hp; exact .atom _ nofun, by decide⟩
  · exact ⟨by intro p hp; simp [Frame.get?] at hp, by simp [Frame.get?]⟩
example : Known two.frames (.atom (.frame 0)) := ⟨trivial, by simp [FramesIn, two]⟩
example : Ends "(eq? {a: 1 b: (list 1 2) c: {x: 1}} {c: {x: 1} b: (list 1 2) a: 1})" (.ok (.bool true)) := ends 20 (by decide +kernel) (by simp)
example : Ends "(eq? {a: {x: 1}} {a: {x: 2}})" (.ok (.bool false)) := ends 20 (by decide +kernel) (by simp)
example : Ends "(!= {a: 1} {a: 1 b: 2})" (.ok (.bool true)) := ends 20 (by decide +kernel) (by simp)
example : Ends "(length {a: 1 b: 2})" (.ok (int 2)) := ends 20 (by decide +kernel) (by simp)
example : Ends "(let ((f {a: {x: 1}})) (let ((g (copy f))) (set-slot! (get-slot g a:) x: 2) (list (eq? f g) (get-slot (get-slot f a:) x:))))"
    (.ok (ofArray [.bool false, int 1])) := ends 30 (by decide +kernel) (by simp)
example : Ends "(let ((f {a: {x: 1}})) (let ((g (clone f))) (set-slot! (get-slot g a:) x: 2) (list (eq? f g) (get-slot (get-slot f a:) x:))))"
    (.ok (ofArray [.bool true, int 2])) := ends 30 (by decide +kernel) (by simp)
example : Ends "(general-car-cdr '((1 2) 3) 6)" (.ok (int 3)) := ends 20 (by decide +kernel) (by simp)
example : encode ['d', 'a'] = 6 := by decide
example : Fails "(general-car-cdr 1 0)" "\nEvaling (general-car-cdr 1 0). general-car-cdr requires a non-zero path specifier" :=
  fails 20 (by decide +kernel)
end

end Golisp.Props
