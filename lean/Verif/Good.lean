import Lean.Elab.Tactic.ElabTerm
import Lean.Meta.Tactic.Assert
import Lean.Meta.Tactic.Clear
import Verif.Live
import Verif.Strict
/-
A logic for interpreter programs: what a program needs so that, started in a state all of whose references exist, it
reaches only such states and panics only for a reason named in advance.
-/
namespace Golisp.Ev
open Golisp Data Spec

variable {C : Conf} {s s' : Store}

/-! ### State actions -/

/-- What an action needs. -/
def OpOk (C : Conf) (s : Store) : Op → Prop
  | .newEnv p f _ => EnvOk s p ∧ OptOk s f
  | .bind _ _ v => Live C s v
  | .assign e x v => Live C s v ∧ (s.localB e x).isSome = true
  | .assignRaw e x v => Live C s v ∧ (s.localB e x).isSome = true
  | .flag f _ => FnOk s f
  | .newFn _ p b e => Live C s p ∧ Live C s b ∧ EnvOk s e
  | .newMac _ p b e => Live C s p ∧ Live C s b ∧ EnvOk s e
  | .newFrame m => LiveM C s m
  | .setSlot _ _ v => Live C s v
  | .restrict e => EnvOk s e
  | _ => True

/-- What the number returned by an action is good for. -/
def Made (s : Store) (n : Nat) : Op → Prop
  | .newEnv _ _ _ => EnvOk s n
  | .newFn _ _ _ _ => FnOk s n
  | .newMac _ _ _ _ => n < s.macs.length
  | .newFrame _ => FrameOk s n
  | .newWord _ => n < s.words.length
  | _ => True

/-- Soundness with values judged by another state. -/
private theorem sound_of {t : Store} (hx : Ext s t) (hs : Sound C s) (wf : WF t)
    (inFrame : ∀ r ∈ t.envs, r ∈ s.envs ∨ ∀ i, r.frame = some i → i < t.frames.length)
    (binds : ∀ r ∈ t.envs, r ∈ s.envs ∨ ∀ p ∈ r.binds, Live C t p.2.val)
    (fns : ∀ f ∈ t.fns, f ∈ s.fns ∨ (EnvOk t f.env ∧ Live C t f.params ∧ Live C t f.body))
    (macs : ∀ f ∈ t.macs, f ∈ s.macs ∨ (EnvOk t f.env ∧ Live C t f.params ∧ Live C t f.body))
    (slots : ∀ m ∈ t.frames, m ∈ s.frames ∨ LiveM C t m)
    (tops : ∀ p ∈ t.tops, p ∈ s.tops ∨ EnvOk t p.2) : Sound C t where
  root := hs.root.mono hx
  wf := wf
  inFrame r hr i hi := (inFrame r hr).elim (fun h => Nat.lt_of_lt_of_le (hs.inFrame r h i hi) hx.frames) fun h => h i hi
  binds r hr p hp := (binds r hr).elim (fun h => (hs.binds r h p hp).mono hx) fun h => h p hp
  fns f hf := (fns f hf).elim (fun h => ⟨(hs.fns f h).1.mono hx, (hs.fns f h).2.1.mono hx, (hs.fns f h).2.2.mono hx⟩) id
  macs f hf := (macs f hf).elim (fun h => ⟨(hs.macs f h).1.mono hx, (hs.macs f h).2.1.mono hx, (hs.macs f h).2.2.mono hx⟩) id
  slots m hm := (slots m hm).elim (fun h => ⟨fun p hp => ((hs.slots m h).1 p hp).mono hx, (hs.slots m h).2⟩) id
  tops p hp := (tops p hp).elim (fun h => (hs.tops p h).mono hx) id

theorem mem_alSet {α : Type} {l : List (String × α)} {k : String} {v : α} {p : String × α} (h : p ∈ alSet l k v) :
    p ∈ l ∨ p.2 = v := by
  induction l with
  | nil => simp only [alSet, List.mem_singleton] at h; exact Or.inr (by rw [h])
  | cons q l ih =>
    obtain ⟨a, b⟩ := q
    unfold alSet at h
    split at h
    · rcases List.mem_cons.mp h with rfl | h
      · exact Or.inr rfl
      · exact Or.inl (List.mem_cons_of_mem _ h)
    · rcases List.mem_cons.mp h with rfl | h
      · exact Or.inl List.mem_cons_self
      · exact (ih h).imp_left (List.mem_cons_of_mem _)

private theorem frame_live (hs : Sound C s) (i : Nat) : LiveM C s (Frame.get? s.frames i) := by
  unfold Frame.get?
  cases h : s.frames[i]? with
  | none => exact ⟨nofun, List.nodup_nil⟩
  | some m => exact hs.slots m (List.mem_of_getElem? h)

private theorem putVal_words {e : Nat} {x : String} {v : Data} : (s.putVal e x v).words = s.words := by
  simp only [Store.putVal]; split <;> rfl

theorem putVal_ext {e : Nat} {x : String} {v : Data} : Ext s (s.putVal e x v) := by
  obtain ⟨h1, h2, h3, _⟩ := putVal_rest s e x v
  exact ⟨Nat.le_of_eq (putVal_envs_len s e x v).symm, by rw [h1]; exact Nat.le_refl _, by rw [h2]; exact Nat.le_refl _, by rw [h3]; exact Nat.le_refl _, by rw [putVal_words]; exact Nat.le_refl _⟩

theorem putVal_sound {e : Nat} {x : String} {v : Data} (hs : Sound C s) (hv : Live C s v) (hw : WF (s.putVal e x v)) :
    Sound C (s.putVal e x v) := by
  obtain ⟨h1, h2, h3, _, h5, _⟩ := putVal_rest s e x v
  have hx : Ext s (s.putVal e x v) := putVal_ext
  have hmem : ∀ r ∈ (s.putVal e x v).envs, r ∈ s.envs ∨ ∃ r₀ ∈ s.envs, r = r₀.put x v := by
    intro r hr
    obtain ⟨i, hi⟩ := List.getElem?_of_mem hr
    rw [putVal_envs] at hi
    split at hi
    · cases h0 : s.envs[e]? with
      | none => rw [h0] at hi; cases hi
      | some r₀ => rw [h0] at hi; cases hi; exact Or.inr ⟨r₀, List.mem_of_getElem? h0, rfl⟩
    · exact Or.inl (List.mem_of_getElem? hi)
  refine sound_of hx hs hw (fun r hr => ?_) (fun r hr => ?_) ?_ ?_ ?_ ?_
  · rcases hmem r hr with h | ⟨r₀, h, rfl⟩
    · exact Or.inl h
    · exact Or.inr fun i hi => Nat.lt_of_lt_of_le (hs.inFrame r₀ h i hi) hx.frames
  · rcases hmem r hr with h | ⟨r₀, h, rfl⟩
    · exact Or.inl h
    · refine Or.inr fun p hp => ?_
      rcases mem_alSet hp with hp | hp
      · exact (hs.binds r₀ h p hp).mono hx
      · rw [hp]; exact hv.mono hx
  · rw [h1]; exact fun _ h => Or.inl h
  · rw [h2]; exact fun _ h => Or.inl h
  · rw [h3]; exact fun _ h => Or.inl h
  · rw [h5]; exact fun _ h => Or.inl h

theorem op_good {o : Op} (hs : Sound C s) (ho : OpOk C s o) :
    (o.run s).1 ≠ .panic ∧ Sound C (o.run s).2 ∧ Ext s (o.run s).2 ∧ ∀ n, (o.run s).1 = .ok n → Made (o.run s).2 n o := by
  have hw := op_WF o s hs.wf
  cases o with
  | newEnv p f name =>
    obtain ⟨hp, hf⟩ := ho
    simp only [Op.run] at hw ⊢
    cases hr : s.envs[p]? with
    | none => exact absurd (List.getElem?_eq_none_iff.mp hr) (Nat.not_le.mpr hp)
    | some r =>
      simp only [hr] at hw
      have hx : ∀ t : Store, t.envs.length = s.envs.length + 1 → t.fns = s.fns → t.macs = s.macs → t.frames = s.frames → t.words = s.words → Ext s t :=
        fun t h1 h2 h3 h4 h5 => ⟨by omega, by rw [h2]; exact Nat.le_refl _, by rw [h3]; exact Nat.le_refl _, by rw [h4]; exact Nat.le_refl _, by rw [h5]; exact Nat.le_refl _⟩
      refine ⟨nofun, ?_, hx _ (by simp) rfl rfl rfl rfl, fun n hn => ?_⟩
      · refine sound_of (hx _ (by simp) rfl rfl rfl rfl) hs hw (fun q hq => ?_) (fun q hq => ?_) (fun _ h => Or.inl h) (fun _ h => Or.inl h)
          (fun _ h => Or.inl h) (fun q hq => ?_)
        · rcases List.mem_append.mp hq with hq | hq
          · exact Or.inl hq
          · rw [List.mem_singleton.mp hq]
            refine Or.inr fun i hi => ?_
            cases f with
            | none => exact hs.inFrame r (List.mem_of_getElem? hr) i hi
            | some j => exact hf i hi
        · rcases List.mem_append.mp hq with hq | hq
          · exact Or.inl hq
          · rw [List.mem_singleton.mp hq]
            exact Or.inr nofun
        · dsimp only at hq
          split at hq
          · rcases mem_alSet hq with hq | hq
            · exact Or.inl hq
            · refine Or.inr ?_
              rw [hq]
              simp [EnvOk]
          · exact Or.inl hq
      · cases hn
        simp [Made, EnvOk]
  | bind e x v =>
    simp only [Op.run] at hw ⊢
    repeat' split
    · exact ⟨nofun, hs, .refl s, fun _ _ => trivial⟩
    · rename_i h1 h2
      simp only [h1, h2] at hw
      exact ⟨nofun, putVal_sound hs ho hw, putVal_ext, fun _ _ => trivial⟩
    · rename_i h1
      simp only [h1] at hw
      exact ⟨nofun, putVal_sound hs ho hw, putVal_ext, fun _ _ => trivial⟩
  | assign e x v =>
    simp only [Op.run] at hw ⊢
    repeat' split
    · exact ⟨nofun, hs, .refl s, fun _ _ => trivial⟩
    · rename_i h1 h2
      simp only [h1, h2] at hw
      exact ⟨nofun, putVal_sound hs ho.1 hw, putVal_ext, fun _ _ => trivial⟩
    · rename_i h
      have := ho.2
      rw [h] at this
      cases this
  | assignRaw e x v =>
    simp only [Op.run] at hw ⊢
    repeat' split
    · rename_i h1
      simp only [h1] at hw
      have h := putVal_sound hs ho.1 (e := e) (x := x) hw
      have hx : Ext s (s.putVal e x v) := putVal_ext
      have hx' : Ext (s.putVal e x v) { s.putVal e x v with raw := s.raw ++ [(e, x)] } := ⟨Nat.le_refl _, Nat.le_refl _, Nat.le_refl _, Nat.le_refl _, Nat.le_refl _⟩
      exact ⟨nofun, sound_of hx' h hw (fun _ h => Or.inl h) (fun _ h => Or.inl h) (fun _ h => Or.inl h) (fun _ h => Or.inl h)
        (fun _ h => Or.inl h) (fun _ h => Or.inl h), hx.trans hx', fun _ _ => trivial⟩
    · rename_i h
      have := ho.2
      rw [h] at this
      cases this
  | flag f b =>
    simp only [Op.run] at hw ⊢
    cases hr : s.fns[f]? with
    | none => exact absurd (List.getElem?_eq_none_iff.mp hr) (Nat.not_le.mpr ho)
    | some r =>
      simp only [hr] at hw
      have hx : Ext s { s with fns := s.fns.set f { r with slot := b } } := ⟨Nat.le_refl _, by simp, Nat.le_refl _, Nat.le_refl _, Nat.le_refl _⟩
      refine ⟨nofun, ?_, hx, fun _ _ => trivial⟩
      refine sound_of hx hs hw (fun _ h => Or.inl h) (fun _ h => Or.inl h) (fun q hq => ?_) (fun _ h => Or.inl h) (fun _ h => Or.inl h) (fun _ h => Or.inl h)
      rcases List.mem_or_eq_of_mem_set hq with hq | rfl
      · exact Or.inl hq
      · have h := hs.fns r (List.mem_of_getElem? hr)
        exact Or.inr ⟨h.1.mono hx, h.2.1.mono hx, h.2.2.mono hx⟩
  | newFn name p b e =>
    have hx : Ext s (Op.run (.newFn name p b e) s).2 := ⟨Nat.le_refl _, by simp [Op.run], Nat.le_refl _, Nat.le_refl _, Nat.le_refl _⟩
    refine ⟨nofun, ?_, hx, fun n hn => ?_⟩
    · refine sound_of hx hs hw (fun _ h => Or.inl h) (fun _ h => Or.inl h) (fun q hq => ?_) (fun _ h => Or.inl h) (fun _ h => Or.inl h) (fun _ h => Or.inl h)
      rcases List.mem_append.mp hq with hq | hq
      · exact Or.inl hq
      · rw [List.mem_singleton.mp hq]
        exact Or.inr ⟨ho.2.2.mono hx, ho.1.mono hx, ho.2.1.mono hx⟩
    · cases hn; simp [Made, FnOk, Op.run]
  | newMac name p b e =>
    have hx : Ext s (Op.run (.newMac name p b e) s).2 := ⟨Nat.le_refl _, Nat.le_refl _, by simp [Op.run], Nat.le_refl _, Nat.le_refl _⟩
    refine ⟨nofun, ?_, hx, fun n hn => ?_⟩
    · refine sound_of hx hs hw (fun _ h => Or.inl h) (fun _ h => Or.inl h) (fun _ h => Or.inl h) (fun q hq => ?_) (fun _ h => Or.inl h) (fun _ h => Or.inl h)
      rcases List.mem_append.mp hq with hq | hq
      · exact Or.inl hq
      · rw [List.mem_singleton.mp hq]
        exact Or.inr ⟨ho.2.2.mono hx, ho.1.mono hx, ho.2.1.mono hx⟩
    · cases hn; simp [Made, Op.run]
  | newFrame m =>
    have hx : Ext s (Op.run (.newFrame m) s).2 := ⟨Nat.le_refl _, Nat.le_refl _, Nat.le_refl _, by simp [Op.run], Nat.le_refl _⟩
    refine ⟨nofun, ?_, hx, fun n hn => ?_⟩
    · refine sound_of hx hs hw (fun _ h => Or.inl h) (fun _ h => Or.inl h) (fun _ h => Or.inl h) (fun _ h => Or.inl h) (fun q hq => ?_) (fun _ h => Or.inl h)
      rcases List.mem_append.mp hq with hq | hq
      · exact Or.inl hq
      · rw [List.mem_singleton.mp hq]
        exact Or.inr ⟨fun p hp => (ho.1 p hp).mono hx, ho.2⟩
    · cases hn; simp [Made, FrameOk, Op.run]
  | setSlot i k v =>
    have hx : Ext s (Op.run (.setSlot i k v) s).2 := ⟨Nat.le_refl _, Nat.le_refl _, Nat.le_refl _, by simp [Op.run, Frame.set], Nat.le_refl _⟩
    refine ⟨nofun, ?_, hx, fun n hn => trivial⟩
    refine sound_of hx hs hw (fun _ h => Or.inl h) (fun _ h => Or.inl h) (fun _ h => Or.inl h) (fun _ h => Or.inl h) (fun q hq => ?_) (fun _ h => Or.inl h)
    rcases List.mem_or_eq_of_mem_set hq with hq | rfl
    · exact Or.inl hq
    · have h0 := frame_live hs i
      refine Or.inr ⟨fun p hp => ?_, alSet_nodup h0.2 _ _⟩
      rcases mem_alSet hp with hp | hp
      · exact (h0.1 p hp).mono hx
      · rw [hp]; exact Live.mono hx ho
  | remSlot i k =>
    have hx : Ext s (Op.run (.remSlot i k) s).2 := ⟨Nat.le_refl _, Nat.le_refl _, Nat.le_refl _, by
      simp only [Op.run, Frame.remove]; split <;> simp, Nat.le_refl _⟩
    refine ⟨nofun, ?_, hx, fun n hn => trivial⟩
    refine sound_of hx hs hw (fun _ h => Or.inl h) (fun _ h => Or.inl h) (fun _ h => Or.inl h) (fun _ h => Or.inl h) (fun q hq => ?_) (fun _ h => Or.inl h)
    simp only [Op.run, Frame.remove] at hq
    split at hq
    · rcases List.mem_or_eq_of_mem_set hq with hq | rfl
      · exact Or.inl hq
      · have h0 := frame_live hs i
        exact Or.inr ⟨fun p hp => (h0.1 p (List.mem_filter.mp hp).1).mono hx, h0.2.sublist (List.filter_sublist.map _)⟩
    · exact Or.inl hq
  | gensym p =>
    have hx : Ext s (Op.run (.gensym p) s).2 := ⟨Nat.le_refl _, Nat.le_refl _, Nat.le_refl _, Nat.le_refl _, Nat.le_refl _⟩
    exact ⟨nofun, sound_of hx hs hw (fun _ h => Or.inl h) (fun _ h => Or.inl h) (fun _ h => Or.inl h) (fun _ h => Or.inl h)
      (fun _ h => Or.inl h) (fun _ h => Or.inl h), hx, fun _ _ => trivial⟩
  | emit t =>
    have hx : Ext s (Op.run (.emit t) s).2 := ⟨Nat.le_refl _, Nat.le_refl _, Nat.le_refl _, Nat.le_refl _, Nat.le_refl _⟩
    exact ⟨nofun, sound_of hx hs hw (fun _ h => Or.inl h) (fun _ h => Or.inl h) (fun _ h => Or.inl h) (fun _ h => Or.inl h)
      (fun _ h => Or.inl h) (fun _ h => Or.inl h), hx, fun _ _ => trivial⟩
  | print t =>
    have hx : Ext s (Op.run (.print t) s).2 := ⟨Nat.le_refl _, Nat.le_refl _, Nat.le_refl _, Nat.le_refl _, Nat.le_refl _⟩
    exact ⟨nofun, sound_of hx hs hw (fun _ h => Or.inl h) (fun _ h => Or.inl h) (fun _ h => Or.inl h) (fun _ h => Or.inl h)
      (fun _ h => Or.inl h) (fun _ h => Or.inl h), hx, fun _ _ => trivial⟩
  | newWord v =>
    have hx : Ext s (Op.run (.newWord v) s).2 := ⟨Nat.le_refl _, Nat.le_refl _, Nat.le_refl _, Nat.le_refl _, by simp [Op.run]⟩
    exact ⟨nofun, sound_of hx hs hw (fun _ h => Or.inl h) (fun _ h => Or.inl h) (fun _ h => Or.inl h) (fun _ h => Or.inl h)
      (fun _ h => Or.inl h) (fun _ h => Or.inl h), hx, fun n hn => by cases hn; show s.words.length < (s.words ++ [v]).length; simp⟩
  | rmw a f =>
    have hx : Ext s (Op.run (.rmw a f) s).2 := ⟨Nat.le_refl _, Nat.le_refl _, Nat.le_refl _, Nat.le_refl _, by simp [Op.run]⟩
    exact ⟨nofun, sound_of hx hs hw (fun _ h => Or.inl h) (fun _ h => Or.inl h) (fun _ h => Or.inl h) (fun _ h => Or.inl h)
      (fun _ h => Or.inl h) (fun _ h => Or.inl h), hx, fun _ _ => trivial⟩
  | restrict e =>
    simp only [Op.run] at hw ⊢
    cases hr : s.envs[e]? with
    | none => exact absurd (List.getElem?_eq_none_iff.mp hr) (Nat.not_le.mpr ho)
    | some r =>
      simp only [hr] at hw
      have hx : Ext s { s with envs := s.envs.set e { r with restricted := true } } := ⟨by simp, Nat.le_refl _, Nat.le_refl _, Nat.le_refl _, Nat.le_refl _⟩
      refine ⟨nofun, ?_, hx, fun _ _ => trivial⟩
      refine sound_of hx hs hw (fun q hq => ?_) (fun q hq => ?_) (fun _ h => Or.inl h) (fun _ h => Or.inl h) (fun _ h => Or.inl h) (fun _ h => Or.inl h)
      · rcases List.mem_or_eq_of_mem_set hq with hq | rfl
        · exact Or.inl hq
        · exact Or.inr fun i hi => hs.inFrame r (List.mem_of_getElem? hr) i hi
      · rcases List.mem_or_eq_of_mem_set hq with hq | rfl
        · exact Or.inl hq
        · exact Or.inr fun p hp => (hs.binds r (List.mem_of_getElem? hr) p hp).mono hx

/-! ### Programs -/

variable {α β : Type}

/-- Every reference the program makes use of exists, in every state it can be in, given that of the values the calls
return; the values it returns satisfy `Q`; it panics only if `Z`, or when a parent slot holds something else than a
frame. -/
inductive Good (C : Conf) (Z : Prop) (Q : Store → α → Prop) : Store → Prog α → Prop where
  | ret {t a} : Q t a → Good C Z Q t (.ret a)
  | err {t e} : Good C Z Q t (.err e)
  | panic {t} : Z ∨ ¬ ParentsOk t.frames → Good C Z Q t .panic
  | get {t k} : Good C Z Q t (k t) → Good C Z Q t (.get k)
  | act {t o k} : OpOk C t o →
      (∀ n t', o.run t = (.ok n, t') → Sound C t' → Ext t t' → Made t' n o → Good C Z Q t' (k (.ok n))) →
      (∀ e t', o.run t = (.err e, t') → Sound C t' → Ext t t' → Good C Z Q t' (k (.error e))) → Good C Z Q t (.act o k)
  | call {t c k} : LiveCall C t c →
      (∀ v t', Runs (body C) c t (.ok v) t' → Sound C t' → Ext t t' → Live C t' v → Good C Z Q t' (k (.ok v))) →
      (∀ e t', Runs (body C) c t (.err e) t' → Sound C t' → Ext t t' → Good C Z Q t' (k (.error e))) → Good C Z Q t (.call c k)

/-- Why a panic happened. -/
def Blame (C : Conf) (K : Call → Store → Prop) (c : Call) (s s' : Store) : Prop :=
  ¬ ParentsOk s'.frames ∨ ∃ c₁ s₁, Within (body C) (fun _ _ _ => False) c s c₁ s₁ ∧ K c₁ s₁

/-- How a run of a program that is `Good` can end. -/
theorem good_interp {K : Call → Store → Prop} {Z : Prop} {Q : Store → α → Prop} {n : Nat}
    (ih : ∀ c s, Sound C s → LiveCall C s c → ∀ r s', recN (body C) n c s = (r, s') →
      (∀ v, r = .ok v → Sound C s' ∧ Ext s s' ∧ Live C s' v) ∧ (∀ e, r = .err e → Sound C s' ∧ Ext s s') ∧
      (r = .panic → Blame C K c s s'))
    {p : Prog α} (hp : Good C Z Q s p) (hs : Sound C s) : ∀ r s', interp (recN (body C) n) p s = (r, s') →
      (∀ a, r = .ok a → Sound C s' ∧ Ext s s' ∧ Q s' a) ∧ (∀ e, r = .err e → Sound C s' ∧ Ext s s') ∧
      (r = .panic → Z ∨ ¬ ParentsOk s'.frames ∨ ∃ c₁ s₁, Starts (body C) p s c₁ s₁ ∧ Blame C K c₁ s₁ s') := by
  induction hp with
  | ret hq =>
    intro r s' h
    cases h
    exact ⟨fun a h => by cases h; exact ⟨hs, .refl _, hq⟩, nofun, nofun⟩
  | err =>
    intro r s' h
    cases h
    exact ⟨nofun, fun e h => ⟨hs, .refl _⟩, nofun⟩
  | panic hz =>
    intro r s' h
    cases h
    exact ⟨nofun, nofun, fun _ => hz.imp_right Or.inl⟩
  | get _ ihk =>
    intro r s' h
    obtain ⟨h1, h2, h3⟩ := ihk hs r s' h
    exact ⟨h1, h2, fun h => (h3 h).imp_right fun h => h.imp_right fun ⟨c, t, h, h'⟩ => ⟨c, t, .get h, h'⟩⟩
  | @act s o k ho _ _ ih1 ih2 =>
    intro r s' h
    rw [interp_act] at h
    obtain ⟨g1, g2, g3, g4⟩ := op_good hs ho
    have g5 := op_no_timeout o s
    rcases hr : o.run s with ⟨x, t⟩
    rw [hr] at h g1 g2 g3 g4 g5
    cases x with
    | ok m =>
      obtain ⟨h1, h2, h3⟩ := ih1 m t hr g2 g3 (g4 m rfl) g2 r s' h
      refine ⟨fun a ha => ?_, fun e he => ?_, fun h => (h3 h).imp_right fun h => h.imp_right fun ⟨c, t', h, h'⟩ => ⟨c, t', .done hr h, h'⟩⟩
      · obtain ⟨a1, a2, a3⟩ := h1 a ha; exact ⟨a1, g3.trans a2, a3⟩
      · obtain ⟨a1, a2⟩ := h2 e he; exact ⟨a1, g3.trans a2⟩
    | err m =>
      obtain ⟨h1, h2, h3⟩ := ih2 m t hr g2 g3 g2 r s' h
      refine ⟨fun a ha => ?_, fun e he => ?_, fun h => (h3 h).imp_right fun h => h.imp_right fun ⟨c, t', h, h'⟩ => ⟨c, t', .refused hr h, h'⟩⟩
      · obtain ⟨a1, a2, a3⟩ := h1 a ha; exact ⟨a1, g3.trans a2, a3⟩
      · obtain ⟨a1, a2⟩ := h2 e he; exact ⟨a1, g3.trans a2⟩
    | panic => exact absurd rfl g1
    | timeout => exact absurd rfl g5
  | @call s c k hc _ _ ih1 ih2 =>
    intro r s' h
    rw [interp_call] at h
    rcases hr : recN (body C) n c s with ⟨x, t⟩
    obtain ⟨g1, g2, g3⟩ := ih c s hs hc x t hr
    rw [hr] at h
    cases x with
    | ok v =>
      obtain ⟨b1, b2, b3⟩ := g1 v rfl
      have hrun : Runs (body C) c s (.ok v) t := ⟨n, hr, nofun⟩
      obtain ⟨h1, h2, h3⟩ := ih1 v t hrun b1 b2 b3 b1 r s' h
      refine ⟨fun a ha => ?_, fun e he => ?_, fun h => (h3 h).imp_right fun h => h.imp_right fun ⟨c, t', h, h'⟩ => ⟨c, t', .returned hrun h, h'⟩⟩
      · obtain ⟨a1, a2, a3⟩ := h1 a ha; exact ⟨a1, b2.trans a2, a3⟩
      · obtain ⟨a1, a2⟩ := h2 e he; exact ⟨a1, b2.trans a2⟩
    | err v =>
      obtain ⟨b1, b2⟩ := g2 v rfl
      have hrun : Runs (body C) c s (.err v) t := ⟨n, hr, nofun⟩
      obtain ⟨h1, h2, h3⟩ := ih2 v t hrun b1 b2 b1 r s' h
      refine ⟨fun a ha => ?_, fun e he => ?_, fun h => (h3 h).imp_right fun h => h.imp_right fun ⟨c, t', h, h'⟩ => ⟨c, t', .failed hrun h, h'⟩⟩
      · obtain ⟨a1, a2, a3⟩ := h1 a ha; exact ⟨a1, b2.trans a2, a3⟩
      · obtain ⟨a1, a2⟩ := h2 e he; exact ⟨a1, b2.trans a2⟩
    | panic => cases h; exact ⟨nofun, nofun, fun _ => Or.inr (Or.inr ⟨c, s, .here, g3 rfl⟩)⟩
    | timeout => cases h; exact ⟨nofun, nofun, nofun⟩

/-- The whole interpreter, given that every call's program is `Good`. -/
theorem good_runs {K : Call → Store → Prop}
    (hb : ∀ c s, Sound C s → LiveCall C s c → Good C (K c s) (fun s v => Live C s v) s (body C c)) (n : Nat) :
    ∀ c s, Sound C s → LiveCall C s c → ∀ r s', recN (body C) n c s = (r, s') →
      (∀ v, r = .ok v → Sound C s' ∧ Ext s s' ∧ Live C s' v) ∧ (∀ e, r = .err e → Sound C s' ∧ Ext s s') ∧
      (r = .panic → Blame C K c s s') := by
  induction n with
  | zero => intro c s _ _ r s' h; cases h; exact ⟨nofun, nofun, nofun⟩
  | succ n ih =>
    intro c s hs hc r s' h
    rw [recN_succ] at h
    obtain ⟨h1, h2, h3⟩ := good_interp ih (hb c s hs hc) hs r s' h
    refine ⟨h1, h2, fun h => ?_⟩
    rcases h3 h with h | h | ⟨c₁, s₁, hst, h | ⟨c₂, s₂, hw, hk⟩⟩
    · exact Or.inr ⟨c, s, .self, h⟩
    · exact Or.inl h
    · exact Or.inl h
    · exact Or.inr ⟨c₂, s₂, .down hst id hw, hk⟩

/-! ### The combinators -/

variable {Z : Prop} {Q : Store → α → Prop}

theorem Good.mono {Z' : Prop} {Q' : Store → α → Prop} {p : Prog α} (h : Good C Z Q s p) (hz : Z → Z')
    (hq : ∀ s a, Q s a → Q' s a) : Good C Z' Q' s p := by
  induction h with
  | ret h => exact .ret (hq _ _ h)
  | err => exact .err
  | panic h => exact .panic (h.imp_left hz)
  | get _ ih => exact .get ih
  | act ho _ _ ih1 ih2 => exact .act ho ih1 ih2
  | call ho _ _ ih1 ih2 => exact .call ho ih1 ih2

theorem good_pure {a : α} (h : Q s a) : Good C Z Q s (pure a : Prog α) := .ret h
theorem good_fail {m : String} : Good C Z Q s (.fail m : Prog α) := .err
theorem good_failShow {H : Host} {a b : String} {d : Data} : Good C Z Q s (failShow H a d b : Prog α) := .get .err

theorem good_attempt {Q' : Store → β → Prop} {p : Prog α} {f : Except Err α → Prog β} (hp : Good C Z Q s p) (hs : Sound C s)
    (hok : ∀ a s', RunsP (body C) p s (.ok a) s' → Sound C s' → Ext s s' → Q s' a → Good C Z Q' s' (f (.ok a)))
    (herr : ∀ e s', RunsP (body C) p s (.err e) s' → Sound C s' → Ext s s' → Good C Z Q' s' (f (.error e))) : Good C Z Q' s (p.attempt f) := by
  induction hp with
  | ret h => exact hok _ _ (runsP_ret.mpr ⟨rfl, rfl⟩) hs (.refl _) h
  | err => exact herr _ _ (runsP_err.mpr ⟨rfl, rfl⟩) hs (.refl _)
  | panic h => exact .panic h
  | get _ ih => exact .get (ih hs (fun a s' h => hok a s' (runsP_get.mpr h)) (fun a s' h => herr a s' (runsP_get.mpr h)))
  | act ho _ _ ih1 ih2 =>
    refine .act ho (fun n t hr hs' hx hm => ih1 n t hr hs' hx hm hs' (fun a s' h h1 h2 => hok a s' ?_ h1 (hx.trans h2))
      (fun e s' h h1 h2 => herr e s' ?_ h1 (hx.trans h2))) (fun e t hr hs' hx => ih2 e t hr hs' hx hs'
      (fun a s' h h1 h2 => hok a s' ?_ h1 (hx.trans h2)) (fun e s' h h1 h2 => herr e s' ?_ h1 (hx.trans h2)))
    · exact runsP_act.mpr (Or.inl ⟨_, _, hr, h⟩)
    · exact runsP_act.mpr (Or.inl ⟨_, _, hr, h⟩)
    · exact runsP_act.mpr (Or.inr (Or.inl ⟨_, _, hr, h⟩))
    · exact runsP_act.mpr (Or.inr (Or.inl ⟨_, _, hr, h⟩))
  | call ho _ _ ih1 ih2 =>
    refine .call ho (fun n t hr hs' hx hm => ih1 n t hr hs' hx hm hs' (fun a s' h h1 h2 => hok a s' ?_ h1 (hx.trans h2))
      (fun e s' h h1 h2 => herr e s' ?_ h1 (hx.trans h2))) (fun e t hr hs' hx => ih2 e t hr hs' hx hs'
      (fun a s' h h1 h2 => hok a s' ?_ h1 (hx.trans h2)) (fun e s' h h1 h2 => herr e s' ?_ h1 (hx.trans h2)))
    · exact runsP_call.mpr (Or.inl ⟨_, _, hr, h⟩)
    · exact runsP_call.mpr (Or.inl ⟨_, _, hr, h⟩)
    · exact runsP_call.mpr (Or.inr (Or.inl ⟨_, _, hr, h⟩))
    · exact runsP_call.mpr (Or.inr (Or.inl ⟨_, _, hr, h⟩))

/-- Sequencing, with the run of the first part remembered. -/
theorem good_bind' {Q' : Store → β → Prop} {p : Prog α} {f : α → Prog β} (hp : Good C Z Q s p) (hs : Sound C s)
    (hok : ∀ a s', RunsP (body C) p s (.ok a) s' → Sound C s' → Ext s s' → Q s' a → Good C Z Q' s' (f a)) :
    Good C Z Q' s (p >>= f) := by
  rw [bind_eq_attempt]
  exact good_attempt hp hs hok fun _ _ _ _ _ => .err

theorem good_bind {Q' : Store → β → Prop} {p : Prog α} {f : α → Prog β} (hp : Good C Z Q s p) (hs : Sound C s)
    (hok : ∀ a s', Sound C s' → Ext s s' → Q s' a → Good C Z Q' s' (f a)) : Good C Z Q' s (p >>= f) :=
  good_bind' hp hs fun a s' _ => hok a s'

/-- The outcome of all the programs of the interpreter. -/
abbrev LiveQ (C : Conf) : Store → Data → Prop := fun s v => Live C s v

theorem good_call {c : Call} (h : LiveCall C s c) : Good C Z (LiveQ C) s (.call c Prog.ofExcept) :=
  .call h (fun _ _ _ _ _ hv => .ret hv) fun _ _ _ _ _ => .err
theorem good_eval {d : Data} {e : Nat} (hd : Live C s d) (he : EnvOk s e) : Good C Z (LiveQ C) s (.eval d e) := good_call ⟨hd, he⟩
theorem good_evalNeed {b : Bool} {d : Data} {e : Nat} (hd : Live C s d) (he : EnvOk s e) : Good C Z (LiveQ C) s (.evalNeed b d e) :=
  good_call ⟨hd, he⟩
theorem good_app {f l : Data} {e : Nat} (hf : Live C s f) (hl : Live C s l) (he : EnvOk s e) : Good C Z (LiveQ C) s (.app f l e) :=
  good_call ⟨hf, hl, he⟩
theorem good_doLoop {b t y r : Data} {e : Nat} (h : Live C s b) (h1 : Live C s t) (h2 : Live C s y) (h3 : Live C s r) (he : EnvOk s e) :
    Good C Z (LiveQ C) s (.doLoop b t y r e) := good_call ⟨h, h1, h2, h3, he⟩
theorem good_op {o : Op} (ho : OpOk C s o) : Good C Z (fun s n => Made s n o) s (.op o) :=
  .act ho (fun _ _ _ _ _ h => .ret h) fun _ _ _ _ _ => .err
theorem good_ofOut {o : Out Data} (h : OutOk C s Z o) : Good C Z (LiveQ C) s (.ofOut o) := by
  cases o with
  | ok v => exact .ret (h.ok v rfl)
  | err e => exact .err
  | panic => exact .panic (Or.inl (h.panic rfl))
  | timeout => exact absurd rfl h.timeout

open Lean Meta Elab Tactic in
/-- Facts about the state on the left of the given `Ext` become facts about the one on its right. -/
elab "lift" h:term : tactic => withMainContext do
  let hx ← elabTerm h none
  let mut goal ← getMainGoal
  let table := [(``Live, ``Live.mono), (``LiveL, ``LiveL.mono), (``LiveM, ``LiveM.mono), (``EnvOk, ``EnvOk.mono),
    (``FrameOk, ``FrameOk.mono), (``FnOk, ``FnOk.mono), (``OptOk, ``OptOk.mono)]
  for d in (← getLCtx) do
    if d.isImplementationDetail then continue
    let ty ← whnfR (← instantiateMVars d.type)
    if let some c := ty.getAppFn.constName? then
      if let some m := table.lookup c then
        let r ← goal.withContext do
          try
            let pf ← mkAppM m #[hx, d.toExpr]
            let ty' ← inferType pf
            let g ← goal.assert d.userName ty' pf
            let (_, g) ← g.intro1P
            let g ← g.tryClear d.fvarId
            pure (some g)
          catch _ => pure none
        if let some g := r then goal := g
  replaceMainGoal [goal]

theorem live_cons {a d : Data} (ha : Live C s a) (hd : Live C s d) : Live C s (cons a d) := ⟨ha, hd⟩

/-- References of values made from values. -/
macro "live" : tactic => `(tactic| repeat' first
  | with_reducible assumption
  | with_reducible exact live_null | with_reducible exact live_empty | with_reducible exact live_int | with_reducible exact live_bool
  | with_reducible exact live_str | with_reducible exact live_sym | with_reducible exact liveL_nil
  | with_reducible apply live_car | with_reducible apply live_cdr | with_reducible apply live_nth | with_reducible apply live_toArray
  | with_reducible apply live_ofArray | with_reducible apply liveL_cons | with_reducible apply live_cons | with_reducible apply live_cell
  | with_reducible apply live_listWithTail | assumption | trivial)

end Golisp.Ev
