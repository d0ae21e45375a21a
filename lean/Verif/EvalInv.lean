import Verif.EvalLemmas
import Verif.FrameLemmas
/- What every run of the interpreter preserves. -/
namespace Golisp.Ev
open Golisp Data Spec

/-! ### The effect of storing a value -/

theorem getElem?_set' {α : Type} (l : List α) (i j : Nat) (a : α) :
    (l.set i a)[j]? = if j = i then (l[i]?).map fun _ => a else l[j]? := by
  rw [List.getElem?_set]
  by_cases h : i = j
  · subst h
    by_cases hl : i < l.length
    · simp [hl]
    · simp [hl]
  · have h' : ¬ j = i := fun hh => h hh.symm
    simp [h, h']

/-- The record of an environment after a store into it. -/
def EnvRec.put (r : EnvRec) (x : String) (v : Data) : EnvRec :=
  { r with binds := alSet r.binds x ⟨v, match alGet r.binds x with | some b => b.prot | none => false⟩ }

theorem putVal_envs (s : Store) (e : Nat) (x : String) (v : Data) (e' : Nat) :
    (s.putVal e x v).envs[e']? = if e' = e then (s.envs[e]?).map (·.put x v) else s.envs[e']? := by
  simp only [Store.putVal]
  cases h : s.envs[e]? with
  | none =>
    by_cases hh : e' = e
    · rw [if_pos hh, hh]; exact h
    · rw [if_neg hh]
  | some r =>
    simp only [getElem?_set', h]
    rfl

theorem putVal_envs_len (s : Store) (e : Nat) (x : String) (v : Data) : (s.putVal e x v).envs.length = s.envs.length := by
  simp only [Store.putVal]; split <;> simp

theorem putVal_rest (s : Store) (e : Nat) (x : String) (v : Data) :
    (s.putVal e x v).fns = s.fns ∧ (s.putVal e x v).macs = s.macs ∧ (s.putVal e x v).frames = s.frames ∧
    (s.putVal e x v).gens = s.gens ∧ (s.putVal e x v).tops = s.tops ∧ (s.putVal e x v).out = s.out ∧
    (s.putVal e x v).raw = s.raw := by
  simp only [Store.putVal]; split <;> simp

theorem putVal_rest' (s : Store) (e : Nat) (x : String) (v : Data) :
    (s.putVal e x v).stdout = s.stdout ∧ (s.putVal e x v).words = s.words := by
  simp only [Store.putVal]; split <;> simp

theorem putVal_localB (s : Store) (e : Nat) (x : String) (v : Data) (e' : Nat) (y : String) :
    (s.putVal e x v).localB e' y =
      if e' = e ∧ y = x then
        (s.envs[e]?).map fun r => ⟨v, match alGet r.binds x with | some b => b.prot | none => false⟩
      else s.localB e' y := by
  simp only [Store.localB, putVal_envs]
  by_cases he : e' = e
  · subst he
    cases h : s.envs[e']? with
    | none => simp
    | some r =>
      simp only [if_pos, Option.map, EnvRec.put, alGet_set, true_and]
  · simp [he]

/-- A relation between an environment's record before and after. -/
structure EnvRec.Le (r r' : EnvRec) : Prop where
  parent : r'.parent = r.parent
  name : r'.name = r.name
  frame : r'.frame = r.frame
  restricted : r.restricted = true → r'.restricted = true
  binds : ∀ x b, alGet r.binds x = some b → ∃ b', alGet r'.binds x = some b' ∧ b'.prot = b.prot

/-- How a state may differ from an earlier one. -/
structure Grows (s s' : Store) : Prop where
  envs : ∀ (e : Nat) (r : EnvRec), s.envs[e]? = some r → ∃ r', s'.envs[e]? = some r' ∧ EnvRec.Le r r'
  fns : ∀ (f : Nat) (r : FnRec), s.fns[f]? = some r → ∃ b, s'.fns[f]? = some { r with slot := b }
  macs : ∀ (m : Nat) (r : MacRec), s.macs[m]? = some r → s'.macs[m]? = some r
  frames : s.frames.length ≤ s'.frames.length
  gens : ∀ p, (alGet s.gens p).getD 0 ≤ (alGet s'.gens p).getD 0
  out : s.out <+: s'.out
  raw : ∀ p ∈ s.raw, p ∈ s'.raw
  prot : ∀ (e : Nat) (x : String) (b : Binding), s.localB e x = some b → b.prot = true →
    (e, x) ∈ s'.raw ∨ s'.localB e x = some b

theorem EnvRec.Le.refl (r : EnvRec) : EnvRec.Le r r := ⟨rfl, rfl, rfl, id, fun _ b h => ⟨b, h, rfl⟩⟩
theorem EnvRec.Le.trans {a b c : EnvRec} (h : EnvRec.Le a b) (h' : EnvRec.Le b c) : EnvRec.Le a c :=
  ⟨h'.parent.trans h.parent, h'.name.trans h.name, h'.frame.trans h.frame, h'.restricted ∘ h.restricted,
   fun x bd hb => by
    obtain ⟨b1, h1, h2⟩ := h.binds x bd hb
    obtain ⟨b2, h3, h4⟩ := h'.binds x b1 h1
    exact ⟨b2, h3, h4.trans h2⟩⟩

theorem EnvRec.Le.put (r : EnvRec) (x : String) (v : Data) : EnvRec.Le r (r.put x v) := by
  refine ⟨rfl, rfl, rfl, id, fun y b hb => ?_⟩
  simp only [EnvRec.put, alGet_set]
  by_cases hy : y = x
  · subst hy; simp [hb]
  · simp [hy, hb]

theorem Grows.refl (s : Store) : Grows s s :=
  ⟨fun _ r h => ⟨r, h, .refl r⟩, fun _ r h => ⟨r.slot, h⟩, fun _ _ h => h, Nat.le_refl _, fun _ => Nat.le_refl _,
   List.prefix_refl _, fun _ h => h, fun _ _ _ h _ => Or.inr h⟩

theorem Grows.trans {a b c : Store} (h : Grows a b) (h' : Grows b c) : Grows a c where
  envs e r hr := by
    obtain ⟨r1, h1, l1⟩ := h.envs e r hr
    obtain ⟨r2, h2, l2⟩ := h'.envs e r1 h1
    exact ⟨r2, h2, l1.trans l2⟩
  fns f r hr := by
    obtain ⟨b1, h1⟩ := h.fns f r hr
    obtain ⟨b2, h2⟩ := h'.fns f _ h1
    exact ⟨b2, h2⟩
  macs m r hr := h'.macs m r (h.macs m r hr)
  frames := Nat.le_trans h.frames h'.frames
  gens p := Nat.le_trans (h.gens p) (h'.gens p)
  out := h.out.trans h'.out
  raw p hp := h'.raw p (h.raw p hp)
  prot e x bd hb hp := by
    rcases h.prot e x bd hb hp with h1 | h1
    · exact Or.inl (h'.raw _ h1)
    · exact h'.prot e x bd h1 hp

theorem getElem?_append_of_some {α : Type} {l : List α} {i : Nat} {a : α} (h : l[i]? = some a) (m : List α) :
    (l ++ m)[i]? = some a := by
  rw [List.getElem?_append_left (List.getElem?_eq_some_iff.mp h).1]; exact h

theorem localB_append {s : Store} {e : Nat} {x : String} {b : Binding} (h : s.localB e x = some b) (m : List EnvRec)
    (t : List (String × Nat)) : ({ s with envs := s.envs ++ m, tops := t } : Store).localB e x = some b := by
  simp only [Store.localB] at h ⊢
  cases he : s.envs[e]? with
  | none => simp [he] at h
  | some r => simp only [he] at h; simp only [getElem?_append_of_some he m]; exact h

/-- A store into a binding that is not protected. -/
theorem Grows.put {s : Store} {e : Nat} {x : String} (v : Data) (hp : ∀ b, s.localB e x = some b → b.prot = false) :
    Grows s (s.putVal e x v) := by
  obtain ⟨h1, h2, h3, h4, h5, h6, h7⟩ := putVal_rest s e x v
  refine ⟨fun e' r hr => ?_, ?_, ?_, ?_, ?_, ?_, ?_, fun e' y b hb hpr => Or.inr ?_⟩
  · rw [putVal_envs]
    by_cases he : e' = e
    · subst he; simp only [if_pos, hr, Option.map]; exact ⟨_, rfl, .put r x v⟩
    · simp only [he, if_false]; exact ⟨r, hr, .refl r⟩
  · intro f r hr; rw [h1]; exact ⟨r.slot, hr⟩
  · intro m r hr; rw [h2]; exact hr
  · rw [h3]; exact Nat.le_refl _
  · intro p; rw [h4]; exact Nat.le_refl _
  · rw [h6]; exact List.prefix_refl _
  · rw [h7]; exact fun _ h => h
  · rw [putVal_localB]
    by_cases hh : e' = e ∧ y = x
    · obtain ⟨rfl, rfl⟩ := hh; rw [hp b hb] at hpr; cases hpr
    · rw [if_neg hh]; exact hb

theorem Grows.putRaw (s : Store) (e : Nat) (x : String) (v : Data) :
    Grows s { s.putVal e x v with raw := s.raw ++ [(e, x)] } := by
  obtain ⟨h1, h2, h3, h4, h5, h6, h7⟩ := putVal_rest s e x v
  refine ⟨fun e' r hr => ?_, ?_, ?_, ?_, ?_, ?_, ?_, fun e' y b hb hpr => ?_⟩
  · show ∃ r', (s.putVal e x v).envs[e']? = some r' ∧ _
    rw [putVal_envs]
    by_cases he : e' = e
    · subst he; simp only [if_pos, hr, Option.map]; exact ⟨_, rfl, .put r x v⟩
    · simp only [he, if_false]; exact ⟨r, hr, .refl r⟩
  · intro f r hr; simp only [h1]; exact ⟨r.slot, hr⟩
  · intro m r hr; simp only [h2]; exact hr
  · simp only [h3]; exact Nat.le_refl _
  · intro p; simp only [h4]; exact Nat.le_refl _
  · simp only [h6]; exact List.prefix_refl _
  · intro p hp; simp only [List.mem_append]; exact Or.inl hp
  · by_cases hh : e' = e ∧ y = x
    · obtain ⟨rfl, rfl⟩ := hh; exact Or.inl (by simp)
    · right
      show (s.putVal e x v).localB e' y = _
      rw [putVal_localB, if_neg hh]; exact hb

theorem op_grows (o : Op) (s : Store) : Grows s (o.run s).2 := by
  cases o with
  | newEnv p f name =>
    simp only [Op.run]
    split
    · exact .refl s
    · exact ⟨fun e r hr => ⟨r, getElem?_append_of_some hr _, .refl r⟩, fun _ r h => ⟨r.slot, h⟩, fun _ _ h => h,
        Nat.le_refl _, fun _ => Nat.le_refl _, List.prefix_refl _, fun _ h => h,
        fun _ _ _ h _ => Or.inr (localB_append h _ _)⟩
  | bind e x v =>
    simp only [Op.run]
    cases hb : s.localB e x with
    | none => exact .put v (fun b h => by rw [hb] at h; cases h)
    | some b =>
      cases hp : b.prot with
      | true => simp only [hp, if_true]; exact .refl s
      | false => simp only [hp]; exact .put v (fun b' h => by rw [hb] at h; cases h; exact hp)
  | assign e x v =>
    simp only [Op.run]
    cases hb : s.localB e x with
    | none => exact .refl s
    | some b =>
      cases hp : b.prot with
      | true => simp only [hp, if_true]; exact .refl s
      | false => simp only [hp]; exact .put v (fun b' h => by rw [hb] at h; cases h; exact hp)
  | assignRaw e x v =>
    simp only [Op.run]
    split
    · exact .putRaw s e x v
    · exact .refl s
  | flag f b =>
    simp only [Op.run]
    cases hf : s.fns[f]? with
    | none => exact .refl s
    | some r =>
      refine ⟨fun e r hr => ⟨r, hr, .refl r⟩, fun g q h => ?_, fun _ _ h => h,
        Nat.le_refl _, fun _ => Nat.le_refl _, List.prefix_refl _, fun _ h => h,
        fun _ _ _ h _ => Or.inr h⟩
      simp only [getElem?_set']
      by_cases hg : g = f
      · subst hg
        rw [hf] at h; cases h
        simp only [if_pos, hf, Option.map]
        exact ⟨b, rfl⟩
      · simp only [hg, if_false]; exact ⟨q.slot, h⟩
  | newFn name params body env =>
    exact ⟨fun e r hr => ⟨r, hr, .refl r⟩, fun _ r h => ⟨r.slot, getElem?_append_of_some h _⟩, fun _ _ h => h,
        Nat.le_refl _, fun _ => Nat.le_refl _, List.prefix_refl _, fun _ h => h, fun _ _ _ h _ => Or.inr h⟩
  | newMac name params body env =>
    exact ⟨fun e r hr => ⟨r, hr, .refl r⟩, fun _ r h => ⟨r.slot, h⟩, fun _ _ h => getElem?_append_of_some h _,
        Nat.le_refl _, fun _ => Nat.le_refl _, List.prefix_refl _, fun _ h => h, fun _ _ _ h _ => Or.inr h⟩
  | newFrame m =>
    exact ⟨fun e r hr => ⟨r, hr, .refl r⟩, fun _ r h => ⟨r.slot, h⟩, fun _ _ h => h,
        by simp [Op.run], fun _ => Nat.le_refl _, List.prefix_refl _, fun _ h => h, fun _ _ _ h _ => Or.inr h⟩
  | setSlot i k v =>
    refine ⟨fun e r hr => ⟨r, hr, .refl r⟩, fun _ r h => ⟨r.slot, h⟩, fun _ _ h => h,
        ?_, fun _ => Nat.le_refl _, List.prefix_refl _, fun _ h => h, fun _ _ _ h _ => Or.inr h⟩
    simp [Op.run, Frame.set]
  | remSlot i k =>
    refine ⟨fun e r hr => ⟨r, hr, .refl r⟩, fun _ r h => ⟨r.slot, h⟩, fun _ _ h => h,
        ?_, fun _ => Nat.le_refl _, List.prefix_refl _, fun _ h => h, fun _ _ _ h _ => Or.inr h⟩
    simp only [Op.run, Frame.remove]; split <;> simp
  | gensym p =>
    refine ⟨fun e r hr => ⟨r, hr, .refl r⟩, fun _ r h => ⟨r.slot, h⟩, fun _ _ h => h,
        Nat.le_refl _, fun q => ?_, List.prefix_refl _, fun _ h => h, fun _ _ _ h _ => Or.inr h⟩
    simp only [Op.run, alGet_set]
    by_cases hq : q = p
    · subst hq; simp
    · simp [hq]
  | emit t =>
    exact ⟨fun e r hr => ⟨r, hr, .refl r⟩, fun _ r h => ⟨r.slot, h⟩, fun _ _ h => h,
        Nat.le_refl _, fun _ => Nat.le_refl _, List.prefix_append _ _, fun _ h => h, fun _ _ _ h _ => Or.inr h⟩
  | print t =>
    exact ⟨fun e r hr => ⟨r, hr, .refl r⟩, fun _ r h => ⟨r.slot, h⟩, fun _ _ h => h,
        Nat.le_refl _, fun _ => Nat.le_refl _, List.prefix_refl _, fun _ h => h, fun _ _ _ h _ => Or.inr h⟩
  | newWord v =>
    exact ⟨fun e r hr => ⟨r, hr, .refl r⟩, fun _ r h => ⟨r.slot, h⟩, fun _ _ h => h,
        Nat.le_refl _, fun _ => Nat.le_refl _, List.prefix_refl _, fun _ h => h, fun _ _ _ h _ => Or.inr h⟩
  | rmw a f =>
    exact ⟨fun e r hr => ⟨r, hr, .refl r⟩, fun _ r h => ⟨r.slot, h⟩, fun _ _ h => h,
        Nat.le_refl _, fun _ => Nat.le_refl _, List.prefix_refl _, fun _ h => h, fun _ _ _ h _ => Or.inr h⟩
  | restrict e =>
    simp only [Op.run]
    cases he : s.envs[e]? with
    | none => exact .refl s
    | some r =>
      refine ⟨fun e' q h => ?_, fun _ r h => ⟨r.slot, h⟩, fun _ _ h => h,
        Nat.le_refl _, fun _ => Nat.le_refl _, List.prefix_refl _, fun _ h => h, fun e' y b h _ => Or.inr ?_⟩
      · simp only [getElem?_set']
        by_cases hg : e' = e
        · subst hg
          rw [he] at h; cases h
          simp only [if_pos, he, Option.map]
          exact ⟨_, rfl, rfl, rfl, rfl, fun _ => rfl, fun _ b h => ⟨b, h, rfl⟩⟩
        · simp only [hg, if_false]; exact ⟨q, h, .refl q⟩
      · simp only [Store.localB, getElem?_set'] at h ⊢
        by_cases hg : e' = e
        · subst hg; simp only [he] at h; simp only [if_pos, he, Option.map]; exact h
        · simp only [hg, if_false]; exact h

theorem keeps_grows : Keeps Grows := ⟨Grows.refl, fun h h' => h.trans h', op_grows⟩

/-- An invariant of the state respected by every action is respected by every run. -/
theorem keeps_inv {P : Store → Prop} (h : ∀ (o : Op) (s : Store), P s → P (o.run s).2) :
    Keeps fun s s' => P s → P s' := ⟨fun _ h => h, fun h h' x => h' (h x), h⟩

theorem op_WF (o : Op) (s : Store) (h : WF s) : WF (o.run s).2 := by
  have key : ∀ s' : Store, (∀ (e : Nat) (r : EnvRec), s'.envs[e]? = some r → ∃ r0, s.envs[e]? = some r0 ∧ r0.parent = r.parent) → WF s' := by
    intro s' hs e r p hr hp
    obtain ⟨r0, h0, h1⟩ := hs e r hr
    exact h e r0 p h0 (h1.trans hp)
  have put : ∀ e x v, ∀ (e' : Nat) (r : EnvRec), (s.putVal e x v).envs[e']? = some r →
      ∃ r0, s.envs[e']? = some r0 ∧ r0.parent = r.parent := by
    intro e x v e' r hr
    rw [putVal_envs] at hr
    by_cases he : e' = e
    · subst he
      simp only [if_pos] at hr
      cases h0 : s.envs[e']? with
      | none => simp [h0] at hr
      | some r0 => simp only [h0, Option.map, Option.some.injEq] at hr; exact ⟨r0, rfl, by rw [← hr]; rfl⟩
    · simp only [he, if_false] at hr; exact ⟨r, hr, rfl⟩
  cases o with
  | newEnv p f name =>
    simp only [Op.run]
    cases hp : s.envs[p]? with
    | none => exact h
    | some r =>
      intro e r' q hr hq
      simp only at hr
      by_cases he : e < s.envs.length
      · rw [List.getElem?_append_left he] at hr; exact h e r' q hr hq
      · rw [List.getElem?_append_right (by omega)] at hr
        have hlt : p < s.envs.length := (List.getElem?_eq_some_iff.mp hp).1
        cases hx : e - s.envs.length with
        | zero => simp only [hx, List.getElem?_cons_zero, Option.some.injEq] at hr; subst hr; cases hq; omega
        | succ k => simp [hx] at hr
  | bind e x v =>
    simp only [Op.run]
    repeat' split
    all_goals first | exact h | exact key _ (put e x v)
  | assign e x v =>
    simp only [Op.run]
    repeat' split
    all_goals first | exact h | exact key _ (put e x v)
  | assignRaw e x v =>
    simp only [Op.run]
    split
    · exact key _ (put e x v)
    · exact h
  | flag f b => simp only [Op.run]; split <;> exact h
  | newFn => exact h
  | newMac => exact h
  | newFrame => exact h
  | setSlot => exact h
  | remSlot => exact h
  | gensym => exact h
  | emit => exact h
  | print => exact h
  | newWord => exact h
  | rmw => exact h
  | restrict e =>
    simp only [Op.run]
    cases he : s.envs[e]? with
    | none => exact h
    | some r =>
      refine key _ fun e' q hq => ?_
      simp only [getElem?_set'] at hq
      by_cases hg : e' = e
      · subst hg; simp only [if_pos, he, Option.map, Option.some.injEq] at hq; exact ⟨r, he, by rw [← hq]⟩
      · simp only [hg, if_false] at hq; exact ⟨q, hq, rfl⟩

theorem keeps_WF : Keeps fun s s' => WF s → WF s' := keeps_inv op_WF

end Golisp.Ev
