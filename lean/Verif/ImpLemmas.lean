import Verif.ImpSpec
import Verif.FunLemmas
import Verif.Props.Define
import Verif.Props.Scope
/- Lemmas for C92: how the state stands for the memory, and how this is kept. -/
namespace Golisp.Imp
open Golisp Data Ev Spec Props
open Golisp.Fun (Plain Head)

variable {C : Conf} {N : String → Prop} {m m' m₁ m₂ : Mem} {φ φ' φ₁ φ₂ : List Nat} {s s' s₁ s₂ : Store} {f g e : Nat}

/-! ### Memories -/

theorem put_get (m : Mem) (f : Nat) (x : String) (v : Val) (i : Nat) :
    (m.put f x v)[i]? = (m[i]?).map fun F => if i = f then { F with vars := (x, v) :: F.vars } else F := by
  rw [Mem.put, List.getElem?_modify]
  cases m[i]? with
  | none => by_cases h : f = i <;> simp [h]
  | some F => by_cases h : f = i <;> simp [h, eq_comm]

@[simp] theorem put_length (m : Mem) (f : Nat) (x : String) (v : Val) : (m.put f x v).length = m.length := by simp [Mem.put]

theorem push_old {F : Fr} (h : m[f]? = some F) (vs : List (String × Val)) (p : Nat) : (m.push vs p)[f]? = some F := getElem?_append_of_some h _

@[simp] theorem push_new (m : Mem) (vs : List (String × Val)) (p : Nat) : (m.push vs p)[m.length]? = some ⟨vs, some p⟩ := by
  simp [Mem.push]

theorem push_get {F : Fr} {vs : List (String × Val)} {p i : Nat} (h : (m.push vs p)[i]? = some F) :
    m[i]? = some F ∨ i = m.length ∧ F = ⟨vs, some p⟩ := by
  simp only [Mem.push] at h
  by_cases hi : i < m.length
  · rw [List.getElem?_append_left hi] at h; exact .inl h
  · rw [List.getElem?_append_right (by omega)] at h
    have h0 : i - m.length = 0 := by
      rcases Nat.eq_zero_or_pos (i - m.length) with h' | h'
      · exact h'
      · rw [List.getElem?_eq_none (by simp; omega)] at h; cases h
    rw [h0] at h
    exact .inr ⟨by omega, by simpa using h.symm⟩

/-! ### Moving on -/

theorem Moves.refl (φ : List Nat) (s : Store) : Moves φ s φ s :=
  ⟨⟨[], by simp⟩, Nat.le_refl _, fun _ _ _ h => h, fun _ fr h => ⟨fr.slot, h⟩, fun _ _ h => h, rfl, rfl, rfl, rfl, rfl⟩

theorem Moves.trans (h : Moves φ s φ₁ s₁) (h' : Moves φ₁ s₁ φ₂ s₂) : Moves φ s φ₂ s₂ := by
  obtain ⟨⟨n, hn, hn'⟩, hl, ho, hf, hm, h1, h2, h3, h4, h5⟩ := h
  obtain ⟨⟨k, hk, hk'⟩, hl', ho', hf', hm', h1', h2', h3', h4', h5'⟩ := h'
  refine ⟨⟨n ++ k, by rw [hk, hn, List.append_assoc], fun e he => ?_⟩, Nat.le_trans hl hl', fun e r he hr => ?_, fun i fr hi => ?_,
    fun i mr hi => hm' i mr (hm i mr hi), h1'.trans h1, h2'.trans h2, h3'.trans h3, h4'.trans h4, h5'.trans h5⟩
  · rcases List.mem_append.1 he with h | h
    · exact hn' e h
    · exact Nat.le_trans hl (hk' e h)
  · refine ho' e r (fun h => ?_) (ho e r he hr)
    rw [hn] at h
    rcases List.mem_append.1 h with h | h
    · exact he h
    · have := (List.getElem?_eq_some_iff.mp hr).1
      have := hn' e h
      omega
  · obtain ⟨b, hb⟩ := hf i fr hi
    obtain ⟨b', hb'⟩ := hf' i _ hb
    exact ⟨b', hb'⟩

theorem Moves.frame (h : Moves φ s φ' s') {i : Nat} (he : φ[i]? = some e) : φ'[i]? = some e := by
  obtain ⟨n, hn, _⟩ := h.frames
  rw [hn]; exact getElem?_append_of_some he n

theorem Moves.calm (h : Fun.Calm s s') : Moves φ s φ s' :=
  ⟨⟨[], by simp⟩, h.le, fun _ _ _ hr => h.env hr, h.fns, fun i mr hi => by rw [h.rest.1]; exact hi, h.rest.2.1, h.rest.2.2.1, h.rest.2.2.2.1, h.rest.2.2.2.2.2⟩

theorem Rep.keep (hφ : ∀ (i e : Nat), φ[i]? = some e → φ'[i]? = some e) (hf : ∀ (i : Nat) (fr : FnRec), s.fns[i]? = some fr → ∃ b, s'.fns[i]? = some { fr with slot := b })
    (hm : ∀ (i : Nat) (mr : MacRec), s.macs[i]? = some mr → s'.macs[i]? = some mr) {v : Val} {d : Data} (h : Rep s φ v d) : Rep s' φ' v d := by
  induction h with
  | const h => exact .const h
  | nil h => exact .nil h
  | pair h _ _ h1 h2 => exact .pair h h1 h2
  | builtin => exact .builtin
  | closure h1 h2 h3 h4 h5 =>
    obtain ⟨b, hb⟩ := hf _ _ h1
    exact .closure hb h2 h3 h4 (hφ _ _ h5)
  | mac h1 h2 h3 h4 h5 h6 h7 h8 => exact .mac (hm _ _ h1) h2 h3 h4 h5 h6 h7 (hφ _ _ h8)

theorem Rep.moves (h : Moves φ s φ' s') {v : Val} {d : Data} (hr : Rep s φ v d) : Rep s' φ' v d := hr.keep (fun _ _ => h.frame) h.fns h.macs

theorem Rep.truthy {v : Val} {d : Data} (h : Rep s φ v d) : Truthy d ↔ Holds v := by
  cases h with
  | @const a h => cases a <;> simp [Truthy, Holds]
  | nil h => rcases h with rfl | rfl <;> simp [Truthy, Holds]
  | pair h => simp [Truthy, Holds, h]
  | builtin => simp [Truthy, Holds]
  | closure => simp [Truthy, Holds]
  | mac => simp [Truthy, Holds]

theorem literal_rep {d : Data} {v : Val} (h : Literal d v) : Rep s φ v d := by
  induction h with
  | atom h => exact .const h
  | nil h => exact .nil h
  | pair h _ _ ih1 ih2 => exact .pair h ih1 ih2

/-! ### Lists of values -/

inductive Reps (s : Store) (φ : List Nat) : List Val → List Data → Prop where
  | nil : Reps s φ [] []
  | cons {v vs d ds} : Rep s φ v d → Reps s φ vs ds → Reps s φ (v :: vs) (d :: ds)

theorem Reps.length {vs : List Val} {ds : List Data} (h : Reps s φ vs ds) : vs.length = ds.length := by
  induction h with
  | nil => rfl
  | cons _ _ ih => simp [ih]

theorem Reps.moves (hm : Moves φ s φ' s') {vs : List Val} {ds : List Data} (h : Reps s φ vs ds) : Reps s' φ' vs ds := by
  induction h with
  | nil => exact .nil
  | cons h _ ih => exact .cons (h.moves hm) ih

theorem Reps.keep (hφ : ∀ (i e : Nat), φ[i]? = some e → φ'[i]? = some e) (hf : s'.fns = s.fns) (hm : s'.macs = s.macs) {vs : List Val} {ds : List Data}
    (h : Reps s φ vs ds) : Reps s' φ' vs ds := by
  induction h with
  | nil => exact .nil
  | cons h _ ih => exact .cons (h.keep hφ (fun i fr h => ⟨fr.slot, by rw [hf]; exact h⟩) (fun i mr h => by rw [hm]; exact h)) ih

theorem Rep.elem {v : Val} {d : Data} (h : Rep s φ v d) : Rep s φ v (Spec.elem d) := by
  unfold Spec.elem
  split
  · next hd => subst hd; cases h; exact .nil (.inr rfl)
  · exact h

theorem Reps.elems {vs : List Val} {ds : List Data} (h : Reps s φ vs ds) : Reps s φ vs (ds.map Spec.elem) := by
  induction h with
  | nil => exact .nil
  | cons h _ ih => exact .cons h.elem ih

theorem rep_newList {vs : List Val} {ds : List Data} (h : Reps s φ vs ds) (hn : Data.null ∉ ds) {d : Data} (hd : NewList d ds) :
    Rep s φ (.list vs) d := by
  have key : ∀ {vs : List Val} {ds : List Data}, Reps s φ vs ds → Data.null ∉ ds → ∀ {d : Data}, Chain d ds → Rep s φ (.list vs) d := by
    intro vs ds h
    induction h with
    | nil => intro _ d hc; cases hc; exact .nil (.inl rfl)
    | cons h _ ih =>
      intro hn d hc
      cases hc with
      | cons hc =>
        simp only [List.mem_cons, not_or] at hn
        exact .pair (Ne.symm hn.1) h (ih hn.2 hc)
  cases hd with
  | null => cases h; exact .nil (.inl rfl)
  | empty => cases h; exact .nil (.inr rfl)
  | chain hc => exact key h hn hc

/-! ### Looking variables up -/

theorem Models.env (h : Models C N g m φ s) (he : e ∈ φ) : ∃ r, s.envs[e]? = some r ∧ r.frame = none := by
  obtain ⟨_, hl, hf⟩ := h.exist e he
  exact ⟨_, List.getElem?_eq_getElem hl, by simpa [Store.frameOf, List.getElem?_eq_getElem hl] using hf⟩

theorem mem_of {i : Nat} (h : φ[i]? = some e) : e ∈ φ := List.mem_of_getElem? h

theorem Models.frameAt (h : Models C N g m φ s) (he : φ[f]? = some e) : s.frameOf e = none := (h.exist e (mem_of he)).2.2

theorem Models.topFr (h : Models C N g m φ s) : ∃ F, m[0]? = some F := by
  have h0 := (List.getElem?_eq_some_iff.mp h.top).1
  rw [h.length] at h0
  exact ⟨_, List.getElem?_eq_getElem h0⟩

theorem Models.sees (h : Models C N g m φ s) {x : String} {k : Nat} {v : Val} (hs : Sees m f x k v) (hx : x ≠ "self") :
    ∀ {e : Nat}, φ[f]? = some e → ∃ e' d, φ[k]? = some e' ∧ Visible s e x e' ⟨d, false⟩ ∧ s.localB e' x = some ⟨d, false⟩ ∧ Rep s φ v d := by
  induction hs with
  | @here f F x v hF hv =>
    intro e he
    obtain ⟨d, hd, hr⟩ := h.held f F e x v hF he hx hv
    exact ⟨e, d, he, .here hd, hd, hr⟩
  | @up f F p x k v hF hn hp _ ih =>
    intro e he
    obtain ⟨e', he', hpar⟩ := h.parent f F p e hF hp he
    obtain ⟨e'', d, h1, h2, h3, h4⟩ := ih hx he'
    have hf : f ≠ 0 := fun h0 => by rw [(h.root f F hF).mpr h0] at hp; cases hp
    exact ⟨e'', d, h1, .up (h.free f F e x hf hF he hx hn) hpar h2, h3, h4⟩

theorem Models.unbound (h : Models C N g m φ s) {x : String} (hs : Unbound m f x) (hx : x ≠ "self") :
    ∀ {e : Nat}, φ[f]? = some e → (∃ F, m[0]? = some F ∧ F.vars.lookup x = none) ∧ ∀ k b, Visible s e x k b ↔ Visible s g x k b := by
  induction hs with
  | @top f F x hF hv hp =>
    intro e he
    obtain rfl := (h.root f F hF).mp hp
    obtain rfl : g = e := by have := h.top; rw [he] at this; exact (Option.some.inj this).symm
    exact ⟨⟨F, hF, hv⟩, fun _ _ => Iff.rfl⟩
  | @up f F p x hF hn hp _ ih =>
    intro e he
    obtain ⟨e', he', hpar⟩ := h.parent f F p e hF hp he
    obtain ⟨h1, h2⟩ := ih hx he'
    have hf : f ≠ 0 := fun h0 => by rw [(h.root f F hF).mpr h0] at hp; cases hp
    have hl := h.free f F e x hf hF he hx hn
    refine ⟨h1, fun k b => ⟨fun hv => (h2 k b).mp ?_, fun hv => .up hl hpar ((h2 k b).mpr hv)⟩⟩
    cases hv with
    | here hb => rw [hl] at hb; cases hb
    | up _ hp' hv => rw [hpar] at hp'; cases hp'; exact hv

theorem word_ne_self {x : String} (h : x ∈ forms ++ purePrims) : x ≠ "self" := by
  rintro rfl; simp [forms, purePrims] at h

/-- A form or a procedure that is not redefined means what it always does. -/
theorem Models.word (h : Models C N g m φ s) {x : String} (hs : Unbound m f x) (hx : x ∈ forms ++ purePrims) (he : φ[f]? = some e) : Means C s e x := by
  obtain ⟨⟨F, hF, hn⟩, hv⟩ := h.unbound hs (word_ne_self hx) he
  obtain ⟨⟨k, p, h1⟩, _, h3⟩ := h.means F x hF hx hn
  exact ⟨⟨k, p, (hv _ _).mpr h1⟩, fun _ => noSlot_of (h.frameAt he) x, h3⟩

/-! ### Changes elsewhere -/

theorem visible_le (hw : WF s) {x : String} {k : Nat} {b : Binding} (h : Visible s e x k b) : k ≤ e := by
  induction h with
  | here => exact Nat.le_refl _
  | up _ hp _ ih =>
    obtain ⟨r, hr, hrp⟩ := parentOf_some hp
    exact Nat.le_trans ih (Nat.le_of_lt (hw _ r _ hr hrp))

/-- Visibility depends on the environments up to here only. -/
theorem visible_keep (hw : WF s) {x : String} (hl : ∀ k ≤ e, s'.localB k x = s.localB k x) (hp : ∀ k ≤ e, s'.parentOf k = s.parentOf k) {k : Nat} {b : Binding}
    (h : Visible s e x k b) : Visible s' e x k b := by
  induction h with
  | here hb => exact .here (by rw [hl _ (Nat.le_refl _)]; exact hb)
  | up hn hpar _ ih =>
    obtain ⟨r, hr, hrp⟩ := parentOf_some hpar
    have hlt := hw _ r _ hr hrp
    exact .up (by rw [hl _ (Nat.le_refl _)]; exact hn) (by rw [hp _ (Nat.le_refl _)]; exact hpar)
      (ih (fun k hk => hl k (Nat.le_trans hk (Nat.le_of_lt hlt))) fun k hk => hp k (Nat.le_trans hk (Nat.le_of_lt hlt)))

/-- The state still stands for the memory when the environments up to the top level and those of the frames are as before. -/
theorem Models.keep (h : Models C N g m φ s) (hw : WF s')
    (hE : ∀ (k : Nat) (r : EnvRec), k ≤ g ∨ k ∈ φ → s.envs[k]? = some r → s'.envs[k]? = some r)
    (hf : ∀ (i : Nat) (fr : FnRec), s.fns[i]? = some fr → ∃ b, s'.fns[i]? = some { fr with slot := b })
    (hm : ∀ (i : Nat) (mr : MacRec), s.macs[i]? = some mr → s'.macs[i]? = some mr) : Models C N g m φ s' := by
  have hg := h.exist g (mem_of h.top)
  have eq : ∀ k, k ≤ g ∨ k ∈ φ → s'.envs[k]? = s.envs[k]? := by
    intro k hk
    have hlt : k < s.envs.length := by
      rcases hk with hk | hk
      · omega
      · exact (h.exist k hk).2.1
    rw [hE k _ hk (List.getElem?_eq_getElem hlt), List.getElem?_eq_getElem hlt]
  have hloc : ∀ k x, k ≤ g ∨ k ∈ φ → s'.localB k x = s.localB k x := fun k x hk => by simp only [Store.localB, eq k hk]
  have hpar : ∀ k, k ≤ g ∨ k ∈ φ → s'.parentOf k = s.parentOf k := fun k hk => by simp only [Store.parentOf, eq k hk]
  have hfra : ∀ k, k ≤ g ∨ k ∈ φ → s'.frameOf k = s.frameOf k := fun k hk => by simp only [Store.frameOf, eq k hk]
  have vis : ∀ x k b, Visible s' g x k b ↔ Visible s g x k b := fun x k b =>
    ⟨visible_keep hw (fun k hk => (hloc k x (.inl hk)).symm) fun k hk => (hpar k (.inl hk)).symm,
      visible_keep h.wf (fun k hk => hloc k x (.inl hk)) fun k hk => hpar k (.inl hk)⟩
  refine ⟨hw, h.length, h.nodup, h.top, fun e he => ?_, h.root, fun f F p e h1 h2 h3 => ?_, fun f F e x v h1 h2 h3 h4 => ?_, fun f F e x h1 h2 h3 h4 h5 => ?_,
    fun F x h1 h2 h3 => ?_, fun F x h1 h2 h3 k b hv => h.fresh F x h1 h2 h3 k b ((vis x k b).mp hv), h.table⟩
  · obtain ⟨h1, h2, h3⟩ := h.exist e he
    refine ⟨h1, ?_, by rw [hfra e (.inr he)]; exact h3⟩
    exact (List.getElem?_eq_some_iff.mp (hE e _ (.inr he) (List.getElem?_eq_getElem h2))).1
  · obtain ⟨e', h4, h5⟩ := h.parent f F p e h1 h2 h3
    exact ⟨e', h4, by rw [hpar e (.inr (mem_of h3))]; exact h5⟩
  · obtain ⟨d, h5, h6⟩ := h.held f F e x v h1 h2 h3 h4
    exact ⟨d, by rw [hloc e x (.inr (mem_of h2))]; exact h5, h6.keep (fun _ _ h => h) hf hm⟩
  · rw [hloc e x (.inr (mem_of h3))]; exact h.free f F e x h1 h2 h3 h4 h5
  · obtain ⟨⟨k, p, h4⟩, _, h5⟩ := h.means F x h1 h2 h3
    exact ⟨⟨k, p, (vis _ _ _).mpr h4⟩, fun _ => noSlot_of (by rw [hfra g (.inl (Nat.le_refl g))]; exact h.frameAt h.top) x, h5⟩

theorem Models.calm (h : Models C N g m φ s) (hw : WF s') (hc : Fun.Calm s s') : Models C N g m φ s' :=
  h.keep hw (fun _ _ _ hr => hc.env hr) hc.fns fun i mr hi => by rw [hc.rest.1]; exact hi

/-! ### Assignment and definition -/

theorem putVal_parentOf (s : Store) (e : Nat) (x : String) (d : Data) (k : Nat) : (s.putVal e x d).parentOf k = s.parentOf k := by
  simp only [Store.parentOf, putVal_envs]
  by_cases h : k = e
  · subst h; cases s.envs[k]? <;> simp [EnvRec.put]
  · simp [h]

theorem putVal_frameOf (s : Store) (e : Nat) (x : String) (d : Data) (k : Nat) : (s.putVal e x d).frameOf k = s.frameOf k := by
  simp only [Store.frameOf, putVal_envs]
  by_cases h : k = e
  · subst h; cases s.envs[k]? <;> simp [EnvRec.put]
  · simp [h]

theorem putVal_WF (hw : WF s) (e : Nat) (x : String) (d : Data) : WF (s.putVal e x d) := by
  intro k r p hr hp
  have : (s.putVal e x d).parentOf k = some p := by simp only [Store.parentOf, hr, hp]
  rw [putVal_parentOf] at this
  obtain ⟨r', hr', hp'⟩ := parentOf_some this
  exact hw k r' p hr' hp'

theorem moves_putVal (he : e ∈ φ) (x : String) (d : Data) : Moves φ s φ (s.putVal e x d) := by
  obtain ⟨h1, h2, h3, h4, h5, h6, h7⟩ := putVal_rest s e x d
  obtain ⟨h8, h9⟩ := putVal_rest' s e x d
  refine ⟨⟨[], by simp⟩, by rw [putVal_envs_len]; exact Nat.le_refl _, fun k r hk hr => ?_, fun i fr hi => ⟨fr.slot, by rw [h1]; exact hi⟩,
    fun i mr hi => by rw [h2]; exact hi, h3, h4, h6, h8, h9⟩
  rw [putVal_envs, if_neg (by rintro rfl; exact hk he)]
  exact hr

/-- Giving a variable of a frame a value. -/
theorem Models.putVal (h : Models C N g m φ s) (he : φ[f]? = some e) {x : String} (hx : x ≠ "self") {v : Val} {d : Data} (hr : Rep s φ v d)
    (hprot : ∀ b, s.localB e x = some b → b.prot = false) : Models C N g (m.put f x v) φ (s.putVal e x d) := by
  have hlt := (h.exist e (mem_of he)).2.1
  have hmv : Moves φ s φ (s.putVal e x d) := moves_putVal (mem_of he) x d
  have here : (s.putVal e x d).localB e x = some ⟨d, false⟩ := by
    rw [putVal_localB, if_pos ⟨rfl, rfl⟩, List.getElem?_eq_getElem hlt]
    simp only [Option.map_some]
    cases hb : alGet (s.envs[e]).binds x with
    | none => rfl
    | some b => simp [hprot b (by simp [Store.localB, List.getElem?_eq_getElem hlt, hb])]
  have other : ∀ k y, ¬ (k = e ∧ y = x) → (s.putVal e x d).localB k y = s.localB k y := fun k y hk => by rw [putVal_localB, if_neg hk]
  have idx : ∀ i, φ[i]? = some e → i = f := by
    intro i hi
    exact (List.getElem?_inj (List.getElem?_eq_some_iff.mp hi).1 h.nodup).mp (hi.trans he.symm)
  have look : ∀ i F, (m.put f x v)[i]? = some F → ∃ F₀, m[i]? = some F₀ ∧ F.parent = F₀.parent ∧
      ∀ y, F.vars.lookup y = if i = f ∧ y = x then some v else F₀.vars.lookup y := by
    intro i F hF
    rw [put_get] at hF
    cases hi : m[i]? with
    | none => rw [hi] at hF; cases hF
    | some F₀ =>
      rw [hi] at hF
      obtain rfl := Option.some.inj hF
      refine ⟨F₀, rfl, by by_cases h : i = f <;> simp [h], fun y => ?_⟩
      by_cases h : i = f
      · by_cases hy : y = x
        · simp [h, hy]
        · have : (y == x) = false := by simpa using hy
          simp [h, hy, List.lookup_cons, this]
      · simp [h]
  have vis : ∀ y k b, (f = 0 → y ≠ x) → (Visible (s.putVal e x d) g y k b ↔ Visible s g y k b) := by
    intro y k b hy
    have hl : ∀ k ≤ g, (s.putVal e x d).localB k y = s.localB k y := fun k hk => other k y fun ⟨h1, h2⟩ => by
      subst h1
      have := (h.exist k (mem_of he)).1
      obtain rfl : k = g := by omega
      exact hy (idx 0 h.top).symm h2
    exact ⟨visible_keep (putVal_WF h.wf e x d) (fun k hk => (hl k hk).symm) fun k _ => (putVal_parentOf ..).symm,
      visible_keep h.wf hl fun k _ => putVal_parentOf ..⟩
  refine ⟨putVal_WF h.wf e x d, by simpa using h.length, h.nodup, h.top, fun k hk => ?_, fun i F hF => ?_, fun i F p k hF hp hk => ?_, fun i F k y w hF hk hy hl => ?_,
    fun i F k y hi hF hk hy hl => ?_, fun F y hF hy hl => ?_, fun F y hF hy hl k b hv => ?_, h.table⟩
  · rw [putVal_envs_len, putVal_frameOf]; exact h.exist k hk
  · obtain ⟨F₀, h0, hp, _⟩ := look i F hF
    rw [hp]; exact h.root i F₀ h0
  · obtain ⟨F₀, h0, hp', _⟩ := look i F hF
    rw [putVal_parentOf]; exact h.parent i F₀ p k h0 (hp' ▸ hp) hk
  · obtain ⟨F₀, h0, _, hl'⟩ := look i F hF
    rw [hl'] at hl
    by_cases hc : i = f ∧ y = x
    · rw [if_pos hc] at hl
      obtain ⟨rfl, rfl⟩ := hc
      obtain rfl : k = e := Option.some.inj (hk.symm.trans he)
      exact ⟨d, here, Option.some.inj hl ▸ hr.moves hmv⟩
    · rw [if_neg hc] at hl
      obtain ⟨d', h1, h2⟩ := h.held i F₀ k y w h0 hk hy hl
      refine ⟨d', ?_, h2.moves hmv⟩
      rw [other k y fun ⟨h3, h4⟩ => hc ⟨idx i (h3 ▸ hk), h4⟩]; exact h1
  · obtain ⟨F₀, h0, _, hl'⟩ := look i F hF
    rw [hl'] at hl
    by_cases hc : i = f ∧ y = x
    · rw [if_pos hc] at hl; cases hl
    · rw [if_neg hc] at hl
      rw [other k y fun ⟨h3, h4⟩ => hc ⟨idx i (h3 ▸ hk), h4⟩]
      exact h.free i F₀ k y hi h0 hk hy hl
  · obtain ⟨F₀, h0, _, hl'⟩ := look 0 F hF
    rw [hl'] at hl
    by_cases hc : 0 = f ∧ y = x
    · rw [if_pos hc] at hl; cases hl
    · rw [if_neg hc] at hl
      obtain ⟨⟨k, p, h1⟩, _, h2⟩ := h.means F₀ y h0 hy hl
      exact ⟨⟨k, p, (vis y _ _ fun hf hyx => hc ⟨hf.symm, hyx⟩).mpr h1⟩, fun _ => noSlot_of (by rw [putVal_frameOf]; exact h.frameAt h.top) y, h2⟩
  · obtain ⟨F₀, h0, _, hl'⟩ := look 0 F hF
    rw [hl'] at hl
    by_cases hc : 0 = f ∧ y = x
    · rw [if_pos hc] at hl; cases hl
    · rw [if_neg hc] at hl
      exact h.fresh F₀ y h0 hy hl k b ((vis y _ _ fun hf hyx => hc ⟨hf.symm, hyx⟩).mp hv)

theorem Sees.exists {x : String} {k : Nat} {v : Val} (h : Sees m f x k v) : ∃ F, m[k]? = some F ∧ F.vars.lookup x = some v := by
  induction h with
  | here h1 h2 => exact ⟨_, h1, h2⟩
  | up _ _ _ _ ih => exact ih

/-- What may be defined is not protected. -/
theorem Models.definable (h : Models C N g m φ s) (he : φ[f]? = some e) {x : String} (hx : x ≠ "self") (hd : Definable N m f x) :
    ∀ b, s.localB e x = some b → b.prot = false := by
  intro b hb
  have hlen := (List.getElem?_eq_some_iff.mp he).1
  rw [h.length] at hlen
  have hF := List.getElem?_eq_getElem hlen
  cases hl : (m[f]).vars.lookup x with
  | some v =>
    obtain ⟨d, h1, _⟩ := h.held f _ e x v hF he hx hl
    rw [hb] at h1; cases h1; rfl
  | none =>
    by_cases h0 : f = 0
    · subst h0
      rcases hd rfl with hN | ⟨F, v, h1, h2⟩
      · have := h.fresh _ x hF hN hl
        have hg : e = g := Option.some.inj (he.symm.trans h.top)
        exact absurd (.here (hg ▸ hb)) (this _ _)
      · rw [hF] at h1; cases h1; rw [hl] at h2; cases h2
    · rw [h.free f _ e x h0 hF he hx hl] at hb; cases hb

/-! ### New frames -/

theorem zip_vars {vs : List Val} {ds : List Data} (h : Reps s φ vs ds) : ∀ (ps : List String), ps.length = vs.length → ∀ x,
    (∀ v, (ps.zip vs).lookup x = some v → ∃ d, varsOf ps ds x = some d ∧ Rep s φ v d) ∧ ((ps.zip vs).lookup x = none → varsOf ps ds x = none) := by
  induction h with
  | nil =>
    intro ps hl x
    obtain rfl : ps = [] := List.length_eq_zero_iff.mp hl
    exact ⟨nofun, fun _ => rfl⟩
  | @cons v vs d ds h _ ih =>
    intro ps hl x
    cases ps with
    | nil => cases hl
    | cons p ps =>
      obtain ⟨h1, h2⟩ := ih ps (by simpa using hl) x
      simp only [varsOf, List.zip_cons_cons, List.find?_cons, List.lookup_cons]
      by_cases hx : p = x
      · subst hx
        simp only [beq_self_eq_true]
        exact ⟨fun w hw => ⟨d, rfl, Option.some.inj hw ▸ h⟩, nofun⟩
      · have a1 : (p == x) = false := by simpa using hx
        have a2 : (x == p) = false := by simpa using fun h => hx h.symm
        simp only [a1, a2]
        exact ⟨h1, h2⟩

/-- The new environment of a call stands for the new frame. -/
theorem Models.push (h : Models C N g m φ s) {le p : Nat} {r : EnvRec} (hr : s.envs[le]? = some r) (hp : r.parent = some p) (hf : r.frame = none)
    (hpar : φ[f]? = some p) (hnew : le ∉ φ) (hgl : g ≤ le) {B : List (String × Data)} {ps : List String} {ds : List Data} (hb : r.binds = binds (B ++ ps.zip ds))
    (hn : ps.Nodup) (hB : ∀ p ∈ B, p.1 = "self" ∨ p.1 ∈ ps) {vs : List Val} (hl : ps.length = vs.length) (hv : Reps s φ vs ds) :
    Models C N g (m.push (ps.zip vs) f) (φ ++ [le]) s ∧ (φ ++ [le])[m.length]? = some le := by
  have hlast : (φ ++ [le])[m.length]? = some le := by rw [← h.length]; simp
  have old : ∀ {i k : Nat}, φ[i]? = some k → (φ ++ [le])[i]? = some k := fun hi => getElem?_append_of_some hi _
  have fro : ∀ {i k : Nat} {F : Fr}, m[i]? = some F → (φ ++ [le])[i]? = some k → φ[i]? = some k := by
    intro i k F hF hk
    have := (List.getElem?_eq_some_iff.mp hF).1
    rwa [List.getElem?_append_left (by rw [h.length]; exact this)] at hk
  have last : ∀ {k}, (φ ++ [le])[m.length]? = some k → k = le := fun hk => Option.some.inj (hk.symm.trans hlast)
  have hm0 : m.length ≠ 0 := by
    obtain ⟨F, hF⟩ := h.topFr
    have := (List.getElem?_eq_some_iff.mp hF).1
    omega
  have top : ∀ {F : Fr}, (m.push (ps.zip vs) f)[0]? = some F → m[0]? = some F := fun hF => by
    rcases push_get hF with h1 | ⟨h1, _⟩
    · exact h1
    · exact absurd h1.symm hm0
  have loc : ∀ x, x ≠ "self" → s.localB le x = (varsOf ps ds x).map (⟨·, false⟩) := fun x hx => by
    simp only [Store.localB, hr, hb]
    exact Fun.alGet_params' hn (hl.trans hv.length) hB hx
  refine ⟨⟨h.wf, by simp [Mem.push, h.length], ?_, old h.top, fun k hk => ?_, fun i F hF => ?_, fun i F q k hF hq hk => ?_, fun i F k x v hF hk hx hlk => ?_,
    fun i F k x hi hF hk hx hlk => ?_, fun F x hF hx hlk => h.means F x (top hF) hx hlk, fun F x hF hx hlk => h.fresh F x (top hF) hx hlk, h.table⟩, hlast⟩
  · rw [List.nodup_append]
    refine ⟨h.nodup, by simp, ?_⟩
    rintro a ha b hb rfl
    simp at hb
    exact hnew (hb ▸ ha)
  · rcases List.mem_append.1 hk with hk | hk
    · exact h.exist k hk
    · obtain rfl : k = le := by simpa using hk
      exact ⟨hgl, (List.getElem?_eq_some_iff.mp hr).1, by simp [Store.frameOf, hr, hf]⟩
  · rcases push_get hF with h1 | ⟨rfl, rfl⟩
    · exact h.root i F h1
    · simp [hm0]
  · rcases push_get hF with h1 | ⟨rfl, rfl⟩
    · obtain ⟨e', h2, h3⟩ := h.parent i F q k h1 hq (fro h1 hk)
      exact ⟨e', old h2, h3⟩
    · obtain rfl := last hk
      cases hq
      exact ⟨p, old hpar, by simp [Store.parentOf, hr, hp]⟩
  · rcases push_get hF with h1 | ⟨rfl, rfl⟩
    · obtain ⟨d, h2, h3⟩ := h.held i F k x v h1 (fro h1 hk) hx hlk
      exact ⟨d, h2, h3.keep (fun _ _ => old) (fun _ fr h => ⟨fr.slot, h⟩) fun _ _ h => h⟩
    · obtain rfl := last hk
      obtain ⟨d, h2, h3⟩ := (zip_vars hv ps hl x).1 v hlk
      exact ⟨d, by rw [loc x hx, h2]; rfl, h3.keep (fun _ _ => old) (fun _ fr h => ⟨fr.slot, h⟩) fun _ _ h => h⟩
  · rcases push_get hF with h1 | ⟨rfl, rfl⟩
    · exact h.free i F k x hi h1 (fro h1 hk) hx hlk
    · obtain rfl := last hk
      rw [loc x hx, (zip_vars hv ps hl x).2 hlk]; rfl

/-! ### Built-in procedures -/

/-- What running a built-in procedure on values gives. -/
def StablePrim (C : Conf) (x : String) (vs : List Val) (v : Val) : Prop :=
  x ∈ purePrims ∧ vs ≠ [] ∧ ∃ P, (std C.host).prims x = some P ∧ P.special = false ∧ P.restricted = false ∧
    Arity.checkArgumentCount (Arity.parseNumArgs P.args) vs.length = true ∧
    ∀ (s : Store) (φ : List Nat) (e : Nat) (ds : List Data), Reps s φ vs ds → ∃ d, RunsP (body C) (P.body (ofArray ds) e) s (.ok d) s ∧ Rep s φ v d

theorem rep_elem {v : Val} {d : Data} (h : Rep s φ v d) : Rep s φ v (noNull d) := by rw [← elem_eq_noNull]; exact h.elem

theorem reps_one {v : Val} {ds : List Data} (h : Reps s φ [v] ds) : ∃ d, ds = [d] ∧ Rep s φ v d := by
  cases h with | cons h1 h2 => cases h2; exact ⟨_, rfl, h1⟩
theorem reps_two {v w : Val} {ds : List Data} (h : Reps s φ [v, w] ds) : ∃ d d', ds = [d, d'] ∧ Rep s φ v d ∧ Rep s φ w d' := by
  cases h with | cons h1 h2 => obtain ⟨d, rfl, h⟩ := reps_one h2; exact ⟨_, _, rfl, h1, h⟩
theorem reps_three {u v w : Val} {ds : List Data} (h : Reps s φ [u, v, w] ds) :
    ∃ d d' d'', ds = [d, d', d''] ∧ Rep s φ u d ∧ Rep s φ v d' ∧ Rep s φ w d'' := by
  cases h with | cons h1 h2 => obtain ⟨d, d', rfl, h, h'⟩ := reps_two h2; exact ⟨_, _, _, rfl, h1, h, h'⟩

theorem rep_const {a : Atom} {d : Data} (h : Rep s φ (.const a) d) : d = .atom a ∧ Plain a := by cases h with | const h => exact ⟨rfl, h⟩
theorem rep_nil {d : Data} (h : Rep s φ .nil d) : Fun.Empty d := by cases h with | nil h => exact h
theorem rep_pair {v w : Val} {d : Data} (h : Rep s φ (.pair v w) d) : ∃ x y, d = .cons x y ∧ x ≠ .null ∧ Rep s φ v x ∧ Rep s φ w y := by
  cases h with | pair h1 h2 h3 => exact ⟨_, _, rfl, h1, h2, h3⟩

set_option maxRecDepth 20000 in
theorem builtin_ok {x : String} {vs : List Val} {v : Val} (h : Builtin x vs v) : StablePrim C x vs v := by
  cases h with
  | @add a b =>
    refine ⟨by simp [purePrims], by simp, _, rfl, rfl, rfl, rfl, fun s φ e ds hd => ?_⟩
    obtain ⟨_, _, rfl, h1, h2⟩ := reps_two hd
    obtain ⟨rfl, _⟩ := rep_const h1; obtain ⟨rfl, _⟩ := rep_const h2
    refine ⟨_, Fun.runs_value (v := int (0 + a + b)) rfl s, ?_⟩
    have : (0 : BitVec 64) + a + b = a + b := by simp
    rw [this]; exact .const trivial
  | @sub a b =>
    refine ⟨by simp [purePrims], by simp, _, rfl, rfl, rfl, rfl, fun s φ e ds hd => ?_⟩
    obtain ⟨_, _, rfl, h1, h2⟩ := reps_two hd
    obtain ⟨rfl, _⟩ := rep_const h1; obtain ⟨rfl, _⟩ := rep_const h2
    exact ⟨_, Fun.runs_value rfl s, .const trivial⟩
  | @mul a b =>
    refine ⟨by simp [purePrims], by simp, _, rfl, rfl, rfl, rfl, fun s φ e ds hd => ?_⟩
    obtain ⟨_, _, rfl, h1, h2⟩ := reps_two hd
    obtain ⟨rfl, _⟩ := rep_const h1; obtain ⟨rfl, _⟩ := rep_const h2
    refine ⟨_, Fun.runs_value (v := int (1 * a * b)) rfl s, ?_⟩
    have : (1 : BitVec 64) * a * b = a * b := by simp
    rw [this]; exact .const trivial
  | @less a b ha hb =>
    refine ⟨by simp [purePrims], by simp, _, rfl, rfl, rfl, rfl, fun s φ e ds hd => ?_⟩
    obtain ⟨_, _, rfl, h1, h2⟩ := reps_two hd
    obtain ⟨rfl, _⟩ := rep_const h1; obtain ⟨rfl, _⟩ := rep_const h2
    refine ⟨_, Fun.runs_value (v := bool (decide (a.toInt < b.toInt))) ?_ s, .const trivial⟩
    show Prog.ofOut (Prim.lessThan (int a) (int b)) = _
    rw [(Props.C21_exact_partial a b ha hb).1]
    rfl
  | @greater a b ha hb =>
    refine ⟨by simp [purePrims], by simp, _, rfl, rfl, rfl, rfl, fun s φ e ds hd => ?_⟩
    obtain ⟨_, _, rfl, h1, h2⟩ := reps_two hd
    obtain ⟨rfl, _⟩ := rep_const h1; obtain ⟨rfl, _⟩ := rep_const h2
    refine ⟨_, Fun.runs_value (v := bool (decide (b.toInt < a.toInt))) ?_ s, .const trivial⟩
    show Prog.ofOut (Prim.greaterThan (int a) (int b)) = _
    rw [(Props.C21_exact_partial a b ha hb).2.1]
    rfl
  | @same x a b hx ha hb hf =>
    rcases hx with rfl | rfl | rfl
    all_goals
      refine ⟨by simp [purePrims], by simp, _, rfl, rfl, rfl, rfl, fun s φ e ds hd => ?_⟩
      obtain ⟨_, _, rfl, h1, h2⟩ := reps_two hd
      obtain ⟨rfl, _⟩ := rep_const h1; obtain ⟨rfl, _⟩ := rep_const h2
      refine ⟨_, runsP_get.mpr (Fun.runs_value (v := bool (decide (a = b))) ?_ s), .const trivial⟩
      rw [← @Fun.isEqual_plain (Frame.eqIn s.frames) a b ha hf]
      rfl
  | @not a =>
    refine ⟨by simp [purePrims], by simp, _, rfl, rfl, rfl, rfl, fun s φ e ds hd => ?_⟩
    obtain ⟨_, rfl, h1⟩ := reps_one hd
    obtain ⟨rfl, _⟩ := rep_const h1
    exact ⟨_, Fun.runs_value (v := bool (!a)) (by cases a <;> rfl) s, .const trivial⟩
  | @cons v w =>
    refine ⟨by simp [purePrims], by simp, _, rfl, rfl, rfl, rfl, fun s φ e ds hd => ?_⟩
    obtain ⟨a, d, rfl, h1, h2⟩ := reps_two hd
    exact ⟨_, Fun.runs_value (v := cons (noNull a) (noNull d)) rfl s, .pair (noNull_ne_null a) (rep_elem h1) (rep_elem h2)⟩
  | @list _ hne =>
    refine ⟨by simp [purePrims], hne, _, rfl, rfl, rfl, ?_, fun s φ e ds hd => ?_⟩
    · rfl
    · refine ⟨_, Fun.runs_value (v := ofArray ds) rfl s, ?_⟩
      rw [← ofArray_elem]
      exact rep_newList hd.elems (Fun.null_elems ds) (Fun.newList_array (Fun.null_elems ds))
  | @car v w =>
    refine ⟨by simp [purePrims], by simp, _, rfl, rfl, rfl, rfl, fun s φ e ds hd => ?_⟩
    obtain ⟨_, rfl, h1⟩ := reps_one hd
    obtain ⟨a, d, rfl, hn, h2, h3⟩ := rep_pair h1
    exact ⟨a, Fun.runs_value rfl s, h2⟩
  | @cdr v w =>
    refine ⟨by simp [purePrims], by simp, _, rfl, rfl, rfl, rfl, fun s φ e ds hd => ?_⟩
    obtain ⟨_, rfl, h1⟩ := reps_one hd
    obtain ⟨a, d, rfl, hn, h2, h3⟩ := rep_pair h1
    exact ⟨d, Fun.runs_value rfl s, h3⟩
  | @cadr _ v w =>
    refine ⟨by simp [purePrims], by simp, _, rfl, rfl, rfl, rfl, fun s φ e ds hd => ?_⟩
    obtain ⟨_, rfl, h1⟩ := reps_one hd
    obtain ⟨a, d, rfl, hn, h2, h3⟩ := rep_pair h1
    obtain ⟨a', d', rfl, hn', h2', h3'⟩ := rep_pair h3
    exact ⟨a', Fun.runs_value rfl s, h2'⟩
  | @caddr _ _ v w =>
    refine ⟨by simp [purePrims], by simp, _, rfl, rfl, rfl, rfl, fun s φ e ds hd => ?_⟩
    obtain ⟨_, rfl, h1⟩ := reps_one hd
    obtain ⟨a, d, rfl, hn, h2, h3⟩ := rep_pair h1
    obtain ⟨a', d', rfl, hn', h2', h3'⟩ := rep_pair h3
    obtain ⟨a'', d'', rfl, hn'', h2'', h3''⟩ := rep_pair h3'
    exact ⟨a'', Fun.runs_value rfl s, h2''⟩
  | @empty x hx =>
    rcases hx with rfl | rfl
    all_goals
      refine ⟨by simp [purePrims], by simp, _, rfl, rfl, rfl, rfl, fun s φ e ds hd => ?_⟩
      obtain ⟨_, rfl, h1⟩ := reps_one hd
      refine ⟨_, Fun.runs_value (v := bool true) ?_ s, .const trivial⟩
      rcases rep_nil h1 with rfl | rfl <;> rfl
  | @notEmpty x v w hx =>
    rcases hx with rfl | rfl
    all_goals
      refine ⟨by simp [purePrims], by simp, _, rfl, rfl, rfl, rfl, fun s φ e ds hd => ?_⟩
      obtain ⟨_, rfl, h1⟩ := reps_one hd
      obtain ⟨a, d, rfl, hn, h2, h3⟩ := rep_pair h1
      refine ⟨_, Fun.runs_value (v := bool false) ?_ s, .const trivial⟩
      show (pure (bool (isNil (Data.cons a d))) : Prog Data) = _
      rw [(isNil_cell_false .cons a d).mpr fun h => hn h.1]
  | @pair x v w hx =>
    rcases hx with rfl | rfl
    all_goals
      refine ⟨by simp [purePrims], by simp, _, rfl, rfl, rfl, rfl, fun s φ e ds hd => ?_⟩
      obtain ⟨_, rfl, h1⟩ := reps_one hd
      obtain ⟨a, d, rfl, hn, h2, h3⟩ := rep_pair h1
      exact ⟨_, Fun.runs_value (v := bool true) rfl s, .const trivial⟩
  | @notPair x a hx =>
    rcases hx with rfl | rfl
    all_goals
      refine ⟨by simp [purePrims], by simp, _, rfl, rfl, rfl, rfl, fun s φ e ds hd => ?_⟩
      obtain ⟨_, rfl, h1⟩ := reps_one hd
      obtain ⟨rfl, _⟩ := rep_const h1
      exact ⟨_, Fun.runs_value (v := bool false) rfl s, .const trivial⟩
  | @symbol x =>
    refine ⟨by simp [purePrims], by simp, _, rfl, rfl, rfl, rfl, fun s φ e ds hd => ?_⟩
    obtain ⟨_, rfl, h1⟩ := reps_one hd
    obtain ⟨rfl, _⟩ := rep_const h1
    exact ⟨_, Fun.runs_value (v := bool true) rfl s, .const trivial⟩
  | @notSymbol a ha =>
    refine ⟨by simp [purePrims], by simp, _, rfl, rfl, rfl, rfl, fun s φ e ds hd => ?_⟩
    obtain ⟨_, rfl, h1⟩ := reps_one hd
    obtain ⟨rfl, _⟩ := rep_const h1
    exact ⟨_, Fun.runs_value (v := bool false) (by cases a <;> first | rfl | exact absurd rfl (ha _)) s, .const trivial⟩
  | @number n =>
    refine ⟨by simp [purePrims], by simp, _, rfl, rfl, rfl, rfl, fun s φ e ds hd => ?_⟩
    obtain ⟨_, rfl, h1⟩ := reps_one hd
    obtain ⟨rfl, _⟩ := rep_const h1
    exact ⟨_, Fun.runs_value (v := bool true) rfl s, .const trivial⟩
  | @notNumber a ha ha' =>
    refine ⟨by simp [purePrims], by simp, _, rfl, rfl, rfl, rfl, fun s φ e ds hd => ?_⟩
    obtain ⟨_, rfl, h1⟩ := reps_one hd
    obtain ⟨rfl, _⟩ := rep_const h1
    exact ⟨_, Fun.runs_value (v := bool false) (by cases a <;> first | rfl | exact absurd rfl (ha _) | exact absurd rfl (ha' _)) s, .const trivial⟩


end Golisp.Imp
