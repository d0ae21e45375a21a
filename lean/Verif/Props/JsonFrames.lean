import Verif.Json
import Verif.ListLemmas
import Verif.Props.Floats
/-
Property C57: JSON round trip through frames.
-/
namespace Golisp.Props
open Golisp Data Spec Json

/-! Lists. -/

theorem all2_imp {α β : Type} {R S : α → β → Prop} {l : List α} {m : List β} (h : All2 R l m)
    (hi : ∀ a ∈ l, ∀ b ∈ m, R a b → S a b) : All2 S l m := by
  induction h with
  | nil => exact .nil
  | cons h1 _ ih =>
    exact .cons (hi _ (by simp) _ (by simp) h1) (ih fun a ha b hb => hi a (by simp [ha]) b (by simp [hb]))

theorem all2_length {α β : Type} {R : α → β → Prop} {l : List α} {m : List β} (h : All2 R l m) : l.length = m.length := by
  induction h with
  | nil => rfl
  | cons _ _ ih => simp [ih]

private theorem all2_append {α β : Type} {R : α → β → Prop} {l l' : List α} {m m' : List β} (h : All2 R l m) (h' : All2 R l' m') :
    All2 R (l ++ l') (m ++ m') := by
  induction h with
  | nil => exact h'
  | cons h1 _ ih => exact .cons h1 ih

/-- A relation can follow a reordering. -/
theorem all2_perm {α β : Type} {R : α → β → Prop} {l l' : List α} (hp : l'.Perm l) :
    ∀ {m : List β}, All2 R l m → ∃ m' : List β, m'.Perm m ∧ All2 R l' m' := by
  induction hp with
  | nil => intro m h; exact ⟨m, .refl _, h⟩
  | cons x hp ih =>
    intro m h
    cases h with
    | cons h1 h2 =>
      obtain ⟨m', hm, hr⟩ := ih h2
      exact ⟨_, hm.cons _, .cons h1 hr⟩
  | swap x y l =>
    intro m h
    cases h with
    | cons h1 h2 =>
      cases h2 with
      | cons h3 h4 => exact ⟨_, .swap _ _ _, .cons h3 (.cons h1 h4)⟩
  | trans _ _ ih1 ih2 =>
    intro m h
    obtain ⟨m1, hp1, h1⟩ := ih2 h
    obtain ⟨m2, hp2, h2⟩ := ih1 h1
    exact ⟨m2, hp2.trans hp1, h2⟩

private theorem all2_map {α β α' β' : Type} {R : α' → β' → Prop} {f : α → α'} {g : β → β'} : ∀ {l : List α} {m : List β},
    All2 R (l.map f) (m.map g) ↔ All2 (fun a b => R (f a) (g b)) l m
  | [], [] => ⟨fun _ => .nil, fun _ => .nil⟩
  | [], _ :: _ => by constructor <;> intro h <;> cases h
  | _ :: _, [] => by constructor <;> intro h <;> cases h
  | a :: l, b :: m => by
    constructor
    · intro h; cases h with | cons h1 h2 => exact .cons h1 (all2_map.mp h2)
    · intro h; cases h with | cons h1 h2 => exact .cons h1 (all2_map.mpr h2)

theorem all2_fields {α : Type} {R : α → Val → Prop} {key : String → String} : ∀ {l : List (String × α)} {m : List (String × Val)},
    (l.map (·.1) = m.map (fun e => key e.1) ∧ All2 R (l.map (·.2)) (m.map (·.2))) ↔
      All2 (fun a b => a.1 = key b.1 ∧ R a.2 b.2) l m
  | [], [] => ⟨fun _ => .nil, fun _ => ⟨rfl, .nil⟩⟩
  | [], _ :: _ => by
    constructor <;> intro h
    · cases h.2
    · cases h
  | _ :: _, [] => by
    constructor <;> intro h
    · cases h.2
    · cases h
  | a :: l, b :: m => by
    constructor
    · rintro ⟨h1, h2⟩
      simp only [List.map_cons, List.cons.injEq] at h1
      cases h2 with | cons h3 h4 => exact .cons ⟨h1.1, h3⟩ (all2_fields.mp ⟨h1.2, h4⟩)
    · intro h
      cases h with
      | cons h1 h2 =>
        obtain ⟨h3, h4⟩ := all2_fields.mpr h2
        exact ⟨by simp [h1.1, h3], .cons h1.2 h4⟩

theorem all2_get {α β : Type} {R : α → β → Prop} {l : List α} {m : List β} (h : All2 R l m) :
    ∀ a ∈ l, ∃ b ∈ m, R a b := by
  induction h with
  | nil => simp
  | @cons a b _ _ h1 _ ih =>
    intro x hx
    rcases List.mem_cons.mp hx with rfl | hx
    · exact ⟨b, by simp, h1⟩
    · obtain ⟨b', h1, h2⟩ := ih x hx; exact ⟨b', by simp [h1], h2⟩

/-! Strings and maps. -/

private theorem dropWhile_head {α : Type} {p : α → Bool} : ∀ {l : List α}, (∀ a r, l = a :: r → p a = false) → l.dropWhile p = l
  | [], _ => rfl
  | a :: r, h => by rw [List.dropWhile_cons, h a r rfl]; rfl

private theorem trimColons_key {k : String} (h : ∀ k', k ≠ k' ++ ":") : trimColons (k ++ ":") = k := by
  unfold trimColons
  have : (k ++ ":").toList.reverse = ':' :: k.toList.reverse := by simp
  rw [this, List.dropWhile_cons]
  simp only [decide_true, if_true]
  rw [dropWhile_head]
  · simp
  · intro a r ha
    apply Classical.byContradiction
    intro hn
    have hn : a = ':' := by simpa using hn
    subst hn
    apply h (String.ofList r.reverse)
    have h2 : k.toList = r.reverse ++ [':'] := by
      have := congrArg List.reverse ha
      simpa using this
    rw [← String.toList_inj, h2]; simp

theorem alSet_new {α : Type} : ∀ {m : List (String × α)} {k : String} {v : α}, k ∉ m.map (·.1) → alSet m k v = m ++ [(k, v)]
  | [], _, _, _ => rfl
  | (k', v') :: m, k, v, h => by
    simp only [List.map_cons, List.mem_cons, not_or] at h
    simp only [alSet, List.cons_append]
    rw [if_neg (fun e => h.1 e.symm), alSet_new h.2]

theorem mapOf_nodup {α : Type} {l : List (String × α)} (h : (l.map (·.1)).Nodup) : mapOf l = l := by
  have key : ∀ (l m : List (String × α)), ((m ++ l).map (·.1)).Nodup → l.foldl (fun m e => alSet m e.1 e.2) m = m ++ l := by
    intro l
    induction l with
    | nil => intro m _; simp
    | cons e l ih =>
      intro m hn
      rw [List.foldl_cons, alSet_new, ih]
      · simp
      · simpa using hn
      · intro hm
        rw [List.map_append, List.nodup_append] at hn
        exact hn.2.2 _ hm _ (by simp) rfl
  exact key l [] (by simpa using h)

/-! From Lisp to JSON. -/

private theorem mapOut_ok {α β : Type} {f : α → Out β} {S : α → β → Prop} : ∀ {l : List α}, (∀ a ∈ l, ∃ b, f a = .ok b ∧ S a b) →
    ∃ bs, mapOut f l = .ok bs ∧ All2 S l bs
  | [], _ => ⟨[], rfl, .nil⟩
  | a :: l, h => by
    obtain ⟨b, h1, h2⟩ := h a (by simp)
    obtain ⟨bs, h3, h4⟩ := mapOut_ok (l := l) fun x hx => h x (by simp [hx])
    exact ⟨b :: bs, by simp only [mapOut, h1, h3], .cons h2 h4⟩

private theorem all2_comp {α β γ : Type} {R : α → β → Prop} {S : α → γ → Prop} {l : List α} {m : List β} (h : All2 R l m) :
    ∀ {n : List γ}, All2 S l n → All2 (fun c b => ∃ a, a ∈ l ∧ R a b ∧ S a c) n m := by
  induction h with
  | nil => intro n h; cases h; exact .nil
  | cons h1 _ ih =>
    intro n h
    cases h with
    | cons h2 h3 =>
      refine .cons ⟨_, by simp, h1, h2⟩ (all2_imp (ih h3) ?_)
      rintro c _ b _ ⟨a, ha, h⟩
      exact ⟨a, by simp [ha], h⟩

/-- Enough depth for all elements. -/
private theorem bound {α : Type} {P : Nat → α → Prop} : ∀ {l : List α}, (∀ a ∈ l, ∃ n, ∀ m, n ≤ m → P m a) →
    ∃ n, ∀ m, n ≤ m → ∀ a ∈ l, P m a
  | [], _ => ⟨0, by simp⟩
  | a :: l, h => by
    obtain ⟨n, h1⟩ := h a (by simp)
    obtain ⟨n', h2⟩ := bound (l := l) fun x hx => h x (by simp [hx])
    refine ⟨max n n', fun m hm x hx => ?_⟩
    rcases List.mem_cons.mp hx with rfl | hx
    · exact h1 m (by omega)
    · exact h2 m (by omega) x hx

private theorem all2_choose {α β : Type} {R : α → β → Prop} {P : Nat → α → β → Prop} {l : List α} {m : List β} (h : All2 R l m)
    (hi : ∀ a ∈ l, ∀ b ∈ m, R a b → ∃ n, ∀ k, n ≤ k → P k a b) : ∃ n, ∀ k, n ≤ k → All2 (P k) l m := by
  induction h with
  | nil => exact ⟨0, fun _ _ => .nil⟩
  | cons h1 _ ih =>
    obtain ⟨n, h2⟩ := hi _ (by simp) _ (by simp) h1
    obtain ⟨n', h3⟩ := ih fun a ha b hb => hi a (by simp [ha]) b (by simp [hb])
    exact ⟨max n n', fun k hk => .cons (h2 k (by omega)) (h3 k (by omega))⟩

private theorem mapOut_all2 {α β γ : Type} {f : α → Out γ} {S : γ → β → Prop} {l : List α} {m : List β}
    (h : All2 (fun a b => ∃ c, f a = .ok c ∧ S c b) l m) : ∃ cs, mapOut f l = .ok cs ∧ All2 S cs m := by
  induction h with
  | nil => exact ⟨[], rfl, .nil⟩
  | cons h1 _ ih =>
    obtain ⟨c, h2, h3⟩ := h1
    obtain ⟨cs, h4, h5⟩ := ih
    exact ⟨c :: cs, by simp only [mapOut, h2, h4], .cons h3 h5⟩

private theorem isFunc_denotes {fl : Prop} {F : Frames} {d : Data} {v : Val} (h : StandsFor fl F d v) : isFunc d = false := by
  cases h <;> rfl

theorem size_mem {e : String × Val} {fs : List (String × Val)} (h : e ∈ fs) : sizeOf e.2 < sizeOf (Val.obj fs) := by
  have h1 := List.sizeOf_lt_of_mem h
  have h2 : sizeOf e.2 < sizeOf e := by obtain ⟨k, v⟩ := e; simp; omega
  simp; omega

/-- The JSON tree for a Lisp value stands for the same thing as the value, whatever the order in which maps are traversed.
Frames that contain themselves do not denote anything; for all others the recursion ends. -/
theorem C57_to_json {fl : Prop} {F : Frames} {ord : Json.Order} (ho : Permutes ord) : ∀ (v : Val) (d : Data), StandsFor fl F d v →
    ∃ n, ∀ m, n ≤ m → ∃ j, ofLispN F ord m d = .ok j ∧ Represents fl j v
  | v, d, h => by
    cases h with
    | int n => exact ⟨1, fun m hm => by obtain ⟨k, rfl⟩ : ∃ k, m = k + 1 := ⟨m - 1, by omega⟩; exact ⟨_, by rw [ofLispN], .int n⟩⟩
    | flt b hfl hb => exact ⟨1, fun m hm => by obtain ⟨k, rfl⟩ : ∃ k, m = k + 1 := ⟨m - 1, by omega⟩; exact ⟨_, by rw [ofLispN], .f32 b hfl hb⟩⟩
    | bool b => exact ⟨1, fun m hm => by obtain ⟨k, rfl⟩ : ∃ k, m = k + 1 := ⟨m - 1, by omega⟩; exact ⟨_, by rw [ofLispN], .bool b⟩⟩
    | str s => exact ⟨1, fun m hm => by obtain ⟨k, rfl⟩ : ∃ k, m = k + 1 := ⟨m - 1, by omega⟩; exact ⟨_, by rw [ofLispN], .str s⟩⟩
    | arr a d ds vs hl hd =>
      have hc := all2_choose (P := fun k d v => ∃ j, ofLispN F ord k d = .ok j ∧ Represents fl j v) hd
        (fun d _ v hv hdv => by
          have := List.sizeOf_lt_of_mem hv
          exact C57_to_json ho v d hdv)
      obtain ⟨n, hn⟩ := hc
      refine ⟨n + 1, fun m hm => ?_⟩
      obtain ⟨k, rfl⟩ : ∃ k, m = k + 1 := ⟨m - 1, by omega⟩
      obtain ⟨js, h1, h2⟩ := mapOut_all2 (hn k (by omega))
      exact ⟨.arr js, by rw [ofLispN, hl.toArray, h1], .arr js vs h2⟩
    | frame i fs fs' hi hp hnd hcol hk hv =>
      have hf := all2_fields (key := fun k => k ++ ":") |>.mp ⟨hk, hv⟩
      obtain ⟨fs'', hp', hf'⟩ := all2_perm (ho (Frame.get? F i)) hf
      have hp2 := hp'.trans hp
      have hc := all2_choose (P := fun k (a : String × Data) (b : String × Val) => ∃ j, ofLispN F ord k a.2 = .ok j ∧
          a.1 = b.1 ++ ":" ∧ Represents fl j b.2) hf'
        (fun a _ b hb hab => by
          have := size_mem (hp2.mem_iff.mp hb)
          obtain ⟨n, hn⟩ := C57_to_json ho b.2 a.2 hab.2
          refine ⟨n, fun k hk => ?_⟩
          obtain ⟨j, h1, h2⟩ := hn k hk
          exact ⟨j, h1, hab.1, h2⟩)
      obtain ⟨n, hn⟩ := hc
      refine ⟨n + 1, fun m hm => ?_⟩
      obtain ⟨k, rfl⟩ : ∃ k, m = k + 1 := ⟨m - 1, by omega⟩
      have hfil : (ord (Frame.get? F i)).filter (fun e => !isFunc e.2) = ord (Frame.get? F i) := by
        rw [List.filter_eq_self]
        intro a ha
        obtain ⟨b, _, hb⟩ := all2_get hf' a ha
        rw [isFunc_denotes hb.2]; rfl
      have hcol' : ∀ e ∈ fs'', ∀ k, e.1 ≠ k ++ ":" := fun e he => hcol e (hp2.mem_iff.mp he)
      have hc2 : All2 (fun a b => ∃ c : String × Json, keyed a.1 (ofLispN F ord k a.2) = .ok c ∧ (c.1 = b.1 ∧ Represents fl c.2 b.2)) (ord (Frame.get? F i)) fs'' := by
        refine all2_imp (hn k (by omega)) ?_
        rintro a _ b hb ⟨j, h1, h2, h3⟩
        refine ⟨(b.1, j), ?_, rfl, h3⟩
        rw [h1, h2]; simp only [keyed]; rw [trimColons_key (hcol' b hb)]
      obtain ⟨js, h1, h2⟩ := mapOut_all2 hc2
      have h3 := all2_fields (key := fun x => x).mpr h2
      have hnd' : (js.map (·.1)).Nodup := by rw [h3.1]; exact (hp2.map _).nodup_iff.mpr hnd
      refine ⟨.obj js, ?_, .obj js fs fs'' hp2 hnd hcol h3.1 h3.2⟩
      rw [ofLispN, hfil, h1]
      simp only [mapOf_nodup hnd']
termination_by v => sizeOf v
decreasing_by all_goals first | assumption | (simp only [Val.arr.sizeOf_spec]; omega)

/-! From JSON to Lisp. -/

private theorem get_append {F G : Frames} {i : Nat} (h : i < F.length) : Frame.get? (F ++ G) i = Frame.get? F i := by
  unfold Frame.get?; rw [List.getElem?_append_left h]

private theorem standsFor_append {fl : Prop} {F G : Frames} : ∀ (v : Val) (d : Data), StandsFor fl F d v → StandsFor fl (F ++ G) d v
  | v, d, h => by
    cases h with
    | int n => exact .int n
    | flt b hfl hb => exact .flt b hfl hb
    | bool b => exact .bool b
    | str s => exact .str s
    | arr a d ds vs hl hd =>
      refine .arr a d ds vs hl (all2_imp hd fun d _ v hv h => ?_)
      have := List.sizeOf_lt_of_mem hv
      exact standsFor_append v d h
    | frame i fs fs' hi hp hnd hcol hk hv =>
      refine .frame i fs fs' (by simp; omega) hp hnd hcol (by rw [get_append hi]; exact hk) ?_
      rw [get_append hi]
      refine all2_imp hv fun d _ v hv h => ?_
      obtain ⟨e, he, rfl⟩ := List.mem_map.mp hv
      have := size_mem (hp.mem_iff.mp he)
      exact standsFor_append e.2 d h
termination_by v => sizeOf v
decreasing_by all_goals first | assumption | (simp only [Val.arr.sizeOf_spec]; omega)

private theorem round_scale (j N : Nat) : F32.round j (N * 2 ^ j) = F32.round 0 N := by
  by_cases h0 : N = 0
  · subst h0; simp [F32.round, F32.cut, F32.up]
  have hlog : (N * 2 ^ j).log2 = N.log2 + j := by
    have hne : N * 2 ^ j ≠ 0 := Nat.mul_ne_zero h0 (Nat.pos_iff_ne_zero.1 (Nat.pow_pos (by omega)))
    rw [Nat.log2_eq_iff hne]
    have h1 := Nat.log2_self_le h0
    have h2 : N < 2 ^ (N.log2 + 1) := Nat.lt_log2_self
    constructor
    · rw [Nat.pow_add]; exact Nat.mul_le_mul_right _ h1
    · rw [show N.log2 + j + 1 = (N.log2 + 1) + j by omega, Nat.pow_add]
      exact Nat.mul_lt_mul_of_pos_right h2 (Nat.pow_pos (by omega))
  have hcut : F32.cut j (N * 2 ^ j) = F32.cut 0 N + j := by unfold F32.cut; rw [hlog]; omega
  have hpos : 0 < 2 ^ j := Nat.pow_pos (by omega)
  have hdiv : N * 2 ^ j / 2 ^ (F32.cut 0 N + j) = N / 2 ^ F32.cut 0 N := by
    rw [Nat.pow_add, Nat.mul_div_mul_right _ _ hpos]
  have hmod : N * 2 ^ j % 2 ^ (F32.cut 0 N + j) = N % 2 ^ F32.cut 0 N * 2 ^ j := by
    rw [Nat.pow_add, Nat.mul_mod_mul_right]
  have hup : F32.up (F32.cut 0 N + j) (N * 2 ^ j) = F32.up (F32.cut 0 N) N := by
    unfold F32.up
    rw [hdiv, hmod, Nat.pow_add]
    have e1 : 2 * (N % 2 ^ F32.cut 0 N * 2 ^ j) > 2 ^ F32.cut 0 N * 2 ^ j ↔ 2 * (N % 2 ^ F32.cut 0 N) > 2 ^ F32.cut 0 N := by
      rw [← Nat.mul_assoc]; exact Nat.mul_lt_mul_right hpos
    have e2 : 2 * (N % 2 ^ F32.cut 0 N * 2 ^ j) = 2 ^ F32.cut 0 N * 2 ^ j ↔ 2 * (N % 2 ^ F32.cut 0 N) = 2 ^ F32.cut 0 N := by
      rw [← Nat.mul_assoc]; exact Nat.mul_left_inj (Nat.pos_iff_ne_zero.1 hpos)
    simp only [e1, e2]
  unfold F32.round
  rw [hcut, hdiv, hup, Nat.add_sub_cancel, Nat.sub_zero]

/-- A float32's value is read back as a float32 with that value. -/
private theorem value_back {b : BitVec 32} (hb : F32.mag b < F32.infMag) (h0 : F32.value b * 2 ^ 925 ≠ 0) :
    F32.mag (F32.ofScaled 925 false (F32.value b * 2 ^ 925)) < F32.infMag ∧
      F32.value (F32.ofScaled 925 false (F32.value b * 2 ^ 925)) = F32.value b := by
  have hv0 : F32.value b ≠ 0 := by intro h; rw [h] at h0; simp at h0
  have habs : (F32.value b).natAbs = F32.scaled (F32.mag b) := by unfold F32.value; split <;> omega
  have habs' : (F32.value b * 2 ^ 925).natAbs = F32.scaled (F32.mag b) * 2 ^ 925 := by
    rw [Int.natAbs_mul, habs]; congr 1
  unfold F32.ofScaled
  rw [if_neg h0, habs', round_scale, C64_round_exact _ hb]
  have hi : F32.infMag < 2 ^ 31 := by decide
  have hsign : decide (F32.value b * 2 ^ 925 < 0) = F32.neg b := by
    have hpos : (0 : Int) < 2 ^ 925 := Int.pow_pos (by decide)
    have hs : 0 < F32.scaled (F32.mag b) := by omega
    cases hn : F32.neg b
    · have : F32.value b = F32.scaled (F32.mag b) := by unfold F32.value; rw [hn]; rfl
      have h1 : ¬ F32.value b * 2 ^ 925 < 0 := by
        have := Int.mul_nonneg (show (0 : Int) ≤ F32.value b by omega) (Int.le_of_lt hpos); omega
      exact decide_eq_false h1
    · have : F32.value b = -(F32.scaled (F32.mag b) : Int) := by unfold F32.value; rw [hn]; rfl
      have h1 : F32.value b * 2 ^ 925 < 0 := Int.mul_neg_of_neg_of_pos (by omega) hpos
      exact decide_eq_true h1
  rw [hsign]
  have h1 := F32.mag_mk (F32.neg b) (F32.mag b) (by omega)
  have h2 := F32.neg_mk (F32.neg b) (F32.mag b) (by omega)
  refine ⟨by rw [h1]; exact hb, ?_⟩
  unfold F32.value; rw [h1, h2]

theorem one_eq : one = 2 ^ 1074 := by unfold one; rfl
theorem one_pos : 0 < one := Int.pow_pos (by decide)

theorem number_denotes {fl : Prop} {F : Frames} {v : Int} (h : LispNumber fl v) : StandsFor fl F (number v) (.num v) := by
  unfold number
  rcases h with ⟨n, rfl, h1, h2⟩ | ⟨hfl, hn, b, hb, rfl⟩
  · rw [← one_eq]
    have e1 : n * one % one = 0 := Int.mul_emod_left n one
    have e2 : n * one / one = n := Int.mul_ediv_cancel _ (Int.ne_of_gt one_pos)
    rw [if_pos e1, e2, if_pos ⟨h1, h2⟩]
    have : (BitVec.ofInt 64 n).toInt = n := by
      rw [BitVec.toInt_ofInt, Int.bmod_eq_of_le] <;> omega
    have h3 := StandsFor.int (fl := fl) (F := F) (BitVec.ofInt 64 n)
    rw [this] at h3; exact h3
  · have hne : ¬ f32Val b % one = 0 := by
      intro h
      apply hn (f32Val b / one)
      rw [← one_eq]
      have := Int.mul_ediv_add_emod (f32Val b) one
      rw [h] at this
      rw [Int.mul_comm]; omega
    rw [if_neg hne]
    have h0 : F32.value b * 2 ^ 925 ≠ 0 := by
      intro h; apply hne; unfold f32Val; rw [h]; exact Int.zero_emod _
    obtain ⟨h1, h2⟩ := value_back hb h0
    have h3 := StandsFor.flt (fl := fl) (F := F) _ hfl h1
    unfold f32Val at h3 ⊢
    rw [h2] at h3; exact h3

private theorem standsFor_not_null {fl : Prop} {F : Frames} {d : Data} {v : Val} (h : StandsFor fl F d v) : d ≠ .null := by
  cases h <;> simp

theorem lst_foldl : ∀ (ds : List Data), (∀ d ∈ ds, d ≠ .null) → ∀ {acc : Data} {xs : List Data}, Lst acc xs →
    Lst (ds.foldl (fun acc d => .cons d acc) acc) (ds.reverse ++ xs)
  | [], _, acc, xs, h => by simpa using h
  | d :: ds, hn, acc, xs, h => by
    rw [List.foldl_cons, List.reverse_cons, List.append_assoc]
    exact lst_foldl ds (fun x hx => hn x (by simp [hx])) (.cons .cons d acc xs (fun e => hn d (by simp) e.1) (by simp) h)

theorem foldl_shape : ∀ (ds : List Data) (acc : Data), (∃ a d, acc = .cons a d) →
    ∃ a d, ds.foldl (fun acc d => .cons d acc) acc = .cons a d
  | [], _, h => h
  | d :: ds, acc, _ => foldl_shape ds _ ⟨_, _, rfl⟩

theorem revLoop_shape : ∀ (d l : Data), (∃ a r, l = .cons a r) → ∃ a r, revLoop d l = .cons a r
  | .null, _, h => h
  | .atom _, l, _ => ⟨_, _, rfl⟩
  | .cell k a d, l, h => by
    simp only [revLoop]
    split
    · exact h
    · exact revLoop_shape d _ ⟨_, _, rfl⟩

/-- The value made from a JSON tree stands for the same thing as the tree, if Lisp has the numbers in it; the frames made
before stay as they are. -/
theorem C57_to_lisp {fl : Prop} {ord : Json.Order} (ho : Permutes ord) : ∀ (v : Val) (j : Json), Represents fl j v → Numbers (LispNumber fl) v →
    ∀ F : Frames, ∃ G, (toLisp ord j F).2 = F ++ G ∧ StandsFor fl (F ++ G) (toLisp ord j F).1 v
  | v, j, h, hn, F => by
    have smaller : ∀ w, sizeOf w < sizeOf v → ∀ j, Represents fl j w → Numbers (LispNumber fl) w →
        ∀ F : Frames, ∃ G, (toLisp ord j F).2 = F ++ G ∧ StandsFor fl (F ++ G) (toLisp ord j F).1 w :=
      fun w hw j => C57_to_lisp ho w j
    cases h with
    | int n => exact ⟨[], by simp [toLisp], by rw [toLisp]; exact .int n⟩
    | f32 b hfl hb =>
      cases hn with | num _ hv =>
      refine ⟨[], by simp [toLisp], ?_⟩
      rw [toLisp]
      have : (F32.isNaN b || F32.isInf b) = false := by simp [F32.isNaN, F32.isInf]; omega
      rw [this]
      exact number_denotes hv
    | f64 v => cases hn with | num _ hv => exact ⟨[], by simp [toLisp], by rw [toLisp]; exact number_denotes hv⟩
    | bool b => exact ⟨[], by simp [toLisp], by rw [toLisp]; exact .bool b⟩
    | str s => exact ⟨[], by simp [toLisp], by rw [toLisp]; exact .str s⟩
    | arr l vs hl =>
      cases hn with | arr _ hv =>
      have key : ∀ (l : List Json) (ws : List Val), (∀ w ∈ ws, w ∈ vs) → All2 (Represents fl) l ws → ∀ F : Frames,
          ∃ G, (toLispList ord l F).2 = F ++ G ∧ All2 (StandsFor fl (F ++ G)) (toLispList ord l F).1 ws := by
        intro l ws hsub hl
        induction hl with
        | nil => intro F; exact ⟨[], by simp [toLispList], by rw [toLispList]; exact .nil⟩
        | @cons j w l ws h1 _ ih =>
          intro F
          have hw := hsub w (by simp)
          have := List.sizeOf_lt_of_mem hw
          obtain ⟨G, h2, h3⟩ := smaller w (by simp only [Val.arr.sizeOf_spec]; omega) j h1 (hv w hw) F
          obtain ⟨G', h4, h5⟩ := ih (fun x hx => hsub x (by simp [hx])) (F ++ G)
          refine ⟨G ++ G', ?_, ?_⟩
          · rw [toLispList]; simp only; rw [h2, h4, List.append_assoc]
          · rw [toLispList]; simp only; rw [h2, ← List.append_assoc]
            exact .cons (standsFor_append _ _ h3) h5
      rw [toLisp]
      cases hl' : l with
      | nil =>
        rw [hl'] at hl; cases hl
        exact ⟨[], by simp, by simpa using StandsFor.arr .null .null [] [] (.empty .cons) .nil⟩
      | cons j₀ l₀ =>
        rw [← hl']
        have he : l.isEmpty = false := by rw [hl']; rfl
        obtain ⟨G, h1, h2⟩ := key l vs (fun _ h => h) hl F
        rw [he]
        refine ⟨G, h1, ?_⟩
        simp only [Bool.false_eq_true, if_false]
        generalize hds : (toLispList ord l F).1 = ds at h2
        have hnn : ∀ d ∈ ds, d ≠ .null := fun d hd => by
          obtain ⟨w, _, hw⟩ := all2_get h2 d hd; exact standsFor_not_null hw
        have hlen : ds.length ≠ 0 := by
          rw [all2_length h2, ← all2_length hl, hl']; simp
        obtain ⟨d₀, ds', rfl⟩ : ∃ d₀ ds', ds = d₀ :: ds' := by
          cases ds with
          | nil => simp at hlen
          | cons a b => exact ⟨a, b, rfl⟩
        have hlst := lst_foldl (d₀ :: ds') hnn (acc := .null) .null
        rw [List.append_nil] at hlst
        obtain ⟨a, r, har⟩ := foldl_shape ds' (.cons d₀ .null) ⟨_, _, rfl⟩
        rw [List.foldl_cons, har] at hlst ⊢
        have hrev : reverse (Data.cons a r) = revLoop (.cons a r) .null := by simp [reverse, isListP, isPair]
        have hnil : isNil (Data.cons a r) = false := by
          cases hb : isNil (Data.cons a r) with
          | false => rfl
          | true =>
            rw [hlst.isNil_iff] at hb; simp at hb
        have hfin : Lst (revLoop (.cons a r) .null) (d₀ :: ds') := by
          have := revLoop_spec hlst (l := .null) (ys := []) .null (by
            intro _ hx; exact hnn _ (List.mem_reverse.mp (List.mem_of_mem_head? hx)) rfl)
          simpa using this
        rw [hrev]
        obtain ⟨a', r', h3⟩ : ∃ a' r', revLoop (Data.cons a r) .null = .cons a' r' := by
          simp only [revLoop, hnil]
          exact revLoop_shape r _ ⟨_, _, rfl⟩
        rw [h3] at hfin ⊢
        exact .arr a' r' _ vs hfin h2
    | obj l fs fs' hp hnd hcol hk hl =>
      cases hn with | obj _ hv =>
      have key : ∀ (l : List (String × Json)) (ws : List (String × Val)), (∀ w ∈ ws, w ∈ fs) →
          All2 (fun a b => a.1 = b.1 ∧ Represents fl a.2 b.2) l ws → ∀ F : Frames,
          ∃ G, (toLispFields ord l F).2 = F ++ G ∧
            All2 (fun a b => a.1 = b.1 ++ ":" ∧ StandsFor fl (F ++ G) a.2 b.2) (toLispFields ord l F).1 ws := by
        intro l ws hsub hl
        induction hl with
        | nil => intro F; exact ⟨[], by simp [toLispFields], by rw [toLispFields]; exact .nil⟩
        | @cons j w l ws h1 _ ih =>
          intro F
          obtain ⟨k, j⟩ := j
          have hw := hsub w (by simp)
          have := size_mem hw
          obtain ⟨G, h2, h3⟩ := smaller w.2 this j h1.2 (hv w hw) F
          obtain ⟨G', h4, h5⟩ := ih (fun x hx => hsub x (by simp [hx])) (F ++ G)
          refine ⟨G ++ G', ?_, ?_⟩
          · rw [toLispFields]; simp only; rw [h2, h4, List.append_assoc]
          · rw [toLispFields]; simp only; rw [h2, ← List.append_assoc]
            exact .cons ⟨by rw [← h1.1], standsFor_append _ _ h3⟩ h5
      obtain ⟨G, h1, h2⟩ := key l fs' (fun w hw => hp.mem_iff.mp hw) (all2_fields (key := fun x => x).mp ⟨hk, hl⟩) F
      rw [toLisp]; simp only
      rw [h1]
      obtain ⟨fs'', hp', h3⟩ := all2_perm (ho (toLispFields ord l F).1) h2
      have hp2 := hp'.trans hp
      have h4 := all2_fields (key := fun x => x ++ ":").mpr h3
      have hnd' : ((ord (toLispFields ord l F).1).map (·.1)).Nodup := by
        rw [h4.1]
        have : (fs''.map (·.1)).Nodup := (hp2.map _).nodup_iff.mpr hnd
        rw [show fs''.map (fun e => e.1 ++ ":") = (fs''.map (·.1)).map (fun k => k ++ ":") by simp [List.map_map, Function.comp_def]]
        refine List.Pairwise.map _ ?_ this
        intro a b hab e
        apply hab
        have := congrArg String.toList e
        simp at this
        exact String.toList_inj.mp (by simpa using this)
      rw [mapOf_nodup hnd']
      refine ⟨G ++ [ord (toLispFields ord l F).1], by rw [List.append_assoc], ?_⟩
      rw [← List.append_assoc]
      have hget : Frame.get? (F ++ G ++ [ord (toLispFields ord l F).1]) (F ++ G).length = ord (toLispFields ord l F).1 := by
        unfold Frame.get?; rw [List.getElem?_concat_length]; rfl
      refine .frame _ fs fs'' (by simp) hp2 hnd hcol (by rw [hget]; exact h4.1) ?_
      rw [hget]
      exact all2_imp h4.2 fun d _ v _ h => standsFor_append v d h
termination_by v => sizeOf v
decreasing_by all_goals first | assumption | (simp only [Val.arr.sizeOf_spec]; omega)

theorem double_small {n : Int} (h : n.natAbs ≤ 2 ^ 53) : double n = n * one := by
  unfold double
  simp only
  generalize hN : n.natAbs = N at h
  have hm : (N / 2 ^ (N.log2 - 52) + F32.up (N.log2 - 52) N) * 2 ^ (N.log2 - 52) = N := by
    by_cases h1 : N = 2 ^ 53
    · subst h1; decide
    · have hlt : N.log2 < 53 := by
        by_cases h0 : N = 0
        · subst h0; decide
        · exact (Nat.log2_lt h0).2 (by omega)
      have hk : N.log2 - 52 = 0 := by omega
      rw [hk]
      simp [F32.up]
      omega
  rw [hm]
  congr 1
  split <;> omega

/-- Writing as text and reading back keeps what a tree stands for, if its numbers are integers up to 2^53. -/
theorem C57_text (dec : BitVec 32 → Int) : ∀ (v : Val) (j : Json), Represents False j v → Numbers SmallInteger v →
    Represents False (reparse dec j) v
  | v, j, h, hn => by
    have smaller : ∀ w, sizeOf w < sizeOf v → ∀ j, Represents False j w → Numbers SmallInteger w → Represents False (reparse dec j) w :=
      fun w hw j => C57_text dec w j
    cases h with
    | int n =>
      cases hn with | num _ hv =>
      obtain ⟨k, hk, hs⟩ := hv
      rw [← one_eq] at hk
      have : n.toInt = k := Int.eq_of_mul_eq_mul_right (Int.ne_of_gt one_pos) hk
      rw [reparse, double_small (by rw [this]; exact hs), ← one_eq]
      exact .f64 _
    | f32 b hfl => exact hfl.elim
    | f64 v => rw [reparse]; exact .f64 v
    | bool b => rw [reparse]; exact .bool b
    | str s => rw [reparse]; exact .str s
    | arr l vs hl =>
      cases hn with | arr _ hv =>
      rw [reparse]
      refine .arr _ vs ?_
      have key : ∀ (l : List Json) (ws : List Val), (∀ w ∈ ws, w ∈ vs) → All2 (Represents False) l ws →
          All2 (Represents False) (reparseList dec l) ws := by
        intro l ws hsub hl
        induction hl with
        | nil => rw [reparseList]; exact .nil
        | @cons j w l ws h1 _ ih =>
          have hw := hsub w (by simp)
          have := List.sizeOf_lt_of_mem hw
          rw [reparseList]
          exact .cons (smaller w (by simp only [Val.arr.sizeOf_spec]; omega) j h1 (hv w hw)) (ih fun x hx => hsub x (by simp [hx]))
      exact key l vs (fun _ h => h) hl
    | obj l fs fs' hp hnd hcol hk hl =>
      cases hn with | obj _ hv =>
      rw [reparse]
      have key : ∀ (l : List (String × Json)) (ws : List (String × Val)), (∀ w ∈ ws, w ∈ fs) →
          All2 (fun a b => a.1 = b.1 ∧ Represents False a.2 b.2) l ws →
          All2 (fun a b => a.1 = b.1 ∧ Represents False a.2 b.2) (reparseFields dec l) ws := by
        intro l ws hsub hl
        induction hl with
        | nil => rw [reparseFields]; exact .nil
        | @cons j w l ws h1 _ ih =>
          obtain ⟨k, j⟩ := j
          have hw := hsub w (by simp)
          have := size_mem hw
          rw [reparseFields]
          exact .cons ⟨h1.1, smaller w.2 this j h1.2 (hv w hw)⟩ (ih fun x hx => hsub x (by simp [hx]))
      have h1 := (all2_fields (key := fun x => x)).mpr
        (key l fs' (fun w hw => hp.mem_iff.mp hw) ((all2_fields (key := fun x => x)).mp ⟨hk, hl⟩))
      exact .obj _ fs fs' hp hnd hcol h1.1 h1.2
termination_by v => sizeOf v
decreasing_by all_goals first | assumption | (simp only [Val.arr.sizeOf_spec]; omega)

private theorem numbers_imp {P Q : Int → Prop} (hi : ∀ v, P v → Q v) {v : Val} (h : Numbers P v) : Numbers Q v := by
  induction h with
  | num v h => exact .num v (hi v h)
  | bool b => exact .bool b
  | str s => exact .str s
  | arr l _ ih => exact .arr l ih
  | obj l _ ih => exact .obj l ih

/-- `lisp->json` then `json->lisp`: a value made of integers up to 2^53, booleans, strings, lists and frames comes back as a
value that stands for the same thing, in new frames; the old ones do not change. -/
theorem C57_round_trip {F : Frames} {ord ord' : Json.Order} (ho : Permutes ord) (ho' : Permutes ord') (dec : BitVec 32 → Int)
    {d : Data} {v : Val} (hd : StandsFor False F d v) (hn : Numbers SmallInteger v) :
    ∃ n, ∀ m, n ≤ m → ∃ j d' G, ofLispN F ord m d = .ok j ∧ ofText ord' (reparse dec j) F = (.ok d', F ++ G) ∧
      StandsFor False (F ++ G) d' v := by
  obtain ⟨n, h1⟩ := C57_to_json ho v d hd
  refine ⟨n, fun m hm => ?_⟩
  obtain ⟨j, h2, h3⟩ := h1 m hm
  have h4 := C57_text dec v j h3 hn
  have hl : Numbers (LispNumber False) v := numbers_imp (fun v ⟨k, hk, hs⟩ => .inl ⟨k, hk, by omega, by omega⟩) hn
  obtain ⟨G, h5, h6⟩ := C57_to_lisp ho' v _ h4 hl F
  refine ⟨j, _, G, h2, ?_, h6⟩
  have : ∀ j', Represents False j' v → ofText ord' j' F = (.ok (toLisp ord' j' F).1, (toLisp ord' j' F).2) := by
    intro j' h; cases h <;> rfl
  rw [this _ h4, h5]

/-- `json->lisp` then `lisp->json`: a document whose numbers Lisp has (integers in the range of int64, other numbers if they are
float32 numbers), without null, comes back standing for the same thing. -/
theorem C57_document {F : Frames} {ord ord' : Json.Order} (ho : Permutes ord) (ho' : Permutes ord') {j : Json} {v : Val}
    (hj : Represents True j v) (hn : Numbers (LispNumber True) v) :
    ∃ d G, ofText ord j F = (.ok d, F ++ G) ∧ ∃ n, ∀ m, n ≤ m → ∃ j', ofLispN (F ++ G) ord' m d = .ok j' ∧ Represents True j' v := by
  obtain ⟨G, h5, h6⟩ := C57_to_lisp ho v j hj hn F
  refine ⟨_, G, ?_, C57_to_json ho' v _ h6⟩
  have : ∀ j', Represents True j' v → ofText ord j' F = (.ok (toLisp ord j' F).1, (toLisp ord j' F).2) := by
    intro j' h; cases h <;> rfl
  rw [this _ hj, h5]

/-! Where the claim fails. -/

/-- The order of the table, for the examples. -/
private def asIs : Json.Order := fun l => l

private theorem asIs_permutes : Permutes asIs := fun _ => .refl _

/-- The document `null` makes `json->lisp` panic. -/
theorem C57_null_violation (ord : Json.Order) (F : Frames) : ofText ord .null F = (.panic, F) := rfl

/-- A null inside a document comes back as the empty string; nulls in arrays can vanish. -/
theorem C57_inner_null_violation (ord : Json.Order) (F : Frames) :
    ofLispN F ord 1 (toLisp ord .null F).1 = .ok (.str "") ∧
    (toLisp ord (.arr [.null, .int 1]) F).1 = .cons (.int 1) .null ∧
    ofLispN F ord 2 (.cons (.int 1) .null) = .ok (.arr [.int 1]) := by
  refine ⟨?_, ?_, ?_⟩
  · simp [toLisp, ofLispN]
  · simp [toLisp, toLispList, reverse, revLoop, isListP, isPair, isNil]
  · simp [ofLispN, toArray, isNil, mapOut]

/-- Integers beyond 2^53 are rounded on the way through the text. -/
theorem C57_large_violation (ord : Json.Order) (dec : BitVec 32 → Int) (F : Frames) :
    ofLispN F ord 1 (.int 9007199254740993#64) = .ok (.int 9007199254740993#64) ∧
    (toLisp ord (reparse dec (.int 9007199254740993#64)) F).1 = .int 9007199254740992#64 := by
  refine ⟨by simp [ofLispN], ?_⟩
  have hd : double (9007199254740993#64).toInt = 9007199254740992 * one := by
    unfold double; simp only
    congr 1
  rw [reparse, hd, toLisp]
  simp only [number]
  rw [if_pos (Int.mul_emod_left _ _), Int.mul_ediv_cancel _ (Int.ne_of_gt one_pos)]
  rfl

/-- A whole number beyond int64 becomes the smallest integer. -/
theorem C57_overflow_violation (ord : Json.Order) (F : Frames) :
    (toLisp ord (.f64 (2 ^ 63 * one)) F).1 = .int 0x8000000000000000#64 := by
  rw [toLisp]
  simp only [number]
  rw [if_pos (Int.mul_emod_left _ _), Int.mul_ediv_cancel _ (Int.ne_of_gt one_pos)]
  rfl

/-- Keys that differ only in the number of colons at the end become the same key: one of the slots is lost, which one depends
on the order of iteration. -/
theorem C57_colon_violation :
    ofLispN [[("a:", .int 1), ("a::", .int 2)]] asIs 2 (.atom (.frame 0)) = .ok (.obj [("a", .int 2)]) ∧
    ofLispN [[("a:", .int 1), ("a::", .int 2)]] (fun l => l.reverse) 2 (.atom (.frame 0)) = .ok (.obj [("a", .int 1)]) := by
  have h1 : trimColons "a:" = "a" := by decide
  have h2 : trimColons "a::" = "a" := by decide
  constructor <;> simp [ofLispN, Frame.get?, isFunc, mapOut, keyed, mapOf, alSet, asIs, h1, h2]

/-- Number 1.5 of the example: a document with nested objects, arrays (also empty ones) and a number that is no integer. -/
example : ∃ v, Represents True (.obj [("a", .arr [.f64 (3 * 2 ^ 1073), .arr []]), ("b", .obj [("c", .f64 (7 * 2 ^ 1074))])]) v ∧
    Numbers (LispNumber True) v := by
  refine ⟨.obj [("a", .arr [.num (3 * 2 ^ 1073), .arr []]), ("b", .obj [("c", .num (7 * 2 ^ 1074))])], ?_, ?_⟩
  · refine .obj _ _ _ (.refl _) (by simp) ?_ rfl ?_
    · intro e he k h
      have h := congrArg String.toList h
      have hl := congrArg List.getLast? h
      simp at he
      rcases he with rfl | rfl <;> simp at hl
    · refine .cons (.arr _ _ (.cons (.f64 _) (.cons (.arr _ _ .nil) .nil))) (.cons ?_ .nil)
      refine .obj _ _ _ (.refl _) (by simp) ?_ rfl (.cons (.f64 _) .nil)
      intro e he k h
      have h := congrArg String.toList h
      have hl := congrArg List.getLast? h
      simp at he
      subst he; simp at hl
  · refine .obj _ fun e he => ?_
    simp only [List.mem_cons, List.not_mem_nil, or_false] at he
    rcases he with rfl | rfl
    · refine .arr _ fun w hw => ?_
      simp only [List.mem_cons, List.not_mem_nil, or_false] at hw
      rcases hw with rfl | rfl
      · refine .num _ (.inr ⟨trivial, ?_, 0x3fc00000#32, by decide, ?_⟩)
        · intro n h
          have e : (2 : Int) ^ 1074 = 2 * 2 ^ 1073 := by rw [Int.pow_succ, Int.mul_comm]
          have hp : (0 : Int) < 2 ^ 1073 := Int.pow_pos (by decide)
          rw [e, ← Int.mul_assoc] at h
          have := Int.eq_of_mul_eq_mul_right (Int.ne_of_gt hp) h
          omega
        · have e : (2 : Int) ^ 1073 = 2 ^ 148 * 2 ^ 925 := by rw [← Int.pow_add]
          have hv : F32.value 0x3fc00000#32 = 3 * 2 ^ 148 := by decide
          unfold f32Val
          rw [hv, e, Int.mul_assoc]
      · exact .arr _ (by simp)
    · refine .obj _ fun e he => ?_
      simp only [List.mem_cons, List.not_mem_nil, or_false] at he
      subst he
      exact .num _ (.inl ⟨7, rfl, by decide, by decide⟩)

/-- A frame in a frame, with a list, denotes a value: the hypotheses of the round trip hold for it. -/
example : ∃ v, StandsFor False [[("x:", .int 5)], [("f:", .atom (.frame 0)), ("l:", .cons (.bool true) .null)]] (.atom (.frame 1)) v ∧
    Numbers SmallInteger v := by
  refine ⟨.obj [("l", .arr [.bool true]), ("f", .obj [("x", .num (5 * 2 ^ 1074))])], ?_, ?_⟩
  · refine .frame 1 _ [("f", .obj [("x", .num (5 * 2 ^ 1074))]), ("l", .arr [.bool true])] (by decide) (.swap _ _ _) (by simp) ?_ rfl ?_
    · intro e he k h
      have hl := congrArg List.getLast? (congrArg String.toList h)
      simp at he
      rcases he with rfl | rfl <;> simp at hl
    · refine .cons ?_ (.cons (.arr _ _ _ _ (.cons .cons _ _ _ (by simp) (by simp) .null) (.cons (.bool true) .nil)) .nil)
      refine .frame 0 _ _ (by decide) (.refl _) (by simp) ?_ rfl (.cons (.int 5) .nil)
      intro e he k h
      have hl := congrArg List.getLast? (congrArg String.toList h)
      simp at he
      subst he; simp at hl
  · refine .obj _ fun e he => ?_
    simp only [List.mem_cons, List.not_mem_nil, or_false] at he
    rcases he with rfl | rfl
    · refine .arr _ fun w hw => ?_
      simp only [List.mem_cons, List.not_mem_nil, or_false] at hw
      subst hw; exact .bool true
    · refine .obj _ fun e he => ?_
      simp only [List.mem_cons, List.not_mem_nil, or_false] at he
      subst he
      exact .num _ ⟨5, rfl, by decide⟩

end Golisp.Props
