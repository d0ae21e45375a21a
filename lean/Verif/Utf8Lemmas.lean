import Verif.Utf8
/-
UTF-8 is self-synchronising and keeps the order of code points: what the byte-wise string functions find and compare are
characters.
-/
namespace Golisp.Str
open Spec

/-- A byte that continues a character. -/
def Cont (b : Byte) : Prop := 0x80 ≤ b.toNat ∧ b.toNat < 0xC0

theorem utf8_split (c : Char) : ∃ b r, utf8 c = b :: r ∧ ¬ Cont b ∧ ∀ x ∈ r, Cont x := by
  have hr := char_range c
  simp only [utf8]
  generalize c.toNat = n at hr
  have h8 : ∀ m, m < 256 → (BitVec.ofNat 8 m).toNat = m := toNat_ofNat8
  unfold Cont
  repeat' split
  all_goals
    refine ⟨_, _, rfl, ?_, ?_⟩
    · rw [h8 _ (by omega)]; omega
    · intro x hx
      simp only [List.mem_cons, List.not_mem_nil, or_false] at hx <;> first
        | (rcases hx with rfl | rfl | rfl <;> (rw [h8 _ (by omega)]; omega))
        | (rcases hx with rfl | rfl <;> (rw [h8 _ (by omega)]; omega))
        | (rcases hx with rfl; (rw [h8 _ (by omega)]; omega))

theorem text_nil : text [] = [] := rfl
theorem text_cons (c : Char) (cs : List Char) : text (c :: cs) = utf8 c ++ text cs := rfl
theorem text_append (a b : List Char) : text (a ++ b) = text a ++ text b := by simp [text]

theorem text_inj {a b : List Char} (h : text a = text b) : a = b := by
  rw [← decode_text a, ← decode_text b, h]

theorem text_eq_nil {a : List Char} : text a = [] ↔ a = [] :=
  ⟨fun h => text_inj (b := []) h, fun h => by rw [h]; rfl⟩

/-- Encodings are prefix free. -/
theorem utf8_append_inj {c d : Char} {r t : GoStr} (h : utf8 c ++ r = utf8 d ++ t) : c = d ∧ r = t := by
  have h1 := seqLen_utf8 c r
  rw [h, seqLen_utf8] at h1
  have := List.append_inj h h1.symm
  exact ⟨utf8_inj this.1, this.2⟩

/-- What remains after a text at the start of a text is a text. -/
theorem text_prefix {p : List Char} : ∀ {s : List Char} {v : GoStr}, text s = text p ++ v → ∃ v', v = text v' ∧ s = p ++ v' := by
  induction p with
  | nil => intro s v h; exact ⟨s, h.symm, rfl⟩
  | cons c p ih =>
    intro s v h
    cases s with
    | nil => rw [text_cons] at h; obtain ⟨b, r, hb, _⟩ := utf8_split c; simp [hb, text_nil] at h
    | cons d s =>
      rw [text_cons, text_cons, List.append_assoc] at h
      obtain ⟨rfl, h2⟩ := utf8_append_inj h
      obtain ⟨v', h3, rfl⟩ := ih h2
      exact ⟨v', h3, rfl⟩

/-- A text found inside a text starts and ends between characters. -/
theorem text_infix {p : List Char} (hp : p ≠ []) : ∀ {s : List Char} {u v : GoStr}, text s = u ++ text p ++ v →
    ∃ u' v', u = text u' ∧ v = text v' ∧ s = u' ++ p ++ v' := by
  intro s
  induction s with
  | nil =>
    intro u v h
    have := congrArg List.length h
    simp only [text_nil, List.length_nil, List.length_append] at this
    exact absurd (text_eq_nil.1 (List.length_eq_zero_iff.1 (by omega))) hp
  | cons c s ih =>
    intro u v h
    by_cases hu : u = []
    · subst hu
      obtain ⟨v', h1, h2⟩ := text_prefix (p := p) (s := c :: s) (v := v) (by simpa using h)
      exact ⟨[], v', rfl, h1, by simpa using h2⟩
    · rw [text_cons, List.append_assoc] at h
      rcases List.append_eq_append_iff.1 h with ⟨w, hw, h2⟩ | ⟨w, hw, h2⟩
      · subst hw
        obtain ⟨u', v', rfl, rfl, rfl⟩ := ih (u := w) (v := v) (by rw [h2, List.append_assoc])
        exact ⟨c :: u', v', rfl, rfl, rfl⟩
      · by_cases hw0 : w = []
        · subst hw0
          simp only [List.append_nil] at hw
          simp only [List.nil_append] at h2
          obtain ⟨v', rfl, h3⟩ := text_prefix (p := p) (s := s) (v := v) h2.symm
          exact ⟨[c], v', by rw [hw.symm, text_cons, text_nil, List.append_nil], rfl, by rw [h3]; rfl⟩
        · -- the first byte of `p` would continue `c`
          exfalso
          obtain ⟨b, r, hb, _, hr⟩ := utf8_split c
          cases p with
          | nil => exact hp rfl
          | cons d p =>
            obtain ⟨b', r', hb', hnc, _⟩ := utf8_split d
            cases w with
            | nil => exact hw0 rfl
            | cons x w =>
              rw [text_cons, hb'] at h2
              simp only [List.cons_append, List.cons.injEq] at h2
              cases u with
              | nil => exact hu rfl
              | cons y u =>
                rw [hb] at hw
                simp only [List.cons_append, List.cons.injEq] at hw
                refine hnc (hr b' ?_)
                rw [hw.2, h2.1]
                simp

/-! ### Order -/

/-- `a` comes before `b` in the order of code points: at the first character where they differ `a` has the smaller one,
or `a` is a proper prefix. -/
inductive _root_.Golisp.Spec.Earlier : List Char → List Char → Prop where
  | pre (a : List Char) (c : Char) (r : List Char) : Earlier a (a ++ c :: r)
  | char (p : List Char) {c d : Char} (r t : List Char) : c.toNat < d.toNat → Earlier (p ++ c :: r) (p ++ d :: t)

theorem lt_append_left (p : GoStr) (a b : GoStr) : lt (p ++ a) (p ++ b) = lt a b := by
  induction p with
  | nil => rfl
  | cons x p ih => simp only [List.cons_append, lt, Nat.lt_irrefl, if_false, if_true, ih]

theorem lt_utf8 {c d : Char} (h : c.toNat < d.toNat) (r t : GoStr) : lt (utf8 c ++ r) (utf8 d ++ t) = true := by
  have hc := char_range c
  have hd := char_range d
  have h8 : ∀ m, m < 256 → (BitVec.ofNat 8 m).toNat = m := toNat_ofNat8
  have key : ∀ (x y : Nat) (a b : GoStr), x < 256 → y < 256 → (x < y ∨ x = y ∧ lt a b = true) →
      lt (BitVec.ofNat 8 x :: a) (BitVec.ofNat 8 y :: b) = true := by
    intro x y a b hx hy h
    rw [lt, h8 x hx, h8 y hy]
    rcases h with h | ⟨rfl, h⟩
    · rw [if_pos h]
    · rw [if_neg (by omega), if_pos rfl, h]
  simp only [utf8]
  generalize c.toNat = n at *
  generalize d.toNat = m at *
  repeat' split
  all_goals simp only [List.cons_append, List.nil_append]
  all_goals first
    | (refine key _ _ _ _ (by omega) (by omega) (Or.inl ?_); omega)
    | (exfalso; omega)
    | skip
  · refine key _ _ _ _ (by omega) (by omega) ?_
    by_cases h1 : n / 64 < m / 64
    · left; omega
    · right
      refine ⟨by omega, key _ _ _ _ (by omega) (by omega) (Or.inl (by omega))⟩
  · refine key _ _ _ _ (by omega) (by omega) ?_
    by_cases h1 : n / 4096 < m / 4096
    · left; omega
    · right
      refine ⟨by omega, key _ _ _ _ (by omega) (by omega) ?_⟩
      by_cases h2 : n / 64 % 64 < m / 64 % 64
      · left; omega
      · right
        exact ⟨by omega, key _ _ _ _ (by omega) (by omega) (Or.inl (by omega))⟩
  · refine key _ _ _ _ (by omega) (by omega) ?_
    by_cases h1 : n / 262144 < m / 262144
    · left; omega
    · right
      refine ⟨by omega, key _ _ _ _ (by omega) (by omega) ?_⟩
      by_cases h2 : n / 4096 % 64 < m / 4096 % 64
      · left; omega
      · right
        refine ⟨by omega, key _ _ _ _ (by omega) (by omega) ?_⟩
        by_cases h3 : n / 64 % 64 < m / 64 % 64
        · left; omega
        · right
          exact ⟨by omega, key _ _ _ _ (by omega) (by omega) (Or.inl (by omega))⟩

theorem earlier_lt {a b : List Char} (h : Earlier a b) : lt (text a) (text b) = true := by
  cases h with
  | pre _ c r =>
    rw [text_append]
    have := lt_append_left (text a) [] (text (c :: r))
    rw [List.append_nil] at this
    rw [this, text_cons]
    obtain ⟨x, y, hx, _⟩ := utf8_split c
    rw [hx]; rfl
  | char p r t h =>
    rw [text_append, text_append, lt_append_left, text_cons, text_cons]
    exact lt_utf8 h _ _

theorem earlier_total : ∀ a b : List Char, Earlier a b ∨ a = b ∨ Earlier b a
  | [], [] => .inr (.inl rfl)
  | [], c :: r => .inl (.pre [] c r)
  | c :: r, [] => .inr (.inr (.pre [] c r))
  | c :: a, d :: b => by
    rcases Nat.lt_trichotomy c.toNat d.toNat with h | h | h
    · exact .inl (.char [] a b h)
    · have : c = d := Char.ext (UInt32.toNat_inj.1 h)
      subst this
      rcases earlier_total a b with h | rfl | h
      · left
        cases h with
        | pre _ d r => exact .pre (c :: a) d r
        | char p r t h => exact .char (c :: p) r t h
      · exact .inr (.inl rfl)
      · right; right
        cases h with
        | pre _ d r => exact .pre (c :: b) d r
        | char p r t h => exact .char (c :: p) r t h
    · exact .inr (.inr (.char [] b a h))

end Golisp.Str
