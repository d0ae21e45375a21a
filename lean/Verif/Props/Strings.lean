import Verif.Utf8
/-
Properties C58, C59, C61: strings (`prim_string.go`).
-/
namespace Golisp.Spec
open Str

/-- `sub` occurs somewhere in `s`. -/
def Occurs {α : Type} (sub s : List α) : Prop := ∃ u v, s = u ++ sub ++ v

/-- `ps` are the pieces of `s` between the successive leftmost occurrences of `sep`. -/
inductive Splits {α : Type} (sep : List α) : List α → List (List α) → Prop where
  | last {s} : ¬ Occurs sep s → Splits sep s [s]
  | cut {p r ps} : (∀ u v, p ++ sep = u ++ sep ++ v → v = []) → Splits sep r ps → Splits sep (p ++ sep ++ r) (p :: ps)

/-- `r` is `cs` without its leading (if `l`) and trailing (if `t`) characters that are in the set. -/
def Trimmed (l t : Bool) (set cs r : List Char) : Prop :=
  ∃ pre post, cs = pre ++ r ++ post ∧ (∀ c ∈ pre ++ post, c ∈ set) ∧
    (l = false → pre = []) ∧ (t = false → post = []) ∧
    (l = true → ∀ c, r.head? = some c → c ∉ set) ∧ (t = true → ∀ c, r.getLast? = some c → c ∉ set)

/-- `a` comes before `b`: at the first byte where they differ `a` has the smaller one, or `a` is a proper prefix. -/
inductive Before : GoStr → GoStr → Prop where
  | pre (a : GoStr) (b : Byte) (r : GoStr) : Before a (a ++ b :: r)
  | byte (p : GoStr) {x y : Byte} (r t : GoStr) : x.toNat < y.toNat → Before (p ++ x :: r) (p ++ y :: t)

/-- `ps` are the bytes of a string taken character by character: an encoded character where one begins, otherwise one
byte. -/
inductive Runes : GoStr → List GoStr → Prop where
  | nil : Runes [] []
  | char (c : Char) {r ps} : Runes r ps → Runes (utf8 c ++ r) (utf8 c :: ps)
  | byte (b : Byte) {r ps} : (∀ (c : Char) q, b :: r ≠ utf8 c ++ q) → Runes r ps → Runes (b :: r) ([b] :: ps)

end Golisp.Spec

namespace Golisp.Props
open Golisp Str Spec

/-! ### Helper lemmas -/

theorem str_hasPrefix_iff : ∀ s p, hasPrefix s p = true ↔ ∃ v, s = p ++ v
  | s, [] => by simp [hasPrefix]
  | [], b :: p => by simp [hasPrefix]
  | a :: s, b :: p => by
    simp only [hasPrefix, Bool.and_eq_true, beq_iff_eq, str_hasPrefix_iff s p, List.cons_append, List.cons.injEq]
    constructor
    · rintro ⟨rfl, v, rfl⟩; exact ⟨v, rfl, rfl⟩
    · rintro ⟨v, rfl, rfl⟩; exact ⟨rfl, v, rfl⟩

theorem str_hasSuffix_iff (s p : GoStr) : hasSuffix s p = true ↔ ∃ u, s = u ++ p := by
  simp only [hasSuffix, Bool.and_eq_true, decide_eq_true_eq, beq_iff_eq]
  constructor
  · rintro ⟨h1, h2⟩
    refine ⟨s.take (s.length - p.length), ?_⟩
    rw [← h2]
    have : (List.drop (s.length - p.length) s).length = p.length := by simp; omega
    rw [this, List.take_append_drop]
  · rintro ⟨u, rfl⟩
    simp

private theorem index_none {sep : GoStr} : ∀ {s}, index sep s = none → ¬ Occurs sep s
  | [], h => by
    unfold index at h
    split at h
    · simp at h
    · rename_i hne
      rintro ⟨u, v, he⟩
      have := congrArg List.length he
      simp at this
      exact hne (List.eq_nil_of_length_eq_zero (by omega))
  | a :: s, h => by
    unfold index at h
    split at h
    · simp at h
    · rename_i hp
      simp at h
      rintro ⟨u, v, he⟩
      cases u with
      | nil => exact hp ((str_hasPrefix_iff _ _).2 ⟨v, by simpa using he⟩)
      | cons b u =>
        simp only [List.cons_append, List.cons.injEq] at he
        exact index_none h ⟨u, v, he.2⟩

private theorem index_some {sep : GoStr} : ∀ {s i}, index sep s = some i →
    s = s.take i ++ sep ++ s.drop (i + sep.length) ∧ i + sep.length ≤ s.length ∧
      ∀ u v, s = u ++ sep ++ v → i ≤ u.length
  | [], i, h => by
    unfold index at h
    split at h
    · rename_i he
      simp at h; subst h; subst he; simp
    · simp at h
  | a :: s, i, h => by
    unfold index at h
    split at h
    · rename_i hp
      simp at h; subst h
      obtain ⟨v, hv⟩ := (str_hasPrefix_iff _ _).1 hp
      rw [hv]
      simp
    · rename_i hp
      simp only [Option.map_eq_some_iff] at h
      obtain ⟨j, hj, rfl⟩ := h
      obtain ⟨h1, h2, h3⟩ := index_some hj
      refine ⟨?_, by simp; omega, ?_⟩
      · rw [show j + 1 + sep.length = (j + sep.length) + 1 by omega]
        simp only [List.take_succ_cons, List.drop_succ_cons, List.cons_append]
        rw [← h1]
      · intro u v he
        cases u with
        | nil => exact absurd ((str_hasPrefix_iff _ _).2 ⟨v, by simpa using he⟩) hp
        | cons b u =>
          simp only [List.cons_append, List.cons.injEq] at he
          have := h3 u v he.2
          simp; omega

theorem str_splitN_spec {sep : GoStr} (hs : sep ≠ []) : ∀ n s, s.length ≤ n → Splits sep s (splitN sep n s)
  | 0, s, h => by
    have : s = [] := List.eq_nil_of_length_eq_zero (by omega)
    subst this
    refine .last ?_
    rintro ⟨u, v, he⟩
    have := congrArg List.length he
    simp at this
    exact hs (List.eq_nil_of_length_eq_zero (by omega))
  | n + 1, s, h => by
    have hlen : 0 < sep.length := List.length_pos_iff.2 hs
    unfold splitN
    split
    · rename_i hi; exact .last (index_none hi)
    · rename_i i hi
      obtain ⟨h1, h2, h3⟩ := index_some hi
      have := Splits.cut (sep := sep) (p := s.take i) (r := s.drop (i + sep.length)) ?_
        (str_splitN_spec hs n (s.drop (i + sep.length)) (by simp; omega))
      · rw [← h1] at this; exact this
      · intro u v he
        have hle := h3 u (v ++ s.drop (i + sep.length)) (by
          conv => lhs; rw [h1]
          rw [he]; simp)
        have := congrArg List.length he
        simp only [List.length_append, List.length_take] at this
        exact List.eq_nil_of_length_eq_zero (by omega)

private theorem Splits.ne_nil {α : Type} {sep s : List α} {ps : List (List α)} (h : Splits sep s ps) : ps ≠ [] := by cases h <;> simp

private theorem Splits.join {sep s : GoStr} {ps : List GoStr} (h : Splits sep s ps) : Str.join sep ps = s := by
  induction h with
  | last => rfl
  | cut _ hr ih =>
    rename_i p r ps _
    cases ps with
    | nil => exact absurd rfl (Splits.ne_nil hr)
    | cons q ps => rw [Str.join, ih]

private theorem Splits.no_sep {α : Type} {sep s : List α} {ps : List (List α)} (h : Splits sep s ps) : ∀ p ∈ ps, ¬ Occurs sep p := by
  induction h with
  | last h => intro p hp; rw [List.mem_singleton.1 hp]; exact h
  | cut hc hr ih =>
    rename_i q r ps
    intro p hp
    rcases List.mem_cons.1 hp with rfl | hp
    · rintro ⟨u, v, rfl⟩
      have h1 := hc u (v ++ sep) (by simp)
      obtain ⟨rfl, rfl⟩ := List.append_eq_nil_iff.1 h1
      have h2 := hr
      -- an empty separator occurs everywhere, so no splitting ends
      clear ih hc hp h1
      induction hr with
      | last h => exact h ⟨[], _, by simp; rfl⟩
      | cut _ _ ih2 => rename_i h3; exact ih2 h3
    · exact ih p hp

private theorem first_eq {α : Type} {sep p w r r' : List α} (h : sep ++ r = w ++ (sep ++ r'))
    (hc : ∀ u v, p ++ w ++ sep = u ++ sep ++ v → v = []) : w = [] := by
  rw [← List.append_assoc] at h
  rcases List.append_eq_append_iff.1 h with ⟨v, hv, _⟩ | ⟨v, hv, _⟩
  · have := hc p v (by rw [List.append_assoc, hv, List.append_assoc])
    subst this
    have := congrArg List.length hv
    simp at this
    exact this
  · have := congrArg List.length hv
    simp at this
    exact List.eq_nil_of_length_eq_zero (by omega)

theorem Splits.unique {α : Type} {sep s : List α} {ps qs : List (List α)} (h1 : Splits sep s ps) (h2 : Splits sep s qs) : ps = qs := by
  induction h1 generalizing qs with
  | last h =>
    rename_i s
    generalize hs : s = t at h2
    cases h2 with
    | last => rfl
    | cut _ _ => exact absurd ⟨_, _, hs⟩ h
  | cut hc hr ih =>
    rename_i p r ps
    generalize hs : p ++ sep ++ r = t at h2
    cases h2 with
    | last h => exact absurd ⟨_, _, hs.symm⟩ h
    | cut hc' hr' =>
      rename_i p' r' ps'
      have hp : p = p' := by
        rw [List.append_assoc, List.append_assoc] at hs
        rcases List.append_eq_append_iff.1 hs with ⟨w, rfl, hw2⟩ | ⟨w, rfl, hw2⟩
        · rw [first_eq hw2 hc']; simp
        · rw [first_eq hw2 hc]; simp
      subst hp
      have : r = r' := by simpa using hs
      subst this
      rw [ih hr']

private theorem take_drop_flatten (s : GoStr) : ∀ n, s.length ≤ n → (charsN n s).flatten = s := by
  intro n
  induction n generalizing s with
  | zero => intro h; have := List.eq_nil_of_length_eq_zero (Nat.le_zero.1 h); subst this; rfl
  | succ n ih =>
    intro h
    cases s with
    | nil => rfl
    | cons b r =>
      rw [charsN, List.flatten_cons, ih, List.take_append_drop]
      simp at h ⊢
      omega

theorem str_chars_flatten (s : GoStr) : (chars s).flatten = s := take_drop_flatten s _ (Nat.le_refl _)

private theorem join_nil : ∀ ps : List GoStr, Str.join [] ps = ps.flatten
  | [] => rfl
  | [p] => by simp [Str.join]
  | p :: q :: ps => by rw [Str.join, join_nil (q :: ps)]; simp

private theorem joinLoop_strs : ∀ (ps : List GoStr) acc, joinLoop (ps.map .str) acc = .ok (acc ++ ps)
  | [], acc => by simp [joinLoop]
  | p :: ps, acc => by simp [joinLoop, joinLoop_strs ps]

theorem str_trimL_text (set cs : List Char) :
    ∃ pre r, cs = pre ++ r ∧ (∀ c ∈ pre, c ∈ set) ∧ (∀ c, r.head? = some c → c ∉ set) ∧
      trimL (text set) (cs.map utf8) = r.map utf8 := by
  induction cs with
  | nil => exact ⟨[], [], rfl, by simp, by simp, rfl⟩
  | cons c cs ih =>
    by_cases hc : c ∈ set
    · obtain ⟨pre, r, rfl, h2, h3, h4⟩ := ih
      refine ⟨c :: pre, r, rfl, ?_, h3, ?_⟩
      · intro d hd
        rcases List.mem_cons.1 hd with rfl | hd
        · exact hc
        · exact h2 d hd
      · rw [← h4]
        simp only [trimL, List.map_cons]
        rw [List.dropWhile_cons_of_pos ((inSet_text set c).2 hc)]
    · refine ⟨[], c :: cs, rfl, by simp, ?_, ?_⟩
      · intro d hd; simp at hd; subst hd; exact hc
      · simp only [trimL, List.map_cons]
        rw [List.dropWhile_cons_of_neg (fun h => hc ((inSet_text set c).1 h))]

theorem str_trimR_text (set cs : List Char) :
    ∃ r post, cs = r ++ post ∧ (∀ c ∈ post, c ∈ set) ∧ (∀ c, r.getLast? = some c → c ∉ set) ∧
      trimR (text set) (cs.map utf8) = r.map utf8 := by
  obtain ⟨pre, r, h1, h2, h3, h4⟩ := str_trimL_text set cs.reverse
  refine ⟨r.reverse, pre.reverse, ?_, by simpa using h2, by simpa using h3, ?_⟩
  · have := congrArg List.reverse h1
    simpa using this
  · simp only [trimR, trimL] at h4 ⊢
    rw [← List.map_reverse, h4, List.map_reverse]

theorem char_of {n : Nat} (h : n < 0xD800 ∨ (0xDFFF < n ∧ n < 0x110000)) : ∃ c : Char, c.toNat = n :=
  ⟨Char.ofNatAux n (by simpa [Nat.isValidChar] using h), by simp [Char.ofNatAux, Char.toNat, UInt32.toNat]⟩

private theorem ite_or {p : Prop} [Decidable p] {k : Nat} {Q : Prop} (h : p → Q) : (if p then k else 0) = 0 ∨ Q := by
  split
  · exact .inr (h ‹_›)
  · exact .inl rfl

/-- A sequence Go takes as well formed is the encoding of a character. -/
theorem seqLen_pos : ∀ s : GoStr, seqLen s = 0 ∨ ∃ c q, s = utf8 c ++ q
  | [] => .inl rfl
  | b :: r => by
    have eq8 : ∀ {x : BitVec 8} {m : Nat}, x.toNat = m → x = BitVec.ofNat 8 m := by
      intro x m h; subst h; simp
    simp only [seqLen, inR, Bool.and_eq_true, decide_eq_true_eq]
    split
    · obtain ⟨c, hc⟩ := char_of (n := b.toNat) (by omega)
      exact .inr ⟨c, r, by simp only [utf8, hc]; rw [if_pos ‹_›]; simp⟩
    · split
      · cases r with
        | nil => exact .inl rfl
        | cons x r =>
          simp only
          split
          · obtain ⟨c, hc⟩ := char_of (n := b.toNat % 32 * 64 + x.toNat % 64) (by omega)
            refine .inr ⟨c, r, ?_⟩
            simp only [utf8, hc]
            rw [if_neg (by omega), if_pos (by omega)]
            simp only [List.cons_append, List.nil_append, List.cons.injEq, and_true]
            exact ⟨eq8 (by omega), eq8 (by omega)⟩
          · exact .inl rfl
      · split
        · rcases r with _ | ⟨x, _ | ⟨y, r⟩⟩
          · exact .inl rfl
          · exact .inl rfl
          · simp only
            · refine ite_or fun h => ?_
              obtain ⟨⟨h1, h2⟩, h3, h4⟩ := h
              have g1 : b.toNat = 0xE0 → 0xA0 ≤ x.toNat := fun e => by rwa [if_pos e] at h1
              have g2 : 0x80 ≤ x.toNat := by split at h1 <;> omega
              have g3 : b.toNat = 0xED → x.toNat ≤ 0x9F := fun e => by rwa [if_pos e] at h2
              have g4 : x.toNat ≤ 0xBF := by split at h2 <;> omega
              clear h1 h2
              obtain ⟨c, hc⟩ := char_of (n := b.toNat % 16 * 4096 + x.toNat % 64 * 64 + y.toNat % 64) (by omega)
              refine ⟨c, r, ?_⟩
              simp only [utf8, hc]
              rw [if_neg (by omega), if_neg (by omega), if_pos (by omega)]
              simp only [List.cons_append, List.nil_append, List.cons.injEq, and_true]
              exact ⟨eq8 (by omega), eq8 (by omega), eq8 (by omega)⟩
        · split
          · rcases r with _ | ⟨x, _ | ⟨y, _ | ⟨z, r⟩⟩⟩
            · exact .inl rfl
            · exact .inl rfl
            · exact .inl rfl
            · simp only
              · refine ite_or fun h => ?_
                obtain ⟨⟨⟨h1, h2⟩, h3, h4⟩, h5, h6⟩ := h
                have g1 : b.toNat = 0xF0 → 0x90 ≤ x.toNat := fun e => by rwa [if_pos e] at h1
                have g2 : 0x80 ≤ x.toNat := by split at h1 <;> omega
                have g3 : b.toNat = 0xF4 → x.toNat ≤ 0x8F := fun e => by rwa [if_pos e] at h2
                have g4 : x.toNat ≤ 0xBF := by split at h2 <;> omega
                clear h1 h2
                obtain ⟨c, hc⟩ := char_of (n := b.toNat % 8 * 262144 + x.toNat % 64 * 4096 + y.toNat % 64 * 64 + z.toNat % 64) (by omega)
                refine ⟨c, r, ?_⟩
                simp only [utf8, hc]
                rw [if_neg (by omega), if_neg (by omega), if_neg (by omega)]
                simp only [List.cons_append, List.nil_append, List.cons.injEq, and_true]
                exact ⟨eq8 (by omega), eq8 (by omega), eq8 (by omega), eq8 (by omega)⟩
          · exact .inl rfl

theorem charsN_pieces : ∀ n s, s.length ≤ n → Runes s (charsN n s)
  | 0, s, h => by
    have : s = [] := List.length_eq_zero_iff.1 (by omega)
    subst this; exact .nil
  | n + 1, [], _ => .nil
  | n + 1, b :: r, h => by
    have hc : charsN (n + 1) (b :: r) = ((b :: r).take (max 1 (seqLen (b :: r)))) :: charsN n ((b :: r).drop (max 1 (seqLen (b :: r)))) := rfl
    rcases seqLen_pos (b :: r) with h0 | ⟨c, q, e⟩
    · rw [hc, h0]
      refine .byte b (fun c q e => ?_) (charsN_pieces n r (by simpa using h))
      rw [e, seqLen_utf8] at h0
      exact utf8_ne c (List.length_eq_zero_iff.1 h0)
    · have hl : 0 < (utf8 c).length := List.length_pos_iff.2 (utf8_ne c)
      rw [hc, e, seqLen_utf8, Nat.max_eq_right hl, List.take_left, List.drop_left]
      refine .char c (charsN_pieces n q ?_)
      have := congrArg List.length e
      simp at this h; omega

theorem chars_pieces (s : GoStr) : Runes s (chars s) := charsN_pieces _ s (Nat.le_refl _)

private theorem Runes.unique {s : GoStr} {ps : List GoStr} (h : Runes s ps) : ∀ {qs}, Runes s qs → qs = ps := by
  induction h with
  | nil =>
    intro qs hq
    generalize he : ([] : GoStr) = s at hq
    cases hq with
    | nil => rfl
    | char d h' => exact absurd (List.append_eq_nil_iff.1 he.symm).1 (utf8_ne d)
    | byte b _ _ => cases he
  | char c h ih =>
    rename_i r ps
    intro qs hq
    generalize he : utf8 c ++ r = s at hq
    cases hq with
    | nil => exact absurd (List.append_eq_nil_iff.1 he).1 (utf8_ne c)
    | char d h' =>
      have hl := congrArg seqLen he
      rw [seqLen_utf8, seqLen_utf8] at hl
      obtain ⟨e1, e2⟩ := List.append_inj he hl
      subst e2
      rw [← e1, ih h']
    | byte b hb _ => exact absurd he.symm (hb c r)
  | byte b hb h ih =>
    rename_i r ps
    intro qs hq
    generalize he : b :: r = s at hq
    cases hq with
    | nil => cases he
    | char d h' => exact absurd he (hb d _)
    | byte b' _ h' => cases he; rw [ih h']

/-! ### C58 -/

/-- C58: `string-split` with a non-empty separator gives exactly the pieces between the successive leftmost occurrences
of the separator. -/
theorem C58_split (s sep : GoStr) (hs : sep ≠ []) :
    ∃ ps : List GoStr, splitImpl (.str s) (.str sep) = .ok (.list (ps.map .str)) ∧ Splits sep s ps ∧ ∀ qs, Splits sep s qs → qs = ps := by
  have := str_splitN_spec hs s.length s (Nat.le_refl _)
  exact ⟨_, by simp [splitImpl, split, hs], this, fun qs hq => Splits.unique hq this⟩

/-- C58: no piece contains the separator. -/
theorem C58_split_pieces (s sep : GoStr) (hs : sep ≠ []) :
    ∃ ps : List GoStr, splitImpl (.str s) (.str sep) = .ok (.list (ps.map .str)) ∧ ∀ p ∈ ps, ¬ Occurs sep p := by
  obtain ⟨ps, h1, h2, _⟩ := C58_split s sep hs
  exact ⟨ps, h1, Splits.no_sep h2⟩

/-- C58: an empty separator cuts a text into its characters. -/
theorem C58_split_chars (cs : List Char) :
    splitImpl (.str (text cs)) (.str []) = .ok (.list (cs.map fun c => .str (utf8 c))) := by
  simp [splitImpl, split, chars_text, Function.comp_def]

/-- C58: an empty separator cuts any string, well-formed or not, into its encoded characters and single bytes for what
is no encoding of a character. -/
theorem C58_split_bytes (s : GoStr) : ∃ ps : List GoStr, splitImpl (.str s) (.str []) = .ok (.list (ps.map .str)) ∧
    Runes s ps ∧ ∀ qs, Runes s qs → qs = ps :=
  ⟨chars s, by simp [splitImpl, split], chars_pieces s, fun _ h => Runes.unique (chars_pieces s) h⟩

-- "é" and the bytes of a surrogate, which are no encoding
example : splitImpl (.str [0xC3, 0xA9, 0xED, 0xA0, 0x80]) (.str []) =
    .ok (.list [.str [0xC3, 0xA9], .str [0xED], .str [0xA0], .str [0x80]]) := by rfl

/-- C58: joining the pieces with the same separator gives the string back, for every string and separator. -/
theorem C58_join_split (s sep : GoStr) :
    ∃ l, splitImpl (.str s) (.str sep) = .ok l ∧ joinImpl l (.str sep) = .ok (.str s) := by
  refine ⟨_, rfl, ?_⟩
  simp only [joinImpl, joinLoop_strs, List.nil_append]
  by_cases hs : sep = []
  · subst hs
    simp [split, join_nil, str_chars_flatten]
  · have := Splits.join (str_splitN_spec hs s.length s (Nat.le_refl _))
    simp [split, hs, this]

/-- C58: `string-join` puts the separator between the strings of a list; without one it concatenates; an element that is
not a string is an error. -/
theorem C58_join (ps : List GoStr) (sep : GoStr) :
    joinImpl (.list (ps.map .str)) (.str sep) = .ok (.str (sep.intercalate ps)) ∧
    joinImpl (.list (ps.map .str)) (.list []) = .ok (.str ps.flatten) := by
  constructor
  · simp only [joinImpl, joinLoop_strs, List.nil_append]
    congr 2
    induction ps with
    | nil => rfl
    | cons p ps ih =>
      cases ps with
      | nil => simp [Str.join, List.intercalate]
      | cons q ps => rw [Str.join, ih]; simp [List.intercalate, List.intersperse]
  · simp [joinImpl, joinLoop_strs, join_nil]

theorem C58_join_error (xs : List V) (sep : V) (hsep : sep = .list [] ∨ ∃ b, sep = .str b) (hx : ∃ x ∈ xs, ∀ b, x ≠ .str b) :
    ∃ e, joinImpl (.list xs) sep = .err e := by
  have key : ∀ (xs : List V) acc, (∃ x ∈ xs, ∀ b, x ≠ .str b) → ∃ e, joinLoop xs acc = .err e := by
    intro xs
    induction xs with
    | nil => rintro acc ⟨x, h, _⟩; simp at h
    | cons y xs ih =>
      rintro acc ⟨x, hm, hx⟩
      cases y with
      | str b =>
        rw [joinLoop]
        refine ih _ ⟨x, ?_, hx⟩
        rcases List.mem_cons.1 hm with rfl | hm
        · exact absurd rfl (hx b)
        · exact hm
      | int n => exact ⟨_, rfl⟩
      | list l => exact ⟨_, rfl⟩
      | other => exact ⟨_, rfl⟩
  obtain ⟨e, he⟩ := key xs [] hx
  refine ⟨e, ?_⟩
  rcases hsep with rfl | ⟨b, rfl⟩ <;> simp [joinImpl, he]

/-- C58: trimming a text with a set of characters removes exactly the leading (and/or trailing) characters that are in
the set. -/
theorem C58_trim (cs set : List Char) :
    (∃ r, trimImpl .both (.str (text cs)) (some (.str (text set))) = .ok (.str (text r)) ∧ Trimmed true true set cs r) ∧
    (∃ r, trimImpl .left (.str (text cs)) (some (.str (text set))) = .ok (.str (text r)) ∧ Trimmed true false set cs r) ∧
    (∃ r, trimImpl .right (.str (text cs)) (some (.str (text set))) = .ok (.str (text r)) ∧ Trimmed false true set cs r) := by
  obtain ⟨pre, r, h1, h2, h3, h4⟩ := str_trimL_text set cs
  obtain ⟨r', post', g1, g2, g3, g4⟩ := str_trimR_text set cs
  obtain ⟨r'', post'', k1, k2, k3, k4⟩ := str_trimR_text set r
  refine ⟨⟨r'', ?_, pre, post'', ?_, ?_, by simp, by simp, ?_, ?_⟩, ⟨r, ?_, pre, [], ?_, ?_, by simp, by simp, ?_, by simp⟩,
    ⟨r', ?_, [], post', ?_, ?_, by simp, by simp, by simp, ?_⟩⟩
  · simp only [trimImpl, chars_text, h4, k4, flatten_text]
  · rw [h1, k1, List.append_assoc]
  · intro c hc
    rcases List.mem_append.1 hc with hc | hc
    · exact h2 c hc
    · exact k2 c hc
  · intro _ c hc
    refine h3 c ?_
    rw [k1]
    cases r'' with
    | nil => simp at hc
    | cons d r'' => simpa using hc
  · intro _; exact k3
  · simp only [trimImpl, chars_text, h4, flatten_text]
  · rw [h1]; simp
  · simpa using h2
  · intro _; exact h3
  · simp only [trimImpl, chars_text, g4, flatten_text]
  · rw [g1]; simp
  · simpa using g2
  · intro _; exact g3

private theorem Trimmed.nil {l t : Bool} {set cs r' : List Char} (h : Trimmed l t set cs []) (h' : Trimmed l t set cs r') :
    r' = [] := by
  obtain ⟨pre, post, rfl, ha, hl, ht, hh, hg⟩ := h
  obtain ⟨pre', post', he, ha', hl', ht', hh', hg'⟩ := h'
  simp only [List.append_nil] at he
  have hset : ∀ c ∈ r', c ∈ set := by
    intro c hc
    refine ha c ?_
    rw [he]; simp [hc]
  cases hr : r' with
  | nil => rfl
  | cons d ds =>
    cases l with
    | true => exact absurd (hset d (by simp [hr])) (hh' rfl d (by simp [hr]))
    | false =>
      cases t with
      | true =>
        cases hg2 : r'.getLast? with
        | none => simp [hr] at hg2
        | some c => exact absurd (hset c (List.mem_of_getLast? hg2)) (hg' rfl c hg2)
      | false =>
        rw [hl rfl, ht rfl, hl' rfl, ht' rfl, hr] at he
        simp at he

/-- C58: what is left after trimming is determined by these conditions, so trimming removes nothing more and nothing
less. -/
theorem C58_trim_unique {l t : Bool} {set cs r r' : List Char} (h : Trimmed l t set cs r) (h' : Trimmed l t set cs r') :
    r = r' := by
  by_cases h0 : r = []
  · subst h0; exact (Trimmed.nil h h').symm
  by_cases h0' : r' = []
  · subst h0'; exact Trimmed.nil h' h
  obtain ⟨pre, post, rfl, ha, hl, ht, hh, hg⟩ := h
  obtain ⟨pre', post', he, ha', hl', ht', hh', hg'⟩ := h'
  have front : ∀ {pre pre' r r' post post' : List Char}, pre ++ (r ++ post) = pre' ++ (r' ++ post') → r ≠ [] →
      (l = true → ∀ c, r.head? = some c → c ∉ set) → (∀ c ∈ pre', c ∈ set) → (l = false → pre' = []) →
      ∀ w, pre' = pre ++ w → w = [] := by
    intro pre pre' r r' post post' he hr hh ha' hl' w hw
    subst hw
    rw [List.append_assoc] at he
    have he := List.append_cancel_left he
    cases w with
    | nil => rfl
    | cons d w =>
      cases l with
      | false => exact absurd (hl' rfl) (by simp)
      | true =>
        cases r with
        | nil => exact absurd rfl hr
        | cons e r =>
          simp at he
          exact absurd (ha' d (by simp)) (hh rfl d (by simp [he.1]))
  have hp : pre = pre' := by
    rw [List.append_assoc, List.append_assoc] at he
    rcases List.append_eq_append_iff.1 he with ⟨w, hw, _⟩ | ⟨w, hw, _⟩
    · have := front he h0 hh (fun c hc => ha' c (by simp [hc])) hl' w hw
      rw [hw, this, List.append_nil]
    · have := front he.symm h0' hh' (fun c hc => ha c (by simp [hc])) hl w hw
      rw [hw, this, List.append_nil]
  subst hp
  rw [List.append_assoc, List.append_assoc] at he
  have he := List.append_cancel_left he
  have back : ∀ {r r' post post' w : List Char}, r' = r ++ w → post = w ++ post' →
      (t = true → ∀ c, r'.getLast? = some c → c ∉ set) → (∀ c ∈ post, c ∈ set) → (t = false → post = []) → w = [] := by
    intro r r' post post' w hw hpw hg' ha ht
    cases hw2 : w.getLast? with
    | none => simpa using hw2
    | some c =>
      have hne : w ≠ [] := by rintro rfl; simp at hw2
      cases t with
      | false =>
        have := ht rfl
        rw [hpw] at this
        exact (List.append_eq_nil_iff.1 this).1
      | true =>
        refine absurd (ha c ?_) (hg' rfl c ?_)
        · rw [hpw]; exact List.mem_append_left _ (List.mem_of_getLast? hw2)
        · rw [hw, List.getLast?_append, hw2]; rfl
  rcases List.append_eq_append_iff.1 he with ⟨w, hw, hw2⟩ | ⟨w, hw, hw2⟩
  · have := back hw hw2 hg' (fun c hc => ha c (by simp [hc])) ht
    rw [hw, this, List.append_nil]
  · have := back hw hw2 hg (fun c hc => ha' c (by simp [hc])) ht'
    rw [hw, this, List.append_nil]

/-- C58: without a set, white space (blank, tab, return, newline, vertical tab, form feed) is trimmed. -/
theorem C58_trim_default (side : Side) (s : V) :
    trimImpl side s none = trimImpl side s (some (.str (text [' ', '\t', '\r', '\n', '\x0b', '\x0c']))) := by
  have : blanks = text [' ', '\t', '\r', '\n', '\x0b', '\x0c'] := by decide
  cases s <;> simp only [trimImpl, this]

/-! ### C59 -/

/-- C59: `substring` with 0 ≤ start ≤ end ≤ length gives the bytes from `start` up to `end`. -/
theorem C59_substring (s : GoStr) (i j : BitVec 64) (hi : 0 ≤ i.toInt) (hij : i.toInt ≤ j.toInt) (hj : j.toInt ≤ s.length) :
    ∃ u r v, substringImpl (.str s) (.int i) (.int j) = .ok (.str r) ∧ s = u ++ r ++ v ∧
      u.length = i.toInt ∧ (u ++ r).length = j.toInt := by
  refine ⟨s.take i.toInt.toNat, (s.drop i.toInt.toNat).take (j.toInt.toNat - i.toInt.toNat),
    (s.drop i.toInt.toNat).drop (j.toInt.toNat - i.toInt.toNat), ?_, ?_, ?_, ?_⟩
  · simp only [substringImpl]
    rw [if_neg (by omega), if_neg (by omega), if_neg (by omega), if_neg (by omega)]
  · rw [List.append_assoc, List.take_append_drop, List.take_append_drop]
  · simp; omega
  · simp; omega

/-- C59: a start or end beyond the length, a start after the end, or an argument of another type is an error.
Partial: a negative start is not refused (`C59_negative_violation`). -/
theorem C59_substring_error_partial (s i j : V)
    (hbad : ∀ a b c, s = .str a → i = .int b → j = .int c →
      b.toInt > a.length ∨ c.toInt > a.length ∨ b.toInt > c.toInt) :
    ∃ e, substringImpl s i j = .err e := by
  cases s with
  | str a =>
    cases i with
    | int b =>
      cases j with
      | int c =>
        have := hbad a b c rfl rfl rfl
        simp only [substringImpl]
        split
        · exact ⟨_, rfl⟩
        · split
          · exact ⟨_, rfl⟩
          · split
            · exact ⟨_, rfl⟩
            · omega
      | _ => simp only [substringImpl]; split <;> exact ⟨_, rfl⟩
    | _ => exact ⟨_, rfl⟩
  | _ => exact ⟨_, rfl⟩

/-- C59 fails for a negative start: `(substring s -1 0)` crashes the program (slice bounds out of range) instead of
raising an error, for every string and every end in range. -/
theorem C59_negative_violation (s : GoStr) (i j : BitVec 64) (hi : i.toInt < 0) (hij : i.toInt ≤ j.toInt) (hj : j.toInt ≤ s.length) :
    substringImpl (.str s) (.int i) (.int j) = .panic := by
  simp only [substringImpl]
  rw [if_neg (by omega), if_neg (by omega), if_neg (by omega), if_pos hi]

private theorem ans_yes (b : Bool) : ans b = .yes ↔ b = true := by cases b <;> simp [ans]

theorem str_contains_iff (s sub : GoStr) : contains s sub = true ↔ Occurs sub s := by
  unfold contains
  cases h : index sub s with
  | none => simp [index_none h]
  | some i =>
    simp only [Option.isSome_some, true_iff]
    exact ⟨_, _, (index_some h).1⟩

/-- C59: `(substring? a b)`, `(string-prefix? a b)`, `(string-suffix? a b)` answer yes exactly when `b` is `u a v`,
`a v`, `u a` for some strings `u`, `v`; they always answer for two strings. -/
theorem C59_tests (a b : GoStr) :
    (substringP (.str a) (.str b) = .ok .yes ↔ ∃ u v, b = u ++ a ++ v) ∧
    (prefixP (.str a) (.str b) = .ok .yes ↔ ∃ v, b = a ++ v) ∧
    (suffixP (.str a) (.str b) = .ok .yes ↔ ∃ u, b = u ++ a) ∧
    (∃ x y z, substringP (.str a) (.str b) = .ok x ∧ prefixP (.str a) (.str b) = .ok y ∧ suffixP (.str a) (.str b) = .ok z) := by
  refine ⟨?_, ?_, ?_, ⟨_, _, _, rfl, rfl, rfl⟩⟩
  · simp only [substringP, test2, Out.ok.injEq, ans_yes, str_contains_iff]; rfl
  · simp only [prefixP, test2, Out.ok.injEq, ans_yes, str_hasPrefix_iff]
  · simp only [suffixP, test2, Out.ok.injEq, ans_yes, str_hasSuffix_iff]

/-- C59: an argument that is not a string is an error. -/
theorem C59_tests_error (x y : V) (h : (∀ a, x ≠ .str a) ∨ ∀ b, y ≠ .str b) :
    (∃ e, substringP x y = .err e) ∧ (∃ e, prefixP x y = .err e) ∧ (∃ e, suffixP x y = .err e) := by
  have key : ∀ name f, ∃ e, test2 name f x y = .err e := by
    intro name f
    cases x with
    | str a =>
      cases y with
      | str b => rcases h with h | h <;> exact absurd rfl (h _)
      | _ => exact ⟨_, rfl⟩
    | _ => exact ⟨_, rfl⟩
  exact ⟨key _ _, key _ _, key _ _⟩

/-- C59: `string-length` is the number of bytes. -/
theorem C59_length (s : GoStr) (h : s.length < 2 ^ 63) :
    ∃ n, lengthImpl (.str s) = .ok (.int n) ∧ n.toInt = s.length := by
  refine ⟨_, rfl, ?_⟩
  rw [BitVec.toInt_eq_toNat_of_lt] <;> simp <;> omega

/-! ### C61 -/

private theorem lt_iff : ∀ a b, lt a b = true ↔ Before a b
  | a, [] => by
    have : ¬ Before a [] := by
      intro h
      generalize hb : ([] : GoStr) = b at h
      cases h with
      | pre => simp at hb
      | byte => simp at hb
    simp [lt, this]
  | [], b :: t => by
    simp only [lt, true_iff]
    exact .pre [] b t
  | a :: s, b :: t => by
    rw [lt]
    split
    · rename_i h; simp only [true_iff]; exact .byte [] s t h
    · rename_i h
      split
      · rename_i he
        subst he
        rw [lt_iff s t]
        constructor
        · intro hb
          cases hb with
          | pre _ b r => exact .pre (a :: s) b r
          | byte p r t' h' => exact .byte (a :: p) r t' h'
        · intro hb
          generalize hx : a :: s = x at hb
          generalize hy : a :: t = y at hb
          cases hb with
          | pre _ b r =>
            subst hx
            simp at hy
            subst hy; exact .pre s b r
          | byte p r t' h' =>
            cases p with
            | nil =>
              simp at hx hy
              rw [← hx.1, ← hy.1] at h'; omega
            | cons c p =>
              simp at hx hy
              rw [hx.2, hy.2]; exact .byte p r t' h'
      · rename_i hne
        simp only [Bool.false_eq_true, false_iff]
        intro hb
        generalize hx : a :: s = x at hb
        generalize hy : b :: t = y at hb
        cases hb with
        | pre _ c r =>
          subst hx
          simp at hy
          exact hne hy.1.symm
        | byte p r t' h' =>
          cases p with
          | nil =>
            simp at hx hy
            rw [← hx.1, ← hy.1] at h'; exact h h'
          | cons c p =>
            simp at hx hy
            exact hne (hx.1.trans hy.1.symm)

theorem str_lt_irrefl : ∀ a, lt a a = false
  | [] => rfl
  | a :: s => by simp [lt, str_lt_irrefl s]

theorem str_lt_trans : ∀ {a b c}, lt a b = true → lt b c = true → lt a c = true
  | _, [], _, h, _ => by simp [lt] at h
  | _, _ :: _, [], _, h => by simp [lt] at h
  | [], _ :: _, _ :: _, _, _ => by simp [lt]
  | x :: a, y :: b, z :: c, h1, h2 => by
    rw [lt] at h1 h2 ⊢
    split at h1
    · split at h2
      · rw [if_pos (by omega)]
      · split at h2
        · rename_i h _ he; subst he; rw [if_pos h]
        · simp at h2
    · split at h1
      · rename_i _ he
        subst he
        split at h2
        · rename_i h; rw [if_pos h]
        · split at h2
          · rename_i hn he; subst he; rw [if_neg (by omega), if_pos rfl]; exact str_lt_trans h1 h2
          · simp at h2
      · simp at h1

theorem str_lt_total : ∀ a b, lt a b = true ∨ a = b ∨ lt b a = true
  | [], [] => .inr (.inl rfl)
  | [], _ :: _ => .inl (by simp [lt])
  | _ :: _, [] => .inr (.inr (by simp [lt]))
  | x :: a, y :: b => by
    by_cases h1 : x.toNat < y.toNat
    · left; simp [lt, h1]
    · by_cases h2 : y.toNat < x.toNat
      · right; right; simp [lt, h2]
      · have : x = y := BitVec.eq_of_toNat_eq (by omega)
        subst this
        rcases str_lt_total a b with h | h | h
        · left; simp [lt, h]
        · right; left; rw [h]
        · right; right; simp [lt, h]

/-- C61: the comparisons of two strings always answer, and their answers agree with one order: byte by byte, a proper
prefix first. -/
theorem C61_compare (a b : GoStr) :
    (lessP (.str a) (.str b) = .ok .yes ↔ Before a b) ∧ (greaterP (.str a) (.str b) = .ok .yes ↔ Before b a) ∧
    (lessEqP (.str a) (.str b) = .ok .yes ↔ Before a b ∨ a = b) ∧ (greaterEqP (.str a) (.str b) = .ok .yes ↔ Before b a ∨ a = b) ∧
    (equalP (.str a) (.str b) = .ok .yes ↔ a = b) := by
  have tri := str_lt_total a b
  have asym : lt a b = true → lt b a = true → False := fun h1 h2 => by
    have := str_lt_trans h1 h2; rw [str_lt_irrefl] at this; simp at this
  refine ⟨?_, ?_, ?_, ?_, ?_⟩
  · simp only [lessP, test2, Out.ok.injEq, ans_yes, lt_iff]
  · simp only [greaterP, test2, Out.ok.injEq, ans_yes, lt_iff]
  · simp only [lessEqP, test2, Out.ok.injEq, ans_yes, Bool.not_eq_true']
    rw [← lt_iff]
    constructor
    · intro h; rcases tri with h' | h' | h'
      · exact .inl h'
      · exact .inr h'
      · rw [h] at h'; simp at h'
    · rintro (h | rfl)
      · cases hb : lt b a with
        | true => exact (asym h hb).elim
        | false => rfl
      · exact str_lt_irrefl a
  · simp only [greaterEqP, test2, Out.ok.injEq, ans_yes, Bool.not_eq_true']
    rw [← lt_iff]
    constructor
    · intro h; rcases tri with h' | h' | h'
      · rw [h] at h'; simp at h'
      · exact .inr h'
      · exact .inl h'
    · rintro (h | rfl)
      · cases hb : lt a b with
        | true => exact (asym hb h).elim
        | false => rfl
      · exact str_lt_irrefl a
  · simp [equalP, test2, ans_yes]

/-- C61: that order is a strict total order. -/
theorem C61_order (a b c : GoStr) :
    ¬ Before a a ∧ (Before a b → Before b c → Before a c) ∧ (Before a b ∨ a = b ∨ Before b a) := by
  simp only [← lt_iff]
  exact ⟨by simp [str_lt_irrefl], str_lt_trans, str_lt_total a b⟩

/-! ### The hypotheses are met -/

/-- `(string-split "aXbX" "X")` -/
example : splitImpl (.str (text ['a', 'X', 'b', 'X'])) (.str (text ['X'])) = .ok (.list [.str (text ['a']), .str (text ['b']), .str []]) := by
  rfl
example := C58_split (text ['a', 'X', 'X', 'b']) (text ['X']) (by simp [text, utf8])
example := C58_join_split (text ['a', 'X', 'X', 'b']) (text ['X'])
example := C58_trim [' ', 'é', ' '] [' ', '\t']
example : Trimmed true true [' '] [' ', 'a', ' ', 'b', ' '] ['a', ' ', 'b'] :=
  ⟨[' '], [' '], rfl, by simp, by simp, by simp, by simp, by simp⟩
example := C58_join_error [.str [], .other] (.list []) (.inl rfl) ⟨.other, by simp, by simp⟩
example := C59_substring (text ['a', 'b', 'c']) 1 3 (by decide) (by decide) (by decide)
example := C59_substring_error_partial (.str (text ['a'])) (.int 0) (.int 2)
  (by rintro a b c ha hb hc
      cases ha; cases hb; cases hc
      decide)
example := C59_negative_violation (text ['a']) (-1) 0 (by decide) (by decide) (by decide)
example : Before (text ['a', 'b']) (text ['a', 'c']) := .byte (text ['a']) (x := 98) (y := 99) [] [] (by decide)

end Golisp.Props
