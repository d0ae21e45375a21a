import Verif.Str
/-
Text as bytes: UTF-8 encoding, and reading bytes as characters the way Go does (`utf8.DecodeRuneInString`).
-/
namespace Golisp.Spec
open Str

/-- UTF-8 encoding of a character (RFC 3629). -/
def utf8 (c : Char) : GoStr :=
  let n := c.toNat
  if n < 0x80 then [BitVec.ofNat 8 n]
  else if n < 0x800 then [BitVec.ofNat 8 (0xC0 + n / 64), BitVec.ofNat 8 (0x80 + n % 64)]
  else if n < 0x10000 then
    [BitVec.ofNat 8 (0xE0 + n / 4096), BitVec.ofNat 8 (0x80 + n / 64 % 64), BitVec.ofNat 8 (0x80 + n % 64)]
  else [BitVec.ofNat 8 (0xF0 + n / 262144), BitVec.ofNat 8 (0x80 + n / 4096 % 64), BitVec.ofNat 8 (0x80 + n / 64 % 64),
    BitVec.ofNat 8 (0x80 + n % 64)]

/-- The Go string holding the given characters. -/
def text (cs : List Char) : GoStr := cs.flatMap utf8

end Golisp.Spec

namespace Golisp.Str
open Spec

/-- The code point a well-formed UTF-8 sequence stands for. -/
def codePoint : GoStr → Nat
  | [a] => a.toNat
  | [a, b] => a.toNat % 32 * 64 + b.toNat % 64
  | [a, b, c] => a.toNat % 16 * 4096 + b.toNat % 64 * 64 + c.toNat % 64
  | [a, b, c, d] => a.toNat % 8 * 262144 + b.toNat % 64 * 4096 + c.toNat % 64 * 64 + d.toNat % 64
  | _ => 0xFFFD

/-- One element of `chars` as a character; a byte that is not part of a well-formed sequence is U+FFFD. -/
def decodeChar (c : GoStr) : Char := if seqLen c = c.length then Char.ofNat (codePoint c) else Char.ofNat 0xFFFD

/-- The characters `range` gives for a Go string. -/
def decode (s : GoStr) : List Char := (chars s).map decodeChar

/-! ### Characters -/

theorem toNat_ofNat8 (n : Nat) (h : n < 256) : (BitVec.ofNat 8 n).toNat = n := by
  simp; omega

theorem char_range (c : Char) : c.toNat < 0xD800 ∨ (0xDFFF < c.toNat ∧ c.toNat < 0x110000) := by
  have := c.valid
  simpa [UInt32.isValidChar, Nat.isValidChar] using this

theorem utf8_ne (c : Char) : utf8 c ≠ [] := by
  simp only [utf8]
  repeat' split
  all_goals simp

theorem seqLen_utf8 (c : Char) (r : GoStr) : seqLen (utf8 c ++ r) = (utf8 c).length := by
  have hr := char_range c
  simp only [utf8]
  generalize c.toNat = n at hr
  split
  · simp only [List.cons_append, List.nil_append, seqLen, toNat_ofNat8 n (by omega)]
    rw [if_pos (by omega)]; rfl
  · split
    · have h1 := toNat_ofNat8 (0xC0 + n / 64) (by omega)
      have h2 := toNat_ofNat8 (0x80 + n % 64) (by omega)
      simp only [List.cons_append, List.nil_append, seqLen, h1, h2, inR]
      rw [if_neg (by omega), if_pos (by simp; omega), if_pos (by simp; omega)]; rfl
    · split
      · have h1 := toNat_ofNat8 (0xE0 + n / 4096) (by omega)
        have h2 := toNat_ofNat8 (0x80 + n / 64 % 64) (by omega)
        have h3 := toNat_ofNat8 (0x80 + n % 64) (by omega)
        simp only [List.cons_append, List.nil_append, seqLen, h1, h2, h3, inR]
        rw [if_neg (by omega), if_neg (by simp; omega), if_pos (by simp; omega), if_pos]
        · rfl
        · simp
          split <;> split <;> omega
      · have h1 := toNat_ofNat8 (0xF0 + n / 262144) (by omega)
        have h2 := toNat_ofNat8 (0x80 + n / 4096 % 64) (by omega)
        have h3 := toNat_ofNat8 (0x80 + n / 64 % 64) (by omega)
        have h4 := toNat_ofNat8 (0x80 + n % 64) (by omega)
        simp only [List.cons_append, List.nil_append, seqLen, h1, h2, h3, h4, inR]
        rw [if_neg (by omega), if_neg (by simp; omega), if_neg (by simp; omega), if_pos (by simp; omega), if_pos]
        · rfl
        · simp
          split <;> split <;> omega

theorem utf8_inj {c d : Char} (h : utf8 c = utf8 d) : c = d := by
  have hc := char_range c
  have hd := char_range d
  apply Char.ext
  apply UInt32.toNat_inj.1
  show c.toNat = d.toNat
  simp only [utf8] at h
  generalize c.toNat = n at *
  generalize d.toNat = m at *
  have key : ∀ {a b : Nat}, BitVec.ofNat 8 a = BitVec.ofNat 8 b → a % 256 = b % 256 := by
    intro a b h
    have := congrArg BitVec.toNat h
    simpa using this
  repeat' split at h
  all_goals simp only [List.cons.injEq, List.nil_eq, reduceCtorEq, and_false, and_true] at h
  · have := key h; omega
  · have h1 := key h.1; have h2 := key h.2; omega
  · have h1 := key h.1; have h2 := key h.2.1; have h3 := key h.2.2; omega
  · have h1 := key h.1; have h2 := key h.2.1; have h3 := key h.2.2.1; have h4 := key h.2.2.2; omega

theorem chars_text_N : ∀ (cs : List Char) n, (text cs).length ≤ n → charsN n (text cs) = cs.map utf8
  | [], n, _ => by cases n <;> rfl
  | c :: cs, n, h => by
    have hl : 0 < (utf8 c).length := List.length_pos_iff.2 (utf8_ne c)
    have ht : text (c :: cs) = utf8 c ++ text cs := rfl
    rw [ht] at h ⊢
    simp only [List.length_append] at h
    cases n with
    | zero => omega
    | succ n =>
      have hk : max 1 (seqLen (utf8 c ++ text cs)) = (utf8 c).length := by rw [seqLen_utf8]; omega
      cases hb : utf8 c ++ text cs with
      | nil => simp [utf8_ne] at hb
      | cons b r =>
        rw [charsN, ← hb, hk]
        simp only [List.take_left', List.drop_left', List.map_cons]
        rw [chars_text_N cs n (by omega)]

theorem chars_text (cs : List Char) : chars (text cs) = cs.map utf8 := chars_text_N cs _ (Nat.le_refl _)

theorem rune_utf8 (c : Char) : rune (utf8 c) = utf8 c := by
  have := seqLen_utf8 c []
  simp only [List.append_nil] at this
  simp [rune, this]

theorem inSet_text (set : List Char) (c : Char) : inSet (text set) (utf8 c) = true ↔ c ∈ set := by
  simp only [inSet, chars_text, rune_utf8, List.map_map, List.contains_eq_mem, decide_eq_true_eq, List.mem_map,
    Function.comp]
  constructor
  · rintro ⟨d, hd, he⟩; exact utf8_inj he ▸ hd
  · intro h; exact ⟨c, h, rfl⟩

theorem flatten_text (r : List Char) : (r.map utf8).flatten = text r := by
  simp [text, List.flatMap]

theorem codePoint_utf8 (c : Char) : codePoint (utf8 c) = c.toNat := by
  have hr := char_range c
  simp only [utf8]
  generalize c.toNat = n at hr
  repeat' split
  · simp only [codePoint, toNat_ofNat8 n (by omega)]
  · have h1 := toNat_ofNat8 (0xC0 + n / 64) (by omega)
    have h2 := toNat_ofNat8 (0x80 + n % 64) (by omega)
    simp only [codePoint, h1, h2]; omega
  · have h1 := toNat_ofNat8 (0xE0 + n / 4096) (by omega)
    have h2 := toNat_ofNat8 (0x80 + n / 64 % 64) (by omega)
    have h3 := toNat_ofNat8 (0x80 + n % 64) (by omega)
    simp only [codePoint, h1, h2, h3]; omega
  · have h1 := toNat_ofNat8 (0xF0 + n / 262144) (by omega)
    have h2 := toNat_ofNat8 (0x80 + n / 4096 % 64) (by omega)
    have h3 := toNat_ofNat8 (0x80 + n / 64 % 64) (by omega)
    have h4 := toNat_ofNat8 (0x80 + n % 64) (by omega)
    simp only [codePoint, h1, h2, h3, h4]; omega

theorem decodeChar_utf8 (c : Char) : decodeChar (utf8 c) = c := by
  have := seqLen_utf8 c []
  rw [List.append_nil] at this
  rw [decodeChar, if_pos this, codePoint_utf8]
  exact Char.ofNat_toNat c

/-- Reading back what was encoded. -/
theorem decode_text (cs : List Char) : decode (text cs) = cs := by
  rw [decode, chars_text, List.map_map]
  exact (List.map_congr_left fun c _ => decodeChar_utf8 c).trans (List.map_id cs)

end Golisp.Str
