import Verif.ReaderLemmas
/-
Which values are readable, and the lemmas showing that their printed text lexes and parses back to them.
-/
namespace Golisp.Spec
open Golisp.Data Golisp.Reader

/-- A name that can be written as a symbol: non-empty, only symbol characters, not starting like a number, and not
the single dot. -/
def Name (H : Host) (s : String) : Prop :=
  ∃ c cs, s.toList = c :: cs ∧ (∀ x ∈ c :: cs, isSymChar H x = true) ∧ isNumber H c = false ∧
    ¬ (c = '-' ∧ ∃ x r, cs = x :: r ∧ isNumber H x = true) ∧ ¬ (c = '.' ∧ cs = [])

/-- Atoms with a readable text. -/
def ReadableAtom (H : Host) : Atom → Prop
  | .int _ => True
  | .bool _ => True
  | .str s => '\\' ∉ s.toList
  | .sym s => Name H s
  | .bytes _ => True
  | _ => False

mutual
/-- Readable values: integers, booleans, strings without backslashes, names, byte arrays, the empty list, proper and
dotted lists of readable values.  A proper list starting with `quote` must be `(quote x)`. -/
def Readable (H : Host) : Data → Prop
  | .null => False
  | .atom a => ReadableAtom H a
  | .cell .cons a d =>
    (a = .null ∧ d = .null) ∨
    (Readable H a ∧ ReadableTail H d ∧ (a = .sym "quote" → Proper d → ∃ x, d = .cons x .null))
  | .cell _ _ _ => False
/-- What may follow in the `cdr`: the end of the list, more elements, or a dotted atom. -/
def ReadableTail (H : Host) : Data → Prop
  | .null => True
  | .atom a => ReadableAtom H a
  | .cell .cons a d => Readable H a ∧ ReadableTail H d
  | .cell _ _ _ => False
/-- The chain ends in nil. -/
def Proper : Data → Prop
  | .null => True
  | .atom _ => False
  | .cell _ _ d => Proper d
end

/-- White space and complete comment lines. -/
inductive Blank (H : Host) : List Char → Prop where
  | nil : Blank H []
  | space (c : Char) (w : List Char) : isSpace H c = true → Blank H w → Blank H (c :: w)
  | comment (body w : List Char) : '\n' ∉ body → Blank H w → Blank H (';' :: (body ++ '\n' :: w))

end Golisp.Spec

namespace Golisp.Reader
open Data Spec
variable (H : Host)

/-- The text continues with something that ends a symbol or number. -/
def Stop (r : List Char) : Prop := ∀ c, r.head? = some c → isSymChar H c = false ∧ isNumber H c = false

theorem stop_nil : Stop H [] := fun _ h => by simp at h
theorem isNumber_ascii (c : Char) (h : c.toNat < 128) : isNumber H c = (48 ≤ c.toNat && c.toNat ≤ 57) := by
  unfold isNumber; rw [if_pos h]
theorem isSpace_ascii (c : Char) (h : c.toNat < 128) :
    isSpace H c = (decide (c = ' ') || (9 ≤ c.toNat && c.toNat ≤ 13)) := by
  unfold isSpace; rw [if_pos h]
theorem isGraphic_ascii (c : Char) (h : c.toNat < 128) : isGraphic H c = (32 ≤ c.toNat && c.toNat ≤ 126) := by
  unfold isGraphic; rw [if_pos h]
theorem isSym_ascii (c : Char) (h : c.toNat < 128) :
    isSymChar H c = ((32 ≤ c.toNat && c.toNat ≤ 126) && !(decide (c = ' ') || (9 ≤ c.toNat && c.toNat ≤ 13)) &&
      !delims.contains c) := by
  unfold isSymChar; rw [isSpace_ascii H c h, isGraphic_ascii H c h]

theorem stop_cons (c : Char) (r : List Char) (h1 : isSymChar H c = false) (h2 : isNumber H c = false) :
    Stop H (c :: r) := fun x h => by simp at h; subst h; exact ⟨h1, h2⟩

theorem stop_space (r : List Char) : Stop H (' ' :: r) :=
  stop_cons H _ r (by rw [isSym_ascii H _ (by decide)]; decide) (by rw [isNumber_ascii H _ (by decide)]; decide)
theorem stop_rparen (r : List Char) : Stop H (')' :: r) :=
  stop_cons H _ r (by rw [isSym_ascii H _ (by decide)]; decide) (by rw [isNumber_ascii H _ (by decide)]; decide)
theorem stop_rbracket (r : List Char) : Stop H (']' :: r) :=
  stop_cons H _ r (by rw [isSym_ascii H _ (by decide)]; decide) (by rw [isNumber_ascii H _ (by decide)]; decide)

theorem stop_blank {w : List Char} (hw : Blank H w) (hne : w ≠ []) (r : List Char) : Stop H (w ++ r) := by
  cases hw with
  | nil => exact absurd rfl hne
  | space c w hc _ =>
    refine stop_cons H c _ (by simp [isSymChar, hc]) ?_
    unfold isSpace at hc
    unfold isNumber
    split
    · next h =>
      rw [if_pos h] at hc
      simp only [Bool.or_eq_true, decide_eq_true_eq, Bool.and_eq_true] at hc
      rcases hc with rfl | hc
      · decide
      · simp only [Bool.and_eq_false_iff, decide_eq_false_iff_not]; left; omega
    · next h => rw [if_neg h] at hc; exact H.spaceNotNumber c hc
  | comment body w _ _ =>
    exact stop_cons H _ _ (by rw [isSym_ascii H _ (by decide)]; decide) (by rw [isNumber_ascii H _ (by decide)]; decide)

/-! ### Single tokens -/

theorem readToken_head (c : Char) (cs : List Char) (h : isSpace H c = false) :
    readToken H (c :: cs) = readHead H c cs := by
  unfold readToken skipSpace
  rw [h]; rfl

/-- A punctuation character that is its own token. -/
theorem lex_punct (c : Char) (t : Tok) (hs : isSpace H c = false) (ht : t ≠ .eof) (cs : List Char)
    (h : readHead H c cs = (some t, cs)) : lex H (c :: cs) = t :: lex H cs :=
  lex_tok H (by rw [readToken_head H c cs hs, h]) ht

theorem lex_lparen (cs : List Char) : lex H ('(' :: cs) = .lparen :: lex H cs := by
  refine lex_punct H _ _ (by rw [isSpace_ascii H _ (by decide)]; decide) (by decide) cs ?_
  simp [readHead, isNumber_ascii]
theorem lex_rparen (cs : List Char) : lex H (')' :: cs) = .rparen :: lex H cs := by
  refine lex_punct H _ _ (by rw [isSpace_ascii H _ (by decide)]; decide) (by decide) cs ?_
  simp [readHead, isNumber_ascii]
theorem lex_lbracket (cs : List Char) : lex H ('[' :: cs) = .lbracket :: lex H cs := by
  refine lex_punct H _ _ (by rw [isSpace_ascii H _ (by decide)]; decide) (by decide) cs ?_
  simp [readHead, isNumber_ascii]
theorem lex_rbracket (cs : List Char) : lex H (']' :: cs) = .rbracket :: lex H cs := by
  refine lex_punct H _ _ (by rw [isSpace_ascii H _ (by decide)]; decide) (by decide) cs ?_
  simp [readHead, isNumber_ascii]
theorem lex_quote (cs : List Char) : lex H ('\'' :: cs) = .quote :: lex H cs := by
  refine lex_punct H _ _ (by rw [isSpace_ascii H _ (by decide)]; decide) (by decide) cs ?_
  simp [readHead, isNumber_ascii]
theorem lex_sp (cs : List Char) : lex H (' ' :: cs) = lex H cs :=
  lex_space H ' ' (by rw [isSpace_ascii H _ (by decide)]; decide) cs
theorem lex_period (cs : List Char) : lex H ('.' :: ' ' :: cs) = .period :: lex H cs := by
  have h : readHead H '.' (' ' :: cs) = (some .period, ' ' :: cs) := by
    simp [readHead, isNumber_ascii]
  rw [lex_punct H '.' .period (by rw [isSpace_ascii H _ (by decide)]; decide) (by decide) _ h, lex_sp]
theorem lex_true (cs : List Char) : lex H ('#' :: 't' :: cs) = .tru :: lex H cs := by
  refine lex_tok H ?_ (by decide)
  rw [readToken_head H _ _ (by rw [isSpace_ascii H _ (by decide)]; decide)]
  simp [readHead, isNumber_ascii, isSym_ascii, delims]
theorem lex_false (cs : List Char) : lex H ('#' :: 'f' :: cs) = .fls :: lex H cs := by
  refine lex_tok H ?_ (by decide)
  rw [readToken_head H _ _ (by rw [isSpace_ascii H _ (by decide)]; decide)]
  simp [readHead, isNumber_ascii, isSym_ascii, delims]

theorem lex_nil : lex H [] = [.eof] := rfl

/-- Blank text disappears. -/
theorem lex_blank {w : List Char} (hw : Blank H w) (cs : List Char) : lex H (w ++ cs) = lex H cs := by
  induction hw with
  | nil => rfl
  | space c w hc _ ih => rw [List.cons_append, lex_space H c hc, ih]
  | comment body w hb _ ih =>
    have e : skipComment ((body ++ '\n' :: w) ++ cs) = '\n' :: (w ++ cs) := by
      clear ih
      induction body with
      | nil => simp [skipComment]
      | cons b body ihb =>
        simp only [List.mem_cons, not_or] at hb
        simp only [List.cons_append, skipComment, if_neg (Ne.symm hb.1)]
        exact ihb hb.2
    have h : readToken H (';' :: ((body ++ '\n' :: w) ++ cs)) = (none, '\n' :: (w ++ cs)) := by
      rw [readToken_head H _ _ (by rw [isSpace_ascii H _ (by decide)]; decide)]
      simp only [readHead, isNumber_ascii H ';' (by decide), isSym_ascii H ';' (by decide), e]
      simp [delims]
    rw [List.cons_append, lex_comment H h,
      lex_space H '\n' (by rw [isSpace_ascii H _ (by decide)]; decide), ih]

/-! ### Strings -/

theorem strLoop_escape (s : List Char) (hs : '\\' ∉ s) (r : List Char) :
    strLoop (escapeQuotes s ++ '"' :: r) = some (s, r) := by
  induction s with
  | nil => simp [escapeQuotes, strLoop]
  | cons c s ih =>
    simp only [List.mem_cons, not_or] at hs
    unfold escapeQuotes
    split
    · next hc => subst hc; simp [strLoop, ih hs.2]
    · next hc =>
      rw [List.cons_append]
      rw [strLoop.eq_5 _ _ hc (fun h _ => hs.1 h.symm) (fun _ _ h _ => hs.1 h.symm), ih hs.2]
      rfl

theorem lex_str (s : List Char) (hs : '\\' ∉ s) (r : List Char) :
    lex H ('"' :: (escapeQuotes s ++ '"' :: r)) = .str s :: lex H r := by
  refine lex_tok H ?_ (by simp)
  rw [readToken_head H _ _ (by rw [isSpace_ascii H _ (by decide)]; decide)]
  simp [readHead, isNumber_ascii, strLoop_escape s hs r]

/-! ### Symbols -/

theorem takeWhile_stop {p : Char → Bool} (cs r : List Char) (h : ∀ x ∈ cs, p x = true)
    (hr : ∀ c, r.head? = some c → p c = false) :
    (cs ++ r).takeWhile p = cs ∧ (cs ++ r).dropWhile p = r := by
  induction cs with
  | nil =>
    cases r with
    | nil => exact ⟨rfl, rfl⟩
    | cons c r => simp [hr c rfl]
  | cons c cs ih =>
    have := ih fun x hx => h x (List.mem_cons_of_mem _ hx)
    simp [h c (List.mem_cons_self ..), this]

theorem symChar_not {c : Char} (h : isSymChar H c = true) : c ∉ delims ∧ isSpace H c = false := by
  simp only [isSymChar, Bool.and_eq_true, Bool.not_eq_true', List.contains_eq_mem, decide_eq_false_iff_not] at h
  exact ⟨h.2, h.1.2⟩

theorem lex_sym {s : String} (hn : Name H s) (r : List Char) (hr : Stop H r) :
    lex H (s.toList ++ r) = .symbol s.toList :: lex H r := by
  obtain ⟨c, cs, e, hall, hnum, hneg, hdot⟩ := hn
  rw [e]
  have hc := hall c (List.mem_cons_self ..)
  obtain ⟨hd, hsp⟩ := symChar_not H hc
  simp only [delims, List.mem_cons, List.not_mem_nil, or_false, not_or] at hd
  obtain ⟨d1, d2, d3, d4, d5, d6, d7, d8, d9, d10, d11, d12, d13⟩ := hd
  refine lex_tok H ?_ (by simp)
  rw [List.cons_append, readToken_head H _ _ hsp]
  have htw := takeWhile_stop (p := isSymChar H) cs r (fun x hx => hall x (List.mem_cons_of_mem _ hx)) fun c h => (hr c h).1
  have h0 : c ≠ '0' := fun h => by subst h; rw [isNumber_ascii H _ (by decide)] at hnum; exact absurd hnum (by decide)
  have hneg' : (decide (c = '-') && (cs ++ r).head?.any (isNumber H)) = false := by
    by_cases hm : c = '-'
    · subst hm
      cases cs with
      | nil =>
        cases r with
        | nil => rfl
        | cons x r => simpa using (hr x rfl).2
      | cons x cs =>
        have : isNumber H x ≠ true := fun hx => hneg ⟨rfl, x, cs, rfl, hx⟩
        simpa using this
    · simp [hm]
  have hdot' : (decide (c = '.') && decide ((cs ++ r).head? = some ' ')) = false := by
    by_cases hm : c = '.'
    · subst hm
      cases cs with
      | nil => exact absurd ⟨rfl, rfl⟩ hdot
      | cons x cs =>
        have hx := (symChar_not H (hall x (by simp))).2
        have : x ≠ ' ' := fun h => by subst h; rw [isSpace_ascii H _ (by decide)] at hx; exact absurd hx (by decide)
        simp [this]
    · simp [hm]
  have hq : ¬ ((decide (c = '.') && decide ((cs ++ r).head? = some ' ')) = true) := by rw [hdot']; decide
  unfold readHead
  rw [if_neg (by simp [h0]), if_neg (by rw [hnum, hneg']; decide), if_neg d4, if_neg d5, if_neg d6,
    if_neg (by simp [d13]), if_neg d13, if_neg d1, if_neg d2, if_neg d8, if_neg d9, if_neg d10, if_neg d11,
    if_neg hq, if_pos hc, htw.1, htw.2]

/-! ### Integers -/

theorem isNumber_digitChar (d : Nat) (h : d < 10) : isNumber H (Prim.digitChar d) = true ∧ Prim.digitChar d ≠ '.' := by
  have : ∀ d : Fin 10, (Prim.digitChar d).toNat < 128 ∧ (48 ≤ (Prim.digitChar d).toNat && (Prim.digitChar d).toNat ≤ 57) = true
      ∧ Prim.digitChar d ≠ '.' := by decide
  obtain ⟨h1, h2, h3⟩ := this ⟨d, h⟩
  exact ⟨by rw [isNumber_ascii H _ h1]; exact h2, h3⟩

theorem digits10 (n : Nat) : ∀ c ∈ Prim.digits 10 n, isNumber H c = true ∧ c ≠ '.' := by
  induction n using Nat.strongRecOn with
  | _ n ih =>
    unfold Prim.digits
    split
    · next h =>
      intro c hc
      rw [List.mem_append] at hc
      rcases hc with hc | hc
      · exact ih (n / 10) (Nat.div_lt_self (by omega) (by omega)) c hc
      · rw [List.mem_singleton] at hc; subst hc
        exact isNumber_digitChar H _ (Nat.mod_lt _ (by decide))
    · next h =>
      intro c hc
      rw [List.mem_singleton] at hc; subst hc
      exact isNumber_digitChar H _ (by omega)

theorem numLoop_digits (first : Bool) (cs : List Char) (h : ∀ c ∈ cs, isNumber H c = true ∧ c ≠ '.') (r : List Char)
    (hr : Stop H r) (hf : first = true → cs ≠ []) : numLoop H false first (cs ++ r) = (cs, r, false) := by
  induction cs generalizing first with
  | nil =>
    cases r with
    | nil => rfl
    | cons c r =>
      have := hr c rfl
      have hdot : c ≠ '.' := fun e => by
        subst e; rw [isSym_ascii H _ (by decide)] at this; exact absurd this.1 (by decide)
      have : first = false := by cases first; rfl; exact absurd rfl (hf rfl)
      simp [numLoop, hdot, this, hr c rfl]
  | cons c cs ih =>
    have hc := h c (List.mem_cons_self ..)
    have e := ih false (fun x hx => h x (List.mem_cons_of_mem _ hx)) (by simp)
    simp [numLoop, hc, e]

theorem digits_ne (n : Nat) : ∃ c cs, Prim.digits 10 n = c :: cs := by
  obtain ⟨d, cs, _, e⟩ := Golisp.Props.digits_head 10 n (by decide) (by decide)
  exact ⟨_, _, e⟩

theorem digits_no_x (n : Nat) : ∀ c ∈ Prim.digits 10 n, c ≠ 'x' ∧ isSpace H c = false := by
  intro c hc
  have := (digits10 H n c hc).1
  refine ⟨fun e => ?_, ?_⟩
  · subst e; rw [isNumber_ascii H _ (by decide)] at this; exact absurd this (by decide)
  · unfold isNumber at this
    unfold isSpace
    split
    · next h =>
      rw [if_pos h] at this
      simp only [Bool.and_eq_true, decide_eq_true_eq] at this
      simp only [Bool.or_eq_false_iff, decide_eq_false_iff_not, Bool.and_eq_false_iff]
      refine ⟨fun e => ?_, .inr (by omega)⟩
      subst e; revert this; decide
    · next h =>
      rw [if_neg h] at this
      cases e : H.spaceHi c with
      | false => rfl
      | true => rw [H.spaceNotNumber c e] at this; cases this

theorem lex_int (n : Int) (r : List Char) (hr : Stop H r) :
    lex H (Prim.formatInt 10 n ++ r) = .number (Prim.formatInt 10 n) :: lex H r := by
  obtain ⟨c, cs, e⟩ := digits_ne n.natAbs
  have hd := digits10 H n.natAbs
  have hx := digits_no_x H n.natAbs
  have hlast : ∀ x, (cs ++ r).head? = some x → x ≠ 'x' := by
    intro x hx'
    cases cs with
    | nil =>
      intro hxx; subst hxx
      have := (hr 'x' hx').1
      rw [isSym_ascii H _ (by decide)] at this; exact absurd this (by decide)
    | cons y cs =>
      simp at hx'; subst hx'
      exact (hx y (by rw [e]; simp)).1
  unfold Prim.formatInt
  split
  · refine lex_tok H ?_ (by simp)
    rw [List.cons_append, readToken_head H _ _ (by rw [isSpace_ascii H _ (by decide)]; decide)]
    have hn : isNumber H '-' = false := by rw [isNumber_ascii H _ (by decide)]; decide
    have hnum : isNumber H c = true := (hd c (by rw [e]; simp)).1
    have hl : numLoop H false false (Prim.digits 10 n.natAbs ++ r) = (Prim.digits 10 n.natAbs, r, false) :=
      numLoop_digits H false _ hd r hr (by simp)
    have hl2 : numLoop H false true ('-' :: (Prim.digits 10 n.natAbs ++ r)) = ('-' :: Prim.digits 10 n.natAbs, r, false) := by
      simp [numLoop, hl]
    unfold readHead
    rw [if_neg (by simp), if_pos (by rw [hn, e]; simp [hnum])]
    simp only [readNumber, hl2]
    rfl
  · refine lex_tok H ?_ (by simp)
    have hl2 : numLoop H false true (Prim.digits 10 n.natAbs ++ r) = (Prim.digits 10 n.natAbs, r, false) :=
      numLoop_digits H true _ hd r hr (by simp [e])
    have hnum : isNumber H c = true := (hd c (by rw [e]; simp)).1
    rw [e, List.cons_append, readToken_head H _ _ (hx c (by rw [e]; simp)).2]
    rw [e, List.cons_append] at hl2
    unfold readHead
    rw [if_neg (by
      simp only [Bool.and_eq_true, decide_eq_true_eq, not_and]
      intro _ h; exact hlast _ h rfl), if_pos (by rw [hnum]; rfl)]
    simp only [readNumber, hl2]
    rfl

end Golisp.Reader
