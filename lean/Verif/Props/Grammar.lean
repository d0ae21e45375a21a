import Verif.Grammar
/-
Property C65: the reader reads the grammar.
-/
namespace Golisp.Props
open Golisp Golisp.Data Golisp.Reader Golisp.Spec

variable (H : Host)

/-! ### Numerals -/

theorem digit_raw {b : Nat} (hb : b ≤ 16) {c : Char} {v : Nat} (h : Digit b c v) : Prim.digitRaw c = v := by
  have key : ∀ v : Fin 16, Prim.digitRaw ("0123456789abcdef".toList.getD v ' ') = v ∧ Prim.digitRaw ("0123456789ABCDEF".toList.getD v ' ') = v := by
    decide
  have := key ⟨v, by have := h.1; omega⟩
  rcases h.2 with rfl | rfl
  · exact this.1
  · exact this.2

theorem numeral_ne {b : Nat} {ds : List Char} {n : Nat} (h : Numeral b ds n) : ds ≠ [] := by
  cases h <;> simp

theorem numeral_digits {b : Nat} {ds : List Char} {n : Nat} (h : Numeral b ds n) : ∀ c ∈ ds, ∃ v, Digit b c v := by
  induction h with
  | one hd => intro c hc; rw [List.mem_singleton] at hc; subst hc; exact ⟨_, hd⟩
  | snoc _ hd ih =>
    intro c hc
    rcases List.mem_append.mp hc with hc | hc
    · exact ih c hc
    · rw [List.mem_singleton] at hc; subst hc; exact ⟨_, hd⟩

theorem scanDigits_numeral {b : Nat} (hb : b ≤ 16) {ds : List Char} {n : Nat} (h : Numeral b ds n) :
    ∀ cs acc any, Prim.scanDigits b (ds ++ cs) acc any = Prim.scanDigits b cs (acc * b ^ ds.length + n) true := by
  induction h with
  | one hd =>
    intro cs acc any
    simp [Prim.scanDigits, Prim.digitVal, digit_raw hb hd, hd.1]
  | snoc _ hd ih =>
    intro cs acc any
    rw [List.append_assoc, ih]
    simp only [List.singleton_append, Prim.scanDigits, Prim.digitVal, digit_raw hb hd, hd.1, if_true]
    congr 1
    rw [List.length_append, List.length_singleton, Nat.pow_succ, Nat.add_mul, Nat.mul_assoc, Nat.add_assoc]

theorem digit_char {b : Nat} (hb : b ≤ 16) {c : Char} {v : Nat} (h : Digit b c v) :
    isHexChar c = true ∧ c.toNat < 128 ∧ c ≠ '-' ∧ c ≠ '+' ∧ Prim.scanBlank c = false ∧ c ≠ '.' ∧ c ≠ 'x' := by
  have key : ∀ v : Fin 16, ∀ c ∈ ["0123456789abcdef".toList.getD v ' ', "0123456789ABCDEF".toList.getD v ' '],
      isHexChar c = true ∧ c.toNat < 128 ∧ c ≠ '-' ∧ c ≠ '+' ∧ Prim.scanBlank c = false ∧ c ≠ '.' ∧ c ≠ 'x' := by
    decide
  refine key ⟨v, by have := h.1; omega⟩ c ?_
  rcases h.2 with h | h <;> simp only [List.mem_cons] <;> simp_all

private theorem digit_number {c : Char} {v : Nat} (h : Digit 10 c v) : isNumber H c = true ∧ c ≠ '.' := by
  have key : ∀ v : Fin 10, ∀ c ∈ ["0123456789abcdef".toList.getD v ' ', "0123456789ABCDEF".toList.getD v ' '],
      c.toNat < 128 ∧ (48 ≤ c.toNat && c.toNat ≤ 57) = true ∧ c ≠ '.' := by
    decide
  obtain ⟨h1, h2, h3⟩ := key ⟨v, h.1⟩ c (by rcases h.2 with h | h <;> simp only [List.mem_cons] <;> simp_all)
  exact ⟨by rw [isNumber_ascii H _ h1]; exact h2, h3⟩

private theorem digit_bin {c : Char} {v : Nat} (h : Digit 2 c v) : isBinChar c = true := by
  have key : ∀ v : Fin 2, ∀ c ∈ ["0123456789abcdef".toList.getD v ' ', "0123456789ABCDEF".toList.getD v ' '], isBinChar c = true := by
    decide
  exact key ⟨v, h.1⟩ c (by rcases h.2 with h | h <;> simp only [List.mem_cons] <;> simp_all)

private theorem scan_head {b : Nat} (hb : b ≤ 16) {ds : List Char} {n : Nat} (h : Numeral b ds n) :
    Prim.scanSpace ds = ds ∧ Prim.splitSign ds = (false, ds) := by
  cases ds with
  | nil => exact absurd rfl (numeral_ne h)
  | cons c cs =>
    obtain ⟨v, hv⟩ := numeral_digits h c (by simp)
    obtain ⟨-, -, h1, h2, h3, -, -⟩ := digit_char hb hv
    refine ⟨by simp [Prim.scanSpace, h3], ?_⟩
    unfold Prim.splitSign
    split
    · next e => simp at e; exact absurd e.1 h1
    · next e => simp at e; exact absurd e.1 h2
    · rfl

/-- A numeral is scanned as its value if that is an int64, else it is an error. -/
private theorem scan_numeral {b : Nat} (hb : b ≤ 16) {ds : List Char} {n : Nat} (h : Numeral b ds n) :
    Prim.scanInt b ds = if n < 2 ^ 63 then some (n : Int) else none := by
  unfold Prim.scanInt
  have e := scanDigits_numeral hb h [] 0 false
  rw [List.append_nil] at e
  simp only [(scan_head hb h).1, (scan_head hb h).2, e, Prim.scanDigits, Nat.zero_mul, Nat.zero_add, Bool.not_true, Bool.false_eq_true, if_false]
  by_cases hn : n < 2 ^ 63
  · rw [if_pos hn, if_pos (by constructor <;> omega)]
  · rw [if_neg hn, if_neg (by omega)]

private theorem scan_negative {ds : List Char} {n : Nat} (h : Numeral 10 ds n) :
    Prim.scanInt 10 ('-' :: ds) = if n ≤ 2 ^ 63 then some (-(n : Int)) else none := by
  unfold Prim.scanInt
  have e := scanDigits_numeral (by decide) h [] 0 false
  rw [List.append_nil] at e
  have h1 : Prim.scanSpace ('-' :: ds) = '-' :: ds := by simp [Prim.scanSpace, show Prim.scanBlank '-' = false from rfl]
  rw [h1]
  simp only [Prim.splitSign, e, Prim.scanDigits, Nat.zero_mul, Nat.zero_add, Bool.not_true, Bool.false_eq_true, if_false, if_true]
  by_cases hn : n ≤ 2 ^ 63
  · rw [if_pos hn, if_pos (by constructor <;> omega)]
  · rw [if_neg hn, if_neg (by omega)]

/-! ### Tokens of numbers -/

private theorem hex_stop {r : List Char} (hr : Stop H r) (c : Char) (h : r.head? = some c) : isHexChar c = false := by
  have := (hr c h)
  cases hx : isHexChar c with
  | false => rfl
  | true =>
    simp only [isHexChar, Bool.or_eq_true, Bool.and_eq_true, decide_eq_true_eq] at hx
    have hlt : c.toNat < 128 := by
      rcases hx with (⟨_, h⟩ | ⟨_, h⟩) | ⟨_, h⟩ <;> (have : c.toNat ≤ _ := h; simp at this; omega)
    rw [isSym_ascii H _ hlt] at this
    have key : ∀ n : Fin 128, isHexChar (Char.ofNat n) = true → ((32 ≤ (Char.ofNat n).toNat && (Char.ofNat n).toNat ≤ 126) &&
        !(decide (Char.ofNat n = ' ') || (9 ≤ (Char.ofNat n).toNat && (Char.ofNat n).toNat ≤ 13)) &&
        !delims.contains (Char.ofNat n)) = true := by decide
    have h3 := key ⟨c.toNat, hlt⟩
    simp only [Char.ofNat_toNat] at h3
    rw [h3 (by simp only [isHexChar, Bool.or_eq_true, Bool.and_eq_true, decide_eq_true_eq]; exact hx)] at this
    exact absurd this.1 (by decide)

private theorem bin_hex {c : Char} (h : isHexChar c = false) : isBinChar c = false := by
  cases hb : isBinChar c with
  | false => rfl
  | true =>
    simp only [isBinChar, Bool.or_eq_true, decide_eq_true_eq] at hb
    rcases hb with rfl | rfl <;> exact absurd h (by decide)

private theorem lex_hex {ds : List Char} (h : ∀ c ∈ ds, isHexChar c = true) {r : List Char} (hr : Stop H r) :
    lex H ('0' :: 'x' :: (ds ++ r)) = .hex ds :: lex H r ∧ lex H ('#' :: 'x' :: (ds ++ r)) = .hex ds :: lex H r := by
  have htw := takeWhile_stop (p := isHexChar) ds r h (hex_stop H hr)
  constructor
  · refine lex_tok H ?_ (by simp)
    rw [readToken_head H _ _ (by rw [isSpace_ascii H _ (by decide)]; decide)]
    simp [readHead, htw]
  · refine lex_tok H ?_ (by simp)
    rw [readToken_head H _ _ (by rw [isSpace_ascii H _ (by decide)]; decide)]
    simp [readHead, isNumber_ascii, isSym_ascii, delims, htw]

private theorem lex_bin {ds : List Char} (h : ∀ c ∈ ds, isBinChar c = true) {r : List Char} (hr : Stop H r) :
    lex H ('#' :: 'b' :: (ds ++ r)) = .binary ds :: lex H r := by
  have htw := takeWhile_stop (p := isBinChar) ds r h fun c hc => bin_hex (hex_stop H hr c hc)
  refine lex_tok H ?_ (by simp)
  rw [readToken_head H _ _ (by rw [isSpace_ascii H _ (by decide)]; decide)]
  simp [readHead, isNumber_ascii, isSym_ascii, delims, htw]

private theorem number_space {c : Char} (h : isNumber H c = true) : isSpace H c = false ∧ c ≠ 'x' := by
  refine ⟨?_, fun e => by subst e; rw [isNumber_ascii H _ (by decide)] at h; exact absurd h (by decide)⟩
  unfold isNumber at h
  unfold isSpace
  split
  · next hc =>
    rw [if_pos hc] at h
    simp only [Bool.and_eq_true, decide_eq_true_eq] at h
    simp only [Bool.or_eq_false_iff, decide_eq_false_iff_not, Bool.and_eq_false_iff]
    refine ⟨fun e => ?_, .inr (by omega)⟩
    subst e; revert h; decide
  · next hc =>
    rw [if_neg hc] at h
    cases e : H.spaceHi c with
    | false => rfl
    | true => rw [H.spaceNotNumber c e] at h; cases h

/-- Digits, then perhaps a point and digits. -/
private theorem numLoop_float {ds ds' : List Char} (h : ∀ c ∈ ds, isNumber H c = true ∧ c ≠ '.')
    (h' : ∀ c ∈ ds', isNumber H c = true ∧ c ≠ '.') {r : List Char} (hr : Stop H r) (first : Bool) :
    numLoop H false first (ds ++ '.' :: (ds' ++ r)) = (ds ++ '.' :: ds', r, true) := by
  induction ds generalizing first with
  | nil =>
    have : numLoop H true false (ds' ++ r) = (ds', r, true) := by
      clear h
      induction ds' with
      | nil =>
        cases r with
        | nil => rfl
        | cons c r => simp [numLoop, (hr c rfl).2]
      | cons c cs ih =>
        have hc := h' c (by simp)
        have e := ih fun x hx => h' x (by simp [hx])
        simp [numLoop, hc, e]
    simp [numLoop, this]
  | cons c cs ih =>
    have hc := h c (by simp)
    have e := ih (fun x hx => h x (by simp [hx])) false
    simp [numLoop, hc, e]

private theorem head_not_x {ds r : List Char} (h : ∀ c ∈ ds, isNumber H c = true) (hr : Stop H r ∨ r.head? = some '.') :
    (ds ++ r).head? ≠ some 'x' := by
  cases ds with
  | nil =>
    intro e
    rcases hr with hr | hr
    · have := (hr 'x' e).1
      rw [isSym_ascii H _ (by decide)] at this; exact absurd this (by decide)
    · rw [List.nil_append, hr] at e; exact absurd e (by decide)
  | cons c ds => intro e; simp at e; exact (number_space H (h c (by simp))).2 e

private theorem lex_number {ds : List Char} (hne : ds ≠ []) (h : ∀ c ∈ ds, isNumber H c = true ∧ c ≠ '.') {r : List Char} (hr : Stop H r) :
    lex H (ds ++ r) = .number ds :: lex H r ∧ lex H ('-' :: (ds ++ r)) = .number ('-' :: ds) :: lex H r := by
  have hl := numLoop_digits H true ds h r hr (fun _ => hne)
  have hl' := numLoop_digits H false ds h r hr (by simp)
  cases ds with
  | nil => exact absurd rfl hne
  | cons c cs =>
    have hc := h c (by simp)
    have hx := head_not_x H (ds := cs) (fun x hx => (h x (by simp [hx])).1) (.inl hr)
    constructor
    · refine lex_tok H ?_ (by simp)
      rw [List.cons_append, readToken_head H _ _ (number_space H hc.1).1]
      unfold readHead
      rw [if_neg (by rw [decide_eq_false hx]; simp), if_pos (by simp [hc.1])]
      rw [List.cons_append] at hl
      simp only [readNumber, hl]
      rfl
    · refine lex_tok H ?_ (by simp)
      rw [readToken_head H _ _ (by rw [isSpace_ascii H _ (by decide)]; decide)]
      unfold readHead
      have hn : isNumber H '-' = false := by rw [isNumber_ascii H _ (by decide)]; decide
      rw [if_neg (by simp), if_pos (by simp [hc.1])]
      have : numLoop H false true ('-' :: (c :: cs ++ r)) = ('-' :: c :: cs, r, false) := by simp only [numLoop, hl']; simp
      simp only [readNumber, this]
      rfl

private theorem lex_float {ds ds' : List Char} (hne : ds ≠ []) (h : ∀ c ∈ ds, isNumber H c = true ∧ c ≠ '.')
    (h' : ∀ c ∈ ds', isNumber H c = true ∧ c ≠ '.') {r : List Char} (hr : Stop H r) :
    lex H (ds ++ '.' :: (ds' ++ r)) = .float (ds ++ '.' :: ds') :: lex H r ∧
    lex H ('-' :: (ds ++ '.' :: (ds' ++ r))) = .float ('-' :: (ds ++ '.' :: ds')) :: lex H r := by
  have hl := numLoop_float H h h' hr true
  have hl' := numLoop_float H h h' hr false
  cases ds with
  | nil => exact absurd rfl hne
  | cons c cs =>
    have hc := h c (by simp)
    have hx := head_not_x H (ds := cs) (r := '.' :: (ds' ++ r)) (fun x hx => (h x (by simp [hx])).1) (.inr rfl)
    constructor
    · refine lex_tok H ?_ (by simp)
      rw [List.cons_append, readToken_head H _ _ (number_space H hc.1).1]
      unfold readHead
      rw [if_neg (by rw [decide_eq_false hx]; simp), if_pos (by simp [hc.1])]
      rw [List.cons_append] at hl
      simp only [readNumber, hl]
      rfl
    · refine lex_tok H ?_ (by simp)
      rw [readToken_head H _ _ (by rw [isSpace_ascii H _ (by decide)]; decide)]
      unfold readHead
      have hn : isNumber H '-' = false := by rw [isNumber_ascii H _ (by decide)]; decide
      rw [if_neg (by simp), if_pos (by simp [hc.1])]
      have : numLoop H false true ('-' :: (c :: cs ++ '.' :: (ds' ++ r))) = ('-' :: (c :: cs ++ '.' :: ds'), r, true) := by
        simp only [numLoop, hl']; simp
      simp only [readNumber, this]
      rfl

private theorem lex_lbrace (cs : List Char) : lex H ('{' :: cs) = .lbrace :: lex H cs := by
  refine lex_punct H _ _ (by rw [isSpace_ascii H _ (by decide)]; decide) (by decide) cs ?_
  simp [readHead, isNumber_ascii]
private theorem lex_rbrace (cs : List Char) : lex H ('}' :: cs) = .rbrace :: lex H cs := by
  refine lex_punct H _ _ (by rw [isSpace_ascii H _ (by decide)]; decide) (by decide) cs ?_
  simp [readHead, isNumber_ascii]
private theorem lex_backquote (cs : List Char) : lex H ('`' :: cs) = .backquote :: lex H cs := by
  refine lex_punct H _ _ (by rw [isSpace_ascii H _ (by decide)]; decide) (by decide) cs ?_
  simp [readHead, isNumber_ascii]
private theorem lex_comma (cs : List Char) (h : cs.head? ≠ some '@') : lex H (',' :: cs) = .comma :: lex H cs := by
  refine lex_punct H _ _ (by rw [isSpace_ascii H _ (by decide)]; decide) (by decide) cs ?_
  simp [readHead, isNumber_ascii, h]
private theorem lex_commaAt (cs : List Char) : lex H (',' :: '@' :: cs) = .commaAt :: lex H cs := by
  refine lex_tok H ?_ (by simp)
  rw [readToken_head H _ _ (by rw [isSpace_ascii H _ (by decide)]; decide)]
  simp [readHead, isNumber_ascii]

private theorem stop_rbrace (r : List Char) : Stop H ('}' :: r) :=
  stop_cons H _ r (by rw [isSym_ascii H _ (by decide)]; decide) (by rw [isNumber_ascii H _ (by decide)]; decide)

/-! ### The grammar -/

private def starter : Tok → Bool
  | .rparen | .rbracket | .rbrace | .period | .eof => false
  | _ => true

private def Shape (d : Data) : Prop := d ≠ null ∧ ∀ k a t, d = .cell k a t → k = .cons

/-- The parser reads `d` from the tokens `ts`. -/
private def Parsed (ts : List Tok) (d : Data) : Prop :=
  Shape d ∧ (∃ t r, ts = t :: r ∧ starter t = true) ∧ ∃ N, ∀ n, N ≤ n → ∀ rest, (recN H n).expr (ts ++ rest) = .ok d rest

private def FormOk (t : List Char) (d : Data) : Prop :=
  ∃ ts, Parsed H ts d ∧ ∀ r, Stop H r → lex H (t ++ r) = ts ++ lex H r

private inductive AllParsed : List Tok → List Data → Prop where
  | nil : AllParsed [] []
  | cons {ts d us ds} : Parsed H ts d → AllParsed us ds → AllParsed (ts ++ us) (d :: ds)

private def ItemsOk (t : List Char) (ds : List Data) : Prop :=
  ∃ ts, AllParsed H ts ds ∧ ∀ r, Stop H r → lex H (t ++ r) = ts ++ lex H r

private theorem parsed_atom {t : Tok} {d : Data} (hd : ∃ a, d = .atom a) (ht : starter t = true)
    (h : ∀ R rest, exprStep H R (t :: rest) = .ok d rest) :
    Parsed H [t] d := by
  refine ⟨by obtain ⟨a, rfl⟩ := hd; exact ⟨nofun, nofun⟩, ⟨t, [], rfl, ht⟩, 1, fun n hn rest => ?_⟩
  obtain ⟨m, rfl⟩ : ∃ m, n = m + 1 := ⟨n - 1, by omega⟩
  exact h _ _

private theorem shape_cons {a d : Data} : Shape (.cons a d) := ⟨nofun, fun _ _ _ h => by cases h; rfl⟩

private theorem parsed_wrap {t : Tok} {name : String} {ts : List Tok} {d : Data} (ht : starter t = true)
    (h : ∀ R rest, exprStep H R (t :: rest) = wrap name (R.expr rest)) (hp : Parsed H ts d) : Parsed H (t :: ts) (tagged name d) := by
  obtain ⟨-, -, N, hN⟩ := hp
  refine ⟨shape_cons, ⟨t, ts, rfl, ht⟩, N + 1, fun n hn rest => ?_⟩
  obtain ⟨m, rfl⟩ : ∃ m, n = m + 1 := ⟨n - 1, by omega⟩
  show exprStep H (recN H m) (t :: (ts ++ rest)) = _
  rw [h, hN m (by omega)]; rfl

private theorem allParsed_ne {ts : List Tok} {ds : List Data} (h : AllParsed H ts ds) : ∀ d ∈ ds, d ≠ null := by
  induction h with
  | nil => simp
  | cons hp _ ih =>
    intro d hd
    rcases List.mem_cons.mp hd with rfl | hd
    · exact hp.1.1
    · exact ih d hd

private theorem noNull_ne {d : Data} (h : d ≠ null) : noNull d = d := by cases d <;> first | rfl | exact absurd rfl h

private theorem listWithTail_foldr {ds : List Data} (h : ∀ d ∈ ds, d ≠ null) (t : Data) : listWithTail ds t = ds.foldr .cons t := by
  induction ds with
  | nil => rfl
  | cons d ds ih => rw [listWithTail, noNull_ne (h d (by simp)), ih fun x hx => h x (by simp [hx])]; rfl

private theorem ofArray_listOf {ds : List Data} (h : ∀ d ∈ ds, d ≠ null) : ofArray ds = listOf ds := by
  cases ds with
  | nil => rfl
  | cons d ds => exact listWithTail_foldr h null

/-- One element after the other. -/
private theorem cons_items {ts : List Tok} {ds : List Data} (h : AllParsed H ts ds) :
    ∃ N, ∀ n, N ≤ n → ∀ rest cells, (recN H (n + ds.length)).consLoop (ts ++ rest) cells = (recN H n).consLoop rest (cells ++ ds) := by
  induction h with
  | nil => exact ⟨0, fun n _ rest cells => by simp⟩
  | @cons ts d us ds hp _ ih =>
    obtain ⟨-, ⟨t, r, rfl, ht⟩, N1, h1⟩ := hp
    obtain ⟨N2, h2⟩ := ih
    refine ⟨N1 + N2, fun n hn rest cells => ?_⟩
    have e : n + (d :: ds).length = (n + ds.length) + 1 := by simp; omega
    rw [e, recN_cons]
    unfold consStep
    rw [if_neg (by rintro h; simp at h; subst h; cases ht), if_neg (by rintro h; simp at h; subst h; cases ht),
      List.append_assoc, h1 _ (by omega)]
    simp only [next]
    rw [h2 n (by omega), List.append_assoc]; rfl

private theorem frame_items {ts : List Tok} {ds : List Data} (h : AllParsed H ts ds) :
    ∃ N, ∀ n, N ≤ n → ∀ rest cells, (recN H (n + ds.length)).frameLoop (ts ++ rest) cells = (recN H n).frameLoop rest (cells ++ ds) := by
  induction h with
  | nil => exact ⟨0, fun n _ rest cells => by simp⟩
  | @cons ts d us ds hp _ ih =>
    obtain ⟨-, ⟨t, r, rfl, ht⟩, N1, h1⟩ := hp
    obtain ⟨N2, h2⟩ := ih
    refine ⟨N1 + N2, fun n hn rest cells => ?_⟩
    have e : n + (d :: ds).length = (n + ds.length) + 1 := by simp; omega
    rw [e]
    show frameStep (recN H _) _ _ = _
    unfold frameStep
    rw [if_neg (by rintro h; simp at h; subst h; cases ht), List.append_assoc, h1 _ (by omega)]
    simp only [next]
    rw [h2 n (by omega), List.append_assoc]; rfl

private theorem element_ok {d : Data} (h : Element d) :
    (isInt d && decide ((255 : Int) < (intValue d).toInt)) = false ∧ (!isInt d && !isSym d && !isListP d) = false := by
  rcases h with ⟨n, rfl, hn⟩ | ⟨s, rfl⟩ | ⟨a, t, rfl⟩
  · refine ⟨?_, rfl⟩
    exact decide_eq_false (p := 255 < n.toInt) (Int.not_lt.mpr hn)
  · exact ⟨rfl, rfl⟩
  · exact ⟨rfl, by simp [isListP, isPair]⟩

private theorem element_bad {d : Data} (hs : Shape d) (h : ¬ Element d) :
    (isInt d && decide ((255 : Int) < (intValue d).toInt)) = true ∨ (!isInt d && !isSym d && !isListP d) = true := by
  cases d with
  | null => exact absurd rfl hs.1
  | cell k a t => have := hs.2 k a t rfl; subst this; exact absurd (.inr (.inr ⟨a, t, rfl⟩)) h
  | atom a =>
    cases a with
    | int n =>
      left
      exact decide_eq_true (p := 255 < n.toInt) <| Int.lt_of_not_ge fun hn => h (.inl ⟨n, rfl, hn⟩)
    | sym s => exact absurd (.inr (.inl ⟨s, rfl⟩)) h
    | _ => right; rfl

private theorem bytes_items {ts : List Tok} {ds : List Data} (h : AllParsed H ts ds) (he : ∀ d ∈ ds, Element d) :
    ∃ N, ∀ n, N ≤ n → ∀ rest cells, (recN H (n + ds.length)).bytesLoop (ts ++ rest) cells = (recN H n).bytesLoop rest (cells ++ ds) := by
  induction h with
  | nil => exact ⟨0, fun n _ rest cells => by simp⟩
  | @cons ts d us ds hp _ ih =>
    obtain ⟨-, ⟨t, r, rfl, ht⟩, N1, h1⟩ := hp
    obtain ⟨N2, h2⟩ := ih fun x hx => he x (by simp [hx])
    refine ⟨N1 + N2, fun n hn rest cells => ?_⟩
    have e : n + (d :: ds).length = (n + ds.length) + 1 := by simp; omega
    rw [e, recN_bytes]
    unfold bytesStep
    rw [if_neg (by rintro h; simp at h; subst h; cases ht), List.append_assoc, h1 _ (by omega)]
    simp only [next]
    obtain ⟨h3, h4⟩ := element_ok (he d (by simp))
    rw [h3, h4]
    simp only [Bool.false_eq_true, if_false]
    rw [h2 n (by omega), List.append_assoc]; rfl

/-- A bad element ends the reading of a byte array. -/
private theorem bytes_bad {ts : List Tok} {ds : List Data} (h : AllParsed H ts ds) (hb : ∃ d ∈ ds, ¬ Element d) :
    ∃ N, ∀ n, N ≤ n → ∀ rest cells, (recN H n).bytesLoop (ts ++ rest) cells = .err := by
  induction h with
  | nil => obtain ⟨d, hd, _⟩ := hb; simp at hd
  | @cons ts d us ds hp _ ih =>
    obtain ⟨hs, ⟨t, r, rfl, ht⟩, N1, h1⟩ := hp
    by_cases he : Element d
    · obtain ⟨N2, h2⟩ := ih (by
        obtain ⟨x, hx, hn⟩ := hb
        rcases List.mem_cons.mp hx with rfl | hx
        · exact absurd he hn
        · exact ⟨x, hx, hn⟩)
      refine ⟨N1 + N2 + 1, fun n hn rest cells => ?_⟩
      obtain ⟨m, rfl⟩ : ∃ m, n = m + 1 := ⟨n - 1, by omega⟩
      rw [recN_bytes]
      unfold bytesStep
      rw [if_neg (by rintro h; simp at h; subst h; cases ht), List.append_assoc, h1 _ (by omega)]
      simp only [next]
      obtain ⟨h3, h4⟩ := element_ok he
      rw [h3, h4]
      simp only [Bool.false_eq_true, if_false]
      exact h2 m (by omega) _ _
    · refine ⟨N1 + 1, fun n hn rest cells => ?_⟩
      obtain ⟨m, rfl⟩ : ∃ m, n = m + 1 := ⟨n - 1, by omega⟩
      rw [recN_bytes]
      unfold bytesStep
      rw [if_neg (by rintro h; simp at h; subst h; cases ht), List.append_assoc, h1 _ (by omega)]
      simp only [next]
      rcases element_bad hs he with h3 | h3
      · rw [if_pos h3]
      · rw [if_pos h3]; split <;> rfl

private theorem shape_listOf (ds : List Data) : Shape (listOf ds) := by
  cases ds <;> exact shape_cons

private theorem shape_dotted {ds : List Data} {d : Data} (h : Shape d) : Shape (ds.foldr .cons d) := by
  cases ds with
  | nil => exact h
  | cons => exact shape_cons

private theorem parsed_list {ts : List Tok} {ds : List Data} (h : AllParsed H ts ds) : Parsed H (.lparen :: (ts ++ [.rparen])) (listOf ds) := by
  obtain ⟨N, hN⟩ := cons_items H h
  refine ⟨shape_listOf ds, ⟨_, _, rfl, rfl⟩, N + ds.length + 2, fun n hn rest => ?_⟩
  obtain ⟨m, rfl⟩ : ∃ m, n = (m + ds.length) + 1 := ⟨n - ds.length - 1, by omega⟩
  show (recN H (m + ds.length)).consLoop (ts ++ [.rparen] ++ rest) [] = _
  rw [List.append_assoc, hN m (by omega)]
  obtain ⟨m, rfl⟩ : ∃ k, m = k + 1 := ⟨m - 1, by omega⟩
  rw [recN_cons]
  simp only [consStep, List.nil_append, List.singleton_append, List.head?_cons, List.tail_cons, if_true]
  rw [ofArray_listOf (allParsed_ne H h)]

private theorem parsed_dotted {ts us : List Tok} {ds : List Data} {d : Data} (h : AllParsed H ts ds) (hd : Parsed H us d) :
    Parsed H (.lparen :: (ts ++ .period :: (us ++ [.rparen]))) (ds.foldr .cons d) := by
  obtain ⟨N, hN⟩ := cons_items H h
  obtain ⟨hs, -, N', hN'⟩ := hd
  refine ⟨shape_dotted hs, ⟨_, _, rfl, rfl⟩, N + N' + ds.length + 2, fun n hn rest => ?_⟩
  obtain ⟨m, rfl⟩ : ∃ m, n = (m + ds.length) + 1 := ⟨n - ds.length - 1, by omega⟩
  show (recN H (m + ds.length)).consLoop (ts ++ .period :: (us ++ [.rparen]) ++ rest) [] = _
  rw [List.append_assoc, hN m (by omega)]
  obtain ⟨m, rfl⟩ : ∃ k, m = k + 1 := ⟨m - 1, by omega⟩
  rw [recN_cons]
  simp only [consStep, List.nil_append, List.cons_append, List.head?_cons, List.tail_cons, List.append_assoc, hN' m (by omega)]
  simp [closeDot, listWithTail_foldr (allParsed_ne H h)]

private theorem parsed_frame {ts : List Tok} {ds : List Data} (h : AllParsed H ts ds) :
    Parsed H (.lbrace :: (ts ++ [.rbrace])) (.cons (.sym "make-frame") (listOf ds)) := by
  obtain ⟨N, hN⟩ := frame_items H h
  refine ⟨shape_cons, ⟨_, _, rfl, rfl⟩, N + ds.length + 2, fun n hn rest => ?_⟩
  obtain ⟨m, rfl⟩ : ∃ m, n = (m + ds.length) + 1 := ⟨n - ds.length - 1, by omega⟩
  have hh : (ts ++ [Tok.rbrace] ++ rest).head? ≠ some .rbracket := by
    cases h with
    | nil => simp
    | cons hp _ => obtain ⟨-, ⟨t, r, rfl, ht⟩, -⟩ := hp; intro h; simp at h; subst h; cases ht
  show (if (ts ++ [Tok.rbrace] ++ rest).head? = some .rbracket then _ else (recN H (m + ds.length)).frameLoop (ts ++ [.rbrace] ++ rest) []) = _
  rw [if_neg hh, List.append_assoc, hN m (by omega)]
  obtain ⟨m, rfl⟩ : ∃ k, m = k + 1 := ⟨m - 1, by omega⟩
  show frameStep (recN H m) ([.rbrace] ++ rest) ([] ++ ds) = _
  simp only [frameStep, List.nil_append, List.singleton_append, List.head?_cons, List.tail_cons, if_true]
  rw [ofArray_listOf (allParsed_ne H h)]

private theorem parsed_bytes {ts : List Tok} {ds : List Data} (h : AllParsed H ts ds) (he : ∀ d ∈ ds, Element d) {d : Data} (hs : Shape d)
    (hd : d = if ds.all isInt then toBytes ds else ofArray [.sym "list->bytearray", .cons (.sym "list") (ofArray ds)]) :
    Parsed H (.lbracket :: (ts ++ [.rbracket])) d := by
  obtain ⟨N, hN⟩ := bytes_items H h he
  refine ⟨hs, ⟨_, _, rfl, rfl⟩, N + ds.length + 2, fun n hn rest => ?_⟩
  obtain ⟨m, rfl⟩ : ∃ m, n = (m + ds.length) + 1 := ⟨n - ds.length - 1, by omega⟩
  show (recN H (m + ds.length)).bytesLoop (ts ++ [.rbracket] ++ rest) [] = _
  rw [List.append_assoc, hN m (by omega)]
  obtain ⟨m, rfl⟩ : ∃ k, m = k + 1 := ⟨m - 1, by omega⟩
  rw [recN_bytes]
  simp only [bytesStep, List.nil_append, List.singleton_append, List.head?_cons, List.tail_cons, if_true]
  rw [hd]

private theorem stop_append {u r : List Char} (hu : Stop H u) (hr : Stop H r) : Stop H (u ++ r) := by
  cases u with
  | nil => exact hr
  | cons c u => exact fun x hx => hu x (by simpa using hx)

private theorem formOk_ne {t : List Char} {d : Data} (h : FormOk H t d) : t ≠ [] := by
  rintro rfl
  obtain ⟨ts, ⟨-, ⟨k, r, rfl, -⟩, -⟩, hl⟩ := h
  have := congrArg List.length (hl [] (stop_nil H))
  simp [lex_nil] at this

private theorem ok_atom {t : List Char} {d : Data} (k : Tok) (hd : ∃ a, d = .atom a) (hk : starter k = true)
    (h : ∀ R rest, exprStep H R (k :: rest) = .ok d rest) (hl : ∀ r, Stop H r → lex H (t ++ r) = k :: lex H r) : FormOk H t d :=
  ⟨[k], parsed_atom H hd hk h, hl⟩

private theorem mkInt_numeral {b : Nat} (hb : b ≤ 16) {ds : List Char} {n : Nat} (h : Numeral b ds n) (hn : n < 2 ^ 63) (rest : List Tok) :
    mkInt b ds rest = .ok (.int (BitVec.ofNat 64 n)) rest := by
  unfold mkInt
  rw [scan_numeral hb h, if_pos hn]; rfl

private theorem numeral_hex {b : Nat} (hb : b ≤ 16) {ds : List Char} {n : Nat} (h : Numeral b ds n) : ∀ c ∈ ds, isHexChar c = true :=
  fun c hc => (digit_char hb (numeral_digits h c hc).choose_spec).1

private theorem ok_wrap {c : Char} {k : Tok} {name : String} {w t : List Char} {d : Data} (hk : starter k = true)
    (h : ∀ R rest, exprStep H R (k :: rest) = wrap name (R.expr rest)) (hw : Blank H w) (ih : FormOk H t d)
    (hl : ∀ r, lex H (c :: (w ++ (t ++ r))) = k :: lex H (w ++ (t ++ r))) : FormOk H (c :: (w ++ t)) (tagged name d) := by
  obtain ⟨ts, hp, ht⟩ := ih
  refine ⟨k :: ts, parsed_wrap H hk h hp, fun r hr => ?_⟩
  rw [List.cons_append, List.append_assoc, hl, lex_blank H hw, ht r hr, List.cons_append]

private theorem form_ok {t : List Char} {d : Data} (h : Form H t d) : FormOk H t d := by
  induction h using Form.rec (motive_2 := fun t ds _ => ItemsOk H t ds) with
  | decimal h hn =>
    exact ok_atom H (.number _) ⟨_, rfl⟩ rfl (fun R rest => mkInt_numeral (by decide) h hn rest)
      fun r hr => (lex_number H (numeral_ne h) (fun c hc => digit_number H (numeral_digits h c hc).choose_spec) hr).1
  | negative h hn =>
    refine ok_atom H (.number _) ⟨_, rfl⟩ rfl (fun R rest => ?_)
      fun r hr => (lex_number H (numeral_ne h) (fun c hc => digit_number H (numeral_digits h c hc).choose_spec) hr).2
    show mkInt 10 _ _ = _
    unfold mkInt
    rw [scan_negative h, if_pos hn]
  | hex h hn =>
    exact ok_atom H (.hex _) ⟨_, rfl⟩ rfl (fun R rest => mkInt_numeral (by decide) h hn rest)
      fun r hr => (lex_hex H (numeral_hex (by decide) h) hr).1
  | hexHash h hn =>
    exact ok_atom H (.hex _) ⟨_, rfl⟩ rfl (fun R rest => mkInt_numeral (by decide) h hn rest)
      fun r hr => (lex_hex H (numeral_hex (by decide) h) hr).2
  | binary h hn =>
    exact ok_atom H (.binary _) ⟨_, rfl⟩ rfl (fun R rest => mkInt_numeral (by decide) h hn rest)
      fun r hr => lex_bin H (fun c hc => digit_bin (numeral_digits h c hc).choose_spec) hr
  | @float ds ds' f h hne h' hf =>
    refine ok_atom H (.float (ds ++ '.' :: ds')) ⟨_, rfl⟩ rfl (fun R rest => by simp only [exprStep, hf]) fun r hr => ?_
    rw [List.append_assoc]
    exact (lex_float H hne (fun c hc => digit_number H (h c hc).choose_spec) (fun c hc => digit_number H (h' c hc).choose_spec) hr).1
  | @negFloat ds ds' f h hne h' hf =>
    refine ok_atom H (.float ('-' :: (ds ++ '.' :: ds'))) ⟨_, rfl⟩ rfl (fun R rest => by simp only [exprStep, hf]) fun r hr => ?_
    rw [List.cons_append, List.append_assoc]
    exact (lex_float H hne (fun c hc => digit_number H (h c hc).choose_spec) (fun c hc => digit_number H (h' c hc).choose_spec) hr).2
  | @string b s h =>
    refine ok_atom H (.str s) ⟨_, rfl⟩ rfl (fun R rest => rfl) fun r _ => ?_
    rw [List.cons_append, List.append_assoc]
    exact lex_tok H (by rw [readToken_dq, readHead_dq, List.singleton_append, strLoop_body h]) (by simp)
  | @symbol s h =>
    exact ok_atom H (.symbol s.toList) ⟨_, rfl⟩ rfl (fun R rest => by simp [exprStep, mkSym, Data.sym]) fun r hr => lex_sym H h r hr
  | tru => exact ok_atom H .tru ⟨_, rfl⟩ rfl (fun R rest => rfl) fun r _ => lex_true H r
  | fls => exact ok_atom H .fls ⟨_, rfl⟩ rfl (fun R rest => rfl) fun r _ => lex_false H r
  | quoted hw _ ih => exact ok_wrap H (k := .quote) rfl (fun R rest => rfl) hw ih fun r => lex_quote H _
  | backquoted hw _ ih => exact ok_wrap H (k := .backquote) rfl (fun R rest => rfl) hw ih fun r => lex_backquote H _
  | @unquoted w t d hw _ hh ih =>
    refine ok_wrap H (k := .comma) rfl (fun R rest => rfl) hw ih fun r => lex_comma H _ ?_
    have hne := formOk_ne H ih
    rw [← List.append_assoc]
    cases e : w ++ t with
    | nil => exact absurd (List.append_eq_nil_iff.mp e).2 hne
    | cons c cs => rw [e] at hh; exact hh
  | @spliced w t d hw _ ih =>
    obtain ⟨ts, hp, ht⟩ := ih
    refine ⟨.commaAt :: ts, parsed_wrap H rfl (fun R rest => rfl) hp, fun r hr => ?_⟩
    rw [List.cons_append, List.cons_append, List.append_assoc, lex_commaAt, lex_blank H hw, ht r hr, List.cons_append]
  | @list t ds _ ih =>
    obtain ⟨ts, hp, ht⟩ := ih
    refine ⟨_, parsed_list H hp, fun r hr => ?_⟩
    rw [List.cons_append, List.append_assoc, lex_lparen, List.singleton_append, ht _ (stop_rparen H r), lex_rparen]
    simp
  | @dotted t ds v w u d w' _ hv hne hw _ hw' ih ih' =>
    obtain ⟨ts, hp, ht⟩ := ih
    obtain ⟨us, hq, hu⟩ := ih'
    refine ⟨_, parsed_dotted H hp hq, fun r hr => ?_⟩
    have hs : Stop H (w' ++ ')' :: r) := by
      cases w' with
      | nil => exact stop_rparen H r
      | cons => exact stop_blank H hw' (by simp) _
    simp only [List.cons_append, List.append_assoc, List.nil_append]
    rw [lex_lparen, ht _ (stop_blank H hv hne _), lex_blank H hv, lex_period, lex_blank H hw, hu _ hs, lex_blank H hw', lex_rparen]
  | @bytes t ns _ hb ih =>
    obtain ⟨ts, hp, ht⟩ := ih
    refine ⟨_, parsed_bytes H hp (fun d hd => ?_) ⟨nofun, nofun⟩ ?_, fun r hr => ?_⟩
    · obtain ⟨n, hn, rfl⟩ := List.mem_map.mp hd
      exact .inl ⟨n, rfl, hb n hn⟩
    · rw [if_pos (by simp [isInt, Data.int])]
      simp [toBytes, Function.comp_def, intValue, Data.int]
    · rw [List.cons_append, List.append_assoc, lex_lbracket, List.singleton_append, ht _ (stop_rbracket H r), lex_rbracket]
      simp
  | @bytesOf t ds _ he hn ih =>
    obtain ⟨ts, hp, ht⟩ := ih
    refine ⟨_, parsed_bytes H hp he shape_cons ?_, fun r hr => ?_⟩
    · rw [if_neg ?_]
      · rw [ofArray_listOf (allParsed_ne H hp)]; rfl
      · intro ha
        obtain ⟨d, hd, hn⟩ := hn
        have := List.all_eq_true.mp ha d hd
        rcases he d hd with ⟨n, rfl, _⟩ | ⟨s, rfl⟩ | ⟨a, t, rfl⟩
        · exact hn n rfl
        · cases this
        · cases this
    · rw [List.cons_append, List.append_assoc, lex_lbracket, List.singleton_append, ht _ (stop_rbracket H r), lex_rbracket]
      simp
  | @frame t ds _ ih =>
    obtain ⟨ts, hp, ht⟩ := ih
    refine ⟨_, parsed_frame H hp, fun r hr => ?_⟩
    rw [List.cons_append, List.append_assoc, lex_lbrace, List.singleton_append, ht _ (stop_rbrace H r), lex_rbrace]
    simp
  | nil hw => exact ⟨[], .nil, fun r _ => lex_blank H hw r⟩
  | @cons w t d u ds hw _ hu _ ih ih' =>
    obtain ⟨ts, hp, ht⟩ := ih
    obtain ⟨us, hq, hu'⟩ := ih'
    refine ⟨ts ++ us, .cons hp hq, fun r hr => ?_⟩
    rw [List.append_assoc, List.append_assoc, lex_blank H hw, ht _ (stop_append H hu hr), hu' r hr, List.append_assoc]

private theorem items_ok {t : List Char} {ds : List Data} (h : Items H t ds) : ItemsOk H t ds := by
  obtain ⟨ts, hp, hl⟩ := form_ok H (.frame h)
  cases h with
  | nil hw => exact ⟨[], .nil, fun r _ => lex_blank H hw r⟩
  | @cons w t d u ds hw h1 hu h2 =>
    obtain ⟨ts, hp, ht⟩ := form_ok H h1
    obtain ⟨us, hq, hu'⟩ := items_ok h2
    refine ⟨ts ++ us, .cons hp hq, fun r hr => ?_⟩
    rw [List.append_assoc, List.append_assoc, lex_blank H hw, ht _ (stop_append H hu hr), hu' r hr, List.append_assoc]
termination_by ds.length

/-! ### C65 -/

private theorem all_ok {ts : List Tok} {t r : List Char} {d : Data} (hl : lex H t = ts ++ lex H r)
    (hp : ∃ N, ∀ n, N ≤ n → ∀ rest, (recN H n).expr (ts ++ rest) = .ok d rest) :
    parse H t = some d ∧ parseAll H t = (d :: (parseAll H r).1, (parseAll H r).2) := by
  obtain ⟨N, hN⟩ := hp
  have h : parseExpr H (ts ++ lex H r) = .ok d (lex H r) := by
    have := parseExpr_eq H N (ts ++ lex H r) (by rw [hN N (Nat.le_refl _)]; simp)
    rw [this, hN N (Nat.le_refl _)]
  have hs := (parseExpr_shrinks H _).2 _ _ h
  unfold parse parseAll
  rw [hl]
  refine ⟨by rw [h], ?_⟩
  rw [parseAllN_ok H h, parseAllN_mono H _ ((lex H r).length + 1) (lex H r) hs (by omega)]

/-- A form at the front of a text is read as the value the grammar gives it, and reading goes on right after it. -/
theorem C65_form (t r : List Char) (d : Data) (h : Form H t d) (hr : Stop H r) :
    parse H (t ++ r) = some d ∧ parseAll H (t ++ r) = (d :: (parseAll H r).1, (parseAll H r).2) := by
  obtain ⟨ts, ⟨-, -, hp⟩, hl⟩ := form_ok H h
  exact all_ok H (hl r hr) hp

/-- A text of forms is read as exactly their values, in order and without error. -/
theorem C65_items (t : List Char) (ds : List Data) (h : Items H t ds) : parseAll H t = (ds, false) := by
  induction ds generalizing t with
  | nil =>
    cases h with
    | nil hw => have := (C17_leading_blank H _ [] hw).2; rw [List.append_nil] at this; rw [this]; rfl
  | cons d ds ih =>
    cases h with
    | cons hw hf hu hi => rw [(C17_leading_blank H _ _ hw).2, (C65_form H _ _ _ hf hu).2, ih _ hi]

/-- The grammar is not ambiguous: a text stands for at most one value, and for at most one sequence of values. -/
theorem C65_unambiguous (t : List Char) (d d' : Data) (ds ds' : List Data) :
    (Form H t d → Form H t d' → d = d') ∧ (Items H t ds → Items H t ds' → ds = ds') := by
  refine ⟨fun h h' => ?_, fun h h' => ?_⟩
  · have a := (C65_form H t [] d h (stop_nil H)).1
    rw [(C65_form H t [] d' h' (stop_nil H)).1] at a
    exact (Option.some.inj a).symm
  · have a := C65_items H t ds h
    rw [C65_items H t ds' h'] at a
    exact (congrArg Prod.fst a).symm

/-! ### Texts that cannot be read -/

private def BrokenOk (t : List Char) : Prop := ∃ N, ∀ n, N ≤ n → (recN H n).expr (lex H t) = .err

private def BrokenItemsOk (t : List Char) (ds : List Data) : Prop :=
  ∃ ts us N, AllParsed H ts ds ∧ lex H t = ts ++ us ∧ ∀ n, N ≤ n → (recN H n).expr us = .err

private theorem broken_head {us : List Tok} {N : Nat} (h : ∀ n, N ≤ n → (recN H n).expr us = .err) :
    us.head? ≠ some .rparen ∧ us.head? ≠ some .rbracket ∧ us.head? ≠ some .rbrace ∧ us.head? ≠ some .period := by
  have := h (N + 1) (by omega)
  cases us with
  | nil => simp
  | cons t us =>
    refine ⟨?_, ?_, ?_, ?_⟩ <;> (intro e; simp at e; subst e; cases this)

private theorem broken_tok {t : List Char} {k : Tok} {rest : List Tok} (hl : lex H t = k :: rest)
    (h : ∀ R rest, exprStep H R (k :: rest) = .err) : BrokenOk H t := by
  refine ⟨1, fun n hn => ?_⟩
  obtain ⟨m, rfl⟩ : ∃ m, n = m + 1 := ⟨n - 1, by omega⟩
  rw [hl]; exact h _ _

private theorem broken_wrap {t u : List Char} {k : Tok} {name : String} (hl : lex H u = k :: lex H t)
    (h : ∀ R rest, exprStep H R (k :: rest) = wrap name (R.expr rest)) (ih : BrokenOk H t) : BrokenOk H u := by
  obtain ⟨N, hN⟩ := ih
  refine ⟨N + 1, fun n hn => ?_⟩
  obtain ⟨m, rfl⟩ : ∃ m, n = m + 1 := ⟨n - 1, by omega⟩
  rw [hl]
  show exprStep H (recN H m) _ = _
  rw [h, hN m (by omega)]; rfl

private theorem mkInt_broken {b : Nat} (hb : b ≤ 16) {ds : List Char} {n : Nat} (h : Numeral b ds n) (hn : 2 ^ 63 ≤ n) (rest : List Tok) :
    mkInt b ds rest = .err := by
  unfold mkInt
  rw [scan_numeral hb h, if_neg (by omega)]

/-- An opening parenthesis before elements and something after which no list can be read. -/
private theorem broken_cons {ts us : List Tok} {ds : List Data} {t : List Char} (hp : AllParsed H ts ds) (hl : lex H t = .lparen :: (ts ++ us))
    (h : ∃ N, ∀ n, N ≤ n → (recN H n).consLoop us ds = .err) : BrokenOk H t := by
  obtain ⟨N, hN⟩ := cons_items H hp
  obtain ⟨N', hN'⟩ := h
  refine ⟨N + N' + ds.length + 1, fun n hn => ?_⟩
  obtain ⟨m, rfl⟩ : ∃ m, n = (m + ds.length) + 1 := ⟨n - ds.length - 1, by omega⟩
  rw [hl]
  show (recN H (m + ds.length)).consLoop (ts ++ us) [] = _
  rw [hN m (by omega), List.nil_append, hN' m (by omega)]

private theorem broken_brace {ts us : List Tok} {ds : List Data} {t : List Char} (hp : AllParsed H ts ds) (hl : lex H t = .lbrace :: (ts ++ us))
    (hus : us.head? ≠ some .rbracket) (h : ∃ N, ∀ n, N ≤ n → (recN H n).frameLoop us ds = .err) : BrokenOk H t := by
  obtain ⟨N, hN⟩ := frame_items H hp
  obtain ⟨N', hN'⟩ := h
  refine ⟨N + N' + ds.length + 1, fun n hn => ?_⟩
  obtain ⟨m, rfl⟩ : ∃ m, n = (m + ds.length) + 1 := ⟨n - ds.length - 1, by omega⟩
  rw [hl]
  have hh : (ts ++ us).head? ≠ some .rbracket := by
    cases hp with
    | nil => exact hus
    | cons hp _ => obtain ⟨-, ⟨t, r, rfl, ht⟩, -⟩ := hp; intro h; simp at h; subst h; cases ht
  show (if (ts ++ us).head? = some .rbracket then _ else (recN H (m + ds.length)).frameLoop (ts ++ us) []) = _
  rw [if_neg hh, hN m (by omega), List.nil_append, hN' m (by omega)]

private theorem broken_bracket {ts us : List Tok} {ds : List Data} {t : List Char} (hp : AllParsed H ts ds) (hl : lex H t = .lbracket :: (ts ++ us))
    (h : (∃ d ∈ ds, ¬ Element d) ∨ ∃ N, ∀ n, N ≤ n → (recN H n).bytesLoop us ds = .err) : BrokenOk H t := by
  by_cases he : ∃ d ∈ ds, ¬ Element d
  · obtain ⟨N, hN⟩ := bytes_bad H hp he
    refine ⟨N + 1, fun n hn => ?_⟩
    obtain ⟨m, rfl⟩ : ∃ m, n = m + 1 := ⟨n - 1, by omega⟩
    rw [hl]
    exact hN m (by omega) us []
  · rcases h with h | h
    · exact absurd h he
    · obtain ⟨N, hN⟩ := bytes_items H hp fun d hd => Classical.byContradiction fun hn => he ⟨d, hd, hn⟩
      obtain ⟨N', hN'⟩ := h
      refine ⟨N + N' + ds.length + 1, fun n hn => ?_⟩
      obtain ⟨m, rfl⟩ : ∃ m, n = (m + ds.length) + 1 := ⟨n - ds.length - 1, by omega⟩
      rw [hl]
      show (recN H (m + ds.length)).bytesLoop (ts ++ us) [] = _
      rw [hN m (by omega), List.nil_append, hN' m (by omega)]

private theorem loops_broken {us : List Tok} {N : Nat} (h : ∀ n, N ≤ n → (recN H n).expr us = .err) (ds : List Data) :
    (∃ N, ∀ n, N ≤ n → (recN H n).consLoop us ds = .err) ∧ (∃ N, ∀ n, N ≤ n → (recN H n).bytesLoop us ds = .err) ∧
    ∃ N, ∀ n, N ≤ n → (recN H n).frameLoop us ds = .err := by
  obtain ⟨h1, h2, h3, h4⟩ := broken_head H h
  refine ⟨⟨N + 1, fun n hn => ?_⟩, ⟨N + 1, fun n hn => ?_⟩, ⟨N + 1, fun n hn => ?_⟩⟩ <;>
    obtain ⟨m, rfl⟩ : ∃ m, n = m + 1 := ⟨n - 1, by omega⟩
  · rw [recN_cons, consStep, if_neg h1, if_neg h4, h m (by omega)]; rfl
  · rw [recN_bytes, bytesStep, if_neg h2, h m (by omega)]; rfl
  · show frameStep (recN H m) us ds = _
    rw [frameStep, if_neg h3, h m (by omega)]; rfl

private theorem loops_eof (ds : List Data) :
    (∃ N, ∀ n, N ≤ n → (recN H n).consLoop [.eof] ds = .err) ∧ (∃ N, ∀ n, N ≤ n → (recN H n).bytesLoop [.eof] ds = .err) ∧
    ∃ N, ∀ n, N ≤ n → (recN H n).frameLoop [.eof] ds = .err := by
  refine ⟨⟨2, fun n hn => ?_⟩, ⟨2, fun n hn => ?_⟩, ⟨2, fun n hn => ?_⟩⟩ <;>
    obtain ⟨m, rfl⟩ : ∃ m, n = m + 1 + 1 := ⟨n - 2, by omega⟩ <;> rfl

private theorem no_hex {r : List Char} (h : NoDigit 16 r) (c : Char) (hc : r.head? = some c) : isHexChar c = false := by
  cases hx : isHexChar c with
  | false => rfl
  | true =>
    exfalso
    simp only [isHexChar, Bool.or_eq_true, Bool.and_eq_true, decide_eq_true_eq] at hx
    have hlt : c.toNat < 128 := by
      rcases hx with (⟨_, h⟩ | ⟨_, h⟩) | ⟨_, h⟩ <;> (have : c.toNat ≤ _ := h; simp at this; omega)
    have key : ∀ n : Fin 128, isHexChar (Char.ofNat n) = true → ∃ v : Fin 16,
        (Char.ofNat n) = "0123456789abcdef".toList.getD v ' ' ∨ (Char.ofNat n) = "0123456789ABCDEF".toList.getD v ' ' := by decide +kernel
    have h3 := key ⟨c.toNat, hlt⟩
    simp only [Char.ofNat_toNat] at h3
    obtain ⟨v, hv⟩ := h3 (by simp only [isHexChar, Bool.or_eq_true, Bool.and_eq_true, decide_eq_true_eq]; exact hx)
    exact h c hc v ⟨v.2, hv⟩

private theorem no_bin {r : List Char} (h : NoDigit 2 r) (c : Char) (hc : r.head? = some c) : isBinChar c = false := by
  cases hx : isBinChar c with
  | false => rfl
  | true =>
    exfalso
    simp only [isBinChar, Bool.or_eq_true, decide_eq_true_eq] at hx
    rcases hx with rfl | rfl
    · exact h _ hc 0 ⟨by decide, .inl rfl⟩
    · exact h _ hc 1 ⟨by decide, .inl rfl⟩

private theorem lex_no_digits {r : List Char} :
    (NoDigit 16 r → lex H ('0' :: 'x' :: r) = .hex [] :: lex H r ∧ lex H ('#' :: 'x' :: r) = .hex [] :: lex H r) ∧
    (NoDigit 2 r → lex H ('#' :: 'b' :: r) = .binary [] :: lex H r) := by
  refine ⟨fun h => ⟨?_, ?_⟩, fun h => ?_⟩
  · have htw := takeWhile_stop (p := isHexChar) [] r (by simp) (no_hex h)
    refine lex_tok H ?_ (by simp)
    rw [readToken_head H _ _ (by rw [isSpace_ascii H _ (by decide)]; decide)]
    simp at htw
    simp [readHead, htw]
  · have htw := takeWhile_stop (p := isHexChar) [] r (by simp) (no_hex h)
    refine lex_tok H ?_ (by simp)
    rw [readToken_head H _ _ (by rw [isSpace_ascii H _ (by decide)]; decide)]
    simp at htw
    simp [readHead, isNumber_ascii, isSym_ascii, delims, htw]
  · have htw := takeWhile_stop (p := isBinChar) [] r (by simp) (no_bin h)
    refine lex_tok H ?_ (by simp)
    rw [readToken_head H _ _ (by rw [isSpace_ascii H _ (by decide)]; decide)]
    simp at htw
    simp [readHead, isNumber_ascii, isSym_ascii, delims, htw]

private theorem lex_hash {r : List Char} (h : ∀ c, r.head? = some c → c ≠ 't' ∧ c ≠ 'f' ∧ c ≠ 'x' ∧ c ≠ 'b') :
    lex H ('#' :: r) = .illegal :: lex H r := by
  refine lex_tok H ?_ (by simp)
  rw [readToken_head H _ _ (by rw [isSpace_ascii H _ (by decide)]; decide)]
  cases r with
  | nil => simp [readHead, isNumber_ascii, isSym_ascii, delims]
  | cons c r =>
    obtain ⟨h1, h2, h3, h4⟩ := h c rfl
    simp [readHead, isNumber_ascii, isSym_ascii, delims]
    split
    · next e => exact absurd (List.cons.inj e).1 h1
    · next e => exact absurd (List.cons.inj e).1 h2
    · next e => exact absurd (List.cons.inj e).1 h3
    · next e => exact absurd (List.cons.inj e).1 h4
    · rfl

private theorem lex_bar (r : List Char) : lex H ('|' :: r) = .illegal :: lex H r := by
  refine lex_tok H ?_ (by simp)
  rw [readToken_head H _ _ (by rw [isSpace_ascii H _ (by decide)]; decide)]
  simp [readHead, isNumber_ascii, isSym_ascii, delims]

private theorem lex_control {c : Char} (h1 : isGraphic H c = false) (h2 : isSpace H c = false) (h3 : isNumber H c = false) (r : List Char) :
    lex H (c :: r) = .illegal :: lex H r := by
  refine lex_tok H ?_ (by simp)
  rw [readToken_head H _ _ h2]
  have hne : ∀ x : Char, 32 ≤ x.toNat → x.toNat ≤ 126 → c ≠ x := by
    rintro x ha hb rfl
    rw [isGraphic_ascii H _ (by omega)] at h1
    simp at h1; omega
  have hs : isSymChar H c = false := by simp [isSymChar, h1]
  unfold readHead
  rw [if_neg (by simp [hne '0' (by decide) (by decide)]), if_neg (by simp [h3, hne '-' (by decide) (by decide)])]
  rw [if_neg (hne _ (by decide) (by decide)), if_neg (hne _ (by decide) (by decide)), if_neg (hne _ (by decide) (by decide)),
    if_neg (by simp [hne ',' (by decide) (by decide)]), if_neg (hne _ (by decide) (by decide)),
    if_neg (hne _ (by decide) (by decide)), if_neg (hne _ (by decide) (by decide)), if_neg (hne _ (by decide) (by decide)),
    if_neg (hne _ (by decide) (by decide)), if_neg (hne _ (by decide) (by decide)), if_neg (hne _ (by decide) (by decide)),
    if_neg (by simp [hne '.' (by decide) (by decide)]), if_neg (by simp [hs]), if_neg (hne _ (by decide) (by decide)),
    if_neg (hne _ (by decide) (by decide))]

private theorem broken_ne {t : List Char} (h : BrokenOk H t) : t ≠ [] := by
  rintro rfl
  obtain ⟨N, hN⟩ := h
  have := hN (N + 1) (by omega)
  cases this

private theorem broken_ok {t : List Char} (h : Broken H t) : BrokenOk H t := by
  induction h using Broken.rec (motive_2 := fun t ds _ => BrokenItemsOk H t ds) with
  | decimal h hn hr =>
    exact broken_tok H (lex_number H (numeral_ne h) (fun c hc => digit_number H (numeral_digits h c hc).choose_spec) hr).1
      fun R rest => mkInt_broken (by decide) h hn rest
  | negative h hn hr =>
    refine broken_tok H (lex_number H (numeral_ne h) (fun c hc => digit_number H (numeral_digits h c hc).choose_spec) hr).2
      fun R rest => ?_
    show mkInt 10 _ _ = _
    unfold mkInt
    rw [scan_negative h, if_neg (by omega)]
  | hex h hn hr =>
    exact broken_tok H (lex_hex H (numeral_hex (by decide) h) hr).1 fun R rest => mkInt_broken (by decide) h hn rest
  | hexHash h hn hr =>
    exact broken_tok H (lex_hex H (numeral_hex (by decide) h) hr).2 fun R rest => mkInt_broken (by decide) h hn rest
  | binary h hn hr =>
    exact broken_tok H (lex_bin H (fun c hc => digit_bin (numeral_digits h c hc).choose_spec) hr)
      fun R rest => mkInt_broken (by decide) h hn rest
  | noHex h => exact broken_tok H ((lex_no_digits H).1 h).1 fun R rest => rfl
  | noHexHash h => exact broken_tok H ((lex_no_digits H).1 h).2 fun R rest => rfl
  | noBinary h => exact broken_tok H ((lex_no_digits H).2 h) fun R rest => rfl
  | hash h => exact broken_tok H (lex_hash H h) fun R rest => rfl
  | bar => exact broken_tok H (lex_bar H _) fun R rest => rfl
  | control h1 h2 h3 => exact broken_tok H (lex_control H h1 h2 h3 _) fun R rest => rfl
  | quoted hw _ ih => exact broken_wrap H (by rw [lex_quote, lex_blank H hw]) (fun R rest => rfl) ih
  | backquoted hw _ ih => exact broken_wrap H (by rw [lex_backquote, lex_blank H hw]) (fun R rest => rfl) ih
  | unquoted hw _ hh ih => exact broken_wrap H (by rw [lex_comma H _ hh, lex_blank H hw]) (fun R rest => rfl) ih
  | spliced hw _ ih => exact broken_wrap H (by rw [lex_commaAt, lex_blank H hw]) (fun R rest => rfl) ih
  | @list t ds _ ih =>
    obtain ⟨ts, us, N, hp, hl, hN⟩ := ih
    exact broken_cons H hp (by rw [lex_lparen, hl]) (loops_broken H hN ds).1
  | @bytes t ds _ ih =>
    obtain ⟨ts, us, N, hp, hl, hN⟩ := ih
    exact broken_bracket H hp (by rw [lex_lbracket, hl]) (.inr (loops_broken H hN ds).2.1)
  | @frame t ds _ ih =>
    obtain ⟨ts, us, N, hp, hl, hN⟩ := ih
    exact broken_brace H hp (by rw [lex_lbrace, hl]) (broken_head H hN).2.1 (loops_broken H hN ds).2.2
  | @dotted t ds v w u hi hv hne hw _ ih =>
    obtain ⟨ts, hp, ht⟩ := items_ok H hi
    obtain ⟨N, hN⟩ := ih
    refine broken_cons H hp (us := .period :: lex H u) ?_ ⟨N + 1, fun n hn => ?_⟩
    · rw [lex_lparen, ht _ (stop_blank H hv hne _), lex_blank H hv, lex_period, lex_blank H hw]
    · obtain ⟨m, rfl⟩ : ∃ m, n = m + 1 := ⟨n - 1, by omega⟩
      rw [recN_cons, consStep, if_neg (by simp), if_pos (by simp), List.tail_cons, hN m (by omega)]; rfl
  | @dottedTwice t ds v w u d w' u' d' r hi hv hne hw hf hw' hs hf' hr =>
    obtain ⟨ts, hp, ht⟩ := items_ok H hi
    obtain ⟨us, ⟨-, -, N, hN⟩, hu⟩ := form_ok H hf
    obtain ⟨us', ⟨-, ⟨k, r', rfl, hk⟩, -⟩, hu'⟩ := form_ok H hf'
    refine broken_cons H hp (us := .period :: (us ++ (k :: r' ++ lex H r))) ?_ ⟨N + 1, fun n hn => ?_⟩
    · rw [lex_lparen, ht _ (stop_blank H hv hne _), lex_blank H hv, lex_period, lex_blank H hw, hu _ hs, lex_blank H hw', hu' r hr]
    · obtain ⟨m, rfl⟩ : ∃ m, n = m + 1 := ⟨n - 1, by omega⟩
      rw [recN_cons, consStep, if_neg (by simp), if_pos (by simp), List.tail_cons, hN m (by omega)]
      simp only [closeDot]
      rw [if_neg]
      intro e; simp at e; subst e; cases hk
  | @unclosedList t ds hi =>
    obtain ⟨ts, hp, ht⟩ := items_ok H hi
    exact broken_cons H hp (by rw [lex_lparen, ← List.append_nil t, ht [] (stop_nil H)]; rfl) (loops_eof H ds).1
  | @unclosedBytes t ds hi =>
    obtain ⟨ts, hp, ht⟩ := items_ok H hi
    exact broken_bracket H hp (by rw [lex_lbracket, ← List.append_nil t, ht [] (stop_nil H)]; rfl) (.inr (loops_eof H ds).2.1)
  | @unclosedFrame t ds hi =>
    obtain ⟨ts, hp, ht⟩ := items_ok H hi
    exact broken_brace H hp (by rw [lex_lbrace, ← List.append_nil t, ht [] (stop_nil H)]; rfl) (by simp [lex_nil]) (loops_eof H ds).2.2
  | notByte hi hb hr =>
    obtain ⟨ts, hp, ht⟩ := items_ok H hi
    exact broken_bracket H hp (by rw [lex_lbracket, ht _ hr]) (.inl hb)
  | here hw _ ih =>
    obtain ⟨N, hN⟩ := ih
    exact ⟨[], _, N, .nil, by rw [lex_blank H hw, List.nil_append], hN⟩
  | @later w t d u ds hw hf hu _ ih =>
    obtain ⟨ts, hp, ht⟩ := form_ok H hf
    obtain ⟨ts', us, N, hq, hl, hN⟩ := ih
    exact ⟨ts ++ ts', us, N, .cons hp hq, by rw [lex_blank H hw, ht _ hu, hl, List.append_assoc], hN⟩

/-- A text that begins with something that is not a form gives an error and no value. -/
theorem C65_broken (t : List Char) (h : Broken H t) : parse H t = none ∧ parseAll H t = ([], true) := by
  obtain ⟨N, hN⟩ := broken_ok H h
  have h : parseExpr H (lex H t) = .err := by
    have := parseExpr_eq H N (lex H t) (by rw [hN N (Nat.le_refl _)]; simp)
    rw [this, hN N (Nat.le_refl _)]
  unfold parse parseAll
  simp only [parseAllN, h, and_self]

/-- The forms before the first thing that is not a form are read, then reading stops with an error. -/
theorem C65_broken_items (t : List Char) (ds : List Data) (h : BrokenItems H t ds) : parseAll H t = (ds, true) := by
  induction ds generalizing t with
  | nil =>
    cases h with
    | here hw hb => rw [(C17_leading_blank H _ _ hw).2, (C65_broken H _ hb).2]
  | cons d ds ih =>
    cases h with
    | later hw hf hu hi => rw [(C17_leading_blank H _ _ hw).2, (C65_form H _ _ _ hf hu).2, ih _ hi]

/-- No text both stands for a value and is broken. -/
theorem C65_exclusive (t r : List Char) (d : Data) (h : Form H t d) (hr : Stop H r) : ¬ Broken H (t ++ r) := by
  intro hb
  have := (C65_form H t r d h hr).1
  rw [(C65_broken H _ hb).1] at this
  cases this

/-- The reader macros, whatever the text: a quote before a text whose first form is read quotes that form, and adds nothing
else. -/
theorem C65_quote (cs : List Char) (d : Data) (ds : List Data) (b : Bool) (h : parseAll H cs = (d :: ds, b)) :
    parseAll H ('\'' :: cs) = (tagged "quote" d :: ds, b) ∧ parseAll H ('`' :: cs) = (tagged "quasiquote" d :: ds, b) ∧
    parseAll H (',' :: '@' :: cs) = (tagged "unquote-splicing" d :: ds, b) ∧
    (cs.head? ≠ some '@' → parseAll H (',' :: cs) = (tagged "unquote" d :: ds, b)) := by
  have key : ∀ (t : List Char) (k : Tok) (name : String), lex H t = k :: lex H cs →
      (∀ R rest, exprStep H R (k :: rest) = wrap name (R.expr rest)) → parseAll H t = (tagged name d :: ds, b) := by
    intro t k name hl hk
    have h0 : parseAllN H ((lex H cs).length + 1) (lex H cs) = (d :: ds, b) := h
    unfold parseAllN at h0
    cases hp : parseExpr H (lex H cs) with
    | ok d' r =>
      rw [hp] at h0
      simp only [Prod.mk.injEq, List.cons.injEq] at h0
      obtain ⟨⟨rfl, h1⟩, h2⟩ := h0
      have hs := (parseExpr_shrinks H _).2 _ _ hp
      have e : (recN H (2 * (lex H cs).length + 2)).expr (k :: lex H cs) = .ok (tagged name d') r := by
        show exprStep H (recN H (2 * (lex H cs).length + 1)) _ = _
        rw [hk]
        have : (recN H (2 * (lex H cs).length + 1)).expr (lex H cs) = .ok d' r := hp
        rw [this]; rfl
      have e' : parseExpr H (k :: lex H cs) = .ok (tagged name d') r := by
        rw [parseExpr_eq H (2 * (lex H cs).length + 2) _ (by rw [e]; simp), e]
      unfold parseAll
      rw [hl]
      show parseAllN H ((k :: lex H cs).length + 1) _ = _
      rw [parseAllN_ok H e', parseAllN_mono H _ ((lex H cs).length) r (by simp; omega) hs, h1, h2]
    | eof => rw [hp] at h0; simp at h0
    | err => rw [hp] at h0; simp at h0
    | timeout => rw [hp] at h0; simp at h0
  exact ⟨key _ _ _ (lex_quote H cs) fun _ _ => rfl, key _ _ _ (lex_backquote H cs) fun _ _ => rfl,
    key _ _ _ (lex_commaAt H cs) fun _ _ => rfl, fun hh => key _ _ _ (lex_comma H cs hh) fun _ _ => rfl⟩

/-! ### Cases -/

private theorem dig (b : Nat) (c : Char) (v : Nat) (h : v < b) (e : c = "0123456789abcdef".toList.getD v ' ' ∨ c = "0123456789ABCDEF".toList.getD v ' ') :
    Digit b c v := ⟨h, e⟩

/-- `(12 #xFf . 0x1a)`. -/
example : Form asciiHost "(12 #xFf . 0x1a)".toList (.cons (.int 12) (.cons (.int 255) (.int 26))) := by
  have d12 : Numeral 10 ['1', '2'] 12 := .snoc (ds := ['1']) (.one (dig 10 '1' 1 (by decide) (by decide))) (dig 10 '2' 2 (by decide) (by decide))
  have dff : Numeral 16 ['F', 'f'] 255 := .snoc (ds := ['F']) (.one (dig 16 'F' 15 (by decide) (by decide))) (dig 16 'f' 15 (by decide) (by decide))
  have d1a : Numeral 16 ['1', 'a'] 26 := .snoc (ds := ['1']) (.one (dig 16 '1' 1 (by decide) (by decide))) (dig 16 'a' 10 (by decide) (by decide))
  have f12 : Form asciiHost "12".toList (.int 12) := .decimal d12 (by decide)
  have fff : Form asciiHost "#xFf".toList (.int 255) := .hexHash dff (by decide)
  have f1a : Form asciiHost "0x1a".toList (.int 26) := .hex d1a (by decide)
  have sp : Blank asciiHost [' '] := .space _ _ (by decide) .nil
  have i2 : Items asciiHost " #xFf".toList [.int 255] := .cons (w := [' ']) (t := "#xFf".toList) (u := []) sp fff (stop_nil _) (.nil .nil)
  have i1 : Items asciiHost "12 #xFf".toList [.int 12, .int 255] := .cons (w := []) (t := "12".toList) (u := " #xFf".toList) .nil f12 (stop_space _ _) i2
  exact .dotted (v := [' ']) (w := []) (u := "0x1a".toList) (w' := []) i1 sp (by decide) .nil f1a .nil

/-- `'(a ,@b) ;c`. -/
example : Items asciiHost "'(a ,@b) ;c\n".toList [tagged "quote" (listOf [.sym "a", tagged "unquote-splicing" (.sym "b")])] := by
  have sp : Blank asciiHost [' '] := .space _ _ (by decide) .nil
  have fa : Form asciiHost "a".toList (.sym "a") := .symbol ⟨'a', [], by decide, by decide, by decide, by simp, by decide⟩
  have fb : Form asciiHost "b".toList (.sym "b") := .symbol ⟨'b', [], by decide, by decide, by decide, by simp, by decide⟩
  have i2 : Items asciiHost " ,@b".toList [tagged "unquote-splicing" (.sym "b")] :=
    .cons (w := [' ']) (t := ",@b".toList) (u := []) sp (.spliced (w := []) (t := ['b']) .nil fb) (stop_nil _) (.nil .nil)
  have i1 : Items asciiHost "a ,@b".toList [.sym "a", tagged "unquote-splicing" (.sym "b")] :=
    .cons (w := []) (t := ['a']) (u := " ,@b".toList) .nil fa (stop_space _ _) i2
  have hl : Form asciiHost "(a ,@b)".toList (listOf [.sym "a", tagged "unquote-splicing" (.sym "b")]) := .list i1
  have hw : Blank asciiHost " ;c\n".toList := .space _ _ (by decide) (.comment ['c'] [] (by decide) .nil)
  exact .cons (w := []) (t := "'(a ,@b)".toList) (u := " ;c\n".toList) .nil (.quoted (w := []) .nil hl) (stop_space _ _) (.nil hw)

/-- `[1 x] {a: #b101}`. -/
example : Form asciiHost "[1 x]".toList (listOf [.sym "list->bytearray", .cons (.sym "list") (listOf [.int 1, .sym "x"])]) := by
  have sp : Blank asciiHost [' '] := .space _ _ (by decide) .nil
  have f1 : Form asciiHost "1".toList (.int 1) := .decimal (.one (dig 10 '1' 1 (by decide) (by decide))) (by decide)
  have fx : Form asciiHost "x".toList (.sym "x") := .symbol ⟨'x', [], by decide, by decide, by decide, by simp, by decide⟩
  have i2 : Items asciiHost " x".toList [.sym "x"] := .cons (w := [' ']) (t := ['x']) (u := []) sp fx (stop_nil _) (.nil .nil)
  have i1 : Items asciiHost "1 x".toList [.int 1, .sym "x"] := .cons (w := []) (t := ['1']) (u := " x".toList) .nil f1 (stop_space _ _) i2
  exact .bytesOf i1 (by intro d hd; simp at hd; rcases hd with rfl | rfl; exact .inl ⟨1, rfl, by decide⟩; exact .inr (.inl ⟨_, rfl⟩))
    ⟨.sym "x", by simp, nofun⟩

example : Form asciiHost "{a: #b101}".toList (.cons (.sym "make-frame") (listOf [.sym "a:", .int 5])) := by
  have sp : Blank asciiHost [' '] := .space _ _ (by decide) .nil
  have fa : Form asciiHost "a:".toList (.sym "a:") := .symbol ⟨'a', [':'], by decide, by decide, by decide, by simp, by decide⟩
  have f5 : Form asciiHost "#b101".toList (.int 5) :=
    .binary (ds := ['1', '0', '1']) (n := 5)
      (.snoc (ds := ['1', '0']) (n := 2) (.snoc (ds := ['1']) (n := 1) (.one (dig 2 '1' 1 (by decide) (by decide))) (dig 2 '0' 0 (by decide) (by decide)))
        (dig 2 '1' 1 (by decide) (by decide))) (by decide)
  have i2 : Items asciiHost " #b101".toList [.int 5] := .cons (w := [' ']) (t := "#b101".toList) (u := []) sp f5 (stop_nil _) (.nil .nil)
  have i1 : Items asciiHost "a: #b101".toList [.sym "a:", .int 5] := .cons (w := []) (t := "a:".toList) (u := " #b101".toList) .nil fa (stop_space _ _) i2
  exact .frame i1

/-- `1 (2 #q)` is read as `1` and an error. -/
example : BrokenItems asciiHost "1 (2 #q)".toList [.int 1] := by
  have sp : Blank asciiHost [' '] := .space _ _ (by decide) .nil
  have f1 : Form asciiHost "1".toList (.int 1) := .decimal (.one (dig 10 '1' 1 (by decide) (by decide))) (by decide)
  have f2 : Form asciiHost "2".toList (.int 2) := .decimal (.one (dig 10 '2' 2 (by decide) (by decide))) (by decide)
  have hq : Broken asciiHost "#q)".toList := .hash (by intro c hc; simp at hc; subst hc; decide)
  have hi : BrokenItems asciiHost "2 #q)".toList [.int 2] :=
    .later (w := []) (t := ['2']) (u := " #q)".toList) .nil f2 (stop_space _ _) (.here (w := [' ']) (t := "#q)".toList) sp hq)
  exact .later (w := []) (t := ['1']) (u := " (2 #q)".toList) .nil f1 (stop_space _ _) (.here (w := [' ']) sp (.list hi))

/-- A byte array with 256 in it. -/
example : Broken asciiHost "[256]".toList := by
  have f : Form asciiHost "256".toList (.int 256) := .decimal
    (.snoc (ds := ['2', '5']) (n := 25) (.snoc (ds := ['2']) (n := 2) (.one (dig 10 '2' 2 (by decide) (by decide))) (dig 10 '5' 5 (by decide) (by decide)))
      (dig 10 '6' 6 (by decide) (by decide))) (by decide)
  exact .notByte (t := "256".toList) (r := [']']) (.cons (w := []) (u := []) .nil f (stop_nil _) (.nil .nil))
    ⟨_, List.mem_singleton.mpr rfl, by
      rintro (⟨n, h, hn⟩ | ⟨s, h⟩ | ⟨a, t, h⟩)
      · cases h; revert hn; decide
      · cases h
      · cases h⟩ (stop_rbracket _ _)

end Golisp.Props
