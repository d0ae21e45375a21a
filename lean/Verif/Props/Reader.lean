import Verif.ReaderRound
/-
C15-C18: reading and printing.
-/
namespace Golisp.Spec
open Golisp.Data Golisp.Reader

/-- Repeatedly taking the next token, without any bound on the number of steps. -/
inductive Lexes (H : Host) : List Char → List Tok → Prop where
  | eof {cs r} : readToken H cs = (some .eof, r) → Lexes H cs [.eof]
  | comment {cs r ts} : readToken H cs = (none, r) → Lexes H r ts → Lexes H cs ts
  | tok {cs r t ts} : readToken H cs = (some t, r) → t ≠ .eof → Lexes H r ts → Lexes H cs (t :: ts)

/-- Reading one expression from a token sequence ends with result `r`: some recursion depth suffices. -/
def Parses (H : Host) (ts : List Tok) (r : PRes) : Prop := ∃ n, (recN H n).expr ts = r ∧ r ≠ .timeout

/-- The loop of `ParseAll`, without any bound on the number of steps: the forms read, and whether it ended in an
error. -/
inductive Reads (H : Host) : List Tok → List Data → Bool → Prop where
  | eof {ts} : Parses H ts .eof → Reads H ts [] false
  | err {ts} : Parses H ts .err → Reads H ts [] true
  | form {ts d r ds b} : Parses H ts (.ok d r) → Reads H r ds b → Reads H ts (d :: ds) b

/-- The body of a string literal denotes a string: `\n` is a newline, `\c` is `c`, any other character but the quote
is itself. -/
inductive Body : List Char → List Char → Prop where
  | nil : Body [] []
  | newline {b s} : Body b s → Body ('\\' :: 'n' :: b) ('\n' :: s)
  | escaped {c b s} : c ≠ 'n' → Body b s → Body ('\\' :: c :: b) (c :: s)
  | plain {c b s} : c ≠ '\\' → c ≠ '"' → Body b s → Body (c :: b) (c :: s)

/-- The text after an opening quote never closes it: it is a body, possibly followed by a lone backslash. -/
inductive Open : List Char → Prop where
  | nil : Open []
  | lone : Open ['\\']
  | escaped {c b} : Open b → Open ('\\' :: c :: b)
  | plain {c b} : c ≠ '\\' → c ≠ '"' → Open b → Open (c :: b)

/-- A text made of the given values' printed forms, each followed by white space or comments (the last one need
not be). -/
inductive Spaced (H : Host) : List Data → List Char → Prop where
  | nil {w} : Blank H w → Spaced H [] w
  | last {w d} : Blank H w → Spaced H [d] (w ++ print H d)
  | form {w d v ds t} : Blank H w → Spaced H ds (v ++ t) → Blank H v → v ≠ [] →
      Spaced H (d :: ds) (w ++ print H d ++ (v ++ t))

end Golisp.Spec

namespace Golisp.Props
open Golisp Golisp.Data Golisp.Reader Golisp.Spec

/-- A host for examples: nothing above ASCII. -/
def asciiHost : Host where
  spaceHi _ := false
  numberHi _ := false
  graphicHi _ := false
  spaceNotNumber _ h := by cases h
  readFloat _ := none
  showFloat _ := []
  showRef _ := []

variable (H : Host)

/-! ### C16 -/

/-- Every token taken, other than the end of the text, strictly shortens the text. -/
theorem C16_token_progress (cs r : List Char) (t : Option Tok) (h : readToken H cs = (t, r)) (ht : t ≠ some .eof) :
    r.length < cs.length := by
  rcases readToken_length H cs with h1 | h1
  · rw [h] at h1; exact absurd h1 ht
  · rw [h] at h1; exact h1

example : readToken asciiHost "; x\n 12 ab".toList = (none, "\n 12 ab".toList) := by decide
example : readToken asciiHost " 12 ab".toList = (some (.number "12".toList), " ab".toList) := by decide

/-- Tokenizing ends for every text, with one token sequence. -/
theorem C16_lex_total (cs : List Char) (ts : List Tok) : Lexes H cs ts ↔ ts = lex H cs := by
  constructor
  · intro h
    induction h with
    | eof h => rw [lex_eof H h]
    | comment h _ ih => rw [lex_comment H h]; exact ih
    | tok h ht _ ih => rw [lex_tok H h ht, ih]
  · rintro rfl
    generalize hk : cs.length = k
    induction k using Nat.strongRecOn generalizing cs with
    | ind k ih =>
      generalize hr : readToken H cs = x
      obtain ⟨t, r⟩ := x
      cases t with
      | none =>
        rw [lex_comment H hr]
        exact .comment hr (ih _ (hk ▸ C16_token_progress H cs r _ hr (by simp)) r rfl)
      | some t =>
        by_cases ht : t = .eof
        · subst ht; rw [lex_eof H hr]; exact .eof hr
        · rw [lex_tok H hr ht]
          exact .tok hr ht (ih _ (hk ▸ C16_token_progress H cs r _ hr (by simpa using ht)) r rfl)

theorem parses_iff (ts : List Tok) (r : PRes) : Parses H ts r ↔ r = parseExpr H ts := by
  constructor
  · rintro ⟨n, hn, hr⟩
    rw [parseExpr_eq H n ts (by rw [hn]; exact hr), hn]
  · rintro rfl
    exact ⟨_, rfl, (parseExpr_shrinks H ts).1⟩

/-- Reading one expression ends for every token sequence, with one result, and a result that is a form leaves
strictly fewer tokens. -/
theorem C16_parse_total (ts : List Tok) :
    ∃ r, Parses H ts r ∧ (∀ r', Parses H ts r' → r' = r) ∧
      ∀ d rest, r = .ok d rest → rest.length < ts.length := by
  refine ⟨parseExpr H ts, (parses_iff H ts _).2 rfl, fun r' h => (parses_iff H ts r').1 h, ?_⟩
  exact (parseExpr_shrinks H ts).2

theorem reads_parseAllN (n : Nat) (ts : List Tok) (hn : ts.length < n) :
    Reads H ts (parseAllN H n ts).1 (parseAllN H n ts).2 := by
  induction n generalizing ts with
  | zero => omega
  | succ n ih =>
    have hp := (parses_iff H ts _).2 rfl
    have hs := parseExpr_shrinks H ts
    unfold parseAllN
    generalize parseExpr H ts = x at hp hs
    cases x with
    | ok d r => exact .form hp (ih r (by have := hs.2 d r rfl; omega))
    | eof => exact .eof hp
    | err => exact .err hp
    | timeout => exact absurd rfl hs.1

theorem reads_unique {ts : List Tok} {ds ds' : List Data} {b b' : Bool} (h : Reads H ts ds b) (h' : Reads H ts ds' b') :
    ds = ds' ∧ b = b' := by
  induction h generalizing ds' b' with
  | eof h =>
    rw [parses_iff] at h
    cases h' with
    | eof => exact ⟨rfl, rfl⟩
    | err h2 => rw [parses_iff, ← h] at h2; cases h2
    | form h2 => rw [parses_iff, ← h] at h2; cases h2
  | err h =>
    rw [parses_iff] at h
    cases h' with
    | eof h2 => rw [parses_iff, ← h] at h2; cases h2
    | err => exact ⟨rfl, rfl⟩
    | form h2 => rw [parses_iff, ← h] at h2; cases h2
  | form h _ ih =>
    rw [parses_iff] at h
    cases h' with
    | eof h2 => rw [parses_iff, ← h] at h2; cases h2
    | err h2 => rw [parses_iff, ← h] at h2; cases h2
    | form h2 h3 =>
      rw [parses_iff, ← h] at h2; cases h2
      obtain ⟨rfl, rfl⟩ := ih h3
      exact ⟨rfl, rfl⟩

/-- Reading all forms of a text ends, with one list of forms and possibly an error, which is what `parseAll` gives. -/
theorem C16_parse_all_total (cs : List Char) (ds : List Data) (b : Bool) :
    (∃ ts, Lexes H cs ts ∧ Reads H ts ds b) ↔ (ds, b) = parseAll H cs := by
  have hm := reads_parseAllN H ((lex H cs).length + 1) (lex H cs) (by omega)
  constructor
  · rintro ⟨ts, h1, h2⟩
    obtain rfl := (C16_lex_total H cs ts).1 h1
    obtain ⟨e1, e2⟩ := reads_unique H h2 hm
    exact Prod.ext e1 e2
  · intro h
    refine ⟨lex H cs, (C16_lex_total H cs _).2 rfl, ?_⟩
    have e1 : ds = _ := congrArg Prod.fst h
    have e2 : b = _ := congrArg Prod.snd h
    rw [e1, e2]; exact hm

-- a dangling list, a stray bracket and an illegal character
example : parseAll asciiHost "1 (2 . x) ]".toList = ([.int 1, cons (.int 2) (.sym "x"), .sym "]"], false) := by decide
example : parseAll asciiHost "a (1 (2".toList = ([.sym "a"], true) := by decide
example : parseAll asciiHost "a #z b".toList = ([.sym "a"], true) := by decide

/-- The end of the text inside a dotted list is not reported as an error (`parser.go:76-78` returns before the check
that every other unfinished list gets at `parser.go:91-94`). -/
theorem C16_dotted_eof_violation :
    parseAll asciiHost "a (1 . ".toList = ([.sym "a"], false) ∧
    parseAll asciiHost "a (1 ".toList = ([.sym "a"], true) := by decide

/-! ### C15 -/

/-- The printed form of a readable value reads back as that value. -/
theorem C15_round_trip (d : Data) (h : Readable H d) : parse H (print H d) = some d := by
  have e := lex_print H d h [] (stop_nil H)
  rw [List.append_nil] at e
  unfold parse
  rw [e, parse_toks H h]

/-- Names that start with a letter. -/
theorem name_letter (s : String) (c : Char) (cs : List Char) (h : s.toList = c :: cs)
    (h1 : ∀ x ∈ c :: cs, isSymChar H x = true) (h2 : isNumber H c = false) (h3 : c ≠ '-') (h4 : c ≠ '.') : Name H s :=
  ⟨c, cs, h, h1, h2, fun h => h3 h.1, fun h => h4 h.1⟩

example : Readable asciiHost (cons (.int (-5)) (cons (.str "a\"b") (cons (.sym "foo?") (cons (.bytes [1, 255])
    (cons (cons (.sym "quote") (cons emptyCons null)) (cons (cons (.bool true) (.sym "x")) null)))))) := by
  have hn : ∀ s ∈ ["foo?", "quote", "x"], Name asciiHost s := by
    intro s hs
    simp only [List.mem_cons, List.not_mem_nil, or_false] at hs
    rcases hs with rfl | rfl | rfl
    · exact name_letter _ _ 'f' ['o', 'o', '?'] rfl (by decide) (by decide) (by decide) (by decide)
    · exact name_letter _ _ 'q' ['u', 'o', 't', 'e'] rfl (by decide) (by decide) (by decide) (by decide)
    · exact name_letter _ _ 'x' [] rfl (by decide) (by decide) (by decide) (by decide)
  simp only [Readable, ReadableTail, ReadableAtom]
  refine .inr ⟨trivial, ⟨by decide, hn _ (by simp), trivial, ?_, ?_, trivial⟩, fun h => by simp at h⟩
  · exact .inr ⟨hn _ (by simp), ⟨.inl ⟨trivial, trivial⟩, trivial⟩, fun _ _ => ⟨_, rfl⟩⟩
  · exact .inr ⟨trivial, hn _ (by simp), fun h => by simp at h⟩
example : print asciiHost (ofArray [.sym "z-5", .str "a\"b", ofArray [.sym "quote", .sym "x"], cons (.bool true) (.sym "x")]) =
    "(z-5 \"a\\\"b\" 'x (#t . x))".toList := by decide

/-- Two readable values with the same printed form are the same value. -/
theorem C15_print_injective (d e : Data) (hd : Readable H d) (he : Readable H e) (h : print H d = print H e) : d = e := by
  have h1 := C15_round_trip H d hd
  rw [h, C15_round_trip H e he] at h1
  exact (Option.some.inj h1).symm

/-- Outside the readable values the round trip fails: a list headed by `quote` with another number of elements
(`data.go:963-968`) and a string with a backslash (`data.go:933-942` escapes only quotes). -/
theorem C15_round_trip_violation :
    parse asciiHost (print asciiHost (ofArray [.sym "quote", .sym "a", .sym "b"])) =
      some (ofArray [.sym "quote", .sym "a"]) ∧
    parse asciiHost (print asciiHost (.str "a\\nb")) = some (.str "a\nb") := by decide

/-! ### C17 -/

/-- White space and comment lines before a text change nothing of what is read from it. -/
theorem C17_leading_blank (w cs : List Char) (hw : Blank H w) :
    parse H (w ++ cs) = parse H cs ∧ parseAll H (w ++ cs) = parseAll H cs := by
  unfold parse parseAll
  rw [lex_blank H hw cs]
  exact ⟨rfl, rfl⟩

example : Blank asciiHost " \n; a comment (\n\t".toList :=
  .space _ _ (by decide) (.space _ _ (by decide) (.comment " a comment (".toList _ (by decide) (.space _ _ (by decide) .nil)))

theorem parseAllN_mono (n m : Nat) (ts : List Tok) (hn : ts.length < n) (hm : ts.length < m) :
    parseAllN H n ts = parseAllN H m ts := by
  have := reads_unique H (reads_parseAllN H n ts hn) (reads_parseAllN H m ts hm)
  exact Prod.ext this.1 this.2

theorem parseAllN_ok {n : Nat} {ts r : List Tok} {d : Data} (h : parseExpr H ts = .ok d r) :
    parseAllN H (n + 1) ts = (d :: (parseAllN H n r).1, (parseAllN H n r).2) := by
  simp only [parseAllN, h]

/-- Reading a form off the front of a text. -/
theorem parseAll_form {d : Data} (h : Readable H d) (r : List Char) (hr : Stop H r) :
    parseAll H (print H d ++ r) = (d :: (parseAll H r).1, (parseAll H r).2) := by
  have e := lex_print H d h r hr
  unfold parseAll
  rw [e]
  have hp := parse_toks H h (lex H r)
  have hs := (parseExpr_shrinks H ((tk H d).1 ++ lex H r)).2 _ _ hp
  rw [parseAllN_ok H hp, parseAllN_mono H _ ((lex H r).length + 1) (lex H r) hs (by omega)]

/-- A text made of printed readable values with white space or comments between them reads as exactly those values,
in order and without error. -/
theorem C17_separated (ds : List Data) (t : List Char) (hd : ∀ d ∈ ds, Readable H d) (h : Spaced H ds t) :
    parseAll H t = (ds, false) := by
  have hnil : parseAll H [] = ([], false) := rfl
  induction h with
  | nil hw =>
    have := (C17_leading_blank H _ [] hw).2
    rwa [List.append_nil, hnil] at this
  | last hw =>
    rw [(C17_leading_blank H _ _ hw).2, ← List.append_nil (print H _), parseAll_form H (hd _ (by simp)) [] (stop_nil H), hnil]
  | form hw _ hv hne ih =>
    rw [List.append_assoc, (C17_leading_blank H _ _ hw).2, parseAll_form H (hd _ (by simp)) _ (stop_blank H hv hne _),
      ih fun d hm => hd d (List.mem_cons_of_mem _ hm)]

example : Spaced asciiHost [.bool true, .sym "ab", .str "c"] "#t ab ;x\n\"c\"".toList :=
  .form (w := []) (d := .bool true) (v := [' ']) (t := "ab ;x\n\"c\"".toList) .nil
    (.form (w := [' ']) (d := .sym "ab") (v := " ;x\n".toList) (t := "\"c\"".toList) (.space _ _ (by decide) .nil)
      (.last (w := " ;x\n".toList) (d := .str "c") (.space _ _ (by decide) (.comment ['x'] [] (by decide) .nil)))
      (.space _ _ (by decide) (.comment ['x'] [] (by decide) .nil)) (by decide))
    (.space _ _ (by decide) .nil) (by decide)

/-! ### C18 -/

theorem strLoop_plain {c : Char} (h1 : c ≠ '\\') (h2 : c ≠ '"') (cs : List Char) :
    strLoop (c :: cs) = (strLoop cs).map fun r => (c :: r.1, r.2) := by
  rw [strLoop.eq_def]
  split
  · next h => simp at h
  · next h => simp only [List.cons.injEq] at h; exact absurd h.1 h2
  · next h => simp only [List.cons.injEq] at h; exact absurd h.1 h1
  · next h => simp only [List.cons.injEq] at h; exact absurd h.1 h1
  · next h => simp only [List.cons.injEq] at h; rw [h.1, h.2]

theorem strLoop_esc (c : Char) (cs : List Char) :
    strLoop ('\\' :: c :: cs) = (strLoop cs).map fun r => ((if c = 'n' then '\n' else c) :: r.1, r.2) := by
  conv => lhs; rw [strLoop.eq_def]
  rfl

theorem strLoop_body {b s : List Char} (h : Body b s) (r : List Char) : strLoop (b ++ '"' :: r) = some (s, r) := by
  induction h with
  | nil => simp [strLoop]
  | newline _ ih => simp only [List.cons_append]; rw [strLoop_esc, ih]; rfl
  | escaped hc _ ih => simp only [List.cons_append]; rw [strLoop_esc, ih, if_neg hc]; rfl
  | plain h1 h2 _ ih => simp only [List.cons_append]; rw [strLoop_plain h1 h2, ih]; rfl

theorem readHead_dq (cs : List Char) :
    readHead H '"' cs = (match strLoop cs with | none => (some .eof, []) | some (s, r) => (some (.str s), r)) := by
  unfold readHead
  rw [if_neg (by simp), if_neg (by rw [isNumber_ascii H _ (by decide)]; simp), if_pos rfl]
  rfl

theorem readToken_dq (cs : List Char) : readToken H ('"' :: cs) = readHead H '"' cs :=
  readToken_head H _ _ (by rw [isSpace_ascii H _ (by decide)]; decide)

/-- A literal reads as the string its body denotes, and reading goes on right after the closing quote. -/
theorem C18_literal (b s : List Char) (h : Body b s) (r : List Char) :
    parse H ('"' :: (b ++ '"' :: r)) = some (.str (String.ofList s)) ∧
    parseAll H ('"' :: (b ++ '"' :: r)) = (.str (String.ofList s) :: (parseAll H r).1, (parseAll H r).2) := by
  have e : lex H ('"' :: (b ++ '"' :: r)) = .str s :: lex H r :=
    lex_tok H (by rw [readToken_dq, readHead_dq, strLoop_body h]) (by simp)
  have hp : parseExpr H (.str s :: lex H r) = .ok (.str (String.ofList s)) (lex H r) := rfl
  have hs := (parseExpr_shrinks H (.str s :: lex H r)).2 _ _ hp
  unfold parse parseAll
  rw [e]
  refine ⟨by rw [hp], ?_⟩
  rw [parseAllN_ok H hp, parseAllN_mono H _ ((lex H r).length + 1) (lex H r) hs (by omega)]

example : Body "a\\nb\\\"\\q".toList "a\nb\"q".toList :=
  .plain (by decide) (by decide) (.newline (.plain (by decide) (by decide)
    (.escaped (by decide) (.escaped (by decide) .nil))))

/-- Every text after an opening quote either closes the literal or leaves it open, so `C18_literal` and
`C18_unterminated` cover every text. -/
theorem C18_cases (cs : List Char) :
    (∃ b s r, cs = b ++ '"' :: r ∧ Body b s) ∨ Open cs := by
  generalize hk : cs.length = k
  induction k using Nat.strongRecOn generalizing cs with
  | ind k ih =>
    match cs with
    | [] => exact .inr .nil
    | c :: cs =>
      simp only [List.length_cons] at hk
      by_cases h1 : c = '"'
      · subst h1; exact .inl ⟨[], [], cs, rfl, .nil⟩
      · by_cases h2 : c = '\\'
        · subst h2
          match cs with
          | [] => exact .inr .lone
          | x :: cs =>
            simp only [List.length_cons] at hk
            rcases ih cs.length (by omega) cs rfl with ⟨b, s, r, rfl, hb⟩ | h
            · by_cases hx : x = 'n'
              · subst hx; exact .inl ⟨_, _, r, rfl, .newline hb⟩
              · exact .inl ⟨_, _, r, rfl, .escaped hx hb⟩
            · exact .inr (.escaped h)
        · rcases ih cs.length (by omega) cs rfl with ⟨b, s, r, rfl, hb⟩ | h
          · exact .inl ⟨_, _, r, rfl, .plain h2 h1 hb⟩
          · exact .inr (.plain h2 h1 h)

/-- A literal that is never closed yields no value. -/
theorem C18_unterminated (cs : List Char) (h : Open cs) :
    parse H ('"' :: cs) = some null ∧ parseAll H ('"' :: cs) = ([], false) := by
  have hl : strLoop cs = none := by
    induction h with
    | nil => simp [strLoop]
    | lone => simp [strLoop]
    | escaped _ ih => rw [strLoop_esc, ih]; rfl
    | plain h1 h2 _ ih => rw [strLoop_plain h1 h2, ih]; rfl
  have e : lex H ('"' :: cs) = [.eof] := lex_eof H (r := []) (by rw [readToken_dq, readHead_dq, hl])
  unfold parse parseAll
  rw [e]
  exact ⟨rfl, rfl⟩

example : Open "ab\\\"".toList := .plain (by decide) (by decide) (.plain (by decide) (by decide) (.escaped .nil))

/-- Printing then reading a string without backslashes gives it back. -/
theorem C18_string_round_trip (s : String) (h : '\\' ∉ s.toList) : parse H (print H (.str s)) = some (.str s) :=
  C15_round_trip H (.str s) h

example : '\\' ∉ "two\nlines \"quoted\"".toList := by decide

end Golisp.Props
