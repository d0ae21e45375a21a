import Verif.ReaderPrint
/-
Printed readable values lex to a known token sequence, and that sequence parses to the value.
-/
namespace Golisp.Reader
open Data Spec
variable (H : Host)

/-- Tokens of a byte array's elements. -/
def byteToks (bs : List (BitVec 8)) : List Tok := bs.map fun b => .number (Prim.formatInt 10 b.toNat)

def atomToks : Atom → List Tok
  | .int n => [.number (Prim.formatInt 10 n.toInt)]
  | .bool b => [if b then .tru else .fls]
  | .str s => [.str s.toList]
  | .sym s => [.symbol s.toList]
  | .bytes bs => .lbracket :: (byteToks bs ++ [.rbracket])
  | _ => []

/-- Tokens of a value, and of a value in `cdr` position. -/
def tk : Data → List Tok × List Tok
  | null => ([.lparen, .rparen], [])
  | atom a => (atomToks a, .period :: atomToks a)
  | cell _ a d =>
    (if a = null ∧ d = null then [.lparen, .rparen]
     else if a = .sym "quote" ∧ (pr H d).tail = none then .quote :: (tk d).2
     else .lparen :: ((tk a).1 ++ ((tk d).2 ++ [.rparen])), (tk a).1 ++ (tk d).2)

/-- Text of a `cdr`: what `String` prints between the first element and the closing parenthesis. -/
def tailText (p : Printed) : List Char :=
  p.parts.flatMap (fun x => ' ' :: x) ++ (match p.tail with | none => [] | some t => ' ' :: '.' :: ' ' :: t)

theorem joinSp_cons (x : List Char) (xs : List (List Char)) :
    joinSp (x :: xs) = x ++ xs.flatMap (fun x => ' ' :: x) := by
  induction xs generalizing x with
  | nil => simp [joinSp]
  | cons y ys ih => simp only [joinSp, ih y, List.flatMap_cons, List.cons_append]

theorem readable_ne {a : Data} (h : Readable H a) : a ≠ null := fun e => by subst e; exact h

theorem not_nil_cell {k a d} (h : a ≠ null) : isNil (cell k a d) = false := by
  cases a with
  | null => exact absurd rfl h
  | cell _ _ _ => cases d <;> rfl
  | atom _ => cases d <;> rfl

theorem tail_none_iff {d : Data} (h : ReadableTail H d) : (pr H d).tail = none ↔ Proper d := by
  induction d with
  | null => simp [pr, Proper]
  | atom a => simp [pr, Proper]
  | cell k a d _ ih =>
    cases k with
    | alist => exact absurd h (by simp [ReadableTail])
    | acell => exact absurd h (by simp [ReadableTail])
    | cons =>
      simp only [ReadableTail] at h
      simp only [pr, not_nil_cell (readable_ne H h.1), Bool.false_eq_true, if_false, Proper]
      exact ih h.2

/-- Text of a non-empty readable list. -/
theorem text_cons {a d : Data} (ha : a ≠ null) (hq : ¬ (a = .sym "quote" ∧ (pr H d).tail = none)) :
    print H (cons a d) = '(' :: (print H a ++ (tailText (pr H d) ++ [')'])) := by
  simp only [print, pr, not_nil_cell ha, Bool.false_eq_true, if_false, consText, tailText]
  cases e : (pr H d).tail with
  | none =>
    have : a ≠ .sym "quote" := fun h => hq ⟨h, e⟩
    simp only [if_neg this, joinSp_cons]
    simp
  | some t => simp [joinSp_cons]

theorem text_quote (x : Data) (hx : x ≠ null) : print H (cons (.sym "quote") (cons x null)) = '\'' :: print H x := by
  simp only [print, pr, not_nil_cell hx, Bool.false_eq_true, if_false, consText]
  rfl

theorem tailText_cons {a d : Data} (ha : a ≠ null) :
    tailText (pr H (cons a d)) = ' ' :: (print H a ++ tailText (pr H d)) := by
  simp only [tailText, print, pr, not_nil_cell ha, Bool.false_eq_true, if_false]
  simp

theorem stop_tail {d : Data} (h : ReadableTail H d) (r : List Char) : Stop H (tailText (pr H d) ++ ')' :: r) := by
  cases d with
  | null => exact stop_rparen H r
  | atom a => exact stop_space H _
  | cell k a d =>
    cases k with
    | alist => exact absurd h (by simp [ReadableTail])
    | acell => exact absurd h (by simp [ReadableTail])
    | cons =>
      simp only [ReadableTail] at h
      have e := tailText_cons H (a := a) (d := d) (readable_ne H h.1)
      rw [show Data.cell .cons a d = cons a d from rfl, e]
      exact stop_space H _

theorem lex_bytes (bs : List (BitVec 8)) (r : List Char) :
    lex H (joinSp (bs.map fun b => Prim.formatInt 10 (b.toNat : Int)) ++ ']' :: r) =
      byteToks bs ++ .rbracket :: lex H r := by
  have tl : ∀ bs : List (BitVec 8),
      Stop H ((bs.map fun b => Prim.formatInt 10 (b.toNat : Int)).flatMap (fun x => ' ' :: x) ++ ']' :: r) ∧
      lex H ((bs.map fun b => Prim.formatInt 10 (b.toNat : Int)).flatMap (fun x => ' ' :: x) ++ ']' :: r) =
        byteToks bs ++ .rbracket :: lex H r := by
    intro bs
    induction bs with
    | nil => exact ⟨stop_rbracket H r, lex_rbracket H r⟩
    | cons b bs ih =>
      refine ⟨stop_space H _, ?_⟩
      simp only [List.map_cons, List.flatMap_cons, List.cons_append, List.append_assoc]
      rw [lex_sp, lex_int H _ _ ih.1, ih.2]
      rfl
  cases bs with
  | nil => exact lex_rbracket H r
  | cons b bs =>
    simp only [List.map_cons, joinSp_cons, List.append_assoc]
    rw [lex_int H _ _ (tl bs).1, (tl bs).2]
    rfl

theorem lex_atom {a : Atom} (h : ReadableAtom H a) (r : List Char) (hr : Stop H r) :
    lex H (atomText H a ++ r) = atomToks a ++ lex H r := by
  cases a with
  | int n => exact lex_int H _ r hr
  | bool b => cases b; exact lex_false H r; exact lex_true H r
  | str s =>
    have := lex_str H s.toList h r
    simpa [atomText, atomToks] using this
  | sym s => exact lex_sym H h r hr
  | bytes bs =>
    simp only [atomText, atomToks, List.cons_append, List.append_assoc]
    rw [lex_lbracket]
    congr 1
    exact lex_bytes H bs r
  | _ => exact absurd h (by simp [ReadableAtom])

/-- The printed text of `d` lexes to its tokens, whatever follows. -/
def LexOk (d : Data) : Prop := Readable H d → ∀ r, Stop H r → lex H (print H d ++ r) = (tk H d).1 ++ lex H r

theorem lex_print_aux (d : Data) :
    LexOk H d ∧
    (ReadableTail H d → ∀ r, lex H (tailText (pr H d) ++ ')' :: r) = (tk H d).2 ++ .rparen :: lex H r) ∧
    (∀ x y, d = cons x y → LexOk H x) := by
  induction d with
  | null => exact ⟨fun h => absurd h (by simp [Readable]), fun _ r => lex_rparen H r, fun _ _ h => by simp at h⟩
  | atom a =>
    refine ⟨fun h r hr => lex_atom H h r hr, fun h r => ?_, fun _ _ h => by simp at h⟩
    have := lex_atom H h (')' :: r) (stop_rparen H r)
    simp only [tailText, pr, List.flatMap_nil, List.nil_append, List.cons_append]
    rw [lex_sp, lex_period, this, lex_rparen]
    rfl
  | cell k a d iha ihd =>
    cases k with
    | alist => exact ⟨fun h => absurd h (by simp [Readable]), fun h => absurd h (by simp [ReadableTail]), fun _ _ h => by simp at h⟩
    | acell => exact ⟨fun h => absurd h (by simp [Readable]), fun h => absurd h (by simp [ReadableTail]), fun _ _ h => by simp at h⟩
    | cons =>
      refine ⟨?_, ?_, fun x y h => ?_⟩
      · intro h r hr
        simp only [Readable] at h
        rcases h with ⟨rfl, rfl⟩ | ⟨ha, hd, hq⟩
        · show lex H ('(' :: ')' :: r) = _
          rw [lex_lparen, lex_rparen]; rfl
        · have hne := readable_ne H ha
          have e1 : ¬ (a = null ∧ d = null) := fun h => hne h.1
          by_cases hqq : a = .sym "quote" ∧ (pr H d).tail = none
          · obtain ⟨x, rfl⟩ := hq hqq.1 ((tail_none_iff H hd).1 hqq.2)
            have e : (tk H (cell .cons a (cons x null))).1 = .quote :: (tk H x).1 := by
              simp only [tk] at *
              rw [if_neg e1, if_pos hqq, List.append_nil]
            simp only [ReadableTail] at hd
            rw [e, hqq.1, show Data.cell .cons (.sym "quote") (cons x null) = cons (.sym "quote") (cons x null) from rfl,
              text_quote H x (readable_ne H hd.1), List.cons_append, lex_quote, ihd.2.2 x null rfl hd.1 r hr]
            rfl
          · rw [show Data.cell .cons a d = cons a d from rfl, text_cons H hne hqq]
            simp only [tk, if_neg e1, if_neg hqq, List.cons_append, List.append_assoc]
            simp only [List.nil_append]
            rw [lex_lparen, iha.1 ha _ (stop_tail H hd r), ihd.2.1 hd r]
      · intro h r
        simp only [ReadableTail] at h
        rw [show Data.cell .cons a d = cons a d from rfl, tailText_cons H (readable_ne H h.1)]
        simp only [tk, List.cons_append, List.append_assoc]
        rw [lex_sp, iha.1 h.1 _ (stop_tail H h.2 r), ihd.2.1 h.2 r]
      · simp only [cell.injEq, true_and] at h
        rw [← h.1]; exact iha.1

theorem lex_print (d : Data) : LexOk H d := (lex_print_aux H d).1

/-! ### Parsing the tokens back -/

/-- The parser, given enough depth, reads `d` from its tokens and leaves the rest. -/
def ParseOk (d : Data) : Prop := ∃ N, ∀ n, N ≤ n → ∀ ts, (recN H n).expr ((tk H d).1 ++ ts) = .ok d ts

theorem recN_cons (m ts cells) : (recN H (m + 1)).consLoop ts cells = consStep (recN H m) ts cells := rfl
theorem recN_bytes (m ts cells) : (recN H (m + 1)).bytesLoop ts cells = bytesStep (recN H m) ts cells := rfl

theorem mkInt_ok (n : BitVec 64) (r : List Tok) : mkInt 10 (Prim.formatInt 10 n.toInt) r = .ok (.int n) r := by
  unfold mkInt
  rw [Props.scanInt_formatInt 10 (by decide) (by decide) n.toInt (by have := n.le_toInt; simpa using this) (by have := n.toInt_lt; simpa using this)]
  simp

theorem mkInt_byte (b : BitVec 8) (r : List Tok) :
    mkInt 10 (Prim.formatInt 10 (b.toNat : Int)) r = .ok (.int (b.setWidth 64)) r := by
  have hb : b.toNat < 256 := b.isLt
  unfold mkInt
  rw [Props.scanInt_formatInt 10 (by decide) (by decide) b.toNat (by omega) (by omega)]
  simp only [PRes.ok.injEq, and_true]
  congr 2
  apply BitVec.eq_of_toNat_eq
  simp [BitVec.toNat_setWidth]

theorem byte_int (b : BitVec 8) : ((b.setWidth 64 : BitVec 64)).toInt = b.toNat := by
  have hb : b.toNat < 256 := b.isLt
  rw [BitVec.toInt_eq_toNat_of_lt]
  · rw [BitVec.toNat_setWidth, Nat.mod_eq_of_lt (by omega)]
  · rw [BitVec.toNat_setWidth, Nat.mod_eq_of_lt (by omega)]; omega

theorem bytes_ok (done bs : List (BitVec 8)) (n : Nat) (hn : bs.length + 1 < n) (ts : List Tok) :
    (recN H n).bytesLoop (byteToks bs ++ .rbracket :: ts) (done.map fun b => .int (b.setWidth 64)) =
      .ok (.bytes (done ++ bs)) ts := by
  induction bs generalizing done n with
  | nil =>
    obtain ⟨m, rfl⟩ : ∃ m, n = m + 1 := ⟨n - 1, by omega⟩
    rw [recN_bytes]
    unfold bytesStep
    rw [if_pos (by simp [byteToks]), if_pos (by simp [isInt])]
    simp only [toBytes, List.map_map, List.append_nil]
    congr 3
    conv => rhs; rw [← List.map_id done]
    apply List.map_congr_left
    intro b _
    simp only [Function.comp, intValue, id]
    apply BitVec.eq_of_toNat_eq
    have hb : b.toNat < 256 := b.isLt
    rw [BitVec.toNat_setWidth, BitVec.toNat_setWidth]; omega
  | cons b bs ih =>
    simp only [List.length_cons] at hn
    obtain ⟨m, rfl⟩ : ∃ m, n = m + 2 := ⟨n - 2, by omega⟩
    have hb : b.toNat < 256 := b.isLt
    have hx : (recN H (m + 1)).expr (byteToks (b :: bs) ++ .rbracket :: ts) =
        .ok (.int (b.setWidth 64)) (byteToks bs ++ .rbracket :: ts) := mkInt_byte b _
    rw [recN_bytes]
    unfold bytesStep
    rw [if_neg (by simp [byteToks]), hx]
    simp only [next]
    rw [if_neg (by simp only [isInt, Bool.true_and, decide_eq_true_eq, intValue, byte_int]; omega),
      if_neg (by simp [isInt])]
    have := ih (done ++ [b]) (m + 1) (by omega)
    simp only [List.map_append, List.map_cons, List.map_nil, List.append_assoc, List.singleton_append] at this
    exact this

theorem parse_atom {a : Atom} (h : ReadableAtom H a) : ParseOk H (atom a) := by
  cases a with
  | int n =>
    refine ⟨1, fun m hm ts => ?_⟩
    obtain ⟨m, rfl⟩ : ∃ k, m = k + 1 := ⟨m - 1, by omega⟩
    exact mkInt_ok n ts
  | bool b =>
    refine ⟨1, fun m hm ts => ?_⟩
    obtain ⟨m, rfl⟩ : ∃ k, m = k + 1 := ⟨m - 1, by omega⟩
    cases b <;> rfl
  | str s =>
    refine ⟨1, fun m hm ts => ?_⟩
    obtain ⟨m, rfl⟩ : ∃ k, m = k + 1 := ⟨m - 1, by omega⟩
    show PRes.ok (.str (String.ofList s.toList)) ts = _
    rw [String.ofList_toList]
  | sym s =>
    refine ⟨1, fun m hm ts => ?_⟩
    obtain ⟨m, rfl⟩ : ∃ k, m = k + 1 := ⟨m - 1, by omega⟩
    show PRes.ok (.sym (String.ofList s.toList)) ts = _
    rw [String.ofList_toList]
  | bytes bs =>
    refine ⟨bs.length + 3, fun m hm ts => ?_⟩
    obtain ⟨m, rfl⟩ : ∃ k, m = k + 1 := ⟨m - 1, by omega⟩
    show (recN H m).bytesLoop (byteToks bs ++ [.rbracket] ++ ts) [] = _
    rw [List.append_assoc]
    exact bytes_ok H [] bs m (by omega) ts
  | _ => exact absurd h (by simp [ReadableAtom])

/-- A value's tokens never start with a closing parenthesis or a period. -/
theorem toks_head {d : Data} (h : Readable H d) (ts : List Tok) :
    ((tk H d).1 ++ ts).head? ≠ some .rparen ∧ ((tk H d).1 ++ ts).head? ≠ some .period := by
  cases d with
  | null => exact absurd h (by simp [Readable])
  | atom a =>
    cases a with
    | bool b => cases b <;> simp [tk, atomToks]
    | int | str | sym | bytes => simp [tk, atomToks]
    | _ => exact absurd h (by simp [Readable, ReadableAtom])
  | cell k a d =>
    simp only [tk]
    split
    · simp
    split
    · simp
    · simp

theorem listWithTail_snoc (cells : List Data) (a d : Data) (ha : a ≠ null) :
    listWithTail (cells ++ [a]) d = listWithTail cells (cons a d) := by
  induction cells with
  | nil =>
    cases a with
    | null => exact absurd rfl ha
    | atom _ => rfl
    | cell _ _ _ => rfl
  | cons c cs ih => simp only [List.cons_append, listWithTail, ih]

theorem parse_toks_aux (d : Data) :
    (Readable H d → ParseOk H d) ∧
    (ReadableTail H d → ∃ N, ∀ n, N ≤ n → ∀ ts cells, cells ≠ [] →
      (recN H n).consLoop ((tk H d).2 ++ .rparen :: ts) cells = .ok (listWithTail cells d) ts) ∧
    (∀ x y, d = cons x y → Readable H x → ParseOk H x) := by
  induction d with
  | null =>
    refine ⟨fun h => absurd h (by simp [Readable]), fun _ => ⟨1, fun n hn ts cells hc => ?_⟩, fun _ _ h => by simp at h⟩
    obtain ⟨m, rfl⟩ : ∃ k, n = k + 1 := ⟨n - 1, by omega⟩
    rw [recN_cons]
    unfold consStep
    rw [if_pos (by simp [tk])]
    cases cells with
    | nil => exact absurd rfl hc
    | cons c cs => rfl
  | atom a =>
    refine ⟨fun h => parse_atom H h, fun h => ?_, fun _ _ h => by simp at h⟩
    obtain ⟨N, hN⟩ := parse_atom H h
    refine ⟨N + 1, fun n hn ts cells _ => ?_⟩
    obtain ⟨m, rfl⟩ : ∃ k, n = k + 1 := ⟨n - 1, by omega⟩
    rw [recN_cons]
    unfold consStep
    rw [if_neg (by simp [tk]), if_pos (by simp [tk])]
    have e := hN m (by omega) (.rparen :: ts)
    simp only [tk, List.cons_append, List.tail_cons] at e ⊢
    rw [e]
    rfl
  | cell k a d iha ihd =>
    cases k with
    | alist => exact ⟨fun h => absurd h (by simp [Readable]), fun h => absurd h (by simp [ReadableTail]), fun _ _ h => by simp at h⟩
    | acell => exact ⟨fun h => absurd h (by simp [Readable]), fun h => absurd h (by simp [ReadableTail]), fun _ _ h => by simp at h⟩
    | cons =>
      refine ⟨?_, ?_, fun x y h => ?_⟩
      · intro h
        simp only [Readable] at h
        rcases h with ⟨rfl, rfl⟩ | ⟨ha, hd, hq⟩
        · refine ⟨2, fun n hn ts => ?_⟩
          obtain ⟨m, rfl⟩ : ∃ k, n = k + 2 := ⟨n - 2, by omega⟩
          rfl
        · have hne := readable_ne H ha
          have e1 : ¬ (a = null ∧ d = null) := fun h => hne h.1
          by_cases hqq : a = .sym "quote" ∧ (pr H d).tail = none
          · obtain ⟨x, rfl⟩ := hq hqq.1 ((tail_none_iff H hd).1 hqq.2)
            have e : (tk H (cell .cons a (cons x null))).1 = .quote :: (tk H x).1 := by
              simp only [tk] at *
              rw [if_neg e1, if_pos hqq, List.append_nil]
            simp only [ReadableTail] at hd
            obtain ⟨N, hN⟩ := ihd.2.2 x null rfl hd.1
            refine ⟨N + 1, fun n hn ts => ?_⟩
            obtain ⟨m, rfl⟩ : ∃ k, n = k + 1 := ⟨n - 1, by omega⟩
            rw [e]
            show wrap "quote" ((recN H m).expr ((tk H x).1 ++ ts)) = _
            rw [hN m (by omega) ts, hqq.1]
            rfl
          · have e : (tk H (cell .cons a d)).1 = .lparen :: ((tk H a).1 ++ ((tk H d).2 ++ [.rparen])) := by
              simp only [tk]; rw [if_neg e1, if_neg hqq]
            obtain ⟨N1, h1⟩ := iha.1 ha
            obtain ⟨N2, h2⟩ := ihd.2.1 hd
            refine ⟨N1 + N2 + 2, fun n hn ts => ?_⟩
            obtain ⟨m, rfl⟩ : ∃ k, n = k + 2 := ⟨n - 2, by omega⟩
            rw [e]
            simp only [List.cons_append, List.append_assoc, List.nil_append]
            show consStep (recN H m) _ [] = _
            unfold consStep
            have th := toks_head H ha ((tk H d).2 ++ .rparen :: ts)
            rw [if_neg th.1, if_neg th.2, h1 m (by omega)]
            show (recN H m).consLoop _ [a] = _
            rw [h2 m (by omega) ts [a] (by simp), ← List.nil_append [a], listWithTail_snoc [] a d hne]
            rfl
      · intro h
        simp only [ReadableTail] at h
        obtain ⟨N1, h1⟩ := iha.1 h.1
        obtain ⟨N2, h2⟩ := ihd.2.1 h.2
        refine ⟨N1 + N2 + 1, fun n hn ts cells hc => ?_⟩
        obtain ⟨m, rfl⟩ : ∃ k, n = k + 1 := ⟨n - 1, by omega⟩
        rw [recN_cons]
        unfold consStep
        simp only [tk, List.append_assoc]
        have th := toks_head H h.1 ((tk H d).2 ++ .rparen :: ts)
        rw [if_neg th.1, if_neg th.2, h1 m (by omega)]
        show (recN H m).consLoop _ (cells ++ [a]) = _
        rw [h2 m (by omega) ts _ (by simp), listWithTail_snoc cells a d (readable_ne H h.1)]
      · simp only [cell.injEq, true_and] at h
        rw [← h.1]; exact iha.1

theorem parse_toks {d : Data} (h : Readable H d) (ts : List Tok) : parseExpr H ((tk H d).1 ++ ts) = .ok d ts := by
  obtain ⟨N, hN⟩ := (parse_toks_aux H d).1 h
  have e := hN N (Nat.le_refl _) ts
  rw [parseExpr_eq H N _ (by rw [e]; simp), e]

end Golisp.Reader
