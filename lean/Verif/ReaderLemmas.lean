import Verif.Reader
import Verif.Props.Numbers2
/-
Lemmas about the reader: progress, independence of the model's bounds, and the token sequence of printed values.
-/
namespace Golisp.Reader
open Data
variable (H : Host)

/-! ### Progress of the tokenizer -/

theorem skipSpace_length (cs : List Char) : (skipSpace H cs).length ≤ cs.length := by
  induction cs with
  | nil => exact Nat.le_refl _
  | cons c cs ih =>
    unfold skipSpace
    split
    · exact Nat.le_succ_of_le ih
    · exact Nat.le_refl _

theorem skipComment_length (cs : List Char) : (skipComment cs).length ≤ cs.length := by
  induction cs with
  | nil => exact Nat.le_refl _
  | cons c cs ih =>
    unfold skipComment
    split
    · exact Nat.le_refl _
    · exact Nat.le_succ_of_le ih

theorem dropWhile_length (p : Char → Bool) (cs : List Char) : (cs.dropWhile p).length ≤ cs.length := by
  induction cs with
  | nil => exact Nat.le_refl _
  | cons c cs ih =>
    simp only [List.dropWhile]
    split
    · exact Nat.le_succ_of_le ih
    · exact Nat.le_refl _

theorem numLoop_length (saw first : Bool) (cs : List Char) : (numLoop H saw first cs).2.1.length ≤ cs.length := by
  induction cs generalizing saw first with
  | nil => exact Nat.le_refl _
  | cons c cs ih =>
    unfold numLoop
    split
    · exact Nat.le_succ_of_le (ih _ _)
    · split
      · exact Nat.le_succ_of_le (ih _ _)
      · exact Nat.le_refl _

theorem strLoop_length (cs s r : List Char) (h : strLoop cs = some (s, r)) : r.length < cs.length := by
  fun_induction strLoop cs generalizing s r with
  | case1 => simp at h
  | case2 cs => simp only [Option.some.injEq, Prod.mk.injEq] at h; rw [← h.2]; exact Nat.lt_succ_self _
  | case3 => simp at h
  | case4 c cs ih =>
    cases e : strLoop cs with
    | none => rw [e] at h; simp at h
    | some p =>
      rw [e] at h
      simp only [Option.map_some, Option.some.injEq, Prod.mk.injEq] at h
      have := ih p.1 p.2 e
      rw [← h.2]; simp only [List.length_cons]; omega
  | case5 c cs _ _ _ ih =>
    cases e : strLoop cs with
    | none => rw [e] at h; simp at h
    | some p =>
      rw [e] at h
      simp only [Option.map_some, Option.some.injEq, Prod.mk.injEq] at h
      have := ih p.1 p.2 e
      rw [← h.2]; simp only [List.length_cons]; omega

/-- End of text, or fewer than `k` characters left. -/
def Prog (k : Nat) (x : Option Tok × List Char) : Prop := x.1 = some .eof ∨ x.2.length < k

theorem ite_ind {α : Type} {P : α → Prop} {c : Prop} [Decidable c] {a b : α} (ha : c → P a) (hb : ¬ c → P b) :
    P (if c then a else b) := by
  split
  · next h => exact ha h
  · next h => exact hb h

/-- A token other than end-of-text consumes at least one character. -/
theorem readHead_length (c : Char) (cs : List Char) : Prog (cs.length + 1) (readHead H c cs) := by
  have ht := List.length_tail (l := cs)
  have hlt : ∀ {r : List Char} {t}, r.length ≤ cs.length → Prog (cs.length + 1) (t, r) := fun h => .inr (Nat.lt_succ_of_le h)
  unfold readHead
  refine ite_ind (fun _ => hlt ?_) fun _ => ?_
  · have := dropWhile_length isHexChar cs.tail
    omega
  refine ite_ind (fun h => hlt ?_) fun _ => ?_
  · simp only [readNumber]
    unfold numLoop
    split
    · exact numLoop_length H _ _ _
    · next h1 =>
      split
      · exact numLoop_length H _ _ _
      · next h2 =>
        exfalso
        simp only [Bool.or_eq_true, Bool.and_eq_true, decide_eq_true_eq, true_and, not_or] at h h2
        rcases h with h | h
        · exact h2.2 h
        · exact h2.1 h.1
  refine ite_ind (fun _ => ?_) fun _ => ?_
  · cases e : strLoop cs with
    | none => exact .inl rfl
    | some p => exact hlt (Nat.le_of_lt (strLoop_length cs p.1 p.2 e))
  refine ite_ind (fun _ => hlt (Nat.le_refl _)) fun _ => ?_
  refine ite_ind (fun _ => hlt (Nat.le_refl _)) fun _ => ?_
  refine ite_ind (fun _ => hlt (by omega)) fun _ => ?_
  iterate 8 refine ite_ind (fun _ => hlt (Nat.le_refl _)) fun _ => ?_
  refine ite_ind (fun _ => hlt (dropWhile_length _ _)) fun _ => ?_
  refine ite_ind (fun _ => ?_) fun _ => ?_
  · split <;> refine hlt ?_
    · exact Nat.le_succ _
    · exact Nat.le_succ _
    · exact Nat.le_succ_of_le (dropWhile_length _ _)
    · exact Nat.le_succ_of_le (dropWhile_length _ _)
    · exact Nat.le_refl _
  refine ite_ind (fun _ => hlt (skipComment_length _)) fun _ => hlt (Nat.le_refl _)

theorem readToken1_length (cs : List Char) :
    (readToken1 H cs).1 = some .eof ∨ (readToken1 H cs).2.length < cs.length := by
  cases cs with
  | nil => exact .inl rfl
  | cons c cs => exact readHead_length H c cs

theorem readToken_length (cs : List Char) :
    (readToken H cs).1 = some .eof ∨ (readToken H cs).2.length < cs.length := by
  rcases readToken1_length H (skipSpace H cs) with h | h
  · exact .inl h
  · exact .inr (Nat.lt_of_lt_of_le h (skipSpace_length H cs))

/-- The bound of `lexN` is irrelevant once it exceeds the length of the text. -/
theorem lexN_eq (n m : Nat) (cs : List Char) (hn : cs.length < n) (hm : cs.length < m) : lexN H n cs = lexN H m cs := by
  induction n generalizing m cs with
  | zero => omega
  | succ n ih =>
    cases m with
    | zero => omega
    | succ m =>
      have hp := readToken_length H cs
      simp only [lexN]
      rcases e : readToken H cs with ⟨t, r⟩
      rw [e] at hp
      have hr : t ≠ some .eof → lexN H n r = lexN H m r := fun ht => by
        have : r.length < cs.length := hp.resolve_left ht
        exact ih m r (by omega) (by omega)
      match t with
      | none => exact hr (by simp)
      | some t =>
        cases t <;> first | rfl | (exact congrArg _ (hr (by simp)))

theorem lex_tok {cs r : List Char} {t : Tok} (h : readToken H cs = (some t, r)) (ht : t ≠ .eof) :
    lex H cs = t :: lex H r := by
  have hp := readToken_length H cs
  rw [h] at hp
  have hl : r.length < cs.length := hp.resolve_left (by simpa using ht)
  have e : lexN H cs.length r = lex H r := lexN_eq H _ _ _ hl (by omega)
  rw [← e]
  show lexN H (cs.length + 1) cs = _
  simp only [lexN, h]

theorem lex_comment {cs r : List Char} (h : readToken H cs = (none, r)) : lex H cs = lex H r := by
  have hp := readToken_length H cs
  rw [h] at hp
  have hl : r.length < cs.length := hp.resolve_left (by simp)
  have e : lexN H cs.length r = lex H r := lexN_eq H _ _ _ hl (by omega)
  rw [← e]
  show lexN H (cs.length + 1) cs = _
  simp only [lexN, h]

theorem lex_eof {cs r : List Char} (h : readToken H cs = (some .eof, r)) : lex H cs = [.eof] := by
  show lexN H (cs.length + 1) cs = _
  simp only [lexN, h]

theorem lex_space (c : Char) (hc : isSpace H c = true) (cs : List Char) : lex H (c :: cs) = lex H cs := by
  have : readToken H (c :: cs) = readToken H cs := by simp [readToken, skipSpace, hc]
  rcases e : readToken H cs with ⟨_ | t, r⟩
  · rw [lex_comment H (this.trans e), lex_comment H e]
  · by_cases ht : t = .eof
    · subst ht; rw [lex_eof H (this.trans e), lex_eof H e]
    · rw [lex_tok H (this.trans e) ht, lex_tok H e ht]

/-! ### The parser's bound -/

/-- `x` is what the parser answers with less depth, `y` with more. -/
def Le (x y : PRes) : Prop := x ≠ .timeout → y = x

theorem Le.refl (x : PRes) : Le x x := fun _ => rfl

theorem next_le {k k' : Data → List Tok → PRes} {x y : PRes} (hx : Le x y) (hk : ∀ d r, Le (k d r) (k' d r)) :
    Le (next k x) (next k' y) := by
  intro h
  cases x with
  | timeout => exact absurd rfl h
  | ok d r => rw [hx (by simp)]; exact hk d r h
  | eof => rw [hx (by simp)]; rfl
  | err => rw [hx (by simp)]; rfl

theorem wrap_le {nm : String} {x y : PRes} (hx : Le x y) : Le (wrap nm x) (wrap nm y) := by
  intro h
  have : x ≠ .timeout := fun e => h (by rw [e]; rfl)
  rw [hx this]

theorem closeDot_le {cells : List Data} {x y : PRes} (hx : Le x y) : Le (closeDot cells x) (closeDot cells y) := by
  intro h
  have : x ≠ .timeout := fun e => h (by rw [e]; rfl)
  rw [hx this]

/-- More depth keeps finished answers. -/
structure RLe (R S : Rec) : Prop where
  expr : ∀ ts, Le (R.expr ts) (S.expr ts)
  consLoop : ∀ ts cells, Le (R.consLoop ts cells) (S.consLoop ts cells)
  bytesLoop : ∀ ts cells, Le (R.bytesLoop ts cells) (S.bytesLoop ts cells)
  frameLoop : ∀ ts cells, Le (R.frameLoop ts cells) (S.frameLoop ts cells)

theorem rle_step (n : Nat) : RLe (recN H n) (recN H (n + 1)) := by
  induction n with
  | zero => exact ⟨fun _ h => absurd rfl h, fun _ _ h => absurd rfl h, fun _ _ h => absurd rfl h, fun _ _ h => absurd rfl h⟩
  | succ n ih =>
    refine ⟨fun ts => ?_, fun ts cells => ?_, fun ts cells => ?_, fun ts cells => ?_⟩
    · show Le (exprStep H (recN H n) ts) (exprStep H (recN H (n + 1)) ts)
      cases ts with
      | nil => exact Le.refl _
      | cons t r =>
        cases t <;> first
          | exact Le.refl _
          | exact ih.consLoop _ _
          | exact ih.bytesLoop _ _
          | exact wrap_le (ih.expr _)
          | (simp only [exprStep]; split
             · exact Le.refl _
             · exact ih.frameLoop _ _)
    · show Le (consStep (recN H n) ts cells) (consStep (recN H (n + 1)) ts cells)
      unfold consStep
      split
      · exact Le.refl _
      split
      · exact closeDot_le (ih.expr _)
      · exact next_le (ih.expr _) fun d r => ih.consLoop _ _
    · show Le (bytesStep (recN H n) ts cells) (bytesStep (recN H (n + 1)) ts cells)
      unfold bytesStep
      split
      · exact Le.refl _
      · refine next_le (ih.expr _) fun d r => ?_
        split
        · exact Le.refl _
        split
        · exact Le.refl _
        · exact ih.bytesLoop _ _
    · show Le (frameStep (recN H n) ts cells) (frameStep (recN H (n + 1)) ts cells)
      unfold frameStep
      split
      · exact Le.refl _
      · exact next_le (ih.expr _) fun d r => ih.frameLoop _ _

theorem rle {n m : Nat} (h : n ≤ m) : RLe (recN H n) (recN H m) := by
  induction m with
  | zero => rw [Nat.le_zero.1 h]; exact ⟨fun _ => Le.refl _, fun _ _ => Le.refl _, fun _ _ => Le.refl _, fun _ _ => Le.refl _⟩
  | succ m ih =>
    rcases Nat.lt_or_ge m n with h1 | h1
    · rw [Nat.le_antisymm h h1]; exact ⟨fun _ => Le.refl _, fun _ _ => Le.refl _, fun _ _ => Le.refl _, fun _ _ => Le.refl _⟩
    · have tr : ∀ {x y z : PRes}, Le x y → Le y z → Le x z := fun hxy hyz hx => by
        have e := hxy hx
        rw [hyz (by rw [e]; exact hx), e]
      have i := ih h1
      have s := rle_step H m
      exact ⟨fun _ => tr (i.expr _) (s.expr _), fun _ _ => tr (i.consLoop _ _) (s.consLoop _ _),
        fun _ _ => tr (i.bytesLoop _ _) (s.bytesLoop _ _), fun _ _ => tr (i.frameLoop _ _) (s.frameLoop _ _)⟩

/-- A finished parse leaves strictly fewer tokens. -/
def Shrinks (r : PRes) (k : Nat) : Prop := r ≠ .timeout ∧ ∀ d rest, r = .ok d rest → rest.length < k

theorem shrinks_wrap {r k k' nm} (h : Shrinks r k) (hk : k ≤ k') : Shrinks (wrap nm r) k' := by
  refine ⟨?_, ?_⟩
  · cases r <;> simp [wrap]; exact absurd rfl h.1
  · intro d rest e
    cases r with
    | ok d' rest' =>
      simp only [wrap, PRes.ok.injEq] at e
      rw [← e.2]; exact Nat.lt_of_lt_of_le (h.2 _ _ rfl) hk
    | eof => simp [wrap] at e
    | err => simp [wrap] at e
    | timeout => simp [wrap] at e

theorem shrinks_ok {d : Data} {r : List Tok} {k} (h : r.length < k) : Shrinks (.ok d r) k :=
  ⟨by simp, fun _ _ e => by simp only [PRes.ok.injEq] at e; rw [← e.2]; exact h⟩
theorem shrinks_err {k} : Shrinks .err k := ⟨by simp, fun _ _ e => by simp at e⟩
theorem shrinks_eof {k} : Shrinks .eof k := ⟨by simp, fun _ _ e => by simp at e⟩
theorem shrinks_mkInt {b s r k} (h : r.length < k) : Shrinks (mkInt b s r) k := by
  unfold mkInt; split
  · exact shrinks_ok h
  · exact shrinks_err

theorem Shrinks.mono {r k k'} (h : Shrinks r k) (hk : k ≤ k') : Shrinks r k' :=
  ⟨h.1, fun d rest e => Nat.lt_of_lt_of_le (h.2 d rest e) hk⟩

theorem shrinks_next {k : Data → List Tok → PRes} {x : PRes} {m : Nat} (hx : Shrinks x m)
    (hk : ∀ d r, r.length < m → Shrinks (k d r) m) : Shrinks (next k x) m := by
  cases x with
  | timeout => exact absurd rfl hx.1
  | ok d r => exact hk d r (hx.2 d r rfl)
  | eof => exact shrinks_err
  | err => exact shrinks_err

theorem length_tail_lt {ts : List Tok} {t : Tok} (h : ts.head? = some t) : ts.tail.length < ts.length := by
  cases ts with
  | nil => simp at h
  | cons a r => exact Nat.lt_succ_self _

theorem parse_total (n : Nat) :
    (∀ ts, 2 * ts.length + 1 ≤ n → Shrinks ((recN H n).expr ts) ts.length) ∧
    (∀ ts cells, 2 * ts.length + 2 ≤ n → Shrinks ((recN H n).consLoop ts cells) ts.length) ∧
    (∀ ts cells, 2 * ts.length + 2 ≤ n → Shrinks ((recN H n).bytesLoop ts cells) ts.length) ∧
    (∀ ts cells, 2 * ts.length + 2 ≤ n → Shrinks ((recN H n).frameLoop ts cells) ts.length) := by
  induction n with
  | zero => exact ⟨fun _ h => by omega, fun _ _ h => by omega, fun _ _ h => by omega, fun _ _ h => by omega⟩
  | succ n ih =>
    obtain ⟨ihE, ihC, ihB, ihF⟩ := ih
    have cons_lt : ∀ (t : Tok) (r : List Tok), r.length < (t :: r).length := fun t r => Nat.lt_succ_self _
    refine ⟨fun ts h => ?_, fun ts cells h => ?_, fun ts cells h => ?_, fun ts cells h => ?_⟩
    · show Shrinks (exprStep H (recN H n) ts) ts.length
      cases ts with
      | nil => exact shrinks_eof
      | cons t r =>
        simp only [List.length_cons] at h
        cases t <;> first
          | exact shrinks_eof
          | exact shrinks_err
          | exact shrinks_ok (cons_lt _ _)
          | exact shrinks_mkInt (cons_lt _ _)
          | exact shrinks_wrap (ihE _ (by omega)) (Nat.le_succ _)
          | exact (ihC _ _ (by omega)).mono (Nat.le_succ _)
          | exact (ihB _ _ (by omega)).mono (Nat.le_succ _)
          | (simp only [exprStep]; split
             · exact shrinks_ok (cons_lt _ _)
             · exact shrinks_err)
          | (simp only [exprStep]; split
             · next h1 => exact shrinks_ok (Nat.lt_succ_of_lt (length_tail_lt h1))
             · exact (ihF _ _ (by omega)).mono (Nat.le_succ _))
    · show Shrinks (consStep (recN H n) ts cells) ts.length
      unfold consStep
      split
      · next h1 => exact shrinks_ok (length_tail_lt h1)
      split
      · next h1 =>
        have hl := length_tail_lt h1
        have hs := ihE ts.tail (by omega)
        cases e : (recN H n).expr ts.tail with
        | timeout => exact absurd e hs.1
        | eof => exact shrinks_eof
        | err => exact shrinks_err
        | ok d r =>
          have hr := hs.2 d r e
          simp only [closeDot]
          split
          · next h2 => exact shrinks_ok (by have := length_tail_lt h2; omega)
          · exact shrinks_err
      · exact shrinks_next (ihE ts (by omega)) fun d r hr => (ihC r _ (by omega)).mono (by omega)
    · show Shrinks (bytesStep (recN H n) ts cells) ts.length
      unfold bytesStep
      split
      · next h1 => exact shrinks_ok (length_tail_lt h1)
      · refine shrinks_next (ihE ts (by omega)) fun d r hr => ?_
        split
        · exact shrinks_err
        split
        · exact shrinks_err
        · exact (ihB r _ (by omega)).mono (by omega)
    · show Shrinks (frameStep (recN H n) ts cells) ts.length
      unfold frameStep
      split
      · next h1 => exact shrinks_ok (length_tail_lt h1)
      · exact shrinks_next (ihE ts (by omega)) fun d r hr => (ihF r _ (by omega)).mono (by omega)

theorem parseExpr_shrinks (ts : List Tok) : Shrinks (parseExpr H ts) ts.length := (parse_total H _).1 ts (Nat.le_refl _)

/-- Any bound that gives an answer gives the answer of `parseExpr`. -/
theorem parseExpr_eq (n : Nat) (ts : List Tok) (h : (recN H n).expr ts ≠ .timeout) :
    parseExpr H ts = (recN H n).expr ts := by
  rcases Nat.le_total n (2 * ts.length + 1) with h1 | h1
  · exact (rle H h1).expr ts h
  · exact ((rle H h1).expr ts (parseExpr_shrinks H ts).1).symm

end Golisp.Reader
