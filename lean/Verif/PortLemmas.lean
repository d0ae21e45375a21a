import Verif.Ports
import Verif.ReaderLemmas
/-
Lemmas about reading from files: a tokenizer on a file delivers the tokens of the text, however the buffer is filled.
-/
namespace Golisp.Reader
open Data
variable (H : Host)

/-! ### The rest of a text is a suffix of it -/

theorem skipSpace_suffix (cs : List Char) : skipSpace H cs <:+ cs := by
  induction cs with
  | nil => exact List.suffix_refl _
  | cons c cs ih =>
    unfold skipSpace
    split
    · exact ih.trans (List.suffix_cons _ _)
    · exact List.suffix_refl _

theorem skipComment_suffix (cs : List Char) : skipComment cs <:+ cs := by
  induction cs with
  | nil => exact List.suffix_refl _
  | cons c cs ih =>
    unfold skipComment
    split
    · exact List.suffix_refl _
    · exact ih.trans (List.suffix_cons _ _)

theorem numLoop_suffix (saw first : Bool) (cs : List Char) : (numLoop H saw first cs).2.1 <:+ cs := by
  induction cs generalizing saw first with
  | nil => exact List.suffix_refl _
  | cons c cs ih =>
    unfold numLoop
    split
    · exact (ih _ _).trans (List.suffix_cons _ _)
    · split
      · exact (ih _ _).trans (List.suffix_cons _ _)
      · exact List.suffix_refl _

theorem strLoop_suffix (cs s r : List Char) (h : strLoop cs = some (s, r)) : r <:+ cs := by
  fun_induction strLoop cs generalizing s r with
  | case1 => simp at h
  | case2 cs => simp only [Option.some.injEq, Prod.mk.injEq] at h; rw [← h.2]; exact List.suffix_cons _ _
  | case3 => simp at h
  | case4 c cs ih =>
    cases e : strLoop cs with
    | none => rw [e] at h; simp at h
    | some p =>
      rw [e] at h
      simp only [Option.map_some, Option.some.injEq, Prod.mk.injEq] at h
      rw [← h.2]
      exact (ih p.1 p.2 e).trans ((List.suffix_cons _ _).trans (List.suffix_cons _ _))
  | case5 c cs _ _ _ ih =>
    cases e : strLoop cs with
    | none => rw [e] at h; simp at h
    | some p =>
      rw [e] at h
      simp only [Option.map_some, Option.some.injEq, Prod.mk.injEq] at h
      rw [← h.2]
      exact (ih p.1 p.2 e).trans (List.suffix_cons _ _)

theorem readHead_suffix (c : Char) (cs : List Char) : (readHead H c cs).2 <:+ c :: cs := by
  let P : Option Tok × List Char → Prop := fun x => x.2 <:+ c :: cs
  have hlt : ∀ {r : List Char} {t}, r <:+ cs → P (t, r) := fun h => h.trans (List.suffix_cons _ _)
  show P (readHead H c cs)
  unfold readHead
  refine ite_ind (fun _ => hlt ((List.dropWhile_suffix _).trans (List.tail_suffix _))) fun _ => ?_
  refine ite_ind (fun h => ?_) fun _ => ?_
  · exact numLoop_suffix H _ _ _
  refine ite_ind (fun _ => ?_) fun _ => ?_
  · cases e : strLoop cs with
    | none => exact List.nil_suffix
    | some p => exact hlt (strLoop_suffix cs p.1 p.2 e)
  refine ite_ind (fun _ => hlt (List.suffix_refl _)) fun _ => ?_
  refine ite_ind (fun _ => hlt (List.suffix_refl _)) fun _ => ?_
  refine ite_ind (fun _ => hlt (List.tail_suffix _)) fun _ => ?_
  iterate 8 refine ite_ind (fun _ => hlt (List.suffix_refl _)) fun _ => ?_
  refine ite_ind (fun _ => hlt (List.dropWhile_suffix _)) fun _ => ?_
  refine ite_ind (fun _ => ?_) fun _ => ?_
  · split <;> refine hlt ?_
    · exact List.suffix_cons _ _
    · exact List.suffix_cons _ _
    · exact (List.dropWhile_suffix _).trans (List.suffix_cons _ _)
    · exact (List.dropWhile_suffix _).trans (List.suffix_cons _ _)
    · exact List.suffix_refl _
  refine ite_ind (fun _ => hlt (skipComment_suffix _)) fun _ => hlt (List.suffix_refl _)

theorem readToken_suffix (cs : List Char) : (readToken H cs).2 <:+ cs := by
  refine List.IsSuffix.trans ?_ (skipSpace_suffix H cs)
  show (readToken1 H (skipSpace H cs)).2 <:+ skipSpace H cs
  cases skipSpace H cs with
  | nil => exact List.suffix_refl _
  | cons c cs => exact readHead_suffix H c cs

/-! ### The parser takes tokens from the front, and never the end of the text -/

/-- What is left of `ts` after some tokens, none of which is the end of the text. -/
def Took (ts rest : List Tok) : Prop := ∃ used, ts = used ++ rest ∧ .eof ∉ used

theorem Took.refl (ts : List Tok) : Took ts ts := ⟨[], rfl, by simp⟩
theorem Took.cons {t : Tok} {ts rest : List Tok} (ht : t ≠ .eof) (h : Took ts rest) : Took (t :: ts) rest := by
  obtain ⟨u, rfl, hu⟩ := h
  exact ⟨t :: u, rfl, by simp [hu, Ne.symm ht]⟩
theorem Took.trans {a b c : List Tok} (h : Took a b) (h' : Took b c) : Took a c := by
  obtain ⟨u, rfl, hu⟩ := h
  obtain ⟨v, rfl, hv⟩ := h'
  exact ⟨u ++ v, by simp, by simp [hu, hv]⟩
theorem Took.tail {t : Tok} {ts : List Tok} (ht : t ≠ .eof) (h : ts.head? = some t) : Took ts ts.tail := by
  cases ts with
  | nil => simp at h
  | cons a r => simp only [List.head?_cons, Option.some.injEq] at h; subst h; exact (Took.refl r).cons ht

/-- If the parser answers with a value, it took the tokens before the rest. -/
def Fair (ts : List Tok) (r : PRes) : Prop := ∀ d rest, r = .ok d rest → Took ts rest

theorem fair_ok {ts : List Tok} {d : Data} {r : List Tok} (h : Took ts r) : Fair ts (.ok d r) := by
  intro d' rest e; cases e; exact h
theorem fair_mkInt {ts : List Tok} {b s r} (h : Took ts r) : Fair ts (mkInt b s r) := by
  unfold mkInt
  split
  · exact fair_ok h
  · intro _ _ e; cases e
theorem fair_wrap {ts us : List Tok} {nm : String} {x : PRes} (hx : Fair us x) (h : Took ts us) : Fair ts (wrap nm x) := by
  cases x with
  | ok d r => exact fair_ok (h.trans (hx d r rfl))
  | _ => intro _ _ e; cases e
theorem Fair.mono {ts us : List Tok} {x : PRes} (hx : Fair us x) (h : Took ts us) : Fair ts x := fun d r e => h.trans (hx d r e)
theorem fair_next {ts : List Tok} {k : Data → List Tok → PRes} {x : PRes} (hx : Fair ts x) (hk : ∀ d r, Took ts r → Fair ts (k d r)) :
    Fair ts (next k x) := by
  cases x with
  | ok d r => exact hk d r (hx d r rfl)
  | _ => intro _ _ e; cases e

theorem parse_fair (n : Nat) :
    (∀ ts, Fair ts ((recN H n).expr ts)) ∧ (∀ ts cells, Fair ts ((recN H n).consLoop ts cells)) ∧
    (∀ ts cells, Fair ts ((recN H n).bytesLoop ts cells)) ∧ (∀ ts cells, Fair ts ((recN H n).frameLoop ts cells)) := by
  induction n with
  | zero => exact ⟨fun _ _ _ e => (by cases e), fun _ _ _ _ e => (by cases e), fun _ _ _ _ e => (by cases e), fun _ _ _ _ e => (by cases e)⟩
  | succ n ih =>
    obtain ⟨ihE, ihC, ihB, ihF⟩ := ih
    refine ⟨fun ts => ?_, fun ts cells => ?_, fun ts cells => ?_, fun ts cells => ?_⟩
    · show Fair ts (exprStep H (recN H n) ts)
      cases ts with
      | nil => intro _ _ e; cases e
      | cons t r =>
        have h1 : t ≠ .eof → Took (t :: r) r := fun h => (Took.refl r).cons h
        cases t <;> first
          | (intro _ _ e; cases e; done)
          | exact fair_ok (h1 (by simp))
          | exact fair_mkInt (h1 (by simp))
          | exact fair_wrap (ihE _) (h1 (by simp))
          | exact (ihC _ _).mono (h1 (by simp))
          | exact (ihB _ _).mono (h1 (by simp))
          | (simp only [exprStep]; split
             · exact fair_ok (h1 (by simp))
             · intro _ _ e; cases e)
          | (simp only [exprStep]; split
             · next h2 => exact fair_ok ((h1 (by simp)).trans (Took.tail (by simp) h2))
             · exact (ihF _ _).mono (h1 (by simp)))
    · show Fair ts (consStep (recN H n) ts cells)
      unfold consStep
      split
      · next h1 => exact fair_ok (Took.tail (by simp) h1)
      split
      · next h1 =>
        have hs := (ihE ts.tail).mono (Took.tail (by simp) h1)
        cases e : (recN H n).expr ts.tail with
        | ok d r =>
          simp only [closeDot]
          split
          · next h2 => exact fair_ok ((hs d r e).trans (Took.tail (by simp) h2))
          · intro _ _ e; cases e
        | _ => intro _ _ e; cases e
      · exact fair_next (ihE ts) fun d r hr => (ihC r _).mono hr
    · show Fair ts (bytesStep (recN H n) ts cells)
      unfold bytesStep
      split
      · next h1 => exact fair_ok (Took.tail (by simp) h1)
      · refine fair_next (ihE ts) fun d r hr => ?_
        split
        · intro _ _ e; cases e
        split
        · intro _ _ e; cases e
        · exact (ihB r _).mono hr
    · show Fair ts (frameStep (recN H n) ts cells)
      unfold frameStep
      split
      · next h1 => exact fair_ok (Took.tail (by simp) h1)
      · exact fair_next (ihE ts) fun d r hr => (ihF r _).mono hr

theorem parseExpr_fair {ts rest : List Tok} {d : Data} (h : parseExpr H ts = .ok d rest) : Took ts rest :=
  (parse_fair H _).1 ts d rest h

end Golisp.Reader

namespace Golisp.Ports
open Data Reader
variable (H : Host)

/-! ### Tokens of a file -/

theorem nextN_spec : ∀ (n : Nat) (cs : List Char), cs.length < n →
    (nextN H n cs).2 <:+ cs ∧
    lex H.reader cs = (nextN H n cs).1 :: (if (nextN H n cs).1 = .eof then [] else lex H.reader (nextN H n cs).2)
  | 0, cs, h => by omega
  | n + 1, cs, h => by
    have hs := readToken_suffix H.reader cs
    have hp := readToken_length H.reader cs
    rcases e : readToken H.reader cs with ⟨_ | t, r⟩
    · rw [e] at hs hp
      have hl : r.length < cs.length := hp.resolve_left (by simp)
      obtain ⟨h1, h2⟩ := nextN_spec n r (by omega)
      simp only [nextN, e]
      rw [lex_comment H.reader e]
      exact ⟨h1.trans hs, h2⟩
    · rw [e] at hs
      simp only [nextN, e]
      refine ⟨hs, ?_⟩
      by_cases ht : t = .eof
      · subst ht; rw [lex_eof H.reader e]; simp
      · rw [lex_tok H.reader e ht, if_neg ht]

/-- A suffix of a list, of the right length, is what `drop` leaves. -/
theorem take_append_drop_suffix {α : Type} {a r : List α} {cs : List α} (hr : r <:+ cs) (ha : a <:+ cs) (hl : a.length ≤ r.length) :
    r.take (r.length - a.length) ++ a = r := by
  have : a <:+ r := List.suffix_of_suffix_length_le ha hr hl
  obtain ⟨u, rfl⟩ := this
  simp

theorem consume_spec {text : List Char} {t : Tokenizer} {pos : Nat} (h : t.look ≠ .eof) :
    let x := consume H text t pos
    tokens H text x.1 x.2 = lex H.reader (pending text t.buf pos) ∧ pos ≤ x.2 ∧
      (x.1.look ≠ .eof → pending text x.1.buf x.2 = (next H (pending text t.buf pos)).2) := by
  intro x
  obtain ⟨hs, hl⟩ := nextN_spec H _ (pending text t.buf pos) (Nat.lt_succ_self _)
  change (next H _).2 <:+ _ at hs
  change _ = (next H _).1 :: (if (next H _).1 = .eof then [] else lex H.reader (next H _).2) at hl
  have hx : x = consume H text t pos := rfl
  simp only [consume, h, if_false] at hx
  have hpos : pos ≤ x.2 := by rw [hx]; exact Nat.le_max_left _ _
  have hpend : pending text x.1.buf x.2 = (next H (pending text t.buf pos)).2 := by
    have hd : text.drop x.2 <:+ pending text t.buf pos := by
      refine List.IsSuffix.trans ?_ (List.suffix_append _ _)
      obtain ⟨k, hk⟩ := Nat.exists_eq_add_of_le hpos
      rw [hk, ← List.drop_drop]
      exact List.drop_suffix _ _
    have hlen : (text.drop x.2).length ≤ (next H (pending text t.buf pos)).2.length := by
      rw [List.length_drop, hx]
      dsimp only
      have := hs.length_le
      simp only [pending, List.length_append, List.length_drop] at this
      omega
    have := take_append_drop_suffix hs hd hlen
    rw [List.length_drop] at this
    have hb : x.1.buf = (next H (pending text t.buf pos)).2.take ((next H (pending text t.buf pos)).2.length - (text.length - x.2)) := by
      rw [hx]
    rw [pending, hb]; exact this
  refine ⟨?_, hpos, fun _ => hpend⟩
  have hk : x.1.look = (next H (pending text t.buf pos)).1 := by rw [hx]
  rw [tokens, hpend, hk, hl]

theorem tokens_consume {text : List Char} {t : Tokenizer} {pos : Nat} (h : t.look ≠ .eof) :
    tokens H text (consume H text t pos).1 (consume H text t pos).2 = (tokens H text t pos).tail := by
  rw [(consume_spec H h).1, tokens, if_neg h]; rfl

theorem tokens_consumes {text : List Char} : ∀ (used : List Tok) {rest : List Tok} {t : Tokenizer} {pos : Nat},
    tokens H text t pos = used ++ rest → .eof ∉ used →
    tokens H text (consumes H used.length text t pos).1 (consumes H used.length text t pos).2 = rest
  | [], _, _, _, h, _ => h
  | u :: used, rest, t, pos, h, hu => by
    have hlook : t.look = u := by simpa [tokens] using congrArg List.head? h
    have hne : t.look ≠ .eof := by rw [hlook]; exact fun e => hu (by simp [e])
    exact tokens_consumes used (by rw [tokens_consume H hne, h]; rfl) (fun hm => hu (List.mem_cons_of_mem _ hm))

theorem tokens_fresh (text : List Char) (pos : Nat) :
    tokens H text (fresh H text pos).1 (fresh H text pos).2 = lex H.reader (text.drop pos) := by
  have := (consume_spec H (text := text) (t := ⟨.illegal, []⟩) (pos := pos) (by simp)).1
  simp only [pending, List.nil_append] at this
  exact this

theorem consumes_eof {text : List Char} {t : Tokenizer} {pos : Nat} (h : t.look = .eof) : ∀ n, consumes H n text t pos = (t, pos)
  | 0 => rfl
  | n + 1 => by
    have : consume H text t pos = (t, pos) := by simp [consume, h]
    simp only [consumes, this]; exact consumes_eof h n

theorem consumes_add {text : List Char} : ∀ (n m : Nat) {t : Tokenizer} {pos : Nat},
    consumes H (n + m) text t pos = consumes H m text (consumes H n text t pos).1 (consumes H n text t pos).2
  | 0, m, t, pos => by simp [consumes]
  | n + 1, m, t, pos => by
    rw [Nat.add_right_comm]
    exact consumes_add n m

/-- The token list of a text ends in the only end-of-text token. -/
theorem lex_shape (cs : List Char) : ∃ u, lex H.reader cs = u ++ [.eof] ∧ .eof ∉ u := by
  obtain ⟨n, hn⟩ : ∃ n, cs.length < n := ⟨_, Nat.lt_succ_self _⟩
  induction n generalizing cs with
  | zero => omega
  | succ n ih =>
    have hp := readToken_length H.reader cs
    rcases e : readToken H.reader cs with ⟨_ | t, r⟩
    · rw [e] at hp
      rw [lex_comment H.reader e]
      exact ih r (by have := hp.resolve_left (by simp); dsimp only at this; omega)
    · by_cases ht : t = .eof
      · subst ht; exact ⟨[], lex_eof H.reader e, by simp⟩
      · rw [e] at hp
        obtain ⟨u, hu, hn⟩ := ih r (by have := hp.resolve_left (by simpa using ht); dsimp only at this; omega)
        exact ⟨t :: u, by rw [lex_tok H.reader e ht, hu]; rfl, by simp [hn, Ne.symm ht]⟩

theorem tokens_shape (text : List Char) (t : Tokenizer) (pos : Nat) : ∃ u, tokens H text t pos = u ++ [.eof] ∧ .eof ∉ u := by
  unfold tokens
  by_cases h : t.look = .eof
  · exact ⟨[], by simp [h], by simp⟩
  · obtain ⟨u, hu, hn⟩ := lex_shape H (pending text t.buf pos)
    exact ⟨t.look :: u, by rw [if_neg h, hu]; rfl, by simp [hn, Ne.symm h]⟩

/-- A tokenizer asked for more tokens than there are is at the end. -/
theorem tokens_exhausted {text : List Char} {t : Tokenizer} {pos n : Nat} (hn : (tokens H text t pos).length ≤ n) :
    tokens H text (consumes H n text t pos).1 (consumes H n text t pos).2 = [.eof] := by
  obtain ⟨u, hu, he⟩ := tokens_shape H text t pos
  have h1 := tokens_consumes H u hu he
  obtain ⟨k, rfl⟩ := Nat.exists_eq_add_of_le (Nat.le_trans (by rw [hu]; simp : u.length ≤ (tokens H text t pos).length) hn)
  have hl : (consumes H u.length text t pos).1.look = .eof := by simpa [tokens] using congrArg List.head? h1
  rw [consumes_add, consumes_eof H hl]
  exact h1

end Golisp.Ports
