import Verif.FormatSpec
/- Lemmas about `format`. -/
namespace Golisp.Fmt
open Golisp Str Spec

/-- Without the bound. -/
def run (ctl : GoStr) (args : List Arg) (at_ : Bool) (out : GoStr) : Res (GoStr × List Arg) := loop ctl.length ctl args at_ out

theorem dropWhile_le {α : Type} (p : α → Bool) (l : List α) : (l.dropWhile p).length ≤ l.length := (List.dropWhile_sublist p).length_le

theorem count_le {ctl : GoStr} {args : List Arg} {k : Int} {r : GoStr} {args' : List Arg} (h : count ctl args = .ok (k, r, args')) :
    r.length ≤ ctl.length := by
  unfold count at h
  have hd := dropWhile_le isDigit ctl
  dsimp only at h
  split at h
  · cases h
  · rename_i c r' hc
    rw [hc] at hd
    simp only [List.length_cons] at hd
    repeat' split at h
    all_goals first | (cases h; simp only [List.length_cons]; omega) | (cases h; omega) | cases h

theorem loop_fuel (n m : Nat) : ∀ (ctl : GoStr) (args : List Arg) (at_ : Bool) (out : GoStr), ctl.length ≤ n → ctl.length ≤ m →
    loop n ctl args at_ out = loop m ctl args at_ out := by
  induction n generalizing m with
  | zero =>
    intro ctl args at_ out h1 h2
    cases ctl with
    | nil => cases m <;> rfl
    | cons c r => simp at h1
  | succ n ih =>
    intro ctl args at_ out h1 h2
    cases ctl with
    | nil => cases m <;> rfl
    | cons c r =>
      cases m with
      | zero => simp at h2
      | succ m =>
        simp only [List.length_cons] at h1 h2
        unfold loop
        split
        · exact ih m _ _ _ _ (by omega) (by omega)
        · split
          · rfl
          · rfl
          · rename_i k r' args' hc
            have hr := count_le hc
            have hh : (if r'.head? = some 64 then r'.tail else r').length ≤ r'.length := by
              split <;> simp
            dsimp only
            split
            · rfl
            · rename_i d r'' hd
              rw [hd] at hh
              simp only [List.length_cons] at hh
              have := dropWhile_le isSpace r''
              repeat' split
              all_goals first | rfl | exact ih m _ _ _ _ (by omega) (by omega)

theorem run_nil {args : List Arg} {a : Bool} {out : GoStr} : run [] args a out = .ok (out, args) := rfl
theorem run_byte {c : Byte} {r : GoStr} {args : List Arg} {a : Bool} {out : GoStr} (h : c ≠ 126) :
    run (c :: r) args a out = run r args a (out ++ [c]) := by
  unfold run
  rw [List.length_cons, loop]
  exact if_pos h

/-- After the number: the modifier and the letter. -/
def letter (at_ : Bool) (k : Int) (r : GoStr) (args : List Arg) (out : GoStr) : Res (GoStr × List Arg) :=
  match r with
  | [] => .panic
  | d :: r =>
    if d = 65 ∨ d = 97 then run r (next args).2 at_ (out ++ pad at_ k (next args).1.shown)
    else if d = 83 ∨ d = 115 then run r (next args).2 at_ (out ++ pad at_ k (next args).1.written)
    else if d = 37 then run r args at_ (out ++ times k 10)
    else if d = 126 then run r args at_ (out ++ times k 126)
    else if d = 10 then run (r.dropWhile isSpace) args at_ (out ++ if at_ then [10] else [])
    else .err

theorem run_dir {r : GoStr} {args : List Arg} {a : Bool} {out : GoStr} :
    run (126 :: r) args a out = match count r args with
      | .err => .err
      | .panic => .panic
      | .ok (k, r, args) => letter (a || r.head? = some 64) k (if r.head? = some 64 then r.tail else r) args out := by
  unfold run
  rw [List.length_cons, loop]
  simp only [ne_eq, not_true_eq_false, if_false]
  split
  · rename_i h; rw [h]
  · rename_i h; rw [h]
  · rename_i k r' args' hc
    rw [hc]
    have hr := count_le hc
    have hh : (if r'.head? = some 64 then r'.tail else r').length ≤ r'.length := by
      split <;> simp
    dsimp only [letter]
    split
    · rename_i hd; rw [hd]
    · rename_i d r'' hd
      rw [hd] at hh ⊢
      simp only [List.length_cons] at hh
      have := dropWhile_le isSpace r''
      dsimp only
      repeat' split
      all_goals first | rfl | exact loop_fuel _ _ _ _ _ _ (by omega) (by omega)

theorem decimal_spec {ds : GoStr} {n : Nat} (h : Base10 ds n) :
    ds ≠ [] ∧ (∀ b ∈ ds, isDigit b = true) ∧ ds.foldl (fun n (b : Byte) => 10 * n + (b.toNat - 48)) 0 = n := by
  induction h with
  | one h1 h2 => exact ⟨by simp, by simp [isDigit, h1, h2], by simp⟩
  | more _ h1 h2 ih =>
    obtain ⟨_, h3, h4⟩ := ih
    refine ⟨by simp, ?_, by rw [List.foldl_append, h4]; rfl⟩
    intro b hb
    rcases List.mem_append.mp hb with h | h
    · exact h3 b h
    · rw [List.mem_singleton.mp h]; simp [isDigit, h1, h2]

theorem span_all {p : Byte → Bool} {ds : GoStr} (h : ∀ b ∈ ds, p b = true) {r : GoStr} (hr : ∀ b, r.head? = some b → p b = false) :
    (ds ++ r).takeWhile p = ds ∧ (ds ++ r).dropWhile p = r := by
  induction ds with
  | nil =>
    cases r with
    | nil => exact ⟨rfl, rfl⟩
    | cons b r => simp [hr b rfl]
  | cons b ds ih =>
    obtain ⟨h1, h2⟩ := ih fun b hb => h b (List.mem_cons_of_mem _ hb)
    simp [h b List.mem_cons_self, h1, h2]

/-- What `count` finds. -/
def number : Count → List Arg → Option (Int × List Arg)
  | .none, as => some (0, as)
  | .lit n, as => some (n, as)
  | .left, as => some (as.length, as)
  | .arg, as => (next as).1.int.map fun n => (n, (next as).2)

theorem count_spec {n : Count} {cs : GoStr} (h : Counted n cs) {c : Byte} {r : GoStr} {args : List Arg}
    (hd : n = .none ∨ (∃ k, n = .lit k) → isDigit c = false) (hn : n = .none → c ≠ 35 ∧ c ≠ 118 ∧ c ≠ 86) :
    count (cs ++ c :: r) args = match number n args with
      | some (k, as) => .ok (k, c :: r, as)
      | none => .err := by
  cases h with
  | none =>
    obtain ⟨h1, h2, h3⟩ := hn rfl
    have hd := hd (Or.inl rfl)
    simp only [count, List.nil_append, List.takeWhile_cons, List.dropWhile_cons, hd, h1, h2, h3, number, Bool.false_eq_true, if_false, if_true,
      or_self]
  | @lit ds k h1 h2 =>
    obtain ⟨h3, h4, h5⟩ := decimal_spec h1
    have hd := hd (Or.inr ⟨_, rfl⟩)
    obtain ⟨h6, h7⟩ := span_all h4 (r := c :: r) (by intro b hb; cases hb; exact hd)
    simp [count, h6, h7, h3, parseInt, h5, h2, number]
  | left =>
    have h35 : isDigit 35 = false := by decide
    simp only [count, List.cons_append, List.nil_append, List.takeWhile_cons, List.dropWhile_cons, h35, number, Bool.false_eq_true, if_false,
      if_true]
  | @arg b hb =>
    have hb' : isDigit b = false ∧ b ≠ 35 ∧ (b = 86 ∨ b = 118) := by rcases hb with rfl | rfl <;> decide
    have hx : ∀ x, count ([b] ++ x) args = match (next args).1.int with | some n => .ok (n, x, (next args).2) | none => .err := by
      intro x
      simp only [count, List.cons_append, List.nil_append, List.takeWhile_cons, List.dropWhile_cons, hb'.1, hb'.2.1, hb'.2.2,
        Bool.false_eq_true, if_false, if_true]
      cases (next args).1.int <;> rfl
    rw [hx]
    simp only [number]
    cases (next args).1.int <;> rfl

theorem run_head {n : Count} {cs : GoStr} (h : Counted n cs) {a : Bool} {b : Byte} {t : GoStr} {args : List Arg} {at_ : Bool} {out : GoStr}
    (h1 : a = false → b ≠ 64) (h2 : n = .none → a = false → b ≠ 35 ∧ b ≠ 118 ∧ b ≠ 86)
    (h3 : a = false → n = .none ∨ (∃ k, n = .lit k) → isDigit b = false) :
    run (126 :: (cs ++ (mark a ++ b :: t))) args at_ out = match number n args with
      | some (k, as) => letter (at_ || a) k (b :: t) as out
      | none => .err := by
  rw [run_dir]
  cases a with
  | false =>
    have hb := h1 rfl
    have h64 : ¬ some b = some (64 : Byte) := fun h => hb (Option.some.inj h)
    rw [show mark false ++ b :: t = b :: t from rfl, count_spec h (h3 rfl) (fun hn => h2 hn rfl)]
    cases number n args with
    | none => rfl
    | some x => simp only [List.head?_cons, h64, decide_false, if_false]
  | true =>
    rw [show mark true ++ b :: t = 64 :: b :: t from rfl, count_spec h (fun _ => by decide) (fun _ => by decide)]
    cases number n args with
    | none => rfl
    | some x => simp only [List.head?_cons, decide_true, if_true, List.tail_cons]

/-- The effect of the pieces. -/
def go : List Ctl → List Arg → Bool → GoStr → Option (GoStr × List Arg × Bool)
  | [], as, at_, out => some (out, as, at_)
  | .byte c :: ps, as, at_, out => go ps as at_ (out ++ [c])
  | .dir n a d :: ps, as, at_, out =>
    match number n as with
    | none => none
    | some (k, as) =>
      match d with
      | .show => go ps (next as).2 (at_ || a) (out ++ pad (at_ || a) k (next as).1.shown)
      | .write => go ps (next as).2 (at_ || a) (out ++ pad (at_ || a) k (next as).1.written)
      | .newline => go ps as (at_ || a) (out ++ times k 10)
      | .tilde => go ps as (at_ || a) (out ++ times k 126)
  | .skip n a :: ps, as, at_, out =>
    match number n as with
    | none => none
    | some (_, as) => go ps as (at_ || a) (out ++ if (at_ || a) then [10] else [])

theorem isSpace_iff {b : Byte} : isSpace b = true ↔ White b := by
  simp only [isSpace, White, Bool.or_eq_true, Bool.and_eq_true, decide_eq_true_eq]
  omega

theorem letter_props {d : Dir} {b : Byte} (h : Letter d b) : b ≠ 64 ∧ (b ≠ 35 ∧ b ≠ 118 ∧ b ≠ 86) ∧ isDigit b = false := by
  cases h with
  | «show» h => rcases h with rfl | rfl <;> decide
  | write h => rcases h with rfl | rfl <;> decide
  | newline => decide
  | tilde => decide

theorem run_spelled {ps : List Ctl} {t : GoStr} (h : Spelled ps t) {u : GoStr} (hu : ∀ b, u.head? = some b → ¬ White b) :
    ∀ (as : List Arg) (at_ : Bool) (out : GoStr), run (t ++ u) as at_ out = match go ps as at_ out with
      | some (o, as, at_) => run u as at_ o
      | none => .err := by
  induction h with
  | nil => intro as at_ out; rfl
  | byte hc _ ih =>
    intro as at_ out
    rw [List.cons_append, run_byte hc, ih]
    rfl
  | @dir n cs a d b ps t hn hl _ ih =>
    intro as at_ out
    obtain ⟨h1, h2, h3⟩ := letter_props hl
    have e : 126 :: (cs ++ (mark a ++ b :: t)) ++ u = 126 :: (cs ++ (mark a ++ b :: (t ++ u))) := by simp
    rw [e, run_head hn (fun _ => h1) (fun _ _ => h2) (fun _ _ => h3), go]
    cases number n as with
    | none => rfl
    | some x =>
      obtain ⟨k, as⟩ := x
      dsimp only
      cases hl with
      | «show» h => rcases h with rfl | rfl <;> exact ih _ _ _
      | write h => rcases h with rfl | rfl <;> exact ih _ _ _
      | newline => exact ih _ _ _
      | tilde => exact ih _ _ _
  | @skip n cs a w ps t hn hw ht _ ih =>
    intro as at_ out
    have e : 126 :: (cs ++ (mark a ++ 10 :: (w ++ t))) ++ u = 126 :: (cs ++ (mark a ++ 10 :: (w ++ (t ++ u)))) := by simp
    rw [e, run_head hn (fun _ => by decide) (fun _ _ => by decide) (fun _ _ => by decide), go]
    cases number n as with
    | none => rfl
    | some x =>
      obtain ⟨k, as⟩ := x
      have hsp := (span_all (p := isSpace) (ds := w) (fun b hb => isSpace_iff.mpr (hw b hb)) (r := t ++ u) (by
        intro b hb
        have : ¬ White b := by
          cases t with
          | nil => exact hu b hb
          | cons c t => exact ht b (by simpa using hb)
        cases h : isSpace b with
        | false => rfl
        | true => exact absurd (isSpace_iff.mp h) this)).2
      have hl : letter (at_ || a) k (10 :: (w ++ (t ++ u))) as out =
          run ((w ++ (t ++ u)).dropWhile isSpace) as (at_ || a) (out ++ if (at_ || a) then [10] else []) := rfl
      dsimp only
      rw [hl, hsp]
      exact ih _ _ _

theorem number_spec {n : Count} {as as' : List Arg} {k : Int} (h : Number n as k as') : number n as = some (k, as') := by
  cases h with
  | arg h => simp [number, next, h]
  | _ => rfl

theorem filled_pad {a : Bool} {n : Int} {x p : GoStr} (h : Filled a n x p) : p = pad a n x := by
  obtain ⟨k, rfl, h1, h2⟩ := h
  have e : (if a = true then List.replicate k (32 : Byte) ++ x else x ++ List.replicate k 32).length = x.length + k := by
    cases a <;> simp <;> omega
  rw [e] at h1 h2
  have : k = (n - x.length).toNat := by omega
  rw [pad, this]

theorem pad_filled (a : Bool) (n : Int) (x : GoStr) : Filled a n x (pad a n x) := by
  refine ⟨(n - x.length).toNat, rfl, ?_, ?_⟩
  · cases a <;> simp [pad] <;> omega
  · cases a <;> simp [pad] <;> omega

theorem times_eq (k : Int) (b : Byte) : times k b = List.replicate (max 1 k.toNat) b := by
  unfold times
  split
  · congr 1; omega
  · rw [show max 1 k.toNat = 1 by omega]; rfl

theorem go_renders {ps : List Ctl} : ∀ {as : List Arg} {at_ : Bool} {o : GoStr} {r : List Arg}, Renders (sticky at_ ps) as o r →
    ∀ out, ∃ at', go ps as at_ out = some (out ++ o, r, at') := by
  induction ps with
  | nil => intro as at_ o r h out; cases h; exact ⟨at_, by simp [go]⟩
  | cons p ps ih =>
    intro as at_ o r h out
    cases p with
    | byte c =>
      cases h with
      | byte h =>
        obtain ⟨at', e⟩ := ih h (out ++ [c])
        exact ⟨at', by rw [go, e]; simp⟩
    | dir n a d =>
      cases d with
      | «show» =>
        cases h with
        | @«show» _ _ k _ x as' p _ o _ h1 h2 h3 =>
          obtain ⟨at', e⟩ := ih h3 (out ++ p)
          refine ⟨at', ?_⟩
          rw [go, number_spec h1]
          dsimp only [next]
          rw [← filled_pad h2, e]; simp
      | write =>
        cases h with
        | @write _ _ k _ x as' p _ o _ h1 h2 h3 =>
          obtain ⟨at', e⟩ := ih h3 (out ++ p)
          refine ⟨at', ?_⟩
          rw [go, number_spec h1]
          dsimp only [next]
          rw [← filled_pad h2, e]; simp
      | newline =>
        cases h with
        | @newline _ _ k _ as' _ o _ h1 h3 =>
          obtain ⟨at', e⟩ := ih h3 (out ++ List.replicate (max 1 k.toNat) 10)
          refine ⟨at', ?_⟩
          rw [go, number_spec h1]
          dsimp only
          rw [times_eq, e]; simp
      | tilde =>
        cases h with
        | @tilde _ _ k _ as' _ o _ h1 h3 =>
          obtain ⟨at', e⟩ := ih h3 (out ++ List.replicate (max 1 k.toNat) 126)
          refine ⟨at', ?_⟩
          rw [go, number_spec h1]
          dsimp only
          rw [times_eq, e]; simp
    | skip n a =>
      cases h with
      | @skip _ _ k _ as' _ o _ h1 h3 =>
        obtain ⟨at', e⟩ := ih h3 (out ++ if (at_ || a) then [10] else [])
        refine ⟨at', ?_⟩
        rw [go, number_spec h1]
        dsimp only
        rw [e]; simp

theorem format_eq (t : GoStr) (as : List Arg) : format t as = match run t as false [] with
    | .ok (out, []) => .ok out
    | .ok _ => .err
    | .err => .err
    | .panic => .panic := rfl

/-- Where the modifier makes no difference, marking nothing more changes nothing. -/
theorem renders_sticky {ps : List Ctl} : ∀ {as : List Arg} {at_ : Bool} {o : GoStr} {r : List Arg}, Renders ps as o r → MarksLast ps →
    (at_ = true → ∀ q ∈ ps, marked? q ≠ some false) → Renders (sticky at_ ps) as o r := by
  induction ps with
  | nil => intro as at_ o r h _ _; exact h
  | cons p ps ih =>
    intro as at_ o r h hm ha
    have ha' : at_ = true → ∀ q ∈ ps, marked? q ≠ some false := fun h q hq => ha h q (List.mem_cons_of_mem _ hq)
    have next : ∀ {a : Bool}, hasMark p = a → (at_ || a) = true → ∀ q ∈ ps, marked? q ≠ some false := by
      intro a hp h
      cases hat : at_ with
      | true => exact ha' hat
      | false => rw [hat, Bool.false_or] at h; exact hm.1 (hp.trans h)
    have same : ∀ {a : Bool}, marked? p = some a → (at_ || a) = a := by
      intro a hp
      cases hat : at_ with
      | false => simp
      | true =>
        cases a with
        | true => rfl
        | false => exact absurd hp (ha hat p List.mem_cons_self)
    cases h with
    | byte h => exact .byte (ih h hm.2 ha')
    | «show» h1 h2 h3 => exact .show h1 (by rw [same rfl]; exact h2) (ih h3 hm.2 (next rfl))
    | write h1 h2 h3 => exact .write h1 (by rw [same rfl]; exact h2) (ih h3 hm.2 (next rfl))
    | newline h1 h3 => exact .newline h1 (ih h3 hm.2 (next rfl))
    | tilde h1 h3 => exact .tilde h1 (ih h3 hm.2 (next rfl))
    | @skip n a k _ as' _ o _ h1 h3 =>
      have e := same (a := a) rfl
      have := Renders.skip (a := (at_ || a)) h1 (ih h3 hm.2 (next (a := a) rfl))
      rw [e] at this
      simp only [sticky, e]
      exact this

theorem digit_iff {b : Byte} : isDigit b = true ↔ 48 ≤ b.toNat ∧ b.toNat ≤ 57 := by
  simp [isDigit]

theorem digit_false {b : Byte} (h : ¬ (48 ≤ b.toNat ∧ b.toNat ≤ 57)) : isDigit b = false := by
  cases hb : isDigit b with
  | false => rfl
  | true => exact absurd (digit_iff.mp hb) h

theorem letter_none {b : Byte} (h : ∀ d, ¬ Letter d b) (h10 : b ≠ 10) {at_ : Bool} {k : Int} {r : GoStr} {args : List Arg} {out : GoStr} :
    letter at_ k (b :: r) args out = .err := by
  have h1 : ¬ (b = 65 ∨ b = 97) := fun e => h .show (.show e.symm)
  have h2 : ¬ (b = 83 ∨ b = 115) := fun e => h .write (.write e.symm)
  have h3 : ¬ b = 37 := fun e => h .newline (e ▸ .newline)
  have h4 : ¬ b = 126 := fun e => h .tilde (e ▸ .tilde)
  simp only [letter, h1, h2, h3, h4, h10, if_false]

theorem run_unsupported {u : GoStr} (h : Unsupported u) {args : List Arg} {at_ : Bool} {out : GoStr} : run u args at_ out = .err := by
  cases h with
  | @letter n cs a b t hn hl h10 h1 h2 h3 =>
    rw [run_head hn h1 h2 (fun ha hk => digit_false (h3 ha hk))]
    cases number n args with
    | none => rfl
    | some x => exact letter_none hl h10
  | @large ds n b t hd hn hb =>
    obtain ⟨h3, h4, h5⟩ := decimal_spec hd
    obtain ⟨h6, h7⟩ := span_all h4 (r := b :: t) (by intro c hc; cases hc; exact digit_false hb)
    have hc : count (ds ++ b :: t) args = .err := by
      simp [count, h6, h7, h3, parseInt, h5, Nat.not_lt.mpr hn]
    rw [run_dir, hc]

theorem run_cut {u : GoStr} {n : Count} (h : Cut u n) {args args' : List Arg} {k : Int} (hn : Number n args k args') {at_ : Bool} {out : GoStr} :
    run u args at_ out = .panic := by
  have all : ∀ {ds : GoStr}, (∀ b ∈ ds, isDigit b = true) → run (126 :: ds) args at_ out = .panic := by
    intro ds h
    have e := (span_all h (r := []) (by intro b hb; cases hb)).2
    rw [List.append_nil] at e
    have hc : count ds args = .panic := by simp [count, e]
    rw [run_dir, hc]
  cases h with
  | digits hd => exact all (decimal_spec hd).2.1
  | @count _ cs a hc =>
    cases a with
    | true =>
      rw [run_dir, show mark true = [64] from rfl, count_spec hc (fun _ => by decide) (fun _ => by decide), number_spec hn]
      rfl
    | false =>
      rw [show cs ++ mark false = cs from List.append_nil _]
      cases hc with
      | none => exact all (by simp)
      | lit hd _ => exact all (decimal_spec hd).2.1
      | left => rw [run_dir]; rfl
      | arg hb =>
        cases hn with
        | arg hi => rcases hb with rfl | rfl <;> (rw [run_dir]; simp [count, next, isDigit, hi, letter])

theorem run_cut_ok {u : GoStr} {n : Count} (h : Cut u n) {args : List Arg} {at_ : Bool} {out : GoStr} :
    run u args at_ out = .panic ∨ run u args at_ out = .err := by
  cases n with
  | none => exact .inl (run_cut h .none)
  | lit n => exact .inl (run_cut h .lit)
  | left => exact .inl (run_cut h .left)
  | arg =>
    cases args with
    | cons a as =>
      cases hi : a.int with
      | some k => exact .inl (run_cut h (.arg hi))
      | none =>
        refine .inr ?_
        cases h with
        | count hc => cases hc with
          | arg hb => rcases hb with rfl | rfl <;> (rw [run_dir]; simp [count, next, isDigit, hi])
    | nil =>
      refine .inr ?_
      cases h with
      | count hc => cases hc with
        | arg hb => rcases hb with rfl | rfl <;> (rw [run_dir]; simp [count, next, isDigit, missing])

theorem decimal_of {ds : GoStr} (h : ∀ b ∈ ds, isDigit b = true) (hne : ds ≠ []) : ∃ n, Base10 ds n := by
  have rev : ∀ l : GoStr, l ≠ [] → (∀ b ∈ l, isDigit b = true) → ∃ n, Base10 l.reverse n := by
    intro l
    induction l with
    | nil => intro h; exact absurd rfl h
    | cons b l ih =>
      intro _ hl
      obtain ⟨h1, h2⟩ := digit_iff.mp (hl b List.mem_cons_self)
      cases l with
      | nil => exact ⟨_, .one h1 h2⟩
      | cons c l =>
        obtain ⟨n, hn⟩ := ih (by simp) fun x hx => hl x (List.mem_cons_of_mem _ hx)
        exact ⟨_, by rw [List.reverse_cons]; exact .more hn h1 h2⟩
  have := rev ds.reverse (by simpa using hne) (by simpa using h)
  rwa [List.reverse_reverse] at this

/-- The text falls into pieces, up to its end or a broken directive. -/
def Splits (t : GoStr) : Prop := ∃ ps t1 u, t = t1 ++ u ∧ Spelled ps t1 ∧ (u = [] ∨ (∃ n, Cut u n) ∨ Unsupported u)

theorem Splits.broken {u : GoStr} (h : (∃ n, Cut u n) ∨ Unsupported u) : Splits u := ⟨[], [], u, rfl, .nil, .inr h⟩

theorem span_split (p : Byte → Bool) (l : GoStr) : ∃ w r, l = w ++ r ∧ (∀ b ∈ w, p b = true) ∧ (∀ b, r.head? = some b → p b = false) := by
  induction l with
  | nil => exact ⟨[], [], rfl, by simp, by simp⟩
  | cons c l ih =>
    cases hc : p c with
    | false => exact ⟨[], c :: l, rfl, by simp, by intro b hb; cases hb; exact hc⟩
    | true =>
      obtain ⟨w, r, e, h1, h2⟩ := ih
      refine ⟨c :: w, r, by rw [e]; rfl, ?_, h2⟩
      intro b hb
      rcases List.mem_cons.mp hb with rfl | hb
      · exact hc
      · exact h1 b hb

/-- With the number read, from the letter on. -/
theorem splits_letter {n : Count} {cs : GoStr} (hn : Counted n cs) {a : Bool} {b : Byte} {r : GoStr}
    (h1 : a = false → b ≠ 64) (h2 : n = .none → a = false → b ≠ 35 ∧ b ≠ 118 ∧ b ≠ 86)
    (h3 : a = false → n = .none ∨ (∃ k, n = .lit k) → isDigit b = false) (ih : ∀ t : GoStr, t.length ≤ r.length → Splits t) :
    Splits (126 :: (cs ++ (mark a ++ b :: r))) := by
  by_cases h10 : b = 10
  · subst h10
    obtain ⟨w, t, rfl, hw, ht⟩ := span_split isSpace r
    obtain ⟨ps, t1, u, rfl, hs, hu⟩ := ih t (by simp)
    refine ⟨.skip n a :: ps, 126 :: (cs ++ (mark a ++ 10 :: (w ++ t1))), u, by simp, .skip hn (fun b hb => isSpace_iff.mp (hw b hb)) ?_ hs, hu⟩
    intro b hb hb'
    cases t1 with
    | nil => cases hb
    | cons c t1 =>
      have := ht b hb
      rw [isSpace_iff.mpr hb'] at this
      cases this
  · rcases Classical.em (∃ d, Letter d b) with ⟨d, hd⟩ | hd
    · obtain ⟨ps, t1, u, rfl, hs, hu⟩ := ih r (Nat.le_refl _)
      exact ⟨.dir n a d :: ps, 126 :: (cs ++ (mark a ++ b :: t1)), u, by simp, .dir hn hd hs, hu⟩
    · refine .broken (.inr (.letter hn (fun d h => hd ⟨d, h⟩) h10 h1 h2 ?_))
      intro ha hk hb
      have := h3 ha hk
      rw [digit_iff.mpr hb] at this
      cases this

theorem splits_mark {n : Count} {cs : GoStr} (hn : Counted n cs) {r : GoStr}
    (h2 : n = .none → ∀ b, r.head? = some b → b ≠ 35 ∧ b ≠ 118 ∧ b ≠ 86)
    (h3 : n = .none ∨ (∃ k, n = .lit k) → ∀ b, r.head? = some b → isDigit b = false) (ih : ∀ t : GoStr, t.length ≤ r.length → Splits t) :
    Splits (126 :: (cs ++ r)) := by
  cases r with
  | nil => exact .broken (.inl ⟨n, .count (a := false) hn⟩)
  | cons b r =>
    by_cases hb : b = 64
    · subst hb
      cases r with
      | nil => exact .broken (.inl ⟨n, .count (a := true) hn⟩)
      | cons b r =>
        exact splits_letter (a := true) hn (fun h => by cases h) (fun _ h => by cases h) (fun h => by cases h)
          fun t ht => ih t (by simp only [List.length_cons]; omega)
    · exact splits_letter (a := false) hn (fun _ => hb) (fun hn _ => h2 hn b rfl) (fun _ hk => h3 hk b rfl)
        fun t ht => ih t (by simp only [List.length_cons]; omega)

theorem splits_all (n : Nat) : ∀ t : GoStr, t.length ≤ n → Splits t := by
  induction n with
  | zero =>
    intro t ht
    cases t with
    | nil => exact ⟨[], [], [], rfl, .nil, .inl rfl⟩
    | cons c t => simp at ht
  | succ n ih =>
    intro t ht
    cases t with
    | nil => exact ⟨[], [], [], rfl, .nil, .inl rfl⟩
    | cons c t =>
      simp only [List.length_cons] at ht
      by_cases hc : c = 126
      · subst hc
        obtain ⟨ds, r, rfl, hd, hr⟩ := span_split isDigit t
        rw [List.length_append] at ht
        cases hds : ds with
        | cons d ds' =>
          obtain ⟨k, hk⟩ := decimal_of hd (by rw [hds]; simp)
          rw [← hds]
          by_cases hlt : k < 2 ^ 63
          · exact splits_mark (.lit hk hlt) (fun h => by cases h) (fun _ => hr) fun t h => ih t (by omega)
          · cases r with
            | nil => exact .broken (.inl ⟨_, by rw [List.append_nil]; exact .digits hk⟩)
            | cons b r =>
              refine .broken (.inr (.large hk (Nat.not_lt.mp hlt) ?_))
              intro hb
              have := hr b rfl
              rw [digit_iff.mpr hb] at this
              cases this
        | nil =>
          rw [hds, List.length_nil, Nat.zero_add] at ht
          rw [List.nil_append]
          cases r with
          | nil => exact .broken (.inl ⟨_, .count (a := false) .none⟩)
          | cons b r =>
            simp only [List.length_cons] at ht
            by_cases h35 : b = 35
            · subst h35
              exact splits_mark .left (fun h => by cases h) (fun h => by rcases h with h | ⟨_, h⟩ <;> cases h) fun t h => ih t (by omega)
            · by_cases hv : b = 118 ∨ b = 86
              · exact splits_mark (.arg hv) (fun h => by cases h) (fun h => by rcases h with h | ⟨_, h⟩ <;> cases h) fun t h => ih t (by omega)
              · exact splits_mark .none (fun _ c hc => by
                  cases hc; exact ⟨h35, fun h => hv (.inl h), fun h => hv (.inr h)⟩) (fun _ => hr)
                  fun t h => ih t (by simp only [List.length_cons] at h; omega)
      · obtain ⟨ps, t1, u, rfl, hs, hu⟩ := ih t (by omega)
        exact ⟨.byte c :: ps, c :: t1, u, rfl, .byte hc hs, hu⟩

end Golisp.Fmt
