import Verif.CallLemmas
/- Lemmas about `processQuasiquoted`. -/
namespace Golisp.Ev
open Golisp Data Spec

variable {C : Conf} {bd : Call → Prog Data}

/-- The elements of a list, one after the other. -/
def qqList (n : Nat) (xs : List Data) (l e : Nat) : Prog (List Data) := qqEach (fun x => qq n x l e) xs

theorem qqList_nil {n l e : Nat} : qqList n [] l e = pure [] := rfl
theorem qqList_cons {n l e : Nat} {x : Data} {xs : List Data} : qqList n (x :: xs) l e = (do
    let p ← qq n x l e
    let ps ← qqList n xs l e
    pure (if p = null then ps else p :: ps)) := rfl
theorem qqEach_eq {n l e : Nat} {xs : List Data} : qqEach (fun x => qq n x l e) xs = qqList n xs l e := rfl

theorem size_pos (d : Data) : 0 < size d := by cases d <;> simp [size]

theorem size_mem_toArray {x : Data} : ∀ {y : Data}, y ∈ toArray x → isListP x = true → size y < size x := by
  have key : ∀ x y : Data, y ∈ toArray x → size y ≤ size x ∧ ((∃ k a d, x = .cell k a d) → size y < size x) := by
    intro x
    induction x with
    | null => intro y h; simp [toArray] at h
    | atom a => intro y h; simp only [toArray, List.mem_singleton] at h; subst h; exact ⟨by simp [size], by rintro ⟨_, _, _, h⟩; cases h⟩
    | cell k a d _ ihd =>
      intro y h
      simp only [toArray] at h
      have : size y < size (.cell k a d) := by
        split at h
        · simp at h
        · simp only [List.mem_cons] at h
          rcases h with rfl | h
          · simp only [size]; omega
          · have := (ihd y h).1; simp only [size]; omega
      exact ⟨Nat.le_of_lt this, fun _ => this⟩
  intro y h hl
  cases x with
  | null => simp [toArray] at h
  | atom a => simp [isListP, isPair, isAlist] at hl
  | cell k a d => exact (key _ _ h).2 ⟨_, _, _, rfl⟩

theorem size_car_cdr (x : Data) (h : isSym (car x) = true) : size (car (cdr x)) < size x := by
  cases x with
  | null => simp [car, isSym] at h
  | atom => simp [car, isSym] at h
  | cell k a d =>
    simp only [cdr, size]
    have := size_pos a
    cases d with
    | cell k' a' d' => simp only [car, size]; omega
    | null => simp only [car, size]; omega
    | atom => simp only [car, size]; omega

theorem headIs_sym {m : String} {x : Data} (h : headIs m x = true) : isSym (car x) = true := by
  simp only [headIs, Bool.and_eq_true] at h; exact h.1

/-- Any bound above the size of the template gives the same program: the bound of `qq` is never reached. -/
theorem qq_fuel (n : Nat) : (∀ (m : Nat) (x : Data) (l e : Nat), size x < n → size x < m → qq n x l e = qq m x l e) ∧
    ∀ (m : Nat) (xs : List Data) (l e : Nat), (∀ x ∈ xs, size x < n) → (∀ x ∈ xs, size x < m) → qqList n xs l e = qqList m xs l e := by
  induction n with
  | zero =>
    refine ⟨fun m x l e h => absurd h (Nat.not_lt_zero _), fun m xs l e h _ => ?_⟩
    cases xs with
    | nil => simp [qqList_nil]
    | cons x xs => exact absurd (h x (by simp)) (Nat.not_lt_zero _)
  | succ n ih =>
    have one : ∀ (m : Nat) (x : Data) (l e : Nat), size x < n + 1 → size x < m → qq (n + 1) x l e = qq m x l e := by
      intro m x l e h1 h2
      cases m with
      | zero => exact absurd h2 (Nat.not_lt_zero _)
      | succ m =>
        simp only [qq, qqEach_eq]
        cases hl : isListP x with
        | false => rfl
        | true =>
          simp only [Bool.not_true, Bool.false_eq_true, if_false]
          have small : ∀ mk, headIs mk x = true → size (car (cdr x)) < n ∧ size (car (cdr x)) < m := by
            intro mk h
            have := size_car_cdr x (headIs_sym h)
            omega
          by_cases hq : headIs "quasiquote" x = true
          · simp only [hq, if_true, ih.1 m _ _ _ (small _ hq).1 (small _ hq).2]
          · simp only [Bool.not_eq_true] at hq
            simp only [hq, Bool.false_eq_true, if_false]
            by_cases hu : headIs "unquote" x = true
            · simp only [hu, if_true, ih.1 m _ _ _ (small _ hu).1 (small _ hu).2]
            · simp only [Bool.not_eq_true] at hu
              simp only [hu, Bool.false_eq_true, if_false]
              by_cases hs : headIs "unquote-splicing" x = true
              · simp only [hs, if_true, ih.1 m _ _ _ (small _ hs).1 (small _ hs).2]
              · simp only [Bool.not_eq_true] at hs
                simp only [hs, Bool.false_eq_true, if_false]
                rw [ih.2 m (toArray x) l e]
                · intro y hy; have := size_mem_toArray hy hl; omega
                · intro y hy; have := size_mem_toArray hy hl; omega
    refine ⟨one, fun m xs l e h1 h2 => ?_⟩
    induction xs with
    | nil => simp [qqList_nil]
    | cons x xs ihx =>
      simp only [qqList_cons]
      rw [one m x l e (h1 x (by simp)) (h2 x (by simp)), ihx (fun y hy => h1 y (by simp [hy])) fun y hy => h2 y (by simp [hy])]

/-! ### Unmarked templates -/

theorem headIs_iff {m : String} {k : Kind} {a d : Data} : headIs m (.cell k a d) = true ↔ a = sym m := by
  cases a with
  | atom a => cases a <;> simp [headIs, car, isSym, stringValue]
  | null => simp [headIs, car, isSym]
  | cell => simp [headIs, car, isSym]

theorem not_mark {k : Kind} {a d : Data} (h : ¬ Mark a) : headIs "quasiquote" (.cell k a d) = false ∧ headIs "unquote" (.cell k a d) = false ∧
    headIs "unquote-splicing" (.cell k a d) = false := by
  simp only [← Bool.not_eq_true, headIs_iff]
  exact ⟨fun h' => h (Or.inl h'), fun h' => h (Or.inr (Or.inl h')), fun h' => h (Or.inr (Or.inr h'))⟩

/-- The elements contributed by a list of processed parts. -/
inductive Parts : List Data → List Data → Prop where
  | nil : Parts [] []
  | cons {p ps ys zs} : p ≠ .null → Chain p ys → Parts ps zs → Parts (p :: ps) (ys ++ zs)

theorem Parts.append {ps qs xs ys : List Data} (h : Parts ps xs) (h' : Parts qs ys) : Parts (ps ++ qs) (xs ++ ys) := by
  induction h with
  | nil => exact h'
  | cons h1 h2 _ ih => rw [List.append_assoc]; exact .cons h1 h2 ih

theorem _root_.Golisp.Spec.Chain.raw {d : Data} {xs : List Data} (h : Chain d xs) : rawArray d = xs := by
  induction h with
  | nil => rfl
  | cons _ ih => simp [rawArray, ih]

theorem _root_.Golisp.Spec.Chain.isListP {d : Data} {xs : List Data} (h : Chain d xs) : isListP d = true := by
  cases h <;> rfl

theorem Parts.flatten {ps ys : List Data} (h : Parts ps ys) : flatten (ofArray ps) = ofArray ys := by
  have loop : ∀ {ps ys : List Data}, Parts ps ys → flattenLoop (listWithTail ps null) = ys := by
    intro ps ys h
    induction h with
    | nil => rfl
    | @cons p ps ys zs h1 h2 _ ih =>
      have hp : noNull p = p := by cases p <;> first | exact absurd rfl h1 | rfl
      have hn : isNil (cell .cons p (listWithTail ps null)) = false := (isNil_cell_false _ _ _).mpr fun h => h1 h.1
      simp only [listWithTail, hp, flattenLoop, hn, h2.isListP, h2.raw, ih]
      rfl
  have hfl : flattenLoop (ofArray ps) = ys := by
    cases h with
    | nil => rfl
    | cons h1 h2 h3 => exact loop (.cons h1 h2 h3)
  have h1 : ofArray ps ≠ null := by cases ps <;> simp [ofArray, listWithTail]
  have h2 : isListP (ofArray ps) = true := by cases ps <;> rfl
  simp [Data.flatten, h1, h2, hfl]

theorem ofArray_chain {a d : Data} {xs : List Data} (h : Chain (.cons a d) xs) (hn : Data.null ∉ xs) : ofArray xs = .cons a d := by
  have key : ∀ {d : Data} {xs : List Data}, Chain d xs → Data.null ∉ xs → listWithTail xs null = d := by
    intro d xs h hn
    induction h with
    | nil => rfl
    | @cons a d xs _ ih =>
      simp only [List.mem_cons, not_or] at hn
      rw [listWithTail, ih hn.2]
      cases a <;> first | exact absurd rfl hn.1 | rfl
  cases h with
  | cons h => exact key (.cons h) hn

theorem plain_elems {d : Data} : Unmarked true d → ∀ x ∈ toArray d, Unmarked false x ∧ x ≠ .null := by
  intro h
  generalize hb : true = b at h
  induction h with
  | nil => intro x hx; simp [toArray] at hx
  | @cons a d ha _ _ ih =>
    intro x hx
    simp only [toArray] at hx
    split at hx
    · simp at hx
    · simp only [List.mem_cons] at hx
      rcases hx with rfl | hx
      · refine ⟨ha, ?_⟩; rintro rfl; cases ha
      · exact ih rfl x hx
  | _ => cases hb

theorem plain_chain {d : Data} : Unmarked true d → Chain d (toArray d) := by
  intro h
  generalize hb : true = b at h
  induction h with
  | nil => exact .nil
  | @cons a d ha _ _ ih =>
    have hn : isNil (cons a d) = false := (isNil_cell_false _ _ _).mpr fun h => by rw [h.1] at ha; cases ha
    simp only [toArray, hn]
    exact .cons (ih rfl)
  | _ => cases hb

/-- A template without marks is its own expansion. -/
theorem qq_plain (n : Nat) : (∀ (x : Data) (l e : Nat), size x < n → Unmarked false x → qq n x l e = pure (cons x null)) ∧
    ∀ (xs : List Data) (l e : Nat), (∀ x ∈ xs, size x < n) → (∀ x ∈ xs, Unmarked false x) →
      qqList n xs l e = pure (xs.map fun x => cons x null) := by
  induction n with
  | zero =>
    refine ⟨fun x l e h => absurd h (Nat.not_lt_zero _), fun xs l e h _ => ?_⟩
    cases xs with
    | nil => simp [qqList_nil]
    | cons x xs => exact absurd (h x (by simp)) (Nat.not_lt_zero _)
  | succ n ih =>
    have one : ∀ (x : Data) (l e : Nat), size x < n + 1 → Unmarked false x → qq (n + 1) x l e = pure (cons x null) := by
      intro x l e h1 hp
      cases hp with
      | atom a => simp [qq, isListP, isPair, isAlist]
      | empty => simp [qq, isListP, isPair, emptyCons, headIs, car, isSym, toArray, isNil, qqEach]; rfl
      | @list a d h hm =>
        obtain ⟨m1, m2, m3⟩ := not_mark (k := .cons) (d := d) hm
        have hl : isListP (cons a d) = true := rfl
        simp only [qq, qqEach_eq, hl, m1, m2, m3, Bool.not_true, Bool.false_eq_true, if_false]
        rw [ih.2 (toArray (cons a d)) l e (fun y hy => by have := size_mem_toArray hy hl; omega) fun y hy => (plain_elems h y hy).1]
        have parts : ∀ xs : List Data, Parts (xs.map fun x => cons x null) xs := by
          intro xs
          induction xs with
          | nil => exact .nil
          | cons x xs ih => exact .cons (ys := [x]) (by simp) (.cons .nil) ih
        have pb : ∀ {α β : Type} (a : α) (f : α → Prog β), ((pure a : Prog α) >>= f) = f a := fun _ _ => rfl
        rw [pb]
        rw [(parts _).flatten, ofArray_chain (plain_chain h) fun h' => (plain_elems h _ h').2 rfl]
    refine ⟨one, fun xs l e h1 h2 => ?_⟩
    induction xs with
    | nil => simp [qqList_nil]
    | cons x xs ihx =>
      simp only [qqList_cons]
      rw [one x l e (h1 x (by simp)) (h2 x (by simp)), ihx (fun y hy => h1 y (by simp [hy])) fun y hy => h2 y (by simp [hy])]
      rfl

/-! ### Templates -/

theorem qqList_one {n : Nat} {x : Data} {l e : Nat} {s : Store} {p : Data} {s' : Store} (h : RunsP bd (qq n x l e) s (.ok p) s') :
    RunsP bd (qqList n [x] l e) s (.ok (if p = null then [] else [p])) s' := by
  simp only [qqList_nil, qqList_cons]
  rw [runsP_bind_ok h, runsP_bind_ok (runsP_pure.mpr ⟨rfl, rfl⟩), runsP_pure]
  exact ⟨rfl, rfl⟩

theorem qqList_one_err {n : Nat} {x : Data} {xs : List Data} {l e : Nat} {s : Store} {er : Err} {s' : Store}
    (h : RunsP bd (qq n x l e) s (.err er) s') : RunsP bd (qqList n (x :: xs) l e) s (.err er) s' := by
  simp only [qqList_cons]
  rw [runsP_bind_err h]; exact ⟨rfl, rfl⟩

theorem runsP_bind_panic {α β : Type} {p : Prog α} {f : α → Prog β} {s s' : Store} (h : RunsP bd p s .panic s') :
    RunsP bd (p >>= f) s .panic s' := by
  rw [runsP_bind]; exact Or.inr (Or.inr ⟨h, rfl⟩)

theorem qqList_one_panic {n : Nat} {x : Data} {xs : List Data} {l e : Nat} {s : Store} {s' : Store}
    (h : RunsP bd (qq n x l e) s .panic s') : RunsP bd (qqList n (x :: xs) l e) s .panic s' := by
  simp only [qqList_cons]; exact runsP_bind_panic h

/-- The outcome of processing one template. -/
def One (bd : Call → Prog Data) (n : Nat) (x : Data) (l e : Nat) (s : Store) (r : Out (List Data)) (s' : Store) : Prop :=
  match r with
  | .ok ys => ∃ p, RunsP bd (qq n x l e) s (.ok p) s' ∧ Chain p ys
  | .err er => RunsP bd (qq n x l e) s (.err er) s'
  | .panic => RunsP bd (qq n x l e) s .panic s'
  | .timeout => False

/-- The outcome of processing a list of templates. -/
def Many (bd : Call → Prog Data) (n : Nat) (xs : List Data) (l e : Nat) (s : Store) (r : Out (List Data)) (s' : Store) : Prop :=
  match r with
  | .ok ys => ∃ ps, RunsP bd (qqList n xs l e) s (.ok ps) s' ∧ Parts ps ys
  | .err er => RunsP bd (qqList n xs l e) s (.err er) s'
  | .panic => RunsP bd (qqList n xs l e) s .panic s'
  | .timeout => False

theorem One.many {n : Nat} {x : Data} {l e : Nat} {s : Store} {r : Out (List Data)} {s' : Store} (h : One bd n x l e s r s') :
    Many bd n [x] l e s r s' := by
  cases r with
  | ok ys =>
    obtain ⟨p, h1, h2⟩ := h
    refine ⟨_, qqList_one h1, ?_⟩
    by_cases hp : p = null
    · subst hp; cases h2; simp only [if_true]; exact .nil
    · simp only [hp, if_false]
      have := Parts.cons hp h2 .nil
      rwa [List.append_nil] at this
  | err er => exact qqList_one_err h
  | panic => exact qqList_one_panic h
  | timeout => exact h

/-- `Quasi` describes what `processQuasiquoted` does. -/
theorem quasi_sound {e l : Nat} {xs : List Data} {s : Store} {r : Out (List Data)} {s' : Store} (h : Quasi C e l xs s r s') :
    ∀ n, (∀ x ∈ xs, size x < n) → Many (body C) n xs l e s r s' ∧ ∀ x, xs = [x] → One (body C) n x l e s r s' := by
  have single : ∀ {n x l s r s'}, One (body C) n x l e s r s' → Many (body C) n [x] l e s r s' ∧ ∀ y, [x] = [y] → One (body C) n y l e s r s' :=
    fun h => ⟨h.many, fun y hy => by cases hy; exact h⟩
  have lst_list : ∀ {x : Data} {xs : List Data} {n l : Nat}, Lst x xs → isListP x = true → (∀ a ∈ xs.head?, ¬ Mark a) →
      qq (n + 1) x l e = (do let parts ← qqList n xs l e; pure (cons (flatten (ofArray parts)) null)) := by
    intro x xs n l hl hp hm
    have hh : headIs "quasiquote" x = false ∧ headIs "unquote" x = false ∧ headIs "unquote-splicing" x = false := by
      cases hl with
      | null => exact ⟨rfl, rfl, rfl⟩
      | empty k => exact ⟨rfl, rfl, rfl⟩
      | cons k a d xs _ _ _ => exact not_mark (hm a (by simp))
    simp only [qq, qqEach_eq, hp, hh.1, hh.2.1, hh.2.2, Bool.not_true, Bool.false_eq_true, if_false, hl.toArray]
  have small : ∀ {x y : Data} {xs : List Data} {n : Nat}, Lst x xs → isListP x = true → size x < n + 1 → y ∈ xs → size y < n := by
    intro x y xs n hl hp h hy
    rw [← hl.toArray] at hy
    have := size_mem_toArray hy hp
    omega
  have unq : ∀ {n : Nat} {a : Data}, size (cons (sym "unquote") (cons a null)) < n + 1 → Unmarked false a →
      qq (n + 1) (cons (sym "unquote") (cons a null)) 1 e = (do let r ← Prog.eval a e; pure (cons r null)) := by
    intro n a h hp
    have ha : size a < n := by simp only [size] at h; omega
    simp only [qq, isListP, isPair, Bool.true_or, Bool.not_true, Bool.false_eq_true, if_false, headIs_iff, if_true, car, cdr,
      (qq_plain n).1 a 1 e ha hp]
    rfl
  have spl : ∀ {n : Nat} {a : Data}, size (cons (sym "unquote-splicing") (cons a null)) < n + 1 → Unmarked false a →
      qq (n + 1) (cons (sym "unquote-splicing") (cons a null)) 1 e = (do let r ← Prog.eval a e; if isNil r then pure null else pure r) := by
    intro n a h hp
    have ha : size a < n := by simp only [size] at h; omega
    simp only [qq, isListP, isPair, Bool.true_or, Bool.not_true, Bool.false_eq_true, if_false, headIs_iff, if_true, car, cdr,
      (qq_plain n).1 a 1 e ha hp]
    rfl
  have keep : ∀ {n l l' : Nat} {m : String} {a : Data}, (m = "quasiquote" ∧ l' = l + 1) ∨ ((m = "unquote" ∨ m = "unquote-splicing") ∧ l = l' + 1 ∧ 1 ≤ l') →
      qq (n + 1) (cons (sym m) (cons a null)) l e = (do let p ← qq n a l' e; pure (cons (cons (sym m) p) null)) := by
    intro n l l' m a hm
    rcases hm with ⟨rfl, rfl⟩ | ⟨rfl | rfl, rfl, h⟩
    · simp [qq, isListP, isPair, headIs_iff, car, cdr]
    · have : ¬ (l' = 0) := by omega
      simp [qq, isListP, isPair, headIs_iff, car, cdr, this]
    · have : ¬ (l' = 0) := by omega
      simp [qq, isListP, isPair, headIs_iff, car, cdr, this]
  have keepOk : ∀ {n l l' : Nat} {m : String} {a : Data} {ys : List Data} {s s' : Store},
      (m = "quasiquote" ∧ l' = l + 1) ∨ ((m = "unquote" ∨ m = "unquote-splicing") ∧ l = l' + 1 ∧ 1 ≤ l') →
      One (body C) n a l' e s (.ok ys) s' → Data.null ∉ ys →
      One (body C) (n + 1) (cons (sym m) (cons a null)) l e s (.ok [ofArray (sym m :: ys)]) s' := by
    intro n l l' m a ys s s' hm h hn
    obtain ⟨p, h1, h2⟩ := h
    refine ⟨cons (ofArray (sym m :: ys)) null, ?_, .cons .nil⟩
    rw [keep hm, runsP_bind_ok h1, runsP_pure, ofArray_chain (.cons h2) (by simpa using hn)]
    exact ⟨rfl, rfl⟩
  have keepFails : ∀ {n l l' : Nat} {m : String} {a : Data} {r : Out (List Data)} {s s' : Store},
      (m = "quasiquote" ∧ l' = l + 1) ∨ ((m = "unquote" ∨ m = "unquote-splicing") ∧ l = l' + 1 ∧ 1 ≤ l') →
      One (body C) n a l' e s r s' → ¬ Ok r → One (body C) (n + 1) (cons (sym m) (cons a null)) l e s r s' := by
    intro n l l' m a r s s' hm h hr
    cases r with
    | ok ys => exact absurd trivial hr
    | err er => simp only [One]; rw [keep hm, runsP_bind_err h]; exact ⟨rfl, rfl⟩
    | panic => simp only [One]; rw [keep hm]; exact runsP_bind_panic h
    | timeout => exact h
  have pos : ∀ {x : Data} {n : Nat}, (∀ y ∈ [x], size y < n) → ∃ m, n = m + 1 ∧ size x < m + 1 := by
    intro x n h
    have := h x (by simp)
    cases n with
    | zero => omega
    | succ m => exact ⟨m, rfl, this⟩
  induction h with
  | done =>
    intro n _
    refine ⟨⟨[], ?_, .nil⟩, fun x hx => by cases hx⟩
    simp only [qqList_nil]; exact runsP_pure.mpr ⟨rfl, rfl⟩
  | @next l x xs ys zs s s₁ s' _ _ ih1 ih2 =>
    intro n hn
    obtain ⟨p, hp, hc⟩ := (ih1 n fun y hy => hn y (by simp at hy; simp [hy])).2 x rfl
    obtain ⟨ps, hps, hpt⟩ := (ih2 n fun y hy => hn y (by simp [hy])).1
    refine ⟨⟨if p = null then ps else p :: ps, ?_, ?_⟩, ?_⟩
    · simp only [qqList_cons]
      rw [runsP_bind_ok hp, runsP_bind_ok hps, runsP_pure]; exact ⟨rfl, rfl⟩
    · by_cases h : p = null
      · subst h; cases hc; simpa using hpt
      · simp only [h, if_false]; exact .cons h hc hpt
    · intro y hy
      cases hy
      simp only [qqList_nil] at hps
      obtain ⟨h1, rfl⟩ := runsP_pure.mp hps
      cases h1; cases hpt
      rw [List.append_nil]; exact ⟨p, hp, hc⟩
  | @first l x xs r s s' _ hr ih =>
    intro n hn
    have h1 := (ih n fun y hy => hn y (by simp at hy; simp [hy])).2 x rfl
    refine ⟨?_, fun y hy => by cases hy; exact h1⟩
    cases r with
    | ok => exact absurd trivial hr
    | err er => exact qqList_one_err h1
    | panic => exact qqList_one_panic h1
    | timeout => exact h1
  | @later l x xs ys r s s₁ s' _ h' hr ih1 ih2 =>
    intro n hn
    obtain ⟨p, hp, hc⟩ := (ih1 n fun y hy => hn y (by simp at hy; simp [hy])).2 x rfl
    have h2 := (ih2 n fun y hy => hn y (by simp [hy])).1
    refine ⟨?_, fun y hy => ?_⟩
    · cases r with
      | ok => exact absurd trivial hr
      | err er => simp only [Many, qqList_cons]; rw [runsP_bind_ok hp, runsP_bind_err h2]; exact ⟨rfl, rfl⟩
      | panic => simp only [Many, qqList_cons]; rw [runsP_bind_ok hp]; exact runsP_bind_panic h2
      | timeout => exact h2
    · cases hy
      cases r with
      | ok => exact absurd trivial hr
      | err er => simp only [Many, qqList_nil] at h2; cases (runsP_pure.mp h2).1
      | panic => simp only [Many, qqList_nil] at h2; cases (runsP_pure.mp h2).1
      | timeout => exact h2
  | @atom l a s =>
    intro n hn
    obtain ⟨m, rfl, _⟩ := pos hn
    refine single ⟨cons (.atom a) null, ?_, .cons .nil⟩
    have : qq (m + 1) (.atom a) l e = pure (cons (.atom a) null) := by simp [qq, isListP, isPair, isAlist]
    rw [this]
    exact runsP_pure.mpr ⟨rfl, rfl⟩
  | @list l x xs ys s s' hl hp hm _ ih =>
    intro n hn
    obtain ⟨m, rfl, hsz⟩ := pos hn
    obtain ⟨ps, h1, h2⟩ := (ih m fun y hy => small hl hp hsz hy).1
    refine single ⟨cons (ofArray ys) null, ?_, .cons .nil⟩
    rw [lst_list hl hp hm, runsP_bind_ok h1, h2.flatten, runsP_pure]; exact ⟨rfl, rfl⟩
  | @listFails l x xs r s s' hl hp hm _ hr ih =>
    intro n hn
    obtain ⟨m, rfl, hsz⟩ := pos hn
    have h1 := (ih m fun y hy => small hl hp hsz hy).1
    refine single ?_
    cases r with
    | ok => exact absurd trivial hr
    | err er => simp only [One]; rw [lst_list hl hp hm, runsP_bind_err h1]; exact ⟨rfl, rfl⟩
    | panic => simp only [One]; rw [lst_list hl hp hm]; exact runsP_bind_panic h1
    | timeout => exact h1
  | @value a s v s' hp h =>
    intro n hn
    obtain ⟨m, rfl, hsz⟩ := pos hn
    refine single ⟨cons v null, ?_, .cons .nil⟩
    rw [unq hsz hp, runsP_bind_ok (runsP_eval.mpr h), runsP_pure]; exact ⟨rfl, rfl⟩
  | @valueErr a er s s' hp h =>
    intro n hn
    obtain ⟨m, rfl, hsz⟩ := pos hn
    refine single ?_
    simp only [One]; rw [unq hsz hp, runsP_bind_err (runsP_eval.mpr h)]; exact ⟨rfl, rfl⟩
  | @valuePanic a s s' hp h =>
    intro n hn
    obtain ⟨m, rfl, hsz⟩ := pos hn
    refine single ?_
    simp only [One]; rw [unq hsz hp]; exact runsP_bind_panic (runsP_eval.mpr h)
  | @splice a s v vs s' hp h hv =>
    intro n hn
    obtain ⟨m, rfl, hsz⟩ := pos hn
    refine single ?_
    simp only [One]; rw [spl hsz hp]
    by_cases hnil : isNil v = true
    · refine ⟨null, ?_, ?_⟩
      · rw [runsP_bind_ok (runsP_eval.mpr h)]; simp only [hnil, if_true]; exact runsP_pure.mpr ⟨rfl, rfl⟩
      · rcases hv with ⟨hv, h0⟩ | ⟨_, rfl⟩
        · cases hv with
          | nil => exact .nil
          | @cons a' d' xs' hd =>
            refine absurd hnil ?_
            rw [Bool.not_eq_true]
            exact (isNil_cell_false _ _ _).mpr fun h => h0 (by simp [h.1])
        · exact .nil
    · refine ⟨v, ?_, ?_⟩
      · rw [runsP_bind_ok (runsP_eval.mpr h)]; rw [if_neg hnil]; exact runsP_pure.mpr ⟨rfl, rfl⟩
      · rcases hv with ⟨hv, _⟩ | ⟨rfl, rfl⟩
        · exact hv
        · exact absurd rfl hnil
  | @spliceErr a er s s' hp h =>
    intro n hn
    obtain ⟨m, rfl, hsz⟩ := pos hn
    refine single ?_
    simp only [One]; rw [spl hsz hp, runsP_bind_err (runsP_eval.mpr h)]; exact ⟨rfl, rfl⟩
  | @splicePanic a s s' hp h =>
    intro n hn
    obtain ⟨m, rfl, hsz⟩ := pos hn
    refine single ?_
    simp only [One]; rw [spl hsz hp]; exact runsP_bind_panic (runsP_eval.mpr h)
  | @deeper l a ys s s' _ hn0 ih =>
    intro n hn
    obtain ⟨m, rfl, hsz⟩ := pos hn
    exact single (keepOk (Or.inl ⟨rfl, rfl⟩) ((ih m (by simp [size] at hsz ⊢; omega)).2 a rfl) hn0)
  | @deeperFails l a r s s' _ hr ih =>
    intro n hn
    obtain ⟨m, rfl, hsz⟩ := pos hn
    exact single (keepFails (Or.inl ⟨rfl, rfl⟩) ((ih m (by simp [size] at hsz ⊢; omega)).2 a rfl) hr)
  | @inner l mk a ys s s' hmk _ hn0 ih =>
    intro n hn
    obtain ⟨m, rfl, hsz⟩ := pos hn
    exact single (keepOk (Or.inr ⟨hmk, rfl, by omega⟩) ((ih m (by simp [size] at hsz ⊢; omega)).2 a rfl) hn0)
  | @innerFails l mk a r s s' hmk _ hr ih =>
    intro n hn
    obtain ⟨m, rfl, hsz⟩ := pos hn
    exact single (keepFails (Or.inr ⟨hmk, rfl, by omega⟩) ((ih m (by simp [size] at hsz ⊢; omega)).2 a rfl) hr)

/-! ### Macros -/

theorem runsP_expandMacro {m : Nat} {args : Data} {xs : List Data} {ae : Nat} {s : Store} {mr : MacRec} (hi : s.macs[m]? = some mr)
    (hg : GoodMac s mr) (ha : Lst args xs) {r : Out Data} {s' : Store} :
    RunsP (body C) (expandMacro m args ae) s r s' ↔ Expands C m xs s r s' := by
  obtain ⟨⟨pr, hpr⟩, ps, rest, hp, hps⟩ := hg
  have hG : ∀ a s r s', RunsP (body C) (if false then Prog.eval a ae else pure a) s r s' ↔ r = .ok a ∧ s' = s := fun a s r s' => runsP_pure
  rw [expandMacro, runsP_get]
  simp only [hi]
  rw [runsP_op_bind (newEnv_run hpr none mr.name), makeLocalBindings, ha.length, ha.toArray]
  by_cases hf : Fits ps rest xs.length
  · rw [(countOk_iff hp _).mpr hf, if_pos rfl,
      runsP_bind_ok ((runsP_bindParams hG hp hps hf).mpr (((const_values xs).binds ps hf).mpr ⟨rfl, rfl⟩)), runsP_eval]
    constructor
    · intro h; exact .run hi hpr hp hf h
    · intro h
      cases h with
      | run hi' hpr' hp' hf' h =>
        rw [hi] at hi'; cases hi'; rw [hpr] at hpr'; cases hpr'
        obtain ⟨rfl, rfl⟩ := Params.unique hp hp'
        exact h
      | count hi' hpr' hp' hf' =>
        rw [hi] at hi'; cases hi'
        obtain ⟨rfl, rfl⟩ := Params.unique hp hp'
        exact absurd hf hf'
  · have hc : countOk mr.params xs.length = false := by
      rw [← Bool.not_eq_true, countOk_iff hp]; exact hf
    rw [hc]
    simp only [Bool.false_eq_true, if_false]
    rw [runsP_bind_err (runsP_fail.mpr ⟨rfl, rfl⟩), Params_required hp]
    constructor
    · rintro ⟨rfl, rfl⟩
      exact .count hi hpr hp hf rfl
    · intro h
      cases h with
      | count hi' hpr' hp' hf' hm =>
        rw [hi] at hi'; cases hi'; rw [hpr] at hpr'; cases hpr'
        obtain ⟨rfl, rfl⟩ := Params.unique hp hp'
        subst hm
        exact ⟨rfl, rfl⟩
      | run hi' hpr' hp' hf' =>
        rw [hi] at hi'; cases hi'
        obtain ⟨rfl, rfl⟩ := Params.unique hp hp'
        exact absurd hf' hf

theorem runsP_bindName {e : Nat} {x : String} {v : Data} {s : Store} {r : Out Data} {s' : Store} :
    RunsP bd (do let _ ← Prog.op (.bind e x v); pure v) s r s' ↔ BindsName s e x v r s' := by
  unfold BindsName
  cases hb : s.localB e x with
  | none =>
    rw [runsP_op_bind (n := 0) (s₁ := s.putVal e x v) (by simp only [Op.run, hb]), runsP_pure]
    simp
  | some b =>
    cases hp : b.prot with
    | true =>
      rw [runsP_bind_err (e := Op.protErr x) (s₁ := s) (runsP_op.mpr (by simp only [Op.run, hb, hp, if_true]))]
      simp [hp, Op.protErr]
    | false =>
      rw [runsP_op_bind (n := 0) (s₁ := s.putVal e x v) (by simp [Op.run, hb, hp]), runsP_pure]
      simp [hp]

end Golisp.Ev
