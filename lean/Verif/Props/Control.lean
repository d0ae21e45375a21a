import Verif.CallLemmas
import Verif.Demo
/- C37 (conditionals), C39 (sequences), C41 (errors and `on-error`), C42 (determinism and depth). -/
namespace Golisp.Props
open Golisp Data Ev Spec

variable {C : Conf} {e : Nat} {s : Store} {r : Out Data} {s' : Store}

/-! ### C37: conditionals -/

private theorem lst_args {xs : List Data} (hn : Data.null ∉ xs) : Lst (ofArray xs) xs := by
  have := Lst.ofArray xs; rwa [map_elem_id hn] at this

private theorem noNull_of_mem {xs : List Data} (hn : Data.null ∉ xs) {x : Data} (hx : x ∈ xs) : noNull x = x := by
  cases x with
  | null => exact absurd hx hn
  | _ => rfl

/-- `(if c a b)`: the test once, then exactly one branch. -/
theorem C37_if (hw : WF s) (hm : Means C s e "if") {t c a b : Data} (ht : Lst t [c, a, b]) (hn : Data.null ∉ [c, a, b]) :
    Evals C (.cons (.sym "if") t) e s r s' ↔ ∃ r₀, r = quoting (.cons (.sym "if") t) r₀ ∧
      Then (Evals C c e s) (fun v s₁ r s' =>
        (Truthy v ∧ Evals C a e s₁ r s') ∨ (¬ Truthy v ∧ Evals C b e s₁ r s')) r₀ s' := by
  rw [evals_form (P := ⟨"2|3".toList, true, false, ifImpl⟩) hw hm rfl (fun _ => rfl) rfl rfl rfl ht (by rfl)]
  have h1 : noNull c = c := noNull_of_mem hn (by simp)
  have h2 : noNull a = a := noNull_of_mem hn (by simp)
  have h3 : noNull b = b := noNull_of_mem hn (by simp)
  have hl := lst_args hn
  have n2 : nth (ofArray [c, a, b]) 2 = a := by rw [nth_spec hl]; simp
  have n3 : nth (ofArray [c, a, b]) 3 = b := by rw [nth_spec hl]; simp
  have n1 : car (ofArray [c, a, b]) = c := by rw [car_Lst hl]; simp
  refine exists_congr fun r₀ => ?_
  rw [and_comm]
  refine and_congr Iff.rfl ?_
  show RunsP (body C) (ifImpl _ e) s r₀ s' ↔ _
  rw [ifImpl, runsP_eval_then, n1, n2, n3]
  refine Then.congr fun v s₁ => ?_
  cases hb : boolValue v with
  | true => simp [(boolValue_iff v).mp hb, runsP_eval]; rfl
  | false => simp [(boolValue_false_iff v).mp hb, runsP_eval]; rfl

/-- `(if c a)`: nil when the test fails. -/
theorem C37_if_two (hw : WF s) (hm : Means C s e "if") {t c a : Data} (ht : Lst t [c, a]) (hn : Data.null ∉ [c, a]) :
    Evals C (.cons (.sym "if") t) e s r s' ↔ ∃ r₀, r = quoting (.cons (.sym "if") t) r₀ ∧
      Then (Evals C c e s) (fun v s₁ r s' =>
        (Truthy v ∧ Evals C a e s₁ r s') ∨ (¬ Truthy v ∧ r = .ok .null ∧ s' = s₁)) r₀ s' := by
  rw [evals_form (P := ⟨"2|3".toList, true, false, ifImpl⟩) hw hm rfl (fun _ => rfl) rfl rfl rfl ht (by rfl)]
  have hl := lst_args hn
  have n2 : nth (ofArray [c, a]) 2 = a := by rw [nth_spec hl]; simp
  have n3 : nth (ofArray [c, a]) 3 = .null := by rw [nth_spec hl]; simp
  have n1 : car (ofArray [c, a]) = c := by rw [car_Lst hl]; simp
  refine exists_congr fun r₀ => ?_
  rw [and_comm]
  refine and_congr Iff.rfl ?_
  show RunsP (body C) (ifImpl _ e) s r₀ s' ↔ _
  rw [ifImpl, runsP_eval_then, n1, n2, n3]
  refine Then.congr fun v s₁ => ?_
  cases hb : boolValue v with
  | true => simp [(boolValue_iff v).mp hb, runsP_eval]; rfl
  | false => simp [(boolValue_false_iff v).mp hb, runsP_eval]; exact evals_null

/-- `(when c b…)` runs the body only if the test holds. -/
theorem C37_when (hw : WF s) (hm : Means C s e "when") {t c : Data} {bs : List Data} (ht : Lst t (c :: bs))
    (hn : Data.null ∉ c :: bs) (hb : bs ≠ []) :
    Evals C (.cons (.sym "when") t) e s r s' ↔ ∃ r₀, r = quoting (.cons (.sym "when") t) r₀ ∧
      Then (Evals C c e s) (fun v s₁ r s' =>
        (Truthy v ∧ Seq C e bs .null s₁ r s') ∨ (¬ Truthy v ∧ r = .ok .null ∧ s' = s₁)) r₀ s' := by
  rw [evals_form (P := ⟨">=2".toList, true, false, whenImpl⟩) hw hm rfl (fun _ => rfl) rfl rfl rfl ht (count_ge2 hb)]
  have hl := lst_args hn
  have n1 : car (ofArray (c :: bs)) = c := by rw [car_Lst hl]; simp
  have n2 : Lst (cdr (ofArray (c :: bs))) bs := cdr_Lst hl
  refine exists_congr fun r₀ => ?_
  rw [and_comm]
  refine and_congr Iff.rfl ?_
  show RunsP (body C) (whenImpl _ e) s r₀ s' ↔ _
  rw [whenImpl, runsP_eval_then, n1]
  refine Then.congr fun v s₁ => ?_
  cases hb : boolValue v with
  | true => simp [(boolValue_iff v).mp hb, runsP_body n2]
  | false => simp [(boolValue_false_iff v).mp hb, runsP_pure]

/-- `(unless c b…)` runs the body only if the test fails. -/
theorem C37_unless (hw : WF s) (hm : Means C s e "unless") {t c : Data} {bs : List Data} (ht : Lst t (c :: bs))
    (hn : Data.null ∉ c :: bs) (hb : bs ≠ []) :
    Evals C (.cons (.sym "unless") t) e s r s' ↔ ∃ r₀, r = quoting (.cons (.sym "unless") t) r₀ ∧
      Then (Evals C c e s) (fun v s₁ r s' =>
        (¬ Truthy v ∧ Seq C e bs .null s₁ r s') ∨ (Truthy v ∧ r = .ok .null ∧ s' = s₁)) r₀ s' := by
  rw [evals_form (P := ⟨">=2".toList, true, false, unlessImpl⟩) hw hm rfl (fun _ => rfl) rfl rfl rfl ht (count_ge2 hb)]
  have hl := lst_args hn
  have n1 : car (ofArray (c :: bs)) = c := by rw [car_Lst hl]; simp
  have n2 : Lst (cdr (ofArray (c :: bs))) bs := cdr_Lst hl
  refine exists_congr fun r₀ => ?_
  rw [and_comm]
  refine and_congr Iff.rfl ?_
  show RunsP (body C) (unlessImpl _ e) s r₀ s' ↔ _
  rw [unlessImpl, runsP_eval_then, n1]
  refine Then.congr fun v s₁ => ?_
  cases hb : boolValue v with
  | true => simp [(boolValue_iff v).mp hb, runsP_pure]
  | false => simp [(boolValue_false_iff v).mp hb, runsP_body n2]

private theorem condLoop_iff (cls : List Data) (hc : ∀ cl ∈ cls, ∃ t bd bs, cl = .cons t bd ∧ Lst bd bs) :
    ∀ (s : Store) (r : Out Data) (s' : Store), RunsP (body C) (condLoop e cls) s r s' ↔ Cond C e cls s r s' := by
  induction cls with
  | nil =>
    intro s r s'
    rw [condLoop, runsP_pure]
    exact ⟨by rintro ⟨rfl, rfl⟩; exact .none, by intro h; cases h; exact ⟨rfl, rfl⟩⟩
  | cons cl cls ih =>
    intro s r s'
    obtain ⟨t, bd, bs, rfl, hbd⟩ := hc cl (by simp)
    have ih := ih fun cl h => hc cl (by simp [h])
    rw [condLoop]
    by_cases ht : t = .sym "else"
    · subst ht
      have he : @isEqual .none (.sym "else") (.sym "else") = true := (@isEqual_sym .none _ _).mpr rfl
      simp only [isPair, car, cdr, Bool.not_true, Bool.false_eq_true, if_false, he, if_true]
      rw [runsP_body hbd]
      constructor
      · intro h; exact .otherwise hbd h
      · intro h
        cases h with
        | otherwise h1 h2 => rwa [hbd.unique h1]
        | hit hne => exact absurd rfl hne
        | miss hne => exact absurd rfl hne
        | stop hne => exact absurd rfl hne
    · have he : @isEqual .none t (.sym "else") = false := Bool.eq_false_iff.mpr fun h => ht ((@isEqual_sym .none _ _).mp h)
      simp only [isPair, car, cdr, Bool.not_true, Bool.false_eq_true, if_false, he]
      rw [runsP_eval_then]
      constructor
      · rintro (⟨v, s₁, h1, h2⟩ | ⟨h1, h2⟩)
        · cases hb : boolValue v with
          | true =>
            simp only [hb, if_true] at h2
            exact .hit ht h1 ((boolValue_iff v).mp hb) hbd ((runsP_body hbd).mp h2)
          | false =>
            simp only [hb, Bool.false_eq_true, if_false] at h2
            exact .miss ht h1 ((boolValue_false_iff v).mp hb) ((ih _ _ _).mp h2)
        · exact .stop ht h1 h2
      · intro h
        cases h with
        | otherwise => exact absurd rfl ht
        | @hit _ _ bs' _ v _ s₁ _ _ _ h1 h2 h3 h4 =>
          refine Or.inl ⟨v, s₁, h1, ?_⟩
          simp only [(boolValue_iff v).mpr h2, if_true]
          rw [runsP_body hbd, hbd.unique h3]; exact h4
        | @miss _ _ _ v _ s₁ _ _ _ h1 h2 h3 =>
          refine Or.inl ⟨v, s₁, h1, ?_⟩
          simp only [(boolValue_false_iff v).mpr h2, Bool.false_eq_true, if_false]
          exact (ih _ _ _).mpr h3
        | stop _ h1 h2 => exact Or.inr ⟨h1, h2⟩

/-- `cond` over well-formed clauses. -/
theorem C37_cond (hw : WF s) (hm : Means C s e "cond") {t : Data} {cls : List Data} (ht : Lst t cls)
    (hc : ∀ cl ∈ cls, ∃ t bd bs, cl = .cons t bd ∧ Lst bd bs) :
    Evals C (.cons (.sym "cond") t) e s r s' ↔ ∃ r₀, r = quoting (.cons (.sym "cond") t) r₀ ∧ Cond C e cls s r₀ s' := by
  rw [evals_form (P := ⟨"*".toList, true, false, condImpl⟩) hw hm rfl (fun _ => rfl) rfl rfl rfl ht (by rfl)]
  have hn : Data.null ∉ cls := by intro h; obtain ⟨_, _, _, h, _⟩ := hc _ h; cases h
  refine exists_congr fun r₀ => ?_
  rw [and_comm]
  refine and_congr Iff.rfl ?_
  show RunsP (body C) (condImpl _ e) s r₀ s' ↔ _
  rw [condImpl, (lst_args hn).toArray, condLoop_iff cls hc]

private theorem caseLoop_iff (key : Data) (cls : List Data)
    (hc : ∀ cl ∈ cls, ∃ ds bd bs, cl = .cons ds bd ∧ Lst bd bs ∧ (ds = .sym "else" ∨ isListP ds = true ∧ ∃ xs, Lst ds xs)) :
    ∀ (s : Store) (r : Out Data) (s' : Store),
      RunsP (body C) (@caseLoop (Frame.eqIn s.frames) key e cls) s r s' ↔ Case C e key cls s r s' := by
  intro s
  letI := Frame.eqIn s.frames
  induction cls with
  | nil =>
    intro r s'
    rw [caseLoop, runsP_pure]
    exact ⟨by rintro ⟨rfl, rfl⟩; exact .none, by intro h; cases h; exact ⟨rfl, rfl⟩⟩
  | cons cl cls ih =>
    intro r s'
    obtain ⟨t, bd, bs, rfl, hbd, hds⟩ := hc cl (by simp)
    have ih := ih fun cl h => hc cl (by simp [h])
    rw [caseLoop]
    by_cases ht : t = .sym "else"
    · subst ht
      have he : isEqual (.sym "else") (.sym "else") = true := (isEqual_sym _ _).mpr rfl
      simp only [isPair, car, cdr, Bool.not_true, Bool.false_eq_true, if_false, he, if_true]
      rw [runsP_body hbd]
      constructor
      · intro h; exact .otherwise hbd h
      · intro h
        cases h with
        | otherwise h1 h2 => rwa [hbd.unique h1]
        | hit h => cases h
        | miss h => cases h
    · obtain ⟨hlp, xs, hxs⟩ := hds.resolve_left ht
      have he : isEqual t (.sym "else") = false := Bool.eq_false_iff.mpr fun h => ht ((isEqual_sym _ _).mp h)
      simp only [isPair, car, cdr, Bool.not_true, Bool.false_eq_true, if_false, he, hlp, if_true, hxs.toArray]
      by_cases hany : ∃ x ∈ xs, isEqual x key = true
      · rw [if_pos (List.any_eq_true.mpr hany), runsP_body hbd]
        constructor
        · intro h; exact .hit hxs hany hbd h
        · intro h
          cases h with
          | otherwise => exact absurd rfl ht
          | hit h1 h2 h3 h4 => rwa [hbd.unique h3]
          | miss h1 h2 h3 =>
            obtain ⟨x, hx, he⟩ := hany
            rw [hxs.unique h1] at hx
            exact absurd he (by simp [h2 x hx])
      · have hall : ∀ x ∈ xs, isEqual x key = false := fun x hx => by
          cases h : isEqual x key with
          | false => rfl
          | true => exact absurd ⟨x, hx, h⟩ hany
        rw [if_neg (fun h => hany (List.any_eq_true.mp h)), ih]
        constructor
        · intro h; exact .miss hxs hall h
        · intro h
          cases h with
          | otherwise => exact absurd rfl ht
          | hit h1 h2 h3 h4 => rw [hxs.unique h1] at hany; exact absurd h2 hany
          | miss h1 h2 h3 => exact h3

/-- `case`: the key once, then the clauses over it. -/
theorem C37_case (hw : WF s) (hm : Means C s e "case") {t k : Data} {cls : List Data} (ht : Lst t (k :: cls))
    (hk : k ≠ .null)
    (hc : ∀ cl ∈ cls, ∃ ds bd bs, cl = .cons ds bd ∧ Lst bd bs ∧ (ds = .sym "else" ∨ isListP ds = true ∧ ∃ xs, Lst ds xs)) :
    Evals C (.cons (.sym "case") t) e s r s' ↔ ∃ r₀, r = quoting (.cons (.sym "case") t) r₀ ∧
      Then (Evals C k e s) (fun key s₁ r s' => Case C e key cls s₁ r s') r₀ s' := by
  rw [evals_form (P := ⟨">=1".toList, true, false, caseImpl⟩) hw hm rfl (fun _ => rfl) rfl rfl rfl ht (count_ge1 (by simp))]
  have hn : Data.null ∉ k :: cls := by
    intro h
    rcases List.mem_cons.mp h with h | h
    · exact hk h.symm
    · obtain ⟨_, _, _, h, _⟩ := hc _ h; cases h
  have hl := lst_args hn
  have n1 : car (ofArray (k :: cls)) = k := by rw [car_Lst hl]; simp
  have n2 : Lst (cdr (ofArray (k :: cls))) cls := cdr_Lst hl
  refine exists_congr fun r₀ => ?_
  rw [and_comm]
  refine and_congr Iff.rfl ?_
  show RunsP (body C) (caseImpl _ e) s r₀ s' ↔ _
  rw [caseImpl, runsP_eval_then, n1, n2.toArray]
  exact Then.congr fun v s₁ => runsP_get.trans (caseLoop_iff v cls hc _ _ _)

private theorem andLoop_iff (xs : List Data) : ∀ (u : Data) (s : Store) (r : Out Data) (s' : Store),
    RunsP (body C) (andLoop e xs u) s r s' ↔ AllOf C e xs u s r s' := by
  induction xs with
  | nil =>
    intro u s r s'
    rw [andLoop, runsP_pure]
    exact ⟨by rintro ⟨rfl, rfl⟩; exact .done, by intro h; cases h; exact ⟨rfl, rfl⟩⟩
  | cons x xs ih =>
    intro u s r s'
    rw [andLoop, runsP_eval_then]
    constructor
    · rintro (⟨v, s₁, h1, h2⟩ | ⟨h1, h2⟩)
      · cases hb : boolValue v with
        | true => simp only [hb, Bool.not_true, Bool.false_eq_true, if_false] at h2
                  exact .next h1 ((boolValue_iff v).mp hb) ((ih _ _ _ _).mp h2)
        | false => simp only [hb, Bool.not_false, if_true] at h2
                   obtain ⟨rfl, rfl⟩ := runsP_pure.mp h2
                   exact .decided h1 ((boolValue_false_iff v).mp hb)
      · exact .stop h1 h2
    · intro h
      cases h with
      | next h1 h2 h3 =>
        refine Or.inl ⟨_, _, h1, ?_⟩
        simp only [(boolValue_iff _).mpr h2, Bool.not_true, Bool.false_eq_true, if_false]
        exact (ih _ _ _ _).mpr h3
      | decided h1 h2 =>
        refine Or.inl ⟨_, _, h1, ?_⟩
        simp only [(boolValue_false_iff _).mpr h2, Bool.not_false, if_true]
        exact runsP_pure.mpr ⟨rfl, rfl⟩
      | stop h1 h2 => exact Or.inr ⟨h1, h2⟩

private theorem orLoop_iff (xs : List Data) : ∀ (u : Data) (s : Store) (r : Out Data) (s' : Store),
    RunsP (body C) (orLoop e xs u) s r s' ↔ AnyOf C e xs u s r s' := by
  induction xs with
  | nil =>
    intro u s r s'
    rw [orLoop, runsP_pure]
    exact ⟨by rintro ⟨rfl, rfl⟩; exact .done, by intro h; cases h; exact ⟨rfl, rfl⟩⟩
  | cons x xs ih =>
    intro u s r s'
    rw [orLoop, runsP_eval_then]
    constructor
    · rintro (⟨v, s₁, h1, h2⟩ | ⟨h1, h2⟩)
      · cases hb : boolValue v with
        | false => simp only [hb, Bool.false_eq_true, if_false] at h2
                   exact .next h1 ((boolValue_false_iff v).mp hb) ((ih _ _ _ _).mp h2)
        | true => simp only [hb, if_true] at h2
                  obtain ⟨rfl, rfl⟩ := runsP_pure.mp h2
                  exact .decided h1 ((boolValue_iff v).mp hb)
      · exact .stop h1 h2
    · intro h
      cases h with
      | next h1 h2 h3 =>
        refine Or.inl ⟨_, _, h1, ?_⟩
        simp only [(boolValue_false_iff _).mpr h2, Bool.false_eq_true, if_false]
        exact (ih _ _ _ _).mpr h3
      | decided h1 h2 =>
        refine Or.inl ⟨_, _, h1, ?_⟩
        simp only [(boolValue_iff _).mpr h2, if_true]
        exact runsP_pure.mpr ⟨rfl, rfl⟩
      | stop h1 h2 => exact Or.inr ⟨h1, h2⟩

/-- `and`: left to right, stops at the first false value, which is the result; else the last value. -/
theorem C37_and (hw : WF s) (hm : Means C s e "and") {t : Data} {xs : List Data} (ht : Lst t xs) (hn : Data.null ∉ xs) :
    Evals C (.cons (.sym "and") t) e s r s' ↔ ∃ r₀, r = quoting (.cons (.sym "and") t) r₀ ∧ AllOf C e xs .null s r₀ s' := by
  rw [evals_form (P := ⟨"*".toList, true, false, andImpl⟩) hw hm rfl (fun _ => rfl) rfl rfl rfl ht (by rfl)]
  refine exists_congr fun r₀ => ?_
  rw [and_comm]
  refine and_congr Iff.rfl ?_
  show RunsP (body C) (andImpl _ e) s r₀ s' ↔ _
  rw [andImpl, (lst_args hn).toArray, andLoop_iff]

/-- `or`: left to right, stops at the first true value, which is the result; else the last value. -/
theorem C37_or (hw : WF s) (hm : Means C s e "or") {t : Data} {xs : List Data} (ht : Lst t xs) (hn : Data.null ∉ xs) :
    Evals C (.cons (.sym "or") t) e s r s' ↔ ∃ r₀, r = quoting (.cons (.sym "or") t) r₀ ∧ AnyOf C e xs .null s r₀ s' := by
  rw [evals_form (P := ⟨"*".toList, true, false, orImpl⟩) hw hm rfl (fun _ => rfl) rfl rfl rfl ht (by rfl)]
  refine exists_congr fun r₀ => ?_
  rw [and_comm]
  refine and_congr Iff.rfl ?_
  show RunsP (body C) (orImpl _ e) s r₀ s' ↔ _
  rw [orImpl, (lst_args hn).toArray, orLoop_iff]

/-! ### C39: sequences -/

/-- `begin`: the forms in order in the same environment. -/
theorem C39_begin (hw : WF s) (hm : Means C s e "begin") {t : Data} {xs : List Data} (ht : Lst t xs) (hn : Data.null ∉ xs) :
    Evals C (.cons (.sym "begin") t) e s r s' ↔ ∃ r₀, r = quoting (.cons (.sym "begin") t) r₀ ∧ Seq C e xs .null s r₀ s' := by
  rw [evals_form (P := ⟨"*".toList, true, false, beginImpl⟩) hw hm rfl (fun _ => rfl) rfl rfl rfl ht (by rfl)]
  refine exists_congr fun r₀ => ?_
  rw [and_comm]
  refine and_congr Iff.rfl ?_
  show RunsP (body C) (beginImpl _ e) s r₀ s' ↔ _
  rw [beginImpl, runsP_body (lst_args hn)]

/-- What `Seq` means: either every form returned and the value is the last one's, or the forms up to some point
returned and the next one failed, and that failure is the outcome; later forms are not evaluated. -/
theorem C39_seq_iff {xs : List Data} {u : Data} : Seq C e xs u s r s' ↔
    (∃ vs, Args C e xs s (.ok vs) s' ∧ r = .ok (vs.getLast?.getD u)) ∨
    (∃ pre x post vs s₁, xs = pre ++ x :: post ∧ Args C e pre s (.ok vs) s₁ ∧ Evals C x e s₁ r s' ∧ ¬ Ok r) := by
  constructor
  · intro h
    induction h with
    | done => exact Or.inl ⟨[], .done, rfl⟩
    | @next x xs u v s s₁ r s' h1 _ ih =>
      rcases ih with ⟨vs, h2, rfl⟩ | ⟨pre, y, post, vs, s₂, rfl, h2, h3, h4⟩
      · refine Or.inl ⟨v :: vs, .next h1 h2, ?_⟩
        cases vs with
        | nil => rfl
        | cons w ws => simp [List.getLast?_cons]
      · exact Or.inr ⟨x :: pre, y, post, v :: vs, s₂, rfl, .next h1 h2, h3, h4⟩
    | @stop x xs u s r s' h1 h2 => exact Or.inr ⟨[], x, xs, [], s, rfl, .done, h1, h2⟩
  · rintro (⟨vs, h, rfl⟩ | ⟨pre, x, post, vs, s₁, rfl, h1, h2, h3⟩)
    · induction xs generalizing s vs u with
      | nil => cases h; exact .done
      | cons x xs ih =>
        cases h with
        | @next _ _ v _ s₁ vs _ h1 h2 =>
          refine .next h1 ?_
          have := ih (u := v) vs h2
          cases vs with
          | nil => exact this
          | cons w ws => simpa [List.getLast?_cons] using this
    · induction pre generalizing s vs u with
      | nil => cases h1; exact .stop h2 h3
      | cons y pre ih =>
        cases h1 with
        | next h4 h5 => exact .next h4 (ih _ h5)

/-! ### C41: errors and `on-error` -/

private theorem errText_arg {x : String} {ae : Nat} : Const (fun a => Evals C a ae) [str x] [str x] :=
  .cons (fun _ _ _ => by unfold Evals; rw [runs_iff]; exact runsP_ret) .nil

/-- `(on-error g h)`: when `g` returns a value that is the result and `h` is not even evaluated; when `g` fails, `h` is
evaluated, and the function it gives is called once with the text of the error, and what it does is the result. -/
theorem C41_on_error (hw : WF s) (hm : Means C s e "on-error") {t g h : Data} (ht : Lst t [g, h]) (hn : Data.null ∉ [g, h])
    (hdef : ∀ er s₁ s₂ i, Evals C g e s (.err er) s₁ → Evals C h e s₁ (.ok (.atom (.func i))) s₂ →
      ∃ fr, s₂.fns[i]? = some fr ∧ GoodFn s₂ fr) :
    Evals C (.cons (.sym "on-error") t) e s r s' ↔ ∃ r₀, r = quoting (.cons (.sym "on-error") t) r₀ ∧
      ((∃ v, Evals C g e s (.ok v) s' ∧ r₀ = .ok v) ∨ (Evals C g e s .panic s' ∧ r₀ = .panic) ∨
       (∃ er s₁, Evals C g e s (.err er) s₁ ∧ Then (Evals C h e s₁) (fun f s₂ r s' =>
         (∃ i, f = .atom (.func i) ∧ CallsV C i [.str (C.host.errText s₂ er)] e none s₂ r s') ∨
         ((∀ i, f ≠ .atom (.func i)) ∧ r = .err (.msg "on-error requires a function as it's second argument") ∧ s' = s₂)) r₀ s')) := by
  rw [evals_form (P := ⟨"2|3".toList, true, false, onErrorImpl C.host⟩) hw hm rfl (fun _ => rfl) rfl rfl rfl ht (by rfl)]
  refine exists_congr fun r₀ => ?_
  rw [and_comm]
  refine and_congr Iff.rfl ?_
  have h1 : noNull g = g := noNull_of_mem hn (by simp)
  have h2 : noNull h = h := noNull_of_mem hn (by simp)
  have hl := lst_args hn
  have c1 : car (ofArray [g, h]) = g := by rw [car_Lst hl]; rfl
  have c2 : car (cdr (ofArray [g, h])) = h := by rw [car_Lst (cdr_Lst hl)]; rfl
  show RunsP (body C) (onErrorImpl C.host _ e) s r₀ s' ↔ _
  rw [onErrorImpl, runsP_attempt]
  simp only [runsP_eval, c1, c2, hl.length, List.length_cons, List.length_nil]
  simp only [show (0 + 1 + 1 = 3) = False from by simp, if_false]
  refine Iff.trans (or_congr (b := _) Iff.rfl or_comm) (or_congr ?_ (or_congr Iff.rfl ?_))
  · constructor
    · rintro ⟨a, s₁, h, h'⟩; obtain ⟨rfl, rfl⟩ := runsP_ret.mp h'; exact ⟨a, h, rfl⟩
    · rintro ⟨v, h, rfl⟩; exact ⟨v, s', h, runsP_ret.mpr ⟨rfl, rfl⟩⟩
  · refine exists_congr fun er => exists_congr fun s₁ => ?_
    constructor
    · rintro ⟨hg, hx⟩
      refine ⟨hg, ?_⟩
      rw [runsP_eval_then] at hx
      rcases hx with ⟨v, s₂, hv, hx⟩ | hx
      · refine Or.inl ⟨v, s₂, hv, ?_⟩
        split at hx
        · rename_i i
          obtain ⟨fr, hfr, hgood⟩ := hdef er s₁ s₂ i hg hv
          rw [runsP_get, runsP_callFn_exprs hfr hgood (lst_args (by simp)), errText_arg.calls] at hx
          exact Or.inl ⟨i, rfl, hx⟩
        · rename_i hne
          exact Or.inr ⟨fun i h => hne i h, (runsP_fail.mp hx).1, (runsP_fail.mp hx).2⟩
      · exact Or.inr hx
    · rintro ⟨hg, hx⟩
      refine ⟨hg, ?_⟩
      rw [runsP_eval_then]
      rcases hx with ⟨v, s₂, hv, hx⟩ | hx
      · refine Or.inl ⟨v, s₂, hv, ?_⟩
        rcases hx with ⟨i, rfl, hx⟩ | ⟨hne, hx⟩
        · obtain ⟨fr, hfr, hgood⟩ := hdef er s₁ s₂ i hg hv
          rw [runsP_get, runsP_callFn_exprs hfr hgood (lst_args (by simp)), errText_arg.calls]
          exact hx
        · split
          · rename_i i; exact absurd rfl (hne i)
          · exact runsP_fail.mpr hx
      · exact Or.inr hx

/-! ### C42: determinism and depth -/

/-- Evaluation has at most one outcome and final state.  (The iteration order of maps is part of the interpreter's
configuration `C`.) -/
theorem C42_deterministic {d : Data} {r₁ r₂ : Out Data} {s₁ s₂ : Store} (h₁ : Evals C d e s r₁ s₁)
    (h₂ : Evals C d e s r₂ s₂) : r₁ = r₂ ∧ s₁ = s₂ := runs_det h₁ h₂

/-- Calls too. -/
theorem C42_apply_deterministic {f args : Data} {r₁ r₂ : Out Data} {s₁ s₂ : Store} (h₁ : Applies C f args e s r₁ s₁)
    (h₂ : Applies C f args e s r₂ s₂) : r₁ = r₂ ∧ s₁ = s₂ := runs_det h₁ h₂

/-- A run that finishes within depth `n` finishes in the same way within every larger depth. -/
theorem C42_depth {n m : Nat} (hnm : n ≤ m) {c : Call} (h : (recN (body C) n c s).1 ≠ .timeout) :
    recN (body C) m c s = recN (body C) n c s := recN_mono hnm c s h

/-- A run either finishes within some depth, and then within all larger ones alike, or within none. -/
theorem C42_finishes_or_not (c : Call) (s : Store) :
    (∃ n r s', r ≠ .timeout ∧ ∀ m, n ≤ m → recN (body C) m c s = (r, s')) ∨ ∀ m, (recN (body C) m c s).1 = .timeout := by
  by_cases h : ∀ m, (recN (body C) m c s).1 = .timeout
  · exact Or.inr h
  · obtain ⟨n, hn⟩ := Classical.not_forall.mp h
    exact Or.inl ⟨n, _, _, hn, fun m hm => recN_mono hm c s hn⟩

/-! ### Examples -/

section
open Demo

example : Ends "(if nil (no-such-function) (+ 1 2))" (.ok (int 3)) := ends 9 (by decide +kernel) (by simp)
example : Lst (cdr (code "(if nil (no-such-function) (+ 1 2))")) [sym "nil", code "(no-such-function)", code "(+ 1 2)"] := by
  rw [show cdr (code "(if nil (no-such-function) (+ 1 2))") = ofArray [sym "nil", code "(no-such-function)", code "(+ 1 2)"] from by decide +kernel]
  exact lst_args (by decide +kernel)
example : Means Demo.C Demo.s 1 "cond" := means _ (b := true) (by decide +kernel)
example : Writes "(cond ((write-line 1) 10) ((begin (write-line 2) #t) (write-line 3) 20) ((write-line 4) 30))" (.ok (int 20))
    ["1", "2", "3"] := writes 9 (by decide +kernel) (by decide +kernel) (by simp)
example : Ends "(case 3 ((1 2) 'low) ((3 4) 'mid) (else 'high))" (.ok (sym "mid")) := ends 9 (by decide +kernel) (by simp)
example : Writes "(and 1 (begin (write-line 1) #f) (write-line 2))" (.ok (bool false)) ["1"] :=
  writes 9 (by decide +kernel) (by decide +kernel) (by simp)
example : Writes "(or #f (begin (write-line 1) 7) (write-line 2))" (.ok (int 7)) ["1"] :=
  writes 9 (by decide +kernel) (by decide +kernel) (by simp)
example : Ends "(when #t 1 2)" (.ok (int 2)) := ends 9 (by decide +kernel) (by simp)
example : Ends "(unless #t 1 2)" (.ok null) := ends 9 (by decide +kernel) (by simp)
example : Fails "(begin 1 (nope 2) 3)"
    "\nEvaling (begin 1 (nope 2) 3). Nil when function or macro expected for nope." := fails 9 (by decide +kernel)
example : Ends "(on-error (+ 1 2) no-handler)" (.ok (int 3)) := ends 9 (by decide +kernel) (by simp)
example : Ends "(on-error (car (error \"bad\")) (lambda (msg) (string? msg)))" (.ok (bool true)) :=
  ends 20 (by decide +kernel) (by simp)
end

end Golisp.Props
