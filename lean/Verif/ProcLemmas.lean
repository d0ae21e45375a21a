import Verif.ProcSpec
import Verif.ListLemmas2
/- The loops of the primitives that take a procedure, as relations between calls. -/
namespace Golisp.Props
open Golisp Data Ev Spec

variable {bd : Call → Prog Data} {f : Data → Prog Data}

/-- One call of the loops. -/
abbrev Gives1 (bd : Call → Prog Data) (f : Data → Prog Data) (vs : List Data) : Store → Out Data → Store → Prop :=
  RunsP bd (f (ofArray vs))

theorem rows_cols {ls : List (Data × List Data)} {xss rs : List (List Data)} (h : Rows xss rs) (he : xss = ls.map (·.2)) (hne : ls ≠ [])
    (hl : ∀ p ∈ ls, Lst p.1 p.2) : Prim.minLen (ls.map (·.1)) = some rs.length := by
  obtain ⟨n, h1, h2, h3⟩ := minLen_spec ls hl hne
  rw [h1]
  congr 1
  clear h1
  have key : ∀ {xss rs : List (List Data)}, Rows xss rs → ∀ n, xss ≠ [] → (∀ p ∈ xss, n ≤ p.length) → (∃ p ∈ xss, n = p.length) →
      n = rs.length := by
    intro xss rs h
    induction h with
    | stop h0 => intro n _ h2 _; have := h2 _ h0; simpa using this
    | next qs _ ih =>
      intro n hne h2 h3
      obtain ⟨p, hp, rfl⟩ := h3
      obtain ⟨q, hq, rfl⟩ := List.mem_map.1 hp
      simp only [List.length_cons]
      congr 1
      refine ih _ (by intro h; simp at h; simp [h] at hne) ?_ ⟨q.2, List.mem_map.2 ⟨q, hq, rfl⟩, rfl⟩
      intro p' hp'
      obtain ⟨q', hq', rfl⟩ := List.mem_map.1 hp'
      have := h2 _ (List.mem_map.2 ⟨q', hq', rfl⟩)
      simpa using this
  subst he
  refine key h n (by simpa using hne) ?_ ?_
  · intro p hp; obtain ⟨q, hq, rfl⟩ := List.mem_map.1 hp; exact h2 q hq
  · obtain ⟨q, hq, rfl⟩ := h3; exact ⟨q.2, List.mem_map.2 ⟨q, hq, rfl⟩, rfl⟩

/-- Walking along the columns: the cars are the first row. -/
theorem cols_step {ls ps : List (Data × List Data)} (he : ps.map (·.2) = ls.map fun p => p.1 :: p.2) (hl : ∀ p ∈ ps, Lst p.1 p.2) :
    (ps.map (·.1)).map car = ls.map (·.1) ∧ ∃ qs : List (Data × List Data), (ps.map (·.1)).map cdr = qs.map (·.1) ∧
      qs.map (·.2) = ls.map (·.2) ∧ ∀ p ∈ qs, Lst p.1 p.2 := by
  refine ⟨?_, ps.map (fun p => (cdr p.1, p.2.tail)), by simp, ?_, cdrs_Lst hl⟩
  · rw [cars_eq hl, he]; simp
  · have : (ps.map (·.2)).map List.tail = ls.map (·.2) := by rw [he]; simp
    rw [List.map_map] at this ⊢; exact this

theorem runsP_mapLoop {xss rs : List (List Data)} (h : Rows xss rs) : ∀ ps : List (Data × List Data), ps.map (·.2) = xss →
    (∀ p ∈ ps, Lst p.1 p.2) → ∀ s r s', RunsP bd (mapLoopP f rs.length (ps.map (·.1))) s r s' ↔ Calls (Gives1 bd f) rs s r s' := by
  induction h with
  | stop =>
    intro ps _ _ s r s'
    rw [List.length_nil, mapLoopP, runsP_pure]
    constructor
    · rintro ⟨rfl, rfl⟩; exact .done
    · intro h; cases h; exact ⟨rfl, rfl⟩
  | @next rs ls _ ih =>
    intro ps he hl s r s'
    obtain ⟨h1, qs, h2, h3, h4⟩ := cols_step he hl
    rw [List.length_cons, mapLoopP, runsP_bind, h1, h2]
    have ih := ih qs h3 h4
    constructor
    · rintro (⟨a, s₁, h, h'⟩ | ⟨er, h, rfl⟩ | ⟨h, rfl⟩)
      · rw [runsP_bind] at h'
        rcases h' with (⟨vs, s₂, h2, h3⟩ | ⟨er, h2, rfl⟩ | ⟨h2, rfl⟩)
        · obtain ⟨rfl, rfl⟩ := runsP_pure.mp h3
          exact .next h ((ih _ _ _).mp h2)
        · exact .errLater h ((ih _ _ _).mp h2)
        · exact .panicLater h ((ih _ _ _).mp h2)
      · exact .err h
      · exact .panic h
    · intro h
      cases h with
      | next h h' => exact .inl ⟨_, _, h, runsP_bind.2 (.inl ⟨_, _, (ih _ _ _).2 h', runsP_pure.2 ⟨rfl, rfl⟩⟩)⟩
      | err h => exact .inr (.inl ⟨_, h, rfl⟩)
      | panic h => exact .inr (.inr ⟨h, rfl⟩)
      | errLater h h' => exact .inl ⟨_, _, h, runsP_bind.2 (.inr (.inl ⟨_, (ih _ _ _).2 h', rfl⟩))⟩
      | panicLater h h' => exact .inl ⟨_, _, h, runsP_bind.2 (.inr (.inr ⟨(ih _ _ _).2 h', rfl⟩))⟩

/-- Forget the value. -/
def forget {α : Type} : Out α → Out Unit
  | .ok _ => .ok ()
  | .err e => .err e
  | .panic => .panic
  | .timeout => .timeout

theorem runsP_forEachLoop {xss rs : List (List Data)} (h : Rows xss rs) : ∀ ps : List (Data × List Data), ps.map (·.2) = xss →
    (∀ p ∈ ps, Lst p.1 p.2) → ∀ s r s', RunsP bd (forEachLoopP f rs.length (ps.map (·.1))) s r s' ↔
      ∃ o, Calls (Gives1 bd f) rs s o s' ∧ r = forget o := by
  induction h with
  | stop =>
    intro ps _ _ s r s'
    rw [List.length_nil, forEachLoopP, runsP_pure]
    constructor
    · rintro ⟨rfl, rfl⟩; exact ⟨_, .done, rfl⟩
    · rintro ⟨_, h, rfl⟩; cases h; exact ⟨rfl, rfl⟩
  | @next rs ls _ ih =>
    intro ps he hl s r s'
    obtain ⟨h1, qs, h2, h3, h4⟩ := cols_step he hl
    rw [List.length_cons, forEachLoopP, runsP_bind, h1, h2]
    have ih := ih qs h3 h4
    constructor
    · rintro (⟨a, s₁, h, h'⟩ | ⟨er, h, rfl⟩ | ⟨h, rfl⟩)
      · obtain ⟨o, ho, rfl⟩ := (ih _ _ _).1 h'
        cases o with
        | ok vs => exact ⟨_, .next h ho, rfl⟩
        | err er => exact ⟨_, .errLater h ho, rfl⟩
        | panic => exact ⟨_, .panicLater h ho, rfl⟩
        | timeout => cases ho
      · exact ⟨_, .err h, rfl⟩
      · exact ⟨_, .panic h, rfl⟩
    · rintro ⟨o, h, rfl⟩
      cases h with
      | next h h' => exact .inl ⟨_, _, h, (ih _ _ _).2 ⟨_, h', rfl⟩⟩
      | err h => exact .inr (.inl ⟨_, h, rfl⟩)
      | panic h => exact .inr (.inr ⟨h, rfl⟩)
      | errLater h h' => exact .inl ⟨_, _, h, (ih _ _ _).2 ⟨_, h', rfl⟩⟩
      | panicLater h h' => exact .inl ⟨_, _, h, (ih _ _ _).2 ⟨_, h', rfl⟩⟩

/-- The answer of the searches, as a Lisp value. -/
def answer : Out Bool → Out Data
  | .ok b => .ok (.bool b)
  | .err e => .err e
  | .panic => .panic
  | .timeout => .timeout

theorem runsP_untilLoop (stop : Bool) {xss rs : List (List Data)} (h : Rows xss rs) : ∀ ps : List (Data × List Data), ps.map (·.2) = xss →
    (∀ p ∈ ps, Lst p.1 p.2) → ∀ s r s', RunsP bd ((if stop then anyLoopP f else everyLoopP f) rs.length (ps.map (·.1))) s r s' ↔
      ∃ o, Until (Gives1 bd f) stop rs s o s' ∧ r = answer o := by
  induction h with
  | stop =>
    intro ps _ _ s r s'
    have : (if stop then anyLoopP f else everyLoopP f) 0 (ps.map (·.1)) = pure (.bool !stop) := by cases stop <;> rfl
    rw [List.length_nil, this, runsP_pure]
    constructor
    · rintro ⟨rfl, rfl⟩; exact ⟨_, .none, rfl⟩
    · rintro ⟨_, h, rfl⟩; cases h; exact ⟨rfl, rfl⟩
  | @next rs ls _ ih =>
    intro ps he hl s r s'
    obtain ⟨h1, qs, h2, h3, h4⟩ := cols_step he hl
    have : (if stop then anyLoopP f else everyLoopP f) (rs.length + 1) (ps.map (·.1)) =
        (f (ofArray (ls.map (·.1))) >>= fun b => if boolValue b = stop then pure (.bool stop)
          else (if stop then anyLoopP f else everyLoopP f) rs.length (qs.map (·.1))) := by
      cases stop <;> simp only [if_true, if_false, Bool.false_eq_true, anyLoopP, everyLoopP, h1, h2, Bool.not_eq_eq_eq_not, Bool.not_true]
    rw [List.length_cons, this, runsP_bind]
    have ih := ih qs h3 h4
    have hb : ∀ v, boolValue v = stop ↔ (Truthy v ↔ stop = true) := by
      intro v; rw [← boolValue_iff]; cases boolValue v <;> cases stop <;> simp
    constructor
    · rintro (⟨a, s₁, h, h'⟩ | ⟨er, h, rfl⟩ | ⟨h, rfl⟩)
      · split at h'
        · next hs => obtain ⟨rfl, rfl⟩ := runsP_pure.1 h'; exact ⟨_, .hit h ((hb a).1 hs), rfl⟩
        · next hs =>
          obtain ⟨o, ho, rfl⟩ := (ih _ _ _).1 h'
          exact ⟨_, .miss h (fun h => hs ((hb a).2 h)) ho, rfl⟩
      · exact ⟨_, .err h, rfl⟩
      · exact ⟨_, .panic h, rfl⟩
    · rintro ⟨o, h, rfl⟩
      cases h with
      | hit h hs => exact .inl ⟨_, _, h, by rw [if_pos ((hb _).2 hs)]; exact runsP_pure.2 ⟨rfl, rfl⟩⟩
      | miss h hs h' => exact .inl ⟨_, _, h, by rw [if_neg (fun h => hs ((hb _).1 h))]; exact (ih _ _ _).2 ⟨_, h', rfl⟩⟩
      | err h => exact .inr (.inl ⟨_, h, rfl⟩)
      | panic h => exact .inr (.inr ⟨h, rfl⟩)

theorem runsP_reduceFold (col : List Data) (rtl : Bool) : ∀ (is : List Nat) (acc : Data) (s : Store) (r : Out Data) (s' : Store),
    RunsP bd (reduceFoldP f col rtl is acc) s r s' ↔
      Folds (fun a x => Gives1 bd f (if rtl then [x, a] else [a, x])) acc
        (is.map fun i => (col[if rtl then col.length - 1 - i else i]?).getD .null) s r s' := by
  intro is
  induction is with
  | nil =>
    intro acc s r s'
    rw [reduceFoldP, runsP_pure]
    constructor
    · rintro ⟨rfl, rfl⟩; exact .done
    · intro h; cases h; exact ⟨rfl, rfl⟩
  | cons i is ih =>
    intro acc s r s'
    simp only [reduceFoldP, List.map_cons]
    rw [runsP_then]
    constructor
    · rintro (⟨v, s₁, h, h'⟩ | ⟨h, hr⟩)
      · exact .next h ((ih _ _ _ _).1 h')
      · exact .stop h hr
    · intro h
      cases h with
      | next h h' => exact .inl ⟨_, _, h, (ih _ _ _ _).2 h'⟩
      | stop h hr => exact .inr ⟨h, hr⟩

theorem range_left (col : List Data) : (List.range col.length).map (fun i => (col[i]?).getD .null) = col := by
  apply List.ext_getElem (by simp)
  intro i h1 h2
  simp [List.getElem?_eq_getElem h2]

theorem range_right (col : List Data) : (List.range col.length).map (fun i => (col[col.length - 1 - i]?).getD .null) = col.reverse := by
  apply List.ext_getElem (by simp)
  intro i h1 h2
  have : i < col.length := by simpa using h2
  simp [List.getElem_reverse, List.getElem?_eq_getElem (show col.length - 1 - i < col.length by omega)]

theorem runsP_foldProc (init : Data) (col : List Data) (rtl : Bool) {s : Store} {r : Out Data} {s' : Store} :
    RunsP bd (reduceFoldProcP f init col rtl) s r s' ↔
      Folds (fun a x => Gives1 bd f (if rtl then [x, a] else [a, x])) init (if rtl then col.reverse else col) s r s' := by
  rw [reduceFoldProcP, runsP_reduceFold]
  cases rtl
  · simp only [Bool.false_eq_true, if_false, range_left]
  · simp only [if_true, range_right]

theorem runsP_filterLoop (want : Bool) (xs : List Data) (hn : Data.null ∉ xs) : ∀ (s : Store) (r : Out (List Data)) (s' : Store),
    RunsP bd (filterLoopP f want xs) s r s' ↔
      Selects (fun x => Gives1 bd f [x]) want "filter needs a predicate function as its first argument." xs s r s' := by
  induction xs with
  | nil =>
    intro s r s'
    rw [filterLoopP, runsP_pure]
    constructor
    · rintro ⟨rfl, rfl⟩; exact .done
    · intro h; cases h; exact ⟨rfl, rfl⟩
  | cons x xs ih =>
    intro s r s'
    have ih := ih (fun h => hn (List.mem_cons_of_mem _ h))
    have hx : ofArray [x] = .cons x .null := by
      have : noNull x = x := by cases x <;> first | rfl | exact absurd List.mem_cons_self hn
      simp only [ofArray, listWithTail, this]
    rw [filterLoopP, runsP_bind, ← hx]
    constructor
    · rintro (⟨v, s₁, h, h'⟩ | ⟨er, h, rfl⟩ | ⟨h, rfl⟩)
      · have hodd : (∀ b, v ≠ .bool b) → Selects (fun x => Gives1 bd f [x]) want
            "filter needs a predicate function as its first argument." (x :: xs) s r s' := by
          intro hv
          have hr : RunsP bd (.fail "filter needs a predicate function as its first argument." : Prog (List Data)) s₁ r s' := by
            cases v <;> first | exact h' | (rename_i a; cases a <;> first | exact h' | exact absurd rfl (hv _))
          obtain ⟨rfl, rfl⟩ := runsP_fail.1 hr
          exact .odd h hv
        by_cases hv : ∃ b, v = .bool b
        · obtain ⟨b, rfl⟩ := hv
          dsimp only at h'
          rw [runsP_bind] at h'
          rcases h' with (⟨vs, s₂, h2, h3⟩ | ⟨er, h2, rfl⟩ | ⟨h2, rfl⟩)
          · obtain ⟨rfl, rfl⟩ := runsP_pure.mp h3
            by_cases hb : b = want
            · subst hb; rw [if_pos rfl]; exact .keep h ((ih _ _ _).1 h2)
            · have : b = !want := by cases b <;> cases want <;> simp_all
              rw [if_neg hb]; subst this; exact .skip h ((ih _ _ _).1 h2)
          · exact .errLater h ((ih _ _ _).1 h2)
          · exact .panicLater h ((ih _ _ _).1 h2)
        · exact hodd (fun b hb => hv ⟨b, hb⟩)
      · exact .err h
      · exact .panic h
    · intro h
      cases h with
      | keep h h' => exact .inl ⟨_, _, h, runsP_bind.2 (.inl ⟨_, _, (ih _ _ _).2 h', by rw [if_pos rfl]; exact runsP_pure.2 ⟨rfl, rfl⟩⟩)⟩
      | skip h h' =>
        exact .inl ⟨_, _, h, runsP_bind.2 (.inl ⟨_, _, (ih _ _ _).2 h', by
          rw [if_neg (by cases want <;> simp)]; exact runsP_pure.2 ⟨rfl, rfl⟩⟩)⟩
      | @odd _ _ v _ _ h hv =>
        refine .inl ⟨_, _, h, ?_⟩
        have hr : RunsP bd (.fail "filter needs a predicate function as its first argument." : Prog (List Data)) s'
          (.err (.msg "filter needs a predicate function as its first argument.")) s' := runsP_fail.2 ⟨rfl, rfl⟩
        cases v <;> first | exact hr | (rename_i a; cases a <;> first | exact hr | exact absurd rfl (hv _))
      | err h => exact .inr (.inl ⟨_, h, rfl⟩)
      | panic h => exact .inr (.inr ⟨h, rfl⟩)
      | errLater h h' => exact .inl ⟨_, _, h, runsP_bind.2 (.inr (.inl ⟨_, (ih _ _ _).2 h', rfl⟩))⟩
      | panicLater h h' => exact .inl ⟨_, _, h, runsP_bind.2 (.inr (.inr ⟨(ih _ _ _).2 h', rfl⟩))⟩

/-- Result of `find`. -/
def foundElement : Out (Option (Data × List Data)) → Out Data
  | .ok none => .ok (.bool false)
  | .ok (some p) => .ok p.1
  | .err e => .err e
  | .panic => .panic
  | .timeout => .timeout

theorem runsP_findLoop (xs : List Data) : ∀ (s : Store) (r : Out Data) (s' : Store),
    RunsP bd (findLoopP f xs) s r s' ↔
      ∃ o, Finds (fun x => Gives1 bd f [x]) "find needs a predicate function as its first argument." xs s o s' ∧ r = foundElement o := by
  induction xs with
  | nil =>
    intro s r s'
    rw [findLoopP, runsP_pure]
    constructor
    · rintro ⟨rfl, rfl⟩; exact ⟨_, .none, rfl⟩
    · rintro ⟨_, h, rfl⟩; cases h; exact ⟨rfl, rfl⟩
  | cons x xs ih =>
    intro s r s'
    rw [findLoopP, runsP_attempt]
    constructor
    · rintro (⟨v, s₁, h, h'⟩ | ⟨er, s₁, h, h'⟩ | ⟨h, rfl⟩)
      · by_cases hv : ∃ b, v = .bool b
        · obtain ⟨b, rfl⟩ := hv
          cases b with
          | true => obtain ⟨rfl, rfl⟩ := runsP_ret.1 h'; exact ⟨_, .hit h, rfl⟩
          | false => obtain ⟨o, ho, rfl⟩ := (ih _ _ _).1 h'; exact ⟨_, .miss h ho, rfl⟩
        · have hr : RunsP bd (.fail "find needs a predicate function as its first argument." : Prog Data) s₁ r s' := by
            cases v <;> first | exact h' | (rename_i a; cases a <;> first | exact h' | exact absurd ⟨_, rfl⟩ hv)
          obtain ⟨rfl, rfl⟩ := runsP_fail.1 hr
          exact ⟨_, .odd h (fun b hb => hv ⟨b, hb⟩), rfl⟩
      · obtain ⟨rfl, rfl⟩ := runsP_fail.1 h'; exact ⟨_, .err h, rfl⟩
      · exact ⟨_, .panic h, rfl⟩
    · rintro ⟨o, h, rfl⟩
      cases h with
      | hit h => exact .inl ⟨_, _, h, runsP_ret.2 ⟨rfl, rfl⟩⟩
      | miss h h' => exact .inl ⟨_, _, h, (ih _ _ _).2 ⟨_, h', rfl⟩⟩
      | @odd _ _ v _ _ h hv =>
        refine .inl ⟨_, _, h, ?_⟩
        have hr : RunsP bd (.fail "find needs a predicate function as its first argument." : Prog Data) s'
          (.err (.msg "find needs a predicate function as its first argument.")) s' := runsP_fail.2 ⟨rfl, rfl⟩
        cases v <;> first | exact hr | (rename_i a; cases a <;> first | exact hr | exact absurd rfl (hv _))
      | err h => exact .inr (.inl ⟨_, _, h, runsP_fail.2 ⟨rfl, rfl⟩⟩)
      | panic h => exact .inr (.inr ⟨h, rfl⟩)

theorem runsP_findTailLoop {l : Data} {xs : List Data} (hl : Lst l xs) : ∀ (s : Store) (r : Out Data) (s' : Store),
    (RunsP bd (findTailLoopP f l) s r s' → ∃ o, Finds (fun x => Gives1 bd f [x])
        "find-tail needs a predicate function as its first argument." xs s o s' ∧ Becomes FoundTail o r) ∧
      ∀ o, Finds (fun x => Gives1 bd f [x]) "find-tail needs a predicate function as its first argument." xs s o s' →
        ∃ r, Becomes FoundTail o r ∧ RunsP bd (findTailLoopP f l) s r s' := by
  induction hl with
  | null =>
    intro s r s'
    constructor
    · intro h; obtain ⟨rfl, rfl⟩ := runsP_pure.1 h; exact ⟨_, .none, .ok rfl⟩
    · intro o h; cases h; exact ⟨_, .ok rfl, runsP_pure.2 ⟨rfl, rfl⟩⟩
  | empty k =>
    intro s r s'
    have : findTailLoopP f (.cell k .null .null) = pure (.bool false) := by simp [findTailLoopP]
    rw [this]
    constructor
    · intro h; obtain ⟨rfl, rfl⟩ := runsP_pure.1 h; exact ⟨_, .none, .ok rfl⟩
    · intro o h; cases h; exact ⟨_, .ok rfl, runsP_pure.2 ⟨rfl, rfl⟩⟩
  | cons k a d xs hn hk hd ih =>
    intro s r s'
    have hnn : isNil (.cell k a d) = false := (isNil_cell_false k a d).2 hn
    rw [findTailLoopP, if_neg (by simp [hnn])]
    constructor
    · rw [runsP_attempt]
      rintro (⟨v, s₁, h, h'⟩ | ⟨er, s₁, h, h'⟩ | ⟨h, rfl⟩)
      · by_cases hv : ∃ b, v = .bool b
        · obtain ⟨b, rfl⟩ := hv
          cases b with
          | true => obtain ⟨rfl, rfl⟩ := runsP_ret.1 h'; exact ⟨_, .hit h, .ok (.cons _ _ _ _ hn hk hd)⟩
          | false => obtain ⟨o, ho, hb⟩ := (ih _ _ _).1 h'; exact ⟨_, .miss h ho, hb⟩
        · have hr : RunsP bd (.fail "find-tail needs a predicate function as its first argument." : Prog Data) s₁ r s' := by
            cases v <;> first | exact h' | (rename_i a; cases a <;> first | exact h' | exact absurd ⟨_, rfl⟩ hv)
          obtain ⟨rfl, rfl⟩ := runsP_fail.1 hr
          exact ⟨_, .odd h (fun b hb => hv ⟨b, hb⟩), .err⟩
      · obtain ⟨rfl, rfl⟩ := runsP_fail.1 h'; exact ⟨_, .err h, .err⟩
      · exact ⟨_, .panic h, .panic⟩
    · intro o h
      cases h with
      | hit h => exact ⟨_, .ok (.cons _ _ _ _ hn hk hd), runsP_attempt.2 (.inl ⟨_, _, h, runsP_ret.2 ⟨rfl, rfl⟩⟩)⟩
      | miss h h' =>
        obtain ⟨r, hb, hr⟩ := (ih _ .panic _).2 _ h'
        exact ⟨r, hb, runsP_attempt.2 (.inl ⟨_, _, h, hr⟩)⟩
      | @odd _ _ v _ _ h hv =>
        refine ⟨_, .err, runsP_attempt.2 (.inl ⟨_, _, h, ?_⟩)⟩
        have hr : RunsP bd (.fail "find-tail needs a predicate function as its first argument." : Prog Data) s'
          (.err (.msg "find-tail needs a predicate function as its first argument.")) s' := runsP_fail.2 ⟨rfl, rfl⟩
        cases v <;> first | exact hr | (rename_i a; cases a <;> first | exact hr | exact absurd rfl (hv _))
      | err h => exact ⟨_, .err, runsP_attempt.2 (.inr (.inl ⟨_, _, h, runsP_fail.2 ⟨rfl, rfl⟩⟩))⟩
      | panic h => exact ⟨_, .panic, runsP_attempt.2 (.inr (.inr ⟨h, rfl⟩))⟩

theorem runsP_partLoop (xs : List Data) : ∀ (ts fs : List Data) (s : Store) (r : Out (List Data × List Data)) (s' : Store),
    RunsP bd (partPredLoopP f xs ts fs) s r s' ↔
      (∃ vs us ws, Calls (fun x => Gives1 bd f [x]) xs s (.ok vs) s' ∧ Parted xs vs us ws ∧ r = .ok (ts ++ us, fs ++ ws)) ∨
      (∃ er, Calls (fun x => Gives1 bd f [x]) xs s (.err er) s' ∧ r = .err er) ∨
      (Calls (fun x => Gives1 bd f [x]) xs s .panic s' ∧ r = .panic) := by
  induction xs with
  | nil =>
    intro ts fs s r s'
    rw [partPredLoopP, runsP_pure]
    constructor
    · rintro ⟨rfl, rfl⟩; exact .inl ⟨_, _, _, .done, .nil, by simp⟩
    · rintro (⟨vs, us, ws, h, hp, rfl⟩ | ⟨er, h, _⟩ | ⟨h, _⟩)
      · cases h; cases hp; exact ⟨by simp, rfl⟩
      · cases h
      · cases h
  | cons x xs ih =>
    intro ts fs s r s'
    rw [partPredLoopP, runsP_bind]
    constructor
    · rintro (⟨v, s₁, h, h'⟩ | ⟨er, h, rfl⟩ | ⟨h, rfl⟩)
      · split at h' <;> rename_i hv <;> rw [ih] at h' <;> rcases h' with (⟨vs, us, ws, h1, hp, rfl⟩ | ⟨er, h1, rfl⟩ | ⟨h1, rfl⟩)
        · exact .inl ⟨_, _, _, .next h h1, .yes ((boolValue_iff v).1 hv) hp, by simp⟩
        · exact .inr (.inl ⟨_, .errLater h h1, rfl⟩)
        · exact .inr (.inr ⟨.panicLater h h1, rfl⟩)
        · exact .inl ⟨_, _, _, .next h h1, .no (fun ht => hv ((boolValue_iff v).2 ht)) hp, by simp⟩
        · exact .inr (.inl ⟨_, .errLater h h1, rfl⟩)
        · exact .inr (.inr ⟨.panicLater h h1, rfl⟩)
      · exact .inr (.inl ⟨_, .err h, rfl⟩)
      · exact .inr (.inr ⟨.panic h, rfl⟩)
    · have later : ∀ {v s₁ o}, Gives1 bd f [x] s (.ok v) s₁ →
          (∀ ts fs, RunsP bd (partPredLoopP f xs ts fs) s₁ o s') →
          RunsP bd (if boolValue v = true then partPredLoopP f xs (ts ++ [x]) fs else partPredLoopP f xs ts (fs ++ [x])) s₁ o s' := by
        intro v s₁ o _ h2; split <;> exact h2 _ _
      rintro (⟨vs, us, ws, h, hp, rfl⟩ | ⟨er, h, rfl⟩ | ⟨h, rfl⟩)
      · cases h with
        | next h h1 =>
          refine .inl ⟨_, _, h, ?_⟩
          cases hp with
          | yes hv hp => rw [if_pos ((boolValue_iff _).2 hv), ih]; exact .inl ⟨_, _, _, h1, hp, by simp⟩
          | no hv hp => rw [if_neg (fun ht => hv ((boolValue_iff _).1 ht)), ih]; exact .inl ⟨_, _, _, h1, hp, by simp⟩
      · cases h with
        | err h => exact .inr (.inl ⟨_, h, rfl⟩)
        | errLater h h1 => exact .inl ⟨_, _, h, later h fun ts fs => (ih _ _ _ _ _).2 (.inr (.inl ⟨_, h1, rfl⟩))⟩
      · cases h with
        | panic h => exact .inr (.inr ⟨h, rfl⟩)
        | panicLater h h1 => exact .inl ⟨_, _, h, later h fun ts fs => (ih _ _ _ _ _).2 (.inr (.inr ⟨h1, rfl⟩))⟩

end Golisp.Props
