import Verif.ListLemmas
/- Helper lemmas about the callback loops (not property statements). -/
namespace Golisp
open Data Spec Prim

variable {σ : Type}

/-- The argument list of the `i`-th call of map and friends. -/
def Spec.row (xss : List (List Data)) (i : Nat) : Data := ofArray (xss.map fun xs => (xs[i]?).getD .null)

theorem row_tail (xss : List (List Data)) (i : Nat) : row (xss.map List.tail) i = row xss (i + 1) := by
  simp only [row, List.map_map]
  congr 2
  funext xs
  cases xs <;> simp

theorem cars_eq {args : List (Data × List Data)} (h : ∀ p ∈ args, Lst p.1 p.2) :
    (args.map (·.1)).map car = (args.map (·.2)).map fun xs => (xs[0]?).getD .null := by
  simp only [List.map_map]
  apply List.map_congr_left
  intro p hp
  simp [car_Lst (h p hp), List.head?_eq_getElem?]

theorem cdrs_Lst {args : List (Data × List Data)} (h : ∀ p ∈ args, Lst p.1 p.2) :
    ∀ p ∈ args.map (fun p => (cdr p.1, p.2.tail)), Lst p.1 p.2 := by
  intro p hp
  obtain ⟨q, hq, rfl⟩ := List.mem_map.1 hp
  exact cdr_Lst (h q hq)

theorem rows_succ (xss : List (List Data)) (n : Nat) :
    (List.range (n + 1)).map (row xss) = row xss 0 :: (List.range n).map (row (xss.map List.tail)) := by
  rw [List.range_succ_eq_map, List.map_cons, List.map_map]
  congr 1
  apply List.map_congr_left
  intro i _
  simp [row_tail]

theorem mapLoop_calls (f : Data → M σ Data) (n : Nat) : ∀ (args : List (Data × List Data)),
    (∀ p ∈ args, Lst p.1 p.2) → ∀ s,
    mapLoop f n (args.map (·.1)) s = calls f ((List.range n).map (row (args.map (·.2)))) s := by
  induction n with
  | zero => intro args _ s; rfl
  | succ n ih =>
    intro args h s
    rw [rows_succ]
    have hc : ofArray ((args.map (·.1)).map car) = row (args.map (·.2)) 0 := by rw [cars_eq h]; rfl
    simp only [mapLoop, M.bind, calls, hc]
    rcases hf : f (row (args.map (·.2)) 0) s with ⟨o, s'⟩
    simp only [hf]
    cases o with
    | ok v =>
      have := ih (args.map (fun p => (cdr p.1, p.2.tail))) (cdrs_Lst h) s'
      simp only [List.map_map] at this ⊢
      have e1 : ((fun x : Data × List Data => x.1) ∘ fun p : Data × List Data => (cdr p.1, p.2.tail)) = (cdr ∘ fun x : Data × List Data => x.1) := rfl
      have e2 : ((fun x : Data × List Data => x.2) ∘ fun p : Data × List Data => (cdr p.1, p.2.tail)) = (List.tail ∘ fun x : Data × List Data => x.2) := rfl
      rw [e1, e2] at this
      simp only [this]
      rcases calls f _ s' with ⟨o, s''⟩
      cases o <;> rfl
    | err e => rfl
    | panic => rfl
    | timeout => rfl

theorem forEachLoop_calls (f : Data → M σ Data) (n : Nat) : ∀ (args : List (Data × List Data)),
    (∀ p ∈ args, Lst p.1 p.2) → ∀ s,
    forEachLoop f n (args.map (·.1)) s =
      match calls f ((List.range n).map (row (args.map (·.2)))) s with
      | (.ok _, s') => (.ok (), s')
      | (.err e, s') => (.err e, s')
      | (.panic, s') => (.panic, s')
      | (.timeout, s') => (.timeout, s') := by
  induction n with
  | zero => intro args _ s; rfl
  | succ n ih =>
    intro args h s
    rw [rows_succ]
    have hc : ofArray ((args.map (·.1)).map car) = row (args.map (·.2)) 0 := by rw [cars_eq h]; rfl
    simp only [forEachLoop, M.bind, calls, hc]
    rcases hf : f (row (args.map (·.2)) 0) s with ⟨o, s'⟩
    simp only [hf]
    cases o with
    | ok v =>
      have := ih (args.map (fun p => (cdr p.1, p.2.tail))) (cdrs_Lst h) s'
      simp only [List.map_map] at this ⊢
      have e1 : ((fun x : Data × List Data => x.1) ∘ fun p : Data × List Data => (cdr p.1, p.2.tail)) = (cdr ∘ fun x : Data × List Data => x.1) := rfl
      have e2 : ((fun x : Data × List Data => x.2) ∘ fun p : Data × List Data => (cdr p.1, p.2.tail)) = (List.tail ∘ fun x : Data × List Data => x.2) := rfl
      rw [e1, e2] at this
      simp only [this]
      rcases calls f _ s' with ⟨o, s''⟩
      cases o <;> rfl
    | err e => rfl
    | panic => rfl
    | timeout => rfl

/-- Specification of any/every: make the calls in order; stop at the first whose truth value is `stop`. -/
def Spec.firstDecisive (f : Data → M σ Data) (stop : Bool) : List Data → M σ Bool
  | [] => fun s => (.ok (!stop), s)
  | a :: as => fun s =>
    match f a s with
    | (.ok v, s') => if boolValue v = stop then (.ok stop, s') else firstDecisive f stop as s'
    | (.err e, s') => (.err e, s')
    | (.panic, s') => (.panic, s')
    | (.timeout, s') => (.timeout, s')

def Spec.mapOut {α β : Type} (g : α → β) : Out α × σ → Out β × σ
  | (.ok a, s) => (.ok (g a), s)
  | (.err e, s) => (.err e, s)
  | (.panic, s) => (.panic, s)
  | (.timeout, s) => (.timeout, s)

theorem anyLoop_spec (f : Data → M σ Data) (n : Nat) : ∀ (args : List (Data × List Data)),
    (∀ p ∈ args, Lst p.1 p.2) → ∀ s,
    anyLoop f n (args.map (·.1)) s =
      mapOut Data.bool (firstDecisive f true ((List.range n).map (row (args.map (·.2)))) s) := by
  induction n with
  | zero => intro args _ s; rfl
  | succ n ih =>
    intro args h s
    rw [rows_succ]
    have hc : ofArray ((args.map (·.1)).map car) = row (args.map (·.2)) 0 := by rw [cars_eq h]; rfl
    simp only [anyLoop, M.bind, firstDecisive, hc]
    rcases hf : f (row (args.map (·.2)) 0) s with ⟨o, s'⟩
    simp only [hf]
    cases o with
    | ok v =>
      have := ih (args.map (fun p => (cdr p.1, p.2.tail))) (cdrs_Lst h) s'
      simp only [List.map_map] at this ⊢
      have e1 : ((fun x : Data × List Data => x.1) ∘ fun p : Data × List Data => (cdr p.1, p.2.tail)) = (cdr ∘ fun x : Data × List Data => x.1) := rfl
      have e2 : ((fun x : Data × List Data => x.2) ∘ fun p : Data × List Data => (cdr p.1, p.2.tail)) = (List.tail ∘ fun x : Data × List Data => x.2) := rfl
      rw [e1, e2] at this
      cases hv : boolValue v <;> simp [this, mapOut, M.pure]
    | err e => rfl
    | panic => rfl
    | timeout => rfl

theorem everyLoop_spec (f : Data → M σ Data) (n : Nat) : ∀ (args : List (Data × List Data)),
    (∀ p ∈ args, Lst p.1 p.2) → ∀ s,
    everyLoop f n (args.map (·.1)) s =
      mapOut Data.bool (firstDecisive f false ((List.range n).map (row (args.map (·.2)))) s) := by
  induction n with
  | zero => intro args _ s; rfl
  | succ n ih =>
    intro args h s
    rw [rows_succ]
    have hc : ofArray ((args.map (·.1)).map car) = row (args.map (·.2)) 0 := by rw [cars_eq h]; rfl
    simp only [everyLoop, M.bind, firstDecisive, hc]
    rcases hf : f (row (args.map (·.2)) 0) s with ⟨o, s'⟩
    simp only [hf]
    cases o with
    | ok v =>
      have := ih (args.map (fun p => (cdr p.1, p.2.tail))) (cdrs_Lst h) s'
      simp only [List.map_map] at this ⊢
      have e1 : ((fun x : Data × List Data => x.1) ∘ fun p : Data × List Data => (cdr p.1, p.2.tail)) = (cdr ∘ fun x : Data × List Data => x.1) := rfl
      have e2 : ((fun x : Data × List Data => x.2) ∘ fun p : Data × List Data => (cdr p.1, p.2.tail)) = (List.tail ∘ fun x : Data × List Data => x.2) := rfl
      rw [e1, e2] at this
      cases hv : boolValue v <;> simp [this, mapOut, M.pure]
    | err e => rfl
    | panic => rfl
    | timeout => rfl

/-- The shortest length. -/
theorem minLen_spec : ∀ (args : List (Data × List Data)), (∀ p ∈ args, Lst p.1 p.2) → args ≠ [] →
    ∃ n, minLen (args.map (·.1)) = some n ∧ (∀ p ∈ args, n ≤ p.2.length) ∧ (∃ p ∈ args, n = p.2.length) := by
  intro args
  induction args with
  | nil => simp
  | cons p ps ih =>
    intro h _
    have hp := (h p (by simp)).length
    cases ps with
    | nil => exact ⟨p.2.length, by simp [minLen, hp], by simp, by simp⟩
    | cons q qs =>
      obtain ⟨n, h1, h2, h3⟩ := ih (fun r hr => h r (by simp [hr])) (by simp)
      refine ⟨min p.2.length n, ?_, ?_, ?_⟩
      · rw [List.map_cons, minLen, h1]; simp [hp]
      · intro r hr
        rcases List.mem_cons.1 hr with rfl | hr
        · omega
        · have := h2 r hr; omega
      · by_cases hlt : p.2.length ≤ n
        · exact ⟨p, by simp, by omega⟩
        · obtain ⟨r, hr, hn⟩ := h3
          exact ⟨r, List.mem_cons_of_mem _ hr, by omega⟩

theorem allLists_true {args : List (Data × List Data)} (h : ∀ p ∈ args, isListP p.1 = true) :
    allLists (args.map (·.1)) = true := by
  induction args with
  | nil => rfl
  | cons p ps ih => simp [allLists, h p (by simp), ih (fun q hq => h q (by simp [hq]))]

theorem mapScan_none {args : List (Data × List Data)} (h : ∀ p ∈ args, Lst p.1 p.2 ∧ isListP p.1 = true)
    (hne : ∀ p ∈ args, p.2 ≠ []) : mapScan (args.map (·.1)) = none := by
  induction args with
  | nil => rfl
  | cons p ps ih =>
    have h1 := (h p (by simp))
    have h2 : isNil p.1 = false := by
      have := h1.1.isNil_iff; have := hne p (by simp)
      cases hn : isNil p.1 <;> simp_all
    simp [mapScan, h1.2, h2, ih (fun q hq => h q (by simp [hq])) (fun q hq => hne q (by simp [hq]))]

theorem mapScan_empty {args : List (Data × List Data)} (h : ∀ p ∈ args, Lst p.1 p.2 ∧ isListP p.1 = true)
    (hne : ∃ p ∈ args, p.2 = []) : mapScan (args.map (·.1)) = some (.ok .null) := by
  induction args with
  | nil => simp at hne
  | cons p ps ih =>
    have h1 := (h p (by simp))
    cases hn : isNil p.1 with
    | true => simp [mapScan, h1.2, hn]
    | false =>
      have hp : p.2 ≠ [] := by intro hc; have := h1.1.isNil_iff.2 hc; simp [hn] at this
      obtain ⟨q, hq, hq'⟩ := hne
      have hq : q ∈ ps := by
        rcases List.mem_cons.1 hq with rfl | hq
        · exact absurd hq' hp
        · exact hq
      simp [mapScan, h1.2, hn, ih (fun q hq => h q (by simp [hq])) ⟨q, hq, hq'⟩]

theorem calls_length (f : Data → M σ Data) : ∀ (as : List Data) (s s' : σ) (vs : List Data),
    calls f as s = (.ok vs, s') → vs.length = as.length := by
  intro as
  induction as with
  | nil => intro s s' vs h; simp [calls] at h; simp [← h.1]
  | cons a as ih =>
    intro s s' vs h
    simp only [calls] at h
    rcases hf : f a s with ⟨o, s1⟩
    rw [hf] at h
    cases o with
    | ok v =>
      simp only at h
      rcases hc : calls f as s1 with ⟨o2, s2⟩
      rw [hc] at h
      cases o2 with
      | ok vs2 =>
        simp only [Prod.mk.injEq, Out.ok.injEq] at h
        rw [← h.1, List.length_cons, List.length_cons, ih s1 s2 vs2 hc] 
      | _ => simp at h
    | _ => simp at h

/-- The log kept by an instrumented callback is exactly the calls made, in order. -/
theorem calls_logged (f : Data → M σ Data) : ∀ (as : List Data) (s : σ) (log : List Data),
    ∃ k ≤ as.length,
      calls (logged f) as (s, log) = ((calls f as s).1, (calls f as s).2, log ++ as.take k) ∧
      ((∃ vs, (calls f as s).1 = .ok vs) → k = as.length) ∧
      ((∀ vs, (calls f as s).1 ≠ .ok vs) → 0 < k ∧ ∃ vs s0,
        calls f (as.take (k - 1)) s = (.ok vs, s0) ∧ ∀ a, as[k - 1]? = some a → ∀ v, (f a s0).1 ≠ .ok v) := by
  intro as
  induction as with
  | nil => intro s log; exact ⟨0, by simp [calls]⟩
  | cons a as ih =>
    intro s log
    rcases hf : f a s with ⟨o, s1⟩
    cases o with
    | ok v =>
      obtain ⟨k, hk, h1, h2, h3⟩ := ih s1 (log ++ [a])
      rcases hc : calls f as s1 with ⟨o2, s2⟩
      rw [hc] at h1 h2 h3
      refine ⟨k + 1, by simp [hk], ?_, ?_, ?_⟩
      · simp only [calls, logged, hf, hc]
        rw [h1]
        cases o2 <;> simp
      · rintro ⟨vs, hvs⟩
        simp only [calls, hf, hc] at hvs
        cases o2 with
        | ok w => simp [h2 ⟨w, rfl⟩]
        | _ => simp at hvs
      · intro hvs
        have hne : ∀ vs, o2 ≠ .ok vs := by
          rintro vs rfl
          exact hvs (v :: vs) (by simp [calls, hf, hc])
        obtain ⟨hk0, vs, s0, h4, h5⟩ := h3 hne
        obtain ⟨k', rfl⟩ : ∃ k', k = k' + 1 := ⟨k - 1, by omega⟩
        simp only [Nat.add_sub_cancel] at h4 h5
        refine ⟨by omega, v :: vs, s0, ?_, ?_⟩
        · simp [calls, hf, h4]
        · simpa using h5
    | err e =>
      exact ⟨1, by simp, by simp [calls, logged, hf], by simp [calls, hf],
        fun _ => ⟨by omega, [], s, by simp [calls], by simp [hf]⟩⟩
    | panic =>
      exact ⟨1, by simp, by simp [calls, logged, hf], by simp [calls, hf],
        fun _ => ⟨by omega, [], s, by simp [calls], by simp [hf]⟩⟩
    | timeout =>
      exact ⟨1, by simp, by simp [calls, logged, hf], by simp [calls, hf],
        fun _ => ⟨by omega, [], s, by simp [calls], by simp [hf]⟩⟩

/-! folds -/

theorem reduceFold_left (f : Data → M σ Data) (col : List Data) :
    ∀ (pre post : List Data), col = pre ++ post → ∀ acc s,
      reduceFold f col false (List.range' pre.length post.length) acc s =
        Spec.foldl (fun a x => f (ofArray [a, x])) acc post s := by
  intro pre post
  induction post generalizing pre with
  | nil => intro _ acc s; simp [reduceFold, Spec.foldl, M.pure]
  | cons x xs ih =>
    intro h acc s
    have hx : col[pre.length]? = some x := by simp [h]
    simp only [List.length_cons, List.range'_succ, reduceFold, M.bind, hx, Spec.foldl,
      Bool.false_eq_true, if_false, Option.getD_some]
    rcases hf : f (ofArray [acc, x]) s with ⟨o, s'⟩
    cases o with
    | ok r =>
      have := ih (pre ++ [x]) (by simp [h]) r s'
      simpa using this
    | _ => rfl

theorem reduceFoldProc_left (f : Data → M σ Data) (col : List Data) (init : Data) (s : σ) :
    reduceFoldProc init col f false s = Spec.foldl (fun a x => f (ofArray [a, x])) init col s := by
  have := reduceFold_left f col [] col rfl init s
  simpa [reduceFoldProc, List.range_eq_range'] using this

theorem foldr_snoc (f : Data → Data → M σ Data) : ∀ (xs : List Data) (x init : Data) (s : σ),
    Spec.foldr f init (xs ++ [x]) s =
      match f x init s with
      | (.ok r, s') => Spec.foldr f r xs s'
      | (o, s') => (o, s') := by
  intro xs
  induction xs with
  | nil =>
    intro x init s
    simp only [List.nil_append, Spec.foldr]
    rcases f x init s with ⟨o, s'⟩
    cases o <;> rfl
  | cons y ys ih =>
    intro x init s
    simp only [List.cons_append, Spec.foldr, ih]
    rcases f x init s with ⟨o, s'⟩
    cases o <;> rfl

theorem reduceFold_right (f : Data → M σ Data) (col : List Data) :
    ∀ (post pre : List Data), col = pre ++ post → ∀ acc s,
      reduceFold f col true (List.range' post.length pre.length) acc s =
        Spec.foldr (fun x a => f (ofArray [x, a])) acc pre s := by
  intro post pre
  induction h : pre.length generalizing pre post with
  | zero =>
    intro _ acc s
    have : pre = [] := List.length_eq_zero_iff.1 h
    subst this
    simp [reduceFold, Spec.foldr, M.pure]
  | succ n ih =>
    intro hcol acc s
    have hne : pre ≠ [] := by rintro rfl; simp at h
    obtain ⟨pre', x, rfl⟩ : ∃ pre' x, pre = pre' ++ [x] := ⟨pre.dropLast, pre.getLast hne, (List.dropLast_concat_getLast hne).symm⟩
    have hl : pre'.length = n := by simpa using h
    have hx : col[col.length - 1 - post.length]? = some x := by
      subst hcol
      have : (pre' ++ [x] ++ post).length - 1 - post.length = pre'.length := by simp
      rw [this]; simp
    simp only [List.range'_succ, reduceFold, M.bind, hx, if_true, Option.getD_some, foldr_snoc]
    rcases hf : f (ofArray [x, acc]) s with ⟨o, s'⟩
    cases o with
    | ok r =>
      have := ih (x :: post) pre' hl (by simp [hcol]) r s'
      simpa using this
    | _ => rfl

theorem reduceFoldProc_right (f : Data → M σ Data) (col : List Data) (init : Data) (s : σ) :
    reduceFoldProc init col f true s = Spec.foldr (fun x a => f (ofArray [x, a])) init col s := by
  have := reduceFold_right f col [] col (by simp) init s
  simpa [reduceFoldProc, List.range_eq_range'] using this


/-! filter and find -/

theorem filterLoop_ok (f : Data → M σ Data) (want : Bool) : ∀ (xs : List Data) (bs : List Bool) (s s' : σ),
    calls f (xs.map fun x => Data.cons x .null) s = (.ok (bs.map Data.bool), s') →
    filterLoop f want xs s = (.ok (((xs.zip bs).filter (fun p => p.2 == want)).map (·.1)), s') := by
  intro xs
  induction xs with
  | nil => intro bs s s' h; simp [calls] at h; simp [filterLoop, M.pure, h]
  | cons x xs ih =>
    intro bs s s' h
    simp only [List.map_cons, calls] at h
    rcases hf : f (Data.cons x .null) s with ⟨o, s1⟩
    rw [hf] at h
    cases o with
    | ok v =>
      simp only at h
      rcases hc : calls f (xs.map fun x => Data.cons x .null) s1 with ⟨o2, s2⟩
      rw [hc] at h
      cases o2 with
      | ok vs =>
        simp only [Prod.mk.injEq, Out.ok.injEq] at h
        obtain ⟨h1, rfl⟩ := h
        cases bs with
        | nil => simp at h1
        | cons b bs =>
          simp only [List.map_cons, List.cons.injEq] at h1
          obtain ⟨rfl, rfl⟩ := h1
          simp only [filterLoop, M.bind, hf, ih bs s1 s2 hc, M.pure, List.zip_cons_cons, List.filter_cons]
          cases b <;> cases want <;> simp
      | _ => simp at h
    | _ => simp at h

theorem filterLoop_stop (f : Data → M σ Data) (want : Bool) : ∀ (pre post : List Data) (x : Data) (bs : List Bool) (s s0 s' : σ) (o : Out Data),
    calls f (pre.map fun x => Data.cons x .null) s = (.ok (bs.map Data.bool), s0) →
    f (Data.cons x .null) s0 = (o, s') → (∀ b, o ≠ .ok (.bool b)) →
    filterLoop f want (pre ++ x :: post) s =
      (match o with
       | .ok _ => .err (.msg "filter needs a predicate function as its first argument.")
       | .err e => .err e
       | .panic => .panic
       | .timeout => .timeout, s') := by
  intro pre
  induction pre with
  | nil =>
    intro post x bs s s0 s' o h hf ho
    simp only [List.map_nil, calls, Prod.mk.injEq] at h
    obtain ⟨_, rfl⟩ := h
    simp only [List.nil_append, filterLoop, M.bind, hf]
    cases o with
    | ok v =>
      cases v with
      | atom a => cases a <;> first | rfl | exact absurd rfl (ho _)
      | _ => rfl
    | _ => rfl
  | cons y ys ih =>
    intro post x bs s s0 s' o h hf ho
    simp only [List.map_cons, calls] at h
    rcases hf1 : f (Data.cons y .null) s with ⟨o1, s1⟩
    rw [hf1] at h
    cases o1 with
    | ok v =>
      simp only at h
      rcases hc : calls f (ys.map fun x => Data.cons x .null) s1 with ⟨o2, s2⟩
      rw [hc] at h
      cases o2 with
      | ok vs =>
        simp only [Prod.mk.injEq, Out.ok.injEq] at h
        obtain ⟨h1, rfl⟩ := h
        cases bs with
        | nil => simp at h1
        | cons b bs =>
          simp only [List.map_cons, List.cons.injEq] at h1
          obtain ⟨rfl, rfl⟩ := h1
          simp only [List.cons_append, filterLoop, M.bind, hf1, ih post x bs s1 s2 s' o hc hf ho]
          cases o <;> rfl
      | _ => simp at h
    | _ => simp at h

/-- All calls in a row answered false. -/
def Spec.AllFalse (f : Data → M σ Data) (xs : List Data) (s s' : σ) : Prop :=
  calls f (xs.map fun x => ofArray [x]) s = (.ok (xs.map fun _ => Data.bool false), s')

theorem AllFalse_cons {f : Data → M σ Data} {x : Data} {xs : List Data} {s s' : σ} (h : AllFalse f (x :: xs) s s') :
    ∃ s1, f (ofArray [x]) s = (.ok (.bool false), s1) ∧ AllFalse f xs s1 s' := by
  simp only [AllFalse, List.map_cons, calls] at h
  rcases hf : f (ofArray [x]) s with ⟨o, s1⟩
  rw [hf] at h
  cases o with
  | ok v =>
    simp only at h
    rcases hc : calls f (xs.map fun x => ofArray [x]) s1 with ⟨o2, s2⟩
    rw [hc] at h
    cases o2 with
    | ok vs =>
      simp only [Prod.mk.injEq, Out.ok.injEq, List.cons.injEq] at h
      obtain ⟨⟨rfl, rfl⟩, rfl⟩ := h
      exact ⟨s1, rfl, by simp [AllFalse, hc]⟩
    | _ => simp at h
  | _ => simp at h

theorem findLoop_skip (f : Data → M σ Data) : ∀ (pre rest : List Data) (s s0 : σ), AllFalse f pre s s0 →
    findLoop f (pre ++ rest) s = findLoop f rest s0 := by
  intro pre
  induction pre with
  | nil => intro rest s s0 h; simp [AllFalse, calls] at h; simp [h]
  | cons x xs ih =>
    intro rest s s0 h
    obtain ⟨s1, h1, h2⟩ := AllFalse_cons h
    simp [findLoop, h1, ih rest s1 s0 h2]

theorem findTailLoop_skip (f : Data → M σ Data) : ∀ (pre rest : List Data) (l : Data) (s s0 : σ), Lst l (pre ++ rest) →
    AllFalse f pre s s0 → ∃ t, Lst t rest ∧ findTailLoop f l s = findTailLoop f t s0 := by
  intro pre
  induction pre with
  | nil => intro rest l s s0 hl h; simp [AllFalse, calls] at h; exact ⟨l, hl, by simp [h]⟩
  | cons x xs ih =>
    intro rest l s s0 hl h
    obtain ⟨s1, h1, h2⟩ := AllFalse_cons h
    cases hl with
    | cons k a d ys hn hk hd =>
      obtain ⟨t, ht, he⟩ := ih rest d s1 s0 hd h2
      refine ⟨t, ht, ?_⟩
      have hnn : isNil (.cell k x d) = false := (isNil_cell_false k x d).2 hn
      simp [findTailLoop, hnn, h1, he]

end Golisp
