import Verif.ListLemmas2
/-
Property theorems about primitives that call procedures: C06, C07, C08, C09.
`σ` is an arbitrary state type and `f` an arbitrary stateful, failing callback.
`calls f as` (in `Verif.Spec`) makes the calls with argument lists `as` in order and stops at the first failure.
-/
namespace Golisp.Props
open Data Spec Prim

variable {σ : Type}

/-! ## C06: map and for-each -/

/-- `map` over non-empty lists makes exactly the calls `row 0, row 1, …, row (n-1)` in that order, where `n` is
the length of the shortest list and `row i` the argument list of the `i`-th elements; on success the result
lists the returned values in order; the first failing call ends the primitive with that outcome. -/
theorem C06_map (f : Data → M σ Data) (args : List (Data × List Data)) (hne : args ≠ [])
    (h : ∀ p ∈ args, Lst p.1 p.2 ∧ isListP p.1 = true) (hpos : ∀ p ∈ args, p.2 ≠ []) :
    ∃ n, (∀ p ∈ args, n ≤ p.2.length) ∧ (∃ p ∈ args, n = p.2.length) ∧
      ∀ s, mapImpl f (args.map (·.1)) s =
        mapOut ofArray (calls f ((List.range n).map (row (args.map (·.2)))) s) := by
  obtain ⟨n, h1, h2, h3⟩ := minLen_spec args (fun p hp => (h p hp).1) hne
  refine ⟨n, h2, h3, fun s => ?_⟩
  simp only [mapImpl, mapScan_none h hpos, h1, M.bind, mapLoop_calls f n args (fun p hp => (h p hp).1)]
  rcases calls f ((List.range n).map (row (args.map (·.2)))) s with ⟨o, s'⟩
  cases o <;> rfl

/-- `map` with an empty list among its arguments makes no call and returns nil. -/
theorem C06_map_empty (f : Data → M σ Data) (args : List (Data × List Data))
    (h : ∀ p ∈ args, Lst p.1 p.2 ∧ isListP p.1 = true) (hpos : ∃ p ∈ args, p.2 = []) (s : σ) :
    mapImpl f (args.map (·.1)) s = (.ok .null, s) := by
  simp [mapImpl, mapScan_empty h hpos]

/-- `for-each` makes the same calls as `map` and returns nil. -/
theorem C06_for_each (f : Data → M σ Data) (args : List (Data × List Data)) (hne : args ≠ [])
    (h : ∀ p ∈ args, Lst p.1 p.2 ∧ isListP p.1 = true) :
    ∃ n, (∀ p ∈ args, n ≤ p.2.length) ∧ (∃ p ∈ args, n = p.2.length) ∧
      ∀ s, forEachImpl f (args.map (·.1)) s =
        mapOut (fun _ => Data.null) (calls f ((List.range n).map (row (args.map (·.2)))) s) := by
  obtain ⟨n, h1, h2, h3⟩ := minLen_spec args (fun p hp => (h p hp).1) hne
  refine ⟨n, h2, h3, fun s => ?_⟩
  simp only [forEachImpl, allLists_true (fun p hp => (h p hp).2), h1, M.bind,
    forEachLoop_calls f n args (fun p hp => (h p hp).1), Bool.not_true, Bool.false_eq_true, if_false]
  generalize calls f _ s = r
  rcases r with ⟨o, s'⟩
  cases o <;> rfl

/-- The calls actually received by the callback of `map`: all rows in order if every call returns, otherwise the
rows up to and including the first failing one and nothing after it. -/
theorem C06_map_call_log (f : Data → M σ Data) (args : List (Data × List Data)) (hne : args ≠ [])
    (h : ∀ p ∈ args, Lst p.1 p.2 ∧ isListP p.1 = true) (hpos : ∀ p ∈ args, p.2 ≠ []) :
    ∃ n, (∀ p ∈ args, n ≤ p.2.length) ∧ (∃ p ∈ args, n = p.2.length) ∧
      ∀ s, ∃ k ≤ n, ∃ o s', mapImpl (logged f) (args.map (·.1)) (s, []) =
          (o, s', ((List.range n).map (row (args.map (·.2)))).take k) ∧
        mapImpl f (args.map (·.1)) s = (o, s') ∧
        ((∃ v, o = .ok v) → k = n) ∧
        ((∀ v, o ≠ .ok v) → 0 < k ∧ ∃ vs s0,
          calls f (((List.range n).map (row (args.map (·.2)))).take (k - 1)) s = (.ok vs, s0) ∧
          ∀ v, (f (row (args.map (·.2)) (k - 1)) s0).1 ≠ .ok v) := by
  obtain ⟨n, h2, h3, hs⟩ := C06_map f args hne h hpos
  obtain ⟨n', h2', h3', hs'⟩ := C06_map (logged f) args hne h hpos
  have hnn : n' = n := by
    obtain ⟨p, hp, e⟩ := h3; obtain ⟨p', hp', e'⟩ := h3'
    have := h2 p' hp'; have := h2' p hp; omega
  subst hnn
  refine ⟨n', h2, h3, fun s => ?_⟩
  obtain ⟨k, hk, e1, e2, e3⟩ := calls_logged f ((List.range n').map (row (args.map (·.2)))) s []
  have hk' : k ≤ n' := by simpa using hk
  rw [hs', hs, e1]
  rcases hc : calls f ((List.range n').map (row (args.map (·.2)))) s with ⟨o, s'⟩
  rw [hc] at e2 e3
  refine ⟨k, hk', (mapOut ofArray (o, s')).1, s', by rw [hc]; cases o <;> simp [mapOut], by rw [hc]; cases o <;> simp [mapOut], ?_, ?_⟩
  · rintro ⟨v, hv⟩
    cases o with
    | ok vs => simpa using e2 ⟨vs, rfl⟩
    | _ => simp [mapOut] at hv
  · intro hv
    have hno : ∀ vs, o ≠ .ok vs := by
      rintro vs rfl; exact hv _ rfl
    obtain ⟨hk0, vs, s0, h4, h5⟩ := e3 hno
    refine ⟨hk0, vs, s0, h4, ?_⟩
    have hlt : k - 1 < n' := by omega
    exact h5 (row (args.map (·.2)) (k - 1)) (by simp [List.getElem?_range hlt])

/-- Non-vacuity: a counting callback over two lists of different lengths. -/
example : mapImpl (fun a n => (.ok (Data.cons (.int (BitVec.ofNat 64 n)) a), n + 1))
      [ofArray [.int 1, .int 2, .int 3], ofArray [.str "a", .str "b"]] 0 =
    (.ok (ofArray [Data.cons (.int 0) (ofArray [.int 1, .str "a"]), Data.cons (.int 1) (ofArray [.int 2, .str "b"])]), 2) := by
  decide

/-! ## C07: folds and reductions -/

theorem C07_fold_left (f : Data → M σ Data) (init col : Data) (xs : List Data) (h : Lst col xs)
    (hl : isListP col = true) (s : σ) :
    foldLeft f init col s = Spec.foldl (fun a x => f (ofArray [a, x])) init xs s := by
  simp [foldLeft, hl, h.toArray, reduceFoldProc_left]

theorem C07_fold_right (f : Data → M σ Data) (init col : Data) (xs : List Data) (h : Lst col xs)
    (hl : isListP col = true) (s : σ) :
    foldRight f init col s = Spec.foldr (fun x a => f (ofArray [x, a])) init xs s := by
  simp [foldRight, hl, h.toArray, reduceFoldProc_right]

/-- `reduce`/`reduce-left` on a non-empty list folds from the first element and never uses the initial value. -/
theorem C07_reduce_left (f : Data → M σ Data) (init col x : Data) (xs : List Data) (h : Lst col (x :: xs))
    (hl : isListP col = true) (s : σ) :
    reduceLeft f init col s = Spec.foldl (fun a x => f (ofArray [a, x])) x xs s := by
  simp [reduceLeft, hl, h.toArray, reduceFoldProc_left]

/-- `reduce-right` on a non-empty list folds from the last element. -/
theorem C07_reduce_right (f : Data → M σ Data) (init col x : Data) (xs : List Data) (h : Lst col (xs ++ [x]))
    (hl : isListP col = true) (s : σ) :
    reduceRight f init col s = Spec.foldr (fun x a => f (ofArray [x, a])) x xs s := by
  simp [reduceRight, hl, h.toArray, reduceFoldProc_right]

/-- On an empty list every reduction returns the initial value without a call. -/
theorem C07_reduce_empty (f : Data → M σ Data) (init col : Data) (h : Lst col []) (hl : isListP col = true) (s : σ) :
    reduceLeft f init col s = (.ok init, s) ∧ reduceRight f init col s = (.ok init, s) ∧
    foldLeft f init col s = (.ok init, s) ∧ foldRight f init col s = (.ok init, s) := by
  simp [reduceLeft, reduceRight, foldLeft, foldRight, hl, h.toArray, M.pure, reduceFoldProc, reduceFold]

/-- Instance: for an operation that never fails and has no effect, the folds are the ordinary ones. -/
theorem C07_fold_pure (g : Data → Data → Data) (f : Data → M σ Data) (hf : ∀ a b s, f (ofArray [a, b]) s = (.ok (g a b), s))
    (init col : Data) (xs : List Data) (h : Lst col xs) (hl : isListP col = true) (s : σ) :
    foldLeft f init col s = (.ok (xs.foldl g init), s) ∧ foldRight f init col s = (.ok (xs.foldr g init), s) := by
  constructor
  · rw [C07_fold_left f init col xs h hl]
    clear h
    induction xs generalizing init with
    | nil => rfl
    | cons x xs ih => simp [Spec.foldl, hf, ih]
  · rw [C07_fold_right f init col xs h hl]
    clear h
    induction xs with
    | nil => rfl
    | cons x xs ih => simp [Spec.foldr, hf, ih]

example : foldRight (fun a (_ : Unit) => (.ok a, ())) .emptyCons (ofArray [.int 1, .int 2]) () =
    (.ok (ofArray [.int 1, ofArray [.int 2, .emptyCons]]), ()) := by decide

/-! ## C08: filter and remove -/

/-- The elements of `xs` whose flag in `bs` is `b`, in order. -/
def select (b : Bool) (bs : List Bool) (xs : List Data) : List Data :=
  ((xs.zip bs).filter (fun p => p.2 == b)).map (·.1)

/-- When the predicate answers a boolean on every element, `filter` keeps exactly the elements answered true
and `remove` exactly those answered false, in order, with one call per element in order. -/
theorem C08_filter_remove (f : Data → M σ Data) (l : Data) (xs : List Data) (bs : List Bool) (h : Lst l xs)
    (hl : isListP l = true) (s s' : σ)
    (hc : calls f (xs.map fun x => Data.cons x .null) s = (.ok (bs.map Data.bool), s')) :
    Prim.filter f l s = (.ok (ofArray (select true bs xs)), s') ∧
    Prim.remove f l s = (.ok (ofArray (select false bs xs)), s') ∧
    List.Perm (select true bs xs ++ select false bs xs) xs := by
  refine ⟨?_, ?_, ?_⟩
  · simp [Prim.filter, hl, M.bind, h.toArray, filterLoop_ok f true xs bs s s' hc, M.pure, select]
  · simp [Prim.remove, hl, M.bind, h.toArray, filterLoop_ok f false xs bs s s' hc, M.pure, select]
  · have hlen : bs.length = xs.length := by simpa using calls_length f _ s s' _ hc
    unfold select
    rw [← List.map_append]
    have h1 : (fun p : Data × Bool => p.2 == true) = (fun p => p.2) := by funext p; cases p.2 <;> rfl
    have h2 : (fun p : Data × Bool => p.2 == false) = (fun p => !p.2) := by funext p; cases p.2 <;> rfl
    rw [h1, h2]
    have := (List.filter_append_perm (fun p : Data × Bool => p.2) (xs.zip bs)).map (·.1)
    rw [List.map_fst_zip (by omega)] at this
    exact this

/-- If some answer is not a boolean, or a call fails, both primitives fail right there: the state is the one
after that call, so no later element is passed to the predicate. -/
theorem C08_filter_remove_stop (f : Data → M σ Data) (l : Data) (pre post : List Data) (x : Data) (bs : List Bool)
    (h : Lst l (pre ++ x :: post)) (hl : isListP l = true) (s s0 s' : σ) (o : Out Data)
    (hc : calls f (pre.map fun x => Data.cons x .null) s = (.ok (bs.map Data.bool), s0))
    (hx : f (Data.cons x .null) s0 = (o, s')) (ho : ∀ b, o ≠ .ok (.bool b)) :
    (∀ r, (Prim.filter f l s).1 ≠ .ok r) ∧ (Prim.filter f l s).2 = s' ∧
    (∀ r, (Prim.remove f l s).1 ≠ .ok r) ∧ (Prim.remove f l s).2 = s' ∧
    (∀ e, o = .err e → Prim.filter f l s = (.err e, s') ∧ Prim.remove f l s = (.err e, s')) := by
  have h1 := filterLoop_stop f true pre post x bs s s0 s' o hc hx ho
  have h2 := filterLoop_stop f false pre post x bs s s0 s' o hc hx ho
  cases o <;> simp [Prim.filter, Prim.remove, hl, M.bind, h.toArray, h1, h2]

example : Prim.filter (fun a n => (.ok (.bool (car a == .int 1)), n + 1)) (ofArray [.int 1, .int 2, .int 1]) 0 =
    (.ok (ofArray [.int 1, .int 1]), 3) := by decide

/-! ## C09: searches stop at the first decisive element -/

/-- `find` returns the first element answered true; the final state is the one right after that call. -/
theorem C09_find_hit (f : Data → M σ Data) (l : Data) (pre post : List Data) (x : Data) (h : Lst l (pre ++ x :: post))
    (hl : isListP l = true) (s s0 s1 : σ) (hpre : AllFalse f pre s s0)
    (hx : f (ofArray [x]) s0 = (.ok (.bool true), s1)) :
    find f l s = (.ok x, s1) ∧ ∃ t, Lst t (x :: post) ∧ findTail f l s = (.ok t, s1) := by
  constructor
  · simp [find, hl, h.toArray, findLoop_skip f pre (x :: post) s s0 hpre, findLoop, hx]
  · obtain ⟨t, ht, he⟩ := findTailLoop_skip f pre (x :: post) l s s0 h hpre
    refine ⟨t, ht, ?_⟩
    simp only [findTail, hl, Bool.not_true, Bool.false_eq_true, if_false, he]
    cases ht with
    | cons k a d ys hn hk hd =>
      have hnn : isNil (.cell k x d) = false := (isNil_cell_false k x d).2 hn
      simp [findTailLoop, hnn, hx]

/-- When every answer is false, both return `#f`. -/
theorem C09_find_miss (f : Data → M σ Data) (l : Data) (xs : List Data) (h : Lst l xs)
    (hl : isListP l = true) (s s0 : σ) (hall : AllFalse f xs s s0) :
    find f l s = (.ok (.bool false), s0) ∧ findTail f l s = (.ok (.bool false), s0) := by
  constructor
  · have := findLoop_skip f xs [] s s0 hall
    simp [find, hl, h.toArray, findLoop, M.pure] at this ⊢
    exact this
  · obtain ⟨t, ht, he⟩ := findTailLoop_skip f xs [] l s s0 (by simpa using h) hall
    simp only [findTail, hl, Bool.not_true, Bool.false_eq_true, if_false, he]
    cases ht <;> simp [findTailLoop, M.pure]

/-- A failing call or a non-boolean answer ends the search with an error at once. -/
theorem C09_find_fail (f : Data → M σ Data) (l : Data) (pre post : List Data) (x : Data) (h : Lst l (pre ++ x :: post))
    (hl : isListP l = true) (s s0 s1 : σ) (o : Out Data) (hpre : AllFalse f pre s s0)
    (hx : f (ofArray [x]) s0 = (o, s1)) (ho : (∃ e, o = .err e) ∨ ∃ v, o = .ok v ∧ ∀ b, v ≠ .bool b) :
    (∃ e, find f l s = (.err e, s1)) ∧ ∃ e, findTail f l s = (.err e, s1) := by
  obtain ⟨t, ht, he⟩ := findTailLoop_skip f pre (x :: post) l s s0 h hpre
  have h1 : find f l s = findLoop f (x :: post) s0 := by
    simp [find, hl, h.toArray, findLoop_skip f pre (x :: post) s s0 hpre]
  have h2 : findTail f l s = findTailLoop f t s0 := by simp [findTail, hl, he]
  rw [h1, h2]
  cases ht with
  | cons k a d ys hn hk hd =>
    have hnn : isNil (.cell k x d) = false := (isNil_cell_false k x d).2 hn
    rcases ho with ⟨e, rfl⟩ | ⟨v, rfl, hv⟩
    · simp [findLoop, findTailLoop, hnn, hx]
    · have aux : ∀ (g : σ → Out Data × σ) (r : Data) (m : String),
          ∃ e, (match (Out.ok v, s1) with
            | (.ok (.bool true), s') => (.ok r, s')
            | (.ok (.bool false), s') => g s'
            | (.ok _, s') => (.err (.msg m), s')
            | (.err _, s') => (.err (.msg m), s')
            | (.panic, s') => (.panic, s')
            | (.timeout, s') => ((.timeout : Out Data), s')) = (.err e, s1) := by
        intro g r m
        refine ⟨.msg m, ?_⟩
        cases v with
        | atom a => cases a <;> first | rfl | exact absurd rfl (hv _)
        | _ => rfl
      constructor
      · simp only [findLoop, hx]; exact aux _ _ _
      · simp only [findTailLoop, hnn, hx, Bool.false_eq_true, if_false]; exact aux _ _ _

/-- `memq`/`memv`/`member` return the tail starting at the first element equal to the key, or `#f`. -/
theorem C09_memq [FrEq] (key l : Data) (xs : List Data) (h : Lst l xs) :
    ((∀ x ∈ xs, isEqual key x = false) → memq key l = .bool false) ∧
    (∀ pre x post, xs = pre ++ x :: post → (∀ y ∈ pre, isEqual key y = false) → isEqual key x = true →
      Lst (memq key l) (x :: post)) := by
  induction h with
  | null => simp [memq]
  | empty k => simp [memq]
  | cons k a d xs hn hk hd ih =>
    have hnn : isNil (.cell k a d) = false := (isNil_cell_false k a d).2 hn
    constructor
    · intro hall
      simp only [memq, hnn, hall a (by simp), Bool.false_eq_true, if_false]
      exact ih.1 (fun x hx => hall x (by simp [hx]))
    · intro pre x post he hpre hx
      cases pre with
      | nil =>
        simp only [List.nil_append, List.cons.injEq] at he
        obtain ⟨rfl, rfl⟩ := he
        simp only [memq, hnn, hx, Bool.false_eq_true, if_false, if_true]
        exact .cons k a d xs hn hk hd
      | cons y ys =>
        simp only [List.cons_append, List.cons.injEq] at he
        obtain ⟨rfl, rfl⟩ := he
        simp only [memq, hnn, hpre a (by simp), Bool.false_eq_true, if_false]
        exact ih.2 ys x post rfl (fun z hz => hpre z (by simp [hz])) hx

/-- `any` makes the calls in order and stops with `#t` at the first true answer (else `#f`);
`every` stops with `#f` at the first false answer (else `#t`). -/
theorem C09_any_every (f : Data → M σ Data) (args : List (Data × List Data)) (hne : args ≠ [])
    (h : ∀ p ∈ args, Lst p.1 p.2 ∧ isListP p.1 = true) :
    ∃ n, (∀ p ∈ args, n ≤ p.2.length) ∧ (∃ p ∈ args, n = p.2.length) ∧
      ∀ s, anyImpl f (args.map (·.1)) s =
            mapOut Data.bool (firstDecisive f true ((List.range n).map (row (args.map (·.2)))) s) ∧
           everyImpl f (args.map (·.1)) s =
            mapOut Data.bool (firstDecisive f false ((List.range n).map (row (args.map (·.2)))) s) := by
  obtain ⟨n, h1, h2, h3⟩ := minLen_spec args (fun p hp => (h p hp).1) hne
  refine ⟨n, h2, h3, fun s => ?_⟩
  simp only [anyImpl, everyImpl, allLists_true (fun p hp => (h p hp).2), h1,
    anyLoop_spec f n args (fun p hp => (h p hp).1), everyLoop_spec f n args (fun p hp => (h p hp).1),
    Bool.not_true, Bool.false_eq_true, if_false, and_self]

/-- Reading of `firstDecisive`: calls up to the first answer with truth value `stop`, none after it. -/
theorem C09_firstDecisive (f : Data → M σ Data) (stop : Bool) (pre post : List Data) (a v : Data) (vs : List Data) (s s0 s1 : σ)
    (hpre : calls f pre s = (.ok vs, s0)) (hvs : ∀ w ∈ vs, boolValue w = !stop)
    (ha : f a s0 = (.ok v, s1)) (hv : boolValue v = stop) :
    firstDecisive f stop (pre ++ a :: post) s = (.ok stop, s1) := by
  induction pre generalizing s vs with
  | nil =>
    simp only [calls, Prod.mk.injEq] at hpre
    obtain ⟨_, rfl⟩ := hpre
    simp [firstDecisive, ha, hv]
  | cons b bs ih =>
    simp only [calls] at hpre
    rcases hf : f b s with ⟨o, s2⟩
    rw [hf] at hpre
    cases o with
    | ok w =>
      simp only at hpre
      rcases hc : calls f bs s2 with ⟨o2, s3⟩
      rw [hc] at hpre
      cases o2 with
      | ok ws =>
        simp only [Prod.mk.injEq, Out.ok.injEq] at hpre
        obtain ⟨rfl, rfl⟩ := hpre
        have hw := hvs w (by simp)
        simp only [List.cons_append, firstDecisive, hf, hw]
        have : (!stop) ≠ stop := by cases stop <;> simp
        rw [if_neg this]
        exact ih ws s2 hc (fun u hu => hvs u (by simp [hu]))
      | _ => simp at hpre
    | _ => simp at hpre

example : anyImpl (fun a n => (.ok (.bool (car a == .int 2)), n + 1)) [ofArray [.int 1, .int 2, .int 3]] 0 =
    (.ok (.bool true), 2) := by decide

end Golisp.Props
