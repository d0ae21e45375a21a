import Verif.Sort
import Verif.ListLemmas
/-
Property C60: `sort`.
-/
namespace Golisp.Props
open Golisp Data Spec Sorting

variable {σ : Type}

private theorem swapAt_some {arr : List Data} {i j : Nat} (hi : i < arr.length) (hj : j < arr.length) :
    ∃ arr', swapAt arr i j = some arr' ∧ arr'.Perm arr := by
  have h1 : arr[i]? = some arr[i] := List.getElem?_eq_getElem hi
  have h2 : arr[j]? = some arr[j] := List.getElem?_eq_getElem hj
  refine ⟨(arr.set i arr[j]).set j arr[i], by simp only [swapAt, h1, h2], ?_⟩
  exact List.set_set_perm hi hj

private theorem run_perm (f : Data → M σ Data) {n : Nat} {t : Tree} (ht : InRange n t) :
    ∀ (arr : List Data) er s, arr.length = n →
      (∀ r s', run f t arr er s = (.ok r, s') → r.1.Perm arr) := by
  induction ht with
  | done =>
    intro arr er s _ r s' h
    simp only [run, M.pure] at h
    cases h; exact List.Perm.refl _
  | less hi hj _ ih =>
    rename_i i j k _
    intro arr er s hl r s' h
    cases er with
    | some e => exact ih false arr _ s hl r s' h
    | none =>
      simp only [run] at h
      split at h
      · split at h
        · exact ih _ arr _ _ hl r s' h
        · exact ih _ arr _ _ hl r s' h
        · cases h
        · cases h
      · cases h
  | swap hi hj _ ih =>
    intro arr er s hl r s' h
    obtain ⟨arr', he, hp⟩ := swapAt_some (hl ▸ hi) (hl ▸ hj)
    simp only [run, he] at h
    exact (ih arr' er s (hp.length_eq.trans hl) r s' h).trans hp

/-- C60: whatever the comparison procedure does, a result of `sort` is a list of the same elements, each as often. -/
theorem C60_permutation {strat : Nat → Tree} (hr : ∀ n, InRange n (strat n)) {f : Data → M σ Data} {coll : Data}
    {xs : List Data} (hl : Lst coll xs) {s s' : σ} {d : Data} (h : sortImpl strat f coll s = (.ok d, s')) :
    ∃ ys, Lst d ys ∧ ys.Perm (xs.map elem) := by
  unfold sortImpl at h
  split at h
  · simp [M.fail] at h
  · rw [hl.toArray] at h
    dsimp only at h
    split at h
    · rename_i arr s₁ he
      cases h
      have := run_perm f (hr xs.length) xs none s rfl _ _ he
      exact ⟨_, Lst.ofArray arr, this.map elem⟩
    all_goals cases h

private theorem run_pure (f : Data → M σ Data) (lt : Data → Data → Bool) {xs : List Data}
    (hf : ∀ a ∈ xs, ∀ b ∈ xs, ∀ s, ∃ v s', f (ofArray [a, b]) s = (.ok v, s') ∧ boolValue v = lt a b) :
    ∀ (t : Tree) (arr : List Data), (∀ a ∈ arr, a ∈ xs) → ∀ ys, runPure lt t arr = some ys →
      ∀ s, ∃ s', run f t arr none s = (.ok (ys, none), s')
  | .done, arr, _, ys, h, s => by
    simp only [runPure] at h; cases h
    exact ⟨s, rfl⟩
  | .less i j k, arr, ha, ys, h, s => by
    simp only [runPure] at h
    split at h
    · rename_i a b h1 h2
      obtain ⟨v, s', hv, hb⟩ := hf a (ha a (List.mem_of_getElem? h1)) b (ha b (List.mem_of_getElem? h2)) s
      simp only [run, h1, h2, hv, hb]
      exact run_pure f lt hf (k (lt a b)) arr ha ys h s'
    · cases h
  | .swap i j k, arr, ha, ys, h, s => by
    simp only [runPure] at h
    split at h
    · rename_i arr' he
      simp only [run, he]
      refine run_pure f lt hf k arr' ?_ ys h s
      intro a hm
      unfold swapAt at he
      split at he
      · rename_i x y h1 h2
        cases he
        rcases List.mem_or_eq_of_mem_set hm with hm | rfl
        · rcases List.mem_or_eq_of_mem_set hm with hm | rfl
          · exact ha a hm
          · exact ha _ (List.mem_of_getElem? h2)
        · exact ha _ (List.mem_of_getElem? h1)
      · cases he
    · cases h

/-- C60: when the procedure, on elements of the list, always returns and answers according to a strict weak order (it
may have side effects), `sort` gives the elements in that order. -/
theorem C60_sorted {strat : Nat → Tree} (hr : ∀ n, InRange n (strat n)) (hs : Sorts strat) {f : Data → M σ Data}
    {lt : Data → Data → Bool} (hlt : StrictWeak lt) {coll : Data} {xs : List Data} (hl : Lst coll xs)
    (hp : isListP coll = true) (hn : Data.null ∉ xs)
    (hf : ∀ a ∈ xs, ∀ b ∈ xs, ∀ s, ∃ v s', f (ofArray [a, b]) s = (.ok v, s') ∧ boolValue v = lt a b) (s : σ) :
    ∃ d s' ys, sortImpl strat f coll s = (.ok d, s') ∧ Lst d ys ∧ ys.Perm xs ∧ Ordered lt ys := by
  obtain ⟨ys, h1, h2⟩ := hs lt hlt xs
  obtain ⟨s', h3⟩ := run_pure f lt hf (strat xs.length) xs (fun _ h => h) ys h1 s
  have hperm : ys.Perm xs := run_perm f (hr xs.length) xs none s rfl _ _ h3
  have hid : ys.map elem = ys := map_elem_id fun h => hn (hperm.mem_iff.1 h)
  refine ⟨ofArray ys, s', ys, ?_, ?_, hperm, h2⟩
  · unfold sortImpl
    rw [hp]
    simp only [Bool.not_true, Bool.false_eq_true, if_false, hl.toArray, h3]
  · have := Lst.ofArray ys
    rwa [hid] at this

/-- The outcome of a run agrees with the record of calls. -/
private def Agrees (r : Out (List Data × Option Err)) (before after : List (Out Data)) : Prop :=
  ∃ new, after = before ++ new ∧
    match r with
    | .ok (_, none) => ∀ o ∈ new, ∃ v, o = .ok v
    | .ok (_, some e) => ∃ init, new = init ++ [.err e] ∧ ∀ o ∈ init, ∃ v, o = .ok v
    | .err _ => False
    | .panic => (∀ o ∈ new, ∃ v, o = .ok v) ∨ ∃ init, new = init ++ [.panic] ∧ ∀ o ∈ init, ∃ v, o = .ok v
    | .timeout => ∃ init, new = init ++ [.timeout] ∧ ∀ o ∈ init, ∃ v, o = .ok v

private theorem run_after (f : Data → M (σ × List (Out Data)) Data) {n : Nat} {t : Tree} (ht : InRange n t) (e : Err) :
    ∀ arr s, arr.length = n → ∃ arr', run f t arr (some e) s = (.ok (arr', some e), s) := by
  induction ht with
  | done => intro arr s _; exact ⟨arr, rfl⟩
  | less _ _ _ ih => intro arr s hl; exact ih false arr s hl
  | swap hi hj _ ih =>
    intro arr s hl
    obtain ⟨arr', he, hp⟩ := swapAt_some (hl ▸ hi) (hl ▸ hj)
    obtain ⟨a, h⟩ := ih arr' s (hp.length_eq.trans hl)
    exact ⟨a, by simp only [run, he, h]⟩

private theorem agrees_cons {r before after} {v : Data} (h : Agrees r (before ++ [.ok v]) after) : Agrees r before after := by
  obtain ⟨new, rfl, h⟩ := h
  refine ⟨.ok v :: new, by simp, ?_⟩
  have hall : ∀ {l : List (Out Data)}, (∀ o ∈ l, ∃ v, o = .ok v) → ∀ o ∈ Out.ok v :: l, ∃ v, o = .ok v := by
    intro l hl o ho
    rcases List.mem_cons.1 ho with rfl | ho
    · exact ⟨v, rfl⟩
    · exact hl o ho
  cases r with
  | ok p =>
    obtain ⟨arr, er⟩ := p
    cases er with
    | none => exact hall h
    | some e => obtain ⟨i, rfl, hi⟩ := h; exact ⟨.ok v :: i, rfl, hall hi⟩
  | err e => exact h
  | panic =>
    rcases h with h | ⟨i, rfl, hi⟩
    · exact .inl (hall h)
    · exact .inr ⟨.ok v :: i, rfl, hall hi⟩
  | timeout => obtain ⟨i, rfl, hi⟩ := h; exact ⟨.ok v :: i, rfl, hall hi⟩

private theorem run_log (f : Data → M σ Data) {n : Nat} {t : Tree} (ht : InRange n t) :
    ∀ (arr : List Data) s, arr.length = n →
      Agrees (run (recorded f) t arr none s).1 s.2 (run (recorded f) t arr none s).2.2 := by
  induction ht with
  | done => intro arr s _; exact ⟨[], by simp [run, M.pure], by simp [run, M.pure]⟩
  | less hi hj hk ih =>
    rename_i i j k
    intro arr s hl
    have h1 : arr[i]? = some arr[i] := List.getElem?_eq_getElem (hl ▸ hi)
    have h2 : arr[j]? = some arr[j] := List.getElem?_eq_getElem (hl ▸ hj)
    simp only [run, h1, h2]
    cases hx : f (ofArray [arr[i], arr[j]]) s.1 with
    | mk o s' =>
    have hlog : recorded f (ofArray [arr[i], arr[j]]) s = (o, (s', s.2 ++ [o])) := by simp [recorded, hx]
    rw [hlog]
    cases o with
    | ok v => exact agrees_cons (ih _ arr (s', s.2 ++ [.ok v]) hl)
    | err e =>
      obtain ⟨a, ha⟩ := run_after (recorded f) (hk false) e arr (s', s.2 ++ [.err e]) hl
      simp only [ha]
      exact ⟨[.err e], rfl, [], rfl, by simp⟩
    | panic => exact ⟨[.panic], rfl, .inr ⟨[], rfl, by simp⟩⟩
    | timeout => exact ⟨[.timeout], rfl, [], rfl, by simp⟩
  | swap hi hj _ ih =>
    intro arr s hl
    obtain ⟨arr', he, hp⟩ := swapAt_some (hl ▸ hi) (hl ▸ hj)
    simp only [run, he]
    exact ih arr' s (hp.length_eq.trans hl)

/-- C60: `sort` of a list returns a value exactly when every call of the procedure returned; it returns an error exactly
when a call raised that error, and that call is the last one made. -/
theorem C60_error {strat : Nat → Tree} (hr : ∀ n, InRange n (strat n)) (f : Data → M σ Data) {coll : Data}
    (hp : isListP coll = true) (s : σ) :
    ((∃ d, (sortImpl strat (recorded f) coll (s, [])).1 = .ok d) →
        ∀ o ∈ (sortImpl strat (recorded f) coll (s, [])).2.2, ∃ v, o = .ok v) ∧
    (∀ e, (sortImpl strat (recorded f) coll (s, [])).1 = .err e →
        ∃ init, (sortImpl strat (recorded f) coll (s, [])).2.2 = init ++ [.err e] ∧ ∀ o ∈ init, ∃ v, o = .ok v) := by
  have key := run_log f (hr (toArray coll).length) (toArray coll) (s, []) rfl
  unfold sortImpl
  rw [hp]
  simp only [Bool.not_true, Bool.false_eq_true, if_false]
  cases hx : run (recorded f) (strat (toArray coll).length) (toArray coll) none (s, []) with
  | mk o s' =>
  rw [hx] at key
  obtain ⟨new, h1, h2⟩ := key
  simp only [List.nil_append] at h1
  cases o with
  | ok p =>
    obtain ⟨arr, er⟩ := p
    cases er with
    | none => simp only [reduceCtorEq, false_implies, implies_true, and_true]; intro _; rw [h1]; exact h2
    | some e =>
      obtain ⟨i, hi, ha⟩ := h2
      refine ⟨by simp, ?_⟩
      intro e' he; cases he
      exact ⟨i, h1.trans hi, ha⟩
  | err e => exact h2.elim
  | panic => simp
  | timeout => simp

/-- C60: a first argument that is not a list is an error. -/
theorem C60_not_list (strat : Nat → Tree) (f : Data → M σ Data) {coll : Data} (h : isListP coll = false) (s : σ) :
    ∃ m, sortImpl strat f coll s = (.err (.msg m), s) := ⟨_, by simp [sortImpl, h, M.fail]; rfl⟩

/-! ### Go's insertion sort keeps the promise -/

private def insRev (lt : Data → Data → Bool) (x : Data) : List Data → List Data
  | [] => [x]
  | y :: ys => if lt x y then y :: insRev lt x ys else x :: y :: ys

private theorem insRev_length (lt x) : ∀ p, (insRev lt x p).length = p.length + 1
  | [] => rfl
  | y :: ys => by unfold insRev; split <;> simp [insRev_length lt x ys]

private theorem insRev_mem {lt x b} : ∀ p, b ∈ insRev lt x p → b = x ∨ b ∈ p
  | [], h => by simpa [insRev] using h
  | y :: ys, h => by
    unfold insRev at h
    split at h
    · rcases List.mem_cons.1 h with rfl | h
      · simp
      · rcases insRev_mem ys h with h | h <;> simp [h]
    · simpa using h

private theorem run_inner (lt : Data → Data → Bool) (next : Tree) (x : Data) :
    ∀ (p post : List Data), runPure lt (inner next p.length) (p.reverse ++ x :: post) =
      runPure lt next ((insRev lt x p).reverse ++ post)
  | [], post => rfl
  | y :: ys, post => by
    have h1 : ((y :: ys).reverse ++ x :: post)[ys.length + 1]? = some x := by
      rw [List.getElem?_append_right (by simp)]; simp
    have h2 : ((y :: ys).reverse ++ x :: post)[ys.length]? = some y := by
      rw [List.getElem?_append_left (by simp), List.reverse_cons, List.getElem?_append_right (by simp)]; simp
    simp only [List.length_cons, inner, runPure, h1, h2, insRev]
    cases hb : lt x y with
    | false => simp
    | true =>
      simp only [if_true, runPure, swapAt, h1, h2]
      have : (((y :: ys).reverse ++ x :: post).set (ys.length + 1) y).set ys.length x =
          ys.reverse ++ x :: y :: post := by
        rw [List.reverse_cons, List.append_assoc, List.set_append_right _ _ (by simp), List.set_append_right _ _ (by simp)]
        simp
      rw [this, run_inner lt next x ys (y :: post)]
      simp

private theorem neg_trans {lt} (h : StrictWeak lt) {a b c : Data} (h1 : lt a b = false) (h2 : lt b c = false) :
    lt a c = false := by
  cases hac : lt a c with
  | false => rfl
  | true =>
    have h3 : lt b a = false := by
      cases hba : lt b a with
      | false => rfl
      | true => rw [h.trans b a c hba hac] at h2; cases h2
    have h4 : lt c b = false := by
      cases hcb : lt c b with
      | false => rfl
      | true => rw [h.trans a c b hac hcb] at h1; cases h1
    rw [(h.incomp a b c h1 h3 h2 h4).1] at hac; cases hac

private theorem insRev_sorted {lt} (h : StrictWeak lt) (x : Data) :
    ∀ p, p.Pairwise (fun a b => lt a b = false) → (insRev lt x p).Pairwise (fun a b => lt a b = false)
  | [], _ => by simp [insRev]
  | y :: ys, hp => by
    have hy := List.pairwise_cons.1 hp
    unfold insRev
    cases hb : lt x y with
    | true =>
      simp only [if_true]
      refine List.pairwise_cons.2 ⟨fun b hm => ?_, insRev_sorted h x ys hy.2⟩
      rcases insRev_mem ys hm with rfl | hm
      · exact h.asymm _ _ hb
      · exact hy.1 b hm
    | false =>
      simp only [Bool.false_eq_true, if_false]
      refine List.pairwise_cons.2 ⟨fun b hm => ?_, hp⟩
      rcases List.mem_cons.1 hm with rfl | hm
      · exact hb
      · exact neg_trans h hb (hy.1 b hm)

private theorem run_outer {lt} (h : StrictWeak lt) :
    ∀ (rest p : List Data), p.Pairwise (fun a b => lt a b = false) →
      ∃ ys, runPure lt (outer rest.length p.length) (p.reverse ++ rest) = some ys ∧ Ordered lt ys
  | [], p, hp => ⟨p.reverse, by simp [outer, runPure], by simpa [Ordered, List.pairwise_reverse] using hp⟩
  | x :: rest, p, hp => by
    obtain ⟨ys, h1, h2⟩ := run_outer h rest (insRev lt x p) (insRev_sorted h x p hp)
    refine ⟨ys, ?_, h2⟩
    simp only [List.length_cons, outer]
    rw [run_inner, ← h1, insRev_length]

/-- C60: Go's insertion sort, used by `sort.Slice` for up to 12 elements, puts any list in order under any strict weak
order. -/
theorem C60_insertion_sorts : Sorts insertion := by
  intro lt h xs
  cases xs with
  | nil => exact ⟨[], rfl, List.Pairwise.nil⟩
  | cons x rest => exact run_outer h rest [x] (by simp)

private theorem inner_range {n next} (hn : InRange n next) : ∀ j, j < n → InRange n (inner next j)
  | 0, _ => hn
  | j + 1, h => .less h (by omega) fun b => by
    cases b
    · exact hn
    · exact .swap h (by omega) (inner_range hn j (by omega))

private theorem outer_range {n} : ∀ k i, i + k ≤ n → InRange n (outer k i)
  | 0, _, _ => .done
  | k + 1, i, h => inner_range (outer_range k (i + 1) (by omega)) i (by omega)

/-- C60: … and only uses positions of the list. -/
theorem C60_insertion_in_range (n : Nat) : InRange n (insertion n) := by
  cases n with
  | zero => exact .done
  | succ n => exact outer_range n 1 (by omega)

/-! ### Witnesses -/

private def num (n : Int) : Data := .atom (.int (BitVec.ofInt 64 n))
private def val : Data → Int
  | .atom (.int x) => x.toInt
  | _ => 0
private def byNum (a b : Data) : Bool := val a < val b
private theorem byNum_weak : StrictWeak byNum := by
  constructor <;> simp [byNum] <;> omega
private def lessP : Data → M Nat Data := fun args s => (.ok (.bool (byNum (car args) (car (cdr args)))), s + 1)
private def failP : Data → M Nat Data := fun args s =>
  if car args = num 2 then (.err (.msg "two"), s + 1) else lessP args s

example : sortImpl insertion lessP (ofArray [num 3, num (-1), num 2]) 0 = (.ok (ofArray [num (-1), num 2, num 3]), 3) := by
  decide +kernel
example : (sortImpl insertion (recorded failP) (ofArray [num 3, num (-1), num 2, num 1]) (0, [])) =
    (.err (.msg "two"), 2, [.ok (.bool true), .err (.msg "two")]) := by
  decide +kernel
/-- The hypotheses of `C60_sorted` hold for numbers compared by value, whatever the list of numbers. -/
example (ns : List Int) : ∃ d s' ys, sortImpl insertion lessP (ofArray (ns.map num)) 0 = (.ok d, s') ∧ Lst d ys ∧
    ys.Perm (ns.map num) ∧ Ordered byNum ys := by
  have hn : Data.null ∉ ns.map num := by simp [num]
  have hl : Lst (ofArray (ns.map num)) (ns.map num) := by
    have := Lst.ofArray (ns.map num)
    rwa [map_elem_id hn] at this
  refine C60_sorted C60_insertion_in_range C60_insertion_sorts byNum_weak hl ?_ hn ?_ 0
  · cases ns <;> rfl
  · intro a _ b _ s
    exact ⟨_, _, rfl, by cases a <;> cases b <;> rfl⟩

end Golisp.Props
