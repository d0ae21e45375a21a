import Verif.Props.Environments
import Verif.Props.Apply
import Verif.Props.Sort
import Verif.Props.Texts
/- C80: `sort` as called by programs. -/
namespace Golisp.Spec
open Golisp Data Ev

/-- `Compared C f e xs s os t`: a sequence of calls of the procedure `f` from environment `e`, each with two of the values `xs`,
takes state `s` to `t`; `os` are their outcomes in order. -/
inductive Compared (C : Conf) (f : Data) (e : Nat) (xs : List Data) : Store → List (Out Data) → Store → Prop where
  | nil {s} : Compared C f e xs s [] s
  | cons {a b args o os s s₁ t} : a ∈ xs → b ∈ xs → Lst args [elem a, elem b] → Applies C f args e s o s₁ → Compared C f e xs s₁ os t →
      Compared C f e xs s (o :: os) t

/-- All these calls returned. -/
def AllReturn (os : List (Out Data)) : Prop := ∀ o ∈ os, ∃ v, o = .ok v

end Golisp.Spec

namespace Golisp.Props
open Golisp Data Ev Golisp.Spec

variable {C : Conf} {e : Nat} {s s₁ : Store} {d : Data}

private theorem swap_perm {arr : List Data} {i j : Nat} (hi : i < arr.length) (hj : j < arr.length) :
    ∃ arr', Sorting.swapAt arr i j = some arr' ∧ arr'.Perm arr := by
  have h1 : arr[i]? = some arr[i] := List.getElem?_eq_getElem hi
  have h2 : arr[j]? = some arr[j] := List.getElem?_eq_getElem hj
  exact ⟨(arr.set i arr[j]).set j arr[i], by simp only [Sorting.swapAt, h1, h2], List.set_set_perm hi hj⟩

/-- What the outcome of the sorting program says about the outcomes of the comparisons made. -/
def Tallies (arr : List Data) (os : List (Out Data)) : Out (List Data × Option Err) → Prop
  | .ok (arr', none) => arr'.Perm arr ∧ AllReturn os
  | .ok (_, some er) => ∃ init, os = init ++ [.err er] ∧ AllReturn init
  | .panic => ∃ init, os = init ++ [.panic] ∧ AllReturn init
  | _ => False

private theorem sortRun_after {f : Data → Prog Data} {n : Nat} {t : Sorting.Tree} (ht : InRange n t) (er : Err) :
    ∀ arr : List Data, arr.length = n → ∃ arr', sortRunP f t arr (some er) = .ret (arr', some er) := by
  induction ht with
  | done => intro arr _; exact ⟨arr, rfl⟩
  | less _ _ _ ih => intro arr hl; exact ih false arr hl
  | swap hi hj _ ih =>
    intro arr hl
    obtain ⟨arr', he, hp⟩ := swap_perm (hl ▸ hi) (hl ▸ hj)
    obtain ⟨a, h⟩ := ih arr' (hp.length_eq.trans hl)
    exact ⟨a, by simp only [sortRunP, he, h]⟩

private theorem tallies_cons {arr : List Data} {os : List (Out Data)} {v : Data} {r} (h : Tallies arr os r) : Tallies arr (.ok v :: os) r := by
  have hc : ∀ {os : List (Out Data)}, AllReturn os → AllReturn (.ok v :: os) := fun h o ho => by
    rcases List.mem_cons.1 ho with rfl | ho
    · exact ⟨_, rfl⟩
    · exact h o ho
  rcases r with ⟨arr', _ | er⟩ | er | _ | _
  · exact ⟨h.1, hc h.2⟩
  · obtain ⟨init, rfl, hi⟩ := h; exact ⟨.ok v :: init, rfl, hc hi⟩
  · exact h
  · obtain ⟨init, rfl, hi⟩ := h; exact ⟨.ok v :: init, rfl, hc hi⟩
  · exact h

private theorem sortRun_calls {f : Data} {xs : List Data} {n : Nat} {t : Sorting.Tree} (ht : InRange n t) :
    ∀ (arr : List Data) (s : Store) r s', arr.length = n → (∀ a ∈ arr, a ∈ xs) →
      RunsP (body C) (sortRunP (fun l => .app f l e) t arr none) s r s' → ∃ os, Compared C f e xs s os s' ∧ Tallies arr os r := by
  induction ht with
  | done =>
    intro arr s r s' _ _ h
    obtain ⟨rfl, rfl⟩ := runsP_ret.1 h
    exact ⟨[], .nil, List.Perm.refl _, nofun⟩
  | @less i j k hi hj hk ih =>
    intro arr s r s' hl hm h
    subst hl
    have h1 : arr[i]? = some arr[i] := List.getElem?_eq_getElem hi
    have h2 : arr[j]? = some arr[j] := List.getElem?_eq_getElem hj
    have ha := hm _ (List.getElem_mem hi)
    have hb := hm _ (List.getElem_mem hj)
    have hL : Lst (ofArray [arr[i], arr[j]]) [elem arr[i], elem arr[j]] := Lst.ofArray _
    simp only [sortRunP, h1, h2] at h
    rcases runsP_attempt.1 h with ⟨v, s₂, hc, hr⟩ | ⟨er, s₂, hc, hr⟩ | ⟨hc, rfl⟩
    · obtain ⟨os, h3, h4⟩ := ih _ arr s₂ r s' rfl hm hr
      exact ⟨_, .cons ha hb hL (runsP_app.1 hc) h3, tallies_cons h4⟩
    · obtain ⟨arr', he⟩ := sortRun_after (f := fun l => .app f l e) (hk false) er arr rfl
      simp only [he] at hr
      obtain ⟨rfl, rfl⟩ := runsP_ret.1 hr
      exact ⟨[.err er], .cons ha hb hL (runsP_app.1 hc) .nil, [], rfl, nofun⟩
    · exact ⟨[.panic], .cons ha hb hL (runsP_app.1 hc) .nil, [], rfl, nofun⟩
  | swap hi hj _ ih =>
    intro arr s r s' hl hm h
    obtain ⟨arr', he, hp⟩ := swap_perm (hl ▸ hi) (hl ▸ hj)
    simp only [sortRunP, he] at h
    obtain ⟨os, h3, h4⟩ := ih arr' s r s' (hp.length_eq.trans hl) (fun a ha => hm a (hp.mem_iff.1 ha)) h
    refine ⟨os, h3, ?_⟩
    rcases r with ⟨a, _ | er⟩ | er | _ | _
    · exact ⟨h4.1.trans hp, h4.2⟩
    all_goals exact h4

set_option maxRecDepth 20000 in
private theorem sort_iff {l f : Data} {xs : List Data} (hl : ListOf l xs) (hf : isFuncOrPrim f = true) (h : Calling C "sort" [l, f] d e s s₁)
    {r : Out Data} {t : Store} : Evals C d e s r t ↔ ∃ r₀, r = quoting d r₀ ∧
      RunsP (body C) ((sortRunP (fun l => .app f l e) (C.host.sorter xs.length) xs none).bind sortResult) s₁ r₀ t := by
  obtain ⟨args, ha, hiff⟩ := calling_any h (spec := "2".toList) (impl := Ev.sortImpl C.host) rfl nofun count2
  rw [hiff]
  simp only [Ev.sortImpl, car_args ha, cadr_args ha, hl.2, hf, hl.1.toArray, Bool.not_true, Bool.false_eq_true, if_false]

/-- C80: `sort` does nothing but call the procedure with two elements at a time, one call after the other.  When it returns, all
calls returned, and the result is a list of the same elements.  When it fails, the last call was the first to fail, with that
error, and the others returned. -/
theorem C80_calls {l f : Data} {xs : List Data} (hl : ListOf l xs) (hf : isFuncOrPrim f = true) (h : Calling C "sort" [l, f] d e s s₁)
    {r : Out Data} {t : Store} (hr : Evals C d e s r t) : ∃ os, Compared C f e xs s₁ os t ∧
      ((∃ v ys, r = .ok v ∧ Lst v ys ∧ ys.Perm (xs.map elem) ∧ AllReturn os) ∨
        (∃ er init, r = .err (.evaling d er) ∧ os = init ++ [.err er] ∧ AllReturn init) ∨
        (∃ init, r = .panic ∧ os = init ++ [.panic] ∧ AllReturn init)) := by
  obtain ⟨r₀, rfl, hr'⟩ := (sort_iff hl hf h).1 hr
  rcases runsP_bind.1 hr' with ⟨⟨arr, _ | er⟩, s₂, h1, h2⟩ | ⟨er, h1, h2⟩ | ⟨h1, h2⟩
  · obtain ⟨os, hc, ht⟩ := sortRun_calls (C.host.sorterOk _) xs s₁ _ _ rfl (fun _ h => h) h1
    obtain ⟨rfl, rfl⟩ := runsP_ret.1 h2
    exact ⟨os, hc, .inl ⟨_, _, rfl, Lst.ofArray arr, ht.1.map elem, ht.2⟩⟩
  · obtain ⟨os, hc, init, rfl, hi⟩ := sortRun_calls (C.host.sorterOk _) xs s₁ _ _ rfl (fun _ h => h) h1
    obtain ⟨rfl, rfl⟩ := runsP_err.1 h2
    exact ⟨_, hc, .inr (.inl ⟨er, init, rfl, rfl, hi⟩)⟩
  · obtain ⟨os, hc, ht⟩ := sortRun_calls (C.host.sorterOk _) xs s₁ _ _ rfl (fun _ h => h) h1
    exact ht.elim
  · obtain ⟨os, hc, init, rfl, hi⟩ := sortRun_calls (C.host.sorterOk _) xs s₁ _ _ rfl (fun _ h => h) h1
    subst h2
    exact ⟨_, hc, .inr (.inr ⟨init, rfl, rfl, hi⟩)⟩

private theorem sortRun_pure {f : Data} {lt : Data → Data → Bool} {I : Store → Prop} {xs : List Data}
    (hf : ∀ a ∈ xs, ∀ b ∈ xs, ∀ s, I s → ∃ v s', Applies C f (ofArray [a, b]) e s (.ok v) s' ∧ boolValue v = lt a b ∧ I s') :
    ∀ (t : Sorting.Tree) (arr : List Data), (∀ a ∈ arr, a ∈ xs) → ∀ ys, Sorting.runPure lt t arr = some ys →
      ∀ s, I s → ∃ s', RunsP (body C) (sortRunP (fun l => .app f l e) t arr none) s (.ok (ys, none)) s' ∧ I s'
  | .done, arr, _, ys, h, s, hI => by
    simp only [Sorting.runPure] at h; cases h
    exact ⟨s, runsP_ret.2 ⟨rfl, rfl⟩, hI⟩
  | .less i j k, arr, ha, ys, h, s, hI => by
    simp only [Sorting.runPure] at h
    split at h
    · rename_i a b h1 h2
      obtain ⟨v, s', hv, hb, hI'⟩ := hf a (ha a (List.mem_of_getElem? h1)) b (ha b (List.mem_of_getElem? h2)) s hI
      simp only [sortRunP, h1, h2]
      obtain ⟨s'', h3, h4⟩ := sortRun_pure hf (k (lt a b)) arr ha ys h s' hI'
      exact ⟨s'', runsP_attempt.2 (.inl ⟨v, s', runsP_app.2 hv, by simp only [hb]; exact h3⟩), h4⟩
    · cases h
  | .swap i j k, arr, ha, ys, h, s, hI => by
    simp only [Sorting.runPure] at h
    split at h
    · rename_i arr' he
      simp only [sortRunP, he]
      refine sortRun_pure hf k arr' ?_ ys h s hI
      intro a hm
      unfold Sorting.swapAt at he
      split at he
      · rename_i x y h1 h2
        cases he
        rcases List.mem_or_eq_of_mem_set hm with hm | rfl
        · rcases List.mem_or_eq_of_mem_set hm with hm | rfl
          · exact ha a hm
          · exact ha _ (List.mem_of_getElem? h2)
        · exact ha _ (List.mem_of_getElem? h1)
      · cases he
    · cases h

/-- C80: when the procedure, called with elements of the list in a state satisfying `I`, always returns, answers according to a
strict weak order, and leaves a state satisfying `I`, then `sort` returns the elements in that order. -/
theorem C80_sorted {l f : Data} {xs : List Data} {lt : Data → Data → Bool} {I : Store → Prop} (hs : Sorts C.host.sorter)
    (hlt : StrictWeak lt) (hl : ListOf l xs) (hn : Data.null ∉ xs) (hf : isFuncOrPrim f = true)
    (hc : ∀ a ∈ xs, ∀ b ∈ xs, ∀ s, I s → ∃ v s', Applies C f (ofArray [a, b]) e s (.ok v) s' ∧ boolValue v = lt a b ∧ I s')
    (hI : I s₁) (h : Calling C "sort" [l, f] d e s s₁) : ∃ v ys t, Lst v ys ∧ ys.Perm xs ∧ Ordered lt ys ∧ I t ∧
      ∀ r t', Evals C d e s r t' ↔ r = .ok v ∧ t' = t := by
  obtain ⟨ys, h1, h2⟩ := hs lt hlt xs
  obtain ⟨t, h3, h4⟩ := sortRun_pure hc (C.host.sorter xs.length) xs (fun _ h => h) ys h1 s₁ hI
  have hev : Evals C d e s (.ok (ofArray ys)) t := (sort_iff hl hf h).2 ⟨.ok (ofArray ys), rfl, runsP_bind.2 (.inl ⟨_, _, h3, runsP_ret.2 ⟨rfl, rfl⟩⟩)⟩
  obtain ⟨os, _, ht⟩ := sortRun_calls (C.host.sorterOk _) xs s₁ _ _ rfl (fun _ h => h) h3
  have hid : ys.map elem = ys := map_elem_id fun h => hn (ht.1.mem_iff.1 h)
  refine ⟨ofArray ys, ys, t, ?_, ht.1, h2, h4, fun r t' => ⟨fun hr => ?_, ?_⟩⟩
  · have := Lst.ofArray ys
    rwa [hid] at this
  · obtain ⟨h5, h6⟩ := runs_det hr hev
    exact ⟨h5, h6⟩
  · rintro ⟨rfl, rfl⟩; exact hev

/-- Sorting with a primitive that compares and does nothing else. -/
theorem C80_by_primitive {x : String} {l : Data} {xs : List Data} {lt : Data → Data → Bool} (hs : Sorts C.host.sorter)
    (hlt : StrictWeak lt) (hl : ListOf l xs) (hn : Data.null ∉ xs) (hx : C.prims x = (std C.host).prims x)
    (hd : ∀ a ∈ xs, ∀ b ∈ xs, Works C x [a, b] s₁ (Tells (lt a b = true))) (hw : WF s₁) (hq : Means C s₁ e "quote")
    (h : Calling C "sort" [l, .atom (.prim x)] d e s s₁) : ∃ v ys, Lst v ys ∧ ys.Perm xs ∧ Ordered lt ys ∧
      ∀ r t, Evals C d e s r t ↔ r = .ok v ∧ t = s₁ := by
  obtain ⟨v, ys, t, h1, h2, h3, rfl, h4⟩ := C80_sorted (I := fun s => s = s₁) hs hlt hl hn (f := .atom (.prim x)) rfl (fun a ha b hb s' hI => by
    subst hI
    obtain ⟨spec, impl, hP, hc, hi⟩ := hd a ha b hb
    have ha0 : a ≠ .null := fun hz => hn (hz ▸ ha)
    have hb0 : b ≠ .null := fun hz => hn (hz ▸ hb)
    have hid : [a, b].map elem = [a, b] := map_elem_id (by simp [ha0.symm, hb0.symm])
    have hla : Lst (ofArray [a, b]) [a, b] := by
      have := Lst.ofArray [a, b]; rwa [hid] at this
    obtain ⟨r, ⟨v, rfl, hv⟩, hr⟩ := hi _ e hla
    refine ⟨.bool v, s', ?_, ?_, rfl⟩
    · have hch : Chain (ofArray [a, b]) [a, b] := by
        have := chain_tail (.nil) [a, b] (by simp [ha0.symm, hb0.symm])
        exact this
      rw [applies_prim (P := ⟨spec, false, false, impl⟩) (hx.trans hP) rfl rfl hw hq hch (by simp) hc, hid]
      exact (hr _ _).2 ⟨rfl, rfl⟩
    · cases v <;> cases hz : lt a b <;> simp_all [boolValue]) rfl h
  exact ⟨v, ys, h1, h2, h3, h4⟩

theorem does_works {x : String} {vs : List Data} {P : Out Data → Prop} (h : DoesIn C.host x vs P) : Works C x vs s P := by
  obtain ⟨spec, impl, h1, h2, h3⟩ := h
  refine ⟨spec, impl, h1, h2, fun args e hl => ?_⟩
  obtain ⟨r, hP, hr⟩ := h3 C args e s hl
  exact ⟨r, hP, hr⟩

/-- Comparing keys in a total order. -/
theorem strictWeak_key {κ : Type} (key : Data → κ) (lt : κ → κ → Bool) (hi : ∀ a, lt a a = false)
    (ht : ∀ {a b c}, lt a b = true → lt b c = true → lt a c = true) (hc : ∀ a b, lt a b = true ∨ a = b ∨ lt b a = true) :
    StrictWeak fun a b => lt (key a) (key b) := by
  have has : ∀ {a b}, lt a b = true → lt b a = false := fun {a b} h => by
    cases hz : lt b a with
    | false => rfl
    | true => have := ht h hz; rw [hi] at this; cases this
  refine ⟨fun a b h => has h, fun a b c h h' => ht h h', fun a b c h1 h2 h3 h4 => ?_⟩
  have e1 : key a = key b := (hc (key a) (key b)).elim (fun h => by rw [h1] at h; cases h) fun h => h.elim id fun h => by rw [h2] at h; cases h
  have e2 : key b = key c := (hc (key b) (key c)).elim (fun h => by rw [h3] at h; cases h) fun h => h.elim id fun h => by rw [h4] at h; cases h
  simp only [e1, e2, hi, and_self]

private def intKey : Data → Int
  | .int n => n.toInt
  | _ => 0

private theorem perm_map_inv {α β : Type} {f : α → β} {xs : List α} : ∀ {ys : List β}, ys.Perm (xs.map f) → ∃ zs : List α, ys = zs.map f ∧ zs.Perm xs := by
  intro ys h
  generalize hz : xs.map f = zs at h
  induction h generalizing xs with
  | nil => exact ⟨xs, by rw [hz], List.Perm.refl _⟩
  | @cons a l₁ l₂ _ ih =>
    match xs, hz with
    | x :: xs, hz =>
      cases hz
      obtain ⟨zs, rfl, hp⟩ := ih rfl
      exact ⟨x :: zs, rfl, hp.cons x⟩
  | @swap a b l =>
    match xs, hz with
    | x :: y :: xs, hz => cases hz; exact ⟨y :: x :: xs, rfl, .swap ..⟩
  | @trans l₁ l₂ l₃ _ _ ih1 ih2 =>
    obtain ⟨zs, rfl, hp⟩ := ih2 hz
    obtain ⟨ws, rfl, hp'⟩ := ih1 rfl
    exact ⟨ws, rfl, hp'.trans hp⟩

private def below (a b : Int) : Bool := decide (a < b)
private theorem below_true {a b : Int} : below a b = true ↔ a < b := by simp [below]
private theorem below_false {a b : Int} : below a b = false ↔ b ≤ a := by simp [below]

/-- C80: `(sort l <)` puts integers (small enough for the comparison, which is made on 32-bit floats) in ascending order. -/
theorem C80_ascending {l : Data} {ns : List (BitVec 64)} (hs : Sorts C.host.sorter) (hl : ListOf l (ns.map .int)) (hsm : ∀ n ∈ ns, Small n)
    (hx : C.prims "<" = (std C.host).prims "<") (hw : WF s₁) (hq : Means C s₁ e "quote")
    (h : Calling C "sort" [l, .atom (.prim "<")] d e s s₁) : ∃ v, ∃ ms : List (BitVec 64), Lst v (ms.map .int) ∧ ms.Perm ns ∧
      ms.Pairwise (fun a b => a.toInt ≤ b.toInt) ∧ ∀ r t, Evals C d e s r t ↔ r = .ok v ∧ t = s₁ := by
  obtain ⟨v, ys, h1, h2, h3, h4⟩ := C80_by_primitive hs (strictWeak_key intKey below (by simp [below]) (by simp only [below_true]; omega) (by simp only [below_true]; omega))
    hl (by simp) hx (by
      intro a ha b hb
      obtain ⟨m, hm, rfl⟩ := List.mem_map.1 ha
      obtain ⟨n, hn, rfl⟩ := List.mem_map.1 hb
      simp only [intKey, below_true]
      exact does_works (arithmetic_does (.less m n (hsm m hm) (hsm n hn)))) hw hq h
  obtain ⟨ms, rfl, hp⟩ := perm_map_inv h2
  refine ⟨v, ms, h1, hp, ?_, h4⟩
  rw [Ordered, List.pairwise_map] at h3
  exact h3.imp fun h => by simpa only [intKey, below_false] using h

/-- C80: `(sort l >)` puts them in descending order. -/
theorem C80_descending {l : Data} {ns : List (BitVec 64)} (hs : Sorts C.host.sorter) (hl : ListOf l (ns.map .int)) (hsm : ∀ n ∈ ns, Small n)
    (hx : C.prims ">" = (std C.host).prims ">") (hw : WF s₁) (hq : Means C s₁ e "quote")
    (h : Calling C "sort" [l, .atom (.prim ">")] d e s s₁) : ∃ v, ∃ ms : List (BitVec 64), Lst v (ms.map .int) ∧ ms.Perm ns ∧
      ms.Pairwise (fun a b => b.toInt ≤ a.toInt) ∧ ∀ r t, Evals C d e s r t ↔ r = .ok v ∧ t = s₁ := by
  obtain ⟨v, ys, h1, h2, h3, h4⟩ := C80_by_primitive hs (strictWeak_key intKey (fun a b => below b a) (by simp [below]) (by simp only [below_true]; omega) (by simp only [below_true]; omega))
    hl (by simp) hx (by
      intro a ha b hb
      obtain ⟨m, hm, rfl⟩ := List.mem_map.1 ha
      obtain ⟨n, hn, rfl⟩ := List.mem_map.1 hb
      simp only [intKey, below_true]
      exact does_works (arithmetic_does (.greater m n (hsm m hm) (hsm n hn)))) hw hq h
  obtain ⟨ms, rfl, hp⟩ := perm_map_inv h2
  refine ⟨v, ms, h1, hp, ?_, h4⟩
  rw [Ordered, List.pairwise_map] at h3
  exact h3.imp fun h => by simpa only [intKey, below_false] using h

private def textKey : Data → Str.GoStr
  | .str t => text t.toList
  | _ => []

/-- C80: `(sort l string<?)` puts texts in the order of their characters. -/
theorem C80_alphabetic {l : Data} {ts : List (List Char)} (hs : Sorts C.host.sorter) (hl : ListOf l (ts.map T))
    (hx : C.prims "string<?" = (std C.host).prims "string<?") (hw : WF s₁) (hq : Means C s₁ e "quote")
    (h : Calling C "sort" [l, .atom (.prim "string<?")] d e s s₁) : ∃ v, ∃ us : List (List Char), Lst v (us.map T) ∧ us.Perm ts ∧
      us.Pairwise (fun a b => Earlier a b ∨ a = b) ∧ ∀ r t, Evals C d e s r t ↔ r = .ok v ∧ t = s₁ := by
  have hk : ∀ t, textKey (T t) = text t := fun t => by simp [textKey, T]
  obtain ⟨v, ys, h1, h2, h3, h4⟩ := C80_by_primitive hs (strictWeak_key textKey Str.lt str_lt_irrefl str_lt_trans str_lt_total)
    hl (by simp [T]) hx (by
      intro a ha b hb
      obtain ⟨m, hm, rfl⟩ := List.mem_map.1 ha
      obtain ⟨n, hn, rfl⟩ := List.mem_map.1 hb
      simp only [hk, lt_Earlier]
      exact texts_work (.less m n)) hw hq h
  obtain ⟨us, rfl, hp⟩ := perm_map_inv h2
  refine ⟨v, us, h1, hp, ?_, h4⟩
  rw [Ordered, List.pairwise_map] at h3
  refine h3.imp fun {a b} h => ?_
  simp only [hk] at h
  exact (not_lt_Earlier a b).1 (by rw [h]; rfl)

set_option maxRecDepth 20000 in
/-- C80: anything but a list and a procedure is refused, and nothing is called. -/
theorem C80_refused {l f : Data} (hb : isListP l = false ∨ isFuncOrPrim f = false) (h : Calling C "sort" [l, f] d e s s₁) :
    Refuses C d e s s₁ := by
  obtain ⟨args, ha, hiff⟩ := calling_iff h (spec := "2".toList) (impl := Ev.sortImpl C.host) rfl count2
  cases h1 : isListP l with
  | false => exact refuses_of hiff fun r t => by simp only [Ev.sortImpl, car_args ha, h1, Bool.not_false, if_true, runsP_fail]; exact Iff.rfl
  | true =>
    have h2 := hb.resolve_left (by simp [h1])
    exact refuses_of hiff fun r t => by
      simp only [Ev.sortImpl, car_args ha, cadr_args ha, h1, h2, Bool.not_false, Bool.not_true, Bool.false_eq_true, if_false, if_true, runsP_fail]
      exact Iff.rfl

/-- C80 violation: larger integers are compared as 32-bit floats, so `(sort l <)` can leave them out of order. -/
theorem C80_large_violation : Demo.Ends "(sort '(16777217 16777216) <)" (.ok (ofArray [.int 16777217, .int 16777216])) :=
  Demo.ends 40 (by decide +kernel) (by simp)

section
/-- C80: `(sort '(3 1 2) <)`. -/
example : ∃ v, ∃ ms : List (BitVec 64), Lst v (ms.map .int) ∧ ms.Perm [3, 1, 2] ∧ ms.Pairwise (fun a b => a.toInt ≤ b.toInt) ∧
    Evals Demo.C (Demo.code "(sort '(3 1 2) <)") 1 Demo.s (.ok v) Demo.s := by
  have h : Calling Demo.C "sort" [ofArray [.int 3, .int 1, .int 2], .atom (.prim "<")] (Demo.code "(sort '(3 1 2) <)") 1 Demo.s Demo.s :=
    Demo.calling 10 (b := true) (xs := [Demo.code "'(3 1 2)", .sym "<"]) (us := [ofArray [.int 3, .int 1, .int 2], .atom (.prim "<")])
      (by decide +kernel) (by decide +kernel) (by decide +kernel) (by decide +kernel) rfl (by decide +kernel) (by decide +kernel) rfl
  obtain ⟨v, ms, h1, h2, h3, h4⟩ := C80_ascending (ns := [3, 1, 2]) C60_insertion_sorts ⟨Lst.ofArray [.int 3, .int 1, .int 2], rfl⟩
    (by simp only [List.mem_cons, List.not_mem_nil, or_false]; rintro n (rfl | rfl | rfl) <;> (unfold Small; decide)) rfl Demo.wf
    (Demo.means _ (b := true) (by decide +kernel)) h
  exact ⟨v, ms, h1, h2, h3, (h4 _ _).2 ⟨rfl, rfl⟩⟩

set_option maxRecDepth 20000 in
/-- C80: `(sort '("b" "a") string<?)`. -/
example : ∃ v, ∃ us : List (List Char), Lst v (us.map T) ∧ us.Perm [['b'], ['a']] ∧ us.Pairwise (fun a b => Earlier a b ∨ a = b) ∧
    Evals Demo.C (Demo.code "(sort '(\"b\" \"a\") string<?)") 1 Demo.s (.ok v) Demo.s := by
  have h : Calling Demo.C "sort" [ofArray [T ['b'], T ['a']], .atom (.prim "string<?")] (Demo.code "(sort '(\"b\" \"a\") string<?)") 1 Demo.s Demo.s :=
    Demo.calling 10 (b := true) (xs := [Demo.code "'(\"b\" \"a\")", .sym "string<?"]) (us := [ofArray [.str "b", .str "a"], .atom (.prim "string<?")])
      (by decide +kernel) (by decide +kernel) (by decide +kernel) (by decide +kernel) rfl (by decide +kernel) (by decide +kernel) rfl
  obtain ⟨v, us, h1, h2, h3, h4⟩ := C80_alphabetic (ts := [['b'], ['a']]) C60_insertion_sorts ⟨Lst.ofArray [T ['b'], T ['a']], rfl⟩ rfl Demo.wf
    (Demo.means _ (b := true) (by decide +kernel)) h
  exact ⟨v, us, h1, h2, h3, (h4 _ _).2 ⟨rfl, rfl⟩⟩

example : Demo.Ends "(sort '(3 1 2) (lambda (a b) (< a b)))" (.ok (ofArray [.int 1, .int 2, .int 3])) :=
  Demo.ends 60 (by decide +kernel) (by simp)

/-- C80: the error of the comparison is the error of `sort`. -/
example : Demo.Ends "(sort '(3 a) <)" (.err (.evaling (Demo.code "(sort '(3 a) <)") (.msg "Number expected, received "))) :=
  Demo.ends 60 (by decide +kernel) (by simp)
end

end Golisp.Props
