import Verif.HeapLemmas
/-
Properties C01, C02 (on the heap), C62 and C63: which cells the list functions write.
-/
namespace Golisp.Props
open Golisp Spec Heap

private theorem isListP_iff {h : Mem} {r : Ref} : Heap.isListP h r = true ↔ IsList h r := by
  unfold Heap.isListP IsList
  cases r with
  | none => simp
  | some i =>
    simp only [deref, reduceCtorEq, Option.some.injEq, false_or]
    cases hh : h[i]? with
    | none =>
      simp only [Bool.false_eq_true, false_iff]
      rintro ⟨j, k, a, d, rfl, h2, _⟩
      rw [hh] at h2; cases h2
    | some n =>
      cases n with
      | atom a =>
        simp only [Bool.false_eq_true, false_iff]
        rintro ⟨j, k, a, d, rfl, h2, _⟩
        rw [hh] at h2; cases h2
      | cell k a d =>
        cases k with
        | cons => simp only [true_iff]; exact ⟨i, _, a, d, rfl, hh, by simp⟩
        | alist => simp only [true_iff]; exact ⟨i, _, a, d, rfl, hh, by simp⟩
        | acell =>
          simp only [Bool.false_eq_true, false_iff]
          rintro ⟨j, k, a, d, rfl, h2, h3⟩
          rw [hh] at h2; cases h2; exact h3 rfl

private theorem not_isNil {h r c cs} (a : Cells h r (c :: cs)) : isNil h r = false := by
  cases hx : isNil h r with
  | false => rfl
  | true => have := a.unique (.nil (isNil_iff.1 hx)); cases this

private theorem snoc_isNil {h r c} {cs : List (Nat × Ref)} (a : Cells h r (cs ++ [c])) : isNil h r = false := by
  cases cs with
  | nil => exact not_isNil a
  | cons _ _ => exact not_isNil a

private theorem sameBut_set {h : Mem} {i n} : SameBut i h (h.set i n) := fun j _ hne => by
  rw [List.getElem?_set_ne (fun e => hne e.symm)]

private theorem get_set {h : Mem} {i : Nat} {x n : Node} (hi : h[i]? = some x) : (h.set i n)[i]? = some n := by
  rw [List.getElem?_set_self (List.getElem?_eq_some_iff.1 hi).1]

/-! ### append! -/

/-- C02: `append!` of a list to a non-empty list writes the cdr of the last cell and nothing else, returns its first
argument itself, and afterwards that list consists of its own cells followed by the cells of the second. -/
theorem C02_append_bang {h : Mem} {l b : Ref} {cs bs : List (Nat × Ref)} {i : Nat} {a : Ref}
    (hl : Cells h l (cs ++ [(i, a)])) (hb : Cells h b bs) (hb' : IsList h b) (hdis : i ∉ bs.map Prod.fst)
    (hn : ¬(a = none ∧ b = none)) :
    ∃ h', Ends (appendBangImpl · l b) h l h' ∧ h'.length = h.length ∧ SameBut i h h' ∧
      (∃ k d, h[i]? = some (.cell k a d) ∧ h'[i]? = some (.cell k a b)) ∧ Cells h' l (cs ++ (i, a) :: bs) := by
  have hlast := Cells.from hl
  cases hlast with
  | cons hi hne hk hnil =>
  rename_i k d
  have hs : SameBut i h (h.set i (.cell k a b)) := sameBut_set
  have hi' : (h.set i (.cell k a b))[i]? = some (.cell k a b) := get_set hi
  refine ⟨h.set i (.cell k a b), ⟨cs.length + 1, fun n hn => ?_⟩, by simp, hs, ⟨k, d, hi, hi'⟩,
    Cells.append hs hi hi' hn (hb.sameBut hs hi hne hdis) hl⟩
  simp only [appendBangImpl, isListP_iff.2 hb', if_true, appendBangList, snoc_isNil hl, Bool.false_eq_true, if_false,
    M.bind, reads, lastCell_spec hl n hn, setCdr, deref, hi, M.pure]

/-- C02: … of something that is not a list adds one new cell holding it. -/
theorem C02_append_bang_element {h : Mem} {l : Ref} {v : Nat} {cs : List (Nat × Ref)} {i : Nat} {a : Ref}
    (hl : Cells h l (cs ++ [(i, a)])) (hv : ¬IsList h (some v)) :
    ∃ h', Ends (appendBangImpl · l (some v)) h l h' ∧ h'.length = h.length + 1 ∧ SameBut i h h' ∧
      (∃ k d, h[i]? = some (.cell k a d) ∧ h'[i]? = some (.cell k a (some h.length))) ∧
      Cells h' l (cs ++ [(i, a), (h.length, some v)]) := by
  have hv' : Heap.isListP h (some v) = false := by
    cases hx : Heap.isListP h (some v) with
    | false => rfl
    | true => exact (hv (isListP_iff.1 hx)).elim
  have hlast := Cells.from hl
  cases hlast with
  | cons hi hne hk hnil =>
  rename_i k d
  have hlt := (List.getElem?_eq_some_iff.1 hi).1
  have hi₁ : (h ++ [Node.cell .cons (some v) none])[i]? = some (.cell k a d) := by
    rw [List.getElem?_append_left hlt, hi]
  have hi' : ((h ++ [Node.cell .cons (some v) none]).set i (.cell k a (some h.length)))[i]? =
    some (.cell k a (some h.length)) := get_set hi₁
  have hs : SameBut i h ((h ++ [Node.cell .cons (some v) none]).set i (.cell k a (some h.length))) := fun j hj hne => by
    rw [List.getElem?_set_ne (fun e => hne e.symm), List.getElem?_append_left hj]
  refine ⟨_, ⟨cs.length + 1, fun n hn => ?_⟩, ?_, hs, ⟨k, d, hi, hi'⟩, Cells.append hs hi hi' (by simp) ?_ hl⟩
  · simp only [appendBangImpl, hv', Bool.false_eq_true, if_false, appendBang, snoc_isNil hl, M.bind, reads,
      lastCell_spec hl n hn, cons, alloc, setCdr, deref, hi₁, M.pure]
  · simp
  · refine .cons (k := .cons) (d := none) ?_ (by simp) (by simp) (.nil (.inl rfl))
    rw [List.getElem?_set_ne (by omega)]
    simp

/-- C02, read as values: `l` denotes a list of `xs` and `b` a list of `ys`; when the last cell of `l` is not part of `b`
nor of any element of `l`, afterwards `l` denotes a list of `xs ++ ys` and `b` denotes what it did. -/
theorem C02_append_bang_value {h : Mem} {l b : Ref} {dl db : Data} {xs ys : List Data}
    (hl : Denotes h l dl) (hx : Lst dl xs) (hb : Denotes h b db) (hy : Lst db ys) (hb' : IsList h b)
    (hne : xs ≠ []) (hlast : xs.getLast? = some .null → db ≠ .null)
    (hsep : ∀ cs i a, Cells h l (cs ++ [(i, a)]) → ¬Reach h b i ∧ ∀ c ∈ cs ++ [(i, a)], ¬Reach h c.2 i) :
    ∃ h' dl', Ends (appendBangImpl · l b) h l h' ∧ Denotes h' l dl' ∧ Lst dl' (xs ++ ys) ∧ Denotes h' b db := by
  obtain ⟨all, hcl, hel⟩ := hl.cells hx
  obtain ⟨bs, hcb, heb⟩ := hb.cells hy
  have hall : all ≠ [] := by rintro rfl; cases hel; exact hne rfl
  obtain ⟨cs, ⟨i, a⟩, rfl⟩ : ∃ cs c, all = cs ++ [c] := ⟨_, _, (List.dropLast_concat_getLast hall).symm⟩
  obtain ⟨hr1, hr2⟩ := hsep cs i a hcl
  have hnot : i ∉ bs.map Prod.fst := by
    intro hm
    apply hr1
    clear hr1 hr2 hsep heb hlast
    induction hcb with
    | nil => simp at hm
    | cons hc _ _ _ ih =>
      cases hb with
      | cell hc' h1 h2 =>
        rw [hc] at hc'; cases hc'
        simp only [List.map_cons, List.mem_cons] at hm
        rcases hm with rfl | hm
        · exact .here
        · refine .cdr hc ?_
          have : ∀ {r cs}, Cells h r cs → i ∈ cs.map Prod.fst → Reach h r i := by
            intro r cs hcs hm
            induction hcs with
            | nil => simp at hm
            | cons hc _ _ _ ih =>
              simp only [List.map_cons, List.mem_cons] at hm
              rcases hm with rfl | hm
              · exact .here
              · exact .cdr hc (ih hm)
          exact this (by assumption) hm
      | atom hc' => rw [hc] at hc'; cases hc'
  have hn : ¬(a = none ∧ b = none) := by
    rintro ⟨rfl, rfl⟩
    refine hlast ?_ hb.none
    clear hsep hr1 hr2 hcl hx hne hall
    have : ∀ {l : List Ref} {xs : List Data}, Pointwise (Denotes h) (l ++ [none]) xs → xs.getLast? = some .null := by
      intro l
      induction l with
      | nil =>
        intro xs he
        cases he with
        | cons h1 h2 => cases h2; rw [h1.none]; rfl
      | cons y l ih =>
        intro xs he
        cases he with
        | cons h1 h2 => rw [List.getLast?_cons, ih h2]; rfl
    rw [List.map_append] at hel
    exact this hel
  obtain ⟨h', he, hlen, hs, _, hc'⟩ := C02_append_bang hcl hcb hb' hnot hn
  have keep : ∀ {r d}, Denotes h r d → ¬Reach h r i → Denotes h' r d := fun {r d} hd hr =>
    hd.frame fun j hj => hs j (Reach.lt hd hj) (fun e => hr (e ▸ hj))
  have hbmem : ∀ {r : Ref} {cs : List (Nat × Ref)}, Cells h r cs → ∀ c ∈ cs, ∀ j, Reach h c.2 j → Reach h r j := by
    intro r cs hcs
    induction hcs with
    | nil => simp
    | cons hc _ _ _ ih =>
      intro c hm j hj
      rcases List.mem_cons.1 hm with rfl | hm
      · exact .car hc hj
      · exact .cdr hc (ih c hm j hj)
  have e1 : Pointwise (Denotes h') ((cs ++ [(i, a)]).map Prod.snd) xs := hel.mono fun r hm d hd => by
    obtain ⟨c, hc, rfl⟩ := List.mem_map.1 hm
    exact keep hd (hr2 c hc)
  have e2 : Pointwise (Denotes h') (bs.map Prod.snd) ys := heb.mono fun r hm d hd => by
    obtain ⟨c, hc, rfl⟩ := List.mem_map.1 hm
    exact keep hd (fun hr => hr1 (hbmem hcb c hc i hr))
  have e3 := e1.append e2
  rw [← List.map_append, List.append_assoc] at e3
  obtain ⟨d', hd', hl'⟩ := hc'.denotes e3
  exact ⟨h', d', he, hd', hl', keep hb hr1⟩

/-- C02: on an empty first list nothing is written and the second list itself is the result. -/
theorem C02_append_bang_empty {h : Mem} {l b : Ref} (hl : Emptyish h l) (hb : IsList h b) (n : Nat) :
    appendBangImpl n l b h = (.ok b, h) := by
  simp [appendBangImpl, isListP_iff.2 hb, appendBangList, isNil_iff.2 hl]

/-- C02 fails when the last element of the first list is the nil pointer, and so is the second list: the cell written then
looks like an empty list and the element is lost. -/
theorem C02_nil_element_violation {h : Mem} {i : Nat} {k : Kind} {d : Ref} (hi : h[i]? = some (.cell k none d))
    (hl : Cells h (some i) [(i, none)]) :
    ∃ h', Ends (appendBangImpl · (some i) none) h (some i) h' ∧ Cells h' (some i) [] := by
  refine ⟨h.set i (.cell k none none), ⟨1, fun n hn => ?_⟩, .nil (.inr ⟨i, k, rfl, get_set hi⟩)⟩
  have h1 : lastCell h n (some i) = .ok (some i) := lastCell_spec (cs := []) hl n hn
  have h2 : isNil h (some i) = false := not_isNil hl
  have h3 : Heap.isListP h none = true := rfl
  simp only [appendBangImpl, h3, if_true, appendBangList, h2, Bool.false_eq_true, if_false, M.bind, reads, h1, setCdr,
    deref, hi, M.pure]
example : Cells [.cell .cons none (some 1), .cell .cons none none] (some 0) [(0, none)] :=
  .cons rfl (by simp) (by simp) (.nil (.inr ⟨1, _, rfl, rfl⟩))

/-- C02 does not extend to a first argument that is not a list: the write goes through a pointer to something else. -/
theorem C02_not_list_violation {h : Mem} {i : Nat} {a : Atom} (hi : h[i]? = some (.atom a)) {b : Ref} (hb : IsList h b)
    (n : Nat) : appendBangImpl (n + 1) (some i) b h = (.panic, h) := by
  have h1 : isNil h (some i) = false := by simp [isNil, deref, hi]
  have h2 : cdr h (some i) = none := by simp [cdr, deref, hi]
  have h3 : isNil h none = true := rfl
  simp [appendBangImpl, isListP_iff.2 hb, appendBangList, h1, M.bind, reads, lastCell, h2, h3, setCdr, deref, hi]

/-- Appending a non-empty list to itself makes it circular: nothing walks to its end any more. -/
theorem C02_self_circular {h : Mem} {l : Ref} {cs : List (Nat × Ref)} {i : Nat} {a : Ref}
    (hl : Cells h l (cs ++ [(i, a)])) :
    ∃ h', Ends (appendBangImpl · l l) h l h' ∧ ∀ n, lastCell h' n l = .timeout := by
  have hlast := Cells.from hl
  cases hlast with
  | cons hi hne hk hnil =>
  rename_i k d
  have hll : IsList h l := by
    cases cs with
    | nil => cases hl with | cons x y z w => exact .inr ⟨_, _, _, _, rfl, x, z⟩
    | cons _ _ => cases hl with | cons x y z w => exact .inr ⟨_, _, _, _, rfl, x, z⟩
  have hs : SameBut i h (h.set i (.cell k a l)) := sameBut_set
  have hi' : (h.set i (.cell k a l))[i]? = some (.cell k a l) := get_set hi
  refine ⟨h.set i (.cell k a l), ⟨cs.length + 1, fun n hn => ?_⟩, ?_⟩
  · simp only [appendBangImpl, isListP_iff.2 hll, if_true, appendBangList, snoc_isNil hl, Bool.false_eq_true, if_false,
      M.bind, reads, lastCell_spec hl n hn, setCdr, deref, hi, M.pure]
  · obtain ⟨m, rfl⟩ : ∃ m, l = some m := by
      rcases hll with rfl | ⟨m, _, _, _, rfl, _⟩
      · have := hl.unique (.nil (.inl rfl)); simp at this
      · exact ⟨m, rfl⟩
    have hm : isNil (h.set i (.cell k a (some m))) (some m) = false := by
      cases hx : isNil (h.set i (.cell k a (some m))) (some m) with
      | false => rfl
      | true =>
        rcases isNil_iff.1 hx with e | ⟨j, k', e, hj⟩
        · cases e
        · cases e
          by_cases hmi : m = i
          · subst hmi; rw [hi'] at hj; cases hj
          · rw [List.getElem?_set_ne (fun e => hmi e.symm)] at hj
            have := hl.unique (.nil (.inr ⟨m, k', rfl, hj⟩)); simp at this
    have walk : ∀ n {cs' : List (Nat × Ref)} {r}, Cells h r (cs' ++ [(i, a)]) →
        lastCell (h.set i (.cell k a (some m))) n r = .timeout := by
      intro n
      induction n with
      | zero => intros; rfl
      | succ n ih =>
        intro cs' r hr
        cases cs' with
        | nil =>
          cases hr with
          | cons x y z w =>
            have : cdr (h.set i (.cell k a (some m))) (some i) = some m := by
              simp only [cdr, deref, hi']
            simp only [lastCell, this, hm, Bool.false_eq_true, if_false]
            exact ih hl
        | cons c cs' =>
          have hnd := hr.nodup
          cases hr with
          | cons x y z w =>
            rename_i j k' b d'
            have hji : j ≠ i := by
              simp at hnd
              exact fun e => hnd.1.2 e
            have hj : (h.set i (.cell k a (some m)))[j]? = some (.cell k' b d') := by
              rw [List.getElem?_set_ne (fun e => hji e.symm)]; exact x
            have h1 : cdr (h.set i (.cell k a (some m))) (some j) = d' := by simp only [cdr, deref, hj]
            have h2 : isNil (h.set i (.cell k a (some m))) d' = false := by
              cases hx : isNil (h.set i (.cell k a (some m))) d' with
              | false => rfl
              | true =>
                rcases isNil_iff.1 hx with rfl | ⟨p, k'', rfl, hp⟩
                · have := w.unique (.nil (.inl rfl)); simp at this
                · by_cases hpi : p = i
                  · subst hpi; rw [hi'] at hp; cases hp
                  · rw [List.getElem?_set_ne (fun e => hpi e.symm)] at hp
                    have := w.unique (.nil (.inr ⟨p, k'', rfl, hp⟩)); simp at this
            simp only [lastCell, h1, h2, Bool.false_eq_true, if_false]
            exact ih w
    exact fun n => walk n hl

/-! ### append, Append and AppendList write no existing cell -/

private theorem toArray_spec {h r cs} (a : Cells h r cs) : ∀ n, cs.length + 1 ≤ n →
    Heap.toArray h n r = .ok (cs.map Prod.snd) := by
  induction a with
  | nil he =>
    intro n hn
    obtain ⟨n, rfl⟩ : ∃ m, n = m + 1 := ⟨n - 1, by simp at hn; omega⟩
    simp [Heap.toArray, isNil_iff.2 he]
  | cons hc hne hk _ ih =>
    rename_i i k a d cs _
    intro n hn
    obtain ⟨n, rfl⟩ : ∃ m, n = m + 1 := ⟨n - 1, by simp at hn; omega⟩
    have h1 : cdr h (some i) = d := by simp [cdr, deref, hc]
    have h2 : car h (some i) = a := by simp [car, deref, hc]
    simp only [Heap.toArray, Heap.isNil_cell hc hne, h1, h2, Bool.false_eq_true, if_false, List.map_cons]
    rw [ih n (by simp at hn; omega)]

private theorem gather_spec {h : Mem} {args : List Ref} {xss : List (List Ref)} (a : Pointwise (Contributes h) args xss) :
    ∃ N, ∀ n, N ≤ n → gather h n args = .ok xss.flatten := by
  induction a with
  | nil => exact ⟨0, fun _ _ => rfl⟩
  | cons hc _ ih =>
    obtain ⟨N, hN⟩ := ih
    rcases hc with ⟨hl, cs, hcs, rfl⟩ | ⟨hl, rfl⟩
    · refine ⟨max N (cs.length + 1), fun n hn => ?_⟩
      simp only [gather, isListP_iff.2 hl, if_true, toArray_spec hcs n (by omega), hN n (by omega), List.flatten_cons]
    · refine ⟨N, fun n hn => ?_⟩
      have : Heap.isListP h _ = false := Bool.eq_false_iff.2 fun hx => hl (isListP_iff.1 hx)
      simp only [gather, this, Bool.false_eq_true, if_false, hN n hn, List.flatten_cons]

private theorem arrayLoop_spec : ∀ (es : List Ref) (h : Mem) (j : Nat) (k : Kind) (x d₀ : Ref),
    h[j]? = some (.cell k x d₀) → Emptyish h d₀ → d₀ ≠ some j →
    ∃ h' d cs, arrayLoop es (some j) h = (.ok (), h') ∧ h.length ≤ h'.length ∧ SameBut j h h' ∧
      h'[j]? = some (.cell k x d) ∧ Cells h' d cs ∧ Pointwise (Stands h.length h') (cs.map Prod.snd) es ∧
      ∀ c ∈ cs, h.length ≤ c.1
  | [], h, j, k, x, d₀, hj, he, _ => ⟨h, d₀, [], rfl, Nat.le_refl _, fun _ _ _ => rfl, hj, .nil he, .nil, by simp⟩
  | e :: es, h, j, k, x, d₀, hj, _, _ => by
    have hlt := (List.getElem?_eq_some_iff.1 hj).1
    -- the element, in a heap that may have one object more
    obtain ⟨e', h₁, he', hl₁, hs₁, hst⟩ : ∃ e' h₁, orEmpty e h =
        (.ok (some e'), h₁) ∧ h.length ≤ h₁.length ∧ Same h h₁ ∧
        ((e = some e' ∧ h₁ = h) ∨ (e = none ∧ e' = h.length ∧ h₁ = h ++ [.cell .cons none none])) := by
      cases e with
      | none => exact ⟨h.length, h ++ [.cell .cons none none], rfl, by simp, Same.append _ _, .inr ⟨rfl, rfl, rfl⟩⟩
      | some i => exact ⟨i, h, rfl, Nat.le_refl _, Same.refl h, .inl ⟨rfl, rfl⟩⟩
    have hj₂ : (h₁ ++ [Node.cell .cons (some e') none])[j]? = some (.cell k x d₀) := by
      rw [List.getElem?_append_left (by omega), hs₁ j hlt, hj]
    have hj₃ : ((h₁ ++ [Node.cell .cons (some e') none]).set j (.cell k x (some h₁.length)))[h₁.length]? =
        some (.cell .cons (some e') none) := by
      rw [List.getElem?_set_ne (by omega)]; simp
    obtain ⟨h₄, d, cs, hrun, hlen, hsb, hnew, hcs, hel, hfresh⟩ := arrayLoop_spec es _ h₁.length .cons (some e') none
      hj₃ (.inl rfl) (by simp)
    simp only [List.length_set, List.length_append, List.length_cons, List.length_nil, Nat.zero_add] at hlen hfresh
    refine ⟨h₄, some h₁.length, (h₁.length, some e') :: cs, ?_, by omega, ?_, ?_, .cons hnew (by simp) (by simp) hcs,
      .cons ?_ (hel.mono ?_), ?_⟩
    · simp only [arrayLoop, M.bind, he', cons, alloc, setCdr, deref, hj₂]
      exact hrun
    · intro m hm hmj
      rw [hsb m (by simp; omega) (by omega), List.getElem?_set_ne (fun e => hmj e.symm),
        List.getElem?_append_left (by omega), hs₁ m hm]
    · rw [hsb j (by simp; omega) (by omega), List.getElem?_set_self (by simp; omega)]
    · rcases hst with ⟨rfl, _⟩ | ⟨rfl, rfl, rfl⟩
      · exact .inl ⟨by simp, rfl⟩
      · refine .inr ⟨rfl, h.length, Nat.le_refl _, rfl, ?_⟩
        rw [hsb _ (by simp) (by simp), List.getElem?_set_ne (by omega), List.getElem?_append_left (by simp)]
        simp
    · rintro y _ x (hy | ⟨rfl, p, hp, rfl, hpp⟩)
      · exact .inl hy
      · exact .inr ⟨rfl, p, by simp at hp; omega, rfl, hpp⟩
    · intro c hm
      rcases List.mem_cons.1 hm with rfl | hm
      · exact hl₁
      · have := hfresh c hm; omega

private theorem arrayToList_spec (es : List Ref) (h : Mem) :
    ∃ r h' cs, arrayToList es h = (.ok r, h') ∧ Same h h' ∧ Cells h' r cs ∧
      Pointwise (Stands h.length h') (cs.map Prod.snd) es ∧ ∀ c ∈ cs, h.length ≤ c.1 := by
  have hj : (h ++ [Node.cell .cons none none] ++ [Node.cell .cons none (some h.length)])[h.length + 1]? =
      some (.cell .cons none (some h.length)) := by
    rw [List.getElem?_append_right (by simp)]; simp
  have he : Emptyish (h ++ [Node.cell .cons none none] ++ [Node.cell .cons none (some h.length)]) (some h.length) := by
    refine .inr ⟨h.length, .cons, rfl, ?_⟩
    rw [List.getElem?_append_left (by simp)]; simp
  obtain ⟨h', d, cs, hrun, hlen, hsb, hnew, hcs, hel, hfresh⟩ := arrayLoop_spec es _ (h.length + 1) .cons none
    (some h.length) hj he (by simp)
  simp only [List.length_append, List.length_cons, List.length_nil, Nat.zero_add] at hlen hfresh
  refine ⟨d, h', cs, ?_, ?_, hcs, hel.mono ?_, ?_⟩
  · have h1 : (h ++ [Node.cell Kind.cons none none]).length = h.length + 1 := by simp
    simp only [arrayToList, emptyCons, cons, alloc, M.bind, h1, hrun, reads, cdr, deref, hnew]
  · intro m hm
    rw [hsb m (by simp; omega) (by omega), List.getElem?_append_left (by simp; omega), List.getElem?_append_left hm]
  · rintro y _ x (hy | ⟨rfl, p, hp, rfl, hpp⟩)
    · exact .inl hy
    · exact .inr ⟨rfl, p, by simp at hp; omega, rfl, hpp⟩
  · intro c hm
    have := hfresh c hm; omega

/-- C01 on the heap: `append` writes to no existing object; its result is a list made of new cells only, holding the
elements of the arguments in order (the very same objects). -/
theorem C01_append_fresh {h : Mem} {args : List Ref} {xss : List (List Ref)} (ha : Pointwise (Contributes h) args xss)
    (hne : args ≠ []) :
    ∃ r h' cs, Ends (Heap.appendImpl · args) h r h' ∧ Same h h' ∧ Cells h' r cs ∧
      Pointwise (Stands h.length h') (cs.map Prod.snd) xss.flatten ∧ ∀ c ∈ cs, h.length ≤ c.1 := by
  obtain ⟨N, hN⟩ := gather_spec ha
  obtain ⟨r, h', cs, hr, h2⟩ := arrayToList_spec xss.flatten h
  refine ⟨r, h', cs, ⟨N, fun n hn => ?_⟩, h2⟩
  have : args.isEmpty = false := by simpa using hne
  simp only [Heap.appendImpl, this, Bool.false_eq_true, if_false, M.bind, reads, hN n hn, hr]

private theorem reach_same {h h' : Mem} {r d j} (hd : Denotes h r d) (hs : Same h h') (hr : Reach h' r j) : Reach h r j := by
  induction hr generalizing d with
  | here => exact .here
  | car hc _ ih =>
    cases hd with
    | cell hc' h1 h2 =>
      rw [hs _ (List.getElem?_eq_some_iff.1 hc').1, hc'] at hc; cases hc
      exact .car hc' (ih h1)
    | atom hc' => rw [hs _ (List.getElem?_eq_some_iff.1 hc').1, hc'] at hc; cases hc
  | cdr hc _ ih =>
    cases hd with
    | cell hc' h1 h2 =>
      rw [hs _ (List.getElem?_eq_some_iff.1 hc').1, hc'] at hc; cases hc
      exact .cdr hc' (ih h2)
    | atom hc' => rw [hs _ (List.getElem?_eq_some_iff.1 hc').1, hc'] at hc; cases hc

private theorem copy_spec {d : Data} (hp : Ordinary d) : ∀ {h : Mem} {r : Ref}, Denotes h r d →
    ∃ r' h', Ends (Heap.copy · r) h r' h' ∧ h.length ≤ h'.length ∧ Same h h' ∧ Denotes h' r' d ∧
      ∀ j, Reach h' r' j → j < h.length →
        (∃ a, h[j]? = some (.atom a)) ∨ ∃ k, h[j]? = some (.cell k none none) := by
  induction hp with
  | null =>
    intro h r hd
    cases hd
    refine ⟨none, h, ⟨1, fun n hn => ?_⟩, Nat.le_refl _, Same.refl h, .null, fun j hj => by cases hj⟩
    obtain ⟨n, rfl⟩ : ∃ m, n = m + 1 := ⟨n - 1, by omega⟩
    simp [Heap.copy, deref]
  | atom =>
    intro h r hd
    cases hd with
    | atom hc =>
      rename_i i
      refine ⟨some i, h, ⟨1, fun n hn => ?_⟩, Nat.le_refl _, Same.refl h, .atom hc, fun j hj _ => ?_⟩
      · obtain ⟨n, rfl⟩ : ∃ m, n = m + 1 := ⟨n - 1, by omega⟩
        simp [Heap.copy, deref, hc]
      · cases hj with
        | here => exact .inl ⟨_, hc⟩
        | car hc' _ => rw [hc] at hc'; cases hc'
        | cdr hc' _ => rw [hc] at hc'; cases hc'
  | cell _ _ ih1 ih2 =>
    rename_i da dd _ _
    intro h r hd
    cases hd with
    | cell hc h1 h2 =>
      rename_i i a d
      by_cases hn : a = none ∧ d = none
      · obtain ⟨rfl, rfl⟩ := hn
        refine ⟨some i, h, ⟨1, fun n hn => ?_⟩, Nat.le_refl _, Same.refl h, .cell hc h1 h2, fun j hj _ => ?_⟩
        · obtain ⟨n, rfl⟩ : ∃ m, n = m + 1 := ⟨n - 1, by omega⟩
          simp [Heap.copy, deref, hc, isNil]
        · cases hj with
          | here => exact .inr ⟨_, hc⟩
          | car hc' hr => rw [hc] at hc'; cases hc'; cases hr
          | cdr hc' hr => rw [hc] at hc'; cases hc'; cases hr
      · obtain ⟨a', h₁, ⟨N₁, e₁⟩, l₁, s₁, d₁, f₁⟩ := ih1 h1
        obtain ⟨d', h₂, ⟨N₂, e₂⟩, l₂, s₂, d₂, f₂⟩ := ih2 (h2.same s₁)
        have s₃ : Same h₂ (h₂ ++ [Node.cell .cons a' d']) := Same.append _ _
        have hnew : (h₂ ++ [Node.cell .cons a' d'])[h₂.length]? = some (.cell .cons a' d') := by simp
        refine ⟨some h₂.length, h₂ ++ [.cell .cons a' d'], ⟨max N₁ N₂ + 1, fun n hn' => ?_⟩, by simp; omega,
          (s₁.trans l₁ s₂).trans (by omega) s₃, .cell hnew ((d₁.same s₂).same s₃) (d₂.same s₃), fun j hj hlt => ?_⟩
        · obtain ⟨n, rfl⟩ : ∃ m, n = m + 1 := ⟨n - 1, by omega⟩
          simp only [Heap.copy, deref, hc, Heap.isNil_cell hc hn, Bool.false_eq_true, if_false, M.bind, e₁ n (by omega),
            e₂ n (by omega), cons, alloc]
        · cases hj with
          | here => omega
          | car hc' hr =>
            rw [hnew] at hc'; cases hc'
            exact f₁ j (reach_same d₁ s₂ (reach_same (d₁.same s₂) s₃ hr)) hlt
          | cdr hc' hr =>
            rw [hnew] at hc'; cases hc'
            have := f₂ j (reach_same d₂ s₃ hr) (by omega)
            rwa [s₁ j hlt] at this

/-- C01: `copy` of nested lists writes to no existing object, gives an equal value, and shares with the original no
cell that holds anything. -/
theorem C01_copy {h : Mem} {r : Ref} {d : Data} (hp : Ordinary d) (hd : Denotes h r d) :
    ∃ r' h', Ends (Heap.copy · r) h r' h' ∧ Same h h' ∧ Denotes h' r' d ∧
      ∀ j, Reach h' r' j → j < h.length →
        (∃ a, h[j]? = some (.atom a)) ∨ ∃ k, h[j]? = some (.cell k none none) := by
  obtain ⟨r', h', h1, _, h2, h3, h4⟩ := copy_spec hp hd
  exact ⟨r', h', h1, h2, h3, h4⟩

/-- Copying a list: the last new cell is younger than everything the elements are made of. -/
private theorem copy_list {d : Data} {xs : List Data} (hl : Lst d xs) : Ordinary d → xs ≠ [] → ∀ {h : Mem} {r : Ref}, Denotes h r d →
    ∃ r' h' cs i a, Ends (Heap.copy · r) h r' h' ∧ h.length ≤ h'.length ∧ Same h h' ∧ Cells h' r' (cs ++ [(i, a)]) ∧
      h.length ≤ i ∧
      Pointwise (fun e x => ∃ hm : Mem, hm.length ≤ i ∧ Same hm h' ∧ Denotes hm e x) ((cs ++ [(i, a)]).map Prod.snd) xs := by
  induction hl with
  | null => intro _ h; exact (h rfl).elim
  | empty => intro _ h; exact (h rfl).elim
  | cons k a d xs hn hk hl ih =>
    intro hp _ h r hd
    cases hp with
    | cell pa pd =>
    cases hd with
    | cell hc h1 h2 =>
    rename_i i ra rd
    have hnn : ¬(ra = none ∧ rd = none) := by
      rintro ⟨rfl, rfl⟩; exact hn ⟨h1.none, h2.none⟩
    obtain ⟨a', h₁, ⟨N₁, e₁⟩, l₁, s₁, d₁, _⟩ := copy_spec pa h1
    by_cases hx : xs = []
    · subst hx
      obtain ⟨d', h₂, ⟨N₂, e₂⟩, l₂, s₂, d₂, f₂⟩ := copy_spec pd (h2.same s₁)
      obtain ⟨cs, hcs, hes⟩ := d₂.cells hl
      have hcs0 : cs = [] := by cases cs with | nil => rfl | cons _ _ => cases hes
      subst hcs0
      have s₃ : Same h₂ (h₂ ++ [Node.cell .cons a' d']) := Same.append _ _
      have hnew : (h₂ ++ [Node.cell .cons a' d'])[h₂.length]? = some (.cell .cons a' d') := by simp
      have hnn' : ¬(a' = none ∧ d' = none) := by
        rintro ⟨rfl, rfl⟩; exact hn ⟨d₁.none, d₂.none⟩
      refine ⟨some h₂.length, h₂ ++ [.cell .cons a' d'], [], h₂.length, a', ⟨max N₁ N₂ + 1, fun n hn' => ?_⟩,
        by simp; omega, (s₁.trans l₁ s₂).trans (by omega) s₃, .cons hnew hnn' (by simp) (hcs.same s₃), by omega,
        .cons ⟨h₁, l₂, s₂.trans l₂ s₃, d₁⟩ .nil⟩
      obtain ⟨n, rfl⟩ : ∃ m, n = m + 1 := ⟨n - 1, by omega⟩
      simp only [Heap.copy, deref, hc, Heap.isNil_cell hc hnn, Bool.false_eq_true, if_false, M.bind, e₁ n (by omega),
        e₂ n (by omega), cons, alloc]
    · obtain ⟨d', h₂, cs, i', b, ⟨N₂, e₂⟩, l₂, s₂, c₂, hi', hes⟩ := ih pd hx (h2.same s₁)
      have s₃ : Same h₂ (h₂ ++ [Node.cell .cons a' d']) := Same.append _ _
      have hnew : (h₂ ++ [Node.cell .cons a' d'])[h₂.length]? = some (.cell .cons a' d') := by simp
      have hd' : d' ≠ none := by
        rintro rfl
        have := c₂.unique (.nil (.inl rfl)); simp at this
      refine ⟨some h₂.length, h₂ ++ [.cell .cons a' d'], (h₂.length, a') :: cs, i', b, ⟨max N₁ N₂ + 1, fun n hn' => ?_⟩,
        by simp; omega, (s₁.trans l₁ s₂).trans (by omega) s₃, .cons hnew (by simp [hd']) (by simp) (c₂.same s₃), by omega,
        .cons ⟨h₁, hi', s₂.trans l₂ s₃, d₁⟩ (hes.mono fun e _ x hm => ?_)⟩
      · obtain ⟨n, rfl⟩ : ∃ m, n = m + 1 := ⟨n - 1, by omega⟩
        simp only [Heap.copy, deref, hc, Heap.isNil_cell hc hnn, Bool.false_eq_true, if_false, M.bind, e₁ n (by omega),
          e₂ n (by omega), cons, alloc]
      · obtain ⟨hm, q1, q2, q3⟩ := hm
        have : i' < h₂.length := c₂.lt (i', b) (by simp)
        exact ⟨hm, q1, q2.trans (by omega) s₃, q3⟩

/-- C01: `AppendList` writes to no existing object and gives a list of the elements of both. -/
theorem C01_append_list {h : Mem} {l b : Ref} {dl db : Data} {xs ys : List Data} (hl : Denotes h l dl) (hx : Lst dl xs)
    (hp : Ordinary dl) (hb : Denotes h b db) (hy : Lst db ys) (hne : xs ≠ []) (hlast : xs.getLast? = some .null → db ≠ .null) :
    ∃ r h' d, Ends (Heap.appendList · l b) h r h' ∧ Same h h' ∧ Denotes h' r d ∧ Lst d (xs ++ ys) := by
  obtain ⟨r, h₁, cs, i, a, ⟨N, e⟩, l₁, s₁, c₁, hi, hes⟩ := copy_list hx hp hne hl
  have hnl : isNil h l = false := by
    obtain ⟨cl, hcl, hel⟩ := hl.cells hx
    cases cl with
    | nil => cases hel; exact (hne rfl).elim
    | cons _ _ => exact not_isNil hcl
  obtain ⟨bs, hcb, heb⟩ := (hb.same s₁).cells hy
  obtain ⟨bs', hcb', _⟩ := hb.cells hy
  have hcell := Cells.from c₁
  cases hcell with
  | cons hi₁ hnn hk hrest =>
  rename_i k d₀
  have hs : SameBut i h₁ (h₁.set i (.cell k a b)) := sameBut_set
  have hi' : (h₁.set i (.cell k a b))[i]? = some (.cell k a b) := get_set hi₁
  have keep : ∀ {hm : Mem} {e x}, hm.length ≤ i → Same hm h₁ → Denotes hm e x → Denotes (h₁.set i (.cell k a b)) e x := by
    intro hm e x hlen hsm hd
    refine hd.same fun j hj => ?_
    rw [List.getElem?_set_ne (by omega), hsm j hj]
  have hdis : i ∉ bs.map Prod.fst := by
    rw [← (hcb'.same s₁).unique hcb]
    intro hm
    obtain ⟨c, hc, rfl⟩ := List.mem_map.1 hm
    have := hcb'.lt c hc
    omega
  have hn : ¬(a = none ∧ b = none) := by
    rintro ⟨rfl, rfl⟩
    refine hlast ?_ hb.none
    have : ∀ {P : Ref → Data → Prop} {l : List Ref} {xs : List Data}, (∀ x, P none x → x = .null) → Pointwise P (l ++ [none]) xs →
        xs.getLast? = some .null := by
      intro P l
      induction l with
      | nil =>
        intro xs hP he
        cases he with
        | cons h1 h2 => cases h2; rw [hP _ h1]; rfl
      | cons y l ih =>
        intro xs hP he
        cases he with
        | cons h1 h2 => rw [List.getLast?_cons, ih hP h2]; rfl
    rw [List.map_append] at hes
    exact this (fun x ⟨hm, _, _, hd⟩ => hd.none) hes
  have hc' := Cells.append hs hi₁ hi' hn (hcb.sameBut hs hi₁ hnn hdis) c₁
  have e1 : Pointwise (Denotes (h₁.set i (.cell k a b))) ((cs ++ [(i, a)]).map Prod.snd) xs :=
    hes.mono fun e _ x ⟨hm, q1, q2, q3⟩ => keep q1 q2 q3
  have e2 : Pointwise (Denotes (h₁.set i (.cell k a b))) (bs.map Prod.snd) ys := by
    obtain ⟨bs'', hcb'', heb''⟩ := hb.cells hy
    rw [(hcb''.same s₁).unique hcb] at heb''
    exact heb''.mono fun e _ x hd => keep hi s₁ hd
  have e3 := e1.append e2
  rw [← List.map_append, List.append_assoc] at e3
  obtain ⟨d, hd, hl'⟩ := hc'.denotes e3
  refine ⟨r, h₁.set i (.cell k a b), d, ⟨max N (cs.length + 1), fun n hn' => ?_⟩, ?_, hd, hl'⟩
  · simp only [Heap.appendList, hnl, Bool.false_eq_true, if_false, M.bind, e n (by omega), reads,
      lastCell_spec c₁ n (by omega), setCdr, deref, hi₁, M.pure]
  · intro j hj
    rw [List.getElem?_set_ne (by omega), s₁ j hj]

/-! ### set-car!, set-cdr!, set-nth! -/

/-- Changing the element of one cell changes exactly that position of every list it belongs to. -/
private theorem cells_set {h : Mem} {i k a d v} (hi : h[i]? = some (.cell k a d)) (hv : ¬(v = none ∧ d = none)) :
    ∀ {pre : List (Nat × Ref)} {r post}, Cells h r (pre ++ (i, a) :: post) →
      Cells (h.set i (.cell k v d)) r (pre ++ (i, v) :: post) := by
  intro pre
  induction pre with
  | nil =>
    intro r post hc
    have hnd := hc.nodup
    cases hc with
    | cons x y z w =>
      rw [hi] at x; cases x
      refine .cons (get_set hi) hv z (w.sameBut sameBut_set hi y ?_)
      simp only [List.nil_append, List.map_cons, List.nodup_cons] at hnd
      exact hnd.1
  | cons c pre ih =>
    intro r post hc
    have hnd := hc.nodup
    cases hc with
    | cons x y z w =>
      rename_i j k' b d'
      have hne : j ≠ i := by
        simp at hnd
        exact fun e => hnd.1.2.1 e
      refine .cons ?_ y z (ih w)
      rw [List.getElem?_set_ne (fun e => hne e.symm)]; exact x

/-- C62: `set-car!` of a pair writes only that cell; every list that contains the cell has the new element at that
place, every list that does not is the same as before. -/
theorem C62_set_car {h : Mem} {i : Nat} {k : Kind} {a d v : Ref} (hi : h[i]? = some (.cell k a d)) :
    ∃ h', setCarImpl (some i) v h = (.ok v, h') ∧ h'.length = h.length ∧ SameBut i h h' ∧
      h'[i]? = some (.cell k v d) ∧
      (¬(v = none ∧ d = none) → ∀ r pre post, Cells h r (pre ++ (i, a) :: post) → Cells h' r (pre ++ (i, v) :: post)) ∧
      (¬(a = none ∧ d = none) → ∀ r cs, Cells h r cs → i ∉ cs.map Prod.fst → Cells h' r cs) := by
  refine ⟨h.set i (.cell k v d), ?_, by simp, sameBut_set, get_set hi, fun hv r pre post hc => cells_set hi hv hc,
    fun ha r cs hc hn => hc.sameBut sameBut_set hi ha hn⟩
  simp only [setCarImpl, M.bind, setCar, deref, hi, M.pure]

/-- C62: `set-cdr!` of a pair writes only that cell; every list that contains the cell continues, after it, with the
cells of the new tail. -/
theorem C62_set_cdr {h : Mem} {i : Nat} {k : Kind} {a d v : Ref} (hi : h[i]? = some (.cell k a d)) :
    ∃ h', setCdrImpl (some i) v h = (.ok v, h') ∧ h'.length = h.length ∧ SameBut i h h' ∧
      h'[i]? = some (.cell k a v) ∧
      (¬(a = none ∧ v = none) → ∀ r pre post bs, Cells h r (pre ++ (i, a) :: post) → Cells h v bs →
        i ∉ bs.map Prod.fst → Cells h' r (pre ++ (i, a) :: bs)) ∧
      (¬(a = none ∧ d = none) → ∀ r cs, Cells h r cs → i ∉ cs.map Prod.fst → Cells h' r cs) := by
  have hs : SameBut i h (h.set i (.cell k a v)) := sameBut_set
  refine ⟨h.set i (.cell k a v), ?_, by simp, hs, get_set hi, ?_, fun ha r cs hc hn => hc.sameBut hs hi ha hn⟩
  · simp only [setCdrImpl, M.bind, setCdr, deref, hi, M.pure]
  · intro hv r pre post bs hc hb hn
    have hat := Cells.from hc
    cases hat with
    | cons x y z w =>
    rw [hi] at x; cases x
    have hb' := hb.sameBut hs hi y hn
    clear hb w hn
    induction pre generalizing r with
    | nil =>
      cases hc with
      | cons x y z w => rw [hi] at x; cases x; exact .cons (get_set hi) hv z hb'
    | cons c pre ih =>
      have hnd := hc.nodup
      cases hc with
      | cons x y z w =>
        rename_i j k' b d'
        have hne : j ≠ i := by
          simp at hnd
          exact fun e => hnd.1.2.1 e
        exact .cons ((hs j (List.getElem?_eq_some_iff.1 x).1 hne).trans x) y z (ih _ w)

/-- C62 fails for a first argument that is not a pair: the error that is prepared is lost and the write goes through a
nil pointer. -/
theorem C62_not_pair_violation {h : Mem} {p v : Ref} (hp : ∀ k a d, deref h p ≠ some (.cell k a d)) :
    setCarImpl p v h = (.panic, h) ∧ setCdrImpl p v h = (.panic, h) := by
  have : setCar p v h = (.panic, h) ∧ setCdr p v h = (.panic, h) := by
    unfold setCar setCdr
    cases p with
    | none => exact ⟨rfl, rfl⟩
    | some i =>
      cases hx : deref h (some i) with
      | none => exact ⟨rfl, rfl⟩
      | some n =>
        cases n with
        | atom a => exact ⟨rfl, rfl⟩
        | cell k a d => exact (hp k a d hx).elim
  simp [setCarImpl, setCdrImpl, M.bind, this.1, this.2]

private theorem walk_spec {h : Mem} : ∀ {m : Nat} {r : Ref} {cs : List (Nat × Ref)}, Cells h r cs → m ≤ cs.length →
    Cells h (Nat.repeat (cdr h) m r) (cs.drop m)
  | 0, r, cs, hc, _ => by simpa [Nat.repeat] using hc
  | m + 1, r, cs, hc, hm => by
    have ih := walk_spec hc (m := m) (by omega)
    simp only [Nat.repeat]
    have hlt : m < cs.length := by omega
    rw [List.drop_eq_getElem_cons hlt] at ih
    generalize hq : Nat.repeat (cdr h) m r = q at ih
    generalize hz : List.drop (m + 1) cs = rest at ih ⊢
    generalize cs[m] = c at ih
    cases ih with
    | cons x y z w =>
      simp only [cdr, deref, x]; exact w

private theorem walk_end {h : Mem} : ∀ (m : Nat) {r : Ref}, Emptyish h r → Emptyish h (Nat.repeat (cdr h) m r)
  | 0, _, he => he
  | m + 1, r, he => by
    simp only [Nat.repeat]
    rcases walk_end m he with hq | ⟨i, k, hq, hk⟩
    · rw [hq]; exact .inl rfl
    · rw [hq]; simp [cdr, deref, hk, Emptyish]

/-- C62: `set-nth!` with `1 ≤ n ≤ length` replaces the `n`-th element (counted from 1) and writes nothing else. -/
theorem C62_set_nth {h : Mem} {l v : Ref} {cs : List (Nat × Ref)} (hl : Cells h l cs) {n : Nat} (h1 : 1 ≤ n)
    (h2 : n ≤ cs.length) (hv : v ≠ none) :
    ∃ h' i a, cs[n - 1]? = some (i, a) ∧ setNth l n v h = (.ok v, h') ∧ SameBut i h h' ∧
      Cells h' l (cs.set (n - 1) (i, v)) := by
  have hlt : n - 1 < cs.length := by omega
  have hw := walk_spec hl (m := n - 1) (by omega)
  rw [List.drop_eq_getElem_cons hlt] at hw
  obtain ⟨i, a, hia⟩ : ∃ i a, cs[n - 1] = (i, a) := ⟨_, _, rfl⟩
  rw [hia] at hw
  have hsplit : cs = cs.take (n - 1) ++ (i, a) :: cs.drop (n - 1 + 1) := by
    rw [← hia, ← List.drop_eq_getElem_cons hlt, List.take_append_drop]
  have ht : ((n : Int) - 1).toNat = n - 1 := by omega
  generalize hq : Nat.repeat (cdr h) (n - 1) l = q at hw
  have hnn := not_isNil hw
  cases hw with
  | cons x y z w =>
    rename_i k d
    refine ⟨h.set i (.cell k v d), i, a, by rw [List.getElem?_eq_getElem hlt, hia], ?_, sameBut_set, ?_⟩
    · simp only [setNth, ht, hq, hnn, Bool.false_eq_true, if_false, M.bind, setCar, deref, x, M.pure]
    · have hset : cs.set (n - 1) (i, v) = cs.take (n - 1) ++ (i, v) :: cs.drop (n - 1 + 1) := by
        rw [List.set_eq_take_append_cons_drop, if_pos hlt]
      rw [hset]
      rw [hsplit] at hl
      exact cells_set x (by simp [hv]) hl

/-- C62: `set-nth!` past the end changes nothing. -/
theorem C62_set_nth_past {h : Mem} {l v : Ref} {cs : List (Nat × Ref)} (hl : Cells h l cs) {n : Nat} (h1 : cs.length < n) :
    setNth l n v h = (.ok v, h) := by
  have ht : ((n : Int) - 1).toNat = (n - 1 - cs.length) + cs.length := by omega
  have hw := walk_spec hl (Nat.le_refl _)
  rw [List.drop_length] at hw
  have rep : ∀ m p (r : Ref), Nat.repeat (cdr h) (m + p) r = Nat.repeat (cdr h) m (Nat.repeat (cdr h) p r) := by
    intro m p r
    induction m with
    | zero => simp [Nat.repeat]
    | succ m ih => rw [Nat.succ_add]; simp only [Nat.repeat, ih]
  have he : Emptyish h (Nat.repeat (cdr h) ((n : Int) - 1).toNat l) := by
    rw [ht, rep]
    generalize Nat.repeat (cdr h) cs.length l = q at hw ⊢
    cases hw with
    | nil he => exact walk_end _ he
  simp only [setNth, isNil_iff.2 he, if_true]

/-- C62: an index below 1 is taken as 1, where an error would be expected. -/
theorem C62_set_nth_low {h : Mem} {l v : Ref} {n : Int} (hn : n ≤ 1) : setNth l n v h = setNth l 1 v h := by
  have : (n - 1).toNat = 0 := by omega
  simp [setNth, this]

/-! ### RemoveFromListBang -/

private theorem remove_skip {eq : Mem → Ref → Bool} {h : Mem} {l : Ref} : ∀ {pre : List (Nat × Ref)} {prev r : Ref}
    {post : List (Nat × Ref)}, Cells h r (pre ++ post) → (∀ c ∈ pre, eq h c.2 = false) → ∀ n,
    ∃ q, Cells h q post ∧ removeLoop eq l (n + pre.length) prev r h =
      removeLoop eq l n (match pre.getLast? with | some c => some c.1 | none => prev) q h := by
  intro pre
  induction pre with
  | nil => intro prev r post hc _ n; exact ⟨r, hc, by simp⟩
  | cons c pre ih =>
    intro prev r post hc hp n
    have hnn := not_isNil hc
    cases hc with
    | cons x y z w =>
      rename_i i k a d
      have h1 : cdr h (some i) = d := by simp [cdr, deref, x]
      have h2 : car h (some i) = a := by simp [car, deref, x]
      obtain ⟨q, hq, he⟩ := ih (prev := some i) w (fun c hc => hp c (by simp [hc])) n
      refine ⟨q, hq, ?_⟩
      rw [List.length_cons, ← Nat.add_assoc]
      simp only [removeLoop, hnn, h1, h2, hp (i, a) (by simp), Bool.false_eq_true, if_false, he]
      cases pre with
      | nil => rfl
      | cons b pre => simp [List.getLast?_cons]

/-- C63: `RemoveFromListBang` without a matching element changes nothing and returns the list itself. -/
theorem C63_remove_none {eq : Mem → Ref → Bool} {h : Mem} {l : Ref} {cs : List (Nat × Ref)} (hl : Cells h l cs)
    (hno : ∀ c ∈ cs, eq h c.2 = false) : Ends (removeBang eq · l) h l h := by
  refine ⟨cs.length + 1, fun n hn => ?_⟩
  obtain ⟨m, rfl⟩ : ∃ m, n = (m + 1) + cs.length := ⟨n - cs.length - 1, by omega⟩
  obtain ⟨q, hq, he⟩ := remove_skip (eq := eq) (l := l) (prev := none) (pre := cs) (post := []) (by simpa using hl) hno (m + 1)
  simp only [removeBang, he]
  cases hq with
  | nil hx => simp [removeLoop, isNil_iff.2 hx]

/-- C63: when the first element matches, the tail of the list is returned and nothing is written. -/
theorem C63_remove_first {eq : Mem → Ref → Bool} {h : Mem} {l : Ref} {i : Nat} {a : Ref} {cs : List (Nat × Ref)}
    (hl : Cells h l ((i, a) :: cs)) (hm : eq h a = true) : ∃ r, Ends (removeBang eq · l) h r h ∧ Cells h r cs := by
  have hnn := not_isNil hl
  cases hl with
  | cons x y z w =>
    rename_i k d
    have h1 : cdr h (some i) = d := by simp [cdr, deref, x]
    have h2 : car h (some i) = a := by simp [car, deref, x]
    refine ⟨d, ⟨1, fun n hn => ?_⟩, w⟩
    obtain ⟨n, rfl⟩ : ∃ m, n = m + 1 := ⟨n - 1, by omega⟩
    have h3 : isNil h none = true := rfl
    simp only [removeBang, removeLoop, hnn, h1, h2, hm, h3, if_true, Bool.false_eq_true, if_false]

/-- C63: when a later element is the first match, exactly the cell before it is written, so that the list skips it. -/
theorem C63_remove_later {eq : Mem → Ref → Bool} {h : Mem} {l : Ref} {pre post : List (Nat × Ref)} {p i : Nat} {b a : Ref}
    (hl : Cells h l (pre ++ (p, b) :: (i, a) :: post)) (hno : ∀ c ∈ pre ++ [(p, b)], eq h c.2 = false)
    (hm : eq h a = true) (hb : b ≠ none) :
    ∃ h', Ends (removeBang eq · l) h l h' ∧ SameBut p h h' ∧ Cells h' l (pre ++ (p, b) :: post) := by
  have hp := Cells.from hl
  have hnp := not_isNil hp
  cases hp with
  | cons x y z w =>
  rename_i k d
  have w₀ := w
  cases w with
  | cons x' y' z' w' =>
  rename_i k' d'
  have hs : SameBut p h (h.set p (.cell k b d')) := sameBut_set
  have hnd := hl.nodup
  have hnot : p ∉ post.map Prod.fst := by
    have := (Cells.from hl).nodup
    simp only [List.map_cons, List.nodup_cons, List.mem_cons, not_or] at this
    exact this.1.2
  have hpost := w'.sameBut hs x y hnot
  refine ⟨h.set p (.cell k b d'), ⟨pre.length + 2, fun n hn => ?_⟩, hs, ?_⟩
  · obtain ⟨m, rfl⟩ : ∃ m, n = (m + 1) + (pre ++ [(p, b)]).length := ⟨n - pre.length - 2, by simp; omega⟩
    obtain ⟨q, hq, he⟩ := remove_skip (eq := eq) (l := l) (prev := none) (pre := pre ++ [(p, b)]) (post := (i, a) :: post)
      (by simpa using hl) hno (m + 1)
    have hnq := not_isNil hq
    cases hq with
    | cons x'' y'' z'' w'' =>
      rw [x'] at x''; cases x''
      have h1 : cdr h (some i) = d' := by simp [cdr, deref, x']
      have h2 : car h (some i) = a := by simp [car, deref, x']
      simp only [removeBang, he]
      simp only [List.getLast?_append, List.getLast?_singleton, Option.some_or, removeLoop, hnq, h1, h2, hm, hnp, if_true,
        Bool.false_eq_true, if_false, M.bind, setCdr, deref, x, M.pure]
  · clear hno hnd
    induction pre generalizing l with
    | nil =>
      cases hl with
      | cons x1 y1 z1 w1 => exact .cons (get_set x) (by simp [hb]) z hpost
    | cons c pre ih =>
      have hnd := hl.nodup
      cases hl with
      | cons x1 y1 z1 w1 =>
        rename_i j k1 b1 d1
        have hne : j ≠ p := by
          simp at hnd
          exact fun e => hnd.1.2.1 e
        exact .cons ((hs j (List.getElem?_eq_some_iff.1 x1).1 hne).trans x1) y1 z1 (ih w1)

/-! ### Witnesses -/

/-- `a = (1 2)`, cells 2 and 3; `b = (3)`, cell 5; `c` shares the tail of `a`: `(9 2)`, cell 7. -/
private def mem : Mem :=
  [.atom (.int 1), .atom (.int 2), .cell .cons (some 0) (some 3), .cell .cons (some 1) none,
   .atom (.int 3), .cell .cons (some 4) none, .atom (.int 9), .cell .cons (some 6) (some 3)]
private theorem mem_a : Cells mem (some 2) [(2, some 0), (3, some 1)] :=
  .cons rfl (by simp) (by simp) (.cons rfl (by simp) (by simp) (.nil (.inl rfl)))
private theorem mem_b : Cells mem (some 5) [(5, some 4)] := .cons rfl (by simp) (by simp) (.nil (.inl rfl))
private theorem list_b : IsList mem (some 5) := .inr ⟨5, _, _, _, rfl, rfl, by simp⟩

example : appendBangImpl 9 (some 2) (some 5) mem = (.ok (some 2), mem.set 3 (.cell .cons (some 1) (some 5))) := by decide
example : ∃ h', Ends (appendBangImpl · (some 2) (some 5)) mem (some 2) h' ∧
    Cells h' (some 2) [(2, some 0), (3, some 1), (5, some 4)] := by
  obtain ⟨h', h1, _, _, _, h2⟩ := C02_append_bang (cs := [(2, some 0)]) mem_a mem_b list_b (by simp) (by simp)
  exact ⟨h', h1, h2⟩
example : ∃ h' dl', Ends (appendBangImpl · (some 2) (some 5)) mem (some 2) h' ∧ Denotes h' (some 2) dl' ∧
    Lst dl' [.int 1, .int 2, .int 3] := by
  have hd : Denotes mem (some 2) (.cons (.int 1) (.cons (.int 2) .null)) :=
    .cell rfl (.atom rfl) (.cell rfl (.atom rfl) .null)
  have hb : Denotes mem (some 5) (.cons (.int 3) .null) := .cell rfl (.atom rfl) .null
  have leaf : ∀ {i a j}, mem[i]? = some (.atom a) → Reach mem (some i) j → j = i := by
    intro i a j hi hr
    cases hr with
    | here => rfl
    | car hc _ => rw [hi] at hc; cases hc
    | cdr hc _ => rw [hi] at hc; cases hc
  obtain ⟨h', dl', h1, h2, h3, _⟩ := C02_append_bang_value hd
    (.cons _ _ _ _ (by simp) (by simp) (.cons _ _ _ _ (by simp) (by simp) .null)) hb
    (.cons _ _ _ _ (by simp) (by simp) .null) list_b (by simp) (by simp) (by
      intro cs i a hc
      have e := hc.unique mem_a
      have : cs = [(2, some 0)] ∧ (i, a) = (3, some 1) := by
        have := List.append_inj' (s₂ := [(2, some 0)]) (t₂ := [(3, some 1)]) e rfl
        exact ⟨this.1, by simpa using this.2⟩
      obtain ⟨rfl, hia⟩ := this
      cases hia
      refine ⟨fun hr => ?_, fun c hc hr => ?_⟩
      · cases hr with
        | car hc hr => cases hc; cases leaf rfl hr
        | cdr hc hr => cases hc; cases hr
      · simp at hc
        rcases hc with rfl | rfl
        · cases leaf rfl hr
        · cases leaf rfl hr)
  exact ⟨h', dl', h1, h2, h3⟩
-- `append` leaves the heap as it was, and makes new cells
example : Heap.appendImpl 9 [some 2, some 5] mem = (.ok (some 10), mem ++ [.cell .cons none none, .cell .cons none (some 10),
    .cell .cons (some 0) (some 11), .cell .cons (some 1) (some 12), .cell .cons (some 4) none]) := by decide
example : Pointwise (Contributes mem) [some 2, some 5] [[some 0, some 1], [some 4]] :=
  .cons (.inl ⟨.inr ⟨2, _, _, _, rfl, rfl, by simp⟩, _, mem_a, rfl⟩) (.cons (.inl ⟨list_b, _, mem_b, rfl⟩) .nil)
-- writing the shared cell 3 is seen through both lists
example : ∃ h', setCarImpl (some 3) (some 4) mem = (.ok (some 4), h') ∧
    Cells h' (some 2) [(2, some 0), (3, some 4)] ∧ Cells h' (some 7) [(7, some 6), (3, some 4)] := by
  obtain ⟨h', h1, _, _, _, h2, _⟩ := C62_set_car (h := mem) (i := 3) (v := some 4) rfl
  exact ⟨h', h1, h2 (by simp) (some 2) [(2, some 0)] [] mem_a, h2 (by simp) (some 7) [(7, some 6)] []
    (.cons rfl (by simp) (by simp) (.cons rfl (by simp) (by simp) (.nil (.inl rfl))))⟩
example : ∃ h', setNth (some 2) 2 (some 6) mem = (.ok (some 6), h') ∧ Cells h' (some 2) [(2, some 0), (3, some 6)] := by
  obtain ⟨h', i, a, e, h1, _, h2⟩ := C62_set_nth (v := some 6) mem_a (n := 2) (by simp) (by simp) (by simp)
  cases e
  exact ⟨h', h1, h2⟩
example : ∃ h', Ends (removeBang (fun _ r => r == some 1) · (some 2)) mem (some 2) h' ∧ Cells h' (some 2) [(2, some 0)] := by
  obtain ⟨h', h1, _, h2⟩ := C63_remove_later (eq := fun _ r => r == some 1) (pre := []) (post := []) mem_a (by simp) (by simp)
    (by simp)
  exact ⟨h', h1, h2⟩

end Golisp.Props
