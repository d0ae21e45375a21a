import Verif.Frame
/- Lemmas about association lists and the parent search. -/
namespace Golisp

section al
variable {α : Type}

theorem alSet_keys (l : List (String × α)) (x : String) (v : α) :
    (alSet l x v).map Prod.fst = if x ∈ l.map Prod.fst then l.map Prod.fst else l.map Prod.fst ++ [x] := by
  induction l with
  | nil => simp [alSet]
  | cons p l ih =>
    obtain ⟨k, w⟩ := p
    by_cases h : k = x
    · simp [alSet, h]
    · have h' : x ≠ k := fun e => h e.symm
      simp only [alSet, h, if_false, List.map_cons, ih, List.mem_cons, h', false_or]
      split <;> simp

theorem alSet_nodup {l : List (String × α)} (h : (l.map Prod.fst).Nodup) (x : String) (v : α) :
    ((alSet l x v).map Prod.fst).Nodup := by
  rw [alSet_keys]
  split
  · exact h
  · next hx => exact List.nodup_append.2 ⟨h, by simp, fun a ha b hb => by simp at hb; subst hb; exact fun e => hx (e ▸ ha)⟩

theorem alGet_set_same (l : List (String × α)) (k : String) (v : α) : alGet (alSet l k v) k = some v := by
  induction l with
  | nil => simp [alSet, alGet]
  | cons p r ih => obtain ⟨a, b⟩ := p; by_cases h : a = k <;> simp [alSet, alGet, h, ih]

theorem alGet_set_ne (l : List (String × α)) {k x : String} (v : α) (h : x ≠ k) :
    alGet (alSet l k v) x = alGet l x := by
  induction l with
  | nil => simp [alSet, alGet, Ne.symm h]
  | cons p r ih =>
    obtain ⟨a, b⟩ := p
    by_cases h1 : a = k
    · subst h1; simp [alSet, alGet, Ne.symm h]
    · by_cases h2 : a = x
      · subst h2; simp [alSet, alGet, h1]
      · simp [alSet, alGet, h1, h2, ih]

theorem alGet_set (l : List (String × α)) (k x : String) (v : α) :
    alGet (alSet l k v) x = if x = k then some v else alGet l x := by
  split
  · next h => subst h; exact alGet_set_same l _ v
  · next h => exact alGet_set_ne l v h

theorem alGet_del (l : List (String × α)) (k x : String) :
    alGet (alDel l k) x = if x = k then none else alGet l x := by
  induction l with
  | nil => simp [alDel, alGet]
  | cons p r ih =>
    obtain ⟨a, b⟩ := p
    unfold alDel at ih ⊢
    by_cases h1 : a = k
    · subst h1
      by_cases h2 : x = a
      · simp [h2] at ih ⊢; exact ih
      · simp [h2, alGet, Ne.symm h2] at ih ⊢; exact ih
    · by_cases h2 : x = k
      · subst h2; simp [alGet, h1] at ih ⊢; exact ih
      · by_cases h3 : a = x
        · subst h3; simp [alGet, h1]
        · simp [alGet, h1, h2, h3] at ih ⊢; exact ih

theorem alGet_some_mem {l : List (String × α)} {k : String} {v : α} (h : alGet l k = some v) : (k, v) ∈ l := by
  induction l with
  | nil => simp [alGet] at h
  | cons p r ih =>
    obtain ⟨a, b⟩ := p
    by_cases h1 : a = k
    · subst h1; simp [alGet] at h; simp [h]
    · simp [alGet, h1] at h; exact List.mem_cons_of_mem _ (ih h)
end al

namespace Frame
open Data Spec

theorem get?_set (F : Frames) (i j : Nat) (m : FrameMap) (h : i < F.length) :
    get? (F.set i m) j = if j = i then m else get? F j := by
  unfold get?
  by_cases h1 : j = i
  · subst h1; simp [h]
  · simp [h1, Ne.symm h1]

theorem get?_out {F : Frames} {i : Nat} (h : F.length ≤ i) : get? F i = [] := by simp [get?, h]

theorem mem_parents {F : Frames} {i j : Nat} : some j ∈ parents F i ↔ Parent F i j := by
  unfold parents Parent
  simp only [List.mem_filterMap]
  constructor
  · rintro ⟨⟨k, v⟩, hm, h⟩
    simp only at h
    split at h
    · next hc =>
      simp only [Option.some.injEq] at h
      simp only [Bool.and_eq_true] at hc
      split at h
      · simp only [Option.some.injEq] at h; subst h
        exact ⟨k, hc.1, hm⟩
      · simp at h
    · simp at h
  · rintro ⟨k, hk, hm⟩
    exact ⟨_, hm, by simp [hk]⟩

theorem none_not_parent {F : Frames} (hok : ParentsOk F) (i : Nat) : none ∉ parents F i := by
  unfold parents
  simp only [List.mem_filterMap, not_exists, not_and]
  rintro ⟨k, v⟩ hm
  simp only
  split
  · next hc =>
    simp only [Bool.and_eq_true, Bool.not_eq_true', decide_eq_false_iff_not] at hc
    rcases hok i k v hc.1 hm with h | ⟨j, h⟩
    · exact absurd h hc.2
    · subst h; simp
  · simp

section
variable {α : Type} [DecidableEq α] {F : Frames} {ord : Order} {miss : α} {probe : Nat → Option α}

/-- Frames not yet visited. -/
def unv (F : Frames) (vis : List Nat) : Nat := ((List.range F.length).filter fun j => !decide (j ∈ vis)).length

theorem unv_mono {vis vis' : List Nat} (h : ∀ x, x ∈ vis → x ∈ vis') : unv F vis' ≤ unv F vis := by
  unfold unv
  generalize List.range F.length = L
  induction L with
  | nil => simp
  | cons a L ih =>
    by_cases h1 : a ∈ vis
    · simp [h1, h a h1]; exact ih
    · by_cases h2 : a ∈ vis' <;> simp [h1, h2] <;> omega

theorem filter_strict {L : List Nat} {i : Nat} {vis : List Nat} (hi : i ∈ L) (hv : i ∉ vis) :
    (L.filter fun j => !decide (j ∈ i :: vis)).length < (L.filter fun j => !decide (j ∈ vis)).length := by
  have mono : ∀ L : List Nat, (L.filter fun j => !decide (j ∈ i :: vis)).length ≤ (L.filter fun j => !decide (j ∈ vis)).length := by
    intro L
    induction L with
    | nil => simp
    | cons a L ih =>
      by_cases h2 : a ∈ vis
      · simp [h2] at ih ⊢; exact ih
      · by_cases h3 : a = i <;> simp [h2, h3, hv] at ih ⊢ <;> omega
  induction L with
  | nil => simp at hi
  | cons a L ih =>
    by_cases h : a = i
    · subst h
      have := mono L
      simp [hv] at this ⊢; omega
    · have hi' : i ∈ L := by simpa [Ne.symm h] using hi
      have := ih hi'
      by_cases h2 : a ∈ vis <;> simp [h2, h] at this ⊢ <;> omega

theorem unv_cons_lt {vis : List Nat} {i : Nat} (hi : i < F.length) (hv : i ∉ vis) :
    unv F (i :: vis) < unv F vis := filter_strict (List.mem_range.mpr hi) hv

/-- The visited set only grows. -/
theorem searchList_grows {rec : Nat → List Nat → Out α × List Nat}
    (hr : ∀ p vis x, x ∈ vis → x ∈ (rec p vis).2) (l : List (Option Nat)) (vis : List Nat) :
    ∀ x, x ∈ vis → x ∈ (searchList miss rec l vis).2 := by
  induction l generalizing vis with
  | nil => intro x hx; exact hx
  | cons a l ih =>
    intro x hx
    cases a with
    | none => exact hx
    | some p =>
      have h1 := hr p vis x hx
      unfold searchList
      generalize rec p vis = r at h1 ⊢
      rcases r with ⟨o, v'⟩
      cases o with
      | ok a => 
        by_cases ha : a = miss
        · simp only [ha, if_true]; exact ih v' x h1
        · simp only [ha, if_false]; exact h1
      | _ => exact h1

theorem searchN_grows (n : Nat) : ∀ i vis x, x ∈ vis → x ∈ (searchN F ord miss probe n i vis).2 := by
  induction n with
  | zero => intro i vis x hx; exact hx
  | succ n ih =>
    intro i vis x hx
    unfold searchN
    by_cases h : i ∈ vis
    · simp [h, hx]
    · simp only [h, if_false]
      cases probe i with
      | some a => exact List.mem_cons_of_mem _ hx
      | none => exact searchList_grows ih _ _ x (List.mem_cons_of_mem _ hx)

/-- Enough depth: the search always ends. -/
theorem searchN_total (hord : Reorders ord) (n : Nat) :
    ∀ i vis, unv F vis < n → (searchN F ord miss probe n i vis).1 ≠ .timeout := by
  induction n with
  | zero => intro i vis h; omega
  | succ n ih =>
    intro i vis h
    unfold searchN
    by_cases hv : i ∈ vis
    · simp [hv]
    · simp only [hv, if_false]
      cases probe i with
      | some a => simp
      | none =>
        simp only
        by_cases hi : i < F.length
        · have hlt := unv_cons_lt hi hv
          have : ∀ (l : List (Option Nat)) (w : List Nat), unv F w < n →
              (searchList miss (searchN F ord miss probe n) l w).1 ≠ .timeout := by
            intro l
            induction l with
            | nil => intro w _; simp [searchList]
            | cons a l ihl =>
              intro w hw
              cases a with
              | none => simp [searchList]
              | some p =>
                have h1 := ih p w hw
                have h2 := searchN_grows (F := F) (ord := ord) (miss := miss) (probe := probe) n p w
                unfold searchList
                generalize searchN F ord miss probe n p w = r at h1 h2 ⊢
                rcases r with ⟨o, v'⟩
                cases o with
                | ok a =>
                  by_cases ha : a = miss
                  · simp only [ha, if_true]
                    have := unv_mono (F := F) h2
                    exact ihl v' (by simp only at this; omega)
                  · simp [ha]
                | timeout => exact absurd rfl h1
                | _ => simp
          exact this _ _ (by omega)
        · have hp : parents F i = [] := by simp [parents, get?_out (Nat.le_of_not_lt hi)]
          have : ord (i :: vis) (parents F i) = [] := by
            rw [hp]; apply List.eq_nil_iff_forall_not_mem.mpr
            intro x hx; simpa using (hord _ _ _).mp hx
          rw [this]; simp [searchList]

/-- What the search may report: the first non-`miss` probe along a path of frames whose probes find nothing. -/
inductive Found (F : Frames) (probe : Nat → Option α) : Nat → α → Prop where
  | own {i a} : probe i = some a → Found F probe i a
  | parent {i p a} : probe i = none → Parent F i p → Found F probe p a → Found F probe i a

/-- Soundness. -/
theorem searchN_sound (hord : Reorders ord) (n : Nat) :
    ∀ i vis a v, searchN F ord miss probe n i vis = (.ok a, v) → a ≠ miss → Found F probe i a := by
  induction n with
  | zero => intro i vis a v h; simp [searchN] at h
  | succ n ih =>
    intro i vis a v h hne
    unfold searchN at h
    by_cases hv : i ∈ vis
    · simp [hv] at h; exact absurd h.1.symm hne
    · simp only [hv, if_false] at h
      cases hp : probe i with
      | some b => simp [hp] at h; exact .own (h.1 ▸ hp)
      | none =>
        simp only [hp] at h
        have hl : ∀ p, some p ∈ ord (i :: vis) (parents F i) → Parent F i p := fun p hm => mem_parents.mp ((hord _ _ _).mp hm)
        generalize ord (i :: vis) (parents F i) = l at h hl
        generalize i :: vis = w at h
        induction l generalizing w with
        | nil => simp [searchList] at h; exact absurd h.1.symm hne
        | cons b l ihl =>
          cases b with
          | none => simp [searchList] at h
          | some p =>
            unfold searchList at h
            have hs := ih p w
            generalize searchN F ord miss probe n p w = r at h hs
            rcases r with ⟨o, v'⟩
            cases o with
            | ok c =>
              by_cases hc : c = miss
              · simp only [hc, if_true] at h
                exact ihl (fun p hm => hl p (List.mem_cons_of_mem _ hm)) v' h
              · simp [hc] at h
                exact .parent hp (hl p (by simp)) (h.1 ▸ hs c v' rfl hc)
            | _ => simp at h

/-- What a failed search has established about the frames it newly visited. -/
def Cleared (F : Frames) (miss : α) (probe : Nat → Option α) (vis vis' : List Nat) : Prop :=
  ∀ g, g ∈ vis' → g ∉ vis → probe g = some miss ∨ (probe g = none ∧ ∀ p, Parent F g p → p ∈ vis')

theorem searchN_complete (hord : Reorders ord) (n : Nat) :
    ∀ i vis v, searchN F ord miss probe n i vis = (.ok miss, v) →
      i ∈ v ∧ Cleared F miss probe vis v := by
  induction n with
  | zero => intro i vis v h; simp [searchN] at h
  | succ n ih =>
    intro i vis v h
    unfold searchN at h
    by_cases hv : i ∈ vis
    · simp [hv] at h; subst h; exact ⟨hv, fun g h1 h2 => absurd h1 h2⟩
    · simp only [hv, if_false] at h
      cases hp : probe i with
      | some b =>
        simp [hp] at h; obtain ⟨hb, rfl⟩ := h
        refine ⟨by simp, fun g h1 h2 => ?_⟩
        rcases List.mem_cons.mp h1 with rfl | h1
        · left; rw [hp, hb]
        · exact absurd h1 h2
      | none =>
        simp only [hp] at h
        have hl : ∀ p, Parent F i p → some p ∈ ord (i :: vis) (parents F i) :=
          fun p hm => (hord _ _ _).mpr (mem_parents.mpr hm)
        have key : ∀ (l : List (Option Nat)) (w : List Nat), searchList miss (searchN F ord miss probe n) l w = (.ok miss, v) →
            (∀ x, x ∈ w → x ∈ v) ∧ (∀ p, some p ∈ l → p ∈ v) ∧ Cleared F miss probe w v := by
          intro l
          induction l with
          | nil =>
            intro w h; simp [searchList] at h; subst h
            exact ⟨fun x h => h, by simp, fun g h1 h2 => absurd h1 h2⟩
          | cons b l ihl =>
            intro w h
            cases b with
            | none => simp [searchList] at h
            | some p =>
              unfold searchList at h
              have hs := ih p w
              have hg := searchN_grows (F := F) (ord := ord) (miss := miss) (probe := probe) n p w
              generalize searchN F ord miss probe n p w = r at h hs hg
              rcases r with ⟨o, v'⟩
              cases o with
              | ok c =>
                by_cases hc : c = miss
                · simp only [hc, if_true] at h
                  subst hc
                  obtain ⟨h1, h2⟩ := hs v' rfl
                  obtain ⟨h3, h4, h5⟩ := ihl v' h
                  refine ⟨fun x hx => h3 x (hg x hx), ?_, ?_⟩
                  · intro q hq
                    rcases List.mem_cons.mp hq with hq | hq
                    · cases hq; exact h3 _ h1
                    · exact h4 q hq
                  · intro g hgv hgw
                    by_cases hgv' : g ∈ v'
                    · rcases h2 g hgv' hgw with h | ⟨h, h'⟩
                      · exact Or.inl h
                      · exact Or.inr ⟨h, fun p hp => h3 p (h' p hp)⟩
                    · exact h5 g hgv hgv'
                · simp [hc] at h
              | _ => simp at h
        obtain ⟨h1, h2, h3⟩ := key _ _ h
        refine ⟨h1 i (by simp), fun g hg hgv => ?_⟩
        by_cases hgi : g = i
        · subst hgi; exact Or.inr ⟨hp, fun p hp => h2 p (hl p hp)⟩
        · exact h3 g hg (by simp [hgi, hgv])

/-- With frames (or nil) in all parent slots the search does not panic. -/
theorem searchN_no_panic (hord : Reorders ord) (hok : ParentsOk F) (n : Nat) :
    ∀ i vis, (searchN F ord miss probe n i vis).1 ≠ .panic ∧ ∀ e, (searchN F ord miss probe n i vis).1 ≠ .err e := by
  induction n with
  | zero => intro i vis; simp [searchN]
  | succ n ih =>
    intro i vis
    unfold searchN
    by_cases hv : i ∈ vis
    · simp [hv]
    · simp only [hv, if_false]
      cases probe i with
      | some b => simp
      | none =>
        simp only
        have hl : none ∉ ord (i :: vis) (parents F i) := fun h => none_not_parent hok i ((hord _ _ _).mp h)
        generalize ord (i :: vis) (parents F i) = l at hl
        generalize i :: vis = w
        induction l generalizing w with
        | nil => simp [searchList]
        | cons b l ihl =>
          cases b with
          | none => simp at hl
          | some p =>
            unfold searchList
            have hs := ih p w
            generalize searchN F ord miss probe n p w = r at hs
            rcases r with ⟨o, v'⟩
            cases o with
            | ok c =>
              by_cases hc : c = miss
              · simp only [hc, if_true]; exact ihl (fun h => hl (List.mem_cons_of_mem _ h)) v'
              · simp [hc]
            | timeout => simp
            | panic => simp at hs
            | err e => simp at hs

theorem unv_nil (F : Frames) : unv F [] = F.length := by
  unfold unv
  rw [List.filter_eq_self.mpr (by simp), List.length_range]

/-- The search always ends, whatever the parent links. -/
theorem search_total (hord : Reorders ord) (i : Nat) : search F ord miss probe i ≠ .timeout :=
  searchN_total hord _ i [] (by rw [unv_nil]; omega)

theorem search_ok (hord : Reorders ord) (hok : ParentsOk F) (i : Nat) : ∃ a, search F ord miss probe i = .ok a := by
  have h1 := search_total (F := F) (miss := miss) (probe := probe) hord i
  have h2 := searchN_no_panic (miss := miss) (probe := probe) hord hok (F.length + 1) i []
  unfold search at h1 ⊢
  generalize (searchN F ord miss probe (F.length + 1) i []).1 = o at h1 h2
  cases o with
  | ok a => exact ⟨a, rfl⟩
  | err e => exact absurd rfl (h2.2 e)
  | panic => exact absurd rfl h2.1
  | timeout => exact absurd rfl h1

theorem search_sound (hord : Reorders ord) {i : Nat} {a : α} (h : search F ord miss probe i = .ok a) (hne : a ≠ miss) :
    Found F probe i a := by
  unfold search at h
  generalize hr : searchN F ord miss probe (F.length + 1) i [] = r at h
  rcases r with ⟨o, v⟩
  simp only at h; subst h
  exact searchN_sound hord _ _ _ _ _ hr hne

theorem search_complete (hord : Reorders ord) {i : Nat} (h : search F ord miss probe i = .ok miss) {a : α}
    (hf : Found F probe i a) : a = miss := by
  unfold search at h
  generalize hr : searchN F ord miss probe (F.length + 1) i [] = r at h
  rcases r with ⟨o, v⟩
  simp only at h; subst h
  obtain ⟨h1, h2⟩ := searchN_complete hord _ _ _ _ hr
  clear hr
  induction hf with
  | own hp =>
    rcases h2 _ h1 (by simp) with h | h
    · rw [hp] at h; exact Option.some.inj h
    · rw [hp] at h; simp at h
  | parent hp hpar _ ih =>
    rcases h2 _ h1 (by simp) with h | ⟨_, h⟩
    · rw [hp] at h; simp at h
    · exact ih (h _ hpar)

end
end Frame
end Golisp
