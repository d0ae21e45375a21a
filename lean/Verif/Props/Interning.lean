import Verif.Intern
/-
Property C49: symbol identity.
-/
namespace Golisp.Props
open Golisp Spec Intern

private theorem lt_of_get {α} {l : List α} {i : Nat} {x : α} (h : l[i]? = some x) : i < l.length := by
  rcases Nat.lt_or_ge i l.length with h' | h'
  · exact h'
  · rw [List.getElem?_eq_none h'] at h; cases h

private theorem get_set {α} {l : List α} {i j : Nat} {x y z : α} (hx : l[i]? = some x) (h : (l.set i y)[j]? = some z) :
    (j = i ∧ z = y) ∨ (j ≠ i ∧ l[j]? = some z) := by
  by_cases hj : j = i
  · subst hj; rw [List.getElem?_set_self (lt_of_get hx)] at h; cases h; exact .inl ⟨rfl, rfl⟩
  · rw [List.getElem?_set_ne (Ne.symm hj)] at h; exact .inr ⟨hj, h⟩

private theorem find_cons (m : List (String × Nat)) (n : String) (k : Nat) (n' : String) :
    find ((n, k) :: m) n' = if n = n' then some k else find m n' := by
  unfold find; rw [List.find?_cons]
  by_cases h : n = n' <;> simp [h]

private theorem last {P : State → Prop} {s s' : State} (h : Steps P s s') : P s' := by
  cases h with
  | refl h => exact h
  | tail _ _ h => exact h

/-- The three steps. -/
private theorem exec_cases {s s' : State} {a : Action} (h : exec s a = some s') :
    ∃ (i : Nat) (n : String) (ns : List String) (done : List (String × Nat)),
      (s.threads[i]? = some ⟨none, n :: ns, done⟩ ∧
        ((∃ k, find s.table n = some k ∧ s' = { s with threads := s.threads.set i ⟨none, ns, done ++ [(n, k)]⟩ }) ∨
         (find s.table n = none ∧ s' = { s with threads := s.threads.set i ⟨some n, ns, done⟩ }))) ∨
      (s.threads[i]? = some ⟨some n, ns, done⟩ ∧
        s' = ⟨(n, s.made.length) :: s.table, s.made ++ [n], s.threads.set i ⟨none, ns, done ++ [(n, s.made.length)]⟩⟩) := by
  cases a with
  | look i =>
    simp only [exec] at h
    split at h
    · rename_i n ns done ht
      split at h
      · rename_i k hk; cases h; exact ⟨i, n, ns, done, .inl ⟨ht, .inl ⟨k, hk, rfl⟩⟩⟩
      · rename_i hk; cases h; exact ⟨i, n, ns, done, .inl ⟨ht, .inr ⟨hk, rfl⟩⟩⟩
    · cases h
  | insert i =>
    simp only [exec] at h
    split at h
    · rename_i n ns done ht; cases h; exact ⟨i, n, ns, done, .inr ⟨ht, rfl⟩⟩
    · cases h

private theorem gave_set {s : State} {i : Nat} {t t' : Thread} (ht : s.threads[i]? = some t) {tb md} {n : String} {k : Nat}
    (h : Gave ⟨tb, md, s.threads.set i t'⟩ n k) : Gave s n k ∨ ((n, k) ∈ t'.done) := by
  obtain ⟨u, hu, hm⟩ := h
  rcases List.mem_or_eq_of_mem_set hu with hu | rfl
  · exact .inl ⟨u, hu, hm⟩
  · exact .inr hm

private theorem names {gs : List (List String)} {P : State → Prop} {s : State} (h : Steps P (start gs) s) :
    (∀ n k, find s.table n = some k → s.made[k]? = some n) ∧ (∀ n k, Gave s n k → s.made[k]? = some n) := by
  generalize hs : start gs = s₀ at h
  induction h with
  | refl =>
    subst hs
    refine ⟨fun n k h => by simp [start, find] at h, fun n k ⟨t, ht, hm⟩ => ?_⟩
    simp only [start, List.mem_map] at ht
    obtain ⟨g, _, rfl⟩ := ht; cases hm
  | tail hst h2 _ ih =>
    obtain ⟨ih1, ih2⟩ := ih
    obtain ⟨i, n, ns, done, ⟨ht, ⟨k, hk, rfl⟩ | ⟨hk, rfl⟩⟩ | ⟨ht, rfl⟩⟩ := exec_cases h2
    · refine ⟨ih1, fun n' k' hg => ?_⟩
      rcases gave_set ht hg with hg | hm
      · exact ih2 _ _ hg
      · rcases List.mem_append.mp hm with hm | hm
        · exact ih2 _ _ ⟨_, List.mem_of_getElem? ht, hm⟩
        · simp at hm; obtain ⟨rfl, rfl⟩ := hm; exact ih1 _ _ hk
    · refine ⟨ih1, fun n' k' hg => ?_⟩
      rcases gave_set ht hg with hg | hm
      · exact ih2 _ _ hg
      · exact ih2 _ _ ⟨_, List.mem_of_getElem? ht, hm⟩
    · have old : ∀ {l : List String} {n' : String} {k' : Nat}, l[k']? = some n' → (l ++ [n])[k']? = some n' :=
        fun h => (List.getElem?_append_left (lt_of_get h)).trans h
      refine ⟨fun n' k' hf => ?_, fun n' k' hg => ?_⟩
      · rw [find_cons] at hf
        split at hf
        · cases hf; rename_i e; subst e; exact List.getElem?_concat_length
        · exact old (ih1 _ _ hf)
      · rcases gave_set ht hg with hg | hm
        · exact old (ih2 _ _ hg)
        · rcases List.mem_append.mp hm with hm | hm
          · exact old (ih2 _ _ ⟨_, List.mem_of_getElem? ht, hm⟩)
          · simp at hm; obtain ⟨rfl, rfl⟩ := hm; exact List.getElem?_concat_length

/-- The symbol that `Intern` gives has the name asked for; so symbols for different names are different objects. -/
theorem C49_name {gs : List (List String)} {P : State → Prop} {s : State} (h : Steps P (start gs) s) {n : String} {k : Nat}
    (hg : Gave s n k) : s.made[k]? = some n ∧ ∀ n', Gave s n' k → n' = n := by
  have hn := (names h).2 n k hg
  refine ⟨hn, fun n' hg' => ?_⟩
  have := (names h).2 n' k hg'
  rw [hn] at this; cases this; rfl

/-- If never two goroutines at once are between the lookup and the insertion of `n`, all calls for `n`, by all goroutines, give
the same object.  Missing for the full claim: that this is never so, which is false (below). -/
theorem C49_alone_partial {gs : List (List String)} {n : String} {s : State}
    (h : Steps (fun s => ∀ i j, Inserting s n i → Inserting s n j → i = j) (start gs) s) {k k' : Nat}
    (hk : Gave s n k) (hk' : Gave s n k') : k = k' := by
  have key : (∀ k, find s.table n = some k → ∀ i, ¬ Inserting s n i) ∧ (∀ k, Gave s n k → find s.table n = some k) := by
    clear hk hk'
    generalize hs : start gs = s₀ at h
    induction h with
    | refl =>
      subst hs
      refine ⟨fun k h => by simp [start, find] at h, fun k ⟨t, ht, hm⟩ => ?_⟩
      simp only [start, List.mem_map] at ht
      obtain ⟨g, _, rfl⟩ := ht; cases hm
    | tail hst h2 hP ih =>
      obtain ⟨ih1, ih2⟩ := ih
      obtain ⟨i, m, ns, done, ⟨ht, ⟨k, hk, rfl⟩ | ⟨hk, rfl⟩⟩ | ⟨ht, rfl⟩⟩ := exec_cases h2
      · refine ⟨fun k' hf j => ?_, fun k' hg => ?_⟩
        · rintro ⟨t, hj, hmi⟩
          rcases get_set ht hj with ⟨rfl, rfl⟩ | ⟨_, hj⟩
          · cases hmi
          · exact ih1 _ hf j ⟨t, hj, hmi⟩
        · rcases gave_set ht hg with hg | hm
          · exact ih2 _ hg
          · rcases List.mem_append.mp hm with hm | hm
            · exact ih2 _ ⟨_, List.mem_of_getElem? ht, hm⟩
            · simp at hm; obtain ⟨rfl, rfl⟩ := hm; exact hk
      · refine ⟨fun k' hf j => ?_, fun k' hg => ?_⟩
        · rintro ⟨t, hj, hmi⟩
          rcases get_set ht hj with ⟨rfl, rfl⟩ | ⟨_, hj⟩
          · simp only [Option.some.injEq] at hmi; subst hmi; dsimp only at hf; rw [hk] at hf; cases hf
          · exact ih1 _ hf j ⟨t, hj, hmi⟩
        · rcases gave_set ht hg with hg | hm
          · exact ih2 _ hg
          · exact ih2 _ ⟨_, List.mem_of_getElem? ht, hm⟩
      · by_cases hmn : m = n
        · subst hmn
          have hnone : ∀ k', ¬ find _ m = some k' := fun k' hf => ih1 k' hf i ⟨_, ht, rfl⟩
          refine ⟨fun k' hf j => ?_, fun k' hg => ?_⟩
          · rintro ⟨t, hj, hmi⟩
            rcases get_set ht hj with ⟨rfl, rfl⟩ | ⟨hne, hj⟩
            · cases hmi
            · exact hne (last hst _ _ ⟨t, hj, hmi⟩ ⟨_, ht, rfl⟩)
          · rcases gave_set ht hg with hg | hm
            · exact absurd (ih2 _ hg) (hnone _)
            · rcases List.mem_append.mp hm with hm | hm
              · exact absurd (ih2 _ ⟨_, List.mem_of_getElem? ht, hm⟩) (hnone _)
              · simp at hm; subst hm; dsimp only; rw [find_cons, if_pos rfl]
        · refine ⟨fun k' hf j => ?_, fun k' hg => ?_⟩
          · dsimp only at hf; rw [find_cons, if_neg hmn] at hf
            rintro ⟨t, hj, hmi⟩
            rcases get_set ht hj with ⟨rfl, rfl⟩ | ⟨_, hj⟩
            · cases hmi
            · exact ih1 _ hf j ⟨t, hj, hmi⟩
          · dsimp only; rw [find_cons, if_neg hmn]
            rcases gave_set ht hg with hg | hm
            · exact ih2 _ hg
            · rcases List.mem_append.mp hm with hm | hm
              · exact ih2 _ ⟨_, List.mem_of_getElem? ht, hm⟩
              · simp at hm; exact absurd hm.1.symm hmn
  have h1 := key.2 k hk
  rw [key.2 k' hk'] at h1; cases h1; rfl

/-- With one goroutine all calls for a name give the same object. -/
theorem C49_sequential {g : List String} {P : State → Prop} {s : State} (h : Steps P (start [g]) s) {n : String} {k k' : Nat}
    (hk : Gave s n k) (hk' : Gave s n k') : k = k' := by
  refine C49_alone_partial (gs := [g]) (n := n) ?_ hk hk'
  clear hk hk'
  have hl : ∀ s, Steps P (start [g]) s → s.threads.length = 1 := by
    intro s h
    generalize hs : start [g] = s₀ at h
    induction h with
    | refl => subst hs; rfl
    | tail _ h2 _ ih =>
      obtain ⟨i, m, ns, done, ⟨ht, ⟨k, hk, rfl⟩ | ⟨hk, rfl⟩⟩ | ⟨ht, rfl⟩⟩ := exec_cases h2 <;> simpa using ih
  have hP : ∀ s, Steps P (start [g]) s → ∀ i j, Inserting s n i → Inserting s n j → i = j := by
    rintro s h i j ⟨_, h1, _⟩ ⟨_, h2, _⟩
    have := lt_of_get h1; have := lt_of_get h2; have := hl s h; omega
  generalize hs : start [g] = s₀ at h
  induction h with
  | refl hp => subst hs; exact .refl (hP _ (.refl hp))
  | tail hst h2 hp ih => subst hs; exact .tail ih h2 (hP _ (.tail hst h2 hp))

/-- Once `n` is interned and nobody is about to insert it, every later call for `n` gives that object, whatever the
interleaving. -/
theorem C49_settled {P : State → Prop} {s s' : State} {n : String} {k : Nat} (hf : find s.table n = some k)
    (hi : ∀ i, ¬ Inserting s n i) (h : Steps P s s') {k' : Nat} (hg : Gave s' n k') : k' = k ∨ Gave s n k' := by
  have key : find s'.table n = some k ∧ (∀ i, ¬ Inserting s' n i) ∧ ∀ k', Gave s' n k' → k' = k ∨ Gave s n k' := by
    clear hg
    induction h with
    | refl => exact ⟨hf, hi, fun _ h => .inr h⟩
    | tail hst h2 _ ih =>
      obtain ⟨ih0, ih1, ih2⟩ := ih
      obtain ⟨i, m, ns, done, ⟨ht, ⟨j, hk, rfl⟩ | ⟨hk, rfl⟩⟩ | ⟨ht, rfl⟩⟩ := exec_cases h2
      · refine ⟨ih0, fun j => ?_, fun k' hg => ?_⟩
        · rintro ⟨t, hj, hmi⟩
          rcases get_set ht hj with ⟨rfl, rfl⟩ | ⟨_, hj⟩
          · cases hmi
          · exact ih1 j ⟨t, hj, hmi⟩
        · rcases gave_set ht hg with hg | hm
          · exact ih2 _ hg
          · rcases List.mem_append.mp hm with hm | hm
            · exact ih2 _ ⟨_, List.mem_of_getElem? ht, hm⟩
            · simp at hm; obtain ⟨rfl, rfl⟩ := hm; rw [ih0] at hk; cases hk; exact .inl rfl
      · refine ⟨ih0, fun j => ?_, fun k' hg => ?_⟩
        · rintro ⟨t, hj, hmi⟩
          rcases get_set ht hj with ⟨rfl, rfl⟩ | ⟨_, hj⟩
          · simp only [Option.some.injEq] at hmi; subst hmi; rw [ih0] at hk; cases hk
          · exact ih1 j ⟨t, hj, hmi⟩
        · rcases gave_set ht hg with hg | hm
          · exact ih2 _ hg
          · exact ih2 _ ⟨_, List.mem_of_getElem? ht, hm⟩
      · have hmn : m ≠ n := fun e => ih1 i ⟨_, ht, by rw [e]⟩
        refine ⟨by dsimp only; rw [find_cons, if_neg hmn]; exact ih0, fun j => ?_, fun k' hg => ?_⟩
        · rintro ⟨t, hj, hmi⟩
          rcases get_set ht hj with ⟨rfl, rfl⟩ | ⟨_, hj⟩
          · cases hmi
          · exact ih1 j ⟨t, hj, hmi⟩
        · rcases gave_set ht hg with hg | hm
          · exact ih2 _ hg
          · rcases List.mem_append.mp hm with hm | hm
            · exact ih2 _ ⟨_, List.mem_of_getElem? ht, hm⟩
            · simp at hm; exact absurd hm.1.symm hmn
  exact key.2.2 k' hg

/-- Every call ends: a goroutine with something to intern can always take a step. -/
theorem C49_progress {s : State} {i : Nat} {t : Thread} (ht : s.threads[i]? = some t) (h : t.missed ≠ none ∨ t.todo ≠ []) :
    ∃ a s', (a = .look i ∨ a = .insert i) ∧ exec s a = some s' := by
  obtain ⟨m, td, dn⟩ := t
  cases m with
  | some n => exact ⟨.insert i, _, .inr rfl, by simp only [exec, ht]; rfl⟩
  | none =>
    cases td with
    | nil => simp at h
    | cons n ns =>
      cases hf : find s.table n with
      | some k => exact ⟨.look i, _, .inl rfl, by simp only [exec, ht, hf]; rfl⟩
      | none => exact ⟨.look i, _, .inl rfl, by simp only [exec, ht, hf]; rfl⟩

private def sched : State → List Action → Option State
  | s, [] => some s
  | s, a :: as => (exec s a).bind fun s' => sched s' as

private theorem sched_steps : ∀ (l : List Action) {s₀ s s' : State}, Steps (fun _ => True) s₀ s → sched s l = some s' →
    Steps (fun _ => True) s₀ s'
  | [], s₀, s, s', h0, h => by simp only [sched, Option.some.injEq] at h; subst h; exact h0
  | a :: as, s₀, s, s', h0, h => by
    simp only [sched, Option.bind_eq_some_iff] at h
    obtain ⟨s₁, h1, h2⟩ := h
    exact sched_steps as (h0.tail h1 trivial) h2

/-- Two goroutines that intern a new name at the same time can get different objects: the second insertion does not look
again whether the first one made the symbol.  A later call gives the second object. -/
theorem C49_violation : ∃ s, Steps (fun _ => True) (start [["x", "x"], ["x"]]) s ∧
    s.threads.map (·.done) = [[("x", 0), ("x", 1)], [("x", 1)]] ∧ s.made = ["x", "x"] :=
  ⟨_, sched_steps [.look 0, .look 1, .insert 0, .insert 1, .look 0] (.refl trivial) rfl, rfl, rfl⟩

/-- Three calls by two goroutines with no such overlap. -/
example : ∃ s, Steps (fun _ => True) (start [["x", "y"], ["x"]]) s ∧
    s.threads.map (·.done) = [[("x", 0), ("y", 1)], [("x", 0)]] :=
  ⟨_, sched_steps [.look 0, .insert 0, .look 0, .look 1, .insert 0] (.refl trivial) rfl, rfl⟩

end Golisp.Props
