import Verif.Atomic
/-
Property C56: the atomic primitives under concurrency.
-/
namespace Golisp.Props
open Golisp Data Spec Atomics

private theorem put_eq (m : Mem) (a : Nat) (v : Word) : put m a v = fun b => if b = a then v else m b := rfl

/-- A call is at most one instruction, with the effect it has alone. -/
private theorem code_spec (m : Mem) (c : Call) :
    (∃ o, code c = .ret o ∧ effect m c = (o, m)) ∨
    (∃ o m', (∀ o', code c ≠ .ret o') ∧ exec m (code c) = some (.ret o, m') ∧ effect m c = (o, m')) := by
  have hp : ∀ d, pointer d = none ∨ ∃ a, d = .atom (.obj "Atomic" a) ∧ pointer d = some a := by
    intro d
    cases d with
    | atom at' =>
      cases at' with
      | obj ty a =>
        by_cases h : ty = "Atomic"
        · subst h; exact .inr ⟨a, rfl, by simp [pointer]⟩
        · exact .inl (by simp [pointer, h])
      | _ => exact .inl rfl
    | _ => exact .inl rfl
  have hi : ∀ d, isInt d = false ∨ ∃ n, d = .int n := by
    intro d
    cases d with
    | atom at' => cases at' with
      | int n => exact .inr ⟨n, rfl⟩
      | _ => exact .inl rfl
    | _ => exact .inl rfl
  cases c with
  | load obj =>
    rcases hp obj with h | ⟨a, rfl, h⟩
    · refine .inl ⟨_, by simp [code, atomicLoad, h]; rfl, ?_⟩
      clear hp hi; unfold effect; split <;> first | rfl | (rename_i he; cases he; simp [pointer] at h; done) | (rename_i he _; cases he; simp [pointer] at h; done) | simp_all [pointer]
    · exact .inr ⟨.ok (.int (m a)), m, by simp [code, atomicLoad, h], by simp [code, atomicLoad, h, exec], by simp [effect]⟩
  | store obj v =>
    rcases hp obj with h | ⟨a, rfl, h⟩
    · refine .inl ⟨_, by simp [code, atomicStore, h]; rfl, ?_⟩
      clear hp hi; unfold effect; split <;> first | rfl | (rename_i he; cases he; simp [pointer] at h; done) | (rename_i he _; cases he; simp [pointer] at h; done) | simp_all [pointer]
    · rcases hi v with h' | ⟨n, rfl⟩
      · refine .inl ⟨_, by simp [code, atomicStore, h, h']; rfl, ?_⟩
        clear hp hi; unfold effect; split <;> first | (rename_i hx he; cases he; exact (hx _ rfl).elim) | (rename_i he; cases he <;> first | rfl | (simp [isInt] at h'; done) | (simp [isInt] at h''; done))
      · exact .inr ⟨.ok .null, _, by simp [code, atomicStore, h, isInt],
          by simp [code, atomicStore, h, exec, isInt, put_eq, intValue]; rfl, by simp [effect]⟩
  | add obj v =>
    rcases hp obj with h | ⟨a, rfl, h⟩
    · refine .inl ⟨_, by simp [code, atomicAdd, h]; rfl, ?_⟩
      clear hp hi; unfold effect; split <;> first | rfl | (rename_i he; cases he; simp [pointer] at h; done) | (rename_i he _; cases he; simp [pointer] at h; done) | simp_all [pointer]
    · rcases hi v with h' | ⟨n, rfl⟩
      · refine .inl ⟨_, by simp [code, atomicAdd, h, h']; rfl, ?_⟩
        clear hp hi; unfold effect; split <;> first | (rename_i hx he; cases he; exact (hx _ rfl).elim) | (rename_i he; cases he <;> first | rfl | (simp [isInt] at h'; done) | (simp [isInt] at h''; done))
      · exact .inr ⟨.ok (.int (m a + n)), _, by simp [code, atomicAdd, h, isInt],
          by simp [code, atomicAdd, h, exec, isInt, put_eq, intValue]; rfl, by simp [effect]⟩
  | swap obj v =>
    rcases hp obj with h | ⟨a, rfl, h⟩
    · refine .inl ⟨_, by simp [code, atomicSwap, h]; rfl, ?_⟩
      clear hp hi; unfold effect; split <;> first | rfl | (rename_i he; cases he; simp [pointer] at h; done) | (rename_i he _; cases he; simp [pointer] at h; done) | simp_all [pointer]
    · rcases hi v with h' | ⟨n, rfl⟩
      · refine .inl ⟨_, by simp [code, atomicSwap, h, h']; rfl, ?_⟩
        clear hp hi; unfold effect; split <;> first | (rename_i hx he; cases he; exact (hx _ rfl).elim) | (rename_i he; cases he <;> first | rfl | (simp [isInt] at h'; done) | (simp [isInt] at h''; done))
      · exact .inr ⟨.ok (.int (m a)), _, by simp [code, atomicSwap, h, isInt],
          by simp [code, atomicSwap, h, exec, isInt, put_eq, intValue]; rfl, by simp [effect]⟩
  | cas obj v w =>
    rcases hp obj with h | ⟨a, rfl, h⟩
    · refine .inl ⟨_, by simp [code, atomicCas, h]; rfl, ?_⟩
      clear hp hi; unfold effect; split <;> first | rfl | (rename_i he; cases he; simp [pointer] at h; done) | (rename_i he _; cases he; simp [pointer] at h; done) | simp_all [pointer]
    · rcases hi v with h' | ⟨n, rfl⟩
      · refine .inl ⟨_, by simp [code, atomicCas, h, h']; rfl, ?_⟩
        clear hp hi; unfold effect; split <;> first | (rename_i hx he; cases he; exact (hx _ rfl).elim) | (rename_i he; cases he <;> first | rfl | (simp [isInt] at h'; done) | (simp [isInt] at h''; done))
      · rcases hi w with h'' | ⟨k, rfl⟩
        · refine .inl ⟨_, by simp [code, atomicCas, h, isInt] at h'' ⊢; simp [h'']; rfl, ?_⟩
          clear hp hi; unfold effect; split <;> first | (rename_i hx he; cases he; exact (hx _ rfl).elim) | (rename_i he; cases he <;> first | rfl | (simp [isInt] at h'; done) | (simp [isInt] at h''; done))
        · refine .inr ⟨.ok (.bool (decide (m a = n))), _, by simp [code, atomicCas, h, isInt], ?_, by simp [effect]; rfl⟩
          by_cases hm : m a = n
          · simp [code, atomicCas, h, exec, isInt, put_eq, intValue, hm]
          · simp [code, atomicCas, h, exec, isInt, intValue, hm]

private theorem inOrder_snoc (i : Nat) (c : Call) : ∀ (m : Mem) (l : List (Nat × Call)),
    inOrder m (l ++ [(i, c)]) =
      ((inOrder m l).1 ++ [(i, (effect (inOrder m l).2 c).1)], (effect (inOrder m l).2 c).2)
  | m, [] => rfl
  | m, (j, c') :: l => by
    simp only [List.cons_append, inOrder]
    rw [inOrder_snoc i c (effect m c').2 l]

private theorem ofThread_snoc {α : Type} (i j : Nat) (x : α) (l : List (Nat × α)) :
    ofThread i (l ++ [(j, x)]) = if j = i then ofThread i l ++ [x] else ofThread i l := by
  simp only [ofThread, List.filter_append, List.map_append]
  by_cases h : j = i <;> simp [h]

/-- How far a goroutine is, given which of its calls have taken effect and with which results. -/
private def At (cs lin : List Call) (outs : List (Out Data)) (t : Thread) : Prop :=
  (t.cur = none ∧ cs = lin ++ t.todo ∧ t.results = outs) ∨
  (∃ c, t.cur = some (code c) ∧ cs = lin ++ c :: t.todo ∧ t.results = outs) ∨
  (∃ o, t.cur = some (.ret o) ∧ cs = lin ++ t.todo ∧ t.results ++ [o] = outs)

private structure Inv (m : Mem) (calls : List (List Call)) (s : State) (order : List (Nat × Call)) : Prop where
  mem : s.mem = (inOrder m order).2
  len : s.threads.length = calls.length
  idx : ∀ p ∈ order, p.1 < calls.length
  thr : ∀ (i : Nat) (t : Thread), s.threads[i]? = some t → ∃ cs : List Call, calls[i]? = some cs ∧
    At cs (ofThread i order) (ofThread i (inOrder m order).1) t

private theorem inv_step {m calls s s' order} (hi : Inv m calls s order) (hs : Step s s') :
    ∃ order', order <+: order' ∧ Inv m calls s' order' := by
  cases hs with
  | mk ht hn =>
  rename_i m₀ ts i t t' m₁
  have hlt : i < ts.length := (List.getElem?_eq_some_iff.1 ht).1
  obtain ⟨cs, hcs, hat⟩ := hi.thr i t ht
  -- a step that does not take effect
  have silent : m₁ = m₀ → At cs (ofThread i order) (ofThread i (inOrder m order).1) t' →
      ∃ order', order <+: order' ∧ Inv m calls ⟨m₁, ts.set i t'⟩ order' := by
    rintro rfl hat'
    refine ⟨order, List.prefix_refl _, hi.mem, by simpa using hi.len, hi.idx, fun j u hu => ?_⟩
    by_cases hj : i = j
    · subst hj
      rw [List.getElem?_set_self hlt] at hu
      cases hu
      exact ⟨cs, hcs, hat'⟩
    · rw [List.getElem?_set_ne hj] at hu
      exact hi.thr j u hu
  -- a step by which call `c` takes effect
  have takes : ∀ c, m₁ = (effect m₀ c).2 →
      At cs (ofThread i order ++ [c]) (ofThread i (inOrder m order).1 ++ [(effect m₀ c).1]) t' →
      ∃ order', order <+: order' ∧ Inv m calls ⟨m₁, ts.set i t'⟩ order' := by
    intro c hm hat'
    have hmem : m₀ = (inOrder m order).2 := hi.mem
    refine ⟨order ++ [(i, c)], List.prefix_append _ _, ?_, by simpa using hi.len, ?_, fun j u hu => ?_⟩
    · show m₁ = _
      rw [inOrder_snoc, ← hmem, hm]
    · intro p hp
      rcases List.mem_append.1 hp with hp | hp
      · exact hi.idx p hp
      · simp at hp; subst hp
        have := hi.len
        simp only at this ⊢
        omega
    · rw [inOrder_snoc, ofThread_snoc, ofThread_snoc, ← hmem]
      by_cases hj : i = j
      · subst hj
        rw [List.getElem?_set_self hlt] at hu
        cases hu
        simp only [if_true]
        exact ⟨cs, hcs, hat'⟩
      · rw [List.getElem?_set_ne hj] at hu
        simp only [hj, if_false]
        exact hi.thr j u hu
  obtain ⟨cur, todo, results⟩ := t
  rcases hat with ⟨h1, h2, h3⟩ | ⟨c, h1, h2, h3⟩ | ⟨o, h1, h2, h3⟩
  · simp only at h1 h2 h3
    subst h1
    cases todo with
    | nil => simp [Thread.next] at hn
    | cons c todo =>
      simp only [Thread.next, Option.some.injEq, Prod.mk.injEq] at hn
      obtain ⟨rfl, rfl⟩ := hn
      exact silent rfl (.inr (.inl ⟨c, rfl, h2, h3⟩))
  · simp only at h1 h2 h3
    subst h1
    rcases code_spec m₀ c with ⟨o, hc, he⟩ | ⟨o, m', hne, hx, he⟩
    · simp only [Thread.next, hc, Option.some.injEq, Prod.mk.injEq] at hn
      obtain ⟨rfl, rfl⟩ := hn
      refine takes c (by rw [he]) (.inl ⟨rfl, by simp [h2], by simp [he, h3]⟩)
    · have : Thread.next m₀ ⟨some (code c), todo, results⟩ = some (⟨some (.ret o), todo, results⟩, m') := by
        generalize code c = k at hne hx ⊢
        cases k with
        | ret o' => exact (hne o' rfl).elim
        | _ => simp [Thread.next, hx]
      rw [this] at hn
      simp only [Option.some.injEq, Prod.mk.injEq] at hn
      obtain ⟨rfl, rfl⟩ := hn
      exact takes c (by rw [he]) (.inr (.inr ⟨o, rfl, by simp [h2], by simp [he, h3]⟩))
  · simp only at h1 h2 h3
    subst h1
    simp only [Thread.next, Option.some.injEq, Prod.mk.injEq] at hn
    obtain ⟨rfl, rfl⟩ := hn
    exact silent rfl (.inl ⟨rfl, h2, h3⟩)

private theorem inv_start (m : Mem) (calls : List (List Call)) : Inv m calls (start m calls) [] := by
  refine ⟨rfl, by simp [start], by simp, fun i t ht => ?_⟩
  simp only [start, List.getElem?_map, Option.map_eq_some_iff] at ht
  obtain ⟨cs, hcs, rfl⟩ := ht
  exact ⟨cs, hcs, .inl ⟨rfl, by simp [ofThread], by simp [ofThread, inOrder]⟩⟩

private theorem inv_run {m calls} {run : Nat → State} (h0 : run 0 = start m calls) : ∀ n, (∀ k, k < n → Step (run k) (run (k + 1))) →
    ∃ ord : Nat → List (Nat × Call), (∀ k, k ≤ n → Inv m calls (run k) (ord k)) ∧ ∀ k, k < n → ord k <+: ord (k + 1)
  | 0, _ => ⟨fun _ => [], fun k hk => by
      have : k = 0 := by omega
      subst this; rw [h0]; exact inv_start m calls, fun k hk => by omega⟩
  | n + 1, hs => by
    obtain ⟨ord, h1, h2⟩ := inv_run h0 n fun k hk => hs k (by omega)
    obtain ⟨o, hp, ho⟩ := inv_step (h1 n (Nat.le_refl _)) (hs n (by omega))
    refine ⟨fun k => if k = n + 1 then o else ord k, fun k hk => ?_, fun k hk => ?_⟩
    · by_cases hk' : k = n + 1
      · subst hk'; simpa using ho
      · simp only [hk', if_false]; exact h1 k (by omega)
    · by_cases hk' : k = n
      · subst hk'
        have : ¬ k = k + 1 := by omega
        simp only [this, if_false, if_true]; exact hp
      · have e1 : ¬ k = n + 1 := by omega
        have e2 : ¬ k + 1 = n + 1 := by omega
        simp only [e1, e2, if_false]; exact h2 k (by omega)

private theorem at_counts {cs lin outs t} (h : At cs lin outs t) (hl : outs.length = lin.length) :
    t.results.length ≤ lin.length ∧ lin.length ≤ t.results.length + (if t.cur.isSome then 1 else 0) := by
  rcases h with ⟨h1, _, h3⟩ | ⟨c, h1, _, h3⟩ | ⟨o, h1, _, h3⟩
  · rw [h1, h3]; simp; omega
  · rw [h1, h3]; simp; omega
  · have := congrArg List.length h3
    simp at this
    rw [h1]; simp; omega

private theorem inOrder_tags : ∀ (m : Mem) (l : List (Nat × Call)), (inOrder m l).1.map (·.1) = l.map (·.1)
  | _, [] => rfl
  | m, (i, c) :: l => by simp only [inOrder, List.map_cons]; rw [inOrder_tags]

private theorem ofThread_length {α β : Type} (i : Nat) : ∀ (l : List (Nat × α)) (l' : List (Nat × β)),
    l.map (·.1) = l'.map (·.1) → (ofThread i l).length = (ofThread i l').length
  | [], [], _ => rfl
  | [], _ :: _, h => by simp at h
  | _ :: _, [], h => by simp at h
  | (a, x) :: l, (b, y) :: l', h => by
    simp only [List.map_cons, List.cons.injEq] at h
    obtain ⟨rfl, h⟩ := h
    have := ofThread_length i l l' h
    simp only [ofThread, List.length_map] at this
    by_cases hi : a = i
    · subst hi; simp [ofThread, this]
    · have : (a == i) = false := by simpa using hi
      simp_all [ofThread]

private theorem steps_run {s₀ s : State} (h : Steps s₀ s) : ∃ (run : Nat → State) (n : Nat),
    run 0 = s₀ ∧ run n = s ∧ ∀ k, k < n → Step (run k) (run (k + 1)) := by
  induction h with
  | refl => exact ⟨fun _ => s₀, 0, rfl, rfl, fun k hk => by omega⟩
  | @tail s' s'' _ h2 ih =>
    obtain ⟨run, n, r1, r2, r3⟩ := ih
    refine ⟨fun k => if k = n + 1 then s'' else run k, n + 1, by simp [r1], by simp, fun k hk => ?_⟩
    by_cases hk' : k = n
    · subst hk'
      have : ¬ k = k + 1 := by omega
      simp only [this, if_false, if_true]; rw [r2]; exact h2
    · have e1 : ¬ k = n + 1 := by omega
      have e2 : ¬ k + 1 = n + 1 := by omega
      simp only [e1, e2, if_false]; exact r3 k (by omega)

/-- C56: the atomic primitives are linearizable.  In every execution of any goroutines, each making any calls, there is
an order of all the calls such that making them one after the other in that order gives every goroutine the same
results and leaves the same memory.  The order keeps the order of the calls of each goroutine and their order in time:
the calls that are before point `pos k` of the order are, after `k` steps of the execution, those that have returned
and some of those that are running. -/
theorem C56_linearizable {m : Mem} {calls : List (List Call)} {run : Nat → State} {n : Nat} (h0 : run 0 = start m calls)
    (hs : ∀ k, k < n → Step (run k) (run (k + 1))) (hd : (run n).Done) :
    ∃ (order : List (Nat × Call)) (pos : Nat → Nat), (run n).mem = (inOrder m order).2 ∧
      (run n).threads.length = calls.length ∧ (∀ p ∈ order, p.1 < calls.length) ∧
      (∀ (i : Nat) (t : Thread) (cs : List Call), (run n).threads[i]? = some t → calls[i]? = some cs →
        ofThread i order = cs ∧ t.results = ofThread i (inOrder m order).1) ∧
      ∀ k, k ≤ n → ∀ (i : Nat) (t : Thread), (run k).threads[i]? = some t →
        t.results.length ≤ (ofThread i (order.take (pos k))).length ∧
        (ofThread i (order.take (pos k))).length ≤ t.results.length + (if t.cur.isSome then 1 else 0) := by
  obtain ⟨ord, h1, h2⟩ := inv_run h0 n hs
  have ho := h1 n (Nat.le_refl n)
  refine ⟨ord n, fun k => (ord k).length, ho.mem, ho.len, ho.idx, fun i t cs ht hcs => ?_, fun k hk i t ht => ?_⟩
  · obtain ⟨cs', hcs', hat⟩ := ho.thr i t ht
    rw [hcs] at hcs'; cases hcs'
    obtain ⟨hd1, hd2⟩ := hd t (List.mem_of_getElem? ht)
    rcases hat with ⟨_, h2, h3⟩ | ⟨c, h1, _⟩ | ⟨o, h1, _⟩
    · rw [hd2] at h2
      exact ⟨by simpa using h2.symm, h3⟩
    · rw [hd1] at h1; cases h1
    · rw [hd1] at h1; cases h1
  · have hpre : ∀ d k, k + d ≤ n → ord k <+: ord (k + d) := by
      intro d
      induction d with
      | zero => intro k _; exact List.prefix_refl _
      | succ d ih => intro k hk; exact (ih k (by omega)).trans (h2 (k + d) (by omega))
    have hp := hpre (n - k) k (by omega)
    rw [show k + (n - k) = n by omega] at hp
    rw [← List.prefix_iff_eq_take.1 hp]
    obtain ⟨cs, _, hat⟩ := (h1 k hk).thr i t ht
    exact at_counts hat (ofThread_length i _ _ (inOrder_tags m (ord k)))

private theorem linear {m : Mem} {calls : List (List Call)} {s : State} (h : Steps (start m calls) s) (hd : s.Done) :
    ∃ order : List (Nat × Call), s.mem = (inOrder m order).2 ∧ s.threads.length = calls.length ∧
      (∀ p ∈ order, p.1 < calls.length) ∧
      ∀ (i : Nat) (t : Thread) (cs : List Call), s.threads[i]? = some t → calls[i]? = some cs →
        ofThread i order = cs ∧ t.results = ofThread i (inOrder m order).1 := by
  obtain ⟨run, n, r1, rfl, r3⟩ := steps_run h
  obtain ⟨order, _, a1, a2, a3, a4, _⟩ := C56_linearizable r1 r3 hd
  exact ⟨order, a1, a2, a3, a4⟩

/-- Collecting the entries goroutine by goroutine only reorders them. -/
private theorem flatMap_perm {α : Type} : ∀ (idx : List Nat) (l : List (Nat × α)), idx.Nodup → (∀ p ∈ l, p.1 ∈ idx) →
    (idx.flatMap fun i => ofThread i l).Perm (l.map (·.2)) := by
  intro idx l hn
  induction l with
  | nil => intro _; simp [ofThread]
  | cons p l ih =>
    intro hp
    obtain ⟨j, x⟩ := p
    have hj : j ∈ idx := hp (j, x) (by simp)
    have ih' := ih fun q hq => hp q (by simp [hq])
    have key : ∀ (idx : List Nat), idx.Nodup → j ∈ idx →
        (idx.flatMap fun i => ofThread i ((j, x) :: l)).Perm (x :: idx.flatMap fun i => ofThread i l) := by
      intro idx
      induction idx with
      | nil => intro _ h; cases h
      | cons i idx ih2 =>
        intro hnd hm
        rw [List.nodup_cons] at hnd
        simp only [List.flatMap_cons]
        by_cases hij : j = i
        · subst hij
          have h1 : ofThread j ((j, x) :: l) = x :: ofThread j l := by simp [ofThread]
          have h2 : (idx.flatMap fun i => ofThread i ((j, x) :: l)) = idx.flatMap fun i => ofThread i l := by
            have h3 : ∀ idx : List Nat, j ∉ idx → (idx.flatMap fun i => ofThread i ((j, x) :: l)) =
                idx.flatMap fun i => ofThread i l := by
              intro idx
              induction idx with
              | nil => intro _; rfl
              | cons k idx ih3 =>
                intro hk
                simp only [List.mem_cons, not_or] at hk
                simp only [List.flatMap_cons, ih3 hk.2]
                congr 1
                have : (j == k) = false := by simpa using hk.1
                simp [ofThread, this]
            exact h3 idx hnd.1
          rw [h1, h2]; exact List.Perm.refl _
        · have hm' : j ∈ idx := by
            rcases List.mem_cons.1 hm with h | h
            · exact (hij h).elim
            · exact h
          have h1 : ofThread i ((j, x) :: l) = ofThread i l := by
            have : (j == i) = false := by simpa using hij
            simp [ofThread, this]
          rw [h1]
          refine ((ih2 hnd.2 hm').append_left _).trans ?_
          exact List.perm_middle
    exact (key idx hn hj).trans (List.Perm.cons x ih')

private theorem flatMap_range {α : Type} {l : List (List α)} {o : List (Nat × α)} (hidx : ∀ p ∈ o, p.1 < l.length)
    (h : ∀ i x, l[i]? = some x → ofThread i o = x) : (o.map (·.2)).Perm l.flatten := by
  have h1 := flatMap_perm (List.range l.length) o List.nodup_range (fun p hp => List.mem_range.2 (hidx p hp))
  refine h1.symm.trans ?_
  have : ((List.range l.length).flatMap fun i => ofThread i o) = l.flatten := by
    rw [List.flatMap_def]
    congr 1
    apply List.ext_getElem?
    intro i
    rw [List.getElem?_map]
    by_cases hi : i < l.length
    · rw [List.getElem?_range hi, List.getElem?_eq_getElem hi]
      simp [h i _ (List.getElem?_eq_getElem hi)]
    · rw [List.getElem?_eq_none (by simpa using hi), List.getElem?_eq_none (by simpa using hi)]
      rfl
  rw [this]

private theorem sum_perm {l l' : List (BitVec 64)} (h : l.Perm l') : l.sum = l'.sum := by
  induction h with
  | nil => rfl
  | cons x _ ih => simp [ih]
  | swap x y l => simp only [List.sum_cons]; rw [← BitVec.add_assoc, ← BitVec.add_assoc, BitVec.add_comm y x]
  | trans _ _ h1 h2 => exact h1.trans h2

/-- C56: when only `atomic-add!` is used on an atomic, no addition is lost: the final value is the initial value plus
the sum of everything added, modulo 2^64. -/
theorem C56_adds {m : Mem} {a : Nat} {ds : List (List (BitVec 64))} {s : State}
    (h : Steps (start m (ds.map fun l => l.map fun d => Call.add (.atom (.obj "Atomic" a)) (.int d))) s) (hd : s.Done) :
    s.mem a = m a + ds.flatten.sum := by
  obtain ⟨order, h1, h2, h3, h4⟩ := linear h hd
  rw [h1]
  have key : ∀ (order : List (Nat × Call)) (l : List (BitVec 64)) (m : Mem),
      order.map (·.2) = l.map (fun d => Call.add (.atom (.obj "Atomic" a)) (.int d)) →
      (inOrder m order).2 a = m a + l.sum := by
    intro order
    induction order with
    | nil =>
      intro l m hl
      cases l with
      | nil => simp [inOrder]
      | cons _ _ => simp at hl
    | cons p order ih =>
      intro l m hl
      cases l with
      | nil => simp at hl
      | cons d l =>
        obtain ⟨i, c⟩ := p
        simp only [List.map_cons, List.cons.injEq] at hl
        obtain ⟨rfl, hl⟩ := hl
        simp only [inOrder, effect]
        rw [ih l _ hl]
        simp [BitVec.add_assoc]
  have hperm : (order.map (·.2)).Perm
      (ds.map fun l => l.map fun d => Call.add (.atom (.obj "Atomic" a)) (.int d)).flatten := by
    refine flatMap_range h3 fun i x hx => ?_
    have hlt : i < s.threads.length := by
      rw [h2]; exact (List.getElem?_eq_some_iff.1 hx).1
    exact (h4 i _ x (List.getElem?_eq_getElem hlt) hx).1
  rw [← List.map_flatten] at hperm
  -- the order is a list of additions of a permutation of the addends
  have hex : ∀ (o : List Call) (l : List (BitVec 64)), o.Perm (l.map fun d => Call.add (.atom (.obj "Atomic" a)) (.int d)) →
      ∃ l' : List (BitVec 64), o = l'.map (fun d => Call.add (.atom (.obj "Atomic" a)) (.int d)) ∧ l'.Perm l := by
    intro o l hp
    let un : Call → BitVec 64 := fun c => match c with | .add _ d => intValue d | _ => 0
    refine ⟨o.map un, ?_, ?_⟩
    · rw [List.map_map]
      have : ∀ o' : List Call, (∀ c ∈ o', c ∈ o) → o' =
          o'.map ((fun d => Call.add (.atom (.obj "Atomic" a)) (.int d)) ∘ un) := by
        intro o' hm
        induction o' with
        | nil => rfl
        | cons c o' ih =>
          have hc := hp.mem_iff.1 (hm c (by simp))
          obtain ⟨d, _, rfl⟩ := List.mem_map.1 hc
          rw [List.map_cons, ← ih fun c' hc' => hm c' (by simp [hc'])]
          rfl
      exact this o fun _ h => h
    · have := hp.map un
      rwa [List.map_map, show (un ∘ fun d => Call.add (.atom (.obj "Atomic" a)) (.int d)) = id from rfl, List.map_id] at this
  obtain ⟨l', e, hp⟩ := hex _ _ hperm
  rw [key order l' m e]
  congr 1
  exact sum_perm hp

private theorem cas_count {a : Nat} {old : Word} : ∀ (order : List (Nat × Call)) (m : Mem),
    (∀ p ∈ order, ∃ new, new ≠ old ∧ p.2 = Call.cas (.atom (.obj "Atomic" a)) (.int old) (.int new)) →
    ((inOrder m order).1.map (·.2)).count (.ok (.bool true)) = if m a = old ∧ order ≠ [] then 1 else 0
  | [], m, _ => by simp [inOrder]
  | (i, c) :: order, m, h => by
    obtain ⟨new, hne, hc⟩ := h (i, c) (by simp)
    simp only at hc
    subst hc
    simp only [inOrder, List.map_cons, List.count_cons]
    rw [cas_count order _ fun p hp => h p (by simp [hp])]
    by_cases hm : m a = old
    · simp [effect, hm, hne]
    · simp [effect, hm]

/-- C56: when goroutines race with `atomic-compare-and-swap!` on one atomic, all expecting the same old value and each
with a new value that differs from it, then exactly one call succeeds if the atomic had the old value (and there was a
call), and none otherwise. -/
theorem C56_cas {m : Mem} {a : Nat} {old : Word} {news : List (List Word)} {s : State}
    (hne : ∀ l ∈ news, ∀ new ∈ l, new ≠ old)
    (h : Steps (start m (news.map fun l => l.map fun new => Call.cas (.atom (.obj "Atomic" a)) (.int old) (.int new))) s)
    (hd : s.Done) :
    ((s.threads.map (·.results)).flatten).count (.ok (.bool true)) = if m a = old ∧ news.flatten ≠ [] then 1 else 0 := by
  obtain ⟨order, h1, h2, h3, h4⟩ := linear h hd
  have hp : (order.map (·.2)).Perm
      (news.map fun l => l.map fun new => Call.cas (.atom (.obj "Atomic" a)) (.int old) (.int new)).flatten := by
    refine flatMap_range h3 fun i x hx => ?_
    have hlt : i < s.threads.length := by
      rw [h2]; exact (List.getElem?_eq_some_iff.1 hx).1
    exact (h4 i _ x (List.getElem?_eq_getElem hlt) hx).1
  rw [← List.map_flatten] at hp
  have hr : ((inOrder m order).1.map (·.2)).Perm (s.threads.map (·.results)).flatten := by
    refine flatMap_range (fun p hp' => ?_) fun i x hx => ?_
    · have : p.1 ∈ order.map (·.1) := by
        rw [← inOrder_tags m order]; exact List.mem_map_of_mem hp'
      obtain ⟨q, hq, e⟩ := List.mem_map.1 this
      rw [List.length_map, h2, ← e]; exact h3 q hq
    · rw [List.getElem?_map, Option.map_eq_some_iff] at hx
      obtain ⟨t, ht, rfl⟩ := hx
      have hlt : i < (news.map fun l => l.map fun new => Call.cas (.atom (.obj "Atomic" a)) (.int old) (.int new)).length := by
        rw [← h2]; exact (List.getElem?_eq_some_iff.1 ht).1
      exact (h4 i t _ ht (List.getElem?_eq_getElem hlt)).2.symm
  have hall : ∀ p ∈ order, ∃ new, new ≠ old ∧ p.2 = Call.cas (.atom (.obj "Atomic" a)) (.int old) (.int new) := by
    intro p hp'
    have := hp.mem_iff.1 (List.mem_map_of_mem (f := (·.2)) hp')
    obtain ⟨new, hn, e⟩ := List.mem_map.1 this
    obtain ⟨l, hl, hnl⟩ := List.mem_flatten.1 hn
    exact ⟨new, hne l hl new hnl, e.symm⟩
  rw [← hr.count_eq, cas_count order m hall]
  have : (order = []) ↔ news.flatten = [] := by
    have := hp.length_eq
    simp only [List.length_map] at this
    rw [← List.length_eq_zero_iff, ← List.length_eq_zero_iff, this]
  simp only [ne_eq, this]

/-! Executions: goroutine numbers in the order they make steps. -/

private def sched : State → List Nat → Option State
  | s, [] => some s
  | s, i :: is =>
    match s.threads[i]? with
    | none => none
    | some t =>
      match t.next s.mem with
      | none => none
      | some (t', m') => sched ⟨m', s.threads.set i t'⟩ is

private theorem sched_steps : ∀ (l : List Nat) {s₀ s s' : State}, Steps s₀ s → sched s l = some s' → Steps s₀ s'
  | [], s₀, s, s', h0, h => by simp only [sched, Option.some.injEq] at h; subst h; exact h0
  | i :: is, s₀, s, s', h0, h => by
    simp only [sched] at h
    split at h
    · cases h
    · rename_i t ht
      split at h
      · cases h
      · rename_i t' m' hn
        exact sched_steps is (h0.tail (.mk ht hn)) h

private theorem done_of {s : State} (h : (s.threads.all fun t => t.cur.isNone && t.todo.isEmpty) = true) : s.Done := by
  intro t ht
  have := List.all_eq_true.1 h t ht
  simpa using this

/-- Two goroutines adding 5, and 7 then 1, to an atomic that holds 10, with interleaved steps. -/
example : ∃ s, Steps (start (fun _ => 10) ([[5], [7, 1]].map fun l => l.map fun d => Call.add (.atom (.obj "Atomic" 3)) (.int d))) s ∧
    s.Done ∧ s.mem 3 = 23 ∧ s.threads.map (·.results) = [[.ok (.int 15)], [.ok (.int 22), .ok (.int 23)]] :=
  ⟨_, sched_steps [1, 0, 0, 1, 1, 1, 0, 1, 1] .refl rfl, done_of rfl,
    by decide, rfl⟩

/-- Two goroutines racing with compare-and-swap: the second wins. -/
example : ∃ s, Steps (start (fun _ => 10)
      ([[11], [12]].map fun l => l.map fun new => Call.cas (.atom (.obj "Atomic" 3)) (.int 10) (.int new))) s ∧
    s.Done ∧ s.mem 3 = 12 ∧ s.threads.map (·.results) = [[.ok (.bool false)], [.ok (.bool true)]] :=
  ⟨_, sched_steps [0, 1, 1, 0, 0, 1] .refl rfl, done_of rfl,
    by decide, rfl⟩

end Golisp.Props
