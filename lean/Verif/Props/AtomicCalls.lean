import Verif.DemoCalls
import Verif.LibraryLemmas
import Verif.Props.Crash
/- C87: the atomic primitives, called from Lisp code. -/
namespace Golisp.Spec
open Golisp Data

/-- The manual: with these words in memory, a call answers this and leaves these words.  An atomic object is the address of
its word. -/
inductive AtomicWork : String → List Data → List (BitVec 64) → Data → List (BitVec 64) → Prop where
  | new {ws} : AtomicWork "atomic" [] ws (.atom (.obj "Atomic" ws.length)) (ws ++ [0])
  | newWith {v ws} : AtomicWork "atomic" [.int v] ws (.atom (.obj "Atomic" ws.length)) (ws ++ [v])
  | load {pre w post} : AtomicWork "atomic-load" [.atom (.obj "Atomic" pre.length)] (pre ++ w :: post) (.int w) (pre ++ w :: post)
  | store {pre w post v} :
      AtomicWork "atomic-store!" [.atom (.obj "Atomic" pre.length), .int v] (pre ++ w :: post) .null (pre ++ v :: post)
  | add {pre w post v w'} : w' = BitVec.ofInt 64 (w.toInt + v.toInt) →
      AtomicWork "atomic-add!" [.atom (.obj "Atomic" pre.length), .int v] (pre ++ w :: post) (.int w') (pre ++ w' :: post)
  | swap {pre w post v} :
      AtomicWork "atomic-swap!" [.atom (.obj "Atomic" pre.length), .int v] (pre ++ w :: post) (.int w) (pre ++ v :: post)
  | hit {pre w post v} :
      AtomicWork "atomic-compare-and-swap!" [.atom (.obj "Atomic" pre.length), .int w, .int v] (pre ++ w :: post) (.bool true)
        (pre ++ v :: post)
  | miss {pre w post o v} : o ≠ w →
      AtomicWork "atomic-compare-and-swap!" [.atom (.obj "Atomic" pre.length), .int o, .int v] (pre ++ w :: post) (.bool false)
        (pre ++ w :: post)

/-- The primitives the manual is about, with the numbers of arguments they take. -/
inductive AtomicPrim : String → Nat → Prop where
  | new {n} : n ≤ 1 → AtomicPrim "atomic" n
  | load : AtomicPrim "atomic-load" 1
  | store : AtomicPrim "atomic-store!" 2
  | add : AtomicPrim "atomic-add!" 2
  | swap : AtomicPrim "atomic-swap!" 2
  | cas : AtomicPrim "atomic-compare-and-swap!" 3

end Golisp.Spec

namespace Golisp.Props
open Golisp Data Ev Spec

variable {C : Conf} {e : Nat} {s s₁ : Store} {d : Data}

set_option maxRecDepth 20000

/-! ### The bodies -/

private def prog (x : String) (args : Data) (e : Nat) : Prog Data :=
  match x with
  | "atomic" => atomicImpl args e
  | "atomic-load" => atomicLoadImpl args e
  | "atomic-store!" => atomicStoreImpl args e
  | "atomic-add!" => atomicAddImpl args e
  | "atomic-swap!" => atomicSwapImpl args e
  | _ => atomicCasImpl args e

private theorem at_call {x : String} {vs : List Data} (hx : AtomicPrim x vs.length) (h : Calling C x vs d e s s₁) :
    ∃ args, Lst args vs ∧ ∀ r t, Evals C d e s r t ↔ ∃ r', r = quoting d r' ∧ RunsP (body C) (prog x args e) s₁ r' t := by
  generalize hn : vs.length = n at hx
  cases hx with
  | new hn1 =>
    refine calling_iff h (spec := "0|1".toList) (impl := atomicImpl) rfl ?_
    rw [hn]
    match n, hn1 with
    | 0, _ => decide
    | 1, _ => decide
  | load => exact calling_iff h (spec := "1".toList) (impl := atomicLoadImpl) rfl (hn ▸ count1)
  | store => exact calling_iff h (spec := "2".toList) (impl := atomicStoreImpl) rfl (hn ▸ count2)
  | add => exact calling_iff h (spec := "2".toList) (impl := atomicAddImpl) rfl (hn ▸ count2)
  | swap => exact calling_iff h (spec := "2".toList) (impl := atomicSwapImpl) rfl (hn ▸ count2)
  | cas => exact calling_iff h (spec := "3".toList) (impl := atomicCasImpl) rfl (hn ▸ count3)

private theorem word_mid {pre post : List (BitVec 64)} {w : BitVec 64} (h : s.words = pre ++ w :: post) : wordAt s pre.length = w := by
  simp [wordAt, h]

private theorem same_words {ws : List (BitVec 64)} (h : s.words = ws) : s = { s with words := ws } := by subst h; rfl

private theorem runs_new {v : BitVec 64} {r : Out Data} {t : Store} :
    RunsP (body C) (do let a ← Prog.op (.newWord v); pure (.atom (.obj "Atomic" a))) s₁ r t ↔
      r = .ok (.atom (.obj "Atomic" s₁.words.length)) ∧ t = { s₁ with words := s₁.words ++ [v] } := by
  rw [runsP_op_bind (n := s₁.words.length) rfl]
  exact runsP_pure

private theorem runs_rmw {pre post : List (BitVec 64)} {w w' : BitVec 64} {f : BitVec 64 → BitVec 64} {k : Nat → Data} {u : Data}
    (hw : s₁.words = pre ++ w :: post) (hf : f w = w') (hk : k w.toNat = u) {r : Out Data} {t : Store} :
    RunsP (body C) (do let n ← Prog.op (.rmw pre.length f); pure (k n)) s₁ r t ↔
      r = .ok u ∧ t = { s₁ with words := pre ++ w' :: post } := by
  rw [runsP_op_bind (n := w.toNat) (s₁ := { s₁ with words := pre ++ w' :: post }) (by simp [Op.run, hw, hf]), ← hk]
  exact runsP_pure

private theorem work_run {x : String} {vs : List Data} {v args : Data} {ws ws' : List (BitVec 64)} (h : AtomicWork x vs ws v ws')
    (hw : s₁.words = ws) (hl : Lst args vs) {r : Out Data} {t : Store} :
    RunsP (body C) (prog x args e) s₁ r t ↔ r = .ok v ∧ t = { s₁ with words := ws' } := by
  cases h with
  | new =>
    subst hw
    show RunsP (body C) (atomicImpl args e) s₁ r t ↔ _
    simp only [atomicImpl, hl.length, List.length_nil]
    exact runs_new
  | newWith =>
    subst hw
    show RunsP (body C) (atomicImpl args e) s₁ r t ↔ _
    simp only [atomicImpl, hl.length, List.length_cons, List.length_nil, car_args hl, withInt]
    exact runs_new
  | load =>
    show RunsP (body C) (atomicLoadImpl args e) s₁ r t ↔ _
    simp only [atomicLoadImpl, car_args hl, withAtomic, if_true, runsP_get, word_mid hw]
    rw [← same_words hw]
    exact runsP_pure
  | store =>
    show RunsP (body C) (atomicStoreImpl args e) s₁ r t ↔ _
    simp only [atomicStoreImpl, car_args hl, cadr_args hl, withAtomic, withInt, if_true]
    exact runs_rmw hw rfl rfl
  | add hv =>
    subst hv
    show RunsP (body C) (atomicAddImpl args e) s₁ r t ↔ _
    simp only [atomicAddImpl, car_args hl, cadr_args hl, withAtomic, withInt, if_true, BitVec.ofInt_add, BitVec.ofInt_toInt]
    exact runs_rmw (k := fun n => .int (BitVec.ofNat 64 n + _)) hw rfl (by simp)
  | swap =>
    show RunsP (body C) (atomicSwapImpl args e) s₁ r t ↔ _
    simp only [atomicSwapImpl, car_args hl, cadr_args hl, withAtomic, withInt, if_true]
    exact runs_rmw (k := fun n => .int (BitVec.ofNat 64 n)) hw rfl (by simp)
  | hit =>
    show RunsP (body C) (atomicCasImpl args e) s₁ r t ↔ _
    simp only [atomicCasImpl, car_args hl, cadr_args hl, caddr_args hl, withAtomic, withInt, if_true]
    exact runs_rmw (k := fun n => .bool (decide (BitVec.ofNat 64 n = _))) hw (by simp) (by simp)
  | miss hne =>
    show RunsP (body C) (atomicCasImpl args e) s₁ r t ↔ _
    simp only [atomicCasImpl, car_args hl, cadr_args hl, caddr_args hl, withAtomic, withInt, if_true]
    exact runs_rmw (k := fun n => .bool (decide (BitVec.ofNat 64 n = _))) hw (by simp [Ne.symm hne]) (by simp [Ne.symm hne])

private theorem split_word {ws : List (BitVec 64)} {n : Nat} (h : n < ws.length) : ∃ pre w post, ws = pre ++ w :: post ∧ pre.length = n :=
  ⟨ws.take n, ws[n], ws.drop (n + 1), by rw [← List.drop_eq_getElem_cons h, List.take_append_drop], by simp; omega⟩

private theorem len_two {vs : List Data} (h : vs.length = 2) : ∃ a b, vs = [a, b] := by
  match vs, h with
  | [a, b], _ => exact ⟨a, b, rfl⟩
private theorem len_three {vs : List Data} (h : vs.length = 3) : ∃ a b c, vs = [a, b, c] := by
  match vs, h with
  | [a, b, c], _ => exact ⟨a, b, c, rfl⟩

private theorem atomic_or (m : String) (v : Data) :
    (∃ a, v = .atom (.obj "Atomic" a)) ∨ ∃ t, ∀ k, withAtomic m v k = .fail t := by
  cases v with
  | atom b =>
    cases b with
    | obj ty a =>
      by_cases h : ty = "Atomic"
      · exact .inl ⟨a, by rw [h]⟩
      · exact .inr ⟨m ++ " expects an Atomic object but received " ++ ty ++ ".", fun k => by simp only [withAtomic, h, if_false]⟩
    | _ => exact .inr ⟨_, fun k => rfl⟩
  | _ => exact .inr ⟨_, fun k => rfl⟩

private theorem int_or (m p : String) (v : Data) : (∃ i, v = .int i) ∨ ∃ t, ∀ k, withInt m p v k = .fail t := by
  cases v with
  | atom b =>
    cases b with
    | int i => exact .inl ⟨i, rfl⟩
    | _ => exact .inr ⟨_, fun k => rfl⟩
  | _ => exact .inr ⟨_, fun k => rfl⟩

private theorem with_atomic {m : String} {a : Nat} {k : Nat → Prog Data} : withAtomic m (.atom (.obj "Atomic" a)) k = k a := by
  simp only [withAtomic, if_true]

private theorem fault_prog {x : String} {vs : List Data} {args : Data} (hx : AtomicPrim x vs.length)
    (hv : ∀ a, .atom (.obj "Atomic" a) ∈ vs → a < s₁.words.length) (hw : ∀ v ws, ¬ AtomicWork x vs s₁.words v ws) (hl : Lst args vs) :
    ∃ m, prog x args e = .fail m := by
  generalize hn : vs.length = n at hx
  cases hx with
  | new hn1 =>
    match vs, hn with
    | [], _ => exact absurd .new (hw _ _)
    | [v], _ =>
      show ∃ m, atomicImpl args e = _
      simp only [atomicImpl, hl.length, List.length_cons, List.length_nil, car_args hl, if_true]
      rcases int_or "atomic" "" v with ⟨i, rfl⟩ | ⟨t, ht⟩
      · exact absurd .newWith (hw _ _)
      · exact ⟨t, ht _⟩
    | _ :: _ :: _, h => simp at h; omega
  | load =>
    obtain ⟨v, rfl⟩ := List.length_eq_one_iff.1 hn
    show ∃ m, atomicLoadImpl args e = _
    simp only [atomicLoadImpl, car_args hl]
    rcases atomic_or "atomic-load" v with ⟨a, rfl⟩ | ⟨t, ht⟩
    · obtain ⟨pre, w, post, he, rfl⟩ := split_word (hv a (by simp))
      rw [he] at hw
      exact absurd .load (hw _ _)
    · exact ⟨t, ht _⟩
  | store =>
    obtain ⟨v, i, rfl⟩ := len_two hn
    show ∃ m, atomicStoreImpl args e = _
    simp only [atomicStoreImpl, car_args hl, cadr_args hl]
    rcases atomic_or "atomic-store!" v with ⟨a, rfl⟩ | ⟨t, ht⟩
    · obtain ⟨pre, w, post, he, rfl⟩ := split_word (hv a (by simp))
      rw [with_atomic]
      rcases int_or "atomic-store!" "second " i with ⟨i, rfl⟩ | ⟨t, ht⟩
      · rw [he] at hw
        exact absurd .store (hw _ _)
      · exact ⟨t, ht _⟩
    · exact ⟨t, ht _⟩
  | add =>
    obtain ⟨v, i, rfl⟩ := len_two hn
    show ∃ m, atomicAddImpl args e = _
    simp only [atomicAddImpl, car_args hl, cadr_args hl]
    rcases atomic_or "atomic-add!" v with ⟨a, rfl⟩ | ⟨t, ht⟩
    · obtain ⟨pre, w, post, he, rfl⟩ := split_word (hv a (by simp))
      rw [with_atomic]
      rcases int_or "atomic-add!" "second " i with ⟨i, rfl⟩ | ⟨t, ht⟩
      · rw [he] at hw
        exact absurd (.add rfl) (hw _ _)
      · exact ⟨t, ht _⟩
    · exact ⟨t, ht _⟩
  | swap =>
    obtain ⟨v, i, rfl⟩ := len_two hn
    show ∃ m, atomicSwapImpl args e = _
    simp only [atomicSwapImpl, car_args hl, cadr_args hl]
    rcases atomic_or "atomic-swap!" v with ⟨a, rfl⟩ | ⟨t, ht⟩
    · obtain ⟨pre, w, post, he, rfl⟩ := split_word (hv a (by simp))
      rw [with_atomic]
      rcases int_or "atomic-swap!" "second " i with ⟨i, rfl⟩ | ⟨t, ht⟩
      · rw [he] at hw
        exact absurd .swap (hw _ _)
      · exact ⟨t, ht _⟩
    · exact ⟨t, ht _⟩
  | cas =>
    obtain ⟨v, i, j, rfl⟩ := len_three hn
    show ∃ m, atomicCasImpl args e = _
    simp only [atomicCasImpl, car_args hl, cadr_args hl, caddr_args hl]
    rcases atomic_or "atomic-compare-and-swap!" v with ⟨a, rfl⟩ | ⟨t, ht⟩
    · obtain ⟨pre, w, post, he, rfl⟩ := split_word (hv a (by simp))
      rw [with_atomic]
      rcases int_or "atomic-compare-and-swap!" "second " i with ⟨i, rfl⟩ | ⟨t, ht⟩
      · rcases int_or "atomic-compare-and-swap!" "third " j with ⟨j, rfl⟩ | ⟨t, ht⟩
        · rw [he] at hw
          by_cases h : i = w
          · subst h; exact absurd .hit (hw _ _)
          · exact absurd (.miss h) (hw _ _)
        · exact ⟨t, ht _⟩
      · exact ⟨t, ht _⟩
    · exact ⟨t, ht _⟩

/-! ### C87 -/

private theorem work_prim {x : String} {vs : List Data} {v : Data} {ws ws' : List (BitVec 64)} (h : AtomicWork x vs ws v ws') :
    AtomicPrim x vs.length := by
  cases h with
  | new => exact .new (Nat.zero_le _)
  | newWith => exact .new (Nat.le_refl _)
  | load => exact .load
  | store => exact .store
  | add => exact .add
  | swap => exact .swap
  | hit => exact .cas
  | miss => exact .cas

/-- A call with arguments as in the manual returns what the manual says; it changes the words as the manual says and nothing
else. -/
theorem C87_answer {x : String} {vs : List Data} {v : Data} {ws' : List (BitVec 64)} (h : Calling C x vs d e s s₁)
    (hw : AtomicWork x vs s₁.words v ws') : Returns C d e s v { s₁ with words := ws' } := by
  obtain ⟨args, hl, hiff⟩ := at_call (work_prim hw) h
  exact returns_of hiff fun r t => work_run hw rfl hl

/-- Every other call is refused and changes nothing, when the atomic objects among its arguments exist. -/
theorem C87_refused {x : String} {vs : List Data} (hx : AtomicPrim x vs.length) (h : Calling C x vs d e s s₁)
    (hv : ∀ a, .atom (.obj "Atomic" a) ∈ vs → a < s₁.words.length) (hw : ∀ v ws', ¬ AtomicWork x vs s₁.words v ws') :
    Refuses C d e s s₁ := by
  obtain ⟨args, hl, hiff⟩ := at_call hx h
  obtain ⟨m, hm⟩ := fault_prog (e := e) hx hv hw hl
  rw [hm] at hiff
  exact refuses_of hiff (m := m) fun r t => runsP_fail

/-- One call, one answer. -/
theorem C87_one_answer {x : String} {vs : List Data} {ws : List (BitVec 64)} {v v' : Data} {ws₁ ws₂ : List (BitVec 64)}
    (h : AtomicWork x vs ws v ws₁) (h' : AtomicWork x vs ws v' ws₂) : v = v' ∧ ws₁ = ws₂ := by
  obtain ⟨args, hl⟩ : ∃ args, Lst args vs := by
    have e : vs.map elem = vs := by cases h <;> rfl
    exact ⟨_, e ▸ Lst.ofArray vs⟩
  let C : Conf := ⟨Demo.C.host, fun _ => none⟩
  let s : Store := { Demo.s with words := ws }
  have h1 := (work_run (C := C) (e := 0) (s₁ := s) h rfl hl).2 ⟨rfl, rfl⟩
  obtain ⟨h2, h3⟩ := (work_run (C := C) (e := 0) (s₁ := s) h' rfl hl).1 h1
  exact ⟨by cases h2; rfl, congrArg Store.words h3⟩

/-- A call works on the word of its own object: every other word keeps its address and its value. -/
theorem C87_others {x : String} {vs : List Data} {ws : List (BitVec 64)} {v : Data} {ws' : List (BitVec 64)}
    (h : AtomicWork x vs ws v ws') {b : Nat} (hb : b < ws.length) (ho : .atom (.obj "Atomic" b) ∉ vs) : ws'[b]? = ws[b]? := by
  have other : ∀ {pre post : List (BitVec 64)} {w v : BitVec 64}, b ≠ pre.length → (pre ++ v :: post)[b]? = (pre ++ w :: post)[b]? := by
    intro pre post w v hne
    rcases Nat.lt_or_gt_of_ne hne with h | h
    · rw [List.getElem?_append_left h, List.getElem?_append_left h]
    · obtain ⟨k, hk⟩ := Nat.exists_eq_add_of_lt h
      rw [List.getElem?_append_right (by omega), List.getElem?_append_right (by omega), show b - pre.length = k + 1 by omega]
      rfl
  cases h with
  | new => exact List.getElem?_append_left hb
  | newWith => exact List.getElem?_append_left hb
  | load => rfl
  | miss => rfl
  | store => exact other fun e => ho (by simp [e])
  | add => exact other fun e => ho (by simp [e])
  | swap => exact other fun e => ho (by simp [e])
  | hit => exact other fun e => ho (by simp [e])

/-- A new object is not one that the code or the state refers to already. -/
theorem C87_fresh {H : Ev.Host} {vs : List Data} {ws' : List (BitVec 64)} {v u : Data} (h : AtomicWork "atomic" vs s.words v ws')
    (hu : Live (std H) s u) : u ≠ v ∧ ¬ Live (std H) s v := by
  have : ¬ Live (std H) s v := by
    generalize hx : "atomic" = x at h
    generalize hws : s.words = ws at h
    cases h
    case new | newWith =>
      subst hws
      exact fun (h : "Atomic" = "Atomic" → s.words.length < s.words.length) => Nat.lt_irrefl _ (h rfl)
    all_goals exact absurd hx (by decide)
  exact ⟨fun e => this (e ▸ hu), this⟩

/-- Whatever a program does and however it ends, no word goes away. -/
theorem C87_kept {r : Out Data} (h : Evals C d e s r s₁) : s.words.length ≤ s₁.words.length := by
  refine runs_keeps (K := fun s s' => s.words.length ≤ s'.words.length) ⟨fun _ => Nat.le_refl _, Nat.le_trans, fun o s => ?_⟩ h
  have put : ∀ e x v, (s.putVal e x v).words = s.words := by
    intro e x v
    unfold Store.putVal
    split <;> rfl
  cases o <;> simp only [Op.run] <;> (repeat' split) <;> simp [put]

private theorem live_mem {l : Data} {xs : List Data} (hl : Lst l xs) (h : Live C s l) : LiveL C s xs := by
  induction hl with
  | cons _ _ _ _ _ _ _ ih =>
    intro y hy
    rcases List.mem_cons.1 hy with rfl | hy
    · exact h.1
    · exact ih h.2 y hy
  | _ => exact nofun

private theorem args_live {H : Ev.Host} (hord : Reorders H.ord) {xs us : List Data} (hs : Sound (std H) s) (he : EnvOk s e)
    (hx : LiveL (std H) s xs) (h : Args (std H) e xs s (.ok us) s₁) : Sound (std H) s₁ ∧ Ext s s₁ ∧ LiveL (std H) s₁ us := by
  induction xs generalizing s us with
  | nil => cases h; exact ⟨hs, .refl _, nofun⟩
  | cons x xs ih =>
    cases h with
    | next h1 h2 =>
      obtain ⟨hs', hx', hv⟩ := C71_references hord hs (c := .eval false x e) ⟨hx x (by simp), he⟩ h1 nofun
      obtain ⟨h3, h4, h5⟩ := ih hs' (Nat.lt_of_lt_of_le he hx'.envs) (fun y hy => (hx y (by simp [hy])).mono hx') h2
      refine ⟨h3, hx'.trans h4, fun y hy => ?_⟩
      rcases List.mem_cons.1 hy with rfl | hy
      · exact (hv _ rfl).mono h4
      · exact h5 y hy

/-- In a state as programs make them, with code that refers to what exists: every call is as in the manual, or it is refused. -/
theorem C87_total {H : Ev.Host} (hord : Reorders H.ord) (hs : Sound (std H) s) (hd : Live (std H) s d) (he : EnvOk s e)
    {x : String} {vs : List Data} (hx : AtomicPrim x vs.length) (h : Calling (std H) x vs d e s s₁) :
    (∃ v ws', AtomicWork x vs s₁.words v ws' ∧ Returns (std H) d e s v { s₁ with words := ws' }) ∨ Refuses (std H) d e s s₁ := by
  by_cases hw : ∃ v ws', AtomicWork x vs s₁.words v ws'
  · obtain ⟨v, ws', hw⟩ := hw
    exact .inl ⟨v, ws', hw, C87_answer h hw⟩
  · refine .inr (C87_refused hx h (fun a ha => ?_) fun v ws' h => hw ⟨v, ws', h⟩)
    obtain ⟨f, t, xs, us, s₀, rfl, -, -, hf, -, hl, hA, rfl⟩ := h
    obtain ⟨hs', hx', -⟩ := C71_references hord hs (c := .eval true f e) ⟨hd.1, he⟩ hf nofun
    obtain ⟨-, -, hu⟩ := args_live hord hs' (Nat.lt_of_lt_of_le he hx'.envs)
      (fun y hy => (live_mem hl hd.2 y hy).mono hx') hA
    obtain ⟨u, hu', hua⟩ := List.mem_map.1 ha
    have : u = .atom (.obj "Atomic" a) := by
      unfold elem at hua
      split at hua
      · cases hua
      · exact hua
    subst this
    exact hu _ hu' rfl

/-! ### Examples -/

example : Demo.Ends "(let ((a (atomic 5)) (b (atomic))) (atomic-add! a 3) (atomic-store! b 9) (list (atomic-load a) (atomic-swap! b 1) (atomic-load b)))"
    (.ok (.cons (.int 8) (.cons (.int 9) (.cons (.int 1) .null)))) := Demo.ends 60 (by decide +kernel) (by simp)
example : Demo.Ends "(let ((a (atomic 5))) (list (atomic-compare-and-swap! a 4 7) (atomic-compare-and-swap! a 5 7) (atomic-load a)))"
    (.ok (.cons (.bool false) (.cons (.bool true) (.cons (.int 7) .null)))) := Demo.ends 60 (by decide +kernel) (by simp)
example : Calling Demo.C "atomic-add!" [.atom (.obj "Atomic" 0), .int 3] (Demo.code "(atomic-add! (atomic 5) 3)") 1 Demo.s
    { Demo.s with words := [5] } := by
  have hl : Lst (ofArray [Demo.code "(atomic 5)", .int 3]) [Demo.code "(atomic 5)", .int 3] := Lst.ofArray [Demo.code "(atomic 5)", .int 3]
  have hb : Demo.s.localB 0 "atomic-add!" = some ⟨.atom (.prim "atomic-add!"), true⟩ := by decide +kernel
  rw [show Demo.code "(atomic-add! (atomic 5) 3)" = .cons (.sym "atomic-add!") (ofArray [Demo.code "(atomic 5)", .int 3]) by decide +kernel]
  exact calling_sym (us := [.atom (.obj "Atomic" 0), .int 3]) Demo.wf (Demo.means _ hb) (by decide +kernel) (by decide +kernel) hl
    ((runsP_evalAll _ _ _ _).1 ⟨10, by decide +kernel, nofun⟩)
example : AtomicWork "atomic-add!" [.atom (.obj "Atomic" 0), .int 3] [5] (.int 8) [8] := .add (pre := []) rfl
example : Calling Demo.C "atomic-load" [.int 3] (Demo.code "(atomic-load 3)") 1 Demo.s Demo.s :=
  Demo.calling 10 (b := true) (xs := [.int 3]) (us := [.int 3])
    (by decide +kernel) (by decide +kernel) (by decide +kernel) (by decide +kernel) rfl (by decide +kernel) (by decide +kernel) rfl
example (v : Data) (ws ws' : List (BitVec 64)) : ¬ AtomicWork "atomic-load" [.int 3] ws v ws' := by
  generalize hx : "atomic-load" = x
  generalize hv : [Data.int 3] = vs
  rintro (_ | _ | _ | _ | _ | _ | _ | _) <;> first | exact absurd hx (by decide) | simp at hv
example : Sound Demo.C Demo.s := demo_sound

end Golisp.Props
