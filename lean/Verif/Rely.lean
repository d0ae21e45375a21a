import Verif.Threads
import Verif.PureLemmas
/-
Threads that leave each other alone: an account of interference.  A thread owns the environments it has created; those that
were there at the start (numbers below `n₀`) are shared.  An action is polite when it changes only what the thread owns,
or, in a shared environment, a name that nobody depends on.  `Safe` says of a thread that, whatever polite actions others
put between its steps, it takes at most so many steps, never fails, acts politely itself and ends with a result as
described.
-/
namespace Golisp.Spec
open Golisp Data Ev

/-- The environments a thread owns after an action with this outcome. -/
def owned (K : List Nat) : Op → Out Nat → List Nat
  | .newEnv _ _ _, .ok n => n :: K
  | _, _ => K

/-- The action changes only environments from `K`, or names outside `N` in shared environments.  (Everything else a thread can do to
the state is polite: new objects, slots of frames, marks, output, words.) -/
def Polite (n₀ : Nat) (N : String → Prop) (K : List Nat) : Op → Prop
  | .bind e x _ => e ∈ K ∨ (e < n₀ ∧ ¬ N x)
  | .assign e x _ => e ∈ K ∨ (e < n₀ ∧ ¬ N x)
  | .assignRaw e x _ => e ∈ K ∨ (e < n₀ ∧ ¬ N x)
  | .restrict e => e ∈ K ∨ e < n₀
  | _ => True

/-- `f` with another value at `i`. -/
def setAt {α : Type} (f : Nat → α) (i : Nat) (v : α) : Nat → α := fun j => if j = i then v else f j

/-- In the course of the execution the threads for which `T` holds act politely; `K` says what each thread owns at the start. -/
inductive PoliteTrace (n₀ : Nat) (N : String → Prop) (T : Nat → Prop) : (Nat → List Nat) → List (Nat × Event) → Prop where
  | nil {K} : PoliteTrace n₀ N T K []
  | look {K i tr} : PoliteTrace n₀ N T K tr → PoliteTrace n₀ N T K ((i, none) :: tr)
  | act {K i o r tr} : (T i → Polite n₀ N (K i) o) → PoliteTrace n₀ N T (setAt K i (owned (K i) o r)) tr →
      PoliteTrace n₀ N T K ((i, some (o, r)) :: tr)

/-- How many steps the thread takes. -/
def moves (j : Nat) (tr : List (Nat × Event)) : Nat := tr.countP (·.1 == j)

end Golisp.Spec

namespace Golisp.Ev.Rely
open Golisp Data Spec

variable {α β : Type} {body : Call → Prog Data} {n₀ : Nat} {N : String → Prop} {K K' J : List Nat} {s s' s₁ s₂ : Store} {n m : Nat}

/-- What others may do to the state between two steps of the owner of `K`. -/
structure Others (n₀ : Nat) (N : String → Prop) (K : List Nat) (s s' : Store) : Prop where
  own : ∀ (e : Nat) (r : EnvRec), e ∈ K → s.envs[e]? = some r → s'.envs[e]? = some r
  shared : ∀ (e : Nat) (r : EnvRec), e < n₀ → s.envs[e]? = some r → ∃ r', s'.envs[e]? = some r' ∧ r'.parent = r.parent ∧ r'.frame = r.frame ∧
    ∀ x, N x → alGet r'.binds x = alGet r.binds x
  more : s.envs.length ≤ s'.envs.length
  fns : ∀ (i : Nat) (fr : FnRec), s.fns[i]? = some fr → ∃ b, s'.fns[i]? = some { fr with slot := b }
  wf : WF s → WF s'

theorem Others.refl (s : Store) : Others n₀ N K s s :=
  ⟨fun _ _ _ h => h, fun _ r _ h => ⟨r, h, rfl, rfl, fun _ _ => rfl⟩, Nat.le_refl _, fun _ fr h => ⟨fr.slot, h⟩, id⟩

theorem Others.trans (h : Others n₀ N K s s₁) (h' : Others n₀ N K s₁ s₂) : Others n₀ N K s s₂ where
  own e r he hr := h'.own e r he (h.own e r he hr)
  shared e r he hr := by
    obtain ⟨r₁, h1, h2, h3, h4⟩ := h.shared e r he hr
    obtain ⟨r₂, h5, h6, h7, h8⟩ := h'.shared e r₁ he h1
    exact ⟨r₂, h5, h6.trans h2, h7.trans h3, fun x hx => (h8 x hx).trans (h4 x hx)⟩
  more := Nat.le_trans h.more h'.more
  fns i fr hi := by
    obtain ⟨b, hb⟩ := h.fns i fr hi
    obtain ⟨b', hb'⟩ := h'.fns i _ hb
    exact ⟨b', hb'⟩
  wf := h'.wf ∘ h.wf

theorem Others.sub (h : Others n₀ N K' s s') (hk : ∀ e ∈ K, e ∈ K') : Others n₀ N K s s' :=
  ⟨fun e r he hr => h.own e r (hk e he) hr, h.shared, h.more, h.fns, h.wf⟩

theorem op_more (o : Op) (s : Store) : s.envs.length ≤ (o.run s).2.envs.length := by
  cases hl : s.envs.length with
  | zero => exact Nat.zero_le _
  | succ k =>
    obtain ⟨r'', hr'', -⟩ := (op_grows o s).envs k (s.envs[k]'(by omega)) (List.getElem?_eq_getElem _)
    exact (List.getElem?_eq_some_iff.mp hr'').1

/-- A polite action of one thread, as another one sees it. -/
theorem op_others {o : Op} (hp : Polite n₀ N J o) (hj : ∀ e ∈ J, n₀ ≤ e ∧ e ∉ K) (hk : ∀ e ∈ K, n₀ ≤ e) : Others n₀ N K s (o.run s).2 := by
  have hg := op_grows o s
  have key : (∀ (e : Nat) (r : EnvRec), s.envs[e]? = some r → (e ∈ K → (o.run s).2.envs[e]? = some r) ∧
      (e < n₀ → ∃ r', (o.run s).2.envs[e]? = some r' ∧ ∀ x, N x → alGet r'.binds x = alGet r.binds x)) → Others n₀ N K s (o.run s).2 := by
    intro h
    refine ⟨fun e r he hr => (h e r hr).1 he, fun e r he hr => ?_, ?_, hg.fns, op_WF o s⟩
    · obtain ⟨r', hr', hb⟩ := (h e r hr).2 he
      obtain ⟨r'', hr'', hle⟩ := hg.envs e r hr
      rw [hr'] at hr''; cases hr''
      exact ⟨r', hr', hle.parent, hle.frame, hb⟩
    · exact op_more o s
  have same : (∀ (e : Nat) (r : EnvRec), s.envs[e]? = some r → (o.run s).2.envs[e]? = some r) → Others n₀ N K s (o.run s).2 :=
    fun h => key fun e r hr => ⟨fun _ => h e r hr, fun _ => ⟨r, h e r hr, fun _ _ => rfl⟩⟩
  have put : ∀ {e x v}, (e ∈ J ∨ (e < n₀ ∧ ¬ N x)) → (o.run s).2.envs = (s.putVal e x v).envs → Others n₀ N K s (o.run s).2 := by
    intro e x v he hs
    refine key fun f r hr => ?_
    rw [hs, putVal_envs]
    by_cases hf : f = e
    · subst hf
      simp only [if_true, hr, Option.map_some]
      refine ⟨fun hfk => ?_, fun hlt => ⟨_, rfl, fun y hy => ?_⟩⟩
      · rcases he with he | ⟨he, -⟩
        · exact absurd hfk (hj f he).2
        · exact absurd (hk f hfk) (by omega)
      · rcases he with he | ⟨-, hx⟩
        · exact absurd (hj f he).1 (by omega)
        · have : y ≠ x := fun h => hx (h ▸ hy)
          simp only [EnvRec.put, alGet_set, this, if_false]
    · simp only [hf, if_false, hr]
      exact ⟨fun _ => trivial, fun _ => ⟨r, rfl, fun _ _ => rfl⟩⟩
  cases o with
  | newEnv p f name =>
    refine same fun e r hr => ?_
    simp only [Op.run]
    split
    · exact hr
    · exact getElem?_append_of_some hr _
  | bind e x v =>
    have : (Op.run (.bind e x v) s).2.envs = s.envs ∨ (Op.run (.bind e x v) s).2.envs = (s.putVal e x v).envs := by
      simp only [Op.run]; repeat' split
      all_goals simp
    rcases this with h | h
    · exact same fun e r hr => by rw [h]; exact hr
    · exact put hp h
  | assign e x v =>
    have : (Op.run (.assign e x v) s).2.envs = s.envs ∨ (Op.run (.assign e x v) s).2.envs = (s.putVal e x v).envs := by
      simp only [Op.run]; repeat' split
      all_goals simp
    rcases this with h | h
    · exact same fun e r hr => by rw [h]; exact hr
    · exact put hp h
  | assignRaw e x v =>
    have : (Op.run (.assignRaw e x v) s).2.envs = s.envs ∨ (Op.run (.assignRaw e x v) s).2.envs = (s.putVal e x v).envs := by
      simp only [Op.run]; repeat' split
      all_goals simp
    rcases this with h | h
    · exact same fun e r hr => by rw [h]; exact hr
    · exact put hp h
  | restrict e =>
    refine key fun f r hr => ?_
    simp only [Op.run]
    cases he : s.envs[e]? with
    | none => exact ⟨fun _ => hr, fun _ => ⟨r, hr, fun _ _ => rfl⟩⟩
    | some q =>
      simp only [getElem?_set']
      by_cases hf : f = e
      · subst hf
        rw [hr] at he; cases he
        simp only [if_true, hr, Option.map_some]
        refine ⟨fun hfk => ?_, fun _ => ⟨_, rfl, fun _ _ => rfl⟩⟩
        rcases hp with he | he
        · exact absurd hfk (hj f he).2
        · exact absurd (hk f hfk) (by omega)
      · simp only [hf, if_false]; exact ⟨fun _ => hr, fun _ => ⟨r, hr, fun _ _ => rfl⟩⟩
  | flag f b => refine same fun e r hr => ?_; simp only [Op.run]; split <;> exact hr
  | _ => exact same fun e r hr => hr

/-- The state and the owned environments fit together. -/
structure Holds (n₀ : Nat) (K : List Nat) (s : Store) : Prop where
  wf : WF s
  base : n₀ ≤ s.envs.length
  own : ∀ e ∈ K, n₀ ≤ e ∧ e < s.envs.length

theorem Holds.others (h : Holds n₀ K s) (ho : Others n₀ N K s s') : Holds n₀ K s' :=
  ⟨ho.wf h.wf, Nat.le_trans h.base ho.more, fun e he => ⟨(h.own e he).1, Nat.lt_of_lt_of_le (h.own e he).2 ho.more⟩⟩

/-- Whatever happens in between: at most `n` steps, no failure, polite, and a result as `Q` says. -/
inductive Safe (body : Call → Prog Data) (n₀ : Nat) (N : String → Prop) {α : Type} (Q : List Nat → Store → α → Prop) :
    Nat → List Nat → Store → Prog α → Prop where
  | ret {n K s a} : Q K s a → Safe body n₀ N Q n K s (.ret a)
  | get {n K s k} : (∀ s', Others n₀ N K s s' → Safe body n₀ N Q n K s' (k s')) → Safe body n₀ N Q (n + 1) K s (.get k)
  | act {n K s o k} : Polite n₀ N K o → (∀ s', Others n₀ N K s s' → ∃ m, (o.run s').1 = .ok m) →
      (∀ s' m, Others n₀ N K s s' → (o.run s').1 = .ok m → Safe body n₀ N Q n (owned K o (.ok m)) (o.run s').2 (k (.ok m))) →
      Safe body n₀ N Q (n + 1) K s (.act o k)
  | call {n K s c k} : Safe body n₀ N Q n K s ((body c).attempt k) → Safe body n₀ N Q (n + 1) K s (.call c k)

variable {Q : List Nat → Store → α → Prop} {R : List Nat → Store → β → Prop}

theorem Safe.mono {p : Prog α} (h : Safe body n₀ N Q n K s p) (hnm : n ≤ m) : Safe body n₀ N Q m K s p := by
  induction h generalizing m with
  | ret h => exact .ret h
  | get _ ih =>
    obtain ⟨k, rfl⟩ : ∃ k, m = k + 1 := ⟨m - 1, by omega⟩
    exact .get fun s' h' => ih s' h' (by omega)
  | act h1 h2 _ ih =>
    obtain ⟨j, rfl⟩ : ∃ k, m = k + 1 := ⟨m - 1, by omega⟩
    exact .act h1 h2 fun s' v h' hv => ih s' v h' hv (by omega)
  | call _ ih =>
    obtain ⟨k, rfl⟩ : ∃ k, m = k + 1 := ⟨m - 1, by omega⟩
    exact .call (ih (by omega))

/-- Between its steps others act. -/
theorem Safe.others {p : Prog α} (hQ : ∀ K s s' a, Q K s a → Others n₀ N K s s' → Q K s' a) (h : Safe body n₀ N Q n K s p) (ho : Others n₀ N K s s') :
    Safe body n₀ N Q n K s' p := by
  induction h generalizing s' with
  | ret h => exact .ret (hQ _ _ _ _ h ho)
  | get h1 _ => exact .get fun s'' h' => h1 s'' (ho.trans h')
  | act h1 h2 h3 _ => exact .act h1 (fun s'' h' => h2 s'' (ho.trans h')) fun s'' v h' hv => h3 s'' v (ho.trans h') hv
  | call _ ih => exact .call (ih ho)

theorem Safe.attempt {p : Prog α} {f : Except Err α → Prog β} {m : Nat}
    (h : Safe body n₀ N (fun K s a => Safe body n₀ N R m K s (f (.ok a))) n K s p) : Safe body n₀ N R (n + m) K s (p.attempt f) := by
  generalize hq : (fun K s a => Safe body n₀ N R m K s (f (.ok a))) = Q at h
  induction h with
  | ret h => subst hq; exact h.mono (Nat.le_add_left _ _)
  | get _ ih => rw [Nat.succ_add]; exact .get fun s' h' => ih s' h'
  | act h1 h2 _ ih => rw [Nat.succ_add]; exact .act h1 h2 fun s' v h' hv => ih s' v h' hv
  | call _ ih =>
    rw [Nat.succ_add]
    refine .call ?_
    have := ih
    rwa [attempt_attempt] at this

theorem Safe.bind {p : Prog α} {f : α → Prog β} {m : Nat}
    (h : Safe body n₀ N (fun K s a => Safe body n₀ N R m K s (f a)) n K s p) : Safe body n₀ N R (n + m) K s (p >>= f) := by
  rw [bind_eq_attempt]
  exact Safe.attempt h

theorem Safe.weaken {Q' : List Nat → Store → α → Prop} {p : Prog α} (h : Safe body n₀ N Q n K s p) (hQ : ∀ K s a, Q K s a → Q' K s a) :
    Safe body n₀ N Q' n K s p := by
  induction h with
  | ret h => exact .ret (hQ _ _ _ h)
  | get _ ih => exact .get ih
  | act h1 h2 _ ih => exact .act h1 h2 ih
  | call _ ih => exact .call ih

theorem safe_pure {a : α} (h : Q K s a) : Safe body n₀ N Q n K s (pure a) := .ret h

theorem safe_op {o : Op} {Q : List Nat → Store → Nat → Prop} (h1 : Polite n₀ N K o)
    (h2 : ∀ s', Others n₀ N K s s' → ∃ m t, o.run s' = (.ok m, t) ∧ Q (owned K o (.ok m)) t m) : Safe body n₀ N Q 1 K s (Prog.op o) := by
  refine .act h1 (fun s' h' => ?_) fun s' m h' hm => ?_
  · obtain ⟨m, t, hm, -⟩ := h2 s' h'; exact ⟨m, by rw [hm]⟩
  · obtain ⟨m', t, hm', hq⟩ := h2 s' h'
    rw [hm'] at hm ⊢
    cases hm
    exact .ret hq

theorem safe_call {c : Call} {Q : List Nat → Store → Data → Prop} (h : Safe body n₀ N Q n K s (body c)) :
    Safe body n₀ N Q (n + 1) K s (.call c Prog.ofExcept) := by
  refine .call ?_
  rwa [attempt_ofExcept]

/-! ### Executions -/

/-- What the threads own: environments made since the start, each by one of them. -/
structure Owns (n₀ : Nat) (K : Nat → List Nat) (s : Store) : Prop where
  new : ∀ i e, e ∈ K i → n₀ ≤ e ∧ e < s.envs.length
  base : n₀ ≤ s.envs.length
  apart : ∀ i j e, e ∈ K i → e ∈ K j → i = j

theorem setAt_self (f : Nat → α) (i : Nat) : setAt f i (f i) = f := by
  funext j; simp only [setAt]; split <;> simp_all

theorem Owns.op {Ks : Nat → List Nat} (h : Owns n₀ Ks s) (i : Nat) (o : Op) : Owns n₀ (setAt Ks i (owned (Ks i) o (o.run s).1)) (o.run s).2 := by
  have hm := op_more o s
  have same : owned (Ks i) o (o.run s).1 = Ks i → Owns n₀ (setAt Ks i (owned (Ks i) o (o.run s).1)) (o.run s).2 := by
    intro hs
    rw [hs, setAt_self]
    exact ⟨fun i e he => ⟨(h.new i e he).1, Nat.lt_of_lt_of_le (h.new i e he).2 hm⟩, Nat.le_trans h.base hm, h.apart⟩
  cases o with
  | newEnv p f name =>
    cases hp : s.envs[p]? with
      | none => refine same ?_; simp [Op.run, hp, owned]
      | some pr =>
        rw [newEnv_run hp f name]
        refine ⟨fun k e he => ?_, ?_, fun k j e hk hj => ?_⟩
        · simp only [setAt, owned] at he
          split at he
          · next hki =>
            rcases List.mem_cons.mp he with rfl | he
            · exact ⟨h.base, by simp [pushEnv]⟩
            · exact ⟨(h.new _ e he).1, by have := (h.new _ e he).2; simp [pushEnv]; omega⟩
          · exact ⟨(h.new _ e he).1, by have := (h.new _ e he).2; simp [pushEnv]; omega⟩
        · have := h.base; simp [pushEnv]; omega
        · simp only [setAt, owned] at hk hj
          have hno : ∀ l, s.envs.length ∉ Ks l := fun l hl => absurd (h.new l _ hl).2 (by omega)
          by_cases h1 : k = i <;> by_cases h2 : j = i <;> simp only [h1, h2, if_true, if_false] at hk hj
          · rw [h1, h2]
          · rcases List.mem_cons.mp hk with rfl | hk
            · exact absurd hj (hno j)
            · rw [h1]; exact h.apart _ _ e hk hj
          · rcases List.mem_cons.mp hj with rfl | hj
            · exact absurd hk (hno k)
            · rw [h2]; exact h.apart _ _ e hk hj
          · exact h.apart _ _ e hk hj
  | _ => exact same rfl

theorem step_safe {Q : List Nat → Store → Data → Prop} {p q : Prog Data} {ev : Event} {t : Store} (h : Safe body n₀ N Q n K s p) (hs : step body p s = some (ev, q, t)) :
    ∃ m, n = m + 1 ∧ ((ev = none ∧ t = s ∧ Safe body n₀ N Q m K t q) ∨
      ∃ o, ev = some (o, (o.run s).1) ∧ t = (o.run s).2 ∧ Polite n₀ N K o ∧ Safe body n₀ N Q m (owned K o (o.run s).1) t q) := by
  cases h with
  | ret => cases hs
  | get h => cases hs; exact ⟨_, rfl, .inl ⟨rfl, rfl, h _ (.refl _)⟩⟩
  | @act n _ _ o k h1 h2 h3 =>
    obtain ⟨m, hm⟩ := h2 s (.refl _)
    simp only [step, hm, Prog.resume, Option.some.injEq, Prod.mk.injEq] at hs
    obtain ⟨rfl, rfl, rfl⟩ := hs
    exact ⟨_, rfl, .inr ⟨o, by rw [hm], rfl, h1, by rw [hm]; exact h3 s m (.refl _) hm⟩⟩
  | call h => cases hs; exact ⟨_, rfl, .inl ⟨rfl, rfl, h⟩⟩

/-- A step of some thread: an event that fits what happens to the state. -/
theorem step_event {p q : Prog Data} {ev : Event} {t : Store} (hs : step body p s = some (ev, q, t)) :
    (ev = none ∧ t = s) ∨ ∃ o, ev = some (o, (o.run s).1) ∧ t = (o.run s).2 := by
  cases p with
  | get k => cases hs; exact .inl ⟨rfl, rfl⟩
  | act o k =>
    simp only [step, Option.some.injEq, Prod.mk.injEq] at hs
    obtain ⟨rfl, -, rfl⟩ := hs
    exact .inr ⟨o, rfl, rfl⟩
  | call c k => cases hs; exact .inl ⟨rfl, rfl⟩
  | _ => cases hs

/-- One thread among others that are polite. -/
theorem exec_safe {Q : List Nat → Store → Data → Prop} (hQ : ∀ K s s' a, Q K s a → Others n₀ N K s s' → Q K s' a) {P P' : Pool} {tr : List (Nat × Event)} {j : Nat}
    (h : Exec body P tr P') : ∀ {Ks : Nat → List Nat} {n : Nat} {p : Prog Data}, Owns n₀ Ks P.state → PoliteTrace n₀ N (· ≠ j) Ks tr →
      P.threads[j]? = some p → Safe body n₀ N Q n (Ks j) P.state p →
      ∃ q K m, P'.threads[j]? = some q ∧ Safe body n₀ N Q m K P'.state q ∧ moves j tr + m ≤ n := by
  induction h with
  | done => intro Ks n p _ _ hp hs; exact ⟨p, _, n, hp, hs, by simp [moves]⟩
  | @start P tr P' c _ ih =>
    intro Ks n p ho hpl hp hs
    exact ih ho hpl (getElem?_append_of_some hp _) hs
  | @move P i p₀ ev q₀ t tr P' hi hst _ ih =>
    intro Ks n p ho hpl hp hs
    by_cases hij : i = j
    · subst hij
      rw [hi] at hp; cases hp
      have hq : (P.threads.set i q₀)[i]? = some q₀ := by rw [getElem?_set', if_pos rfl, hi]; rfl
      obtain ⟨m, rfl, ⟨rfl, rfl, hs'⟩ | ⟨o, rfl, rfl, -, hs'⟩⟩ := step_safe hs hst
      · cases hpl with
        | look hpl =>
          obtain ⟨q, K, m', h1, h2, h3⟩ := ih ho hpl hq hs'
          exact ⟨q, K, m', h1, h2, by simp [moves] at h3 ⊢; omega⟩
      · cases hpl with
        | act _ hpl =>
          obtain ⟨q, K, m', h1, h2, h3⟩ := ih (ho.op i o) hpl hq (by simp only [setAt, if_true]; exact hs')
          exact ⟨q, K, m', h1, h2, by simp [moves] at h3 ⊢; omega⟩
    · have hq : (P.threads.set i q₀)[j]? = some p := by rw [getElem?_set', if_neg (Ne.symm hij)]; exact hp
      have hmv : ∀ ev, moves j ((i, ev) :: tr) = moves j tr := by intro ev; simp [moves, hij]
      rcases step_event hst with ⟨rfl, rfl⟩ | ⟨o, rfl, rfl⟩
      · cases hpl with
        | look hpl => simp only [hmv]; exact ih ho hpl hq hs
      · cases hpl with
        | act hpo hpl =>
          simp only [hmv]
          refine ih (ho.op i o) hpl hq ?_
          simp only [setAt, Ne.symm hij, if_false]
          exact hs.others hQ (op_others (hpo hij) (fun e he => ⟨(ho.new i e he).1, fun hj => hij (ho.apart i j e he hj)⟩) fun e he => (ho.new j e he).1)

/-- Threads that are all safe are polite. -/
theorem polite_of_safe {Q : Nat → List Nat → Store → Data → Prop} (hQ : ∀ i K s s' a, Q i K s a → Others n₀ N K s s' → Q i K s' a) {P P' : Pool} {tr : List (Nat × Event)}
    (h : Exec body P tr P') : P'.threads.length = P.threads.length → ∀ {Ks : Nat → List Nat} {ns : Nat → Nat}, Owns n₀ Ks P.state →
      (∀ i p, P.threads[i]? = some p → Safe body n₀ N (Q i) (ns i) (Ks i) P.state p) → PoliteTrace n₀ N (fun _ => True) Ks tr := by
  induction h with
  | done => intro _ Ks ns _ _; exact .nil
  | @start P tr P' c h _ =>
    intro hl
    have := exec_length h
    simp at this; omega
  | @move P i p₀ ev q₀ t tr P' hi hst _ ih =>
    intro hl Ks ns ho hs
    have hl' : P'.threads.length = (P.threads.set i q₀).length := by simpa using hl
    obtain ⟨m, hm, ⟨rfl, rfl, hs'⟩ | ⟨o, rfl, rfl, hpo, hs'⟩⟩ := step_safe (hs i p₀ hi) hst
    · refine .look (ih hl' (ns := setAt ns i m) ho fun k p hp => ?_)
      simp only [getElem?_set'] at hp
      by_cases hk : k = i
      · subst hk
        simp only [if_true, hi, Option.map_some, Option.some.injEq] at hp
        subst hp
        simp only [setAt, if_true]; exact hs'
      · simp only [hk, if_false] at hp
        simp only [setAt, hk, if_false]
        exact hs k p hp
    · refine .act (fun _ => hpo) (ih hl' (ns := setAt ns i m) (ho.op i o) fun k p hp => ?_)
      simp only [getElem?_set'] at hp
      by_cases hk : k = i
      · subst hk
        simp only [if_true, hi, Option.map_some, Option.some.injEq] at hp
        subst hp
        simp only [setAt, if_true]; exact hs'
      · simp only [hk, if_false] at hp
        simp only [setAt, hk, if_false]
        exact (hs k p hp).others (hQ k) (op_others hpo (fun e he => ⟨(ho.new i e he).1, fun hj => hk (ho.apart i k e he hj).symm⟩) fun e he => (ho.new k e he).1)

theorem PoliteTrace.sub {T T' : Nat → Prop} {Ks : Nat → List Nat} {tr : List (Nat × Event)} (h : PoliteTrace n₀ N T Ks tr) (hT : ∀ i, T' i → T i) :
    PoliteTrace n₀ N T' Ks tr := by
  induction h with
  | nil => exact .nil
  | look _ ih => exact .look ih
  | act h _ ih => exact .act (fun hi => h (hT _ hi)) ih

/-- Without new threads, the steps are those of the threads there are. -/
theorem exec_total {P P' : Pool} {tr : List (Nat × Event)} (h : Exec body P tr P') (hl : P'.threads.length = P.threads.length) :
    ∀ {B : Nat → Nat}, (∀ i, moves i tr ≤ B i) → tr.length ≤ ((List.range P.threads.length).map B).sum := by
  have key : ∀ (m : Nat) (tr : List (Nat × Event)), (∀ x ∈ tr, x.1 < m) → tr.length = ((List.range m).map (moves · tr)).sum := by
    intro m tr
    induction tr with
    | nil => intro _; clear hl; induction m with
      | zero => rfl
      | succ m ih => simp only [List.range_succ, List.map_append, List.sum_append, ← ih (by simp)]; simp [moves]
    | cons x tr ih =>
      intro hx
      have hone : ∀ m, x.1 < m → ((List.range m).map (moves · (x :: tr))).sum = ((List.range m).map (moves · tr)).sum + 1 := by
        have hmv : ∀ j, moves j (x :: tr) = moves j tr + if x.1 = j then 1 else 0 := by
          intro j; simp only [moves, List.countP_cons]; by_cases h : x.1 = j <;> simp [h]
        have hz : ∀ m, m ≤ x.1 → ((List.range m).map (moves · (x :: tr))).sum = ((List.range m).map (moves · tr)).sum := by
          intro m
          induction m with
          | zero => intro _; rfl
          | succ m ihm =>
            intro hle
            simp only [List.range_succ, List.map_append, List.sum_append, List.map_cons, List.map_nil, ihm (by omega), hmv m, if_neg (show ¬ x.1 = m by omega)]
            simp
        intro m
        induction m with
        | zero => intro h; omega
        | succ m ihm =>
          intro hlt
          simp only [List.range_succ, List.map_append, List.sum_append, List.map_cons, List.map_nil]
          by_cases h : x.1 = m
          · rw [hz m (by omega), hmv m, if_pos h]; simp; omega
          · rw [ihm (by omega), hmv m, if_neg h]; simp; omega
      rw [hone m (hx x (by simp)), List.length_cons, ih fun y hy => hx y (by simp [hy])]
  have hin : ∀ x ∈ tr, x.1 < P.threads.length := by
    induction h with
    | done => simp
    | @start P tr P' c h _ => have := exec_length h; simp at this; omega
    | @move P i p ev q t tr P' hi _ _ ih =>
      intro x hx
      rcases List.mem_cons.mp hx with rfl | hx
      · exact (List.getElem?_eq_some_iff.mp hi).1
      · simpa using ih (by simpa using hl) x hx
  intro B hB
  rw [key _ tr hin]
  generalize P.threads.length = m
  induction m with
  | zero => simp
  | succ m ih =>
    simp only [List.range_succ, List.map_append, List.sum_append, List.map_cons, List.map_nil]
    have := hB m
    simp; omega

/-! ### The program and the variables stay where they are -/

theorem Others.env (h : Others n₀ N K s s') {e : Nat} {r : EnvRec} (he : e < n₀) (hr : s.envs[e]? = some r) (x : String) (hx : N x) :
    s'.localB e x = s.localB e x ∧ s'.parentOf e = s.parentOf e ∧ s'.frameOf e = s.frameOf e := by
  obtain ⟨r', h1, h2, h3, h4⟩ := h.shared e r he hr
  simp only [Store.localB, Store.parentOf, Store.frameOf, h1, hr, h2, h3, h4 x hx, and_self]

theorem Others.visible (h : Others n₀ N K s s') (hw : WF s) {e f : Nat} {x : String} {b : Binding} (he : e < n₀) (hx : N x) (hv : Visible s e x f b) :
    Visible s' e x f b := by
  induction hv with
  | here hb =>
    obtain ⟨r, hr⟩ := localB_some hb
    exact .here ((h.env he hr _ hx).1.trans hb)
  | up hn hp _ ih =>
    obtain ⟨r, hr, hrp⟩ := parentOf_some hp
    have := h.env he hr _ hx
    exact .up (this.1.trans hn) (this.2.1.trans hp) (ih (Nat.lt_trans (hw _ _ _ hr hrp) he) hx)

/-! ### The textbook language -/

/-- The names a program depends on. -/
def _root_.Golisp.Spec.Dependence (Γ : Defs) (x : String) : Prop := x ∈ pureForms ∨ x ∈ purePrims ∨ Γ x ≠ none

variable {C : Conf} {Γ : Defs} {ρ : Vars} {g e : Nat}

theorem means_others (h : Others n₀ N K s s') (hw : WF s) (hg : g < n₀) {r : EnvRec} (hr : s.envs[g]? = some r) (hf : r.frame = none) {x : String} (hx : N x)
    (hm : Means C s g x) : Means C s' g x := by
  obtain ⟨⟨f, p, hv⟩, _, hs⟩ := hm
  obtain ⟨r', h1, h2, h3, -⟩ := h.shared g r hg hr
  exact ⟨⟨f, p, h.visible hw hg hx hv⟩, fun _ => noSlot_of (by simp [Store.frameOf, h1, h3, hf]) x, hs⟩

theorem implements_others (hi : Implements C Γ s g) (h : Others n₀ (Dependence Γ) K s s') (hw : WF s) (hg : g < n₀) : Implements C Γ s' g := by
  obtain ⟨r, hr, hf⟩ := hi.exists_
  obtain ⟨r', h1, h2, h3, -⟩ := h.shared g r hg hr
  refine ⟨⟨r', h1, h3.trans hf⟩, fun x hx => means_others h hw hg hr hf (.inl hx) (hi.forms x hx),
    fun x hx hΓ => means_others h hw hg hr hf (.inr (.inl hx)) (hi.prims x hx hΓ), hi.names, fun f D hD => ?_⟩
  obtain ⟨i, fr, k, p, h4, h5, h6, h7, h8⟩ := hi.functions f D hD
  obtain ⟨b, hb⟩ := h.fns i fr h5
  exact ⟨i, _, k, p, h.visible hw hg (.inr (.inr (by simp [hD]))) h4, hb, h6, h7, h8⟩

/-- Environment `e` holds the local variables, in environments the thread owns, somewhere below `g`. -/
inductive Scope (K : List Nat) (s : Store) (g : Nat) : Vars → Nat → Prop where
  | top : Scope K s g noVars g
  | child {new ρ p e} : Scope K s g ρ p → e ∈ K → s.parentOf e = some p → s.frameOf e = none →
      (∀ x, x ≠ "self" → s.localB e x = (new x).map (⟨·, false⟩)) → Scope K s g (inner new ρ) e

theorem Scope.inside (h : Scope K s g ρ e) : Inside s g ρ e := by
  induction h with
  | top => exact .top
  | child _ _ hp hf hl ih => exact .child ih hp hf hl

theorem Scope.others (h : Scope K s g ρ e) (ho : Others n₀ N K s s') (hk : ∀ e ∈ K, e ∈ K') : Scope K' s' g ρ e := by
  induction h with
  | top => exact .top
  | child _ he hp hf hl ih =>
    obtain ⟨r, hr, hrp⟩ := parentOf_some hp
    have hr' := ho.own _ _ he hr
    refine .child ih (hk _ he) (by simp [Store.parentOf, hr', hrp]) ?_ fun x hx => ?_
    · simp only [Store.frameOf, hr, hr'] at hf ⊢; exact hf
    · rw [← hl x hx]; simp only [Store.localB, hr, hr']

/-- A program of the thread gives the value, in every state in which the program and the variables are there, and leaves alone
what was there. -/
def Post (n₀ : Nat) (N : String → Prop) (K : List Nat) (s : Store) {α : Type} (v : α) (K' : List Nat) (s' : Store) (a : α) : Prop :=
  a = v ∧ (∀ e ∈ K, e ∈ K') ∧ Holds n₀ K' s' ∧ Others n₀ N K s s'

def YieldsP (C : Conf) (Γ : Defs) (n₀ g : Nat) (ρ : Vars) {α : Type} (P : Nat → Prog α) (v : α) : Prop :=
  ∃ n, ∀ (K : List Nat) (s : Store) (e : Nat), Holds n₀ K s → Implements C Γ s g → Scope K s g ρ e →
    Safe (Ev.body C) n₀ (Dependence Γ) (Post n₀ (Dependence Γ) K s v) n K s (P e)

/-- The expression has the value. -/
def Yields (C : Conf) (Γ : Defs) (n₀ g : Nat) (ρ : Vars) (d v : Data) : Prop :=
  YieldsP C Γ n₀ g ρ (fun e => Ev.body C (.eval false d e)) v

theorem post_refl {v : α} (h : Holds n₀ K s) : Post n₀ N K s v K s v := ⟨rfl, fun _ h => h, h, .refl s⟩

theorem yieldsP_pure {v : α} : YieldsP C Γ n₀ g ρ (fun _ => pure v) v := ⟨0, fun _ _ _ hh _ _ => safe_pure (post_refl hh)⟩

theorem Post.after {v : α} {w : β} {K'' : List Nat} {a : β} (h : Post n₀ N K s v K' s' (v : α)) (h' : Post n₀ N K' s' w K'' s₂ a) : Post n₀ N K s w K'' s₂ a := by
  obtain ⟨-, h2, h3, h4⟩ := h
  obtain ⟨h5, h6, h7, h8⟩ := h'
  exact ⟨h5, fun e he => h6 e (h2 e he), h7, h4.trans (h8.sub h2)⟩

section
variable (hg : g < n₀)
include hg

/-- One after the other. -/
theorem YieldsP.bind {P : Nat → Prog α} {v : α} {F : α → Nat → Prog β} {w : β} (h : YieldsP C Γ n₀ g ρ P v) (h' : YieldsP C Γ n₀ g ρ (F v) w) :
    YieldsP C Γ n₀ g ρ (fun e => P e >>= fun a => F a e) w := by
  obtain ⟨n, h⟩ := h
  obtain ⟨m, h'⟩ := h'
  refine ⟨n + m, fun K s e hh hi hs => Safe.bind ((h K s e hh hi hs).weaken ?_)⟩
  rintro K' s' a ⟨rfl, h2, h3, h4⟩
  exact (h' K' s' e h3 (implements_others hi h4 hh.wf hg) (hs.others h4 h2)).weaken fun K'' s'' b hb => Post.after (v := a) ⟨rfl, h2, h3, h4⟩ hb

theorem YieldsP.get {F : Store → Nat → Prog Data} {v : Data} {n : Nat} (h : ∀ (K : List Nat) (s : Store) (e : Nat), Holds n₀ K s → Implements C Γ s g → Scope K s g ρ e →
    Safe (Ev.body C) n₀ (Dependence Γ) (Post n₀ (Dependence Γ) K s v) n K s (F s e)) : YieldsP C Γ n₀ g ρ (fun e => .get fun s => F s e) v := by
  refine ⟨n + 1, fun K s e hh hi hs => .get fun s' ho => ?_⟩
  exact (h K s' e (hh.others ho) (implements_others hi ho hh.wf hg) (hs.others ho fun _ h => h)).weaken fun K' s'' a ⟨h1, h2, h3, h4⟩ => ⟨h1, h2, h3, ho.trans h4⟩

omit hg in
theorem Yields.eval {d v : Data} (h : Yields C Γ n₀ g ρ d v) : YieldsP C Γ n₀ g ρ (fun e => Prog.eval d e) v := by
  obtain ⟨n, h⟩ := h
  exact ⟨n + 1, fun K s e hh hi hs => safe_call (h K s e hh hi hs)⟩

omit hg in
/-- A name, whatever it stands for. -/
theorem safe_valueOf {H : Host} {need : Bool} {x : String} {v : Data} {Q : List Nat → Store → Data → Prop}
    (h : ∀ s', Others n₀ N K s s' → WF s' ∧ s'.frameOf e = none ∧ (∃ f p, Visible s' e x f ⟨v, p⟩) ∧ ∀ b, Safe body n₀ N Q n K s' (markFn v b)) :
    Safe body n₀ N Q (n + 1) K s (valueOf H need x e) := by
  refine .get fun s' ho => ?_
  obtain ⟨hw, hf, ⟨f, p, hv⟩, hm⟩ := h s' ho
  cases hb : s'.localB e x with
  | some b =>
    obtain ⟨-, hbe⟩ := hv.unique (.here hb)
    subst hbe
    exact hm true
  | none =>
    simp only [slotOf_noSlot (noSlot_of hf x), (find_iff hw).mpr hv]
    exact hm false

end

end Golisp.Ev.Rely
