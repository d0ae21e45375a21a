import Verif.RelyPure
import Verif.Demo
/-
Several evaluations at once (C90, C91).

C90: what holds under every interleaving of the steps of any number of threads, whatever they evaluate and whenever they
start.  C91: code that writes nothing shared computes the same value whatever the schedule; the mark that function objects carry breaks
this in general, and it is proved for the pure expressions of C75.
-/
namespace Golisp.Spec
open Golisp Data Ev

/-- The read-modify-write accesses to word `a`, in the order of the execution: the function applied, and the answer. -/
def accesses (a : Nat) : List (Nat × Event) → List ((BitVec 64 → BitVec 64) × Out Nat)
  | [] => []
  | (_, some (.rmw b f, r)) :: tr => if b = a then (f, r) :: accesses a tr else accesses a tr
  | _ :: tr => accesses a tr

/-- A register that answers each access with its content at that moment. -/
inductive Register : BitVec 64 → List ((BitVec 64 → BitVec 64) × Out Nat) → BitVec 64 → Prop where
  | nil {w} : Register w [] w
  | access {w f h w'} : Register (f w) h w' → Register w ((f, .ok w.toNat) :: h) w'

/-- Each access adds a number. -/
inductive Additions : List ((BitVec 64 → BitVec 64) × Out Nat) → List (BitVec 64) → Prop where
  | nil : Additions [] []
  | add {d h r ds} : Additions h ds → Additions ((fun w => w + d, r) :: h) (d :: ds)

/-- Each access tries to exchange `old` for something else; the list says what. -/
inductive Exchanges (old : BitVec 64) : List ((BitVec 64 → BitVec 64) × Out Nat) → Prop where
  | nil : Exchanges old []
  | exchange {new h r} : new ≠ old → Exchanges old h → Exchanges old ((fun w => if w = old then new else w, r) :: h)

/-- How many of the accesses found `old`. -/
def found (old : BitVec 64) (h : List ((BitVec 64 → BitVec 64) × Out Nat)) : Nat := h.countP fun x => x.2 == .ok old.toNat

end Golisp.Spec

namespace Golisp.Ev.Rely
open Golisp Data Spec

variable {body : Call → Prog Data} {P P' : Pool} {tr : List (Nat × Event)}

/-- An execution cut in two. -/
theorem exec_split {l l' : List (Nat × Event)} (h : Exec body P tr P') : tr = l ++ l' → ∃ P₁, Exec body P l P₁ ∧ Exec body P₁ l' P' := by
  induction h generalizing l with
  | @done P => intro he; obtain ⟨rfl, rfl⟩ := List.append_eq_nil_iff.mp he.symm; exact ⟨P, .done, .done⟩
  | start c _ ih => intro he; obtain ⟨P₁, h1, h2⟩ := ih he; exact ⟨P₁, .start c h1, h2⟩
  | @move P i p ev q t tr P' hp hs h ih =>
    intro he
    cases l with
    | nil => cases he; exact ⟨P, .done, .move hp hs h⟩
    | cons x l =>
      injection he with h1 h2
      subst h1
      obtain ⟨P₁, h3, h4⟩ := ih h2
      exact ⟨P₁, .move hp hs h3, h4⟩

/-- The first step of an execution. -/
theorem exec_first {x : Nat × Event} (h : Exec body P tr P') {tr' : List (Nat × Event)} : tr = x :: tr' →
    ∃ P₁, Exec body P₁ tr' P' ∧ ((x.2 = none ∧ P₁.state = P.state) ∨ ∃ o, x.2 = some (o, (o.run P.state).1) ∧ P₁.state = (o.run P.state).2) := by
  induction h with
  | done => nofun
  | start c _ ih => exact ih
  | @move P i p ev q t tr P' hp hs h ih =>
    rintro ⟨⟩
    exact ⟨_, h, step_event hs⟩

theorem words_op {o : Op} {s : Store} {a : Nat} {w : BitVec 64} (h : s.words[a]? = some w) :
    (o.run s).2.words[a]? = some (match o with | .rmw b f => if b = a then f w else w | _ => w) := by
  cases o with
  | newEnv p f name => simp only [Op.run]; split <;> exact h
  | bind e x v => simp only [Op.run, Store.putVal]; repeat' split
                  all_goals exact h
  | assign e x v => simp only [Op.run, Store.putVal]; repeat' split
                    all_goals exact h
  | assignRaw e x v => simp only [Op.run, Store.putVal]; repeat' split
                       all_goals exact h
  | flag f b => simp only [Op.run]; split <;> exact h
  | restrict e => simp only [Op.run]; split <;> exact h
  | newWord v => exact getElem?_append_of_some h _
  | rmw b f =>
    simp only [Op.run]
    by_cases hb : b = a
    · subst hb
      obtain ⟨hl, hw⟩ := List.getElem?_eq_some_iff.mp h
      simp [hl, hw]
    · simp [hb, h]
  | _ => exact h

theorem stdout_op (o : Op) (s : Store) : s.stdout <+: (o.run s).2.stdout := by
  cases o with
  | print t => exact List.prefix_append _ _
  | newEnv p f name => simp only [Op.run]; split <;> exact List.prefix_refl _
  | bind e x v => simp only [Op.run, Store.putVal]; repeat' split
                  all_goals exact List.prefix_refl _
  | assign e x v => simp only [Op.run, Store.putVal]; repeat' split
                    all_goals exact List.prefix_refl _
  | assignRaw e x v => simp only [Op.run, Store.putVal]; repeat' split
                       all_goals exact List.prefix_refl _
  | flag f b => simp only [Op.run]; split <;> exact List.prefix_refl _
  | restrict e => simp only [Op.run]; split <;> exact List.prefix_refl _
  | _ => exact List.prefix_refl _

theorem keeps_stdout : Keeps fun s s' => s.stdout <+: s'.stdout := ⟨fun _ => List.prefix_refl _, fun h h' => h.trans h', stdout_op⟩

/-- A run of one step that starts no thread of its own. -/
theorem step_of_progress {i : Nat} {p : Prog Data} (hp : P.threads[i]? = some p) :
    (∃ r, Finished p r) ∨ ∃ ev P', Exec body P [(i, ev)] P' ∧ P'.threads.length = P.threads.length := by
  cases p with
  | ret v => exact .inl ⟨_, .ret⟩
  | err e => exact .inl ⟨_, .err⟩
  | panic => exact .inl ⟨_, .panic⟩
  | _ => exact .inr ⟨_, _, .move hp rfl .done, by simp⟩

/-- Without new threads only the threads there are move. -/
theorem exec_indices (h : Exec body P tr P') : P'.threads.length = P.threads.length → ∀ x ∈ tr, x.1 < P.threads.length := by
  induction h with
  | done => intro _ x hx; simp at hx
  | @start P tr P' c h _ => intro hl; have := exec_length h; simp at this; omega
  | @move P i p ev q t tr P' hp hs h ih =>
    intro hl x hx
    rcases List.mem_cons.mp hx with rfl | hx
    · exact (List.getElem?_eq_some_iff.mp hp).1
    · simpa using ih (by simpa using hl) x hx

/-- A finished thread has no step; any other has. -/
theorem step_or_finished (p : Prog Data) (s : Store) : (∃ r, Finished p r) ∨ (step body p s).isSome := by
  cases p with
  | ret v => exact .inl ⟨_, .ret⟩
  | err e => exact .inl ⟨_, .err⟩
  | panic => exact .inl ⟨_, .panic⟩
  | _ => exact .inr rfl

end Golisp.Ev.Rely

namespace Golisp.Props
open Golisp Data Ev Ev.Rely Spec

variable {C : Conf} {P P' : Pool} {tr : List (Nat × Event)}

/-! ## C90 -/

/-- A single thread, stepping, computes what the evaluator computes. -/
theorem C90_alone {d : Data} {e : Nat} {s s' : Store} {r : Out Data} :
    Evals C d e s r s' ↔ ∃ tr q, Exec (body C) ⟨[body C (.eval false d e)], s⟩ tr ⟨[q], s'⟩ ∧ Finished q r := by
  rw [Evals, runs_iff, steps_iff]
  constructor
  · rintro ⟨n, q, h, hq⟩
    obtain ⟨tr, ht⟩ := exec_of_steps h
    exact ⟨tr, q, ht, hq⟩
  · rintro ⟨tr, q, h, hq⟩
    obtain ⟨n, hn⟩ := steps_of_exec h rfl rfl
    exact ⟨n, q, hn, hq⟩

/-- No thread is ever blocked: it has ended or it can take a step. -/
theorem C90_progress {i : Nat} {p : Prog Data} (hp : P.threads[i]? = some p) :
    (∃ r, Finished p r) ∨ ∃ ev P', Exec (body C) P [(i, ev)] P' := by
  rcases step_or_finished (body := body C) p P.state with h | h
  · exact .inl h
  · obtain ⟨⟨ev, q, t⟩, hs⟩ := Option.isSome_iff_exists.mp h
    exact .inr ⟨ev, _, .move hp hs .done⟩

/-- Whatever runs concurrently: environments keep their parents, so that scopes are a forest; an environment keeps its name and
its frame; a restricted one stays restricted; a bound name stays bound and keeps its protection mark; a function keeps its
parameters, its body and its environment; a macro stays as it is; frames do not disappear; what is written stays written; and a protected
binding changes only by `environment-assign!`. -/
theorem C90_invariants (h : Exec (body C) P tr P') :
    (WF P.state → WF P'.state) ∧
    (∀ (e : Nat) (r : EnvRec), P.state.envs[e]? = some r → ∃ r' : EnvRec, P'.state.envs[e]? = some r' ∧ r'.parent = r.parent ∧ r'.name = r.name ∧
      r'.frame = r.frame ∧ (r.restricted = true → r'.restricted = true)) ∧
    (∀ (e : Nat) (x : String) (b : Binding), P.state.localB e x = some b → ∃ b', P'.state.localB e x = some b' ∧ b'.prot = b.prot) ∧
    (∀ (e : Nat) (x : String) (b : Binding), P.state.localB e x = some b → b.prot = true → (e, x) ∈ P'.state.raw ∨ P'.state.localB e x = some b) ∧
    (∀ (f : Nat) (r : FnRec), P.state.fns[f]? = some r →
      ∃ r' : FnRec, P'.state.fns[f]? = some r' ∧ r'.params = r.params ∧ r'.body = r.body ∧ r'.env = r.env ∧ r'.name = r.name) ∧
    (∀ (m : Nat) (r : MacRec), P.state.macs[m]? = some r → P'.state.macs[m]? = some r) ∧
    P.state.frames.length ≤ P'.state.frames.length ∧ P.state.out <+: P'.state.out ∧ P.state.stdout <+: P'.state.stdout := by
  have hg := exec_keeps keeps_grows h
  refine ⟨exec_keeps keeps_WF h, fun e r hr => ?_, fun e x b hb => ?_, hg.prot, fun f r hr => ?_, hg.macs, hg.frames, hg.out, exec_keeps keeps_stdout h⟩
  · obtain ⟨r', h1, h2⟩ := hg.envs e r hr
    exact ⟨r', h1, h2.parent, h2.name, h2.frame, h2.restricted⟩
  · obtain ⟨r, hr⟩ := localB_some hb
    obtain ⟨r', h1, h2⟩ := hg.envs e r hr
    simp only [Store.localB, hr] at hb
    obtain ⟨b', h3, h4⟩ := h2.binds x b hb
    exact ⟨b', by simp only [Store.localB, h1, h3], h4⟩
  · obtain ⟨b, hb⟩ := hg.fns f r hr
    exact ⟨_, hb, rfl, rfl, rfl, rfl⟩

/-- Two `gensym`s with one prefix, by whichever threads, never give the same symbol: the later one has the larger number. -/
theorem C90_gensym (h : Exec (body C) P tr P') {l₁ l₂ l₃ : List (Nat × Event)} {i j : Nat} {p : String} {n m : Nat}
    (ht : tr = l₁ ++ (i, some (.gensym p, .ok n)) :: (l₂ ++ (j, some (.gensym p, .ok m)) :: l₃)) : n < m := by
  obtain ⟨P₁, -, h1⟩ := exec_split h ht
  obtain ⟨P₂, h2, he⟩ := exec_first h1 rfl
  obtain ⟨P₃, h3, h4⟩ := exec_split h2 rfl
  obtain ⟨P₄, -, he'⟩ := exec_first h4 rfl
  rcases he with ⟨he, -⟩ | ⟨o, he, hs⟩
  · cases he
  rcases he' with ⟨he', -⟩ | ⟨o', he', hs'⟩
  · cases he'
  simp only [Option.some.injEq, Prod.mk.injEq] at he he'
  obtain ⟨rfl, he⟩ := he
  obtain ⟨rfl, he'⟩ := he'
  simp only [Op.run, Out.ok.injEq] at he he' hs
  have hg := (exec_keeps keeps_grows h3).gens p
  rw [hs] at hg
  simp only [alGet_set, if_true, Option.getD_some] at hg
  omega

/-- The word of an atomic object behaves as a register under every interleaving: each access is answered with the content that the earlier ones
left, and the content at the end is what they left together. -/
theorem C90_register (h : Exec (body C) P tr P') {a : Nat} : ∀ {w : BitVec 64}, P.state.words[a]? = some w →
    ∃ w', P'.state.words[a]? = some w' ∧ Register w (accesses a tr) w' := by
  induction h with
  | done => intro w hw; exact ⟨w, hw, .nil⟩
  | start c _ ih => exact ih
  | @move P i p ev q t tr P' hp hs _ ih =>
    intro w hw
    rcases step_event hs with ⟨rfl, rfl⟩ | ⟨o, rfl, rfl⟩
    · exact ih hw
    · have := words_op (o := o) hw
      obtain ⟨w', h1, h2⟩ := ih this
      refine ⟨w', h1, ?_⟩
      cases o with
      | rmw b f =>
        simp only [accesses]
        by_cases hb : b = a
        · subst hb
          simp only [if_true] at h2 ⊢
          have : (Op.run (.rmw b f) P.state).1 = .ok w.toNat := by simp [Op.run, hw]
          rw [this]
          exact .access h2
        · simpa only [hb, if_false] using h2
      | _ => exact h2

/-- Additions by any number of threads are all counted. -/
theorem C90_counter (h : Exec (body C) P tr P') {a : Nat} {w : BitVec 64} (hw : P.state.words[a]? = some w) {ds : List (BitVec 64)}
    (hd : Additions (accesses a tr) ds) : P'.state.words[a]? = some (ds.foldl (· + ·) w) := by
  obtain ⟨w', h1, h2⟩ := C90_register h hw
  rw [h1]
  congr 1
  clear h1 hw
  generalize accesses a tr = l at hd h2
  induction hd generalizing w with
  | nil => cases h2; rfl
  | add _ ih => cases h2 with | access h2 => exact ih h2

/-- Of several attempts to exchange the same old value for others, by whichever threads, at most one finds it. -/
theorem C90_exchange (h : Exec (body C) P tr P') {a : Nat} {w old : BitVec 64} (hw : P.state.words[a]? = some w)
    (hd : Exchanges old (accesses a tr)) : found old (accesses a tr) ≤ 1 := by
  obtain ⟨w', -, h2⟩ := C90_register h hw
  clear hw
  generalize accesses a tr = l at hd h2
  have key : ∀ l (v : BitVec 64), v ≠ old → Exchanges old l → Register v l w' → found old l = 0 := by
    intro l
    induction l with
    | nil => intros; rfl
    | cons x l ih =>
      intro v hv hx hr
      cases hx with
      | exchange hn hx =>
        cases hr with
        | access hr =>
          simp only [hv, if_false] at hr
          have := ih v hv hx hr
          have hne : (Out.ok v.toNat == Out.ok old.toNat) = false := by
            rw [beq_eq_false_iff_ne]; intro h; exact hv (BitVec.eq_of_toNat_eq (by simpa using h))
          simp only [found, List.countP_cons, hne] at this ⊢
          simpa using this
  induction hd generalizing w with
  | nil => simp [found]
  | @exchange new l r hn hx ih =>
    cases h2 with
    | access h2 =>
      by_cases hv : w = old
      · subst hv
        simp only [if_true] at h2
        have := key l _ hn hx h2
        simp only [found, List.countP_cons] at this ⊢
        split <;> omega
      · simp only [hv, if_false] at h2
        have := ih h2
        have hne : (Out.ok w.toNat == Out.ok old.toNat) = false := by
          rw [beq_eq_false_iff_ne]; intro h; exact hv (BitVec.eq_of_toNat_eq (by simpa using h))
        simp only [found, List.countP_cons, hne] at this ⊢
        simpa using this

/-! ## C91 -/

/-- What the proof needs of a thread that evaluates a pure expression. -/
theorem pure_safe {Γ : Defs} {s : Store} {g : Nat} {d v : Data} (hw : WF s) (hi : Implements C Γ s g) (hv : Value Γ noVars d v) :
    ∃ n, Safe (body C) s.envs.length (Dependence Γ) (fun _ _ a => a = v) n [] s (body C (.eval false d g)) := by
  obtain ⟨r, hr, -⟩ := hi.exists_
  obtain ⟨n, hn⟩ := (core (C := C) (List.getElem?_eq_some_iff.mp hr).1 hv).yields
  exact ⟨n, (hn [] s g ⟨hw, Nat.le_refl _, by simp⟩ hi .top).weaken fun _ _ _ h => h.1⟩

theorem values_length {Γ : Defs} {ρ : Vars} {ds vs : List Data} (h : Values Γ ρ ds vs) : ds.length = vs.length := by
  induction ds generalizing vs with
  | nil => cases h; rfl
  | cons d ds ih => cases h with | cons _ h => simp [ih h]

theorem values_each {Γ : Defs} {ρ : Vars} {ds vs : List Data} (h : Values Γ ρ ds vs) (i : Nat) (d : Data) (hd : ds[i]? = some d) :
    ∃ v, vs[i]? = some v ∧ Value Γ ρ d v := by
  induction ds generalizing vs i with
  | nil => simp at hd
  | cons d' ds ih =>
    cases h with
    | cons h1 h2 =>
      cases i with
      | zero => cases hd; exact ⟨_, rfl, h1⟩
      | succ i => exact ih h2 i hd

theorem Safe.end_ {n₀ : Nat} {N : String → Prop} {K : List Nat} {s : Store} {n : Nat} {q : Prog Data} {v : Data}
    (h : Safe (body C) n₀ N (fun _ _ a => a = v) n K s q) : (∀ r, Finished q r → r = .ok v) ∧ (n = 0 → Finished q (.ok v)) := by
  cases h with
  | ret h => subst h; exact ⟨fun r hr => by cases hr; rfl, fun _ => .ret⟩
  | get h => exact ⟨fun r hr => (by cases hr), fun h => (by cases h)⟩
  | act h => exact ⟨fun r hr => (by cases hr), fun h => (by cases h)⟩
  | call h => exact ⟨fun r hr => (by cases hr), fun h => (by cases h)⟩

/-- A thread that evaluates a pure expression, among any others that only change environments of their own, or names that the
expression does not depend on: there is a bound on its steps, the same for all schedules and all the others might do; when it has ended
it has the value of the expression; and with all its steps taken it has ended. -/
theorem C91_partial {Γ : Defs} {g j : Nat} {d v : Data} (hw : WF P.state) (hi : Implements C Γ P.state g) (hv : Value Γ noVars d v)
    (hj : P.threads[j]? = some (body C (.eval false d g))) :
    ∃ B, ∀ tr P', Exec (body C) P tr P' → PoliteTrace P.state.envs.length (Dependence Γ) (· ≠ j) (fun _ => []) tr →
      moves j tr ≤ B ∧ ∃ q, P'.threads[j]? = some q ∧ (∀ r, Finished q r → r = .ok v) ∧ (moves j tr = B → Finished q (.ok v)) := by
  obtain ⟨B, hB⟩ := pure_safe hw hi hv
  refine ⟨B, fun tr P' h hp => ?_⟩
  obtain ⟨q, K, m, h1, h2, h3⟩ := exec_safe (Q := fun _ _ a => a = v) (fun _ _ _ _ h _ => h) h (Ks := fun _ => [])
    ⟨by simp, Nat.le_refl _, by simp⟩ hp hj hB
  exact ⟨by omega, q, h1, (Safe.end_ h2).1, fun he => (Safe.end_ h2).2 (by omega)⟩

/-- Threads that all evaluate pure expressions need no such assumption about each other.  However they are scheduled they end
after a bounded number of steps, each with the value of its expression. -/
theorem C91_pool_partial {Γ : Defs} {g : Nat} {s : Store} {ds vs : List Data} (hw : WF s) (hi : Implements C Γ s g) (hv : Values Γ noVars ds vs) :
    ∃ B, ∀ tr P', Exec (body C) ⟨ds.map fun d => body C (.eval false d g), s⟩ tr P' → P'.threads.length = ds.length →
      tr.length ≤ B ∧ ∀ (i : Nat) (v : Data), vs[i]? = some v → ∃ q, P'.threads[i]? = some q ∧ ∀ r, Finished q r → r = .ok v := by
  have hlen := values_length hv
  have hel := values_each hv
  have hsafe : ∀ i : Nat, ∃ n : Nat, ∀ p : Prog Data, (ds.map fun d => body C (.eval false d g))[i]? = some p →
      Safe (body C) s.envs.length (Dependence Γ) (fun _ _ a => vs[i]? = some a) n [] s p := by
    intro i
    cases hd : ds[i]? with
    | none => exact ⟨0, fun p hp => by simp [hd] at hp⟩
    | some d =>
      obtain ⟨v, hvi, hv⟩ := hel i d hd
      obtain ⟨n, hn⟩ := pure_safe (C := C) hw hi hv
      refine ⟨n, fun p hp => ?_⟩
      simp only [List.getElem?_map, hd, Option.map_some, Option.some.injEq] at hp
      subst hp
      exact hn.weaken fun _ _ a h => by rw [hvi, h]
  let ns : Nat → Nat := fun i => (hsafe i).choose
  have hns : ∀ i p, (ds.map fun d => body C (.eval false d g))[i]? = some p →
      Safe (body C) s.envs.length (Dependence Γ) (fun _ _ a => vs[i]? = some a) (ns i) [] s p := fun i => (hsafe i).choose_spec
  have hO : Owns s.envs.length (fun _ => []) s := ⟨by simp, Nat.le_refl _, by simp⟩
  refine ⟨((List.range ds.length).map ns).sum, fun tr P' h hl => ?_⟩
  have hpol := polite_of_safe (Q := fun i _ _ a => vs[i]? = some a) (fun _ _ _ _ _ h _ => h) h (by simpa using hl) hO hns
  have hth : ∀ i d, ds[i]? = some d → ∃ q K m, P'.threads[i]? = some q ∧
      Safe (body C) s.envs.length (Dependence Γ) (fun _ _ a => vs[i]? = some a) m K P'.state q ∧ moves i tr + m ≤ ns i := by
    intro i d hd
    have hp : (ds.map fun d => body C (.eval false d g))[i]? = some (body C (.eval false d g)) := by simp [hd]
    exact exec_safe (fun _ _ _ _ h _ => h) h hO (PoliteTrace.sub hpol fun _ _ => trivial) hp (hns i _ hp)
  refine ⟨?_, fun i v hvi => ?_⟩
  · have := exec_total h (by simpa using hl) (B := ns) fun i => ?_
    · simpa using this
    · cases hd : ds[i]? with
      | some d => obtain ⟨q, K, m, -, -, h3⟩ := hth i d hd; omega
      | none =>
        have : moves i tr = 0 := by
          refine List.countP_eq_zero.mpr fun x hx hxi => ?_
          have := exec_indices h (by simpa using hl) x hx
          simp at hxi this
          rw [List.getElem?_eq_none_iff] at hd
          omega
        omega
  · have hi' : i < ds.length := by rw [hlen]; exact (List.getElem?_eq_some_iff.mp hvi).1
    obtain ⟨q, K, m, h1, h2, -⟩ := hth i ds[i] (List.getElem?_eq_getElem hi')
    exact ⟨q, h1, (Safe.end_ (h2.weaken (Q' := fun _ _ a => a = v) fun _ _ a h => by rw [hvi] at h; exact (Option.some.inj h).symm)).1⟩

/-- And they can all end: an execution in which every thread has its value exists. -/
theorem C91_ends_partial {Γ : Defs} {g : Nat} {s : Store} {ds vs : List Data} (hw : WF s) (hi : Implements C Γ s g) (hv : Values Γ noVars ds vs) :
    ∃ tr s', Exec (body C) ⟨ds.map fun d => body C (.eval false d g), s⟩ tr ⟨vs.map .ret, s'⟩ := by
  have hlen := values_length hv
  obtain ⟨B, hB⟩ := C91_pool_partial hw hi hv
  have key : ∀ k tr P', Exec (body C) ⟨ds.map fun d => body C (.eval false d g), s⟩ tr P' → P'.threads.length = ds.length → B ≤ tr.length + k →
      ∃ tr s', Exec (body C) ⟨ds.map fun d => body C (.eval false d g), s⟩ tr ⟨vs.map .ret, s'⟩ := by
    intro k
    induction k with
    | zero =>
      intro tr P' h hl hk
      refine ⟨tr, P'.state, ?_⟩
      have : P'.threads = vs.map .ret := by
        refine List.ext_getElem? fun i => ?_
        cases hvi : vs[i]? with
        | none =>
          simp only [List.getElem?_map, hvi, Option.map_none]
          rw [List.getElem?_eq_none_iff] at hvi ⊢
          omega
        | some v =>
          obtain ⟨q, h1, h2⟩ := (hB tr P' h hl).2 i v hvi
          simp only [List.getElem?_map, hvi, Option.map_some, h1, Option.some.injEq]
          rcases step_of_progress (body := body C) h1 with ⟨r, hr⟩ | ⟨ev, P₂, h3, h4⟩
          · have := h2 r hr
            subst this
            cases hr; rfl
          · have := (hB _ P₂ (h.trans h3) (h4.trans hl)).1
            simp at this; omega
      obtain ⟨ts, st⟩ := P'
      simp only at this
      subst this
      exact h
    | succ k ih =>
      intro tr P' h hl hk
      by_cases hst : ∃ (i : Nat) (p : Prog Data), P'.threads[i]? = some p ∧ ∀ r, ¬ Finished p r
      · obtain ⟨i, p, hp, hn⟩ := hst
        rcases step_of_progress (body := body C) hp with ⟨r, hr⟩ | ⟨ev, P₂, h3, h4⟩
        · exact absurd hr (hn r)
        · exact ih _ P₂ (h.trans h3) (h4.trans hl) (by simp; omega)
      · refine ⟨tr, P'.state, ?_⟩
        have : P'.threads = vs.map .ret := by
          refine List.ext_getElem? fun i => ?_
          cases hvi : vs[i]? with
          | none =>
            simp only [List.getElem?_map, hvi, Option.map_none]
            rw [List.getElem?_eq_none_iff] at hvi ⊢
            omega
          | some v =>
            obtain ⟨q, h1, h2⟩ := (hB tr P' h hl).2 i v hvi
            simp only [List.getElem?_map, hvi, Option.map_some, h1, Option.some.injEq]
            have : ∃ r, Finished q r := Classical.byContradiction fun hc => hst ⟨i, q, h1, fun r hr => hc ⟨r, hr⟩⟩
            obtain ⟨r, hr⟩ := this
            have := h2 r hr
            subst this
            cases hr; rfl
        obtain ⟨ts, st⟩ := P'
        simp only at this
        subst this
        exact h
  exact key B [] _ .done (by simp) (by simp)

/-! ### Concrete executions -/

/-- How a thread has ended, if it has. -/
def outcome : Prog Data → Option (Out Data)
  | .ret v => some (.ok v)
  | .err e => some (.err e)
  | .panic => some .panic
  | _ => none

theorem finished_iff {p : Prog Data} {r : Out Data} : Finished p r ↔ outcome p = some r := by
  constructor
  · intro h; cases h <;> rfl
  · intro h
    cases p with
    | ret v => cases h; exact .ret
    | err e => cases h; exact .err
    | panic => cases h; exact .panic
    | _ => cases h

namespace Demo
open Golisp.Demo

/-- Threads that evaluate these texts at top level. -/
def pool (s : Store) (srcs : List String) : Pool := ⟨srcs.map fun x => body Demo.C (.eval false (code x) 1), s⟩

/-- The execution, scheduled so, ends with these outcomes; and a variable then has a value. -/
def Threads (s : Store) (srcs : List String) (is : List Nat) (rs : List (Out Data)) (x : String) (v : Option Data) : Prop :=
  ∃ tr P', Exec (body Demo.C) (pool s srcs) tr P' ∧ tr.map (·.1) = is ∧ P'.threads.map outcome = rs.map some ∧ (P'.state.localB 1 x).map (·.val) = v

theorem threads {s : Store} {srcs : List String} {is : List Nat} {rs : List (Out Data)} {x : String} {v : Option Data}
    (h : (follow (body Demo.C) is (pool s srcs)).map (fun P => (P.threads.map outcome, (P.state.localB 1 x).map (·.val))) = some (rs.map some, v)) :
    Threads s srcs is rs x v := by
  cases hf : follow (body Demo.C) is (pool s srcs) with
  | none => simp [hf] at h
  | some P' =>
    simp only [hf, Option.map_some, Option.some.injEq, Prod.mk.injEq] at h
    obtain ⟨tr, h1, h2⟩ := exec_follow hf
    exact ⟨tr, P', h1, h2, h.1, h.2⟩

/-- Two threads that count with `set!`: one after the other, and with an update lost. -/
example : Threads (run 5 "(define n 0)").2 ["(set! n (+ n 1))", "(set! n (+ n 1))"] (List.replicate 12 0 ++ List.replicate 12 1) [.ok (int 1), .ok (int 2)] "n" (some (int 2)) :=
  threads (by decide +kernel)
example : Threads (run 5 "(define n 0)").2 ["(set! n (+ n 1))", "(set! n (+ n 1))"] (List.replicate 9 0 ++ List.replicate 12 1 ++ List.replicate 3 0)
    [.ok (int 1), .ok (int 1)] "n" (some (int 1)) := threads (by decide +kernel)

/-- The actions of an execution, named: enough of them for the examples. -/
def acts : List (Nat × Event) → List (Nat × String × Out Nat)
  | [] => []
  | (i, some (.gensym p, r)) :: tr => (i, p, r) :: acts tr
  | (i, some (.rmw _ _, r)) :: tr => (i, "rmw", r) :: acts tr
  | _ :: tr => acts tr

/-- Two threads that make symbols, and two that count with an atomic object: nothing is lost. -/
example : (record (body Demo.C) (List.replicate 4 0 ++ List.replicate 5 1 ++ List.replicate 1 0) (pool Demo.s ["(gensym \"a\")", "(gensym \"a\")"])).map (fun x => (acts x.1, x.2.threads.map outcome)) =
    some ([(1, "a", .ok 0), (0, "a", .ok 1)], [some (.ok (.sym "a-1")), some (.ok (.sym "a-0"))]) := by decide +kernel
example : (record (body Demo.C) (List.replicate 6 0 ++ List.replicate 7 1 ++ List.replicate 1 0) (pool (run 9 "(define n (atomic 7))").2 ["(atomic-add! n 1)", "(atomic-add! n 5)"])).map
      (fun x => (acts x.1, x.2.threads.map outcome ++ x.2.state.words.map fun w => some (.ok (int w)))) =
    some ([(1, "rmw", .ok 7), (0, "rmw", .ok 12)], [some (.ok (int 13)), some (.ok (int 12)), some (.ok (int 13))]) := by decide +kernel

/-- A thread that calls a function, and one that gives the function another body: the assumption of `C91_partial` is needed. -/
example : Threads (run 5 "(define (sq x) (* x x))").2 ["(sq 5)", "(set! sq (lambda (x) 0))"] (List.replicate 2 0 ++ List.replicate 10 1 ++ List.replicate 14 0)
    [.ok (int 25), .ok (.atom (.func 1))] "sq" (some (.atom (.func 1))) := threads (by decide +kernel)
example : Threads (run 5 "(define (sq x) (* x x))").2 ["(sq 5)", "(set! sq (lambda (x) 0))"] (List.replicate 1 0 ++ List.replicate 10 1 ++ List.replicate 8 0)
    [.ok (int 0), .ok (.atom (.func 1))] "sq" (some (.atom (.func 1))) := threads (by decide +kernel)

/-- A frame with a function that is also a top-level function, and a method that calls it. -/
def slotText : String := "(begin (define x 1) (define (f) x) (define fr (make-frame get: f x: 10 call: (lambda () (get)))))"
def slotState : Store := (run 30 slotText).2
def slotA : Data := code "(call:> fr)"
def slotB : Data := code "(let ((y 0)) (f))"
def after (d : Data) (s : Store) : Out Data × Store := recN (body Demo.C) 10 (.eval false d 1) s

theorem evals_after {d : Data} {s : Store} {v : Data} (h : (after d s).1 = .ok v) : Evals Demo.C d 1 s (.ok v) (after d s).2 :=
  ⟨10, Prod.ext h rfl, nofun⟩

theorem evals_run {n : Nat} {src : String} {v : Data} (h : (run n src).1 = .ok v) : Evals Demo.C (code src) 1 Demo.s (.ok v) (run n src).2 :=
  ⟨n, Prod.ext h rfl, nofun⟩

theorem slot_wf : WF slotState :=
  runs_keeps (K := fun s s' => WF s → WF s') keeps_WF (evals_run (n := 30) (src := slotText) (v := .atom (.frame 0)) (by decide +kernel)) Demo.wf

end Demo

/-- What the code violates: two threads of which neither assigns to anything.  One calls a function as a method, the other as a plain function.  Each alone, and
one after the other in either order, they give 10 and 1 and leave all environments and frames as they were; but the call as a plain function may
clear the mark of the function object between the moment the other thread sets it and the moment it looks at it
(`symbol_table_frame.go:296,308`, `data.go:1230`), and then the method runs without its frame and gives 1. -/
theorem C91_violation : ∃ (s : Store) (a b : Data),
    WF s ∧
    (∃ s₁ s₂, Evals Demo.C a 1 s (.ok (int 10)) s₁ ∧ Evals Demo.C b 1 s₁ (.ok (int 1)) s₂ ∧ s.envs <+: s₂.envs ∧ s₂.frames = s.frames) ∧
    (∃ s₁ s₂, Evals Demo.C b 1 s (.ok (int 1)) s₁ ∧ Evals Demo.C a 1 s₁ (.ok (int 10)) s₂ ∧ s.envs <+: s₂.envs ∧ s₂.frames = s.frames) ∧
    ∃ tr s', Exec (body Demo.C) ⟨[body Demo.C (.eval false a 1), body Demo.C (.eval false b 1)], s⟩ tr ⟨[.ret (int 1), .ret (int 1)], s'⟩ := by
  refine ⟨Demo.slotState, Demo.slotA, Demo.slotB, Demo.slot_wf,
    ⟨(Demo.after Demo.slotA Demo.slotState).2, (Demo.after Demo.slotB (Demo.after Demo.slotA Demo.slotState).2).2, ?_, ?_, ?_, ?_⟩,
    ⟨(Demo.after Demo.slotB Demo.slotState).2, (Demo.after Demo.slotA (Demo.after Demo.slotB Demo.slotState).2).2, ?_, ?_, ?_, ?_⟩, ?_⟩
  · exact Demo.evals_after (by decide +kernel)
  · exact Demo.evals_after (by decide +kernel)
  · decide +kernel
  · decide +kernel
  · exact Demo.evals_after (by decide +kernel)
  · exact Demo.evals_after (by decide +kernel)
  · decide +kernel
  · decide +kernel
  · have h : Demo.Threads Demo.slotState ["(call:> fr)", "(let ((y 0)) (f))"] (List.replicate 15 0 ++ List.replicate 15 1 ++ List.replicate 5 0)
        [.ok (int 1), .ok (int 1)] "y" none := Demo.threads (by decide +kernel)
    obtain ⟨tr, ⟨ts, s'⟩, h1, -, h2, -⟩ := h
    refine ⟨tr, s', ?_⟩
    have : ts = [.ret (int 1), .ret (int 1)] := by
      match ts, h2 with
      | [p, q], h2 =>
        simp only [List.map_cons, List.map_nil, List.cons.injEq, and_true] at h2
        cases finished_iff.mpr h2.1; cases finished_iff.mpr h2.2
        rfl
      | [], h2 => simp at h2
      | [_], h2 => simp at h2
      | _ :: _ :: _ :: _, h2 => simp at h2
    subst this
    exact h1

end Golisp.Props
