import Verif.EvalInv
import Verif.EvalLemmas
import Verif.Demo
import Verif.Props.Numbers2
import Verif.Props.Calls
/- C50 (generated symbols). -/
namespace Golisp.Spec
open Golisp Ev

/-- The names handed out by a sequence of state actions of any threads, in order: each action is atomic (`gensymHelper`
holds a mutex), so every interleaving of threads is such a sequence. -/
inductive Issues : Store → List Op → List String → Store → Prop where
  | nil {s} : Issues s [] [] s
  | gensym {s ops names s' p n s₁} : (Op.gensym p).run s = (.ok n, s₁) → Issues s₁ ops names s' →
      Issues s (.gensym p :: ops) (gensymName p n :: names) s'
  | other {s ops names s' o r s₁} : (∀ p, o ≠ .gensym p) → o.run s = (r, s₁) → Issues s₁ ops names s' → Issues s (o :: ops) names s'

/-- `s'` is reached from `s` by evaluating expressions, one after the other. -/
inductive Later (C : Conf) : Store → Store → Prop where
  | refl {s} : Later C s s
  | eval {s d e r s₁ s'} : Evals C d e s r s₁ → Later C s₁ s' → Later C s s'

end Golisp.Spec

namespace Golisp.Props
open Golisp Data Ev Spec

variable {C : Conf} {e : Nat} {s : Store} {r : Out Data} {s' : Store}

private theorem numText_inj {m n : Nat} (h : numText m = numText n) : m = n := by
  have h' : Prim.digits 10 m = Prim.digits 10 n := by
    have := congrArg String.toList h
    simp only [numText, Prim.formatInt, String.toList_ofList] at this
    rw [if_neg (by omega), if_neg (by omega)] at this
    simpa using this
  have hm := scanDigits_digits 10 m (by decide) (by decide) 0 false []
  have hn := scanDigits_digits 10 n (by decide) (by decide) 0 false []
  rw [h', hn] at hm
  simp [Prim.scanDigits] at hm
  exact hm.symm

private theorem digits_all (n : Nat) : ∀ c ∈ Prim.digits 10 n, c ≠ '-' ∧ c ≠ ':' := by
  have hd : ∀ d : Fin 16, Prim.digitChar d ≠ '-' ∧ Prim.digitChar d ≠ ':' := by decide
  induction n using Nat.strongRecOn with
  | _ n ih =>
    intro c hc
    unfold Prim.digits at hc
    split at hc
    · next h =>
      rcases List.mem_append.mp hc with hc | hc
      · exact ih (n / 10) (Nat.div_lt_self (by omega) (by omega)) c hc
      · simp only [List.mem_singleton] at hc
        subst hc
        exact hd ⟨n % 10, by omega⟩
    · next h =>
      simp only [List.mem_singleton] at hc
      subst hc
      exact hd ⟨n, by omega⟩

/-- Splitting at the last dash. -/
private theorem split_last {p q xs ys : List Char} (hx : '-' ∉ xs) (hy : '-' ∉ ys) (h : p ++ '-' :: xs = q ++ '-' :: ys) : p = q ∧ xs = ys := by
  have key : ∀ (xs ys p q : List Char), '-' ∉ xs → '-' ∉ ys → xs ++ '-' :: p = ys ++ '-' :: q → p = q ∧ xs = ys := by
    intro xs
    induction xs with
    | nil =>
      intro ys p q _ hy h
      cases ys with
      | nil => simp at h; exact ⟨h, rfl⟩
      | cons y ys => simp at h; exact absurd h.1 (fun h' => hy (by rw [h']; simp))
    | cons x xs ih =>
      intro ys p q hx hy h
      cases ys with
      | nil => simp at h; exact absurd h.1 (fun h' => hx (by simp [h']))
      | cons y ys =>
        simp only [List.cons_append, List.cons.injEq] at h
        obtain ⟨h1, h2⟩ := ih ys p q (fun h' => hx (by simp [h'])) (fun h' => hy (by simp [h'])) h.2
        exact ⟨h1, by rw [h.1, h2]⟩
  have h' := congrArg List.reverse h
  simp only [List.reverse_append, List.reverse_cons, List.append_assoc, List.cons_append, List.nil_append] at h'
  obtain ⟨h1, h2⟩ := key xs.reverse ys.reverse p.reverse q.reverse (by simpa using hx) (by simpa using hy) h'
  exact ⟨List.reverse_inj.mp h1, List.reverse_inj.mp h2⟩

/-- Two generated names are equal only for the same prefix and number. -/
theorem C50_name_injective {p q : String} {m n : Nat} (h : gensymName p m = gensymName q n) : p = q ∧ m = n := by
  have h' := congrArg String.toList h
  have hno : ∀ n, '-' ∉ (numText n).toList := by
    intro n hc
    simp only [numText, Prim.formatInt, String.toList_ofList] at hc
    rw [if_neg (by omega)] at hc
    exact (digits_all _ _ hc).1 rfl
  simp only [gensymName, String.toList_append] at h'
  have : ("-" : String).toList = ['-'] := rfl
  rw [this, List.append_assoc, List.append_assoc, List.singleton_append, List.singleton_append] at h'
  obtain ⟨h1, h2⟩ := split_last (hno m) (hno n) h'
  exact ⟨String.ext h1, numText_inj (String.ext h2)⟩

/-- A name for a naked symbol is never the name of a symbol. -/
theorem C50_naked_differs (p q : String) (m n : Nat) : nakedName (gensymName p m) ≠ gensymName q n := by
  intro h
  have h' := congrArg (fun s => s.toList.getLast?) h
  simp only [nakedName, gensymName, String.toList_append] at h'
  have h1 : ∃ c, (numText n).toList.getLast? = some c ∧ c ≠ ':' := by
    obtain ⟨d, cs, _, hd⟩ := digits_head 10 n (by decide) (by decide)
    have ht : (numText n).toList = Prim.digits 10 n := by
      simp only [numText, Prim.formatInt, String.toList_ofList]; rw [if_neg (by omega)]; simp
    rw [ht]
    cases hg : (Prim.digits 10 n).getLast? with
    | none => rw [List.getLast?_eq_none_iff.mp hg] at hd; cases hd
    | some c => exact ⟨c, rfl, (digits_all n c (List.mem_of_getLast? hg)).2⟩
  obtain ⟨c, h1, h2⟩ := h1
  have e1 : ∀ l l' : List Char, (l ++ l').getLast? = l'.getLast?.or l.getLast? := fun l l' => List.getLast?_append
  rw [e1 _ (":" : String).toList, e1 _ (numText n).toList, h1] at h'
  have : (":" : String).toList.getLast? = some ':' := rfl
  rw [this] at h'
  simp only [Option.some_or, Option.some.injEq] at h'
  exact h2 h'.symm

/-- Every interleaving: all the names issued are different. -/
theorem C50_fresh {ops : List Op} {names : List String} (h : Issues s ops names s') : names.Nodup := by
  have key : ∀ {s ops names s'}, Issues s ops names s' → names.Nodup ∧
      ∀ x ∈ names, ∃ p n, x = gensymName p n ∧ (alGet s.gens p).getD 0 ≤ n := by
    intro s ops names s' h
    induction h with
    | nil => exact ⟨List.nodup_nil, by simp⟩
    | @gensym s ops names s' p n s₁ hr _ ih =>
      have hn : n = (alGet s.gens p).getD 0 := by simp only [Op.run, Prod.mk.injEq, Out.ok.injEq] at hr; exact hr.1.symm
      have hs : s₁.gens = alSet s.gens p (n + 1) := by
        simp only [Op.run, Prod.mk.injEq, Out.ok.injEq] at hr; rw [← hr.2, hn]
      refine ⟨List.nodup_cons.mpr ⟨fun hm => ?_, ih.1⟩, fun x hx => ?_⟩
      · obtain ⟨q, m, hq, hle⟩ := ih.2 _ hm
        obtain ⟨rfl, rfl⟩ := C50_name_injective hq
        rw [hs, alGet_set] at hle
        simp at hle
        omega
      · rcases List.mem_cons.mp hx with rfl | hx
        · exact ⟨p, n, rfl, by omega⟩
        · obtain ⟨q, m, hq, hle⟩ := ih.2 _ hx
          refine ⟨q, m, hq, ?_⟩
          rw [hs, alGet_set] at hle
          by_cases hqp : q = p
          · subst hqp; simp at hle; omega
          · simpa [hqp] using hle
    | @other s ops names s' o r s₁ _ hr _ ih =>
      refine ⟨ih.1, fun x hx => ?_⟩
      obtain ⟨q, m, hq, hle⟩ := ih.2 _ hx
      have := (op_grows o s).gens q
      rw [hr] at this
      exact ⟨q, m, hq, Nat.le_trans this hle⟩
  exact (key h).1

private theorem later_grows {s₁ s₂ : Store} (h : Later C s₁ s₂) : Grows s₁ s₂ := by
  induction h with
  | refl => exact .refl _
  | eval h _ ih => exact (runs_keeps keeps_grows h).trans ih

/-- A call of `gensym` or `gensym-naked`. -/
structure GensymCall (C : Conf) (d : Data) (e : Nat) (s : Store) : Prop where
  call : ∃ h t g s₁ xs, d = .cons h t ∧ shortcuts (.cons h t) = .cons h t ∧ h ≠ .null ∧ (g = "gensym" ∨ g = "gensym-naked") ∧
    EvalsOp C h e s (.ok (.atom (.prim g))) s₁ ∧ C.prims g = (std C.host).prims g ∧ Lst t xs

/-- A successful call returns a symbol; its name uses a number that its prefix had not reached, and has reached now. -/
theorem C50_gensym {d : Data} (hc : GensymCall C d e s) {v : Data} (h : Evals C d e s (.ok v) s') :
    ∃ p n, (v = .sym (gensymName p n) ∨ v = .sym (nakedName (gensymName p n))) ∧ (alGet s.gens p).getD 0 ≤ n ∧ n < (alGet s'.gens p).getD 0 := by
  obtain ⟨hd, t, g, s₁, xs, rfl, hs, hh, hg, hop, hstd, ht⟩ := hc.call
  have hgrow : Grows s s₁ := runs_keeps keeps_grows hop
  have main : ∀ (P : PrimDef) (nm : String) (f : String → String), C.prims g = some P → P.special = false → P.restricted = false →
      P.body = (fun args (_ : Nat) => do let p ← gensymPrefix C.host nm args; let n ← Prog.op (.gensym p); pure (sym (f (gensymName p n)))) →
      ∃ p n, v = .sym (f (gensymName p n)) ∧ (alGet s.gens p).getD 0 ≤ n ∧ n < (alGet s'.gens p).getD 0 := by
    intro P nm f hP hsp hre hb
    by_cases hcount : Arity.checkArgumentCount (Arity.parseNumArgs P.args) xs.length = true
    · rw [C32_primitive hs hh hop hP hsp (by simp [hre]) ht hcount] at h
      obtain ⟨r₀, hr, h⟩ := h
      cases r₀ with
      | ok v' =>
        cases hr
        rcases h with ⟨vs, s₂, ha, hr⟩ | ⟨_, _, h⟩ | ⟨_, h⟩
        · have hgrow2 : Grows s₁ s₂ := runsP_keeps keeps_grows ((runsP_evalAll xs _ _ _).mpr ha)
          rw [hb] at hr
          rw [runsP_bind] at hr
          rcases hr with ⟨p, s₃, hp, hr⟩ | ⟨_, _, h⟩ | ⟨_, h⟩
          · have hgrow3 : Grows s₂ s₃ := runsP_keeps keeps_grows hp
            rw [runsP_op_bind (n := (alGet s₃.gens p).getD 0) (s₁ := { s₃ with gens := alSet s₃.gens p ((alGet s₃.gens p).getD 0 + 1) }) rfl,
              runsP_pure] at hr
            obtain ⟨h1, rfl⟩ := hr
            cases h1
            refine ⟨p, _, rfl, ((hgrow.trans hgrow2).trans hgrow3).gens p, ?_⟩
            simp [alGet_set]
          · cases h
          · cases h
        · cases h
        · cases h
      | _ => cases hr
    · obtain ⟨m, hm⟩ := C32_primitive_count hs hh hop hP (by simp [hre]) ht (by simpa using hcount)
      exact absurd ((hm _ _).mp h).1 (by simp)
  rcases hg with rfl | rfl
  · obtain ⟨p, n, h1, h2⟩ := main ⟨"0|1".toList, false, false, gensymImpl C.host⟩ "gensym" id (by rw [hstd]; rfl) rfl rfl rfl
    exact ⟨p, n, Or.inl h1, h2⟩
  · obtain ⟨p, n, h1, h2⟩ := main ⟨"0|1".toList, false, false, gensymNakedImpl C.host⟩ "gensym-naked" nakedName (by rw [hstd]; rfl) rfl rfl rfl
    exact ⟨p, n, Or.inr h1, h2⟩

/-- Two calls, whatever is evaluated in between, return different symbols. -/
theorem C50_calls_differ {d d' : Data} {e e' : Nat} {s₁ s₂ s₃ : Store} {v v' : Data} (hc : GensymCall C d e s)
    (h : Evals C d e s (.ok v) s₁) (hl : Later C s₁ s₂) (hc' : GensymCall C d' e' s₂) (h' : Evals C d' e' s₂ (.ok v') s₃) : v ≠ v' := by
  obtain ⟨p, n, hv, _, hlt⟩ := C50_gensym hc h
  obtain ⟨q, m, hv', hle, _⟩ := C50_gensym hc' h'
  have hgr := (later_grows hl).gens p
  have hname : gensymName p n ≠ gensymName q m := by
    intro heq
    obtain ⟨rfl, rfl⟩ := C50_name_injective heq
    omega
  rcases hv with rfl | rfl <;> rcases hv' with rfl | rfl <;> intro heq <;> simp only [atom.injEq, Atom.sym.injEq] at heq
  · exact hname heq
  · exact C50_naked_differs _ _ _ _ heq.symm
  · exact C50_naked_differs _ _ _ _ heq
  · refine hname (String.ext ?_)
    have := congrArg String.toList heq
    simpa [nakedName] using this

section
open Demo
example : ∃ s', Issues Demo.s [.gensym "a", .emit "x", .gensym "a-0", .gensym "a"] [gensymName "a" 0, gensymName "a-0" 0, gensymName "a" 1] s' :=
  ⟨_, .gensym rfl (.other (by simp) rfl (.gensym rfl (.gensym rfl .nil)))⟩
example : [gensymName "a" 0, gensymName "a-0" 0, gensymName "a" 1] = ["a-0", "a-0-0", "a-1"] := by decide +kernel
example : Ends "(list (gensym) (gensym 'a) (gensym \"a\") (gensym-naked 'a))" (.ok (ofArray [sym "GENSYM-0", sym "a-0", sym "a-1", sym "a-2:"])) :=
  ends 40 (by decide +kernel) (by simp)
example : GensymCall Demo.C (code "(gensym 'a)") 1 Demo.s :=
  ⟨_, _, "gensym", Demo.s, [code "'a"], (by decide +kernel : code "(gensym 'a)" = cons (sym "gensym") (cons (code "'a") null)), rfl, by simp,
    Or.inl rfl, evalsOp_sym wf (means "gensym" (b := true) (by decide +kernel)) rfl, rfl,
    .cons _ _ _ _ (by decide +kernel) (by simp) .null⟩
end

end Golisp.Props
