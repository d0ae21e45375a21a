import Verif.LispLemmas
import Verif.CopyLemmas
import Verif.Manual
import Verif.Props.Numbers
import Verif.Props.Callbacks
/- Lemmas for C67: table entries of library primitives and what they compute. -/
namespace Golisp.Props
open Golisp Data Ev Spec Prim

variable {C : Conf} {e : Nat} {s s₁ : Store} {d : Data}

/-- The primitive `x` of the table accepts this number of arguments and computes an outcome in `P` from them, whatever the
state. -/
def Does (H : Host) (x : String) (vs : List Data) (P : Out Data → Prop) : Prop :=
  ∃ spec impl, (std H).prims x = some ⟨spec, false, false, impl⟩ ∧
    Arity.checkArgumentCount (Arity.parseNumArgs spec) vs.length = true ∧
    ∀ args e, Lst args vs → ∃ r, impl args e = Prog.ofOut r ∧ r ≠ .timeout ∧ P r

theorem any_count (n : Nat) : Arity.checkArgumentCount (Arity.parseNumArgs "*".toList) n = true := by
  have : Arity.parseNumArgs "*".toList = [.any] := by decide
  rw [this]; rfl

theorem count1 : Arity.checkArgumentCount (Arity.parseNumArgs "1".toList) 1 = true := by decide
theorem count2 : Arity.checkArgumentCount (Arity.parseNumArgs "2".toList) 2 = true := by decide
theorem count3 : Arity.checkArgumentCount (Arity.parseNumArgs "3".toList) 3 = true := by decide
theorem count12 {n : Nat} (h : n ≤ 1) : Arity.checkArgumentCount (Arity.parseNumArgs "1|2".toList) (n + 1) = true := by
  match n, h with
  | 0, _ => decide
  | 1, _ => decide

theorem runs_ofOut {r₀ : Out Data} (h0 : r₀ ≠ .timeout) {r : Out Data} {t : Store} :
    RunsP (body C) (Prog.ofOut r₀) s r t ↔ r = r₀ ∧ t = s := by
  cases r₀ with
  | ok v => exact runsP_ret
  | err e => exact runsP_err
  | panic => exact runsP_panic
  | timeout => exact absurd rfl h0

/-- The primitive `x` of the table accepts this number of arguments and does nothing but compute an outcome in `P` from them
and the state. -/
def DoesIn (H : Host) (x : String) (vs : List Data) (P : Out Data → Prop) : Prop :=
  ∃ spec impl, (std H).prims x = some ⟨spec, false, false, impl⟩ ∧
    Arity.checkArgumentCount (Arity.parseNumArgs spec) vs.length = true ∧
    ∀ (C : Conf) args e s, Lst args vs → ∃ r, P r ∧ Yields C (impl args e) s r

theorem Does.toIn {H : Host} {x : String} {vs : List Data} {P : Out Data → Prop} (h : Does H x vs P) : DoesIn H x vs P := by
  obtain ⟨spec, impl, hx, hc, hi⟩ := h
  refine ⟨spec, impl, hx, hc, fun C args e s hl => ?_⟩
  obtain ⟨r, hr, h0, hP⟩ := hi args e hl
  exact ⟨r, hP, by rw [hr]; exact yields_ofOut h0⟩

theorem doesIn_evals {x : String} {vs : List Data} {P : Out Data → Prop} (hd : DoesIn C.host x vs P) (h : Calling C x vs d e s s₁) :
    ∃ r, P r ∧ ∀ r' t, Evals C d e s r' t ↔ r' = quoting d r ∧ t = s₁ := by
  obtain ⟨spec, impl, hx, hc, hi⟩ := hd
  obtain ⟨args, hl, hiff⟩ := calling_iff h hx hc
  obtain ⟨r, hP, hr⟩ := hi C args e s₁ hl
  refine ⟨r, hP, fun r' t => ?_⟩
  rw [hiff]
  constructor
  · rintro ⟨_, rfl, h1⟩
    obtain ⟨rfl, rfl⟩ := (hr _ _).mp h1
    exact ⟨rfl, rfl⟩
  · rintro ⟨rfl, rfl⟩; exact ⟨_, rfl, (hr _ _).mpr ⟨rfl, rfl⟩⟩

set_option maxRecDepth 20000

/-! Shapes of table entries. -/

section shapes
variable {H : Host} {x : String} {P : Out Data → Prop}

theorem does_list {vs : List Data} {f : List Data → Out Data} {r : Out Data}
    (hx : (std H).prims x = some ⟨"*".toList, false, false, oL f⟩) (hr : f vs = r) (h0 : r ≠ .timeout) (hP : P r) :
    Does H x vs P :=
  ⟨_, _, hx, any_count _, fun args e hl => ⟨r, by simp only [oL, hl.toArray, hr], h0, hP⟩⟩

theorem does_one {v : Data} {f : Data → Out Data} {r : Out Data}
    (hx : (std H).prims x = some ⟨"1".toList, false, false, o1 f⟩) (hr : f v = r) (h0 : r ≠ .timeout) (hP : P r) :
    Does H x [v] P :=
  ⟨_, _, hx, count1, fun args e hl => ⟨r, by simp only [o1, car_args hl, hr], h0, hP⟩⟩

theorem does_two {v w : Data} {f : Data → Data → Out Data} {r : Out Data}
    (hx : (std H).prims x = some ⟨"2".toList, false, false, o2 f⟩) (hr : f v w = r) (h0 : r ≠ .timeout) (hP : P r) :
    Does H x [v, w] P :=
  ⟨_, _, hx, count2, fun args e hl => ⟨r, by simp only [o2, car_args hl, cadr_args hl, hr], h0, hP⟩⟩

theorem does_p1 {v : Data} {f : Data → Data} (hx : (std H).prims x = some ⟨"1".toList, false, false, p1 f⟩) (hP : P (.ok (f v))) :
    Does H x [v] P :=
  ⟨_, _, hx, count1, fun args e hl => ⟨.ok (f v), by simp only [p1, car_args hl]; rfl, nofun, hP⟩⟩

theorem does_test {v : Data} {f : Data → Bool} {Q : Prop} (hx : (std H).prims x = some ⟨"1".toList, false, false, test1 f⟩)
    (hP : f v = true ↔ Q) : Does H x [v] (Tells Q) :=
  ⟨_, _, hx, count1, fun args e hl => ⟨.ok (.bool (f v)), by simp only [test1, car_args hl]; rfl, nofun, _, rfl, hP⟩⟩

/-- A primitive that compares values. -/
theorem doesIn_eq {vs : List Data} {spec : String} {b : FrEq → Data → Nat → Prog Data}
    (hx : (std H).prims x = some ⟨spec.toList, false, false, withEq b⟩)
    (hc : Arity.checkArgumentCount (Arity.parseNumArgs spec.toList) vs.length = true)
    (h : ∀ (q : FrEq) args e, Lst args vs → ∃ r, b q args e = Prog.ofOut r ∧ r ≠ .timeout ∧ P r) : DoesIn H x vs P := by
  refine ⟨_, _, hx, hc, fun C args e s hl => ?_⟩
  obtain ⟨r, hr, h0, hP⟩ := h (Frame.eqIn s.frames) args e hl
  exact ⟨r, hP, yields_get (by rw [hr]; exact yields_ofOut h0)⟩

theorem doesIn_two {v w : Data} {f : FrEq → Data → Data → Out Data}
    (hx : (std H).prims x = some ⟨"2".toList, false, false, withEq fun q => o2 (f q)⟩)
    (hr : ∀ q, f q v w ≠ .timeout ∧ P (f q v w)) : DoesIn H x [v, w] P :=
  doesIn_eq hx count2 fun q args e hl => ⟨f q v w, by simp only [o2, car_args hl, cadr_args hl], hr q⟩

end shapes

theorem tells_decide {Q : Prop} [Decidable Q] : Tells Q (.ok (.bool (decide Q))) := ⟨_, rfl, by simp⟩

theorem pairs_lst {l : Data} {xs : List Data} (h : Pairs l xs) : Lst l xs ∧ isPair l = true := by
  induction h with
  | null => exact ⟨.null, rfl⟩
  | empty => exact ⟨.empty _, rfl⟩
  | cons a d xs hn _ ih => exact ⟨.cons _ _ _ _ hn nofun ih.1, rfl⟩

theorem lastPair_pairs {v : Data} : ∀ {xs : List Data} {l : Data}, Pairs l (xs ++ [v]) →
    isNil l = false ∧ Lst (lastPairLoop l) [v] := by
  intro xs
  induction xs with
  | nil =>
    intro l h
    cases h with
    | cons _ d _ hn hd =>
      have hnil : isNil d = true := (isNil_iff_Lst d).2 (pairs_lst hd).1
      refine ⟨(isNil_false_iff_Lst _).2 (fun h => by cases h; exact hn ⟨rfl, rfl⟩), ?_⟩
      simp only [lastPairLoop, hnil, Bool.not_true, Bool.false_and, Bool.false_eq_true, if_false]
      exact .cons _ _ _ _ hn nofun (pairs_lst hd).1
  | cons y xs ih =>
    intro l h
    cases h with
    | cons _ d _ hn hd =>
      obtain ⟨h1, h2⟩ := ih hd
      refine ⟨(isNil_false_iff_Lst _).2 (fun h => by cases h; exact hn ⟨rfl, rfl⟩), ?_⟩
      simp only [lastPairLoop, h1, (pairs_lst hd).2, Bool.not_false, Bool.and_self, if_true]
      exact h2

theorem lookup_congr {a b : Atom} (h : AtomEq b a) (kvs : List (Atom × Data)) : lookup b kvs = lookup a kvs := by
  induction kvs with
  | nil => rfl
  | cons p ps ih =>
    obtain ⟨k, v⟩ := p
    have : AtomEq k b ↔ AtomEq k a := ⟨fun x => x.trans h, fun x => x.trans h.symm⟩
    by_cases hk : AtomEq k a
    · simp only [lookup, hk, this.2 hk, if_true]
    · simp only [lookup, hk, mt this.1 hk, if_false, ih]

theorem mkAlist_pairs [FrEq] : ∀ {kvs : List (Atom × Data)} {l : Data}, Pairs l (kvs.map fun p => .cons (.atom p.1) p.2) →
    (∀ p ∈ kvs, Settled p.1) → ∃ kvs', Alist (mkAlist l) kvs' ∧ ∀ b, Settled b → lookup b kvs' = lookup b kvs := by
  intro kvs
  induction kvs with
  | nil =>
    intro l h _
    cases h with
    | null => exact ⟨[], .null, fun _ _ => rfl⟩
    | empty => exact ⟨[], .null, fun _ _ => rfl⟩
  | cons p kvs ih =>
    intro l h hn
    cases h with
    | cons _ d _ hnn hd =>
      obtain ⟨kvs₁, h1, h2⟩ := ih hd (fun q hq => hn q (List.mem_cons_of_mem _ hq))
      obtain ⟨kvs₂, h3, h4, h5, _⟩ := acons_spec p.1 p.2 (hn p List.mem_cons_self) h1
      refine ⟨kvs₂, h3, fun b hb => ?_⟩
      by_cases hab : AtomEq b p.1
      · rw [lookup_congr hab, h4, lookup_congr hab]
        simp [lookup, AtomEq.refl]
      · rw [h5 b hab, h2 b hb]
        have : ¬ AtomEq p.1 b := fun h => hab h.symm
        simp [lookup, this]

theorem unionLoop_bad [FrEq] (a : Atom) : ∀ (pre : List Data) (r : Data), (∀ p ∈ pre, isListP p = true) →
    ∃ m, unionLoop (pre ++ [.atom a]) r = .err (.msg m) := by
  intro pre
  induction pre with
  | nil => intro r _; exact ⟨_, rfl⟩
  | cons p pre ih =>
    intro r h
    simp only [List.cons_append, unionLoop, h p List.mem_cons_self, Bool.not_true, Bool.false_eq_true, if_false]
    exact ih _ (fun q hq => h q (List.mem_cons_of_mem _ hq))

theorem setLoop_bad [FrEq] (n : String) (dr : Data → Data → Bool) (a : Atom) : ∀ (pre : List Data) (r : Data),
    (∀ p ∈ pre, isListP p = true) → ∃ m, setLoop n dr (pre ++ [.atom a]) r = .err (.msg m) := by
  intro pre
  induction pre with
  | nil => intro r _; exact ⟨_, rfl⟩
  | cons p pre ih =>
    intro r h
    simp only [List.cons_append, setLoop, h p List.mem_cons_self, Bool.not_true, Bool.false_eq_true, if_false]
    exact ih _ (fun q hq => h q (List.mem_cons_of_mem _ hq))

theorem not_num {v : Data} (h1 : ∀ n, v ≠ .int n) (h2 : ∀ f, v ≠ .flt f) : isNum v = false := by
  cases v with
  | atom a => cases a <;> first | rfl | exact absurd rfl (h1 _) | exact absurd rfl (h2 _)
  | _ => rfl

theorem not_int {v : Data} (h1 : ∀ n, v ≠ .int n) : isInt v = false := by
  cases v with
  | atom a => cases a <;> first | rfl | exact absurd rfl (h1 _)
  | _ => rfl

theorem anyFloats_bad (ns : List (BitVec 64)) {v : Data} (rest : List Data) (hv : isNum v = false) :
    ∃ m, anyFloats (ns.map Data.int ++ v :: rest) = .err (.msg m) := by
  induction ns with
  | nil => exact ⟨"Number expected, received ", by simp only [List.map_nil, List.nil_append, anyFloats, hv, Bool.not_false, if_true]⟩
  | cons n ns ih =>
    obtain ⟨m, hm⟩ := ih
    refine ⟨m, ?_⟩
    simp only [List.map_cons, List.cons_append, anyFloats]
    exact hm

theorem quotient_ints (a : BitVec 64) (bs : List (BitVec 64)) : quotient ((a :: bs).map Data.int) = quotIntLoop (bs.map Data.int) a := by
  have : ∀ ns : List (BitVec 64), anyFloats (ns.map Data.int) = .ok false := by
    intro ns
    induction ns with
    | nil => rfl
    | cons n ns ih => exact ih
  simp only [quotient, arith, this]
  rfl

theorem quotIntLoop_ints : ∀ (bs : List (BitVec 64)) (a : BitVec 64), 0 ∉ bs →
    quotIntLoop (bs.map Data.int) a = .ok (.int (bs.foldl (fun q b => BitVec.ofInt 64 (q.toInt.tdiv b.toInt)) a)) := by
  intro bs
  induction bs with
  | nil => intro a _; rfl
  | cons b bs ih =>
    intro a hb
    have h0 : intValue (Data.int b) ≠ 0 := fun h => hb (h ▸ List.mem_cons_self)
    have h1 : a.sdiv b = BitVec.ofInt 64 (a.toInt.tdiv b.toInt) := BitVec.eq_of_toInt_eq (by rw [BitVec.toInt_sdiv, BitVec.toInt_ofInt])
    simp only [List.map_cons, quotIntLoop, if_neg h0, List.foldl_cons]
    rw [← h1]
    exact ih _ (fun h => hb (List.mem_cons_of_mem _ h))

theorem count_ge1'' (n : Nat) (h : 0 < n) : Arity.checkArgumentCount (Arity.parseNumArgs ">=1".toList) n = true := by
  have := count_ge1 (xs := List.replicate n .null) (by cases n with | zero => omega | succ n => simp [List.replicate])
  simpa using this

theorem listWithTail_lst {l : Data} {xs : List Data} (hl : Lst l xs) : ∀ vs : List Data, Data.null ∉ vs →
    Lst (listWithTail vs l) (vs ++ xs) := by
  intro vs
  induction vs with
  | nil => intro _; exact hl
  | cons v vs ih =>
    intro hn
    have hv : v ≠ .null := fun h => hn (h ▸ List.mem_cons_self)
    have : noNull v = v := by cases v <;> first | rfl | exact absurd rfl hv
    simp only [listWithTail, this]
    exact .cons _ _ _ _ (fun h => hv h.1) nofun (ih (fun h => hn (List.mem_cons_of_mem _ h)))

theorem isNil_lst (v : Data) : isNil v = true ↔ Lst v [] := isNil_iff_Lst v

theorem classifies_does {H : Host} {x : String} {Q : Data → Prop} (h : Classifies x Q) (v : Data) (hv : v ≠ .null) : Does H x [v] (Tells (Q v)) := by
  cases h
  case nil => exact does_test rfl (isNil_lst v)
  case null => exact does_test rfl (isNil_lst v)
  case notnil => exact does_test rfl (by dsimp only; rw [← isNil_lst, Bool.not_eq_true', Bool.not_eq_true])
  case notnull => exact does_test rfl (by dsimp only; rw [← isNil_lst, Bool.not_eq_true', Bool.not_eq_true])
  all_goals
    refine does_test rfl ?_
    match v, hv with
    | .null, hv => exact absurd rfl hv
    | .cell .cons a b, _ => simp [isPair, isAlist, isSym, isStr, isInt, isFlt, isNum, isFuncOrPrim, isFunc, isPrim, isMacro, isFrame, isBool, isEnv]
    | .cell .alist a b, _ => simp [isPair, isAlist, isSym, isStr, isInt, isFlt, isNum, isFuncOrPrim, isFunc, isPrim, isMacro, isFrame, isBool, isEnv]
    | .cell .acell a b, _ => simp [isPair, isAlist, isSym, isStr, isInt, isFlt, isNum, isFuncOrPrim, isFunc, isPrim, isMacro, isFrame, isBool, isEnv]
    | .atom a, _ => cases a <;> simp [isPair, isAlist, isSym, isStr, isInt, isFlt, isNum, isFuncOrPrim, isFunc, isPrim, isMacro, isFrame, isBool, isEnv]

theorem path_does {H : Host} {cs : List Char} (hc : ∀ c ∈ cs, c = 'a' ∨ c = 'd') (h1 : 1 ≤ cs.length) (h4 : cs.length ≤ 4) (v : Data) :
    Does H (String.ofList ('c' :: cs ++ ['r'])) [v] (Gives (cs.foldr step v)) := by
  have go : (std H).prims (String.ofList ('c' :: cs ++ ['r'])) = some ⟨"1".toList, false, false, walk (String.ofList cs)⟩ := by
    match cs, h1, h4, hc with
    | [a], _, _, hc =>
      rcases hc a (by simp) with rfl | rfl <;> rfl
    | [a, b], _, _, hc =>
      rcases hc a (by simp) with rfl | rfl <;> rcases hc b (by simp) with rfl | rfl <;> rfl
    | [a, b, c], _, _, hc =>
      rcases hc a (by simp) with rfl | rfl <;> rcases hc b (by simp) with rfl | rfl <;> rcases hc c (by simp) with rfl | rfl <;> rfl
    | [a, b, c, d], _, _, hc =>
      rcases hc a (by simp) with rfl | rfl <;> rcases hc b (by simp) with rfl | rfl <;> rcases hc c (by simp) with rfl | rfl <;>
        rcases hc d (by simp) with rfl | rfl <;> rfl
  refine does_p1 go ?_
  simp only [Gives, String.toList_ofList, C13_cxr cs hc]

theorem ordinal_does {H : Host} {x : String} {n : Nat} {l : Data} {xs : List Data} (hx : ordinals[n]? = some x) (hl : Lst l xs) :
    Does H x [l] (Gives ((xs[n]?).getD .null)) := by
  have key : ∀ k : Nat, nth l ((k : Int) + 1) = (xs[k]?).getD .null := by
    intro k
    rw [nth_spec hl]
    split
    · congr 2; omega
    · next hk =>
      rw [List.getElem?_eq_none (by omega)]; rfl
  match n, hx with
  | 0, hx => cases hx; exact does_p1 rfl (congrArg Out.ok (key 0))
  | 1, hx => cases hx; exact does_p1 rfl (congrArg Out.ok (key 1))
  | 2, hx => cases hx; exact does_p1 rfl (congrArg Out.ok (key 2))
  | 3, hx => cases hx; exact does_p1 rfl (congrArg Out.ok (key 3))
  | 4, hx => cases hx; exact does_p1 rfl (congrArg Out.ok (key 4))
  | 5, hx => cases hx; exact does_p1 rfl (congrArg Out.ok (key 5))
  | 6, hx => cases hx; exact does_p1 rfl (congrArg Out.ok (key 6))
  | 7, hx => cases hx; exact does_p1 rfl (congrArg Out.ok (key 7))
  | 8, hx => cases hx; exact does_p1 rfl (congrArg Out.ok (key 8))
  | 9, hx => cases hx; exact does_p1 rfl (congrArg Out.ok (key 9))

end Golisp.Props
