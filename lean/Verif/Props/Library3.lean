import Verif.DemoCalls
import Verif.LibraryLemmas
/- C67: library primitives called with arguments of the wrong type return errors. -/
namespace Golisp.Props
open Golisp Data Ev Spec Prim

variable {C : Conf} {e : Nat} {s s₁ : Store} {d : Data}

set_option maxRecDepth 20000

private theorem misuse1 {H : Host} {x : String} {v : Data} {f : Data → Out Data}
    (hx : (std H).prims x = some ⟨"1".toList, false, false, o1 f⟩) (hr : ∃ er, f v = .err er) : Does H x [v] Objects := by
  obtain ⟨er, hr⟩ := hr
  exact does_one hx hr nofun ⟨_, rfl⟩

private theorem misuse2 {H : Host} {x : String} {v w : Data} {f : Data → Data → Out Data}
    (hx : (std H).prims x = some ⟨"2".toList, false, false, o2 f⟩) (hr : ∃ er, f v w = .err er) : Does H x [v, w] Objects := by
  obtain ⟨er, hr⟩ := hr
  exact does_two hx hr nofun ⟨_, rfl⟩

private theorem misuseL {H : Host} {x : String} {vs : List Data} {f : List Data → Out Data}
    (hx : (std H).prims x = some ⟨"*".toList, false, false, oL f⟩) (hr : ∃ er, f vs = .err er) : Does H x vs Objects := by
  obtain ⟨er, hr⟩ := hr
  exact does_list hx hr nofun ⟨_, rfl⟩

private theorem ite_err {c : Bool} (h : c = false) {m : String} {r : Out Data} : (if (!c) = true then Out.err (.msg m) else r) = .err (.msg m) := by
  subst h; rfl

theorem C67_misuse {x : String} {vs : List Data} (hm : Misuse x vs) (h : Calling C x vs d e s s₁) :
    ∃ er, ∀ r t, Evals C d e s r t ↔ r = quoting d (.err er) ∧ t = s₁ := by
  suffices hd : DoesIn C.host x vs Objects by
    obtain ⟨r, ⟨er, rfl⟩, hr⟩ := doesIn_evals hd h
    exact ⟨er, hr⟩
  cases hm
  case notPairs k l xs a hl hx =>
    obtain ⟨hl, _⟩ := hl
    cases hl with
    | cons kd _ d _ hn hk hl =>
    have hnil : isNil (.cell kd (.atom a) d) = false := by cases kd <;> rfl
    simp only [List.mem_cons, List.not_mem_nil, or_false] at hx
    have e1 (q : FrEq) : assocOut k (.cell kd (.atom a) d) ≠ .timeout ∧ Objects (assocOut k (.cell kd (.atom a) d)) := by
      simp only [assocOut, Data.assoc, assocLoop, hnil]
      exact ⟨nofun, _, rfl⟩
    rcases hx with rfl | rfl | rfl | rfl | rfl
    · exact doesIn_two rfl e1
    · exact doesIn_two rfl e1
    · exact doesIn_two rfl e1
    · refine doesIn_two rfl fun q => ?_
      simp only [dissocOut, Data.dissoc, dissocLoop, hnil]
      exact ⟨nofun, _, rfl⟩
    · refine doesIn_two rfl fun q => ?_
      simp only [Prim.rassoc, hnil]
      exact ⟨nofun, _, rfl⟩
  case notListSet pre a hp ha hx =>
    have hf : ∀ x ∈ pre ++ [.atom a], Frameless x := by
      intro x hx
      rcases List.mem_append.mp hx with hx | hx
      · exact (hp x hx).2
      · simp at hx; exact hx ▸ ha
    replace hp : ∀ p ∈ pre, isListP p = true := fun p h => (hp p h).1
    simp only [List.mem_cons, List.not_mem_nil, or_false] at hx
    rcases hx with rfl | rfl | rfl
    · refine ⟨_, _, rfl, any_count _, fun C args e s hla => ?_⟩
      obtain ⟨m, hm⟩ := @unionLoop_bad (Frame.eqIn s.frames) a pre .null hp
      refine ⟨.err (.msg m), ⟨_, rfl⟩, ?_⟩
      rw [← hm]
      simp only [unionImpl, hla.toArray]
      exact unionP_yields _ hf trivial
    · refine ⟨_, _, rfl, any_count _, fun C args e s hla => ?_⟩
      have : ∃ er, @intersection (Frame.eqIn s.frames) (pre ++ [.atom a]) = .err er := by
        cases pre with
        | nil => exact ⟨_, rfl⟩
        | cons p pre =>
          obtain ⟨m, hm⟩ := @setLoop_bad (Frame.eqIn s.frames) "intersection" (fun x col => !@memp (Frame.eqIn s.frames) x col) a pre
            (@copy (Frame.eqIn s.frames) p) (fun q hq => hp q (List.mem_cons_of_mem _ hq))
          exact ⟨_, by simp only [List.cons_append, Prim.intersection, hp p List.mem_cons_self, Bool.not_true, Bool.false_eq_true, if_false]; exact hm⟩
      obtain ⟨er, he⟩ := this
      refine ⟨.err er, ⟨_, rfl⟩, ?_⟩
      rw [← he, ← hla.toArray]
      exact intersectionP_yields (by rw [hla.toArray]; exact hf)
    · refine ⟨_, _, rfl, any_count _, fun C args e s hla => ?_⟩
      have : ∃ er, @complement (Frame.eqIn s.frames) (pre ++ [.atom a]) = .err er := by
        cases pre with
        | nil => exact ⟨_, rfl⟩
        | cons p pre =>
          obtain ⟨m, hm⟩ := @setLoop_bad (Frame.eqIn s.frames) "complement" (fun x col => @memp (Frame.eqIn s.frames) x col) a pre
            (@copy (Frame.eqIn s.frames) p) (fun q hq => hp q (List.mem_cons_of_mem _ hq))
          exact ⟨_, by simp only [List.cons_append, Prim.complement, hp p List.mem_cons_self, Bool.not_true, Bool.false_eq_true, if_false]; exact hm⟩
      obtain ⟨er, he⟩ := this
      refine ⟨.err er, ⟨_, rfl⟩, ?_⟩
      rw [← he, ← hla.toArray]
      exact complementP_yields (by rw [hla.toArray]; exact hf)
  all_goals refine Does.toIn ?_
  case notInteger v hv hx =>
    simp only [List.mem_cons, List.not_mem_nil, or_false] at hx
    have hi := not_int hv
    rcases hx with rfl | rfl | rfl | rfl | rfl | rfl
    · exact misuse1 (f := Prim.succ) rfl (by cases v <;> first | exact ⟨_, rfl⟩ | (rename_i a; cases a <;> first | exact ⟨_, rfl⟩ | cases hi))
    · exact misuse1 (f := Prim.pred) rfl (by cases v <;> first | exact ⟨_, rfl⟩ | (rename_i a; cases a <;> first | exact ⟨_, rfl⟩ | cases hi))
    · exact misuse1 (f := Prim.evenP) rfl (by cases v <;> first | exact ⟨_, rfl⟩ | (rename_i a; cases a <;> first | exact ⟨_, rfl⟩ | cases hi))
    · exact misuse1 (f := Prim.oddP) rfl (by cases v <;> first | exact ⟨_, rfl⟩ | (rename_i a; cases a <;> first | exact ⟨_, rfl⟩ | cases hi))
    · exact misuse1 (f := Prim.binaryNot) rfl (by cases v <;> first | exact ⟨_, rfl⟩ | (rename_i a; cases a <;> first | exact ⟨_, rfl⟩ | cases hi))
    · exact misuse1 (f := Prim.bitsToFloat) rfl (by cases v <;> first | exact ⟨_, rfl⟩ | (rename_i a; cases a <;> first | exact ⟨_, rfl⟩ | cases hi))
  case notNumber v h1 h2 hx =>
    simp only [List.mem_cons, List.not_mem_nil, or_false] at hx
    have hn := not_num h1 h2
    rcases hx with rfl | rfl | rfl | rfl | rfl | rfl | rfl <;> exact misuse1 rfl ⟨_, ite_err hn⟩
  case notNumbers ns v rest h1 h2 hx =>
    obtain ⟨er, e1, e2, e3, e4⟩ := C19_non_number ns v rest (not_num h1 h2)
    simp only [List.mem_cons, List.not_mem_nil, or_false] at hx
    rcases hx with rfl | rfl | rfl | rfl | rfl
    · exact misuseL rfl ⟨_, e1⟩
    · exact misuseL rfl ⟨_, e2⟩
    · exact misuseL rfl ⟨_, e3⟩
    · exact misuseL rfl ⟨_, e4⟩
    · exact misuseL rfl ⟨_, e4⟩
  case notIntegers a b hab hx =>
    have hi : isInt a = false ∨ isInt b = false := hab.imp not_int not_int
    obtain ⟨e1, e2, e3, e4, _⟩ := C26_non_integer a b hi
    have e5 := C20_remainder_non_integer a b hi
    simp only [List.mem_cons, List.not_mem_nil, or_false] at hx
    rcases hx with rfl | rfl | rfl | rfl | rfl | rfl
    · exact misuse2 rfl e5
    · exact misuse2 rfl e5
    · exact misuse2 rfl e1
    · exact misuse2 rfl e2
    · exact misuse2 rfl e3
    · exact misuse2 rfl e4
  case notComparable a b hab hx =>
    obtain ⟨e1, e2, e3, e4⟩ := C21_non_number a b (hab.imp (fun h => not_num h.1 h.2) (fun h => not_num h.1 h.2))
    simp only [List.mem_cons, List.not_mem_nil, or_false] at hx
    rcases hx with rfl | rfl | rfl | rfl
    · exact misuse2 rfl e1
    · exact misuse2 rfl e2
    · exact misuse2 rfl e3
    · exact misuse2 rfl e4
  case notFloat v hv =>
    exact misuse1 (f := Prim.floatToBits) rfl (by cases v <;> first | exact ⟨_, rfl⟩ | (rename_i a; cases a <;> first | exact ⟨_, rfl⟩ | exact absurd rfl (hv _)))
  case notList v a hv hx =>
    subst hv
    simp only [List.mem_cons, List.not_mem_nil, or_false] at hx
    rcases hx with rfl | rfl | rfl <;> exact misuse1 rfl ⟨_, rfl⟩
  case notIndexable a v hx =>
    simp only [List.mem_cons, List.not_mem_nil, or_false] at hx
    rcases hx with rfl | rfl | rfl | rfl
    · exact misuse2 (f := Prim.nthImpl) rfl ⟨_, rfl⟩
    · exact misuse2 (f := Prim.listRef) rfl ⟨_, rfl⟩
    · exact misuse2 (f := Prim.listHead) rfl (by unfold Prim.listHead; split <;> exact ⟨_, rfl⟩)
    · exact misuse2 (f := Prim.listTail) rfl (by unfold Prim.listTail; split <;> exact ⟨_, rfl⟩)
  case notIndex l v hv hx =>
    simp only [List.mem_cons, List.not_mem_nil, or_false] at hx
    rcases hx with rfl | rfl | rfl | rfl
    · refine misuse2 (f := Prim.nthImpl) rfl ?_
      unfold Prim.nthImpl; split
      · exact ⟨_, rfl⟩
      · split
        · exact absurd rfl (hv _)
        · exact ⟨_, rfl⟩
    · refine misuse2 (f := Prim.listRef) rfl ?_
      unfold Prim.listRef; split
      · exact ⟨_, rfl⟩
      · split
        · exact absurd rfl (hv _)
        · exact ⟨_, rfl⟩
    · refine misuse2 (f := Prim.listHead) rfl ?_
      unfold Prim.listHead; split
      · exact absurd rfl (hv _)
      · exact ⟨_, rfl⟩
    · refine misuse2 (f := Prim.listTail) rfl ?_
      unfold Prim.listTail; split
      · exact absurd rfl (hv _)
      · exact ⟨_, rfl⟩
  case notCount l v hv hx =>
    simp only [List.mem_cons, List.not_mem_nil, or_false] at hx
    rcases hx with rfl | rfl
    · refine misuse2 (f := Prim.take) rfl ?_
      unfold Prim.take; split
      · exact absurd rfl (hv _)
      · exact ⟨_, rfl⟩
    · refine misuse2 (f := Prim.drop) rfl ?_
      unfold Prim.drop; split
      · exact absurd rfl (hv _)
      · exact ⟨_, rfl⟩
  case notCountMake v vs hv hl =>
    refine ⟨_, _, rfl, count12 hl, fun args e hla => ⟨.err (.msg "make-list requires a integer as it's first argument."), ?_, nofun, _, rfl⟩⟩
    rw [car_args hla]
    cases v with
    | atom a => cases a <;> first | rfl | exact absurd rfl (hv _)
    | _ => rfl

example : Calling Demo.C "+" [.int 1, .sym "a", .int 2] (Demo.code "(+ 1 'a 2)") 1 Demo.s Demo.s :=
  Demo.calling 10 (b := true) (xs := [.int 1, Demo.code "'a", .int 2]) (us := [.int 1, .sym "a", .int 2]) (by decide +kernel) (by decide +kernel)
    (by decide +kernel) (by decide +kernel) rfl (by decide +kernel) (by decide +kernel) rfl
example : Misuse "+" [.int 1, .sym "a", .int 2] := .notNumbers [1] (.sym "a") [.int 2] nofun nofun (by simp)
example : Misuse "union" [ofArray [.int 1], .int 5] := .notListSet [ofArray [.int 1]] (.int 5) (by simp; exact ⟨rfl, trivial, trivial⟩) trivial (by simp)
example : Misuse "assq" [.sym "k", ofArray [.int 1]] := .notPairs _ _ [] (.int 1) ⟨Lst.ofArray [.int 1], rfl⟩ (by simp)

end Golisp.Props
