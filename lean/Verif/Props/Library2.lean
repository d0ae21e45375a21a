import Verif.DemoCalls
import Verif.LibraryLemmas
/- C67: list, set and association list primitives and type predicates called from Lisp code do what the manual says. -/
namespace Golisp.Props
open Golisp Data Ev Spec Prim

variable {C : Conf} {e : Nat} {s s₁ : Store} {d : Data}

set_option maxRecDepth 20000

private theorem frameless_sets {ls : List (Data × List Data)} (h : ∀ p ∈ ls, PList p.1 p.2) : ∀ x ∈ ls.map (·.1), Frameless x := by
  intro x hx
  obtain ⟨p, hp, rfl⟩ := List.mem_map.mp hx
  exact (h p hp).2.1.frameless

theorem listWork_does {H : Host} {x : String} {vs : List Data} {P : Out Data → Prop} (hm : ListWork x vs P) (hnn : Data.null ∉ vs) : DoesIn H x vs P := by
  cases hm
  case length l xs hl =>
    refine ⟨_, _, rfl, count1, fun C args e s hla => ⟨_, rfl, ?_⟩⟩
    simp only [lengthImpl, car_args hla, wrapped, BitVec.ofInt_natCast]
    rw [← hl.1.length]
    cases l with
    | atom a => cases hl.2
    | null => exact yields_pure
    | cell => exact yields_pure
  case memberNot k l xs hl hk hall hx =>
    have h1 := fun q : FrEq => (@C09_memq q k l xs hl).1 (fun y hy => by
      obtain ⟨hp, hn⟩ := hall y hy
      rw [← Bool.not_eq_true, @C12_equal_structural_partial q k y hk hp]; exact hn)
    simp only [List.mem_cons, List.not_mem_nil, or_false] at hx
    rcases hx with rfl | rfl | rfl <;> exact doesIn_eq rfl count2 fun q args e hla =>
      ⟨.ok (.bool false), by simp only [car_args hla, cadr_args hla, h1]; rfl, nofun, rfl⟩
  case member k l pre y post hl hk hy hs hpre hx =>
    have h1 := fun q : FrEq => (@C09_memq q k l _ hl).2 pre y post rfl (fun z hz => by
      obtain ⟨hp, hn⟩ := hpre z hz
      rw [← Bool.not_eq_true, @C12_equal_structural_partial q k z hk hp]; exact hn) ((@C12_equal_structural_partial q k y hk hy).2 hs)
    simp only [List.mem_cons, List.not_mem_nil, or_false] at hx
    rcases hx with rfl | rfl | rfl <;> exact doesIn_eq rfl count2 fun q args e hla =>
      ⟨.ok (Prim.memq k l), by simp only [car_args hla, cadr_args hla]; rfl, nofun, _, rfl, h1 q⟩
  case union ls hl =>
    refine ⟨_, _, rfl, any_count _, fun C args e s hla => ?_⟩
    obtain ⟨r, xs, h1, h2⟩ := @C10_union (Frame.eqIn s.frames) ls hl
    refine ⟨.ok r, ⟨r, xs, rfl, h2⟩, ?_⟩
    rw [← h1]
    simp only [unionImpl, hla.toArray]
    exact unionP_yields _ (frameless_sets hl) trivial
  case intersection c xs ls hc hl =>
    refine ⟨_, _, rfl, any_count _, fun C args e s hla => ?_⟩
    obtain ⟨r, ys, h1, h2⟩ := @C10_intersection (Frame.eqIn s.frames) c xs ls hc hl
    refine ⟨.ok r, ⟨r, ys, rfl, h2⟩, ?_⟩
    rw [← h1, ← hla.toArray]
    exact intersectionP_yields (by rw [hla.toArray]; exact List.forall_mem_cons.mpr ⟨hc.2.1.frameless, frameless_sets hl⟩)
  case complement c xs ls hc hl =>
    refine ⟨_, _, rfl, any_count _, fun C args e s hla => ?_⟩
    obtain ⟨r, ys, h1, h2⟩ := @C10_complement (Frame.eqIn s.frames) c xs ls hc hl
    refine ⟨.ok r, ⟨r, ys, rfl, h2⟩, ?_⟩
    rw [← h1, ← hla.toArray]
    exact complementP_yields (by rw [hla.toArray]; exact List.forall_mem_cons.mpr ⟨hc.2.1.frameless, frameless_sets hl⟩)
  case assoc a al kvs v hn hal hlk hx =>
    have (q : FrEq) : @assocOut q (.atom a) al ≠ .timeout ∧ ∃ k kd, assocOut (.atom a) al = .ok (.cell kd (.atom k) v) ∧ AtomEq k a := by
      obtain ⟨pk, k, _, hk, he⟩ := (assocLoop_spec a hn hal).2 v hlk
      simp only [assocOut, Data.assoc, he]
      exact ⟨nofun, k, pk, rfl, hk⟩
    simp only [List.mem_cons, List.not_mem_nil, or_false] at hx
    rcases hx with rfl | rfl | rfl <;> exact doesIn_two rfl this
  case assocNot a al kvs hn hal hlk hx =>
    have (q : FrEq) : @assocOut q (.atom a) al ≠ .timeout ∧ assocOut (.atom a) al = .ok .null := by
      simp only [assocOut, (C11_assoc a hn al kvs hal).1 hlk]
      exact ⟨nofun, trivial⟩
    simp only [List.mem_cons, List.not_mem_nil, or_false] at hx
    rcases hx with rfl | rfl | rfl <;> exact doesIn_two rfl this
  case dissoc a al kvs hn hal hd =>
    refine doesIn_two rfl fun q => ?_
    obtain ⟨r, kvs', h1, h2⟩ := C11_dissoc_distinct_partial a hn al kvs hal hd
    simp only [dissocOut, h1]
    exact ⟨nofun, r, kvs', rfl, h2⟩
  case alist l kvs hl hn =>
    refine doesIn_eq rfl count1 fun q args e hla => ?_
    obtain ⟨kvs', h1, h2⟩ := mkAlist_pairs hl hn
    exact ⟨.ok _, by simp only [p1, car_args hla]; rfl, nofun, _, kvs', rfl, h1, h2⟩
  all_goals refine Does.toIn ?_
  case list => exact ⟨_, _, rfl, any_count _, fun args e hl => ⟨.ok args, rfl, nofun, args, rfl, hl⟩⟩
  case makeList n hn =>
    refine ⟨_, _, rfl, count12 (Nat.zero_le 1), fun args e hl => ?_⟩
    have h2 : car (cdr args) = .null := by rw [car_Lst (cdr_Lst hl)]; rfl
    refine ⟨_, by rw [car_args hl, h2], ?_, ?_⟩
    · simp only [Prim.makeList, if_neg (Int.not_lt.mpr hn)]; exact nofun
    · simp only [Prim.makeList, if_neg (Int.not_lt.mpr hn)]
      exact ⟨_, rfl, by simpa [elem] using Lst.ofArray (List.replicate n.toInt.toNat .null)⟩
  case makeListOf n v hn =>
    refine ⟨_, _, rfl, count12 (Nat.le_refl 1), fun args e hl => ?_⟩
    have hv : elem v = v := by simp at hnn; simp [elem, Ne.symm hnn]
    refine ⟨_, by rw [car_args hl, cadr_args hl], ?_, ?_⟩
    · simp only [Prim.makeList, if_neg (Int.not_lt.mpr hn)]; exact nofun
    · simp only [Prim.makeList, if_neg (Int.not_lt.mpr hn)]
      exact ⟨_, rfl, by simpa [hv] using Lst.ofArray (List.replicate n.toInt.toNat v)⟩
  case makeListNegative n vs hn hlen =>
    refine ⟨_, _, rfl, count12 hlen, fun args e hl => ⟨_, by rw [car_args hl], ?_, ?_⟩⟩
    · simp only [Prim.makeList, if_pos hn]; exact nofun
    · simp only [Prim.makeList, if_pos hn]; exact ⟨_, rfl⟩
  case cons a b => exact ⟨_, _, rfl, count2, fun args e hl => ⟨.ok (.cons a b), by simp only [car_args hl, cadr_args hl]; rfl, nofun, rfl⟩⟩
  case consStar vs l xs hl =>
    refine ⟨_, _, rfl, count_ge1'' _ (by simp), fun args e hla => ⟨.ok (listWithTail vs l), ?_, nofun, _, rfl, ?_⟩⟩
    · simp only [oL, hla.toArray, Prim.consStar, List.getLast?_append, List.getLast?_singleton, Option.some_or, List.dropLast_concat]
    · exact listWithTail_lst hl.1 vs (fun h => hnn (List.mem_append_left _ h))
  case reverse l xs hl hx => exact does_p1 rfl ⟨_, rfl, C03_reverse_partial l xs hl.1 hl.2 hx⟩
  case flatten l xs ps hl hp =>
    have h0 : l ≠ .null := fun h => hnn (h ▸ List.mem_cons_self)
    exact does_p1 rfl ⟨_, rfl, by rw [C14_flatten_partial l xs ps hl.1 hl.2 h0 hp]; exact Lst.ofArray ps⟩
  case flattenStar l ls hl hp =>
    have h0 : l ≠ .null := fun h => hnn (h ▸ List.mem_cons_self)
    obtain ⟨h1, h2⟩ := C14_flatten_star_partial l ls hp hl h0
    refine does_p1 rfl ⟨_, rfl, ?_⟩
    rw [h1]
    have := Lst.ofArray ls
    rwa [map_elem_id (fun h => h2 _ h rfl)] at this
  case append ls hl =>
    exact ⟨_, _, rfl, any_count _, fun args e hla => ⟨.ok _, by rw [hla.toArray]; rfl, nofun, _, rfl, C01_append ls hl⟩⟩
  case sublist l xs i j hl hi hj =>
    obtain ⟨_, _, h3⟩ := C04_sublist l xs hl.1 hl.2 i j
    obtain ⟨r, h4, h5⟩ := h3 hi hj
    exact ⟨_, _, rfl, count3, fun args e hla => ⟨.ok r, by simp only [car_args hla, cadr_args hla, caddr_args hla, h4], nofun, r, rfl, h5⟩⟩
  case sublistNone l xs i j hl hi hj hij =>
    obtain ⟨_, h2, _⟩ := C04_sublist l xs hl.1 hl.2 i j
    exact ⟨_, _, rfl, count3, fun args e hla => ⟨.ok .null, by simp only [car_args hla, cadr_args hla, caddr_args hla, h2 hi hj hij], nofun, _, rfl, .null⟩⟩
  case sublistBad l xs i j hl hij =>
    obtain ⟨h1, _, _⟩ := C04_sublist l xs hl.1 hl.2 i j
    obtain ⟨er, her⟩ := h1 hij
    exact ⟨_, _, rfl, count3, fun args e hla => ⟨.err er, by simp only [car_args hla, cadr_args hla, caddr_args hla, her], nofun, _, rfl⟩⟩
  case partition l xs n hl hn =>
    obtain ⟨r, cs, h1, h2, ds, h3, h4, h5⟩ := (C05_partition_size n l xs hl.1).2 hn
    refine ⟨_, _, rfl, count2, fun args e hla => ⟨.ok r, ?_, nofun, r, cs, ds, rfl, h3, h2, h4, h5⟩⟩
    simp only [partitionImpl, car_args hla, cadr_args hla, hl.2]
    rw [← h1]; rfl
  case partitionBad l xs n hl hn =>
    obtain ⟨er, h1⟩ := (C05_partition_size n l xs hl.1).1 hn
    refine ⟨_, _, rfl, count2, fun args e hla => ⟨.err er, ?_, nofun, _, rfl⟩⟩
    simp only [partitionImpl, car_args hla, cadr_args hla, hl.2]
    rw [← h1]; rfl
  case path cs v hc h1 h4 => exact path_does hc h1 h4 v
  case head v => exact does_p1 rfl (by simp only [Gives]; rw [C13_cxr _ (by simp)]; rfl)
  case rest v hx =>
    simp only [List.mem_cons, List.not_mem_nil, or_false] at hx
    rcases hx with rfl | rfl <;> exact does_p1 rfl (by simp only [Gives]; rw [C13_cxr _ (by simp)]; rfl)
  case ordinal n l xs hl hx => exact ordinal_does hx hl.1
  case nth l xs n hl hp => exact does_two rfl (C04_nth l xs hl hp n) nofun rfl
  case listRef l xs n hl hp h0 h1 h2 => exact does_two rfl (C04_list_ref l xs hl hp n h0 h1 h2) nofun rfl
  case listRefOut l xs n hl hp h1 => exact does_two rfl (C04_list_ref_out l xs hl hp n h1) nofun rfl
  case take l xs n hl => obtain ⟨r, h1, _, h2⟩ := C04_take l xs hl.1 hl.2 n; exact does_two rfl h1 nofun ⟨r, rfl, h2⟩
  case listHead l xs n hl => obtain ⟨r, _, h1, h2⟩ := C04_take l xs hl.1 hl.2 n; exact does_two rfl h1 nofun ⟨r, rfl, h2⟩
  case drop l xs n hl => obtain ⟨r, h1, _, h2⟩ := C04_drop l xs hl.1 hl.2 n; exact does_two rfl h1 nofun ⟨r, rfl, h2⟩
  case listTail l xs n hl => obtain ⟨r, _, h1, h2⟩ := C04_drop l xs hl.1 hl.2 n; exact does_two rfl h1 nofun ⟨r, rfl, h2⟩
  case lastPair l xs v hl =>
    obtain ⟨h1, h2⟩ := lastPair_pairs hl
    refine does_one rfl (r := .ok (lastPairLoop l)) ?_ nofun ⟨_, rfl, h2⟩
    simp [Prim.lastPair, h1, isListP, (pairs_lst hl).2]
  case lastPairNone l hl =>
    have := (isNil_iff_Lst l).2 hl
    exact does_one rfl (r := .err (.msg "last-pair requires a non-empty list as its argument.")) (by simp only [Prim.lastPair, this, if_true]) nofun ⟨_, rfl⟩
  case classify Q v hc => exact classifies_does hc v (fun h => hnn (h ▸ List.mem_cons_self))

/-- The same for lists, sets, association lists and types. -/
theorem C67_lists {x : String} {vs : List Data} {P : Out Data → Prop} (hm : ListWork x vs P) (h : Calling C x vs d e s s₁) :
    ∃ r, P r ∧ ∀ r' t, Evals C d e s r' t ↔ r' = quoting d r ∧ t = s₁ :=
  doesIn_evals (listWork_does hm (calling_not_null h)) h

example : Calling Demo.C "append" [ofArray [.int 1], ofArray [.int 2, .int 3]] (Demo.code "(append '(1) '(2 3))") 1 Demo.s Demo.s :=
  Demo.calling 10 (b := true) (xs := [Demo.code "'(1)", Demo.code "'(2 3)"]) (us := [ofArray [.int 1], ofArray [.int 2, .int 3]]) (by decide +kernel) (by decide +kernel)
    (by decide +kernel) (by decide +kernel) rfl (by decide +kernel) (by decide +kernel) rfl
example : ListWork "append" [ofArray [.int 1], ofArray [.int 2, .int 3]] (GivesList [.int 1, .int 2, .int 3]) :=
  .append (ls := [(ofArray [.int 1], [.int 1]), (ofArray [.int 2, .int 3], [.int 2, .int 3])]) (by
    intro p hp
    simp only [List.mem_cons, List.not_mem_nil, or_false] at hp
    rcases hp with rfl | rfl
    · exact ⟨Lst.ofArray [.int 1], rfl⟩
    · exact ⟨Lst.ofArray [.int 2, .int 3], rfl⟩)
example : ListWork "cadr" [ofArray [.int 1, .int 2]] (Gives (.int 2)) := .path (cs := ['a', 'd']) (ofArray [.int 1, .int 2]) (by simp) (by simp) (by simp)
example : ListWork "third" [ofArray [.int 4, .int 5, .int 6]] (Gives (.int 6)) := .ordinal (n := 2) rfl ⟨Lst.ofArray [.int 4, .int 5, .int 6], rfl⟩
example : ListWork "integer?" [.int 4] (Tells (∃ n, Data.int 4 = .int n)) := .classify _ .integer

end Golisp.Props
