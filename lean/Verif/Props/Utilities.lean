import Verif.DemoCalls
import Verif.Props.FrameCalls
import Verif.Props.Define
import Verif.Props.Apply
import Verif.Props.Crash
/- C82: the contents of frames as lists, method calls with a list of arguments, the text of a procedure, output and errors. -/
namespace Golisp.Spec
open Golisp Data Ev Frame

/-- `ks` names each slot of the frame itself exactly once. -/
def OwnSlots (F : Frames) (i : Nat) (ks : List String) : Prop := ks.Nodup ∧ ∀ k, k ∈ ks ↔ (slot F i k).isSome

/-- `vs` are the values of these slots, one by one. -/
inductive ValuesOf (F : Frames) (i : Nat) : List String → List Data → Prop where
  | nil : ValuesOf F i [] []
  | cons {k v ks vs} : slot F i k = some v → ValuesOf F i ks vs → ValuesOf F i (k :: ks) (elem v :: vs)

/-- How a value appears in output: a string without its quotes, anything else as printed. -/
def Written (H : Host) (s : Store) (v : Data) (t : String) : Prop := v = .str t ∨ ((∀ u, v ≠ .str u) ∧ t = H.show s v)

/-- The text of a line of values. -/
inductive WrittenAll (H : Host) (s : Store) : List Data → String → Prop where
  | none : WrittenAll H s [] ""
  | next {v vs t u} : Written H s v t → WrittenAll H s vs u → WrittenAll H s (v :: vs) (t ++ u)

/-- `d` is the definition of a function of that name, parameters and body. -/
def DefinitionOf (d : Data) (f : String) (params : Data) (bs : List Data) : Prop :=
  ∃ t, d = .cons (.sym "define") t ∧ Lst t (.cons (.sym f) params :: bs)

/-- `d` is the definition of `f` as the value of a `lambda` expression. -/
def LambdaDefinitionOf (d : Data) (f : String) (params : Data) (bs : List Data) : Prop :=
  ∃ t t', d = .cons (.sym "define") t ∧ Lst t [.sym f, .cons (.sym "lambda") t'] ∧ Lst t' (params :: bs)

end Golisp.Spec

namespace Golisp.Props
open Golisp Data Ev Spec Frame

variable {C : Conf} {e : Nat} {s s₁ s₂ s₃ : Store} {d : Data}

private theorem lst_args {xs : List Data} (hn : Data.null ∉ xs) : Lst (ofArray xs) xs := by
  have := Lst.ofArray xs; rwa [map_elem_id hn] at this

private theorem runs_failShow {α : Type} {m n : String} {x : Data} {r : Out α} {t : Store} :
    RunsP (body C) (failShow C.host m x n) s r t ↔ r = .err (.msg (m ++ C.host.show s x ++ n)) ∧ t = s := by
  simp only [failShow, runsP_get]; exact runsP_fail

private theorem lst_cons {a l : Data} {xs : List Data} (ha : a ≠ .null) (hl : Lst l xs) : Lst (.cons a l) (a :: xs) :=
  .cons _ _ _ _ (fun h => ha h.1) (by decide) hl

private theorem count_any (n : Nat) : Arity.checkArgumentCount (Arity.parseNumArgs "*".toList) n = true := any_count n

set_option maxRecDepth 20000

/-! ### Slots as lists -/

private theorem mem_keys {α : Type} {l : List (String × α)} {k : String} : k ∈ l.map Prod.fst ↔ (alGet l k).isSome := by
  induction l with
  | nil => simp [alGet]
  | cons p l ih =>
    obtain ⟨a, b⟩ := p
    simp only [List.map_cons, List.mem_cons, alGet, ih]
    by_cases h : a = k
    · simp [h]
    · simp [h, Ne.symm h]

private theorem own_iter {i : Nat} (hs : Sound C s₁) : OwnSlots s₁.frames i (C.host.iter ((Frame.get? s₁.frames i).map Prod.fst)) := by
  have hp := C.host.iterPerm ((Frame.get? s₁.frames i).map Prod.fst)
  refine ⟨hp.nodup_iff.2 (sound_frame hs i).2, fun k => ?_⟩
  rw [hp.mem_iff, mem_keys]; rfl

/-- `(frame-keys f)`: the names of the frame's own slots, each once, in some order. -/
theorem C82_frame_keys {i : Nat} (h : Calling C "frame-keys" [.atom (.frame i)] d e s s₁) (hs : Sound C s₁) :
    ∃ l ks, OwnSlots s₁.frames i ks ∧ Lst l (ks.map .sym) ∧ Returns C d e s l s₁ := by
  obtain ⟨args, hl, hiff⟩ := calling_iff h (spec := "1".toList) (impl := frameKeysImpl C.host) rfl count1
  refine ⟨_, _, own_iter hs, lst_args (by simp), returns_of hiff fun r t => ?_⟩
  simp only [frameKeysImpl, car_args hl, runsP_get]
  exact runsP_pure

/-- `(frame-values f)`: the values of the frame's own slots, each slot once, in some order. -/
theorem C82_frame_values {i : Nat} (h : Calling C "frame-values" [.atom (.frame i)] d e s s₁) (hs : Sound C s₁) :
    ∃ l ks vs, OwnSlots s₁.frames i ks ∧ ValuesOf s₁.frames i ks vs ∧ Lst l vs ∧ Returns C d e s l s₁ := by
  obtain ⟨args, hl, hiff⟩ := calling_iff h (spec := "1".toList) (impl := frameValuesImpl C.host) rfl count1
  refine ⟨_, _, _, own_iter hs, ?_, Lst.ofArray ((C.host.iter ((Frame.get? s₁.frames i).map Prod.fst)).map fun k => (alGet (Frame.get? s₁.frames i) k).getD null), returns_of hiff fun r t => ?_⟩
  · have hall : ∀ k ∈ C.host.iter ((Frame.get? s₁.frames i).map Prod.fst), (slot s₁.frames i k).isSome := fun k hk => ((own_iter hs).2 k).1 hk
    revert hall
    generalize C.host.iter ((Frame.get? s₁.frames i).map Prod.fst) = ks
    intro hall
    induction ks with
    | nil => exact .nil
    | cons k ks ih =>
      obtain ⟨v, hv⟩ := Option.isSome_iff_exists.mp (hall k List.mem_cons_self)
      have : (alGet (Frame.get? s₁.frames i) k).getD null = v := by
        have hv' : alGet (Frame.get? s₁.frames i) k = some v := hv
        rw [hv']; rfl
      simp only [List.map_cons, this]
      exact .cons hv (ih fun k' hk' => hall k' (List.mem_cons_of_mem _ hk'))
  · simp only [frameValuesImpl, car_args hl, runsP_get]
    exact runsP_pure

/-- Anything but a frame is refused. -/
theorem C82_not_frame {x : String} {f : Data} (hx : x = "frame-keys" ∨ x = "frame-values") (hf : ∀ i, f ≠ .atom (.frame i))
    (h : Calling C x [f] d e s s₁) : Refuses C d e s s₁ := by
  rcases hx with rfl | rfl
  · obtain ⟨args, hl, hiff⟩ := calling_iff h (spec := "1".toList) (impl := frameKeysImpl C.host) rfl count1
    refine refuses_of hiff (m := "frame-keys requires a frame as it's argument, but was given " ++ C.host.show s₁ f ++ ".") fun r t => ?_
    simp only [frameKeysImpl, car_args hl]
    exact runs_failShow
  · obtain ⟨args, hl, hiff⟩ := calling_iff h (spec := "1".toList) (impl := frameValuesImpl C.host) rfl count1
    refine refuses_of hiff (m := "frame-values requires a frame as it's argument, but was given " ++ C.host.show s₁ f ++ ".") fun r t => ?_
    simp only [frameValuesImpl, car_args hl]
    exact runs_failShow

/-! ### Output and errors -/

private theorem str_or (v : Data) : (∃ t, v = .str t) ∨ ∀ t, v ≠ .str t := by
  by_cases h : ∃ t, v = .str t
  · exact .inl h
  · exact .inr fun t ht => h ⟨t, ht⟩

private theorem printString_written (H : Host) (v : Data) : Written H s v (printString H s v) := by
  rcases str_or v with ⟨t, rfl⟩ | h
  · exact .inl rfl
  · refine .inr ⟨h, ?_⟩
    have : isStr v = false := by
      cases v with
      | atom a => cases a <;> first | rfl | exact absurd rfl (h _)
      | _ => rfl
    simp [printString, this]

private theorem written_det {H : Host} {v : Data} {t u : String} (h : Written H s v t) (h' : Written H s v u) : t = u := by
  rcases h with rfl | ⟨h, rfl⟩
  · rcases h' with h' | ⟨h', _⟩
    · cases h'; rfl
    · exact absurd rfl (h' _)
  · rcases h' with rfl | ⟨_, rfl⟩
    · exact absurd rfl (h _)
    · rfl

private theorem concat_written {H : Host} {vs : List Data} {t : String} (h : WrittenAll H s vs t) :
    String.join (vs.map (printString H s)) = t := by
  induction h with
  | none => rfl
  | next hv _ ih =>
    rw [List.map_cons, String.join_cons, ih, written_det (printString_written H _) hv]

private theorem concatForms_eq {args : Data} {vs : List Data} (hl : Lst args vs) :
    concatForms C.host s args = if vs = [] then "()" else String.join (vs.map (printString C.host s)) := by
  unfold concatForms
  rw [hl.length, hl.toArray]
  cases vs with
  | nil => simp
  | cons v vs =>
    have hn : isNil args = false := by
      cases hl with
      | cons k a d xs h0 hk hd =>
        cases v <;> cases d <;> simp_all [isNil]
    simp [hn]

/-- `(str x …)`: the written forms one after the other; without arguments the text of the empty list. -/
theorem C82_str {vs : List Data} (h : Calling C "str" vs d e s s₁) :
    (vs = [] → Returns C d e s (.str "()") s₁) ∧ (∀ t, vs ≠ [] → WrittenAll C.host s₁ vs t → Returns C d e s (.str t) s₁) := by
  obtain ⟨args, hl, hiff⟩ := calling_iff h (spec := "*".toList) (impl := strImpl C.host) rfl (count_any _)
  have key : Returns C d e s (.str (concatForms C.host s₁ args)) s₁ :=
    returns_of hiff fun r t => by simp only [strImpl, runsP_get]; exact runsP_pure
  rw [concatForms_eq hl] at key
  refine ⟨fun h0 => by rwa [if_pos h0] at key, fun t h0 ht => ?_⟩
  rwa [if_neg h0, concat_written ht] at key

/-- `(write-line x …)`: one line more of output, nothing else changes, and the value is nil. -/
theorem C82_write_line {vs : List Data} {t : String} (h : Calling C "write-line" vs d e s s₁) (h0 : vs ≠ []) (ht : WrittenAll C.host s₁ vs t) :
    Returns C d e s .null { s₁ with out := s₁.out ++ [t] } := by
  obtain ⟨args, hl, hiff⟩ := calling_iff h (spec := "*".toList) (impl := writeLineImpl C.host) rfl (count_any _)
  refine returns_of hiff fun r u => ?_
  simp only [writeLineImpl, runsP_get, concatForms_eq hl, if_neg h0, concat_written ht]
  rw [runsP_op_bind (n := 0) rfl]
  exact runsP_pure

/-- Without arguments it writes the empty list. -/
theorem C82_write_line_nothing (h : Calling C "write-line" [] d e s s₁) : Returns C d e s .null { s₁ with out := s₁.out ++ ["()"] } := by
  obtain ⟨args, hl, hiff⟩ := calling_iff h (spec := "*".toList) (impl := writeLineImpl C.host) rfl (count_any _)
  refine returns_of hiff fun r u => ?_
  simp only [writeLineImpl, runsP_get, concatForms_eq hl, if_pos]
  rw [runsP_op_bind (n := 0) rfl]
  exact runsP_pure

/-- Whatever the values are, they have a written form. -/
theorem C82_written (H : Host) (s : Store) : ∀ vs : List Data, ∃ t, WrittenAll H s vs t
  | [] => ⟨_, .none⟩
  | v :: vs => let ⟨_, h⟩ := C82_written H s vs; ⟨_, .next (printString_written H v) h⟩

/-- `(error x)` always fails, with the printed value as its message, and changes nothing. -/
theorem C82_error {v : Data} (h : Calling C "error" [v] d e s s₁) (r : Out Data) (t : Store) :
    Evals C d e s r t ↔ r = .err (.evaling d (.msg (C.host.show s₁ v))) ∧ t = s₁ := by
  obtain ⟨args, hl, hiff⟩ := calling_iff h (spec := "1".toList) (impl := errorImpl C.host) rfl count1
  rw [hiff]
  simp only [errorImpl, car_args hl, runs_failShow]
  constructor
  · rintro ⟨_, rfl, rfl, rfl⟩; simp [quoting]
  · rintro ⟨rfl, rfl⟩; exact ⟨_, by simp [quoting], rfl, rfl⟩

/-- `(intern "x")` is the symbol of that name; two equal strings give the same symbol. -/
theorem C82_intern {t : String} (h : Calling C "intern" [.str t] d e s s₁) : Returns C d e s (.sym t) s₁ := by
  obtain ⟨args, hl, hiff⟩ := calling_iff h (spec := "1".toList) (impl := internImpl C.host) rfl count1
  refine returns_of hiff fun r u => ?_
  simp only [internImpl, car_args hl, isStr, stringValue, Bool.not_true, Bool.false_eq_true, if_false]
  exact runsP_pure

theorem C82_intern_other {v : Data} (hv : ∀ t, v ≠ .str t) (h : Calling C "intern" [v] d e s s₁) : Refuses C d e s s₁ := by
  obtain ⟨args, hl, hiff⟩ := calling_iff h (spec := "1".toList) (impl := internImpl C.host) rfl count1
  have : isStr v = false := by
    cases v with
    | atom a => cases a <;> first | rfl | exact absurd rfl (hv _)
    | _ => rfl
  refine refuses_of hiff (m := "intern expects a string, but received " ++ C.host.show s₁ v ++ ".") fun r u => ?_
  simp only [internImpl, car_args hl, this, Bool.not_false, if_true]
  exact runs_failShow

/-! ### The text of a procedure -/

section definition
variable (hw : WF s) (hm : Means C s e "definition-of") {ex t : Data} (ht : Lst t [ex]) (hne : ex ≠ .null)
include hw hm ht hne

private theorem definition_iff {r : Out Data} {u : Store} : Evals C (.cons (.sym "definition-of") t) e s r u ↔
    ∃ r₀, r = quoting (.cons (.sym "definition-of") t) r₀ ∧ RunsP (body C) (definitionOfImpl (ofArray [ex]) e) s r₀ u := by
  rw [evals_form (P := ⟨"1".toList, true, false, definitionOfImpl⟩) hw hm rfl (fun _ => rfl) rfl rfl rfl ht count1]
  exact exists_congr fun r₀ => and_comm

variable {i : Nat} {fr : FnRec} {bs : List Data} (hev : Evals C ex e s (.ok (.atom (.func i))) s₁) (hfr : s₁.fns[i]? = some fr) (hb : Lst fr.body bs)
include hev hfr hb

/-- The definition of a named function names it, with its parameters and body. -/
theorem C82_definition_named (hname : fr.name ≠ "unnamed") :
    ∃ v, DefinitionOf v fr.name fr.params bs ∧ Returns C (.cons (.sym "definition-of") t) e s v s₁ := by
  have c1 : car (ofArray [ex]) = ex := car_args (lst_args (xs := [ex]) (by simpa using Ne.symm hne))
  refine ⟨_, ⟨_, rfl, lst_cons (a := .cons (.sym fr.name) fr.params) (by simp) hb⟩, returns_of (p := definitionOfImpl (ofArray [ex]) e) (s₁ := s) (fun r u => definition_iff hw hm ht hne) fun r u => ?_⟩
  simp only [definitionOfImpl, c1]
  rw [runsP_bind_ok (runsP_eval.mpr hev)]
  simp only [runsP_get, hfr, if_neg hname]
  exact runsP_pure

/-- That of a function made by `lambda` is a definition of the variable asked about, or else of `anonymous`. -/
theorem C82_definition_unnamed (hname : fr.name = "unnamed") (hp : fr.params ≠ .null) {x : String}
    (hx : ex = .sym x ∨ ((∀ y, ex ≠ .sym y) ∧ x = "anonymous")) :
    ∃ v, LambdaDefinitionOf v x fr.params bs ∧ Returns C (.cons (.sym "definition-of") t) e s v s₁ := by
  have c1 : car (ofArray [ex]) = ex := car_args (lst_args (xs := [ex]) (by simpa using Ne.symm hne))
  have hn : (if isSym ex then ex else sym "anonymous") = .sym x := by
    rcases hx with rfl | ⟨h1, rfl⟩
    · rfl
    · have : isSym ex = false := by
        cases ex with
        | atom a => cases a <;> first | rfl | exact absurd rfl (h1 _)
        | _ => rfl
      rw [this]; rfl
  refine ⟨_, ⟨_, _, rfl, lst_cons (by simp) (lst_cons (by simp) .null), lst_cons hp hb⟩,
    returns_of (p := definitionOfImpl (ofArray [ex]) e) (s₁ := s) (fun r u => definition_iff hw hm ht hne) fun r u => ?_⟩
  simp only [definitionOfImpl, c1]
  rw [runsP_bind_ok (runsP_eval.mpr hev)]
  simp only [runsP_get, hfr, if_pos hname, hn]
  exact runsP_pure

end definition

/-- What is not a function has no definition. -/
theorem C82_definition_other (hw : WF s) (hm : Means C s e "definition-of") {ex t v : Data} (ht : Lst t [ex]) (hne : ex ≠ .null)
    (hev : Evals C ex e s (.ok v) s₁) (hv : ∀ i, v ≠ .atom (.func i)) : Refuses C (.cons (.sym "definition-of") t) e s s₁ := by
  have c1 : car (ofArray [ex]) = ex := car_args (lst_args (xs := [ex]) (by simpa using Ne.symm hne))
  refine refuses_of (p := definitionOfImpl (ofArray [ex]) e) (s₁ := s) (m := "code requires a function argument, but received a " ++ typeName v ++ ".")
    (fun r u => definition_iff hw hm ht hne) fun r u => ?_
  simp only [definitionOfImpl, c1]
  rw [runsP_bind_ok (runsP_eval.mpr hev)]
  split
  · next j => exact absurd rfl (hv j)
  · exact runsP_fail

/-- Evaluating the definition that `definition-of` gives makes a function of that name, parameters and body again, closed over
the environment of the evaluation, and binds its name there. -/
theorem C82_definition_again {v params : Data} {f : String} {bs : List Data} (hd : DefinitionOf v f params bs) (hw : WF s) (hm : Means C s e "define")
    (hfr : s.frameOf e = none) (he : e < s.envs.length) (hn : Data.null ∉ bs) (hf : Free s e f) :
    ∃ s' fr, Evals C v e s (.ok (.atom (.func s.fns.length))) s' ∧ s'.fns[s.fns.length]? = some fr ∧ fr.name = f ∧ fr.params = params ∧
      Lst fr.body bs ∧ fr.env = e ∧ ∃ b, s'.localB e f = some b ∧ b.val = .atom (.func s.fns.length) := by
  obtain ⟨t, rfl, ht⟩ := hd
  obtain ⟨s₁, fr, hq, h1, h2, h3, h4, _, hiff⟩ := C33_define hw hm hfr he ht hn hf
  refine ⟨_, fr, (hiff _ _).mpr ⟨rfl, rfl⟩, ?_, h2, h3, h4, h1, ?_⟩
  · rw [(putVal_rest _ _ _ _).1, ← hq.fns.1]; simp
  · rw [putVal_localB]
    obtain ⟨q, hq'⟩ : ∃ q, s₁.envs[e]? = some q := ⟨_, hq.env (List.getElem?_eq_getElem he)⟩
    simp [hq']

/-! ### Method calls with a list of arguments -/

private theorem tail_lst {l : Data} {ws : List Data} (hl : Lst l ws) : ∀ pre : List Data, Lst (listWithTail pre l) (pre.map elem ++ ws)
  | [] => hl
  | v :: pre => by
    have : noNull v = elem v := by cases v <;> simp [noNull, elem]
    simp only [listWithTail, this, List.map_cons, List.cons_append]
    refine .cons _ _ _ _ ?_ (by decide) (tail_lst hl pre)
    rintro ⟨h, _⟩
    cases v <;> simp [elem] at h

private theorem spread_list {l : Data} {pre : List Data} (hl : isListP l = true) : spread (pre ++ [l]) = .ok (listWithTail pre l) := by
  simp only [spread, List.getLast?_append, List.getLast?_singleton, Option.some_or, hl, if_true, List.dropLast_concat]
  split
  · rfl
  · next hlen =>
    cases pre with
    | nil => rfl
    | cons => simp at hlen

section applySlot
variable (hw : WF s) (hm : Means C s e "apply-slot") {t fx kx : Data} {xs : List Data} (ht : Lst t (fx :: kx :: xs)) (hxs : xs ≠ [])
  (hnn : Data.null ∉ fx :: kx :: xs)
include hw hm ht hxs hnn

private theorem applySlot_iff {r : Out Data} {u : Store} : Evals C (.cons (.sym "apply-slot") t) e s r u ↔
    ∃ r₀, r = quoting (.cons (.sym "apply-slot") t) r₀ ∧ RunsP (body C) (applySlotImpl C.host (ofArray (fx :: kx :: xs)) e) s r₀ u := by
  rw [evals_form (P := ⟨">=3".toList, true, false, applySlotImpl C.host⟩) hw hm rfl (fun _ => rfl) rfl rfl rfl ht (by
    have h3 : Arity.parseNumArgs ">=3".toList = [.gte 3] := by decide
    cases xs with
    | nil => exact absurd rfl hxs
    | cons x xs => rw [h3]; simp [Arity.checkArgumentCount])]
  exact exists_congr fun r₀ => and_comm


variable {i : Nat} {k : String} (hf : Evals C fx e s (.ok (.atom (.frame i))) s₁) (hk : Evals C kx e s₁ (.ok (.sym k)) s₂) (hn : isNaked (.sym k) = true)
  (hord : Reorders C.host.ord) (hok : ParentsOk s₂.frames)

include hf hk hn in
omit hw hm ht hxs in
private theorem applySlot_method {r : Out Data} {u : Store} : RunsP (body C) (applySlotImpl C.host (ofArray (fx :: kx :: xs)) e) s r u ↔
    RunsP (body C) (do
      let j ← methodOf C.host "apply-slot" i k
      let vs ← evalAll e xs
      let l ← Prog.ofOut (spread vs)
      callFn j l e (some i) false) s₂ r u := by
  have hl := lst_args hnn
  have c1 : car (ofArray (fx :: kx :: xs)) = fx := car_args hl
  have c2 : car (cdr (ofArray (fx :: kx :: xs))) = kx := car_args (cdr_Lst hl)
  have c3 : toArray (cdr (cdr (ofArray (fx :: kx :: xs)))) = xs := (cdr_Lst (cdr_Lst hl)).toArray
  simp only [applySlotImpl, c1, c2, c3]
  rw [runsP_bind_ok (runsP_eval.mpr hf)]
  dsimp only
  rw [runsP_bind_ok (runsP_eval.mpr hk)]
  simp only [hn, Bool.not_true, Bool.false_eq_true, if_false, stringValue]

include hf hk hn hord hok

/-- `(apply-slot f k: a … l)`: when what the frame has or inherits under that name is one function, it is called, with the
frame as its frame, with the values `a …` followed by the elements of `l`. -/
theorem C82_apply_slot {j : Nat} (hj : Inherits s₂.frames k i (.atom (.func j))) (huniq : ∀ v, Inherits s₂.frames k i v → v = .atom (.func j))
    {pre ws : List Data} {l : Data} (ha : Args C e xs s₂ (.ok (pre ++ [l])) s₃) (hl : ListOf l ws) {fr : FnRec} (hfr : s₃.fns[j]? = some fr) (hg : GoodFn s₃ fr)
    {r : Out Data} {u : Store} :
    Evals C (.cons (.sym "apply-slot") t) e s r u ↔
      ∃ r₀, r = quoting (.cons (.sym "apply-slot") t) r₀ ∧ CallsV C j (pre.map elem ++ ws) e (some i) s₃ r₀ u := by
  rw [applySlot_iff hw hm ht hxs hnn]
  refine exists_congr fun r₀ => and_congr Iff.rfl ?_
  rw [applySlot_method hnn hf hk hn]
  cases found hord hok "apply-slot" i k with
  | fn j' hj' hm' =>
    cases huniq _ hj'
    rw [runsP_bind_ok hm', runsP_bind_ok ((runsP_evalAll xs _ _ _).mpr ha), spread_list hl.2]
    exact runsP_callFn_values hfr hg (tail_lst hl.1 pre)
  | none m h0 hm' =>
    obtain ⟨j', ha', hs'⟩ := C45_inherited_is_ancestors _ _ _ _ hj
    rw [h0 j' ha'] at hs'; cases hs'
  | other v m h0 h1 hm' => exact absurd (huniq v h0) (h1 j)

/-- Without a function there, neither the arguments are evaluated nor anything called. -/
theorem C82_apply_slot_absent (hno : ∀ v, Inherits s₂.frames k i v → ∀ j, v ≠ .atom (.func j)) :
    Refuses C (.cons (.sym "apply-slot") t) e s s₂ := by
  have key : ∃ m, RunsP (body C) (methodOf C.host "apply-slot" i k) s₂ (.err (.msg m)) s₂ := by
    cases found hord hok "apply-slot" i k with
    | fn j' hj' hm' => exact absurd rfl (hno _ hj' j')
    | none m h0 hm' => exact ⟨m, hm'⟩
    | other v m h0 h1 hm' => exact ⟨m, hm'⟩
  obtain ⟨m, hm'⟩ := key
  refine refuses_of (p := applySlotImpl C.host (ofArray (fx :: kx :: xs)) e) (s₁ := s) (m := m) (fun r u => applySlot_iff hw hm ht hxs hnn) fun r u => ?_
  rw [applySlot_method hnn hf hk hn, runsP_bind_err hm']

end applySlot

/-- `apply-slot` of something that is not a frame is an error; nothing else is evaluated. -/
theorem C82_apply_slot_not_frame (hw : WF s) (hm : Means C s e "apply-slot") {t fx kx v : Data} {xs : List Data} (ht : Lst t (fx :: kx :: xs)) (hxs : xs ≠ [])
    (hnn : Data.null ∉ fx :: kx :: xs) (hf : Evals C fx e s (.ok v) s₁) (hv : ∀ i, v ≠ .atom (.frame i)) : Refuses C (.cons (.sym "apply-slot") t) e s s₁ := by
  have c1 : car (ofArray (fx :: kx :: xs)) = fx := car_args (lst_args hnn)
  refine refuses_of (p := applySlotImpl C.host (ofArray (fx :: kx :: xs)) e) (s₁ := s)
    (m := "apply-slot requires a frame as it's first argument, but was given " ++ C.host.show s₁ v ++ ".") (fun r u => applySlot_iff hw hm ht hxs hnn) fun r u => ?_
  simp only [applySlotImpl, c1]
  rw [runsP_bind_ok (runsP_eval.mpr hf)]
  split
  · next j => exact absurd rfl (hv j)
  · exact runs_failShow

section applySuper
variable (hw : WF s) (hm : Means C s e "apply-slot-super") {t kx : Data} {xs : List Data} (ht : Lst t (kx :: xs)) (hxs : xs ≠ [])
  (hnn : Data.null ∉ kx :: xs)
include hw hm ht hxs hnn

omit hnn in
private theorem applySuper_iff {r : Out Data} {u : Store} : Evals C (.cons (.sym "apply-slot-super") t) e s r u ↔
    ∃ r₀, r = quoting (.cons (.sym "apply-slot-super") t) r₀ ∧ RunsP (body C) (applySlotSuperImpl C.host (ofArray (kx :: xs)) e) s r₀ u := by
  rw [evals_form (P := ⟨">=2".toList, true, false, applySlotSuperImpl C.host⟩) hw hm rfl (fun _ => rfl) rfl rfl rfl ht (count_ge2 hxs)]
  exact exists_congr fun r₀ => and_comm

/-- `apply-slot-super` outside a method is an error. -/
theorem C82_apply_super_outside (hf : s.frameOf e = none) : Refuses C (.cons (.sym "apply-slot-super") t) e s s := by
  refine refuses_of (p := applySlotSuperImpl C.host (ofArray (kx :: xs)) e) (s₁ := s)
    (m := "apply-slot-super can only be used within the context of a frame.") (fun r u => applySuper_iff hw hm ht hxs) fun r u => ?_
  simp only [applySlotSuperImpl, runsP_get, hf]
  exact runsP_fail

variable {i : Nat} {k : String} (hf : s.frameOf e = some i) (hk : Evals C kx e s (.ok (.sym k)) s₁) (hn : isNaked (.sym k) = true)
  (hord : Reorders C.host.ord) (hok : ParentsOk s₁.frames)
include hf hk hn hord hok

/-- `(apply-slot-super k: a … l)` in a method: when what the parents of the current frame have under that name is one
function, it is called with the values `a …` followed by the elements of `l`, from a new environment below the caller's
in which `self` and the frame are the caller's frame.  (As with `send-super`, the body does not see that environment.) -/
theorem C82_apply_super {j : Nat} (hj : FromParent s₁.frames k i (.atom (.func j))) (huniq : ∀ v, FromParent s₁.frames k i v → v = .atom (.func j))
    {pre ws : List Data} {l : Data} (ha : Args C e xs s₁ (.ok (pre ++ [l])) s₂) (hl : ListOf l ws) {fr : FnRec} (hfr : s₂.fns[j]? = some fr) (hg : GoodFn s₂ fr)
    {pr : EnvRec} (he : s₂.envs[e]? = some pr) {r : Out Data} {u : Store} :
    Evals C (.cons (.sym "apply-slot-super") t) e s r u ↔ ∃ r₀, r = quoting (.cons (.sym "apply-slot-super") t) r₀ ∧
      CallsV C j (pre.map elem ++ ws) s₂.envs.length none (pushEnv s₂ e pr (some i) (pr.name ++ "'") [("self", .atom (.frame i))]) r₀ u := by
  rw [applySuper_iff hw hm ht hxs]
  refine exists_congr fun r₀ => and_congr Iff.rfl ?_
  have hl' := lst_args hnn
  have c1 : car (ofArray (kx :: xs)) = kx := car_args hl'
  have c2 : toArray (cdr (ofArray (kx :: xs))) = xs := (cdr_Lst hl').toArray
  obtain ⟨v, hv, h1, h2⟩ := superFunction_spec (s₁ := s₁) hord hok i k
  obtain rfl : v = .atom (.func j) := by
    by_cases h0 : v = null
    · exact absurd (h2 h0 _ hj) (by simp)
    · exact huniq v (h1 h0)
  simp only [applySlotSuperImpl, runsP_get, hf, c1, c2]
  rw [runsP_bind_ok (runsP_eval.mpr hk)]
  simp only [hn, Bool.not_true, Bool.false_eq_true, if_false, stringValue, callSuper, runsP_get, hv]
  have hq : ∀ {α : Type} (a : α) (s : Store), RunsP (body C) (Prog.ret a : Prog α) s (.ok a) s := fun a s => runsP_pure.mpr ⟨rfl, rfl⟩
  rw [show Prog.ofOut (.ok (Data.atom (.func j))) = Prog.ret (Data.atom (.func j)) from rfl, runsP_bind_ok (hq _ _)]
  dsimp only
  have hargs : RunsP (body C) (do
      let vs ← evalAll e xs
      Prog.ofOut (spread vs)) s₁ (.ok (listWithTail pre l)) s₂ := by
    rw [runsP_bind_ok ((runsP_evalAll xs _ _ _).mpr ha), spread_list hl.2]
    exact hq _ _
  rw [runsP_bind_ok hargs, runsP_get]
  have hnm : ((s₂.envs[e]?).map (·.name)).getD "" = pr.name := by rw [he]; rfl
  rw [hnm, runsP_op_bind (newEnv_run he (some i) (pr.name ++ "'")), runsP_op_bind (bind_pushEnv _ _ _ _ _ _ _ _)]
  obtain ⟨⟨q, hq'⟩, hpar, hbody⟩ := hg
  refine runsP_callFn_values (fr := fr) (by simpa [pushEnv] using hfr) ⟨⟨q, ?_⟩, hpar, hbody⟩ (tail_lst hl.1 pre)
  have := (List.getElem?_eq_some_iff.mp hq').1
  simp only [pushEnv, List.getElem?_append_left this, hq']

end applySuper

/-! ### The hypotheses are met -/

section
open Demo

/-- The state in which `(frame-keys {a: 1 b: 2})` has evaluated its argument. -/
private def withFrame : Store := (interp (recN (body Demo.C) 10) (evalAll 1 [code "{a: 1 b: 2}"]) Demo.s).2

private theorem withFrame_args : Args Demo.C 1 [code "{a: 1 b: 2}"] Demo.s (.ok [.atom (.frame 0)]) withFrame := by
  refine (runsP_evalAll _ _ _ _).1 ⟨10, ?_, nofun⟩
  have h : (interp (recN (body Demo.C) 10) (evalAll 1 [code "{a: 1 b: 2}"]) Demo.s).1 = .ok [.atom (.frame 0)] := by decide +kernel
  exact Prod.ext h rfl

private theorem withFrame_calling {x : String} (hx : x = "frame-keys" ∨ x = "frame-values") :
    Calling Demo.C x [.atom (.frame 0)] (.cons (.sym x) (ofArray [code "{a: 1 b: 2}"])) 1 Demo.s withFrame := by
  rcases hx with rfl | rfl <;>
  · exact calling_sym (us := [.atom (.frame 0)]) Demo.wf (Demo.means _ (b := true) (by decide +kernel)) (by decide) rfl
      (lst_args (by decide +kernel)) withFrame_args

private theorem withFrame_sound : Sound Demo.C withFrame := by
  cases withFrame_args with
  | next h1 h2 =>
    cases h2
    exact (C71_references (H := Demo.H) (c := .eval false (code "{a: 1 b: 2}") 1) (fun _ _ _ => Iff.rfl) demo_sound ⟨C71_read Demo.H.reader (src := "{a: 1 b: 2}".toList) (by decide +kernel), by unfold EnvOk; decide⟩ h1 nofun).1

example : ∃ l ks, OwnSlots withFrame.frames 0 ks ∧ Lst l (ks.map .sym) ∧
    Returns Demo.C (.cons (.sym "frame-keys") (ofArray [code "{a: 1 b: 2}"])) 1 Demo.s l withFrame :=
  C82_frame_keys (withFrame_calling (.inl rfl)) withFrame_sound
example : ∃ l ks vs, OwnSlots withFrame.frames 0 ks ∧ ValuesOf withFrame.frames 0 ks vs ∧ Lst l vs ∧
    Returns Demo.C (.cons (.sym "frame-values") (ofArray [code "{a: 1 b: 2}"])) 1 Demo.s l withFrame :=
  C82_frame_values (withFrame_calling (.inr rfl)) withFrame_sound
example : slot withFrame.frames 0 "a:" = some (int 1) ∧ slot withFrame.frames 0 "b:" = some (int 2) ∧ slot withFrame.frames 0 "c:" = none := by
  decide +kernel
example : Ends "(frame-keys {a: 1 p*: {c: 3} a: 2})" (.ok (ofArray [sym "a:", sym "p*:"])) := ends 40 (by decide +kernel) (by simp)
example : Ends "(frame-values {a: 1 b: 4 a: 2})" (.ok (ofArray [int 2, int 4])) := ends 40 (by decide +kernel) (by simp)
example : Ends "(frame-keys {})" (.ok .emptyCons) := ends 40 (by decide +kernel) (by simp)
example : Fails "(frame-keys 3)" "\nEvaling (frame-keys 3). frame-keys requires a frame as it's argument, but was given 3." := fails 40 (by decide +kernel)

example : Ends "(str \"a\" 1 '(2 \"b\"))" (.ok (.str "a1(2 \"b\")")) := ends 40 (by decide +kernel) (by simp)
example : Ends "(str)" (.ok (.str "()")) := ends 40 (by decide +kernel) (by simp)
example : WrittenAll Demo.H Demo.s [.str "a", int 1] "a1" := .next (.inl rfl) (.next (t := "1") (.inr ⟨(fun u h => by cases h), by decide +kernel⟩) .none)
example : Writes "(write-line \"a\" 1)" (.ok .null) ["a1"] := writes 40 (by decide +kernel) (by decide +kernel) (by simp)
example : Fails "(error \"no\")" "\nEvaling (error \"no\"). \"no\"" := fails 40 (by decide +kernel)
example : Ends "(eq? (intern \"a b\") (intern \"a b\"))" (.ok (.bool true)) := ends 40 (by decide +kernel) (by simp)
example : Calling Demo.C "write-line" [.str "a", int 5] (code "(write-line \"a\" (+ 2 3))") 1 Demo.s Demo.s :=
  Demo.calling 10 (b := true) (xs := [.str "a", code "(+ 2 3)"]) (us := [.str "a", int 5]) (by decide +kernel) (by decide +kernel)
    (by decide +kernel) (by decide +kernel) rfl (by decide +kernel) (by decide +kernel) rfl

example : Ends "(begin (define (f x . y) (list x y) y) (definition-of f))" (.ok (code "(define (f x . y) (list x y) y)")) :=
  ends 40 (by decide +kernel) (by simp)
example : Ends "(begin (define g (lambda (x) (+ x 1))) (definition-of g))" (.ok (code "(define g (lambda (x) (+ x 1)))")) :=
  ends 40 (by decide +kernel) (by simp)
example : Ends "(definition-of (lambda (x) x))" (.ok (code "(define anonymous (lambda (x) x))")) := ends 40 (by decide +kernel) (by simp)
example : Fails "(definition-of car)" "\nEvaling (definition-of car). code requires a function argument, but received a Primitive." := fails 40 (by decide +kernel)
example : DefinitionOf (code "(define (f x) x x)") "f" (code "(x)") [sym "x", sym "x"] :=
  ⟨ofArray [code "(f x)", sym "x", sym "x"], by decide +kernel, by
    have : cons (sym "f") (code "(x)") = code "(f x)" := by decide +kernel
    rw [this]; exact lst_args (by decide +kernel)⟩
/-- What `definition-of` gives defines the same function again. -/
example : Ends "(begin (define (f x) (* x 2)) (eval (definition-of f)) (f 4))" (.ok (int 8)) := ends 60 (by decide +kernel) (by simp)

example : Ends "(begin (define a {x: 3 add: (lambda (p q) (list self p q x))}) (define b {p*: a x: 4}) (cdr (apply-slot b add: 1 '(2))))"
    (.ok (ofArray [int 1, int 2, int 4])) := ends 60 (by decide +kernel) (by simp)
example : Ends "(begin (define b {x: 4}) (on-error (apply-slot b x: (write-line 1) '(2)) (lambda (m) 7)))" (.ok (int 7)) := ends 60 (by decide +kernel) (by simp)
example : Writes "(begin (define b {x: 4}) (on-error (apply-slot b x: (write-line 1) '(2)) (lambda (m) 7)))" (.ok (int 7)) [] := writes 60 (by decide +kernel) (by decide +kernel) (by simp)
example : Ends "(begin (define a {add: (lambda (p q) (list p q))}) (define b {p*: a add: (lambda (p q) (apply-slot-super add: q (list p)))}) (send b add: 1 2))"
    (.ok (ofArray [int 2, int 1])) := ends 60 (by decide +kernel) (by simp)
end

end Golisp.Props
