import Verif.JsonAlist
import Verif.Props.JsonFrames
/-
Property C74: JSON round trip through association lists.
-/
namespace Golisp.Props
open Golisp Data Spec Json

/-! From Lisp to JSON. -/

private theorem ofList_map {d : Data} {ds : List Data} (h : Lst d ds) : JsonA.ofList d = ds.map JsonA.ofLisp := by
  induction h with
  | null => rw [JsonA.ofList]; rfl
  | empty k => rw [JsonA.ofList]; rfl
  | cons k a d xs hn _ _ ih =>
    rw [JsonA.ofList, (isNil_cell_false k a d).2 hn, ih]
    rfl

private theorem ofAlist_map {d : Data} {es : List (String × Data)} (h : Slots d es) :
    JsonA.ofAlist d = es.map fun e => (e.1, JsonA.ofLisp e.2) := by
  induction h with
  | null => rw [JsonA.ofAlist]; rfl
  | @cons k v d es _ ih =>
    rw [JsonA.ofAlist, show isNil (.cell .alist (.cell .acell (.str k) v) d) = false from rfl, ih, JsonA.ofPair]
    rfl

private theorem all2_left {α β γ : Type} {R : γ → β → Prop} {f : α → γ} {l : List α} {m : List β}
    (h : All2 (fun a b => R (f a) b) l m) : All2 R (l.map f) m := by
  induction h with
  | nil => exact .nil
  | cons h1 _ ih => exact .cons h1 ih

/-- The JSON tree for a Lisp value without floats and booleans stands for the same thing as the value. -/
theorem C74_to_json_partial : ∀ (v : Val) (d : Data), AsAlist False d v → Throughout NoBool v → DocOf (JsonA.ofLisp d) v
  | v, d, h, hb => by
    have smaller : ∀ w, sizeOf w < sizeOf v → ∀ d, AsAlist False d w → Throughout NoBool w → DocOf (JsonA.ofLisp d) w :=
      fun w hw d => C74_to_json_partial w d
    cases h with
    | int n => rw [JsonA.ofLisp]; exact .int n
    | flt b hfl => exact hfl.elim
    | bool b => cases hb with | bool _ h => exact absurd rfl (h b)
    | str s => rw [JsonA.ofLisp]; exact .str s
    | arr a d ds vs hl hd =>
      cases hb with | arr _ _ hv =>
      have e : JsonA.ofLisp (.cell .cons a d) = .arr (ds.map JsonA.ofLisp) := by
        rw [← ofList_map hl, JsonA.ofLisp, JsonA.ofList]
      rw [e]
      refine .arr _ vs (all2_left (all2_imp hd fun x _ w hw h => ?_))
      have := List.sizeOf_lt_of_mem hw
      exact smaller w (by simp only [Val.arr.sizeOf_spec]; omega) x h (hv w hw)
    | obj a d es fs fs' hs hp hnd hk hd =>
      cases hb with | obj _ _ hv =>
      have e : JsonA.ofLisp (.cell .alist a d) = .obj (mapOf (es.map fun e => (e.1, JsonA.ofLisp e.2))) := by
        rw [← ofAlist_map hs, JsonA.ofLisp, JsonA.ofAlist]
      have hk' : (es.map fun e => (e.1, JsonA.ofLisp e.2)).map (·.1) = fs'.map (·.1) := by
        rw [← hk, List.map_map]; rfl
      rw [e, mapOf_nodup (by rw [hk']; exact (hp.map _).nodup_iff.mpr hnd)]
      refine .obj _ fs fs' hp hnd hk' ?_
      rw [List.map_map]
      have h1 := (all2_fields (key := fun x => x)).mp ⟨hk, hd⟩
      have h2 : All2 (fun a b => a.1 = (fun x => x) b.1 ∧ DocOf (JsonA.ofLisp a.2) b.2) es fs' :=
        all2_imp h1 fun x _ w hw h => ⟨h.1, smaller w.2 (size_mem (hp.mem_iff.mp hw)) x.2 h.2 (hv w (hp.mem_iff.mp hw))⟩
      have h3 := ((all2_fields (key := fun x => x) (R := fun a b => DocOf (JsonA.ofLisp a) b)).mpr h2).2
      have := all2_left (R := DocOf) (f := JsonA.ofLisp) h3
      rwa [List.map_map] at this
termination_by v => sizeOf v
decreasing_by all_goals first | assumption | (simp only [Val.arr.sizeOf_spec]; omega)

/-! From JSON to Lisp. -/

private theorem number_alist {fl : Prop} {v : Int} (h : LispNumber fl v) : AsAlist fl (number v) (.num v) := by
  have := number_denotes (F := []) h
  generalize hw : Val.num v = w at this
  generalize hd : number v = d at this
  cases this with
  | int n => exact .int n
  | flt b h1 h2 => exact .flt b h1 h2
  | _ => cases hw

private theorem asAlist_not_null {fl : Prop} {d : Data} {v : Val} (h : AsAlist fl d v) : d ≠ .null := by
  cases h <;> simp

private theorem str_eq [FrEq] (a b : String) : isEqual (.str a) (.str b) = decide (a = b) := by
  simp only [isEqual, isEqualN, isNil, Bool.false_and, Bool.false_eq_true, if_false, atomEq]
  by_cases h : a = b
  · subst h; simp
  · simp [h]

private theorem assoc_absent [FrEq] {d : Data} {es : List (String × Data)} (h : Slots d es) {k : String} (hk : k ∉ es.map (·.1)) :
    assoc (.str k) d = .ok .null := by
  induction h with
  | null => rfl
  | @cons k' v d es _ ih =>
    simp only [List.map_cons, List.mem_cons, not_or] at hk
    have h1 : isEqual (.str k') (.str k) = false := by rw [str_eq]; exact decide_eq_false fun e => hk.1 e.symm
    have := ih hk.2
    unfold assoc at this ⊢
    simp only [assocLoop, isNil, isDotted, isPair, car, h1]
    simpa using this

private theorem slots_foldl [FrEq] : ∀ (l : List (String × Data)) {acc : Data} {es : List (String × Data)}, Slots acc es →
    ((l.reverse ++ es).map (·.1)).Nodup → Slots (l.foldl (fun acc e => acons (.str e.1) e.2 acc) acc) (l.reverse ++ es)
  | [], acc, es, h, _ => by simpa using h
  | e :: l, acc, es, h, hn => by
    have hn' : ((l.reverse ++ e :: es).map (·.1)).Nodup := by simpa using hn
    have hk : e.1 ∉ es.map (·.1) := by
      rw [List.map_append, List.nodup_append] at hn'
      exact (List.nodup_cons.mp hn'.2.1).1
    have ha : acons (.str e.1) e.2 acc = .cell .alist (.cell .acell (.str e.1) e.2) acc := by
      unfold acons; rw [assoc_absent h hk]; rfl
    have := slots_foldl l (acc := acons (.str e.1) e.2 acc) (es := e :: es) (by rw [ha]; exact .cons h) hn'
    simpa using this

private theorem slots_shape {d : Data} {es : List (String × Data)} (h : Slots d es) (hne : es ≠ []) : ∃ a r, d = .cell .alist a r := by
  cases h with
  | null => exact absurd rfl hne
  | cons _ => exact ⟨_, _, rfl⟩

/-- The value made from what was read from a JSON text stands for the same thing, if there are no nulls, no empty arrays or
objects in it, and Lisp has its numbers. -/
theorem C74_to_lisp_partial [FrEq] {fl : Prop} {ord : Json.Order} (ho : Permutes ord) : ∀ (v : Val) (j : Json), DocOf j v → FromText j →
    Throughout (fun v => NonEmpty v ∧ Num (LispNumber fl) v) v → AsAlist fl (JsonA.toLisp ord j) v
  | v, j, h, ht, hn => by
    have smaller : ∀ w, sizeOf w < sizeOf v → ∀ j, DocOf j w → FromText j →
        Throughout (fun v => NonEmpty v ∧ Num (LispNumber fl) v) w → AsAlist fl (JsonA.toLisp ord j) w :=
      fun w hw j => C74_to_lisp_partial ho w j
    cases h with
    | int n => cases ht
    | f64 v => cases hn with | num _ h => rw [JsonA.toLisp]; exact number_alist (h.2 v rfl)
    | bool b => rw [JsonA.toLisp]; exact .bool b
    | str s => rw [JsonA.toLisp]; exact .str s
    | arr l vs hl =>
      cases hn with | arr _ hne hv =>
      cases ht with | arr _ ht =>
      have key : ∀ (l' : List Json) (ws : List Val), (∀ w ∈ ws, w ∈ vs) → (∀ j ∈ l', j ∈ l) → All2 DocOf l' ws →
          All2 (AsAlist fl) (JsonA.toLispList ord l') ws := by
        intro l' ws hsub hsub' hl
        induction hl with
        | nil => rw [JsonA.toLispList]; exact .nil
        | @cons j w l ws h1 _ ih =>
          have hw := hsub w (by simp)
          have := List.sizeOf_lt_of_mem hw
          rw [JsonA.toLispList]
          exact .cons (smaller w (by simp only [Val.arr.sizeOf_spec]; omega) j h1 (ht j (hsub' j (by simp))) (hv w hw))
            (ih (fun x hx => hsub x (by simp [hx])) fun x hx => hsub' x (by simp [hx]))
      have h2 := key l vs (fun _ h => h) (fun _ h => h) hl
      rw [JsonA.toLisp]
      generalize JsonA.toLispList ord l = ds at h2
      have hnn : ∀ d ∈ ds, d ≠ .null := fun d hd => by
        obtain ⟨w, _, hw⟩ := all2_get h2 d hd; exact asAlist_not_null hw
      obtain ⟨d₀, ds', rfl⟩ : ∃ d₀ ds', ds = d₀ :: ds' := by
        cases h2 with
        | nil => exact absurd rfl hne.1.1
        | cons _ _ => exact ⟨_, _, rfl⟩
      have hlst := lst_foldl (d₀ :: ds') hnn (acc := .null) .null
      rw [List.append_nil] at hlst
      obtain ⟨a, r, har⟩ := foldl_shape ds' (.cons d₀ .null) ⟨_, _, rfl⟩
      rw [List.foldl_cons, har] at hlst ⊢
      have hrev : reverse (Data.cons a r) = revLoop (.cons a r) .null := by simp [reverse, isListP, isPair]
      have hnil : isNil (Data.cons a r) = false := by
        cases hb : isNil (Data.cons a r) with
        | false => rfl
        | true =>
          rw [hlst.isNil_iff] at hb; simp at hb
      have hfin : Lst (revLoop (.cons a r) .null) (d₀ :: ds') := by
        have := revLoop_spec hlst (l := .null) (ys := []) .null (by
          intro _ hx; exact hnn _ (List.mem_reverse.mp (List.mem_of_mem_head? hx)) rfl)
        simpa using this
      rw [hrev]
      obtain ⟨a', r', h3⟩ : ∃ a' r', revLoop (Data.cons a r) .null = .cons a' r' := by
        simp only [revLoop, hnil]
        exact revLoop_shape r _ ⟨_, _, rfl⟩
      rw [h3] at hfin ⊢
      exact .arr a' r' _ vs hfin h2
    | obj l fs fs' hp hnd hk hl =>
      cases hn with | obj _ hne hv =>
      cases ht with | obj _ ht =>
      have key : ∀ (l' : List (String × Json)) (ws : List (String × Val)), (∀ w ∈ ws, w ∈ fs) → (∀ e ∈ l', e ∈ l) →
          All2 (fun a b => a.1 = b.1 ∧ DocOf a.2 b.2) l' ws →
          All2 (fun a b => a.1 = b.1 ∧ AsAlist fl a.2 b.2) (JsonA.toLispFields ord l') ws := by
        intro l' ws hsub hsub' hl
        induction hl with
        | nil => rw [JsonA.toLispFields]; exact .nil
        | @cons j w l ws h1 _ ih =>
          obtain ⟨k, j⟩ := j
          have hw := hsub w (by simp)
          rw [JsonA.toLispFields]
          exact .cons ⟨h1.1, smaller w.2 (size_mem hw) j h1.2 (ht (k, j) (hsub' (k, j) (by simp))) (hv w hw)⟩
            (ih (fun x hx => hsub x (by simp [hx])) fun x hx => hsub' x (by simp [hx]))
      have h2 := key l fs' (fun w hw => hp.mem_iff.mp hw) (fun _ h => h) ((all2_fields (key := fun x => x)).mp ⟨hk, hl⟩)
      rw [JsonA.toLisp]
      have hpr : (ord (JsonA.toLispFields ord l)).reverse.Perm (JsonA.toLispFields ord l) := (List.reverse_perm _).trans (ho _)
      obtain ⟨fs'', hp', h3⟩ := all2_perm hpr h2
      have h4 := (all2_fields (key := fun x => x)).mpr h3
      have hp2 := hp'.trans hp
      have hnd' : ((ord (JsonA.toLispFields ord l)).reverse.map (·.1)).Nodup := by
        rw [h4.1]; exact (hp2.map _).nodup_iff.mpr hnd
      have hs := slots_foldl (ord (JsonA.toLispFields ord l)) (acc := .null) .null (by rw [List.append_nil]; exact hnd')
      rw [List.append_nil] at hs
      obtain ⟨a, r, har⟩ := slots_shape hs (by
        intro e
        rw [e] at h3
        cases h3
        exact hne.1.2 (by rw [List.Perm.eq_nil (hp2.symm)]))
      rw [har] at hs ⊢
      exact .obj a r _ fs fs'' hs hp2 hnd h4.1 h4.2
termination_by v => sizeOf v
decreasing_by all_goals first | assumption | (simp only [Val.arr.sizeOf_spec]; omega)

/-! Through text. -/

private theorem reparseList_map (dec : BitVec 32 → Int) : ∀ l, reparseList dec l = l.map (reparse dec)
  | [] => by rw [reparseList]; rfl
  | j :: l => by rw [reparseList, reparseList_map dec l]; rfl
private theorem reparseFields_map (dec : BitVec 32 → Int) : ∀ l, reparseFields dec l = l.map fun e => (e.1, reparse dec e.2)
  | [] => by rw [reparseFields]; rfl
  | (k, j) :: l => by rw [reparseFields, reparseFields_map dec l]; rfl

/-- Writing as text and reading back keeps what a tree stands for, if its numbers are integers up to 2^53. -/
theorem C74_text (dec : BitVec 32 → Int) : ∀ (v : Val) (j : Json), DocOf j v → Throughout (Num SmallInteger) v →
    DocOf (reparse dec j) v ∧ FromText (reparse dec j)
  | v, j, h, hn => by
    have smaller : ∀ w, sizeOf w < sizeOf v → ∀ j, DocOf j w → Throughout (Num SmallInteger) w →
        DocOf (reparse dec j) w ∧ FromText (reparse dec j) :=
      fun w hw j => C74_text dec w j
    cases h with
    | int n =>
      cases hn with | num _ hv =>
      obtain ⟨k, hk, hs⟩ := hv _ rfl
      rw [← one_eq] at hk
      have : n.toInt = k := Int.eq_of_mul_eq_mul_right (Int.ne_of_gt one_pos) hk
      rw [reparse, double_small (by rw [this]; exact hs), ← one_eq]
      exact ⟨.f64 _, .f64 _⟩
    | f64 v => rw [reparse]; exact ⟨.f64 v, .f64 v⟩
    | bool b => rw [reparse]; exact ⟨.bool b, .bool b⟩
    | str s => rw [reparse]; exact ⟨.str s, .str s⟩
    | arr l vs hl =>
      cases hn with | arr _ _ hv =>
      rw [reparse, reparseList_map]
      have h1 : All2 (fun j w => DocOf (reparse dec j) w ∧ FromText (reparse dec j)) l vs := by
        refine all2_imp hl fun j _ w hw h => ?_
        have := List.sizeOf_lt_of_mem hw
        exact smaller w (by simp only [Val.arr.sizeOf_spec]; omega) j h (hv w hw)
      refine ⟨.arr _ vs (all2_left (all2_imp h1 fun _ _ _ _ h => h.1)), .arr _ fun j hj => ?_⟩
      obtain ⟨j', hj', rfl⟩ := List.mem_map.mp hj
      obtain ⟨_, _, h⟩ := all2_get h1 j' hj'
      exact h.2
    | obj l fs fs' hp hnd hk hl =>
      cases hn with | obj _ _ hv =>
      rw [reparse, reparseFields_map]
      have h1 : All2 (fun a b => a.1 = b.1 ∧ DocOf (reparse dec a.2) b.2 ∧ FromText (reparse dec a.2)) l fs' := by
        refine all2_imp ((all2_fields (key := fun x => x)).mp ⟨hk, hl⟩) fun a _ w hw h => ⟨h.1, ?_⟩
        have hw := hp.mem_iff.mp hw
        exact smaller w.2 (size_mem hw) a.2 h.2 (hv w hw)
      have h2 := (all2_fields (key := fun x => x) (R := fun a b => DocOf (reparse dec a) b)).mpr
        (all2_imp h1 fun _ _ _ _ h => ⟨h.1, h.2.1⟩)
      refine ⟨.obj _ fs fs' hp hnd (by rw [List.map_map]; exact h2.1) ?_, .obj _ fun e he => ?_⟩
      · have := all2_left (R := DocOf) (f := reparse dec) h2.2
        rw [List.map_map] at this ⊢
        exact this
      · obtain ⟨e', he', rfl⟩ := List.mem_map.mp he
        obtain ⟨_, _, h⟩ := all2_get h1 e' he'
        exact h.2.2
termination_by v => sizeOf v
decreasing_by all_goals first | assumption | (simp only [Val.arr.sizeOf_spec]; omega)

private theorem throughout_imp {P Q : Val → Prop} (hi : ∀ v, P v → Q v) {v : Val} (h : Throughout P v) : Throughout Q v := by
  induction h with
  | num v h => exact .num v (hi _ h)
  | bool b h => exact .bool b (hi _ h)
  | str s h => exact .str s (hi _ h)
  | arr l h _ ih => exact .arr l (hi _ h) ih
  | obj l h _ ih => exact .obj l (hi _ h) ih

/-- `LispToJsonString` then `JsonStringToLisp`: a value made of integers up to 2^53, strings, lists and association lists, none of
them empty, comes back as a value that stands for the same thing. -/
theorem C74_round_trip_partial [FrEq] {ord : Json.Order} (ho : Permutes ord) (dec : BitVec 32 → Int) {d : Data} {v : Val} (hd : AsAlist False d v)
    (hv : Throughout (fun v => NonEmpty v ∧ NoBool v ∧ Num SmallInteger v) v) :
    ∃ d', JsonA.ofText ord (some (reparse dec (JsonA.ofLisp d))) = .ok d' ∧ AsAlist False d' v := by
  have h1 := C74_to_json_partial v d hd (throughout_imp (fun _ h => h.2.1) hv)
  obtain ⟨h2, h3⟩ := C74_text dec v _ h1 (throughout_imp (fun _ h => h.2.2) hv)
  refine ⟨_, rfl, C74_to_lisp_partial ho v _ h2 h3 (throughout_imp (fun v h => ⟨h.1, fun x hx => ?_⟩) hv)⟩
  obtain ⟨k, hk, hs⟩ := h.2.2 x hx
  exact .inl ⟨k, hk, by omega, by omega⟩

/-- `JsonStringToLisp` then `LispToJson`: a document of integers in the range of int64, strings, arrays and objects, none of them
empty, comes back standing for the same thing. -/
theorem C74_document_partial [FrEq] {ord : Json.Order} (ho : Permutes ord) {j : Json} {v : Val} (hj : DocOf j v) (ht : FromText j)
    (hv : Throughout (fun v => NonEmpty v ∧ NoBool v ∧ Num (LispNumber False) v) v) :
    ∃ d, JsonA.ofText ord (some j) = .ok d ∧ DocOf (JsonA.ofLisp d) v :=
  ⟨_, rfl, C74_to_json_partial v _ (C74_to_lisp_partial ho v j hj ht (throughout_imp (fun _ h => ⟨h.1, h.2.2⟩) hv))
    (throughout_imp (fun _ h => h.2.1) hv)⟩

/-! Where the claim fails. -/

/-- Booleans and floats become the empty string. -/
theorem C74_lost_violation (b : Bool) (f : BitVec 32) : JsonA.ofLisp (.bool b) = .str "" ∧ JsonA.ofLisp (.flt f) = .str "" := by
  constructor <;> rw [JsonA.ofLisp] <;> simp

/-- Empty arrays and objects and null come back as the empty string. -/
theorem C74_empty_violation [FrEq] {ord : Json.Order} (ho : Permutes ord) : ∀ j ∈ [Json.null, .arr [], .obj []],
    JsonA.ofLisp (JsonA.toLisp ord j) = .str "" := by
  have h0 : ord (α := Data) [] = [] := (ho []).eq_nil
  simp only [List.mem_cons, List.not_mem_nil, or_false]
  rintro j (rfl | rfl | rfl)
  · rw [JsonA.toLisp, JsonA.ofLisp]
  · rw [JsonA.toLisp, JsonA.toLispList]; simp only [List.foldl_nil]; rw [show reverse .null = .null from rfl, JsonA.ofLisp]
  · rw [JsonA.toLisp, JsonA.toLispFields, h0]; simp only [List.foldl_nil]; rw [JsonA.ofLisp]

/-- A null, an empty array or an empty object at the head of an array is lost. -/
theorem C74_head_violation [FrEq] (ord : Json.Order) (s : String) : JsonA.toLisp ord (.arr [.arr [], .str s]) = .cons (.str s) .null := by
  simp only [JsonA.toLisp, JsonA.toLispList, List.foldl]
  rfl

/-- A text that is not JSON crashes the host. -/
theorem C74_malformed_violation [FrEq] (ord : Json.Order) : JsonA.ofText ord none = .panic := rfl

/-! A value that meets the hypotheses: `(("a" . (1 2)) ("b" . "x"))`. -/

private def demo : Data :=
  .cell .alist (.cell .acell (.str "a") (.cons (.int 1) (.cons (.int 2) .null))) (.cell .alist (.cell .acell (.str "b") (.str "x")) .null)
private def demoVal : Val := .obj [("b", .str "x"), ("a", .arr [.num (1 * 2 ^ 1074), .num (2 * 2 ^ 1074)])]

private theorem demo_alist : AsAlist False demo demoVal := by
  refine .obj _ _ _ _ [("a", .arr [.num (1 * 2 ^ 1074), .num (2 * 2 ^ 1074)]), ("b", .str "x")] (.cons (.cons .null)) (.swap _ _ _) (by decide)
    rfl (.cons (.arr _ _ _ _ (.cons _ _ _ _ (by simp) (by simp) (.cons _ _ _ _ (by simp) (by simp) .null))
      (.cons ?_ (.cons ?_ .nil))) (.cons (.str _) .nil))
  · exact AsAlist.int 1
  · exact AsAlist.int 2

private theorem demo_throughout : Throughout (fun v => NonEmpty v ∧ NoBool v ∧ Num SmallInteger v) demoVal := by
  have num : ∀ n : Int, n.natAbs ≤ 2 ^ 53 → Throughout (fun v => NonEmpty v ∧ NoBool v ∧ Num SmallInteger v) (.num (n * 2 ^ 1074)) :=
    fun n h => .num _ ⟨⟨by simp, by simp⟩, by intro b; simp, fun x hx => ⟨n, (Val.num.inj hx).symm, h⟩⟩
  refine .obj _ ⟨⟨by simp, by simp⟩, by intro b; simp, by intro x hx; cases hx⟩ ?_
  simp only [List.mem_cons, List.not_mem_nil, or_false]
  rintro e (rfl | rfl)
  · exact .str _ ⟨⟨by simp, by simp⟩, by intro b; simp, by intro x hx; cases hx⟩
  · refine .arr _ ⟨⟨by simp, by simp⟩, by intro b; simp, by intro x hx; cases hx⟩ ?_
    simp only [List.mem_cons, List.not_mem_nil, or_false]
    rintro v (rfl | rfl)
    · exact num 1 (by decide)
    · exact num 2 (by decide)

private def asIs : Json.Order := fun l => l
example [FrEq] := C74_round_trip_partial (ord := asIs) (fun _ => .refl _) (fun _ => 0) demo_alist demo_throughout
example := C74_to_json_partial demoVal demo demo_alist (throughout_imp (fun _ h => h.2.1) demo_throughout)
example [FrEq] := C74_document_partial (ord := asIs) (fun _ => .refl _) (v := demoVal) (C74_text (fun _ => 0) _ _ (C74_to_json_partial demoVal demo demo_alist
    (throughout_imp (fun _ h => h.2.1) demo_throughout)) (throughout_imp (fun _ h => h.2.2) demo_throughout)).1
  (C74_text (fun _ => 0) demoVal _ (C74_to_json_partial demoVal demo demo_alist
    (throughout_imp (fun _ h => h.2.1) demo_throughout)) (throughout_imp (fun _ h => h.2.2) demo_throughout)).2
  (throughout_imp (fun _ h => ⟨h.1, h.2.1, fun x hx => by
    obtain ⟨k, hk, hs⟩ := h.2.2 x hx
    exact .inl ⟨k, hk, by omega, by omega⟩⟩) demo_throughout)

end Golisp.Props
