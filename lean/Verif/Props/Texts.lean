import Verif.TextManual
import Verif.LibraryLemmas
import Verif.DemoCalls
import Verif.Props.Numbers2
/- C77: the string primitives called from Lisp code do what the manual (`Verif.TextManual`) says, in terms of characters. -/
namespace Golisp.Props
open Golisp Data Ev Spec Prim Str

variable {C : Conf} {e : Nat} {s s₁ : Store} {d : Data}

set_option maxRecDepth 20000

/-- The primitive `x` of the table accepts this number of arguments and, run in state `s`, ends in an outcome in `P` and
leaves the state as it is. -/
def Works (C : Conf) (x : String) (vs : List Data) (s : Store) (P : Out Data → Prop) : Prop :=
  ∃ spec impl, (std C.host).prims x = some ⟨spec, false, false, impl⟩ ∧
    Arity.checkArgumentCount (Arity.parseNumArgs spec) vs.length = true ∧
    ∀ args e, Lst args vs → ∃ r, P r ∧ ∀ r' t, RunsP (body C) (impl args e) s r' t ↔ r' = r ∧ t = s

theorem works_evals {x : String} {vs : List Data} {P : Out Data → Prop} (h : Calling C x vs d e s s₁) (hd : Works C x vs s₁ P) :
    ∃ r, P r ∧ ∀ r' t, Evals C d e s r' t ↔ r' = quoting d r ∧ t = s₁ := by
  obtain ⟨spec, impl, hx, hc, hi⟩ := hd
  obtain ⟨args, hl, hiff⟩ := calling_iff h hx hc
  obtain ⟨r, hP, hr⟩ := hi args e hl
  refine ⟨r, hP, fun r' t => ?_⟩
  rw [hiff]
  constructor
  · rintro ⟨r₀, rfl, h⟩
    obtain ⟨rfl, rfl⟩ := (hr _ _).1 h
    exact ⟨rfl, rfl⟩
  · rintro ⟨rfl, rfl⟩; exact ⟨_, rfl, (hr _ _).2 ⟨rfl, rfl⟩⟩

section
variable {x : String} {P : Out Data → Prop}

/-- The body of the primitive is a plain outcome. -/
theorem works_of {vs : List Data} {spec : String} {impl : Data → Nat → Prog Data} (hx : (std C.host).prims x = some ⟨spec.toList, false, false, impl⟩)
    (hc : Arity.checkArgumentCount (Arity.parseNumArgs spec.toList) vs.length = true) {r : Out Data} (h0 : r ≠ .timeout) (hP : P r)
    (hi : ∀ args e, Lst args vs → impl args e = Prog.ofOut r) : Works C x vs s P :=
  ⟨_, _, hx, hc, fun args e hl => ⟨r, hP, fun r' t => by rw [hi args e hl]; exact runs_ofOut h0⟩⟩

/-- The body of the primitive is an error. -/
theorem works_bad {vs : List Data} {spec : String} {impl : Data → Nat → Prog Data} (hx : (std C.host).prims x = some ⟨spec.toList, false, false, impl⟩)
    (hc : Arity.checkArgumentCount (Arity.parseNumArgs spec.toList) vs.length = true)
    (hi : ∀ args e, Lst args vs → (∃ m, impl args e = .fail m) ∨ ∃ a v b, impl args e = failShow C.host a v b) : Works C x vs s Objects := by
  refine ⟨_, _, hx, hc, fun args e hl => ?_⟩
  rcases hi args e hl with ⟨m, h⟩ | ⟨a, v, b, h⟩
  · exact ⟨.err (.msg m), ⟨_, rfl⟩, fun r' t => by rw [h]; exact runsP_fail⟩
  · exact ⟨.err (.msg (a ++ C.host.show s v ++ b)), ⟨_, rfl⟩, fun r' t => by rw [h, failShow, runsP_get]; exact runsP_fail⟩
end

theorem bytes_T (cs : List Char) : bytes (String.ofList cs) = text cs := by simp [Ev.bytes]
theorem ofBytes_text (cs : List Char) : ofBytes (text cs) = T cs := by simp [ofBytes, T, decode_text]

theorem octets_text (cs : List Char) : octets cs = (text cs).length := by
  induction cs with
  | nil => rfl
  | cons c cs ih =>
    rw [text_cons, List.length_append, ← ih]
    simp only [octets, List.map_cons, List.sum_cons, utf8]
    congr 1
    repeat' split
    all_goals rfl

theorem splits_text {sep : List Char} (hs : sep ≠ []) : ∀ {b : GoStr} {ps : List GoStr}, Splits (text sep) b ps → ∀ {cs : List Char},
    text cs = b → ∃ qs : List (List Char), ps = qs.map text ∧ Splits sep cs qs := by
  intro b ps h
  induction h with
  | last h =>
    intro cs hb
    subst hb
    refine ⟨[cs], rfl, .last fun ⟨u, v, he⟩ => h ⟨text u, text v, ?_⟩⟩
    rw [he, text_append, text_append]
  | @cut p r ps hc _ ih =>
    intro cs hb
    obtain ⟨u, v, rfl, rfl, rfl⟩ := text_infix hs hb
    obtain ⟨qs, rfl, hq⟩ := ih rfl
    refine ⟨u :: qs, rfl, .cut (fun u' v' he => ?_) hq⟩
    exact text_eq_nil.1 (hc (text u') (text v') (by rw [← text_append, he, text_append, text_append]))

theorem join_text (sep : List Char) : ∀ ps : List (List Char), Str.join (text sep) (ps.map text) = text (sep.intercalate ps)
  | [] => rfl
  | [p] => by simp [Str.join, List.intercalate]
  | p :: q :: ps => by
    have := join_text sep (q :: ps)
    simp only [List.map_cons] at this ⊢
    rw [Str.join, this, ← text_append, ← text_append]
    simp [List.intercalate, List.intersperse]

theorem joinLoop_T (H : Host) : ∀ ps : List (List Char), joinLoopP H (ps.map T) = pure (ps.map String.ofList)
  | [] => rfl
  | p :: ps => by
    have hT : isStr (T p) = true := rfl
    simp only [List.map_cons, joinLoopP, hT, if_true, joinLoop_T H ps]
    rfl

theorem joinLoop_bad (H : Host) : ∀ {xs : List Data}, (∃ x ∈ xs, ∀ t, x ≠ .str t) → ∃ v, joinLoopP H xs =
    failShow H "string-join requires a list of strings but " v " was in the list."
  | [], h => by simp at h
  | y :: xs, h => by
    cases hy : isStr y with
    | false => exact ⟨y, by simp only [joinLoopP, hy, Bool.false_eq_true, if_false]⟩
    | true =>
      obtain ⟨x, hm, hx⟩ := h
      have : x ∈ xs := by
        rcases List.mem_cons.1 hm with rfl | hm
        · cases x with
          | atom a => cases a <;> first | exact absurd rfl (hx _) | cases hy
          | _ => cases hy
        · exact hm
      obtain ⟨v, hv⟩ := joinLoop_bad H ⟨x, this, hx⟩
      refine ⟨v, ?_⟩
      simp only [joinLoopP, hy, if_true, hv]
      rfl

theorem trim_text (cs set : List Char) :
    (∃ t, trimBytes .both (text set) (text cs) = text t ∧ Trimmed true true set cs t) ∧
    (∃ t, trimBytes .left (text set) (text cs) = text t ∧ Trimmed true false set cs t) ∧
    (∃ t, trimBytes .right (text set) (text cs) = text t ∧ Trimmed false true set cs t) := by
  have := C58_trim cs set
  simp only [trimImpl, Out.ok.injEq, V.str.injEq] at this
  exact this

theorem not_str {v : Data} (h : ∀ t, v ≠ .str t) : isStr v = false := by
  cases v with
  | atom a => cases a <;> first | rfl | exact absurd rfl (h _)
  | _ => rfl

theorem T_str (cs : List Char) : isStr (T cs) = true := rfl
theorem T_value (cs : List Char) : stringValue (T cs) = String.ofList cs := rfl

theorem needStr_T (H : Host) (m : String) (cs : List Char) (k : String → Prog Data) : needStr H m (T cs) k = k (String.ofList cs) := rfl
theorem needStr_bad (H : Host) (m : String) {v : Data} (h : isStr v = false) (k : String → Prog Data) :
    needStr H m v k = failShow H m v "." := by simp only [needStr, h, Bool.false_eq_true, if_false]

theorem args1 {args v : Data} (h : Lst args [v]) : car args = v ∧ length args = 1 := ⟨car_args h, by rw [h.length]; rfl⟩
theorem args2 {args v w : Data} (h : Lst args [v, w]) : car args = v ∧ car (cdr args) = w ∧ length args = 2 :=
  ⟨car_args h, cadr_args h, by rw [h.length]; rfl⟩

theorem works_test {H : Host} (hH : C.host = H) {x m : String} {pre : String → String} {f : GoStr → GoStr → Bool} {Q : Prop} {a b : List Char}
    (hx : (std C.host).prims x = some ⟨"2".toList, false, false, stringTestImpl H m pre f⟩)
    (hP : f (text (pre (String.ofList a)).toList) (text (pre (String.ofList b)).toList) = true ↔ Q) :
    Works C x [T a, T b] s (Tells Q) := by
  subst hH
  refine works_of hx count2 (r := .ok (.bool _)) nofun ⟨_, rfl, hP⟩ fun args e hl => ?_
  obtain ⟨h1, h2, _⟩ := args2 hl
  simp only [stringTestImpl, h1, h2, needStr_T]
  rfl

theorem works_test_bad {x m : String} {pre : String → String} {f : GoStr → GoStr → Bool} {v w : Data}
    (hx : (std C.host).prims x = some ⟨"2".toList, false, false, stringTestImpl C.host m pre f⟩)
    (hb : (∀ t, v ≠ .str t) ∨ ∀ t, w ≠ .str t) : Works C x [v, w] s Objects := by
  refine works_bad hx count2 fun args e hl => Or.inr ?_
  obtain ⟨h1, h2, _⟩ := args2 hl
  simp only [stringTestImpl, h1, h2]
  cases hv : isStr v with
  | false => exact ⟨_, _, _, needStr_bad _ _ hv _⟩
  | true =>
    have hw := hb.resolve_left fun h => by rw [not_str h] at hv; cases hv
    refine ⟨m, w, ".", ?_⟩
    rw [needStr, if_pos hv, needStr_bad _ _ (not_str hw)]

theorem lt_Earlier (a b : List Char) : Str.lt (text a) (text b) = true ↔ Earlier a b := by
  constructor
  · intro h
    rcases earlier_total a b with h1 | rfl | h1
    · exact h1
    · rw [str_lt_irrefl] at h; cases h
    · have := str_lt_trans h (earlier_lt h1)
      rw [str_lt_irrefl] at this; cases this
  · exact earlier_lt

theorem not_lt_Earlier (a b : List Char) : (!Str.lt (text b) (text a)) = true ↔ Earlier a b ∨ a = b := by
  rw [Bool.not_eq_true']
  constructor
  · intro h
    rcases earlier_total a b with h1 | h1 | h1
    · exact .inl h1
    · exact .inr h1
    · rw [earlier_lt h1] at h; cases h
  · rintro (h | rfl)
    · cases h1 : Str.lt (text b) (text a) with
      | false => rfl
      | true => have := str_lt_trans (earlier_lt h) h1; rw [str_lt_irrefl] at this; cases this
    · exact str_lt_irrefl _

theorem text_beq (a b : List Char) : (text a == text b) = true ↔ a = b := by
  rw [beq_iff_eq]; exact ⟨text_inj, fun h => by rw [h]⟩

theorem contains_text (a b : List Char) : Str.contains (text b) (text a) = true ↔ ∃ u v, b = u ++ a ++ v := by
  rw [str_contains_iff]
  constructor
  · rintro ⟨u, v, h⟩
    by_cases ha : a = []
    · subst ha; exact ⟨[], b, rfl⟩
    · obtain ⟨u', v', -, -, h'⟩ := text_infix ha h
      exact ⟨u', v', h'⟩
  · rintro ⟨u, v, rfl⟩; exact ⟨text u, text v, by rw [text_append, text_append]⟩

theorem hasPrefix_text (a b : List Char) : Str.hasPrefix (text b) (text a) = true ↔ ∃ v, b = a ++ v := by
  rw [str_hasPrefix_iff]
  constructor
  · rintro ⟨v, h⟩
    obtain ⟨v', -, h'⟩ := text_prefix h
    exact ⟨v', h'⟩
  · rintro ⟨v, rfl⟩; exact ⟨text v, text_append _ _⟩

theorem hasSuffix_text (a b : List Char) : Str.hasSuffix (text b) (text a) = true ↔ ∃ u, b = u ++ a := by
  rw [str_hasSuffix_iff]
  constructor
  · rintro ⟨u, h⟩
    by_cases ha : a = []
    · subst ha; exact ⟨b, by simp⟩
    · obtain ⟨u', v', -, hv, h'⟩ := text_infix ha (s := b) (u := u) (v := []) (by simpa using h)
      have : v' = [] := text_eq_nil.1 hv.symm
      subst this
      exact ⟨u', by simpa using h'⟩
  · rintro ⟨u, rfl⟩; exact ⟨text u, text_append _ _⟩

private theorem join_works {l : Data} {ps : List (List Char)} (hl : ListOf l (ps.map T)) (sep : List Char) :
    (joinLoopP C.host (toArray l)).bind (fun ps => pure (ofBytes (Str.join (Ev.bytes (String.ofList sep)) (ps.map Ev.bytes)))) =
      .ofOut (.ok (T (sep.intercalate ps))) := by
  rw [hl.1.toArray, joinLoop_T]
  have : (ps.map String.ofList).map Ev.bytes = ps.map text := by
    rw [List.map_map]; exact List.map_congr_left fun p _ => bytes_T p
  show pure (ofBytes _) = _
  rw [this, bytes_T, join_text, ofBytes_text]
  rfl

theorem texts_work {x : String} {vs : List Data} {P : Out Data → Prop} (hm : Texts C.host x vs P) : Works C x vs s P := by
  cases hm
  case split cs sep hs =>
    obtain ⟨qs, hq, hsp⟩ := splits_text hs (str_splitN_spec (mt text_eq_nil.1 hs) _ _ (Nat.le_refl _)) (cs := cs) rfl
    refine works_of rfl count2 (r := .ok (ofArray (qs.map T))) nofun ⟨qs, hsp, _, rfl, ?_, isListP_ofArray _⟩ fun args e hl => ?_
    · have := Lst.ofArray (qs.map T)
      rwa [map_elem_id (by simp [T])] at this
    · obtain ⟨h1, h2, _⟩ := args2 hl
      simp only [stringSplitImpl, h1, h2, needStr_T, bytes_T, Str.split, text_eq_nil, hs, if_false, hq, List.map_map]
      have : ofBytes ∘ text = T := funext ofBytes_text
      rw [this]; rfl
  case splitChars cs =>
    refine works_of rfl count2 (r := .ok (ofArray (cs.map fun c => T [c]))) nofun ⟨_, rfl, ?_, isListP_ofArray _⟩ fun args e hl => ?_
    · have := Lst.ofArray (cs.map fun c => T [c])
      rwa [map_elem_id (by simp [T])] at this
    · obtain ⟨h1, h2, _⟩ := args2 hl
      simp only [stringSplitImpl, h1, h2, needStr_T, bytes_T, Str.split, text_nil, if_true, chars_text, List.map_map]
      have : ofBytes ∘ utf8 = fun c => T [c] := funext fun c => by
        have := ofBytes_text [c]
        rw [text_cons, text_nil, List.append_nil] at this
        exact this
      rw [this]; rfl
  case join l ps sep hl =>
    refine works_of rfl (count12 (n := 1) (by decide)) (r := .ok _) nofun rfl fun args e ha => ?_
    obtain ⟨h1, h2, _⟩ := args2 ha
    have hn : isNil (T sep) = false := rfl
    simp only [stringJoinImpl, h1, h2, hl.2, hn, needStr_T, Bool.not_true, Bool.false_eq_true, if_false]
    exact join_works hl sep
  case joinPlain l ps hl =>
    refine works_of rfl (count12 (n := 0) (by decide)) (r := .ok (T ps.flatten)) nofun rfl fun args e ha => ?_
    have h1 := car_args ha
    have hn : isNil (car (cdr args)) = true := by
      rw [car_Lst (cdr_Lst ha)]; rfl
    simp only [stringJoinImpl, h1, hl.2, hn, Bool.not_true, Bool.false_eq_true, if_false, if_true]
    have := join_works (C := C) hl []
    have h2 : ([] : List Char).intercalate ps = ps.flatten := by
      clear this hl
      induction ps with
      | nil => rfl
      | cons p ps ih => cases ps with
        | nil => simp [List.intercalate]
        | cons q ps => simp only [List.intercalate, List.intersperse, List.flatten_cons, List.nil_append] at ih ⊢; rw [ih]
    rw [h2] at this
    exact this
  case joinBad l xs vs' hl hb hv =>
    obtain ⟨v, hv'⟩ := joinLoop_bad C.host hb
    rcases hv with rfl | ⟨sep, rfl⟩
    · refine works_bad rfl (count12 (n := 0) (by decide)) fun args e ha => Or.inr ?_
      have h1 := car_args ha
      have hn : isNil (car (cdr args)) = true := by rw [car_Lst (cdr_Lst ha)]; rfl
      simp only [stringJoinImpl, h1, hl.2, hn, hl.1.toArray, hv', Bool.not_true, Bool.false_eq_true, if_false, if_true]
      exact ⟨_, _, _, rfl⟩
    · refine works_bad rfl (count12 (n := 1) (by decide)) fun args e ha => Or.inr ?_
      obtain ⟨h1, h2, _⟩ := args2 ha
      have hn : isNil (T sep) = false := rfl
      simp only [stringJoinImpl, h1, h2, hl.2, hn, needStr_T, hl.1.toArray, hv', Bool.not_true, Bool.false_eq_true, if_false]
      exact ⟨_, _, _, rfl⟩
  case trim f b cs set hx =>
    obtain ⟨⟨t1, e1, k1⟩, ⟨t2, e2, k2⟩, ⟨t3, e3, k3⟩⟩ := trim_text cs set
    simp only [trims, List.mem_cons, List.not_mem_nil, or_false, Prod.mk.injEq] at hx
    rcases hx with ⟨rfl, rfl, rfl⟩ | ⟨rfl, rfl, rfl⟩ | ⟨rfl, rfl, rfl⟩
    · refine works_of rfl (count12 (n := 1) (by decide)) (r := .ok (T t1)) nofun ⟨t1, k1, rfl⟩ fun args e ha => ?_
      obtain ⟨h1, h2, h3⟩ := args2 ha
      simp only [stringTrimImpl, h1, h2, h3, needStr_T, if_true, bytes_T, e1, ofBytes_text]; rfl
    · refine works_of rfl (count12 (n := 1) (by decide)) (r := .ok (T t2)) nofun ⟨t2, k2, rfl⟩ fun args e ha => ?_
      obtain ⟨h1, h2, h3⟩ := args2 ha
      simp only [stringTrimImpl, h1, h2, h3, needStr_T, if_true, bytes_T, e2, ofBytes_text]; rfl
    · refine works_of rfl (count12 (n := 1) (by decide)) (r := .ok (T t3)) nofun ⟨t3, k3, rfl⟩ fun args e ha => ?_
      obtain ⟨h1, h2, h3⟩ := args2 ha
      simp only [stringTrimImpl, h1, h2, h3, needStr_T, if_true, bytes_T, e3, ofBytes_text]; rfl
  case trimBlank f b cs hx =>
    obtain ⟨⟨t1, e1, k1⟩, ⟨t2, e2, k2⟩, ⟨t3, e3, k3⟩⟩ := trim_text cs [' ', '\t', '\r', '\n', '\x0b', '\x0c']
    have hb : text [' ', '\t', '\r', '\n', '\x0b', '\x0c'] = blanks := by decide
    rw [hb] at e1 e2 e3
    have h12 : ¬ (1 = 2) := by decide
    simp only [trims, List.mem_cons, List.not_mem_nil, or_false, Prod.mk.injEq] at hx
    rcases hx with ⟨rfl, rfl, rfl⟩ | ⟨rfl, rfl, rfl⟩ | ⟨rfl, rfl, rfl⟩
    · refine works_of rfl (count12 (n := 0) (by decide)) (r := .ok (T t1)) nofun ⟨t1, k1, rfl⟩ fun args e ha => ?_
      obtain ⟨h1, h3⟩ := args1 ha
      simp only [stringTrimImpl, h1, h3, needStr_T, h12, if_false, bytes_T, e1, ofBytes_text]; rfl
    · refine works_of rfl (count12 (n := 0) (by decide)) (r := .ok (T t2)) nofun ⟨t2, k2, rfl⟩ fun args e ha => ?_
      obtain ⟨h1, h3⟩ := args1 ha
      simp only [stringTrimImpl, h1, h3, needStr_T, h12, if_false, bytes_T, e2, ofBytes_text]; rfl
    · refine works_of rfl (count12 (n := 0) (by decide)) (r := .ok (T t3)) nofun ⟨t3, k3, rfl⟩ fun args e ha => ?_
      obtain ⟨h1, h3⟩ := args1 ha
      simp only [stringTrimImpl, h1, h3, needStr_T, h12, if_false, bytes_T, e3, ofBytes_text]; rfl
  case length cs hlt =>
    refine works_of rfl count1 (r := .ok (.int (BitVec.ofNat 64 (octets cs)))) nofun ⟨_, rfl, ?_⟩ fun args e ha => ?_
    · show (BitVec.ofNat 64 (octets cs)).toInt = octets cs
      rw [BitVec.toInt_eq_toNat_of_lt] <;> simp <;> omega
    · simp only [stringLengthImpl, (args1 ha).1, needStr_T, bytes_T, octets_text]; rfl
  case null cs =>
    refine works_of rfl count1 (r := .ok (.bool ((text cs).length == 0))) nofun ⟨_, rfl, ?_⟩ fun args e ha => ?_
    · rw [beq_iff_eq, List.length_eq_zero_iff, text_eq_nil]
    · simp only [stringNullImpl, (args1 ha).1, needStr_T, bytes_T]; rfl
  case substring u r v i j hi hj =>
    refine works_of rfl count3 (r := .ok (T r)) nofun rfl fun args e ha => ?_
    have h1 := car_args ha
    have h2 := cadr_args ha
    have h3 : car (cdr (cdr args)) = .int j := by rw [car_Lst (cdr_Lst (cdr_Lst ha))]; rfl
    rw [octets_text] at hi hj
    have hl : (text (u ++ r ++ v)).length = (text (u ++ r)).length + (text v).length := by rw [text_append, List.length_append]
    have hl' : (text (u ++ r)).length = (text u).length + (text r).length := by rw [text_append, List.length_append]
    simp only [Ev.substringImpl, h1, h2, h3, needStr_T, bytes_T]
    rw [if_neg (by omega), if_neg (by omega), if_neg (by omega), if_neg (by omega)]
    have hd : (text (u ++ r ++ v)).drop i.toInt.toNat = text r ++ text v := by
      rw [text_append, text_append, List.append_assoc, hi]; simp
    rw [hd, show j.toInt.toNat - i.toInt.toNat = (text r).length by omega, List.take_left, ofBytes_text]
    rfl
  case substringBad cs i j h =>
    refine works_bad rfl count3 fun args e ha => Or.inl ?_
    have h1 := car_args ha
    have h2 := cadr_args ha
    have h3 : car (cdr (cdr args)) = .int j := by rw [car_Lst (cdr_Lst (cdr_Lst ha))]; rfl
    rw [octets_text] at h
    simp only [Ev.substringImpl, h1, h2, h3, needStr_T, bytes_T]
    repeat' split
    all_goals first | exact ⟨_, rfl⟩ | omega
  case substringCrash cs i j h1 h2 h3 =>
    refine works_of rfl count3 (r := .panic) nofun rfl fun args e ha => ?_
    have k1 := car_args ha
    have k2 := cadr_args ha
    have k3 : car (cdr (cdr args)) = .int j := by rw [car_Lst (cdr_Lst (cdr_Lst ha))]; rfl
    rw [octets_text] at h3
    simp only [Ev.substringImpl, k1, k2, k3, needStr_T, bytes_T]
    rw [if_neg (by omega), if_neg (by omega), if_neg (by omega), if_pos h1]
    rfl
  case inside a b => exact works_test rfl rfl (by simpa using contains_text a b)
  case starts a b => exact works_test rfl rfl (by simpa using hasPrefix_text a b)
  case ends a b => exact works_test rfl rfl (by simpa using hasSuffix_text a b)
  case equal a b => exact works_test rfl rfl (by simpa using text_beq a b)
  case less a b => exact works_test rfl rfl (by simpa using lt_Earlier a b)
  case greater a b => exact works_test rfl rfl (by simpa using lt_Earlier b a)
  case lessEq a b => exact works_test rfl rfl (by simpa using not_lt_Earlier a b)
  case greaterEq a b => exact works_test rfl rfl (by rw [eq_comm (a := a)]; simpa using not_lt_Earlier b a)
  case equalCi a b => exact works_test rfl rfl (text_beq (lowered C.host a) (lowered C.host b))
  case lessCi a b => exact works_test rfl rfl (lt_Earlier (lowered C.host a) (lowered C.host b))
  case greaterCi a b => exact works_test rfl rfl (lt_Earlier (lowered C.host b) (lowered C.host a))
  case lessEqCi a b => exact works_test rfl rfl (not_lt_Earlier (lowered C.host a) (lowered C.host b))
  case greaterEqCi a b =>
    exact works_test rfl rfl (by rw [eq_comm (a := lowered C.host a)]; exact not_lt_Earlier (lowered C.host b) (lowered C.host a))
  case upcase t =>
    refine works_of rfl count1 (r := .ok _) nofun rfl fun args e ha => ?_
    simp only [stringCaseImpl, (args1 ha).1]; rfl
  case downcase t =>
    refine works_of rfl count1 (r := .ok _) nofun rfl fun args e ha => ?_
    simp only [stringCaseImpl, (args1 ha).1]; rfl
  case capitalize c cs hc =>
    refine works_of rfl count1 (r := .ok _) nofun rfl fun args e ha => ?_
    have hu : utf8 c = [BitVec.ofNat 8 c.toNat] := by simp only [utf8]; rw [if_pos hc]
    have h1 : (text (c :: cs)).take 1 = text [c] := by rw [text_cons, text_cons, hu]; rfl
    have h2 : (text (c :: cs)).drop 1 = text cs := by rw [text_cons, hu]; rfl
    simp only [stringCapitalizeImpl, (args1 ha).1, needStr_T, bytes_T, h1, h2, decode_text]
    rw [if_neg (by rw [text_eq_nil]; simp)]
    rfl
  case capitalizeNone =>
    refine works_of rfl count1 (r := .panic) nofun rfl fun args e ha => ?_
    simp only [stringCapitalizeImpl, (args1 ha).1, needStr_T, bytes_T, text_nil, if_true]
    rfl
  case numeral n b hb =>
    have hb : okBase b := by
      simp only [List.mem_cons, List.not_mem_nil, or_false] at hb
      unfold okBase
      rcases hb with h | h | h | h
      · exact .inl (BitVec.eq_of_toNat_eq h)
      · exact .inr (.inl (BitVec.eq_of_toNat_eq h))
      · exact .inr (.inr (.inl (BitVec.eq_of_toNat_eq h)))
      · exact .inr (.inr (.inr (BitVec.eq_of_toNat_eq h)))
    obtain ⟨t, h1, h2⟩ := C24_text n b hb
    refine works_of rfl (count12 (n := 1) (by decide)) (r := .ok (T t)) nofun ⟨t, rfl, h2⟩ fun args e ha => ?_
    obtain ⟨k1, k2, k3⟩ := args2 ha
    simp only [second?, k1, k2, k3, if_true, h1]; rfl
  case decimal n =>
    obtain ⟨t, h1, h2⟩ := C24_text n 10 (by simp [okBase])
    refine works_of rfl (count12 (n := 0) (by decide)) (r := .ok (T t)) nofun ⟨t, rfl, h2⟩ fun args e ha => ?_
    obtain ⟨k1, k3⟩ := args1 ha
    have h12 : ¬ (1 = 2) := by decide
    simp only [second?, k1, k3, h12, if_false, (C24_default_base n "").1, h1]; rfl
  case parse t v h =>
    refine works_of rfl count1 (r := .ok v) nofun rfl fun args e ha => ?_
    have k : isStr (.str t) = true := rfl
    have k2 : stringValue (.str t) = t := rfl
    simp only [parseImpl, (args1 ha).1, k, k2, if_true, h]; rfl
  case parseBad t h =>
    refine works_bad rfl count1 fun args e ha => Or.inl ?_
    have k : isStr (.str t) = true := rfl
    have k2 : stringValue (.str t) = t := rfl
    simp only [parseImpl, (args1 ha).1, k, k2, if_true, h]; exact ⟨_, rfl⟩
  case notText1 v hv hx =>
    have hn := not_str hv
    simp only [List.mem_cons, List.not_mem_nil, or_false] at hx
    rcases hx with rfl | rfl | rfl | rfl | rfl | rfl
    · exact works_bad rfl count1 fun args e ha => Or.inr ⟨_, _, _, by rw [stringCaseImpl, (args1 ha).1, needStr_bad _ _ hn]⟩
    · exact works_bad rfl count1 fun args e ha => Or.inr ⟨_, _, _, by rw [stringCaseImpl, (args1 ha).1, needStr_bad _ _ hn]⟩
    · exact works_bad rfl count1 fun args e ha => Or.inr ⟨_, _, _, by rw [stringCapitalizeImpl, (args1 ha).1, needStr_bad _ _ hn]⟩
    · exact works_bad rfl count1 fun args e ha => Or.inr ⟨_, _, _, by rw [stringLengthImpl, (args1 ha).1, needStr_bad _ _ hn]⟩
    · exact works_bad rfl count1 fun args e ha => Or.inr ⟨_, _, _, by rw [stringNullImpl, (args1 ha).1, needStr_bad _ _ hn]⟩
    · exact works_bad rfl count1 fun args e ha => Or.inr ⟨_, _, _, by
        rw [parseImpl, (args1 ha).1, hn, if_neg (by simp)]⟩
  case notText2 v w hb hx =>
    have trim : ∀ {x : String} {side : Side}, (std C.host).prims x = some ⟨"1|2".toList, false, false, stringTrimImpl C.host side⟩ →
        Works C x [v, w] s Objects := by
      intro x side hx
      refine works_bad hx (count12 (n := 1) (by decide)) fun args e ha => Or.inr ?_
      obtain ⟨h1, h2, h3⟩ := args2 ha
      simp only [stringTrimImpl, h1, h2, h3, if_true]
      cases hv : isStr v with
      | false => exact ⟨_, _, _, needStr_bad _ _ hv _⟩
      | true =>
        have hw := hb.resolve_left fun h => by rw [not_str h] at hv; cases hv
        exact ⟨_, _, _, by rw [needStr, if_pos hv, needStr_bad _ _ (not_str hw)]⟩
    simp only [List.mem_cons, List.not_mem_nil, or_false] at hx
    rcases hx with rfl | rfl | rfl | rfl | rfl | rfl | rfl | rfl | rfl | rfl | rfl | rfl | rfl | rfl | rfl | rfl | rfl
    · refine works_bad rfl count2 fun args e ha => Or.inr ?_
      obtain ⟨h1, h2, _⟩ := args2 ha
      simp only [stringSplitImpl, h1, h2]
      cases hv : isStr v with
      | false => exact ⟨_, _, _, needStr_bad _ _ hv _⟩
      | true =>
        have hw := hb.resolve_left fun h => by rw [not_str h] at hv; cases hv
        exact ⟨_, _, _, by rw [needStr, if_pos hv, needStr_bad _ _ (not_str hw)]⟩
    · exact trim rfl
    · exact trim rfl
    · exact trim rfl
    all_goals exact works_test_bad rfl hb
  case notText3 v w z hb =>
    refine works_bad rfl count3 fun args e ha => ?_
    have h1 := car_args ha
    have h2 := cadr_args ha
    have h3 := caddr_args ha
    simp only [Ev.substringImpl, h1, h2, h3]
    cases hv : isStr v with
    | false => exact Or.inr ⟨_, _, _, needStr_bad _ _ hv _⟩
    | true =>
      have hb := hb.resolve_left fun h => by rw [not_str h] at hv; cases hv
      rw [needStr, if_pos hv]
      repeat' split
      all_goals first | exact Or.inl ⟨_, rfl⟩ | exact Or.inr ⟨_, _, _, rfl⟩ | exact absurd hb (by simp)

/-- C77: a call of a string primitive: the outcome is one the manual allows, and the state is as it was after the
evaluation of the arguments. -/
theorem C77_texts {x : String} {vs : List Data} {P : Out Data → Prop} (hm : Texts C.host x vs P) (h : Calling C x vs d e s s₁) :
    ∃ r, P r ∧ ∀ r' t, Evals C d e s r' t ↔ r' = quoting d r ∧ t = s₁ :=
  works_evals h (texts_work hm)

/-- C77: taking a text apart at a separator and joining the pieces with that separator gives the text back. -/
theorem C77_split_join {cs sep : List Char} (hs : sep ≠ []) (h : Calling C "string-split" [T cs, T sep] d e s s₁) :
    ∃ l, Evals C d e s (.ok l) s₁ ∧ ∀ d' e' s' s₁', Calling C "string-join" [l, T sep] d' e' s' s₁' →
      Evals C d' e' s' (.ok (T cs)) s₁' := by
  obtain ⟨r, ⟨ps, hp, l, rfl, hl⟩, hr⟩ := C77_texts (.split cs sep hs) h
  refine ⟨l, (hr _ _).2 ⟨rfl, rfl⟩, fun d' e' s' s₁' h' => ?_⟩
  obtain ⟨r', rfl, hr'⟩ := C77_texts (.join l ps sep hl) h'
  refine (hr' _ _).2 ⟨?_, rfl⟩
  have : sep.intercalate ps = cs := by
    clear hr hr' h h' hl
    induction hp with
    | last h => simp [List.intercalate]
    | @cut p r ps h1 h2 ih =>
      cases ps with
      | nil => cases h2
      | cons q qs => rw [← ih]; simp [List.intercalate, List.intersperse]
  rw [this]; rfl

/-- C77: `(string-split "a=>b=>" "=>")`. -/
example : ∃ l, Lst l [T ['a'], T ['b'], T []] ∧
    Evals Demo.C (Demo.code "(string-split \"a=>b=>\" \"=>\")") 1 Demo.s (.ok l) Demo.s := by
  have h : Calling Demo.C "string-split" [T "a=>b=>".toList, T "=>".toList] (Demo.code "(string-split \"a=>b=>\" \"=>\")") 1 Demo.s Demo.s :=
    Demo.calling 10 (b := true) (xs := [.str "a=>b=>", .str "=>"]) (us := [.str "a=>b=>", .str "=>"])
      (by decide +kernel) (by decide +kernel) (by decide +kernel) (by decide +kernel) rfl (by decide +kernel) (by decide +kernel) rfl
  obtain ⟨r, ⟨ps, hp, l, rfl, hl⟩, hr⟩ := C77_texts (.split _ _ (by decide)) h
  have no : ∀ {s : List Char}, '=' ∉ s → ¬ Occurs ['=', '>'] s := fun hs ⟨u, v, h⟩ => hs (by simp [h])
  have h1 : Splits "=>".toList "a=>b=>".toList [['a'], ['b'], []] := by
    refine .cut (p := ['a']) (r := "b=>".toList) ?_ (.cut (p := ['b']) (r := []) ?_ (.last (no (by simp))))
    all_goals
      intro u v h
      match u, h with
      | [], h => simp at h
      | [_], h => exact (by simpa using h : _ ∧ v = []).2
      | _ :: _ :: u, h => have := congrArg List.length h; simp at this; omega
  have : ps = [['a'], ['b'], []] := Splits.unique hp h1
  subst this
  exact ⟨l, hl.1, (hr _ _).2 ⟨rfl, rfl⟩⟩

/-- C77: `(string-length "é")` is 2: the length counts bytes, not characters. -/
example : Evals Demo.C (Demo.code "(string-length \"é\")") 1 Demo.s (.ok (.int 2)) Demo.s := by
  have h : Calling Demo.C "string-length" [T ['é']] (Demo.code "(string-length \"é\")") 1 Demo.s Demo.s :=
    Demo.calling 10 (b := true) (xs := [.str "é"]) (us := [.str "é"])
      (by decide +kernel) (by decide +kernel) (by decide +kernel) (by decide +kernel) rfl (by decide +kernel) (by decide +kernel) rfl
  obtain ⟨r, ⟨n, rfl, hn⟩, hr⟩ := C77_texts (.length _ (by decide)) h
  have : n = 2 := BitVec.eq_of_toInt_eq hn
  subst this
  exact (hr _ _).2 ⟨rfl, rfl⟩

/-- C77: `(string<? "Z" "é")`: code points decide. -/
example : Evals Demo.C (Demo.code "(string<? \"Z\" \"é\")") 1 Demo.s (.ok (.bool true)) Demo.s := by
  have h : Calling Demo.C "string<?" [T ['Z'], T ['é']] (Demo.code "(string<? \"Z\" \"é\")") 1 Demo.s Demo.s :=
    Demo.calling 10 (b := true) (xs := [.str "Z", .str "é"]) (us := [.str "Z", .str "é"])
      (by decide +kernel) (by decide +kernel) (by decide +kernel) (by decide +kernel) rfl (by decide +kernel) (by decide +kernel) rfl
  obtain ⟨r, ⟨b, rfl, hb⟩, hr⟩ := C77_texts (.less _ _) h
  have : b = true := hb.2 ((lt_Earlier _ _).1 (by decide))
  subst this
  exact (hr _ _).2 ⟨rfl, rfl⟩

end Golisp.Props
