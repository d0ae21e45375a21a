import Verif.StreamSpec
import Verif.ImpRules
/- The stream library in the language with assignment: what its definitions do (C93). -/
namespace Golisp.Streams
open Golisp Data Spec Samples Imp Ev

variable {N : String → Prop} {m m' m₁ m₂ m₃ : Mem} {f k : Nat} {u v w : Val} {σ τ : Elems}

/-! ### Memories with the library in them -/

/-- The top level holds the library, and forms and built-in procedures are not redefined. -/
structure Lib (m : Mem) (F : Fr) : Prop where
  top : m[0]? = some F
  root : F.parent = none
  plain : F.vars.lookup "already-run?" = none
  defs : ∀ p ∈ lib, F.vars.lookup p.1 = some p.2
  words : ∀ x ∈ forms ++ purePrims, F.vars.lookup x = none

/-- Names with a meaning. -/
def names : List String := "partial-sums" :: lib.map (·.1) ++ (forms ++ purePrims)

/-- Frames from which the library can be used. -/
inductive Scope (m : Mem) : Nat → Prop where
  | top {F} : Lib m F → Scope m 0
  | up {f p vars} : m[f]? = some ⟨vars, some p⟩ → (∀ x ∈ names, vars.lookup x = none) → vars.lookup "already-run?" = none → Scope m p → Scope m f

/-- Frames other than those of promises are as they were. -/
structure Keeps (m m' : Mem) : Prop where
  length : m.length ≤ m'.length
  frames : ∀ (i : Nat) (F : Fr), m[i]? = some F → F.vars.lookup "already-run?" = none → m'[i]? = some F

theorem Keeps.refl (m : Mem) : Keeps m m := ⟨Nat.le_refl _, fun _ _ h _ => h⟩
theorem Keeps.trans (h : Keeps m m₁) (h' : Keeps m₁ m₂) : Keeps m m₂ := ⟨Nat.le_trans h.length h'.length, fun i F hF hp => h'.frames i F (h.frames i F hF hp) hp⟩
theorem keeps_push (m : Mem) (vars : List (String × Val)) (p : Nat) : Keeps m (m.push vars p) := ⟨by simp [Mem.push], fun _ _ h _ => push_old h vars p⟩

theorem Lib.keeps {F : Fr} (h : Lib m F) (hk : Keeps m m') : Lib m' F := ⟨hk.frames _ _ h.top h.plain, h.root, h.plain, h.defs, h.words⟩

theorem Scope.keeps (hk : Keeps m m') (h : Scope m f) : Scope m' f := by
  induction h with
  | top h => exact .top (h.keeps hk)
  | up h1 h2 h3 _ ih => exact .up (hk.frames _ _ h1 h3) h2 h3 ih

theorem Scope.push (h : Scope m f) (vars : List (String × Val)) (p : Nat) : Scope (m.push vars p) f := h.keeps (keeps_push m vars p)

theorem Scope.word (h : Scope m f) {x : String} (hx : x ∈ forms ++ purePrims) : Unbound m f x := by
  induction h with
  | top h => exact .top h.top (h.words x hx) h.root
  | up h1 h2 _ _ ih => exact .up h1 (h2 x (List.mem_cons_of_mem _ (List.mem_append_right _ hx))) rfl ih

theorem Scope.sees (h : Scope m f) {p : String × Val} (hp : p ∈ lib) : Sees m f p.1 0 p.2 := by
  induction h with
  | top h => exact .here h.top (h.defs p hp)
  | up h1 h2 _ _ ih => exact .up h1 (h2 _ (List.mem_cons_of_mem _ (List.mem_append_left _ (List.mem_map_of_mem hp)))) rfl ih

theorem mem_of_lookup {α : Type} {x : String} {v : α} : ∀ {vars : List (String × α)}, vars.lookup x = some v → (x, v) ∈ vars := by
  intro vars
  induction vars with
  | nil => intro h; cases h
  | cons p vars ih =>
    obtain ⟨z, u⟩ := p
    intro h
    rw [List.lookup_cons] at h
    split at h
    · next he => cases h; rw [eq_of_beq he]; exact List.mem_cons_self
    · exact List.mem_cons_of_mem _ (ih h)

theorem Scope.look (h : Scope m f) {x : String} (hp : Streams.lib.lookup x = some v) : Sees m f x 0 v := h.sees (mem_of_lookup hp)

theorem Scope.lib (h : Scope m f) : ∃ F, Lib m F := by
  induction h with
  | top h => exact ⟨_, h⟩
  | up _ _ _ _ ih => exact ih

theorem Scope.sums (h : Scope m f) : ∀ {F : Fr}, m[0]? = some F → F.vars.lookup "partial-sums" = some v → Sees m f "partial-sums" 0 v := by
  induction h with
  | top h => intro F hF hv; exact .here hF hv
  | up h1 h2 _ _ ih => intro F hF hv; exact .up h1 (h2 _ List.mem_cons_self) rfl (ih hF hv)

theorem lookup_none {α : Type} {x : String} : ∀ {vars : List (String × α)}, x ∉ vars.map (·.1) → vars.lookup x = none := by
  intro vars
  induction vars with
  | nil => intro _; rfl
  | cons p vars ih =>
    intro h
    simp only [List.map_cons, List.mem_cons, not_or] at h
    rw [List.lookup_cons, beq_false_of_ne h.1]
    exact ih h.2

/-- The frame of a call of a procedure of the library. -/
theorem Scope.inside {vars : List (String × Val)} {ns : List String} {p : Nat} (hf : m[f]? = some ⟨vars, some p⟩) (hn : vars.map (·.1) = ns)
    (hd : ∀ x ∈ ns, x ∉ "already-run?" :: names) (h : Scope m p) : Scope m f :=
  .up hf (fun x hx => lookup_none (by rw [hn]; exact fun h => hd x h (List.mem_cons_of_mem _ hx))) (lookup_none (by rw [hn]; exact fun h => hd _ h List.mem_cons_self)) h

theorem Scope.new (h : Scope m k) {vars : List (String × Val)} {ns : List String} (hn : vars.map (·.1) = ns) (hd : ∀ x ∈ ns, x ∉ "already-run?" :: names) :
    Scope (m.push vars k) m.length := .inside (push_new m vars k) hn hd (h.push _ _)

/-! ### The small procedures -/

theorem nullq_true {x : String} {h : Nat} (hs : Scope m f) (hx : Sees m f x h .nil) (hx' : x ≠ "self") (hk : isNaked (.sym x) = false) :
    Gives N m f (l [y "stream-null?", y x]) (.bool true) (m.push [("s", .nil)] 0) := by
  obtain ⟨F, hL⟩ := hs.lib
  refine g_call ⟨rfl, fun _ => rfl⟩ (by decide) (hs.look (x := "stream-null?") rfl) (g_all1 (.var hx hx' hk)) rfl
    (.next (g_prim (((Scope.top hL).new (ns := ["s"]) rfl (by decide)).word (by simp [purePrims])) (by simp [purePrims]) (g_all1 (.var (.here (push_new _ _ _) rfl) (by decide) rfl))
      (.empty (.inl rfl))) .done)

theorem nullq_false {x : String} {h : Nat} {a d : Val} (hs : Scope m f) (hx : Sees m f x h (.pair a d)) (hx' : x ≠ "self") (hk : isNaked (.sym x) = false) :
    Gives N m f (l [y "stream-null?", y x]) (.bool false) (m.push [("s", .pair a d)] 0) := by
  obtain ⟨F, hL⟩ := hs.lib
  refine g_call ⟨rfl, fun _ => rfl⟩ (by decide) (hs.look (x := "stream-null?") rfl) (g_all1 (.var hx hx' hk)) rfl
    (.next (g_prim (((Scope.top hL).new (ns := ["s"]) rfl (by decide)).word (by simp [purePrims])) (by simp [purePrims]) (g_all1 (.var (.here (push_new _ _ _) rfl) (by decide) rfl))
      (.notEmpty (.inl rfl))) .done)

theorem carq {x : String} {h : Nat} {a d : Val} (hs : Scope m f) (hx : Sees m f x h (.pair a d)) (hx' : x ≠ "self") (hk : isNaked (.sym x) = false) :
    Gives N m f (l [y "stream-car", y x]) a (m.push [("s", .pair a d)] 0) := by
  obtain ⟨F, hL⟩ := hs.lib
  refine g_call ⟨rfl, fun _ => rfl⟩ (by decide) (hs.look (x := "stream-car") rfl) (g_all1 (.var hx hx' hk)) rfl
    (.next (g_prim (((Scope.top hL).new (ns := ["s"]) rfl (by decide)).word (by simp [purePrims])) (by simp [purePrims]) (g_all1 (.var (.here (push_new _ _ _) rfl) (by decide) rfl)) .car) .done)

/-- `stream-cdr` calls the tail. -/
theorem cdrq {x : String} {h : Nat} {a d : Val} (hs : Scope m f) (hx : Sees m f x h (.pair a d)) (hx' : x ≠ "self") (hk : isNaked (.sym x) = false)
    (hd : Apply N ((m.push [("s", .pair a d)] 0).push [("p", d)] 0) d [] w m') : Gives N m f (l [y "stream-cdr", y x]) w m' := by
  obtain ⟨F, hL⟩ := hs.lib
  have s1 := (Scope.top hL).new (vars := [("s", .pair a d)]) (ns := ["s"]) rfl (by decide)
  refine g_call ⟨rfl, fun _ => rfl⟩ (by decide) (hs.look (x := "stream-cdr") rfl) (g_all1 (.var hx hx' hk)) rfl (.next ?_ .done)
  refine g_call ⟨rfl, fun _ => rfl⟩ (by decide) (s1.look (x := "force") rfl) (g_all1 (g_prim (s1.word (by simp [purePrims])) (by simp [purePrims])
    (g_all1 (.var (.here (push_new _ _ _) rfl) (by decide) rfl)) .cdr)) rfl (.next ?_ .done)
  exact g_app (.inl ⟨"p", rfl, rfl, fun _ => rfl⟩) (.var (.here (push_new _ _ _) rfl) (by decide) rfl) .nil hd

/-! ### Promises -/

/-- What `memo-proc` gives; frame `k` holds its two variables. -/
abbrev promise (k : Nat) : Val := .closure [] [memo] k

/-- Frame `k` holds the variables of a promise: the procedure `u`, whether it has been called, and its result. -/
structure Prom (m : Mem) (k : Nat) (u : Val) (ran : Bool) (r : Val) (F : Fr) (j : Nat) : Prop where
  frame : m[k]? = some F
  parent : F.parent = some j
  ran : F.vars.lookup "already-run?" = some (.bool ran)
  result : F.vars.lookup "result" = some r
  others : ∀ x, x ≠ "already-run?" → x ≠ "result" → F.vars.lookup x = none
  proc : m[j]? = some ⟨[("proc", u)], some 0⟩

theorem Prom.keeps {b : Bool} {r : Val} {F : Fr} {j : Nat} (h : Prom m k u b r F j) (hk : Keeps m m') (hF : m'[k]? = some F) : Prom m' k u b r F j :=
  ⟨hF, h.parent, h.ran, h.result, h.others, hk.frames _ _ h.proc rfl⟩

theorem Prom.push {b : Bool} {r : Val} {F : Fr} {j : Nat} (h : Prom m k u b r F j) (vars : List (String × Val)) (p : Nat) : Prom (m.push vars p) k u b r F j :=
  h.keeps (keeps_push m vars p) (push_old h.frame _ _)

theorem Prom.word {b : Bool} {r : Val} {F G : Fr} {j : Nat} (h : Prom m k u b r F j) (hL : Lib m G) {x : String} (hx : x ∈ forms ++ purePrims) : Unbound m k x := by
  have hne : x ≠ "already-run?" ∧ x ≠ "result" ∧ x ≠ "proc" := by
    revert x; decide
  refine .up h.frame (h.others x hne.1 hne.2.1) h.parent (.up h.proc ?_ rfl ((Scope.top hL).word hx))
  simp only [List.lookup_cons, beq_false_of_ne hne.2.2]; rfl

/-- A promise that has run gives its result again and calls nothing. -/
theorem memo_again {r : Val} {F G : Fr} {j : Nat} (hL : Lib m G) (h : Prom m k u true r F j) : Apply N m (promise k) [] r (m.push [] k) := by
  have h' := h.push [] k
  have hL' := hL.keeps (keeps_push m [] k)
  have up : ∀ {x}, x ∈ forms ++ purePrims → Unbound (m.push [] k) m.length x := fun hx => .up (push_new m [] k) rfl rfl (h'.word hL' hx)
  refine .closure rfl (.next (g_ifFalse (up (by simp [forms])) nofun (g_prim (up (by simp [purePrims])) (by simp [purePrims])
    (g_all1 (.var (.up (push_new m [] k) rfl rfl (.here h'.frame h'.ran)) (by decide) rfl)) .not) (by simp [holds_bool]) ?_) .done)
  exact .var (.up (push_new m [] k) rfl rfl (.here h'.frame h'.result)) (by decide) rfl

/-- A promise that has not run calls its procedure, and keeps the result. -/
theorem memo_first {r r' u' : Val} {b : Bool} {F F' G G' : Fr} {j j' : Nat} (hL : Lib m G) (h : Prom m k u false r F j) (hu : Apply N (m.push [] k) u [] w m₁) (hL₁ : Lib m₁ G')
    (hc : m₁[m.length]? = some ⟨[], some k⟩) (h₁ : Prom m₁ k u' b r' F' j') :
    Apply N m (promise k) [] w ((m₁.put k "result" w).put k "already-run?" (.bool true)) := by
  have h' := h.push [] k
  have hL' := hL.keeps (keeps_push m [] k)
  have up : ∀ {x}, x ∈ forms ++ purePrims → Unbound (m.push [] k) m.length x := fun hx => .up (push_new m [] k) rfl rfl (h'.word hL' hx)
  have hne : m.length ≠ k := by
    have := (List.getElem?_eq_some_iff.mp h.frame).1; omega
  have hc2 : (m₁.put k "result" w)[m.length]? = some ⟨[], some k⟩ := by rw [put_get, hc]; simp [hne]
  have hF2 : (m₁.put k "result" w)[k]? = some { F' with vars := ("result", w) :: F'.vars } := by rw [put_get, h₁.frame]; simp
  have hc3 : ((m₁.put k "result" w).put k "already-run?" (.bool true))[m.length]? = some ⟨[], some k⟩ := by rw [put_get, hc2]; simp [hne]
  have hF3 : ((m₁.put k "result" w).put k "already-run?" (.bool true))[k]? =
      some { F' with vars := ("already-run?", .bool true) :: ("result", w) :: F'.vars } := by rw [put_get, hF2]; simp
  have wset : Unbound (m₁.put k "result" w) m.length "set!" :=
    Unbound.put (.up hc rfl rfl (h₁.word hL₁ (by simp [forms]))) (by decide) _ _
  refine .closure rfl (.next (g_ifTrue (up (by simp [forms])) nofun (g_prim (up (by simp [purePrims])) (by simp [purePrims])
    (g_all1 (.var (.up (push_new m [] k) rfl rfl (.here h'.frame h'.ran)) (by decide) rfl)) .not) (by simp [holds_bool]) ?_) .done)
  refine g_begin (up (by simp [forms])) (.next (g_set (h := k) (up (by simp [forms])) (by decide) ?_ (.up hc rfl rfl (.here h₁.frame h₁.result)))
    (.next (g_set (h := k) wset (by decide) (g_bool true) (.up hc2 rfl rfl (Sees.here (v := .bool b) hF2 ?_))) (.next (.var (h := k) (.up hc3 rfl rfl (.here hF3 (by simp [List.lookup_cons])))
      (by decide) rfl) .done)))
  · exact g_app (.inl ⟨"proc", rfl, rfl, fun _ => rfl⟩) (.var (.up (push_new m [] k) rfl rfl (.up h'.frame (h'.others _ (by decide) (by decide)) h'.parent
      (.here h'.proc rfl))) (by decide) rfl) .nil hu
  · simp [List.lookup_cons, h₁.ran]

/-- The variables of a promise after it has run. -/
theorem Prom.finish {b : Bool} {r : Val} {F : Fr} {j : Nat} (h : Prom m k u b r F j) (w : Val) :
    Prom ((m.put k "result" w).put k "already-run?" (.bool true)) k u true w { F with vars := ("already-run?", .bool true) :: ("result", w) :: F.vars } j := by
  have hF2 : (m.put k "result" w)[k]? = some { F with vars := ("result", w) :: F.vars } := by rw [put_get, h.frame]; simp
  have hjk : j ≠ k := by
    rintro rfl
    have := h.proc.symm.trans h.frame
    cases this
    exact nomatch h.ran
  refine ⟨by rw [put_get, hF2]; simp, h.parent, by simp, by simp [List.lookup_cons], fun x h1 h2 => ?_, ?_⟩
  · simp only [List.lookup_cons, beq_false_of_ne h1, beq_false_of_ne h2]; exact h.others x h1 h2
  · rw [put_get, put_get, h.proc]; simp [hjk]

/-- Only the promise itself changes. -/
theorem finish_other {i : Nat} (hi : i ≠ k) (w : Val) : ((m.put k "result" w).put k "already-run?" (.bool true))[i]? = m[i]? := by
  rw [put_get, put_get]
  cases m[i]? <;> simp [hi]

theorem keeps_finish {b : Bool} {r : Val} {F : Fr} {j : Nat} (h : Prom m k u b r F j) (w : Val) : Keeps m ((m.put k "result" w).put k "already-run?" (.bool true)) := by
  refine ⟨by simp, fun i G hG hp => ?_⟩
  rw [finish_other]
  · exact hG
  · rintro rfl
    rw [h.frame] at hG; cases hG
    rw [h.ran] at hp; cases hp

/-! ### The macros -/

theorem ofArray_l {xs : List Data} (hx : xs ≠ []) (hn : Data.null ∉ xs) : ofArray xs = l xs := by
  have key : ∀ xs : List Data, Data.null ∉ xs → listWithTail xs .null = l xs := by
    intro xs
    induction xs with
    | nil => intro _; rfl
    | cons x xs ih =>
      intro h
      simp only [List.mem_cons, not_or] at h
      have : noNull x = x := by cases x <;> first | rfl | exact absurd rfl h.1
      simp only [listWithTail, this, ih h.2, l, List.foldr_cons]
  cases xs with
  | nil => exact absurd rfl hx
  | cons x xs => exact key _ hn

theorem fills_l {θ : List (String × Data)} {t : Data} {ts ds xs ys : List Data} (hn : Data.null ∉ t :: ts) (hm : ¬ Mark t) (h : Fills θ (t :: ts) ds) (hd : ds ≠ []) (hn' : Data.null ∉ ds)
    (h' : Fills θ xs ys) : Fills θ (l (t :: ts) :: xs) (l ds :: ys) := by
  rw [← ofArray_l hd hn']
  refine .list (lst_l hn) rfl ?_ h h'
  intro a ha
  simp only [List.head?_cons, Option.mem_some_iff] at ha
  subst ha; exact hm

/-- `(delay x)` in frame `f` makes a promise, and evaluates nothing of `x`. -/
theorem delay_gives (hs : Scope m f) {ex : Data} (hn : ex ≠ .null) (hf : isFunc ex = false) :
    Gives N m f (l [y "delay", ex]) (promise (m.push [("proc", .closure [] [ex] f)] 0).length)
      ((m.push [("proc", .closure [] [ex] f)] 0).push [("already-run?", .bool false), ("result", .bool false)] m.length) := by
  obtain ⟨F, hL⟩ := hs.lib
  have s1 := (Scope.top hL).new (vars := [("proc", .closure [] [ex] f)]) (ns := ["proc"]) rfl (by decide)
  refine .expand (xs := [ex]) (d := l [y "memo-proc", l [y "lambda", .emptyCons, ex]]) ⟨rfl, fun _ => rfl⟩ (by decide) (hs.look (x := "delay") rfl)
    ((Scope.top hL).word (by simp [forms])) (lst_l (by simpa using Ne.symm hn)) rfl (by simpa using hf) ?_ ?_
  · refine fills_l (by simp) (by simp [Mark]) (.atom (fills_l (by simp) (by simp [Mark]) (.atom (.list (zs := []) (.empty _) rfl (by simp) .nil (.hole rfl (by decide) rfl .nil))) (by simp) ?_ .nil))
      (by simp) (by simp) .nil
    simp only [List.mem_cons, not_or, List.not_mem_nil, not_false_eq_true, and_true]
    exact ⟨nofun, nofun, Ne.symm hn⟩
  · refine g_call ⟨rfl, fun _ => rfl⟩ (by decide) (hs.look (x := "memo-proc") rfl) (g_all1 (g_thunk (hs.word (by simp [forms])) (by simpa using Ne.symm hn))) rfl (.next ?_ .done)
    refine g_let (t := ("already-run?", no)) (ts := [("result", no)]) (s1.word (by simp [forms])) (by decide) (g_all2 (g_bool false) (g_bool false)) (.next ?_ .done)
    exact g_thunk (.up (push_new _ _ _) rfl rfl ((s1.push _ _).word (by simp [forms]))) (by simp [memo])

theorem delay_prom (m : Mem) (u : Val) : Prom ((m.push [("proc", u)] 0).push [("already-run?", .bool false), ("result", .bool false)] m.length) (m.push [("proc", u)] 0).length u false
    (.bool false) ⟨[("already-run?", .bool false), ("result", .bool false)], some m.length⟩ m.length :=
  ⟨push_new _ _ _, rfl, rfl, rfl, fun x h1 h2 => by simp only [List.lookup_cons, beq_false_of_ne h1, beq_false_of_ne h2]; rfl, push_old (push_new _ _ _) _ _⟩

/-- `(stream-cons a b)` evaluates `a` and delays `b`. -/
theorem cons_gives (hs : Scope m f) {a b : Data} (ha : isFunc a = false) (hn : b ≠ .null) (hf : isFunc b = false) (h : Gives N m f a v m₁) (hk : Keeps m m₁) :
    Gives N m f (l [y "stream-cons", a, b]) (.pair v (promise (m₁.push [("proc", .closure [] [b] f)] 0).length))
      ((m₁.push [("proc", .closure [] [b] f)] 0).push [("already-run?", .bool false), ("result", .bool false)] m₁.length) := by
  obtain ⟨F, hL⟩ := hs.lib
  have hna := gives_ne h
  refine .expand (xs := [a, b]) (d := l [y "cons", a, l [y "delay", b]]) ⟨rfl, fun _ => rfl⟩ (by decide) (hs.look (x := "stream-cons") rfl)
    ((Scope.top hL).word (by simp [forms])) (lst_l (by simp [Ne.symm hna, Ne.symm hn])) rfl (by simp [ha, hf]) ?_ ?_
  · refine fills_l (by simp) (by simp [Mark]) (.atom (.hole rfl (by decide) rfl (fills_l (by simp) (by simp [Mark]) (.atom (.hole rfl (by decide) rfl .nil)) (by simp) ?_ .nil))) (by simp) ?_ .nil
    · simp only [List.mem_cons, not_or, List.not_mem_nil, not_false_eq_true, and_true]
      exact ⟨nofun, Ne.symm hn⟩
    · simp only [List.mem_cons, not_or, List.not_mem_nil, not_false_eq_true, and_true]
      exact ⟨nofun, Ne.symm hna, nofun⟩
  · exact g_prim (hs.word (by simp [purePrims])) (by simp [purePrims]) (g_all2 h (delay_gives (hs.keeps hk) hn hf)) .cons

end Golisp.Streams
