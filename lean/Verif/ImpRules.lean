import Verif.ImpSpec
import Verif.ImpLemmas
import Verif.FunRules
/- Derived rules of the language with assignment, for programs written with the abbreviations of `Samples`. -/
namespace Golisp.Imp
open Golisp Data Spec Samples
open Golisp.Fun (Plain Head params_l)

variable {N : String → Prop} {m m' m₁ m₂ m₃ : Mem} {f : Nat}

theorem gives_ne {d : Data} {v : Val} (h : Gives N m f d v m') : d ≠ .null := by cases h <;> simp

theorem givesAll_null {xs : List Data} {vs : List Val} : ∀ {m : Mem}, GivesAll N m f xs vs m' → Data.null ∉ xs := by
  induction xs generalizing vs with
  | nil => simp
  | cons x xs ih =>
    intro m h
    cases h with
    | cons h1 h2 => simp only [List.mem_cons, not_or]; exact ⟨Ne.symm (gives_ne h1), ih h2⟩

theorem g_all1 {a : Data} {v : Val} (h : Gives N m f a v m₁) : GivesAll N m f [a] [v] m₁ := .cons h .nil
theorem g_all2 {a b : Data} {v w : Val} (h : Gives N m f a v m₁) (h' : Gives N m₁ f b w m₂) : GivesAll N m f [a, b] [v, w] m₂ := .cons h (g_all1 h')

theorem g_int (i : BitVec 64) : Gives N m f (n i) (.int i) m := .const trivial nofun
theorem g_bool (b : Bool) : Gives N m f (.atom (.bool b)) (.bool b) m := .const trivial nofun

theorem g_app {x : Data} {xs : List Data} {u v : Val} {vs : List Val} (hh : Head x) (h1 : Gives N m f x u m₁) (h2 : GivesAll N m₁ f xs vs m₂) (h3 : Apply N m₂ u vs v m₃) :
    Gives N m f (l (x :: xs)) v m₃ := .call hh h1 (lst_l (givesAll_null h2)) h2 h3

/-- A call of a built-in procedure by its name. -/
theorem g_prim {x : String} {xs : List Data} {v : Val} {vs : List Val} (hu : Unbound m f x) (hx : x ∈ purePrims) (h2 : GivesAll N m f xs vs m₁) (h3 : Builtin x vs v) :
    Gives N m f (l (y x :: xs)) v m₁ :=
  g_app (.inl ⟨x, rfl, (Fun.prim_names (List.mem_append_left _ hx)).1⟩) (.builtin hu hx) h2 (.builtin h3)

/-- A call of a procedure by its name. -/
theorem g_call {x : String} {xs : List Data} {v : Val} {vs : List Val} {h k : Nat} {ps : List String} {bs : List Data} (ho : Operator x) (hs : x ≠ "self")
    (hx : Sees m f x h (.closure ps bs k)) (h2 : GivesAll N m f xs vs m₁) (hl : vs.length = ps.length) (h3 : Body N (m₁.push (ps.zip vs) k) m₁.length bs .nil v m₂) :
    Gives N m f (l (y x :: xs)) v m₂ :=
  g_app (.inl ⟨x, rfl, ho⟩) (.var hx hs ho.1) h2 (.closure hl h3)

theorem g_quote {d : Data} {v : Val} (h : Unbound m f "quote") (hd : d ≠ .null) (hl : Literal d v) : Gives N m f (l [y "quote", d]) v m :=
  .quote h (lst_l (by simpa using Ne.symm hd)) hd hl

/-- `(lambda () body …)`, as the reader makes it. -/
theorem g_thunk {bs : List Data} (h : Unbound m f "lambda") (hb : Data.null ∉ bs) : Gives N m f (l (y "lambda" :: .emptyCons :: bs)) (.closure [] bs f) m :=
  .lambda h (lst_l (by simpa using hb)) rfl (by simpa using hb) (.none (.empty _)) (by simp)

theorem g_lambda {p : String} {ps : List String} {bs : List Data} (h : Unbound m f "lambda") (hb : Data.null ∉ bs) (hn : (p :: ps).Nodup) :
    Gives N m f (l (y "lambda" :: l ((p :: ps).map y) :: bs)) (.closure (p :: ps) bs f) m :=
  .lambda h (lst_l (by simpa using hb)) rfl (by simpa using hb) (params_l (p :: ps)) hn

theorem g_ifTrue {c a b : Data} {v w : Val} (h : Unbound m f "if") (hb : b ≠ .null) (h1 : Gives N m f c v m₁) (h2 : Holds v) (h3 : Gives N m₁ f a w m₂) :
    Gives N m f (l [y "if", c, a, b]) w m₂ := by
  have : Data.null ∉ [c, a, b] := by simp [Ne.symm hb, Ne.symm (gives_ne h1), Ne.symm (gives_ne h3)]
  exact .ifTrue h (lst_l this) this h1 h2 h3

theorem g_ifFalse {c a b : Data} {v w : Val} (h : Unbound m f "if") (ha : a ≠ .null) (h1 : Gives N m f c v m₁) (h2 : ¬ Holds v) (h3 : Gives N m₁ f b w m₂) :
    Gives N m f (l [y "if", c, a, b]) w m₂ := by
  have : Data.null ∉ [c, a, b] := by simp [Ne.symm ha, Ne.symm (gives_ne h1), Ne.symm (gives_ne h3)]
  exact .ifFalse h (lst_l this) this h1 h2 h3

theorem body_null {xs : List Data} {v : Val} : ∀ {m : Mem} {u : Val}, Body N m f xs u v m' → Data.null ∉ xs := by
  induction xs with
  | nil => simp
  | cons x xs ih =>
    intro m u h
    cases h with
    | next h1 h2 => simp only [List.mem_cons, not_or]; exact ⟨Ne.symm (gives_ne h1), ih h2⟩

theorem g_begin {xs : List Data} {v : Val} (h : Unbound m f "begin") (h1 : Body N m f xs .nil v m') : Gives N m f (l (y "begin" :: xs)) v m' :=
  .begin h (lst_l (body_null h1)) (body_null h1) h1

theorem g_set {x : String} {ex : Data} {v w : Val} {h : Nat} (hu : Unbound m f "set!") (hx : x ≠ "self") (h1 : Gives N m f ex v m₁) (hs : Sees m₁ f x h w) :
    Gives N m f (l [y "set!", y x, ex]) v (m₁.put h x v) :=
  .assign hu (lst_l (by simpa using Ne.symm (gives_ne h1))) (gives_ne h1) hx h1 hs

theorem g_define {x : String} {ex : Data} {v : Val} (hu : Unbound m f "define") (hx : x ≠ "self") (h1 : Gives N m f ex v m₁) (hd : Definable N m₁ f x) :
    Gives N m f (l [y "define", y x, ex]) v (m₁.put f x v) :=
  .define hu (lst_l (by simpa using Ne.symm (gives_ne h1))) (gives_ne h1) hx h1 hd

/-- `(define (x p …) body …)`. -/
theorem g_defineFn {x : String} {ps : List String} {bs : List Data} (hu : Unbound m f "define") (hb : Data.null ∉ bs) (hn : ps.Nodup) (hx : x ≠ "self")
    (ho : (∃ h v, Sees m f x h v ∧ ∀ y, v ≠ .builtin y) ∨ (Unbound m f x ∧ N x)) (hd : Definable N m f x) :
    Gives N m f (l (y "define" :: l (y x :: ps.map y) :: bs)) (.closure ps bs f) (m.put f x (.closure ps bs f)) :=
  .defineFn hu (lst_l (by simpa using hb)) hb (params_l ps) hn hx ho hd

theorem letBindings_l {ts : List (String × Data)} (h : ∀ t ∈ ts, t.2 ≠ .null) : LetBindings (l (ts.map fun t => l [y t.1, t.2])) (ts.map (·.1)) (ts.map (·.2)) := by
  induction ts with
  | nil => exact .nil .null
  | cons t ts ih =>
    have h1 := h t List.mem_cons_self
    exact .cons (lst_l (xs := [y t.1, t.2]) (by simp [Ne.symm h1])) (ih fun t' ht => h t' (List.mem_cons_of_mem _ ht))

theorem g_let {t : String × Data} {ts : List (String × Data)} {bs : List Data} {vs : List Val} {w : Val} (h : Unbound m f "let") (hn : (t.1 :: ts.map (·.1)).Nodup)
    (h1 : GivesAll N m f ((t :: ts).map (·.2)) vs m₁) (h2 : Body N (m₁.push (((t :: ts).map (·.1)).zip vs) f) m₁.length bs .nil w m₂) :
    Gives N m f (l (y "let" :: l ((t :: ts).map fun t => l [y t.1, t.2]) :: bs)) w m₂ := by
  have hb := body_null h2
  have hn' : Data.null ∉ l ((t :: ts).map fun t => l [y t.1, t.2]) :: bs := by simpa using hb
  have h0 := givesAll_null h1
  exact .letIn h (lst_l hn') hn' (letBindings_l fun t' ht e => h0 (e ▸ List.mem_map_of_mem ht)) nofun hn h1 h2

theorem holds_bool (b : Bool) : Holds (.bool b) ↔ b = true := by
  cases b <;> simp [Holds, Val.bool]

/-! ### Variables that stay visible -/

theorem Sees.push {x : String} {h : Nat} {v : Val} (hs : Sees m f x h v) (vars : List (String × Val)) (p : Nat) : Sees (m.push vars p) f x h v := by
  induction hs with
  | here h1 h2 => exact .here (push_old h1 vars p) h2
  | up h1 h2 h3 _ ih => exact .up (push_old h1 vars p) h2 h3 ih

theorem Unbound.push {x : String} (hs : Unbound m f x) (vars : List (String × Val)) (p : Nat) : Unbound (m.push vars p) f x := by
  induction hs with
  | top h1 h2 h3 => exact .top (push_old h1 vars p) h2 h3
  | up h1 h2 h3 _ ih => exact .up (push_old h1 vars p) h2 h3 ih

/-- Changing one variable does not change others. -/
theorem Sees.put {x z : String} {h : Nat} {v : Val} (hs : Sees m f x h v) (hx : x ≠ z) (k : Nat) (w : Val) : Sees (m.put k z w) f x h v := by
  have key : ∀ {i : Nat} {F : Fr} {x : String}, x ≠ z → m[i]? = some F → ∃ F', (m.put k z w)[i]? = some F' ∧ F'.parent = F.parent ∧ F'.vars.lookup x = F.vars.lookup x := by
    intro i F x hx hF
    refine ⟨_, by rw [put_get, hF]; rfl, ?_⟩
    split
    · exact ⟨rfl, by simp only [List.lookup_cons, beq_false_of_ne hx]⟩
    · exact ⟨rfl, rfl⟩
  induction hs with
  | here h1 h2 => obtain ⟨F', a, _, c⟩ := key hx h1; exact .here a (c.trans h2)
  | up h1 h2 h3 _ ih => obtain ⟨F', a, b, c⟩ := key hx h1; exact .up a (c.trans h2) (b.trans h3) (ih hx)

theorem Unbound.put {x z : String} (hs : Unbound m f x) (hx : x ≠ z) (k : Nat) (w : Val) : Unbound (m.put k z w) f x := by
  have key : ∀ {i : Nat} {F : Fr} {x : String}, x ≠ z → m[i]? = some F → ∃ F', (m.put k z w)[i]? = some F' ∧ F'.parent = F.parent ∧ F'.vars.lookup x = F.vars.lookup x := by
    intro i F x hx hF
    refine ⟨_, by rw [put_get, hF]; rfl, ?_⟩
    split
    · exact ⟨rfl, by simp only [List.lookup_cons, beq_false_of_ne hx]⟩
    · exact ⟨rfl, rfl⟩
  induction hs with
  | top h1 h2 h3 => obtain ⟨F', a, b, c⟩ := key hx h1; exact .top a (c.trans h2) (b.trans h3)
  | up h1 h2 h3 _ ih => obtain ⟨F', a, b, c⟩ := key hx h1; exact .up a (c.trans h2) (b.trans h3) (ih hx)

end Golisp.Imp
