import Verif.Manual
/-
A manual of the environment primitives: what a call answers and does, in terms of which bindings can be seen from where
(`Visible`) and of the bindings an environment holds itself (`Store.localB`).
-/
namespace Golisp.Spec
open Golisp Data Ev

/-- The environment object `i`. -/
abbrev E (i : Nat) : Data := .atom (.env i)

/-- An answer; the state `s` stays as it is. -/
def Asks (s : Store) (P : Out Data → Prop) (r : Out Data) (t : Store) : Prop := P r ∧ t = s

/-- No binding of `x` can be seen from `i`. -/
def Unseen (s : Store) (i : Nat) (x : String) : Prop := ∀ f b, ¬ Visible s i x f b

/-- What `environment-reference-type` calls a binding with this value. -/
inductive Standing : Data → String → Prop where
  | unassigned : Standing .null "unassigned"
  | keyword (m) : Standing (.atom (.macro m)) "macro"
  | normal (v) : v ≠ .null → (∀ m, v ≠ .atom (.macro m)) → Standing v "normal"

/-- `t` is `s` with `x` bound to `v` in environment `i`, and nothing else changed. -/
structure Bound (s t : Store) (i : Nat) (x : String) (v : Data) : Prop where
  value : t.localB i x = some ⟨v, false⟩
  others : ∀ e y, (e, y) ≠ (i, x) → t.localB e y = s.localB e y
  envs : t.envs.length = s.envs.length ∧
    ∀ e, t.parentOf e = s.parentOf e ∧ t.frameOf e = s.frameOf e ∧ t.restrictedEnv e = s.restrictedEnv e
  rest : t.fns = s.fns ∧ t.macs = s.macs ∧ t.frames = s.frames ∧ t.gens = s.gens ∧ t.tops = s.tops ∧ t.out = s.out ∧
    t.stdout = s.stdout ∧ t.words = s.words

/-- `t` is `s` with environment `i` restricted, and nothing else changed. -/
structure Restricted (s t : Store) (i : Nat) : Prop where
  mark : t.restrictedEnv i = true
  others : ∀ e, e ≠ i → t.restrictedEnv e = s.restrictedEnv e
  envs : t.envs.length = s.envs.length ∧ ∀ e, t.parentOf e = s.parentOf e ∧ t.frameOf e = s.frameOf e ∧ ∀ x, t.localB e x = s.localB e x
  rest : t.fns = s.fns ∧ t.macs = s.macs ∧ t.frames = s.frames ∧ t.gens = s.gens ∧ t.tops = s.tops ∧ t.out = s.out ∧
    t.stdout = s.stdout ∧ t.words = s.words

/-- The text of a symbol or string. -/
inductive Names : Data → String → Prop where
  | sym (x) : Names (.sym x) x
  | str (x) : Names (.str x) x

/-- An entry of `environment-bindings`: the name, and the value unless it is nil. -/
inductive Entry : Data → String → Data → Prop where
  | unset {d x v} : Lst v [] → Lst d [.sym x] → Entry d x v
  | set {d x v} : ¬ Lst v [] → Lst d [.sym x, v] → Entry d x v

/-- `Environs s e x vs P`: a call of `x` with argument values `vs` from environment `e` in state `s` ends with an outcome
and a state in `P`. -/
inductive Environs (s : Store) (e : Nat) : String → List Data → (Out Data → Store → Prop) → Prop where
  | isEnv (v) : Environs s e "environment?" [v] (Asks s (Tells (∃ i, v = E i)))
  -- the chain of environments
  | hasParent (i) : Environs s e "environment-has-parent?" [E i] (Asks s (Tells (∃ p, s.parentOf i = some p)))
  | parent {i p} : s.restrictedEnv e = false → s.parentOf i = some p → Environs s e "environment-parent" [E i] (Asks s (Gives (E p)))
  | noParent {i} : s.restrictedEnv e = false → s.parentOf i = none → Environs s e "environment-parent" [E i] (Asks s (Gives .null))
  | global : s.restrictedEnv e = false → Environs s e "system-global-environment" [] (Asks s (Gives (E 0)))
  | here : e = 0 ∨ s.parentOf e = some 0 → Environs s e "the-environment" [] (Asks s (Gives (E e)))
  | hereInner : e ≠ 0 → s.parentOf e ≠ some 0 → Environs s e "the-environment" [] (Asks s Objects)
  | procedure {i fr} : s.fns[i]? = some fr → Environs s e "procedure-environment" [.atom (.func i)] (Asks s (Gives (E fr.env)))
  -- what an environment holds itself
  | names (i) : Environs s e "environment-bound-names" [E i] (Asks s fun r => ∃ l, ∃ xs : List String, r = .ok l ∧ Lst l (xs.map Data.sym) ∧ xs.Nodup ∧
      ∀ x, x ∈ xs ↔ ∃ b, s.localB i x = some b)
  | macroNames (i) : Environs s e "environment-macro-names" [E i] (Asks s fun r => ∃ l, ∃ xs : List String, r = .ok l ∧ Lst l (xs.map Data.sym) ∧ xs.Nodup ∧
      ∀ x, x ∈ xs ↔ ∃ b m, s.localB i x = some b ∧ b.val = .atom (.macro m))
  | bindings (i) : Environs s e "environment-bindings" [E i] (Asks s fun r => ∃ l ds, r = .ok l ∧ Lst l ds ∧
      ∃ ps : List (String × Data), (ps.map (·.1)).Nodup ∧ (∀ x v, (x, v) ∈ ps ↔ ∃ b, s.localB i x = some b ∧ b.val = v) ∧
        ds.length = ps.length ∧ ∀ (k : Nat) d x v, ds[k]? = some d → ps[k]? = some (x, v) → Entry d x v)
  -- what can be seen from an environment
  | bound (i x) : Environs s e "environment-bound?" [E i, .sym x] (Asks s (Tells (¬ Unseen s i x)))
  | assignable (i x) : Environs s e "environment-assignable?" [E i, .sym x] (Asks s (Tells (¬ Unseen s i x)))
  | sort {i x f b k} : Visible s i x f b → Standing b.val k →
      Environs s e "environment-reference-type" [E i, .sym x] (Asks s (Gives (.sym k)))
  | sortUnseen {i x} : Unseen s i x → Environs s e "environment-reference-type" [E i, .sym x] (Asks s (Gives (.sym "unbound")))
  | assigned {i x f b k} : Visible s i x f b → Standing b.val k → k ≠ "macro" →
      Environs s e "environment-assigned?" [E i, .sym x] (Asks s (Tells (k = "normal")))
  | assignedBad {i x} : Unseen s i x ∨ (∃ f b, Visible s i x f b ∧ Standing b.val "macro") →
      Environs s e "environment-assigned?" [E i, .sym x] (Asks s Objects)
  | lookup {i x f b} : Visible s i x f b → Standing b.val "normal" → Environs s e "environment-lookup" [E i, .sym x] (Asks s (Gives b.val))
  | lookupBad {i x} : Unseen s i x ∨ (∃ f b, Visible s i x f b ∧ ¬ Standing b.val "normal") →
      Environs s e "environment-lookup" [E i, .sym x] (Asks s Objects)
  | lookupMacro {i x f b m} : Visible s i x f b → b.val = .atom (.macro m) →
      Environs s e "environment-lookup-macro" [E i, .sym x] (Asks s (Gives (.atom (.macro m))))
  | lookupNoMacro {i x} : (∀ f b m, Visible s i x f b → b.val ≠ .atom (.macro m)) →
      Environs s e "environment-lookup-macro" [E i, .sym x] (Asks s (Gives (.bool false)))
  -- changing bindings
  | assign {i x f b} (v) : Visible s i x f b →
      Environs s e "environment-assign!" [E i, .sym x, v] fun r t => r = .ok v ∧ OnlyBinding s t f x v
  | assignUnseen {i x} (v) : Unseen s i x → Environs s e "environment-assign!" [E i, .sym x, v] (Asks s (Gives .null))
  | definable (i x) : Environs s e "environment-definable?" [E i, .sym x] (Asks s (Gives (.bool true)))
  | define {i x} (v) : i < s.envs.length → (∀ b, s.localB i x = some b → b.prot = false) →
      Environs s e "environment-define" [E i, .sym x, v] fun r t => r = .ok v ∧ Bound s t i x v
  | defineBad {i x b} (v) : s.localB i x = some b → b.prot = true → Environs s e "environment-define" [E i, .sym x, v] (Asks s Objects)
  | restrict : e < s.envs.length → Environs s e "restrict-environment" [] fun r t => r = .ok (.str "OK") ∧ Restricted s t e
  -- top-level environments
  | make {pr} (name) : s.restrictedEnv e = false → s.envs[0]? = some pr →
      Environs s e "make-top-level-environment" [.str name] fun r t => r = .ok (E s.envs.length) ∧ t = pushEnv s 0 pr none name []
  | makeNames {pr l} (name) (xs : List String) : s.restrictedEnv e = false → s.envs[0]? = some pr → ListOf l (xs.map .sym) →
      Environs s e "make-top-level-environment" [.str name, l] fun r t =>
        r = .ok (E s.envs.length) ∧ t = pushEnv s 0 pr none name (xs.map fun x => (x, .null))
  | makeBindings {pr l m} (name) (xs : List String) (vs : List Data) : s.restrictedEnv e = false → s.envs[0]? = some pr →
      ListOf l (xs.map .sym) → ListOf m vs → xs.length = vs.length →
      Environs s e "make-top-level-environment" [.str name, l, m] fun r t =>
        r = .ok (E s.envs.length) ∧ t = pushEnv s 0 pr none name (xs.zip vs)
  | makeAnon {pr l m} (xs : List String) (vs : List Data) : s.restrictedEnv e = false → s.envs[0]? = some pr →
      ListOf l (xs.map .sym) → ListOf m vs → xs.length = vs.length →
      Environs s e "make-top-level-environment" [l, m] fun r t =>
        r = .ok (E s.envs.length) ∧ t = pushEnv s 0 pr none "anonymous top level" (xs.zip vs)
  | makeAnonNames {pr l} (xs : List String) : s.restrictedEnv e = false → s.envs[0]? = some pr → ListOf l (xs.map .sym) →
      Environs s e "make-top-level-environment" [l] fun r t =>
        r = .ok (E s.envs.length) ∧ t = pushEnv s 0 pr none "anonymous top level" (xs.map fun x => (x, .null))
  -- the environment is made, and entered among the top-level ones, before the lists are compared
  | makeUneven {pr l m} (name) (xs : List String) (vs : List Data) : s.restrictedEnv e = false → s.envs[0]? = some pr →
      ListOf l (xs.map .sym) → ListOf m vs → xs.length ≠ vs.length →
      Environs s e "make-top-level-environment" [.str name, l, m] fun r t => Objects r ∧ t = pushEnv s 0 pr none name []
  | find {v x i} : s.restrictedEnv e = false → Names v x → alGet s.tops x = some i →
      Environs s e "find-top-level-environment" [v] (Asks s (Gives (E i)))
  | findNone {v x} : s.restrictedEnv e = false → Names v x → alGet s.tops x = none →
      Environs s e "find-top-level-environment" [v] (Asks s (Gives .null))
  -- misuse
  | notEnv1 {x v} : (∀ i, v ≠ E i) → x ∈ ["environment-has-parent?", "environment-bound-names", "environment-macro-names", "environment-bindings"] →
      Environs s e x [v] (Asks s Objects)
  | notEnv2 {x v w} : ((∀ i, v ≠ E i) ∨ ∀ y, w ≠ .sym y) → x ∈ ["environment-reference-type", "environment-bound?", "environment-assigned?",
      "environment-lookup", "environment-lookup-macro", "environment-assignable?", "environment-definable?"] → Environs s e x [v, w] (Asks s Objects)
  | notEnv3 {x v w z} : ((∀ i, v ≠ E i) ∨ ∀ y, w ≠ .sym y) → x ∈ ["environment-assign!", "environment-define"] →
      Environs s e x [v, w, z] (Asks s Objects)
  | notProcedure {v} : (∀ i, v ≠ .atom (.func i)) → Environs s e "procedure-environment" [v] (Asks s Objects)

/-- No environment holds a name twice. -/
def Tidy (s : Store) : Prop := ∀ (e : Nat) (r : EnvRec), s.envs[e]? = some r → (r.binds.map Prod.fst).Nodup

end Golisp.Spec
