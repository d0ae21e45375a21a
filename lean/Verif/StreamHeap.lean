import Verif.StreamLemmas
/- Memories whose promises are typed by the streams they stand for (C93). -/
namespace Golisp.Streams
open Golisp Data Spec Samples Imp Ev

variable {N : String → Prop} {m m' m₁ m₂ m₃ : Mem} {f k K : Nat} {u v w : Val} {σ τ : Elems}

/-- Which promises stand for which streams. -/
abbrev Types := Nat → Option Elems

variable {S S' S₁ S₂ : Types}

/-- The value is a stream with these elements. -/
def Str (S : Types) (v : Val) (σ : Elems) : Prop :=
  (σ 0 = none ∧ v = .nil) ∨ ∃ a k, σ 0 = some a ∧ v = .pair (.int a) (promise k) ∧ S k = some σ.tail

/-- Seen from frame `f`, past no promise, the variable has the value. -/
inductive Var (m : Mem) : Nat → String → Val → Prop where
  | here {f F x v} : m[f]? = some F → F.vars.lookup "already-run?" = none → F.vars.lookup x = some v → Var m f x v
  | up {f F p x v} : m[f]? = some F → F.vars.lookup "already-run?" = none → F.vars.lookup x = none → F.parent = some p → Var m p x v → Var m f x v

abbrev Name (x : String) : Prop := x ≠ "self" ∧ isNaked (.sym x) = false

/-- Expressions for numbers. -/
inductive Num (m : Mem) (S : Types) (f : Nat) : Data → BitVec 64 → Prop where
  | lit (i : BitVec 64) : Num m S f (n i) i
  | var {x i} : Var m f x (.int i) → Name x → Num m S f (y x) i
  | car {x v σ i} : Var m f x v → Name x → Str S v σ → σ 0 = some i → Num m S f (l [y "stream-car", y x]) i
  | add {a b i j} : Num m S f a i → Num m S f b j → Num m S f (l [y "+", a, b]) (i + j)
  | mul {a b i j} : Num m S f a i → Num m S f b j → Num m S f (l [y "*", a, b]) (i * j)

/-- Expressions for streams that force only promises before `K` now, and only those that are there later. -/
inductive Den (m : Mem) (S : Types) (f : Nat) : Nat → Data → Elems → Prop where
  | var {K x v σ} : Var m f x v → Name x → Str S v σ → Den m S f K (y x) σ
  | cdr {K x a k σ} : Var m f x (.pair a (promise k)) → Name x → k < K → S k = some σ → Den m S f K (l [y "stream-cdr", y x]) σ
  | cons {K K' a i e σ} : Num m S f a i → K' ≤ m.length → Den m S f K' e σ → Den m S f K (l [y "stream-cons", a, e]) (σ.cons i)
  | add {K d e σ τ} : Den m S f K d σ → Den m S f K e τ → Den m S f K (l [y "add-streams", d, e]) (σ.add τ)
  | scale {K e a c σ} : Den m S f K e σ → (∀ i, σ i ≠ none) → Num m S f a c → Den m S f K (l [y "scale-stream", e, a]) (σ.scale c)
  | sums {K e σ} : Den m S f K e σ → σ 0 ≠ none → Den m S f K (l [y "partial-sums", e]) σ.sums
  | interval {K a b} {lo hi : BitVec 64} : Num m S f a lo → Num m S f b hi → lo.toInt.natAbs ≤ 2 ^ 24 → hi.toInt.natAbs < 2 ^ 24 →
      Den m S f K (l [y "stream-enumerate-interval", a, b]) (.upto lo.toInt hi.toInt)

def Le (S S' : Types) : Prop := ∀ k σ, S k = some σ → S' k = some σ
theorem Le.refl (S : Types) : Le S S := fun _ _ h => h
theorem Le.trans (h : Le S S₁) (h' : Le S₁ S₂) : Le S S₂ := fun k σ hk => h' k σ (h k σ hk)

theorem Str.le (hl : Le S S') (h : Str S v σ) : Str S' v σ := by
  rcases h with h | ⟨a, k, h1, h2, h3⟩
  · exact .inl h
  · exact .inr ⟨a, k, h1, h2, hl _ _ h3⟩

theorem Var.keeps {x : String} (hk : Keeps m m') (h : Var m f x v) : Var m' f x v := by
  induction h with
  | here h1 h2 h3 => exact .here (hk.frames _ _ h1 h2) h2 h3
  | up h1 h2 h3 h4 _ ih => exact .up (hk.frames _ _ h1 h2) h2 h3 h4 ih

theorem Var.sees {x : String} (h : Var m f x v) : ∃ i, Sees m f x i v := by
  induction h with
  | here h1 _ h3 => exact ⟨_, .here h1 h3⟩
  | up h1 _ h3 h4 _ ih => obtain ⟨i, h⟩ := ih; exact ⟨i, .up h1 h3 h4 h⟩

theorem Num.lift {a : Data} {i : BitVec 64} {f' : Nat} (hv : ∀ x v, Var m f x v → Var m' f' x v) (hl : Le S S') (h : Num m S f a i) : Num m' S' f' a i := by
  induction h with
  | lit i => exact .lit i
  | var h1 h2 => exact .var (hv _ _ h1) h2
  | car h1 h2 h3 h4 => exact .car (hv _ _ h1) h2 (h3.le hl) h4
  | add _ _ a b => exact .add a b
  | mul _ _ a b => exact .mul a b

theorem Den.lift {e : Data} {f' : Nat} (hv : ∀ x v, Var m f x v → Var m' f' x v) (hl : Le S S') (hm : m.length ≤ m'.length) (h : Den m S f K e σ) : ∀ {K' : Nat}, K ≤ K' → Den m' S' f' K' e σ := by
  induction h with
  | var h1 h2 h3 => exact fun _ => .var (hv _ _ h1) h2 (h3.le hl)
  | cdr h1 h2 h3 h4 => exact fun hK => .cdr (hv _ _ h1) h2 (by omega) (hl _ _ h4)
  | cons h1 h2 _ ih => exact fun _ => .cons (h1.lift hv hl) (Nat.le_trans h2 hm) (ih (Nat.le_refl _))
  | add _ _ a b => exact fun hK => .add (a hK) (b hK)
  | scale _ h2 h3 ih => exact fun hK => .scale (ih hK) h2 (h3.lift hv hl)
  | sums _ h2 ih => exact fun hK => .sums (ih hK) h2
  | interval h1 h2 h3 h4 => exact fun _ => .interval (h1.lift hv hl) (h2.lift hv hl) h3 h4

theorem Num.keeps {a : Data} {i : BitVec 64} (hk : Keeps m m') (hl : Le S S') (h : Num m S f a i) : Num m' S' f a i := h.lift (fun _ _ h => h.keeps hk) hl
theorem Den.keeps {e : Data} {K' : Nat} (hk : Keeps m m') (hl : Le S S') (hK : K ≤ K') (h : Den m S f K e σ) : Den m' S' f K' e σ := h.lift (fun _ _ h => h.keeps hk) hl hk.length hK
theorem Var.child {x : String} (h : Var m f x v) : Var (m.push [] f) m.length x v := .up (push_new m [] f) rfl rfl rfl (h.keeps (keeps_push m [] f))

theorem Num.plain {a : Data} {i : BitVec 64} (h : Num m S f a i) : isFunc a = false ∧ a ≠ .null := by cases h <;> exact ⟨rfl, nofun⟩
theorem Den.plain {e : Data} (h : Den m S f K e σ) : isFunc e = false ∧ e ≠ .null := by cases h <;> exact ⟨rfl, nofun⟩

/-! ### The invariant -/

/-- The procedure, when called, gives a stream with these elements. -/
def Thunk (m : Mem) (S : Types) (k : Nat) (u : Val) (σ : Elems) : Prop := ∃ e f, u = .closure [] [e] f ∧ Scope m f ∧ Den m S f k e σ

/-- Every promise either holds the stream it stands for or can still compute it. -/
structure Inv (m : Mem) (S : Types) : Prop where
  lib : ∃ F, Lib m F ∧ F.vars.lookup "partial-sums" = some (.closure ["s"] [partials] 0)
  proms : ∀ k σ, S k = some σ → ∃ u b r F j, Prom m k u b r F j ∧ (b = true → Str S r σ) ∧ (b = false → Thunk m S k u σ)

theorem Thunk.keeps (hk : Keeps m m') (hl : Le S S') (h : Thunk m S k u σ) : Thunk m' S' k u σ := by
  obtain ⟨e, f, h1, h2, h3⟩ := h
  exact ⟨e, f, h1, h2.keeps hk, h3.keeps hk hl (Nat.le_refl _)⟩

theorem Inv.scope (h : Inv m S) : Scope m 0 := by obtain ⟨F, hF, _⟩ := h.lib; exact .top hF

theorem Inv.lt (h : Inv m S) (hk : S k = some σ) : k < m.length := by
  obtain ⟨u, b, r, F, j, hp, _⟩ := h.proms k σ hk
  exact (List.getElem?_eq_some_iff.mp hp.frame).1

theorem keeps_prefix (h : m <+: m') : Keeps m m' := by
  obtain ⟨t, rfl⟩ := h
  exact ⟨by simp, fun _ _ h _ => getElem?_append_of_some h _⟩

theorem prefix_push (m : Mem) (vars : List (String × Val)) (p : Nat) : m <+: m.push vars p := List.prefix_append _ _

theorem Inv.grow (h : Inv m S) (hp : m <+: m') : Inv m' S := by
  have hk := keeps_prefix hp
  obtain ⟨t, rfl⟩ := hp
  obtain ⟨F, hF, hs⟩ := h.lib
  refine ⟨⟨F, hF.keeps hk, hs⟩, fun k σ hσ => ?_⟩
  obtain ⟨u, b, r, F, j, h1, h2, h3⟩ := h.proms k σ hσ
  exact ⟨u, b, r, F, j, h1.keeps hk (getElem?_append_of_some h1.frame _), h2, fun hb => (h3 hb).keeps hk (Le.refl _)⟩

/-- A new promise. -/
theorem Inv.delay (h : Inv m S) {e : Data} (hs : Scope m f) (hd : Den m S f m.length e σ) :
    ∃ S', Inv ((m.push [("proc", .closure [] [e] f)] 0).push [("already-run?", .bool false), ("result", .bool false)] m.length) S' ∧ Le S S' ∧
      S' (m.push [("proc", .closure [] [e] f)] 0).length = some σ := by
  have hp : m <+: (m.push [("proc", .closure [] [e] f)] 0).push [("already-run?", .bool false), ("result", .bool false)] m.length :=
    (prefix_push m _ _).trans (prefix_push _ _ _)
  have hg := h.grow hp
  have hk := keeps_prefix hp
  have hlen : (m.push [("proc", .closure [] [e] f)] 0).length = m.length + 1 := by simp [Mem.push]
  have hl : Le S fun i => if i = m.length + 1 then some σ else S i := by
    intro k τ hτ
    have := h.lt hτ
    have hne : k ≠ m.length + 1 := by omega
    simp only [hne, if_false]; exact hτ
  refine ⟨fun i => if i = m.length + 1 then some σ else S i, ⟨hg.lib, fun k τ hτ => ?_⟩, hl, by simp [hlen]⟩
  by_cases hkk : k = m.length + 1
  · subst hkk
    simp only [if_true] at hτ
    cases hτ
    refine ⟨_, false, _, _, _, hlen ▸ delay_prom m (.closure [] [e] f), nofun, fun _ => ⟨e, f, rfl, hs.keeps hk, hd.keeps hk hl (by omega)⟩⟩
  · simp only [hkk, if_false] at hτ
    obtain ⟨u, b, r, F, j, h1, h2, h3⟩ := hg.proms k τ hτ
    exact ⟨u, b, r, F, j, h1, fun hb => (h2 hb).le hl, fun hb => (h3 hb).keeps (Keeps.refl _) hl⟩

/-- A promise that has run. -/
theorem Inv.finish (h : Inv m S) (hσ : S k = some σ) (hw : Str S w σ) : Inv ((m.put k "result" w).put k "already-run?" (.bool true)) S := by
  obtain ⟨u, b, r, F, j, h1, h2, h3⟩ := h.proms k σ hσ
  have hk := keeps_finish h1 w
  obtain ⟨G, hG, hs⟩ := h.lib
  refine ⟨⟨G, hG.keeps hk, hs⟩, fun i τ hτ => ?_⟩
  by_cases hi : i = k
  · subst hi
    rw [hσ] at hτ; cases hτ
    exact ⟨_, true, _, _, _, h1.finish w, fun _ => hw, nofun⟩
  · obtain ⟨u, b, r, F, j, h1, h2, h3⟩ := h.proms i τ hτ
    exact ⟨u, b, r, F, j, h1.keeps hk (by rw [finish_other hi]; exact h1.frame), h2, fun hb => (h3 hb).keeps hk (Le.refl _)⟩

/-! ### Evaluation -/

theorem num_ok {a : Data} {i : BitVec 64} (h : Num m S f a i) : ∀ m₁, Keeps m m₁ → Scope m₁ f → ∃ m₂, Gives N m₁ f a (.int i) m₂ ∧ m₁ <+: m₂ := by
  induction h with
  | lit i => intro m₁ _ _; exact ⟨m₁, g_int i, List.prefix_refl _⟩
  | var h1 h2 =>
    intro m₁ hk _
    obtain ⟨h, hs⟩ := (h1.keeps hk).sees
    exact ⟨m₁, .var hs h2.1 h2.2, List.prefix_refl _⟩
  | car h1 h2 h3 h4 =>
    intro m₁ hk hs
    obtain ⟨h, hv⟩ := (h1.keeps hk).sees
    rcases h3 with ⟨h3, _⟩ | ⟨a, k, h5, rfl, _⟩
    · rw [h3] at h4; cases h4
    · rw [h4] at h5; cases h5
      exact ⟨_, carq hs hv h2.1 h2.2, prefix_push _ _ _⟩
  | add _ _ iha ihb =>
    intro m₁ hk hs
    obtain ⟨m₂, ha, pa⟩ := iha m₁ hk hs
    obtain ⟨m₃, hb, pb⟩ := ihb m₂ (hk.trans (keeps_prefix pa)) (hs.keeps (keeps_prefix pa))
    exact ⟨m₃, g_prim (hs.word (by simp [purePrims])) (by simp [purePrims]) (g_all2 ha hb) .add, pa.trans pb⟩
  | mul _ _ iha ihb =>
    intro m₁ hk hs
    obtain ⟨m₂, ha, pa⟩ := iha m₁ hk hs
    obtain ⟨m₃, hb, pb⟩ := ihb m₂ (hk.trans (keeps_prefix pa)) (hs.keeps (keeps_prefix pa))
    exact ⟨m₃, g_prim (hs.word (by simp [purePrims])) (by simp [purePrims]) (g_all2 ha hb) .mul, pa.trans pb⟩

/-- Evaluation in frame `f` gives a stream with the elements. -/
def Done (N : String → Prop) (m : Mem) (S : Types) (f : Nat) (e : Data) (σ : Elems) : Prop :=
  ∃ w m' S', Gives N m f e w m' ∧ Keeps m m' ∧ Le S S' ∧ Inv m' S' ∧ Str S' w σ

/-- A call of a library procedure whose frame is the newest gives a stream with the elements. -/
def Called (N : String → Prop) (m : Mem) (S : Types) (vars : List (String × Val)) (b : Data) (σ : Elems) : Prop :=
  ∃ w m' S', Body N (m.push vars 0) m.length [b] .nil w m' ∧ Keeps m m' ∧ Le S S' ∧ Inv m' S' ∧ Str S' w σ

theorem Done.called {vars : List (String × Val)} {b : Data} (h : Done N (m.push vars 0) S m.length b σ) : Called N m S vars b σ := by
  obtain ⟨w, m', S', h1, h2, h3⟩ := h
  exact ⟨w, m', S', .next h1 .done, (keeps_push _ _ _).trans h2, h3⟩

theorem cons_ok {a e : Data} {i : BitVec 64} (hi : Inv m S) (hs : Scope m f) (ha : Num m S f a i) (hd : Den m S f K e σ) (hK : K ≤ m.length) :
    Done N m S f (l [y "stream-cons", a, e]) (σ.cons i) := by
  obtain ⟨m₁, h1, p1⟩ := num_ok (N := N) ha m (Keeps.refl m) hs
  have k1 := keeps_prefix p1
  obtain ⟨S', i', l', t'⟩ := (hi.grow p1).delay (hs.keeps k1) (hd.keeps k1 (Le.refl _) (Nat.le_trans hK k1.length))
  exact ⟨_, _, S', cons_gives hs ha.plain.1 hd.plain.2 hd.plain.1 h1 k1, k1.trans ((keeps_push _ _ _).trans (keeps_push _ _ _)), l', i', .inr ⟨i, _, rfl, rfl, t'⟩⟩

/-- The newest frame, of a library procedure. -/
theorem var_new {x : String} {vars : List (String × Val)} (hp : vars.lookup "already-run?" = none) (hx : vars.lookup x = some v) : Var (m.push vars 0) m.length x v :=
  .here (push_new m vars 0) hp hx

theorem Elems.cons_tail {a : BitVec 64} (h : σ 0 = some a) : Elems.cons a σ.tail = σ := by
  funext i; cases i with
  | zero => exact h.symm
  | succ i => rfl

/-- `add-streams`. -/
theorem sum_ok (hi : Inv m S) (h1 : Str S v σ) (h2 : Str S w τ) : Called N m S [("s1", v), ("s2", w)] sum (σ.add τ) := by
  apply Done.called
  have hp := prefix_push m [("s1", v), ("s2", w)] 0
  have hi0 := hi.grow hp
  have hs := hi.scope.new (vars := [("s1", v), ("s2", w)]) (ns := ["s1", "s2"]) rfl (by decide)
  have v1 : Var (m.push [("s1", v), ("s2", w)] 0) m.length "s1" v := var_new rfl rfl
  have v2 : Var (m.push [("s1", v), ("s2", w)] 0) m.length "s2" w := var_new rfl rfl
  obtain ⟨x1, s1⟩ := v1.sees
  rcases h1 with ⟨h1, rfl⟩ | ⟨a, i, h1, rfl, t1⟩
  · refine ⟨.nil, _, S, g_ifTrue (hs.word (by simp [forms])) nofun (.or (hs.word (by simp [forms])) (lst_l (by simp)) (by simp)
      (.decided (nullq_true hs s1 (by decide) rfl) (by simp [holds_bool]))) (by simp [holds_bool]) (.var ((hs.push _ _).look rfl) (by decide) rfl),
      keeps_push _ _ _, Le.refl _, hi0.grow (prefix_push _ _ _), .inl ⟨?_, rfl⟩⟩
    simp [Elems.add, h1]
  obtain ⟨x2, s2⟩ := (v2.keeps (keeps_push _ [("s", .pair (.int a) (promise i))] 0)).sees
  rcases h2 with ⟨h2, rfl⟩ | ⟨b, j, h2, rfl, t2⟩
  · refine ⟨.nil, _, S, g_ifTrue (hs.word (by simp [forms])) nofun (.or (hs.word (by simp [forms])) (lst_l (by simp)) (by simp)
      (.next (nullq_false hs s1 (by decide) rfl) (by simp [holds_bool]) (.decided (nullq_true (hs.push _ _) s2 (by decide) rfl) (by simp [holds_bool]))))
      (by simp [holds_bool]) (.var (((hs.push _ _).push _ _).look rfl) (by decide) rfl), (keeps_push _ _ _).trans (keeps_push _ _ _), Le.refl _,
      (hi0.grow (prefix_push _ _ _)).grow (prefix_push _ _ _), .inl ⟨?_, rfl⟩⟩
    simp [Elems.add, h1, h2]
  · have hk := (keeps_push (m.push [("s1", .pair (.int a) (promise i)), ("s2", .pair (.int b) (promise j))] 0) [("s", .pair (.int a) (promise i))] 0).trans
      (keeps_push _ [("s", .pair (.int b) (promise j))] 0)
    have hi2 := (hi0.grow (prefix_push _ [("s", .pair (.int a) (promise i))] 0)).grow (prefix_push _ [("s", .pair (.int b) (promise j))] 0)
    have u1 := v1.keeps hk
    have u2 := v2.keeps hk
    obtain ⟨r, m', S', g, k', l', i', st⟩ := cons_ok (N := N) (K := m.length) hi2 (hs.keeps hk)
      (.add (.car u1 ⟨by decide, rfl⟩ (.inr ⟨a, i, h1, rfl, t1⟩) h1) (.car u2 ⟨by decide, rfl⟩ (.inr ⟨b, j, h2, rfl, t2⟩) h2))
      (.add (.cdr u1 ⟨by decide, rfl⟩ (hi.lt t1) t1) (.cdr u2 ⟨by decide, rfl⟩ (hi.lt t2) t2)) (by simp [Mem.push])
    refine ⟨r, m', S', g_ifFalse (hs.word (by simp [forms])) nofun (.or (hs.word (by simp [forms])) (lst_l (by simp)) (by simp)
      (.next (nullq_false hs s1 (by decide) rfl) (by simp [holds_bool]) (.next (nullq_false (hs.push _ _) s2 (by decide) rfl) (by simp [holds_bool]) .done)))
      (by simp [holds_bool]) g, hk.trans k', l', i', ?_⟩
    have : Elems.cons (a + b) (σ.tail.add τ.tail) = σ.add τ := Elems.cons_tail (σ := σ.add τ) (by simp [Elems.add, h1, h2])
    exact this ▸ st

/-- `scale-stream`. -/
theorem scale_ok {c : BitVec 64} (hi : Inv m S) (h1 : Str S v σ) (hn : ∀ i, σ i ≠ none) : Called N m S [("s", v), ("factor", .int c)] scale (σ.scale c) := by
  apply Done.called
  have hi0 := hi.grow (prefix_push m [("s", v), ("factor", .int c)] 0)
  have hs := hi.scope.new (vars := [("s", v), ("factor", .int c)]) (ns := ["s", "factor"]) rfl (by decide)
  have v1 : Var (m.push [("s", v), ("factor", .int c)] 0) m.length "s" v := var_new rfl rfl
  have v2 : Var (m.push [("s", v), ("factor", .int c)] 0) m.length "factor" (.int c) := var_new rfl rfl
  rcases h1 with ⟨h1, _⟩ | ⟨a, i, h1, rfl, t1⟩
  · exact absurd h1 (hn 0)
  · have := cons_ok (N := N) (K := m.length) hi0 hs (.mul (.car v1 ⟨by decide, rfl⟩ (.inr ⟨a, i, h1, rfl, t1⟩) h1) (.var v2 ⟨by decide, rfl⟩))
      (.scale (.cdr v1 ⟨by decide, rfl⟩ (hi.lt t1) t1) (fun i => hn (i + 1)) (.var v2 ⟨by decide, rfl⟩)) (by simp [Mem.push])
    have he : Elems.cons (a * c) (σ.tail.scale c) = σ.scale c := Elems.cons_tail (σ := σ.scale c) (by simp [Elems.scale, h1])
    exact he ▸ this

/-- `partial-sums`. -/
theorem sums_ok (hi : Inv m S) (h1 : Str S v σ) (hn : σ 0 ≠ none) : Called N m S [("s", v)] partials σ.sums := by
  apply Done.called
  have hi0 := hi.grow (prefix_push m [("s", v)] 0)
  have hs := hi.scope.new (vars := [("s", v)]) (ns := ["s"]) rfl (by decide)
  have v1 : Var (m.push [("s", v)] 0) m.length "s" v := var_new rfl rfl
  rcases h1 with ⟨h1, _⟩ | ⟨a, i, h1, rfl, t1⟩
  · exact absurd h1 hn
  · have st : Str S (.pair (.int a) (promise i)) σ := .inr ⟨a, i, h1, rfl, t1⟩
    have := cons_ok (N := N) (K := m.length) hi0 hs (.car v1 ⟨by decide, rfl⟩ st h1)
      (.add (.sums (.var v1 ⟨by decide, rfl⟩ st) hn) (.cdr v1 ⟨by decide, rfl⟩ (hi.lt t1) t1)) (by simp [Mem.push])
    have he : Elems.cons a (σ.sums.add σ.tail) = σ.sums := by
      funext i; cases i with
      | zero => exact h1.symm
      | succ i => rfl
    exact he ▸ this

/-- `stream-enumerate-interval`. -/
theorem interval_ok {lo hi : BitVec 64} (hI : Inv m S) (h1 : lo.toInt.natAbs ≤ 2 ^ 24) (h2 : hi.toInt.natAbs < 2 ^ 24) :
    Called N m S [("low", .int lo), ("high", .int hi)] interval (.upto lo.toInt hi.toInt) := by
  apply Done.called
  have hi0 := hI.grow (prefix_push m [("low", .int lo), ("high", .int hi)] 0)
  have hs := hI.scope.new (vars := [("low", .int lo), ("high", .int hi)]) (ns := ["low", "high"]) rfl (by decide)
  have v1 : Var (m.push [("low", .int lo), ("high", .int hi)] 0) m.length "low" (.int lo) := var_new rfl rfl
  have v2 : Var (m.push [("low", .int lo), ("high", .int hi)] 0) m.length "high" (.int hi) := var_new rfl rfl
  obtain ⟨x1, s1⟩ := v1.sees
  obtain ⟨x2, s2⟩ := v2.sees
  have test : Gives N (m.push [("low", .int lo), ("high", .int hi)] 0) m.length (l [y ">", y "low", y "high"]) (.bool (decide (hi.toInt < lo.toInt))) _ :=
    g_prim (hs.word (by simp [purePrims])) (by simp [purePrims]) (g_all2 (.var s1 (by decide) rfl) (.var s2 (by decide) rfl)) (.greater h1 (Nat.le_of_lt h2))
  by_cases h : hi.toInt < lo.toInt
  · refine ⟨.nil, _, S, g_ifTrue (hs.word (by simp [forms])) nofun test (by simp [holds_bool, h]) (.var (hs.look rfl) (by decide) rfl), Keeps.refl _, Le.refl _, hi0, .inl ⟨?_, rfl⟩⟩
    have : ¬ lo.toInt ≤ hi.toInt := by omega
    simp [Elems.upto, this]
  · have hle : lo.toInt ≤ hi.toInt := by omega
    have hadd : (lo + 1).toInt = lo.toInt + 1 := by
      rw [BitVec.toInt_add]
      have : (1 : BitVec 64).toInt = 1 := rfl
      rw [this, Int.bmod_eq_of_le] <;> omega
    obtain ⟨r, m', S', g, k', l', i', st⟩ := cons_ok (N := N) (K := m.length) hi0 hs (.var v1 ⟨by decide, rfl⟩)
      (.interval (.add (.var v1 ⟨by decide, rfl⟩) (.lit 1)) (.var v2 ⟨by decide, rfl⟩) (by omega) h2) (by simp [Mem.push])
    refine ⟨r, m', S', g_ifFalse (hs.word (by simp [forms])) nofun test (by simp [holds_bool, h]) g, k', l', i', ?_⟩
    have he : Elems.cons lo (.upto (lo + 1).toInt hi.toInt) = .upto lo.toInt hi.toInt := by
      funext i; cases i with
      | zero => simp [Elems.cons, Elems.upto, hle]
      | succ i =>
        rw [hadd]
        simp only [Elems.cons, Elems.upto]
        have : lo.toInt + 1 + (i : Int) = lo.toInt + ((i + 1 : Nat) : Int) := by omega
        rw [this]
    exact he ▸ st

/-- Calling promise `k` gives the stream it stands for. -/
def Forces (N : String → Prop) (k : Nat) : Prop :=
  ∀ m S σ, Inv m S → S k = some σ → ∃ w m' S', Apply N m (promise k) [] w m' ∧ Keeps m m' ∧ Le S S' ∧ Inv m' S' ∧ Str S' w σ

theorem den_ok {e : Data} (hf : ∀ k < K, Forces N k) (h : Den m S f K e σ) :
    ∀ m₁ S₁, Keeps m m₁ → Le S S₁ → Inv m₁ S₁ → Scope m₁ f → Done N m₁ S₁ f e σ := by
  induction h with
  | var h1 h2 h3 =>
    intro m₁ S₁ hk hl hi hs
    obtain ⟨x, sx⟩ := (h1.keeps hk).sees
    exact ⟨_, m₁, S₁, .var sx h2.1 h2.2, Keeps.refl _, Le.refl _, hi, h3.le hl⟩
  | @cdr K x a k σ h1 h2 h3 h4 =>
    intro m₁ S₁ hk hl hi hs
    obtain ⟨x, sx⟩ := (h1.keeps hk).sees
    have hp := (prefix_push m₁ _ 0).trans (prefix_push (m₁.push [("s", .pair a (promise k))] 0) [("p", promise k)] 0)
    obtain ⟨w, m', S', g, k', r⟩ := hf _ h3 _ S₁ _ (hi.grow hp) (hl _ _ h4)
    exact ⟨w, m', S', cdrq hs sx h2.1 h2.2 g, (keeps_prefix hp).trans k', r⟩
  | cons h1 hK h2 _ =>
    intro m₁ S₁ hk hl hi hs
    exact cons_ok hi hs (h1.keeps hk hl) (h2.keeps hk hl (Nat.le_refl _)) (Nat.le_trans hK hk.length)
  | add _ _ ih1 ih2 =>
    intro m₁ S₁ hk hl hi hs
    obtain ⟨w1, m2, S2, g1, k1, l1, i1, st1⟩ := ih1 hf m₁ S₁ hk hl hi hs
    obtain ⟨w2, m3, S3, g2, k2, l2, i2, st2⟩ := ih2 hf m2 S2 (hk.trans k1) (hl.trans l1) i1 (hs.keeps k1)
    obtain ⟨w, m4, S4, g3, k3, l3, r⟩ := sum_ok (N := N) i2 (st1.le l2) st2
    exact ⟨w, m4, S4, g_call ⟨rfl, fun _ => rfl⟩ (by decide) (hs.look (x := "add-streams") rfl) (g_all2 g1 g2) rfl g3, (k1.trans k2).trans k3, (l1.trans l2).trans l3, r⟩
  | scale _ hn ha ih =>
    intro m₁ S₁ hk hl hi hs
    obtain ⟨w1, m2, S2, g1, k1, l1, i1, st1⟩ := ih hf m₁ S₁ hk hl hi hs
    obtain ⟨m3, g2, p2⟩ := num_ok (N := N) ha m2 (hk.trans k1) (hs.keeps k1)
    obtain ⟨w, m4, S4, g3, k3, l3, r⟩ := scale_ok (N := N) (i1.grow p2) st1 hn
    exact ⟨w, m4, S4, g_call ⟨rfl, fun _ => rfl⟩ (by decide) (hs.look (x := "scale-stream") rfl) (g_all2 g1 g2) rfl g3, (k1.trans (keeps_prefix p2)).trans k3, l1.trans l3, r⟩
  | sums _ hn ih =>
    intro m₁ S₁ hk hl hi hs
    obtain ⟨w1, m2, S2, g1, k1, l1, i1, st1⟩ := ih hf m₁ S₁ hk hl hi hs
    obtain ⟨w, m4, S4, g3, k3, l3, r⟩ := sums_ok (N := N) i1 st1 hn
    obtain ⟨F, hF, hv⟩ := hi.lib
    exact ⟨w, m4, S4, g_call ⟨rfl, fun _ => rfl⟩ (by decide) (hs.sums hF.top hv) (g_all1 g1) rfl g3, k1.trans k3, l1.trans l3, r⟩
  | interval ha hb h1 h2 =>
    intro m₁ S₁ hk hl hi hs
    obtain ⟨m2, g1, p1⟩ := num_ok (N := N) ha m₁ hk hs
    obtain ⟨m3, g2, p2⟩ := num_ok (N := N) hb m2 (hk.trans (keeps_prefix p1)) (hs.keeps (keeps_prefix p1))
    obtain ⟨w, m4, S4, g3, k3, l3, r⟩ := interval_ok (N := N) ((hi.grow p1).grow p2) h1 h2
    exact ⟨w, m4, S4, g_call ⟨rfl, fun _ => rfl⟩ (by decide) (hs.look (x := "stream-enumerate-interval") rfl) (g_all2 g1 g2) rfl g3,
      ((keeps_prefix p1).trans (keeps_prefix p2)).trans k3, l3, r⟩

/-- Every promise can be forced. -/
theorem force_ok (k : Nat) : Forces N k := by
  induction k using Nat.strongRecOn with
  | _ k ih =>
    intro m S σ hi hσ
    obtain ⟨F, hF, _⟩ := hi.lib
    obtain ⟨u, b, r, G, j, hp, ht, hf⟩ := hi.proms k σ hσ
    cases b with
    | true => exact ⟨r, _, S, memo_again hF hp, keeps_push _ _ _, Le.refl _, hi.grow (prefix_push _ _ _), ht rfl⟩
    | false =>
      obtain ⟨e, f, rfl, hs, hd⟩ := hf rfl
      have pp := (prefix_push m [] k).trans (prefix_push _ [] f)
      have kp := keeps_prefix pp
      have hsf : Scope ((m.push [] k).push [] f) (m.push [] k).length := (hs.push [] k).new (ns := []) rfl (by decide)
      have hd' := (hd.keeps (keeps_push m [] k) (Le.refl S) (Nat.le_refl k)).lift (fun _ _ h => Var.child h) (Le.refl S) (by simp [Mem.push]) (Nat.le_refl k)
      obtain ⟨w, m', S', g, k', l', i', st⟩ := den_ok ih hd' _ S (Keeps.refl _) (Le.refl _) (hi.grow pp) hsf
      obtain ⟨F', hF', _⟩ := i'.lib
      obtain ⟨u', b', r', G', j', hp', _⟩ := i'.proms k σ (l' _ _ hσ)
      refine ⟨w, _, S', memo_first hF hp (.closure rfl (.next g .done)) hF' ?_ hp', (kp.trans k').trans (keeps_finish hp' w), l', i'.finish (l' _ _ hσ) st, st⟩
      exact k'.frames _ _ (push_old (push_new m [] k) _ _) rfl

/-- What `stream-ref` gives. -/
def Elems.at (σ : Elems) : Nat → Val
  | 0 => match σ 0 with | some a => .int a | none => .nil
  | i + 1 => match σ 0 with | some _ => Elems.at σ.tail i | none => .nil

private theorem refs {i : Nat} (ih : i ≠ 0 → ∀ {m : Mem} {S : Types} {v : Val} {σ : Elems}, i - 1 < 2 ^ 64 → Inv m S → Str S v σ →
    ∃ m' S', Body N (m.push [("s", v), ("n", .int (.ofNat 64 (i - 1)))] 0) m.length [ref] .nil (σ.at (i - 1)) m' ∧ Keeps m m' ∧ Le S S' ∧ Inv m' S')
    {m : Mem} {S : Types} {v : Val} {σ : Elems} (hlt : i < 2 ^ 64) (hi : Inv m S) (hv : Str S v σ) :
    ∃ m' S', Body N (m.push [("s", v), ("n", .int (.ofNat 64 i))] 0) m.length [ref] .nil (σ.at i) m' ∧ Keeps m m' ∧ Le S S' ∧ Inv m' S' := by
  have hi0 := hi.grow (prefix_push m [("s", v), ("n", .int (.ofNat 64 i))] 0)
  have hs := hi.scope.new (vars := [("s", v), ("n", .int (.ofNat 64 i))]) (ns := ["s", "n"]) rfl (by decide)
  have v1 : Var (m.push [("s", v), ("n", .int (.ofNat 64 i))] 0) m.length "s" v := var_new rfl rfl
  have v2 : Var (m.push [("s", v), ("n", .int (.ofNat 64 i))] 0) m.length "n" (.int (.ofNat 64 i)) := var_new rfl rfl
  have cls : Clauses [l [l [y "stream-null?", y "s"], y "the-empty-stream"], l [l [y "eq?", y "n", n 0], l [y "stream-car", y "s"]],
      l [y "else", l [y "stream-ref", l [y "stream-cdr", y "s"], l [y "-", y "n", n 1]]]] := by
    intro cl hcl
    simp only [List.mem_cons, List.not_mem_nil, or_false] at hcl
    rcases hcl with rfl | rfl | rfl <;> exact ⟨_, _, _, rfl, lst_l (by simp)⟩
  obtain ⟨x1, s1⟩ := v1.sees
  rcases hv with ⟨h0, rfl⟩ | ⟨a, k, h0, rfl, hk⟩
  · have : σ.at i = .nil := by cases i <;> simp [Elems.at, h0]
    rw [this]
    exact ⟨_, S, .next (.cond (hs.word (by simp [forms])) (lst_l (by simp)) cls (.hit nofun (nullq_true hs s1 (by decide) rfl) (by simp [holds_bool]) (lst_l (by simp))
      (.next (.var ((hs.push _ _).look rfl) (by decide) rfl) .done))) .done, (keeps_push _ _ _).trans (keeps_push _ _ _), Le.refl _, hi0.grow (prefix_push _ _ _)⟩
  · have kq := keeps_push (m.push [("s", .pair (.int a) (promise k)), ("n", .int (.ofNat 64 i))] 0) [("s", .pair (.int a) (promise k))] 0
    have hi1 := hi0.grow (prefix_push _ [("s", .pair (.int a) (promise k))] 0)
    have hs1 := hs.keeps kq
    obtain ⟨x2, s2⟩ := (v2.keeps kq).sees
    obtain ⟨x3, s3⟩ := (v1.keeps kq).sees
    have test := g_prim (N := N) (x := "eq?") (hs1.word (by simp [purePrims])) (by simp [purePrims]) (g_all2 (.var s2 (by decide) rfl) (g_int 0))
      (.same (a := .int (.ofNat 64 i)) (b := .int 0) (.inr (.inl rfl)) trivial trivial nofun)
    by_cases h : i = 0
    · subst h
      have : σ.at 0 = .int a := by simp [Elems.at, h0]
      rw [this]
      exact ⟨_, S, .next (.cond (hs.word (by simp [forms])) (lst_l (by simp)) cls (.miss nofun (nullq_false hs s1 (by decide) rfl) (by simp [holds_bool])
        (.hit nofun test (by simp [holds_bool]) (lst_l (by simp)) (.next (carq hs1 s3 (by decide) rfl) .done)))) .done,
        (keeps_push _ _ _).trans (kq.trans (keeps_push _ _ _)), Le.refl _, hi1.grow (prefix_push _ _ _)⟩
    · have hne : ¬ (Atom.int (BitVec.ofNat 64 i) : Atom) = .int 0 := by
        intro he
        injection he with he
        have := congrArg BitVec.toNat he
        simp only [BitVec.toNat_ofNat] at this
        rw [Nat.mod_eq_of_lt hlt] at this
        exact h this
      have ht : σ.at i = σ.tail.at (i - 1) := by
        obtain ⟨i, rfl⟩ := Nat.exists_eq_succ_of_ne_zero h
        simp [Elems.at, h0]
      have pq := (prefix_push _ [("s", .pair (.int a) (promise k))] 0).trans (prefix_push ((((m.push [("s", .pair (.int a) (promise k)),
        ("n", .int (.ofNat 64 i))] 0).push [("s", .pair (.int a) (promise k))] 0).push [("s", .pair (.int a) (promise k))] 0)) [("p", promise k)] 0)
      obtain ⟨w, m2, S2, g, k2, l2, i2, st⟩ := force_ok (N := N) k _ S _ (hi1.grow pq) hk
      have kk := (keeps_prefix pq).trans k2
      have hs2 := hs1.keeps kk
      obtain ⟨x4, s4⟩ := ((v2.keeps kq).keeps kk).sees
      have hsub : BitVec.ofNat 64 i - 1 = BitVec.ofNat 64 (i - 1) := by
        obtain ⟨i, rfl⟩ := Nat.exists_eq_succ_of_ne_zero h
        rw [Nat.succ_eq_add_one, BitVec.ofNat_add, Nat.add_sub_cancel]; exact BitVec.add_sub_cancel _ _
      obtain ⟨m3, S3, g3, k3, l3, i3⟩ := ih h (by omega) i2 st
      rw [ht]
      exact ⟨m3, S3, .next (.cond (hs.word (by simp [forms])) (lst_l (by simp)) cls (.miss nofun (nullq_false hs s1 (by decide) rfl) (by simp [holds_bool])
        (.miss nofun test (by simpa [holds_bool] using hne) (.otherwise (lst_l (by simp)) (.next (g_call ⟨rfl, fun _ => rfl⟩ (by decide) (hs1.look (x := "stream-ref") rfl)
          (g_all2 (cdrq hs1 s3 (by decide) rfl g) (g_prim (hs2.word (by simp [purePrims])) (by simp [purePrims]) (g_all2 (.var s4 (by decide) rfl) (g_int 1)) (hsub ▸ .sub))) rfl g3) .done)))))
        .done, (((keeps_push _ _ _).trans kq).trans kk).trans k3, l2.trans l3, i3⟩

/-- `stream-ref`. -/
theorem ref_ok : ∀ (i : Nat) {m : Mem} {S : Types} {v : Val} {σ : Elems}, i < 2 ^ 64 → Inv m S → Str S v σ →
    ∃ m' S', Body N (m.push [("s", v), ("n", .int (.ofNat 64 i))] 0) m.length [ref] .nil (σ.at i) m' ∧ Keeps m m' ∧ Le S S' ∧ Inv m' S' := by
  intro i
  induction i with
  | zero => exact refs (fun h => absurd rfl h)
  | succ i ih => exact refs (fun _ {_ _ _ _} h1 h2 h3 => ih h1 h2 h3)

end Golisp.Streams
