import Verif.FormatLemmas
/-
`format` called with values: when it crashes.
-/
namespace Golisp.Fmt
open Golisp Str Spec

/-- The value as an integer. -/
def intOf : Data → Option Int
  | .int i => some i.toInt
  | _ => none

variable {arg : Data → Arg} (harg : ∀ d, (arg d).int = intOf d)
include harg

theorem number_sized {n : Count} {vs r : List Data} (h : Sized n vs r) : ∃ k, number n (vs.map arg) = some (k, r.map arg) := by
  cases h with
  | plain hn => cases n <;> first | exact absurd rfl hn | exact ⟨_, rfl⟩
  | arg => exact ⟨_, by simp [number, next, harg, intOf]; rfl⟩

theorem sized_number {n : Count} {vs : List Data} {x : Int × List Arg} (h : number n (vs.map arg) = some x) :
    ∃ r, Sized n vs r ∧ x.2 = r.map arg := by
  cases n with
  | arg =>
    cases vs with
    | nil => simp [number, next, missing] at h
    | cons v vs =>
      simp only [number, List.map_cons, next, harg] at h
      cases hv : intOf v with
      | none => rw [hv] at h; cases h
      | some k =>
        rw [hv] at h
        cases h
        unfold intOf at hv
        split at hv
        · exact ⟨vs, .arg, rfl⟩
        · cases hv
  | _ => cases h; exact ⟨vs, .plain nofun, rfl⟩

theorem next_map (vs : List Data) : (next (vs.map arg)).2 = vs.tail.map arg := by cases vs <;> rfl

theorem go_uses {ps : List Ctl} {vs r : List Data} (h : Uses ps vs r) : ∀ (a : Bool) (o : GoStr),
    ∃ o' a', go ps (vs.map arg) a o = some (o', r.map arg, a') := by
  induction h with
  | nil => exact fun a o => ⟨o, a, rfl⟩
  | byte _ ih => exact fun a o => ih a _
  | «show» h _ ih =>
    intro a o
    obtain ⟨k, hk⟩ := number_sized harg h
    simp only [go, hk, next_map harg]
    exact ih _ _
  | write h _ ih =>
    intro a o
    obtain ⟨k, hk⟩ := number_sized harg h
    simp only [go, hk, next_map harg]
    exact ih _ _
  | newline h _ ih =>
    intro a o
    obtain ⟨k, hk⟩ := number_sized harg h
    simp only [go, hk]
    exact ih _ _
  | tilde h _ ih =>
    intro a o
    obtain ⟨k, hk⟩ := number_sized harg h
    simp only [go, hk]
    exact ih _ _
  | skip h _ ih =>
    intro a o
    obtain ⟨k, hk⟩ := number_sized harg h
    simp only [go, hk]
    exact ih _ _

theorem uses_go {ps : List Ctl} : ∀ {vs : List Data} {a : Bool} {o : GoStr} {x : GoStr × List Arg × Bool},
    go ps (vs.map arg) a o = some x → ∃ r, Uses ps vs r ∧ x.2.1 = r.map arg := by
  induction ps with
  | nil => intro vs a o x h; cases h; exact ⟨vs, .nil, rfl⟩
  | cons p ps ih =>
    intro vs a o x h
    cases p with
    | byte c =>
      obtain ⟨r, h1, h2⟩ := ih h
      exact ⟨r, .byte h1, h2⟩
    | dir n b d =>
      simp only [go] at h
      cases hn : number n (vs.map arg) with
      | none => rw [hn] at h; cases h
      | some y =>
        obtain ⟨k, as⟩ := y
        obtain ⟨r, hr, he⟩ := sized_number harg hn
        dsimp only at he
        subst he
        rw [hn] at h
        cases d with
        | «show» =>
          simp only [next_map harg] at h
          obtain ⟨q, h1, h2⟩ := ih h
          exact ⟨q, .show hr h1, h2⟩
        | write =>
          simp only [next_map harg] at h
          obtain ⟨q, h1, h2⟩ := ih h
          exact ⟨q, .write hr h1, h2⟩
        | newline =>
          obtain ⟨q, h1, h2⟩ := ih h
          exact ⟨q, .newline hr h1, h2⟩
        | tilde =>
          obtain ⟨q, h1, h2⟩ := ih h
          exact ⟨q, .tilde hr h1, h2⟩
    | skip n b =>
      simp only [go] at h
      cases hn : number n (vs.map arg) with
      | none => rw [hn] at h; cases h
      | some y =>
        obtain ⟨k, as⟩ := y
        obtain ⟨r, hr, he⟩ := sized_number harg hn
        dsimp only at he
        subst he
        rw [hn] at h
        obtain ⟨q, h1, h2⟩ := ih h
        exact ⟨q, .skip hr h1, h2⟩

omit harg in
theorem cut_head {u : GoStr} {n : Count} (h : Cut u n) : ∀ b, u.head? = some b → ¬ White b := by
  intro b hb
  have : b = 126 := by cases h <;> (cases hb; rfl)
  subst this
  unfold White
  decide

omit harg in
theorem unsupported_head {u : GoStr} (h : Unsupported u) : ∀ b, u.head? = some b → ¬ White b := by
  intro b hb
  have : b = 126 := by cases h <;> (cases hb; rfl)
  subst this
  unfold White
  decide

theorem run_cut_panic {u : GoStr} {n : Count} (h : Cut u n) {vs : List Data} {a : Bool} {o : GoStr} :
    run u (vs.map arg) a o = .panic ↔ ∃ r, Sized n vs r := by
  cases n with
  | none => exact ⟨fun _ => ⟨vs, .plain nofun⟩, fun _ => run_cut h .none⟩
  | lit n => exact ⟨fun _ => ⟨vs, .plain nofun⟩, fun _ => run_cut h .lit⟩
  | left => exact ⟨fun _ => ⟨vs, .plain nofun⟩, fun _ => run_cut h .left⟩
  | arg =>
    constructor
    · intro hp
      cases h with
      | @count _ cs b hc =>
        cases hc with
        | arg hb =>
          cases vs with
          | nil =>
            exfalso
            rcases hb with rfl | rfl <;> (rw [run_dir] at hp; simp [count, next, isDigit, missing] at hp)
          | cons v vs =>
            cases hv : intOf v with
            | none =>
              exfalso
              rcases hb with rfl | rfl <;> (rw [run_dir] at hp; simp [count, next, isDigit, harg, hv] at hp)
            | some k =>
              unfold intOf at hv
              split at hv
              · exact ⟨vs, .arg⟩
              · cases hv
    · rintro ⟨r, hr⟩
      cases hr with
      | plain h => exact absurd rfl h
      | @arg i vs => exact run_cut h (.arg (by rw [harg]; rfl))

/-- When `format` crashes. -/
theorem format_panic {t : GoStr} {vs : List Data} : format t (vs.map arg) = .panic ↔ CutShort t vs := by
  constructor
  · intro h
    obtain ⟨ps, t1, u, rfl, hs, hu⟩ := splits_all t.length t (Nat.le_refl _)
    have hne : ∀ {x : Res (GoStr × List Arg)}, (match x with | .ok (out, []) => .ok out | .ok _ => .err | .err => .err | .panic => .panic : Res GoStr) = .panic →
        x = .panic := by
      intro x hx
      rcases x with ⟨o, _ | _⟩ | _ | _ <;> first | rfl | cases hx
    rw [format_eq] at h
    have h := hne h
    rcases hu with rfl | ⟨n, hu⟩ | hu
    · exfalso
      rw [run_spelled hs (by simp)] at h
      cases hg : go ps (vs.map arg) false [] with
      | none => rw [hg] at h; cases h
      | some x => rw [hg] at h; cases h
    · rw [run_spelled hs (cut_head hu)] at h
      cases hg : go ps (vs.map arg) false [] with
      | none => rw [hg] at h; cases h
      | some x =>
        obtain ⟨r, h1, h2⟩ := uses_go harg hg
        rw [hg] at h
        dsimp only at h
        rw [h2] at h
        obtain ⟨r', hr⟩ := (run_cut_panic harg hu).mp h
        exact ⟨ps, t1, u, n, r, r', rfl, hs, hu, h1, hr⟩
    · exfalso
      rw [run_spelled hs (unsupported_head hu)] at h
      cases hg : go ps (vs.map arg) false [] with
      | none => rw [hg] at h; cases h
      | some x => rw [hg] at h; dsimp only at h; rw [run_unsupported hu] at h; cases h
  · rintro ⟨ps, t1, u, n, r, r', rfl, hs, hu, h1, hr⟩
    obtain ⟨o, a, hg⟩ := go_uses harg h1 false []
    rw [format_eq, run_spelled hs (cut_head hu), hg]
    dsimp only
    rw [(run_cut_panic harg hu).mpr ⟨r', hr⟩]

end Golisp.Fmt
