import Verif.ProcessInv
/-
Properties C53, C54 and C55: fork and join, schedule, wake and sleep.
-/
namespace Golisp.Props
open Golisp Data Spec Process

private theorem exec_thread {s : State} {a : Action} {i : Nat} {t : Thread} (ha : a.ofThread = true) (hi : a.who = i)
    (ht : s.threads[i]? = some t) : exec s a = threadStep s i t a := by
  unfold exec; rw [if_pos ha, hi, ht]

private theorem exec_proc {s : State} {a : Action} {p : Nat} {pr : Proc} (ha : a.ofThread = false) (hi : a.who = p)
    (hp : s.procs[p]? = some pr) : exec s a = (procStep s p pr a).map fun r => { s with procs := s.procs.set p r.1, log := s.log ++ r.2 } := by
  unfold exec; rw [if_neg (by simp [ha]), hi, hp]; simp only
  cases procStep s p pr a <;> rfl

private theorem exec_call {s : State} {i : Nat} {t : Thread} (ht : s.threads[i]? = some t) (hid : t.cur = none) {c : Call}
    {cs : List Call} (hto : t.todo = c :: cs) (ha : active s i = true) {p : Nat} {pr : Proc} (hp : s.procs[p]? = some pr)
    (hc : c.obj = procObj p) : exec s (.call i) = some ⟨s.procs.set p (call t.parent p pr c).1,
      s.threads.set i (after t cs c (call t.parent p pr c).2), s.log ++ callEvents p pr c⟩ := by
  rw [exec_thread (i := i) rfl rfl ht]
  simp only [threadStep, hid, hto, ha, if_true]
  rw [makeCall_eq, hc, pointer_procObj]
  simp only [hp]

/-- What does not change: goroutines keep their parent and how they end, and make their calls in order, each once. -/
private theorem static {kinds : List Bool} {gs : List (Option Nat × List Call × Out Data)} {s : State}
    (h : Steps (start kinds gs) s) {i : Nat} {t : Thread} (ht : s.threads[i]? = some t) :
    ∃ g, gs[i]? = some g ∧ t.parent = g.1 ∧ t.ends = g.2.2 ∧
      t.done.map (·.1) ++ (t.cur.map (·.1)).toList ++ t.todo = g.2.1 := by
  generalize hs : start kinds gs = s₀ at h
  induction h generalizing i t with
  | refl =>
    subst hs
    simp only [start, List.getElem?_map, Option.map_eq_some_iff] at ht
    obtain ⟨g, hg, rfl⟩ := ht
    exact ⟨g, hg, rfl, rfl, rfl⟩
  | @tail s' s'' a hst h2 ih =>
    subst hs
    rcases exec_cases h2 with ⟨k, t₀, t₁, ht₀, e1, e2, e3, e4, _⟩ | ⟨_, _, _, _, _, _, rfl⟩
    · rw [e1] at ht
      rcases get_set ht₀ ht with ⟨rfl, rfl⟩ | ⟨_, ht⟩
      · obtain ⟨g, h1, h2, h3, h4⟩ := ih ht₀
        exact ⟨g, h1, by rw [e2, h2], by rw [e3, h3], by rw [← h4]; exact e4⟩
      · exact ih ht
    · exact ih ht

/-- At most one join of a process, of all made by goroutines that are not its own, ever gets its value; every other that
ended is an error.  The one value is that of the process when it has finished. -/
theorem C53_once {kinds : List Bool} {gs : List (Option Nat × List Call × Out Data)} {s : State}
    (h : Steps (start kinds gs) s) {p : Nat} {pr : Proc} (hp : s.procs[p]? = some pr) :
    (joinValues p s.threads).length ≤ 1 ∧ (∀ v ∈ joinValues p s.threads, pr.phase = .finished v) ∧
    (∀ (i : Nat) (t : Thread) o, s.threads[i]? = some t → t.parent ≠ some p → (.join (procObj p), o) ∈ t.done →
      (∃ v, o = .ok v ∧ v ∈ joinValues p s.threads) ∨ ∃ e, o = .err e) := by
  have hI := inv_steps h
  have hP := hI.proc hp
  refine ⟨?_, fun v hv => hP.vals v (.inl hv), ?_⟩
  · have := hP.value
    have : finishedN pr.phase ≤ 1 := by unfold finishedN; split <;> omega
    omega
  · intro i t o ht hpar hm
    rcases hI.fine ht _ hm with ⟨v, hv⟩ | he
    · refine .inl ⟨v, hv, mem_joinValues.mpr ⟨t, List.mem_of_getElem? ht, ?_⟩⟩
      dsimp only at hv; subst hv
      unfold jv; rw [if_neg hpar, List.mem_filterMap]
      exact ⟨_, hm, by simp [jvOne]⟩
    · exact .inr he

/-- The value is the one the forked procedure returned, or nil if it ended with an error or a panic. -/
theorem C53_value {kinds : List Bool} {gs : List (Option Nat × List Call × Out Data)} {s : State}
    (h : Steps (start kinds gs) s) {p : Nat} (hk : kinds[p]? = some false) {v : Data} (hv : v ∈ joinValues p s.threads) :
    ∃ g, gs[p]? = some g ∧ (g.2.2 = .ok v ∨ ((∀ w, g.2.2 ≠ .ok w) ∧ v = .null)) := by
  have hI := inv_steps h
  have hpr : ∃ pr : Proc, s.procs[p]? = some pr ∧ pr.scheduled = false := by
    clear hv hI
    generalize hs : start kinds gs = s₀ at h
    induction h with
    | refl => subst hs; exact ⟨newProc false, by simp [start, hk], rfl⟩
    | @tail s' s'' a hst h2 ih =>
      subst hs
      obtain ⟨pr, hpr, hsc⟩ := ih
      have key : ∀ q (pr₀ pr₁ : Proc), s'.procs[q]? = some pr₀ → pr₁.scheduled = pr₀.scheduled → s''.procs = s'.procs.set q pr₁ →
          ∃ pr : Proc, s''.procs[p]? = some pr ∧ pr.scheduled = false := by
        intro q pr₀ pr₁ h0 h1 h2
        rw [h2]
        by_cases hq : p = q
        · subst hq; rw [hpr] at h0; cases h0
          exact ⟨pr₁, List.getElem?_set_self (lt_of_get hpr), by rw [h1, hsc]⟩
        · exact ⟨pr, by rw [List.getElem?_set_ne (Ne.symm hq)]; exact hpr, hsc⟩
      rcases exec_cases h2 with ⟨_, _, _, _, _, _, _, _, hc⟩ | ⟨pr₀, pr₁, _, h0, _, hs, rfl⟩
      · rcases hc with ⟨h1, _⟩ | ⟨q, pr₀, pr₁, _, h0, h1, _, h2, _⟩
        · exact ⟨pr, by rw [h1]; exact hpr, hsc⟩
        · exact key q pr₀ pr₁ h0 h2 h1
      · exact key _ pr₀ pr₁ h0 (procStep_scheduled hs) rfl
  obtain ⟨pr, hpr, hsc⟩ := hpr
  have hP := hI.proc hpr
  have hfin := hP.vals v (.inl hv)
  have hb := hP.begun (by rw [hfin]; simp)
  rw [hsc] at hb
  rcases hP.ended v (.inr hfin) with ⟨h1, _⟩ | ⟨_, t, ht, hvt⟩
  · simp [h1] at hb
  · obtain ⟨g, hg, _, he, _⟩ := static h ht
    refine ⟨g, hg, ?_⟩
    rw [he] at hvt
    cases hg2 : g.2.2 with
    | ok w => rw [hg2] at hvt; left; rw [hvt]; rfl
    | _ => rw [hg2] at hvt; right; exact ⟨by simp, hvt⟩

private theorem claimed_iff {s : State} (hI : Process.Inv s) {p : Nat} {pr : Proc} (hp : s.procs[p]? = some pr) :
    Claimed s p ↔ pr.joined = true := by
  have ho := (hI.proc hp).owned
  constructor
  · intro hc
    cases hj : pr.joined with
    | true => rfl
    | false =>
      rw [hj] at ho
      have hz : ∀ t ∈ s.threads, owner p t = 0 := by
        intro t ht
        obtain ⟨i, hi⟩ := mem_get ht
        have h1 := sum_set (owner p) (y := ⟨none, none, [], [], .panic⟩) hi
        have h2 : owner p ⟨none, none, [], [], .panic⟩ = 0 := rfl
        unfold owners at ho; rw [ho, h2] at h1; simp at h1; omega
      rcases hc with hc | ⟨i, t, c, ht, hcur⟩
      · obtain ⟨v, hv⟩ := List.exists_mem_of_ne_nil _ hc
        obtain ⟨t, ht, hv⟩ := mem_joinValues.mp hv
        have := hz t ht
        unfold owner at this
        have : (jv p t).length = 0 := by omega
        rw [List.length_eq_zero_iff] at this; rw [this] at hv; cases hv
      · have := hz t (List.mem_of_getElem? ht)
        simp [owner, waits, hcur] at this
  · intro hj
    rw [hj] at ho
    have hne : ∃ t ∈ s.threads, owner p t ≠ 0 := by
      apply Classical.byContradiction
      intro hn
      have : owners p s.threads = 0 := by
        refine sum_zero fun n hn' => ?_
        obtain ⟨t, ht, rfl⟩ := List.mem_map.mp hn'
        apply Classical.byContradiction
        intro h0; exact hn ⟨t, ht, h0⟩
      rw [this] at ho; cases ho
    obtain ⟨t, ht, h0⟩ := hne
    by_cases hjv : jv p t = []
    · right
      obtain ⟨i, hi⟩ := mem_get ht
      unfold owner waits at h0
      rw [hjv] at h0
      split at h0
      · rename_i c q hq
        split at h0
        · rename_i hqp; subst hqp; exact ⟨i, t, c, hi, hq⟩
        · simp at h0
      · simp at h0
    · left
      obtain ⟨v, hv⟩ := List.exists_mem_of_ne_nil _ hjv
      intro he
      have := mem_joinValues.mpr ⟨t, ht, hv⟩
      rw [he] at this; cases this

/-- A join by a goroutine of another process: if nobody has claimed the value, the goroutine claims it and waits for it; if
somebody has, the join is an error. -/
theorem C53_join {kinds : List Bool} {gs : List (Option Nat × List Call × Out Data)} {s : State}
    (h : Steps (start kinds gs) s) {p : Nat} {pr : Proc} (hp : s.procs[p]? = some pr) {i : Nat} {t : Thread} {cs : List Call}
    (ht : s.threads[i]? = some t) (hid : t.cur = none) (hto : t.todo = .join (procObj p) :: cs) (ha : active s i = true)
    (hpar : t.parent ≠ some p) :
    ∃ s' t', exec s (.call i) = some s' ∧ s'.threads[i]? = some t' ∧
      (¬ Claimed s p → t'.cur = some (.join (procObj p), .receive p) ∧ t'.done = t.done) ∧
      (Claimed s p → t'.cur = none ∧ ∃ e, t'.done = t.done ++ [(.join (procObj p), .err e)]) := by
  have hI := inv_steps h
  rw [claimed_iff hI hp]
  rw [exec_call ht hid hto ha hp rfl]
  refine ⟨_, _, rfl, List.getElem?_set_self (lt_of_get ht), ?_, ?_⟩
  · intro hj
    have hj : pr.joined = false := by simpa using hj
    simp [call, join, hpar, hj, after]
  · intro hj
    simp [call, join, hpar, hj, after, hid]

/-- A join of a process from within it returns nil at once. -/
theorem C53_self {s : State} {p : Nat} {pr : Proc} (hp : s.procs[p]? = some pr) {i : Nat} {t : Thread} {cs : List Call}
    (ht : s.threads[i]? = some t) (hid : t.cur = none) (hto : t.todo = .join (procObj p) :: cs) (ha : active s i = true)
    (hpar : t.parent = some p) :
    ∃ s', exec s (.call i) = some s' ∧
      s'.threads[i]? = some { t with todo := cs, done := t.done ++ [(.join (procObj p), .ok .null)] } ∧ s'.log = s.log := by
  rw [exec_call ht hid hto ha hp rfl]
  refine ⟨_, rfl, ?_, by simp [callEvents]⟩
  rw [List.getElem?_set_self (lt_of_get ht)]
  simp [call, join, hpar, after, hid]

/-- The goroutine of a process never blocks on delivering its result, and a join that waits for a finished process can go
on. -/
theorem C53_delivers {kinds : List Bool} {gs : List (Option Nat × List Call × Out Data)} {s : State}
    (h : Steps (start kinds gs) s) {p : Nat} {pr : Proc} (hp : s.procs[p]? = some pr) :
    (∀ v, pr.phase = .delivering v → ∃ s' pr', exec s (.deliver p) = some s' ∧ s'.procs[p]? = some pr' ∧ pr'.phase = .finished v) ∧
    (∀ v, pr.phase = .finished v → ∀ (i : Nat) (t : Thread) c, s.threads[i]? = some t → t.cur = some (c, .receive p) →
      ∃ s' t', exec s (.receive i) = some s' ∧ s'.threads[i]? = some t' ∧ t'.cur = none ∧
        t'.done = t.done ++ [(.join (procObj p), .ok v)]) := by
  have hI := inv_steps h
  have hP := hI.proc hp
  constructor
  · intro v hv
    have hval := hP.value
    rw [hv] at hval
    have hr : pr.ret = none := by
      cases hr : pr.ret with
      | none => rfl
      | some w => rw [hr] at hval; simp [finishedN] at hval
    rw [exec_proc (p := p) rfl rfl hp]
    simp only [procStep, hv, hr, Option.map_some]
    exact ⟨_, _, rfl, List.getElem?_set_self (lt_of_get hp), rfl⟩
  · intro v hv i t c ht hc
    obtain ⟨rfl, hpar, _⟩ := hI.recv ht hc
    have hval := hP.value
    rw [hv] at hval
    have hj : joinValues p s.threads = [] := by
      have hown := hP.owned
      have h1 := sum_set (owner p) (y := ⟨none, none, [], [], .panic⟩) ht
      have h2 : owner p ⟨none, none, [], [], .panic⟩ = 0 := rfl
      have hle : pr.joined.toNat ≤ 1 := by cases pr.joined <;> simp
      -- the sum of all claims is at most one, and this goroutine has one by waiting
      have hw : waits p t = 1 := by simp [waits, hc]
      apply Classical.byContradiction
      intro hne
      obtain ⟨w, hw'⟩ := List.exists_mem_of_ne_nil _ hne
      obtain ⟨t₁, ht₁, hm⟩ := mem_joinValues.mp hw'
      obtain ⟨k, hk⟩ := mem_get ht₁
      have hlen : 1 ≤ (jv p t₁).length := List.length_pos_of_mem hm
      unfold owners at hown
      by_cases hki : k = i
      · subst hki; rw [ht] at hk; cases hk
        have : owner p t ≥ 2 := by unfold owner; omega
        omega
      · have h3 := sum_set (owner p) (y := ⟨none, none, [], [], .panic⟩)
          (show (s.threads.set i ⟨none, none, [], [], .panic⟩)[k]? = some t₁ by
            rw [List.getElem?_set_ne (Ne.symm hki)]; exact hk)
        have h4 : owner p t₁ ≥ 1 := by unfold owner; omega
        have h5 : owner p t ≥ 1 := by unfold owner; omega
        omega
    rw [hj] at hval
    obtain ⟨w, hr⟩ : ∃ w, pr.ret = some w := by
      cases hr : pr.ret with
      | some w => exact ⟨w, rfl⟩
      | none => rw [hr] at hval; simp [finishedN] at hval
    have hwv : w = v := by
      have := hP.vals w (.inr hr)
      rw [hv] at this; cases this; rfl
    subst hwv
    rw [exec_thread (i := i) rfl rfl ht]
    simp only [threadStep, hc, hp, hr]
    exact ⟨_, _, rfl, List.getElem?_set_self (lt_of_get ht), rfl, rfl⟩

/-- A scheduled procedure is run at most once, never after it was abandoned in time, and not before the timer expired. -/
theorem C54_once {kinds : List Bool} {gs : List (Option Nat × List Call × Out Data)} {s : State}
    (h : Steps (start kinds gs) s) {p : Nat} {pr : Proc} (hp : s.procs[p]? = some pr) :
    times (.ran p) s.log + times (.aborted p) s.log ≤ 1 ∧ times (.ran p) s.log ≤ times (.expired p) s.log ∧
    (times (.aborted p) s.log ≤ times (.abandoned p) s.log) := by
  have hP := (inv_steps h).proc hp
  refine ⟨?_, ?_, ?_⟩
  · by_cases hw : pr.phase = .waiting
    · obtain ⟨_, h1, h2⟩ := hP.waiting hw; omega
    · have := hP.begun hw
      cases hs : pr.scheduled <;> simp [hs] at this <;> omega
  · have := hP.timer; omega
  · have := hP.abort; omega

/-- Which events of `p` a step logs, and what it does to the process, as far as timers go. -/
private theorem quiet_step {s s' : State} {a : Action} (h : exec s a = some s') {p : Nat} {pr : Proc} (hp : s.procs[p]? = some pr)
    (hq : pr.fired = false ∧ pr.phase ≠ .running) :
    (times (.expired p) s'.log = times (.expired p) s.log + 1) ∨
    (times (.expired p) s'.log = times (.expired p) s.log ∧ times (.ran p) s'.log = times (.ran p) s.log ∧
      ∃ pr', s'.procs[p]? = some pr' ∧ pr'.fired = false ∧ pr'.phase ≠ .running) := by
  have hlog : ∀ l : List Event, (∀ e ∈ l, e ≠ .expired p ∧ e ≠ .ran p) →
      times (.expired p) (s.log ++ l) = times (.expired p) s.log ∧ times (.ran p) (s.log ++ l) = times (.ran p) s.log := by
    intro l hl
    rw [times_append, times_append]
    have h1 : times (.expired p) l = 0 := by unfold times; rw [List.count_eq_zero]; exact fun hm => (hl _ hm).1 rfl
    have h2 : times (.ran p) l = 0 := by unfold times; rw [List.count_eq_zero]; exact fun hm => (hl _ hm).2 rfl
    rw [h1, h2]; exact ⟨rfl, rfl⟩
  have key : ∀ q (pr₀ pr₁ : Proc) (l : List Event), s.procs[q]? = some pr₀ → s'.procs = s.procs.set q pr₁ → s'.log = s.log ++ l →
      (∀ e ∈ l, e ≠ .expired p ∧ e ≠ .ran p) → (q = p → pr₁.fired = pr₀.fired ∧ (pr₁.phase = .running → pr₀.phase = .running)) →
      (times (.expired p) s'.log = times (.expired p) s.log ∧ times (.ran p) s'.log = times (.ran p) s.log ∧
        ∃ pr', s'.procs[p]? = some pr' ∧ pr'.fired = false ∧ pr'.phase ≠ .running) := by
    intro q pr₀ pr₁ l h0 h1 h2 hl h3
    obtain ⟨e1, e2⟩ := hlog l hl
    rw [h2, h1]
    refine ⟨e1, e2, ?_⟩
    by_cases hqp : p = q
    · subst hqp; rw [hp] at h0; cases h0
      obtain ⟨h4, h5⟩ := h3 rfl
      exact ⟨pr₁, List.getElem?_set_self (lt_of_get hp), by rw [h4]; exact hq.1, fun hr => hq.2 (h5 hr)⟩
    · exact ⟨pr, by rw [List.getElem?_set_ne (Ne.symm hqp)]; exact hp, hq⟩
  rcases exec_cases h with ⟨_, _, _, _, _, _, _, _, hc⟩ | ⟨pr₀, pr', l, hpr₀, ha, hs, rfl⟩
  · right
    rcases hc with ⟨h1, h2⟩ | ⟨q, pr₀, pr₁, l, h0, h1, h2, _, h3, h4, h5⟩
    · rw [h1, h2]; exact ⟨rfl, rfl, pr, hp, hq⟩
    · refine key q pr₀ pr₁ l h0 h1 h2 ?_ (fun _ => ⟨h4, by rw [h3]; exact id⟩)
      intro e he; rcases h5 e he with rfl | rfl | rfl <;> simp
  · skip
    by_cases hne : a.who = p
    · generalize a.who = k at *
      subst hne
      rw [hp] at hpr₀; cases hpr₀
      cases a <;> simp only [procStep] at hs
      case expire =>
        split at hs
        · cases hs; left; rw [times_append]; simp [times]
        · cases hs
      case fire =>
        split at hs
        · rename_i hc; rw [hq.1] at hc; simp at hc
        · cases hs
      case finish =>
        split at hs
        · split at hs
          · rename_i hc; exact absurd hc.1 hq.2
          · cases hs
        · cases hs
      case abort =>
        split at hs
        · cases hs; right; exact key _ _ _ _ hp rfl rfl (by simp) (fun _ => ⟨rfl, by simp⟩)
        · cases hs
      case restart =>
        split at hs
        · cases hs; right; exact key _ _ _ _ hp rfl rfl (by simp) (fun _ => ⟨rfl, fun h => h⟩)
        · cases hs
      case deliver =>
        split at hs
        · cases hs; right; exact key _ _ _ _ hp rfl rfl (by simp) (fun _ => ⟨rfl, by simp⟩)
        · cases hs
      all_goals cases hs
    · right
      refine key a.who pr₀ pr' l hpr₀ rfl rfl ?_ (fun e => absurd e hne)
      intro e he
      have := procStep_about hs e he
      constructor <;> (rintro rfl; exact hne this.symm)

/-- While the timer has not expired (since the process last looked), the procedure does not start, whatever else happens:
so an abandon that the process notices before the next expiry, and a reset that it handles before the next expiry, do what
they should.  What is missing for the full claim is in the two violations below. -/
theorem C54_quiet_partial {s s' : State} (h : Steps s s') {p : Nat} {pr : Proc} (hp : s.procs[p]? = some pr)
    (hf : pr.fired = false) (hph : pr.phase ≠ .running) (hno : times (.expired p) s'.log = times (.expired p) s.log) :
    times (.ran p) s'.log = times (.ran p) s.log ∧ ∃ pr', s'.procs[p]? = some pr' ∧ pr'.phase ≠ .running := by
  have key : ∀ s', Steps s s' → times (.expired p) s.log ≤ times (.expired p) s'.log ∧
      (times (.expired p) s'.log = times (.expired p) s.log → times (.ran p) s'.log = times (.ran p) s.log ∧
        ∃ pr', s'.procs[p]? = some pr' ∧ pr'.fired = false ∧ pr'.phase ≠ .running) := by
    intro s' h
    induction h with
    | refl => exact ⟨Nat.le_refl _, fun _ => ⟨rfl, pr, hp, hf, hph⟩⟩
    | @tail s₁ s₂ a hst h2 ih =>
      have hmono : times (.expired p) s₁.log ≤ times (.expired p) s₂.log := by
        have : ∃ l, s₂.log = s₁.log ++ l := by
          rcases exec_cases h2 with ⟨_, _, _, _, _, _, _, _, hc⟩ | ⟨_, _, l, _, _, _, rfl⟩
          · rcases hc with ⟨_, h1⟩ | ⟨_, _, _, l, _, _, h1, _⟩
            · exact ⟨[], by simp [h1]⟩
            · exact ⟨l, h1⟩
          · exact ⟨l, rfl⟩
        obtain ⟨l, hl⟩ := this
        rw [hl, times_append]; omega
      refine ⟨Nat.le_trans ih.1 hmono, fun he => ?_⟩
      have he1 : times (.expired p) s₁.log = times (.expired p) s.log := by have := ih.1; omega
      obtain ⟨h3, pr₁, h4, h5⟩ := ih.2 he1
      rcases quiet_step h2 h4 h5 with hx | ⟨_, h6, h7⟩
      · omega
      · exact ⟨by rw [h6, h3], h7⟩
  obtain ⟨h1, pr', h2, _, h3⟩ := (key s' h).2 hno
  exact ⟨h1, pr', h2, h3⟩

/-- Handling a reset restarts the timer. -/
theorem C54_restart {s : State} {p : Nat} {pr : Proc} (hp : s.procs[p]? = some pr) (hw : pr.phase = .waiting)
    (hr : pr.restart = true) :
    ∃ s' pr', exec s (.restart p) = some s' ∧ s'.procs[p]? = some pr' ∧ pr'.armed = true ∧ pr'.phase = .waiting ∧
      pr'.restart = false := by
  rw [exec_proc (p := p) rfl rfl hp]
  simp only [procStep, hw, hr, and_self, if_true, Option.map_some]
  exact ⟨_, _, rfl, List.getElem?_set_self (lt_of_get hp), rfl, rfl, rfl⟩

/-- wake, abandon and reset-timeout never block, whatever the state of the process: the call ends in one step, with a
string, or with an error if the process was not scheduled. -/
theorem C54_never_blocks {s : State} {p : Nat} {pr : Proc} (hp : s.procs[p]? = some pr) {i : Nat} {t : Thread} {c : Call}
    {cs : List Call} (ht : s.threads[i]? = some t) (hid : t.cur = none) (hto : t.todo = c :: cs) (ha : active s i = true)
    (hc : c = .wake (procObj p) ∨ c = .abandon (procObj p) ∨ c = .reset (procObj p)) :
    ∃ s' o, exec s (.call i) = some s' ∧ s'.threads[i]? = some { t with todo := cs, done := t.done ++ [(c, o)] } ∧
      ((∃ e, o = .err e) ↔ pr.scheduled = false ∧ c ≠ .wake (procObj p)) ∧
      (∀ v, o = .ok v → v = .str "OK" ∨
        (v = .str "task was already completed or abandoned" ∧ c = .reset (procObj p) ∧ pr.restart = true)) := by
  rcases hc with rfl | rfl | rfl
  · rw [exec_call ht hid hto ha hp rfl]
    exact ⟨_, .ok (.str "OK"), rfl, by rw [List.getElem?_set_self (lt_of_get ht)]; simp [call, wake, after, hid], by simp, by simp⟩
  · rw [exec_call ht hid hto ha hp rfl]
    cases hs : pr.scheduled
    · exact ⟨_, .err (.msg "tried to adandon a Process that isn't scheduled"), rfl,
        by rw [List.getElem?_set_self (lt_of_get ht)]; simp [call, abandon, after, hs, hid], by simp, by simp⟩
    · exact ⟨_, .ok (.str "OK"), rfl, by rw [List.getElem?_set_self (lt_of_get ht)]; simp [call, abandon, after, hs, hid], by simp, by simp⟩
  · rw [exec_call ht hid hto ha hp rfl]
    cases hs : pr.scheduled
    · exact ⟨_, .err (.msg "tried to reset a Process that isn't scheduled"), rfl,
        by rw [List.getElem?_set_self (lt_of_get ht)]; simp [call, reset, after, hs, hid], by simp, by simp⟩
    · cases hr : pr.restart
      · exact ⟨_, .ok (.str "OK"), rfl, by rw [List.getElem?_set_self (lt_of_get ht)]; simp [call, reset, after, hs, hr, hid], by simp, by simp⟩
      · exact ⟨_, .ok (.str "task was already completed or abandoned"), rfl,
          by rw [List.getElem?_set_self (lt_of_get ht)]; simp [call, reset, after, hs, hr, hid], by simp, by simp⟩

/-- A wake is not lost: after it, and until a sleep ends because of it, the process counts as woken. -/
theorem C55_wake {s : State} {p : Nat} {pr : Proc} (hp : s.procs[p]? = some pr) {i : Nat} {t : Thread} {cs : List Call}
    (ht : s.threads[i]? = some t) (hid : t.cur = none) (hto : t.todo = .wake (procObj p) :: cs) (ha : active s i = true) :
    ∃ s', exec s (.call i) = some s' ∧ s'.threads[i]? = some { t with todo := cs, done := t.done ++ [(.wake (procObj p), .ok (.str "OK"))] } ∧
      wakePending p s'.log = true := by
  rw [exec_call ht hid hto ha hp rfl]
  exact ⟨_, rfl, by rw [List.getElem?_set_self (lt_of_get ht)]; simp [call, wake, after, hid], wakePending_woke p _⟩

/-- A sleeping goroutine can go on because of a wake exactly when the process was woken (before or during the sleep) since
a sleep last ended that way; then the sleep returns `#t` and that wake, or those wakes, are used up. -/
theorem C55_sleep {kinds : List Bool} {gs : List (Option Nat × List Call × Out Data)} {s : State}
    (h : Steps (start kinds gs) s) {i p : Nat} {t : Thread} {c : Call} (ht : s.threads[i]? = some t)
    (hc : t.cur = some (c, .asleep p)) :
    (wakePending p s.log = true → ∃ s' t', exec s (.woken i) = some s' ∧ s'.threads[i]? = some t' ∧ t'.cur = none ∧
      t'.done = t.done ++ [(c, .ok (.bool true))] ∧ wakePending p s'.log = false) ∧
    (wakePending p s.log = false → exec s (.woken i) = none) ∧
    (∃ s' t', exec s (.timeout i) = some s' ∧ s'.threads[i]? = some t' ∧ t'.cur = none ∧
      t'.done = t.done ++ [(c, .ok (.bool false))] ∧ wakePending p s'.log = wakePending p s.log) := by
  have hI := inv_steps h
  obtain ⟨⟨m, rfl⟩, pr, hp⟩ := hI.asleep ht hc
  have hw := (hI.proc hp).wake
  refine ⟨fun h1 => ?_, fun h1 => ?_, ?_⟩
  · rw [exec_thread (i := i) rfl rfl ht]
    simp only [threadStep, hc, hp]
    rw [hw, h1]
    exact ⟨_, _, rfl, List.getElem?_set_self (lt_of_get ht), rfl, rfl, wakePending_wokenUp p _⟩
  · rw [exec_thread (i := i) rfl rfl ht]
    simp only [threadStep, hc, hp]
    rw [hw, h1]; rfl
  · rw [exec_thread (i := i) rfl rfl ht]
    simp only [threadStep, hc, hp]
    exact ⟨_, _, rfl, List.getElem?_set_self (lt_of_get ht), rfl, rfl, by simp [complete]⟩

/-- The sleeps that returned `#t` are those that wakes ended, no more than there were wakes. -/
theorem C55_count {kinds : List Bool} {gs : List (Option Nat × List Call × Out Data)} {s : State}
    (h : Steps (start kinds gs) s) {p : Nat} {pr : Proc} (hp : s.procs[p]? = some pr) :
    wokenSleeps p s.threads = times (.wokenUp p) s.log ∧
    times (.wokenUp p) s.log + (wakePending p s.log).toNat ≤ times (.woke p) s.log := by
  have hP := (inv_steps h).proc hp
  constructor
  · rw [← hP.slept]
    unfold wokenSleeps
    congr 1
    apply List.map_congr_left
    intro t _
    unfold sl
    generalize t.done = l
    induction l with
    | nil => rfl
    | cons r l ih =>
      rw [List.filter_cons, List.map_cons, List.sum_cons, ← ih]
      unfold slOne
      split
      · split <;> simp_all; omega
      · simp_all
  · have := hP.wakes; rw [hP.wake] at this; exact this

/-! Executions. -/

private def sched : State → List Action → Option State
  | s, [] => some s
  | s, a :: as => (exec s a).bind fun s' => sched s' as

private theorem sched_steps : ∀ (l : List Action) {s₀ s s' : State}, Steps s₀ s → sched s l = some s' → Steps s₀ s'
  | [], s₀, s, s', h0, h => by simp only [sched, Option.some.injEq] at h; subst h; exact h0
  | a :: as, s₀, s, s', h0, h => by
    simp only [sched, Option.bind_eq_some_iff] at h
    obtain ⟨s₁, h1, h2⟩ := h
    exact sched_steps as (h0.tail h1) h2

/-- An abandon that answers "OK" before the timer expires does not always prevent the run: if the timer expires before the
goroutine of the process gets to look, `select` may choose either. -/
theorem C54_abandon_violation : ∃ s, Steps (start [true] [(none, [], .ok (.int 7)), (none, [.abandon (procObj 0)], .ok .null)]) s ∧
    s.log = [.abandoned 0, .expired 0, .ran 0] ∧
    (s.threads.map (·.done)) = [[], [(.abandon (procObj 0), .ok (.str "OK"))]] :=
  ⟨_, sched_steps [.call 1, .expire 0, .fire 0] .refl rfl, rfl, rfl⟩

/-- A reset that comes when the timer has expired but before the process noticed restarts the timer, and the procedure runs
at once all the same: the old expiry is still in the timer's channel. -/
theorem C54_reset_violation : ∃ s, Steps (start [true] [(none, [], .ok (.int 7)), (none, [.reset (procObj 0)], .ok .null)]) s ∧
    s.log = [.expired 0, .restarted 0, .ran 0] ∧
    (s.threads.map (·.done)) = [[], [(.reset (procObj 0), .ok (.str "OK"))]] :=
  ⟨_, sched_steps [.expire 0, .call 1, .restart 0, .fire 0] .refl rfl, rfl, rfl⟩

/-- The first reset of a finished process answers "OK", the next that the task was completed. -/
theorem C54_reset_answer_violation : ∃ s, Steps (start [true]
      [(none, [], .ok (.int 7)), (none, [.reset (procObj 0), .reset (procObj 0)], .ok .null)]) s ∧
    s.log = [.expired 0, .ran 0] ∧ (s.procs.map (·.phase)) = [.finished (.int 7)] ∧
    (s.threads.map (·.done)) = [[], [(.reset (procObj 0), .ok (.str "OK")),
      (.reset (procObj 0), .ok (.str "task was already completed or abandoned"))]] :=
  ⟨_, sched_steps [.expire 0, .fire 0, .finish 0, .deliver 0, .call 1, .call 1] .refl rfl, rfl, rfl, rfl⟩

/-- Two processes forked from the same function: the function remembers only the second, so the first is taken for the
second, and its join of the second returns nil at once instead of the value. -/
theorem C53_same_function_violation : parentProcess [5, 5] 5 = some 1 ∧
    ∃ s, Steps (start [false, false] [(parentProcess [5, 5] 5, [.join (procObj 1)], .ok (.int 1)),
        (parentProcess [5, 5] 5, [], .ok (.int 2))]) s ∧
      (s.threads.map (·.done)) = [[(.join (procObj 1), .ok .null)], []] ∧ (s.procs.map (·.phase)) = [.running, .running] :=
  ⟨by decide, _, sched_steps [.call 0] .refl rfl, rfl, rfl⟩

/-- Two goroutines join a forked process: one waits and gets the value, the other an error. -/
example : ∃ s, Steps (start [false] [(some 0, [.join (procObj 0)], .ok (.int 7)), (none, [.join (procObj 0)], .ok .null),
      (none, [.join (procObj 0)], .ok .null)]) s ∧
    (s.threads.map (·.done)) = [[(.join (procObj 0), .ok .null)], [(.join (procObj 0), .ok (.int 7))],
      [(.join (procObj 0), .err (.msg "tried to join on a task twice"))]] ∧ joinValues 0 s.threads = [.int 7] :=
  ⟨_, sched_steps [.call 1, .call 0, .call 2, .finish 0, .deliver 0, .receive 1] .refl rfl, rfl, by decide +kernel⟩

/-- Abandoned in time. -/
example : ∃ s, Steps (start [true] [(none, [], .ok (.int 7)), (none, [.abandon (procObj 0), .join (procObj 0)], .ok .null)]) s ∧
    s.log = [.abandoned 0, .aborted 0, .expired 0] ∧
    (s.threads.map (·.done)) = [[], [(.abandon (procObj 0), .ok (.str "OK")), (.join (procObj 0), .ok .null)]] :=
  ⟨_, sched_steps [.call 1, .abort 0, .expire 0, .deliver 0, .call 1, .receive 1] .refl rfl, rfl, rfl⟩

/-- Two wakes, then two sleeps: one ends early, the other times out. -/
example : ∃ s, Steps (start [false] [(some 0, [.sleep (procObj 0) (.int 100), .sleep (procObj 0) (.int 100)], .ok .null),
      (none, [.wake (procObj 0), .wake (procObj 0)], .ok .null)]) s ∧
    (s.threads.map fun t => t.done.map (·.2)) = [[.ok (.bool true), .ok (.bool false)], [.ok (.str "OK"), .ok (.str "OK")]] ∧
    s.log = [.woke 0, .woke 0, .wokenUp 0] :=
  ⟨_, sched_steps [.call 1, .call 0, .call 1, .woken 0, .call 0, .timeout 0] .refl rfl, rfl, rfl⟩

end Golisp.Props
