import Verif.PortLemmas
import Verif.ReaderRound
import Verif.Props.Reader
/- C78: what is written to a file is what a program wrote to it, and reading gives the forms in the file in order. -/
namespace Golisp.Spec.IO
open Data Ports

/-- Worlds a program can be in: it starts without open files. -/
inductive Reachable (H : Ports.Host) : World → Prop where
  | start {w} : w.files = [] → w.recent = none → Reachable H w
  | step {w} (c : Cmd) : Reachable H w → Reachable H (step H c w).2

/-- `Run H I w tr w'`: the calls in `tr`, with the outcomes in `tr`, lead from `w` to `w'`; `I` holds all the time. -/
inductive Run (H : Ports.Host) (I : World → Prop) : World → List (Cmd × Out Data) → World → Prop where
  | nil {w} : I w → Run H I w [] w
  | cons {w c tr w'} : I w → Run H I (step H c w).2 tr w' → Run H I w ((c, (step H c w).1) :: tr) w'

/-- The outcomes of the `read` calls. -/
def readsOf : List (Cmd × Out Data) → List (Out Data)
  | [] => []
  | (.read _, r) :: tr => r :: readsOf tr
  | _ :: tr => readsOf tr

/-- The text that a call sends to the port `v`. -/
def sent (H : Ports.Host) (v : Data) : Cmd → List Char
  | .writeString (.str s) [u] => if u = v then s.toList else []
  | .write d [u] => if u = v then Reader.print H.reader d else []
  | .newline [u] => if u = v then ['\n'] else []
  | _ => []

/-- The port a call writes to. -/
def target : Cmd → Option Nat
  | .writeString _ (.atom (.port p) :: _) | .write _ (.atom (.port p) :: _) | .newline (.atom (.port p) :: _) => some p
  | _ => none

/-- The call has the number of arguments that the primitive takes (`write-string` 1|2, `write` 1|2, `newline` 0|1). -/
def Counted : Cmd → Prop
  | .writeString _ ps | .write _ ps | .newline ps => ps.length ≤ 1
  | _ => True

end Golisp.Spec.IO

namespace Golisp.Props
open Data Reader Golisp.Ports Golisp.Spec Golisp.Spec.IO
variable {H : Ports.Host} {w w₁ w₂ w' : World}

/-! ### Reading -/

theorem run_nil {I : World → Prop} (h : Run H I w [] w') : w' = w := by cases h; rfl

/-- Port `p` is open for input on the file `f` with the text `t`, and will deliver the tokens `ts`. -/
def Delivers (H : Ports.Host) (p : Nat) (f : String) (t : List Char) (ts : List Tok) (w : World) : Prop :=
  ∃ pos, w.files[p]? = some ⟨f, .input, pos, false⟩ ∧
    tokens H t (tokenizerFor H w p t pos).1 (tokenizerFor H w p t pos).2 = ts

/-- Reading, closing and all the rest leave the other open files as they are, and the kept tokenizer changes only by
reading. -/
theorem step_files (c : Cmd) (w : World) (q : Nat) (h : Ports.File) (hq : w.files[q]? = some h) :
    ∃ h', (step H c w).2.files[q]? = some h' ∧ h'.path = h.path ∧ h'.mode = h.mode ∧
      (c ≠ .close (.atom (.port q)) → h'.closed = h.closed) ∧ (h.mode = .input ∨ target c ≠ some q → c ≠ .read (.atom (.port q)) → h'.pos = h.pos) := by
  have hlt : q < w.files.length := by
    rcases List.getElem?_eq_some_iff.1 hq with ⟨h, _⟩; exact h
  have same : ∀ w' : World, w'.files = w.files → ∃ h', w'.files[q]? = some h' ∧ h'.path = h.path ∧ h'.mode = h.mode ∧
      (c ≠ .close (.atom (.port q)) → h'.closed = h.closed) ∧ (h.mode = .input ∨ target c ≠ some q → c ≠ .read (.atom (.port q)) → h'.pos = h.pos) :=
    fun w' hw => ⟨h, by rw [hw]; exact hq, rfl, rfl, fun _ => rfl, fun _ _ => rfl⟩
  have grown : ∀ (w' : World) f, w'.files = w.files ++ [f] → ∃ h', w'.files[q]? = some h' ∧ h'.path = h.path ∧ h'.mode = h.mode ∧
      (c ≠ .close (.atom (.port q)) → h'.closed = h.closed) ∧ (h.mode = .input ∨ target c ≠ some q → c ≠ .read (.atom (.port q)) → h'.pos = h.pos) :=
    fun w' f hw => ⟨h, by rw [hw, List.getElem?_append_left hlt]; exact hq, rfl, rfl, fun _ => rfl, fun _ _ => rfl⟩
  have moved : ∀ (w' : World) p n, w'.files = w.files.modify p (fun f => { f with pos := n }) → (target c = some p ∧ (p = q → h.mode ≠ .input)) ∨ c = .read (.atom (.port p)) →
      ∃ h', w'.files[q]? = some h' ∧ h'.path = h.path ∧ h'.mode = h.mode ∧
      (c ≠ .close (.atom (.port q)) → h'.closed = h.closed) ∧ (h.mode = .input ∨ target c ≠ some q → c ≠ .read (.atom (.port q)) → h'.pos = h.pos) := by
    intro w' p n hw hp
    by_cases e : p = q
    · subst e
      refine ⟨{ h with pos := n }, by rw [hw, List.getElem?_modify_eq, hq]; rfl, rfl, rfl, fun _ => rfl, fun h1 h2 => ?_⟩
      rcases hp with hp | hp
      · exact absurd h1 (by simp [hp.1, hp.2 rfl])
      · exact absurd hp h2
    · exact ⟨h, by rw [hw, List.getElem?_modify_ne _ _ e]; exact hq, rfl, rfl, fun _ => rfl, fun _ _ => rfl⟩
  have put : ∀ msg s ps, (∀ p us, ps = .atom (.port p) :: us → target c = some p) → ∃ h', (putTo msg s ps w).2.files[q]? = some h' ∧
      h'.path = h.path ∧ h'.mode = h.mode ∧
      (c ≠ .close (.atom (.port q)) → h'.closed = h.closed) ∧ (h.mode = .input ∨ target c ≠ some q → c ≠ .read (.atom (.port q)) → h'.pos = h.pos) := by
    intro msg s ps hps
    unfold putTo
    split
    · exact same _ rfl
    · next _ p us =>
      unfold putText
      split
      · next hp => exact moved _ p _ rfl (.inl ⟨hps p us rfl, fun e => by subst e; rw [hp] at hq; cases hq; nofun⟩)
      · exact same _ rfl
      · exact same _ rfl
    · exact same _ rfl
  cases c with
  | openInput v =>
    simp only [step, openInputImpl]
    split
    · split
      · exact grown _ _ rfl
      · exact same _ rfl
    · exact same _ rfl
  | openOutput v app =>
    simp only [step, openOutputImpl]
    split
    · split
      · exact same _ rfl
      split
      · exact grown _ _ rfl
      · exact grown _ _ rfl
    · exact same _ rfl
  | close v =>
    simp only [step, closeImpl]
    split
    · next p =>
      by_cases e : p = q
      · subst e
        exact ⟨{ h with closed := true }, by rw [List.getElem?_modify_eq, hq]; rfl, rfl, rfl, fun h => absurd rfl h, fun _ _ => rfl⟩
      · exact ⟨h, by rw [List.getElem?_modify_ne _ _ e]; exact hq, rfl, rfl, fun _ => rfl, fun _ _ => rfl⟩
    · exact same _ rfl
  | writeString v ps =>
    simp only [step, writeStringImpl]
    split
    · exact put _ _ _ fun p us e => by subst e; rfl
    · exact same _ rfl
  | write v ps => exact put _ _ _ fun p us e => by subst e; rfl
  | newline ps => exact put _ _ _ fun p us e => by subst e; rfl
  | isEof v => exact same _ rfl
  | read v =>
    simp only [step, readImpl]
    split
    · next p =>
      split
      · simp only [readFrom]
        split
        · exact moved _ p _ rfl (.inr rfl)
        · exact moved _ p _ rfl (.inr rfl)
        · exact moved _ p _ rfl (.inr rfl)
        · exact same _ rfl
      · exact same _ rfl
    · exact same _ rfl

theorem step_recent (c : Cmd) (w : World) (hc : ∀ v, c ≠ .read v) : (step H c w).2.recent = w.recent := by
  have put : ∀ msg s ps, (putTo msg s ps w).2.recent = w.recent := by
    intro msg s ps
    unfold putTo
    split
    · rfl
    · unfold putText
      split <;> rfl
    · rfl
  cases c with
  | read v => exact absurd rfl (hc v)
  | openInput v =>
    simp only [step, openInputImpl]
    split
    · split <;> rfl
    · rfl
  | openOutput v app =>
    simp only [step, openOutputImpl]
    split
    · split
      · rfl
      split <;> rfl
    · rfl
  | close v => simp only [step, closeImpl]; split <;> rfl
  | writeString v ps =>
    simp only [step, writeStringImpl]
    split
    · exact put _ _ _
    · rfl
  | write v ps => exact put _ _ _
  | newline ps => exact put _ _ _
  | isEof v => rfl

theorem delivers_step {p : Nat} {f : String} {t : List Char} {ts : List Tok} (h : Delivers H p f t ts w) {c : Cmd}
    (hr : ∀ v, c ≠ .read v) (hc : c ≠ .close (.atom (.port p))) : Delivers H p f t ts (step H c w).2 := by
  obtain ⟨pos, h1, h2⟩ := h
  obtain ⟨⟨path, mode, pos', cl⟩, g1, g2, g3, g4, g5⟩ := step_files (H := H) c w p _ h1
  have e := g5 (.inl rfl) (hr _)
  have e' := g4 hc
  dsimp only at g2 g3 e e'
  subst g2 g3 e e'
  refine ⟨_, g1, ?_⟩
  simp only [tokenizerFor, step_recent c w hr]
  exact h2

/-- What a `read` does, by the tokens to come. -/
theorem delivers_read {p : Nat} {f : String} {t : List Char} {ts : List Tok} (h : Delivers H p f t ts w) (ht : w.disk f = some t) :
    (∀ d rest, parseExpr H.reader ts = .ok d rest →
      (step H (.read (.atom (.port p))) w).1 = .ok d ∧ Delivers H p f t rest (step H (.read (.atom (.port p))) w).2) ∧
    (parseExpr H.reader ts = .eof →
      (step H (.read (.atom (.port p))) w).1 = .ok eofObject ∧ Delivers H p f t [.eof] (step H (.read (.atom (.port p))) w).2) ∧
    (parseExpr H.reader ts = .err → (∃ e, (step H (.read (.atom (.port p))) w).1 = .err e) ∧
      (ts.head? = some .illegal → Delivers H p f t ts (step H (.read (.atom (.port p))) w).2)) := by
  obtain ⟨pos, h1, h2⟩ := h
  have hs : step H (.read (.atom (.port p))) w = readFrom H w p t pos := by
    simp only [step, readImpl, h1, ht, Option.getD_some]
  rw [hs]
  have keep : ∀ n, Delivers H p f t (tokens H t (consumes H n t (tokenizerFor H w p t pos).1 (tokenizerFor H w p t pos).2).1
        (consumes H n t (tokenizerFor H w p t pos).1 (tokenizerFor H w p t pos).2).2)
      { setPos w p (consumes H n t (tokenizerFor H w p t pos).1 (tokenizerFor H w p t pos).2).2 with
        recent := some (p, (consumes H n t (tokenizerFor H w p t pos).1 (tokenizerFor H w p t pos).2).1) } := by
    intro n
    refine ⟨_, by simp only [setPos]; rw [List.getElem?_modify_eq, h1]; rfl, ?_⟩
    simp only [tokenizerFor, if_true]
  refine ⟨fun d rest hp => ?_, fun hp => ?_, fun hp => ?_⟩
  · obtain ⟨used, hu, he⟩ := parseExpr_fair H.reader hp
    simp only [readFrom, h2, hp]
    refine ⟨trivial, ?_⟩
    have hn : ts.length - rest.length = used.length := by rw [hu]; simp
    have := keep (ts.length - rest.length)
    rw [hn, tokens_consumes H used (h2.trans hu) he] at this
    rw [hn]; exact this
  · simp only [readFrom, h2, hp]
    refine ⟨trivial, ?_⟩
    have := keep ts.length
    rwa [tokens_exhausted H (by rw [h2]; exact Nat.le_refl _)] at this
  · simp only [readFrom, h2, hp]
    refine ⟨⟨_, rfl⟩, fun hi => ?_⟩
    have hl : (tokenizerFor H w p t pos).1.look = .illegal := by
      rw [← h2] at hi; simpa [tokens] using hi
    rw [if_pos hl]
    have := keep 0
    simp only [consumes, h2] at this
    exact this

theorem reads_spec {p : Nat} {f : String} {t : List Char} {tr : List (Cmd × Out Data)}
    (hr : Run H (fun w => w.disk f = some t) w tr w₂) : ∀ {ts : List Tok} {ds : List Data} {b : Bool}, Delivers H p f t ts w →
    Reads H.reader ts ds b → (∀ u r, (Cmd.read u, r) ∈ tr → u = .atom (.port p)) → (∀ r, (Cmd.close (.atom (.port p)), r) ∉ tr) →
    ∀ i r, (readsOf tr)[i]? = some r →
      (∀ d, ds[i]? = some d → r = .ok d) ∧ (ds.length ≤ i → b = false → r = .ok eofObject) ∧ (i = ds.length → b = true → ∃ e, r = .err e) := by
  induction hr with
  | nil _ => intro _ _ _ _ _ _ _ i r h; simp [readsOf] at h
  | @cons w c tr w' hI hrun ih =>
    intro ts ds b hd hreads hread hclose i r hi
    have hread' := fun u r h => hread u r (List.mem_cons_of_mem _ h)
    have hclose' := fun r h => hclose r (List.mem_cons_of_mem _ h)
    by_cases hc : ∃ v, c = .read v
    · obtain ⟨v, rfl⟩ := hc
      obtain rfl := hread v _ (List.mem_cons_self ..)
      obtain ⟨k1, k2, k3⟩ := delivers_read hd hI
      simp only [readsOf] at hi
      cases hreads with
      | eof hp =>
        obtain ⟨g1, g2⟩ := k2 ((parses_iff _ _ _).1 hp).symm
        cases i with
        | zero =>
          simp only [List.getElem?_cons_zero, Option.some.injEq] at hi
          subst hi
          exact ⟨fun d h => by simp at h, fun _ _ => g1, fun _ h => by cases h⟩
        | succ i =>
          have h0 : Reads H.reader [.eof] [] false := .eof ((parses_iff _ _ _).2 rfl)
          obtain ⟨-, m2, -⟩ := ih g2 h0 hread' hclose' i r (by simpa using hi)
          exact ⟨fun d h => by simp at h, fun _ h => m2 (Nat.zero_le _) rfl, fun _ h => by cases h⟩
      | err hp =>
        obtain ⟨g1, -⟩ := k3 ((parses_iff _ _ _).1 hp).symm
        cases i with
        | zero =>
          simp only [List.getElem?_cons_zero, Option.some.injEq] at hi
          subst hi
          exact ⟨fun d h => by simp at h, fun _ h => (by cases h), fun _ _ => g1⟩
        | succ i => exact ⟨fun d h => by simp at h, fun _ h => (by cases h), fun h => by simp at h⟩
      | @form _ d rest ds _ hp hrest =>
        obtain ⟨g1, g2⟩ := k1 d rest ((parses_iff _ _ _).1 hp).symm
        cases i with
        | zero =>
          simp only [List.getElem?_cons_zero, Option.some.injEq] at hi
          subst hi
          refine ⟨fun d' h => ?_, fun h => by simp at h, fun h => by simp at h⟩
          simp only [List.getElem?_cons_zero, Option.some.injEq] at h
          rw [← h]; exact g1
        | succ i =>
          obtain ⟨m1, m2, m3⟩ := ih g2 hrest hread' hclose' i r (by simpa using hi)
          exact ⟨fun d h => m1 d (by simpa using h), fun h => m2 (by simpa using h), fun h => m3 (by simpa using h)⟩
    · have hd' := delivers_step hd (fun v e => hc ⟨v, e⟩) (fun e => hclose (step H c w).1 (by rw [← e]; exact List.mem_cons_self ..))
      refine ih hd' hreads hread' hclose' i r ?_
      rw [← hi]
      cases c <;> first | rfl | exact absurd ⟨_, rfl⟩ hc

theorem recent_old (hw : Reachable H w) : ∀ q t, w.recent = some (q, t) → q < w.files.length := by
  induction hw with
  | start h1 h2 => intro q t h; rw [h2] at h; cases h
  | @step w c hw ih =>
    have grows : w.files.length ≤ (step H c w).2.files.length := by
      cases hn : w.files.length with
      | zero => exact Nat.zero_le _
      | succ n =>
        obtain ⟨h, hh⟩ : ∃ h, w.files[n]? = some h := ⟨w.files[n], by rw [List.getElem?_eq_getElem]⟩
        obtain ⟨h', g, -⟩ := step_files (H := H) c w n h hh
        exact (List.getElem?_eq_some_iff.1 g).1
    intro q t h
    by_cases hc : ∃ v, c = .read v
    · obtain ⟨v, rfl⟩ := hc
      refine Nat.lt_of_lt_of_le ?_ grows
      simp only [step, readImpl] at h
      split at h
      · next p =>
        split at h
        · next hp =>
          have hlt := (List.getElem?_eq_some_iff.1 hp).1
          simp only [readFrom] at h
          split at h
          · cases h; exact hlt
          · cases h; exact hlt
          · cases h; exact hlt
          · exact ih q t h
        · exact ih q t h
      · exact ih q t h
    · rw [step_recent c w (fun v e => hc ⟨v, e⟩)] at h
      exact Nat.lt_of_lt_of_le (ih q t h) grows

/-- A port that was just opened for input will deliver the tokens of the file. -/
theorem delivers_open (hw : Reachable H w) {f : String} {t : List Char} {v : Data} (ht : w.disk f = some t)
    (ho : step H (.openInput (.str f)) w = (.ok v, w₁)) :
    v = .atom (.port w.files.length) ∧ Delivers H w.files.length f t (lex H.reader t) w₁ := by
  simp only [step, openInputImpl, ht, opened, Prod.mk.injEq, Out.ok.injEq] at ho
  obtain ⟨rfl, rfl⟩ := ho
  refine ⟨rfl, 0, by simp, ?_⟩
  have : tokenizerFor H { w with files := w.files ++ [⟨f, .input, 0, false⟩] } w.files.length t 0 = fresh H t 0 := by
    simp only [tokenizerFor]
    split
    · next q t' hq => rw [if_neg (Nat.ne_of_lt (recent_old hw q t' hq))]
    · rfl
  rw [this, tokens_fresh]; rfl

/-- C78: reading a port that was opened on a file gives the forms in the file one after the other and then the end-of-file
object again and again (or an error where the text breaks), whatever else the program does in between, as long as the file
keeps its text and no other port is read. -/
theorem C78_reads_partial (hw : Reachable H w) {f : String} {t : List Char} {ds : List Data} {b : Bool} {v : Data}
    {tr : List (Cmd × Out Data)} (ho : step H (.openInput (.str f)) w = (.ok v, w₁))
    (hr : Run H (fun w => w.disk f = some t) w₁ tr w₂) (hp : parseAll H.reader t = (ds, b))
    (hread : ∀ u r, (Cmd.read u, r) ∈ tr → u = v) (hclose : ∀ r, (Cmd.close v, r) ∉ tr) (i : Nat) (r : Out Data)
    (hi : (readsOf tr)[i]? = some r) :
    (∀ d, ds[i]? = some d → r = .ok d) ∧ (ds.length ≤ i → b = false → r = .ok eofObject) ∧
      (i = ds.length → b = true → ∃ e, r = .err e) := by
  have ht : w.disk f = some t := by
    have h1 : w₁.disk f = some t := by cases hr <;> assumption
    have h2 : w₁.disk = w.disk := by
      have : (step H (.openInput (.str f)) w).2.disk = w.disk := by
        simp only [step, openInputImpl]
        split <;> rfl
      rw [ho] at this; exact this
    rw [← h2]; exact h1
  obtain ⟨rfl, hd⟩ := delivers_open hw ht ho
  have hreads : Reads H.reader (lex H.reader t) ds b := by
    have := reads_parseAllN H.reader ((lex H.reader t).length + 1) (lex H.reader t) (Nat.lt_succ_self _)
    have he : parseAllN H.reader ((lex H.reader t).length + 1) (lex H.reader t) = (ds, b) := hp
    rwa [he] at this
  exact reads_spec hr hd hreads hread hclose i r hi

/-- C78: at an illegal character every read is an error; the port never gets past it. -/
theorem C78_illegal (hw : Reachable H w) {f : String} {t : List Char} {v : Data} {tr : List (Cmd × Out Data)}
    (ho : step H (.openInput (.str f)) w = (.ok v, w₁)) (hr : Run H (fun w => w.disk f = some t) w₁ tr w₂)
    (hl : (lex H.reader t).head? = some .illegal)
    (hread : ∀ u r, (Cmd.read u, r) ∈ tr → u = v) (hclose : ∀ r, (Cmd.close v, r) ∉ tr) :
    ∀ r ∈ readsOf tr, ∃ e, r = .err e := by
  have ht : w.disk f = some t := by
    have h1 : w₁.disk f = some t := by cases hr <;> assumption
    have h2 : (step H (.openInput (.str f)) w).2.disk = w.disk := by
      simp only [step, openInputImpl]
      split <;> rfl
    rw [ho] at h2; rw [← h2]; exact h1
  obtain ⟨rfl, hd⟩ := delivers_open hw ht ho
  have hp : parseExpr H.reader (lex H.reader t) = .err := by
    cases e : lex H.reader t with
    | nil => rw [e] at hl; simp at hl
    | cons a l => rw [e] at hl; simp only [List.head?_cons, Option.some.injEq] at hl; subst hl; rfl
  clear ho ht
  induction hr with
  | nil _ => intro r h; simp [readsOf] at h
  | @cons w₀ c tr w' hI hrun ih =>
    have ih' := fun hd => ih hd (fun u r h => hread u r (List.mem_cons_of_mem _ h)) (fun r h => hclose r (List.mem_cons_of_mem _ h))
    by_cases hc : ∃ u, c = .read u
    · obtain ⟨u, rfl⟩ := hc
      obtain rfl := hread u _ (List.mem_cons_self ..)
      obtain ⟨-, -, k3⟩ := delivers_read hd hI
      obtain ⟨g1, g2⟩ := k3 hp
      intro r h
      rcases List.mem_cons.1 h with rfl | h
      · exact g1
      · exact ih' (g2 hl) r h
    · have := ih' (delivers_step hd (fun v e => hc ⟨v, e⟩) (fun e => hclose (step H c w₀).1 (by rw [← e]; exact List.mem_cons_self ..)))
      cases c <;> first | exact this | exact absurd ⟨_, rfl⟩ hc

/-! ### Writing -/

theorem putTo_disk (msg : String) (s : List Char) (ps : List Data) (w : World) (f : String)
    (h : ∀ p us hd, ps = .atom (.port p) :: us → w.files[p]? = some hd → hd.path ≠ f ∨ hd.mode = .input) :
    (putTo msg s ps w).2.disk f = w.disk f := by
  unfold putTo
  split
  · rfl
  · next _ p us =>
    unfold putText
    split
    · next path pos hp =>
      have := (h p us _ rfl hp).resolve_right (by simp)
      show (if f = path then _ else w.disk f) = _
      rw [if_neg (Ne.symm this)]
    · next path pos hp =>
      have := (h p us _ rfl hp).resolve_right (by simp)
      show (if f = path then _ else w.disk f) = _
      rw [if_neg (Ne.symm this)]
    · rfl
  · rfl

/-- C78: a call changes the text of a file only by opening the file for output or by writing to a port that is open for
output on it. -/
theorem C78_untouched (c : Cmd) (w : World) (f : String) (h1 : ∀ app, c ≠ .openOutput (.str f) app)
    (h2 : ∀ p h, target c = some p → w.files[p]? = some h → h.path ≠ f ∨ h.mode = .input) :
    (step H c w).2.disk f = w.disk f := by
  cases c with
  | openInput v =>
    simp only [step, openInputImpl]
    split
    · split <;> rfl
    · rfl
  | openOutput v app =>
    simp only [step, openOutputImpl]
    split
    · next path =>
      have hne : f ≠ path := fun e => h1 app (by rw [e])
      split
      · rfl
      split
      · show (if f = path then _ else w.disk f) = _
        rw [if_neg hne]
      · show (if f = path then _ else w.disk f) = _
        rw [if_neg hne]
    · rfl
  | close v => simp only [step, closeImpl]; split <;> rfl
  | writeString v ps =>
    simp only [step, writeStringImpl]
    split
    · exact putTo_disk _ _ _ _ _ fun p us hd e => h2 p hd (by subst e; rfl)
    · rfl
  | write v ps => exact putTo_disk _ _ _ _ _ fun p us hd e => h2 p hd (by subst e; rfl)
  | newline ps => exact putTo_disk _ _ _ _ _ fun p us hd e => h2 p hd (by subst e; rfl)
  | isEof v => rfl
  | read v =>
    simp only [step, readImpl]
    split
    · split
      · simp only [readFrom]
        split <;> rfl
      · rfl
    · rfl

/-- Port `p` is open for output on `f`, whose text is `t`, and the next text goes to its end. -/
def Fills (p : Nat) (f : String) (t : List Char) (w : World) : Prop :=
  w.disk f = some t ∧ ∃ m pos, w.files[p]? = some ⟨f, m, pos, false⟩ ∧ (m = .append ∨ m = .output ∧ pos = t.length)

theorem put_fills {p : Nat} {f : String} {t : List Char} (h : Fills p f t w) (s : List Char) :
    (putText p s w).1 = .ok .null ∧ Fills p f (t ++ s) (putText p s w).2 := by
  obtain ⟨hd, m, pos, hf, hm⟩ := h
  rcases hm with rfl | ⟨rfl, rfl⟩
  · simp only [putText, hf, hd, Option.getD_some]
    refine ⟨trivial, by simp [setDisk], .append, pos, hf, .inl rfl⟩
  · simp only [putText, hf, hd, Option.getD_some]
    refine ⟨trivial, ?_, .output, t.length + s.length, ?_, .inr ⟨rfl, by simp⟩⟩
    · simp [setPos, setDisk]
    · simp only [setPos, setDisk]
      rw [List.getElem?_modify_eq, hf]; rfl

theorem step_sent {p : Nat} {f : String} {t : List Char} (h : Fills p f t w) {c : Cmd} (hc : Counted c)
    (h1 : c ≠ .close (.atom (.port p))) (h2 : ∀ app, c ≠ .openOutput (.str f) app)
    (h3 : ∀ q h, target c = some q → q ≠ p → w.files[q]? = some h → h.path ≠ f ∨ h.mode = .input) :
    Fills p f (t ++ sent H (.atom (.port p)) c) (step H c w).2 := by
  by_cases ht : target c = some p
  · have wr : ∀ s, step H c w = putText p s w → sent H (.atom (.port p)) c = s → Fills p f (t ++ sent H (.atom (.port p)) c) (step H c w).2 := by
      intro s e1 e2; rw [e1, e2]; exact (put_fills h s).2
    cases c with
    | writeString v ps =>
      match ps, hc, ht with
      | [.atom (.port q)], _, ht =>
        cases ht
        cases v with
        | atom a =>
          cases a with
          | str s => exact wr s.toList rfl (by simp [sent])
          | _ => simpa [sent, step, writeStringImpl] using h
        | _ => simpa [sent, step, writeStringImpl] using h
      | [.null], _, ht => cases ht
      | [.cell _ _ _], _, ht => cases ht
    | write v ps =>
      match ps, hc, ht with
      | [.atom (.port q)], _, ht => cases ht; exact wr _ rfl (by simp [sent])
      | [.null], _, ht => cases ht
      | [.cell _ _ _], _, ht => cases ht
    | newline ps =>
      match ps, hc, ht with
      | [.atom (.port q)], _, ht => cases ht; exact wr _ rfl (by simp [sent])
      | [.null], _, ht => cases ht
      | [.cell _ _ _], _, ht => cases ht
    | _ => cases ht
  · have hs : sent H (.atom (.port p)) c = [] := by
      cases c with
      | writeString v ps =>
        match v, ps with
        | .str s, [u] => simp only [sent]; rw [if_neg (fun e => ht (by rw [e]; rfl))]
        | _, [] => simp [sent]
        | _, _ :: _ :: _ => simp [sent]
        | .null, _ => simp [sent]
        | .cell _ _ _, _ => simp [sent]
        | .atom a, [u] => cases a <;> first | rfl | (simp only [sent]; rw [if_neg (fun e => ht (by rw [e]; rfl))])
      | write v ps =>
        match ps with
        | [u] => simp only [sent]; rw [if_neg (fun e => ht (by rw [e]; rfl))]
        | [] => simp [sent]
        | _ :: _ :: _ => simp [sent]
      | newline ps =>
        match ps with
        | [u] => simp only [sent]; rw [if_neg (fun e => ht (by rw [e]; rfl))]
        | [] => simp [sent]
        | _ :: _ :: _ => simp [sent]
      | _ => rfl
    rw [hs, List.append_nil]
    obtain ⟨hd, m, pos, hf, hm⟩ := h
    obtain ⟨⟨path, m', pos', cl⟩, g1, g2, g3, g4, g5⟩ := step_files (H := H) c w p _ hf
    have hr : c ≠ .read (.atom (.port p)) ∨ (step H c w).2.files[p]? = w.files[p]? := by
      by_cases e : c = .read (.atom (.port p))
      · subst e
        right
        have hmi : m ≠ .input := by rcases hm with rfl | ⟨rfl, _⟩ <;> simp
        simp only [step, readImpl, hf]
        split
        · next e => cases e; exact absurd rfl hmi
        · exact hf
      · exact .inl e
    refine ⟨?_, ?_⟩
    · rw [C78_untouched c w f h2]
      · exact hd
      · intro q h hq hh
        exact h3 q h hq (fun e => ht (by rw [← e]; exact hq)) hh
    · rcases hr with hr | hr
      · have e := g5 (.inr ht) hr
        have e' := g4 h1
        dsimp only at g2 g3 e e'
        subst g2 g3 e e'
        exact ⟨_, _, g1, hm⟩
      · exact ⟨m, pos, by rw [hr]; exact hf, hm⟩

theorem written {p : Nat} {f : String} {w₀ : World} {I : World → Prop} {tr : List (Cmd × Out Data)} (hr : Run H I w tr w₂) :
    ∀ {t : List Char}, Fills p f t w →
    (∀ q h, w.files[q]? = some h → q ≠ p → (h.path ≠ f ∨ h.mode = .input) ∨
      ∃ h₀, w₀.files[q]? = some h₀ ∧ h₀.path = f) →
    (∀ c r, (c, r) ∈ tr → Counted c ∧ c ≠ .close (.atom (.port p)) ∧ (∀ app, c ≠ .openOutput (.str f) app) ∧
      ∀ q h, target c = some q → q ≠ p → w₀.files[q]? = some h → h.path ≠ f) →
    Fills p f (t ++ (tr.map fun x => sent H (.atom (.port p)) x.1).flatten) w₂ := by
  induction hr with
  | nil _ => intro t h _ _; simpa using h
  | @cons w c tr w' hI hrun ih =>
    intro t h hold htr
    obtain ⟨a1, a2, a3, a4⟩ := htr c _ (List.mem_cons_self ..)
    have hstep := step_sent (H := H) h a1 a2 a3 (fun q h hq hne hh => by
      rcases hold q h hh hne with hk | ⟨h₀, g1, g2⟩
      · exact hk
      · exact absurd g2 (a4 q h₀ hq hne g1))
    have := ih hstep ?_ (fun c r hm => htr c r (List.mem_cons_of_mem _ hm))
    · simpa using this
    · intro q h' hq hne
      by_cases hlt : q < w.files.length
      · obtain ⟨h'', g1, g2, g3, -⟩ := step_files (H := H) c w q w.files[q] (List.getElem?_eq_getElem hlt)
        rw [hq] at g1; cases g1
        rcases hold q _ (List.getElem?_eq_getElem hlt) hne with hk | hk
        · left; rw [g2, g3]; exact hk
        · exact .inr hk
      · left
        have put : ∀ (w' : World) pp (g : Ports.File → Ports.File), w'.files = w.files.modify pp g → w'.files[q]? ≠ some h' := by
          intro w' pp g e hs
          rw [e] at hs
          have := (List.getElem?_eq_some_iff.1 hs).1
          rw [List.length_modify] at this
          exact hlt this
        have same : ∀ w' : World, w'.files = w.files → w'.files[q]? ≠ some h' := by
          intro w' e hs
          rw [e] at hs
          exact hlt (List.getElem?_eq_some_iff.1 hs).1
        have grown : ∀ (w' : World) g, w'.files = w.files ++ [g] → w'.files[q]? = some h' → h' = g := by
          intro w' g e hs
          rw [e, List.getElem?_append_right (Nat.le_of_not_lt hlt)] at hs
          cases hk : q - w.files.length with
          | zero => rw [hk] at hs; simpa using hs.symm
          | succ n => rw [hk] at hs; simp at hs
        have puts : ∀ msg s ps, (putTo msg s ps w).2.files[q]? ≠ some h' := by
          intro msg s ps
          unfold putTo
          split
          · exact same _ rfl
          · unfold putText
            split
            · exact put _ _ _ rfl
            · exact same _ rfl
            · exact same _ rfl
          · exact same _ rfl
        cases c with
        | openInput v =>
          simp only [step, openInputImpl] at hq
          split at hq
          · split at hq
            · exact .inr (by rw [grown _ _ rfl hq])
            · exact absurd hq (same _ rfl)
          · exact absurd hq (same _ rfl)
        | openOutput v app =>
          simp only [step, openOutputImpl] at hq
          split at hq
          · next path =>
            have hne : path ≠ f := fun e => a3 app (by rw [e])
            split at hq
            · exact absurd hq (same _ rfl)
            split at hq
            · exact .inl (by rw [grown _ _ rfl hq]; exact hne)
            · exact .inl (by rw [grown _ _ rfl hq]; exact hne)
          · exact absurd hq (same _ rfl)
        | close v =>
          simp only [step, closeImpl] at hq
          split at hq
          · exact absurd hq (put _ _ _ rfl)
          · exact absurd hq (same _ rfl)
        | writeString v ps =>
          simp only [step, writeStringImpl] at hq
          split at hq
          · exact absurd hq (puts _ _ _)
          · exact absurd hq (same _ rfl)
        | write v ps => exact absurd hq (puts _ _ _)
        | newline ps => exact absurd hq (puts _ _ _)
        | isEof v => exact absurd hq (same _ rfl)
        | read v =>
          simp only [step, readImpl] at hq
          split at hq
          · split at hq
            · simp only [readFrom] at hq
              split at hq
              · exact absurd hq (put _ _ _ rfl)
              · exact absurd hq (put _ _ _ rfl)
              · exact absurd hq (put _ _ _ rfl)
              · exact absurd hq (same _ rfl)
            · exact absurd hq (same _ rfl)
          · exact absurd hq (same _ rfl)

theorem fills_open {f : String} {app : Bool} {v : Data} (ho : step H (.openOutput (.str f) app) w = (.ok v, w₁)) :
    v = .atom (.port w.files.length) ∧ w₁.files = w.files ++ [⟨f, if app then .append else .output, 0, false⟩] ∧
    Fills w.files.length f (if app then (w.disk f).getD [] else []) w₁ := by
  simp only [step, openOutputImpl] at ho
  split at ho
  · cases ho
  cases app with
  | true =>
    simp only [if_true, opened, Prod.mk.injEq, Out.ok.injEq] at ho
    obtain ⟨rfl, rfl⟩ := ho
    exact ⟨rfl, rfl, by simp [setDisk], .append, 0, by simp [setDisk], .inl rfl⟩
  | false =>
    simp only [Bool.false_eq_true, if_false, opened, Prod.mk.injEq, Out.ok.injEq] at ho
    obtain ⟨rfl, rfl⟩ := ho
    exact ⟨rfl, rfl, by simp [setDisk], .output, 0, by simp [setDisk], .inr ⟨rfl, rfl⟩⟩

/-- C78: a file opened for output holds what the program has sent to the port since, in order, after the old text if it was
opened for appending; whatever else the program does, as long as it does not open that file for output again or write to it
through a port it had before. -/
theorem C78_written {f : String} {app : Bool} {v : Data} {tr : List (Cmd × Out Data)}
    (ho : step H (.openOutput (.str f) app) w = (.ok v, w₁)) (hr : Run H (fun _ => True) w₁ tr w₂)
    (hc : ∀ c r, (c, r) ∈ tr → Counted c) (hclose : ∀ r, (Cmd.close v, r) ∉ tr)
    (hopen : ∀ app' r, (Cmd.openOutput (.str f) app', r) ∉ tr)
    (hold : ∀ c r q h, (c, r) ∈ tr → target c = some q → w.files[q]? = some h → h.path ≠ f) :
    w₂.disk f = some ((if app then (w.disk f).getD [] else []) ++ (tr.map fun x => sent H v x.1).flatten) := by
  obtain ⟨rfl, hfs, hf⟩ := fills_open ho
  refine (written (w₀ := w) hr hf (fun q h hq hne => ?_) (fun c r hm => ⟨hc c r hm, fun e => hclose r (e ▸ hm), fun app' e => hopen app' r (e ▸ hm),
    fun q h hq _ hh => hold c r q h hm hq hh⟩)).1
  rw [hfs] at hq
  have hlt := (List.getElem?_eq_some_iff.1 hq).1
  rw [List.length_append, List.length_singleton] at hlt
  have hlt : q < w.files.length := by omega
  rw [List.getElem?_append_left hlt] at hq
  by_cases hp : h.path = f
  · exact .inr ⟨h, hq, hp⟩
  · exact .inl (.inl hp)

/-! ### Writing and reading back -/

/-- Each value on a line of its own. -/
def listing (H : Ports.Host) (ds : List Data) : List Char := (ds.map fun d => print H.reader d ++ ['\n']).flatten

theorem lex_newline (R : Reader.Host) (cs : List Char) : lex R ('\n' :: cs) = lex R cs :=
  lex_space R _ (by rw [isSpace_ascii R _ (by decide)]; decide) _

theorem reads_listing : ∀ (ds : List Data), (∀ d ∈ ds, Readable H.reader d) → Reads H.reader (lex H.reader (listing H ds)) ds false
  | [], _ => .eof ((parses_iff _ _ _).2 rfl)
  | d :: ds, h => by
    have hd := h d (List.mem_cons_self ..)
    have e : listing H (d :: ds) = print H.reader d ++ ('\n' :: listing H ds) := by simp [listing]
    have hstop : Stop H.reader ('\n' :: listing H ds) :=
      stop_cons H.reader _ _ (by rw [isSym_ascii H.reader _ (by decide)]; decide) (by rw [isNumber_ascii H.reader _ (by decide)]; decide)
    rw [e, lex_print H.reader d hd _ hstop, lex_newline]
    exact .form ((parses_iff _ _ _).2 (parse_toks H.reader hd _).symm) (reads_listing ds fun d hm => h d (List.mem_cons_of_mem _ hm))

theorem run_split {I : World → Prop} {b : List (Cmd × Out Data)} : ∀ {a : List (Cmd × Out Data)} {w : World}, Run H I w (a ++ b) w₂ →
    ∃ w₁, Run H I w a w₁ ∧ Run H I w₁ b w₂
  | [], w, h => ⟨w, by
      have : I w := by cases b <;> cases h <;> assumption
      exact .nil this, h⟩
  | x :: a, w, h => by
    cases h with
    | cons hI h =>
      obtain ⟨w₁, h1, h2⟩ := run_split h
      exact ⟨w₁, .cons hI h1, h2⟩

theorem run_reads {f : String} {tr : List (Cmd × Out Data)} {v : Data} (hr : Run H (fun _ => True) w tr w₂)
    (hc : ∀ c r, (c, r) ∈ tr → c = .read v) {t : List Char} (ht : w.disk f = some t) : Run H (fun w => w.disk f = some t) w tr w₂ := by
  induction hr with
  | nil _ => exact .nil ht
  | @cons w c tr w' _ _ ih =>
    have e := hc c _ (List.mem_cons_self ..)
    subst e
    refine .cons ht (ih (fun c r h => hc c r (List.mem_cons_of_mem _ h)) ?_)
    rw [C78_untouched]
    · exact ht
    · simp
    · intro p h hp; cases hp

theorem run_cons {I : World → Prop} {c : Cmd} {r : Out Data} {tr : List (Cmd × Out Data)} (h : Run H I w ((c, r) :: tr) w₂) :
    I w ∧ r = (step H c w).1 ∧ Run H I (step H c w).2 tr w₂ := by
  generalize e : (c, r) :: tr = l at h
  cases h with
  | nil => cases e
  | cons hI h => cases e; exact ⟨hI, rfl, h⟩

theorem readsOf_length {q : Data} : ∀ {tr : List (Cmd × Out Data)}, (∀ c r, (c, r) ∈ tr → c = .read q) → (readsOf tr).length = tr.length
  | [], _ => rfl
  | (c, r) :: tr, h => by
    obtain rfl := h c r (List.mem_cons_self ..)
    simp only [readsOf, List.length_cons, readsOf_length fun c r hm => h c r (List.mem_cons_of_mem _ hm)]

theorem reachable_run {I : World → Prop} {tr : List (Cmd × Out Data)} (hr : Run H I w tr w₂) (hw : Reachable H w) : Reachable H w₂ := by
  induction hr with
  | nil _ => exact hw
  | cons _ _ ih => exact ih (.step _ hw)

/-- C78: readable values, written to a file one per line, are what is read back from it, and then comes the end of the
file. -/
theorem C78_round_trip (hw : Reachable H w) {f : String} {ds : List Data} (hd : ∀ d ∈ ds, Readable H.reader d) {p q : Data}
    {tr tr' : List (Cmd × Out Data)} {r : Out Data} {n : Nat}
    (hr : Run H (fun _ => True) w ((.openOutput (.str f) false, .ok p) :: tr ++ (.close p, r) :: (.openInput (.str f), .ok q) :: tr') w₂)
    (h1 : tr.map (·.1) = ds.flatMap fun d => [.write d [p], .newline [p]]) (h2 : tr'.map (·.1) = List.replicate n (.read q)) :
    readsOf tr' = (ds.map Out.ok ++ List.replicate n (Out.ok eofObject)).take n := by
  obtain ⟨-, hp, hr⟩ := run_cons hr
  obtain ⟨w₃, hr1, hr⟩ := run_split hr
  obtain ⟨-, -, hr⟩ := run_cons hr
  obtain ⟨-, hq, hr⟩ := run_cons hr
  have ho : step H (.openOutput (.str f) false) w = (.ok p, (step H (.openOutput (.str f) false) w).2) := by rw [hp]
  have hmem : ∀ c r, (c, r) ∈ tr → ∃ d, c = .write d [p] ∨ c = .newline [p] := by
    intro c r hm
    have : c ∈ tr.map (·.1) := List.mem_map_of_mem (f := (·.1)) hm
    rw [h1, List.mem_flatMap] at this
    obtain ⟨d, -, hd⟩ := this
    simp only [List.mem_cons, List.not_mem_nil, or_false] at hd
    exact ⟨d, hd⟩
  obtain ⟨hpv, hfs, -⟩ := fills_open ho
  have hdisk : w₃.disk f = some (listing H ds) := by
    have := C78_written ho hr1 (fun c r hm => ?_) (fun r hm => ?_) (fun app r hm => ?_) (fun c r q h hm hq hh => ?_)
    · rw [this]
      have e : (tr.map fun x => sent H p x.1) = (tr.map (·.1)).map (sent H p) := by rw [List.map_map]; rfl
      simp only [Bool.false_eq_true, if_false, List.nil_append, e, h1, listing]
      congr 1
      clear this hr1 hr hd h1 hmem hfs hq e
      induction ds with
      | nil => rfl
      | cons d ds ih => simp only [List.flatMap_cons, List.map_append, List.map_cons, List.map_nil, List.flatten_append, ih, sent, if_true,
          List.flatten_cons, List.flatten_nil, List.append_nil]
    · obtain ⟨d, rfl | rfl⟩ := hmem c r hm <;> exact Nat.le_refl 1
    · obtain ⟨d, h | h⟩ := hmem _ r hm <;> cases h
    · obtain ⟨d, h | h⟩ := hmem _ r hm <;> cases h
    · have : q = w.files.length := by
        subst hpv
        obtain ⟨d, rfl | rfl⟩ := hmem c r hm <;> (cases hq; rfl)
      subst this
      simp at hh
  have hw3 : Reachable H w₃ := reachable_run hr1 (.step _ hw)
  have hw4 : Reachable H (step H (.close p) w₃).2 := .step _ hw3
  have hdisk4 : (step H (.close p) w₃).2.disk f = some (listing H ds) := by
    rw [C78_untouched _ _ _ (by simp) (fun p h hp => by cases hp)]; exact hdisk
  have hdisk5 : (step H (.openInput (.str f)) (step H (.close p) w₃).2).2.disk f = some (listing H ds) := by
    rw [C78_untouched _ _ _ (by simp) (fun p h hp => by cases hp)]; exact hdisk4
  have hall : ∀ c r, (c, r) ∈ tr' → c = .read q := by
    intro c r hm
    have : c ∈ tr'.map (·.1) := List.mem_map_of_mem (f := (·.1)) hm
    rw [h2] at this
    exact (List.mem_replicate.1 this).2
  have hlen : (readsOf tr').length = n := by
    have : (readsOf tr').length = tr'.length := readsOf_length hall
    rw [this, ← List.length_map (f := (·.1)), h2, List.length_replicate]
  have hparse : parseAll H.reader (listing H ds) = (ds, false) :=
    ((C16_parse_all_total H.reader _ _ _).1 ⟨_, (C16_lex_total H.reader _ _).2 rfl, reads_listing ds hd⟩).symm
  have key := C78_reads_partial hw4 (by rw [hq]) (run_reads hr hall hdisk5) hparse
    (fun u r hm => by have := hall _ r hm; cases this; rfl) (fun r hm => by have := hall _ r hm; cases this)
  refine List.ext_getElem? fun i => ?_
  by_cases hi : i < n
  · have hri : (readsOf tr')[i]? = some ((readsOf tr')[i]'(by omega)) := List.getElem?_eq_getElem (by omega)
    obtain ⟨k1, k2, -⟩ := key i _ hri
    rw [hri, List.getElem?_take, if_pos hi]
    by_cases hi' : i < ds.length
    · rw [k1 ds[i] (List.getElem?_eq_getElem hi'), List.getElem?_append_left (by simpa using hi'), List.getElem?_map, List.getElem?_eq_getElem hi']
      rfl
    · rw [k2 (by omega) rfl, List.getElem?_append_right (by simp; omega), List.getElem?_replicate, if_pos (by simp; omega)]
  · rw [List.getElem?_eq_none (by omega), List.getElem?_take, if_neg hi]

/-! ### Where it fails -/

/-- The text of a file "a" and of a file "b". -/
def twoFiles (a b : String) : World :=
  { disk := fun f => if f = "a" then some a.toList else if f = "b" then some b.toList else none, files := [], out := [], recent := none }

/-- A host for examples: no buffering. -/
def plain : Ports.Host := ⟨asciiHost, fun _ => false, fun _ => 0, fun _ => 0⟩

theorem nextN_congr {G : Ports.Host} (h : H.reader = G.reader) : ∀ n cs, nextN H n cs = nextN G n cs
  | 0, cs => rfl
  | n + 1, cs => by
    simp only [nextN, h]
    split
    · exact nextN_congr h n _
    · rfl

theorem consume_pos {text : List Char} {t : Tokenizer} {pos : Nat} (h : t.look ≠ .eof) :
    text.length - (Ports.next H (pending text t.buf pos)).2.length ≤ (consume H text t pos).2 := by
  simp only [consume, h, if_false]
  omega

/-- C78: with two open ports, reading the second one loses input of the first: after 1 has been read from a file with the text
`1 2 3`, and something from another file, the next read of the first does not give 2, however the reader fills its
buffer. -/
theorem C78_two_ports_violation (hH : H.reader = asciiHost) : ∃ r w₂, Run H (fun _ => True) (twoFiles "1 2 3" "x")
      [(.openInput (.str "a"), .ok (.atom (.port 0))), (.openInput (.str "b"), .ok (.atom (.port 1))), (.read (.atom (.port 0)), .ok (.int 1)),
       (.read (.atom (.port 1)), .ok (.sym "x")), (.read (.atom (.port 0)), r)] w₂ ∧ (r = .ok (.int 3) ∨ r = .ok eofObject) := by
  let w₀ := twoFiles "1 2 3" "x"
  let w₁ := (step H (.openInput (.str "a")) w₀).2
  let w₂ := (step H (.openInput (.str "b")) w₁).2
  let w₃ := (step H (.read (.atom (.port 0))) w₂).2
  let w₄ := (step H (.read (.atom (.port 1))) w₃).2
  let ta := "1 2 3".toList
  have hda : ∀ w : World, w.disk = w₀.disk → w.disk "a" = some ta := fun w h => by rw [h]; rfl
  have hdb : ∀ w : World, w.disk = w₀.disk → w.disk "b" = some "x".toList := fun w h => by rw [h]; rfl
  -- the first read
  have hrec2 : w₂.recent = none := rfl
  have d0 : Delivers H 0 "a" ta [.number ['1'], .number ['2'], .number ['3'], .eof] w₂ := by
    refine ⟨0, rfl, ?_⟩
    have : tokenizerFor H w₂ 0 ta 0 = fresh H ta 0 := rfl
    rw [this, tokens_fresh, hH]; decide
  have p0 : parseExpr H.reader [.number ['1'], .number ['2'], .number ['3'], .eof] = .ok (.int 1) [.number ['2'], .number ['3'], .eof] := by
    rw [hH]; decide
  obtain ⟨r3, -⟩ := (delivers_read d0 (hda w₂ rfl)).1 _ _ p0
  -- where it leaves the position
  have hw3 : ∃ pos, w₃.files[0]? = some ⟨"a", .input, pos, false⟩ ∧ w₃.files[1]? = some ⟨"b", .input, 0, false⟩ ∧ 3 ≤ pos ∧
      w₃.disk = w₀.disk ∧ ∃ t, w₃.recent = some (0, t) := by
    have hx : (tokens H ta (fresh H ta 0).1 (fresh H ta 0).2) = [.number ['1'], .number ['2'], .number ['3'], .eof] := by
      rw [tokens_fresh, hH]; decide
    have hlook : (fresh H ta 0).1.look = .number ['1'] := by simpa [tokens] using congrArg List.head? hx
    have e0 : w₃ = { setPos w₂ 0 (consume H ta (fresh H ta 0).1 (fresh H ta 0).2).2 with
        recent := some (0, (consume H ta (fresh H ta 0).1 (fresh H ta 0).2).1) } := by
      have hs : step H (.read (.atom (.port 0))) w₂ = readFrom H w₂ 0 ta 0 := rfl
      have ht : tokenizerFor H w₂ 0 ta 0 = fresh H ta 0 := rfl
      show (step H (.read (.atom (.port 0))) w₂).2 = _
      rw [hs]
      simp only [readFrom, ht, hx, p0]
      rfl
    have hpend : pending ta (fresh H ta 0).1.buf (fresh H ta 0).2 = " 2 3".toList := by
      have := (consume_spec H (text := ta) (t := ⟨.illegal, []⟩) (pos := 0) (by simp)).2.2 (by
        show (fresh H ta 0).1.look ≠ .eof
        rw [hlook]; simp)
      refine this.trans ?_
      rw [Ports.next, nextN_congr (G := plain) hH]
      decide
    have hpos := consume_pos (H := H) (text := ta) (t := (fresh H ta 0).1) (pos := (fresh H ta 0).2) (by rw [hlook]; simp)
    rw [hpend] at hpos
    have hn : (Ports.next H " 2 3".toList).2.length = 2 := by
      rw [Ports.next, nextN_congr (G := plain) hH]
      decide
    rw [hn] at hpos
    rw [e0]
    exact ⟨_, rfl, rfl, hpos, rfl, _, rfl⟩
  obtain ⟨pos, f0, f1, hpos, hdk, t3, hrec3⟩ := hw3
  -- the read of the other port
  have d1 : Delivers H 1 "b" "x".toList [.symbol ['x'], .eof] w₃ := by
    refine ⟨0, f1, ?_⟩
    have : tokenizerFor H w₃ 1 "x".toList 0 = fresh H "x".toList 0 := by simp only [tokenizerFor, hrec3]; rfl
    rw [this, tokens_fresh, hH]; decide
  have p1 : parseExpr H.reader [.symbol ['x'], .eof] = .ok (.sym "x") [.eof] := by rw [hH]; decide
  obtain ⟨r4, -⟩ := (delivers_read d1 (hdb w₃ hdk)).1 _ _ p1
  have hw4 : w₄.files[0]? = some ⟨"a", .input, pos, false⟩ ∧ w₄.disk = w₀.disk ∧ ∃ t, w₄.recent = some (1, t) := by
    have hs : step H (.read (.atom (.port 1))) w₃ = readFrom H w₃ 1 "x".toList 0 := by
      simp only [step, readImpl, f1, hdb w₃ hdk, Option.getD_some]
    have ht : tokenizerFor H w₃ 1 "x".toList 0 = fresh H "x".toList 0 := by simp only [tokenizerFor, hrec3]; rfl
    have hx : (tokens H "x".toList (fresh H "x".toList 0).1 (fresh H "x".toList 0).2) = [.symbol ['x'], .eof] := by
      rw [tokens_fresh, hH]; decide
    have e : w₄ = (readFrom H w₃ 1 "x".toList 0).2 := by rw [← hs]
    simp only [readFrom, ht, hx, p1] at e
    rw [e]
    refine ⟨?_, hdk, _, rfl⟩
    simp only [setPos]
    rw [List.getElem?_modify_ne _ _ (by decide)]; exact f0
  obtain ⟨g0, hdk4, t4, hrec4⟩ := hw4
  -- the second read of the first port
  have ht : tokenizerFor H w₄ 0 ta pos = fresh H ta pos := by simp only [tokenizerFor, hrec4]; rfl
  have d2 : ∀ ts, lex H.reader (ta.drop pos) = ts → Delivers H 0 "a" ta ts w₄ := fun ts e => ⟨pos, g0, by rw [ht, tokens_fresh, e]⟩
  refine ⟨(step H (.read (.atom (.port 0))) w₄).1, (step H (.read (.atom (.port 0))) w₄).2, ?_, ?_⟩
  · have key : Run H (fun _ => True) w₀
        [(.openInput (.str "a"), (step H (.openInput (.str "a")) w₀).1), (.openInput (.str "b"), (step H (.openInput (.str "b")) w₁).1),
         (.read (.atom (.port 0)), (step H (.read (.atom (.port 0))) w₂).1), (.read (.atom (.port 1)), (step H (.read (.atom (.port 1))) w₃).1),
         (.read (.atom (.port 0)), (step H (.read (.atom (.port 0))) w₄).1)] _ :=
      .cons trivial (.cons trivial (.cons trivial (.cons trivial (.cons trivial (.nil trivial)))))
    rw [r3, r4] at key
    exact key
  · have hcase : pos = 3 ∨ pos = 4 ∨ 5 ≤ pos := by omega
    rcases hcase with rfl | rfl | h5
    · left
      refine ((delivers_read (d2 [.number ['3'], .eof] (by rw [hH]; decide)) (hda w₄ hdk4)).1 (.int 3) [.eof] ?_).1
      rw [hH]; decide
    · left
      refine ((delivers_read (d2 [.number ['3'], .eof] (by rw [hH]; decide)) (hda w₄ hdk4)).1 (.int 3) [.eof] ?_).1
      rw [hH]; decide
    · right
      refine ((delivers_read (d2 [.eof] ?_) (hda w₄ hdk4)).2.1 rfl).1
      rw [List.drop_eq_nil_of_le (by exact h5)]; rfl

/-- C78: the end-of-file object is a symbol, so a file with that name in it seems to end there; and values written one after
the other without a newline run together. -/
theorem C78_text_violation (hH : H.reader = asciiHost) :
    (∃ r w₂, Run H (fun _ => True) (twoFiles "__EOF__ 1" "") [(.openInput (.str "a"), .ok (.atom (.port 0))), (.read (.atom (.port 0)), r),
      (.isEof eofObject, .ok (.bool true)), (.read (.atom (.port 0)), .ok (.int 1))] w₂ ∧ r = .ok eofObject) ∧
    (H.refuses "b" = false → ∃ w₂ r₁ r₂ r₃, Run H (fun _ => True) (twoFiles "" "") [(.openOutput (.str "b") false, .ok (.atom (.port 0))),
      (.write (.int 1) [.atom (.port 0)], r₁), (.write (.int 2) [.atom (.port 0)], r₂), (.close (.atom (.port 0)), r₃),
      (.openInput (.str "b"), .ok (.atom (.port 1))), (.read (.atom (.port 1)), .ok (.int 12))] w₂) := by
  constructor
  · let w₀ := twoFiles "__EOF__ 1" ""
    let w₁ := (step H (.openInput (.str "a")) w₀).2
    have d0 : Delivers H 0 "a" "__EOF__ 1".toList [.symbol "__EOF__".toList, .number ['1'], .eof] w₁ := by
      refine ⟨0, rfl, ?_⟩
      have : tokenizerFor H w₁ 0 "__EOF__ 1".toList 0 = fresh H "__EOF__ 1".toList 0 := rfl
      rw [this, tokens_fresh, hH]; decide
    obtain ⟨r1, d1⟩ := (delivers_read d0 rfl).1 eofObject [.number ['1'], .eof] (by rw [hH]; decide)
    have hd : (step H (.read (.atom (.port 0))) w₁).2.disk "a" = some "__EOF__ 1".toList := by
      rw [C78_untouched _ _ _ (by simp) (fun p h hp => by cases hp)]; rfl
    obtain ⟨r2, -⟩ := (delivers_read d1 hd).1 (.int 1) [.eof] (by rw [hH]; decide)
    have key : Run H (fun _ => True) w₀ [(.openInput (.str "a"), (step H (.openInput (.str "a")) w₀).1),
        (.read (.atom (.port 0)), (step H (.read (.atom (.port 0))) w₁).1), (.isEof eofObject, .ok (.bool true)),
        (.read (.atom (.port 0)), (step H (.read (.atom (.port 0))) (step H (.read (.atom (.port 0))) w₁).2).1)] _ :=
      .cons trivial (.cons trivial (.cons trivial (.cons trivial (.nil trivial))))
    rw [r2] at key
    exact ⟨_, _, key, r1⟩
  · intro hr
    let w₀ := twoFiles "" ""
    have h0 : step H (.openOutput (.str "b") false) w₀ = (.ok (.atom (.port 0)), (step H (.openOutput (.str "b") false) w₀).2) := by
      simp only [step, openOutputImpl, hr]; rfl
    let w₁ := (step H (.openOutput (.str "b") false) w₀).2
    obtain ⟨-, hfs, hf1⟩ := fills_open h0
    let w₂ := (step H (.write (.int 1) [.atom (.port 0)]) w₁).2
    let w₃ := (step H (.write (.int 2) [.atom (.port 0)]) w₂).2
    let w₄ := (step H (.close (.atom (.port 0))) w₃).2
    let w₅ := (step H (.openInput (.str "b")) w₄).2
    have e1 : print H.reader (.int 1) = ['1'] := by rw [hH]; decide +kernel
    have e2 : print H.reader (.int 2) = ['2'] := by rw [hH]; decide +kernel
    have hf2 : Fills 0 "b" ([] ++ ['1']) w₂ := by rw [← e1]; exact (put_fills (p := 0) hf1 (print H.reader (.int 1))).2
    have hf3 : Fills 0 "b" ([] ++ ['1'] ++ ['2']) w₃ := by rw [← e2]; exact (put_fills hf2 (print H.reader (.int 2))).2
    have hd4 : w₄.disk "b" = some ['1', '2'] := hf3.1
    have hlen : ∀ (w : World) s, (putText 0 s w).2.files.length = w.files.length := by
      intro w s
      unfold putText
      split
      · exact List.length_modify ..
      · rfl
      · rfl
    have hl4 : w₄.files.length = 1 := by
      have h3 : w₄.files.length = w₃.files.length := List.length_modify ..
      have h2 : w₃.files.length = w₂.files.length := hlen _ _
      have h1 : w₂.files.length = w₁.files.length := hlen _ _
      rw [h3, h2, h1]
      show (step H (.openOutput (.str "b") false) w₀).2.files.length = 1
      rw [hfs]; rfl
    have hw4 : Reachable H w₄ := .step _ (.step _ (.step _ (.step _ (.start rfl rfl))))
    have h5 : step H (.openInput (.str "b")) w₄ = (.ok (.atom (.port 1)), w₅) := by
      show _ = (_, (step H (.openInput (.str "b")) w₄).2)
      simp only [step, openInputImpl, hd4, opened, hl4]
    obtain ⟨-, hdel⟩ := delivers_open hw4 hd4 h5
    rw [hl4] at hdel
    have hd5 : w₅.disk "b" = some ['1', '2'] := by
      show (step H (.openInput (.str "b")) w₄).2.disk "b" = _
      rw [C78_untouched _ _ _ (by simp) (fun p h hp => by cases hp)]; exact hd4
    obtain ⟨r6, -⟩ := (delivers_read hdel hd5).1 (.int 12) [.eof] (by rw [hH]; decide)
    have key : Run H (fun _ => True) w₀ [(.openOutput (.str "b") false, (step H (.openOutput (.str "b") false) w₀).1),
        (.write (.int 1) [.atom (.port 0)], (step H (.write (.int 1) [.atom (.port 0)]) w₁).1),
        (.write (.int 2) [.atom (.port 0)], (step H (.write (.int 2) [.atom (.port 0)]) w₂).1),
        (.close (.atom (.port 0)), (step H (.close (.atom (.port 0))) w₃).1),
        (.openInput (.str "b"), (step H (.openInput (.str "b")) w₄).1), (.read (.atom (.port 1)), (step H (.read (.atom (.port 1))) w₅).1)] _ :=
      .cons trivial (.cons trivial (.cons trivial (.cons trivial (.cons trivial (.cons trivial (.nil trivial))))))
    rw [r6, h0, h5] at key
    exact ⟨_, _, _, _, key⟩

/-! ### Examples -/

/-- A program as a sequence of calls, and what comes out. -/
def exec (H : Ports.Host) : List Cmd → World → List (Cmd × Out Data) × World
  | [], w => ([], w)
  | c :: cs, w => let x := exec H cs (step H c w).2; ((c, (step H c w).1) :: x.1, x.2)

theorem run_exec : ∀ (cs : List Cmd) (w : World), Run H (fun _ => True) w (exec H cs w).1 (exec H cs w).2
  | [], _ => .nil trivial
  | c :: cs, _ => .cons trivial (run_exec cs _)

/-- C78_reads_partial: the hypotheses hold of reading a file with a list, a comment and a symbol, with output in between. -/
example : ∃ w₁ w₂, Reachable plain (twoFiles "(1 2) ; c\n x" "") ∧
    step plain (.openInput (.str "a")) (twoFiles "(1 2) ; c\n x" "") = (.ok (.atom (.port 0)), w₁) ∧
    Run plain (fun w => w.disk "a" = some "(1 2) ; c\n x".toList) w₁
      [(.read (.atom (.port 0)), .ok (ofArray [.int 1, .int 2])), (.writeString (.str "z") [], .ok .null),
       (.read (.atom (.port 0)), .ok (.sym "x")), (.read (.atom (.port 0)), .ok eofObject)] w₂ ∧
    parseAll asciiHost "(1 2) ; c\n x".toList = ([ofArray [.int 1, .int 2], .sym "x"], false) := by
  let w := twoFiles "(1 2) ; c\n x" ""
  let w₁ := (step plain (.openInput (.str "a")) w).2
  let w₂ := (step plain (.read (.atom (.port 0))) w₁).2
  let w₃ := (step plain (.writeString (.str "z") []) w₂).2
  let w₄ := (step plain (.read (.atom (.port 0))) w₃).2
  have e1 : (step plain (.read (.atom (.port 0))) w₁).1 = .ok (ofArray [.int 1, .int 2]) := by decide +kernel
  have e2 : (step plain (.writeString (.str "z") []) w₂).1 = .ok .null := by decide +kernel
  have e3 : (step plain (.read (.atom (.port 0))) w₃).1 = .ok (.sym "x") := by decide +kernel
  have e4 : (step plain (.read (.atom (.port 0))) w₄).1 = .ok eofObject := by decide +kernel
  have key : Run plain (fun w => w.disk "a" = some "(1 2) ; c\n x".toList) w₁
      [(.read (.atom (.port 0)), (step plain (.read (.atom (.port 0))) w₁).1), (.writeString (.str "z") [], (step plain (.writeString (.str "z") []) w₂).1),
       (.read (.atom (.port 0)), (step plain (.read (.atom (.port 0))) w₃).1), (.read (.atom (.port 0)), (step plain (.read (.atom (.port 0))) w₄).1)] _ :=
    .cons (by decide +kernel) (.cons (by decide +kernel) (.cons (by decide +kernel) (.cons (by decide +kernel) (.nil (by decide +kernel)))))
  rw [e1, e2, e3, e4] at key
  exact ⟨w₁, _, .start rfl rfl, rfl, key, by decide +kernel⟩

/-- C78_written, C78_round_trip: a program that writes two values and reads them back. -/
example : (exec plain [.openOutput (.str "b") false, .write (ofArray [.sym "a", .str "x y"]) [.atom (.port 0)], .newline [.atom (.port 0)],
      .write (.int 7) [.atom (.port 0)], .newline [.atom (.port 0)], .close (.atom (.port 0)), .openInput (.str "b"),
      .read (.atom (.port 1)), .read (.atom (.port 1)), .read (.atom (.port 1))] (twoFiles "" "old")).1.map (·.2) =
    [.ok (.atom (.port 0)), .ok .null, .ok .null, .ok .null, .ok .null, .ok .null, .ok (.atom (.port 1)),
     .ok (ofArray [.sym "a", .str "x y"]), .ok (.int 7), .ok eofObject] := by decide +kernel

/-- C78_illegal: a text that starts with a stray `#`. -/
example : (lex asciiHost "#? 1".toList).head? = some .illegal ∧
    readsOf (exec plain [.openInput (.str "a"), .read (.atom (.port 0)), .read (.atom (.port 0))] (twoFiles "#? 1" "")).1 =
      [.err (.msg "syntax error"), .err (.msg "syntax error")] := by decide +kernel

/-- C78_untouched: writing to a port open for input. -/
example : (exec plain [.openInput (.str "a"), .writeString (.str "no") [.atom (.port 0)]] (twoFiles "1" "")).2.disk "a" = some ['1'] := by
  decide +kernel

end Golisp.Props
