import Verif.ChanInv
/-
Properties C51 and C52: channels deliver values once and in order; closing.
-/
namespace Golisp.Props
open Golisp Data Spec Chan

/-- In every execution, on every channel: the values received and those in the buffer are, in order, the values sent
successfully; these are a prefix of the values goroutines started to send, in the order they started (on an open channel
the missing ones are still waiting to be sent); and the buffer never holds more than the capacity, which never changes. -/
theorem C51_fifo {caps : List Nat} {calls : List (List Call)} {s : State} (h : Steps (start caps calls) s) {a : Nat}
    {ch : Channel} (hc : s.chans[a]? = some ch) :
    delivered a s.log ++ ch.buf = accepted a s.log ∧ accepted a s.log <+: offered a s.log ∧
    (ch.closed = false → accepted a s.log ++ ch.sendq.map (·.2) = offered a s.log) ∧
    ch.buf.length ≤ ch.cap ∧ caps[a]? = some ch.cap := by
  obtain ⟨h1, h2, rest, h3, h4⟩ := (inv_steps h).chan hc
  refine ⟨h2, ⟨rest, h3.symm⟩, fun ho => by rw [h3, h4 ho], h1.fits, ?_⟩
  clear h1 h2 h3 h4
  generalize hs : start caps calls = s₀ at h
  induction h generalizing a ch with
  | refl => subst hs; simp only [start, List.getElem?_map, Option.map_eq_some_iff] at hc; obtain ⟨n, h, rfl⟩ := hc; exact h
  | @tail s' s'' hst h2 ih =>
    subst hs
    have hI := inv_steps hst
    cases h2 with
    | @mk i t c cs ht hid hto =>
      unfold next at hc; split at hc
      · exact ih hc
      · rename_i b hp
        split at hc
        · exact ih hc
        · rename_i ch' hch'
          have hidle := hI.idle ht hid hch'
          have hop : OpOk ch' i c (operation ch' i c) := operation_ok (hI.chan hch').1 hidle.1 hidle.2
          by_cases hab : a = b
          · subst hab
            dsimp only at hc
            rw [List.getElem?_set_self (lt_of_get hch')] at hc
            cases hc; rw [hop.cap]; exact ih hch'
          · dsimp only at hc
            rw [List.getElem?_set_ne (Ne.symm hab)] at hc; exact ih hc

/-- What goroutines see is what happened: the values the results of a goroutine's reads show are those delivered to it, in
order, and the writes of which the goroutine sees success are those that succeeded, in order. -/
theorem C51_results {caps : List Nat} {calls : List (List Call)} {s : State} (h : Steps (start caps calls) s) {i : Nat}
    {t : Thread} (ht : s.threads[i]? = some t) (a : Nat) :
    t.done.filterMap (gotFrom a) = (deliveredTo i a s.log).map noNull ∧
    t.done.filterMap (sentTo a) = acceptedBy i a s.log :=
  (inv_steps h).thread ht a

/-- Goroutines make their calls in order, each once. -/
theorem C51_program_order {caps : List Nat} {calls : List (List Call)} {s : State} (h : Steps (start caps calls) s) {i : Nat}
    {cs : List Call} (hi : calls[i]? = some cs) :
    ∃ t, s.threads[i]? = some t ∧ t.done.map (·.1) ++ t.cur.toList ++ t.todo = cs := by
  generalize hs : start caps calls = s₀ at h
  induction h with
  | refl => subst hs; exact ⟨⟨none, cs, []⟩, by simp [start, hi], rfl⟩
  | @tail s' s'' hst h2 ih =>
    subst hs
    obtain ⟨t, ht, he⟩ := ih
    have hI := inv_steps hst
    cases h2 with
    | @mk k t' c cs' ht' hid hto =>
      unfold next; split
      · by_cases hk : i = k
        · subst hk; rw [ht] at ht'; cases ht'
          exact ⟨_, List.getElem?_set_self (lt_of_get ht), by rw [← he, hid, hto]; simp⟩
        · exact ⟨t, by dsimp only; rw [List.getElem?_set_ne (Ne.symm hk)]; exact ht, he⟩
      · rename_i b hp
        split
        · exact ⟨t, ht, he⟩
        · rename_i ch hch
          have hidle := hI.idle ht' hid hch
          have hop : OpOk ch k c (operation ch k c) := operation_ok (hI.chan hch).1 hidle.1 hidle.2
          have hlt : i < (wake (s'.threads.set k ⟨some c, cs', t'.done⟩) ((operation ch k c).ends k)).length := by
            rw [wake_length, List.length_set]; exact lt_of_get ht
          refine ⟨_, List.getElem?_eq_getElem hlt, ?_⟩
          have hset : ∀ t₀, (s'.threads.set k ⟨some c, cs', t'.done⟩)[i]? = some t₀ →
              t₀.done.map (·.1) ++ t₀.cur.toList ++ t₀.todo = cs := by
            intro t₀ h0
            by_cases hk : i = k
            · subst hk; rw [ht] at ht'; cases ht'
              rw [List.getElem?_set_self (lt_of_get ht)] at h0; cases h0
              rw [← he, hid, hto]; simp
            · rw [List.getElem?_set_ne (Ne.symm hk), ht] at h0; cases h0; exact he
          rcases next_thread hI ht' hid hch (pointer_some hp) hop (List.getElem?_eq_getElem hlt) with
            ⟨r, c', t₀, _, h0, h1, _, _, h2⟩ | ⟨_, h0⟩
          · rw [h2]; have := hset _ h0; rw [h1] at this; simpa using this
          · exact hset _ h0

/-- No missed wake-ups: a goroutine is blocked only in a read of an open channel where every value sent was received and
nobody waits to send, or in a write to an open channel whose buffer is full and that nobody waits to read. -/
theorem C51_blocked {caps : List Nat} {calls : List (List Call)} {s : State} (h : Steps (start caps calls) s) {i : Nat}
    {t : Thread} {c : Call} (ht : s.threads[i]? = some t) (hc : t.cur = some c) :
    ∃ a ch, s.chans[a]? = some ch ∧ ch.closed = false ∧
      ((c = .read (chanObj a) ∧ delivered a s.log = offered a s.log ∧
          ∀ (j : Nat) (t' : Thread) v, s.threads[j]? = some t' → t'.cur ≠ some (.write (chanObj a) v)) ∨
       ((∃ v, c = .write (chanObj a) v) ∧ ch.buf.length = ch.cap ∧
          ∀ (j : Nat) (t' : Thread), s.threads[j]? = some t' → t'.cur ≠ some (.read (chanObj a)))) := by
  have hI := inv_steps h
  obtain ⟨a, ch, hch, hk⟩ := hI.cur ht hc
  obtain ⟨hok, h2, rest, h3, h4⟩ := hI.chan hch
  rcases hk with rfl | ⟨v, rfl⟩
  · have hq : i ∈ ch.recvq := (hI.recvq hch).mpr ⟨t, ht, hc⟩
    have hne : ch.recvq ≠ [] := fun e => by rw [e] at hq; cases hq
    have hop : ch.closed = false := by
      cases hcl : ch.closed
      · rfl
      · exact absurd (hok.shut hcl).2 hne
    obtain ⟨hb, hs⟩ := hok.recv hne
    refine ⟨a, ch, hch, hop, .inl ⟨rfl, ?_, ?_⟩⟩
    · rw [h3, h4 hop, hs, ← h2, hb]; simp
    · intro j t' v hj hc'
      have := (hI.sendq hch).mpr ⟨t', hj, hc'⟩
      rw [hs] at this; cases this
  · have hq : (i, v) ∈ ch.sendq := (hI.sendq hch).mpr ⟨t, ht, hc⟩
    have hne : ch.sendq ≠ [] := fun e => by rw [e] at hq; cases hq
    have hop : ch.closed = false := by
      cases hcl : ch.closed
      · rfl
      · exact absurd (hok.shut hcl).1 hne
    refine ⟨a, ch, hch, hop, .inr ⟨⟨v, rfl⟩, hok.send hne, ?_⟩⟩
    intro j t' hj hc'
    have := (hI.recvq hch).mpr ⟨t', hj, hc'⟩
    exact hne (hok.recv (fun e => by rw [e] at this; cases this)).2

/-- How the call a goroutine makes ends for it. -/
private theorem next_self {s : State} (hI : Inv s) {i a : Nat} {t : Thread} {c : Call} {cs : List Call} {ch : Channel}
    (ht : s.threads[i]? = some t) (hid : t.cur = none) (ho : c.obj = chanObj a) (hch : s.chans[a]? = some ch) :
    (next s i t c cs).threads[i]? = some (match (operation ch i c).self with
      | some r => ⟨none, cs, t.done ++ [(c, result c r)]⟩
      | none => ⟨some c, cs, t.done⟩) := by
  have hidle := hI.idle ht hid hch
  have hop : OpOk ch i c (operation ch i c) := operation_ok (hI.chan hch).1 hidle.1 hidle.2
  have hn := hop.nodup
  unfold next
  rw [ho, pointer_chanObj]
  simp only [hch]
  cases hs : (operation ch i c).self with
  | some r =>
    rw [wake_mem (r := r) hn (by rw [Effect.ends, hs]; exact List.mem_cons_self ..), List.getElem?_set_self (lt_of_get ht)]
    rfl
  | none =>
    rw [wake_not, List.getElem?_set_self (lt_of_get ht)]
    rw [Effect.ends, hs]
    intro hm
    obtain ⟨p, hp, he⟩ := List.mem_map.mp hm
    rcases hop.others p hp with ⟨hq, _⟩ | ⟨v, hq, _⟩
    · exact hidle.1 (he ▸ hq)
    · exact hidle.2 (he ▸ List.mem_map_of_mem (f := (·.1)) hq)

private theorem set_get {α} {l : List α} {i : Nat} {x : α} (h : l[i]? = some x) : l.set i x = l := by
  apply List.ext_getElem?
  intro j
  by_cases hj : i = j
  · subst hj; rw [List.getElem?_set_self (lt_of_get h), h]
  · rw [List.getElem?_set_ne hj]

private theorem reader_waits {s : State} (hI : Inv s) {a : Nat} {ch : Channel} (hch : s.chans[a]? = some ch) :
    ReaderWaits s a ↔ ch.recvq ≠ [] := by
  constructor
  · rintro ⟨j, t, h1, h2⟩ e
    have := (hI.recvq hch).mpr ⟨t, h1, h2⟩
    rw [e] at this; cases this
  · intro h
    cases hr : ch.recvq with
    | nil => exact absurd hr h
    | cons j l =>
      obtain ⟨t, h1, h2⟩ := (hI.recvq hch).mp (show j ∈ ch.recvq by rw [hr]; simp)
      exact ⟨j, t, h1, h2⟩

/-- A write to an open channel: with a free slot or a waiting reader it succeeds at once, otherwise the goroutine blocks. -/
theorem C51_write {caps : List Nat} {calls : List (List Call)} {s : State} (h : Steps (start caps calls) s) {i a : Nat}
    {t : Thread} {v : Data} {cs : List Call} {ch : Channel} (ht : s.threads[i]? = some t) (hid : t.cur = none)
    (hch : s.chans[a]? = some ch) (hop : ch.closed = false) :
    (ch.buf.length < ch.cap ∨ ReaderWaits s a → (next s i t (.write (chanObj a) v) cs).threads[i]? =
      some ⟨none, cs, t.done ++ [(.write (chanObj a) v, .ok .null)]⟩) ∧
    (¬(ch.buf.length < ch.cap ∨ ReaderWaits s a) → (next s i t (.write (chanObj a) v) cs).threads[i]? =
      some ⟨some (.write (chanObj a) v), cs, t.done⟩) := by
  have hI := inv_steps h
  have hn := next_self (cs := cs) (c := .write (chanObj a) v) hI ht hid rfl hch
  rw [reader_waits hI hch, hn]
  simp only [operation, send, hop, Bool.false_eq_true, if_false]
  cases hr : ch.recvq with
  | cons r rs => simp [result]
  | nil => by_cases hl : ch.buf.length < ch.cap <;> simp [hl, result]

/-- A try-write to an open channel never blocks; it answers `#t`, and sends, exactly when there is a free slot or a
waiting reader; otherwise it answers `#f` and nothing changes. -/
theorem C51_try_write {caps : List Nat} {calls : List (List Call)} {s : State} (h : Steps (start caps calls) s) {i a : Nat}
    {t : Thread} {v : Data} {cs : List Call} {ch : Channel} (ht : s.threads[i]? = some t) (hid : t.cur = none)
    (hch : s.chans[a]? = some ch) (hop : ch.closed = false) :
    let s' := next s i t (.tryWrite (chanObj a) v) cs
    (ch.buf.length < ch.cap ∨ ReaderWaits s a →
      s'.threads[i]? = some ⟨none, cs, t.done ++ [(.tryWrite (chanObj a) v, .ok (.bool true))]⟩ ∧
      accepted a s'.log = accepted a s.log ++ [v]) ∧
    (¬(ch.buf.length < ch.cap ∨ ReaderWaits s a) →
      s'.threads[i]? = some ⟨none, cs, t.done ++ [(.tryWrite (chanObj a) v, .ok (.bool false))]⟩ ∧
      s'.chans = s.chans ∧ s'.log = s.log) := by
  have hI := inv_steps h
  have hn := next_self (cs := cs) (c := .tryWrite (chanObj a) v) hI ht hid rfl hch
  intro s'
  rw [reader_waits hI hch, hn]
  have hs' : s' = next s i t (.tryWrite (chanObj a) v) cs := rfl
  unfold next at hs'
  simp only [Call.obj, pointer_chanObj, hch] at hs'
  rw [hs']
  simp only [operation, send, hop, Bool.false_eq_true, if_false]
  cases hr : ch.recvq with
  | cons r rs => simp [result, accepted, started, Effect.ends, accepts, delivers, List.filterMap_cons]
  | nil =>
    by_cases hl : ch.buf.length < ch.cap
    · simp [hl, result, accepted, started, Effect.ends, accepts, delivers, List.filterMap_cons]
    · simp [hl, result, started, Effect.ends, accepts, delivers, List.filterMap_cons, set_get hch]

private theorem pending_open {s : State} (hI : Inv s) {a : Nat} {ch : Channel} (hch : s.chans[a]? = some ch)
    (hop : ch.closed = false) {rest : List Data} :
    delivered a s.log ++ rest = offered a s.log ↔ rest = ch.buf ++ ch.sendq.map (·.2) := by
  obtain ⟨h1, h2, rest', h3, h4⟩ := hI.chan hch
  rw [h3, h4 hop, ← h2, List.append_assoc, List.append_right_inj]

private theorem pending_closed {s : State} (hI : Inv s) {a : Nat} {ch : Channel} (hch : s.chans[a]? = some ch)
    {rest : List Data} : delivered a s.log ++ rest = accepted a s.log ↔ rest = ch.buf := by
  obtain ⟨h1, h2, _⟩ := hI.chan hch
  rw [← h2, List.append_right_inj]

private theorem recv_value {ch : Channel} {i : Nat} {b : Bool} {v : Data} {rest : List Data}
    (hv : ch.buf ++ ch.sendq.map (·.2) = v :: rest) : (recv ch i b).self = some (.received v true) := by
  unfold recv; split <;> simp_all

/-- A read of an open channel returns at once with the oldest value that was offered and not yet received, if there is
one; otherwise a read blocks and a try-read reports that it got nothing, changing nothing. -/
theorem C51_read {caps : List Nat} {calls : List (List Call)} {s : State} (h : Steps (start caps calls) s) {i a : Nat}
    {t : Thread} {cs : List Call} {ch : Channel} (ht : s.threads[i]? = some t) (hid : t.cur = none)
    (hch : s.chans[a]? = some ch) (hop : ch.closed = false) :
    (∀ v rest, delivered a s.log ++ v :: rest = offered a s.log →
      (next s i t (.read (chanObj a)) cs).threads[i]? =
        some ⟨none, cs, t.done ++ [(.read (chanObj a), .ok (ofArray [v, .bool true]))]⟩ ∧
      (next s i t (.tryRead (chanObj a)) cs).threads[i]? =
        some ⟨none, cs, t.done ++ [(.tryRead (chanObj a), .ok (ofArray [.bool true, v, .bool true]))]⟩) ∧
    (delivered a s.log = offered a s.log →
      (next s i t (.read (chanObj a)) cs).threads[i]? = some ⟨some (.read (chanObj a)), cs, t.done⟩ ∧
      (next s i t (.tryRead (chanObj a)) cs).threads[i]? =
        some ⟨none, cs, t.done ++ [(.tryRead (chanObj a), .ok (ofArray [.bool false, .null, .bool true]))]⟩ ∧
      (next s i t (.tryRead (chanObj a)) cs).chans = s.chans ∧ (next s i t (.tryRead (chanObj a)) cs).log = s.log) := by
  have hI := inv_steps h
  have hn := next_self (cs := cs) (c := .read (chanObj a)) hI ht hid rfl hch
  have hn' := next_self (cs := cs) (c := .tryRead (chanObj a)) hI ht hid rfl hch
  constructor
  · intro v rest hv
    have hv := (pending_open hI hch hop).mp hv
    rw [hn, hn']
    simp only [operation, recv_value hv.symm, result, and_self]
  · intro he
    have hv : ([] : List Data) = _ := (pending_open hI hch hop (rest := [])).mp (by simpa using he)
    have hb : ch.buf = [] := by cases hb : ch.buf <;> simp_all
    have hq : ch.sendq = [] := by cases hq : ch.sendq <;> simp_all
    have hr : ∀ b, recv ch i b = if b then ⟨{ ch with recvq := ch.recvq ++ [i] }, none, []⟩ else ⟨ch, some .skipped, []⟩ := by
      intro b; unfold recv; split <;> simp_all
    rw [hn, hn']
    refine ⟨by simp only [operation, hr]; rfl, by simp only [operation, hr]; rfl, ?_⟩
    unfold next
    simp only [Call.obj, pointer_chanObj, hch, operation, hr]
    simp [started, Effect.ends, accepts, delivers, List.filterMap_cons, set_get hch]

/-- Creating a channel: no argument makes an unbuffered channel; a non-negative integer is the capacity, unless the buffer
would not fit in memory; anything else is an error. -/
theorem C51_make :
    makeChannel [] = .ok 0 ∧
    (∀ n : BitVec 64, 0 ≤ n.toInt → n.toInt * 8 ≤ 2 ^ 48 - 96 → makeChannel [.int n] = .ok n.toInt.toNat) ∧
    (∀ n : BitVec 64, n.toInt < 0 → ∃ e, makeChannel [.int n] = .err e) ∧
    (∀ d, (∀ n, d ≠ .int n) → ∃ e, makeChannel [d] = .err e) := by
  refine ⟨rfl, ?_, ?_, ?_⟩
  · intro n h1 h2
    simp only [makeChannel]
    rw [if_neg (by omega), if_neg (by omega)]
  · intro n h
    exact ⟨_, by simp only [makeChannel]; rw [if_pos h]⟩
  · intro d hd
    unfold makeChannel
    split
    · rename_i he; simp only [List.cons.injEq, and_true] at he; exact absurd he (hd _)
    · exact ⟨_, rfl⟩
    · rename_i h; exact absurd rfl (h d)

/-- A capacity within the range of integers but beyond what Go can allocate crashes the interpreter. -/
theorem C51_make_violation : makeChannel [.int (BitVec.ofInt 64 (2 ^ 60))] = .panic := by decide

/-- Values sent before the close are still delivered, oldest first; then reads report that the channel is closed. -/
theorem C52_read {caps : List Nat} {calls : List (List Call)} {s : State} (h : Steps (start caps calls) s) {i a : Nat}
    {t : Thread} {cs : List Call} {ch : Channel} (ht : s.threads[i]? = some t) (hid : t.cur = none)
    (hch : s.chans[a]? = some ch) (hcl : ch.closed = true) :
    (∀ v rest, delivered a s.log ++ v :: rest = accepted a s.log →
      (next s i t (.read (chanObj a)) cs).threads[i]? =
        some ⟨none, cs, t.done ++ [(.read (chanObj a), .ok (ofArray [v, .bool true]))]⟩ ∧
      (next s i t (.tryRead (chanObj a)) cs).threads[i]? =
        some ⟨none, cs, t.done ++ [(.tryRead (chanObj a), .ok (ofArray [.bool true, v, .bool true]))]⟩) ∧
    (delivered a s.log = accepted a s.log →
      (next s i t (.read (chanObj a)) cs).threads[i]? =
        some ⟨none, cs, t.done ++ [(.read (chanObj a), .ok (ofArray [.null, .bool false]))]⟩ ∧
      (next s i t (.tryRead (chanObj a)) cs).threads[i]? =
        some ⟨none, cs, t.done ++ [(.tryRead (chanObj a), .ok (ofArray [.bool true, .null, .bool false]))]⟩) := by
  have hI := inv_steps h
  have hn := next_self (cs := cs) (c := .read (chanObj a)) hI ht hid rfl hch
  have hn' := next_self (cs := cs) (c := .tryRead (chanObj a)) hI ht hid rfl hch
  have hq : ch.sendq = [] := ((hI.chan hch).1.shut hcl).1
  rw [hn, hn']
  constructor
  · intro v rest hv
    have hv := (pending_closed hI hch).mp hv
    have hv' : ch.buf ++ ch.sendq.map (·.2) = v :: rest := by rw [← hv, hq]; simp
    simp only [operation, recv_value hv', result, and_self]
  · intro he
    have hb : ch.buf = [] := ((pending_closed hI hch (rest := [])).mp (by simpa using he)).symm
    have hr : ∀ b, (recv ch i b).self = some (.received .null false) := by
      intro b; unfold recv; split <;> simp_all
    simp only [operation, hr, result, and_self]

/-- On a closed channel a write, a try-write and a close are errors, and change nothing. -/
theorem C52_write_close {caps : List Nat} {calls : List (List Call)} {s : State} (h : Steps (start caps calls) s) {i a : Nat}
    {t : Thread} {c : Call} {cs : List Call} {ch : Channel} (ht : s.threads[i]? = some t) (hid : t.cur = none)
    (hch : s.chans[a]? = some ch) (hcl : ch.closed = true)
    (hc : (∃ v, c = .write (chanObj a) v) ∨ (∃ v, c = .tryWrite (chanObj a) v) ∨ c = .close (chanObj a)) :
    (∃ e, (next s i t c cs).threads[i]? = some ⟨none, cs, t.done ++ [(c, .err e)]⟩) ∧
    (next s i t c cs).chans = s.chans ∧ (next s i t c cs).log = s.log := by
  have hI := inv_steps h
  have ho : c.obj = chanObj a := by rcases hc with ⟨v, rfl⟩ | ⟨v, rfl⟩ | rfl <;> rfl
  have hop : operation ch i c = ⟨ch, some .panic, []⟩ := by
    rcases hc with ⟨v, rfl⟩ | ⟨v, rfl⟩ | rfl <;> simp [operation, send, close, hcl]
  have hst : started c (some .panic) = [] := by rcases hc with ⟨v, rfl⟩ | ⟨v, rfl⟩ | rfl <;> rfl
  have hres : ∃ e, result c .panic = .err e := by rcases hc with ⟨v, rfl⟩ | ⟨v, rfl⟩ | rfl <;> exact ⟨_, rfl⟩
  refine ⟨?_, ?_⟩
  · obtain ⟨e, he⟩ := hres
    exact ⟨e, by rw [next_self (cs := cs) hI ht hid ho hch, hop]; simp only [he]⟩
  · unfold next
    simp only [ho, pointer_chanObj, hch, hop, hst]
    simp [Effect.ends, accepts, delivers, List.filterMap_cons, set_get hch]

/-- Closing an open channel succeeds; the values sent and not yet received stay; every goroutine blocked on the channel
goes on: a read returns `(() #f)`, a write is an error. -/
theorem C52_close {caps : List Nat} {calls : List (List Call)} {s : State} (h : Steps (start caps calls) s) {i a : Nat}
    {t : Thread} {cs : List Call} {ch : Channel} (ht : s.threads[i]? = some t) (hid : t.cur = none)
    (hch : s.chans[a]? = some ch) (hop : ch.closed = false) :
    let s' := next s i t (.close (chanObj a)) cs
    s'.threads[i]? = some ⟨none, cs, t.done ++ [(.close (chanObj a), .ok .null)]⟩ ∧
    (∃ ch', s'.chans[a]? = some ch' ∧ ch'.closed = true ∧ ch'.buf = ch.buf) ∧
    delivered a s'.log = delivered a s.log ∧ accepted a s'.log = accepted a s.log ∧
    (∀ (j : Nat) (t' : Thread), s.threads[j]? = some t' → t'.cur = some (.read (chanObj a)) →
      s'.threads[j]? = some ⟨none, t'.todo, t'.done ++ [(.read (chanObj a), .ok (ofArray [.null, .bool false]))]⟩) ∧
    (∀ (j : Nat) (t' : Thread) v, s.threads[j]? = some t' → t'.cur = some (.write (chanObj a) v) →
      ∃ e, s'.threads[j]? = some ⟨none, t'.todo, t'.done ++ [(.write (chanObj a) v, .err e)]⟩) := by
  have hI := inv_steps h
  intro s'
  have hidle := hI.idle ht hid hch
  have hok : OpOk ch i (.close (chanObj a)) (operation ch i (.close (chanObj a))) :=
    operation_ok (hI.chan hch).1 hidle.1 hidle.2
  have hn := next_self (cs := cs) (c := .close (chanObj a)) hI ht hid rfl hch
  have hs' : s' = next s i t (.close (chanObj a)) cs := rfl
  unfold next at hs'
  simp only [Call.obj, pointer_chanObj, hch] at hs'
  have hop' : operation ch i (.close (chanObj a)) = ⟨{ ch with closed := true, sendq := [], recvq := [] }, some .closed,
    ch.recvq.map (fun r => (r, .received .null false)) ++ ch.sendq.map (fun p => (p.1, .panic))⟩ := by
    simp [operation, close, hop]
  have hsv : ((operation ch i (.close (chanObj a))).ends i).filterMap sentVal = [] :=
    (hok.shut (by rw [hop'])).2
  have hrv : ((operation ch i (.close (chanObj a))).ends i).filterMap recvVal = [] := by
    have := hok.flow
    rw [hsv, hop'] at this
    have hl := congrArg List.length this
    rw [hop']
    rw [← List.length_eq_zero_iff]
    simp only [List.length_append, List.length_nil] at hl
    omega
  have hwake : ∀ (j : Nat) (t' : Thread) (c : Call) (r : Raw), s.threads[j]? = some t' → t'.cur = some c →
      (j, r) ∈ (operation ch i (.close (chanObj a))).others →
      s'.threads[j]? = some ⟨none, t'.todo, t'.done ++ [(c, result c r)]⟩ := by
    intro j t' c r h1 h2 hm
    have hji : i ≠ j := by rintro rfl; rw [ht] at h1; cases h1; rw [hid] at h2; cases h2
    rw [hs']
    rw [wake_mem hok.nodup (show (j, r) ∈ _ by rw [Effect.ends]; rw [hop'] at hm ⊢; exact List.mem_cons_of_mem _ hm),
      List.getElem?_set_ne hji, h1]
    simp [Thread.complete, h2]
  refine ⟨by rw [hn, hop']; rfl, ?_, ?_, ?_, ?_, ?_⟩
  · exact ⟨_, by rw [hs']; exact List.getElem?_set_self (lt_of_get hch), by rw [hop'], by rw [hop']⟩
  · rw [hs']
    dsimp only
    rw [List.append_assoc, List.append_assoc, ← List.append_assoc (List.map _ _), delivered_append]
    rw [show ∀ x y z : List Event, x ++ y ++ z = x ++ y ++ z from fun _ _ _ => rfl]
    have := delivered_events i a a (started (.close (chanObj a)) (operation ch i (.close (chanObj a))).self)
      ((operation ch i (.close (chanObj a))).ends i)
    rw [events] at this
    rw [this, hrv]; simp
  · rw [hs']
    dsimp only
    rw [List.append_assoc, List.append_assoc, ← List.append_assoc (List.map _ _), accepted_append]
    have := accepted_events i a a (started (.close (chanObj a)) (operation ch i (.close (chanObj a))).self)
      ((operation ch i (.close (chanObj a))).ends i)
    rw [events] at this
    rw [this, hsv]; simp
  · intro j t' h1 h2
    have hq := (hI.recvq hch).mpr ⟨t', h1, h2⟩
    exact hwake j t' _ (.received .null false) h1 h2 (by
      rw [hop']; exact List.mem_append_left _ (List.mem_map_of_mem (f := fun r => (r, Raw.received .null false)) hq))
  · intro j t' v h1 h2
    have hq := (hI.sendq hch).mpr ⟨t', h1, h2⟩
    exact ⟨_, hwake j t' _ .panic h1 h2 (by
      rw [hop']; exact List.mem_append_right _ (List.mem_map_of_mem (f := fun p : Nat × Data => (p.1, Raw.panic)) hq))⟩

/-- A closed channel stays closed, and no more values are accepted. -/
theorem C52_stays_closed {caps : List Nat} {calls : List (List Call)} {s s' : State} (h : Steps (start caps calls) s)
    (h' : Step s s') {a : Nat} {ch : Channel} (hch : s.chans[a]? = some ch) (hcl : ch.closed = true) :
    (∃ ch', s'.chans[a]? = some ch' ∧ ch'.closed = true) ∧ accepted a s'.log = accepted a s.log := by
  have hI := inv_steps h
  cases h' with
  | @mk i t c cs ht hid hto =>
    unfold next; split
    · exact ⟨⟨ch, hch, hcl⟩, rfl⟩
    · rename_i b hp
      split
      · exact ⟨⟨ch, hch, hcl⟩, rfl⟩
      · rename_i ch₁ hch₁
        have hidle := hI.idle ht hid hch₁
        have hok : OpOk ch₁ i c (operation ch₁ i c) := operation_ok (hI.chan hch₁).1 hidle.1 hidle.2
        have hev := accepted_events i b a (started c (operation ch₁ i c).self) ((operation ch₁ i c).ends i)
        rw [events] at hev
        dsimp only
        rw [List.append_assoc, List.append_assoc, ← List.append_assoc (List.map _ _), accepted_append, hev]
        by_cases hab : a = b
        · subst hab
          rw [hch] at hch₁; cases hch₁
          have hcl' : (operation ch i c).ch.closed = true := by
            cases hx : (operation ch i c).ch.closed with
            | true => rfl
            | false => have := (hok.open_ hx).1; rw [hcl] at this; cases this
          exact ⟨⟨_, List.getElem?_set_self (lt_of_get hch), hcl'⟩, by rw [if_pos rfl, (hok.shut hcl').2]; simp⟩
        · exact ⟨⟨ch, by rw [List.getElem?_set_ne (Ne.symm hab)]; exact hch, hcl⟩, by rw [if_neg (Ne.symm hab)]; simp⟩

/-- No call on a channel ever crashes, whatever its arguments and however the goroutines interleave. -/
theorem C52_no_panic {caps : List Nat} {calls : List (List Call)} {s : State} (h : Steps (start caps calls) s) {i : Nat}
    {t : Thread} (ht : s.threads[i]? = some t) {p : Call × Out Data} (hp : p ∈ t.done) : p.2 ≠ .panic :=
  (inv_steps h).fine ht p hp

/-! Executions: goroutine numbers in the order they make calls. -/

private def sched : State → List Nat → Option State
  | s, [] => some s
  | s, i :: is =>
    match s.threads[i]? with
    | none => none
    | some t =>
      match t.cur, t.todo with
      | none, c :: cs => sched (next s i t c cs) is
      | _, _ => none

private theorem sched_steps : ∀ (l : List Nat) {s₀ s s' : State}, Steps s₀ s → sched s l = some s' → Steps s₀ s'
  | [], s₀, s, s', h0, h => by simp only [sched, Option.some.injEq] at h; subst h; exact h0
  | i :: is, s₀, s, s', h0, h => by
    simp only [sched] at h
    split at h
    · cases h
    · rename_i t ht
      split at h
      · rename_i c cs hc hto
        exact sched_steps is (h0.tail (.mk ht hc hto)) h
      · cases h

private def w (n : Int) : Call := .write (chanObj 0) (.int (BitVec.ofInt 64 n))
private def r : Call := .read (chanObj 0)
private def val (n : Int) (more : Bool) : Out Data := .ok (ofArray [.int (BitVec.ofInt 64 n), .bool more])

/-- One slot: the second write blocks, the read takes the first value and lets it in; after the close the second value is
still delivered, then the channel reports closed and writes fail. -/
example : ∃ s, Steps (start [1] [[w 1, w 2], [r, r, r], [.close (chanObj 0), w 3, .close (chanObj 0)]]) s ∧
    s.threads.map (·.done) =
      [[(w 1, .ok .null), (w 2, .ok .null)],
       [(r, val 1 true), (r, val 2 true), (r, .ok (ofArray [.null, .bool false]))],
       [(.close (chanObj 0), .ok .null), (w 3, .err (.msg "channel<- tried to write to a closed channel.")),
        (.close (chanObj 0), .err (.msg "channel-close tried to close a channel twice."))]] ∧
    delivered 0 s.log = [.int 1, .int 2] ∧ accepted 0 s.log = [.int 1, .int 2] :=
  ⟨_, sched_steps [0, 0, 1, 2, 1, 2, 1, 2] .refl rfl, by decide +kernel, by decide +kernel, by decide +kernel⟩

/-- A reader blocked on an unbuffered channel lets a try-write succeed; without one it fails. -/
example : ∃ s, Steps (start [0] [[.tryWrite (chanObj 0) (.int 1), .tryWrite (chanObj 0) (.int 2)], [r, r]]) s ∧
    s.threads.map (·.done) = [[(.tryWrite (chanObj 0) (.int 1), .ok (.bool false)),
      (.tryWrite (chanObj 0) (.int 2), .ok (.bool true))], [(r, val 2 true)]] ∧
    s.threads.map (·.cur) = [none, some r] :=
  ⟨_, sched_steps [0, 1, 0, 1] .refl rfl, by decide +kernel, by decide +kernel⟩

/-- A blocked writer's call fails when the channel is closed; what it wanted to send is never delivered. -/
example : ∃ s, Steps (start [0] [[w 1], [.close (chanObj 0), r]]) s ∧
    s.threads.map (·.done) = [[(w 1, .err (.msg "channel<- tried to write to a closed channel."))],
      [(.close (chanObj 0), .ok .null), (r, .ok (ofArray [.null, .bool false]))]] ∧
    offered 0 s.log = [.int 1] ∧ accepted 0 s.log = [] :=
  ⟨_, sched_steps [0, 1, 1] .refl rfl, by decide +kernel, by decide +kernel, by decide +kernel⟩

end Golisp.Props
