import Verif.Chan
/- Invariant of the channel model. -/
namespace Golisp.Chan
open Data Spec

/-- The queues of a channel are consistent. -/
structure ChOk (ch : Channel) : Prop where
  fits : ch.buf.length ≤ ch.cap
  shut : ch.closed = true → ch.sendq = [] ∧ ch.recvq = []
  recv : ch.recvq ≠ [] → ch.buf = [] ∧ ch.sendq = []
  send : ch.sendq ≠ [] → ch.buf.length = ch.cap
  norecv : ch.recvq.Nodup
  nosend : (ch.sendq.map (·.1)).Nodup

def sentVal (p : Nat × Raw) : Option Data := match p.2 with | .sent v => some v | _ => none
def recvVal (p : Nat × Raw) : Option Data := match p.2 with | .received v true => some v | _ => none

@[simp] theorem sentVal_sent (i v) : sentVal (i, .sent v) = some v := rfl
@[simp] theorem sentVal_received (i v m) : sentVal (i, .received v m) = none := rfl
@[simp] theorem sentVal_skipped (i) : sentVal (i, .skipped) = none := rfl
@[simp] theorem sentVal_closed (i) : sentVal (i, .closed) = none := rfl
@[simp] theorem sentVal_panic (i) : sentVal (i, .panic) = none := rfl
@[simp] theorem recvVal_sent (i v) : recvVal (i, .sent v) = none := rfl
@[simp] theorem recvVal_received (i v) : recvVal (i, .received v true) = some v := rfl
@[simp] theorem recvVal_zero (i v) : recvVal (i, .received v false) = none := rfl
@[simp] theorem recvVal_skipped (i) : recvVal (i, .skipped) = none := rfl
@[simp] theorem recvVal_closed (i) : recvVal (i, .closed) = none := rfl
@[simp] theorem recvVal_panic (i) : recvVal (i, .panic) = none := rfl

theorem pointer_some {d : Data} {a : Nat} (h : pointer d = some a) : d = chanObj a := by
  unfold pointer at h; split at h
  · split at h
    · simp only [Option.some.injEq] at h; subst h; rename_i h; subst h; rfl
    · cases h
  · cases h

theorem pointer_chanObj (a : Nat) : pointer (chanObj a) = some a := by simp [pointer, chanObj]

theorem chanObj_inj {a b : Nat} (h : chanObj a = chanObj b) : a = b := by simpa [chanObj] using h

/-- The ways a call can end. -/
def Ends : Call → Raw → Prop
  | .write _ v, .sent w => v = w
  | .write _ _, .panic => True
  | .read _, .received _ _ => True
  | .tryWrite _ v, .sent w => v = w
  | .tryWrite _ _, .skipped => True
  | .tryWrite _ _, .panic => True
  | .tryRead _, .received _ _ => True
  | .tryRead _, .skipped => True
  | .close _, .closed => True
  | .close _, .panic => True
  | _, _ => False

theorem Ends.no_panic {c : Call} {r : Raw} (h : Ends c r) : result c r ≠ .panic := by
  cases c <;> cases r <;> simp_all [Ends, result]

theorem Ends.sent {c : Call} {r : Raw} {a b j : Nat} (h : Ends c r) (hp : c.obj = chanObj a) :
    sentTo b (c, result c r) = if a = b then sentVal (j, r) else none := by
  have hab : (chanObj a = chanObj b) ↔ a = b := ⟨chanObj_inj, fun h => by rw [h]⟩
  cases c <;> cases r <;> simp_all [Ends, result, sentTo, Call.obj]

theorem Ends.got {c : Call} {r : Raw} {a b j : Nat} (h : Ends c r) (hp : c.obj = chanObj a) :
    gotFrom b (c, result c r) = if a = b then (recvVal (j, r)).map noNull else none := by
  have hab : (chanObj a = chanObj b) ↔ a = b := ⟨chanObj_inj, fun h => by rw [h]⟩
  cases c
  case read o => cases r with
    | received v more => cases more <;> simp_all [result, gotFrom, Call.obj, ofArray, listWithTail, noNull, Data.cons]
    | _ => simp_all [Ends]
  case tryRead o => cases r with
    | received v more => cases more <;> simp_all [result, gotFrom, Call.obj, ofArray, listWithTail, noNull, Data.cons]
    | _ => simp_all [Ends, result, gotFrom, ofArray, listWithTail, noNull, Data.cons]
  all_goals cases r <;> simp_all [Ends, result, gotFrom]

/-- What an operation does to an open or closed channel in good order. -/
structure OpOk (ch : Channel) (i : Nat) (c : Call) (ef : Effect) : Prop where
  ok : ChOk ef.ch
  cap : ef.ch.cap = ch.cap
  flow : ch.buf ++ (ef.ends i).filterMap sentVal = (ef.ends i).filterMap recvVal ++ ef.ch.buf
  open_ : ef.ch.closed = false → ch.closed = false ∧
    ch.sendq.map (·.2) ++ started c ef.self = (ef.ends i).filterMap sentVal ++ ef.ch.sendq.map (·.2)
  shut : ef.ch.closed = true → started c ef.self = [] ∧ (ef.ends i).filterMap sentVal = []
  nodup : (ef.ends i).map (·.1) |>.Nodup
  self : ∀ r, ef.self = some r → Ends c r
  block : ef.self = none → (∃ o, c = .read o) ∨ ∃ o v, c = .write o v
  others : ∀ p ∈ ef.others, (p.1 ∈ ch.recvq ∧ ∃ v m, p.2 = .received v m) ∨
    (∃ v, (p.1, v) ∈ ch.sendq ∧ (p.2 = .sent v ∨ p.2 = .panic))
  recvq : ∀ j, j ∈ ef.ch.recvq ↔ (j ∈ ch.recvq ∧ j ∉ ef.others.map (·.1)) ∨ (j = i ∧ ef.self = none ∧ ∃ o, c = .read o)
  sendq : ∀ j v, (j, v) ∈ ef.ch.sendq ↔ ((j, v) ∈ ch.sendq ∧ j ∉ ef.others.map (·.1)) ∨
    (j = i ∧ ef.self = none ∧ ∃ o, c = .write o v)

theorem nodup_snoc {α} {l : List α} {x : α} (h : l.Nodup) (hx : x ∉ l) : (l ++ [x]).Nodup := by
  rw [List.nodup_append]
  refine ⟨h, by simp, ?_⟩
  intro a ha b hb; simp only [List.mem_singleton] at hb; subst hb; intro he; subst he; exact hx ha

theorem send_ok {ch : Channel} {i : Nat} {v : Data} {b : Bool} {c : Call} (hc : ChOk ch)
    (hi : i ∉ ch.recvq) (hs : i ∉ ch.sendq.map (·.1))
    (hcall : (∃ o, c = .write o v ∧ b = true) ∨ (∃ o, c = .tryWrite o v ∧ b = false)) :
    OpOk ch i c (send ch i v b) := by
  unfold send
  split
  · rename_i h
    obtain ⟨h1, h2⟩ := hc.shut h
    rcases hcall with ⟨o, rfl, rfl⟩ | ⟨o, rfl, rfl⟩ <;>
      (constructor <;> simp_all [Effect.ends, List.filterMap_cons, started, Ends])
  · rename_i h
    have h : ch.closed = false := by simpa using h
    split
    · rename_i r rs hr
      obtain ⟨hb, hsq⟩ := hc.recv (by rw [hr]; simp)
      have hn := hc.norecv
      rw [hr] at hn hi
      have hn := List.nodup_cons.mp hn
      have hir : i ≠ r := fun he => hi (by simp [he])
      have hir2 : i ∉ rs := fun he => hi (by simp [he])
      have hok : ChOk { ch with recvq := rs } :=
        ⟨by simp [hb], by simp [h], fun _ => ⟨hb, hsq⟩, by simp [hsq], hn.2, hc.nosend⟩
      have hm : ∀ j, j ∈ rs ↔ j ∈ ch.recvq ∧ j ≠ r := by
        intro j; rw [hr]; constructor
        · intro hj; exact ⟨List.mem_cons_of_mem _ hj, fun he => hn.1 (he ▸ hj)⟩
        · rintro ⟨hj, hne⟩; rcases List.mem_cons.mp hj with he | hj
          · exact absurd he hne
          · exact hj
      have hq : ∀ j, j ∈ rs ↔ j ∈ ch.recvq ∧ j ∉ [(r, Raw.received v true)].map (·.1) := by
        intro j; rw [hm]; simp
      clear hm
      rcases hcall with ⟨o, rfl, rfl⟩ | ⟨o, rfl, rfl⟩ <;>
        (constructor
         case recvq => intro j; rw [hq]; simp
         all_goals clear hq
         all_goals simp_all [Effect.ends, List.filterMap_cons, started, Ends])
    · rename_i hr
      split
      · rename_i hl
        have hsq : ch.sendq = [] := by
          by_cases he : ch.sendq = []
          · exact he
          · have := hc.send he; omega
        have hok : ChOk { ch with buf := ch.buf ++ [v] } :=
          ⟨by simp; omega, by simp [h], by simp [hr], by simp [hsq], hc.norecv, hc.nosend⟩
        rcases hcall with ⟨o, rfl, rfl⟩ | ⟨o, rfl, rfl⟩ <;>
          (constructor <;> simp_all [Effect.ends, List.filterMap_cons, started, Ends])
      · rename_i hl
        have := hc.fits
        split
        · rename_i hb
          subst hb
          have hok : ChOk { ch with sendq := ch.sendq ++ [(i, v)] } :=
            ⟨hc.fits, by simp [h], by simp [hr], fun _ => by simp; omega, hc.norecv, by
              rw [List.map_append]; exact nodup_snoc hc.nosend hs⟩
          rcases hcall with ⟨o, rfl, _⟩ | ⟨o, rfl, h0⟩
          · constructor
            case sendq => intro j x; simp [eq_comm]
            all_goals simp_all [Effect.ends, List.filterMap_cons, started, Ends]
          · cases h0
        · rename_i hb
          rcases hcall with ⟨o, rfl, rfl⟩ | ⟨o, rfl, rfl⟩
          · simp at hb
          · constructor <;> simp_all [Effect.ends, List.filterMap_cons, started, Ends]

theorem recv_ok {ch : Channel} {i : Nat} {b : Bool} {c : Call} (hc : ChOk ch)
    (hi : i ∉ ch.recvq) (hs : i ∉ ch.sendq.map (·.1))
    (hcall : (∃ o, c = .read o ∧ b = true) ∨ (∃ o, c = .tryRead o ∧ b = false)) :
    OpOk ch i c (recv ch i b) := by
  have hst : ∀ r, started c r = [] := by
    intro r; rcases hcall with ⟨o, rfl, rfl⟩ | ⟨o, rfl, rfl⟩ <;> cases r <;> rfl
  have hen : ∀ v m, Ends c (.received v m) := by
    intro v m; rcases hcall with ⟨o, rfl, rfl⟩ | ⟨o, rfl, rfl⟩ <;> trivial
  have hw : ∀ o v, c ≠ .write o v := by
    intro o v; rcases hcall with ⟨o, rfl, rfl⟩ | ⟨o, rfl, rfl⟩ <;> simp
  unfold recv
  split
  · rename_i v buf s w sq hb hq
    have hop : ch.closed = false := by
      cases h : ch.closed
      · rfl
      · have := (hc.shut h).1; rw [hq] at this; cases this
    have hr : ch.recvq = [] := by
      by_cases he : ch.recvq = []
      · exact he
      · have := (hc.recv he).1; rw [hb] at this; cases this
    have hl := hc.send (by rw [hq]; simp)
    have hn := hc.nosend
    rw [hq] at hn hs
    simp only [List.map_cons, List.nodup_cons] at hn
    have hok : ChOk { ch with buf := buf ++ [w], sendq := sq } :=
      ⟨by simp_all, by simp [hop], by simp [hr], by simp_all, hc.norecv, hn.2⟩
    have hsm : ∀ j x, (j, x) ∈ sq ↔ (j, x) ∈ ch.sendq ∧ j ≠ s := by
      intro j x; rw [hq]; constructor
      · intro hj; refine ⟨List.mem_cons_of_mem _ hj, fun he => hn.1 ?_⟩
        subst he; exact List.mem_map_of_mem (f := (·.1)) hj
      · rintro ⟨hj, hne⟩; rcases List.mem_cons.mp hj with he | hj
        · cases he; exact absurd rfl hne
        · exact hj
    have hqm : ∀ j x, (j, x) ∈ sq ↔ (j, x) ∈ ch.sendq ∧ j ∉ [(s, Raw.sent w)].map (·.1) := by
      intro j x; rw [hsm]; simp
    clear hsm
    constructor
    case sendq => intro j x; rw [hqm]; simp
    all_goals clear hqm
    all_goals simp_all [Effect.ends, List.filterMap_cons]
  · rename_i v buf hb hq
    have hr : ch.recvq = [] := by
      by_cases he : ch.recvq = []
      · exact he
      · have := (hc.recv he).1; rw [hb] at this; cases this
    have hf := hc.fits
    have hok : ChOk { ch with buf := buf } :=
      ⟨by rw [hb] at hf; simp at hf; simp; omega, by simp [hr, hq], by simp [hr], by simp [hq], hc.norecv, hc.nosend⟩
    constructor <;> simp_all [Effect.ends, List.filterMap_cons]
  · rename_i s w sq hb hq
    have hop : ch.closed = false := by
      cases h : ch.closed
      · rfl
      · have := (hc.shut h).1; rw [hq] at this; cases this
    have hr : ch.recvq = [] := by
      by_cases he : ch.recvq = []
      · exact he
      · have := (hc.recv he).2; rw [hq] at this; cases this
    have hl := hc.send (by rw [hq]; simp)
    have hn := hc.nosend
    rw [hq] at hn hs
    simp only [List.map_cons, List.nodup_cons] at hn
    have hok : ChOk { ch with sendq := sq } :=
      ⟨hc.fits, by simp [hop], by simp [hr], fun _ => hl, hc.norecv, hn.2⟩
    have hsm : ∀ j x, (j, x) ∈ sq ↔ (j, x) ∈ ch.sendq ∧ j ≠ s := by
      intro j x; rw [hq]; constructor
      · intro hj; refine ⟨List.mem_cons_of_mem _ hj, fun he => hn.1 ?_⟩
        subst he; exact List.mem_map_of_mem (f := (·.1)) hj
      · rintro ⟨hj, hne⟩; rcases List.mem_cons.mp hj with he | hj
        · cases he; exact absurd rfl hne
        · exact hj
    have hqm : ∀ j x, (j, x) ∈ sq ↔ (j, x) ∈ ch.sendq ∧ j ∉ [(s, Raw.sent w)].map (·.1) := by
      intro j x; rw [hsm]; simp
    clear hsm
    constructor
    case sendq => intro j x; rw [hqm]; simp
    all_goals clear hqm
    all_goals simp_all [Effect.ends, List.filterMap_cons]
  · rename_i hb hq
    split
    · rename_i h
      obtain ⟨h1, h2⟩ := hc.shut h
      constructor <;> simp_all [Effect.ends, List.filterMap_cons]
    · rename_i h
      have h : ch.closed = false := by simpa using h
      split
      · rename_i hbl
        subst hbl
        have hok : ChOk { ch with recvq := ch.recvq ++ [i] } :=
          ⟨hc.fits, by simp [h], fun _ => ⟨hb, hq⟩, by simp [hq], nodup_snoc hc.norecv hi, hc.nosend⟩
        rcases hcall with ⟨o, rfl, _⟩ | ⟨o, rfl, h0⟩
        · constructor <;> simp_all [Effect.ends, List.filterMap_cons]
        · cases h0
      · rename_i hbl
        rcases hcall with ⟨o, rfl, rfl⟩ | ⟨o, rfl, rfl⟩
        · simp at hbl
        · constructor <;> simp_all [Effect.ends, List.filterMap_cons, Ends]

theorem close_ok {ch : Channel} {i : Nat} {o : Data} (hc : ChOk ch)
    (hi : i ∉ ch.recvq) (hs : i ∉ ch.sendq.map (·.1)) : OpOk ch i (.close o) (close ch) := by
  unfold close
  split
  · rename_i h
    obtain ⟨h1, h2⟩ := hc.shut h
    constructor <;> simp_all [Effect.ends, List.filterMap_cons, started, Ends]
  · rename_i h
    have h : ch.closed = false := by simpa using h
    have h1 : ∀ l : List Nat, (l.map fun r => ((r, Raw.received .null false) : Nat × Raw)).filterMap sentVal = [] := by
      intro l; rw [List.filterMap_map]; exact List.filterMap_eq_nil_iff.mpr fun _ _ => rfl
    have h2 : ∀ l : List (Nat × Data), (l.map fun p => ((p.1, Raw.panic) : Nat × Raw)).filterMap sentVal = [] := by
      intro l; rw [List.filterMap_map]; exact List.filterMap_eq_nil_iff.mpr fun _ _ => rfl
    have h3 : ∀ l : List Nat, (l.map fun r => ((r, Raw.received .null false) : Nat × Raw)).filterMap recvVal = [] := by
      intro l; rw [List.filterMap_map]; exact List.filterMap_eq_nil_iff.mpr fun _ _ => rfl
    have h4 : ∀ l : List (Nat × Data), (l.map fun p => ((p.1, Raw.panic) : Nat × Raw)).filterMap recvVal = [] := by
      intro l; rw [List.filterMap_map]; exact List.filterMap_eq_nil_iff.mpr fun _ _ => rfl
    have h5 : sentVal (i, .closed) = none := rfl
    have h6 : recvVal (i, .closed) = none := rfl
    have hok : ChOk { ch with closed := true, sendq := [], recvq := [] } :=
      ⟨hc.fits, by simp, by simp, by simp, by simp, by simp⟩
    constructor
    · exact hok
    · rfl
    · simp [Effect.ends, h1, h2, h3, h4, h5, h6]
    · simp
    · simp [Effect.ends, h1, h2, h5, started]
    · simp only [Effect.ends, List.map_cons, List.map_append, List.map_map, List.nodup_cons]
      refine ⟨?_, ?_⟩
      · simp only [List.mem_append, List.mem_map, Function.comp]
        rintro (⟨r, hr, rfl⟩ | ⟨p, hp, rfl⟩)
        · exact hi hr
        · exact hs (List.mem_map_of_mem (f := (·.1)) hp)
      · have e1 : ch.recvq.map ((fun p : Nat × Raw => p.1) ∘ fun r => (r, Raw.received .null false)) = ch.recvq := by
          simp [Function.comp_def]
        have e2 : ch.sendq.map ((fun p : Nat × Raw => p.1) ∘ fun p => (p.1, Raw.panic)) = ch.sendq.map (·.1) := by
          simp [Function.comp_def]
        rw [e1, e2, List.nodup_append]
        refine ⟨hc.norecv, hc.nosend, ?_⟩
        intro x hx y hy he
        have := (hc.recv (by intro h0; rw [h0] at hx; cases hx)).2
        rw [this] at hy; cases hy
    · simp [Ends]
    · simp
    · intro p hp
      simp only [List.mem_append, List.mem_map] at hp
      rcases hp with ⟨r, hr, rfl⟩ | ⟨q, hq, rfl⟩
      · exact .inl ⟨hr, _, _, rfl⟩
      · exact .inr ⟨q.2, hq, .inr rfl⟩
    · simp
      intro j hj hn
      exact absurd hj hn
    · simp
      intro j v hv hn
      exact ⟨v, hv⟩

theorem operation_ok {ch : Channel} {i : Nat} {c : Call} (hc : ChOk ch)
    (hi : i ∉ ch.recvq) (hs : i ∉ ch.sendq.map (·.1)) : OpOk ch i c (operation ch i c) := by
  cases c with
  | write o v => exact send_ok hc hi hs (.inl ⟨o, rfl, rfl⟩)
  | read o => exact recv_ok hc hi hs (.inl ⟨o, rfl, rfl⟩)
  | tryWrite o v => exact send_ok hc hi hs (.inr ⟨o, rfl, rfl⟩)
  | tryRead o => exact recv_ok hc hi hs (.inr ⟨o, rfl, rfl⟩)
  | close o => exact close_ok hc hi hs

/-! ### Waking goroutines -/

theorem wake_not {l : List (Nat × Raw)} {j : Nat} : ∀ {ts : List Thread}, j ∉ l.map (·.1) → (wake ts l)[j]? = ts[j]? := by
  induction l with
  | nil => intro ts _; rfl
  | cons p l ih =>
    intro ts h
    simp only [List.map_cons, List.mem_cons, not_or] at h
    obtain ⟨k, r⟩ := p
    rw [wake, ih h.2, List.getElem?_modify]
    simp [show k ≠ j from fun e => h.1 e.symm]

theorem wake_mem {l : List (Nat × Raw)} {j : Nat} {r : Raw} :
    ∀ {ts : List Thread}, (l.map (·.1)).Nodup → (j, r) ∈ l → (wake ts l)[j]? = ts[j]?.map (·.complete r) := by
  induction l with
  | nil => intro ts _ h; cases h
  | cons p l ih =>
    intro ts hn h
    simp only [List.map_cons, List.nodup_cons] at hn
    obtain ⟨k, q⟩ := p
    rcases List.mem_cons.mp h with h | h
    · cases h
      rw [wake, wake_not hn.1, List.getElem?_modify]; simp
    · have hk : k ≠ j := fun e => hn.1 (e ▸ List.mem_map_of_mem (f := (·.1)) h)
      rw [wake, ih hn.2 h, List.getElem?_modify]; simp [hk]

theorem wake_length {l : List (Nat × Raw)} : ∀ {ts : List Thread}, (wake ts l).length = ts.length := by
  induction l with
  | nil => intro ts; rfl
  | cons p l ih => intro ts; obtain ⟨k, q⟩ := p; rw [wake, ih, List.length_modify]

/-! ### Reading the log -/

theorem offered_append (a : Nat) (l l' : List Event) : offered a (l ++ l') = offered a l ++ offered a l' := by
  simp [offered]
theorem accepted_append (a : Nat) (l l' : List Event) : accepted a (l ++ l') = accepted a l ++ accepted a l' := by
  simp [accepted]
theorem delivered_append (a : Nat) (l l' : List Event) : delivered a (l ++ l') = delivered a l ++ delivered a l' := by
  simp [delivered]
theorem acceptedBy_append (i a : Nat) (l l' : List Event) :
    acceptedBy i a (l ++ l') = acceptedBy i a l ++ acceptedBy i a l' := by simp [acceptedBy]
theorem deliveredTo_append (i a : Nat) (l l' : List Event) :
    deliveredTo i a (l ++ l') = deliveredTo i a l ++ deliveredTo i a l' := by simp [deliveredTo]

/-- The events of one step. -/
def events (i a : Nat) (st : List Data) (l : List (Nat × Raw)) : List Event :=
  st.map (.offer i a) ++ l.filterMap (accepts a) ++ l.filterMap (delivers a)

theorem accepts_eq (a : Nat) (p : Nat × Raw) : accepts a p = (sentVal p).map (.accept p.1 a) := by
  obtain ⟨j, r⟩ := p; cases r <;> rfl

theorem delivers_eq (a : Nat) (p : Nat × Raw) : delivers a p = (recvVal p).map (.deliver p.1 a) := by
  obtain ⟨j, r⟩ := p
  cases r
  case received v m => cases m <;> rfl
  all_goals rfl

theorem offered_events (i a b : Nat) (st l) : offered b (events i a st l) = if a = b then st else [] := by
  have h1 : offered b (st.map (.offer i a)) = if a = b then st else [] := by
    induction st with
    | nil => simp [offered]
    | cons v st ih => simp only [offered, List.map_cons, List.filterMap_cons] at ih ⊢; split <;> simp_all
  have h2 : offered b (l.filterMap (accepts a)) = [] := by
    rw [offered, List.filterMap_filterMap]
    refine List.filterMap_eq_nil_iff.mpr fun p _ => ?_
    rw [accepts_eq]; cases sentVal p <;> rfl
  have h3 : offered b (l.filterMap (delivers a)) = [] := by
    rw [offered, List.filterMap_filterMap]
    refine List.filterMap_eq_nil_iff.mpr fun p _ => ?_
    rw [delivers_eq]; cases recvVal p <;> rfl
  rw [events, offered_append, offered_append, h1, h2, h3]; simp

theorem acceptedBy_events (i a b j : Nat) (st l) :
    acceptedBy j b (events i a st l) = if a = b then (l.filter (·.1 = j)).filterMap sentVal else [] := by
  have h1 : acceptedBy j b (st.map (.offer i a)) = [] := by
    rw [acceptedBy, List.filterMap_map]; exact List.filterMap_eq_nil_iff.mpr fun _ _ => rfl
  have h3 : acceptedBy j b (l.filterMap (delivers a)) = [] := by
    rw [acceptedBy, List.filterMap_filterMap]
    refine List.filterMap_eq_nil_iff.mpr fun p _ => ?_
    rw [delivers_eq]; cases recvVal p <;> rfl
  have h2 : acceptedBy j b (l.filterMap (accepts a)) = if a = b then (l.filter (·.1 = j)).filterMap sentVal else [] := by
    rw [acceptedBy, List.filterMap_filterMap]
    clear h1 h3
    induction l with
    | nil => simp
    | cons p l ih =>
      rw [List.filterMap_cons, List.filter_cons, ih, accepts_eq]; clear ih
      by_cases hab : a = b <;> by_cases hj : p.1 = j <;> cases hs : sentVal p <;> simp [*]
  rw [events, acceptedBy_append, acceptedBy_append, h1, h2, h3]; simp

theorem deliveredTo_events (i a b j : Nat) (st l) :
    deliveredTo j b (events i a st l) = if a = b then (l.filter (·.1 = j)).filterMap recvVal else [] := by
  have h1 : deliveredTo j b (st.map (.offer i a)) = [] := by
    rw [deliveredTo, List.filterMap_map]; exact List.filterMap_eq_nil_iff.mpr fun _ _ => rfl
  have h2 : deliveredTo j b (l.filterMap (accepts a)) = [] := by
    rw [deliveredTo, List.filterMap_filterMap]
    refine List.filterMap_eq_nil_iff.mpr fun p _ => ?_
    rw [accepts_eq]; cases sentVal p <;> rfl
  have h3 : deliveredTo j b (l.filterMap (delivers a)) = if a = b then (l.filter (·.1 = j)).filterMap recvVal else [] := by
    rw [deliveredTo, List.filterMap_filterMap]
    clear h1 h2
    induction l with
    | nil => simp
    | cons p l ih =>
      rw [List.filterMap_cons, List.filter_cons, ih, delivers_eq]; clear ih
      by_cases hab : a = b <;> by_cases hj : p.1 = j <;> cases hs : recvVal p <;> simp [*]
  rw [events, deliveredTo_append, deliveredTo_append, h1, h2, h3]; simp

theorem accepted_events (i a b : Nat) (st l) :
    accepted b (events i a st l) = if a = b then l.filterMap sentVal else [] := by
  have h1 : accepted b (st.map (.offer i a)) = [] := by
    rw [accepted, List.filterMap_map]; exact List.filterMap_eq_nil_iff.mpr fun _ _ => rfl
  have h3 : accepted b (l.filterMap (delivers a)) = [] := by
    rw [accepted, List.filterMap_filterMap]
    refine List.filterMap_eq_nil_iff.mpr fun p _ => ?_
    rw [delivers_eq]; cases recvVal p <;> rfl
  have h2 : accepted b (l.filterMap (accepts a)) = if a = b then l.filterMap sentVal else [] := by
    rw [accepted, List.filterMap_filterMap]
    clear h1 h3
    induction l with
    | nil => simp
    | cons p l ih =>
      rw [List.filterMap_cons, List.filterMap_cons, ih, accepts_eq]; clear ih
      by_cases hab : a = b <;> cases hs : sentVal p <;> simp [*]
  rw [events, accepted_append, accepted_append, h1, h2, h3]; simp

theorem delivered_events (i a b : Nat) (st l) :
    delivered b (events i a st l) = if a = b then l.filterMap recvVal else [] := by
  have h1 : delivered b (st.map (.offer i a)) = [] := by
    rw [delivered, List.filterMap_map]; exact List.filterMap_eq_nil_iff.mpr fun _ _ => rfl
  have h2 : delivered b (l.filterMap (accepts a)) = [] := by
    rw [delivered, List.filterMap_filterMap]
    refine List.filterMap_eq_nil_iff.mpr fun p _ => ?_
    rw [accepts_eq]; cases sentVal p <;> rfl
  have h3 : delivered b (l.filterMap (delivers a)) = if a = b then l.filterMap recvVal else [] := by
    rw [delivered, List.filterMap_filterMap]
    clear h1 h2
    induction l with
    | nil => simp
    | cons p l ih =>
      rw [List.filterMap_cons, List.filterMap_cons, ih, delivers_eq]; clear ih
      by_cases hab : a = b <;> cases hs : recvVal p <;> simp [*]
  rw [events, delivered_append, delivered_append, h1, h2, h3]; simp

theorem filter_none {l : List (Nat × Raw)} {j : Nat} (h : j ∉ l.map (·.1)) : l.filter (·.1 = j) = [] := by
  rw [List.filter_eq_nil_iff]
  intro p hp; simp only [decide_eq_true_eq]
  exact fun e => h (e ▸ List.mem_map_of_mem (f := (·.1)) hp)

theorem filter_one {l : List (Nat × Raw)} {j : Nat} {r : Raw} (hn : (l.map (·.1)).Nodup) (h : (j, r) ∈ l) :
    l.filter (·.1 = j) = [(j, r)] := by
  induction l with
  | nil => cases h
  | cons p l ih =>
    simp only [List.map_cons, List.nodup_cons] at hn
    rcases List.mem_cons.mp h with h | h
    · subst h; rw [List.filter_cons]; simp only [decide_true, if_true]; rw [filter_none hn.1]
    · have hk : p.1 ≠ j := fun e => hn.1 (e ▸ List.mem_map_of_mem (f := (·.1)) h)
      rw [List.filter_cons]; simp [hk]; simpa using ih hn.2 h

/-! ### The invariant -/

structure Inv (s : State) : Prop where
  chan : ∀ {a : Nat} {ch : Channel}, s.chans[a]? = some ch → ChOk ch ∧ delivered a s.log ++ ch.buf = accepted a s.log ∧
    ∃ rest, offered a s.log = accepted a s.log ++ rest ∧ (ch.closed = false → rest = ch.sendq.map (·.2))
  recvq : ∀ {a : Nat} {ch : Channel} {j : Nat}, s.chans[a]? = some ch →
    (j ∈ ch.recvq ↔ ∃ t, s.threads[j]? = some t ∧ t.cur = some (.read (chanObj a)))
  sendq : ∀ {a : Nat} {ch : Channel} {j : Nat} {v : Data}, s.chans[a]? = some ch →
    ((j, v) ∈ ch.sendq ↔ ∃ t, s.threads[j]? = some t ∧ t.cur = some (.write (chanObj a) v))
  cur : ∀ {j : Nat} {t : Thread} {c : Call}, s.threads[j]? = some t → t.cur = some c →
    ∃ a ch, s.chans[a]? = some ch ∧ (c = .read (chanObj a) ∨ ∃ v, c = .write (chanObj a) v)
  thread : ∀ {j : Nat} {t : Thread}, s.threads[j]? = some t → ∀ a,
    t.done.filterMap (gotFrom a) = (deliveredTo j a s.log).map noNull ∧ t.done.filterMap (sentTo a) = acceptedBy j a s.log
  fine : ∀ {j : Nat} {t : Thread}, s.threads[j]? = some t → ∀ p ∈ t.done, p.2 ≠ .panic

theorem inv_start (caps : List Nat) (calls : List (List Call)) : Inv (start caps calls) := by
  constructor
  · intro a ch h
    simp only [start, List.getElem?_map, Option.map_eq_some_iff] at h
    obtain ⟨n, _, rfl⟩ := h
    exact ⟨⟨by simp, by simp, by simp, by simp, by simp, by simp⟩, rfl, [], rfl, fun _ => rfl⟩
  · intro a ch j h
    simp only [start, List.getElem?_map, Option.map_eq_some_iff] at h
    obtain ⟨n, _, rfl⟩ := h
    constructor
    · intro h; cases h
    · rintro ⟨t, ht, hc⟩
      simp only [start, List.getElem?_map, Option.map_eq_some_iff] at ht
      obtain ⟨cs, _, rfl⟩ := ht; cases hc
  · intro a ch j v h
    simp only [start, List.getElem?_map, Option.map_eq_some_iff] at h
    obtain ⟨n, _, rfl⟩ := h
    constructor
    · intro h; cases h
    · rintro ⟨t, ht, hc⟩
      simp only [start, List.getElem?_map, Option.map_eq_some_iff] at ht
      obtain ⟨cs, _, rfl⟩ := ht; cases hc
  · intro j t c ht hc
    simp only [start, List.getElem?_map, Option.map_eq_some_iff] at ht
    obtain ⟨cs, _, rfl⟩ := ht; cases hc
  · intro j t ht a
    simp only [start, List.getElem?_map, Option.map_eq_some_iff] at ht
    obtain ⟨cs, _, rfl⟩ := ht; exact ⟨rfl, rfl⟩
  · intro j t ht p hp
    simp only [start, List.getElem?_map, Option.map_eq_some_iff] at ht
    obtain ⟨cs, _, rfl⟩ := ht; cases hp

theorem gotFrom_notChannel (a : Nat) (c : Call) : gotFrom a (c, notChannel c) = none := by cases c <;> rfl
theorem sentTo_notChannel (a : Nat) (c : Call) : sentTo a (c, notChannel c) = none := by cases c <;> rfl
theorem notChannel_panic (c : Call) : notChannel c ≠ .panic := by cases c <;> simp [notChannel]

theorem lt_of_get {α} {l : List α} {i : Nat} {x : α} (h : l[i]? = some x) : i < l.length := by
  rcases Nat.lt_or_ge i l.length with h' | h'
  · exact h'
  · rw [List.getElem?_eq_none h'] at h; cases h

/-- The idle goroutine is in no queue. -/
theorem Inv.idle {s : State} (hI : Inv s) {i : Nat} {t : Thread} {a : Nat} {ch : Channel} (ht : s.threads[i]? = some t) (hc : t.cur = none)
    (hch : s.chans[a]? = some ch) : i ∉ ch.recvq ∧ i ∉ ch.sendq.map (·.1) := by
  constructor
  · intro h; obtain ⟨t', ht', hc'⟩ := (hI.recvq hch).mp h
    rw [ht] at ht'; cases ht'; rw [hc] at hc'; cases hc'
  · intro h; obtain ⟨⟨j, v⟩, hp, rfl⟩ := List.mem_map.mp h
    obtain ⟨t', ht', hc'⟩ := (hI.sendq hch).mp hp
    rw [ht] at ht'; cases ht'; rw [hc] at hc'; cases hc'

/-- A goroutine whose call a step ends is in that call, and the call can end that way. -/
theorem ends_cur {s : State} (hI : Inv s) {i t a ch c cs} (ht : s.threads[i]? = some t) (hid : t.cur = none)
    (hch : s.chans[a]? = some ch) (ho : c.obj = chanObj a)
    (hop : OpOk ch i c (operation ch i c)) {j r} (hm : (j, r) ∈ (operation ch i c).ends i) :
    ∃ t' c', (s.threads.set i ⟨some c, cs, t.done⟩)[j]? = some t' ∧ t'.cur = some c' ∧ c'.obj = chanObj a ∧ Ends c' r := by
  have hidle := hI.idle ht hid hch
  have hoth : (j, r) ∈ (operation ch i c).others →
      ∃ t' c', (s.threads.set i ⟨some c, cs, t.done⟩)[j]? = some t' ∧ t'.cur = some c' ∧ c'.obj = chanObj a ∧ Ends c' r := by
    intro hm'
    rcases hop.others _ hm' with ⟨hq, v, m, hr⟩ | ⟨v, hq, hr⟩
    · obtain ⟨t', ht', hc'⟩ := (hI.recvq hch).mp hq
      dsimp only at hr ht' hq; subst hr
      have hji : j ≠ i := fun e => hidle.1 (e ▸ hq)
      exact ⟨t', _, by rw [List.getElem?_set_ne (Ne.symm hji)]; exact ht', hc', rfl, trivial⟩
    · obtain ⟨t', ht', hc'⟩ := (hI.sendq hch).mp hq
      dsimp only at hr ht' hq
      have hji : j ≠ i := fun e => hidle.2 (e ▸ List.mem_map_of_mem (f := (·.1)) hq)
      refine ⟨t', _, by rw [List.getElem?_set_ne (Ne.symm hji)]; exact ht', hc', rfl, ?_⟩
      rcases hr with rfl | rfl
      · rfl
      · trivial
  cases hs : (operation ch i c).self with
  | none => rw [Effect.ends, hs] at hm; exact hoth hm
  | some q =>
    rw [Effect.ends, hs] at hm
    rcases List.mem_cons.mp hm with hm | hm
    · cases hm
      exact ⟨⟨some c, cs, t.done⟩, c, by simp [lt_of_get ht], rfl, ho, hop.self _ hs⟩
    · exact hoth hm

/-- The threads after a step. -/
theorem next_thread {s : State} (hI : Inv s) {i t a ch c cs} (ht : s.threads[i]? = some t) (hid : t.cur = none)
    (hch : s.chans[a]? = some ch) (ho : c.obj = chanObj a)
    (hop : OpOk ch i c (operation ch i c)) {j t'}
    (h : (wake (s.threads.set i ⟨some c, cs, t.done⟩) ((operation ch i c).ends i))[j]? = some t') :
    (∃ r c' t₀, (j, r) ∈ (operation ch i c).ends i ∧ (s.threads.set i ⟨some c, cs, t.done⟩)[j]? = some t₀ ∧
      t₀.cur = some c' ∧ c'.obj = chanObj a ∧ Ends c' r ∧ t' = ⟨none, t₀.todo, t₀.done ++ [(c', result c' r)]⟩) ∨
    (j ∉ ((operation ch i c).ends i).map (·.1) ∧ (s.threads.set i ⟨some c, cs, t.done⟩)[j]? = some t') := by
  by_cases hj : j ∈ ((operation ch i c).ends i).map (·.1)
  · obtain ⟨⟨k, r⟩, hm, rfl⟩ := List.mem_map.mp hj
    obtain ⟨t₀, c', h1, h2, h3, h4⟩ := ends_cur (cs := cs) hI ht hid hch ho hop hm
    rw [wake_mem hop.nodup hm, h1] at h
    simp only [Option.map_some, Option.some.injEq, Thread.complete, h2] at h
    exact .inl ⟨r, c', t₀, hm, h1, h2, h3, h4, h.symm⟩
  · rw [wake_not hj] at h
    exact .inr ⟨hj, h⟩

/-- The set thread has the same finished calls as the old one. -/
theorem set_old {s : State} {i t c cs j t'} (ht : s.threads[i]? = some t)
    (h : (s.threads.set i ⟨some c, cs, t.done⟩)[j]? = some t') :
    ∃ t₀, s.threads[j]? = some t₀ ∧ t'.done = t₀.done ∧ ((j = i ∧ t'.cur = some c) ∨ (j ≠ i ∧ t' = t₀)) := by
  by_cases hj : j = i
  · subst hj
    rw [List.getElem?_set_self (lt_of_get ht)] at h
    cases h
    exact ⟨t, ht, rfl, .inl ⟨rfl, rfl⟩⟩
  · rw [List.getElem?_set_ne (Ne.symm hj)] at h
    exact ⟨t', h, rfl, .inr ⟨hj, rfl⟩⟩

theorem inv_next {s : State} (hI : Inv s) {i t c cs} (ht : s.threads[i]? = some t) (hid : t.cur = none) :
    Inv (next s i t c cs) := by
  unfold next
  split
  · -- not a channel
    have hset : ∀ {j t'}, (s.threads.set i ⟨none, cs, t.done ++ [(c, notChannel c)]⟩)[j]? = some t' →
        (j = i ∧ t' = ⟨none, cs, t.done ++ [(c, notChannel c)]⟩) ∨ (j ≠ i ∧ s.threads[j]? = some t') := by
      intro j t' h
      by_cases hj : j = i
      · subst hj; rw [List.getElem?_set_self (lt_of_get ht)] at h; cases h; exact .inl ⟨rfl, rfl⟩
      · rw [List.getElem?_set_ne (Ne.symm hj)] at h; exact .inr ⟨hj, h⟩
    have hback : ∀ {j : Nat} {c' : Call}, (∃ t' : Thread, (s.threads.set i ⟨none, cs, t.done ++ [(c, notChannel c)]⟩)[j]? = some t' ∧ t'.cur = some c') ↔
        ∃ t' : Thread, s.threads[j]? = some t' ∧ t'.cur = some c' := by
      intro j c'
      constructor
      · rintro ⟨t', h, hc⟩
        rcases hset h with ⟨_, rfl⟩ | ⟨_, h⟩
        · cases hc
        · exact ⟨t', h, hc⟩
      · rintro ⟨t', h, hc⟩
        have hj : j ≠ i := by rintro rfl; rw [ht] at h; cases h; rw [hid] at hc; cases hc
        exact ⟨t', by rw [List.getElem?_set_ne (Ne.symm hj)]; exact h, hc⟩
    constructor
    · exact hI.chan
    · intro a ch j h; rw [hback]; exact hI.recvq h
    · intro a ch j v h; rw [hback]; exact hI.sendq h
    · intro j t' c' h hc
      obtain ⟨t'', h', hc'⟩ := hback.mp ⟨t', h, hc⟩
      exact hI.cur h' hc'
    · intro j t' h a
      rcases hset h with ⟨rfl, rfl⟩ | ⟨_, h⟩
      · have := hI.thread ht a
        simp only [List.filterMap_append, List.filterMap_cons, gotFrom_notChannel, sentTo_notChannel, List.filterMap_nil,
          List.append_nil]
        exact this
      · exact hI.thread h a
    · intro j t' h p hp
      rcases hset h with ⟨rfl, rfl⟩ | ⟨_, h⟩
      · simp only [List.mem_append, List.mem_singleton] at hp
        rcases hp with hp | rfl
        · exact hI.fine ht p hp
        · exact notChannel_panic c
      · exact hI.fine h p hp
  · rename_i a hp
    have ho := pointer_some hp
    split
    · exact hI
    rename_i ch hch
    have hidle := hI.idle ht hid hch
    have hop : OpOk ch i c (operation ch i c) := operation_ok (hI.chan hch).1 hidle.1 hidle.2
    have hlog' : s.log ++ (started c (operation ch i c).self).map (.offer i a) ++ ((operation ch i c).ends i).filterMap (accepts a)
          ++ ((operation ch i c).ends i).filterMap (delivers a) =
        s.log ++ events i a (started c (operation ch i c).self) ((operation ch i c).ends i) := by
      rw [events]; simp
    have hothers : ∀ {j}, j ≠ i → (j ∈ ((operation ch i c).ends i).map (·.1) ↔ j ∈ (operation ch i c).others.map (·.1)) := by
      intro j hj; unfold Effect.ends; split <;> simp [hj]
    have hiend : i ∈ ((operation ch i c).ends i).map (·.1) ↔ (operation ch i c).self ≠ none := by
      cases hs : (operation ch i c).self with
      | some r => simp [Effect.ends, hs]
      | none =>
        simp only [Effect.ends, hs, ne_eq, not_true, iff_false]
        intro hm
        obtain ⟨p, hp, he⟩ := List.mem_map.mp hm
        rcases hop.others p hp with ⟨hq, _⟩ | ⟨v, hq, _⟩
        · exact hidle.1 (he ▸ hq)
        · exact hidle.2 (he ▸ List.mem_map_of_mem (f := (·.1)) hq)
    have hgetset : ∀ {b ch'}, (s.chans.set a (operation ch i c).ch)[b]? = some ch' →
        (b = a ∧ ch' = (operation ch i c).ch) ∨ (b ≠ a ∧ s.chans[b]? = some ch') := by
      intro b ch' h
      by_cases hb : b = a
      · subst hb; rw [List.getElem?_set_self (lt_of_get hch)] at h; cases h; exact .inl ⟨rfl, rfl⟩
      · rw [List.getElem?_set_ne (Ne.symm hb)] at h; exact .inr ⟨hb, h⟩
    -- who is blocked in which call afterwards
    have hblocked : ∀ {j c'}, (∃ t', (wake (s.threads.set i ⟨some c, cs, t.done⟩) ((operation ch i c).ends i))[j]? = some t' ∧
        t'.cur = some c') ↔ ((j = i ∧ c' = c ∧ (operation ch i c).self = none) ∨
          (j ≠ i ∧ j ∉ (operation ch i c).others.map (·.1) ∧ ∃ t', s.threads[j]? = some t' ∧ t'.cur = some c')) := by
      intro j c'
      constructor
      · rintro ⟨t', h, hc⟩
        rcases next_thread hI ht hid hch ho hop h with ⟨r, c₁, t₀, _, _, _, _, _, rfl⟩ | ⟨hj, h⟩
        · cases hc
        · by_cases hji : j = i
          · subst hji
            rw [List.getElem?_set_self (lt_of_get ht)] at h
            cases h; cases hc
            exact .inl ⟨rfl, rfl, Classical.byContradiction fun hne => hj (hiend.mpr hne)⟩
          · rw [List.getElem?_set_ne (Ne.symm hji)] at h
            exact .inr ⟨hji, fun hm => hj ((hothers hji).mpr hm), t', h, hc⟩
      · rintro (⟨rfl, rfl, hs⟩ | ⟨hji, hm, t', h, hc⟩)
        · refine ⟨⟨some c', cs, t.done⟩, ?_, rfl⟩
          rw [wake_not (fun hm => hiend.mp hm hs), List.getElem?_set_self (lt_of_get ht)]
        · refine ⟨t', ?_, hc⟩
          rw [wake_not (fun hm' => hm ((hothers hji).mp hm')), List.getElem?_set_ne (Ne.symm hji)]; exact h
    constructor
    · intro b ch' h
      dsimp only at h ⊢
      rw [hlog', delivered_append, accepted_append, offered_append, delivered_events, accepted_events, offered_events]
      rcases hgetset h with ⟨rfl, rfl⟩ | ⟨hb, h⟩
      · obtain ⟨_, h2, rest, h3, h4⟩ := hI.chan hch
        refine ⟨hop.ok, ?_, ?_⟩
        · simp only [if_true]
          rw [List.append_assoc, ← hop.flow, ← List.append_assoc, h2]
        · simp only [if_true]
          cases hcl : (operation ch i c).ch.closed with
          | false =>
            obtain ⟨h5, h6⟩ := hop.open_ hcl
            refine ⟨(operation ch i c).ch.sendq.map (·.2), ?_, fun _ => rfl⟩
            rw [h3, h4 h5, List.append_assoc, h6, List.append_assoc]
          | true =>
            obtain ⟨h5, h6⟩ := hop.shut hcl
            exact ⟨rest, by rw [h5, h6, h3]; simp, by simp⟩
      · rw [if_neg (Ne.symm hb), if_neg (Ne.symm hb), if_neg (Ne.symm hb)]
        simpa using hI.chan h
    · intro b ch' j h
      dsimp only at h ⊢
      rw [hblocked]
      rcases hgetset h with ⟨rfl, rfl⟩ | ⟨hb, h⟩
      · rw [hop.recvq, hI.recvq hch]
        constructor
        · rintro (⟨⟨t', h1, h2⟩, h3⟩ | ⟨rfl, h1, o, rfl⟩)
          · refine .inr ⟨?_, h3, t', h1, h2⟩
            rintro rfl; rw [ht] at h1; cases h1; rw [hid] at h2; cases h2
          · exact .inl ⟨rfl, by rw [← ho]; rfl, h1⟩
        · rintro (⟨rfl, h1, h2⟩ | ⟨h1, h2, h3⟩)
          · exact .inr ⟨rfl, h2, _, h1.symm⟩
          · exact .inl ⟨h3, h2⟩
      · rw [hI.recvq h]
        constructor
        · rintro ⟨t', h1, h2⟩
          refine .inr ⟨?_, ?_, t', h1, h2⟩
          · rintro rfl; rw [ht] at h1; cases h1; rw [hid] at h2; cases h2
          · intro hm
            obtain ⟨p, hp, rfl⟩ := List.mem_map.mp hm
            rcases hop.others p hp with ⟨hq, _⟩ | ⟨v, hq, _⟩
            · obtain ⟨t'', h3, h4⟩ := (hI.recvq hch).mp hq
              rw [h1] at h3; cases h3; rw [h2] at h4
              simp only [Option.some.injEq, Call.read.injEq] at h4
              exact hb (chanObj_inj h4)
            · obtain ⟨t'', h3, h4⟩ := (hI.sendq hch).mp hq
              rw [h1] at h3; cases h3; rw [h2] at h4; cases h4
        · rintro (⟨rfl, h1, h2⟩ | ⟨h1, h2, h3⟩)
          · rw [← h1] at ho; exact absurd (chanObj_inj ho) hb
          · exact h3
    · intro b ch' j v h
      dsimp only at h ⊢
      rw [hblocked]
      rcases hgetset h with ⟨rfl, rfl⟩ | ⟨hb, h⟩
      · rw [hop.sendq, hI.sendq hch]
        constructor
        · rintro (⟨⟨t', h1, h2⟩, h3⟩ | ⟨rfl, h1, o, rfl⟩)
          · refine .inr ⟨?_, h3, t', h1, h2⟩
            rintro rfl; rw [ht] at h1; cases h1; rw [hid] at h2; cases h2
          · exact .inl ⟨rfl, by rw [← ho]; rfl, h1⟩
        · rintro (⟨rfl, h1, h2⟩ | ⟨h1, h2, h3⟩)
          · exact .inr ⟨rfl, h2, _, h1.symm⟩
          · exact .inl ⟨h3, h2⟩
      · rw [hI.sendq h]
        constructor
        · rintro ⟨t', h1, h2⟩
          refine .inr ⟨?_, ?_, t', h1, h2⟩
          · rintro rfl; rw [ht] at h1; cases h1; rw [hid] at h2; cases h2
          · intro hm
            obtain ⟨p, hp, rfl⟩ := List.mem_map.mp hm
            rcases hop.others p hp with ⟨hq, _⟩ | ⟨v, hq, _⟩
            · obtain ⟨t'', h3, h4⟩ := (hI.recvq hch).mp hq
              rw [h1] at h3; cases h3; rw [h2] at h4; cases h4
            · obtain ⟨t'', h3, h4⟩ := (hI.sendq hch).mp hq
              rw [h1] at h3; cases h3; rw [h2] at h4
              simp only [Option.some.injEq, Call.write.injEq] at h4
              exact hb (chanObj_inj h4.1)
        · rintro (⟨rfl, h1, h2⟩ | ⟨h1, h2, h3⟩)
          · rw [← h1] at ho; exact absurd (chanObj_inj ho) hb
          · exact h3
    · intro j t' c' h hc
      dsimp only at h ⊢
      rcases hblocked.mp ⟨t', h, hc⟩ with ⟨rfl, rfl, hs⟩ | ⟨_, _, t'', h', hc'⟩
      · refine ⟨a, (operation ch j c').ch, List.getElem?_set_self (lt_of_get hch), ?_⟩
        rcases hop.block hs with ⟨o, rfl⟩ | ⟨o, v, rfl⟩
        · left; rw [← ho]; rfl
        · right; exact ⟨v, by rw [← ho]; rfl⟩
      · obtain ⟨b, ch', hb, hc''⟩ := hI.cur h' hc'
        by_cases hba : b = a
        · subst hba; exact ⟨b, (operation ch i c).ch, List.getElem?_set_self (lt_of_get hch), hc''⟩
        · exact ⟨b, ch', by rw [List.getElem?_set_ne (Ne.symm hba)]; exact hb, hc''⟩
    · intro j t' h b
      dsimp only at h ⊢
      rw [hlog', deliveredTo_append, acceptedBy_append, deliveredTo_events, acceptedBy_events]
      rcases next_thread hI ht hid hch ho hop h with ⟨r, c₁, t₀, hm, h0, _, h2, h3, rfl⟩ | ⟨hj, h⟩
      · obtain ⟨t₁, h4, h5, _⟩ := set_old ht h0
        obtain ⟨h6, h7⟩ := hI.thread h4 b
        rw [filter_one hop.nodup hm]
        simp only [List.filterMap_append, List.filterMap_cons, List.filterMap_nil, h5, h6, h7,
          h3.got h2 (j := j), h3.sent h2 (j := j)]
        by_cases hab : a = b
        · simp only [hab, if_true]
          constructor
          · cases recvVal (j, r) <;> simp
          · cases sentVal (j, r) <;> simp
        · simp [hab]
      · obtain ⟨t₁, h4, h5, _⟩ := set_old ht h
        obtain ⟨h6, h7⟩ := hI.thread h4 b
        rw [filter_none hj, h5, h6, h7]; simp
    · intro j t' h p hp
      dsimp only at h
      rcases next_thread hI ht hid hch ho hop h with ⟨r, c₁, t₀, hm, h0, _, h2, h3, rfl⟩ | ⟨hj, h⟩
      · obtain ⟨t₁, h4, h5, _⟩ := set_old ht h0
        simp only [List.mem_append, List.mem_singleton, h5] at hp
        rcases hp with hp | rfl
        · exact hI.fine h4 p hp
        · exact h3.no_panic
      · obtain ⟨t₁, h4, h5, _⟩ := set_old ht h
        rw [h5] at hp; exact hI.fine h4 p hp

theorem inv_steps {caps calls s} (h : Steps (start caps calls) s) : Inv s := by
  generalize hs : start caps calls = s₀ at h
  induction h with
  | refl => subst hs; exact inv_start caps calls
  | tail _ h2 ih =>
    cases h2 with
    | mk h1 h2 h3 => exact inv_next ih h1 h2

end Golisp.Chan
