import Verif.Bytes
import Verif.Props.Lists
/-
Properties C27-C29: byte arrays (`prim_bytearray.go`), with aliasing.
-/
namespace Golisp.Props
open Golisp Data Spec Bytes

/-! ### Helper lemmas -/

private theorem find_holds {h d bs} (H : Holds h d bs) :
    ∃ i a, d = .atom (.obj "[]byte" i) ∧ h.boxes[i]? = some a ∧ h.arrays[a]? = some bs ∧ find h d = some (i, a, bs) := by
  cases H with
  | mk h1 h2 => exact ⟨_, _, rfl, h1, h2, by simp [find, h1, h2]⟩

private theorem holds_find {h d i a bs} (H : find h d = some (i, a, bs)) :
    d = .atom (.obj "[]byte" i) ∧ h.boxes[i]? = some a ∧ h.arrays[a]? = some bs := by
  unfold find at H
  split at H
  · split at H
    · rename_i j ht
      cases hb : h.boxes[j]? with
      | none => rw [hb] at H; simp at H
      | some a' =>
        rw [hb] at H
        cases hx : h.arrays[a']? with
        | none => simp [hx] at H
        | some xs =>
          simp [hx] at H
          obtain ⟨rfl, rfl, rfl⟩ := H
          subst_vars
          exact ⟨rfl, hb, hx⟩
    · simp at H
  · simp at H

private theorem holds_of_find {h d i a bs} (H : find h d = some (i, a, bs)) : Holds h d bs := by
  obtain ⟨rfl, h1, h2⟩ := holds_find H
  exact .mk h1 h2

private theorem find_none {h d} (H : ∀ bs, ¬ Holds h d bs) : find h d = none := by
  cases hf : find h d with
  | none => rfl
  | some p => exact absurd (holds_of_find (i := p.1) (a := p.2.1) (bs := p.2.2) hf) (H _)

private theorem holds_unique {h d xs ys} (h1 : Holds h d xs) (h2 : Holds h d ys) : xs = ys := by
  obtain ⟨_, _, rfl, _, _, f1⟩ := find_holds h1
  obtain ⟨_, _, _, _, _, f2⟩ := find_holds h2
  rw [f1] at f2; simp at f2; exact f2.2.2

private theorem alloc_fresh (bs : List Byte) (h : Heap) : ∃ d h', alloc bs h = (.ok d, h') ∧ Fresh h h' d bs := by
  refine ⟨_, _, rfl, .mk (a := h.arrays.length) ?_ ?_, ?_, ?_⟩
  · simp
  · simp
  · intro xs H
    obtain ⟨i, a, he, h1, _, _⟩ := find_holds H
    simp at he
    subst he
    simp at h1
  · intro x xs H
    obtain ⟨i, a, rfl, h1, h2, _⟩ := find_holds H
    refine .mk (a := a) ?_ ?_
    · rw [List.getElem?_append_left (List.getElem?_eq_some_iff.1 h1).1]; exact h1
    · show (h.arrays ++ [bs])[a]? = some xs
      rw [List.getElem?_append_left (List.getElem?_eq_some_iff.1 h2).1]; exact h2

private theorem byte_toInt (b : Byte) : (BitVec.ofNat 64 b.toNat).toInt = b.toNat := by
  have := b.isLt
  rw [BitVec.toInt_eq_toNat_of_lt] <;> simp <;> omega

private theorem setWidth_eq (b : Byte) : b.setWidth 64 = BitVec.ofNat 64 b.toNat := by
  apply BitVec.eq_of_toNat_eq; simp

private theorem collect_ok {h xs bs} (H : Parts h xs bs) : ∀ acc, collect h xs acc = .ok (acc ++ bs) := by
  induction H with
  | nil => intro acc; simp [collect]
  | cons hp _ ih =>
    intro acc
    cases hp with
    | byte b =>
      have hb := byte_toInt b
      have := b.isLt
      rw [collect, if_neg (by omega), ih]
      simp
    | array hh =>
      obtain ⟨i, a, rfl, _, _, hf⟩ := find_holds hh
      simp only [collect, hf, ih]
      simp

private theorem part_of_range {h : Heap} {b : BitVec 64} (hb : ¬ (b.toInt < 0 ∨ b.toInt > 255)) : Part h (.int b) [b.setWidth 8] := by
  have : b = BitVec.ofNat 64 (b.setWidth 8).toNat := by
    apply BitVec.eq_of_toNat_eq
    have h1 : b.toNat < 256 := by
      have := BitVec.toInt_eq_toNat_cond b
      split at this <;> omega
    simp; omega
  have hp := Part.byte (h := h) (b.setWidth 8)
  rw [← this] at hp
  exact hp

private theorem collect_bad {h} : ∀ {xs x}, x ∈ xs → (∀ bs, ¬ Part h x bs) → ∀ acc, ∃ e, collect h xs acc = .err e
  | y :: ys, x, hm, hb, acc => by
    have next : ∀ acc', (x = y → False) → ∃ e, collect h ys acc' = .err e := by
      intro acc' hne
      rcases List.mem_cons.1 hm with he | he
      · exact absurd he hne
      · exact collect_bad he hb acc'
    unfold collect
    split
    · rename_i b
      split
      · exact ⟨_, rfl⟩
      · rename_i hr
        refine next _ fun he => ?_
        subst he; exact hb _ (part_of_range hr)
    · split
      · rename_i hf
        refine next _ fun he => ?_
        exact hb _ (he ▸ Part.array (holds_of_find hf))
      · exact ⟨_, rfl⟩

private theorem Lst_nonempty {l xs} (hl : Lst l xs) (hx : xs ≠ []) : isNil l = false ∧ isListP l = true := by
  cases hl with
  | null => exact absurd rfl hx
  | empty => exact absurd rfl hx
  | cons k a d xs h1 h2 h3 =>
    constructor
    · cases a <;> cases d <;> simp_all [isNil]
    · cases k <;> simp_all [isListP, isPair, isAlist]

private theorem listBytes_ok {h l xs bs} (hl : Lst l xs) (hx : xs ≠ []) (H : Parts h xs bs) : listBytes h l = .ok bs := by
  obtain ⟨h1, h2⟩ := Lst_nonempty hl hx
  simp [listBytes, h1, h2, hl.toArray, collect_ok H]

private theorem listBytes_bad {h l xs x} (hl : Lst l xs) (hm : x ∈ xs) (hb : ∀ bs, ¬ Part h x bs) : ∃ e, listBytes h l = .err e := by
  obtain ⟨h1, h2⟩ := Lst_nonempty hl (List.ne_nil_of_mem hm)
  simpa [listBytes, h1, h2, hl.toArray] using collect_bad hm hb []

private theorem parts_bytes (h : Heap) : ∀ bs : List Byte, Parts h (bs.map fun b => .int (b.setWidth 64)) bs
  | [] => .nil
  | b :: bs => by
    rw [List.map_cons, setWidth_eq]
    exact .cons (bs := [b]) (.byte b) (parts_bytes h bs)

private theorem lst_ints (ns : List (BitVec 64)) : Lst (ofArray (ns.map .int)) (ns.map .int) := by
  have h := Lst.ofArray (ns.map .int)
  rwa [map_elem_id (by simp)] at h

/-! ### C27 -/

/-- C27: `list->bytearray` of a non-empty list whose elements are bytes (or byte arrays, which contribute all their
bytes) makes a new byte array with exactly those bytes in order; nothing that existed changes. -/
theorem C27_list_to_bytes {h : Heap} {l : Data} {xs : List Data} {bs : List Byte}
    (hl : Lst l xs) (hx : xs ≠ []) (hp : Parts h xs bs) :
    ∃ d h', listToBytes l h = (.ok d, h') ∧ Fresh h h' d bs := by
  obtain ⟨d, h', ha, hf⟩ := alloc_fresh bs h
  refine ⟨d, h', ?_, hf⟩
  simp [listToBytes, M.bind, lift, listBytes_ok hl hx hp, ha]

/-- C27: an element that is neither an integer 0..255 nor a byte array makes `list->bytearray` an error without
effect, wherever it stands in the list. -/
theorem C27_bad_element {h : Heap} {l : Data} {xs : List Data} {x : Data}
    (hl : Lst l xs) (hm : x ∈ xs) (hb : ∀ n : Int, 0 ≤ n → n ≤ 255 → ¬ IsInt x n) (ha : ∀ bs, ¬ Holds h x bs) :
    ∃ e, listToBytes l h = (.err e, h) := by
  have : ∀ bs, ¬ Part h x bs := by
    intro bs hp
    cases hp with
    | byte b =>
      refine hb b.toNat (by omega) ?_ ⟨_, rfl, byte_toInt b⟩
      have := b.isLt; omega
    | array hh => exact ha _ hh
  obtain ⟨e, he⟩ := listBytes_bad hl hm this
  exact ⟨e, by simp [listToBytes, M.bind, lift, he]⟩

/-- C27: `bytearray->list` gives the list of the bytes, without effect; on anything but a byte array it is an error. -/
theorem C27_bytes_to_list {h : Heap} {d : Data} {bs : List Byte} (hd : Holds h d bs) :
    ∃ l, bytesToList d h = (.ok l, h) ∧ Lst l (bs.map fun b => .int (BitVec.ofNat 64 b.toNat)) := by
  obtain ⟨i, a, _, _, _, hf⟩ := find_holds hd
  refine ⟨_, by simp only [bytesToList, hf]; rfl, ?_⟩
  have := lst_ints (bs.map fun b => BitVec.ofNat 64 b.toNat)
  simpa [Function.comp_def] using this

theorem C27_not_bytes {h : Heap} {d : Data} (hd : ∀ bs, ¬ Holds h d bs) : ∃ e, bytesToList d h = (.err e, h) :=
  ⟨_, by simp only [bytesToList, find_none hd]; rfl⟩

/-- C27: from a non-empty list of integers 0..255 to a byte array and back gives a list of the same integers.
Partial: the empty list is refused (`C27_empty_violation`). -/
theorem C27_list_round_trip_partial {h : Heap} {l : Data} {ns : List (BitVec 64)}
    (hl : Lst l (ns.map .int)) (hne : ns ≠ []) (hr : ∀ n ∈ ns, 0 ≤ n.toInt ∧ n.toInt ≤ 255) :
    ∃ d h' l', listToBytes l h = (.ok d, h') ∧ bytesToList d h' = (.ok l', h') ∧ Lst l' (ns.map .int) := by
  have key : ∀ ns : List (BitVec 64), (∀ n ∈ ns, 0 ≤ n.toInt ∧ n.toInt ≤ 255) →
      Parts h (ns.map .int) (ns.map (·.setWidth 8)) ∧
        (ns.map (·.setWidth 8)).map (fun b : Byte => Data.int (BitVec.ofNat 64 b.toNat)) = ns.map .int := by
    intro ns
    induction ns with
    | nil => intro _; exact ⟨.nil, rfl⟩
    | cons n ns ih =>
      intro hr
      obtain ⟨i1, i2⟩ := ih fun n hn => hr n (List.mem_cons_of_mem _ hn)
      obtain ⟨r1, r2⟩ := hr n (List.mem_cons_self ..)
      refine ⟨.cons (bs := [_]) (part_of_range (by omega)) i1, ?_⟩
      rw [List.map_cons, List.map_cons, List.map_cons, i2]
      congr 2
      apply BitVec.eq_of_toNat_eq
      have h1 : n.toNat < 256 := by
        have := BitVec.toInt_eq_toNat_cond n
        split at this <;> omega
      simp; omega
  obtain ⟨k1, k2⟩ := key ns hr
  obtain ⟨d, h', e1, f1⟩ := C27_list_to_bytes hl (by simpa using hne) k1
  obtain ⟨l', e2, hl'⟩ := C27_bytes_to_list f1.holds
  exact ⟨d, h', l', e1, e2, k2 ▸ hl'⟩

/-- C27: from a non-empty byte array to a list and back gives a new byte array equal (`IsEqual`) to the first.
Partial: the empty byte array becomes the empty list, which is refused (`C27_empty_violation`). -/
theorem C27_bytes_round_trip_partial {h : Heap} {d : Data} {bs : List Byte} (hd : Holds h d bs) (hne : bs ≠ []) :
    ∃ l d' h', bytesToList d h = (.ok l, h) ∧ listToBytes l h = (.ok d', h') ∧ Fresh h h' d' bs := by
  obtain ⟨l, e1, hl⟩ := C27_bytes_to_list hd
  have hp := parts_bytes h bs
  simp only [setWidth_eq] at hp
  obtain ⟨d', h', e2, hf⟩ := C27_list_to_bytes hl (by simpa using hne) hp
  exact ⟨l, d', h', e1, e2, hf⟩

/-- C27 does not hold for the empty list: `(list->bytearray (bytearray->list []))` and `(list->bytearray '())` are
errors. -/
theorem C27_empty_violation {h : Heap} {d : Data} (hd : Holds h d []) :
    ∃ l e, bytesToList d h = (.ok l, h) ∧ Lst l [] ∧ listToBytes l h = (.err e, h) := by
  obtain ⟨i, a, _, _, _, hf⟩ := find_holds hd
  exact ⟨_, _, by simp only [bytesToList, hf]; rfl, .empty _, rfl⟩

private theorem eqLoop_iff (xs ys : List Byte) : ∀ n i, eqLoop xs ys i n = true ↔ ∀ j, i ≤ j → j < i + n → xs[j]? = ys[j]?
  | 0, i => by
    simp only [eqLoop, true_iff]
    intro j h1 h2; omega
  | n + 1, i => by
    rw [eqLoop]
    split
    · rename_i hne
      simp only [Bool.false_eq_true, false_iff]
      intro hall
      exact hne (hall i (Nat.le_refl _) (by omega))
    · rename_i he
      rw [eqLoop_iff xs ys n (i + 1)]
      constructor
      · intro hall j h1 h2
        by_cases hj : j = i
        · subst hj; exact Classical.not_not.1 he
        · exact hall j (by omega) (by omega)
      · intro hall j h1 h2
        exact hall j (by omega) (by omega)

/-- C27: two byte arrays are equal exactly when they hold the same bytes. -/
theorem C27_equal {h : Heap} {d o : Data} {xs ys : List Byte} (hd : Holds h d xs) (ho : Holds h o ys) :
    equal h d o = true ↔ xs = ys := by
  obtain ⟨_, _, _, _, _, f1⟩ := find_holds hd
  obtain ⟨_, _, _, _, _, f2⟩ := find_holds ho
  simp only [equal, f1, f2]
  split
  · rename_i hl
    simp only [Bool.false_eq_true, false_iff]
    intro he; exact hl (he ▸ rfl)
  · rename_i hl
    rw [eqLoop_iff]
    constructor
    · intro hall
      apply List.ext_getElem?
      intro j
      by_cases hj : j < xs.length
      · exact hall j (by omega) (by omega)
      · rw [List.getElem?_eq_none (by omega), List.getElem?_eq_none (by omega)]
    · intro he j _ _; rw [he]

/-! ### C28 -/

/-- The bytes `new` differ from `old` at most at index `n`, where `new` has the byte with value `v`. -/
def ChangedAt (old new : List Byte) (n : Nat) (v : Nat) : Prop :=
  new.length = old.length ∧ (∀ j, j ≠ n → new[j]? = old[j]?) ∧ ∃ b : Byte, new[n]? = some b ∧ b.toNat = v

private theorem set_changed {old : List Byte} {n v : Nat} {w : BitVec 64} (hn : n < old.length) (hw : w.toInt = v) (hv : v ≤ 255) :
    ChangedAt old (old.set n (w.setWidth 8)) n v := by
  refine ⟨by simp, fun j hj => ?_, w.setWidth 8, ?_, ?_⟩
  · rw [List.getElem?_set]; simp [Ne.symm hj]
  · rw [List.getElem?_set]; simp [hn]
  · have := BitVec.toInt_eq_toNat_cond w
    simp
    split at this <;> omega

/-- C28: `replace-byte` gives a new byte array that differs only at the index; every existing byte array, the argument
included, keeps its contents. -/
theorem C28_replace {h : Heap} {d index value : Data} {bs : List Byte} {n v : Nat}
    (hd : Holds h d bs) (hi : IsInt index n) (hn : n < bs.length) (hv : IsInt value v) (hv' : v ≤ 255) :
    ∃ d' h' bs', replaceByte true d index value h = (.ok d', h') ∧ Fresh h h' d' bs' ∧ ChangedAt bs bs' n v := by
  obtain ⟨i, a, _, _, _, hf⟩ := find_holds hd
  obtain ⟨ib, rfl, hib⟩ := hi
  obtain ⟨vb, rfl, hvb⟩ := hv
  obtain ⟨d', h', ha, hfr⟩ := alloc_fresh (bs.set n (vb.setWidth 8)) h
  refine ⟨d', h', _, ?_, hfr, set_changed hn hvb hv'⟩
  have hc : ¬ (vb.toInt < 0 ∨ vb.toInt > 255) := by omega
  simp only [replaceByte, hf]
  rw [if_neg (by omega), if_neg (by omega), if_neg hc, hib]
  simpa using ha

/-- C28: `replace-byte!` returns its argument; the byte arrays sharing its storage (the argument itself among them)
change at the index only, every other byte array keeps its contents. -/
theorem C28_replace_bang {h : Heap} {d index value : Data} {bs : List Byte} {n v : Nat}
    (hd : Holds h d bs) (hi : IsInt index n) (hn : n < bs.length) (hv : IsInt value v) (hv' : v ≤ 255) :
    ∃ h' bs', replaceByte false d index value h = (.ok d, h') ∧ ChangedAt bs bs' n v ∧ Holds h' d bs' ∧
      h'.boxes = h.boxes ∧
      ∀ x xs, Holds h x xs → (Holds h' x bs' ∧ xs = bs) ∨ Holds h' x xs ∧
        ∀ i j, d = .atom (.obj "[]byte" i) → x = .atom (.obj "[]byte" j) → h.boxes[i]? ≠ h.boxes[j]? := by
  obtain ⟨i, a, rfl, hb, har, hf⟩ := find_holds hd
  obtain ⟨ib, rfl, hib⟩ := hi
  obtain ⟨vb, rfl, hvb⟩ := hv
  have hc : ¬ (vb.toInt < 0 ∨ vb.toInt > 255) := by omega
  have hal := (List.getElem?_eq_some_iff.1 har).1
  refine ⟨{ h with arrays := h.arrays.set a (bs.set n (vb.setWidth 8)) }, bs.set n (vb.setWidth 8), ?_, set_changed hn hvb hv', .mk hb ?_, rfl, ?_⟩
  · simp only [replaceByte, hf]
    rw [if_neg (by omega), if_neg (by omega), if_neg hc, hib]
    simp
  · show (h.arrays.set a _)[a]? = _
    rw [List.getElem?_set]; simp [hal]
  · intro x xs hx
    obtain ⟨j, c, rfl, hb', har', _⟩ := find_holds hx
    by_cases hca : a = c
    · subst hca
      rw [har] at har'
      refine .inl ⟨.mk hb' ?_, by simpa using har'.symm⟩
      show (h.arrays.set a _)[a]? = _
      rw [List.getElem?_set]; simp [hal]
    · refine .inr ⟨.mk hb' ?_, ?_⟩
      · show (h.arrays.set a _)[c]? = _
        rw [List.getElem?_set]; simpa [hca] using har'
      · intro i' j' e1 e2
        simp at e1 e2
        subst e1; subst e2
        rw [hb, hb']; simpa using hca

/-- C28: a first argument that is no byte array, an index that is no integer or outside 0..length-1, or a value that
is no integer or outside 0..255, makes both `replace-byte` and `replace-byte!` an error without effect. -/
theorem C28_replace_error {h : Heap} {d index value : Data} (mc : Bool)
    (hbad : ∀ bs (n v : Nat), Holds h d bs → IsInt index n → n < bs.length → IsInt value v → 255 < v) :
    ∃ e, replaceByte mc d index value h = (.err e, h) := by
  unfold replaceByte
  split
  · exact ⟨_, rfl⟩
  · rename_i i a bs hf
    have hh := holds_of_find hf
    split
    · rename_i ib
      split
      · exact ⟨_, rfl⟩
      · split
        · exact ⟨_, rfl⟩
        · split
          · rename_i vb
            split
            · exact ⟨_, rfl⟩
            · rename_i h1 h2 h3
              have := hbad bs ib.toInt.toNat vb.toInt.toNat hh ⟨ib, rfl, by omega⟩ (by omega) ⟨vb, rfl, by omega⟩
              omega
          · exact ⟨_, rfl⟩
    · exact ⟨_, rfl⟩

/-- C28: `extract-byte` gives the byte at the index, without effect. -/
theorem C28_extract {h : Heap} {d index : Data} {bs : List Byte} {n : Nat} {b : Byte}
    (hd : Holds h d bs) (hi : IsInt index n) (hb : bs[n]? = some b) :
    ∃ r, extractByte d index h = (.ok r, h) ∧ IsInt r b.toNat := by
  obtain ⟨i, a, _, _, _, hf⟩ := find_holds hd
  obtain ⟨ib, rfl, hib⟩ := hi
  have hl := (List.getElem?_eq_some_iff.1 hb).1
  refine ⟨.int (b.setWidth 64), ?_, _, rfl, ?_⟩
  · simp only [extractByte, hf]
    rw [if_neg (by omega), if_neg (by omega), hib]
    simp [hb]
  · rw [setWidth_eq]; exact byte_toInt b

/-- C28: `extract-byte` of anything else is an error without effect. -/
theorem C28_extract_error {h : Heap} {d index : Data}
    (hbad : ∀ bs (n : Nat), Holds h d bs → IsInt index n → bs.length ≤ n) :
    ∃ e, extractByte d index h = (.err e, h) := by
  unfold extractByte
  split
  · exact ⟨_, rfl⟩
  · rename_i i a bs hf
    split
    · rename_i ib
      split
      · exact ⟨_, rfl⟩
      · split
        · exact ⟨_, rfl⟩
        · rename_i h1 h2
          have := hbad bs ib.toInt.toNat (holds_of_find hf) ⟨ib, rfl, by omega⟩
          omega
    · exact ⟨_, rfl⟩

/-- C28: the replaced byte is read back, through the new array for `replace-byte` and through the same array for
`replace-byte!`. -/
theorem C28_read_back {h : Heap} {d index value : Data} {bs : List Byte} {n v : Nat} (mc : Bool)
    (hd : Holds h d bs) (hi : IsInt index n) (hn : n < bs.length) (hv : IsInt value v) (hv' : v ≤ 255) :
    ∃ d' h' r, replaceByte mc d index value h = (.ok d', h') ∧ extractByte d' index h' = (.ok r, h') ∧ IsInt r v := by
  cases mc with
  | true =>
    obtain ⟨d', h', bs', e, hf, _, _, b, hb, rfl⟩ := C28_replace hd hi hn hv hv'
    obtain ⟨r, er, hr⟩ := C28_extract hf.holds hi hb
    exact ⟨d', h', r, e, er, hr⟩
  | false =>
    obtain ⟨h', bs', e, ⟨_, _, b, hb, rfl⟩, hh, _⟩ := C28_replace_bang hd hi hn hv hv'
    obtain ⟨r, er, hr⟩ := C28_extract hh hi hb
    exact ⟨d, h', r, e, er, hr⟩

private theorem add_toInt {i n : BitVec 64} {k m : Nat} (hi : i.toInt = k) (hn : n.toInt = m) (hb : k + m < 2 ^ 63) :
    (i + n).toInt = k + m := by
  rw [BitVec.toInt_add, hi, hn, Int.bmod_eq_of_le] <;> omega

/-- C28: `extract-bytes` of `m` bytes at index `n`, inside the array, gives a new byte array with bytes `n..n+m-1`. -/
theorem C28_extract_bytes {h : Heap} {d index num : Data} {bs : List Byte} {n m : Nat}
    (hd : Holds h d bs) (hi : IsInt index n) (hm : IsInt num m) (hn : n < bs.length) (hnm : n + m ≤ bs.length) :
    ∃ d' h' ys pre post, extractBytes d index num h = (.ok d', h') ∧ Fresh h h' d' ys ∧
      bs = pre ++ ys ++ post ∧ pre.length = n ∧ ys.length = m := by
  obtain ⟨i, a, _, _, _, hf⟩ := find_holds hd
  obtain ⟨ib, rfl, hib⟩ := hi
  obtain ⟨mb, rfl, hmb⟩ := hm
  obtain ⟨d1, h1, ha1, hf1⟩ := alloc_fresh (bs.drop n) h
  obtain ⟨_, _, _, _, _, g1⟩ := find_holds hf1.holds
  obtain ⟨d2, h2, ha2, hf2⟩ := alloc_fresh ((bs.drop n).take m) h1
  have hb1 : bs.length < 2 ^ 63 ∨ 2 ^ 63 ≤ bs.length := by omega
  have hi63 : (ib.toInt : Int) < 2 ^ 63 := BitVec.toInt_lt
  have hm63 : (mb.toInt : Int) < 2 ^ 63 := BitVec.toInt_lt
  refine ⟨d2, h2, _, bs.take n, (bs.drop n).drop m, ?_, ⟨hf2.holds, ?_, ?_⟩, ?_, by simp; omega, by simp; omega⟩
  · have hsum : ¬ (ib + mb).toInt > bs.length := by
      by_cases hlt : n + m < 2 ^ 63
      · rw [add_toInt hib hmb hlt]; omega
      · have := BitVec.toInt_lt (x := ib + mb)
        omega
    simp only [extractBytes, hf]
    rw [if_neg (by omega), if_neg (by omega), if_neg hsum]
    simp only [M.bind, dropBytes, hf]
    rw [if_neg (by omega), if_neg (by omega), hib]
    simp only [Int.toNat_natCast, ha1, takeBytes, g1]
    split
    · rename_i hge
      have : m = bs.length - n := by rw [hmb] at hge; simp at hge; omega
      rw [← ha2, List.take_of_length_le (by simp; omega)]
    · rw [if_neg (by omega), hmb]
      simpa using ha2
  · intro xs hx; exact hf2.new xs (hf1.kept _ _ hx)
  · intro x xs hx; exact hf2.kept _ _ (hf1.kept _ _ hx)
  · rw [List.append_assoc, List.take_append_drop, List.take_append_drop]

/-- C28: an index outside the array, a negative count, arguments of another type, or a count that goes past the end
make `extract-bytes` an error without effect.  Partial: the end must be below 2^63 (`C28_extract_bytes_violation`). -/
theorem C28_extract_bytes_error_partial {h : Heap} {d index num : Data}
    (hbad : ∀ bs (n m : Nat), Holds h d bs → IsInt index n → n < bs.length → IsInt num m →
      bs.length < n + m ∧ n + m < 2 ^ 63) :
    ∃ e, extractBytes d index num h = (.err e, h) := by
  unfold extractBytes
  split
  · exact ⟨_, rfl⟩
  · rename_i i a bs hf
    split
    · rename_i ib
      split
      · exact ⟨_, rfl⟩
      · split
        · rename_i mb
          split
          · exact ⟨_, rfl⟩
          · rename_i h1 h2
            have := hbad bs ib.toInt.toNat mb.toInt.toNat (holds_of_find hf) ⟨ib, rfl, by omega⟩ (by omega) ⟨mb, rfl, by omega⟩
            rw [if_pos]
            · exact ⟨_, rfl⟩
            · rw [add_toInt (k := ib.toInt.toNat) (m := mb.toInt.toNat) (by omega) (by omega) this.2]
              omega
        · exact ⟨_, rfl⟩
    · exact ⟨_, rfl⟩

/-- C28 fails for counts near the largest integer: `index+count` wraps round, so instead of an error
`(extract-bytes b n 9223372036854775807)` with `n ≥ 1` gives all the bytes from `n` to the end. -/
theorem C28_extract_bytes_violation {h : Heap} {d index : Data} {bs : List Byte} {n : Nat}
    (hd : Holds h d bs) (hi : IsInt index n) (h1 : 1 ≤ n) (hn : n < bs.length) (hl : bs.length < 2 ^ 63) :
    ∃ d' h', extractBytes d index (.int 0x7fffffffffffffff#64) h = (.ok d', h') ∧ Holds h' d' (bs.drop n) := by
  obtain ⟨i, a, _, _, _, hf⟩ := find_holds hd
  obtain ⟨ib, rfl, hib⟩ := hi
  obtain ⟨d1, h1', ha1, hf1⟩ := alloc_fresh (bs.drop n) h
  obtain ⟨_, _, _, _, _, g1⟩ := find_holds hf1.holds
  obtain ⟨d2, h2, ha2, hf2⟩ := alloc_fresh (bs.drop n) h1'
  refine ⟨d2, h2, ?_, hf2.holds⟩
  have hM : (0x7fffffffffffffff#64).toInt = 2 ^ 63 - 1 := by decide
  have hsum : (ib + 0x7fffffffffffffff#64).toInt = n - 2 ^ 63 - 1 := by
    rw [BitVec.toInt_add, hib, hM]
    have : (n : Int) < 2 ^ 63 := by omega
    rw [show ((n : Int) + (2 ^ 63 - 1)) = (n - 2 ^ 63 - 1) + ((2 ^ 64 : Nat) : Int) by omega, Int.add_bmod_right,
      Int.bmod_eq_of_le] <;> omega
  simp only [extractBytes, hf]
  rw [if_neg (by omega), if_neg (by omega), if_neg (by omega)]
  simp only [M.bind, dropBytes, hf]
  rw [if_neg (by omega), if_neg (by omega), hib]
  simp only [Int.toNat_natCast, ha1, takeBytes, g1]
  rw [if_pos (by simp; omega)]
  exact ha2

/-! ### C29 -/

private theorem appendBytes_ok {h args d rest bs ys} (ha : Lst args (d :: rest)) (hd : Holds h d bs) (he : Extra h rest ys) :
    appendBytes h args = .ok (bs ++ ys) := by
  obtain ⟨i, a, _, _, _, hf⟩ := find_holds hd
  have hcar : car args = d := car_Lst ha
  have hlen : length args = rest.length + 1 := by simpa using ha.length
  have hcdr : Lst (cdr args) rest := by cases ha; assumption
  suffices hs : extraBytes h args = .ok ys by simp only [appendBytes, hcar, hf, hs]
  unfold extraBytes
  rw [hlen]
  cases he with
  | list hl hne hp =>
    rename_i l xs
    have hcx : car (cdr args) = l := car_Lst hcdr
    have hno : find h l = none := by cases hl <;> rfl
    rw [if_pos (by simp), hcx, hno]
    have := (Lst_nonempty hl hne).2
    simp [this, listBytes_ok hl hne hp]
  | parts hne hp =>
    split
    · obtain ⟨x, rfl⟩ : ∃ x, rest = [x] := List.length_eq_one_iff.1 (by omega)
      have hcx : car (cdr args) = x := car_Lst hcdr
      rw [hcx]
      cases hp with
      | cons hp1 hp2 =>
        cases hp2
        cases hp1 with
        | byte b =>
          have : find h (.int (BitVec.ofNat 64 b.toNat)) = none := rfl
          rw [this]
          have hp' : Parts h [.int (BitVec.ofNat 64 b.toNat)] ([b] ++ []) := .cons (.byte b) .nil
          simp [isListP, isPair, isAlist, listBytes_ok hcdr hne hp']
        | array hh =>
          obtain ⟨_, _, _, _, _, g⟩ := find_holds hh
          simp [g]
    · rw [listBytes_ok hcdr hne hp]

/-- C29: `append-bytes` gives a new byte array holding the bytes of the first argument followed by those of the others;
every existing byte array keeps its contents. -/
theorem C29_append {h : Heap} {args d : Data} {rest : List Data} {bs ys : List Byte}
    (ha : Lst args (d :: rest)) (hd : Holds h d bs) (he : Extra h rest ys) :
    ∃ d' h', appendBytesImpl args h = (.ok d', h') ∧ Fresh h h' d' (bs ++ ys) := by
  obtain ⟨d', h', hal, hf⟩ := alloc_fresh (bs ++ ys) h
  refine ⟨d', h', ?_, hf⟩
  simp [appendBytesImpl, M.bind, lift, appendBytes_ok ha hd he, hal]

/-- C29: `append-bytes!` returns its first argument, which (under whatever name it is known) then holds its bytes
followed by those of the others; every other byte array keeps its contents. -/
theorem C29_append_bang {h : Heap} {args d : Data} {rest : List Data} {bs ys : List Byte}
    (ha : Lst args (d :: rest)) (hd : Holds h d bs) (he : Extra h rest ys) :
    ∃ h', appendBytesBang args h = (.ok d, h') ∧ Holds h' d (bs ++ ys) ∧
      ∀ x xs, Holds h x xs → x ≠ d → Holds h' x xs := by
  obtain ⟨i, a, rfl, hb, har, hf⟩ := find_holds hd
  have hcar : car args = .atom (.obj "[]byte" i) := by cases ha; rfl
  have hil := (List.getElem?_eq_some_iff.1 hb).1
  refine ⟨⟨h.boxes.set i h.arrays.length, h.arrays ++ [bs ++ ys]⟩, ?_, .mk (a := h.arrays.length) ?_ ?_, ?_⟩
  · simp only [appendBytesBang, appendBytes_ok ha hd he, hcar, hf]
  · show (h.boxes.set i _)[i]? = _
    rw [List.getElem?_set]; simp [hil]
  · simp
  · intro x xs hx hne
    obtain ⟨j, c, rfl, hb', har', _⟩ := find_holds hx
    have hij : i ≠ j := fun e => hne (by rw [e])
    refine .mk (a := c) ?_ ?_
    · show (h.boxes.set i _)[j]? = _
      rw [List.getElem?_set]; simpa [hij] using hb'
    · show (h.arrays ++ _)[c]? = _
      rw [List.getElem?_append_left (List.getElem?_eq_some_iff.1 har').1]; exact har'

/-- C29: when the first argument is no byte array, both are errors without effect. -/
theorem C29_not_bytes {h : Heap} {args d : Data} {rest : List Data} (ha : Lst args (d :: rest)) (hd : ∀ bs, ¬ Holds h d bs) :
    ∃ e, appendBytesImpl args h = (.err e, h) ∧ appendBytesBang args h = (.err e, h) := by
  have hcar : car args = d := by cases ha; rfl
  have : appendBytes h args = .err (.msg "append-bytes extects first argument to be a bytearray, but was ") := by
    simp only [appendBytes, hcar, find_none hd]
  exact ⟨_, by simp [appendBytesImpl, M.bind, lift, this]; rfl, by simp [appendBytesBang, this]⟩

/-- C29: with no further argument, or with further arguments (directly, or inside a single list argument) one of which
is neither a byte nor a byte array, both are errors without effect. -/
theorem C29_bad_extra {h : Heap} {args d : Data} {rest xs : List Data} (ha : Lst args (d :: rest))
    (hr : (rest = xs ∧ ∀ l, rest = [l] → isListP l = false) ∨ ∃ l, rest = [l] ∧ Lst l xs)
    (hbad : xs = [] ∨ ∃ x ∈ xs, ∀ bs, ¬ Part h x bs) :
    ∃ e, appendBytesImpl args h = (.err e, h) ∧ appendBytesBang args h = (.err e, h) := by
  have happ : (∃ e, extraBytes h args = .err e) → ∃ e, appendBytes h args = .err e := by
    intro ⟨e, he⟩
    unfold appendBytes
    split
    · exact ⟨_, rfl⟩
    · exact ⟨e, by rw [he]⟩
  suffices hs : ∃ e, extraBytes h args = .err e by
    obtain ⟨e, he⟩ := happ hs
    exact ⟨e, by simp [appendBytesImpl, M.bind, lift, he], by simp [appendBytesBang, he]⟩
  have hlen : length args = rest.length + 1 := by simpa using ha.length
  have hcdr : Lst (cdr args) rest := by cases ha; assumption
  have hlist : ∀ {l}, Lst l xs → ∃ e, listBytes h l = .err e := by
    intro l hl
    rcases hbad with rfl | ⟨x, hx, hb⟩
    · have : isNil l = true := by cases hl <;> rfl
      exact ⟨_, by simp [listBytes, this]; rfl⟩
    · exact listBytes_bad hl hx hb
  simp only [extraBytes, hlen]
  rcases hr with ⟨rfl, hnl⟩ | ⟨l, rfl, hl⟩
  · obtain ⟨e, he⟩ := hlist hcdr
    split
    · obtain ⟨x, rfl⟩ : ∃ x, rest = [x] := List.length_eq_one_iff.1 (by omega)
      have hcx : car (cdr args) = x := car_Lst hcdr
      rw [hcx, hnl x rfl]
      rcases hbad with h0 | ⟨y, hy, hb⟩
      · simp at h0
      · have hxy : y = x := by simpa using hy
        subst hxy
        have : find h y = none := find_none fun bs hh => hb bs (.array hh)
        simp [this, he]
    · simp [he]
  · obtain ⟨e, he⟩ := hlist hl
    have hcx : car (cdr args) = l := car_Lst hcdr
    have hno : find h l = none := by cases hl <;> rfl
    have hlp : isListP l = true ∨ isListP l = false := by cases isListP l <;> simp
    rw [if_pos (by simp), hcx, hno]
    rcases hlp with hlp | hlp
    · simp [hlp, he]
    · -- a cell of the third kind holding nothing
      obtain ⟨rfl, rfl⟩ : xs = [] ∧ l = .cell .acell .null .null := by
        cases hl with
        | null => simp [isListP, isPair] at hlp
        | empty k => cases k <;> simp_all [isListP, isPair, isAlist]
        | cons k a d _ _ hk => cases k <;> simp_all [isListP, isPair, isAlist]
      obtain ⟨e', he'⟩ := listBytes_bad (h := h) (x := .cell .acell .null .null) hcdr (by simp)
        (by intro bs hp; cases hp with | array hh => cases hh)
      simp [hlp, he']

/-! ### The hypotheses are met -/

/-- Three byte arrays: `[1 2 3]`, the empty one, and one more object sharing the storage of the first. -/
def bheap : Heap := ⟨[0, 1, 0], [[1, 2, 3], []]⟩
/-- The value referring to object `i`. -/
def barr (i : Nat) : Data := .atom (.obj "[]byte" i)

theorem bheap_holds : Holds bheap (barr 0) [1, 2, 3] ∧ Holds bheap (barr 1) [] ∧ Holds bheap (barr 2) [1, 2, 3] :=
  ⟨.mk rfl rfl, .mk rfl rfl, .mk rfl rfl⟩

/-- `'(9 [1 2 3])` -/
example : ∃ d h', listToBytes (ofArray [.int 9, barr 0]) bheap = (.ok d, h') ∧ Fresh bheap h' d [9, 1, 2, 3] :=
  C27_list_to_bytes (xs := [.int 9, barr 0]) (Lst.ofArray _) (by simp)
    (.cons (x := .int 9) (bs := [9]) (.byte 9) (.cons (.array bheap_holds.1) .nil))
example : ∃ e, listToBytes (ofArray [.int 9, .int 256]) bheap = (.err e, bheap) :=
  C27_bad_element (x := .int 256) (xs := [.int 9, .int 256]) (Lst.ofArray _) (by simp)
    (by rintro n h0 h1 ⟨b, hb, rfl⟩
        have : b = 256 := by simpa using hb.symm
        subst this; revert h1; decide)
    (by intro bs hh; cases hh)
example : ∃ d h' l', listToBytes (ofArray [.int 0, .int 255]) bheap = (.ok d, h') ∧ bytesToList d h' = (.ok l', h') ∧
    Lst l' [.int 0, .int 255] :=
  C27_list_round_trip_partial (ns := [0, 255]) (Lst.ofArray [.int 0, .int 255]) (by simp) (by
    intro n hn
    rcases List.mem_cons.1 hn with rfl | hn
    · exact ⟨by decide, by decide⟩
    · rw [List.mem_singleton.1 hn]; exact ⟨by decide, by decide⟩)
example : ∃ l d' h', bytesToList (barr 0) bheap = (.ok l, bheap) ∧ listToBytes l bheap = (.ok d', h') ∧
    Fresh bheap h' d' [1, 2, 3] := C27_bytes_round_trip_partial bheap_holds.1 (by simp)
example : ∃ l e, bytesToList (barr 1) bheap = (.ok l, bheap) ∧ Lst l [] ∧ listToBytes l bheap = (.err e, bheap) :=
  C27_empty_violation bheap_holds.2.1
example : equal bheap (barr 0) (barr 2) = true := (C27_equal bheap_holds.1 bheap_holds.2.2).2 rfl
example : equal bheap (barr 0) (barr 1) ≠ true := fun h => by
  simpa using (C27_equal bheap_holds.1 bheap_holds.2.1).1 h
/-- `(replace-byte b 1 255)` -/
example := C28_replace (index := .int 1) (value := .int 255) (n := 1) (v := 255) bheap_holds.1 ⟨1, rfl, rfl⟩ (by simp)
  ⟨255, rfl, rfl⟩ (by omega)
example := C28_replace_bang (index := .int 1) (value := .int 255) (n := 1) (v := 255) bheap_holds.1 ⟨1, rfl, rfl⟩ (by simp)
  ⟨255, rfl, rfl⟩ (by omega)
/-- The object sharing the storage sees the change made by `(replace-byte! b 1 255)`. -/
example : (replaceByte false (barr 0) (.int 1) (.int 255) bheap).2 = ⟨[0, 1, 0], [[1, 255, 3], []]⟩ := rfl
example : ∃ e, replaceByte false (barr 0) (.int 3) (.int 1) bheap = (.err e, bheap) :=
  C28_replace_error false (by
    rintro bs n v hh ⟨b, hb, he⟩ hn _
    have h3 : b = 3 := by simpa using hb.symm
    subst h3
    have : bs = [1, 2, 3] := holds_unique hh bheap_holds.1
    subst this
    have : ((3 : BitVec 64).toInt) = 3 := by decide
    simp at hn; omega)
example := C28_extract (index := .int 2) (n := 2) (b := 3) bheap_holds.1 ⟨2, rfl, rfl⟩ rfl
example := C28_read_back (index := .int 1) (value := .int 255) (n := 1) (v := 255) false bheap_holds.2.2 ⟨1, rfl, rfl⟩ (by simp)
  ⟨255, rfl, rfl⟩ (by omega)
example := C28_extract_bytes (index := .int 1) (num := .int 2) (n := 1) (m := 2) bheap_holds.1 ⟨1, rfl, rfl⟩ ⟨2, rfl, rfl⟩
  (by simp) (by simp)
example : ∃ e, extractBytes (barr 0) (.int 1) (.int 3) bheap = (.err e, bheap) :=
  C28_extract_bytes_error_partial (by
    rintro bs n m hh ⟨b, hb, he⟩ hn ⟨c, hc, hce⟩
    have h1 : b = 1 := by simpa using hb.symm
    have h3 : c = 3 := by simpa using hc.symm
    subst h1; subst h3
    have : bs = [1, 2, 3] := holds_unique hh bheap_holds.1
    subst this
    have : ((3 : BitVec 64).toInt) = 3 := by decide
    have : ((1 : BitVec 64).toInt) = 1 := by decide
    simp; omega)
example : ∃ d' h', extractBytes (barr 0) (.int 1) (.int 0x7fffffffffffffff#64) bheap = (.ok d', h') ∧ Holds h' d' [2, 3] :=
  C28_extract_bytes_violation (n := 1) bheap_holds.1 ⟨1, rfl, rfl⟩ (by omega) (by simp) (by simp)
/-- `(append-bytes b [..] 7)`, `(append-bytes! b '(7 8))` -/
example := C29_append (h := bheap) (args := ofArray [barr 0, barr 2, .int 7]) (ys := [1, 2, 3] ++ ([7] ++ [])) (Lst.ofArray _)
  bheap_holds.1 (.parts (by simp) (.cons (.array bheap_holds.2.2) (.cons (.byte 7) .nil)))
example := C29_append_bang (h := bheap) (args := ofArray [barr 0, ofArray [.int 7, .int 8]]) (ys := [7] ++ ([8] ++ [])) (Lst.ofArray _)
  bheap_holds.1 (.list (xs := [.int 7, .int 8]) (Lst.ofArray [.int 7, .int 8]) (by simp) (.cons (.byte 7) (.cons (.byte 8) .nil)))
example := C29_bad_extra (h := bheap) (args := ofArray [barr 0, .int 300]) (xs := [.int 300]) (Lst.ofArray _)
  (.inl ⟨rfl, by simp [isListP, isPair, isAlist, elem]⟩)
  (.inr ⟨.int 300, by simp, by
    intro bs hp
    generalize hx : Data.int 300 = x at hp
    cases hp with
    | byte b =>
      have := congrArg intValue hx
      have h2 := congrArg BitVec.toNat this
      have := b.isLt
      simp [intValue] at h2
      omega
    | array hh => subst hx; cases hh⟩)

end Golisp.Props
