import Verif.DemoCalls
import Verif.LibraryLemmas
import Verif.Props.Numbers2
/- C84: the byte array primitives that leave their argument as it is, called from Lisp code. -/
namespace Golisp.Spec
open Golisp Data

/-- The values stand, in order, for these bytes: an integer 0..255 for itself, a byte array for all its bytes. -/
inductive BytePieces : List Data → List (BitVec 8) → Prop where
  | nil : BytePieces [] []
  | byte {b xs bs} : BytePieces xs bs → BytePieces (.int (BitVec.ofNat 64 b.toNat) :: xs) (b :: bs)
  | array {ys xs bs} : BytePieces xs bs → BytePieces (.bytes ys :: xs) (ys ++ bs)

/-- What `append-bytes` adds: the pieces in one non-empty list, or the pieces given one by one. -/
inductive Added : List Data → List (BitVec 8) → Prop where
  | list {l xs bs} : Lst l xs → l ≠ .cell .acell .null .null → xs ≠ [] → BytePieces xs bs → Added [l] bs
  | each {xs bs} : xs ≠ [] → BytePieces xs bs → Added xs bs

/-- The manual: what a call of one of these primitives answers. -/
inductive ByteWork : String → List Data → Data → Prop where
  | make {x l xs bs} : x = "list->bytearray" ∨ x = "list-to-bytearray" → Lst l xs → xs ≠ [] → BytePieces xs bs →
      ByteWork x [l] (.bytes bs)
  | list {x bs l} : x = "bytearray->list" ∨ x = "bytearray-to-list" →
      l = ofArray (bs.map fun b => .int (BitVec.ofNat 64 b.toNat)) → ByteWork x [.bytes bs] l
  | replace {i : BitVec 64} {pre b b' post} : i.toInt = pre.length →
      ByteWork "replace-byte" [.bytes (pre ++ b :: post), .int i, .int (BitVec.ofNat 64 b'.toNat)] (.bytes (pre ++ b' :: post))
  | byte {i : BitVec 64} {pre b post} : i.toInt = pre.length →
      ByteWork "extract-byte" [.bytes (pre ++ b :: post), .int i] (.int (BitVec.ofNat 64 b.toNat))
  | append {bs vs ys} : Added vs ys → ByteWork "append-bytes" (.bytes bs :: vs) (.bytes (bs ++ ys))
  | bytes {i n : BitVec 64} {pre mid post} : i.toInt = pre.length → n.toInt = mid.length → mid ++ post ≠ [] →
      ByteWork "extract-bytes" [.bytes (pre ++ mid ++ post), .int i, .int n] (.bytes mid)

/-- The primitives the manual is about, with the number of arguments they take. -/
inductive BytePrim : String → Nat → Prop where
  | make {x} : x = "list->bytearray" ∨ x = "list-to-bytearray" → BytePrim x 1
  | list {x} : x = "bytearray->list" ∨ x = "bytearray-to-list" → BytePrim x 1
  | replace : BytePrim "replace-byte" 3
  | byte : BytePrim "extract-byte" 2
  | append {n} : BytePrim "append-bytes" n
  | bytes : BytePrim "extract-bytes" 3

/-- A value that is a list is a proper one. -/
def ProperList (v : Data) : Prop := ∀ k a b, v = .cell k a b → k ≠ .acell → ∃ xs, Lst v xs

/-- The end of the part that `extract-bytes` is asked for does not fit into an integer. -/
def EndTooLarge (x : String) (vs : List Data) : Prop :=
  x = "extract-bytes" ∧ ∃ bs i n, vs = [.bytes bs, .int i, .int n] ∧ 2 ^ 63 ≤ i.toInt + n.toInt

end Golisp.Spec

namespace Golisp.Props
open Golisp Data Ev Spec Prim

variable {C : Conf} {e : Nat} {s s₁ : Store} {d : Data}

set_option maxRecDepth 20000

/-! ### The bodies -/

private theorem byte_int (b : BitVec 8) : (BitVec.ofNat 64 b.toNat).toInt = b.toNat := by
  have := b.isLt
  rw [BitVec.toInt_eq_toNat_of_lt] <;> simp <;> omega

private theorem byte_width (b : BitVec 8) : (BitVec.ofNat 64 b.toNat).setWidth 8 = b := by
  apply BitVec.eq_of_toNat_eq; simp

private theorem width_byte (b : BitVec 8) : b.setWidth 64 = BitVec.ofNat 64 b.toNat := by
  apply BitVec.eq_of_toNat_eq; simp

private theorem int_byte {b : BitVec 64} (h : ¬ (b.toInt < 0 ∨ b.toInt > 255)) : b = BitVec.ofNat 64 (b.setWidth 8).toNat := by
  apply BitVec.eq_of_toNat_eq
  have h1 : b.toNat < 256 := by
    have := BitVec.toInt_eq_toNat_cond b
    split at this <;> omega
  simp; omega

private theorem collect_pieces {xs : List Data} {bs : List (BitVec 8)} (h : BytePieces xs bs) : ∀ acc, collectBytes xs acc = .ok (acc ++ bs) := by
  induction h with
  | nil => simp [collectBytes]
  | @byte b xs bs _ ih =>
    intro acc
    have := byte_int b
    have := b.isLt
    rw [collectBytes, if_neg (by omega), ih, byte_width]
    simp
  | array _ ih => intro acc; rw [collectBytes, ih]; simp

private theorem collect_not {xs : List Data} (h : ∀ bs, ¬ BytePieces xs bs) : ∀ acc, ∃ m, collectBytes xs acc = .err (.msg m) := by
  induction xs with
  | nil => exact absurd .nil (h [])
  | cons x xs ih =>
    intro acc
    unfold collectBytes
    split
    · rename_i b
      split
      · exact ⟨_, rfl⟩
      · rename_i hb
        refine ih (fun bs hp => ?_) _
        have hx := int_byte hb
        rw [hx] at h
        exact h _ (.byte hp)
    · exact ih (fun bs hp => h _ (.array hp)) _
    · exact ⟨_, rfl⟩

private theorem lst_nil {l : Data} (h : Lst l []) : isNil l = true := by
  cases h <;> rfl

private theorem lst_ne {l : Data} {xs : List Data} (h : Lst l xs) (hx : xs ≠ []) : isNil l = false := by
  cases h with
  | null => exact absurd rfl hx
  | empty => exact absurd rfl hx
  | cons k a d xs hn hk hd =>
    cases a <;> cases d <;> first | rfl | exact absurd ⟨rfl, rfl⟩ hn

private theorem listBytes_pieces {l : Data} {xs : List Data} {bs : List (BitVec 8)} (h : Lst l xs) (hx : xs ≠ [])
    (hp : BytePieces xs bs) : listBytes l = .ok bs := by
  have hl : isListP l = true := h.isListP (by rintro rfl; cases h with | empty => exact hx rfl | cons _ _ _ _ hn => exact hn ⟨rfl, rfl⟩)
  simp [listBytes, lst_ne h hx, hl, h.toArray, collect_pieces hp]

private theorem listBytes_not {l : Data} (hl : ProperList l) (h : ∀ xs bs, Lst l xs → xs ≠ [] → ¬ BytePieces xs bs) :
    ∃ m, listBytes l = .err (.msg m) := by
  unfold listBytes
  split
  · exact ⟨_, rfl⟩
  · rename_i hn
    split
    · exact ⟨_, rfl⟩
    · rename_i hp
      have : ∃ xs, Lst l xs := by
        cases l with
        | cell k a b =>
          refine hl k a b rfl ?_
          rintro rfl; exact hp rfl
        | null => exact ⟨_, .null⟩
        | atom a => exact absurd rfl hp
      obtain ⟨xs, hx⟩ := this
      rw [hx.toArray]
      refine collect_not (fun bs => h xs bs hx ?_) _
      rintro rfl; exact hn (lst_nil hx)

private theorem extra_added {args : Data} {v : Data} {vs : List Data} {bs : List (BitVec 8)} (h : Lst args (v :: vs))
    (ha : Added vs bs) : extraBytes args = .ok bs := by
  have hc := cdr_Lst h
  unfold extraBytes
  rw [h.length]
  cases ha with
  | @list l xs _ hl hne hx hp =>
    rw [if_pos (by simp), cadr_args h]
    have hp' : isListP l = true := hl.isListP hne
    split
    · cases hl
    · rw [if_pos hp', listBytes_pieces hl hx hp]
  | each hx hp =>
    split
    · obtain ⟨w, rfl⟩ : ∃ w, vs = [w] := by
        rename_i h2
        match vs, hx, h2 with
        | [w], _, _ => exact ⟨w, rfl⟩
        | _ :: _ :: _, _, h2 => simp only [List.length_cons] at h2; omega
      rw [cadr_args h]
      cases hp with
      | byte hp => exact listBytes_pieces hc hx (.byte hp)
      | array hp => cases hp; simp
    · exact listBytes_pieces hc hx hp

private theorem extra_not {args : Data} {v : Data} {vs : List Data} (h : Lst args (v :: vs)) (hv : ∀ w ∈ vs, ProperList w)
    (ha : ∀ bs, ¬ Added vs bs) : ∃ m, extraBytes args = .err (.msg m) := by
  have hc := cdr_Lst h
  have hall : ∃ m, listBytes (cdr args) = .err (.msg m) := by
    refine listBytes_not (fun _ _ _ _ _ => ⟨_, hc⟩) fun xs bs hx hne hp => ?_
    obtain rfl : xs = vs := by have := hx.toArray; rw [hc.toArray] at this; exact this.symm
    exact ha _ (.each hne hp)
  unfold extraBytes
  rw [h.length]
  split
  · obtain ⟨w, rfl⟩ : ∃ w, vs = [w] := by
      rename_i h2
      match vs, h2 with
      | [w], _ => exact ⟨w, rfl⟩
      | [], h2 => simp at h2
      | _ :: _ :: _, h2 => simp only [List.length_cons] at h2; omega
    rw [cadr_args h]
    split
    · exact absurd (.each (by simp) (.array .nil)) (ha _)
    · split
      · rename_i hl
        refine listBytes_not (hv _ (by simp)) fun xs bs hx hne hp => ha bs (.list hx ?_ hne hp)
        rintro rfl; exact absurd hl (by decide)
      · exact hall
  · exact hall

/-- What the primitive computes. -/
private def impl : String → Data → Out Data
  | "list->bytearray", a | "list-to-bytearray", a => listToBytes (car a)
  | "bytearray->list", a | "bytearray-to-list", a => bytesToList (car a)
  | "replace-byte", a => replaceByte (car a) (car (cdr a)) (car (cdr (cdr a)))
  | "extract-byte", a => extractByte (car a) (car (cdr a))
  | "append-bytes", a => appendBytes a
  | _, a => extractBytes typeName (car a) (car (cdr a)) (car (cdr (cdr a)))

private theorem impl_make {a : Data} : impl "list->bytearray" a = listToBytes (car a) ∧ impl "list-to-bytearray" a = listToBytes (car a) := ⟨rfl, rfl⟩
private theorem impl_list {a : Data} : impl "bytearray->list" a = bytesToList (car a) ∧ impl "bytearray-to-list" a = bytesToList (car a) := ⟨rfl, rfl⟩
private theorem impl_replace {a : Data} : impl "replace-byte" a = replaceByte (car a) (car (cdr a)) (car (cdr (cdr a))) := rfl
private theorem impl_byte {a : Data} : impl "extract-byte" a = extractByte (car a) (car (cdr a)) := rfl
private theorem impl_append {a : Data} : impl "append-bytes" a = appendBytes a := rfl
private theorem impl_bytes {a : Data} : impl "extract-bytes" a = extractBytes typeName (car a) (car (cdr a)) (car (cdr (cdr a))) := rfl

private theorem byte_call {x : String} {vs : List Data} (hx : BytePrim x vs.length) (h : Calling C x vs d e s s₁) :
    ∃ args, Lst args vs ∧ ∀ r t, Evals C d e s r t ↔ ∃ r₀, r = quoting d r₀ ∧ RunsP (body C) (Prog.ofOut (impl x args)) s₁ r₀ t := by
  have key : ∀ spec n, (std C.host).prims x = some ⟨spec, false, false, fun a _ => Prog.ofOut (impl x a)⟩ → vs.length = n →
      Arity.checkArgumentCount (Arity.parseNumArgs spec) n = true →
      ∃ args, Lst args vs ∧ ∀ r t, Evals C d e s r t ↔ ∃ r₀, r = quoting d r₀ ∧ RunsP (body C) (Prog.ofOut (impl x args)) s₁ r₀ t :=
    fun spec n hP hn hc => calling_iff h hP (by rw [hn]; exact hc)
  generalize hn : vs.length = n at hx
  cases hx with
  | make hx => rcases hx with rfl | rfl <;> exact key "1".toList _ rfl hn count1
  | list hx => rcases hx with rfl | rfl <;> exact key "1".toList _ rfl hn count1
  | replace => exact key "3".toList _ rfl hn count3
  | byte => exact key "2".toList _ rfl hn count2
  | append => exact key "*".toList _ rfl hn (any_count _)
  | bytes => exact key "3".toList _ rfl hn count3

private theorem int_add {i n : BitVec 64} (h0 : 0 ≤ i.toInt) (h1 : 0 ≤ n.toInt) (h : i.toInt + n.toInt < 2 ^ 63) :
    (i + n).toInt = i.toInt + n.toInt := by
  rw [BitVec.toInt_add, Int.bmod_eq_of_le] <;> omega

private theorem int_wrap {i n : BitVec 64} (h0 : 0 ≤ i.toInt) (h1 : 0 ≤ n.toInt) (h : 2 ^ 63 ≤ i.toInt + n.toInt) :
    (i + n).toInt < 0 := by
  have a := BitVec.toInt_lt (x := i)
  have b := BitVec.toInt_lt (x := n)
  rw [BitVec.toInt_add]
  simp only [Int.bmod_def]
  have : (i.toInt + n.toInt) % (2 ^ 64 : Nat) = i.toInt + n.toInt := Int.emod_eq_of_lt (by omega) (by omega)
  rw [this, if_neg (by omega)]
  omega

private theorem extract_ok {i n : BitVec 64} {bs : List (BitVec 8)} (h0 : 0 ≤ i.toInt) (hl : i.toInt < bs.length) (h1 : 0 ≤ n.toInt)
    (h : ¬ (i + n).toInt > bs.length) :
    extractBytes typeName (.bytes bs) (.int i) (.int n) = .ok (.bytes ((bs.drop i.toInt.toNat).take n.toInt.toNat)) := by
  simp only [extractBytes, Data.bytes, Data.int]
  rw [if_neg (by omega), if_neg (by omega), if_neg h]
  have hd : drop (.int i) (.bytes bs) = .ok (.bytes (bs.drop i.toInt.toNat)) := by
    simp only [drop, show isListP (.atom (.bytes bs)) = false from rfl, Data.bytes, Data.int, Bool.false_eq_true, if_false]
    rw [if_neg (by omega), if_neg (by omega)]
  simp only [Data.bytes, Data.int] at hd
  rw [hd]
  simp only [take, show isListP (.atom (.bytes (bs.drop i.toInt.toNat))) = false from rfl, Data.bytes, Data.int, Bool.false_eq_true, if_false]
  split
  · rename_i hle
    rw [List.take_of_length_le (by omega)]
  · rw [if_neg (by omega)]

private theorem set_mid {pre post : List (BitVec 8)} {b b' : BitVec 8} : (pre ++ b :: post).set pre.length b' = pre ++ b' :: post := by
  simp

private theorem work_impl {x : String} {vs : List Data} {v args : Data} (h : ByteWork x vs v) (hl : Lst args vs) :
    impl x args = .ok v := by
  cases h with
  | make hx hxs hne hp =>
    rcases hx with rfl | rfl <;> simp [impl_make, listToBytes, car_args hl, listBytes_pieces hxs hne hp, boxBytes]
  | list hx hv =>
    subst hv
    rcases hx with rfl | rfl <;> simp only [impl_list, bytesToList, car_args hl, width_byte]
  | @replace i pre b b' post hi =>
    have hb := byte_int b'
    have := b'.isLt
    simp only [impl_replace, replaceByte, car_args hl, cadr_args hl, caddr_args hl]
    rw [if_neg (by simp only [List.length_append, List.length_cons]; omega), if_neg (by omega), if_neg (by omega), hi, byte_width, Int.toNat_natCast, set_mid]
  | @byte i pre b post hi =>
    simp only [impl_byte, extractByte, car_args hl, cadr_args hl]
    rw [if_neg (by simp only [List.length_append, List.length_cons]; omega), if_neg (by omega), hi, Int.toNat_natCast]
    rw [List.getElem?_append_right (Nat.le_refl _), Nat.sub_self]
    simp only [List.getElem?_cons_zero, width_byte]
  | append ha => simp only [impl_append, appendBytes, car_args hl, extra_added hl ha]
  | @bytes i n pre mid post hi hn hne =>
    have hlen : 0 < mid.length + post.length := by
      rw [← List.length_append]; exact List.length_pos_iff.2 hne
    have hcast : ((pre ++ mid ++ post).length : Int) = pre.length + mid.length + post.length := by simp; omega
    simp only [impl_bytes, car_args hl, cadr_args hl, caddr_args hl]
    rw [extract_ok (by omega) (by omega) (by omega), hi, hn]
    · simp
    · by_cases h : i.toInt + n.toInt < 2 ^ 63
      · rw [int_add (by omega) (by omega) h]; omega
      · have := int_wrap (i := i) (n := n) (by omega) (by omega) (by omega); omega

/-! ### C84 -/

/-- A call with arguments as in the manual returns what the manual says and changes nothing. -/
theorem C84_answer {x : String} {vs : List Data} {v : Data} (hw : ByteWork x vs v) (h : Calling C x vs d e s s₁) :
    Returns C d e s v s₁ := by
  have hx : BytePrim x vs.length := by
    cases hw with
    | make hx => exact .make hx
    | list hx => exact .list hx
    | replace => exact .replace
    | byte => exact .byte
    | append => exact .append
    | bytes => exact .bytes
  obtain ⟨args, hl, hiff⟩ := byte_call hx h
  refine returns_of hiff fun r t => ?_
  rw [work_impl hw hl]
  exact runs_ofOut (by simp)

private theorem len_two {vs : List Data} (h : vs.length = 2) : ∃ a b, vs = [a, b] := by
  match vs, h with
  | [a, b], _ => exact ⟨a, b, rfl⟩
private theorem len_three {vs : List Data} (h : vs.length = 3) : ∃ a b c, vs = [a, b, c] := by
  match vs, h with
  | [a, b, c], _ => exact ⟨a, b, c, rfl⟩

private theorem split_at {bs : List (BitVec 8)} {n : Nat} (h : n < bs.length) : ∃ pre b post, bs = pre ++ b :: post ∧ pre.length = n :=
  ⟨bs.take n, bs[n], bs.drop (n + 1), by rw [← List.drop_eq_getElem_cons h, List.take_append_drop], by simp; omega⟩

private theorem fault_impl {x : String} {vs : List Data} {args : Data} (hx : BytePrim x vs.length) (hv : ∀ v ∈ vs, ProperList v)
    (hw : ∀ v, ¬ ByteWork x vs v) (ht : ¬ EndTooLarge x vs) (hl : Lst args vs) : ∃ m, impl x args = .err (.msg m) := by
  generalize hn : vs.length = n at hx
  cases hx with
  | make hx =>
    obtain ⟨l, rfl⟩ := List.length_eq_one_iff.1 hn
    have : impl x args = listToBytes l := by rcases hx with rfl | rfl <;> simp [impl_make, car_args hl]
    rw [this]
    obtain ⟨m, hm⟩ := listBytes_not (hv l (by simp)) fun xs bs h1 h2 h3 => hw _ (.make hx h1 h2 h3)
    exact ⟨m, by simp [listToBytes, hm, boxBytes]⟩
  | list hx =>
    obtain ⟨l, rfl⟩ := List.length_eq_one_iff.1 hn
    have : impl x args = bytesToList l := by rcases hx with rfl | rfl <;> simp [impl_list, car_args hl]
    rw [this]
    unfold bytesToList
    split
    · exact absurd (.list hx rfl) (hw _)
    · exact ⟨_, rfl⟩
  | replace =>
    obtain ⟨a, b, c, rfl⟩ := len_three hn
    simp only [impl_replace, car_args hl, cadr_args hl, caddr_args hl]
    unfold replaceByte
    split
    · rename_i bs
      split
      · rename_i i
        split
        · exact ⟨_, rfl⟩
        · split
          · exact ⟨_, rfl⟩
          · split
            · rename_i v
              split
              · exact ⟨_, rfl⟩
              · rename_i h1 h2 h3
                obtain ⟨pre, y, post, rfl, hp⟩ := split_at (bs := bs) (n := i.toInt.toNat) (by omega)
                rw [int_byte h3] at hw
                exact absurd (.replace (by omega)) (hw _)
            · exact ⟨_, rfl⟩
      · exact ⟨_, rfl⟩
    · exact ⟨_, rfl⟩
  | byte =>
    obtain ⟨a, b, rfl⟩ := len_two hn
    simp only [impl_byte, car_args hl, cadr_args hl]
    unfold extractByte
    split
    · rename_i bs
      split
      · rename_i i
        split
        · exact ⟨_, rfl⟩
        · split
          · exact ⟨_, rfl⟩
          · rename_i h1 h2
            obtain ⟨pre, y, post, rfl, hp⟩ := split_at (bs := bs) (n := i.toInt.toNat) (by omega)
            exact absurd (.byte (by omega)) (hw _)
      · exact ⟨_, rfl⟩
    · exact ⟨_, rfl⟩
  | append =>
    simp only [impl_append, appendBytes]
    cases vs with
    | nil =>
      have : car args = .null := by cases hl <;> rfl
      rw [this]; exact ⟨_, rfl⟩
    | cons v vs =>
      rw [car_args hl]
      split
      · obtain ⟨m, hm⟩ := extra_not hl (fun w hw' => hv w (List.mem_cons_of_mem _ hw')) fun ys ha => hw _ (.append ha)
        exact ⟨m, by rw [hm]⟩
      · exact ⟨_, rfl⟩
  | bytes =>
    obtain ⟨a, b, c, rfl⟩ := len_three hn
    simp only [impl_bytes, car_args hl, cadr_args hl, caddr_args hl]
    unfold extractBytes
    split
    · rename_i bs
      split
      · rename_i i
        split
        · exact ⟨_, rfl⟩
        · split
          · rename_i n
            split
            · exact ⟨_, rfl⟩
            · split
              · exact ⟨_, rfl⟩
              · exfalso
                rename_i h1 h2 h3
                have hsum : ¬ 2 ^ 63 ≤ i.toInt + n.toInt := fun h => ht ⟨rfl, _, _, _, rfl, h⟩
                rw [int_add (by omega) (by omega) (by omega)] at h3
                have hsplit : bs = bs.take i.toInt.toNat ++ (bs.drop i.toInt.toNat).take n.toInt.toNat ++ (bs.drop i.toInt.toNat).drop n.toInt.toNat := by
                  rw [List.append_assoc, List.take_append_drop, List.take_append_drop]
                refine hw (.bytes ((bs.drop i.toInt.toNat).take n.toInt.toNat)) ?_
                have := ByteWork.bytes (i := i) (n := n) (pre := bs.take i.toInt.toNat) (mid := (bs.drop i.toInt.toNat).take n.toInt.toNat)
                  (post := (bs.drop i.toInt.toNat).drop n.toInt.toNat) (by simp; omega) (by simp; omega)
                  (by rw [List.take_append_drop]; intro h; have := congrArg List.length h; simp at this; omega)
                rwa [← hsplit] at this
          · exact ⟨_, rfl⟩
      · exact ⟨_, rfl⟩
    · exact ⟨_, rfl⟩

/-- A call that is not in the manual (with the right number of arguments and no improper list) is an error and changes
nothing.  Partial: not if index plus count is 2^63 or more (`C84_extract_violation`). -/
theorem C84_refused_partial {x : String} {vs : List Data} (hx : BytePrim x vs.length) (hv : ∀ v ∈ vs, ProperList v)
    (hw : ∀ v, ¬ ByteWork x vs v) (ht : ¬ EndTooLarge x vs) (h : Calling C x vs d e s s₁) : Refuses C d e s s₁ := by
  obtain ⟨args, hl, hiff⟩ := byte_call hx h
  obtain ⟨m, hm⟩ := fault_impl hx hv hw ht hl
  refine refuses_of hiff (m := m) fun r t => ?_
  rw [hm]
  exact runs_ofOut (by simp)

/-- `(extract-bytes b i n)` with `i` inside the array and `i + n` of 2^63 or more is not an error: it answers all the bytes
from `i` on, fewer than asked for. -/
theorem C84_extract_violation {bs : List (BitVec 8)} {i n : BitVec 64} (h0 : 0 ≤ i.toInt) (hi : i.toInt < bs.length)
    (hb : (bs.length : Int) < 2 ^ 63) (h1 : 0 ≤ n.toInt) (hn : 2 ^ 63 ≤ i.toInt + n.toInt)
    (h : Calling C "extract-bytes" [.bytes bs, .int i, .int n] d e s s₁) :
    Returns C d e s (.bytes (bs.drop i.toInt.toNat)) s₁ ∧ ((bs.drop i.toInt.toNat).length : Int) < n.toInt := by
  have hlt : ((bs.drop i.toInt.toNat).length : Int) < n.toInt := by simp only [List.length_drop]; omega
  refine ⟨?_, hlt⟩
  obtain ⟨args, hl, hiff⟩ := byte_call .bytes h
  refine returns_of hiff fun r t => ?_
  have : impl "extract-bytes" args = .ok (.bytes (bs.drop i.toInt.toNat)) := by
    simp only [impl_bytes, car_args hl, cadr_args hl, caddr_args hl]
    rw [extract_ok h0 hi h1 (by have := int_wrap h0 h1 hn; omega), List.take_of_length_le (by omega)]
  rw [this]
  exact runs_ofOut (by simp)

private theorem pieces_ne {xs : List Data} {bs : List (BitVec 8)} (h : BytePieces xs bs) : Data.null ∉ xs := by
  induction h with
  | nil => exact List.not_mem_nil
  | byte _ ih => simpa using ih
  | array _ ih => simpa using ih

/-- The manual gives one answer. -/
theorem C84_one_answer {x : String} {vs : List Data} {v w : Data} (h : ByteWork x vs v) (h' : ByteWork x vs w) : v = w := by
  have hl : Lst (ofArray vs) (vs.map elem) := Lst.ofArray vs
  have hn : vs.map elem = vs := by
    refine map_elem_id ?_
    intro hm
    cases h with
    | make _ h1 hne _ => simp only [List.mem_singleton] at hm; rw [← hm] at h1; cases h1; exact hne rfl
    | append ha =>
      rcases List.mem_cons.1 hm with h | h
      · cases h
      · cases ha with
        | list h1 _ hne _ => simp only [List.mem_singleton] at h; rw [← h] at h1; cases h1; exact hne rfl
        | each _ hp => exact pieces_ne hp h
    | _ => simp at hm
  rw [hn] at hl
  have := work_impl h hl
  rw [work_impl h' hl] at this
  cases this; rfl

/-- A byte array made into a list and back: `(list->bytearray (bytearray->list b))` of a non-empty `b` is `b`. -/
theorem C84_round_trip {bs : List (BitVec 8)} (hb : bs ≠ []) :
    ∃ l, ByteWork "bytearray->list" [.bytes bs] l ∧ ByteWork "list->bytearray" [l] (.bytes bs) := by
  refine ⟨_, .list (.inl rfl) rfl, .make (.inl rfl) (xs := bs.map fun b => .int (BitVec.ofNat 64 b.toNat)) ?_ (by simpa using hb) ?_⟩
  · have := Lst.ofArray (bs.map fun b => Data.int (BitVec.ofNat 64 b.toNat))
    rwa [map_elem_id (by simp)] at this
  · clear hb
    induction bs with
    | nil => exact .nil
    | cons b bs ih => exact .byte ih

/-! ### Examples -/

example : BytePieces [.int 1, .bytes [2, 3], .int 255] [1, 2, 3, 255] := .byte (b := 1) (.array (ys := [2, 3]) (.byte (b := 255) .nil))
example : ∀ bs, ¬ BytePieces [.int 1, .int 256] bs := by
  intro bs h
  generalize hx : [Data.int 1, Data.int 256] = xs at h
  cases h with
  | nil => cases hx
  | array => cases hx
  | byte h =>
    obtain ⟨_, rfl⟩ := List.cons_eq_cons.1 hx
    generalize hy : [Data.int 256] = ys at h
    cases h with
    | nil => cases hy
    | array => cases hy
    | @byte b =>
      have h2 := congrArg (fun l : List Data => match l with | [.int v] => v.toNat | _ => 0) hy
      rename_i ys' _ _
      obtain ⟨h3, rfl⟩ := List.cons_eq_cons.1 hy
      have := b.isLt
      simp at h2
      omega
example : Calling Demo.C "extract-bytes" [.bytes [1, 2, 3], .int 1, .int 0x7fffffffffffffff]
    (Demo.code "(extract-bytes [1 2 3] 1 9223372036854775807)") 1 Demo.s Demo.s :=
  Demo.calling 10 (b := true) (xs := [.bytes [1, 2, 3], .int 1, .int 0x7fffffffffffffff]) (us := [.bytes [1, 2, 3], .int 1, .int 0x7fffffffffffffff])
    (by decide +kernel) (by decide +kernel) (by decide +kernel) (by decide +kernel) rfl (by decide +kernel) (by decide +kernel) rfl
example : Demo.Ends "(extract-bytes [1 2 3] 1 9223372036854775807)" (.ok (.bytes [2, 3])) := Demo.ends 20 (by decide +kernel) (by simp)
example : Demo.Ends "(append-bytes [1 2] 3 [4 5])" (.ok (.bytes [1, 2, 3, 4, 5])) := Demo.ends 20 (by decide +kernel) (by simp)
example : Demo.Ends "(append-bytes [1 2] '(3 [4 5]))" (.ok (.bytes [1, 2, 3, 4, 5])) := Demo.ends 20 (by decide +kernel) (by simp)
example : Demo.Ends "(let ((b [1 2 3])) (list (replace-byte b 1 9) b (extract-byte b 2)))"
    (.ok (ofArray [.bytes [1, 9, 3], .bytes [1, 2, 3], .int 3])) := Demo.ends 30 (by decide +kernel) (by simp)

end Golisp.Props
