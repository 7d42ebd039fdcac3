import Verif.Spec.ByteBuffer
import Verif.Proof.Fixed

/-!
# Lemmas about byte streams
-/

namespace Picoquic.ByteBuffer

open Picoquic.Spec

theorem room_eq (s : Stream) (h : InBuffer s) : room s = s.data.length - s.ptr := by
  obtain ⟨h1, h2⟩ := h
  unfold room
  rw [if_pos h1]

/-- The stream after bytes were written. -/
def splice (s : Stream) (bs : Bytes) : Stream :=
  ⟨s.data.take s.ptr ++ bs ++ s.data.drop (s.ptr + bs.length), s.ptr + bs.length⟩

/-- What a function that writes `bs` does: it writes all if there is room, or it fails at the end of the buffer and changes
nothing before the position. -/
structure Wrote (s : Stream) (bs : Bytes) (r : Option (Bool × Stream)) : Prop where
  fits : bs.length ≤ s.data.length - s.ptr → r = some (true, splice s bs)
  full : s.data.length - s.ptr < bs.length → ∃ d : Bytes, r = some (false, ⟨d, d.length⟩) ∧ d.length = s.data.length ∧
    d.take s.ptr = s.data.take s.ptr

theorem splice_length (s : Stream) (bs : Bytes) (h : s.ptr + bs.length ≤ s.data.length) :
    (splice s bs).data.length = s.data.length := by
  unfold splice
  simp only [List.length_append, List.length_take, List.length_drop]
  omega

theorem splice_in (s : Stream) (bs : Bytes) (h : InBuffer s) (h2 : bs.length ≤ s.data.length - s.ptr) :
    InBuffer (splice s bs) := by
  obtain ⟨h1, h3⟩ := h
  have := splice_length s bs (by omega)
  refine ⟨?_, by omega⟩
  rw [this]
  show s.ptr + bs.length ≤ _
  omega

theorem splice_splice (s : Stream) (a b : Bytes) (h : s.ptr + (a.length + b.length) ≤ s.data.length) :
    splice (splice s a) b = splice s (a ++ b) := by
  have h1 : (s.data.take s.ptr ++ a).length = s.ptr + a.length := by simp; omega
  unfold splice
  simp only [Stream.mk.injEq]
  constructor
  · rw [List.take_append_of_le_length (by omega), List.take_of_length_le (by omega), List.drop_append, List.drop_of_length_le (by omega), h1,
      List.nil_append, List.drop_drop, List.length_append, List.append_assoc, List.append_assoc, List.append_assoc]
    have : s.ptr + a.length + (s.ptr + a.length + b.length - (s.ptr + a.length)) = s.ptr + (a.length + b.length) := by omega
    rw [this]
    simp only [List.append_assoc]
  · simp; omega

theorem splice_take (s : Stream) (a : Bytes) (h : s.ptr ≤ s.data.length) :
    (splice s a).data.take s.ptr = s.data.take s.ptr := by
  unfold splice
  simp only
  rw [List.append_assoc, List.take_append_of_le_length (by rw [List.length_take]; omega),
    List.take_of_length_le (by rw [List.length_take]; omega)]

theorem store_eq (s : Stream) (bs : Bytes) (h : s.ptr ≤ s.data.length) (h2 : bs.length ≤ s.data.length - s.ptr) :
    store s bs = some (splice s bs) := by
  unfold store
  rw [if_pos (by omega)]
  rfl

theorem put_wrote (s : Stream) (bs : Bytes) (h : InBuffer s) : Wrote s bs (put s bs) := by
  refine ⟨fun hf => ?_, fun hf => ⟨s.data, ?_, rfl, rfl⟩⟩
  · unfold put
    rw [room_eq s h, if_neg (by omega), store_eq s bs h.1 hf]
    rfl
  · unfold put
    rw [room_eq s h, if_pos hf]
    rfl

theorem putVint_wrote (s : Stream) (n : Nat) (h : InBuffer s) : Wrote s (varintBytes n) (putVint s n) := by
  have hl := varintBytes_length n
  have hp := encodeVarintLength_pos n
  refine ⟨fun hf => ?_, fun hf => ⟨s.data, ?_, rfl, rfl⟩⟩
  · unfold putVint
    have he : varintEncode (s.data.length - s.ptr) n = varintBytes n := by
      rw [varintEncode_eq, if_pos (by omega)]
    simp only [room_eq s h, he]
    rw [if_neg (by omega), store_eq s _ h.1 hf]
    rfl
  · unfold putVint
    have he : varintEncode (s.data.length - s.ptr) n = [] := by
      rw [varintEncode_eq, if_neg (by omega)]
    simp only [room_eq s h, he]
    rfl

theorem both_wrote (s : Stream) (a b : Bytes) (r : Option (Bool × Stream)) (f : Stream → Option (Bool × Stream))
    (h : InBuffer s) (hr : Wrote s a r) (hf : ∀ s', InBuffer s' → Wrote s' b (f s')) : Wrote s (a ++ b) (both r f) := by
  obtain ⟨h1, h2⟩ := h
  refine ⟨fun hl => ?_, fun hl => ?_⟩
  · rw [List.length_append] at hl
    have hin := splice_in s a ⟨h1, h2⟩ (by omega)
    have hsl := splice_length s a (by omega)
    rw [hr.fits (by omega)]
    unfold both
    simp only
    rw [(hf _ hin).fits (by rw [hsl]; show _ ≤ _ - (s.ptr + a.length); omega), splice_splice s a b (by omega)]
    rfl
  · rw [List.length_append] at hl
    by_cases ha : a.length ≤ s.data.length - s.ptr
    · have hin := splice_in s a ⟨h1, h2⟩ (by omega)
      have hsl := splice_length s a (by omega)
      obtain ⟨d, e1, e2, e3⟩ := (hf _ hin).full (by rw [hsl]; show _ - (s.ptr + a.length) < _; omega)
      rw [hr.fits ha]
      unfold both
      simp only
      rw [e1]
      refine ⟨d, rfl, by omega, ?_⟩
      have e4 : (d.take (s.ptr + a.length)).take s.ptr = ((splice s a).data.take (s.ptr + a.length)).take s.ptr :=
        congrArg (List.take s.ptr) e3
      rw [List.take_take, List.take_take, Nat.min_eq_left (by omega)] at e4
      rw [e4]
      exact splice_take s a h1
    · obtain ⟨d, e1, e2, e3⟩ := hr.full (by omega)
      rw [e1]
      unfold both
      simp only
      have hin : InBuffer ⟨d, d.length⟩ := ⟨Nat.le_refl _, by simp only; omega⟩
      by_cases hb : b.length = 0
      · have hb' : b = [] := List.length_eq_zero_iff.1 hb
        rw [(hf _ hin).fits (by omega)]
        refine ⟨d, ?_, e2, e3⟩
        subst hb'
        simp [splice]
      · obtain ⟨d2, g1, g2, g3⟩ := (hf _ hin).full (by simp only; omega)
        rw [g1]
        refine ⟨d2, rfl, by simp only at g2; omega, ?_⟩
        simp only [List.take_length] at g3
        have : d2 = d := by rw [← g3, ← (by simpa using g2 : d2.length = d.length), List.take_length]
        rw [this, e3]

/-- The bytes of an item. -/
def enc : Item → Bytes
  | .int8 n => [u8 n]
  | .int16 n => picoformat16 n
  | .int32 n => picoformat32 n
  | .int64 n => picoformat64 n
  | .vint n => varintBytes n
  | .buffer bs => bs
  | .cid id => [u8 id.length] ++ id
  | .cstr t => varintBytes t.length ++ t
  | .addr f a p => (varintBytes f ++ a.take (if f = AF_INET then 4 else 16)) ++ picoformat16 p

theorem write_wrote (s : Stream) (i : Item) (h : InBuffer s) : Wrote s (enc i) (write s i) := by
  cases i with
  | int8 n => exact put_wrote s _ h
  | int16 n => exact put_wrote s _ h
  | int32 n => exact put_wrote s _ h
  | int64 n => exact put_wrote s _ h
  | vint n => exact putVint_wrote s _ h
  | buffer bs => exact put_wrote s _ h
  | cid id => exact both_wrote s _ _ _ _ h (put_wrote s _ h) fun s' h' => put_wrote s' _ h'
  | cstr t => exact both_wrote s _ _ _ _ h (putVint_wrote s _ h) fun s' h' => put_wrote s' _ h'
  | addr f a p =>
    exact both_wrote s _ _ _ _ h (both_wrote s _ _ _ _ h (putVint_wrote s _ h) fun s' h' => put_wrote s' _ h')
      fun s' h' => put_wrote s' _ h'

def encAll (l : List Item) : Bytes := (l.map enc).flatten

theorem writeAll_wrote (l : List Item) : ∀ s : Stream, InBuffer s → Wrote s (encAll l) (writeAll s l) := by
  induction l with
  | nil =>
    intro s h
    refine ⟨fun _ => ?_, fun hx => ?_⟩
    · simp [writeAll, encAll, splice]
    · simp [encAll] at hx
  | cons i l ih =>
    intro s h
    exact both_wrote s _ _ _ _ h (write_wrote s i h) ih

theorem vint_size (n : Nat) : (varintBytes n).length = vintSize n := by
  rw [varintBytes_length]
  unfold encodeVarintLength vintSize
  (repeat' split) <;> omega

theorem enc_size (i : Item) (h : InRange i) : (enc i).length = itemSize i := by
  cases i with
  | int8 n => rfl
  | int16 n => rfl
  | int32 n => rfl
  | int64 n => rfl
  | vint n => exact vint_size n
  | buffer bs => rfl
  | cid id => simp [enc, itemSize]; omega
  | cstr t => simp [enc, itemSize, vint_size]
  | addr f a p =>
    obtain ⟨h1, h2⟩ := h
    have h3 : (picoformat16 p).length = 2 := rfl
    rcases h1 with ⟨rfl, ha⟩ | ⟨rfl, ha⟩
    · simp [enc, itemSize, vint_size, h3, ha, AF_INET, vintSize]
    · simp [enc, itemSize, vint_size, h3, ha, AF_INET6, AF_INET, vintSize]

theorem encAll_size (l : List Item) (h : ∀ i ∈ l, InRange i) : (encAll l).length = itemsSize l := by
  induction l with
  | nil => rfl
  | cons i l ih =>
    have h1 := enc_size i (h i (List.mem_cons_self ..))
    have h2 := ih fun j hj => h j (List.mem_cons_of_mem _ hj)
    simp only [encAll, itemsSize, List.map_cons, List.flatten_cons, List.sum_cons, List.length_append] at *
    omega

/-! Reading. -/

theorem get_fits (s : Stream) (n : Nat) (h : InBuffer s) (hn : n ≤ s.data.length - s.ptr) :
    get s n = some (some ((s.data.drop s.ptr).take n), { s with ptr := s.ptr + n }) := by
  have := h.1
  unfold get load
  rw [room_eq s h, if_neg (by omega), if_pos (by omega)]
  rfl

theorem get_full (s : Stream) (n : Nat) (h : InBuffer s) (hn : s.data.length - s.ptr < n) :
    get s n = some (none, { s with ptr := s.data.length }) := by
  unfold get
  rw [room_eq s h, if_pos hn]
  rfl

/-- What a function that reads does: it stays in the buffer and does not change it. -/
def Reads {α : Type} (s : Stream) (r : Option (α × Stream)) : Prop :=
  ∃ x t, r = some (x, t) ∧ t.data = s.data ∧ s.ptr ≤ t.ptr ∧ t.ptr ≤ s.data.length

theorem get_reads (s : Stream) (n : Nat) (h : InBuffer s) : Reads s (get s n) := by
  have := h.1
  by_cases hn : n ≤ s.data.length - s.ptr
  · exact ⟨_, _, get_fits s n h hn, rfl, by simp only; omega, by simp only; omega⟩
  · exact ⟨_, _, get_full s n h (by omega), rfl, by simp only; omega, by simp only; omega⟩

theorem getVint_eq (s : Stream) (h : InBuffer s) : getVint s = match framesVarintDecode (s.data.drop s.ptr) with
    | none => some (none, { s with ptr := s.data.length })
    | some (n, rest) => some (some n, { s with ptr := s.data.length - rest.length }) := by
  have h1 := h.1
  unfold getVint
  rw [room_eq s h]
  have hl : (s.data.drop s.ptr).length = s.data.length - s.ptr := List.length_drop ..
  by_cases h0 : s.data.length - s.ptr < 1
  · rw [if_pos h0]
    have : s.data.drop s.ptr = [] := List.length_eq_zero_iff.1 (by omega)
    rw [this]
    rfl
  · rw [if_neg h0, if_neg (by omega)]
    simp only [varintDecode_eq]
    rw [List.take_of_length_le (by omega)]
    cases hd : framesVarintDecode (s.data.drop s.ptr) with
    | none => rfl
    | some q =>
      obtain ⟨n, rest⟩ := q
      have := framesVarintDecode_length hd
      simp only
      rw [if_neg (by omega)]
      congr 3
      omega

theorem getVint_reads (s : Stream) (h : InBuffer s) : Reads s (getVint s) := by
  have h1 := h.1
  rw [getVint_eq s h]
  cases hd : framesVarintDecode (s.data.drop s.ptr) with
  | none => exact ⟨_, _, rfl, rfl, h1, Nat.le_refl _⟩
  | some q =>
    obtain ⟨n, rest⟩ := q
    have := framesVarintDecode_length hd
    rw [List.length_drop] at this
    exact ⟨_, _, rfl, rfl, by simp only; omega, by simp only; omega⟩

theorem reads_in {s : Stream} (h : InBuffer s) {t : Stream} (hd : t.data = s.data)
    (hp : t.ptr ≤ s.data.length) : InBuffer t := ⟨by rw [hd]; exact hp, by rw [hd]; exact h.2⟩

theorem getId_reads (ok : Bool) (len : Nat) (s : Stream) (h : InBuffer s) : Reads s (getId ok len s) := by
  unfold getId
  split
  · exact ⟨_, _, rfl, rfl, Nat.le_refl _, h.1⟩
  · rename_i hc
    rw [if_neg (show ¬ 20 < len from hc)]
    obtain ⟨x, t, e, h1, h2, h3⟩ := get_reads s len h
    rw [e]
    exact ⟨_, _, rfl, h1, h2, h3⟩

theorem getText_reads (n max : Nat) (s : Stream) (h : InBuffer s) (hn : n < 2 ^ 62) : Reads s (getText n max s) := by
  unfold getText
  rw [if_neg (show ¬ n = 18446744073709551615 by omega)]
  split
  · exact ⟨_, _, rfl, rfl, Nat.le_refl _, h.1⟩
  · obtain ⟨x, t, e, h1, h2, h3⟩ := get_reads s n h
    rw [e]
    exact ⟨_, _, rfl, h1, h2, h3⟩

theorem reads_map {α β : Type} {s : Stream} {r : Option (α × Stream)} (h : Reads s r) (f : α → β) :
    Reads s (r.map fun q => (f q.1, q.2)) := by
  obtain ⟨x, t, rfl, h1⟩ := h
  exact ⟨_, _, rfl, h1⟩

theorem reads_trans {α : Type} {s t : Stream} {r : Option (α × Stream)} (h1 : t.data = s.data) (h2 : s.ptr ≤ t.ptr)
    (h : Reads t r) : Reads s r := by
  obtain ⟨x, u, rfl, g1, g2, g3⟩ := h
  rw [h1] at g1 g3
  exact ⟨_, _, rfl, g1, by omega, g3⟩

theorem getAddr_reads (ok : Bool) (f n : Nat) (s : Stream) (h : InBuffer s) : Reads s (getAddr ok f n s) := by
  unfold getAddr
  obtain ⟨x, t, e, h1, h2, h3⟩ := get_reads s n h
  have hr := get_reads t 2 (reads_in h h1 h3)
  rw [e, Option.bind_some]
  exact reads_trans h1 h2 (reads_map hr _)

theorem decode_small {bs rest : Bytes} {n : Nat} (h : framesVarintDecode bs = some (n, rest)) : n < 2 ^ 62 := by
  obtain ⟨k, p, rfl, hk, _, hn, _⟩ := isVarint_of_decode h
  have h1 : 2 ^ k ≤ 2 ^ 3 := Nat.pow_le_pow_right (by decide) (by omega)
  exact Nat.lt_of_lt_of_le hn (Nat.pow_le_pow_right (by decide) (by omega))

theorem getVint_small {s t : Stream} {n : Nat} (h : InBuffer s) (e : getVint s = some (some n, t)) : n < 2 ^ 62 := by
  rw [getVint_eq s h] at e
  split at e
  · simp at e
  · rename_i hd
    simp only [Option.some.injEq, Prod.mk.injEq] at e
    exact e.1 ▸ decode_small hd

theorem read_reads (s : Stream) (k : Kind) (h : InBuffer s) : Reads s (read s k) := by
  cases k with
  | int8 => exact reads_map (get_reads s 1 h) _
  | int16 => exact reads_map (get_reads s 2 h) _
  | int32 => exact reads_map (get_reads s 4 h) _
  | int64 => exact reads_map (get_reads s 8 h) _
  | vint => exact reads_map (getVint_reads s h) _
  | buffer n => exact reads_map (get_reads s n h) _
  | cid old =>
    obtain ⟨x, t, e, h1, h2, h3⟩ := get_reads s 1 h
    simp only [read, e]
    cases x with
    | none => exact reads_trans h1 h2 (getId_reads _ _ _ (reads_in h h1 h3))
    | some b => exact reads_trans h1 h2 (getId_reads _ _ _ (reads_in h h1 h3))
  | cstr max =>
    obtain ⟨x, t, e, h1, h2, h3⟩ := getVint_reads s h
    simp only [read, e]
    cases x with
    | none => exact ⟨_, _, rfl, h1, h2, h3⟩
    | some n => exact reads_trans h1 h2 (getText_reads _ _ _ (reads_in h h1 h3) (getVint_small h e))
  | addr =>
    obtain ⟨x, t, e, h1, h2, h3⟩ := getVint_reads s h
    simp only [read, e]
    cases x with
    | none => exact reads_trans h1 h2 (getAddr_reads _ _ _ _ (reads_in h h1 h3))
    | some n =>
      simp only
      split <;> exact reads_trans h1 h2 (getAddr_reads _ _ _ _ (reads_in h h1 h3))

/-- The stream further on. -/
def ahead (s : Stream) (n : Nat) : Stream := { s with ptr := s.ptr + n }

theorem ahead_in {s : Stream} {bs rest : Bytes} (h : InBuffer s) (hd : s.data.drop s.ptr = bs ++ rest) :
    InBuffer (ahead s bs.length) ∧ (ahead s bs.length).data.drop (ahead s bs.length).ptr = rest := by
  have h1 := h.1
  have hl := congrArg List.length hd
  rw [List.length_drop, List.length_append] at hl
  refine ⟨⟨by simp only [ahead]; omega, h.2⟩, ?_⟩
  simp only [ahead]
  rw [← List.drop_drop, hd, List.drop_left]

theorem get_of {s : Stream} {bs rest : Bytes} (h : InBuffer s) (hd : s.data.drop s.ptr = bs ++ rest) :
    get s bs.length = some (some bs, ahead s bs.length) := by
  have hl := congrArg List.length hd
  rw [List.length_drop, List.length_append] at hl
  rw [get_fits s _ h (by omega), hd, List.take_left]
  rfl

theorem getVint_of {s : Stream} {n : Nat} {rest : Bytes} (h : InBuffer s) (hn : n < 2 ^ 62)
    (hd : s.data.drop s.ptr = varintBytes n ++ rest) :
    getVint s = some (some n, ahead s (varintBytes n).length) := by
  have h1 := h.1
  have hl := congrArg List.length hd
  rw [List.length_drop, List.length_append] at hl
  rw [getVint_eq s h, hd, framesVarintDecode_varintBytes n hn]
  simp only [ahead]
  congr 3
  omega

theorem ahead_ahead (s : Stream) (a b : Nat) : ahead (ahead s a) b = ahead s (a + b) := by
  simp [ahead, Nat.add_assoc]

theorem acc_be (bs : Bytes) : accumulate 0 bs = Spec.bigEndian bs := by
  rw [accumulate_eq]; simp

theorem acc8 (n : Nat) (h : n < 2 ^ 8) : accumulate 0 [u8 n] = n := by
  rw [acc_be]
  simp [Spec.bigEndian, u8_toNat]
  omega

theorem read_enc (s : Stream) (k : Kind) (i : Item) (rest : Bytes) (h : InBuffer s) (hk : AsksFor k i) (hi : InRange i)
    (hd : s.data.drop s.ptr = enc i ++ rest) : read s k = some (some i, ahead s (enc i).length) := by
  cases i with
  | int8 n =>
    cases k with
    | int8 =>
      have := get_of h hd
      simp only [read, getInt]
      rw [show (1 : Nat) = (enc (.int8 n)).length from rfl, this]
      simp only [Option.map_some, enc]
      rw [acc8 n hi]
    | _ => exact hk.elim
  | int16 n =>
    cases k with
    | int16 =>
      have := get_of h hd
      simp only [read, getInt]
      rw [show (2 : Nat) = (enc (.int16 n)).length from rfl, this]
      simp only [Option.map_some, enc]
      rw [acc_be, bigEndian_format16 hi]
    | _ => exact hk.elim
  | int32 n =>
    cases k with
    | int32 =>
      have := get_of h hd
      simp only [read, getInt]
      rw [show (4 : Nat) = (enc (.int32 n)).length from rfl, this]
      simp only [Option.map_some, enc]
      rw [acc_be, bigEndian_format32 hi]
    | _ => exact hk.elim
  | int64 n =>
    cases k with
    | int64 =>
      have := get_of h hd
      simp only [read, getInt]
      rw [show (8 : Nat) = (enc (.int64 n)).length from rfl, this]
      simp only [Option.map_some, enc]
      rw [acc_be, bigEndian_format64 hi]
    | _ => exact hk.elim
  | vint n =>
    cases k with
    | vint => simp only [read, getVint_of h hi hd]; rfl
    | _ => exact hk.elim
  | buffer bs =>
    cases k with
    | buffer n =>
      have hk : n = bs.length := hk
      subst hk
      have := get_of h hd
      simp only [read]
      simp only [enc] at this
      rw [this]
      rfl
    | _ => exact hk.elim
  | cid id =>
    cases k with
    | cid old =>
      have hi : id.length ≤ 20 := hi
      have hd1 : s.data.drop s.ptr = [u8 id.length] ++ (id ++ rest) := by rw [hd]; simp [enc]
      have g1 := get_of h hd1
      obtain ⟨h2, hd2⟩ := ahead_in h hd1
      have g2 := get_of h2 hd2
      simp only [read]
      rw [show (1 : Nat) = [u8 id.length].length from rfl, g1]
      simp only
      rw [acc8 _ (by omega)]
      unfold getId
      have hm : CONNECTION_ID_MAX_SIZE = 20 := rfl
      rw [if_neg (by omega), if_neg (by omega), g2, ahead_ahead]
      simp [enc]
      congr 1
      omega
    | _ => exact hk.elim
  | cstr t =>
    cases k with
    | cstr max =>
      have hi : t.length < 2 ^ 62 := hi
      have hk : t.length < max := hk
      have hd1 : s.data.drop s.ptr = varintBytes t.length ++ (t ++ rest) := by rw [hd]; simp [enc]
      have g1 := getVint_of h hi hd1
      obtain ⟨h2, hd2⟩ := ahead_in h hd1
      have g2 := get_of h2 hd2
      simp only [read, g1]
      unfold getText
      rw [if_neg (show ¬ t.length = 18446744073709551615 by omega), if_neg (by omega), if_neg (by omega), g2, ahead_ahead]
      simp [enc]
    | _ => exact hk.elim
  | addr f a p =>
    cases k with
    | addr =>
      obtain ⟨h1, hp⟩ := hi
      have ha : a.take (if f = AF_INET then 4 else 16) = a := by
        apply List.take_of_length_le
        rcases h1 with ⟨rfl, ha⟩ | ⟨rfl, ha⟩
        · rw [if_pos rfl]; omega
        · rw [if_neg (by decide)]; omega
      have hf : f < 2 ^ 62 := by rcases h1 with ⟨rfl, _⟩ | ⟨rfl, _⟩ <;> decide
      have hd1 : s.data.drop s.ptr = varintBytes f ++ (a ++ (picoformat16 p ++ rest)) := by
        rw [hd]; simp only [enc, ha, List.append_assoc]
      have g1 := getVint_of h hf hd1
      obtain ⟨h2, hd2⟩ := ahead_in h hd1
      have g2 := get_of h2 hd2
      obtain ⟨h3, hd3⟩ := ahead_in h2 hd2
      have g3 := get_of h3 hd3
      have hq : getAddr true f a.length (ahead s (varintBytes f).length) =
          some (some (.addr f a p), ahead s (enc (.addr f a p)).length) := by
        unfold getAddr
        rw [g2, Option.bind_some]
        simp only
        rw [show (2 : Nat) = (picoformat16 p).length from rfl, g3, ahead_ahead, ahead_ahead]
        simp only [Option.map_some, address, if_true, enc, ha, List.length_append]
        rw [acc_be, bigEndian_format16 hp, Nat.add_assoc]
      simp only [read, g1]
      rcases h1 with ⟨rfl, hl⟩ | ⟨rfl, hl⟩
      · rw [hl] at hq
        rw [if_pos rfl]; exact hq
      · rw [hl] at hq
        rw [if_neg (by decide)]; exact hq
    | _ => exact hk.elim

theorem readAll_enc (l : List (Kind × Item)) : ∀ (s : Stream) (rest : Bytes), InBuffer s →
    (∀ q ∈ l, AsksFor q.1 q.2 ∧ InRange q.2) → s.data.drop s.ptr = encAll (l.map (·.2)) ++ rest →
    readAll s (l.map (·.1)) = some (some (l.map (·.2)), ahead s (encAll (l.map (·.2))).length) := by
  induction l with
  | nil => intro s rest _ _ _; simp [readAll, encAll, ahead]
  | cons q l ih =>
    intro s rest h hq hd
    obtain ⟨k, i⟩ := q
    obtain ⟨q1, q2⟩ := hq _ (List.mem_cons_self ..)
    have hd1 : s.data.drop s.ptr = enc i ++ (encAll (l.map (·.2)) ++ rest) := by
      rw [hd]; simp [encAll]
    obtain ⟨h2, hd2⟩ := ahead_in h hd1
    have e1 := read_enc s k i _ h q1 q2 hd1
    have e2 := ih _ _ h2 (fun x hx => hq x (List.mem_cons_of_mem _ hx)) hd2
    simp only [List.map_cons, readAll, e1, e2, Option.map_some, ahead_ahead]
    simp [encAll]

end Picoquic.ByteBuffer
