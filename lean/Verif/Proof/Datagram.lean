import Verif.Spec.Datagram
import Verif.Proof.DataRepeat
import Verif.Proof.FrameFormat
import Verif.Proof.IntFormat
import Verif.Proof.StreamFrame
/-!
# Proofs about the queued frames and the datagrams
-/

namespace Picoquic.Dgram
open Picoquic Picoquic.Spec Picoquic.Frames Picoquic.Repeat

def isDg : Frame → Bool
  | .datagram .. => true
  | _ => false

theorem datagramsOf_append (fs gs : List Frame) : datagramsOf (fs ++ gs) = datagramsOf fs ++ datagramsOf gs := by
  induction fs with
  | nil => rfl
  | cons f fs ih => cases f <;> simp [datagramsOf, ih]

theorem datagramsOf_filter (fs : List Frame) : datagramsOf (fs.filter isDg) = datagramsOf fs := by
  induction fs with
  | nil => rfl
  | cons f fs ih =>
    cases f with
    | datagram d e => rw [List.filter_cons_of_pos rfl]; simp only [datagramsOf, ih]
    | _ => rw [List.filter_cons_of_neg (by simp [isDg])]; exact ih

theorem handedOver_append (a b : List Piece) : handedOver (a ++ b) = handedOver a ++ handedOver b := by
  induction a with
  | nil => rfl
  | cons p a ih =>
    cases p with
    | queued c bs => cases c <;> simp [handedOver, ih]
    | _ => simp [handedOver, ih]

theorem takenFromQueue_append (a b : List Piece) : takenFromQueue (a ++ b) = takenFromQueue a ++ takenFromQueue b := by
  induction a with
  | nil => rfl
  | cons p a ih =>
    cases p with
    | queued c bs => cases c <;> simp [takenFromQueue, ih]
    | _ => simp [takenFromQueue, ih]

theorem miscPlaced_append (pc : Nat) (a b : List Piece) : miscPlaced pc (a ++ b) = miscPlaced pc a ++ miscPlaced pc b := by
  induction a with
  | nil => rfl
  | cons p a ih =>
    cases p with
    | misc c bs => by_cases h : c = pc <;> simp [miscPlaced, ih, h]
    | _ => simp [miscPlaced, ih]

theorem payload_append' (a b : List Piece) : payload (a ++ b) = payload a ++ payload b := by simp [payload]

/-- The invariant of a packet in preparation: the pieces have whole frames with the right datagrams; if one extends
to the end of the packet, the packet is full. -/
def Filled (room : Nat) (out : List Piece) : Prop :=
  ∃ fs, IsPayload (payload out) fs ∧ datagramsOf fs = handedOver out ∧ (payload out).length ≤ room ∧
    ((∀ f ∈ fs, Closed f) ∨ (payload out).length = room)

theorem filled_nil (room : Nat) : Filled room [] := ⟨[], .nil, rfl, Nat.zero_le _, .inl (by simp)⟩

theorem filled_append {room : Nat} {a b : List Piece} (ha : Filled room a) (hb : Filled (room - (payload a).length) b) :
    Filled room (a ++ b) := by
  obtain ⟨fs, f1, f2, f3, f4⟩ := ha
  obtain ⟨gs, g1, g2, g3, g4⟩ := hb
  have hc : payload b = [] ∨ ∀ f ∈ fs, Closed f := by
    rcases f4 with f4 | f4
    · exact .inr f4
    · left
      have : (payload b).length = 0 := by omega
      exact List.eq_nil_of_length_eq_zero this
  obtain ⟨hs, h1, h2, h3⟩ := payload_append_gen f1 g1 hc
  refine ⟨hs, by rw [payload_append']; exact h1, ?_, by rw [payload_append', List.length_append]; omega, ?_⟩
  · have := h2 isDg (fun _ => rfl) (fun _ => rfl)
    rw [← datagramsOf_filter, this, datagramsOf_append, datagramsOf_filter, datagramsOf_filter, f2, g2, handedOver_append]
  · rw [payload_append', List.length_append]
    rcases f4 with f4 | f4
    · rcases g4 with g4 | g4
      · exact .inl (h3 f4 g4)
      · right; omega
    · right; omega

/-- What waits is made of whole frames. -/
def MiscOk (i : Item) : Prop := ClosedWithoutDatagram i.bytes

def QueueOk (i : Item) : Prop :=
  match i.content with
  | some data => IsFrame i.bytes (.datagram data true)
  | none => ClosedWithoutDatagram i.bytes

structure Ok (s : State) : Prop where
  misc : ∀ i ∈ s.misc, MiscOk i
  queue : ∀ i ∈ s.queue, QueueOk i

theorem takeFirst_spec (pc : Nat) : ∀ (list : List Item) (x : Item) (rest : List Item), takeFirst pc list = some (x, rest) →
    ∃ a b, list = a ++ x :: b ∧ rest = a ++ b ∧ x.pc = pc ∧ ∀ i ∈ a, i.pc ≠ pc := by
  intro list
  induction list with
  | nil => intro x rest h; simp [takeFirst] at h
  | cons i list ih =>
    intro x rest h
    unfold takeFirst at h
    by_cases hi : i.pc = pc
    · rw [if_pos hi] at h
      cases h
      exact ⟨[], _, rfl, rfl, hi, by simp⟩
    · rw [if_neg hi] at h
      cases ht : takeFirst pc list with
      | none => rw [ht] at h; cases h
      | some y =>
        rw [ht] at h
        obtain ⟨x', r'⟩ := y
        cases h
        obtain ⟨a, b, h1, h2, h3, h4⟩ := ih _ _ ht
        refine ⟨i :: a, b, by rw [h1]; rfl, by rw [h2]; rfl, h3, ?_⟩
        intro j hj
        rcases List.mem_cons.1 hj with rfl | hj
        · exact hi
        · exact h4 j hj

theorem takeFirst_none (pc : Nat) : ∀ (list : List Item), takeFirst pc list = none → waitingMisc pc list = [] := by
  intro list
  induction list with
  | nil => intro _; rfl
  | cons i list ih =>
    intro h
    unfold takeFirst at h
    by_cases hi : i.pc = pc
    · rw [if_pos hi] at h; cases h
    · rw [if_neg hi] at h
      cases ht : takeFirst pc list with
      | none => simp [waitingMisc, hi, ih ht]
      | some y => rw [ht] at h; cases h

theorem waitingMisc_append (pc : Nat) (a b : List Item) : waitingMisc pc (a ++ b) = waitingMisc pc a ++ waitingMisc pc b := by
  induction a with
  | nil => rfl
  | cons i a ih => by_cases h : i.pc = pc <;> simp [waitingMisc, ih, h]

theorem waitingMisc_other {pc : Nat} {a : List Item} (h : ∀ i ∈ a, i.pc ≠ pc) : waitingMisc pc a = [] := by
  induction a with
  | nil => rfl
  | cons i a ih =>
    simp [waitingMisc, h i (List.mem_cons_self ..), ih fun j hj => h j (List.mem_cons_of_mem _ hj)]

theorem waitingDatagrams_append (a b : List Item) : waitingDatagrams (a ++ b) = waitingDatagrams a ++ waitingDatagrams b := by
  induction a with
  | nil => rfl
  | cons i a ih => cases h : i.content <;> simp [waitingDatagrams, ih, h]

theorem filled_closed {room : Nat} {p : Piece} (h : ClosedWithoutDatagram p.bytes) (hl : p.bytes.length ≤ room)
    (hh : handedOver [p] = []) : Filled room [p] := by
  obtain ⟨fs, h1, h2, h3⟩ := h
  have : payload [p] = p.bytes := by simp [payload]
  exact ⟨fs, by rw [this]; exact h1, by rw [hh]; exact h2, by rw [this]; exact hl, .inl h3⟩

/-- The miscellaneous frames: in order, all or up to one that does not fit. -/
theorem formatMisc_spec (pc : Nat) : ∀ (fuel : Nat) (list : List Item) (room : Nat), (∀ i ∈ list, MiscOk i) →
    Filled room (formatMisc pc fuel list room).2 ∧ (∀ i ∈ (formatMisc pc fuel list room).1, i ∈ list) := by
  intro fuel
  induction fuel with
  | zero => intro list room _; exact ⟨filled_nil room, fun i h => h⟩
  | succ fuel ih =>
    intro list room hok
    unfold formatMisc
    cases ht : takeFirst pc list with
    | none => exact ⟨filled_nil room, fun i h => h⟩
    | some y =>
      obtain ⟨x, rest⟩ := y
      obtain ⟨a, b, h1, h2, h3, h4⟩ := takeFirst_spec pc _ _ _ ht
      have hsub : ∀ i ∈ rest, i ∈ list := by
        intro i hi; rw [h2] at hi; rw [h1]
        rcases List.mem_append.1 hi with hi | hi
        · exact List.mem_append_left _ hi
        · exact List.mem_append_right _ (List.mem_cons_of_mem _ hi)
      have hx : MiscOk x := hok x (by rw [h1]; simp)
      dsimp only
      by_cases hl : x.bytes.length > room
      · rw [if_pos hl]; exact ⟨filled_nil room, fun i h => h⟩
      · rw [if_neg hl]
        have hp : Filled room [.misc pc x.bytes] := filled_closed (p := .misc pc x.bytes) hx (by simp [Piece.bytes]; omega) rfl
        by_cases h0 : x.bytes.length = 0
        · rw [if_pos h0]; exact ⟨hp, hsub⟩
        · rw [if_neg h0]
          obtain ⟨i1, i2⟩ := ih rest (room - x.bytes.length) (fun i hi => hok i (hsub i hi))
          refine ⟨?_, fun i hi => hsub i (i2 i hi)⟩
          refine filled_append hp ?_
          simpa [payload, Piece.bytes] using i1

theorem formatMisc_order (pc q : Nat) : ∀ (fuel : Nat) (list : List Item) (room : Nat),
    miscPlaced q (formatMisc pc fuel list room).2 ++ waitingMisc q (formatMisc pc fuel list room).1 = waitingMisc q list := by
  intro fuel
  induction fuel with
  | zero => intro list room; rfl
  | succ fuel ih =>
    intro list room
    unfold formatMisc
    cases ht : takeFirst pc list with
    | none => rfl
    | some y =>
      obtain ⟨x, rest⟩ := y
      obtain ⟨a, b, h1, h2, h3, h4⟩ := takeFirst_spec pc _ _ _ ht
      have hw : miscPlaced q [.misc pc x.bytes] ++ waitingMisc q rest = waitingMisc q list := by
        rw [h1, h2, waitingMisc_append, waitingMisc_append]
        by_cases hq : pc = q
        · subst hq
          rw [waitingMisc_other h4]; simp [miscPlaced, waitingMisc, h3]
        · have : x.pc ≠ q := by rw [h3]; exact hq
          simp [miscPlaced, waitingMisc, hq, this]
      dsimp only
      by_cases hl : x.bytes.length > room
      · rw [if_pos hl]; rfl
      · rw [if_neg hl]
        by_cases h0 : x.bytes.length = 0
        · rw [if_pos h0]; exact hw
        · rw [if_neg h0]
          rw [← hw, ← ih rest (room - x.bytes.length), ← List.append_assoc]
          congr 1
          exact miscPlaced_append q [.misc pc x.bytes] _

theorem formatMisc_taken (pc : Nat) : ∀ (fuel : Nat) (list : List Item) (room : Nat),
    takenFromQueue (formatMisc pc fuel list room).2 = [] ∧ writtenByApp (formatMisc pc fuel list room).2 = [] := by
  intro fuel
  induction fuel with
  | zero => intro list room; exact ⟨rfl, rfl⟩
  | succ fuel ih =>
    intro list room
    unfold formatMisc
    cases ht : takeFirst pc list with
    | none => exact ⟨rfl, rfl⟩
    | some y =>
      dsimp only
      (repeat' split)
      · exact ⟨rfl, rfl⟩
      · exact ⟨rfl, rfl⟩
      · exact ih _ _

/-- All that waits is placed if there is room. -/
theorem formatMisc_all (pc : Nat) : ∀ (fuel : Nat) (list : List Item) (room : Nat), list.length ≤ fuel →
    (∀ b ∈ waitingMisc pc list, b ≠ []) → (waitingMisc pc list).flatten.length ≤ room →
    waitingMisc pc (formatMisc pc fuel list room).1 = [] := by
  intro fuel
  induction fuel with
  | zero =>
    intro list room h _ _
    cases list with
    | nil => rfl
    | cons i l => simp at h
  | succ fuel ih =>
    intro list room h hne hr
    unfold formatMisc
    cases ht : takeFirst pc list with
    | none => exact takeFirst_none pc _ ht
    | some y =>
      obtain ⟨x, rest⟩ := y
      obtain ⟨a, b, h1, h2, h3, h4⟩ := takeFirst_spec pc _ _ _ ht
      have hw : x.bytes :: waitingMisc pc rest = waitingMisc pc list := by
        rw [h1, h2, waitingMisc_append, waitingMisc_append, waitingMisc_other h4]; simp [waitingMisc, h3]
      rw [← hw] at hne hr
      have hx := hne x.bytes (List.mem_cons_self ..)
      have hx0 : x.bytes.length ≠ 0 := fun h => hx (List.eq_nil_of_length_eq_zero h)
      simp only [List.flatten_cons, List.length_append] at hr
      dsimp only
      rw [if_neg (by omega), if_neg hx0]
      refine ih _ _ ?_ (fun c hc => hne c (List.mem_cons_of_mem _ hc)) (by omega)
      rw [h1] at h; rw [h2]; simp at h ⊢; omega

/-- Nothing is placed while the first does not fit. -/
theorem formatMisc_blocked (pc : Nat) (fuel : Nat) (list : List Item) (room : Nat) (b : Bytes) (bs : List Bytes)
    (h : waitingMisc pc list = b :: bs) (hl : room < b.length) : formatMisc pc fuel list room = (list, []) := by
  cases fuel with
  | zero => rfl
  | succ fuel =>
    unfold formatMisc
    cases ht : takeFirst pc list with
    | none => rfl
    | some y =>
      obtain ⟨x, rest⟩ := y
      obtain ⟨a, c, h1, h2, h3, h4⟩ := takeFirst_spec pc _ _ _ ht
      rw [h1, waitingMisc_append, waitingMisc_other h4] at h
      simp [waitingMisc, h3] at h
      dsimp only
      rw [if_pos (by rw [h.1]; omega)]

/-! ## Datagrams -/

theorem datagram_true_frame {data : Bytes} (h : data.length < 2 ^ 62) :
    IsFrame (0x31 :: (varintBytes data.length ++ data)) (.datagram data true) := by
  refine ⟨⟨varintBytes data.length ++ data, rfl, varintBytes data.length, data, rfl, ?_, ?_⟩, trivial⟩
  · exact StreamFrame.varintBytes_varint _ h
  · exact ⟨[], by simp, rfl⟩

theorem datagram_false_frame (data : Bytes) : IsFrame (0x30 :: data) (.datagram data false) :=
  ⟨⟨data, rfl, [], by simp, rfl⟩, trivial⟩

theorem varint_length_le (n : Nat) : encodeVarintLength n ≤ 8 := by
  unfold encodeVarintLength; split <;> split <;> omega

theorem formatDatagram_eq (data : Bytes) (room : Nat) :
    formatDatagram data room = (if 1 + encodeVarintLength data.length + data.length ≤ room then
      some (0x31 :: (varintBytes data.length ++ data)) else none) := by
  have hv := varintBytes_length data.length
  unfold formatDatagram Enc.seq
  rw [StreamFrame.framesUint8Encode_eq]
  by_cases h1 : 1 ≤ room
  · rw [if_pos h1]
    dsimp only [List.length_cons, List.length_nil]
    rw [framesVarintEncode_eq]
    by_cases h2 : encodeVarintLength data.length ≤ room - (0 + 1)
    · rw [if_pos h2]
      dsimp only
      rw [hv]
      by_cases h3 : data.length ≤ room - (0 + 1) - encodeVarintLength data.length
      · rw [if_pos h3, if_pos (by omega)]; rfl
      · rw [if_neg h3, if_neg (by omega)]
    · rw [if_neg h2, if_neg (by omega)]
  · rw [if_neg h1, if_neg (by omega)]

theorem queueDatagram_spec (s : State) (data : Bytes) :
    queueDatagram s data = if data.length ≤ 1200 then
      ({ s with queue := s.queue ++ [{ pc := 0, bytes := 0x31 :: (varintBytes data.length ++ data), content := some data }] }, 0)
      else (s, 0x43B) := by
  unfold queueDatagram
  by_cases h : data.length > 1200
  · rw [if_pos h, if_neg (by omega)]
  · rw [if_neg h, formatDatagram_eq, if_pos (by have := varint_length_le data.length; omega), if_pos (by omega)]

theorem payload_singleton {p : Bytes} {f : Frame} (h : IsFrame p f) : IsPayload p [f] := by
  have := IsPayload.cons (bs := p) (rest := []) (f := f) (fs := []) ⟨p, by simp, h, endsWith_nil f⟩ .nil
  exact this

theorem zeros_payload (n : Nat) : ∃ fs, IsPayload (List.replicate n 0) fs ∧ datagramsOf fs = [] ∧ ∀ f ∈ fs, Closed f := by
  cases n with
  | zero => exact ⟨[], .nil, rfl, by simp⟩
  | succ n =>
    refine ⟨[.padding n], payload_singleton ⟨⟨[], by simp, rfl⟩, trivial⟩, rfl, ?_⟩
    intro f hf
    simp at hf; subst hf; trivial

theorem queued_filled {room : Nat} {i : Item} (h : QueueOk i) (hl : i.bytes.length ≤ room) :
    Filled room [.queued i.content i.bytes] := by
  unfold QueueOk at h
  cases hc : i.content with
  | none =>
    rw [hc] at h
    exact filled_closed (p := .queued none i.bytes) h hl rfl
  | some data =>
    rw [hc] at h
    have hp : payload [.queued (some data) i.bytes] = i.bytes := by simp [payload, Piece.bytes]
    refine ⟨[.datagram data true], by rw [hp]; exact payload_singleton h, rfl, by rw [hp]; exact hl, .inl ?_⟩
    intro f hf
    simp at hf; subst hf; rfl

/-- What the application writes: nothing, a frame with a length, or a frame which fills the packet. -/
theorem provide_spec (s : State) (room allowed : Nat) (r : Reply) (ha : allowed ≤ room - 1) (hr : 1 ≤ room)
    (h62 : room < 2 ^ 62) :
    (provide s room allowed r).2 = [] ∨
      (0 < r.data.length ∧ r.data.length ≤ allowed ∧ (provide s room allowed r).2 ≠ [] ∧
        Filled room [.written r.data (provide s room allowed r).2]) := by
  unfold provide
  dsimp only
  by_cases hd : r.data.length > 0 ∧ r.data.length ≤ allowed
  · right
    rw [if_pos hd]
    have hopen : Filled room [.written r.data (List.replicate (room - (1 + r.data.length)) 0 ++ 0x30 :: r.data)] := by
      obtain ⟨fs, z1, z2, z3⟩ := zeros_payload (room - (1 + r.data.length))
      obtain ⟨hs, h1, h2, _⟩ := payload_append_gen z1 (payload_singleton (datagram_false_frame r.data)) (.inr z3)
      have hp : ∀ bs, payload [.written r.data bs] = bs := by intro bs; simp [payload, Piece.bytes]
      refine ⟨hs, by rw [hp]; exact h1, ?_, ?_, .inr ?_⟩
      · rw [← datagramsOf_filter, h2 isDg (fun _ => rfl) (fun _ => rfl), datagramsOf_append, datagramsOf_filter,
          datagramsOf_filter, z2]
        rfl
      · rw [hp]; simp; omega
      · rw [hp]; simp; omega
    rw [framesVarintEncode_eq]
    by_cases he : encodeVarintLength r.data.length ≤ room - 1
    · rw [if_pos he]
      dsimp only
      rw [varintBytes_length]
      by_cases hf : 1 + encodeVarintLength r.data.length + r.data.length > room
      · rw [if_pos hf]
        exact ⟨hd.1, hd.2, by simp, hopen⟩
      · rw [if_neg hf]
        refine ⟨hd.1, hd.2, by simp, ?_⟩
        have hp : ∀ bs, payload [.written r.data bs] = bs := by intro bs; simp [payload, Piece.bytes]
        refine ⟨[.datagram r.data true], by rw [hp]; exact payload_singleton (datagram_true_frame (by omega)), rfl, ?_, .inl ?_⟩
        · rw [hp]
          simp only [List.length_cons, List.length_append, varintBytes_length]; omega
        · intro f hf
          simp at hf; subst hf; rfl
    · rw [if_neg he]
      exact ⟨hd.1, hd.2, by simp, hopen⟩
  · left
    rw [if_neg hd]

theorem formatReady_spec (s : State) (room : Nat) (r : Reply) (h62 : room < 2 ^ 62) :
    (formatReady s room r).2 = [] ∨
      (0 < r.data.length ∧ r.data.length ≤ s.remoteMax ∧ (formatReady s room r).2 ≠ [] ∧
        Filled room [.written r.data (formatReady s room r).2]) := by
  unfold formatReady
  by_cases h : room < 17
  · rw [if_pos h]; exact .inl rfl
  · rw [if_neg h]
    rcases provide_spec s room (min (room - 1) s.remoteMax) r (by omega) (by omega) h62 with h1 | ⟨h1, h2, h3, h4⟩
    · exact .inl h1
    · exact .inr ⟨h1, by omega, h3, h4⟩

theorem formatReady_kept (s : State) (room : Nat) (r : Reply) :
    (formatReady s room r).1.misc = s.misc ∧ (formatReady s room r).1.queue = s.queue ∧
      (formatReady s room r).1.remoteMax = s.remoteMax := by
  unfold formatReady provide
  dsimp only
  (repeat' split) <;> exact ⟨rfl, rfl, rfl⟩

theorem readyLoop_spec : ∀ (replies : List Reply) (s : State) (room : Nat), room < 2 ^ 62 →
    Filled room (readyLoop s room replies).2 ∧ (readyLoop s room replies).1.misc = s.misc ∧
      (readyLoop s room replies).1.queue = s.queue ∧ (readyLoop s room replies).1.remoteMax = s.remoteMax ∧
      takenFromQueue (readyLoop s room replies).2 = [] ∧ (∀ pc, miscPlaced pc (readyLoop s room replies).2 = []) ∧
      ∀ d ∈ writtenByApp (readyLoop s room replies).2, d.length ≤ s.remoteMax := by
  intro replies
  induction replies with
  | nil => intro s room _; exact ⟨filled_nil room, rfl, rfl, rfl, rfl, fun _ => rfl, by simp [readyLoop, writtenByApp]⟩
  | cons r rest ih =>
    intro s room h62
    unfold readyLoop
    by_cases hr : (s.ready || s.pathReady) = true
    · rw [if_pos hr]
      dsimp only
      obtain ⟨k1, k2, k3⟩ := formatReady_kept s room r
      by_cases he : (formatReady s room r).2 = []
      · rw [if_pos he]
        exact ⟨filled_nil room, k1, k2, k3, rfl, fun _ => rfl, by simp [writtenByApp]⟩
      · rw [if_neg he]
        rcases formatReady_spec s room r h62 with h1 | ⟨h1, h2, h3, h4⟩
        · exact absurd h1 he
        · obtain ⟨i1, i2, i3, i4, i5, i6, i7⟩ := ih (formatReady s room r).1 (room - (formatReady s room r).2.length) (by omega)
          refine ⟨?_, i2.trans k1, i3.trans k2, i4.trans k3, i5, i6, ?_⟩
          · refine filled_append h4 ?_
            simpa [payload, Piece.bytes] using i1
          · intro d hd
            rcases List.mem_cons.1 (show d ∈ r.data :: _ from hd) with rfl | hd
            · exact h2
            · rw [← k3]; exact i7 d hd
    · rw [if_neg hr]
      exact ⟨filled_nil room, rfl, rfl, rfl, rfl, fun _ => rfl, by simp [writtenByApp]⟩

/-! ## A packet -/

/-- What holds after a part of a packet, or the whole packet. -/
structure Kept (s s' : State) (room : Nat) (out : List Piece) : Prop where
  filled : Filled room out
  ok : Ok s'
  remoteMax : s'.remoteMax = s.remoteMax
  datagrams : takenFromQueue out ++ waitingDatagrams s'.queue = waitingDatagrams s.queue
  misc : ∀ pc, miscPlaced pc out ++ waitingMisc pc s'.misc = waitingMisc pc s.misc
  written : ∀ d ∈ writtenByApp out, d.length ≤ s.remoteMax

theorem kept_nil {s : State} (h : Ok s) (room : Nat) : Kept s s room [] :=
  ⟨filled_nil room, h, rfl, rfl, fun _ => rfl, by simp [writtenByApp]⟩

theorem kept_other {s : State} (h : Ok s) {room : Nat} {bs : Bytes} (hf : Filled room [.other bs]) : Kept s s room [.other bs] :=
  ⟨hf, h, rfl, rfl, fun _ => rfl, by simp [writtenByApp]⟩

theorem segment_kept {s : State} (h : Ok s) {room : Nat} (h62 : room < 2 ^ 62) {g : Seg} (hg : LegitSeg g) :
    Kept s (segment s room g).1 room (segment s room g).2 := by
  cases g with
  | other bs =>
    unfold segment
    dsimp only
    by_cases hl : bs.length ≤ room
    · rw [if_pos hl]; exact kept_other h (filled_closed (p := .other bs) hg hl rfl)
    · rw [if_neg hl]; exact kept_nil h room
  | fill bs =>
    unfold segment
    dsimp only
    by_cases hl : bs.length = room
    · rw [if_pos hl]
      refine kept_other h ?_
      obtain ⟨fs, h1, h2⟩ := (hg : WithoutDatagram bs)
      have : payload [.other bs] = bs := by simp [payload, Piece.bytes]
      exact ⟨fs, by rw [this]; exact h1, h2, by rw [this]; omega, .inr (by rw [this]; exact hl)⟩
    · rw [if_neg hl]; exact kept_nil h room
  | misc pc =>
    unfold segment
    dsimp only
    obtain ⟨f1, f2⟩ := formatMisc_spec pc s.misc.length s.misc room h.misc
    obtain ⟨t1, t2⟩ := formatMisc_taken pc s.misc.length s.misc room
    exact ⟨f1, ⟨fun i hi => h.misc i (f2 i hi), h.queue⟩, rfl, by rw [t1]; rfl,
      fun q => formatMisc_order pc q s.misc.length s.misc room, by rw [t2]; simp⟩
  | datagrams replies =>
    unfold segment
    dsimp only
    unfold prepareDatagrams
    cases hq : s.queue with
    | nil =>
      dsimp only
      obtain ⟨l1, l2, l3, l4, l5, l6, l7⟩ := readyLoop_spec replies s room h62
      exact ⟨l1, ⟨by rw [l2]; exact h.misc, by rw [l3]; exact h.queue⟩, l4, by rw [l5, l3]; rfl,
        fun pc => by rw [l6, l2]; rfl, l7⟩
    | cons i rest =>
      dsimp only
      by_cases hl : i.bytes.length > room
      · rw [if_pos hl]; exact kept_nil h room
      · rw [if_neg hl]
        refine ⟨queued_filled (h.queue i (by rw [hq]; simp)) (by omega), ⟨h.misc, fun j hj => h.queue j (by rw [hq]; exact List.mem_cons_of_mem _ hj)⟩,
          rfl, ?_, fun _ => rfl, by simp [writtenByApp]⟩
        rw [hq]
        cases hc : i.content <;> simp [takenFromQueue, waitingDatagrams, hc]

theorem writtenByApp_append (a b : List Piece) : writtenByApp (a ++ b) = writtenByApp a ++ writtenByApp b := by
  induction a with
  | nil => rfl
  | cons p a ih => cases p <;> simp [writtenByApp, ih]

theorem build_kept : ∀ (segs : List Seg) (s : State) (room : Nat), Ok s → room < 2 ^ 62 → (∀ g ∈ segs, LegitSeg g) →
    Kept s (build s room segs).1 room (build s room segs).2 := by
  intro segs
  induction segs with
  | nil => intro s room h _ _; exact kept_nil h room
  | cons g segs ih =>
    intro s room h h62 hg
    unfold build
    dsimp only
    have k := segment_kept h h62 (hg g (List.mem_cons_self ..))
    have k2 := ih (segment s room g).1 (room - (payload (segment s room g).2).length) k.ok (by omega)
      (fun x hx => hg x (List.mem_cons_of_mem _ hx))
    refine ⟨filled_append k.filled k2.filled, k2.ok, k2.remoteMax.trans k.remoteMax, ?_, ?_, ?_⟩
    · rw [takenFromQueue_append, List.append_assoc, k2.datagrams, k.datagrams]
    · intro pc; rw [miscPlaced_append, List.append_assoc, k2.misc, k.misc]
    · intro d hd
      rw [writtenByApp_append] at hd
      rcases List.mem_append.1 hd with hd | hd
      · exact k.written d hd
      · rw [← k.remoteMax]; exact k2.written d hd

theorem step_ok {s : State} (h : Ok s) {ev : Event} (he : LegitEvent ev) :
    Ok (step s ev).1 ∧ (step s ev).1.remoteMax = s.remoteMax := by
  cases ev with
  | queueMisc pc bs =>
    refine ⟨⟨?_, h.queue⟩, rfl⟩
    intro i hi
    rcases List.mem_append.1 (show i ∈ s.misc ++ _ from hi) with hi | hi
    · exact h.misc i hi
    · rw [List.mem_singleton] at hi; subst hi; exact he
  | queueDatagram data =>
    unfold step
    dsimp only
    rw [queueDatagram_spec]
    by_cases hl : data.length ≤ 1200
    · rw [if_pos hl]
      refine ⟨⟨h.misc, ?_⟩, rfl⟩
      intro i hi
      rcases List.mem_append.1 (show i ∈ s.queue ++ _ from hi) with hi | hi
      · exact h.queue i hi
      · rw [List.mem_singleton] at hi; subst hi
        exact datagram_true_frame (by omega)
    · rw [if_neg hl]; exact ⟨h, rfl⟩
  | handshakeDone =>
    refine ⟨⟨h.misc, ?_⟩, rfl⟩
    intro i hi
    rcases List.mem_append.1 (show i ∈ s.queue ++ _ from hi) with hi | hi
    · exact h.queue i hi
    · rw [List.mem_singleton] at hi; subst hi
      show ClosedWithoutDatagram _
      refine ⟨[.handshakeDone], payload_singleton ⟨⟨[], by simp, rfl⟩, trivial⟩, rfl, ?_⟩
      intro f hf
      simp at hf; subst hf; trivial
  | ready onPath value => cases onPath <;> exact ⟨⟨h.misc, h.queue⟩, rfl⟩
  | purge => exact ⟨⟨fun i hi => h.misc i (List.mem_filter.1 hi).1, h.queue⟩, rfl⟩
  | packet room segs =>
    have k := build_kept segs s room h (by have := he.1; omega) he.2
    exact ⟨k.ok, k.remoteMax⟩

theorem run_packets : ∀ (evs : List Event) (s : State), Ok s → (∀ ev ∈ evs, LegitEvent ev) →
    ∀ room segs code out, (Event.packet room segs, code, out) ∈ (run s evs).2 →
      Filled room out ∧ ∀ d ∈ writtenByApp out, d.length ≤ s.remoteMax := by
  intro evs
  induction evs with
  | nil => intro s _ _ room segs code out h; simp [run] at h
  | cons ev evs ih =>
    intro s h hl room segs code out hm
    obtain ⟨o1, o2⟩ := step_ok h (hl ev (List.mem_cons_self ..))
    rcases List.mem_cons.1 (show _ ∈ (ev, (step s ev).2) :: _ from hm) with hm | hm
    · cases ev with
      | packet room' segs' =>
        cases hm
        have he := hl _ (List.mem_cons_self ..)
        have k := build_kept segs s room h (by have := he.1; omega) he.2
        exact ⟨k.filled, k.written⟩
      | _ => cases hm
    · have := ih _ o1 (fun e he => hl e (List.mem_cons_of_mem _ he)) room segs code out hm
      rw [o2] at this; exact this

theorem run_datagrams : ∀ (evs : List Event) (s : State), Ok s → (∀ ev ∈ evs, LegitEvent ev) →
    takenFromQueue (allPieces (run s evs).2) ++ waitingDatagrams (run s evs).1.queue =
      waitingDatagrams s.queue ++ acceptedDatagrams (run s evs).2 := by
  intro evs
  induction evs with
  | nil => intro s _ _; simp [run, allPieces, takenFromQueue, acceptedDatagrams]
  | cons ev evs ih =>
    intro s h hl
    obtain ⟨o1, o2⟩ := step_ok h (hl ev (List.mem_cons_self ..))
    have hi := ih _ o1 (fun e he => hl e (List.mem_cons_of_mem _ he))
    have hr : allPieces (run s (ev :: evs)).2 = (step s ev).2.2 ++ allPieces (run (step s ev).1 evs).2 := by
      simp [run, allPieces]
    rw [hr, takenFromQueue_append, List.append_assoc]
    show _ ++ (_ ++ waitingDatagrams (run (step s ev).1 evs).1.queue) = _ ++ acceptedDatagrams ((ev, (step s ev).2) :: (run (step s ev).1 evs).2)
    rw [hi]
    cases ev with
    | queueDatagram data =>
      unfold step
      dsimp only
      rw [queueDatagram_spec]
      by_cases hx : data.length ≤ 1200
      · rw [if_pos hx]; simp [acceptedDatagrams, takenFromQueue, waitingDatagrams_append, waitingDatagrams]
      · rw [if_neg hx]; simp [acceptedDatagrams, takenFromQueue]
    | packet room segs =>
      have he := hl _ (List.mem_cons_self ..)
      have k := build_kept segs s room h (by have := he.1; omega) he.2
      unfold step
      dsimp only
      rw [← List.append_assoc, k.datagrams]
      rfl
    | handshakeDone => simp [step, queueHandshakeDone, acceptedDatagrams, takenFromQueue, waitingDatagrams_append, waitingDatagrams]
    | ready onPath value => cases onPath <;> simp [step, acceptedDatagrams, takenFromQueue]
    | _ => simp [step, queueMisc, purge, acceptedDatagrams, takenFromQueue]

theorem waitingMisc_purge {pc : Nat} (l : List Item) (h : pc = 0) :
    waitingMisc pc (l.filter fun i => decide (i.pc = 0)) = waitingMisc pc l := by
  subst h
  induction l with
  | nil => rfl
  | cons i l ih =>
    by_cases h : i.pc = 0
    · rw [List.filter_cons_of_pos (by simpa using h)]; simp [waitingMisc, h, ih]
    · rw [List.filter_cons_of_neg (by simpa using h)]; simp [waitingMisc, h, ih]

/-- The order of the miscellaneous frames does not depend on what the frames are. -/
theorem prepareDatagrams_misc (s : State) (room : Nat) (replies : List Reply) (pc : Nat) :
    (prepareDatagrams s room replies).1.misc = s.misc ∧ miscPlaced pc (prepareDatagrams s room replies).2 = [] := by
  have hl : ∀ (replies : List Reply) (s : State) (room : Nat),
      (readyLoop s room replies).1.misc = s.misc ∧ miscPlaced pc (readyLoop s room replies).2 = [] := by
    intro replies
    induction replies with
    | nil => intro s room; exact ⟨rfl, rfl⟩
    | cons r rest ih =>
      intro s room
      unfold readyLoop
      have k := (formatReady_kept s room r).1
      dsimp only
      (repeat' split)
      · exact ⟨k, rfl⟩
      · obtain ⟨i1, i2⟩ := ih (formatReady s room r).1 (room - (formatReady s room r).2.length)
        exact ⟨i1.trans k, i2⟩
      · exact ⟨rfl, rfl⟩
  unfold prepareDatagrams
  split
  · exact hl _ _ _
  · split <;> exact ⟨rfl, rfl⟩

theorem build_misc (pc : Nat) : ∀ (segs : List Seg) (s : State) (room : Nat),
    miscPlaced pc (build s room segs).2 ++ waitingMisc pc (build s room segs).1.misc = waitingMisc pc s.misc := by
  intro segs
  induction segs with
  | nil => intro s room; rfl
  | cons g segs ih =>
    intro s room
    unfold build
    dsimp only
    rw [miscPlaced_append, List.append_assoc, ih]
    cases g with
    | other bs => unfold segment; dsimp only; split <;> rfl
    | fill bs => unfold segment; dsimp only; split <;> rfl
    | misc q => exact formatMisc_order q pc s.misc.length s.misc room
    | datagrams replies =>
      obtain ⟨h1, h2⟩ := prepareDatagrams_misc s room replies pc
      unfold segment
      rw [h1, h2]; rfl

theorem run_misc (pc : Nat) : ∀ (evs : List Event) (s : State), (pc = 0 ∨ Event.purge ∉ evs) →
    miscPlaced pc (allPieces (run s evs).2) ++ waitingMisc pc (run s evs).1.misc =
      waitingMisc pc s.misc ++ queuedMisc pc evs := by
  intro evs
  induction evs with
  | nil => intro s _; simp [run, allPieces, miscPlaced, queuedMisc]
  | cons ev evs ih =>
    intro s hp
    have hi := ih (step s ev).1 (hp.imp id fun h hm => h (List.mem_cons_of_mem _ hm))
    have hr : allPieces (run s (ev :: evs)).2 = (step s ev).2.2 ++ allPieces (run (step s ev).1 evs).2 := by
      simp [run, allPieces]
    rw [hr, miscPlaced_append, List.append_assoc]
    show _ ++ (_ ++ waitingMisc pc (run (step s ev).1 evs).1.misc) = _
    rw [hi]
    cases ev with
    | queueMisc q bs =>
      by_cases hq : q = pc
      · simp [step, queueMisc, miscPlaced, waitingMisc_append, waitingMisc, queuedMisc, hq]
      · simp [step, queueMisc, miscPlaced, waitingMisc_append, waitingMisc, queuedMisc, hq]
    | packet room segs =>
      unfold step
      dsimp only
      rw [← List.append_assoc, build_misc]
      rfl
    | queueDatagram data =>
      unfold step
      dsimp only
      rw [queueDatagram_spec]
      split <;> simp [queuedMisc, miscPlaced]
    | handshakeDone => simp [step, queueHandshakeDone, queuedMisc, miscPlaced]
    | ready onPath value => cases onPath <;> simp [step, queuedMisc, miscPlaced]
    | purge =>
      rcases hp with hp | hp
      · simp [step, purge, queuedMisc, miscPlaced, waitingMisc_purge _ hp]
      · exact absurd (List.mem_cons_self ..) hp

/-! ## What blocks the queues -/

theorem segment_blocked {s : State} {pc room : Nat} {b : Bytes} {bs : List Bytes} (h : waitingMisc pc s.misc = b :: bs)
    (hl : room < b.length) (g : Seg) :
    miscPlaced pc (segment s room g).2 = [] ∧ waitingMisc pc (segment s room g).1.misc = b :: bs := by
  cases g with
  | other x => unfold segment; dsimp only; split <;> exact ⟨rfl, h⟩
  | fill x => unfold segment; dsimp only; split <;> exact ⟨rfl, h⟩
  | misc q =>
    unfold segment
    dsimp only
    by_cases hq : q = pc
    · subst hq
      rw [formatMisc_blocked q _ _ _ _ _ h hl]; exact ⟨rfl, h⟩
    · have ho := formatMisc_order q pc s.misc.length s.misc room
      have hn : ∀ (fuel : Nat) (list : List Item) (room : Nat), miscPlaced pc (formatMisc q fuel list room).2 = [] := by
        intro fuel
        induction fuel with
        | zero => intro list room; rfl
        | succ fuel ih =>
          intro list room
          unfold formatMisc
          dsimp only
          (repeat' split)
          · rfl
          · rfl
          · simp [miscPlaced, hq]
          · simp [miscPlaced, hq, ih]
      rw [hn] at ho
      exact ⟨hn .., ho.trans h⟩
  | datagrams replies =>
    unfold segment
    obtain ⟨h1, h2⟩ := prepareDatagrams_misc s room replies pc
    exact ⟨h2, by dsimp only; rw [h1]; exact h⟩

theorem build_blocked {pc : Nat} {b : Bytes} {bs : List Bytes} : ∀ (segs : List Seg) (s : State) (room : Nat),
    waitingMisc pc s.misc = b :: bs → room < b.length →
    miscPlaced pc (build s room segs).2 = [] ∧ waitingMisc pc (build s room segs).1.misc = b :: bs := by
  intro segs
  induction segs with
  | nil => intro s room h _; exact ⟨rfl, h⟩
  | cons g segs ih =>
    intro s room h hl
    unfold build
    dsimp only
    obtain ⟨h1, h2⟩ := segment_blocked h hl g
    obtain ⟨h3, h4⟩ := ih (segment s room g).1 (room - (payload (segment s room g).2).length) h2 (by omega)
    exact ⟨by rw [miscPlaced_append, h1, h3]; rfl, h4⟩

theorem run_blocked {b : Bytes} : ∀ (evs : List Event) (s : State) (bs : List Bytes), waitingMisc 0 s.misc = b :: bs →
    (∀ room segs, Event.packet room segs ∈ evs → room < b.length) →
    miscPlaced 0 (allPieces (run s evs).2) = [] := by
  intro evs
  induction evs with
  | nil => intro s bs _ _; rfl
  | cons ev evs ih =>
    intro s bs h hr
    have key : miscPlaced 0 (step s ev).2.2 = [] ∧ ∃ bs', waitingMisc 0 (step s ev).1.misc = b :: bs' := by
      cases ev with
      | queueMisc q x => exact ⟨rfl, _, by simp only [step, queueMisc, waitingMisc_append, h]; rfl⟩
      | queueDatagram data =>
        unfold step
        dsimp only
        rw [queueDatagram_spec]
        split <;> exact ⟨rfl, bs, h⟩
      | handshakeDone => exact ⟨rfl, bs, h⟩
      | ready onPath value => cases onPath <;> exact ⟨rfl, bs, h⟩
      | purge => exact ⟨rfl, bs, (waitingMisc_purge s.misc rfl).trans h⟩
      | packet room segs =>
        obtain ⟨h1, h2⟩ := build_blocked segs s room h (hr room segs (List.mem_cons_self ..))
        exact ⟨h1, bs, h2⟩
    obtain ⟨k1, bs', k2⟩ := key
    have hi := ih _ bs' k2 (fun room segs hm => hr room segs (List.mem_cons_of_mem _ hm))
    have he : allPieces (run s (ev :: evs)).2 = (step s ev).2.2 ++ allPieces (run (step s ev).1 evs).2 := by
      simp [run, allPieces]
    rw [he, miscPlaced_append, k1, hi]; rfl

theorem formatMisc_handed (pc : Nat) : ∀ (fuel : Nat) (list : List Item) (room : Nat),
    handedOver (formatMisc pc fuel list room).2 = [] := by
  intro fuel
  induction fuel with
  | zero => intro list room; rfl
  | succ fuel ih =>
    intro list room
    unfold formatMisc
    dsimp only
    (repeat' split)
    · rfl
    · rfl
    · rfl
    · exact ih _ _

theorem build_queue_blocked {i : Item} {rest : List Item} : ∀ (segs : List Seg) (s : State) (room : Nat),
    s.queue = i :: rest → room < i.bytes.length →
    handedOver (build s room segs).2 = [] ∧ (build s room segs).1.queue = i :: rest := by
  intro segs
  induction segs with
  | nil => intro s room h _; exact ⟨rfl, h⟩
  | cons g segs ih =>
    intro s room h hl
    have key : handedOver (segment s room g).2 = [] ∧ (segment s room g).1.queue = i :: rest := by
      cases g with
      | other x => unfold segment; dsimp only; split <;> exact ⟨rfl, h⟩
      | fill x => unfold segment; dsimp only; split <;> exact ⟨rfl, h⟩
      | misc q => exact ⟨formatMisc_handed .., h⟩
      | datagrams replies =>
        unfold segment
        dsimp only
        unfold prepareDatagrams
        rw [h]
        dsimp only
        rw [if_pos hl]
        exact ⟨rfl, h⟩
    unfold build
    dsimp only
    obtain ⟨h3, h4⟩ := ih (segment s room g).1 (room - (payload (segment s room g).2).length) key.2 (by omega)
    exact ⟨by rw [handedOver_append, key.1, h3]; rfl, h4⟩

theorem run_queue_blocked {i : Item} : ∀ (evs : List Event) (s : State) (rest : List Item), s.queue = i :: rest →
    (∀ room segs, Event.packet room segs ∈ evs → room < i.bytes.length) →
    handedOver (allPieces (run s evs).2) = [] := by
  intro evs
  induction evs with
  | nil => intro s rest _ _; rfl
  | cons ev evs ih =>
    intro s rest h hr
    have key : handedOver (step s ev).2.2 = [] ∧ ∃ rest', (step s ev).1.queue = i :: rest' := by
      cases ev with
      | queueMisc q x => exact ⟨rfl, _, h⟩
      | queueDatagram data =>
        unfold step
        dsimp only
        rw [queueDatagram_spec]
        split
        · exact ⟨rfl, _, by dsimp only; rw [h]; rfl⟩
        · exact ⟨rfl, _, h⟩
      | handshakeDone => exact ⟨rfl, _, by simp only [step, queueHandshakeDone, h]; rfl⟩
      | ready onPath value => cases onPath <;> exact ⟨rfl, _, h⟩
      | purge => exact ⟨rfl, _, h⟩
      | packet room segs =>
        obtain ⟨h1, h2⟩ := build_queue_blocked segs s room h (hr room segs (List.mem_cons_self ..))
        exact ⟨h1, rest, h2⟩
    obtain ⟨k1, rest', k2⟩ := key
    have hi := ih _ rest' k2 (fun room segs hm => hr room segs (List.mem_cons_of_mem _ hm))
    have he : allPieces (run s (ev :: evs)).2 = (step s ev).2.2 ++ allPieces (run (step s ev).1 evs).2 := by
      simp [run, allPieces]
    rw [he, handedOver_append, k1, hi]; rfl

end Picoquic.Dgram
