import Verif.Proof.Frames
import Verif.Spec.FrameProcessing
import Verif.Proof.AckFormat
/-! Proofs about the formatters of frames. -/

namespace Picoquic.Frames
open Picoquic Picoquic.Spec

/-- The encoder writes one sequence of bytes with these fields, if there is room for it. -/
def Writes (e : Enc) (fields : List Field) : Prop :=
  ∃ w, Encodes fields w ∧ ∀ room, e room = if w.length ≤ room then some w else none

theorem encodes_append {f g : List Field} {a b : Bytes} (ha : Encodes f a) (hb : Encodes g b) :
    Encodes (f ++ g) (a ++ b) := by
  induction f generalizing a with
  | nil =>
    have : a = [] := ha
    subst this
    exact hb
  | cons x f ih =>
    cases x with
    | raw r =>
      obtain ⟨t, rfl, h⟩ := ha
      exact ⟨t ++ b, by simp, ih h⟩
    | fixed k n =>
      obtain ⟨p, t, rfl, h1, h2, h⟩ := ha
      exact ⟨p, t ++ b, by simp, h1, h2, ih h⟩
    | int n =>
      obtain ⟨p, t, rfl, h1, h⟩ := ha
      exact ⟨p, t ++ b, by simp, h1, ih h⟩

theorem writes_seq {e e' : Enc} {f g : List Field} (h : Writes e f) (h' : Writes e' g) : Writes (e.seq e') (f ++ g) := by
  obtain ⟨a, ha, hea⟩ := h
  obtain ⟨b, hb, heb⟩ := h'
  refine ⟨a ++ b, encodes_append ha hb, fun room => ?_⟩
  unfold Enc.seq
  rw [hea]
  by_cases h1 : a.length ≤ room
  · rw [if_pos h1]
    dsimp only
    rw [heb]
    by_cases h2 : b.length ≤ room - a.length
    · rw [if_pos h2, if_pos (by rw [List.length_append]; omega)]
    · rw [if_neg h2, if_neg (by rw [List.length_append]; omega)]
  · rw [if_neg h1, if_neg (by rw [List.length_append]; omega)]

theorem writes_byte (k : Nat) : Writes (framesUint8Encode k) [.raw [u8 k]] := by
  refine ⟨[u8 k], ⟨[], rfl, rfl⟩, fun room => ?_⟩
  unfold framesUint8Encode
  by_cases h : 1 ≤ room
  · rw [if_neg (by omega), if_pos (by simpa using h)]
  · rw [if_pos (by omega), if_neg (by simpa using h)]

theorem varintBytes_length (n : Nat) : (varintBytes n).length = encodeVarintLength n := by
  have h := framesVarintEncode_eq n (encodeVarintLength n)
  rw [if_pos (Nat.le_refl _)] at h
  have h8 := framesVarintEncode_eq n
  unfold varintBytes encodeVarintLength
  (repeat' split) <;> simp

theorem writes_int {n : Nat} (h : n < 2 ^ 62) : Writes (framesVarintEncode n) [.int n] := by
  refine ⟨varintBytes n, ⟨varintBytes n, [], by simp, Ack.varintBytes_varint h, rfl⟩, fun room => ?_⟩
  rw [framesVarintEncode_eq, varintBytes_length]

theorem writes_lengthData {d : Bytes} (h : d.length < 2 ^ 62) :
    Writes (framesLengthDataEncode d) [.int d.length, .raw d] := by
  refine ⟨varintBytes d.length ++ d, ⟨_, d, rfl, Ack.varintBytes_varint h, [], by simp, rfl⟩, fun room => ?_⟩
  rw [framesLengthDataEncode_eq, List.length_append, varintBytes_length]

theorem writes_cid {c : Bytes} (h : c.length ≤ 20) : Writes (framesCidEncode c) [.fixed 1 c.length, .raw c] := by
  have hl : encodeVarintLength c.length = 1 := by
    unfold encodeVarintLength
    rw [if_pos (by omega), if_pos (by omega)]
  have hv : varintBytes c.length = [u8 c.length] := by
    unfold varintBytes
    rw [if_pos (by omega), if_pos (by omega)]
  refine ⟨[u8 c.length] ++ c, ⟨_, c, rfl, rfl, ?_, [], by simp, rfl⟩, fun room => ?_⟩
  · have : (u8 c.length).toNat = c.length := by
      show (UInt8.ofNat c.length).toNat = _
      simp; omega
    simp [bigEndian, this]
  · unfold framesCidEncode
    rw [framesLengthDataEncode_eq, hl, hv]
    simp [Nat.add_comm]

theorem writes_raw {d : Bytes} {e : Enc} (h : ∀ room, e room = if d.length ≤ room then some d else none) :
    Writes e [.raw d] := ⟨d, ⟨[], by simp, rfl⟩, h⟩

theorem writes_64 {n : Nat} (h : n < 2 ^ 64) : Writes (framesUint64Encode n) [.fixed 8 n] := by
  refine ⟨picoformat64 n, ⟨_, [], by simp, rfl, bigEndian_format64 h, rfl⟩, fun room => ?_⟩
  unfold framesUint64Encode
  by_cases hr : 8 ≤ room
  · rw [if_neg (by omega), if_pos (show (picoformat64 n).length ≤ room from hr)]
    rfl
  · rw [if_pos (by omega), if_neg (show ¬ (picoformat64 n).length ≤ room from hr)]

/-! ## All frames -/

theorem writes_layout {f : Frame} {e : Enc} (hf : formatOf f = some e) (hw : Writable f) : Writes e (layout f) := by
  obtain ⟨hr, hs, hx⟩ := hw
  cases f with
  | resetStream id error size =>
    cases hf
    simp [layout, Fits] at hr
    exact writes_seq (writes_byte 4) (writes_seq (writes_int hr.1) (writes_seq (writes_int hr.2.1) (writes_int hr.2.2)))
  | stopSending id error =>
    cases hf
    simp [layout, Fits] at hr
    exact writes_seq (writes_byte 5) (writes_seq (writes_int hr.1) (writes_int hr.2))
  | newToken token =>
    cases hf
    simp [layout, Fits] at hr
    exact writes_seq (writes_byte 7) (writes_lengthData hr)
  | maxData limit =>
    cases hf
    simp [layout, Fits] at hr
    exact writes_seq (writes_byte 0x10) (writes_int hr)
  | maxStreamData id limit =>
    cases hf
    simp [layout, Fits] at hr
    exact writes_seq (writes_byte 0x11) (writes_seq (writes_int hr.1) (writes_int hr.2))
  | maxStreams bidir limit =>
    cases hf
    simp [layout, Fits] at hr
    cases bidir
    · exact writes_seq (writes_byte 0x13) (writes_int hr)
    · exact writes_seq (writes_byte 0x12) (writes_int hr)
  | dataBlocked limit =>
    cases hf
    simp [layout, Fits] at hr
    exact writes_seq (writes_byte 0x14) (writes_int hr)
  | streamDataBlocked id limit =>
    cases hf
    simp [layout, Fits] at hr
    exact writes_seq (writes_byte 0x15) (writes_seq (writes_int hr.1) (writes_int hr.2))
  | streamsBlocked bidir limit =>
    cases hf
    simp [layout, Fits] at hr
    cases bidir
    · exact writes_seq (writes_byte 0x17) (writes_int hr)
    · exact writes_seq (writes_byte 0x16) (writes_int hr)
  | newConnectionId path seq retire cid token =>
    cases hf
    have hs : token.length = 16 := hs
    have hc : cid.length ≤ 20 := hx
    have htok : Writes (fun room => if 16 > room then none else some token) [.raw token] := by
      refine writes_raw fun room => ?_
      rw [hs]
      split <;> split <;> first | rfl | omega
    cases path with
    | none =>
      simp [layout, Fits] at hr
      obtain ⟨w, h1, h2⟩ := writes_int (n := 0x18) (by decide)
      have hbyte : Writes (framesVarintEncode 0x18) [.raw [0x18]] := by
        refine ⟨[0x18], ⟨[], rfl, rfl⟩, fun room => ?_⟩
        rw [framesVarintEncode_eq]
        rfl
      exact writes_seq hbyte (writes_seq (writes_int hr.1) (writes_seq (writes_int hr.2.1)
        (writes_seq (writes_cid hc) htok)))
    | some p =>
      simp [layout, Fits] at hr
      exact writes_seq (writes_int (by decide)) (writes_seq (writes_int hr.1) (writes_seq (writes_int hr.2.1)
        (writes_seq (writes_int hr.2.2.1) (writes_seq (writes_cid hc) htok))))
  | retireConnectionId path seq =>
    cases hf
    cases path with
    | none =>
      simp [layout, Fits] at hr
      have hbyte : Writes (framesVarintEncode 0x19) [.raw [0x19]] := by
        refine ⟨[0x19], ⟨[], rfl, rfl⟩, fun room => ?_⟩
        rw [framesVarintEncode_eq]
        rfl
      exact writes_seq hbyte (writes_int hr)
    | some p =>
      simp [layout, Fits] at hr
      exact writes_seq (writes_int (by decide)) (writes_seq (writes_int hr.1) (writes_int hr.2))
  | pathChallenge data =>
    cases hf
    simp [layout, Fits] at hr
    exact writes_seq (writes_byte 0x1a) (writes_64 hr)
  | pathResponse data =>
    cases hf
    simp [layout, Fits] at hr
    exact writes_seq (writes_byte 0x1b) (writes_64 hr)
  | connectionClose error type reason =>
    cases hf
    simp [layout, Fits] at hr
    exact writes_seq (writes_byte 0x1c) (writes_seq (writes_int hr.1) (writes_seq (writes_int hr.2.1)
      (writes_lengthData hr.2.2)))
  | applicationClose error reason =>
    cases reason with
    | cons => cases hf
    | nil =>
      cases hf
      simp [layout, Fits] at hr
      refine writes_seq (writes_byte 0x1d) (writes_seq (writes_int hr) (g := [.int 0, .raw []]) ?_)
      refine ⟨[0], ⟨[0], [], rfl, ⟨0, by decide, rfl, by decide, by decide⟩, [], rfl, rfl⟩, fun room => ?_⟩
      unfold framesUint8Encode
      by_cases h : 1 ≤ room
      · rw [if_neg (by omega), if_pos (by simpa using h)]; rfl
      · rw [if_pos (by omega), if_neg (by simpa using h)]
  | datagram data explicit =>
    cases explicit with
    | false => cases hf
    | true =>
      cases hf
      simp [layout, Fits] at hr
      exact writes_seq (writes_byte 0x31) (writes_seq (writes_int hr) (writes_raw fun room => rfl))
  | ackFrequency seq packets delay reordering =>
    cases hf
    simp [layout, Fits] at hr
    exact writes_seq (writes_int (by decide)) (writes_seq (writes_int hr.1) (writes_seq (writes_int hr.2.1)
      (writes_seq (writes_int hr.2.2.1) (writes_int hr.2.2.2))))
  | immediateAck =>
    cases hf
    exact writes_int (by decide)
  | timeStamp time =>
    cases hf
    simp [layout, Fits] at hr
    exact writes_seq (writes_int (by decide)) (writes_int hr)
  | pathAbandon path reason =>
    cases hf
    simp [layout, Fits] at hr
    exact writes_seq (writes_int (by decide)) (writes_seq (writes_int hr.1) (writes_int hr.2))
  | pathStatus available path seq =>
    cases hf
    simp [layout, Fits] at hr
    exact writes_seq (writes_int (by cases available <;> decide)) (writes_seq (writes_int hr.2.1) (writes_int hr.2.2))
  | maxPathId limit =>
    cases hf
    simp [layout, Fits] at hr
    exact writes_seq (writes_int (by decide)) (writes_int hr)
  | pathsBlocked limit =>
    cases hf
    simp [layout, Fits] at hr
    exact writes_seq (writes_int (by decide)) (writes_int hr)
  | pathCidBlocked path seq =>
    cases hf
    simp [layout, Fits] at hr
    exact writes_seq (writes_int (by decide)) (writes_seq (writes_int hr.1) (writes_int hr.2))
  | bdp lifetime capacity minRtt ip =>
    cases hf
    simp [layout, Fits] at hr
    unfold formatBdp
    rw [if_neg hx]
    exact writes_seq (writes_int (by decide)) (writes_seq (writes_int hr.1) (writes_seq (writes_int hr.2.1)
      (writes_seq (writes_int hr.2.2.1) (writes_lengthData hr.2.2.2))))
  | observedAddress v6 seq ip port =>
    cases hf
    simp [layout, Fits] at hr
    refine writes_seq (writes_int (by cases v6 <;> decide)) (writes_seq (writes_int hr.2.1) ?_)
    refine ⟨ip ++ picoformat16 port, ⟨_, rfl, _, [], by simp, rfl, bigEndian_format16 hr.2.2, rfl⟩, fun room => ?_⟩
    have hl : (ip ++ picoformat16 port).length = ip.length + 2 := by simp [picoformat16]
    rw [hl]
    unfold framesUint16Encode
    dsimp only
    by_cases h1 : ip.length < room
    · rw [if_pos h1]
      by_cases h2 : 2 > room - ip.length
      · rw [if_pos h2, if_neg (by omega)]
      · rw [if_neg h2, if_pos (by omega)]
        rfl
    · rw [if_neg h1, if_neg (by omega)]
  | _ => cases hf

theorem writes_frame {f : Frame} {e : Enc} (hf : formatOf f = some e) (hw : Writable f) :
    ∃ w, IsFrame w f ∧ ∀ room, e room = if w.length ≤ room then some w else none := by
  obtain ⟨w, h1, h2⟩ := writes_layout hf hw
  refine ⟨w, ?_, h2⟩
  cases f with
  | ack | stream => cases hf
  | _ => exact ⟨h1, hw.2.1⟩

/-! ## CRYPTO -/

theorem formatCrypto_spec {offset room : Nat} {queued w : Bytes} {n : Nat} (ho : offset < 2 ^ 62)
    (hq : queued.length < 2 ^ 62) (h : formatCrypto offset queued room = (w, n)) :
    n ≤ queued.length ∧ w.length ≤ room ∧ (w = [] → n = 0) ∧
      (w ≠ [] → IsFrame w (.crypto offset (queued.take n))) ∧ (queued ≠ [] → 18 ≤ room → 0 < n) := by
  unfold formatCrypto at h
  by_cases hqe : queued = []
  · rw [if_pos hqe] at h
    cases h
    simp [hqe]
  rw [if_neg hqe] at h
  obtain ⟨hw, he, hh⟩ := writes_seq (writes_byte 6) (writes_int ho)
  have hlen : hw.length ≤ 9 := by
    obtain ⟨_, rfl, p, _, rfl, ⟨k, hk⟩, rfl⟩ := he
    have := hk.2.1
    have hk3 := hk.1
    simp [this]
    have : k = 0 ∨ k = 1 ∨ k = 2 ∨ k = 3 := by omega
    rcases this with rfl | rfl | rfl | rfl <;> decide
  rw [hh] at h
  have hvl : ∀ m, encodeVarintLength m ≤ 8 := by
    intro m; unfold encodeVarintLength; (repeat' split) <;> omega
  have hvp : ∀ m, 0 < encodeVarintLength m := by
    intro m; unfold encodeVarintLength; (repeat' split) <;> omega
  by_cases hr : hw.length ≤ room
  · rw [if_pos hr] at h
    dsimp only at h
    generalize hsp : room - hw.length = space at h
    rw [framesVarintEncode_eq] at h
    generalize hlen1 : min queued.length space = len at h
    have hle : len ≤ queued.length := by omega
    by_cases h1 : encodeVarintLength len ≤ space
    · rw [if_pos h1] at h
      dsimp only at h
      rw [varintBytes_length] at h
      have fin : ∀ m, m ≤ queued.length → m ≤ len → encodeVarintLength m + m ≤ space → (17 < room → 0 < m) →
          (hw ++ (varintBytes m ++ queued.take m), m) = (w, n) →
          n ≤ queued.length ∧ w.length ≤ room ∧ (w = [] → n = 0) ∧
            (w ≠ [] → IsFrame w (.crypto offset (queued.take n))) ∧ (queued ≠ [] → 18 ≤ room → 0 < n) := by
        intro m hm hml hms hpos heq
        obtain ⟨rfl, rfl⟩ := Prod.mk.inj heq
        refine ⟨hm, ?_, ?_, ?_, fun _ hr => hpos (by omega)⟩
        · rw [List.length_append, List.length_append, varintBytes_length, List.length_take]
          omega
        · intro he
          have := congrArg List.length he
          rw [List.length_append, List.length_append, varintBytes_length] at this
          have := hvp m
          simp only [List.length_nil] at *
          omega
        · intro _
          refine ⟨?_, trivial⟩
          have hlt : (queued.take m).length = m := by rw [List.length_take]; omega
          have h3 := encodes_append he (g := [.int m, .raw (queued.take m)]) (b := varintBytes m ++ queued.take m)
            ⟨_, _, rfl, Ack.varintBytes_varint (by omega), [], by simp, rfl⟩
          show Encodes [.raw [0x06], .int offset, .int (queued.take m).length, .raw (queued.take m)] _
          rw [hlt]
          exact h3
      by_cases h2 : encodeVarintLength len + len > space
      · rw [if_pos h2] at h
        have hl8 := hvl len
        have hmono : encodeVarintLength (space - encodeVarintLength len) ≤ encodeVarintLength len := by
          have : space - encodeVarintLength len ≤ len := by omega
          generalize space - encodeVarintLength len = m at this
          unfold encodeVarintLength
          (repeat' split) <;> omega
        rw [if_pos h2, framesVarintEncode_eq, if_pos (by omega)] at h
        exact fin _ (by omega) (by omega) (by omega) (by omega) h
      · rw [if_neg h2, if_neg h2] at h
        have : 0 < queued.length := List.length_pos_iff.2 hqe
        exact fin _ (by omega) (by omega) (by omega) (by omega) h
    · rw [if_neg h1] at h
      cases h
      have := hvl len
      refine ⟨by omega, by simp, fun _ => rfl, by simp, fun _ _ => by omega⟩
  · rw [if_neg hr] at h
    cases h
    refine ⟨by omega, by simp, fun _ => rfl, by simp, fun _ _ => by omega⟩

end Picoquic.Frames
