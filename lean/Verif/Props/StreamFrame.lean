import Verif.Proof.StreamFrame
/-!
# C17: STREAM frames

The space left in the packet is `room`. `formatStreamFrameHeader id offset room` is `none` if not even
the header fits, in which case nothing is written. The frame is then written by the code for queued
data, or by the one for data polled from the application. `IsStreamFrame` is the format of RFC 9000.
-/

namespace Picoquic.Props
open Picoquic Picoquic.Spec Picoquic.StreamFrame

/-- C17, what is written: for every space up to 16384 bytes (packets have at most 1536) and data of any
size that fits behind the header, the bytes written fit in the space and are a STREAM frame with this
identifier, offset, FIN and data, possibly after one byte of padding. If the length field is omitted, the
frame extends exactly to the end of the space. -/
theorem C17_stream_frame_fits (id offset room : Nat) (header data : Bytes) (fin polled : Bool)
    (hid : id < 2 ^ 62) (hoff : offset < 2 ^ 62) (hroom : room ≤ 16384)
    (hh : formatStreamFrameHeader id offset room = some header) (hd : data.length ≤ room - header.length) :
    let written := if polled then polledFrame header (room - header.length) data fin
      else queuedFrame header (room - header.length) data fin
    written.length ≤ room ∧
    ∃ pad frame explicit, written = pad ++ frame ∧ (pad = [] ∨ pad = [0]) ∧
      IsStreamFrame frame id offset fin data explicit ∧ (explicit = false → written.length = room) := by
  obtain ⟨pad, frame, explicit, he, hp, hf, hlen, hend, _⟩ := queuedFrame_spec hh hid hoff hroom data hd fin
  have hw : (if polled then polledFrame header (room - header.length) data fin
      else queuedFrame header (room - header.length) data fin) = pad ++ frame := by
    cases polled with
    | false => exact he
    | true =>
      rw [if_pos rfl, ← he]
      obtain ⟨_, hc⟩ := header_eq hh
      generalize (if offset > 0 then (12 : UInt8) else 8) = t at hc
      generalize (varintBytes id ++ if offset > 0 then varintBytes offset else []) = tl at hc
      subst hc
      exact polled_eq_queued t tl _ data fin
  dsimp only
  rw [hw]
  exact ⟨hlen, pad, frame, explicit, rfl, hp, hf, hend⟩

/-- C17, what is read: the decoder accepts a byte string starting with a STREAM frame type exactly if it
starts with a STREAM frame of RFC 9000 whose data ends below offset 2^62, and gives its identifier,
offset, FIN flag and data, and what follows the frame. Nothing follows a frame without length. -/
theorem C17_stream_frame_decoder (bs : Bytes) (ht : 8 ≤ (bs.headD 0).toNat ∧ (bs.headD 0).toNat < 16)
    (id offset : Nat) (fin : Bool) (data rest : Bytes) :
    decodeStreamFrame bs = some ((id, offset, fin, data), rest) ↔
      offset + data.length < 2 ^ 62 ∧
      ∃ frame explicit, bs = frame ++ rest ∧ IsStreamFrame frame id offset fin data explicit ∧
        (explicit = false → rest = []) := by
  constructor
  · intro h
    unfold decodeStreamFrame at h
    cases hp : parseStreamHeader bs with
    | none => rw [hp] at h; cases h
    | some x =>
      rw [hp] at h
      dsimp only at h
      by_cases hb : x.offset + x.dataLength ≥ 4611686018427387904
      · rw [if_pos hb] at h; cases h
      · rw [if_neg hb] at h
        obtain ⟨frame, d, r, e, hbs, hf, hr, hl⟩ := frame_of_parse ht hp
        obtain ⟨c, hc1, hc2, hc3⟩ := parse_of_frame hf r hr
        rw [hbs, hc1] at hp
        have hx : x.consumed = c := by
          have := Option.some.inj hp
          rw [← this]
        simp only [Option.some.injEq, Prod.mk.injEq] at h
        rw [hx, ← hl] at h
        obtain ⟨⟨rfl, rfl, rfl, h4⟩, h5⟩ := h
        have e1 : List.drop c bs = d ++ r := by
          rw [hbs, List.drop_append_of_le_length (by omega), hc3]
        have e2 : data = d := by rw [← h4, e1]; simp
        have e3 : rest = r := by
          rw [← h5, hbs, hc2]; simp
        subst e2 e3
        exact ⟨by simp only [ge_iff_le] at hb; omega, frame, e, hbs, hf, hr⟩
  · rintro ⟨hb, frame, e, rfl, hf, hr⟩
    obtain ⟨c, hc1, hc2, hc3⟩ := parse_of_frame hf rest hr
    unfold decodeStreamFrame
    rw [hc1]
    dsimp only
    rw [if_neg (by omega)]
    rw [List.drop_append_of_le_length (by omega), hc3, hc2]
    simp

/-- C17, round trip: the receiver skips the padding byte, if any, and gets back the identifier, the
offset, the FIN flag and the data; what was put behind the frame in the packet is left. -/
theorem C17_stream_frame_roundtrip (id offset room : Nat) (header data rest : Bytes) (fin polled : Bool)
    (hid : id < 2 ^ 62) (hoff : offset + data.length < 2 ^ 62) (hroom : room ≤ 16384)
    (hh : formatStreamFrameHeader id offset room = some header) (hd : data.length ≤ room - header.length) :
    let written := if polled then polledFrame header (room - header.length) data fin
      else queuedFrame header (room - header.length) data fin
    written.length + rest.length ≤ room →
    ∃ pad frame, written = pad ++ frame ∧ (pad = [] ∨ pad = [0]) ∧
      decodeStreamFrame (frame ++ rest) = some ((id, offset, fin, data), rest) := by
  intro written hfit
  obtain ⟨h1, pad, frame, explicit, h2, h3, h4, h5⟩ :=
    C17_stream_frame_fits id offset room header data fin polled hid (by omega) hroom hh hd
  refine ⟨pad, frame, h2, h3, ?_⟩
  have hr : explicit = false → rest = [] := by
    intro he
    have := h5 he
    apply List.eq_nil_of_length_eq_zero
    have : written.length = room := this
    omega
  have ht : 8 ≤ ((frame ++ rest).headD 0).toNat ∧ ((frame ++ rest).headD 0).toNat < 16 := by
    obtain ⟨t, wo, i, o, l, rfl, ht, _⟩ := h4
    simp only [List.cons_append, List.headD_cons]
    rw [ht]
    (repeat' split) <;> omega
  exact (C17_stream_frame_decoder _ ht id offset fin data rest).2 ⟨hoff, frame, explicit, rfl, h4, hr⟩

/-- Seven bytes of data in 20, 11, 10 and 9 bytes. -/
example :
    ((formatStreamFrameHeader 4 1000 20).map fun h => queuedFrame h (20 - h.length) [1, 2, 3, 4, 5, 6, 7] true) =
      some [15, 4, 0x43, 0xE8, 7, 1, 2, 3, 4, 5, 6, 7] ∧
    ((formatStreamFrameHeader 4 1000 12).map fun h => queuedFrame h (12 - h.length) [1, 2, 3, 4, 5, 6, 7] true) =
      some [0, 13, 4, 0x43, 0xE8, 1, 2, 3, 4, 5, 6, 7] ∧
    ((formatStreamFrameHeader 4 1000 11).map fun h => polledFrame h (11 - h.length) [1, 2, 3, 4, 5, 6, 7] true) =
      some [13, 4, 0x43, 0xE8, 1, 2, 3, 4, 5, 6, 7] ∧
    formatStreamFrameHeader 4 1000 3 = none ∧
    decodeStreamFrame [15, 4, 0x43, 0xE8, 7, 1, 2, 3, 4, 5, 6, 7, 0, 0] =
      some ((4, 1000, true, [1, 2, 3, 4, 5, 6, 7]), [0, 0]) := by decide +kernel

end Picoquic.Props
