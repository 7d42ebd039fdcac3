import Verif.Model.Sack
import Verif.Model.IntFormat
/-!
# Writing ACK frames

Model of `picoquic_format_ack_frame_in_context` (frames.c 3815-3956) and of
`picoquic_sack_select_ack_ranges` (sacks.c 301-321). The room given is `bytes_max - bytes`; the result
is what was written. The time stamp frame that may precede the ACK frame is not modelled.
-/

namespace Picoquic.Ack
open Picoquic Picoquic.Sack

/-- `picoquic_frame_type_ack`, `picoquic_frame_type_ack_ecn`, `picoquic_frame_type_path_ack`,
`picoquic_frame_type_path_ack_ecn`, picoquic_internal.h 126-168. -/
def TYPE_ACK : Nat := 2
/-- See `TYPE_ACK`. -/
def TYPE_ACK_ECN : Nat := 3
/-- See `TYPE_ACK`. -/
def TYPE_PATH_ACK : Nat := 0x15228c00
/-- See `TYPE_ACK`. -/
def TYPE_PATH_ACK_ECN : Nat := 0x15228c01

/-- The counters and number of times sent, ordinary or opportunistic. -/
def SackList.rc (s : SackList) (opp : Bool) : Counts := if opp then s.rc1 else s.rc0
/-- `picoquic_sack_item_nb_times_sent`, sacks.c 471-474. -/
def timesSent (i : Item) (opp : Bool) : Nat := if opp then i.sent1 else i.sent0

/-- The loop of `picoquic_sack_select_ack_ranges`, sacks.c 310-320, at index `i` with `n` iterations
left. Results: `*nb_sent_max`, `*nb_sent_max_skip`. -/
def selectLoop (rc : Counts) (firstCount : Nat) (maxRanges : Int) : Nat → Nat → Int → Nat × Nat
  | 0, _, _ => (MAX_ACK_RANGE_REPEAT, 0)
  | n + 1, i, cumul =>
    let cumul := cumul + rc i
    let cumul := if i = firstCount then cumul - 1 else cumul
    if cumul ≥ maxRanges then (i, (cumul - maxRanges).toNat)
    else selectLoop rc firstCount maxRanges n (i + 1) cumul

/-- `picoquic_sack_select_ack_ranges`, sacks.c 301-321, for the item `first`. -/
def selectAckRanges (rc : Counts) (firstCount : Nat) (maxRanges : Int) : Nat × Nat :=
  selectLoop rc firstCount maxRanges MAX_ACK_RANGE_REPEAT 0 0

/-- State of the loop over ranges. -/
structure Blocks where
  list : SackList
  /-- Bytes written by the loop. -/
  out : Bytes
  numBlock : Nat
  lowest : Nat
  moreData : Bool

/-- The loop over the ranges below the first one, frames.c 3893-3921. `k` is the number of items below
the current position, `next_sack` is the item at position `k - 1`. The subtraction in `ack_gap` does not
wrap because items are sorted and separated. -/
def blockLoop (opp : Bool) (maxSent : Nat) : (k skip room : Nat) → Blocks → Blocks
  | 0, _, _, b => b
  | k + 1, skip, room, b =>
    if b.numBlock < 32 then
      match b.list.items[k]? with
      | none => b
      | some i =>
        if timesSent i opp ≤ maxSent then
          if timesSent i opp = maxSent ∧ skip > 0 then blockLoop opp maxSent k (skip - 1) room b
          else
            match (framesVarintEncode (b.lowest - i.stop - 2)).seq (framesVarintEncode (i.stop - i.start)) room with
            | none => { b with moreData := true }
            | some w =>
              blockLoop opp maxSent k skip (room - w.length)
                { list := recordSent b.list k opp, out := b.out ++ w, numBlock := b.numBlock + 1
                  lowest := i.start, moreData := b.moreData }
        else blockLoop opp maxSent k skip room b
    else b

/-- The part of the acknowledgement context the formatter reads. `pathId` is `multipath_sequence`,
`none` for `UINT64_MAX`; `ecn` is `sending_ecn_ack`; `delay` is the encoded acknowledgement delay,
frames.c 3840-3843; `needed` is `act[is_opportunistic].ack_needed`. -/
structure Args where
  pathId : Option Nat
  ecn : Bool
  ect0 : Nat
  ect1 : Nat
  ce : Nat
  delay : Nat
  needed : Bool
  opp : Bool
deriving DecidableEq, Repr

/-- `ack_type_byte`, frames.c 3826-3828. -/
def ackType (a : Args) : Nat :=
  match a.pathId with
  | none => if a.ecn then TYPE_ACK_ECN else TYPE_ACK
  | some _ => if a.ecn then TYPE_PATH_ACK_ECN else TYPE_PATH_ACK

/-- The header up to the acknowledgement delay, frames.c 3852-3856. -/
def headerEnc (a : Args) (largest : Nat) : Enc :=
  (framesVarintEncode (ackType a)).seq
    (match a.pathId with
    | none => (framesVarintEncode largest).seq (framesVarintEncode a.delay)
    | some p => (framesVarintEncode p).seq ((framesVarintEncode largest).seq (framesVarintEncode a.delay)))

/-- The test that an ACK is not needed, frames.c 3831-3836. -/
def notNeeded (s : SackList) (a : Args) : Bool :=
  match s.items.getLast? with
  | none => true
  | some last => !a.needed && s.items.length == 1 && decide (timesSent last a.opp ≥ MAX_ACK_RANGE_REPEAT)

/-- The ECN counts, frames.c 3926-3931. -/
def ecnEnc (a : Args) : Enc :=
  (framesVarintEncode a.ect0).seq ((framesVarintEncode a.ect1).seq (framesVarintEncode a.ce))

/-- Replaces the first byte, `*after_stamp = picoquic_frame_type_ack`, frames.c 3934. -/
def setFirst (bs : Bytes) (b : UInt8) : Bytes :=
  match bs with
  | [] => []
  | _ :: t => b :: t

/-- `picoquic_format_ack_frame_in_context`, frames.c 3815-3956: the bytes written, the list after
recording the ranges sent, and `*more_data`. One byte is reserved for the number of blocks even if there
is no room for it; then the next varint does not fit and nothing is written (frames.c 3857-3865). The
memory of the highest ACK sent and the resetting of `ack_needed` are not modelled. -/
def formatAck (s : SackList) (a : Args) (room : Nat) : Bytes × SackList × Bool :=
  if notNeeded s a then ([], s, false)
  else
    match s.items.getLast? with
    | none => ([], s, false)
    | some last =>
      match headerEnc a last.stop room with
      | none => ([], s, true)
      | some h =>
        if h.length < room then
          match framesVarintEncode (last.stop - last.start) (room - h.length - 1) with
          | none => ([], s, true)
          | some r =>
            let k := s.items.length - 1
            let s1 := recordSent s k a.opp
            let sel := selectAckRanges (SackList.rc s1 a.opp) (timesSent last a.opp + 1) 32
            let b := blockLoop a.opp sel.1 k sel.2 (room - h.length - 1 - r.length)
              { list := s1, out := [], numBlock := 0, lowest := last.start, moreData := false }
            let frame := h ++ u8 b.numBlock :: (r ++ b.out)
            if a.ecn then
              match ecnEnc a (room - frame.length) with
              | none => (setFirst frame (u8 TYPE_ACK), b.list, true)
              | some e => (frame ++ e, b.list, b.moreData)
            else (frame, b.list, b.moreData)
        else ([], s, true)

end Picoquic.Ack
