import Verif.Model.DataRepeat
/-!
# Frames of lost packets, and frames of acknowledged packets

Model of `picoquic_check_frame_needs_repeat` (`picoquic/frames.c` 3156-3414 and the functions it calls), of
`picoquic_copy_before_retransmit` (`picoquic/loss_recovery.c` 677-784) for all the frames, and of
`picoquic_process_ack_of_frames` (frames.c 3450-3591 and the functions it calls).

Packets marked as MTU probe, ack trap, multipath probe or preemptively repeated are not modelled.
-/

namespace Picoquic.Lost
open Picoquic Picoquic.Sack Picoquic.StreamFrame Picoquic.Spec Picoquic.Frames Picoquic.Repeat

/-- What the code reads in a stream (picoquic_internal.h 772-852), under the names of the code. -/
structure CStream where
  sack : SackList := SackList.init
  finRequested : Bool := false
  finSent : Bool := false
  resetRequested : Bool := false
  resetSent : Bool := false
  resetAcked : Bool := false
  maxdataRemote : Nat := 0
  blockedSent : Bool := false
  maxdataLocal : Nat := 0
  maxdataLocalAcked : Nat := 0
  finReceived : Bool := false
  resetReceived : Bool := false
  stopSendingSent : Bool := false

/-- What the code reads in a path: `status_sequence_sent_last`, `path_is_demoted`,
`sending_path_cid_blocked_frame`. -/
structure CPath where
  statusSent : Nat := 0
  demoted : Bool := false
  cidBlockedSent : Bool := false

/-- What the code reads in a connection, under the names of the code. `localCids p n` is `is_acked` of the local CID
number `n` of the list of path `p`, `stash p` are the numbers of the remote CIDs of path `p` with `retire_acked`,
`crypto e` is the `sack_list` of the crypto stream. -/
structure State where
  client : Bool
  streams : Nat → Option CStream
  maxdataLocal : Nat
  maxdataLocalAcked : Nat
  maxBidirLocal : Nat
  maxUnidirLocal : Nat
  bidirRankAcked : Nat
  unidirRankAcked : Nat
  maxdataRemote : Nat
  sentBlocked : Bool
  maxBidirRemote : Nat
  maxUnidirRemote : Nat
  bidirBlockedSent : Bool
  unidirBlockedSent : Bool
  handshakeDoneAcked : Bool
  newTokenAcked : Bool
  ackFrequencySequence : Nat
  localCids : Nat → Nat → Option Bool
  stash : Nat → List (Nat × Bool)
  paths : Nat → Option CPath
  maxPathIdLocal : Nat
  maxPathIdAcked : Nat
  maxPathIdRemote : Nat
  pathsBlockedAcked : Nat
  observedAddrAcked : Bool
  crypto : Epoch → SackList

/-- A change of one entry of a table. -/
def update {α : Type} (f : Nat → Option α) (i : Nat) (g : α → α) : Nat → Option α := fun j =>
  if j = i then (f j).map g else f j

/-- `STREAM_ID_FROM_RANK`, picoquic_internal.h 854, in 64 bits. -/
def streamIdFromRank (rank : Nat) (client bidir : Bool) : Nat :=
  ((rank + 2 ^ 64 - 1) * 4) % 2 ^ 64 + (if bidir then 0 else 2) + (if client then 0 else 1)

/-- `picoquic_path_cid_next_sequence_number`, frames.c 5919-5935. -/
def nextSequence (l : List (Nat × Bool)) : Nat := l.foldl (fun n x => if n ≤ x.1 then x.1 + 1 else n) 0

/-! ## Lost frames

The functions return `none` for an error, or the value of `no_need_to_repeat`. -/

/-- `picoquic_check_reset_stream_needs_repeat`, frames.c 353-377. The stream identifier is read at the start of the
frame, where the type is. -/
def resetNoNeed (s : State) (bs : Bytes) : Option Bool :=
  match framesVarintDecode bs with
  | none => none
  | some (id, r) =>
    match skip2 r with
    | none => none
    | some _ => some (match s.streams id with | none => true | some t => t.resetAcked)

/-- `picoquic_parse_new_connection_id_frame`, frames.c 427-450, on the whole frame. -/
def parseNewCidFrame (isMp : Bool) (bs : Bytes) : Parse := (framesVarintSkip bs).bind (parseNewCid isMp)

/-- `picoquic_check_new_cid_needs_repeat`, frames.c 560-600. -/
def newCidNoNeed (s : State) (isMp : Bool) (bs : Bytes) : Option Bool :=
  match parseNewCidFrame isMp bs with
  | some (.newConnectionId path seq _ _ _, _) => some ((s.localCids (path.getD 0) seq).getD true)
  | _ => none

/-- The first CID of the stash with this number. -/
def findCid (l : List (Nat × Bool)) (seq : Nat) : Option Bool := (l.find? fun x => x.1 = seq).map (·.2)

/-- `picoquic_check_retire_connection_id_needs_repeat`, frames.c 723-755. -/
def retireCidNoNeed (s : State) (isMp : Bool) (bs : Bytes) : Option Bool :=
  match framesVarintSkip bs with
  | none => none
  | some r =>
    match parseRetireCid isMp r with
    | some (.retireConnectionId path seq, _) => some ((findCid (s.stash (path.getD 0)) seq).getD true)
    | _ => none

/-- `picoquic_check_crypto_frame_needs_repeat`, frames.c 2368-2396. -/
def cryptoNoNeed (s : State) (e : Epoch) (t : Bytes) : Option Bool :=
  match parseCrypto t with
  | some (.crypto offset data, _) => some (checkSackList (s.crypto e) offset (endOf offset data.length false))
  | _ => none

/-- `picoquic_check_max_streams_frame_needs_repeat`, frames.c 4506-4541. -/
def maxStreamsNoNeed (s : State) (bidir : Bool) (t : Bytes) : Bool :=
  match framesVarintDecode t with
  | none => true
  | some (rank, _) =>
    if bidir then decide (rank ≤ s.bidirRankAcked) || decide (s.maxBidirLocal > streamIdFromRank rank s.client true)
    else decide (rank ≤ s.unidirRankAcked) || decide (s.maxUnidirLocal > streamIdFromRank rank s.client false)

/-- The case of MAX_STREAM_DATA, frames.c 3210-3229. -/
def maxStreamDataNoNeed (s : State) (t : Bytes) : Bool :=
  match framesVarintDecode t with
  | none => true
  | some (id, r) =>
    match framesVarintDecode r with
    | none => true
    | some (v, _) =>
      match s.streams id with
      | none => true
      | some x => x.finReceived || x.resetReceived || x.stopSendingSent ||
          decide (v < x.maxdataLocal) || decide (v ≤ x.maxdataLocalAcked)

/-- The case of STREAM_DATA_BLOCKED, frames.c 3275-3294. -/
def streamDataBlockedNoNeed (s : State) (t : Bytes) : Bool :=
  match framesVarintDecode t with
  | none => true
  | some (id, r) =>
    match framesVarintDecode r with
    | none => true
    | some (v, _) =>
      match s.streams id with
      | none => true
      | some x => x.finRequested || x.resetRequested || x.finSent || x.resetSent ||
          decide (v < x.maxdataRemote) || !x.blockedSent

/-- The cases of STREAMS_BLOCKED, frames.c 3247-3274. -/
def streamsBlockedNoNeed (s : State) (bidir : Bool) (t : Bytes) : Bool :=
  match framesVarintDecode t with
  | none => true
  | some (rank, _) =>
    if bidir then
      if s.maxBidirRemote > streamIdFromRank rank s.client true then true else !s.bidirBlockedSent
    else
      if s.maxUnidirRemote > streamIdFromRank rank s.client false then true else !s.unidirBlockedSent

/-- `picoquic_check_stop_sending_needs_repeat`, frames.c 955-981. -/
def stopSendingNoNeed (s : State) (t : Bytes) : Bool :=
  match framesVarintDecode t with
  | none => true
  | some (id, r) =>
    match framesVarintDecode r with
    | none => true
    | some _ =>
      match s.streams id with
      | none => true
      | some x => x.finReceived || x.resetReceived

/-- `picoquic_path_available_or_backup_frame_need_repeat`, frames.c 5652-5677. -/
def pathStatusNoNeed (s : State) (t : Bytes) : Bool :=
  match framesVarintDecode t with
  | none => true
  | some (path, r) =>
    match framesVarintDecode r with
    | none => true
    | some (seq, _) =>
      match s.paths path with
      | none => true
      | some p => decide (p.statusSent ≠ seq) || p.demoted

/-- `picoquic_max_path_id_frame_needs_repeat`, frames.c 5748-5768. -/
def maxPathIdNoNeed (s : State) (t : Bytes) : Bool :=
  match framesVarintDecode t with
  | none => true
  | some (v, _) => decide (v ≤ s.maxPathIdLocal) || decide (v ≤ s.maxPathIdAcked)

/-- `picoquic_paths_blocked_frame_needs_repeat`, frames.c 5857-5877. -/
def pathsBlockedNoNeed (s : State) (t : Bytes) : Bool :=
  match framesVarintDecode t with
  | none => true
  | some (v, _) => decide (v ≤ s.maxPathIdRemote) || decide (v ≤ s.pathsBlockedAcked)

/-- `picoquic_path_cid_blocked_frame_needs_repeat`, frames.c 6000-6033. -/
def pathCidBlockedNoNeed (s : State) (t : Bytes) : Bool :=
  match framesVarintDecode t with
  | none => true
  | some (path, r) =>
    match framesVarintDecode r with
    | none => true
    | some (seq, _) =>
      match s.paths path with
      | none => true
      | some p => !p.cidBlockedSent || decide (nextSequence (s.stash path) > seq)

/-- The case of MAX_DATA, frames.c 3200-3209. -/
def maxDataNoNeed (s : State) (t : Bytes) : Bool :=
  match framesVarintDecode t with
  | none => true
  | some (v, _) => decide (v < s.maxdataLocal) || decide (v ≤ s.maxdataLocalAcked)

/-- The case of DATA_BLOCKED, frames.c 3234-3246. -/
def dataBlockedNoNeed (s : State) (t : Bytes) : Bool :=
  match framesVarintDecode t with
  | none => true
  | some (v, _) => if v < s.maxdataRemote then true else !s.sentBlocked

/-- The frames of extensions, frames.c 3339-3409. -/
def extensionNoNeed (s : State) (bs : Bytes) : Option Bool :=
  match framesVarintDecode bs with
  | none => some false
  | some (type, r) =>
    if type = 0xAF then
      match parseAckFrequency r with
      | some (.ackFrequency seq _ _ _, _) => some (decide (seq = s.ackFrequencySequence))
      | _ => none
    else if type = 0x1F then some false
    else if type = 0x15228c00 ∨ type = 0x15228c01 ∨ type = 757 then some true
    else if type = 0x15228c05 then some false
    else if type = 0x15228c07 ∨ type = 0x15228c08 then some (pathStatusNoNeed s r)
    else if type = 0x15228c0c then some (maxPathIdNoNeed s r)
    else if type = 0x15228c0d then some (pathsBlockedNoNeed s r)
    else if type = 0x15228c0e then some (pathCidBlockedNoNeed s r)
    else if type = 0x15228c09 then newCidNoNeed s true bs
    else if type = 0x15228c0a then retireCidNoNeed s true bs
    else some false

/-- The case of STREAM frames, frames.c 3172-3194. -/
def streamNoNeed (s : State) (bs : Bytes) : Option Bool :=
  match parseStreamHeader bs with
  | none => none
  | some h =>
    some (match s.streams h.id with
      | none => true
      | some t => if t.resetSent then true else checkSackList t.sack h.offset (endOf h.offset h.dataLength h.fin))

/-- `picoquic_check_frame_needs_repeat`, frames.c 3156-3414, on a frame which starts with the byte `b`. PATH_CHALLENGE
and PATH_RESPONSE frames are not examined by `copyLost`. -/
def noNeed (s : State) (e : Epoch) (b : UInt8) (t : Bytes) : Option Bool :=
  if isStreamType b then streamNoNeed s (b :: t)
  else
    match b.toNat with
    | 0x10 => some (maxDataNoNeed s t)
    | 0x11 => some (maxStreamDataNoNeed s t)
    | 0x12 => some (maxStreamsNoNeed s true t)
    | 0x13 => some (maxStreamsNoNeed s false t)
    | 0x14 => some (dataBlockedNoNeed s t)
    | 0x15 => some (streamDataBlockedNoNeed s t)
    | 0x16 => some (streamsBlockedNoNeed s true t)
    | 0x17 => some (streamsBlockedNoNeed s false t)
    | 0x1a => some true
    | 0x30 => some true
    | 0x31 => some true
    | 0x1e => some s.handshakeDoneAcked
    | 0x07 => some s.newTokenAcked
    | 0x06 => cryptoNoNeed s e t
    | 0x18 => newCidNoNeed s false (b :: t)
    | 0x19 => retireCidNoNeed s false (b :: t)
    | 0x04 => resetNoNeed s (b :: t)
    | 0x05 => some (stopSendingNoNeed s t)
    | _ => extensionNoNeed s (b :: t)

/-- What becomes of a lost packet: the frames to send again, whether the packet is added to the queue of packets with
stream data to repeat, and whether the end of the packet was reached without error. -/
structure Copied where
  again : List Bytes
  repeatData : Bool
  ok : Bool
deriving DecidableEq, Repr

/-- What one frame adds, loss_recovery.c 718-776; `b` is its first byte. -/
def Copied.add (b : UInt8) (frame : Bytes) (noNeed : Bool) (c : Copied) : Copied :=
  if noNeed then c
  else if isStreamType b then { c with repeatData := true }
  else { c with again := frame :: c.again }

/-- `picoquic_copy_before_retransmit`, loss_recovery.c 720-780. A frame to send again is either queued by
`picoquic_queue_misc_frame` or copied in the new packet. -/
def copyLost (s : State) (e : Epoch) : Nat → Bytes → Copied
  | 0, _ => ⟨[], false, false⟩
  | fuel + 1, bs =>
    match bs with
    | [] => ⟨[], false, true⟩
    | b :: _ =>
      match skipFrame bs with
      | none => ⟨[], false, false⟩
      | some x =>
        if x.ret then
          match (if x.pureAck then some true else noNeed s e b ((bs.take x.consumed).drop 1)) with
          | none => ⟨[], false, false⟩
          | some n => (copyLost s e fuel (bs.drop x.consumed)).add b (bs.take x.consumed) n
        else ⟨[], false, false⟩

/-- The loss of a packet. -/
def lost (s : State) (e : Epoch) (payload : Bytes) : Copied := copyLost s e (payload.length + 1) payload

/-! ## Acknowledged frames -/

/-- `picoquic_process_ack_of_max_data_frame`, frames.c 4251-4253. -/
def ackMaxData (s : State) (v : Nat) : State :=
  if v > s.maxdataLocalAcked then { s with maxdataLocalAcked := v } else s

/-- `picoquic_process_ack_of_max_stream_data_frame`, frames.c 4334-4340. -/
def ackMaxStreamData (s : State) (id v : Nat) : State :=
  { s with streams := update s.streams id fun x =>
      if v > x.maxdataLocalAcked then { x with maxdataLocalAcked := v } else x }

/-- `picoquic_process_ack_of_max_streams_frame`, frames.c 4492-4502. -/
def ackMaxStreams (s : State) (bidir : Bool) (rank : Nat) : State :=
  if bidir then (if rank > s.bidirRankAcked then { s with bidirRankAcked := rank } else s)
  else if rank > s.unidirRankAcked then { s with unidirRankAcked := rank } else s

/-- `picoquic_process_ack_of_reset_stream_frame`, frames.c 342-349; the deletion of a closed stream is another
event. -/
def ackReset (s : State) (id : Nat) : State :=
  { s with streams := update s.streams id fun x => { x with resetAcked := true } }

/-- `picoquic_process_ack_of_new_cid_frame`, frames.c 534-550. -/
def ackNewCid (s : State) (path seq : Nat) : State :=
  { s with localCids := fun p => if p = path then update (s.localCids p) seq fun _ => true else s.localCids p }

/-- The first CID of the stash with this number is marked. -/
def markCid (seq : Nat) : List (Nat × Bool) → List (Nat × Bool)
  | [] => []
  | x :: l => if x.1 = seq then (x.1, true) :: l else x :: markCid seq l

/-- `picoquic_process_ack_of_retire_connection_id_frame`, frames.c 773-784; the removal of the CID is another event. -/
def ackRetireCid (s : State) (path seq : Nat) : State :=
  { s with stash := fun p => if p = path then markCid seq (s.stash p) else s.stash p }

/-- `picoquic_process_ack_of_crypto_frame`, frames.c 2358-2362. -/
def ackCrypto (s : State) (e : Epoch) (offset len : Nat) : State :=
  { s with crypto := fun x =>
      if x = e then (updateSackList (s.crypto x) offset (endOf offset len false) 0).1 else s.crypto x }

/-- `picoquic_process_ack_of_stream_frame`, frames.c 3432-3440; the deletion of a closed stream is another event. -/
def ackStream (s : State) (id offset len : Nat) (fin : Bool) : State :=
  { s with streams := update s.streams id fun x =>
      { x with sack := (updateSackList x.sack offset (endOf offset len fin) 0).1 } }

/-- `picoquic_process_ack_of_max_path_id_frame`, frames.c 5779-5783. -/
def ackMaxPathId (s : State) (v : Nat) : State :=
  if s.maxPathIdAcked < v then { s with maxPathIdAcked := v } else s

/-- `picoquic_process_ack_of_paths_blocked_frame`, frames.c 5889-5893. -/
def ackPathsBlocked (s : State) (v : Nat) : State :=
  if s.pathsBlockedAcked < v then { s with pathsBlockedAcked := v } else s

/-- `picoquic_process_ack_of_path_cid_blocked_frame`, frames.c 6044-6051. -/
def ackPathCidBlocked (s : State) (path : Nat) : State :=
  { s with paths := update s.paths path fun p => { p with cidBlockedSent := false } }

/-- The consumption of `picoquic_process_ack_of_ack_frame` and `picoquic_process_ack_of_path_ack_frame`, frames.c
2456-2499, 2996-3111 and 3117-3154. What happens to the list of the packets to acknowledge is not in this model. -/
def ackOfAck (isEcn hasPath : Bool) (bs : Bytes) : Option Bytes :=
  (framesVarintSkip bs).bind fun r => (parseAck isEcn hasPath r).map (·.2)

/-- The default case, frames.c 3561-3588, and NEW_TOKEN, 3519-3524. -/
def ackSkip (bs : Bytes) : Option Bytes :=
  match skipFrame bs with
  | none => none
  | some x => if x.ret then some (bs.drop x.consumed) else none

/-- Frames with one byte of type, frames.c 3470-3560: the state, and what follows, `none` in case of error. -/
def ackShort (s : State) (e : Epoch) (type : Nat) (bs t : Bytes) : Option (State × Bytes) :=
  if type = 0x02 then (ackOfAck false false bs).map fun r => (s, r)
  else if type = 0x03 then (ackOfAck true false bs).map fun r => (s, r)
  else if type = 0x18 then
    match parseNewCidFrame false bs with
    | some (.newConnectionId path seq _ _ _, r) => some (ackNewCid s (path.getD 0) seq, r)
    | _ => none
  else if type = 0x19 then
    match parseRetireCid false t with
    | some (.retireConnectionId path seq, r) => some (ackRetireCid s (path.getD 0) seq, r)
    | _ => none
  else if type = 0x06 then
    match parseCrypto t with
    | some (.crypto offset data, r) => some (ackCrypto s e offset data.length, r)
    | _ => none
  else if type = 0x10 then (framesVarintDecode t).map fun x => (ackMaxData s x.1, x.2)
  else if type = 0x11 then
    (framesVarintDecode t).bind fun i => (framesVarintDecode i.2).map fun x => (ackMaxStreamData s i.1 x.1, x.2)
  else if type = 0x12 then (framesVarintDecode t).map fun x => (ackMaxStreams s true x.1, x.2)
  else if type = 0x13 then (framesVarintDecode t).map fun x => (ackMaxStreams s false x.1, x.2)
  else if type = 0x04 then
    (framesVarintDecode t).bind fun i => (skip2 i.2).map fun r => (ackReset s i.1, r)
  else if 8 ≤ type ∧ type ≤ 15 then
    (parseStreamHeader bs).map fun h =>
      (ackStream s h.id h.offset h.dataLength h.fin, bs.drop (h.consumed + h.dataLength))
  else (ackSkip bs).map fun r => (s, r)

/-- Frames of the multipath and address discovery extensions, frames.c 3480-3560. The functions for MAX_PATH_ID,
PATHS_BLOCKED, PATH_CID_BLOCKED and OBSERVED_ADDRESS get the address of the type and read there the first field of the
frame. The one for PATH_RETIRE_CONNECTION_ID skips a single byte of the type. -/
def ackExtension (s : State) (type : Nat) (bs t : Bytes) : Option (State × Bytes) :=
  if type = 0x15228c00 then (ackOfAck false true bs).map fun r => (s, r)
  else if type = 0x15228c01 then (ackOfAck true true bs).map fun r => (s, r)
  else if type = 0x15228c09 then
    match parseNewCidFrame true bs with
    | some (.newConnectionId path seq _ _ _, r) => some (ackNewCid s (path.getD 0) seq, r)
    | _ => none
  else if type = 0x15228c0a then
    match parseRetireCid true t with
    | some (.retireConnectionId path seq, r) => some (ackRetireCid s (path.getD 0) seq, r)
    | _ => none
  else if type = 0x15228c0c then (framesVarintDecode bs).map fun x => (ackMaxPathId s x.1, x.2)
  else if type = 0x15228c0d then (framesVarintDecode bs).map fun x => (ackPathsBlocked s x.1, x.2)
  else if type = 0x15228c0e then
    (framesVarintDecode bs).bind fun p => (framesVarintDecode p.2).map fun x => (ackPathCidBlocked s p.1, x.2)
  else if type = 0x9f81a6 ∨ type = 0x9f81a7 then
    (skipObservedAddress type bs).map fun r => ({ s with observedAddrAcked := true }, r)
  else (ackSkip bs).map fun r => (s, r)

/-- One round of the loop of `picoquic_process_ack_of_frames`, frames.c 3464-3590: the state, and what follows, `none`
to leave the loop. -/
def ackOne (s : State) (e : Epoch) (bs : Bytes) : State × Option Bytes :=
  match framesVarintDecode bs with
  | none => (s, none)
  | some (type, r) =>
    if type = 0x1e then ({ s with handshakeDoneAcked := true }, some r)
    else if type = 0x07 then ({ s with newTokenAcked := true }, ackSkip bs)
    else
      match (if type < 64 then ackShort s e type bs (bs.drop 1) else ackExtension s type bs (bs.drop 1)) with
      | none => (s, none)
      | some (s, r) => (s, some r)

/-- `picoquic_process_ack_of_frames`, frames.c 3450-3591. -/
def ackLoop (e : Epoch) : Nat → State → Bytes → State
  | 0, s, _ => s
  | fuel + 1, s, bs =>
    if bs = [] then s
    else
      match ackOne s e bs with
      | (s, none) => s
      | (s, some r) => ackLoop e fuel s r

/-- The acknowledgement of a packet. -/
def acked (s : State) (e : Epoch) (payload : Bytes) : State := ackLoop e (payload.length + 1) s payload

/-! ## Histories -/

/-- What happens on a connection. `sent` is a frame written in a packet, but for those sent again; `acked` is the
acknowledgement of a packet; then what the application does on a stream; the frames received; the changes of the CIDs
and of the paths. -/
inductive Event
  | sent (f : Frame)
  | acked (e : Epoch) (payload : Bytes)
  | opened (id maxdataLocal maxdataRemote : Nat)
  | closed (id : Nat)
  | finRequested (id : Nat)
  | resetRequested (id : Nat)
  | finReceived (id : Nat)
  | resetReceived (id : Nat)
  | maxData (v : Nat)
  | maxStreamData (id v : Nat)
  | maxStreams (bidir : Bool) (rank : Nat)
  | maxPathId (v : Nat)
  | cidCreated (path seq : Nat)
  | cidRetired (path seq : Nat)
  | cidReceived (path seq : Nat)
  | cidRemoved (path seq : Nat)
  | pathCreated (path : Nat)
  | pathDeleted (path : Nat)
  | pathDemoted (path : Nat)

/-- What the functions which write a frame change: MAX_DATA frames.c 4219-4221, MAX_STREAM_DATA 4283-4285, MAX_STREAMS
4391-4420, DATA_BLOCKED 1434, STREAM_DATA_BLOCKED 1456, STREAMS_BLOCKED 1489-1495, RESET_STREAM 239-262, STOP_SENDING
893, ACK_FREQUENCY 5293, path status 5585, PATH_CID_BLOCKED 5954, MAX_PATH_ID sender.c 2563. -/
def sent (s : State) : Frame → State
  | .maxData v => { s with maxdataLocal := v }
  | .maxStreamData id v => { s with streams := update s.streams id fun x => { x with maxdataLocal := v } }
  | .maxStreams bidir rank =>
    if bidir then { s with maxBidirLocal := streamIdFromRank rank s.client true }
    else { s with maxUnidirLocal := streamIdFromRank rank s.client false }
  | .dataBlocked _ => { s with sentBlocked := true }
  | .streamDataBlocked id _ => { s with streams := update s.streams id fun x => { x with blockedSent := true } }
  | .streamsBlocked bidir _ =>
    if bidir then { s with bidirBlockedSent := true } else { s with unidirBlockedSent := true }
  | .resetStream id _ _ => { s with streams := update s.streams id fun x => { x with resetSent := true } }
  | .stopSending id _ => { s with streams := update s.streams id fun x => { x with stopSendingSent := true } }
  | .stream id _ fin _ _ =>
    { s with streams := update s.streams id fun x => { x with finSent := x.finSent || fin } }
  | .ackFrequency seq _ _ _ => { s with ackFrequencySequence := seq }
  | .pathStatus _ path seq => { s with paths := update s.paths path fun p => { p with statusSent := seq } }
  | .pathCidBlocked path _ => { s with paths := update s.paths path fun p => { p with cidBlockedSent := true } }
  | .maxPathId v => { s with maxPathIdLocal := v }
  | _ => s

/-- The events: MAX_DATA received, frames.c 4235-4238; MAX_STREAM_DATA, 4309-4315; MAX_STREAMS, 4452-4472; MAX_PATH_ID,
5741-5743. -/
def step (s : State) : Event → State
  | .sent f => sent s f
  | .acked e payload => acked s e payload
  | .opened id maxdataLocal maxdataRemote =>
    { s with streams := fun j =>
        if j = id then some ((s.streams j).getD { maxdataLocal := maxdataLocal, maxdataRemote := maxdataRemote })
        else s.streams j }
  | .closed id => { s with streams := fun j => if j = id then none else s.streams j }
  | .finRequested id => { s with streams := update s.streams id fun x => { x with finRequested := true } }
  | .resetRequested id => { s with streams := update s.streams id fun x => { x with resetRequested := true } }
  | .finReceived id => { s with streams := update s.streams id fun x => { x with finReceived := true } }
  | .resetReceived id => { s with streams := update s.streams id fun x => { x with resetReceived := true } }
  | .maxData v => if v > s.maxdataRemote then { s with maxdataRemote := v, sentBlocked := false } else s
  | .maxStreamData id v =>
    { s with streams := update s.streams id fun x =>
        if v > x.maxdataRemote then { x with maxdataRemote := v } else x }
  | .maxStreams bidir rank =>
    if bidir then
      if streamIdFromRank rank s.client true > s.maxBidirRemote then
        { s with maxBidirRemote := streamIdFromRank rank s.client true, bidirBlockedSent := false }
      else s
    else if streamIdFromRank rank s.client false > s.maxUnidirRemote then
      { s with maxUnidirRemote := streamIdFromRank rank s.client false, unidirBlockedSent := false }
    else s
  | .maxPathId v => if s.maxPathIdRemote < v then { s with maxPathIdRemote := v } else s
  | .cidCreated path seq =>
    { s with localCids := fun p n =>
        if p = path ∧ n = seq then some ((s.localCids p n).getD false) else s.localCids p n }
  | .cidRetired path seq =>
    { s with localCids := fun p n => if p = path ∧ n = seq then none else s.localCids p n }
  | .cidReceived path seq =>
    { s with stash := fun p => if p = path then s.stash p ++ [(seq, false)] else s.stash p }
  | .cidRemoved path seq =>
    { s with stash := fun p => if p = path then (s.stash p).filter fun x => x.1 ≠ seq else s.stash p }
  | .pathCreated path => { s with paths := fun p => if p = path then some {} else s.paths p }
  | .pathDeleted path => { s with paths := fun p => if p = path then none else s.paths p }
  | .pathDemoted path => { s with paths := update s.paths path fun p => { p with demoted := true } }

def run (s : State) (es : List Event) : State := es.foldl step s

/-- The limits announced by both sides: `initial_max_data`, `initial_max_streams_bidi`, `initial_max_streams_uni` and
`initial_max_path_id`. -/
structure Limits where
  data : Nat
  bidir : Nat
  unidir : Nat
  pathId : Nat
  peerData : Nat
  peerBidir : Nat
  peerUnidir : Nat
  peerPathId : Nat

/-- A connection after the negotiation, quicctx.c 3943-3948 and 4168-4174, transport.c 295. -/
def start (client : Bool) (l : Limits) : State where
  client := client
  streams := fun _ => none
  maxdataLocal := l.data
  maxdataLocalAcked := 0
  maxBidirLocal := streamIdFromRank l.bidir client true
  maxUnidirLocal := streamIdFromRank l.unidir client false
  bidirRankAcked := 0
  unidirRankAcked := 0
  maxdataRemote := l.peerData
  sentBlocked := false
  maxBidirRemote := streamIdFromRank l.peerBidir client true
  maxUnidirRemote := streamIdFromRank l.peerUnidir client false
  bidirBlockedSent := false
  unidirBlockedSent := false
  handshakeDoneAcked := false
  newTokenAcked := false
  ackFrequencySequence := 0
  localCids := fun _ _ => none
  stash := fun _ => []
  paths := fun _ => none
  maxPathIdLocal := l.pathId
  maxPathIdAcked := 0
  maxPathIdRemote := l.peerPathId
  pathsBlockedAcked := 0
  observedAddrAcked := false
  crypto := fun _ => SackList.init

end Picoquic.Lost
