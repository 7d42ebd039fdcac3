import Verif.Model.LostFrames
import Verif.Proof.FrameSkip
import Verif.Proof.DataRepeat
/-!
# Proofs on the frames of lost and acknowledged packets
-/

namespace Picoquic.Lost
open Picoquic Picoquic.Sack Picoquic.StreamFrame Picoquic.Spec Picoquic.Frames Picoquic.Repeat

/-! ## The decision for a frame -/

/-- `no_need_to_repeat` in terms of the frame. -/
def frameNoNeed (s : State) (e : Epoch) : Frame → Bool
  | .padding _ | .ack _ | .pathChallenge _ | .pathResponse _ | .timeStamp _ | .datagram .. => true
  | .ping _ | .connectionClose .. | .applicationClose .. | .immediateAck | .pathAbandon .. | .bdp ..
  | .observedAddress .. => false
  | .resetStream .. => match s.streams 4 with | none => true | some t => t.resetAcked
  | .stopSending id _ => match s.streams id with | none => true | some x => x.finReceived || x.resetReceived
  | .crypto offset data => checkSackList (s.crypto e) offset (endOf offset data.length false)
  | .newToken _ => s.newTokenAcked
  | .stream id offset fin data _ =>
    match s.streams id with
    | none => true
    | some t => if t.resetSent then true else checkSackList t.sack offset (endOf offset data.length fin)
  | .maxData v => decide (v < s.maxdataLocal) || decide (v ≤ s.maxdataLocalAcked)
  | .maxStreamData id v =>
    match s.streams id with
    | none => true
    | some x => x.finReceived || x.resetReceived || x.stopSendingSent ||
        decide (v < x.maxdataLocal) || decide (v ≤ x.maxdataLocalAcked)
  | .maxStreams bidir rank =>
    if bidir then decide (rank ≤ s.bidirRankAcked) || decide (s.maxBidirLocal > streamIdFromRank rank s.client true)
    else decide (rank ≤ s.unidirRankAcked) || decide (s.maxUnidirLocal > streamIdFromRank rank s.client false)
  | .dataBlocked v => if v < s.maxdataRemote then true else !s.sentBlocked
  | .streamDataBlocked id v =>
    match s.streams id with
    | none => true
    | some x => x.finRequested || x.resetRequested || x.finSent || x.resetSent ||
        decide (v < x.maxdataRemote) || !x.blockedSent
  | .streamsBlocked bidir rank =>
    if bidir then
      if s.maxBidirRemote > streamIdFromRank rank s.client true then true else !s.bidirBlockedSent
    else
      if s.maxUnidirRemote > streamIdFromRank rank s.client false then true else !s.unidirBlockedSent
  | .newConnectionId path seq _ _ _ => (s.localCids (path.getD 0) seq).getD true
  | .retireConnectionId path seq => (findCid (s.stash (path.getD 0)) seq).getD true
  | .handshakeDone => s.handshakeDoneAcked
  | .ackFrequency seq _ _ _ => decide (seq = s.ackFrequencySequence)
  | .pathStatus _ path seq =>
    match s.paths path with
    | none => true
    | some p => decide (p.statusSent ≠ seq) || p.demoted
  | .maxPathId v => decide (v ≤ s.maxPathIdLocal) || decide (v ≤ s.maxPathIdAcked)
  | .pathsBlocked v => decide (v ≤ s.maxPathIdRemote) || decide (v ≤ s.pathsBlockedAcked)
  | .pathCidBlocked path seq =>
    match s.paths path with
    | none => true
    | some p => !p.cidBlockedSent || decide (nextSequence (s.stash path) > seq)

theorem noNeed_ext (s : State) (e : Epoch) {b : UInt8} {t : Bytes} (h : 64 ≤ b.toNat ∨ b = 0x1f) :
    noNeed s e b t = extensionNoNeed s (b :: t) := by
  rcases h with h | rfl
  · unfold noNeed
    rw [if_neg (by unfold isStreamType; simp; omega)]
    split <;> first | omega | rfl
  · rfl

theorem int2 {a b : Nat} {bs rest : Bytes} (h : At [.int a, .int b] bs rest) :
    ∃ r, framesVarintDecode bs = some (a, r) ∧ framesVarintDecode r = some (b, rest) := by
  obtain ⟨r, h1, h2⟩ := (at_int _ _ _ _).1 h
  obtain ⟨r', h3, h4⟩ := (at_int _ _ _ _).1 h2
  rw [(at_nil _ _).1 h4] at h3
  exact ⟨r, h1, h3⟩

theorem int1 {a : Nat} {bs rest : Bytes} (h : At [.int a] bs rest) : framesVarintDecode bs = some (a, rest) := by
  obtain ⟨r, h1, h2⟩ := (at_int _ _ _ _).1 h
  rw [(at_nil _ _).1 h2] at h1
  exact h1

theorem newCidFrame_some {p seq retire : Nat} {cid token bs rest : Bytes}
    (h : StartsWith bs (.newConnectionId (some p) seq retire cid token) rest) :
    parseNewCidFrame true bs = some (.newConnectionId (some p) seq retire cid token, rest) := by
  obtain ⟨r, h1, h2, h3, _⟩ := (startsWith_int rfl (fun _ => Iff.rfl)).1 h
  unfold parseNewCidFrame
  rw [(varintSkip_iff _ _).2 ⟨_, h1⟩]
  exact (parseNewCid_iff _ _ _ true).2 ⟨_, _, _, _, _, rfl, h3, p, rfl, h2⟩

theorem newCidFrame_none {seq retire : Nat} {cid token : Bytes} {b : UInt8} {t rest : Bytes}
    (h : StartsWith (b :: t) (.newConnectionId none seq retire cid token) rest) :
    b = 0x18 ∧ parseNewCidFrame false (b :: t) = some (.newConnectionId none seq retire cid token, rest) := by
  obtain ⟨rfl, h2, h3, _⟩ := (startsWith_raw rfl (fun _ => Iff.rfl)).1 h
  refine ⟨rfl, ?_⟩
  unfold parseNewCidFrame
  rw [(varintSkip_iff _ _).2 ⟨_, decode_short (by decide) _⟩]
  exact (parseNewCid_iff _ _ _ false).2 ⟨_, _, _, _, _, rfl, h3, rfl, h2⟩

theorem noNeed_extension (s : State) {bs rest : Bytes} (e : Epoch) {f : Frame} (he : isExt f = true)
    (h : StartsWith bs f rest) (hp : pureAck f = false) : extensionNoNeed s bs = some (frameNoNeed s e f) := by
  unfold extensionNoNeed
  cases f with
  | newConnectionId path a b c d =>
    cases path with
    | none => cases he
    | some p =>
      have h0 := newCidFrame_some h
      obtain ⟨r, h1, -⟩ := (startsWith_int rfl (fun _ => Iff.rfl)).1 h
      rw [h1]
      show newCidNoNeed s true bs = _
      unfold newCidNoNeed
      rw [h0]
      rfl
  | retireConnectionId path a =>
    cases path with
    | none => cases he
    | some p =>
      obtain ⟨r, h1, h2, h3, _⟩ := (startsWith_int rfl (fun _ => Iff.rfl)).1 h
      rw [h1]
      show retireCidNoNeed s true bs = _
      unfold retireCidNoNeed
      rw [(varintSkip_iff _ _).2 ⟨_, h1⟩]
      dsimp only
      rw [(parseRetireCid_iff _ _ _ true).2 ⟨_, _, rfl, p, rfl, h2⟩]
      rfl
  | ackFrequency a b c d =>
    obtain ⟨r, h1, h2, h3, _⟩ := (startsWith_int rfl (fun _ => Iff.rfl)).1 h
    rw [h1]
    dsimp only
    rw [if_pos rfl, (parseAckFrequency_iff _ _ _).2 ⟨_, _, _, _, rfl, h2⟩]
    rfl
  | immediateAck =>
    obtain ⟨r, h1, h2, h3, _⟩ := (startsWith_int rfl (fun _ => Iff.rfl)).1 h
    rw [h1]
    rfl
  | timeStamp _ => cases hp
  | ack _ => cases hp
  | pathAbandon _ _ =>
    obtain ⟨r, h1, h2, h3, _⟩ := (startsWith_int rfl (fun _ => Iff.rfl)).1 h
    rw [h1]
    rfl
  | pathStatus v a b =>
    obtain ⟨r, h1, h2, h3, _⟩ := (startsWith_int rfl (fun _ => Iff.rfl)).1 h
    obtain ⟨r', h4, h5⟩ := int2 h2
    rw [h1]
    have key : some (pathStatusNoNeed s r) = some (frameNoNeed s e (.pathStatus v a b)) := by
      unfold pathStatusNoNeed
      rw [h4]
      dsimp only
      rw [h5]
      rfl
    cases v <;> exact key
  | maxPathId a =>
    obtain ⟨r, h1, h2, h3, _⟩ := (startsWith_int rfl (fun _ => Iff.rfl)).1 h
    rw [h1]
    show some (maxPathIdNoNeed s r) = _
    unfold maxPathIdNoNeed
    rw [int1 h2]
    rfl
  | pathsBlocked a =>
    obtain ⟨r, h1, h2, h3, _⟩ := (startsWith_int rfl (fun _ => Iff.rfl)).1 h
    rw [h1]
    show some (pathsBlockedNoNeed s r) = _
    unfold pathsBlockedNoNeed
    rw [int1 h2]
    rfl
  | pathCidBlocked a b =>
    obtain ⟨r, h1, h2, h3, _⟩ := (startsWith_int rfl (fun _ => Iff.rfl)).1 h
    obtain ⟨r', h4, h5⟩ := int2 h2
    rw [h1]
    show some (pathCidBlockedNoNeed s r) = _
    unfold pathCidBlockedNoNeed
    rw [h4]
    dsimp only
    rw [h5]
    rfl
  | bdp _ _ _ _ =>
    obtain ⟨r, h1, h2, h3, _⟩ := (startsWith_int rfl (fun _ => Iff.rfl)).1 h
    rw [h1]
    rfl
  | observedAddress v _ _ _ =>
    obtain ⟨r, h1, h2, h3, _⟩ := (startsWith_int rfl (fun _ => Iff.rfl)).1 h
    rw [h1]
    cases v <;> rfl
  | _ => cases he

theorem noNeed_short (s : State) (e : Epoch) {b : UInt8} {t : Bytes} {f : Frame} (he : isExt f = false)
    (h : StartsWith (b :: t) f []) (hp : pureAck f = false) : noNeed s e b t = some (frameNoNeed s e f) := by
  cases f with
  | stream id o fin d x =>
    have hb := head_stream h
    obtain ⟨p, e1, e2, e3⟩ := h
    obtain ⟨c, e4, e5, _⟩ := StreamFrame.parse_of_frame e2 [] e3
    unfold noNeed
    rw [if_pos (by rw [hb]; rfl)]
    unfold streamNoNeed
    rw [e1, e4]
    rfl
  | ack c => cases hp
  | padding n => cases hp
  | ping n =>
    obtain ⟨rfl, h2⟩ := (startsWith_run 1 b t [] n (.ping n) rfl (fun _ => Iff.rfl) trivial Iff.rfl).1 h
    show extensionNoNeed s (1 :: t) = _
    unfold extensionNoNeed
    rw [decode_short (by decide)]
    rfl
  | resetStream _ _ _ =>
    obtain ⟨rfl, h2, h3, _⟩ := (startsWith_raw rfl (fun _ => Iff.rfl)).1 h
    show resetNoNeed s (4 :: t) = _
    unfold resetNoNeed
    rw [decode_short (by decide)]
    obtain ⟨r, h4, h5⟩ := (at_int _ _ _ _).1 h2
    obtain ⟨r', h6, h7⟩ := (at_int _ _ _ _).1 h5
    dsimp only
    rw [show skip2 t = some r' from by
      unfold skip2
      rw [(varintSkip_iff _ _).2 ⟨_, h4⟩]
      exact (varintSkip_iff _ _).2 ⟨_, h6⟩]
    rfl
  | stopSending a b =>
    obtain ⟨rfl, h2, h3, _⟩ := (startsWith_raw rfl (fun _ => Iff.rfl)).1 h
    obtain ⟨r', h4, h5⟩ := int2 h2
    show some (stopSendingNoNeed s t) = _
    unfold stopSendingNoNeed
    rw [h4]
    dsimp only
    rw [h5]
    rfl
  | crypto _ _ =>
    obtain ⟨rfl, h2, h3, _⟩ := (startsWith_raw rfl (fun _ => Iff.rfl)).1 h
    show cryptoNoNeed s e t = _
    unfold cryptoNoNeed
    rw [(parseCrypto_iff _ _ _).2 ⟨_, _, rfl, h2⟩]
    rfl
  | newToken _ =>
    obtain ⟨rfl, h2, h3, _⟩ := (startsWith_raw rfl (fun _ => Iff.rfl)).1 h
    rfl
  | maxData _ =>
    obtain ⟨rfl, h2, h3, _⟩ := (startsWith_raw rfl (fun _ => Iff.rfl)).1 h
    show some (maxDataNoNeed s t) = _
    unfold maxDataNoNeed
    rw [int1 h2]
    rfl
  | maxStreamData _ _ =>
    obtain ⟨rfl, h2, h3, _⟩ := (startsWith_raw rfl (fun _ => Iff.rfl)).1 h
    obtain ⟨r', h4, h5⟩ := int2 h2
    show some (maxStreamDataNoNeed s t) = _
    unfold maxStreamDataNoNeed
    rw [h4]
    dsimp only
    rw [h5]
    rfl
  | maxStreams v _ =>
    obtain ⟨hb, h2, h3, _⟩ := (startsWith_raw rfl (fun _ => Iff.rfl)).1 h
    cases v
    · subst hb
      show some (maxStreamsNoNeed s false t) = _
      unfold maxStreamsNoNeed
      rw [int1 h2]
      rfl
    · subst hb
      show some (maxStreamsNoNeed s true t) = _
      unfold maxStreamsNoNeed
      rw [int1 h2]
      rfl
  | dataBlocked _ =>
    obtain ⟨rfl, h2, h3, _⟩ := (startsWith_raw rfl (fun _ => Iff.rfl)).1 h
    show some (dataBlockedNoNeed s t) = _
    unfold dataBlockedNoNeed
    rw [int1 h2]
    rfl
  | streamDataBlocked _ _ =>
    obtain ⟨rfl, h2, h3, _⟩ := (startsWith_raw rfl (fun _ => Iff.rfl)).1 h
    obtain ⟨r', h4, h5⟩ := int2 h2
    show some (streamDataBlockedNoNeed s t) = _
    unfold streamDataBlockedNoNeed
    rw [h4]
    dsimp only
    rw [h5]
    rfl
  | streamsBlocked v _ =>
    obtain ⟨hb, h2, h3, _⟩ := (startsWith_raw rfl (fun _ => Iff.rfl)).1 h
    cases v
    · subst hb
      show some (streamsBlockedNoNeed s false t) = _
      unfold streamsBlockedNoNeed
      rw [int1 h2]
      rfl
    · subst hb
      show some (streamsBlockedNoNeed s true t) = _
      unfold streamsBlockedNoNeed
      rw [int1 h2]
      rfl
  | newConnectionId path _ _ _ _ =>
    cases path with
    | some p => cases he
    | none =>
      obtain ⟨rfl, h0⟩ := newCidFrame_none h
      show newCidNoNeed s false (0x18 :: t) = _
      unfold newCidNoNeed
      rw [h0]
      rfl
  | retireConnectionId path _ =>
    cases path with
    | some p => cases he
    | none =>
      obtain ⟨rfl, h2, h3, _⟩ := (startsWith_raw rfl (fun _ => Iff.rfl)).1 h
      show retireCidNoNeed s false (0x19 :: t) = _
      unfold retireCidNoNeed
      rw [(varintSkip_iff _ _).2 ⟨_, decode_short (by decide) _⟩]
      dsimp only
      rw [(parseRetireCid_iff _ _ _ false).2 ⟨_, _, rfl, rfl, h2⟩]
      rfl
  | pathChallenge _ => cases hp
  | pathResponse _ => cases hp
  | connectionClose _ _ _ =>
    obtain ⟨rfl, h2, h3, _⟩ := (startsWith_raw rfl (fun _ => Iff.rfl)).1 h
    show extensionNoNeed s (0x1c :: t) = _
    unfold extensionNoNeed
    rw [decode_short (by decide)]
    rfl
  | applicationClose _ _ =>
    obtain ⟨rfl, h2, h3, _⟩ := (startsWith_raw rfl (fun _ => Iff.rfl)).1 h
    show extensionNoNeed s (0x1d :: t) = _
    unfold extensionNoNeed
    rw [decode_short (by decide)]
    rfl
  | handshakeDone =>
    obtain ⟨rfl, h2, h3, _⟩ := (startsWith_raw rfl (fun _ => Iff.rfl)).1 h
    rfl
  | datagram d x =>
    cases x with
    | false =>
      obtain ⟨rfl, h2, h3, h4⟩ := (startsWith_raw rfl (fun _ => Iff.rfl)).1 h
      rfl
    | true =>
      obtain ⟨rfl, h2, h3, h4⟩ := (startsWith_raw rfl (fun _ => Iff.rfl)).1 h
      rfl
  | _ => cases he

theorem noNeed_frame (s : State) (e : Epoch) {b : UInt8} {t : Bytes} {f : Frame}
    (h : StartsWith (b :: t) f []) (hp : pureAck f = false) : noNeed s e b t = some (frameNoNeed s e f) := by
  cases he : isExt f with
  | false => exact noNeed_short s e he h hp
  | true =>
    rw [noNeed_ext s e (ext_first (parseExt_complete he h))]
    exact noNeed_extension s e he h hp

theorem frameNoNeed_pure (s : State) (e : Epoch) {f : Frame} (h : pureAck f = true) : frameNoNeed s e f = true := by
  cases f <;> first | rfl | cases h

/-! ## A lost packet -/

/-- The frames of a payload, each with its bytes. -/
inductive Cut : Bytes → List (Bytes × Frame) → Prop
  | nil : Cut [] []
  | cons {p rest : Bytes} {f : Frame} {l : List (Bytes × Frame)} :
      IsFrame p f → EndsWith f rest → Cut rest l → Cut (p ++ rest) ((p, f) :: l)

theorem cut_of_payload {bs : Bytes} {fs : List Frame} (h : IsPayload bs fs) :
    ∃ l, Cut bs l ∧ l.map (·.2) = fs := by
  induction h with
  | nil => exact ⟨[], .nil, rfl⟩
  | cons hst _ ih =>
    obtain ⟨p, rfl, h1, h2⟩ := hst
    obtain ⟨l, h3, h4⟩ := ih
    exact ⟨_, .cons h1 h2 h3, by rw [List.map_cons, h4]⟩

theorem cut_frame {bs : Bytes} {l : List (Bytes × Frame)} (h : Cut bs l) : ∀ x ∈ l, IsFrame x.1 x.2 := by
  induction h with
  | nil => intro x hx; cases hx
  | cons h1 _ _ ih =>
    intro x hx
    rcases List.mem_cons.1 hx with rfl | hx
    · exact h1
    · exact ih x hx

/-- The frames to send again, and whether there is stream data to repeat. -/
theorem copyLost_eq (s : State) (e : Epoch) {bs : Bytes} {l : List (Bytes × Frame)} (h : Cut bs l) :
    ∀ fuel, bs.length < fuel → copyLost s e fuel bs =
      ⟨(l.filter fun x => !frameNoNeed s e x.2 && !isStream x.2).map (·.1),
        l.any fun x => !frameNoNeed s e x.2 && isStream x.2, true⟩ := by
  induction h with
  | nil =>
    intro fuel hf
    cases fuel with
    | zero => cases hf
    | succ fuel => rfl
  | @cons p rest f l h1 h2 _ ih =>
    intro fuel hf
    cases fuel with
    | zero => cases hf
    | succ fuel =>
      cases p with
      | nil => exact absurd h1 isFrame_ne_nil
      | cons b t =>
        have hst : StartsWith ((b :: t) ++ rest) f rest := ⟨_, rfl, h1, h2⟩
        obtain ⟨x, g1, g2, g3, g4⟩ := skipFrame_complete hst
        have g5 : x.consumed = (b :: t).length ∧ ((b :: t) ++ rest).take x.consumed = b :: t := by
          have := congrArg List.length g3
          have hs := (skipFrame_sound g1).2 g2
          rw [List.length_drop, List.length_append] at this
          rw [List.length_append] at hs
          have e1 : x.consumed = (b :: t).length := by omega
          exact ⟨e1, by rw [e1, List.take_left]⟩
        have hh : isStreamType b = isStream f := head_stream hst
        have hlen : rest.length < fuel := by
          rw [List.length_append, List.length_cons] at hf
          omega
        rw [List.cons_append] at g1 g3 g5 ⊢
        rw [copyLost]
        rw [g1]
        dsimp only
        rw [if_pos g2, g3, g5.2, ih fuel hlen, List.drop_succ_cons, List.drop_zero]
        have hn : (if x.pureAck then some true else noNeed s e b t) = some (frameNoNeed s e f) := by
          rw [g4]
          cases hp : pureAck f with
          | true => rw [if_pos rfl, frameNoNeed_pure s e hp]
          | false =>
            rw [if_neg (by decide)]
            exact noNeed_frame s e ⟨b :: t, by simp, h1, endsWith_nil f⟩ hp
        rw [hn]
        dsimp only
        unfold Copied.add
        cases hq : frameNoNeed s e f <;> cases hi : isStream f <;> simp [hq, hi, hh]

theorem lost_eq (s : State) (e : Epoch) {bs : Bytes} {l : List (Bytes × Frame)} (h : Cut bs l) :
    lost s e bs = ⟨(l.filter fun x => !frameNoNeed s e x.2 && !isStream x.2).map (·.1),
        l.any fun x => !frameNoNeed s e x.2 && isStream x.2, true⟩ := copyLost_eq s e h _ (Nat.lt_succ_self _)

/-! ## An acknowledged packet -/

/-- The acknowledgement of the frame is read at the right place. -/
def readable : Frame → Bool
  | .maxPathId _ | .pathsBlocked _ | .pathCidBlocked .. | .observedAddress .. => false
  | .retireConnectionId path _ => path.isNone
  | _ => true

/-- The effect of the acknowledgement of a frame. -/
def ackFrame (e : Epoch) (s : State) : Frame → State
  | .resetStream id _ _ => ackReset s id
  | .crypto offset data => ackCrypto s e offset data.length
  | .newToken _ => { s with newTokenAcked := true }
  | .stream id offset fin data _ => ackStream s id offset data.length fin
  | .maxData v => ackMaxData s v
  | .maxStreamData id v => ackMaxStreamData s id v
  | .maxStreams bidir rank => ackMaxStreams s bidir rank
  | .newConnectionId path seq _ _ _ => ackNewCid s (path.getD 0) seq
  | .retireConnectionId path seq => ackRetireCid s (path.getD 0) seq
  | .handshakeDone => { s with handshakeDoneAcked := true }
  | _ => s

theorem ackSkip_frame {bs rest : Bytes} {f : Frame} (h : StartsWith bs f rest) : ackSkip bs = some rest := by
  obtain ⟨x, h1, h2, h3, _⟩ := skipFrame_complete h
  unfold ackSkip
  rw [h1]
  dsimp only
  rw [if_pos h2, h3]

theorem ackOne_of {s s' : State} {e : Epoch} {bs r rest : Bytes} {type : Nat}
    (h : framesVarintDecode bs = some (type, r)) (h1 : type ≠ 0x1e) (h2 : type ≠ 7)
    (h3 : (if type < 64 then ackShort s e type bs (bs.drop 1) else ackExtension s type bs (bs.drop 1)) =
      some (s', rest)) : ackOne s e bs = (s', some rest) := by
  unfold ackOne
  rw [h]
  dsimp only
  rw [if_neg h1, if_neg h2, h3]

theorem ackOfAck_frame {bs r rest : Bytes} {c : AckContent} {n : Nat} (h : framesVarintDecode bs = some (n, r))
    (h' : parseAck c.ecn.isSome c.pathId.isSome r = some (c, rest)) :
    ackOfAck c.ecn.isSome c.pathId.isSome bs = some rest := by
  unfold ackOfAck
  rw [(varintSkip_iff _ _).2 ⟨_, h⟩]
  show (parseAck _ _ r).map _ = _
  rw [h']
  rfl

theorem ackOne_ext (s : State) (e : Epoch) {bs rest : Bytes} {f : Frame} (he : isExt f = true)
    (hr : readable f = true) (h : StartsWith bs f rest) : ackOne s e bs = (ackFrame e s f, some rest) := by
  have hs := ackSkip_frame h
  cases f with
  | ack c =>
    have hp : c.pathId.isSome = true := he
    obtain ⟨r, h1, h2⟩ := (startsWith_ack_ext hp).1 h
    rw [← hp] at h2
    have key := ackOfAck_frame h1 h2
    cases hc : c.ecn with
    | none =>
      have ht : c.type = 0x15228c00 := by
        unfold AckContent.type
        cases hp' : c.pathId <;> simp_all
      rw [ht] at h1
      rw [hc, hp] at key
      refine ackOne_of h1 (by decide) (by decide) ?_
      show (ackOfAck false true bs).map _ = _
      rw [show ackOfAck false true bs = some rest from key]
      rfl
    | some x =>
      have ht : c.type = 0x15228c01 := by
        unfold AckContent.type
        cases hp' : c.pathId <;> simp_all
      rw [ht] at h1
      rw [hc, hp] at key
      refine ackOne_of h1 (by decide) (by decide) ?_
      show (ackOfAck true true bs).map _ = _
      rw [show ackOfAck true true bs = some rest from key]
      rfl
  | newConnectionId path a b c d =>
    cases path with
    | none => cases he
    | some p =>
      have h0 := newCidFrame_some h
      obtain ⟨r, h1, -⟩ := (startsWith_int rfl (fun _ => Iff.rfl)).1 h
      refine ackOne_of h1 (by decide) (by decide) ?_
      show (match parseNewCidFrame true bs with
        | some (.newConnectionId path seq _ _ _, r) => some (ackNewCid s (path.getD 0) seq, r)
        | _ => none) = _
      rw [h0]
      rfl
  | retireConnectionId path a =>
    cases path with
    | none => cases he
    | some p => cases hr
  | ackFrequency a b c d =>
    obtain ⟨r, h1, h2, h3, _⟩ := (startsWith_int rfl (fun _ => Iff.rfl)).1 h
    refine ackOne_of h1 (by decide) (by decide) ?_
    show (ackSkip bs).map _ = _
    rw [hs]; rfl
  | immediateAck =>
    obtain ⟨r, h1, h2, h3, _⟩ := (startsWith_int rfl (fun _ => Iff.rfl)).1 h
    refine ackOne_of h1 (by decide) (by decide) ?_
    show (ackSkip bs).map _ = _
    rw [hs]; rfl
  | timeStamp _ =>
    obtain ⟨r, h1, h2, h3, _⟩ := (startsWith_int rfl (fun _ => Iff.rfl)).1 h
    refine ackOne_of h1 (by decide) (by decide) ?_
    show (ackSkip bs).map _ = _
    rw [hs]; rfl
  | pathAbandon _ _ =>
    obtain ⟨r, h1, h2, h3, _⟩ := (startsWith_int rfl (fun _ => Iff.rfl)).1 h
    refine ackOne_of h1 (by decide) (by decide) ?_
    show (ackSkip bs).map _ = _
    rw [hs]; rfl
  | pathStatus v a b =>
    obtain ⟨r, h1, h2, h3, _⟩ := (startsWith_int rfl (fun _ => Iff.rfl)).1 h
    cases v
    · refine ackOne_of h1 (by decide) (by decide) ?_
      show (ackSkip bs).map _ = _
      rw [hs]; rfl
    · refine ackOne_of h1 (by decide) (by decide) ?_
      show (ackSkip bs).map _ = _
      rw [hs]; rfl
  | bdp _ _ _ _ =>
    obtain ⟨r, h1, h2, h3, _⟩ := (startsWith_int rfl (fun _ => Iff.rfl)).1 h
    refine ackOne_of h1 (by decide) (by decide) ?_
    show (ackSkip bs).map _ = _
    rw [hs]; rfl
  | maxPathId _ => cases hr
  | pathsBlocked _ => cases hr
  | pathCidBlocked _ _ => cases hr
  | observedAddress _ _ _ _ => cases hr
  | _ => cases he

theorem ackOne_skip (s : State) (e : Epoch) {b : UInt8} {t rest : Bytes} (hb : b.toNat < 64)
    (hs : ackSkip (b :: t) = some rest)
    (h : ackShort s e b.toNat (b :: t) t = (ackSkip (b :: t)).map fun r => (s, r))
    (h1 : b.toNat ≠ 0x1e) (h2 : b.toNat ≠ 7) : ackOne s e (b :: t) = (s, some rest) := by
  refine ackOne_of (decode_short hb t) h1 h2 ?_
  rw [if_pos hb, List.drop_succ_cons, List.drop_zero, h, hs]
  rfl

theorem ackOne_known (s s' : State) (e : Epoch) {b : UInt8} {t rest : Bytes} (hb : b.toNat < 64)
    (h : ackShort s e b.toNat (b :: t) t = some (s', rest))
    (h1 : b.toNat ≠ 0x1e) (h2 : b.toNat ≠ 7) : ackOne s e (b :: t) = (s', some rest) := by
  refine ackOne_of (decode_short hb t) h1 h2 ?_
  rw [if_pos hb, List.drop_succ_cons, List.drop_zero, h]

theorem ackOne_short (s : State) (e : Epoch) {b : UInt8} {t rest : Bytes} {f : Frame} (he : isExt f = false)
    (hr : readable f = true) (h : StartsWith (b :: t) f rest) :
    ackOne s e (b :: t) = (ackFrame e s f, some rest) := by
  have hs := ackSkip_frame h
  cases f with
  | stream id o fin d x =>
    have hb := (isStreamType_iff b).1 (head_stream h)
    obtain ⟨p, e1, e2, e3⟩ := h
    obtain ⟨c, e4, e5, _⟩ := StreamFrame.parse_of_frame e2 rest e3
    refine ackOne_known _ _ _ (by omega) ?_ (by omega) (by omega)
    unfold ackShort
    (repeat rw [if_neg (by omega)])
    rw [if_pos (by omega), e1, e4, Option.map_some]
    dsimp only
    rw [e5, List.drop_left' rfl]
    rfl
  | ack c =>
    have hp : c.pathId = none := by
      cases hc : c.pathId with
      | none => rfl
      | some i => simp [isExt, hc] at he
    obtain ⟨h1, h2⟩ := (startsWith_ack_short hp).1 h
    unfold AckContent.type at h1
    rw [hp] at h1
    have h2' : parseAck c.ecn.isSome c.pathId.isSome t = some (c, rest) := by rw [hp]; exact h2
    cases hc : c.ecn with
    | none =>
      rw [hc] at h1
      obtain rfl : b = 2 := u8_inj h1 (by decide)
      have key := ackOfAck_frame (decode_short (b := 2) (by decide) t) h2'
      rw [hc, hp] at key
      refine ackOne_known _ _ _ (by decide) ?_ (by decide) (by decide)
      show (ackOfAck false false (2 :: t)).map _ = _
      rw [show ackOfAck false false (2 :: t) = some rest from key]
      rfl
    | some x =>
      rw [hc] at h1
      obtain rfl : b = 3 := u8_inj h1 (by decide)
      have key := ackOfAck_frame (decode_short (b := 3) (by decide) t) h2'
      rw [hc, hp] at key
      refine ackOne_known _ _ _ (by decide) ?_ (by decide) (by decide)
      show (ackOfAck true false (3 :: t)).map _ = _
      rw [show ackOfAck true false (3 :: t) = some rest from key]
      rfl
  | padding n =>
    obtain ⟨rfl, h2⟩ := (startsWith_run 0 b t rest n (.padding n) rfl (fun _ => Iff.rfl) trivial Iff.rfl).1 h
    exact ackOne_skip _ _ (by decide) hs rfl (by decide) (by decide)
  | ping n =>
    obtain ⟨rfl, h2⟩ := (startsWith_run 1 b t rest n (.ping n) rfl (fun _ => Iff.rfl) trivial Iff.rfl).1 h
    exact ackOne_skip _ _ (by decide) hs rfl (by decide) (by decide)
  | resetStream i _ _ =>
    obtain ⟨rfl, h2, h3, _⟩ := (startsWith_raw rfl (fun _ => Iff.rfl)).1 h
    obtain ⟨r, h4, h5⟩ := (at_int _ _ _ _).1 h2
    refine ackOne_known _ _ _ (by decide) ?_ (by decide) (by decide)
    show ((framesVarintDecode t).bind fun i => (skip2 i.2).map fun r => (ackReset s i.1, r)) = _
    rw [h4]
    show (skip2 r).map _ = _
    rw [(skip2_iff _ _).2 ⟨_, _, h5⟩]
    rfl
  | stopSending a b =>
    obtain ⟨rfl, h2, h3, _⟩ := (startsWith_raw rfl (fun _ => Iff.rfl)).1 h
    exact ackOne_skip _ _ (by decide) hs rfl (by decide) (by decide)
  | crypto _ _ =>
    obtain ⟨rfl, h2, h3, _⟩ := (startsWith_raw rfl (fun _ => Iff.rfl)).1 h
    refine ackOne_known _ _ _ (by decide) ?_ (by decide) (by decide)
    show (match parseCrypto t with
      | some (.crypto offset data, r) => some (ackCrypto s e offset data.length, r)
      | _ => none) = _
    rw [(parseCrypto_iff _ _ _).2 ⟨_, _, rfl, h2⟩]
    rfl
  | newToken _ =>
    obtain ⟨rfl, h2, h3, _⟩ := (startsWith_raw rfl (fun _ => Iff.rfl)).1 h
    unfold ackOne
    rw [decode_short (by decide)]
    dsimp only
    rw [if_neg (by decide), if_pos (by decide), hs]
    rfl
  | maxData _ =>
    obtain ⟨rfl, h2, h3, _⟩ := (startsWith_raw rfl (fun _ => Iff.rfl)).1 h
    refine ackOne_known _ _ _ (by decide) ?_ (by decide) (by decide)
    show ((framesVarintDecode t).map fun x => (ackMaxData s x.1, x.2)) = _
    rw [int1 h2]
    rfl
  | maxStreamData _ _ =>
    obtain ⟨rfl, h2, h3, _⟩ := (startsWith_raw rfl (fun _ => Iff.rfl)).1 h
    obtain ⟨r', h4, h5⟩ := int2 h2
    refine ackOne_known _ _ _ (by decide) ?_ (by decide) (by decide)
    show ((framesVarintDecode t).bind fun i => (framesVarintDecode i.2).map fun x =>
      (ackMaxStreamData s i.1 x.1, x.2)) = _
    rw [h4]
    show (framesVarintDecode r').map _ = _
    rw [h5]
    rfl
  | maxStreams v _ =>
    obtain ⟨hb, h2, h3, _⟩ := (startsWith_raw rfl (fun _ => Iff.rfl)).1 h
    cases v
    · subst hb
      refine ackOne_known _ _ _ (by decide) ?_ (by decide) (by decide)
      show ((framesVarintDecode t).map fun x => (ackMaxStreams s false x.1, x.2)) = _
      rw [int1 h2]
      rfl
    · subst hb
      refine ackOne_known _ _ _ (by decide) ?_ (by decide) (by decide)
      show ((framesVarintDecode t).map fun x => (ackMaxStreams s true x.1, x.2)) = _
      rw [int1 h2]
      rfl
  | dataBlocked _ =>
    obtain ⟨rfl, h2, h3, _⟩ := (startsWith_raw rfl (fun _ => Iff.rfl)).1 h
    exact ackOne_skip _ _ (by decide) hs rfl (by decide) (by decide)
  | streamDataBlocked _ _ =>
    obtain ⟨rfl, h2, h3, _⟩ := (startsWith_raw rfl (fun _ => Iff.rfl)).1 h
    exact ackOne_skip _ _ (by decide) hs rfl (by decide) (by decide)
  | streamsBlocked v _ =>
    obtain ⟨hb, h2, h3, _⟩ := (startsWith_raw rfl (fun _ => Iff.rfl)).1 h
    cases v <;> subst hb <;> exact ackOne_skip _ _ (by decide) hs rfl (by decide) (by decide)
  | newConnectionId path _ _ _ _ =>
    cases path with
    | some p => cases he
    | none =>
      obtain ⟨rfl, h0⟩ := newCidFrame_none h
      refine ackOne_known _ _ _ (by decide) ?_ (by decide) (by decide)
      show (match parseNewCidFrame false (0x18 :: t) with
        | some (.newConnectionId path seq _ _ _, r) => some (ackNewCid s (path.getD 0) seq, r)
        | _ => none) = _
      rw [h0]
      rfl
  | retireConnectionId path _ =>
    cases path with
    | some p => cases he
    | none =>
      obtain ⟨rfl, h2, h3, _⟩ := (startsWith_raw rfl (fun _ => Iff.rfl)).1 h
      refine ackOne_known _ _ _ (by decide) ?_ (by decide) (by decide)
      show (match parseRetireCid false t with
        | some (.retireConnectionId path seq, r) => some (ackRetireCid s (path.getD 0) seq, r)
        | _ => none) = _
      rw [(parseRetireCid_iff _ _ _ false).2 ⟨_, _, rfl, rfl, h2⟩]
      rfl
  | pathChallenge _ =>
    obtain ⟨rfl, h2, h3, _⟩ := (startsWith_raw rfl (fun _ => Iff.rfl)).1 h
    exact ackOne_skip _ _ (by decide) hs rfl (by decide) (by decide)
  | pathResponse _ =>
    obtain ⟨rfl, h2, h3, _⟩ := (startsWith_raw rfl (fun _ => Iff.rfl)).1 h
    exact ackOne_skip _ _ (by decide) hs rfl (by decide) (by decide)
  | connectionClose _ _ _ =>
    obtain ⟨rfl, h2, h3, _⟩ := (startsWith_raw rfl (fun _ => Iff.rfl)).1 h
    exact ackOne_skip _ _ (by decide) hs rfl (by decide) (by decide)
  | applicationClose _ _ =>
    obtain ⟨rfl, h2, h3, _⟩ := (startsWith_raw rfl (fun _ => Iff.rfl)).1 h
    exact ackOne_skip _ _ (by decide) hs rfl (by decide) (by decide)
  | handshakeDone =>
    obtain ⟨rfl, h2, h3, _⟩ := (startsWith_raw rfl (fun _ => Iff.rfl)).1 h
    unfold ackOne
    rw [decode_short (by decide), (at_nil _ _).1 h2]
    dsimp only
    rw [if_pos (by decide)]
    rfl
  | datagram d x =>
    cases x with
    | false =>
      obtain ⟨rfl, h2, h3, h4⟩ := (startsWith_raw rfl (fun _ => Iff.rfl)).1 h
      exact ackOne_skip _ _ (by decide) hs rfl (by decide) (by decide)
    | true =>
      obtain ⟨rfl, h2, h3, h4⟩ := (startsWith_raw rfl (fun _ => Iff.rfl)).1 h
      exact ackOne_skip _ _ (by decide) hs rfl (by decide) (by decide)
  | _ => cases he

theorem ackOne_frame (s : State) (e : Epoch) {bs rest : Bytes} {f : Frame} (hr : readable f = true)
    (h : StartsWith bs f rest) : ackOne s e bs = (ackFrame e s f, some rest) := by
  cases bs with
  | nil => exact absurd h not_startsWith_nil
  | cons b t =>
    cases he : isExt f with
    | false => exact ackOne_short s e he hr h
    | true => exact ackOne_ext s e he hr h

theorem ackLoop_eq (e : Epoch) {bs : Bytes} {fs : List Frame} (h : IsPayload bs fs)
    (hr : ∀ f ∈ fs, readable f = true) : ∀ (fuel : Nat) (s : State), bs.length < fuel →
    ackLoop e fuel s bs = fs.foldl (ackFrame e) s := by
  induction h with
  | nil =>
    intro fuel s hf
    cases fuel with
    | zero => cases hf
    | succ fuel => rfl
  | @cons bs rest f fs hst _ ih =>
    intro fuel s hf
    cases fuel with
    | zero => cases hf
    | succ fuel =>
      have hl := startsWith_length hst
      rw [ackLoop, if_neg (by rintro rfl; exact not_startsWith_nil hst),
        ackOne_frame s e (hr f (List.mem_cons_self ..)) hst]
      dsimp only
      rw [ih (fun g hg => hr g (List.mem_cons_of_mem _ hg)) fuel _ (by omega)]
      rfl

theorem acked_eq (s : State) (e : Epoch) {bs : Bytes} {fs : List Frame} (h : IsPayload bs fs)
    (hr : ∀ f ∈ fs, readable f = true) : acked s e bs = fs.foldl (ackFrame e) s :=
  ackLoop_eq e h hr _ s (Nat.lt_succ_self _)

end Picoquic.Lost
