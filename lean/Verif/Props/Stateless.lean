import Verif.Proof.Stateless
/-!
# Properties of the answers to packets of no connection (C75)
-/

namespace Picoquic.Props
open Picoquic.Packet Picoquic.Stateless Picoquic.Spec

/-- **C75, stateless reset.** For all packets, times and random numbers: a stateless reset is sent only in answer to a 1-RTT packet with a destination, from
an address that may be answered. It is shorter than the packet that it answers, at least 39 bytes long, looks like a 1-RTT packet,
and ends with the secret for the destination; when the packet fits in a buffer it does too. -/
theorem C75_reset (c : ResetCtx) (blockingDisabled blocked : Bool) (now length : Nat) (ph : Ph) (rnd : ResetRandom) (secretOf : Cid → Bytes)
    (hr : GoodRandom rnd) (hs : ∀ cid, (secretOf cid).length = 16) (p : Bytes)
    (h : (unknownPacket c blockingDisabled blocked now length ph rnd secretOf).2 = some p) :
    ph.ptype = .oneRtt ∧ ph.dcid ≠ [] ∧ (blocked = true → blockingDisabled = true) ∧
      39 ≤ p.length ∧ p.length < length ∧ (∃ b t, p = b :: t ∧ b &&& 0xC0 = 0x40) ∧
      p.drop (p.length - 16) = secretOf ph.dcid ∧ (length ≤ 1537 → p.length ≤ 1536) := by
  obtain ⟨h1, h2, h3, h4, -, h6, -⟩ := unknownPacket_some h
  have hl := resetPacket_length hr length (hs ph.dcid)
  obtain ⟨b1, b2⟩ := padSize_bounds hr h3
  rw [← h6] at hl
  refine ⟨h4, h1, ?_, by omega, by omega, ⟨_, _, h6, (resetFirst _).2.2⟩, ?_, by omega⟩
  · intro hb
    rcases h2 with h | h
    · exact h
    · rw [hb] at h; cases h
  · have := resetPacket_last rnd length (hs ph.dcid)
    rw [← h6] at this
    exact this

/-- **C75, stateless reset, sent.** A 1-RTT packet of at least 40 bytes to an unknown destination is answered if the last answer
was long enough ago and the address may be answered. -/
theorem C75_reset_sent (c : ResetCtx) (blockingDisabled blocked : Bool) (now length : Nat) (ph : Ph) (rnd : ResetRandom) (secretOf : Cid → Bytes)
    (ht : ph.ptype = .oneRtt) (hd : ph.dcid ≠ []) (hb : blocked = true → blockingDisabled = true) (hl : 40 ≤ length) (hn : c.nextTime ≤ now) :
    (unknownPacket c blockingDisabled blocked now length ph rnd secretOf).2 ≠ none := by
  unfold unknownPacket
  have hb' : blockingDisabled = true ∨ (!blocked) = true := by
    cases blocked
    · exact .inr rfl
    · exact .inl (hb rfl)
  rw [if_pos ⟨hd, hb'⟩]
  unfold unexpectedCnxid
  rw [if_pos ⟨by unfold RESET_MIN_SIZE; omega, ht, hn⟩]
  intro h; cases h

/-- **C75, stateless reset, rate.** For all sequences of packets: two stateless resets are at least the configured interval apart. -/
theorem C75_reset_rate (blockingDisabled : Bool) (secretOf : Cid → Bytes) (c : ResetCtx) (es : List ResetEvent)
    (small : ∀ e ∈ es, e.now + c.interval < 2 ^ 64) :
    (resetTimes blockingDisabled secretOf c es).Pairwise (fun a b => a + c.interval ≤ b) :=
  resetTimes_pairwise blockingDisabled secretOf es c small

/-- **C75, stateless reset, no loop.** Hosts that answer each other's stateless resets come to an end: a packet of `n` bytes causes
less than `n` resets, however many hosts take part. -/
theorem C75_reset_no_loop (ps : List Bytes) (p : Bytes)
    (h : ∀ i a b, (p :: ps)[i]? = some a → (p :: ps)[i + 1]? = some b → ResetAnswers a b) : ps.length + 38 ≤ max p.length 38 := by
  induction ps generalizing p with
  | nil => show 0 + 38 ≤ _; omega
  | cons q qs ih =>
    obtain ⟨c, bd, b, now, ph, rnd, secretOf, hr, hs, ha⟩ := h 0 p q rfl rfl
    obtain ⟨-, -, -, h1, h2, -⟩ := C75_reset c bd b now p.length ph rnd secretOf hr hs q ha
    have := ih q (fun i a b ha hb => h (i + 1) a b ha hb)
    rw [List.length_cons]
    omega

/-- **C75, stateless reset, understood.** The peer which lost nothing and has the secret recognizes the reset: because it knows the secret of
some connection, when the random bytes are no connection ID of it; or because the packet is taken for one of a connection with this
secret and is not decrypted. -/
theorem C75_reset_understood (rnd : ResetRandom) (hr : GoodRandom rnd) (length : Nat) (hl : 40 ≤ length) (hl' : length ≤ 1537) (secret : Bytes)
    (hs : secret.length = 16) (h : Host) (hc : h.cidLength ≤ 20)
    (known : let found := (if h.cidLength > 0 then h.byId (((resetPacket rnd length secret).drop 1).take h.cidLength) else h.byNet)
      (found = none ∧ h.bySecret secret = true) ∨
      (∃ c, found = some c ∧ c.resetSecret = secret ∧
        (∀ k, (c.keys .oneRtt = some k ∨ c.otherKeys = some k) → ∀ n aad text, k.dec n aad text = none))) :
    ∃ ph cnx, parseAndDecrypt h (resetPacket rnd length secret).length (resetPacket rnd length secret) =
      some ⟨.stateless, (resetPacket rnd length secret).length, some ph, cnx, []⟩ := by
  have hlen := resetPacket_length hr length hs
  obtain ⟨b1, b2⟩ := padSize_bounds hr (length := length) (by unfold RESET_MIN_SIZE; omega)
  have hlast := resetPacket_last rnd length hs
  have hhead : (resetPacket rnd length secret).headD 0 = 0x40 ||| (rnd.bits &&& 0x3F) := rfl
  obtain ⟨f1, f2, -⟩ := resetFirst rnd.bits
  generalize resetPacket rnd length secret = p at *
  have hu : u16 (p.length - (1 + h.cidLength)) = p.length - (1 + h.cidLength) := by unfold u16; omega
  have htake : p.take (1 + h.cidLength + u16 (p.length - (1 + h.cidLength))) = p := by
    rw [hu]; exact List.take_of_length_le (by omega)
  unfold parseAndDecrypt
  have hp : parseHeader h p = parseShort h p := by
    unfold parseHeader
    rw [hhead, if_neg f1]
  rw [hp]
  unfold parseShort
  rw [if_pos (by omega)]
  dsimp only at known ⊢
  rcases known with ⟨k1, k2⟩ | ⟨c, k1, k2, k3⟩
  · rw [k1]
    dsimp only
    rw [if_neg (by simp), if_neg (by simp), if_neg (by simp), if_neg (by simp), htake]
    dsimp only
    rw [if_pos ⟨rfl, by unfold RESET_MIN_SIZE; omega, by rw [hlast]; exact k2⟩]
    exact ⟨_, _, rfl⟩
  · rw [k1]
    dsimp only
    rw [hhead, if_pos (.inl f2)]
    dsimp only
    rw [if_neg (by simp), if_neg (by simp), if_neg (by simp), if_neg (by simp)]
    dsimp only
    rw [if_neg (by simp), htake, if_neg (by unfold MAX_PACKET_SIZE; omega)]
    have und : ∀ ret ph, ph.ptype = .oneRtt → undecrypted ret ph c p = ⟨.stateless, p.length, some ph, some c, []⟩ := by
      intro ret ph hph
      unfold undecrypted
      rw [if_pos ⟨hph, by unfold RESET_MIN_SIZE; omega, by rw [hlast, k2]⟩]
    unfold decrypt
    split
    · rw [und _ _ rfl]; exact ⟨_, _, rfl⟩
    · next k hk =>
      split
      · rw [und _ _ rfl]; exact ⟨_, _, rfl⟩
      · next u hu =>
        dsimp only
        have hnone : (if PType.oneRtt = .oneRtt ∧ u.keyPhase ≠ c.keyPhase then c.otherKeys else some k).bind
            (fun k => k.dec u.pn64 u.decrypted (p.drop u.offset)) = none := by
          split
          · cases ho : c.otherKeys with
            | none => rfl
            | some k' => exact k3 k' (.inr ho) _ _ _
          · exact k3 k (.inl hk) _ _ _
        rw [hnone]
        dsimp only
        rw [und _ _ rfl]; exact ⟨_, _, rfl⟩

/-- **C75, stateless reset, violation.** A datagram of 1538 bytes or more makes the host write behind the end of the buffer, which has 1536 bytes. -/
theorem C75_reset_buffer_violated (length : Nat) (hl : 1538 ≤ length) : ∃ c now ph rnd secretOf p, GoodRandom rnd ∧
    (∀ cid, (secretOf cid : Bytes).length = 16) ∧
    (unknownPacket c false false now length ph rnd secretOf).2 = some p ∧ 1536 < p.length := by
  have hr : GoodRandom ⟨0, fun _ => 0, fun n => List.replicate n 0⟩ := ⟨fun n hn => hn, fun n => List.length_replicate⟩
  refine ⟨⟨0, 0⟩, 0, ⟨.oneRtt, 0, none, [1], [], [], 0, 0, 0, 0⟩, ⟨0, fun _ => 0, fun n => List.replicate n 0⟩, fun _ => List.replicate 16 0,
    resetPacket ⟨0, fun _ => 0, fun n => List.replicate n 0⟩ length (List.replicate 16 0), hr, fun _ => rfl, ?_, ?_⟩
  · unfold unknownPacket
    rw [if_pos ⟨by simp, .inr rfl⟩]
    unfold unexpectedCnxid
    rw [if_pos ⟨by unfold RESET_MIN_SIZE; omega, rfl, Nat.le_refl _⟩]
  · rw [resetPacket_length hr length rfl]
    unfold padSize RESET_MIN_SIZE
    dsimp only
    split <;> omega

/-! ### Version negotiation -/

/-- **C75, version negotiation, server.** A packet of an unknown version for no known connection, in a datagram of at least 1200 bytes from an
address that may be answered, is answered by a version negotiation packet with the connection IDs exchanged, and which lists every supported
version and not the version of the packet. It is shorter than the datagram. -/
theorem C75_vn_answer (h : Host) (blockingDisabled blocked : Bool) (total : Nat) (ht : 1200 ≤ total) (hb : blocked = true → blockingDisabled = true)
    (first flags : UInt8) (r vn : Nat) (hv : versionIndex vn = none) (hr : greaseVn r ≠ vn) (dcid scid : Cid) (rest : Bytes) (hd : dcid.length ≤ 255)
    (hs : scid.length ≤ 255) (hn : h.cidLength = 0 → h.byNet = none) (hn1 : h.byId dcid = none) (hn2 : h.byIcid dcid = none) :
    ∃ p vs, vnDispatch h blockingDisabled blocked total first r
        (flags :: (picoformat32 vn ++ (u8 dcid.length :: dcid) ++ (u8 scid.length :: scid) ++ rest)) = .packet p ∧
      VnMessage scid dcid vs p ∧ (∀ e ∈ versionTable, e.1 ∈ vs) ∧ vn ∉ vs ∧ (vn ≠ 0 → 0 ∉ vs) ∧ p.length < total := by
  refine ⟨vnPacket first r dcid scid, versionTable.map (·.1) ++ [greaseVn r], ?_, vnPacket_message first r dcid scid, ?_, ?_, ?_, ?_⟩
  · unfold vnDispatch mayAnswer INITIAL_MTU
    have hb' : (decide (1200 ≤ total) && (blockingDisabled || !blocked)) = true := by
      rw [decide_eq_true ht]
      cases blocked
      · simp
      · simp [hb rfl]
    rw [if_pos hb', vnAnswer_eq h first flags r vn dcid scid rest hd hs, vnFound_none hn hn1 hn2]
  · intro e he
    exact List.mem_append_left _ (List.mem_map_of_mem he)
  · intro hm
    rcases List.mem_append.1 hm with hm | hm
    · have := versionIndex_isSome.2 hm
      rw [hv] at this; cases this
    · exact hr (List.mem_singleton.1 hm).symm
  · intro _ hm
    rcases List.mem_append.1 hm with hm | hm
    · exact absurd hm (by decide)
    · have : 0 = greaseVn r := List.mem_singleton.1 hm
      unfold greaseVn at this
      have h1 := Nat.right_le_or (n := u32 r &&& 0xF0F0F0F0) (m := 0x0A0A0A0A)
      omega
  · rw [vnPacket_length]; omega

/-- **C75, version negotiation, known connections.** A packet for a known connection, by its destination or by the first destination of its
client, is not answered by a version negotiation packet. -/
theorem C75_vn_silent (h : Host) (blockingDisabled blocked : Bool) (total : Nat)
    (first flags : UInt8) (r vn : Nat) (dcid scid : Cid) (rest : Bytes) (hd : dcid.length ≤ 20)
    (hs : scid.length ≤ 255) (hk : (dcid ≠ [] ∧ dcid.length = h.cidLength ∧ h.byId dcid ≠ none) ∨ h.byIcid dcid ≠ none) :
    vnDispatch h blockingDisabled blocked total first r
        (flags :: (picoformat32 vn ++ (u8 dcid.length :: dcid) ++ (u8 scid.length :: scid) ++ rest)) = .silent := by
  unfold vnDispatch
  split
  · rw [vnAnswer_eq h first flags r vn dcid scid rest (by omega) hs]
    cases hf : vnFound h dcid with
    | some c => rfl
    | none => exact absurd hf (vnFound_some hd hk)
  · rfl

/-- **C75, version negotiation, answers (partial).** For all bytes: a datagram is answered only if it has at least 1200 bytes and comes from an address
that may be answered; the answer is shorter, and for the first packet of a datagram only its own bytes are read. Missing: the other
packets of a datagram, for which it is false. -/
theorem C75_vn_bounds_partial (h : Host) (blockingDisabled blocked : Bool) (first : UInt8) (r : Nat) (bs : Bytes) :
    vnDispatch h blockingDisabled blocked bs.length first r bs ≠ .overread ∧
    (∀ total bs' p, vnDispatch h blockingDisabled blocked total first r bs' = .packet p →
      1200 ≤ total ∧ (blocked = true → blockingDisabled = true) ∧ p.length ≤ 573) := by
  constructor
  · unfold vnDispatch
    by_cases hm : mayAnswer blockingDisabled blocked bs.length = true
    · rw [if_pos hm]
      have : 1200 ≤ bs.length := by
        unfold mayAnswer INITIAL_MTU at hm
        rw [Bool.and_eq_true] at hm
        exact of_decide_eq_true hm.1
      exact vnAnswer_inBounds h first r bs (by omega)
    · rw [if_neg hm]; intro h; cases h
  · intro total bs' p hp
    unfold vnDispatch at hp
    by_cases hm : mayAnswer blockingDisabled blocked total = true
    · rw [if_pos hm] at hp
      refine ⟨?_, ?_, vnAnswer_length h first r bs' p hp⟩
      · unfold mayAnswer INITIAL_MTU at hm
        rw [Bool.and_eq_true] at hm
        exact of_decide_eq_true hm.1
      · intro hb
        unfold mayAnswer at hm
        rw [Bool.and_eq_true, hb] at hm
        simpa using hm.2
    · rw [if_neg hm] at hp; cases hp

/-- **C75, version negotiation, client.** A client gives up its attempt and tells the application exactly when the packet echoes both of its connection IDs,
comes before any other answer, and is a list of versions in which there is a supported one, and not the version
that the client has proposed. -/
theorem C75_vn_client (initSent : Bool) (localCid initialCid : Cid) (proposed : Nat) (ph : Ph) (bs versions : Bytes) :
    incomingVn initSent localCid initialCid proposed ph bs = .disconnect versions ↔
      initSent = true ∧ ph.dcid = localCid ∧ ph.scid = initialCid ∧ ph.vn = 0 ∧ versions = bs.drop ph.offset ∧
        ∃ vs, VersionList vs versions ∧ proposed ∉ vs ∧ 0 ∉ vs ∧ ∃ v ∈ vs, v ∈ versionTable.map (·.1) := by
  have hdl : (bs.drop ph.offset).length ≤ bs.length := by rw [List.length_drop]; omega
  unfold incomingVn
  cases initSent
  · rw [if_pos (by decide)]
    constructor
    · intro h; cases h
    · rintro ⟨h, -⟩; cases h
  · rw [if_neg (by simp)]
    by_cases h1 : ph.dcid ≠ localCid ∨ ph.vn ≠ 0
    · rw [if_pos h1]
      constructor
      · intro h; cases h
      · rintro ⟨-, g1, -, g2, -⟩
        rcases h1 with h | h
        · exact absurd g1 h
        · exact absurd g2 h
    · rw [if_neg h1]
      by_cases h2 : ph.scid ≠ initialCid ∨ ph.vn ≠ 0
      · rw [if_pos h2]
        constructor
        · intro h; cases h
        · rintro ⟨-, -, g1, g2, -⟩
          rcases h2 with h | h
          · exact absurd g1 h
          · exact absurd g2 h
      · rw [if_neg h2]
        have e1 : ph.dcid = localCid := Decidable.byContradiction (fun h => h1 (.inl h))
        have e2 : ph.scid = initialCid := Decidable.byContradiction (fun h => h2 (.inl h))
        have e3 : ph.vn = 0 := Decidable.byContradiction (fun h => h2 (.inr h))
        cases hs : vnScan proposed bs.length (bs.drop ph.offset) with
        | none =>
          dsimp only
          constructor
          · intro h; cases h
          · rintro ⟨-, -, -, -, g5, vs, g6, g7, g8, -⟩
            rw [g5] at g6
            have := (vnScan_iff proposed bs.length _ hdl _).2 ⟨vs, g6, g7, g8, rfl⟩
            rw [hs] at this; cases this
        | some n =>
          dsimp only
          by_cases h0 : n = 0
          · rw [if_pos h0]
            constructor
            · intro h; cases h
            · rintro ⟨-, -, -, -, g5, vs, g6, g7, g8, v, g9, g10⟩
              rw [g5] at g6
              have := (vnScan_iff proposed bs.length _ hdl _).2 ⟨vs, g6, g7, g8, rfl⟩
              rw [hs, h0] at this
              have hm : v ∈ vs.filter (fun v => (versionIndex v).isSome) := List.mem_filter.2 ⟨g9, versionIndex_isSome.2 g10⟩
              have hz := List.length_eq_zero_iff.1 (Option.some.inj this).symm
              rw [hz] at hm
              cases hm
          · rw [if_neg h0]
            obtain ⟨vs, g6, g7, g8, g9⟩ := (vnScan_iff proposed bs.length _ hdl n).1 hs
            constructor
            · intro h
              cases h
              refine ⟨rfl, e1, e2, e3, rfl, vs, g6, g7, g8, ?_⟩
              cases hf : vs.filter (fun v => (versionIndex v).isSome) with
              | nil => rw [hf] at g9; exact absurd g9 h0
              | cons v l =>
                have hm : v ∈ vs.filter (fun v => (versionIndex v).isSome) := by rw [hf]; exact List.mem_cons_self ..
                obtain ⟨m1, m2⟩ := List.mem_filter.1 hm
                exact ⟨v, m1, versionIndex_isSome.1 m2⟩
            · rintro ⟨-, -, -, -, g5, -⟩
              rw [g5]

/-- **C75, version negotiation, together.** A client which proposes a version that the server does not know, and waits for the answer, learns the versions of the server from
the packet that the server sends. -/
theorem C75_vn_together (server client : Host) (blockingDisabled blocked : Bool) (total : Nat) (ht : 1200 ≤ total)
    (hb : blocked = true → blockingDisabled = true)
    (first flags : UInt8) (r vn : Nat) (h0 : vn ≠ 0) (hv : versionIndex vn = none) (hr : greaseVn r ≠ vn) (dcid scid : Cid) (rest : Bytes) (hd : dcid.length ≤ 20)
    (hs : scid.length ≤ 20) (hn : server.cidLength = 0 → server.byNet = none) (hn1 : server.byId dcid = none) (hn2 : server.byIcid dcid = none) :
    ∃ p ph versions vs, vnDispatch server blockingDisabled blocked total first r
        (flags :: (picoformat32 vn ++ (u8 dcid.length :: dcid) ++ (u8 scid.length :: scid) ++ rest)) = .packet p ∧
      parseHeader client p = .header ph (findOther client scid) ∧ ph.ptype = .versionNegotiation ∧
      incomingVn true scid dcid vn ph p = .disconnect versions ∧ VersionList vs versions ∧ ∀ e ∈ versionTable, e.1 ∈ vs := by
  obtain ⟨p, vs, h1, h2, h3, h4, h5, -⟩ := C75_vn_answer server blockingDisabled blocked total ht hb first flags r vn hv hr dcid scid rest
    (by omega) (by omega) hn hn1 hn2
  obtain ⟨ph, tail, k1, k2, k3, k4, k5, k6, k7⟩ := parseHeader_vn client h2 hs hd
  refine ⟨p, ph, tail, vs, h1, k1, k2, ?_, k7, h3⟩
  rw [C75_vn_client]
  exact ⟨rfl, k4, k5, k3, k6.symm, vs, k7, h4, h5 h0, 1, h3 (1, false) (by decide), by decide⟩

/-- **C75, version negotiation, no loop.** A packet with the version number 0, such as a version negotiation packet, is never answered by a version
negotiation packet. -/
theorem C75_vn_no_loop (h : Host) (flags : UInt8) (rest : Bytes) (hf : 128 ≤ flags.toNat) (total : Nat) (seg : Segment)
    (hs : parseAndDecrypt h total (flags :: ([0, 0, 0, 0] ++ rest)) = some seg) : seg.ret ≠ .unsupported := by
  intro hu
  unfold parseAndDecrypt at hs
  have hp := parseHeader_vn_supported h flags rest hf
  cases he : parseHeader h (flags :: ([0, 0, 0, 0] ++ rest)) with
  | unsupported => exact hp he
  | malformed => rw [he] at hs; cases hs; cases hu
  | header ph found =>
    rw [he] at hs
    have und : ∀ ret ph c pkt, ret ≠ Ret.unsupported → (undecrypted ret ph c pkt).ret ≠ .unsupported := by
      intro ret ph c pkt hr
      unfold undecrypted
      split
      · intro h; cases h
      · exact hr
    have dec : ∀ ph c pkt, (decrypt ph c pkt).ret ≠ .unsupported := by
      intro ph c pkt
      unfold decrypt
      split
      · exact und _ _ _ _ (by decide)
      · split
        · exact und _ _ _ _ (by decide)
        · dsimp only
          split
          · exact und _ _ _ _ (by decide)
          · split <;> (intro h; cases h)
    revert hs
    dsimp only
    repeat' split
    all_goals (intro hs; cases hs)
    all_goals first | cases hu | exact dec _ _ _ hu

/-- A client which waits for the answer to its first packet and uses connection IDs of length zero. -/
def slClient : Host :=
  let c : Cnx := ⟨true, 0, true, false, fun _ => none, 0, none, fun _ => 0, fun _ _ => false, List.replicate 16 7⟩
  ⟨0, fun _ => none, some c, fun _ => none, fun _ _ _ => none, fun _ => false⟩

/-- A receiver that notes the return code and the length of each packet. -/
def slMachine (h : Host) : Machine (List (Ret × Nat)) := ⟨fun _ => h, fun s seg => (s ++ [(seg.ret, seg.consumed)], true)⟩

/-- A datagram of 1200 bytes: a Handshake packet of 1194 bytes, and the start of a packet of an unknown version. -/
def slDatagram : Bytes :=
  [0xE3, 0, 0, 0, 1, 0, 0, 0x44, 0xA1] ++ List.replicate 1185 0 ++ [0x80, 0xAB, 0xAB, 0xAB, 0xAB, 0xFF]

/-- **C75, version negotiation, violation.** A host that uses connection IDs of length zero reads behind the end of a datagram: it sends back up to 510 bytes which
are not in the datagram, as connection IDs of a version negotiation packet. -/
theorem C75_vn_overread_violated : slDatagram.length = 1200 ∧
    (receive (slMachine slClient) [] slDatagram).state = [(.notReady, 1194), (.unsupported, 0)] ∧
    ∀ first r, vnDispatch slClient false false slDatagram.length first r (slDatagram.drop 1194) = .overread := by
  refine ⟨by decide +kernel, by decide +kernel, ?_⟩
  intro first r
  have e : slDatagram.drop 1194 = [0x80, 0xAB, 0xAB, 0xAB, 0xAB, 0xFF] := by decide +kernel
  have e' : slDatagram.length = 1200 := by decide +kernel
  rw [e, e']
  rfl

/-! ### Examples -/

/-- Random numbers. -/
def slRandom : ResetRandom := ⟨0xA5, fun n => n / 2, fun n => (List.range n).map UInt8.ofNat⟩

theorem slRandom_good : GoodRandom slRandom :=
  ⟨fun n hn => Nat.div_lt_self hn (by decide), fun n => by show ((List.range n).map UInt8.ofNat).length = n; rw [List.length_map, List.length_range]⟩

/-- A reset of 69 bytes in answer to a packet of 100 bytes, none 10 microseconds later, one to 40 bytes after the interval. -/
example :
    let ph : Ph := ⟨.oneRtt, 0, none, [1, 2, 3, 4, 5, 6, 7, 8], [], [], 9, 91, 0, 0⟩
    let secretOf : Cid → Bytes := fun c => c ++ c
    let c : ResetCtx := ⟨0, 100000⟩
    let p := (unknownPacket c false false 5 100 ph slRandom secretOf)
    p.2.map List.length = some 69 ∧ p.1.nextTime = 100005 ∧ p.2.map lastBytes = some (ph.dcid ++ ph.dcid) ∧
    resetTimes false secretOf c [⟨false, 5, 100, ph, slRandom⟩, ⟨false, 15, 100, ph, slRandom⟩, ⟨true, 100005, 40, ph, slRandom⟩,
      ⟨false, 100005, 40, ph, slRandom⟩] = [5, 100005] := by decide +kernel

/-- The reset is understood by a client with connection IDs of 4 bytes, and by one without. -/
example : ∃ ph cnx, parseAndDecrypt ⟨4, fun _ => none, none, fun _ => none, fun _ _ _ => none, fun s => decide (s = List.replicate 16 7)⟩
    (resetPacket slRandom 100 (List.replicate 16 7)).length (resetPacket slRandom 100 (List.replicate 16 7)) =
      some ⟨.stateless, (resetPacket slRandom 100 (List.replicate 16 7)).length, some ph, cnx, []⟩ :=
  C75_reset_understood slRandom slRandom_good 100 (by omega) (by omega) _ (by decide) _ (by decide)
    (.inl ⟨by decide, by decide⟩)

example : ∃ ph cnx, parseAndDecrypt slClient
    (resetPacket slRandom 100 (List.replicate 16 7)).length (resetPacket slRandom 100 (List.replicate 16 7)) =
      some ⟨.stateless, (resetPacket slRandom 100 (List.replicate 16 7)).length, some ph, cnx, []⟩ :=
  C75_reset_understood slRandom slRandom_good 100 (by omega) (by omega) _ (by decide) _ (by decide)
    (.inr ⟨_, rfl, rfl, fun k hk => by rcases hk with h | h <;> cases h⟩)

/-- A chain of two resets. -/
example : ∃ p ps, ps.length = 2 ∧ ∀ i a b, (p :: ps)[i]? = some a → (p :: ps)[i + 1]? = some b → ResetAnswers a b := by
  let ph : Ph := ⟨.oneRtt, 0, none, [1], [], [], 9, 91, 0, 0⟩
  have key : ∀ p : Bytes, 40 ≤ p.length → ResetAnswers p (resetPacket slRandom p.length (List.replicate 16 7)) := by
    intro p hp
    refine ⟨⟨0, 0⟩, false, false, 0, ph, slRandom, fun _ => List.replicate 16 7, slRandom_good, fun _ => rfl, ?_⟩
    unfold unknownPacket
    rw [if_pos ⟨by simp [ph], .inr rfl⟩]
    unfold unexpectedCnxid
    rw [if_pos ⟨by unfold RESET_MIN_SIZE; omega, rfl, Nat.le_refl _⟩]
  refine ⟨List.replicate 200 0, [resetPacket slRandom 200 (List.replicate 16 7), resetPacket slRandom 119 (List.replicate 16 7)], rfl, ?_⟩
  intro i a b ha hb
  match i with
  | 0 => 
    cases ha; cases hb
    have := key (List.replicate 200 0) (by rw [List.length_replicate]; omega)
    rwa [List.length_replicate] at this
  | 1 =>
    cases ha; cases hb
    have e : (resetPacket slRandom 200 (List.replicate 16 7)).length = 119 := by decide +kernel
    have := key (resetPacket slRandom 200 (List.replicate 16 7)) (by rw [e]; omega)
    rwa [e] at this
  | 2 => cases hb
  | i + 3 => cases ha

/-- A server that is sent a packet of version 0xABABABAB with connection IDs of 8 and 4 bytes, and the client which gets the answer. -/
example :
    let bs : Bytes := 0xC3 :: (picoformat32 0xABABABAB ++ (8 :: [1, 2, 3, 4, 5, 6, 7, 8]) ++ (4 :: [9, 9, 9, 9]) ++ List.replicate 1182 0)
    let server : Host := ⟨8, fun _ => none, none, fun _ => none, fun _ _ _ => none, fun _ => false⟩
    (match vnDispatch server false false bs.length 0x2C 0x123456789 bs with
    | .packet p =>
      p.length == 75 &&
      (match parseHeader slClient p with
       | .header ph _ => (match incomingVn true [9, 9, 9, 9] [1, 2, 3, 4, 5, 6, 7, 8] 0xABABABAB ph p with
          | .disconnect v => v.length == 56
          | _ => false) && decide (incomingVn true [9, 9, 9, 9] [1, 2, 3, 4, 5, 6, 7, 8] 1 ph p = .ignored)
       | _ => false)
    | _ => false) = true := by decide +kernel

end Picoquic.Props
