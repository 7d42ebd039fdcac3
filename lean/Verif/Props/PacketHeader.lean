import Verif.Proof.PacketBounds
/-!
# Properties of packets in datagrams (C69, C70)
-/

namespace Picoquic.Props
open Picoquic.Packet Picoquic.PacketNumber Picoquic.Spec

/-- **C69.** For all ciphers, all connection IDs, tokens, contents, packet numbers within the window, all types of packets and
versions: the packets which a connection put in a datagram, and which the receiver can read when their turn
comes, are delivered in their order with the same type, connection IDs, token, number and content. Packets in advance
of their keys are skipped, and do not stop those behind them. -/
theorem C69_datagram (m : Machine σ) (s : σ) (dest : Cid) (ps : List (Keys × Bool × Out))
    (ciphers : ∀ p ∈ ps, Cipher p.1) (sendable : ∀ p ∈ ps, SendablePacket p.2.2) (same : ∀ p ∈ ps, p.2.2.dcid = dest)
    (order : ShortLast ps) (d : Bytes) (h : datagram ps = some d) (size : d.length ≤ 1536)
    (os : List Out) (takes : Takes m d.length s ps os) :
    (receive m s d).packets.map packetSeen = os.map packetSent :=
  (loop_reads m d.length dest ps ciphers sendable same order d h size d.length s [] os takes (Nat.le_refl _) (.inl rfl)).1

/-- Creating the packets always succeeds. -/
theorem C69_protect_total (k : Keys) (hk : Cipher k) (l : Bool) (o : Out) (ho : SendablePacket o) :
    ∃ w, protect k l o = some w := by
  unfold protect
  dsimp only
  generalize hpay : padTo (createHeader o).1.length ((createHeader o).2.1 + 4 + 16 - 16) o.payload = pay
  generalize hup : updateLength (createHeader o).1 (createHeader o).2.1 ((createHeader o).1.length - (createHeader o).2.2)
    ((createHeader o).1.length + pay.length + 16) = hdr
  have hlen : (createHeader o).2.1 + 4 ≤ (createHeader o).1.length + pay.length := by
    rw [← hpay]
    unfold padTo
    simp
    omega
  have hhl : hdr.length = (createHeader o).1.length ∧ 1 ≤ (createHeader o).2.1 := by
    unfold createHeader at hup ⊢
    split at hup
    · rename_i hp
      rw [if_pos hp]
      obtain ⟨hb80, _⟩ := short_bits ho
      obtain ⟨p1, p2⟩ := ho.pnLength
      have hcs : createShortHeader o.flags o.dcid (1 + o.dcid.length + o.pnLength) o.number =
          ((o.flags ||| u8 (o.pnLength - 1)) :: o.dcid ++ formatPn o.pnLength o.number, 1 + o.dcid.length, o.pnLength) := by
        unfold createShortHeader
        dsimp only
        have hpnl : (if 1 + o.dcid.length + o.pnLength > 1 + o.dcid.length ∧ 1 + o.dcid.length + o.pnLength < 1 + o.dcid.length + 4
            then 1 + o.dcid.length + o.pnLength - (1 + o.dcid.length) else 4) = o.pnLength := by split <;> omega
        rw [hpnl]
      rw [hcs] at hup ⊢
      unfold updateLength at hup
      rw [if_neg (fun hc => hc.1 hb80)] at hup
      rw [← hup]
      exact ⟨rfl, by dsimp only; omega⟩
    · rename_i hp
      rw [if_neg hp]
      rw [createLong_eq ho] at hup ⊢
      dsimp only at hup ⊢
      rw [← hup]
      refine ⟨updateLength_length _ _ _ _ (by omega) (by simp), by omega⟩
  have hel := hk.length o.number hdr pay
  cases hb : hdr ++ k.enc o.number hdr pay with
  | nil =>
    have := congrArg List.length hb
    rw [List.length_append, hel] at this
    simp at this
  | cons b rest =>
    have hbl := congrArg List.length hb
    rw [List.length_append, hel] at hbl
    have hx : (b &&& 3).toNat ≤ 3 := by
      rw [UInt8.toNat_and]; exact Nat.and_le_right
    have hmk := hk.mask ((b :: rest).drop ((createHeader o).2.1 + 4))
    unfold protectPacketHeader
    dsimp only
    have hneg : ¬((createHeader o).2.1 = 0 ∨ (b :: rest).length < (createHeader o).2.1 + ((b &&& 3).toNat + 1) ∨
        (k.mask ((b :: rest).drop ((createHeader o).2.1 + 4))).length < 5) := by omega
    rw [if_neg hneg]
    exact ⟨_, rfl⟩

theorem wire_first (o : Out) (ho : SendablePacket o) (hp : o.ptype ≠ .oneRtt) :
    (firstOf o).toNat >>> 4 = 8 + (if o.grease then 0 else 4) + wireTypeBits o.vn o.ptype := by
  have table : ∀ e ∈ versionTable, ∀ i, versionIndex e.1 = some i → isV2 i = decide (e.1 = 0x6b3343cf ∨ e.1 = 0x709a50c4) := by
    decide
  have hv : isV2 o.version = decide (o.vn = 0x6b3343cf ∨ o.vn = 0x709a50c4) := by
    obtain ⟨-, hi⟩ := ho.version hp
    obtain ⟨hlt, hq, -⟩ := List.findIdx?_eq_some_iff_getElem.1 (show versionTable.findIdx? (fun e => e.1 == o.vn) = some o.version from hi)
    have e : (versionTable[o.version]).1 = o.vn := by simpa using hq
    have := table _ (List.getElem_mem hlt) o.version (by rw [e]; exact hi)
    rw [this, e]
  unfold firstOf createLongType wireTypeBits
  rw [hv]
  rcases ho.ptype with h | h | h | h <;> rw [h] <;> (try exact absurd h hp) <;>
    by_cases hc : o.vn = 0x6b3343cf ∨ o.vn = 0x709a50c4 <;> simp only [hc] <;> cases o.grease <;> decide

/-- **C69, wire.** A packet with a long header begins as RFC 9000 and RFC 9369 say: the header form, the type bits of the
version, the version, the connection IDs behind their lengths, for an Initial packet the token behind its length, and the
length of all that follows. -/
theorem C69_wire (k : Keys) (hk : Cipher k) (l : Bool) (o : Out) (ho : SendablePacket o) (hp : o.ptype ≠ .oneRtt)
    (w : Bytes) (h : protect k l o = some w) (hw : w.length < 16384) :
    ∃ first version token length rest, w = first :: (version ++ ((UInt8.ofNat o.dcid.length :: o.dcid) ++
        ((UInt8.ofNat o.scid.length :: o.scid) ++ (token ++ (length ++ rest))))) ∧
      first.toNat / 128 = 1 ∧ first.toNat / 16 % 4 = wireTypeBits o.vn o.ptype ∧ (first.toNat / 64 % 2 = 0 ↔ o.grease = true) ∧
      version.length = 4 ∧ bigEndian version = o.vn ∧
      (o.ptype = .initial → ∃ e n, IsVarint e n o.token.length ∧ token = n ++ o.token) ∧
      (o.ptype ≠ .initial → token = []) ∧ IsVarint 1 length rest.length := by
  have hpl := protect_length hk ho hp h
  rw [createLong_eq ho] at hpl
  simp only [List.length_append, picoformat32, List.length_cons, List.length_nil] at hpl
  have htok : o.ptype = .initial → o.token.length < 2 ^ 62 := by
    intro hi
    have := createLong_token hi
    have := protect_length hk ho hp h
    omega
  obtain ⟨b, x, rfl, hx, hb, -⟩ := protect_long hk ho hp h (by omega)
  rw [wire_first o ho hp, Nat.shiftRight_eq_div_pow] at hb
  have ht : wireTypeBits o.vn o.ptype < 4 := by
    unfold wireTypeBits
    cases o.ptype <;> split <;> decide
  refine ⟨b, picoformat32 o.vn, if o.ptype = .initial then varintBytes o.token.length ++ o.token else [],
    varintEncode16 (o.payload.length + 20), x, ?_, ?_, ?_, ?_, rfl, bigEndian_format32 ho.vn, ?_, ?_, ?_⟩
  · unfold frontOf
    simp only [u8_ofNat, List.cons_append, List.append_assoc]
  · split at hb <;> omega
  · split at hb <;> omega
  · by_cases hg : o.grease = true
    · rw [if_pos hg] at hb
      exact ⟨fun _ => hg, fun _ => by omega⟩
    · rw [if_neg hg] at hb
      exact ⟨fun _ => by omega, fun q => absurd q hg⟩
  · intro hi
    rw [if_pos hi]
    obtain ⟨e, he, -⟩ := varintBytes_isVarint _ (htok hi)
    exact ⟨e, _, he, rfl⟩
  · intro hi
    rw [if_neg hi]
  · rw [hx]
    have hlt : o.payload.length + 20 < 16384 := by omega
    have := varlen16 _ hlt []
    unfold framesVarlenDecode at this
    rw [framesVarintDecode_iff] at this
    obtain ⟨e, bs, h1, h2⟩ := this
    rw [List.append_nil, List.append_nil] at h1
    have he : e = 1 := by
      have hl := h2.2.1
      rw [← h1] at hl
      have h4 := h2.1
      have : e = 0 ∨ e = 1 ∨ e = 2 ∨ e = 3 := by omega
      rcases this with rfl | rfl | rfl | rfl
      · simp [varintEncode16] at hl
      · rfl
      · simp [varintEncode16] at hl
      · simp [varintEncode16] at hl
    rw [h1, ← he]
    exact h2

/-- **C69, duplicates (violated).** Packets in a datagram are to be treated one by one. But when the first packet was received
before, all others of the datagram are dropped, whatever they are. -/
theorem C69_duplicate_violated (m : Machine σ) (s : σ) (k : Keys) (hk : Cipher k) (l : Bool) (o : Out) (ho : SendablePacket o)
    (hp : o.ptype ≠ .oneRtt) (w : Bytes) (h : protect k l o = some w) (hw : w.length ≤ 1536) (others : Bytes) (c : Cnx)
    (hf : Finds (m.host s) (w ++ others).length o c) (hkeys : c.keys o.ptype = some k) (hv : c.version = o.version)
    (hrec : Recoverable (c.largest o.ptype) o) (hdup : c.received o.ptype o.number = true) :
    (receive m s (w ++ others)).packets = [] := by
  obtain ⟨ph, hh, h1, h2⟩ := found_long hk ho hp h hw hf hv others
  obtain ⟨u, u1, u2, u3⟩ := h2 c.lossIn (c.largest o.ptype) hrec
  have hd : decrypt ph c w = ⟨.duplicate, w.length, some { ph with pn64 := u.pn64 }, some c, []⟩ := by
    unfold decrypt
    rw [hh.ptype, hkeys]
    dsimp only
    rw [decide_eq_false hp, u1]
    dsimp only
    rw [if_neg (fun q => hp q.1), Option.bind_some, u3]
    dsimp only
    rw [u2, hdup, if_pos rfl]
  have hpos := protect_pos hk h
  unfold receive
  obtain ⟨f, hf'⟩ : ∃ f, (w ++ others).length = f + 1 := ⟨(w ++ others).length - 1, by rw [List.length_append]; omega⟩
  generalize (w ++ others).length = len at *
  subst hf'
  unfold receiveLoop
  rw [if_neg (by intro q; have := congrArg List.length q; simp at this; rw [this.1] at hpos; exact absurd hpos (by simp)), h1, hd]
  dsimp only
  rw [if_neg (by simp), if_neg (by simp [goesOn])]

/-! ### Arbitrary datagrams -/

/-- **C70, bounds.** Whatever the datagram and the state: a header that is parsed is in the bytes it was parsed from, and so is
the end of the packet. -/
theorem C70_header_in_bounds (h : Host) (bs : Bytes) (ph : Ph) (c : Option Cnx) (hp : parseHeader h bs = .header ph c) :
    ph.offset ≤ bs.length ∧ ph.offset + ph.payloadLength ≤ bs.length := by
  have := (parseHeader_bounds h bs ph c hp).1
  omega

/-- **C70, memory (partial).** A datagram of at most 1536 bytes is processed without writing out of bounds, whatever its bytes,
the state of the receiver, and what it does with the packets. Missing: longer datagrams. -/
theorem C70_memory_partial (m : Machine σ) (s : σ) (d : Bytes) (size : d.length ≤ 1536) :
    (receive m s d).overflow = false :=
  (loop_bounds m d.length d.length s [] d).1 size

/-- **C70, memory (violated).** Every datagram of more than 1536 bytes which begins like a version negotiation packet is copied
to a buffer of 1536 bytes, in every state of the receiver. -/
theorem C70_memory_violated (m : Machine σ) (s : σ) (x : Bytes) (size : 1536 < x.length + 7) :
    (receive m s (0x80 :: 0 :: 0 :: 0 :: 0 :: 0 :: 0 :: x)).overflow = true := by
  have hp : parseHeader (m.host s) (0x80 :: 0 :: 0 :: 0 :: 0 :: 0 :: 0 :: x) =
      .header ⟨.versionNegotiation, 0, versionIndex 0, [], [], [], (x.length + 7) - x.length,
        u16 ((x.length + 7) - ((x.length + 7) - x.length)), 0, 0⟩ (findOther (m.host s) []) := by
    have hc : ∀ r, framesCidDecode 0 (0 :: r) = .ok [] r := by
      intro r; rw [framesCidDecode_ok_iff]; exact ⟨by decide, rfl⟩
    have h32 : ∀ r, framesUint32Decode (0 :: 0 :: 0 :: 0 :: r) = some (0, r) := by
      intro r; rw [framesUint32Decode_iff]; exact ⟨[0, 0, 0, 0], rfl, rfl, rfl⟩
    unfold parseHeader
    rw [if_pos (by show (0x80 : UInt8) &&& 0x80 = 0x80; decide)]
    unfold parseLong
    rw [show ∀ r, framesUint8Decode (0x80 :: r) = some (0x80, r) from fun _ => rfl]
    dsimp only
    rw [h32]
    dsimp only
    rw [if_neg (by simp), hc]
    dsimp only
    rw [hc]
    dsimp only
    rw [if_pos rfl]
    rfl
  have hs : ∀ t, parseAndDecrypt (m.host s) t (0x80 :: 0 :: 0 :: 0 :: 0 :: 0 :: 0 :: x) = none := by
    intro t
    unfold parseAndDecrypt
    rw [hp]
    dsimp only
    rw [if_pos (.inl rfl), if_pos (by unfold MAX_PACKET_SIZE; simp; omega)]
  unfold receive
  rw [show (0x80 :: 0 :: 0 :: 0 :: 0 :: 0 :: 0 :: x : Bytes).length = (x.length + 6) + 1 from rfl]
  unfold receiveLoop
  rw [if_neg (by simp), hs]

/-- **C70, authenticity.** Whatever the datagram: the content of each packet of an encrypted type which is delivered was
decrypted from a part of the datagram, with keys of a known connection for this type, under the packet number delivered
with it, and this number was not received before. Otherwise the content is empty: no connection was found. -/
theorem C70_delivered_authentic (m : Machine σ) (s : σ) (d : Bytes) (p : Ph × Bytes) (h : p ∈ (receive m s d).packets)
    (henc : EncryptedType p.1.ptype) :
    p.2 = [] ∨ ∃ s' before pkt behind c, d = before ++ (pkt ++ behind) ∧ KnownCnx (m.host s') c ∧
      AuthenticPacket c pkt p.1 p.2 :=
  (loop_bounds m d.length d.length s [] d).2 p h henc

/-- **C70, termination.** The processing of a datagram comes to an end: the bound on the turns of the loop, the number of
bytes, is never what ends it. -/
theorem C70_terminates (m : Machine σ) (s : σ) (d : Bytes) (turns : Nat) (h : d.length ≤ turns) :
    receiveLoop m d.length turns s [] d = receive m s d :=
  loop_fuel m d.length turns d.length s [] d h (Nat.le_refl _)

/-- **C70, stateless reset.** A packet is taken for a stateless reset only if it has at least 39 bytes and its last 16 bytes are a
secret of the connection or one that is registered for the address. -/
theorem C70_stateless_reset (h : Host) (total : Nat) (bs : Bytes) (seg : Segment)
    (hs : parseAndDecrypt h total bs = some seg) (hr : seg.ret = .stateless) :
    seg.consumed ≤ bs.length ∧ 39 ≤ seg.consumed ∧
      ((∃ c, seg.cnx = some c ∧ KnownCnx h c ∧ (bs.take seg.consumed).drop (seg.consumed - 16) = c.resetSecret) ∨
        h.bySecret ((bs.take seg.consumed).drop (seg.consumed - 16)) = true) := by
  have hok := segment_ok hs
  obtain ⟨h1, h2⟩ := hok.stateless hr
  have hl : (bs.take seg.consumed).length = seg.consumed := by
    rw [List.length_take]; have := hok.consumed; omega
  unfold lastBytes at h2
  rw [hl] at h2
  refine ⟨hok.consumed, h1, ?_⟩
  rcases h2 with ⟨c, c1, c2⟩ | h2
  · exact .inl ⟨c, c1, hok.known c c1, c2⟩
  · exact .inr h2

/-! ### Non-vacuity -/

/-- A toy cipher which depends on the number and the authenticated data. -/
def pkKeys : Keys :=
  { enc := fun n aad text => text.map (· ^^^ u8 n) ++ List.replicate 16 (u8 aad.length)
    dec := fun n aad ct =>
      if ct.drop (ct.length - 16) = List.replicate 16 (u8 aad.length) then some ((ct.take (ct.length - 16)).map (· ^^^ u8 n)) else none
    mask := fun sample => [sample.headD 3, 0xA5, 0x5A, 0x77, 1] }

theorem pkKeys_cipher : Cipher pkKeys := by
  refine ⟨?_, ?_, ?_⟩
  · intro n aad text
    simp only [pkKeys]
    have h1 : (List.map (· ^^^ u8 n) text ++ List.replicate 16 (u8 aad.length)).length - 16 =
        (List.map (· ^^^ u8 n) text).length := by simp
    rw [h1, List.drop_left, if_pos rfl, List.take_left, List.map_map]
    congr 1
    have : ((fun x => x ^^^ u8 n) ∘ fun x => x ^^^ u8 n) = id := by
      funext x
      simp [UInt8.xor_assoc]
    rw [this, List.map_id]
  · intro n aad text
    simp [pkKeys]
  · intro sample
    simp [pkKeys]

/-- A client which has the keys of Handshake packets once it has read an Initial packet, and no other keys. -/
def pkCnx (n : Nat) : Cnx :=
  { client := true, version := 0, grease := false, lossIn := false
    keys := fun t => if t = .initial ∨ (t = .handshake ∧ 0 < n) then some pkKeys else none
    keyPhase := 0, otherKeys := none, largest := fun _ => 0, received := fun _ _ => false, resetSecret := [] }

def pkMachine : Machine Nat :=
  { host := fun n =>
      { cidLength := 2, byId := fun id => if id = [7, 8] then some (pkCnx n) else none, byNet := none, byIcid := fun _ => none
        screen := fun _ _ _ => none, bySecret := fun _ => false }
    act := fun n seg => (if seg.ret = .ok then n + 1 else n, true) }

def pkOut (t : PType) (payload : Bytes) : Out :=
  { ptype := t, vn := 1, version := 0, dcid := [7, 8], scid := [1, 2, 3], grease := false, flags := 0x44, token := [5, 5]
    number := 3, pnLength := 2, payload := payload }

def pkPackets : List (Keys × Bool × Out) :=
  [(pkKeys, false, pkOut .initial [1, 2, 3]), (pkKeys, false, pkOut .zeroRtt [4]), (pkKeys, false, pkOut .handshake [9, 9]),
   (pkKeys, false, pkOut .oneRtt [8])]

theorem pkSendable : ∀ p ∈ pkPackets, SendablePacket p.2.2 := by
  intro p hp
  simp only [pkPackets, List.mem_cons, List.not_mem_nil, or_false] at hp
  rcases hp with rfl | rfl | rfl | rfl <;>
    exact ⟨by decide, by decide, by decide, by decide, by decide, by decide, by decide⟩

theorem pkFinds (n t : Nat) (o : Out) (hp : o ∈ pkPackets.map (·.2.2)) : Finds (pkMachine.host n) t o (pkCnx n) := by
  simp only [pkPackets, List.map_cons, List.map_nil, List.mem_cons, List.not_mem_nil, or_false] at hp
  rcases hp with rfl | rfl | rfl | rfl
  · rw [Finds, if_neg (by decide)]
    exact .inl ⟨rfl, by show ((false = true) → _); simp, fun _ h => absurd (show (true = false) from h) (by decide)⟩
  · rw [Finds, if_neg (by decide)]
    exact .inl ⟨rfl, by show ((false = true) → _); simp, fun _ h => absurd (show (true = false) from h) (by decide)⟩
  · rw [Finds, if_neg (by decide)]
    exact .inl ⟨rfl, by show ((false = true) → _); simp, fun _ h => absurd (show (true = false) from h) (by decide)⟩
  · rw [Finds, if_pos (by decide)]
    exact ⟨rfl, rfl, by show ((0x44 : UInt8) &&& 0x40 = 0 → _); intro h; exact absurd h (by decide)⟩

theorem pkRecoverable (t : PType) (x : Bytes) (ht : t ≠ .oneRtt) : Recoverable 0 (pkOut t x) := by
  have hn : numberBytes (pkOut t x) = 4 := if_neg ht
  exact ⟨by decide, by rw [hn]; show 0 + 1 ≤ 3 + _; omega, by rw [hn]; show 3 < _; decide⟩

/-- The second packet is skipped, since its keys are missing; the third one can be read because the first one was; the
last one is skipped. -/
theorem pkTakes (t : Nat) : Takes pkMachine t 0 pkPackets [pkOut .initial [1, 2, 3], pkOut .handshake [9, 9]] := by
  refine .taken (c := pkCnx 0) (pkFinds 0 t _ (by decide)) ⟨rfl, fun _ => rfl, fun h => absurd h (by decide), fun h => absurd h (by decide),
    pkRecoverable _ _ (by decide), rfl⟩ (fun _ _ _ _ _ => rfl) ?_
  intro seg ph h1 _ _
  have e : (pkMachine.act 0 seg).1 = 1 := by simp [pkMachine, h1]
  rw [e]
  refine .locked (c := pkCnx 1) (pkFinds 1 t _ (by decide)) rfl (fun _ => rfl) ?_
  intro seg h1
  have e : (pkMachine.act 1 seg).1 = 1 := by rcases h1 with h1 | h1 <;> simp [pkMachine, h1]
  rw [e]
  refine .taken (c := pkCnx 1) (pkFinds 1 t _ (by decide)) ⟨rfl, fun _ => rfl, fun h => absurd h (by decide), fun h => absurd h (by decide),
    pkRecoverable _ _ (by decide), rfl⟩ (fun _ _ _ _ _ => rfl) ?_
  intro seg ph h1 _ _
  have e : (pkMachine.act 1 seg).1 = 2 := by simp [pkMachine, h1]
  rw [e]
  refine .locked (c := pkCnx 2) (pkFinds 2 t _ (by decide)) rfl (fun h => absurd rfl h) ?_
  intro seg h1
  exact .nil _

/-- Non-vacuity of C69: a datagram with four packets, two of which can be read. -/
example : ∃ d, datagram pkPackets = some d ∧ d.length = 134 ∧
    (receive pkMachine 0 d).packets.map packetSeen = [packetSent (pkOut .initial [1, 2, 3]), packetSent (pkOut .handshake [9, 9])] := by
  obtain ⟨d, hd, hl⟩ : ∃ d, datagram pkPackets = some d ∧ d.length = 134 := by
    cases h : datagram pkPackets with
    | none => exact absurd h (by decide +kernel)
    | some d =>
      refine ⟨d, rfl, ?_⟩
      have : (datagram pkPackets).map List.length = some 134 := by decide +kernel
      rw [h] at this
      simpa using this
  refine ⟨d, hd, hl, ?_⟩
  exact C69_datagram pkMachine 0 [7, 8] pkPackets (by
      intro p hp
      simp only [pkPackets, List.mem_cons, List.not_mem_nil, or_false] at hp
      rcases hp with rfl | rfl | rfl | rfl <;> exact pkKeys_cipher)
    pkSendable (by decide) (by simp [ShortLast, pkPackets, pkOut]) d hd (by omega) _ (pkTakes _)

/-- The same client when it has already received the Initial packet number 3. -/
def pkSeen : Machine Nat :=
  { host := fun n =>
      { cidLength := 2
        byId := fun id => if id = [7, 8] then some { pkCnx n with received := fun t k => decide (t = .initial ∧ k = 3) } else none
        byNet := none, byIcid := fun _ => none, screen := fun _ _ _ => none, bySecret := fun _ => false }
    act := fun n seg => (if seg.ret = .ok then n + 1 else n, true) }

/-- Non-vacuity of the violation: here the Handshake packet could be read, and it is dropped. -/
example : ∃ a b, protect pkKeys false (pkOut .initial [1, 2, 3]) = some a ∧ protect pkKeys false (pkOut .handshake [9, 9]) = some b ∧
    (receive pkSeen 1 (a ++ b)).packets = [] ∧ (receive pkSeen 1 b).packets.map packetSeen = [packetSent (pkOut .handshake [9, 9])] := by
  obtain ⟨a, ha⟩ := C69_protect_total pkKeys pkKeys_cipher false (pkOut .initial [1, 2, 3]) (pkSendable (pkKeys, false, pkOut .initial [1, 2, 3]) (by simp [pkPackets]))
  obtain ⟨b, hb⟩ := C69_protect_total pkKeys pkKeys_cipher false (pkOut .handshake [9, 9]) (pkSendable (pkKeys, false, pkOut .handshake [9, 9]) (by simp [pkPackets]))
  have hal : a.length ≤ 1536 := by
    have : (protect pkKeys false (pkOut .initial [1, 2, 3])).map (fun x => decide (x.length ≤ 1536)) = some true := by decide +kernel
    rw [ha] at this
    simpa using this
  have hbl : b.length ≤ 1536 := by
    have : (protect pkKeys false (pkOut .handshake [9, 9])).map (fun x => decide (x.length ≤ 1536)) = some true := by decide +kernel
    rw [hb] at this
    simpa using this
  refine ⟨a, b, ha, hb, ?_, ?_⟩
  · apply C69_duplicate_violated pkSeen 1 pkKeys pkKeys_cipher false _ (pkSendable (pkKeys, false, pkOut .initial [1, 2, 3]) (by simp [pkPackets]))
      (by decide) a ha (by omega) b { pkCnx 1 with received := fun t k => decide (t = .initial ∧ k = 3) }
    · rw [Finds, if_neg (by decide)]
      exact .inl ⟨rfl, by show ((false = true) → _); simp, fun _ h => absurd (show (true = false) from h) (by decide)⟩
    · rfl
    · rfl
    · exact pkRecoverable _ _ (by decide)
    · rfl
  · refine C69_datagram pkSeen 1 [7, 8] [(pkKeys, false, pkOut .handshake [9, 9])] (by simp [pkKeys_cipher])
      (by intro p hp; exact pkSendable p (by simp at hp; rw [hp]; simp [pkPackets])) (by decide) (by simp [ShortLast]) b
      (by simp [datagram, hb]) hbl [pkOut .handshake [9, 9]] ?_
    refine .taken (c := { pkCnx 1 with received := fun t k => decide (t = .initial ∧ k = 3) }) ?_
      ⟨rfl, fun _ => rfl, fun h => absurd h (by decide), fun h => absurd h (by decide), pkRecoverable _ _ (by decide), rfl⟩
      (fun _ _ _ _ _ => rfl) (fun _ _ _ _ _ => .nil _)
    rw [Finds, if_neg (by decide)]
    exact .inl ⟨rfl, by show ((false = true) → _); simp, fun _ h => absurd (show (true = false) from h) (by decide)⟩

end Picoquic.Props
