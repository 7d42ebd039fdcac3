import Verif.Proof.TransportAgree
/-!
# C20, C58, C59: the exchange of transport parameters

`prepare a room` is the extension that connection `a` writes, if it fits in `room` bytes; `receive b bs` is
what becomes of connection `b` when it parses the extension `bs`.
-/

namespace Picoquic.Props
open Picoquic Picoquic.Spec Picoquic.TransportParams

/-! ## C20: what is set is what the peer reads -/

/-- The extension written from legal settings is accepted by the peer without error, and the peer has
then read the settings (as rounded and completed by `learned`), if the two ports of the preferred address,
if any, are equal. Missing: different ports, see `C20_preferred_port_violated`. -/
theorem C20_roundtrip_partial (a b : Conn) (hl : LegalSettings a) (hp : Peers a b)
    (hport : ∀ p, a.loc.preferred = some p → p.ipv6Port = p.ipv4Port)
    (room : Nat) (hr : room < 2 ^ 62) (bs : Bytes) (h : prepare a room = some bs) :
    ∃ b', receive b bs = some (b', false) ∧ b'.errs = b.errs ∧ b'.rem = learned a b := by
  obtain ⟨n, h1, h2⟩ := exchange hl hp hr h
  refine ⟨_, h1, accepted_errs _ _, ?_⟩
  rw [h2]
  have : a.loc.preferred.map (fun p => { p with ipv6Port := p.ipv4Port }) = a.loc.preferred := by
    cases hpr : a.loc.preferred with
    | none => rfl
    | some p =>
      have := hport p hpr
      obtain ⟨x1, x2, x3, x4, x5, x6⟩ := p
      dsimp only at this
      subst this
      rfl
  rw [this]
  rfl

/-- The port for IPv6 of a preferred address is replaced by the port for IPv4: the client never reads
the one that was set. -/
theorem C20_preferred_port_violated (a b : Conn) (hl : LegalSettings a) (hp : Peers a b)
    (p : PreferredAddress) (hpr : a.loc.preferred = some p) (hport : p.ipv6Port ≠ p.ipv4Port)
    (room : Nat) (hr : room < 2 ^ 62) (bs : Bytes) (h : prepare a room = some bs) :
    ∃ b' q, receive b bs = some (b', false) ∧ b'.rem.preferred = some q ∧ q.ipv4Port = p.ipv4Port ∧
      q.ipv6Port ≠ p.ipv6Port := by
  obtain ⟨n, h1, h2⟩ := exchange hl hp hr h
  refine ⟨_, { p with ipv6Port := p.ipv4Port }, h1, ?_, rfl, fun e => hport e.symm⟩
  rw [h2]
  dsimp only
  rw [hpr]
  rfl

/-! ## C58: the idle timeout -/

/-- The idle timeout in use after the exchange is the one that RFC 9000 prescribes, if both values, in
microseconds, fit in 64 bits. Missing: larger values, see `C58_idle_timeout_violated`. -/
theorem C58_idle_timeout_partial (a b : Conn) (hl : LegalSettings a) (hp : Peers a b)
    (ha : a.loc.idleTimeout * 1000 < 2 ^ 64) (hb : b.loc.idleTimeout * 1000 < 2 ^ 64)
    (room : Nat) (hr : room < 2 ^ 62) (bs : Bytes) (h : prepare a room = some bs) :
    ∃ b', receive b bs = some (b', false) ∧
      b'.idleTimeout = negotiatedIdle a.loc.idleTimeout b.loc.idleTimeout := by
  obtain ⟨n, h1, h2⟩ := exchange hl hp hr h
  refine ⟨_, h1, ?_⟩
  rw [← idleValue_eq ha hb, idleValue_comm, accepted_idle, segments_read hl]
  rfl

/-- An end that advertises 2^61 + 1 ms, to a peer without a timeout of its own: the peer uses 1 ms. -/
theorem C58_idle_timeout_violated (a b : Conn) (hl : LegalSettings a) (hp : Peers a b)
    (ha : a.loc.idleTimeout = 2 ^ 61 + 1) (hb : b.loc.idleTimeout = 0)
    (room : Nat) (hr : room < 2 ^ 62) (bs : Bytes) (h : prepare a room = some bs) :
    ∃ b', receive b bs = some (b', false) ∧ b'.idleTimeout = 1000 := by
  obtain ⟨n, h1, h2⟩ := exchange hl hp hr h
  refine ⟨_, h1, ?_⟩
  have e : (seen a).idleTimeout = 2 ^ 61 + 1 := ha
  rw [accepted_idle, segments_read hl, hb, e]
  decide

/-! ## C59: both ends agree on the options -/

/-- A client and a server with legal settings that exchange their transport parameters (the client has
followed the server in a change of version) agree on the options of the connection. -/
theorem C59_options_agree (a b : Conn) (ha : LegalSettings a) (hb : LegalSettings b) (hp : Peers a b)
    (hc : a.client = true) (hcid : a.remoteCid = b.localCid) (fa : Fresh a) (fb : Fresh b)
    (ra : Nat) (hra : ra < 2 ^ 62) (bsA : Bytes) (hA : prepare a ra = some bsA) :
    ∃ b', receive b bsA = some (b', false) ∧
      ∀ rb bsB, rb < 2 ^ 62 → prepare b' rb = some bsB →
        ∃ a', receive { a with version := b'.version } bsB = some (a', false) ∧ OptionsAgree a' b' := by
  obtain ⟨n, h1, h2⟩ := exchange ha hp hra hA
  have hi := informed ha fb hb.version.1 n h2
  refine ⟨_, h1, ?_⟩
  intro rb bsB hrb hB
  obtain ⟨g1, g2, g3⟩ := server_legal hb hp hc hcid hi rfl
  obtain ⟨m, k1, k2⟩ := exchange g1 g2 hrb hB
  have hj := informed g1 (b := { a with version := (negotiateOptions (negotiateMultipath
    (before b (segments a n).flatten))).version }) ⟨fa.1, fa.2, fa.3, fa.4, fa.5⟩ g1.version.1 m k2
  refine ⟨_, k1, ?_⟩
  refine agree ha hp hc hi rfl (a1 := { a with version := _ }) ?_ hj rfl
  exact ⟨rfl, rfl⟩

/-! ## Concrete cases -/

/-- A server with all options, and a preferred address. -/
def exFull : Conn :=
  { client := false, localCid := [1, 2], remoteCid := [9], initialCid := [3, 4, 5], hcidVerified := true
    doVersionNegotiation := true, grease := true
    loc := { maxStreamDataBidiLocal := 65536, maxStreamDataBidiRemote := 65535, maxStreamDataUni := 7,
             maxData := 1000000, maxStreamsBidi := 512, maxStreamsUni := 3, idleTimeout := 30000,
             maxPacketSize := 1440, maxAckDelay := 10500, activeCidLimit := 8, ackDelayExponent := 4,
             migrationDisabled := true, maxDatagram := 1200, lossBit := 5, timeStamp := 3,
             minAckDelay := 1000, greaseQuicBit := true, bdpFrame := 1, multipath := true, maxPathId := 2,
             addressDiscovery := 3,
             preferred := some { ipv4 := [10, 0, 0, 1], ipv4Port := 4433, ipv6 := List.replicate 16 1,
                                 ipv6Port := 4433, cid := [7, 7, 7, 7], token := List.replicate 16 8 } } }

/-- Its client. -/
def exFullClient : Conn :=
  { client := true, localCid := [9], remoteCid := [1, 2], initialCid := [3, 4, 5], desiredVersion := 0x6b3343cf
    doVersionNegotiation := true
    loc := { maxStreamDataBidiLocal := 1, maxData := 2, maxPacketSize := 1232, maxAckDelay := 25000,
             ackDelayExponent := 3, idleTimeout := 20000, timeStamp := 1, multipath := true, maxPathId := 4,
             minAckDelay := 500, lossBit := 1, addressDiscovery := 1, greaseQuicBit := true } }

theorem exFull_legal : LegalSettings exFull := by
  refine ⟨?_, ?_, ?_, ?_, ?_, ?_, ?_, ?_, ?_, ?_, ?_, ?_, ?_, ?_, ?_, ?_, ?_, ?_, ?_, ?_, ?_⟩
  all_goals first | decide | (intro p h; cases h; decide)

theorem exFullClient_legal : LegalSettings exFullClient := by
  refine ⟨?_, ?_, ?_, ?_, ?_, ?_, ?_, ?_, ?_, ?_, ?_, ?_, ?_, ?_, ?_, ?_, ?_, ?_, ?_, ?_, ?_⟩
  all_goals first | decide | (intro p h; cases h)

theorem exFull_peers : Peers exFull exFullClient ∧ Peers exFullClient exFull :=
  ⟨⟨rfl, rfl, rfl, rfl, rfl, fun _ => rfl, (fun h => by cases h)⟩,
   ⟨rfl, rfl, rfl, rfl, rfl, (fun h => by cases h), fun _ => .inr (.inr (.inr ⟨rfl, .inl rfl⟩))⟩⟩

example : Fresh exFull ∧ Fresh exFullClient := ⟨⟨rfl, rfl, rfl, rfl, rfl⟩, ⟨rfl, rfl, rfl, rfl, rfl⟩⟩
-- both write an extension, and fail to without enough room
example : (prepare exFull 1000).isSome = true ∧ (prepare exFullClient 1000).isSome = true ∧
    prepare exFull 100 = none := by decide +kernel
-- what the client reads: the maximum ACK delay has been rounded up
example : ((prepare exFull 1000).bind (receive exFullClient)).map
    (fun x => (x.1.rem.maxAckDelay, x.1.rem.maxData, x.1.rem.preferred == exFull.loc.preferred)) =
    some (11000, 1000000, true) := by decide +kernel
-- the handshake: the server changes to version 2, and the options are in use
example : ((prepare exFullClient 1000).bind (receive exFull)).map
    (fun x => (x.1.version, x.1.multipath, x.1.maxPathIdRemote, x.1.timeStampSent, x.1.ackFrequency,
      x.1.idleTimeout)) = some (0x6b3343cf, true, 4, true, true, 20000000) := by decide +kernel
-- the hypotheses of the two violations are met
example : LegalSettings { exFullClient with loc := { exFullClient.loc with idleTimeout := 2 ^ 61 + 1 } } ∧
    (prepare { exFullClient with loc := { exFullClient.loc with idleTimeout := 2 ^ 61 + 1 } } 1000).isSome := by
  refine ⟨?_, by decide +kernel⟩
  obtain ⟨l1, l2, l3, l4, l5, l6, l7, l8, l9, l10, l11, l12, l13, l14, l15, l16, l17, l18, l19, l20, l21⟩ :=
    exFullClient_legal
  exact ⟨l1, l2, l3, l4, l5, l6, by decide, l8, l9, l10, l11, l12, l13, l14, l15, l16, l17, l18, l19, l20, l21⟩
example : (prepare { exFull with loc := { exFull.loc with preferred :=
    (exFull.loc.preferred.map (fun p => { p with ipv6Port := 4434 })) } } 1000).isSome = true := by decide +kernel

/-! ## C21: legal extensions are accepted -/

/-- A legal extension (RFC 9000), with a maximum packet size of at most 65527 and version information
that the receiver can follow, is accepted without error. -/
theorem C21_legal_accepted_partial (c : Conn) (bs : Bytes) (ps : List (Nat × Bytes)) (hext : Extension bs ps)
    (h : Legal c.client ps) (hs : ∀ v n, (3, v) ∈ ps → Varint v n → n ≤ 65527)
    (hc : CidsMatch c.client c.remoteCid c.initialCid c.originalCid ps)
    (hv : ∀ v, (0x11, v) ∈ ps → VersionsAgree c v) :
    ∃ c', receive c bs = some (c', false) ∧ c'.errs = c.errs := by
  refine ⟨_, receive_good c hext ?_ (h.once.filter _) h.roles hc, accepted_errs _ _⟩
  intro t v hm
  refine ⟨fun hi => h.integers t v hm hi, ?_, h.blocks t v hm, ?_, ?_, ?_⟩
  · rintro rfl
    obtain ⟨n, h1, -⟩ := h.integers 3 v hm (by decide)
    rw [val_varint h1]
    exact hs v n hm h1
  · rintro rfl
    have h1 := lastOf_mem hm h.once
    have h2 := lastOf_mem hc.source h.once
    rw [h1] at h2
    exact Option.some.inj h2
  · rintro rfl
    cases hcl : c.client with
    | true => rfl
    | false => exact absurd rfl (h.roles hcl 2 v hm).2.1
  · rintro rfl
    exact versionsGood_of_agree (hv v hm)

/-- A legal extension: a connection ID, an exponent of 5 and a flag. -/
example : ∃ ps, Extension [15, 1, 9, 10, 1, 5, 12, 0] ps ∧ Legal exFull.client ps ∧
    CidsMatch exFull.client exFull.remoteCid exFull.initialCid exFull.originalCid ps := by
  refine ⟨[(15, [9]), (10, [5]), (12, [])], extension_of_parse (fuel := 9) (by decide), ⟨by decide, ?_, ?_, ?_⟩,
    ⟨by decide, (fun h => by cases h), (fun h => by cases h)⟩⟩
  · intro t v hm hi
    simp only [List.mem_cons, List.not_mem_nil, or_false, Prod.mk.injEq] at hm
    rcases hm with ⟨rfl, rfl⟩ | ⟨rfl, rfl⟩ | ⟨rfl, rfl⟩
    · exact absurd hi (by decide)
    · exact ⟨5, ⟨0, by decide⟩, by unfold LegalInteger; decide⟩
    · exact absurd hi (by decide)
  · intro t v hm
    simp only [List.mem_cons, List.not_mem_nil, or_false, Prod.mk.injEq] at hm
    rcases hm with ⟨rfl, rfl⟩ | ⟨rfl, rfl⟩ | ⟨rfl, rfl⟩ <;>
      exact ⟨by decide, by decide, by decide, fun h => absurd h (by decide)⟩
  · intro _ t v hm
    simp only [List.mem_cons, List.not_mem_nil, or_false, Prod.mk.injEq] at hm
    rcases hm with ⟨rfl, rfl⟩ | ⟨rfl, rfl⟩ | ⟨rfl, rfl⟩ <;> decide

end Picoquic.Props
