import Verif.Proof.TransportRoundTrip
import Verif.Proof.AckFormat
/-!
# Transport parameters: what is written
-/

namespace Picoquic.TransportParams
open Picoquic Picoquic.Spec

/-- An encoder that only writes these parameters. -/
def Emits (e : Enc) (ps : List (Nat × Bytes)) : Prop :=
  ∀ room bs, e room = some bs → Extension bs ps

/-- A parameter written under a condition. -/
def opt (c : Bool) (t : Nat) (v : Bytes) : List (Nat × Bytes) := if c then [(t, v)] else []

theorem varintEncode_some {n room : Nat} {bs : Bytes} (h : framesVarintEncode n room = some bs) :
    bs = varintBytes n := by
  rw [framesVarintEncode_eq] at h
  split at h
  · exact (Option.some.inj h).symm
  · cases h

theorem extension_one {t l v : Bytes} {type : Nat} (ht : Varint t type) (hl : Varint l v.length) :
    Extension (t ++ (l ++ v)) [(type, v)] := by
  have := Extension.cons (v := v) ht hl Extension.nil
  rw [List.append_nil] at this
  exact this

theorem emits_nothing : Emits encNothing [] := by
  intro room bs h
  obtain rfl := Option.some.inj h
  exact .nil

theorem emits_seq {e f : Enc} {ps qs : List (Nat × Bytes)} (he : Emits e ps) (hf : Emits f qs) :
    Emits (e.seq f) (ps ++ qs) := by
  intro room bs h
  obtain ⟨a, b, h1, h2, rfl⟩ := Ack.seq_some h
  exact extension_append (he _ _ h1) (hf _ _ h2)

theorem emits_if {e : Enc} {t : Nat} {v : Bytes} (c : Bool) (h : c = true → Emits e [(t, v)]) :
    Emits (encIf c e) (opt c t v) := by
  cases c with
  | true => exact h rfl
  | false => exact emits_nothing

theorem emits_varint (t n : Nat) (ht : t < 2 ^ 62) :
    Emits (tpTypeVarintEncode t n) [(t, varintBytes n)] := by
  intro room bs h
  obtain ⟨a, b, h1, h2, rfl⟩ := Ack.seq_some h
  obtain rfl := varintEncode_some h1
  unfold tpVarintEncode at h2
  split at h2
  · cases h2
  cases hv : framesVarintEncode n (room - (varintBytes t).length - 1) with
  | none => rw [hv] at h2; cases h2
  | some w =>
    rw [hv] at h2
    obtain rfl := Option.some.inj h2
    obtain rfl := varintEncode_some hv
    have hl : (varintBytes n).length < 64 := by
      rw [varintBytes_length]; unfold encodeVarintLength
      (repeat' split) <;> omega
    have := extension_one (v := varintBytes n) (Ack.varintBytes_varint ht)
      (l := [u8 (varintBytes n).length]) ⟨0, by decide, rfl, hl, by
        simp only [bigEndian, List.length_nil, u8_toNat]
        omega⟩
    exact this

theorem emits_flag (t : Nat) (ht : t < 2 ^ 62) : Emits (tpTypeFlagEncode t) [(t, [])] := by
  intro room bs h
  obtain ⟨a, b, h1, h2, rfl⟩ := Ack.seq_some h
  obtain rfl := varintEncode_some h1
  obtain rfl := varintEncode_some h2
  have := extension_one (v := []) (Ack.varintBytes_varint ht) (Ack.varintBytes_varint (n := 0) (by decide))
  rw [List.append_nil] at this
  exact this

theorem emits_cid (t : Nat) (cid : Cid) (ht : t < 2 ^ 62) (hc : List.length cid ≤ 20) :
    Emits (tpCidEncode t cid) [(t, cid)] := by
  intro room bs h
  obtain ⟨a, b, h1, h2, rfl⟩ := Ack.seq_some h
  obtain rfl := varintEncode_some h1
  unfold framesCidEncode at h2
  have hb : b = varintBytes (List.length cid) ++ cid := by
    rw [framesLengthDataEncode_eq] at h2
    split at h2
    · exact (Option.some.inj h2).symm
    · cases h2
  subst hb
  exact extension_one (Ack.varintBytes_varint ht) (Ack.varintBytes_varint (Nat.lt_of_le_of_lt hc (by decide)))

/-- The value of the preferred address parameter. -/
def preferredValue (a : PreferredAddress) : Bytes :=
  a.ipv4 ++ picoformat16 a.ipv4Port ++ a.ipv6 ++ picoformat16 a.ipv4Port ++
    [u8 a.cid.length] ++ a.cid ++ a.token

theorem emits_preferred (a : PreferredAddress) (h4 : a.ipv4.length = 4) (h6 : a.ipv6.length = 16)
    (hc : List.length a.cid ≤ 20) (ht : a.token.length = 16) :
    Emits (preferredEncode a) [(13, preferredValue a)] := by
  intro room bs h
  obtain ⟨x, b, h1, h2, rfl⟩ := Ack.seq_some h
  obtain ⟨y, z, h3, h5, rfl⟩ := Ack.seq_some h2
  obtain rfl := varintEncode_some h1
  obtain rfl := varintEncode_some h3
  have hl : (preferredValue a).length = 25 + List.length a.cid + 16 := by
    unfold preferredValue picoformat16
    simp only [List.length_append, List.length_cons, List.length_nil]
    omega
  unfold encBlock at h5
  split at h5
  · cases h5
  · obtain rfl := Option.some.inj h5
    refine extension_one (v := preferredValue a) (Ack.varintBytes_varint (by decide)) ?_
    rw [hl]
    exact Ack.varintBytes_varint (Nat.lt_of_le_of_lt (by omega : _ ≤ 61) (by decide))

theorem encUint32s_some {ws : List Nat} {room : Nat} {bs : Bytes} (h : encUint32s ws room = some bs) :
    bs = ws.flatMap picoformat32 := by
  induction ws generalizing room bs with
  | nil => exact (Option.some.inj h).symm
  | cons w ws ih =>
    obtain ⟨a, b, h1, h2, rfl⟩ := Ack.seq_some h
    rw [ih h2, List.flatMap_cons]
    unfold framesUint32Encode at h1
    split at h1
    · cases h1
    · rw [← Option.some.inj h1]; rfl

theorem flatMap32_length (ws : List Nat) : (ws.flatMap picoformat32).length = 4 * ws.length := by
  induction ws with
  | nil => rfl
  | cons w ws ih =>
    rw [List.flatMap_cons, List.length_append, ih, List.length_cons]
    have : (picoformat32 w).length = 4 := rfl
    omega

theorem versionWords_flatMap (ws : List Nat) (h : ∀ w ∈ ws, w < 2 ^ 32) :
    versionWords (ws.flatMap picoformat32) = ws := by
  induction ws with
  | nil => rfl
  | cons w ws ih =>
    rw [List.flatMap_cons]
    have h1 : picoformat32 w = [u8 (w >>> 24), u8 (w >>> 16), u8 (w >>> 8), u8 w] := rfl
    rw [h1]
    simp only [List.cons_append, List.nil_append, versionWords]
    rw [← h1, bigEndian_format32 (h w (by simp)), ih (fun x hx => h x (by simp [hx]))]

theorem versionList_length (c : Conn) : (versionList c).length ≤ 14 := by
  unfold versionList
  (repeat' split) <;> exact Nat.le_of_ble_eq_true rfl

theorem emits_version (c : Conn) :
    Emits (versionEncode c) [(0x11, (versionList c).flatMap picoformat32)] := by
  intro room bs h
  obtain ⟨x, b, h1, h2, rfl⟩ := Ack.seq_some h
  obtain ⟨y, z, h3, h5, rfl⟩ := Ack.seq_some h2
  obtain rfl := varintEncode_some h1
  obtain rfl := encUint32s_some h5
  unfold framesUint16Encode at h3
  split at h3
  · cases h3
  obtain rfl := Option.some.inj h3
  have hl := versionList_length c
  refine extension_one (Ack.varintBytes_varint (by decide)) ⟨1, by decide, rfl, ?_, ?_⟩
  · rw [flatMap32_length]
    show _ < 2 ^ 14
    omega
  · rw [flatMap32_length]
    have : bigEndian (picoformat16 (0x4000 + 4 * (versionList c).length)) =
        0x4000 + 4 * (versionList c).length := bigEndian_format16 (by omega)
    unfold picoformat16 at this
    rw [this]

theorem emits_token (secret : Bytes) (h : secret.length = 16) :
    Emits (resetTokenEncode secret) [(2, secret)] := by
  intro room bs h0
  obtain ⟨x, b, h1, h2, rfl⟩ := Ack.seq_some h0
  obtain ⟨y, z, h3, h5, rfl⟩ := Ack.seq_some h2
  obtain rfl := varintEncode_some h1
  obtain rfl := varintEncode_some h3
  split at h5
  · obtain rfl := Option.some.inj h5
    refine extension_one (Ack.varintBytes_varint (by decide)) ?_
    rw [h]
    exact Ack.varintBytes_varint (by decide)
  · cases h5

theorem emits_large (n : Nat) (h : n < 2 ^ 62) :
    Emits (largeEncode n) [(3127, List.replicate n 0x51)] := by
  intro room bs h0
  obtain ⟨x, b, h1, h2, rfl⟩ := Ack.seq_some h0
  obtain ⟨y, z, h3, h5, rfl⟩ := Ack.seq_some h2
  obtain rfl := varintEncode_some h1
  obtain rfl := varintEncode_some h3
  unfold encBlock at h5
  split at h5
  · cases h5
  · obtain rfl := Option.some.inj h5
    refine extension_one (Ack.varintBytes_varint (by decide)) ?_
    rw [List.length_replicate]
    exact Ack.varintBytes_varint h

/-- The segment of the preferred address. -/
def preferredSegment : Option PreferredAddress → List (Nat × Bytes)
  | none => []
  | some x => [(13, preferredValue x)]

/-- The parameters written by `prepare`, in segments aligned with `prepareList`. -/
def segments (a : Conn) (n : Nat) : List (List (Nat × Bytes)) :=
  let p := a.loc
  [ [(5, varintBytes p.maxStreamDataBidiLocal)],
    [(4, varintBytes p.maxData)],
    opt (p.maxStreamsBidi > 0) 8 (varintBytes p.maxStreamsBidi),
    opt (p.idleTimeout > 0) 1 (varintBytes p.idleTimeout),
    [(3, varintBytes p.maxPacketSize)],
    opt (p.ackDelayExponent ≠ 3) 10 (varintBytes p.ackDelayExponent),
    opt (p.maxStreamsUni > 0) 9 (varintBytes p.maxStreamsUni),
    preferredSegment p.preferred,
    opt p.migrationDisabled 12 [],
    opt (p.maxStreamDataBidiRemote > 0) 6 (varintBytes p.maxStreamDataBidiRemote),
    opt (p.maxStreamDataUni > 0) 7 (varintBytes p.maxStreamDataUni),
    opt (p.activeCidLimit > 0) 14 (varintBytes p.activeCidLimit),
    opt (p.maxAckDelay ≠ 25000) 11 (varintBytes (u32 (p.maxAckDelay + 999) / 1000)),
    [(15, a.localCid)],
    opt (!a.client && decide (a.originalCid.length > 0)) 0 a.originalCid,
    opt (!a.client && decide (a.originalCid.length > 0)) 16 a.initialCid,
    opt (!a.client && decide (¬ a.originalCid.length > 0) && a.hcidVerified) 0 a.initialCid,
    opt (!a.client) 2 a.ownResetSecret,
    opt ((prepareLocal a).loc.maxDatagram > 0) 32 (varintBytes (prepareLocal a).loc.maxDatagram),
    opt a.grease (greaseType a) (varintBytes (greaseValue a)),
    opt a.testLargeChello 3127 (List.replicate 1200 0x51),
    opt (p.lossBit > 0) 0x1057 (varintBytes (if p.lossBit > 1 then 1 else 0)),
    opt (p.minAckDelay > 0) 0xff04de1b (varintBytes p.minAckDelay),
    opt (p.timeStamp > 0) 0x7158 (varintBytes p.timeStamp),
    opt p.greaseQuicBit 0x2ab2 [],
    opt a.doVersionNegotiation 0x11 ((versionList a).flatMap picoformat32),
    opt (p.bdpFrame > 0) 0xebd9 (varintBytes p.bdpFrame),
    opt p.multipath 0x0f739bbc1b666d0d (varintBytes p.maxPathId),
    opt (p.addressDiscovery > 0) 0x9f81a176 (varintBytes (p.addressDiscovery - 1)),
    opt (!a.client && !a.testLargeChello && a.testLargeServerFlight) 3127 (List.replicate n 0x51) ]

/-- Encoders and what they write, in order. -/
def EmitsAll (room : Nat) : List Enc → List (List (Nat × Bytes)) → Prop
  | [], [] => True
  | e :: es, s :: ss => (∀ r, r ≤ room → ∀ bs, e r = some bs → Extension bs s) ∧ EmitsAll room es ss
  | _, _ => False

theorem emitsAll {R : Nat} {es : List Enc} {ss : List (List (Nat × Bytes))} (h : EmitsAll R es ss)
    {room : Nat} (hr : room ≤ R) {bs : Bytes} (hb : es.foldr Enc.seq encNothing room = some bs) :
    Extension bs ss.flatten := by
  induction es generalizing ss room bs with
  | nil =>
    match ss, h with
    | [], _ =>
      obtain rfl := Option.some.inj hb
      exact .nil
  | cons e es ih =>
    match ss, h with
    | s :: ss, ⟨h1, h2⟩ =>
      rw [List.foldr_cons] at hb
      obtain ⟨a, b, g1, g2, rfl⟩ := Ack.seq_some hb
      rw [List.flatten_cons]
      exact extension_append (h1 _ hr _ g1) (ih h2 (by omega) g2)

/-- The last encoder, whose value depends on the room. -/
theorem foldr_last (es : List Enc) (c : Bool) (room : Nat) (h : room < 2 ^ 62) :
    ∃ n, n < 2 ^ 62 ∧ (es ++ [encIf c largeFlightEncode]).foldr Enc.seq encNothing room =
      (es ++ [encIf c (largeEncode n)]).foldr Enc.seq encNothing room := by
  induction es generalizing room with
  | nil =>
    refine ⟨if room > 24 then room - 24 else 1, ?_, ?_⟩
    · split <;> omega
    · cases c <;> rfl
  | cons e es ih =>
    simp only [List.cons_append, List.foldr_cons, Enc.seq]
    cases he : e room with
    | none => exact ⟨0, by decide, rfl⟩
    | some a =>
      obtain ⟨n, h1, h2⟩ := ih (room - a.length) (by omega)
      refine ⟨n, h1, ?_⟩
      dsimp only
      rw [h2]

theorem prepare_emits (a : Conn) (hl : LegalSettings a) {room : Nat} (hr : room < 2 ^ 62) {bs : Bytes}
    (h : prepare a room = some bs) : ∃ n, Extension bs (segments a n).flatten := by
  have hp : ∃ es, prepareList a = es ++
      [encIf (!a.client && !a.testLargeChello && a.testLargeServerFlight) largeFlightEncode] ∧
      ∀ n, n < 2 ^ 62 → EmitsAll room (es ++
        [encIf (!a.client && !a.testLargeChello && a.testLargeServerFlight) (largeEncode n)])
        (segments a n) := by
    refine ⟨(prepareList a).dropLast, rfl, ?_⟩
    intro n hn
    have lift {e : Enc} {ps : List (Nat × Bytes)} (he : Emits e ps) :
        ∀ r, r ≤ room → ∀ bs, e r = some bs → Extension bs ps := fun r _ bs hb => he r bs hb
    have V (t m : Nat) (ht : t < 2 ^ 62) := emits_varint t m ht
    have OV (c : Bool) (t m : Nat) (ht : t < 2 ^ 62) := emits_if c (fun _ => emits_varint t m ht)
    refine ⟨lift (V 5 _ (by decide)), lift (V 4 _ (by decide)), lift (OV _ 8 _ (by decide)),
      lift (OV _ 1 _ (by decide)), lift (V 3 _ (by decide)), lift (OV _ 10 _ (by decide)),
      lift (OV _ 9 _ (by decide)), ?_, lift (emits_if _ (fun _ => emits_flag 12 (by decide))),
      lift (OV _ 6 _ (by decide)), lift (OV _ 7 _ (by decide)), lift (OV _ 14 _ (by decide)),
      lift (OV _ 11 _ (by decide)), lift (emits_cid 15 _ (by decide) hl.cids.1),
      lift (emits_if _ (fun _ => emits_cid 0 _ (by decide) hl.cids.2.2)),
      lift (emits_if _ (fun _ => emits_cid 16 _ (by decide) hl.cids.2.1)),
      lift (emits_if _ (fun _ => emits_cid 0 _ (by decide) hl.cids.2.1)),
      lift (emits_if _ (fun _ => emits_token _ hl.secret)),
      lift (OV _ 32 _ (by decide)), lift (OV _ (greaseType a) _ ?_),
      lift (emits_if _ (fun _ => emits_large 1200 (by decide))),
      lift (OV _ 0x1057 _ (by decide)), lift (OV _ 0xff04de1b _ (by decide)),
      lift (OV _ 0x7158 _ (by decide)), lift (emits_if _ (fun _ => emits_flag 0x2ab2 (by decide))),
      lift (emits_if _ (fun _ => emits_version a)), lift (OV _ 0xebd9 _ (by decide)),
      lift (OV _ 0x0f739bbc1b666d0d _ (by decide)), lift (OV _ 0x9f81a176 _ (by decide)),
      lift (emits_if _ (fun _ => emits_large n hn)), trivial⟩
    · cases hpr : a.loc.preferred with
      | none => exact lift emits_nothing
      | some x =>
        obtain ⟨_, p1, p2, _, _, _, p3, p4⟩ := hl.preferred x hpr
        exact lift (emits_preferred x p1 p2 p3 p4)
    · have : (a.initialCid.getD 0 0).toNat < 256 := UInt8.toNat_lt _
      have : a.client.toNat ≤ 1 := Bool.toNat_le _
      unfold greaseType
      dsimp only
      split <;> omega
  obtain ⟨es, h1, h2⟩ := hp
  obtain ⟨n, hn, he⟩ := foldr_last es (!a.client && !a.testLargeChello && a.testLargeServerFlight) room hr
  unfold prepare at h
  rw [h1, he] at h
  exact ⟨n, emitsAll (h2 n hn) (Nat.le_refl _) h⟩

end Picoquic.TransportParams
