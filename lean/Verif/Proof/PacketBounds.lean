import Verif.Proof.PacketHeader
/-!
# Proofs: what is done with arbitrary datagrams
-/

namespace Picoquic.Packet
open Picoquic.PacketNumber Picoquic.Spec Picoquic.Props

/-- The packet ends in the datagram, and the packet number does not begin at the first byte. -/
def InBounds (h : Host) (len : Nat) (p : Parsed) : Prop :=
  ∀ ph c, p = .header ph c → ph.offset + ph.payloadLength ≤ len ∧
    (∀ x, c = some x → KnownCnx h x) ∧
    (EncryptedType ph.ptype → c.isSome = true ∨ ph.ptype = .initial → 1 ≤ ph.pnOffset)

theorem u16_le (n : Nat) : u16 n ≤ n := by
  unfold u16
  exact Nat.mod_le _ _

theorem findLong_known (h : Host) (t : PType) (d : Cid) (x : Cnx) (hx : findLong h t d = some x) : KnownCnx h x := by
  unfold findLong at hx
  split at hx
  · exact .inr (.inl hx)
  · split at hx
    · rename_i hq
      cases hx
      split at hq
      · exact .inl ⟨_, hq⟩
      · cases hq
    · split at hx
      · exact .inr (.inr (.inl ⟨_, hx⟩))
      · cases hx

theorem findOther_known (h : Host) (d : Cid) (x : Cnx) (hx : findOther h d = some x) : KnownCnx h x := by
  unfold findOther at hx
  split at hx
  · exact .inr (.inl hx)
  · split at hx
    · exact .inl ⟨_, hx⟩
    · cases hx

theorem longFound_bounds {h : Host} {len : Nat} {flags : UInt8} {ph : Ph} (hb : ph.offset + ph.payloadLength ≤ len)
    (hp : 1 ≤ ph.pnOffset) : InBounds h len (longFound h flags ph) := by
  intro ph' c' hq
  unfold longFound at hq
  dsimp only at hq
  cases hf : findLong h ph.ptype ph.dcid with
  | none =>
    rw [hf] at hq
    cases hq
    exact ⟨hb, by simp, fun _ _ => hp⟩
  | some x =>
    rw [hf] at hq
    dsimp only at hq
    have hk := findLong_known h _ _ x hf
    split at hq
    · cases hq
      exact ⟨hb, by rintro y ⟨⟩; exact hk, fun _ _ => hp⟩
    · cases hq
      exact ⟨hb, by rintro y ⟨⟩; exact hk, fun _ _ => hp⟩

theorem longError_bounds {h : Host} {len : Nat} {ph : Ph} (hb : ph.offset + ph.payloadLength ≤ len) :
    InBounds h len (longError h ph) := by
  intro ph' c' hq
  cases hq
  exact ⟨hb, fun x hx => findOther_known h _ x hx, by rintro (h | h | h | h) <;> cases h⟩

theorem parseLength_bounds {h : Host} {len : Nat} {flags : UInt8} {ph : Ph} {bs : Bytes} (ho : ph.offset ≤ len)
    (hl : bs.length < len) : InBounds h len (parseLength h len flags ph bs) := by
  have := u16_le (len - ph.offset)
  unfold parseLength
  cases hv : framesVarlenDecode bs with
  | none =>
    dsimp only
    exact longError_bounds (by dsimp only; omega)
  | some v =>
    obtain ⟨pl, r⟩ := v
    dsimp only
    have hr := framesVarintDecode_length hv
    have := u16_le pl
    split
    · exact longError_bounds (by dsimp only; omega)
    · exact longFound_bounds (by dsimp only; omega) (by dsimp only; omega)

theorem parseTyped_bounds {h : Host} {len : Nat} {flags : UInt8} {ph : Ph} {bs : Bytes}
    (ho : ph.offset ≤ len) (hz : ph.payloadLength = 0) (h1 : 1 ≤ ph.offset) (hl : bs.length < len) :
    InBounds h len (parseTyped h len flags ph bs) := by
  unfold parseTyped
  have := u16_le (len - ph.offset)
  split
  · cases hv : framesVarlenDecode bs with
    | none =>
      dsimp only
      exact longError_bounds (by dsimp only; omega)
    | some v =>
      obtain ⟨tl, r⟩ := v
      dsimp only
      have hr := framesVarintDecode_length hv
      split
      · exact longError_bounds (by dsimp only; omega)
      · exact parseLength_bounds (by dsimp only; omega) (by rw [List.length_drop]; omega)
  · split
    · exact longFound_bounds (by dsimp only; omega) h1
    · exact longError_bounds (by omega)
  · exact parseLength_bounds ho hl

theorem parseLong_bounds (h : Host) (bs : Bytes) : InBounds h bs.length (parseLong h bs) := by
  unfold parseLong
  cases bs with
  | nil => intro ph c hq; cases hq
  | cons b r0 =>
    rw [show framesUint8Decode (b :: r0) = some (b, r0) from rfl]
    dsimp only
    cases h32 : framesUint32Decode r0 with
    | none => intro ph c hq; cases hq
    | some v =>
      obtain ⟨vn, r1⟩ := v
      dsimp only
      obtain ⟨q, q1, q2, -⟩ := (framesUint32Decode_iff _ _ _).1 h32
      split
      · intro ph c hq; cases hq
      · cases hc1 : framesCidDecode 0 r1 with
        | ok d r2 =>
          dsimp only
          obtain ⟨-, e1⟩ := (framesCidDecode_ok_iff _ _ _ _).1 hc1
          cases hc2 : framesCidDecode 0 r2 with
          | ok sc r3 =>
            dsimp only
            obtain ⟨-, e2⟩ := (framesCidDecode_ok_iff _ _ _ _).1 hc2
            have hlen : r3.length + 7 ≤ (b :: r0).length := by
              rw [q2, e1, e2]; simp; omega
            split
            · intro ph c hq
              cases hq
              dsimp only
              have := u16_le ((b :: r0).length - ((b :: r0).length - r3.length))
              refine ⟨by omega, fun x hx => findOther_known h _ x hx, ?_⟩
              rintro (h | h | h | h) <;> cases h
            · exact parseTyped_bounds (by dsimp only; omega) rfl (by dsimp only; omega) (by omega)
          | _ => intro ph c hq; cases hq
        | _ => intro ph c hq; cases hq

theorem parseShort_bounds (h : Host) (bs : Bytes) : InBounds h bs.length (parseShort h bs) := by
  unfold parseShort
  have := u16_le (bs.length - (1 + h.cidLength))
  split
  · dsimp only
    split
    · rename_i x hx
      split
      · intro ph c hq
        cases hq
        refine ⟨by dsimp only; omega, ?_, fun _ _ => by dsimp only; omega⟩
        intro y hy
        rw [hx] at hy
        cases hy
        split at hx
        · exact .inl ⟨_, hx⟩
        · exact .inr (.inl hx)
      · intro ph c hq; cases hq
    · intro ph c hq
      cases hq
      exact ⟨by dsimp only; omega, by simp, by rintro _ (h | h) <;> cases h⟩
  · dsimp only
    intro ph c hq
    cases hq
    exact ⟨by dsimp only; omega, by simp, by rintro _ (h | h) <;> cases h⟩

theorem parseHeader_bounds (h : Host) (bs : Bytes) : InBounds h bs.length (parseHeader h bs) := by
  unfold parseHeader
  split
  · exact parseLong_bounds h bs
  · exact parseShort_bounds h bs

theorem removeHeaderProtection_offset {enc : Bytes → Bytes} {iv : Nat} {l i : Bool} {kp pnOffset la : Nat} {bytes : Bytes}
    {u : Unprotected} (h1 : 1 ≤ pnOffset) (h : removeHeaderProtection enc iv l i kp pnOffset la bytes = some u) :
    u.decrypted.length ≤ bytes.length ∧ (4 ≤ iv → u.decrypted.length = u.offset) := by
  unfold removeHeaderProtection at h
  cases bytes with
  | nil => cases h
  | cons b rest =>
    dsimp only at h
    split at h
    · cases h
    · rename_i hc
      have hx : ∀ x : UInt8, (x &&& 3).toNat ≤ 3 := by
        intro x
        rw [UInt8.toNat_and]; exact Nat.and_le_right
      simp only [Option.some.injEq] at h
      rw [← h]
      simp only [List.length_append, List.length_cons, xorMask_length, List.length_take, List.length_drop] at hc ⊢
      have := hx (b ^^^ List.headD (enc (List.drop (pnOffset + 4) (b :: rest))) 0 &&& if b &&& 128 = 128 then 15 else if l = true then 7 else 31)
      omega

/-- What holds of the result for the first packet of what is left of a datagram. -/
structure SegmentOk (h : Host) (bs : Bytes) (seg : Segment) : Prop where
  consumed : seg.consumed ≤ bs.length
  known : ∀ c, seg.cnx = some c → KnownCnx h c
  authentic : ∀ ph, seg.ret = .ok → seg.ph = some ph → EncryptedType ph.ptype →
    (∃ c, seg.cnx = some c ∧ AuthenticPacket c (bs.take seg.consumed) ph seg.payload) ∨ (seg.cnx = none ∧ seg.payload = [])
  stateless : seg.ret = .stateless → 39 ≤ seg.consumed ∧
    ((∃ c, seg.cnx = some c ∧ lastBytes (bs.take seg.consumed) = c.resetSecret) ∨ h.bySecret (lastBytes (bs.take seg.consumed)) = true)

theorem decrypt_ok {h : Host} {bs : Bytes} {n : Nat} (hn : n ≤ bs.length) {ph : Ph} (hp : 1 ≤ ph.pnOffset) {c : Cnx} (hk : KnownCnx h c) :
    SegmentOk h bs (decrypt ph c (bs.take n)) := by
  have hl : (bs.take n).length = n := by rw [List.length_take]; omega
  have hun : ∀ ret ph, ret ≠ .ok → ret ≠ .stateless → SegmentOk h bs (undecrypted ret ph c (bs.take n)) := by
    intro ret ph h1 h2
    unfold undecrypted
    rw [hl]
    split
    · rename_i hq
      exact ⟨hn, by rintro c ⟨⟩; exact hk, by rintro ph ⟨⟩, fun _ => ⟨hq.2.1, .inl ⟨c, rfl, hq.2.2⟩⟩⟩
    · exact ⟨hn, by rintro c ⟨⟩; exact hk, fun ph hq => absurd hq h1, fun hq => absurd hq h2⟩
  unfold decrypt
  cases hkey : c.keys ph.ptype with
  | none => exact hun _ _ (by decide) (by decide)
  | some k =>
    dsimp only
    cases hr : removeHeaderProtection k.mask 16 c.lossIn (decide (ph.ptype = .oneRtt)) 0 ph.pnOffset
        (c.largest ph.ptype) (bs.take n) with
    | none => exact hun _ _ (by decide) (by decide)
    | some u =>
      dsimp only
      obtain ⟨o1, o2⟩ := removeHeaderProtection_offset hp hr
      have o2 := o2 (by omega)
      cases hkk : (if ph.ptype = .oneRtt ∧ u.keyPhase ≠ c.keyPhase then c.otherKeys else some k) with
      | none => exact hun _ _ (by decide) (by decide)
      | some k' =>
        rw [Option.bind_some]
        cases hd : k'.dec u.pn64 u.decrypted ((bs.take n).drop u.offset) with
        | none => exact hun _ _ (by decide) (by decide)
        | some text =>
          dsimp only
          rw [hl]
          split
          · exact ⟨hn, by rintro c ⟨⟩; exact hk, by rintro ph ⟨⟩, by rintro ⟨⟩⟩
          · rename_i hrec
            refine ⟨hn, by rintro c ⟨⟩; exact hk, ?_, by rintro ⟨⟩⟩
            rintro ph' - ⟨⟩ -
            left
            refine ⟨c, rfl, ⟨k', u.decrypted, ?_, o1, ?_⟩, by simpa using hrec⟩
            · split at hkk
              · rename_i hq
                exact .inr ⟨hq.1, hkk⟩
              · cases hkk
                exact .inl hkey
            · rw [o2]
              exact hd

theorem segment_ok {h : Host} {total : Nat} {bs : Bytes} {seg : Segment} (hs : parseAndDecrypt h total bs = some seg) :
    SegmentOk h bs seg := by
  have hb := parseHeader_bounds h bs
  unfold parseAndDecrypt at hs
  cases hp : parseHeader h bs with
  | malformed =>
    rw [hp] at hs
    cases hs
    exact ⟨Nat.zero_le _, by rintro c ⟨⟩, by rintro ph ⟨⟩, by rintro ⟨⟩⟩
  | unsupported =>
    rw [hp] at hs
    cases hs
    exact ⟨Nat.zero_le _, by rintro c ⟨⟩, by rintro ph ⟨⟩, by rintro ⟨⟩⟩
  | header ph found =>
    rw [hp] at hs
    dsimp only at hs
    obtain ⟨b1, b2, b3⟩ := hb ph found hp
    have hl : (bs.take (ph.offset + ph.payloadLength)).length = ph.offset + ph.payloadLength := by
      rw [List.length_take]; omega
    rw [hl] at hs
    split at hs
    · rename_i hty
      split at hs
      · cases hs
      · cases hs
        refine ⟨Nat.le_refl _, b2, ?_, by rintro ⟨⟩⟩
        rintro ph' - ⟨⟩ hq
        rcases hty with e | e | e <;> rw [e] at hq <;> rcases hq with q | q | q | q <;> cases q
    · rename_i hty
      have henc : EncryptedType ph.ptype := by
        unfold EncryptedType
        revert hty
        cases ph.ptype <;> simp
      split at hs
      · cases hs
        exact ⟨b1, b2, by rintro ph ⟨⟩, by rintro ⟨⟩⟩
      · split at hs
        · cases hs
          exact ⟨b1, by rintro c ⟨⟩, by rintro ph ⟨⟩, by rintro ⟨⟩⟩
        · split at hs
          · split at hs
            · rename_i hq
              cases hs
              exact ⟨b1, by rintro c ⟨⟩, by rintro ph ⟨⟩, fun _ => ⟨hq.2.1, .inr hq.2.2⟩⟩
            · cases hs
              exact ⟨b1, by rintro c ⟨⟩, fun _ _ _ _ => .inr ⟨rfl, rfl⟩, by rintro ⟨⟩⟩
          · rename_i c hc
            have hkn : KnownCnx h c := by
              split at hc
              · exact .inr (.inr (.inr ⟨_, _, _, hc⟩))
              · exact b2 c hc
            have hpo : 1 ≤ ph.pnOffset := by
              apply b3 henc
              split at hc
              · rename_i hq
                exact .inr hq.2
              · exact .inl (by rw [hc]; rfl)
            split at hs
            · cases hs
              exact ⟨b1, by rintro c ⟨⟩; exact hkn, by rintro ph ⟨⟩, by rintro ⟨⟩⟩
            · split at hs
              · cases hs
              · cases hs
                exact decrypt_ok b1 hpo hkn

/-- Nothing is written out of bounds for what is left of a datagram of at most 1536 bytes. -/
theorem segment_fits {h : Host} {total : Nat} {bs : Bytes} (hl : bs.length ≤ 1536) : parseAndDecrypt h total bs ≠ none := by
  intro hs
  unfold parseAndDecrypt MAX_PACKET_SIZE at hs
  cases hp : parseHeader h bs with
  | malformed => rw [hp] at hs; cases hs
  | unsupported => rw [hp] at hs; cases hs
  | header ph found =>
    rw [hp] at hs
    dsimp only at hs
    have : (bs.take (ph.offset + ph.payloadLength)).length ≤ 1536 := by rw [List.length_take]; omega
    split at hs
    · rw [if_neg (by omega)] at hs; cases hs
    · split at hs
      · cases hs
      · split at hs
        · cases hs
        · split at hs
          · split at hs <;> cases hs
          · split at hs
            · cases hs
            · rw [if_neg (by omega)] at hs; cases hs

/-! ### The loop -/

/-- A packet which was delivered from what is left of a datagram. -/
def DeliveredOk (m : Machine σ) (bs : Bytes) (p : Ph × Bytes) : Prop :=
  EncryptedType p.1.ptype → p.2 = [] ∨ ∃ s' a pkt b c, bs = a ++ (pkt ++ b) ∧ KnownCnx (m.host s') c ∧ AuthenticPacket c pkt p.1 p.2

theorem loop_bounds (m : Machine σ) (total : Nat) :
    ∀ (fuel : Nat) (s : σ) (prev : Cid) (bs : Bytes),
      (bs.length ≤ 1536 → (receiveLoop m total fuel s prev bs).overflow = false) ∧
      (∀ p ∈ (receiveLoop m total fuel s prev bs).packets, DeliveredOk m bs p) := by
  intro fuel
  induction fuel with
  | zero => intro s prev bs; exact ⟨fun _ => rfl, by rintro p ⟨⟩⟩
  | succ fuel ih =>
    intro s prev bs
    unfold receiveLoop
    by_cases hne : bs = []
    · rw [if_pos hne]; exact ⟨fun _ => rfl, by rintro p ⟨⟩⟩
    · rw [if_neg hne]
      cases hs : parseAndDecrypt (m.host s) total bs with
      | none => exact ⟨fun hl => absurd hs (segment_fits hl), by rintro p ⟨⟩⟩
      | some seg =>
        have hok := segment_ok hs
        dsimp only
        generalize segDest seg = dcid
        by_cases hstop : prev ≠ [] ∧ (seg.ret = .unsupported ∨ seg.ret = .ok ∧ dcid ≠ prev)
        · rw [if_pos hstop]
          exact ⟨fun _ => rfl, by rintro p ⟨⟩⟩
        · rw [if_neg hstop]
          have hrest : ∀ rest, rest = (if (if seg.ret = .ok then (m.act s seg).2 else goesOn seg.ret) = true ∧ seg.consumed ≠ 0 then
              receiveLoop m total fuel (m.act s seg).1 (if prev = [] then dcid else prev) (bs.drop seg.consumed)
              else ⟨[], (m.act s seg).1, false⟩) →
              (bs.length ≤ 1536 → rest.overflow = false) ∧ (∀ p ∈ rest.packets, DeliveredOk m bs p) := by
            intro rest hr
            by_cases hmore : (if seg.ret = .ok then (m.act s seg).2 else goesOn seg.ret) = true ∧ seg.consumed ≠ 0
            · rw [if_pos hmore] at hr
              obtain ⟨i1, i2⟩ := ih (m.act s seg).1 (if prev = [] then dcid else prev) (bs.drop seg.consumed)
              rw [hr]
              refine ⟨fun hl => i1 (by rw [List.length_drop]; omega), ?_⟩
              intro p hp henc
              rcases i2 p hp henc with h1 | ⟨s', a, pkt, b, c, e1, e2, e3⟩
              · exact .inl h1
              · refine .inr ⟨s', bs.take seg.consumed ++ a, pkt, b, c, ?_, e2, e3⟩
                rw [List.append_assoc, ← e1, List.take_append_drop]
            · rw [if_neg hmore] at hr
              rw [hr]; exact ⟨fun _ => rfl, by rintro p ⟨⟩⟩
          generalize hrr : (if (if seg.ret = .ok then (m.act s seg).2 else goesOn seg.ret) = true ∧ seg.consumed ≠ 0 then
              receiveLoop m total fuel (m.act s seg).1 (if prev = [] then dcid else prev) (bs.drop seg.consumed)
              else ⟨[], (m.act s seg).1, false⟩) = rest
          obtain ⟨r1, r2⟩ := hrest rest hrr.symm
          split
          · rename_i ph e1 e2
            refine ⟨r1, ?_⟩
            intro p hp
            rcases List.mem_cons.1 hp with rfl | hp
            · intro henc
              rcases hok.authentic ph e1 e2 henc with ⟨c, c1, c2⟩ | ⟨-, c2⟩
              · exact .inr ⟨s, [], bs.take seg.consumed, bs.drop seg.consumed, c, by simp, hok.known c c1, c2⟩
              · exact .inl c2
            · exact r2 p hp
          · exact ⟨r1, r2⟩

/-- The bound on the number of turns has no effect. -/
theorem loop_fuel (m : Machine σ) (total : Nat) :
    ∀ (f g : Nat) (s : σ) (prev : Cid) (bs : Bytes), bs.length ≤ f → bs.length ≤ g →
      receiveLoop m total f s prev bs = receiveLoop m total g s prev bs := by
  intro f
  induction f with
  | zero =>
    intro g s prev bs h1 h2
    have : bs = [] := List.length_eq_zero_iff.1 (by omega)
    subst this
    cases g <;> simp [receiveLoop]
  | succ f ih =>
    intro g s prev bs h1 h2
    by_cases hne : bs = []
    · subst hne
      cases g <;> simp [receiveLoop]
    · have hpos : 0 < bs.length := List.length_pos_iff.2 hne
      obtain ⟨g, rfl⟩ : ∃ g', g = g' + 1 := ⟨g - 1, by omega⟩
      unfold receiveLoop
      rw [if_neg hne, if_neg hne]
      cases hs : parseAndDecrypt (m.host s) total bs with
      | none => rfl
      | some seg =>
        dsimp only
        have : ∀ s prev, seg.consumed ≠ 0 → receiveLoop m total f s prev (bs.drop seg.consumed) = receiveLoop m total g s prev (bs.drop seg.consumed) := by
          intro s prev hc
          exact ih g s prev _ (by rw [List.length_drop]; omega) (by rw [List.length_drop]; omega)
        by_cases hc : seg.consumed = 0
        · simp [hc]
        · rw [this _ _ hc]

end Picoquic.Packet
