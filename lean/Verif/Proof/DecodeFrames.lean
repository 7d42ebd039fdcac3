import Verif.Proof.FrameSkip
import Verif.Proof.AckRun
/-! Proofs about `picoquic_decode_frames`. -/

namespace Picoquic.Frames
open Picoquic Picoquic.Spec

variable {σ : Type}

/-- What is expected for a frame that is processed. -/
def process (h : Handler σ) (s : σ) (f : Frame) (rest : Bytes) : Step σ :=
  match h.frame s f with
  | (true, s') => .cont s' rest (!pureAck f) (Probing f)
  | (false, s') => .stop s'

theorem intAt {bs r : Bytes} {n : Nat} (h : framesVarintDecode bs = some (n, r)) : IntAt bs n r := by
  obtain ⟨p, rfl, hv⟩ := Ack.varint_of_decode h
  exact ⟨p, rfl, hv⟩

theorem intAt_decode {bs r : Bytes} {n : Nat} (h : IntAt bs n r) : framesVarintDecode bs = some (n, r) := by
  obtain ⟨p, rfl, hv⟩ := h
  exact Ack.varint_decode hv r

theorem not_intAt {bs : Bytes} (h : framesVarintDecode bs = none) (n : Nat) (r : Bytes) : ¬ IntAt bs n r := by
  intro hh
  rw [intAt_decode hh] at h
  cases h

theorem finish_ok {h : Handler σ} {s bad : σ} {f : Frame} {rest : Bytes} {refuse : Frame → Option (Nat × Nat)}
    {a p : Bool} (h1 : refuse f = none) (ha : a = !pureAck f) (hp : p = Probing f) :
    finish h s (some (f, rest)) bad refuse a p = process h s f rest := by
  unfold finish process
  dsimp only
  rw [h1, ha, hp]
  rfl

theorem finish_refuse {h : Handler σ} {s bad : σ} {f : Frame} {rest : Bytes} {refuse : Frame → Option (Nat × Nat)}
    {a p : Bool} {e : Nat × Nat} (h1 : refuse f = some e) :
    finish h s (some (f, rest)) bad refuse a p = .stop (h.error s e.1 e.2) := by
  unfold finish
  dsimp only
  rw [h1]

theorem finish_cont {h : Handler σ} {s bad : σ} {x : Parse} {rest : Bytes} {refuse : Frame → Option (Nat × Nat)}
    {a p a' p' : Bool} {s' : σ} (hc : finish h s x bad refuse a p = .cont s' rest a' p') :
    ∃ f, x = some (f, rest) := by
  unfold finish at hc
  cases x with
  | none => cases hc
  | some y =>
    obtain ⟨f, r⟩ := y
    dsimp only at hc
    cases hr : refuse f with
    | some e => rw [hr] at hc; cases hc
    | none =>
      rw [hr] at hc
      dsimp only at hc
      cases hf : h.frame s f with
      | mk ok s1 =>
        rw [hf] at hc
        cases ok with
        | false => cases hc
        | true =>
          injection hc with h1 h2
          subst h2
          exact ⟨f, rfl⟩

theorem finish_none {h : Handler σ} {s bad : σ} {refuse : Frame → Option (Nat × Nat)} {a p : Bool} :
    finish h s none bad refuse a p = .stop bad := rfl

/-! ## Checks of the kind of packet -/

theorem decodeSwitch_ext {cfg : Cfg} {h : Handler σ} {s : σ} {b : UInt8} {t : Bytes}
    (hv : 64 ≤ b.toNat ∨ b.toNat = 0x1f) : decodeSwitch cfg h s b t = decodeExtension cfg h s (b :: t) := by
  unfold decodeSwitch
  split
  case h_24 => rfl
  all_goals (rename_i hk; exfalso; rw [hk] at hv; revert hv; decide)

theorem decodeOne_ext {cfg : Cfg} {h : Handler σ} {s : σ} {b : UInt8} {t : Bytes} (hb : 64 ≤ b.toNat ∨ b = 0x1f) :
    decodeOne cfg h s b t =
      if cfg.epoch ≠ .zeroRtt ∧ cfg.epoch ≠ .oneRtt then .stop (h.error s 0xA b.toNat)
      else decodeExtension cfg h s (b :: t) := by
  have hv : 64 ≤ b.toNat ∨ b.toNat = 0x1f := by
    rcases hb with h | rfl
    · exact .inl h
    · exact .inr rfl
  unfold decodeOne
  dsimp only
  rw [if_neg (by omega), if_neg (by omega), if_neg (by omega)]
  by_cases he : cfg.epoch ≠ .zeroRtt ∧ cfg.epoch ≠ .oneRtt
  · rw [if_pos he, if_pos ⟨he.1, he.2, by omega, by omega, by omega, by omega⟩]
  · rw [if_neg he, if_neg (fun hh => he ⟨hh.1, hh.2.1⟩), if_neg (by omega)]
    exact decodeSwitch_ext hv

theorem ext_head {b : UInt8} {t rest : Bytes} {f : Frame} (he : isExt f = true) (h : StartsWith (b :: t) f rest) :
    64 ≤ b.toNat ∨ b = 0x1f :=
  ext_first (parseExt_complete he h)

/-- A frame in a packet where it may not be. -/
theorem decodeOne_notAllowed {cfg : Cfg} {h : Handler σ} {s : σ} {b : UInt8} {t rest : Bytes} {f : Frame}
    (hf : StartsWith (b :: t) f rest) (hn : ¬ AllowedIn cfg.epoch f) :
    decodeOne cfg h s b t = .stop (h.error s 0xA b.toNat) := by
  cases hx : isExt f with
  | true =>
    rw [decodeOne_ext (ext_head hx hf)]
    by_cases he : cfg.epoch ≠ .zeroRtt ∧ cfg.epoch ≠ .oneRtt
    · rw [if_pos he]
    rw [if_neg he]
    have hz : cfg.epoch = .zeroRtt ∧ (∀ a b c d, f ≠ .bdp a b c d) := by
      cases hep : cfg.epoch <;> simp [hep] at he ⊢ <;> rw [hep] at hn <;> cases f <;> simp_all [AllowedIn, isExt]
    have hty : ∃ ty r, framesVarintDecode (b :: t) = some (ty, r) ∧ ty ≠ 0xebd9 := by
      cases f with
      | ack c =>
        obtain ⟨r, h1, _⟩ := (startsWith_ack_ext hx).1 hf
        refine ⟨_, r, h1, ?_⟩
        unfold AckContent.type
        cases c.pathId <;> cases c.ecn <;> simp
      | newConnectionId path a b c d =>
        cases path with
        | none => cases hx
        | some p =>
          obtain ⟨r, h1, _⟩ := (startsWith_int rfl (fun _ => Iff.rfl)).1 hf
          exact ⟨_, r, h1, by decide⟩
      | retireConnectionId path a =>
        cases path with
        | none => cases hx
        | some p =>
          obtain ⟨r, h1, _⟩ := (startsWith_int rfl (fun _ => Iff.rfl)).1 hf
          exact ⟨_, r, h1, by decide⟩
      | bdp a b c d => exact absurd rfl (hz.2 a b c d)
      | pathStatus v _ _ =>
        obtain ⟨r, h1, _⟩ := (startsWith_int rfl (fun _ => Iff.rfl)).1 hf
        exact ⟨_, r, h1, by cases v <;> decide⟩
      | observedAddress v _ _ =>
        obtain ⟨r, h1, _⟩ := (startsWith_int rfl (fun _ => Iff.rfl)).1 hf
        exact ⟨_, r, h1, by cases v <;> decide⟩
      | ackFrequency | immediateAck | timeStamp | pathAbandon | maxPathId | pathsBlocked | pathCidBlocked =>
        obtain ⟨r, h1, _⟩ := (startsWith_int rfl (fun _ => Iff.rfl)).1 hf
        exact ⟨_, r, h1, by decide⟩
      | _ => cases hx
    obtain ⟨ty, r, hd, hne⟩ := hty
    unfold decodeExtension
    dsimp only
    rw [hd]
    dsimp only
    rw [if_pos ⟨hz.1, hne⟩]
    rfl
  | false =>
    cases f with
    | stream id o fin d e =>
      obtain ⟨hb, _⟩ := skipStream_complete hf
      unfold decodeOne
      dsimp only
      rw [if_pos hb, if_pos (by simpa [AllowedIn] using hn)]
    | ack c =>
      have hp : c.pathId = none := by
        cases hc : c.pathId with
        | none => rfl
        | some i => simp [isExt, hc] at hx
      obtain ⟨h1, h2⟩ := (startsWith_ack_short hp).1 hf
      unfold AckContent.type at h1
      rw [hp] at h1
      have hz : cfg.epoch = .zeroRtt := by simpa [AllowedIn, hp] using hn
      cases hc : c.ecn with
      | none =>
        rw [hc] at h1
        obtain rfl : b = 2 := u8_inj h1 (by decide)
        unfold decodeOne
        dsimp only
        rw [if_neg (by decide), if_pos (by decide), if_pos hz]
      | some e =>
        rw [hc] at h1
        obtain rfl : b = 3 := u8_inj h1 (by decide)
        unfold decodeOne
        dsimp only
        rw [if_neg (by decide), if_neg (by decide), if_pos (by decide), if_pos hz]
    | padding | ping | connectionClose => exact absurd trivial hn
    | crypto =>
      obtain ⟨rfl, _⟩ := (startsWith_raw rfl (fun _ => Iff.rfl)).1 hf
      have hz : cfg.epoch = .zeroRtt := by simpa [AllowedIn] using hn
      unfold decodeOne
      dsimp only
      rw [if_neg (by decide), if_neg (by decide), if_neg (by decide), if_neg (by simp), if_pos ⟨hz, by decide⟩]
    | newToken | pathResponse | handshakeDone =>
      obtain ⟨rfl, _⟩ := (startsWith_raw rfl (fun _ => Iff.rfl)).1 hf
      have hz : cfg.epoch ≠ .oneRtt := hn
      unfold decodeOne
      dsimp only
      rw [if_neg (by decide), if_neg (by decide), if_neg (by decide)]
      by_cases he : cfg.epoch = .zeroRtt
      · rw [if_neg (by simp [he]), if_pos ⟨he, by decide⟩]
      · rw [if_pos ⟨he, hz, by decide⟩]
    | retireConnectionId path _ =>
      cases path with
      | some p => cases hx
      | none =>
      obtain ⟨rfl, _⟩ := (startsWith_raw rfl (fun _ => Iff.rfl)).1 hf
      have hz : cfg.epoch ≠ .oneRtt := hn
      unfold decodeOne
      dsimp only
      rw [if_neg (by decide), if_neg (by decide), if_neg (by decide)]
      by_cases he : cfg.epoch = .zeroRtt
      · rw [if_neg (by simp [he]), if_pos ⟨he, by decide⟩]
      · rw [if_pos ⟨he, hz, by decide⟩]
    | newConnectionId path _ _ _ _ =>
      cases path with
      | some p => cases hx
      | none =>
      obtain ⟨rfl, _⟩ := (startsWith_raw rfl (fun _ => Iff.rfl)).1 hf
      have hz : cfg.epoch ≠ .zeroRtt ∧ cfg.epoch ≠ .oneRtt := by
        simp only [AllowedIn] at hn
        grind
      unfold decodeOne
      dsimp only
      rw [if_neg (by decide), if_neg (by decide), if_neg (by decide), if_pos ⟨hz.1, hz.2, by decide⟩]
    | maxStreams v _ | streamsBlocked v _ =>
      obtain ⟨hb, _⟩ := (startsWith_raw rfl (fun _ => Iff.rfl)).1 hf
      have hz : cfg.epoch ≠ .zeroRtt ∧ cfg.epoch ≠ .oneRtt := by
        simp only [AllowedIn] at hn
        grind
      unfold decodeOne
      dsimp only
      cases v <;> subst hb <;>
      rw [if_neg (by decide), if_neg (by decide), if_neg (by decide), if_pos ⟨hz.1, hz.2, by decide⟩]
    | datagram d e =>
      have hz : cfg.epoch ≠ .zeroRtt ∧ cfg.epoch ≠ .oneRtt := by
        simp only [AllowedIn] at hn
        grind
      cases e <;>
      (obtain ⟨rfl, _⟩ := (startsWith_raw rfl (fun _ => Iff.rfl)).1 hf
       unfold decodeOne
       dsimp only
       rw [if_neg (by decide), if_neg (by decide), if_neg (by decide), if_pos ⟨hz.1, hz.2, by decide⟩])
    | resetStream | stopSending | maxData | maxStreamData | dataBlocked | streamDataBlocked | pathChallenge
    | applicationClose =>
      obtain ⟨rfl, _⟩ := (startsWith_raw rfl (fun _ => Iff.rfl)).1 hf
      have hz : cfg.epoch ≠ .zeroRtt ∧ cfg.epoch ≠ .oneRtt := by
        simp only [AllowedIn] at hn
        grind
      unfold decodeOne
      dsimp only
      rw [if_neg (by decide), if_neg (by decide), if_neg (by decide), if_pos ⟨hz.1, hz.2, by decide⟩]
    | _ => cases hx

/-- The `switch` is reached. -/
theorem decodeOne_allowed {cfg : Cfg} {h : Handler σ} {s : σ} {b : UInt8} {t rest : Bytes} {f : Frame}
    (hf : StartsWith (b :: t) f rest) (ha : AllowedIn cfg.epoch f) :
    (∀ c, f ≠ .ack c) → (∀ a b c d e, f ≠ .stream a b c d e) →
    decodeOne cfg h s b t = decodeSwitch cfg h s b t := by
  intro hnack hnstream
  have gen : ∀ k : UInt8, (¬ (8 ≤ k.toNat ∧ k.toNat ≤ 15)) → k.toNat ≠ 2 → k.toNat ≠ 3 →
      (cfg.epoch = .zeroRtt ∨ cfg.epoch = .oneRtt ∨ k.toNat = 0 ∨ k.toNat = 1 ∨ k.toNat = 0x1c ∨ k.toNat = 6) →
      (cfg.epoch = .zeroRtt → k.toNat ≠ 6 ∧ k.toNat ≠ 0x1e ∧ k.toNat ≠ 7 ∧ k.toNat ≠ 0x1b ∧ k.toNat ≠ 0x19) →
      decodeOne cfg h s k t = decodeSwitch cfg h s k t := by
    intro k h1 h2 h3 h4 h5
    unfold decodeOne
    dsimp only
    rw [if_neg h1, if_neg h2, if_neg h3, if_neg (by grind), if_neg (by grind)]
  cases hx : isExt f with
  | true =>
    have hv : 64 ≤ b.toNat ∨ b.toNat = 0x1f := by
      rcases ext_head hx hf with h | rfl
      · exact .inl h
      · exact .inr rfl
    have : cfg.epoch = .zeroRtt ∨ cfg.epoch = .oneRtt := by
      cases hep : cfg.epoch <;> simp <;> rw [hep] at ha <;> cases f <;> simp_all [AllowedIn, isExt]
    exact gen b (by omega) (by omega) (by omega) (by rcases this with h | h <;> simp [h]) (fun _ => by omega)
  | false =>
    cases f with
    | stream a b c d e => exact absurd rfl (hnstream a b c d e)
    | ack c => exact absurd rfl (hnack c)
    | padding n =>
      obtain ⟨rfl, h2⟩ := (startsWith_run 0 b t rest n (.padding n) rfl (fun _ => Iff.rfl) trivial Iff.rfl).1 hf
      exact gen _ (by decide) (by decide) (by decide) (by simp) (fun _ => by decide)
    | ping n =>
      obtain ⟨rfl, h2⟩ := (startsWith_run 1 b t rest n (.ping n) rfl (fun _ => Iff.rfl) trivial Iff.rfl).1 hf
      exact gen _ (by decide) (by decide) (by decide) (by simp) (fun _ => by decide)
    | maxStreams v _ | streamsBlocked v _ =>
      obtain ⟨hb, _⟩ := (startsWith_raw rfl (fun _ => Iff.rfl)).1 hf
      simp only [AllowedIn] at ha
      cases v <;> subst hb <;>
      exact gen _ (by decide) (by decide) (by decide) (by grind) (fun _ => by decide)
    | datagram d e =>
      simp only [AllowedIn] at ha
      cases e <;>
      (obtain ⟨rfl, _⟩ := (startsWith_raw rfl (fun _ => Iff.rfl)).1 hf
       exact gen _ (by decide) (by decide) (by decide) (by grind) (fun _ => by decide))
    | retireConnectionId path _ =>
      cases path with
      | some p => cases hx
      | none =>
        obtain ⟨rfl, _⟩ := (startsWith_raw rfl (fun _ => Iff.rfl)).1 hf
        simp only [AllowedIn] at ha
        exact gen _ (by decide) (by decide) (by decide) (by simp [ha]) (by simp [ha])
    | newConnectionId path _ _ _ _ =>
      cases path with
      | some p => cases hx
      | none =>
        obtain ⟨rfl, _⟩ := (startsWith_raw rfl (fun _ => Iff.rfl)).1 hf
        simp only [AllowedIn] at ha
        exact gen _ (by decide) (by decide) (by decide) (by grind) (fun _ => by decide)
    | connectionClose =>
      obtain ⟨rfl, _⟩ := (startsWith_raw rfl (fun _ => Iff.rfl)).1 hf
      exact gen _ (by decide) (by decide) (by decide) (by simp) (fun _ => by decide)
    | crypto =>
      obtain ⟨rfl, _⟩ := (startsWith_raw rfl (fun _ => Iff.rfl)).1 hf
      simp only [AllowedIn] at ha
      exact gen _ (by decide) (by decide) (by decide) (by simp) (fun h => absurd h ha)
    | newToken | pathResponse | handshakeDone =>
      obtain ⟨rfl, _⟩ := (startsWith_raw rfl (fun _ => Iff.rfl)).1 hf
      simp only [AllowedIn] at ha
      exact gen _ (by decide) (by decide) (by decide) (by simp [ha]) (by simp [ha])
    | resetStream | stopSending | maxData | maxStreamData | dataBlocked | streamDataBlocked | pathChallenge
    | applicationClose =>
      obtain ⟨rfl, _⟩ := (startsWith_raw rfl (fun _ => Iff.rfl)).1 hf
      simp only [AllowedIn] at ha
      exact gen _ (by decide) (by decide) (by decide) (by grind) (fun _ => by decide)
    | _ => cases hx

/-! ## ACK -/

theorem decodeExtension_oneRtt {cfg : Cfg} {h : Handler σ} {s : σ} {bs r : Bytes} {type : Nat}
    (he : cfg.epoch = .oneRtt) (hd : framesVarintDecode bs = some (type, r)) :
    decodeExtension cfg h s bs =
      if type = 0xAF then decodeAckFrequency cfg h s r
      else if type = 0x1F then decodeImmediateAck cfg h s r
      else if type = 757 then decodeTimeStamp cfg h s r
      else if type = 0x15228c00 then decodeAckFrame cfg h s false true type bs
      else if type = 0x15228c01 then decodeAckFrame cfg h s true true type bs
      else if type = 0x15228c05 then decodeNegotiated cfg.multipath h s type (parse2 .pathAbandon r) r false
      else if type = 0x15228c07 ∨ type = 0x15228c08 then
        decodeNegotiated cfg.multipath h s type (parse2 (.pathStatus (type = 0x15228c08)) r) r false
      else if type = 0x15228c0c then decodeNegotiated cfg.multipath h s type (parse1 .maxPathId r) r false
      else if type = 0x15228c0d then decodeNegotiated cfg.multipath h s type (parse1 .pathsBlocked r) r false
      else if type = 0x15228c0e then decodeNegotiated cfg.multipath h s type (parse2 .pathCidBlocked r) r false
      else if type = 0x15228c09 then decodeNewCid cfg h s true r
      else if type = 0x15228c0a then decodeRetireCid cfg h s true r
      else if type = 0xebd9 then decodeBdp cfg h s (bs.headD 0).toNat r
      else if type = 0x9f81a6 ∨ type = 0x9f81a7 then
        decodeNegotiated cfg.addressDiscovery h s type (parseObservedAddress (type = 0x9f81a7) r) r true
      else .stop (h.error s 0xA type) := by
  unfold decodeExtension
  dsimp only
  rw [hd]
  dsimp only
  rw [if_neg (by simp [he])]

theorem decodeOne_ack {cfg : Cfg} {h : Handler σ} {s : σ} {b : UInt8} {t rest : Bytes} {c : AckContent}
    (hf : StartsWith (b :: t) (.ack c) rest) (ha : AllowedIn cfg.epoch (.ack c)) :
    decodeOne cfg h s b t = decodeAckFrame cfg h s c.ecn.isSome c.pathId.isSome c.type (b :: t) := by
  cases hp : c.pathId with
  | none =>
    have hz : cfg.epoch ≠ .zeroRtt := by simpa [AllowedIn, hp] using ha
    obtain ⟨h1, h2⟩ := (startsWith_ack_short hp).1 hf
    have hty : c.type = if c.ecn.isSome then 3 else 2 := by
      unfold AckContent.type
      rw [hp]
      cases c.ecn <;> rfl
    cases hc : c.ecn with
    | none =>
      rw [hc] at hty
      rw [hty] at h1 ⊢
      obtain rfl : b = 2 := u8_inj h1 (by decide)
      unfold decodeOne
      dsimp only
      rw [if_neg (by decide), if_pos (by decide), if_neg hz]
      rfl
    | some e =>
      rw [hc] at hty
      rw [hty] at h1 ⊢
      obtain rfl : b = 3 := u8_inj h1 (by decide)
      unfold decodeOne
      dsimp only
      rw [if_neg (by decide), if_neg (by decide), if_pos (by decide), if_neg hz]
      rfl
  | some i =>
    have hx : c.pathId.isSome = true := by rw [hp]; rfl
    have hz : cfg.epoch = .oneRtt := by simpa [AllowedIn, hp] using ha
    rw [decodeOne_ext (ext_head (f := .ack c) hx hf), if_neg (by simp [hz])]
    obtain ⟨r, h1, _⟩ := (startsWith_ack_ext hx).1 hf
    rw [decodeExtension_oneRtt hz h1]
    have hty : c.type = if c.ecn.isSome then 0x15228c01 else 0x15228c00 := by
      unfold AckContent.type
      rw [hp]
      cases c.ecn <;> rfl
    cases hc : c.ecn with
    | none =>
      rw [hc] at hty
      rw [hty]
      rfl
    | some e =>
      rw [hc] at hty
      rw [hty]
      rfl

theorem ack_parts {b : UInt8} {t rest : Bytes} {c : AckContent} (hf : StartsWith (b :: t) (.ack c) rest) :
    (∃ l d n r, Ack.parseAckHeader c.pathId.isSome 0 (b :: t) = some (c.pathId.getD 0, l, d, n, r)) ∧
    parseAck c.ecn.isSome c.pathId.isSome ((framesVarintSkip (b :: t)).getD []) = some (c, rest) := by
  obtain ⟨p, hp, h1, _⟩ := hf
  obtain ⟨ty, body, rfl, hb, ht⟩ := (show ∃ ty body, p = ty ++ body ∧ IsAckBody body c ∧ _ from h1)
  have hv : Varint ty c.type := by
    cases hc : c.pathId with
    | some i => rw [hc] at ht; exact ht
    | none =>
      rw [hc] at ht
      dsimp only at ht
      rw [ht]
      have : c.type < 64 := by
        unfold AckContent.type
        rw [hc]
        cases c.ecn <;> simp
      have hu : (u8 c.type).toNat = c.type := by
        show (UInt8.ofNat c.type).toNat = _
        simp; omega
      exact ⟨0, by decide, rfl, by omega, by simp [bigEndian, hu]⟩
  rw [hp, List.append_assoc]
  constructor
  · obtain ⟨x, e, h2, _⟩ := Ack.parse_of_body (rest := rest) hv hb 0
    exact ⟨_, _, _, _, h2⟩
  · rw [skip_varint hv]
    exact (parseAck_iff _ _ _ _ _).2 ⟨body, rfl, hb, rfl, rfl⟩

/-! ## Frames that are accepted -/

theorem decodeOne_stream {cfg : Cfg} {h : Handler σ} {s : σ} {b : UInt8} {t rest : Bytes} {id offset : Nat} {fin : Bool}
    {data : Bytes} {explicit : Bool} (hf : StartsWith (b :: t) (.stream id offset fin data explicit) rest)
    (ha : AllowedIn cfg.epoch (.stream id offset fin data explicit)) :
    decodeOne cfg h s b t = finish h s (some (.stream id offset fin data explicit, rest)) s
      (fun f => match f with
      | .stream _ offset _ data _ => if offset + data.length ≥ 4611686018427387904 then some (0x6, 0) else none
      | _ => none) true false := by
  obtain ⟨hb, _⟩ := skipStream_complete hf
  have hp := parseShort_complete rfl hf
  unfold parseShort at hp
  rw [if_pos (by omega)] at hp
  unfold decodeOne
  dsimp only
  rw [if_pos hb, if_neg (by simp only [AllowedIn] at ha; grind)]
  unfold decodeStream
  rw [hp]
  rfl

/-- What follows the type of an extension frame in a packet where it may be. -/
theorem decodeOne_extension {cfg : Cfg} {h : Handler σ} {s : σ} {b : UInt8} {t rest : Bytes} {f : Frame}
    (hx : isExt f = true) (hf : StartsWith (b :: t) f rest) (ha : cfg.epoch = .zeroRtt ∨ cfg.epoch = .oneRtt) :
    decodeOne cfg h s b t = decodeExtension cfg h s (b :: t) := by
  rw [decodeOne_ext (ext_head hx hf), if_neg (by rcases ha with h | h <;> simp [h])]

/-- The frame is processed. -/
theorem decodeOne_ok {cfg : Cfg} {h : Handler σ} {s : σ} {b : UInt8} {t rest : Bytes} {f : Frame}
    (hf : StartsWith (b :: t) f rest) (ha : Acceptable cfg f) (hi : f = .immediateAck → rest ≠ [])
    (hk : ∀ c, f = .ack c → cfg.epoch = .oneRtt → cfg.multipath = true → h.pathKnown s (c.pathId.getD 0) = true) :
    decodeOne cfg h s b t = process h s f rest := by
  obtain ⟨ha, hn, hv⟩ := ha
  cases f with
  | stream id o fin d e =>
    rw [decodeOne_stream hf ha]
    exact finish_ok (if_neg (by have : o + d.length < 2 ^ 62 := hv; omega)) rfl rfl
  | ack c =>
    rw [decodeOne_ack hf ha]
    obtain ⟨⟨l, d, n, r, h1⟩, h2⟩ := ack_parts hf
    unfold decodeAckFrame
    rw [h1]
    dsimp only
    have hm : c.pathId.isSome = true → cfg.multipath = true := hn
    rw [if_neg (by cases hc : c.pathId.isSome <;> simp_all), if_neg (by
      rintro ⟨h3, h4, h5⟩
      rw [hk c rfl h3 h4] at h5
      cases h5), h2]
    exact finish_ok rfl rfl rfl
  | padding n =>
    rw [decodeOne_allowed hf ha (by simp) (by simp)]
    have hp := parseShort_complete rfl hf
    obtain ⟨rfl, h2⟩ := (startsWith_run 0 b t rest n (.padding n) rfl (fun _ => Iff.rfl) trivial Iff.rfl).1 hf
    show finish h s (some (.padding (skip0len 0 t).1, (skip0len 0 t).2)) s (fun _ => none) false true = _
    rw [h2]
    exact finish_ok rfl rfl rfl
  | ping n =>
    rw [decodeOne_allowed hf ha (by simp) (by simp)]
    have hp := parseShort_complete rfl hf
    obtain ⟨rfl, h2⟩ := (startsWith_run 1 b t rest n (.ping n) rfl (fun _ => Iff.rfl) trivial Iff.rfl).1 hf
    show finish h s (some (.ping (skip0len 1 t).1, (skip0len 1 t).2)) s (fun _ => none) true false = _
    rw [h2]
    exact finish_ok rfl rfl rfl
  | resetStream =>
    rw [decodeOne_allowed hf ha (by simp) (by simp)]
    have hp := parseShort_complete rfl hf
    obtain ⟨rfl, _⟩ := (startsWith_raw rfl (fun _ => Iff.rfl)).1 hf
    have hp : parseReset t = _ := hp
    show plain h s 0x04 (parseReset t) = _
    unfold plain
    rw [hp]
    exact finish_ok rfl rfl rfl
  | connectionClose =>
    rw [decodeOne_allowed hf ha (by simp) (by simp)]
    have hp := parseShort_complete rfl hf
    obtain ⟨rfl, _⟩ := (startsWith_raw rfl (fun _ => Iff.rfl)).1 hf
    have hp : parseConnectionClose t = _ := hp
    show decodeClose h s 0x1c (parseConnectionClose t) (0x1c :: t) = _
    unfold decodeClose
    rw [hp]
    exact finish_ok rfl rfl rfl
  | applicationClose =>
    rw [decodeOne_allowed hf ha (by simp) (by simp)]
    have hp := parseShort_complete rfl hf
    obtain ⟨rfl, _⟩ := (startsWith_raw rfl (fun _ => Iff.rfl)).1 hf
    have hp : parseApplicationClose t = _ := hp
    show decodeClose h s 0x1d (parseApplicationClose t) (0x1d :: t) = _
    unfold decodeClose
    rw [hp]
    exact finish_ok rfl rfl rfl
  | maxData =>
    rw [decodeOne_allowed hf ha (by simp) (by simp)]
    have hp := parseShort_complete rfl hf
    obtain ⟨rfl, _⟩ := (startsWith_raw rfl (fun _ => Iff.rfl)).1 hf
    have hp : parse1 .maxData t = _ := hp
    show plain h s 0x10 (parse1 .maxData t) = _
    unfold plain
    rw [hp]
    exact finish_ok rfl rfl rfl
  | maxStreamData =>
    rw [decodeOne_allowed hf ha (by simp) (by simp)]
    have hp := parseShort_complete rfl hf
    obtain ⟨rfl, _⟩ := (startsWith_raw rfl (fun _ => Iff.rfl)).1 hf
    have hp : parse2 .maxStreamData t = _ := hp
    show plain h s 0x11 (parse2 .maxStreamData t) = _
    unfold plain
    rw [hp]
    exact finish_ok rfl rfl rfl
  | dataBlocked =>
    rw [decodeOne_allowed hf ha (by simp) (by simp)]
    have hp := parseShort_complete rfl hf
    obtain ⟨rfl, _⟩ := (startsWith_raw rfl (fun _ => Iff.rfl)).1 hf
    have hp : parse1 .dataBlocked t = _ := hp
    show plain h s 0x14 (parse1 .dataBlocked t) = _
    unfold plain
    rw [hp]
    exact finish_ok rfl rfl rfl
  | streamDataBlocked =>
    rw [decodeOne_allowed hf ha (by simp) (by simp)]
    have hp := parseShort_complete rfl hf
    obtain ⟨rfl, _⟩ := (startsWith_raw rfl (fun _ => Iff.rfl)).1 hf
    have hp : parse2 .streamDataBlocked t = _ := hp
    show plain h s 0x15 (parse2 .streamDataBlocked t) = _
    unfold plain
    rw [hp]
    exact finish_ok rfl rfl rfl
  | stopSending =>
    rw [decodeOne_allowed hf ha (by simp) (by simp)]
    have hp := parseShort_complete rfl hf
    obtain ⟨rfl, _⟩ := (startsWith_raw rfl (fun _ => Iff.rfl)).1 hf
    have hp : parseStopSending t = _ := hp
    show plain h s 0x05 (parseStopSending t) = _
    unfold plain
    rw [hp]
    exact finish_ok rfl rfl rfl
  | pathChallenge =>
    rw [decodeOne_allowed hf ha (by simp) (by simp)]
    have hp := parseShort_complete rfl hf
    obtain ⟨rfl, _⟩ := (startsWith_raw rfl (fun _ => Iff.rfl)).1 hf
    have hp : parsePathChallenge t = _ := hp
    show finish h s (parsePathChallenge t) (h.error s 0x7 0x1a) (fun _ => none) false true = _
    rw [hp]
    exact finish_ok rfl rfl rfl
  | pathResponse =>
    rw [decodeOne_allowed hf ha (by simp) (by simp)]
    have hp := parseShort_complete rfl hf
    obtain ⟨rfl, _⟩ := (startsWith_raw rfl (fun _ => Iff.rfl)).1 hf
    have hp : parsePathResponse t = _ := hp
    show finish h s (parsePathResponse t) (h.error s 0x7 0x1b) (fun _ => none) false true = _
    rw [hp]
    exact finish_ok rfl rfl rfl
  | crypto =>
    rw [decodeOne_allowed hf ha (by simp) (by simp)]
    have hp := parseShort_complete rfl hf
    obtain ⟨rfl, _⟩ := (startsWith_raw rfl (fun _ => Iff.rfl)).1 hf
    have hp : parseCrypto t = _ := hp
    show plain h s 0x06 (parseCrypto t) = _
    unfold plain
    rw [hp]
    exact finish_ok rfl rfl rfl
  | maxStreams v _ =>
    rw [decodeOne_allowed hf ha (by simp) (by simp)]
    have hp := parseShort_complete rfl hf
    obtain ⟨hb, _⟩ := (startsWith_raw rfl (fun _ => Iff.rfl)).1 hf
    cases v
    · subst hb
      have hp : parse1 (.maxStreams false) t = _ := hp
      show plain h s 0x13 (parse1 (.maxStreams false) t) = _
      unfold plain
      rw [hp]
      exact finish_ok rfl rfl rfl
    · subst hb
      have hp : parse1 (.maxStreams true) t = _ := hp
      show plain h s 0x12 (parse1 (.maxStreams true) t) = _
      unfold plain
      rw [hp]
      exact finish_ok rfl rfl rfl
  | streamsBlocked v _ =>
    rw [decodeOne_allowed hf ha (by simp) (by simp)]
    have hp := parseShort_complete rfl hf
    obtain ⟨hb, _⟩ := (startsWith_raw rfl (fun _ => Iff.rfl)).1 hf
    cases v
    · subst hb
      have hp : parse1 (.streamsBlocked false) t = _ := hp
      show plain h s 0x17 (parse1 (.streamsBlocked false) t) = _
      unfold plain
      rw [hp]
      exact finish_ok rfl rfl rfl
    · subst hb
      have hp : parse1 (.streamsBlocked true) t = _ := hp
      show plain h s 0x16 (parse1 (.streamsBlocked true) t) = _
      unfold plain
      rw [hp]
      exact finish_ok rfl rfl rfl
  | newToken =>
    rw [decodeOne_allowed hf ha (by simp) (by simp)]
    have hp := parseShort_complete rfl hf
    obtain ⟨rfl, _⟩ := (startsWith_raw rfl (fun _ => Iff.rfl)).1 hf
    have hp : parseNewToken t = _ := hp
    show decodeNewToken cfg h s t = _
    unfold decodeNewToken
    rw [hp]
    exact finish_ok (if_pos hn) rfl rfl
  | handshakeDone =>
    rw [decodeOne_allowed hf ha (by simp) (by simp)]
    have hp := parseShort_complete rfl hf
    obtain ⟨rfl, _⟩ := (startsWith_raw rfl (fun _ => Iff.rfl)).1 hf
    have hp : some (Frame.handshakeDone, t) = _ := hp
    show decodeHandshakeDone cfg h s t = _
    unfold decodeHandshakeDone
    rw [hp]
    exact finish_ok (if_pos hn) rfl rfl
  | datagram d e =>
    rw [decodeOne_allowed hf ha (by simp) (by simp)]
    have hp := parseShort_complete rfl hf
    have hv : d.length ≤ cfg.maxDatagram := hv
    cases e with
    | false =>
      obtain ⟨rfl, _⟩ := (startsWith_raw rfl (fun _ => Iff.rfl)).1 hf
      have hp : parseDatagram false t = _ := hp
      show decodeDatagram cfg h s false t = _
      unfold decodeDatagram
      rw [hp]
      exact finish_ok (if_neg (by omega)) rfl rfl
    | true =>
      obtain ⟨rfl, _⟩ := (startsWith_raw rfl (fun _ => Iff.rfl)).1 hf
      have hp : parseDatagram true t = _ := hp
      show decodeDatagram cfg h s true t = _
      unfold decodeDatagram
      rw [hp]
      exact finish_ok (if_neg (by omega)) rfl rfl
  | newConnectionId path seq retire cid token =>
    have hv : retire ≤ seq ∧ cid.length ≤ 20 := hv
    cases path with
    | none =>
      rw [decodeOne_allowed hf ha (by simp) (by simp)]
      have hp := parseShort_complete rfl hf
      obtain ⟨rfl, _⟩ := (startsWith_raw rfl (fun _ => Iff.rfl)).1 hf
      have hp : parseNewCid false t = _ := hp
      show decodeNewCid cfg h s false t = _
      unfold decodeNewCid
      rw [if_neg (by simp)]
      rw [hp]
      refine finish_ok ?_ rfl rfl
      dsimp only
      rw [if_neg (by omega), if_neg (by omega)]
    | some p =>
      have he : cfg.epoch = .oneRtt := by simpa [AllowedIn] using ha
      rw [decodeOne_extension rfl hf (.inr he)]
      have hp := parseExt_complete rfl hf
      obtain ⟨r, h1, _⟩ := (startsWith_int rfl (fun _ => Iff.rfl)).1 hf
      rw [decodeExtension_oneRtt he h1]
      unfold parseExt at hp
      rw [h1] at hp
      have hp : parseNewCid true r = _ := hp
      show decodeNewCid cfg h s true r = _
      unfold decodeNewCid
      rw [if_neg (by have := hn rfl; simp [this]), hp]
      refine finish_ok ?_ rfl rfl
      dsimp only
      rw [if_neg (by omega), if_neg (by omega)]
  | retireConnectionId path seq =>
    cases path with
    | none =>
      rw [decodeOne_allowed hf ha (by simp) (by simp)]
      have hp := parseShort_complete rfl hf
      obtain ⟨rfl, _⟩ := (startsWith_raw rfl (fun _ => Iff.rfl)).1 hf
      have hp : parseRetireCid false t = _ := hp
      show decodeRetireCid cfg h s false t = _
      unfold decodeRetireCid
      dsimp only
      rw [if_neg (by simp), hp]
      exact finish_ok rfl rfl rfl
    | some p =>
      have he : cfg.epoch = .oneRtt := ha
      rw [decodeOne_extension rfl hf (.inr he)]
      have hp := parseExt_complete rfl hf
      obtain ⟨r, h1, _⟩ := (startsWith_int rfl (fun _ => Iff.rfl)).1 hf
      rw [decodeExtension_oneRtt he h1]
      unfold parseExt at hp
      rw [h1] at hp
      have hp : parseRetireCid true r = _ := hp
      show decodeRetireCid cfg h s true r = _
      unfold decodeRetireCid
      dsimp only
      rw [if_neg (by have := hn rfl; simp [this]), hp]
      exact finish_ok rfl rfl rfl
  | bdp =>
    rw [decodeOne_extension rfl hf ha]
    have hp := parseExt_complete rfl hf
    obtain ⟨r, h1, _⟩ := (startsWith_int rfl (fun _ => Iff.rfl)).1 hf
    unfold parseExt at hp
    rw [h1] at hp
    have hp : parseBdp r = _ := hp
    unfold decodeExtension
    dsimp only
    rw [h1]
    dsimp only
    rw [if_neg (by simp)]
    show decodeBdp cfg h s _ r = _
    have hn : cfg.client = true → cfg.bdp = true ∧ cfg.epoch = .oneRtt := hn
    have ha : cfg.epoch = .zeroRtt ∨ cfg.epoch = .oneRtt := ha
    unfold decodeBdp
    rw [if_neg (by grind), if_neg (by grind), if_neg (by grind), hp]
    exact finish_ok rfl rfl rfl
  | ackFrequency seq packets delay reordering =>
    have he : cfg.epoch = .oneRtt := ha
    rw [decodeOne_extension rfl hf (.inr he)]
    have hp := parseExt_complete rfl hf
    obtain ⟨r, h1, _⟩ := (startsWith_int rfl (fun _ => Iff.rfl)).1 hf
    rw [decodeExtension_oneRtt he h1]
    unfold parseExt at hp
    rw [h1] at hp
    have hp : parseAckFrequency r = _ := hp
    show decodeAckFrequency cfg h s r = _
    have hn : cfg.ackFrequency = true := hn
    have hv : cfg.minAckDelay ≤ delay ∧ packets ≠ 0 := hv
    unfold decodeAckFrequency
    rw [hp]
    refine finish_ok ?_ rfl rfl
    dsimp only
    rw [if_neg]
    rintro (h' | h' | h')
    · simp [hn] at h'
    · omega
    · exact hv.2 h'
  | immediateAck =>
    have he : cfg.epoch = .oneRtt := ha
    rw [decodeOne_extension rfl hf (.inr he)]
    have hp := parseExt_complete rfl hf
    obtain ⟨r, h1, _⟩ := (startsWith_int rfl (fun _ => Iff.rfl)).1 hf
    rw [decodeExtension_oneRtt he h1]
    unfold parseExt at hp
    rw [h1] at hp
    have hp : some (Frame.immediateAck, r) = _ := hp
    show decodeImmediateAck cfg h s r = _
    have hr : r = rest := (Prod.mk.inj (Option.some.inj hp)).2
    unfold decodeImmediateAck
    rw [hr, if_neg (hi rfl)]
    exact finish_ok (if_pos hn) rfl rfl
  | timeStamp =>
    have he : cfg.epoch = .oneRtt := ha
    rw [decodeOne_extension rfl hf (.inr he)]
    have hp := parseExt_complete rfl hf
    obtain ⟨r, h1, _⟩ := (startsWith_int rfl (fun _ => Iff.rfl)).1 hf
    rw [decodeExtension_oneRtt he h1]
    unfold parseExt at hp
    rw [h1] at hp
    have hp : parse1 .timeStamp r = _ := hp
    show decodeTimeStamp cfg h s r = _
    unfold decodeTimeStamp
    rw [hp]
    exact finish_ok (if_pos hn) rfl rfl
  | pathAbandon =>
    have he : cfg.epoch = .oneRtt := ha
    rw [decodeOne_extension rfl hf (.inr he)]
    have hp := parseExt_complete rfl hf
    obtain ⟨r, h1, _⟩ := (startsWith_int rfl (fun _ => Iff.rfl)).1 hf
    rw [decodeExtension_oneRtt he h1]
    unfold parseExt at hp
    rw [h1] at hp
    have hp : parse2 .pathAbandon r = _ := hp
    show decodeNegotiated cfg.multipath h s _ (parse2 .pathAbandon r) r false = _
    unfold decodeNegotiated
    rw [if_pos (show cfg.multipath = true from hn), hp]
    exact finish_ok rfl rfl rfl
  | maxPathId =>
    have he : cfg.epoch = .oneRtt := ha
    rw [decodeOne_extension rfl hf (.inr he)]
    have hp := parseExt_complete rfl hf
    obtain ⟨r, h1, _⟩ := (startsWith_int rfl (fun _ => Iff.rfl)).1 hf
    rw [decodeExtension_oneRtt he h1]
    unfold parseExt at hp
    rw [h1] at hp
    have hp : parse1 .maxPathId r = _ := hp
    show decodeNegotiated cfg.multipath h s _ (parse1 .maxPathId r) r false = _
    unfold decodeNegotiated
    rw [if_pos (show cfg.multipath = true from hn), hp]
    exact finish_ok rfl rfl rfl
  | pathsBlocked =>
    have he : cfg.epoch = .oneRtt := ha
    rw [decodeOne_extension rfl hf (.inr he)]
    have hp := parseExt_complete rfl hf
    obtain ⟨r, h1, _⟩ := (startsWith_int rfl (fun _ => Iff.rfl)).1 hf
    rw [decodeExtension_oneRtt he h1]
    unfold parseExt at hp
    rw [h1] at hp
    have hp : parse1 .pathsBlocked r = _ := hp
    show decodeNegotiated cfg.multipath h s _ (parse1 .pathsBlocked r) r false = _
    unfold decodeNegotiated
    rw [if_pos (show cfg.multipath = true from hn), hp]
    exact finish_ok rfl rfl rfl
  | pathCidBlocked =>
    have he : cfg.epoch = .oneRtt := ha
    rw [decodeOne_extension rfl hf (.inr he)]
    have hp := parseExt_complete rfl hf
    obtain ⟨r, h1, _⟩ := (startsWith_int rfl (fun _ => Iff.rfl)).1 hf
    rw [decodeExtension_oneRtt he h1]
    unfold parseExt at hp
    rw [h1] at hp
    have hp : parse2 .pathCidBlocked r = _ := hp
    show decodeNegotiated cfg.multipath h s _ (parse2 .pathCidBlocked r) r false = _
    unfold decodeNegotiated
    rw [if_pos (show cfg.multipath = true from hn), hp]
    exact finish_ok rfl rfl rfl
  | pathStatus v =>
    have he : cfg.epoch = .oneRtt := ha
    rw [decodeOne_extension rfl hf (.inr he)]
    have hp := parseExt_complete rfl hf
    obtain ⟨r, h1, _⟩ := (startsWith_int rfl (fun _ => Iff.rfl)).1 hf
    rw [decodeExtension_oneRtt he h1]
    unfold parseExt at hp
    rw [h1] at hp
    cases v
    · have hp : parse2 (.pathStatus false) r = _ := hp
      show decodeNegotiated cfg.multipath h s _ (parse2 (.pathStatus false) r) r false = _
      unfold decodeNegotiated
      rw [if_pos (show cfg.multipath = true from hn), hp]
      exact finish_ok rfl rfl rfl
    · have hp : parse2 (.pathStatus true) r = _ := hp
      show decodeNegotiated cfg.multipath h s _ (parse2 (.pathStatus true) r) r false = _
      unfold decodeNegotiated
      rw [if_pos (show cfg.multipath = true from hn), hp]
      exact finish_ok rfl rfl rfl
  | observedAddress v =>
    have he : cfg.epoch = .oneRtt := ha
    rw [decodeOne_extension rfl hf (.inr he)]
    have hp := parseExt_complete rfl hf
    obtain ⟨r, h1, _⟩ := (startsWith_int rfl (fun _ => Iff.rfl)).1 hf
    rw [decodeExtension_oneRtt he h1]
    unfold parseExt at hp
    rw [h1] at hp
    cases v
    · have hp : parseObservedAddress false r = _ := hp
      show decodeNegotiated cfg.addressDiscovery h s _ (parseObservedAddress false r) r true = _
      unfold decodeNegotiated
      rw [if_pos (show cfg.addressDiscovery = true from hn), hp]
      exact finish_ok rfl rfl rfl
    · have hp : parseObservedAddress true r = _ := hp
      show decodeNegotiated cfg.addressDiscovery h s _ (parseObservedAddress true r) r true = _
      unfold decodeNegotiated
      rw [if_pos (show cfg.addressDiscovery = true from hn), hp]
      exact finish_ok rfl rfl rfl

/-! ## Frames that are refused -/

theorem errors_one (h : Handler σ) (s : σ) (code type : Nat) : Errors h s (h.error s code type) :=
  ⟨[(code, type)], by simp, rfl⟩

/-- The frames that are not refused when the extension is not negotiated. -/
def Lenient (cfg : Cfg) : Frame → Prop
  | .pathAbandon .. | .pathStatus .. | .maxPathId _ | .pathsBlocked _ | .pathCidBlocked .. => cfg.multipath = false
  | .observedAddress .. => cfg.addressDiscovery = false
  | _ => False

theorem decodeOne_refused {cfg : Cfg} {h : Handler σ} {s : σ} {b : UInt8} {t rest : Bytes} {f : Frame}
    (hf : StartsWith (b :: t) f rest) (ha : ¬ Acceptable cfg f) (hl : AllowedIn cfg.epoch f → ¬ Lenient cfg f)
    (hi : f = .immediateAck → AllowedIn cfg.epoch f → rest ≠ []) :
    ∃ s', decodeOne cfg h s b t = .stop s' ∧ Errors h s s' := by
  by_cases hal : AllowedIn cfg.epoch f
  rotate_left
  · exact ⟨_, decodeOne_notAllowed hf hal, errors_one h s _ _⟩
  have hnv : ¬ (Negotiated cfg f ∧ ValidFields cfg f) := fun hh => ha ⟨hal, hh⟩
  have hl := hl hal
  have hi := fun hh => hi hh hal
  clear ha
  have ha := hal
  cases f with
  | stream id o fin d e =>
    rw [decodeOne_stream hf ha]
    have hv : ¬ (o + d.length < 2 ^ 62) := fun hh => hnv ⟨trivial, hh⟩
    exact ⟨_, finish_refuse (if_pos (by omega)), errors_one h s _ _⟩
  | ack c =>
    rw [decodeOne_ack hf ha]
    obtain ⟨⟨l, d, n, r, h1⟩, h2⟩ := ack_parts hf
    unfold decodeAckFrame
    rw [h1]
    dsimp only
    have hm : ¬ (c.pathId.isSome = true → cfg.multipath = true) := fun hh => hnv ⟨hh, trivial⟩
    rw [if_pos (by cases hc : c.pathId.isSome <;> cases hc' : cfg.multipath <;> simp_all)]
    exact ⟨_, rfl, errors_one h s _ _⟩
  | newToken =>
    rw [decodeOne_allowed hf ha (by simp) (by simp)]
    have hp := parseShort_complete rfl hf
    obtain ⟨rfl, _⟩ := (startsWith_raw rfl (fun _ => Iff.rfl)).1 hf
    have hp : parseNewToken t = _ := hp
    show ∃ s', decodeNewToken cfg h s t = _ ∧ _
    unfold decodeNewToken
    rw [hp]
    exact ⟨_, finish_refuse (if_neg (fun hh => hnv ⟨hh, trivial⟩)), errors_one h s _ _⟩
  | handshakeDone =>
    rw [decodeOne_allowed hf ha (by simp) (by simp)]
    obtain ⟨rfl, _⟩ := (startsWith_raw rfl (fun _ => Iff.rfl)).1 hf
    show ∃ s', decodeHandshakeDone cfg h s t = _ ∧ _
    unfold decodeHandshakeDone
    exact ⟨_, finish_refuse (if_neg (fun hh => hnv ⟨hh, trivial⟩)), errors_one h s _ _⟩
  | datagram d e =>
    rw [decodeOne_allowed hf ha (by simp) (by simp)]
    have hp := parseShort_complete rfl hf
    have hv : ¬ d.length ≤ cfg.maxDatagram := fun hh => hnv ⟨trivial, hh⟩
    cases e with
    | false =>
      obtain ⟨rfl, _⟩ := (startsWith_raw rfl (fun _ => Iff.rfl)).1 hf
      have hp : parseDatagram false t = _ := hp
      show ∃ s', decodeDatagram cfg h s false t = _ ∧ _
      unfold decodeDatagram
      rw [hp]
      exact ⟨_, finish_refuse (if_pos (by omega)), errors_one h s _ _⟩
    | true =>
      obtain ⟨rfl, _⟩ := (startsWith_raw rfl (fun _ => Iff.rfl)).1 hf
      have hp : parseDatagram true t = _ := hp
      show ∃ s', decodeDatagram cfg h s true t = _ ∧ _
      unfold decodeDatagram
      rw [hp]
      exact ⟨_, finish_refuse (if_pos (by omega)), errors_one h s _ _⟩
  | newConnectionId path seq retire cid token =>
    have hrefuse : ∀ (isMp : Bool) (r : Bytes), (isMp = true → cfg.multipath = true) →
        parseNewCid isMp r = some (.newConnectionId path seq retire cid token, rest) → ¬ (retire ≤ seq ∧ cid.length ≤ 20) →
        ∃ s', decodeNewCid cfg h s isMp r = .stop s' ∧ Errors h s s' := by
      intro isMp r hmp hp hv
      unfold decodeNewCid
      rw [if_neg (by cases isMp <;> simp_all), hp]
      by_cases h1 : retire > seq
      · exact ⟨_, finish_refuse (if_pos h1), errors_one h s _ _⟩
      · refine ⟨_, finish_refuse (e := (0xA, 0x18)) ?_, errors_one h s _ _⟩
        dsimp only
        rw [if_neg h1, if_pos (by omega)]
    cases path with
    | none =>
      rw [decodeOne_allowed hf ha (by simp) (by simp)]
      have hp := parseShort_complete rfl hf
      obtain ⟨rfl, _⟩ := (startsWith_raw rfl (fun _ => Iff.rfl)).1 hf
      exact hrefuse false t (by simp) hp (fun hh => hnv ⟨by simp [Negotiated], hh⟩)
    | some p =>
      have he : cfg.epoch = .oneRtt := by simpa [AllowedIn] using ha
      rw [decodeOne_extension rfl hf (.inr he)]
      have hp := parseExt_complete rfl hf
      obtain ⟨r, h1, _⟩ := (startsWith_int rfl (fun _ => Iff.rfl)).1 hf
      rw [decodeExtension_oneRtt he h1]
      unfold parseExt at hp
      rw [h1] at hp
      show ∃ s', decodeNewCid cfg h s true r = _ ∧ _
      by_cases hm : cfg.multipath = true
      · exact hrefuse true r (fun _ => hm) hp (fun hh => hnv ⟨fun _ => hm, hh⟩)
      · unfold decodeNewCid
        rw [if_pos (by simp [hm])]
        exact ⟨_, rfl, [(0xA, 0x15228c09), (0x7, 0x18)], by simp, rfl⟩
  | retireConnectionId path seq =>
    cases path with
    | none => exact absurd ⟨by simp [Negotiated], trivial⟩ hnv
    | some p =>
      have he : cfg.epoch = .oneRtt := ha
      rw [decodeOne_extension rfl hf (.inr he)]
      obtain ⟨r, h1, _⟩ := (startsWith_int rfl (fun _ => Iff.rfl)).1 hf
      rw [decodeExtension_oneRtt he h1]
      show ∃ s', decodeRetireCid cfg h s true r = _ ∧ _
      unfold decodeRetireCid
      dsimp only
      have hm : ¬ cfg.multipath = true := fun hh => hnv ⟨fun _ => hh, trivial⟩
      rw [if_pos (by simp [hm])]
      exact ⟨_, rfl, errors_one h s _ _⟩
  | bdp =>
    rw [decodeOne_extension rfl hf ha]
    obtain ⟨r, h1, _⟩ := (startsWith_int rfl (fun _ => Iff.rfl)).1 hf
    unfold decodeExtension
    dsimp only
    rw [h1]
    dsimp only
    rw [if_neg (by simp)]
    have hn : ¬ (cfg.client = true → cfg.bdp = true ∧ cfg.epoch = .oneRtt) := fun hh => hnv ⟨hh, trivial⟩
    have ha : cfg.epoch = .zeroRtt ∨ cfg.epoch = .oneRtt := ha
    show ∃ s', decodeBdp cfg h s _ r = _ ∧ _
    unfold decodeBdp
    by_cases h2 : cfg.client = true ∧ cfg.epoch ≠ .oneRtt
    · rw [if_pos h2]
      exact ⟨_, rfl, errors_one h s _ _⟩
    · rw [if_neg h2, if_neg (by grind), if_pos (by grind)]
      exact ⟨_, rfl, errors_one h s _ _⟩
  | ackFrequency seq packets delay reordering =>
    have he : cfg.epoch = .oneRtt := ha
    rw [decodeOne_extension rfl hf (.inr he)]
    have hp := parseExt_complete rfl hf
    obtain ⟨r, h1, _⟩ := (startsWith_int rfl (fun _ => Iff.rfl)).1 hf
    rw [decodeExtension_oneRtt he h1]
    unfold parseExt at hp
    rw [h1] at hp
    have hp : parseAckFrequency r = _ := hp
    show ∃ s', decodeAckFrequency cfg h s r = _ ∧ _
    have hnv : ¬ (cfg.ackFrequency = true ∧ cfg.minAckDelay ≤ delay ∧ packets ≠ 0) := hnv
    unfold decodeAckFrequency
    rw [hp]
    refine ⟨_, finish_refuse (e := (0x7, 0xAF)) ?_, errors_one h s _ _⟩
    dsimp only
    rw [if_pos]
    by_cases h1 : cfg.ackFrequency = true
    · by_cases h2 : packets = 0
      · exact .inr (.inr h2)
      · refine .inr (.inl ?_)
        have : ¬ cfg.minAckDelay ≤ delay := fun hh => hnv ⟨h1, hh, h2⟩
        omega
    · left; simpa using h1
  | immediateAck =>
    have he : cfg.epoch = .oneRtt := ha
    rw [decodeOne_extension rfl hf (.inr he)]
    have hp := parseExt_complete rfl hf
    obtain ⟨r, h1, _⟩ := (startsWith_int rfl (fun _ => Iff.rfl)).1 hf
    rw [decodeExtension_oneRtt he h1]
    unfold parseExt at hp
    rw [h1] at hp
    have hp : some (Frame.immediateAck, r) = _ := hp
    have hr : r = rest := (Prod.mk.inj (Option.some.inj hp)).2
    show ∃ s', decodeImmediateAck cfg h s r = _ ∧ _
    unfold decodeImmediateAck
    rw [hr, if_neg (hi rfl)]
    exact ⟨_, finish_refuse (if_neg (fun hh => hnv ⟨hh, trivial⟩)), errors_one h s _ _⟩
  | timeStamp =>
    have he : cfg.epoch = .oneRtt := ha
    rw [decodeOne_extension rfl hf (.inr he)]
    have hp := parseExt_complete rfl hf
    obtain ⟨r, h1, _⟩ := (startsWith_int rfl (fun _ => Iff.rfl)).1 hf
    rw [decodeExtension_oneRtt he h1]
    unfold parseExt at hp
    rw [h1] at hp
    have hp : parse1 .timeStamp r = _ := hp
    show ∃ s', decodeTimeStamp cfg h s r = _ ∧ _
    unfold decodeTimeStamp
    rw [hp]
    exact ⟨_, finish_refuse (if_neg (fun hh => hnv ⟨hh, trivial⟩)), errors_one h s _ _⟩
  | pathAbandon | pathStatus | maxPathId | pathsBlocked | pathCidBlocked | observedAddress =>
    exact absurd (by simpa [Negotiated, ValidFields, Lenient] using hnv) hl
  | _ => exact absurd ⟨trivial, trivial⟩ hnv

/-- IMMEDIATE_ACK at the end of a packet. -/
theorem decodeOne_lastImmediateAck {cfg : Cfg} {h : Handler σ} {s : σ} {b : UInt8} {t : Bytes}
    (hf : StartsWith (b :: t) .immediateAck []) (ha : AllowedIn cfg.epoch .immediateAck) :
    decodeOne cfg h s b t = .cont s [] true false := by
  have he : cfg.epoch = .oneRtt := ha
  rw [decodeOne_extension rfl hf (.inr he)]
  have hp := parseExt_complete rfl hf
  obtain ⟨r, h1, _⟩ := (startsWith_int rfl (fun _ => Iff.rfl)).1 hf
  rw [decodeExtension_oneRtt he h1]
  unfold parseExt at hp
  rw [h1] at hp
  have hp : some (Frame.immediateAck, r) = _ := hp
  have hr : r = [] := (Prod.mk.inj (Option.some.inj hp)).2
  show decodeImmediateAck cfg h s r = _
  unfold decodeImmediateAck
  rw [hr, if_pos rfl]

/-- An ACK for a path that is not known. -/
theorem decodeOne_unknownPath {cfg : Cfg} {h : Handler σ} {s : σ} {b : UInt8} {t rest : Bytes} {c : AckContent}
    (hf : StartsWith (b :: t) (.ack c) rest) (he : cfg.epoch = .oneRtt) (hm : cfg.multipath = true)
    (hk : h.pathKnown s (c.pathId.getD 0) = false) :
    decodeOne cfg h s b t = .cont s rest false false := by
  rw [decodeOne_ack hf (by simp only [AllowedIn]; split <;> simp [he])]
  obtain ⟨⟨l, d, n, r, h1⟩, h2⟩ := ack_parts hf
  unfold decodeAckFrame
  rw [h1]
  dsimp only
  rw [if_neg (by simp [hm]), if_pos ⟨he, hm, hk⟩]
  obtain ⟨p, hp, h3, _⟩ := hf
  obtain ⟨ty, body, rfl, hb, ht⟩ := (show ∃ ty body, p = ty ++ body ∧ IsAckBody body c ∧ _ from h3)
  have hv : Varint ty c.type := by
    cases hc : c.pathId with
    | some i => rw [hc] at ht; exact ht
    | none =>
      rw [hc] at ht
      dsimp only at ht
      rw [ht]
      have : c.type < 64 := by
        unfold AckContent.type
        rw [hc]
        cases c.ecn <;> simp
      have hu : (u8 c.type).toNat = c.type := by
        show (UInt8.ofNat c.type).toNat = _
        simp; omega
      exact ⟨0, by decide, rfl, by omega, by simp [bigEndian, hu]⟩
  rw [hp, List.append_assoc, skipAck_complete hv hb]

/-! ## What is not a frame -/

theorem decodeOne_lenient {cfg : Cfg} {h : Handler σ} {s : σ} {b : UInt8} {t r : Bytes} {type : Nat}
    (he : cfg.epoch = .oneRtt) (hd : framesVarintDecode (b :: t) = some (type, r)) (hl : UnnegotiatedType cfg type) :
    ∃ p, decodeOne cfg h s b t = .cont (h.error s 0xA type) r true p := by
  have hb : 64 ≤ b.toNat := by
    by_cases hb : b.toNat < 64
    · rw [decode_short hb] at hd
      have := (Prod.mk.inj (Option.some.inj hd)).1
      unfold UnnegotiatedType at hl
      omega
    · omega
  rw [decodeOne_ext (.inl hb), if_neg (by simp [he]), decodeExtension_oneRtt he hd]
  rcases hl with ⟨hl, hm⟩ | ⟨hl, hm⟩
  · rcases hl with rfl | rfl | rfl | rfl | rfl | rfl
    · exact ⟨false, by show decodeNegotiated cfg.multipath h s _ (parse2 .pathAbandon r) r false = _; rw [hm]; rfl⟩
    · exact ⟨false, by show decodeNegotiated cfg.multipath h s _ (parse2 (.pathStatus false) r) r false = _; rw [hm]; rfl⟩
    · exact ⟨false, by show decodeNegotiated cfg.multipath h s _ (parse2 (.pathStatus true) r) r false = _; rw [hm]; rfl⟩
    · exact ⟨false, by show decodeNegotiated cfg.multipath h s _ (parse1 .maxPathId r) r false = _; rw [hm]; rfl⟩
    · exact ⟨false, by show decodeNegotiated cfg.multipath h s _ (parse1 .pathsBlocked r) r false = _; rw [hm]; rfl⟩
    · exact ⟨false, by show decodeNegotiated cfg.multipath h s _ (parse2 .pathCidBlocked r) r false = _; rw [hm]; rfl⟩
  · rcases hl with rfl | rfl
    · exact ⟨true, by show decodeNegotiated cfg.addressDiscovery h s _ (parseObservedAddress false r) r true = _; rw [hm]; rfl⟩
    · exact ⟨true, by show decodeNegotiated cfg.addressDiscovery h s _ (parseObservedAddress true r) r true = _; rw [hm]; rfl⟩

theorem ackHeader_path {hasPath : Bool} {bs r : Bytes} {type : Nat} {path l d n : Nat} {x : Bytes}
    (hd : framesVarintDecode bs = some (type, r))
    (h : Ack.parseAckHeader hasPath 0 bs = some (path, l, d, n, x)) :
    if hasPath then ∃ r', framesVarintDecode r = some (path, r') else path = 0 := by
  obtain ⟨t, rfl, ht⟩ := Ack.varint_of_decode hd
  obtain ⟨b0, l0, e0, e1⟩ := Ack.varint_length ht r
  rw [e0, Ack.parseAckHeader, e1] at h
  cases hasPath with
  | false =>
    rw [if_neg Bool.false_ne_true] at h
    dsimp only at h
    rw [if_neg Bool.false_ne_true]
    (repeat' split at h) <;> simp_all
  | true =>
    rw [if_pos rfl] at h ⊢
    cases hr : framesVarintDecode r with
    | none => rw [hr] at h; cases h
    | some y =>
      obtain ⟨p, r0⟩ := y
      rw [hr] at h
      dsimp only at h
      (repeat' split at h) <;> simp_all

theorem decodeAckFrame_malformed {cfg : Cfg} {h : Handler σ} {s : σ} {isEcn hasPath : Bool} {type : Nat} {bs r : Bytes}
    (hd : framesVarintDecode bs = some (type, r)) (hp : parseAck isEcn hasPath r = none)
    (ht : type = if hasPath then (if isEcn then 0x15228c01 else 0x15228c00) else (if isEcn then 3 else 2))
    (hb : hasPath = false → bs.head? = some 2 ∨ bs.head? = some 3) (hu : ¬ UnknownPathAck cfg h s bs) :
    ∃ s', decodeAckFrame cfg h s isEcn hasPath type bs = .stop s' ∧ Dropped h s bs s' := by
  unfold decodeAckFrame
  cases hh : Ack.parseAckHeader hasPath 0 bs with
  | none => exact ⟨_, rfl, .inl (errors_one h s _ _)⟩
  | some x =>
    obtain ⟨path, l, d, n, x⟩ := x
    dsimp only
    by_cases h1 : (hasPath && !cfg.multipath) = true
    · rw [if_pos h1]
      exact ⟨_, rfl, .inl (errors_one h s _ _)⟩
    · rw [if_neg h1]
      have hpath := ackHeader_path hd hh
      by_cases h2 : cfg.epoch = .oneRtt ∧ cfg.multipath = true ∧ h.pathKnown s path = false
      · refine absurd ⟨h2.1, h2.2.1, ?_⟩ hu
        cases hasPath with
        | false =>
          left
          rw [if_neg Bool.false_ne_true] at hpath
          rw [hpath] at h2
          exact ⟨hb rfl, h2.2.2⟩
        | true =>
          right
          rw [if_pos rfl] at hpath
          obtain ⟨r', h3⟩ := hpath
          exact ⟨type, r, intAt hd, by cases isEcn <;> simp [ht], path, r', intAt h3, h2.2.2⟩
      · rw [if_neg h2]
        have : (framesVarintSkip bs).getD [] = r := by rw [framesVarintSkip_eq, hd]; rfl
        rw [this, hp]
        refine ⟨_, rfl, .inr (.inr ⟨.inr ⟨type, r, intAt hd, ?_⟩, .inr rfl⟩)⟩
        cases hasPath <;> cases isEcn <;> simp [ht]

theorem decodeExtension_malformed {cfg : Cfg} {h : Handler σ} {s : σ} {bs : Bytes}
    (hx : parseExt bs = none) (hu : ¬ UnknownPathAck cfg h s bs)
    (hl : ¬ (cfg.epoch = .oneRtt ∧ ∃ type r, IntAt bs type r ∧ UnnegotiatedType cfg type))
    (he : cfg.epoch = .zeroRtt ∨ cfg.epoch = .oneRtt) :
    ∃ s', decodeExtension cfg h s bs = .stop s' ∧ Dropped h s bs s' := by
  unfold decodeExtension
  dsimp only
  unfold parseExt at hx
  cases hd : framesVarintDecode bs with
  | none => exact ⟨_, rfl, .inr (.inr ⟨.inl (not_intAt hd), .inl rfl⟩)⟩
  | some x =>
    obtain ⟨type, r⟩ := x
    rw [hd] at hx
    dsimp only at hx ⊢
    by_cases hz : cfg.epoch = .zeroRtt ∧ type ≠ 0xebd9
    · rw [if_pos hz]
      exact ⟨_, rfl, .inl (errors_one h s _ _)⟩
    rw [if_neg hz]
    have neg : ∀ (w pr : Bool) (x : Parse), x = none → (cfg.epoch = .oneRtt → w = true) → type ≠ 0xebd9 →
        ∃ s', decodeNegotiated w h s type x r pr = .stop s' ∧ Dropped h s bs s' := by
      intro w pr x hx hw hne
      have he' : cfg.epoch = .oneRtt := by
        rcases he with he | he
        · exact absurd ⟨he, hne⟩ hz
        · exact he
      unfold decodeNegotiated
      rw [if_pos (hw he'), hx]
      exact ⟨_, rfl, .inl (errors_one h s _ _)⟩
    have len : ∀ (w : Bool), (w = false → UnnegotiatedType cfg type) → cfg.epoch = .oneRtt → w = true := by
      intro w hw he'
      cases w with
      | true => rfl
      | false => exact absurd ⟨he', type, r, intAt hd, hw rfl⟩ hl
    by_cases ht : type = 0xAF
    · rw [if_pos ht] at hx ⊢
      refine ⟨_, by unfold decodeAckFrequency; rw [hx]; rfl, .inr (.inr ⟨.inr ⟨type, r, intAt hd, by omega⟩, .inl rfl⟩)⟩
    rw [if_neg ht] at hx ⊢
    by_cases ht : type = 0x1F
    · rw [if_pos ht] at hx; cases hx
    rw [if_neg ht] at hx ⊢
    by_cases ht : type = 757
    · rw [if_pos ht] at hx ⊢
      refine ⟨_, by unfold decodeTimeStamp; rw [hx]; rfl, .inr (.inr ⟨.inr ⟨type, r, intAt hd, by omega⟩, .inl rfl⟩)⟩
    rw [if_neg ht] at hx ⊢
    by_cases ht : type = 0x15228c00
    · rw [if_pos ht] at hx ⊢
      exact decodeAckFrame_malformed hd (Option.map_eq_none_iff.1 hx) ht (by simp) hu
    rw [if_neg ht] at hx ⊢
    by_cases ht : type = 0x15228c01
    · rw [if_pos ht] at hx ⊢
      exact decodeAckFrame_malformed hd (Option.map_eq_none_iff.1 hx) ht (by simp) hu
    rw [if_neg ht] at hx ⊢
    by_cases ht : type = 0x15228c05
    · rw [if_pos ht] at hx ⊢
      exact neg _ _ _ hx (len _ (fun hw => .inl ⟨by omega, hw⟩)) (by omega)
    rw [if_neg ht] at hx ⊢
    by_cases ht : type = 0x15228c07
    · rw [if_pos ht] at hx
      rw [if_pos (.inl ht)]
      exact neg _ _ _ (by simpa [ht] using hx) (len _ (fun hw => .inl ⟨by omega, hw⟩)) (by omega)
    rw [if_neg ht] at hx
    by_cases ht' : type = 0x15228c08
    · rw [if_pos ht'] at hx
      rw [if_pos (.inr ht')]
      exact neg _ _ _ (by simpa [ht'] using hx) (len _ (fun hw => .inl ⟨by omega, hw⟩)) (by omega)
    rw [if_neg ht'] at hx
    rw [if_neg (by omega)]
    clear ht ht'
    by_cases ht : type = 0x15228c0c
    · rw [if_pos ht] at hx ⊢
      exact neg _ _ _ hx (len _ (fun hw => .inl ⟨by omega, hw⟩)) (by omega)
    rw [if_neg ht] at hx ⊢
    by_cases ht : type = 0x15228c0d
    · rw [if_pos ht] at hx ⊢
      exact neg _ _ _ hx (len _ (fun hw => .inl ⟨by omega, hw⟩)) (by omega)
    rw [if_neg ht] at hx ⊢
    by_cases ht : type = 0x15228c0e
    · rw [if_pos ht] at hx ⊢
      exact neg _ _ _ hx (len _ (fun hw => .inl ⟨by omega, hw⟩)) (by omega)
    rw [if_neg ht] at hx ⊢
    by_cases ht : type = 0x15228c09
    · rw [if_pos ht] at hx ⊢
      unfold decodeNewCid
      split
      · exact ⟨_, rfl, .inl ⟨[(0xA, 0x15228c09), (0x7, 0x18)], by simp, rfl⟩⟩
      · rw [hx]
        exact ⟨_, rfl, .inl (errors_one h s _ _)⟩
    rw [if_neg ht] at hx ⊢
    by_cases ht : type = 0x15228c0a
    · rw [if_pos ht] at hx ⊢
      unfold decodeRetireCid
      dsimp only
      split
      · exact ⟨_, rfl, .inl (errors_one h s _ _)⟩
      · rw [hx]
        exact ⟨_, rfl, .inl (errors_one h s _ _)⟩
    rw [if_neg ht] at hx ⊢
    by_cases ht : type = 0xebd9
    · rw [if_pos ht] at hx ⊢
      unfold decodeBdp
      split
      · exact ⟨_, rfl, .inl (errors_one h s _ _)⟩
      · split
        · exact ⟨_, rfl, .inl (errors_one h s _ _)⟩
        · split
          · exact ⟨_, rfl, .inl (errors_one h s _ _)⟩
          · rw [hx]
            exact ⟨_, rfl, .inl (errors_one h s _ _)⟩
    rw [if_neg ht] at hx ⊢
    by_cases ht : type = 0x9f81a6
    · rw [if_pos ht] at hx
      rw [if_pos (.inl ht)]
      exact neg _ _ _ (by simpa [ht] using hx) (len _ (fun hw => .inr ⟨by omega, hw⟩)) (by omega)
    rw [if_neg ht] at hx
    by_cases ht' : type = 0x9f81a7
    · rw [if_pos ht'] at hx
      rw [if_pos (.inr ht')]
      exact neg _ _ _ (by simpa [ht'] using hx) (len _ (fun hw => .inr ⟨by omega, hw⟩)) (by omega)
    rw [if_neg (by omega)]
    exact ⟨_, rfl, .inl (errors_one h s _ _)⟩

theorem decodeSwitch_malformed {cfg : Cfg} {h : Handler σ} {s : σ} {b : UInt8} {t : Bytes}
    (hs : parseShort b t = none) (hx : parseExt (b :: t) = none) (hu : ¬ UnknownPathAck cfg h s (b :: t))
    (hl : ¬ (cfg.epoch = .oneRtt ∧ ∃ type r, IntAt (b :: t) type r ∧ UnnegotiatedType cfg type))
    (he : (cfg.epoch = .zeroRtt ∨ cfg.epoch = .oneRtt) ∨ b.toNat = 0 ∨ b.toNat = 1 ∨ b.toNat = 0x1c ∨ b.toNat = 6) :
    ∃ s', decodeSwitch cfg h s b t = .stop s' ∧ Dropped h s (b :: t) s' := by
  unfold decodeSwitch
  split
  case h_24 =>
    rename_i h0 _ h1c _ _ _ _ h1 _ _ _ _ _ _ _ _ h6 _ _ _ _ _
    exact decodeExtension_malformed hx hu hl (by
      rcases he with he | he | he | he | he
      · exact he
      · exact absurd he (by assumption)
      · exact absurd he (by assumption)
      · exact absurd he (by assumption)
      · exact absurd he (by assumption))
  all_goals
    rename_i hk
    obtain rfl := u8_inj hk (by decide)
  · cases hs
  · have hs : parseReset t = none := hs
    rw [hs]
    exact ⟨_, rfl, .inl (errors_one h s _ _)⟩
  · have hs : parseConnectionClose t = none := hs
    rw [hs]
    exact ⟨_, rfl, .inr (.inl (errors_one h _ _ _))⟩
  · have hs : parseApplicationClose t = none := hs
    rw [hs]
    exact ⟨_, rfl, .inr (.inl (errors_one h _ _ _))⟩
  · have hs : parse1 .maxData t = none := hs
    rw [hs]
    exact ⟨_, rfl, .inl (errors_one h s _ _)⟩
  · have hs : parse2 .maxStreamData t = none := hs
    rw [hs]
    exact ⟨_, rfl, .inl (errors_one h s _ _)⟩
  · have hs : parse1 (.maxStreams true) t = none := hs
    rw [hs]
    exact ⟨_, rfl, .inl (errors_one h s _ _)⟩
  · have hs : parse1 (.maxStreams false) t = none := hs
    rw [hs]
    exact ⟨_, rfl, .inl (errors_one h s _ _)⟩
  · cases hs
  · have hs : parse1 .dataBlocked t = none := hs
    rw [hs]
    exact ⟨_, rfl, .inl (errors_one h s _ _)⟩
  · have hs : parse2 .streamDataBlocked t = none := hs
    rw [hs]
    exact ⟨_, rfl, .inl (errors_one h s _ _)⟩
  · have hs : parse1 (.streamsBlocked true) t = none := hs
    rw [hs]
    exact ⟨_, rfl, .inl (errors_one h s _ _)⟩
  · have hs : parse1 (.streamsBlocked false) t = none := hs
    rw [hs]
    exact ⟨_, rfl, .inl (errors_one h s _ _)⟩
  · have hs : parseNewCid false t = none := hs
    unfold decodeNewCid
    rw [if_neg (by simp), hs]
    exact ⟨_, rfl, .inl (errors_one h s _ _)⟩
  · have hs : parseStopSending t = none := hs
    rw [hs]
    exact ⟨_, rfl, .inl (errors_one h s _ _)⟩
  · have hs : parsePathChallenge t = none := hs
    rw [hs]
    exact ⟨_, rfl, .inl (errors_one h s _ _)⟩
  · have hs : parsePathResponse t = none := hs
    rw [hs]
    exact ⟨_, rfl, .inl (errors_one h s _ _)⟩
  · have hs : parseCrypto t = none := hs
    rw [hs]
    exact ⟨_, rfl, .inl (errors_one h s _ _)⟩
  · have hs : parseNewToken t = none := hs
    unfold decodeNewToken
    rw [hs]
    exact ⟨_, rfl, .inl (errors_one h s _ _)⟩
  · have hs : parseRetireCid false t = none := hs
    unfold decodeRetireCid
    dsimp only
    rw [if_neg (by simp), hs]
    exact ⟨_, rfl, .inl (errors_one h s _ _)⟩
  · cases hs
  · have hs : parseDatagram false t = none := hs
    unfold decodeDatagram
    dsimp only
    rw [hs]
    exact ⟨_, rfl, .inl (errors_one h s _ _)⟩
  · have hs : parseDatagram true t = none := hs
    unfold decodeDatagram
    dsimp only
    rw [hs]
    exact ⟨_, rfl, .inl (errors_one h s _ _)⟩

theorem decodeOne_malformed {cfg : Cfg} {h : Handler σ} {s : σ} {b : UInt8} {t : Bytes}
    (hn : ∀ f rest, ¬ StartsWith (b :: t) f rest) (hu : ¬ UnknownPathAck cfg h s (b :: t))
    (hl : ¬ (cfg.epoch = .oneRtt ∧ ∃ type r, IntAt (b :: t) type r ∧ UnnegotiatedType cfg type)) :
    ∃ s', decodeOne cfg h s b t = .stop s' ∧ Dropped h s (b :: t) s' := by
  have hs : parseShort b t = none := by
    cases hs : parseShort b t with
    | none => rfl
    | some x => exact absurd (parseShort_sound (f := x.1) (rest := x.2) hs).2 (hn _ _)
  have hx : parseExt (b :: t) = none := by
    cases hx : parseExt (b :: t) with
    | none => rfl
    | some x => exact absurd (parseExt_sound (f := x.1) (rest := x.2) hx).2 (hn _ _)
  unfold decodeOne
  dsimp only
  by_cases h1 : 8 ≤ b.toNat ∧ b.toNat ≤ 15
  · rw [if_pos h1]
    split
    · exact ⟨_, rfl, .inl (errors_one h s _ _)⟩
    · unfold parseShort at hs
      rw [if_pos (by omega)] at hs
      unfold decodeStream
      rw [hs]
      exact ⟨_, rfl, .inr (.inr ⟨.inr ⟨_, _, intAt (decode_short (by omega) t), .inl h1⟩, .inl rfl⟩)⟩
  rw [if_neg h1]
  by_cases h2 : b.toNat = 2
  · rw [if_pos h2]
    split
    · exact ⟨_, rfl, .inl (errors_one h s _ _)⟩
    · obtain rfl : b = 2 := u8_inj h2 (by decide)
      have hp : Option.map _ (parseAck false false t) = none := hs
      exact decodeAckFrame_malformed (decode_short (by decide) t) (Option.map_eq_none_iff.1 hp) rfl (by simp) hu
  rw [if_neg h2]
  by_cases h3 : b.toNat = 3
  · rw [if_pos h3]
    split
    · exact ⟨_, rfl, .inl (errors_one h s _ _)⟩
    · obtain rfl : b = 3 := u8_inj h3 (by decide)
      have hp : Option.map _ (parseAck true false t) = none := hs
      exact decodeAckFrame_malformed (decode_short (by decide) t) (Option.map_eq_none_iff.1 hp) rfl (by simp) hu
  rw [if_neg h3]
  split
  · exact ⟨_, rfl, .inl (errors_one h s _ _)⟩
  · split
    · exact ⟨_, rfl, .inl (errors_one h s _ _)⟩
    · exact decodeSwitch_malformed hs hx hu hl (by grind)

theorem decodeAckFrame_unknown {cfg : Cfg} {h : Handler σ} {s : σ} {isEcn hasPath : Bool} {type : Nat} {bs r : Bytes}
    (hd : framesVarintDecode bs = some (type, r)) (he : cfg.epoch = .oneRtt) (hm : cfg.multipath = true)
    (ht : type = if hasPath then (if isEcn then 0x15228c01 else 0x15228c00) else (if isEcn then 3 else 2))
    (hk : ∀ path, (if hasPath then ∃ r', framesVarintDecode r = some (path, r') else path = 0) →
      h.pathKnown s path = false) :
    (∃ s', decodeAckFrame cfg h s isEcn hasPath type bs = .stop s' ∧ Dropped h s bs s') ∨
    (∃ rest, decodeAckFrame cfg h s isEcn hasPath type bs = .cont s rest false false ∧ skipAck isEcn hasPath bs = some rest) := by
  unfold decodeAckFrame
  cases hh : Ack.parseAckHeader hasPath 0 bs with
  | none => exact .inl ⟨_, rfl, .inl (errors_one h s _ _)⟩
  | some x =>
    obtain ⟨path, l, d, n, x⟩ := x
    dsimp only
    rw [if_neg (by simp [hm]), if_pos ⟨he, hm, hk path (ackHeader_path hd hh)⟩]
    cases hs : skipAck isEcn hasPath bs with
    | none =>
      refine .inl ⟨_, rfl, .inr (.inr ⟨.inr ⟨type, r, intAt hd, ?_⟩, .inl rfl⟩)⟩
      cases hasPath <;> cases isEcn <;> simp [ht]
    | some rest => exact .inr ⟨rest, rfl, rfl⟩

theorem decodeOne_unknown {cfg : Cfg} {h : Handler σ} {s : σ} {b : UInt8} {t : Bytes}
    (hu : UnknownPathAck cfg h s (b :: t)) :
    (∃ s', decodeOne cfg h s b t = .stop s' ∧ Dropped h s (b :: t) s') ∨
    (∃ rest, decodeOne cfg h s b t = .cont s rest false false ∧ skipSwitch b t = (some rest, true)) := by
  obtain ⟨he, hm, hu⟩ := hu
  rcases hu with ⟨hb, hk⟩ | ⟨type, r, hd, hty, path, r', hr, hk⟩
  rotate_left
  · have hd := intAt_decode hd
    have hr := intAt_decode hr
    have hb : 64 ≤ b.toNat := by
      by_cases hb : b.toNat < 64
      · rw [decode_short hb] at hd
        have := (Prod.mk.inj (Option.some.inj hd)).1
        omega
      · omega
    rw [decodeOne_ext (.inl hb), if_neg (by simp [he]), decodeExtension_oneRtt he hd]
    have hk' : ∀ p, (if true = true then ∃ r', framesVarintDecode r = some (p, r') else p = 0) →
        h.pathKnown s p = false := by
      intro p hp
      rw [if_pos rfl] at hp
      obtain ⟨r'', hp⟩ := hp
      rw [hr] at hp
      rw [← (Prod.mk.inj (Option.some.inj hp)).1]
      exact hk
    rcases hty with rfl | rfl
    · refine (decodeAckFrame_unknown hd he hm rfl hk').imp id ?_
      rintro ⟨rest, h1, h2⟩
      refine ⟨rest, h1, ?_⟩
      rw [skipSwitch_ext (.inl hb)]
      unfold skipExtension
      rw [hd, ← h2]
      rfl
    · refine (decodeAckFrame_unknown hd he hm rfl hk').imp id ?_
      rintro ⟨rest, h1, h2⟩
      refine ⟨rest, h1, ?_⟩
      rw [skipSwitch_ext (.inl hb)]
      unfold skipExtension
      rw [hd, ← h2]
      rfl
  · have hb : b = 2 ∨ b = 3 := by simpa using hb
    rcases hb with rfl | rfl
    · have : decodeOne cfg h s 2 t = decodeAckFrame cfg h s false false 2 (2 :: t) := by
        unfold decodeOne
        dsimp only
        rw [if_neg (by decide), if_pos (by decide), if_neg (by simp [he])]
      rw [this]
      refine (decodeAckFrame_unknown (decode_short (by decide) t) he hm rfl (by simp [hk])).imp id ?_
      rintro ⟨rest, h1, h2⟩
      refine ⟨rest, h1, ?_⟩
      rw [← h2]
      rfl
    · have : decodeOne cfg h s 3 t = decodeAckFrame cfg h s true false 3 (3 :: t) := by
        unfold decodeOne
        dsimp only
        rw [if_neg (by decide), if_neg (by decide), if_pos (by decide), if_neg (by simp [he])]
      rw [this]
      refine (decodeAckFrame_unknown (decode_short (by decide) t) he hm rfl (by simp [hk])).imp id ?_
      rintro ⟨rest, h1, h2⟩
      refine ⟨rest, h1, ?_⟩
      rw [← h2]
      rfl

/-! ## The loop -/

theorem lenient_type {cfg : Cfg} {f : Frame} {bs rest : Bytes} (hf : StartsWith bs f rest) (hl : Lenient cfg f) :
    ∃ type r, IntAt bs type r ∧ UnnegotiatedType cfg type := by
  cases f with
  | pathStatus v =>
    obtain ⟨r, h1, _⟩ := (startsWith_int rfl (fun _ => Iff.rfl)).1 hf
    exact ⟨_, r, intAt h1, .inl ⟨by cases v <;> simp, hl⟩⟩
  | observedAddress v =>
    obtain ⟨r, h1, _⟩ := (startsWith_int rfl (fun _ => Iff.rfl)).1 hf
    exact ⟨_, r, intAt h1, .inr ⟨by cases v <;> simp, hl⟩⟩
  | pathAbandon | maxPathId | pathsBlocked | pathCidBlocked =>
    obtain ⟨r, h1, _⟩ := (startsWith_int rfl (fun _ => Iff.rfl)).1 hf
    exact ⟨_, r, intAt h1, .inl ⟨by simp, hl⟩⟩
  | _ => exact hl.elim

theorem decodeOne_cases (cfg : Cfg) (h : Handler σ) (s : σ) (b : UInt8) (t : Bytes)
    (ho : ¬ GoesAstray cfg h s (b :: t)) :
    (∃ s', decodeOne cfg h s b t = .stop s' ∧ Halt cfg h s (b :: t) s') ∨
    (∃ f rest s', decodeOne cfg h s b t = .cont s' rest (!pureAck f) (Probing f) ∧ StartsWith (b :: t) f rest ∧
      ((Acceptable cfg f ∧ h.frame s f = (true, s')) ∨ (Ignored cfg h s f rest ∧ s' = s))) := by
  have hl : ¬ (cfg.epoch = .oneRtt ∧ ∃ type r, IntAt (b :: t) type r ∧ UnnegotiatedType cfg type) :=
    fun hh => ho (.inl hh)
  by_cases hf : ∃ f rest, StartsWith (b :: t) f rest
  · obtain ⟨f, rest, hf⟩ := hf
    by_cases hi : f = .immediateAck ∧ AllowedIn cfg.epoch f ∧ rest = []
    · obtain ⟨rfl, ha, rfl⟩ := hi
      exact .inr ⟨.immediateAck, [], s, decodeOne_lastImmediateAck hf ha, hf, .inr ⟨⟨ha, .inl ⟨rfl, rfl⟩⟩, rfl⟩⟩
    by_cases hk : ∃ c, f = .ack c ∧ cfg.epoch = .oneRtt ∧ cfg.multipath = true ∧
        h.pathKnown s (c.pathId.getD 0) = false
    · obtain ⟨c, rfl, he, hm, hk⟩ := hk
      exact .inr ⟨.ack c, rest, s, decodeOne_unknownPath hf he hm hk, hf, .inr ⟨⟨he, .inr ⟨c, rfl, hm, hk⟩⟩, rfl⟩⟩
    by_cases ha : Acceptable cfg f
    · have := decodeOne_ok (h := h) (s := s) hf ha (fun h1 h2 => hi ⟨h1, ha.1, h2⟩) (by
        intro c hc he hm
        cases hkk : h.pathKnown s (c.pathId.getD 0) with
        | true => rfl
        | false => exact absurd ⟨c, hc, he, hm, hkk⟩ hk)
      rw [this]
      unfold process
      cases hp : h.frame s f with
      | mk ok s' =>
        cases ok with
        | false => exact .inl ⟨s', rfl, .inl ⟨f, rest, hf, ha, hp⟩⟩
        | true => exact .inr ⟨f, rest, s', rfl, hf, .inl ⟨ha, hp⟩⟩
    · obtain ⟨s', h1, h2⟩ := decodeOne_refused (h := h) (s := s) hf ha (fun hal hlen => hl ⟨by
          cases f <;> first | exact hlen.elim | exact hal, lenient_type hf hlen⟩)
        (fun h1 h2 h3 => hi ⟨h1, h2, h3⟩)
      exact .inl ⟨s', h1, .inr (.inl ⟨f, rest, hf, ha, h2⟩)⟩
  · have hn : ∀ f rest, ¬ StartsWith (b :: t) f rest := fun f rest hh => hf ⟨f, rest, hh⟩
    obtain ⟨s', h1, h2⟩ := decodeOne_malformed hn (fun hu => ho (.inr ⟨hu, hn⟩)) hl
    exact .inl ⟨s', h1, .inr (.inr ⟨by simp, hn, h2⟩)⟩

/-- What follows is shorter. -/
theorem decodeOne_shorter {cfg : Cfg} {h : Handler σ} {s s' : σ} {b : UInt8} {t rest : Bytes} {a p : Bool}
    (hc : decodeOne cfg h s b t = .cont s' rest a p) : ∃ q, q ≠ [] ∧ b :: t = q ++ rest := by
  by_cases ho : GoesAstray cfg h s (b :: t)
  · rcases ho with ⟨he, type, r, hd, hl⟩ | ⟨hu, _⟩
    · have hd := intAt_decode hd
      obtain ⟨p, h1⟩ := decodeOne_lenient (h := h) (s := s) he hd hl
      rw [h1] at hc
      injection hc with _ h2
      subst h2
      exact skip_suffix ((varintSkip_iff _ _).2 ⟨_, hd⟩)
    · rcases decodeOne_unknown hu with ⟨_, h1, _⟩ | ⟨r, h1, h2⟩
      · rw [h1] at hc; cases hc
      · rw [h1] at hc
        injection hc with _ h3
        subst h3
        exact skip_suffix' h2
  · rcases decodeOne_cases cfg h s b t ho with ⟨_, h1, _⟩ | ⟨f, r, s1, h1, h2, _⟩
    · rw [h1] at hc; cases hc
    · rw [h1] at hc
      injection hc with _ h3
      subst h3
      exact startsWith_suffix h2

theorem decodeLoop_total (cfg : Cfg) (h : Handler σ) : ∀ (n : Nat) (s : σ) (a p : Bool) (bs : Bytes), bs.length ≤ n →
    ∃ r, decodeLoop cfg h n s a p bs = some r := by
  intro n
  induction n with
  | zero =>
    intro s a p bs hn
    cases bs with
    | nil => exact ⟨_, rfl⟩
    | cons b t => simp at hn
  | succ n ih =>
    intro s a p bs hn
    cases bs with
    | nil => exact ⟨_, rfl⟩
    | cons b t =>
      rw [decodeLoop]
      cases hc : decodeOne cfg h s b t with
      | stop s' => exact ⟨_, rfl⟩
      | cont s' rest a' p' =>
        obtain ⟨q, hq, hbt⟩ := decodeOne_shorter hc
        have : 0 < q.length := List.length_pos_iff.2 hq
        have hl : (b :: t).length = q.length + rest.length := by rw [hbt, List.length_append]
        exact ih _ _ _ _ (by omega)

theorem decodeLoop_spec (cfg : Cfg) (h : Handler σ) : ∀ (n : Nat) (s : σ) (a p : Bool) (bs : Bytes) (r : Result σ),
    decodeLoop cfg h n s a p bs = some r →
    ∃ fs s1 bs1, Processed cfg h s bs fs s1 bs1 ∧
      ((bs1 = [] ∧ r = ⟨s1, true, a || fs.any (fun f => !pureAck f), p && fs.all Probing⟩) ∨
       (r.accepted = false ∧ Halt cfg h s1 bs1 r.state) ∨
       GoesAstray cfg h s1 bs1) := by
  intro n
  induction n with
  | zero =>
    intro s a p bs r hr
    cases bs with
    | nil =>
      have hr := (Option.some.inj hr).symm
      exact ⟨[], s, [], .nil _ _, .inl ⟨rfl, by simpa using hr⟩⟩
    | cons b t => cases hr
  | succ n ih =>
    intro s a p bs r hr
    cases bs with
    | nil =>
      have hr := (Option.some.inj hr).symm
      exact ⟨[], s, [], .nil _ _, .inl ⟨rfl, by simpa using hr⟩⟩
    | cons b t =>
      by_cases ho : GoesAstray cfg h s (b :: t)
      · exact ⟨[], s, _, .nil _ _, .inr (.inr ho)⟩
      rw [decodeLoop] at hr
      rcases decodeOne_cases cfg h s b t ho with ⟨s', h1, h2⟩ | ⟨f, rest, s', h1, h2, h3⟩
      · rw [h1] at hr
        have hr := (Option.some.inj hr).symm
        subst hr
        exact ⟨[], s, _, .nil _ _, .inr (.inl ⟨rfl, h2⟩)⟩
      · rw [h1] at hr
        obtain ⟨fs, s1, bs1, h4, h5⟩ := ih _ _ _ _ _ hr
        refine ⟨f :: fs, s1, bs1, ?_, ?_⟩
        · rcases h3 with ⟨h3, h6⟩ | ⟨h3, rfl⟩
          · exact .cons h2 h3 h6 h4
          · exact .ignored h2 h3 h4
        · rcases h5 with ⟨h5, rfl⟩ | h5
          · exact .inl ⟨h5, by simp [Bool.or_assoc, Bool.and_assoc]⟩
          · exact .inr h5

theorem processed_payload {cfg : Cfg} {h : Handler σ} {s s' : σ} {bs : Bytes} {fs : List Frame}
    (hp : Processed cfg h s bs fs s' []) : IsPayload bs fs := by
  generalize hr : ([] : Bytes) = r at hp
  induction hp with
  | nil s bs => subst hr; exact .nil
  | cons h1 h2 h3 h4 ih => exact .cons h1 (ih hr)
  | ignored h1 h2 h3 ih => exact .cons h1 (ih hr)

theorem payload_unique {bs : Bytes} {fs fs' : List Frame} (h : IsPayload bs fs) (h' : IsPayload bs fs') : fs = fs' := by
  induction h generalizing fs' with
  | nil =>
    cases h' with
    | nil => rfl
    | cons h1 _ => exact absurd h1 not_startsWith_nil
  | cons h1 h2 ih =>
    cases h' with
    | nil => exact absurd h1 not_startsWith_nil
    | cons h3 h4 =>
      obtain ⟨rfl, rfl⟩ := startsWith_unique h1 h3
      rw [ih h4]

end Picoquic.Frames
