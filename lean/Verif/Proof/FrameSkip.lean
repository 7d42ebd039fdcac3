import Verif.Proof.Frames
import Verif.Model.DecodeFrames
/-! Proofs about `picoquic_skip_frame`. -/

namespace Picoquic.Frames
open Picoquic Picoquic.Spec

section
variable (bs r : Bytes)

theorem varintSkip_iff : framesVarintSkip bs = some r ↔ ∃ a, framesVarintDecode bs = some (a, r) := by
  rw [framesVarintSkip_eq, Option.map_eq_some_iff]
  constructor
  · rintro ⟨⟨a, x⟩, h, rfl⟩; exact ⟨a, h⟩
  · rintro ⟨a, h⟩; exact ⟨_, h, rfl⟩

theorem skip1_iff : framesVarintSkip bs = some r ↔ ∃ a, At [.int a] bs r := by
  simp only [varintSkip_iff, at_int, at_nil]
  grind

theorem skip2_iff : skip2 bs = some r ↔ ∃ a b, At [.int a, .int b] bs r := by
  simp only [skip2, Option.bind_eq_some_iff, varintSkip_iff, at_int, at_nil]
  grind

theorem skip3_iff : skip3 bs = some r ↔ ∃ a b c, At [.int a, .int b, .int c] bs r := by
  simp only [skip3, Option.bind_eq_some_iff, varintSkip_iff, skip2_iff]
  simp only [at_int, at_nil]
  grind

theorem skip4_iff : skip4 bs = some r ↔ ∃ a b c d, At [.int a, .int b, .int c, .int d] bs r := by
  simp only [skip4, Option.bind_eq_some_iff, varintSkip_iff, skip3_iff]
  simp only [at_int, at_nil]
  grind

theorem lengthDataSkip_iff : framesLengthDataSkip bs = some r ↔ ∃ d, At [.int d.length, .raw d] bs r := by
  rw [framesLengthDataSkip_iff]
  simp only [at_int, at_raw, at_nil]
  constructor
  · rintro ⟨k, h, d, hv, rfl⟩
    exact ⟨d, d ++ r, Ack.varint_decode ⟨k, hv⟩ _, r, rfl, rfl⟩
  · rintro ⟨d, _, hd, _, rfl, rfl⟩
    obtain ⟨p, rfl, k, hv⟩ := Ack.varint_of_decode hd
    exact ⟨k, p, d, hv, rfl⟩

theorem skipCrypto_iff : skipCrypto bs = some r ↔ ∃ a d, At [.int a, .int d.length, .raw d] bs r := by
  simp only [skipCrypto, Option.bind_eq_some_iff, varintSkip_iff, lengthDataSkip_iff]
  simp only [at_int, at_nil, at_raw]
  grind

theorem skipConnectionClose_iff :
    skipConnectionClose bs = some r ↔ ∃ a b d, At [.int a, .int b, .int d.length, .raw d] bs r := by
  simp only [skipConnectionClose, Option.bind_eq_some_iff, varintSkip_iff, lengthDataSkip_iff]
  simp only [at_int, at_nil, at_raw]
  grind

theorem skipApplicationClose_iff :
    skipApplicationClose bs = some r ↔ ∃ a d, At [.int a, .int d.length, .raw d] bs r :=
  skipCrypto_iff bs r

theorem skipBdp_iff : skipBdp bs = some r ↔
    ∃ a b c d, At [.int a, .int b, .int c, .int d.length, .raw d] bs r := by
  simp only [skipBdp, Option.bind_eq_some_iff, skip3_iff, lengthDataSkip_iff]
  simp only [at_int, at_nil, at_raw]
  grind

theorem skipObservedAddress_iff (ty : Nat) : skipObservedAddress ty bs = some r ↔
    ∃ a ip p, ip.length = (if ty % 2 = 0 then 4 else 16) ∧ At [.int a, .raw ip, .fixed 2 p] bs r := by
  simp only [skipObservedAddress, Option.bind_eq_some_iff, varintSkip_iff, fixedSkip_iff]
  simp only [at_int, at_nil, at_raw, at_fixed]
  constructor
  · rintro ⟨r1, ⟨a, h1⟩, d, hd, rfl⟩
    refine ⟨a, d.take (if ty % 2 = 0 then 4 else 16), _, by rw [List.length_take, hd]; omega, _, h1,
      d.drop (if ty % 2 = 0 then 4 else 16) ++ r, ?_, d.drop (if ty % 2 = 0 then 4 else 16), r, ?_, rfl, rfl, rfl⟩
    · rw [← List.append_assoc, List.take_append_drop]
    · rw [List.length_drop, hd]; omega
  · rintro ⟨a, ip, p, hl, _, h1, _, rfl, p', _, h2, rfl, rfl, rfl⟩
    exact ⟨_, ⟨a, h1⟩, ip ++ p', by simp [hl, h2], by simp⟩

theorem newCid_tail_iff :
    ((framesVarintSkip bs).bind fun r => (framesVarintSkip r).bind fun r =>
      (framesUint8Decode r).bind fun l => framesFixedSkip (l.1.toNat + 16) l.2) = some r ↔
    ∃ seq retire cid token, token.length = 16 ∧ At (newCidFields seq retire cid token) bs r := by
  simp only [newCidFields, Option.bind_eq_some_iff, at_int, at_nil, at_raw, at_fixed1, Prod.exists,
    uint8_iff, fixedSkip_iff, varintSkip_iff]
  constructor
  · rintro ⟨r1, ⟨seq, h1⟩, r2, ⟨retire, h2⟩, l, r3, h3, d, hd, rfl⟩
    refine ⟨seq, retire, d.take l.toNat, d.drop l.toNat, ?_, r1, h1, r2, h2, l, _, h3, ?_, d.drop l.toNat ++ r, ?_,
      r, rfl, rfl⟩
    · simp [hd]
    · simp [hd]
    · rw [← List.append_assoc, List.take_append_drop]
  · rintro ⟨seq, retire, cid, token, ht, r1, h1, r2, h2, l, r3, h3, hl, r4, rfl, r5, rfl, rfl⟩
    exact ⟨r1, ⟨seq, h1⟩, r2, ⟨retire, h2⟩, l, _, h3, cid ++ token, by simp [ht, hl], by simp⟩

theorem skipDatagram_iff (b : UInt8) : skipDatagram b bs = some r ↔
    if b &&& 1 = 0 then r = [] else ∃ d, At [.int d.length, .raw d] bs r := by
  unfold skipDatagram
  split
  · simp [eq_comm]
  · simp only [Option.bind_eq_some_iff, at_int, at_nil, at_raw, Prod.exists]
    constructor
    · rintro ⟨n, r1, h1, h2⟩
      split at h2
      · cases h2
      · simp only [Option.some.injEq] at h2
        subst h2
        refine ⟨r1.take n, r1, ?_, r1.drop n, by simp, rfl⟩
        rw [h1, List.length_take, Nat.min_eq_left (by omega)]
    · rintro ⟨d, r1, h1, _, rfl, rfl⟩
      exact ⟨_, _, h1, by simp⟩

end

/-! ## ACK -/

theorem skip_varint {p : Bytes} {n : Nat} (h : Varint p n) (rest : Bytes) : framesVarintSkip (p ++ rest) = some rest :=
  (varintSkip_iff _ _).2 ⟨n, Ack.varint_decode h rest⟩

theorem skipBlocks_ranges {largest : Nat} {body : Bytes} {rs : List (Nat × Nat)} (h : AckRanges largest body rs)
    (rest : Bytes) : (framesVarintSkip (body ++ rest)).bind (skipBlocks (rs.length - 1)) = some rest := by
  induction h with
  | last hv hle => rw [skip_varint hv]; rfl
  | @more largest len gap next l g body ranges hv hle hg hn hsub ih =>
    obtain ⟨n, hn'⟩ : ∃ n, ranges.length = n + 1 := ⟨ranges.length - 1, by have := ackRanges_pos hsub; omega⟩
    rw [List.append_assoc, skip_varint hv, Option.bind_some, List.length_cons, Nat.add_sub_cancel, hn', skipBlocks,
      List.append_assoc, skip_varint hg, Option.bind_some]
    rw [hn', Nat.add_sub_cancel] at ih
    exact ih

theorem skipAck_complete {t body rest : Bytes} {ty : Nat} {c : AckContent} (ht : Varint t ty) (hb : IsAckBody body c) :
    skipAck c.ecn.isSome c.pathId.isSome (t ++ (body ++ rest)) = some rest := by
  obtain ⟨p, l, d, n, rg, e, rfl, hp, hl, hd, hn, hr, he⟩ := hb
  unfold skipAck
  rw [skip_varint ht, Option.bind_some]
  have key : ∀ e : Bytes, ((framesVarintSkip ((p ++ (l ++ (d ++ (n ++ (rg ++ e)))) ++ rest))).bind fun r =>
    (if c.pathId.isSome = true then framesVarintSkip r else some r).bind fun r =>
      (framesVarintSkip r).bind fun r => (framesVarintDecode r).bind fun n =>
        (framesVarintSkip n.2).bind (skipBlocks n.1)) = some (e ++ rest) := by
    intro e
    cases hc : c.pathId with
    | none =>
      rw [hc] at hp
      dsimp only at hp
      subst hp
      simp only [List.nil_append, List.append_assoc]
      rw [skip_varint hl, Option.bind_some, if_neg (by simp), Option.bind_some, skip_varint hd, Option.bind_some,
        Ack.varint_decode hn, Option.bind_some]
      exact skipBlocks_ranges hr _
    | some i =>
      rw [hc] at hp
      dsimp only at hp
      simp only [List.append_assoc]
      rw [skip_varint hp, Option.bind_some, if_pos (Option.isSome_some), skip_varint hl, Option.bind_some, skip_varint hd,
        Option.bind_some, Ack.varint_decode hn, Option.bind_some]
      exact skipBlocks_ranges hr _
  rw [key e, Option.bind_some]
  cases hc : c.ecn with
  | none =>
    rw [hc] at he
    dsimp only at he
    subst he
    rfl
  | some x =>
    obtain ⟨a, b, x⟩ := x
    rw [hc] at he
    dsimp only at he
    obtain ⟨e0, e1, e2, rfl, h0, h1, h2⟩ := he
    rw [if_pos (Option.isSome_some), List.append_assoc, skip_varint h0, Option.bind_some, List.append_assoc, skip_varint h1,
      Option.bind_some, skip_varint h2]

/-- `r` is a suffix of `bs`. -/
theorem skip_suffix {bs r : Bytes} (h : framesVarintSkip bs = some r) : ∃ p, p ≠ [] ∧ bs = p ++ r := by
  obtain ⟨a, h⟩ := (varintSkip_iff _ _).1 h
  obtain ⟨p, rfl, hv⟩ := Ack.varint_of_decode h
  obtain ⟨b, p', rfl, _⟩ := varint_head hv
  exact ⟨_, by simp, rfl⟩

theorem skipBlocks_suffix (n : Nat) : ∀ {bs r : Bytes}, skipBlocks n bs = some r → ∃ p, bs = p ++ r := by
  induction n with
  | zero => intro bs r h; exact ⟨[], by simpa [skipBlocks] using h⟩
  | succ n ih =>
    intro bs r h
    rw [skipBlocks] at h
    simp only [Option.bind_eq_some_iff] at h
    obtain ⟨r1, h1, r2, h2, h3⟩ := h
    obtain ⟨p1, _, rfl⟩ := skip_suffix h1
    obtain ⟨p2, _, rfl⟩ := skip_suffix h2
    obtain ⟨p3, rfl⟩ := ih h3
    exact ⟨p1 ++ (p2 ++ p3), by simp⟩

theorem skipAck_suffix {isEcn hasPath : Bool} {bs r : Bytes} (h : skipAck isEcn hasPath bs = some r) :
    ∃ p, p ≠ [] ∧ bs = p ++ r := by
  unfold skipAck at h
  simp only [Option.bind_eq_some_iff] at h
  obtain ⟨r0, ⟨r1, h1, r2, h2, r3, h3, r4, h4, ⟨n, r5⟩, h5, r6, h6, h7⟩, h8⟩ := h
  obtain ⟨p1, hne, rfl⟩ := skip_suffix h1
  obtain ⟨p2, _, rfl⟩ := skip_suffix h2
  have e3 : ∃ p, r2 = p ++ r3 := by
    cases hasPath with
    | false => exact ⟨[], by simpa using h3⟩
    | true => obtain ⟨p, _, hp⟩ := skip_suffix h3; exact ⟨p, hp⟩
  obtain ⟨p3, rfl⟩ := e3
  obtain ⟨p4, _, rfl⟩ := skip_suffix h4
  obtain ⟨p5, rfl, _⟩ := Ack.varint_of_decode h5
  dsimp only at h6
  obtain ⟨p6, _, rfl⟩ := skip_suffix h6
  obtain ⟨p7, rfl⟩ := skipBlocks_suffix _ h7
  have e8 : ∃ p, r0 = p ++ r := by
    cases isEcn with
    | false => exact ⟨[], by simpa using h8⟩
    | true =>
      rw [if_pos rfl] at h8
      simp only [Option.bind_eq_some_iff] at h8
      obtain ⟨q1, g1, q2, g2, g3⟩ := h8
      obtain ⟨s1, _, rfl⟩ := skip_suffix g1
      obtain ⟨s2, _, rfl⟩ := skip_suffix g2
      obtain ⟨s3, _, rfl⟩ := skip_suffix g3
      exact ⟨s1 ++ (s2 ++ s3), by simp⟩
  obtain ⟨p8, rfl⟩ := e8
  exact ⟨p1 ++ (p2 ++ (p3 ++ (p4 ++ (p5 ++ (p6 ++ (p7 ++ p8)))))), by simp [hne], by simp⟩

/-! ## STREAM -/

theorem skipStream_complete {b : UInt8} {t rest : Bytes} {id offset : Nat} {fin : Bool} {data : Bytes} {explicit : Bool}
    (h : StartsWith (b :: t) (.stream id offset fin data explicit) rest) :
    (8 ≤ b.toNat ∧ b.toNat ≤ 15) ∧ skipStream b t = some rest := by
  obtain ⟨p, hp, hf, he⟩ := h
  obtain ⟨ty, wo, i, o, l, rfl, hty, hi, ho, hl⟩ := (hf : IsStreamFrame p _ _ _ _ _)
  simp only [List.cons_append, List.cons.injEq] at hp
  obtain ⟨rfl, rfl⟩ := hp
  refine ⟨by rw [hty]; (repeat' split) <;> omega, ?_⟩
  obtain ⟨b4, b2, b1⟩ := StreamFrame.type_bits b wo explicit fin hty
  unfold skipStream
  rw [List.append_assoc, skip_varint hi, Option.bind_some]
  have h4 : (if b &&& 4 = 0 then some (((o ++ (l ++ data)) ++ rest)) else framesVarintSkip ((o ++ (l ++ data)) ++ rest)) =
      some ((l ++ data) ++ rest) := by
    cases wo with
    | true =>
      rw [if_neg (by rw [b4]; simp), List.append_assoc, skip_varint ho]
    | false =>
      obtain ⟨rfl, _⟩ := ho
      rw [if_pos (b4.2 rfl)]; rfl
  rw [h4, Option.bind_some]
  cases explicit with
  | true =>
    rw [if_neg (by rw [b2]; simp), lengthDataSkip_iff]
    exact ⟨data, (at_int _ _ _ _).2 ⟨data ++ rest, by
      rw [List.append_assoc, Ack.varint_decode hl], (at_raw _ _ _ _).2 ⟨rest, rfl, (at_nil _ _).2 rfl⟩⟩⟩
  | false =>
    rw [if_pos (b2.2 rfl), he rfl]

theorem skipStream_sound {b : UInt8} {t rest : Bytes} (hb : 8 ≤ b.toNat ∧ b.toNat ≤ 15)
    (h : skipStream b t = some rest) : ∃ f, StartsWith (b :: t) f rest := by
  obtain ⟨wo, explicit, fin, hty⟩ := StreamFrame.type_of_range b ⟨hb.1, by omega⟩
  obtain ⟨b4, b2, b1⟩ := StreamFrame.type_bits b wo explicit fin hty
  unfold skipStream at h
  simp only [Option.bind_eq_some_iff] at h
  obtain ⟨r1, h1, r2, h2, h3⟩ := h
  obtain ⟨id, h1⟩ := (varintSkip_iff _ _).1 h1
  obtain ⟨i, rfl, hi⟩ := Ack.varint_of_decode h1
  have ho : ∃ o offset, r1 = o ++ r2 ∧ (if wo then Varint o offset else o = [] ∧ offset = 0) := by
    cases wo with
    | true =>
      rw [if_neg (by rw [b4]; simp)] at h2
      obtain ⟨offset, h2⟩ := (varintSkip_iff _ _).1 h2
      obtain ⟨o, rfl, ho⟩ := Ack.varint_of_decode h2
      exact ⟨o, offset, rfl, ho⟩
    | false =>
      rw [if_pos (b4.2 rfl)] at h2
      exact ⟨[], 0, by simpa using h2, rfl, rfl⟩
  obtain ⟨o, offset, rfl, ho⟩ := ho
  cases explicit with
  | true =>
    rw [if_neg (by rw [b2]; simp)] at h3
    obtain ⟨d, h3⟩ := (lengthDataSkip_iff _ _).1 h3
    simp only [at_int, at_raw, at_nil] at h3
    obtain ⟨r3, h4, _, rfl, rfl⟩ := h3
    obtain ⟨l, rfl, hl⟩ := Ack.varint_of_decode h4
    exact ⟨.stream id offset fin d true, b :: (i ++ (o ++ (l ++ d))), by simp,
      ⟨b, wo, i, o, l, rfl, hty, hi, ho, hl⟩, fun he => by cases he⟩
  | false =>
    rw [if_pos (b2.2 rfl)] at h3
    have h3 := Option.some.inj h3
    subst h3
    exact ⟨.stream id offset fin r2 false, b :: (i ++ (o ++ r2)), by simp,
      ⟨b, wo, i, o, [], rfl, hty, hi, ho, rfl⟩, fun _ => rfl⟩

/-! ## All frames -/

theorem skipSwitch_ext {b : UInt8} {t : Bytes} (h : 64 ≤ b.toNat ∨ b = 0x1f) :
    skipSwitch b t = skipExtension (b :: t) := by
  rcases h with h | rfl
  · unfold skipSwitch
    rw [if_neg (by omega)]
    split <;> first | omega | rfl
  · rfl

theorem skipNewCid_mp (bs r : Bytes) (ty : Nat) (h : framesVarintDecode bs = some (ty, r)) :
    skipNewCid true bs = (framesVarintSkip r).bind fun r => ((framesVarintSkip r).bind fun r => (framesVarintSkip r).bind fun r =>
      (framesUint8Decode r).bind fun l => framesFixedSkip (l.1.toNat + 16) l.2) := by
  unfold skipNewCid
  rw [framesVarintSkip_eq, h]
  rfl

theorem skip_ext_complete {bs rest : Bytes} {f : Frame} (he : isExt f = true) (h : StartsWith bs f rest) :
    skipExtension bs = (some rest, pureAck f) := by
  unfold skipExtension
  cases f with
  | ack c =>
    have hp : c.pathId.isSome = true := he
    obtain ⟨r, h1, h2⟩ := (startsWith_ack_ext hp).1 h
    rw [h1]
    obtain ⟨t, rfl, ht⟩ := Ack.varint_of_decode h1
    obtain ⟨body, rfl, hb, _⟩ := (parseAck_iff _ _ _ _ _).1 h2
    have key := skipAck_complete (rest := rest) ht hb
    rw [hp] at key
    cases hc : c.ecn with
    | none =>
      have : c.type = 0x15228c00 := by
        unfold AckContent.type
        cases hp' : c.pathId <;> simp_all
      rw [hc] at key
      rw [this]
      exact Prod.ext key rfl
    | some e =>
      have : c.type = 0x15228c01 := by
        unfold AckContent.type
        cases hp' : c.pathId <;> simp_all
      rw [hc] at key
      rw [this]
      exact Prod.ext key rfl
  | newConnectionId path a b c d =>
    cases path with
    | none => cases he
    | some p =>
      obtain ⟨r, h1, h2, h3, _⟩ := (startsWith_int rfl (fun _ => Iff.rfl)).1 h
      rw [h1]
      refine Prod.ext (show skipNewCid true bs = some rest from ?_) rfl
      rw [skipNewCid_mp _ _ _ h1, Option.bind_eq_some_iff]
      obtain ⟨r1, h4, h5⟩ := (at_int _ _ _ _).1 h2
      exact ⟨r1, (varintSkip_iff _ _).2 ⟨_, h4⟩, (newCid_tail_iff _ _).2 ⟨_, _, _, _, h3, h5⟩⟩
  | retireConnectionId path a =>
    cases path with
    | none => cases he
    | some p =>
      obtain ⟨r, h1, h2, h3, _⟩ := (startsWith_int rfl (fun _ => Iff.rfl)).1 h
      rw [h1]
      refine Prod.ext (show skip3 bs = some rest from ?_) rfl
      unfold skip3
      rw [framesVarintSkip_eq, h1]
      exact (skip2_iff _ _).2 ⟨_, _, h2⟩
  | ackFrequency _ _ _ _ =>
    obtain ⟨r, h1, h2, h3, _⟩ := (startsWith_int rfl (fun _ => Iff.rfl)).1 h
    rw [h1]
    exact Prod.ext ((skip4_iff _ _).2 ⟨_, _, _, _, h2⟩) rfl
  | immediateAck =>
    obtain ⟨r, h1, h2, h3, _⟩ := (startsWith_int rfl (fun _ => Iff.rfl)).1 h
    rw [h1, (at_nil _ _).1 h2]
    rfl
  | timeStamp _ =>
    obtain ⟨r, h1, h2, h3, _⟩ := (startsWith_int rfl (fun _ => Iff.rfl)).1 h
    rw [h1]
    exact Prod.ext ((skip1_iff _ _).2 ⟨_, h2⟩) rfl
  | pathAbandon _ _ =>
    obtain ⟨r, h1, h2, h3, _⟩ := (startsWith_int rfl (fun _ => Iff.rfl)).1 h
    rw [h1]
    exact Prod.ext ((skip2_iff _ _).2 ⟨_, _, h2⟩) rfl
  | pathStatus v _ _ =>
    obtain ⟨r, h1, h2, h3, _⟩ := (startsWith_int rfl (fun _ => Iff.rfl)).1 h
    rw [h1]
    cases v <;> exact Prod.ext ((skip2_iff _ _).2 ⟨_, _, h2⟩) rfl
  | maxPathId _ =>
    obtain ⟨r, h1, h2, h3, _⟩ := (startsWith_int rfl (fun _ => Iff.rfl)).1 h
    rw [h1]
    exact Prod.ext ((skip1_iff _ _).2 ⟨_, h2⟩) rfl
  | pathsBlocked _ =>
    obtain ⟨r, h1, h2, h3, _⟩ := (startsWith_int rfl (fun _ => Iff.rfl)).1 h
    rw [h1]
    exact Prod.ext ((skip1_iff _ _).2 ⟨_, h2⟩) rfl
  | pathCidBlocked _ _ =>
    obtain ⟨r, h1, h2, h3, _⟩ := (startsWith_int rfl (fun _ => Iff.rfl)).1 h
    rw [h1]
    exact Prod.ext ((skip2_iff _ _).2 ⟨_, _, h2⟩) rfl
  | bdp _ _ _ _ =>
    obtain ⟨r, h1, h2, h3, _⟩ := (startsWith_int rfl (fun _ => Iff.rfl)).1 h
    rw [h1]
    exact Prod.ext ((skipBdp_iff _ _).2 ⟨_, _, _, _, h2⟩) rfl
  | observedAddress v _ _ _ =>
    obtain ⟨r, h1, h2, h3, _⟩ := (startsWith_int rfl (fun _ => Iff.rfl)).1 h
    rw [h1]
    cases v <;> exact Prod.ext ((skipObservedAddress_iff _ _ _).2 ⟨_, _, _, h3, h2⟩) rfl
  | _ => cases he

theorem skip_short_complete {b : UInt8} {t rest : Bytes} {f : Frame} (he : isExt f = false)
    (h : StartsWith (b :: t) f rest) : skipSwitch b t = (some rest, pureAck f) := by
  cases f with
  | stream id o fin d e =>
    obtain ⟨hb, hs⟩ := skipStream_complete h
    unfold skipSwitch
    rw [if_pos hb, hs]
    rfl
  | ack c =>
    have hp : c.pathId = none := by
      cases hc : c.pathId with
      | none => rfl
      | some i => simp [isExt, hc] at he
    obtain ⟨h1, h2⟩ := (startsWith_ack_short hp).1 h
    obtain ⟨body, rfl, hb, _⟩ := (parseAck_iff _ _ _ _ _).1 h2
    have hv : Varint [b] b.toNat := by
      refine ⟨0, by decide, rfl, ?_, by simp [bigEndian]⟩
      rw [h1]
      unfold AckContent.type
      rw [hp]
      cases c.ecn <;> simp
    have key := skipAck_complete (rest := rest) hv hb
    rw [hp] at key
    unfold AckContent.type at h1
    rw [hp] at h1
    cases hc : c.ecn with
    | none =>
      rw [hc] at h1 key
      obtain rfl : b = 2 := u8_inj h1 (by decide)
      exact Prod.ext key rfl
    | some e =>
      rw [hc] at h1 key
      obtain rfl : b = 3 := u8_inj h1 (by decide)
      exact Prod.ext key rfl
  | padding n =>
    obtain ⟨rfl, h2⟩ := (startsWith_run 0 b t rest n (.padding n) rfl (fun _ => Iff.rfl) trivial Iff.rfl).1 h
    show (some (skip0len 0 t).2, true) = _
    rw [h2]
    rfl
  | ping n =>
    obtain ⟨rfl, h2⟩ := (startsWith_run 1 b t rest n (.ping n) rfl (fun _ => Iff.rfl) trivial Iff.rfl).1 h
    show (some (skip0len 1 t).2, false) = _
    rw [h2]
    rfl
  | resetStream _ _ _ =>
    obtain ⟨rfl, h2, h3, _⟩ := (startsWith_raw rfl (fun _ => Iff.rfl)).1 h
    exact Prod.ext ((skip3_iff _ _).2 ⟨_, _, _, h2⟩) rfl
  | stopSending _ _ =>
    obtain ⟨rfl, h2, h3, _⟩ := (startsWith_raw rfl (fun _ => Iff.rfl)).1 h
    exact Prod.ext ((skip2_iff _ _).2 ⟨_, _, h2⟩) rfl
  | crypto _ _ =>
    obtain ⟨rfl, h2, h3, _⟩ := (startsWith_raw rfl (fun _ => Iff.rfl)).1 h
    exact Prod.ext ((skipCrypto_iff _ _).2 ⟨_, _, h2⟩) rfl
  | newToken _ =>
    obtain ⟨rfl, h2, h3, _⟩ := (startsWith_raw rfl (fun _ => Iff.rfl)).1 h
    exact Prod.ext ((lengthDataSkip_iff _ _).2 ⟨_, h2⟩) rfl
  | maxData _ =>
    obtain ⟨rfl, h2, h3, _⟩ := (startsWith_raw rfl (fun _ => Iff.rfl)).1 h
    exact Prod.ext ((skip1_iff _ _).2 ⟨_, h2⟩) rfl
  | maxStreamData _ _ =>
    obtain ⟨rfl, h2, h3, _⟩ := (startsWith_raw rfl (fun _ => Iff.rfl)).1 h
    exact Prod.ext ((skip2_iff _ _).2 ⟨_, _, h2⟩) rfl
  | maxStreams v _ =>
    obtain ⟨hb, h2, h3, _⟩ := (startsWith_raw rfl (fun _ => Iff.rfl)).1 h
    cases v <;> subst hb <;> exact Prod.ext ((skip1_iff _ _).2 ⟨_, h2⟩) rfl
  | dataBlocked _ =>
    obtain ⟨rfl, h2, h3, _⟩ := (startsWith_raw rfl (fun _ => Iff.rfl)).1 h
    exact Prod.ext ((skip1_iff _ _).2 ⟨_, h2⟩) rfl
  | streamDataBlocked _ _ =>
    obtain ⟨rfl, h2, h3, _⟩ := (startsWith_raw rfl (fun _ => Iff.rfl)).1 h
    exact Prod.ext ((skip2_iff _ _).2 ⟨_, _, h2⟩) rfl
  | streamsBlocked v _ =>
    obtain ⟨hb, h2, h3, _⟩ := (startsWith_raw rfl (fun _ => Iff.rfl)).1 h
    cases v <;> subst hb <;> exact Prod.ext ((skip1_iff _ _).2 ⟨_, h2⟩) rfl
  | newConnectionId path _ _ _ _ =>
    cases path with
    | some p => cases he
    | none =>
      obtain ⟨rfl, h2, h3, _⟩ := (startsWith_raw rfl (fun _ => Iff.rfl)).1 h
      refine Prod.ext (show skipNewCid false (0x18 :: t) = some rest from ?_) rfl
      unfold skipNewCid
      rw [framesVarintSkip_eq, decode_short (by decide)]
      exact (newCid_tail_iff _ _).2 ⟨_, _, _, _, h3, h2⟩
  | retireConnectionId path _ =>
    cases path with
    | some p => cases he
    | none =>
      obtain ⟨rfl, h2, h3, _⟩ := (startsWith_raw rfl (fun _ => Iff.rfl)).1 h
      exact Prod.ext ((skip1_iff _ _).2 ⟨_, h2⟩) rfl
  | pathChallenge _ =>
    obtain ⟨rfl, h2, h3, _⟩ := (startsWith_raw rfl (fun _ => Iff.rfl)).1 h
    refine Prod.ext (show framesFixedSkip 8 t = some rest from ?_) rfl
    obtain ⟨p, r, hp, ht, _, hr⟩ := (at_fixed _ _ _ _ _).1 h2
    rw [(at_nil _ _).1 hr] at ht
    exact (fixedSkip_iff _ _ _).2 ⟨p, hp, ht⟩
  | pathResponse _ =>
    obtain ⟨rfl, h2, h3, _⟩ := (startsWith_raw rfl (fun _ => Iff.rfl)).1 h
    refine Prod.ext (show framesFixedSkip 8 t = some rest from ?_) rfl
    obtain ⟨p, r, hp, ht, _, hr⟩ := (at_fixed _ _ _ _ _).1 h2
    rw [(at_nil _ _).1 hr] at ht
    exact (fixedSkip_iff _ _ _).2 ⟨p, hp, ht⟩
  | connectionClose _ _ _ =>
    obtain ⟨rfl, h2, h3, _⟩ := (startsWith_raw rfl (fun _ => Iff.rfl)).1 h
    exact Prod.ext ((skipConnectionClose_iff _ _).2 ⟨_, _, _, h2⟩) rfl
  | applicationClose _ _ =>
    obtain ⟨rfl, h2, h3, _⟩ := (startsWith_raw rfl (fun _ => Iff.rfl)).1 h
    exact Prod.ext ((skipApplicationClose_iff _ _).2 ⟨_, _, h2⟩) rfl
  | handshakeDone =>
    obtain ⟨rfl, h2, h3, _⟩ := (startsWith_raw rfl (fun _ => Iff.rfl)).1 h
    rw [(at_nil _ _).1 h2]
    rfl
  | datagram d e =>
    cases e with
    | false =>
      obtain ⟨rfl, h2, h3, h4⟩ := (startsWith_raw rfl (fun _ => Iff.rfl)).1 h
      exact Prod.ext ((skipDatagram_iff t _ 0x30).2 (h4 rfl)) rfl
    | true =>
      obtain ⟨rfl, h2, h3, h4⟩ := (startsWith_raw rfl (fun _ => Iff.rfl)).1 h
      exact Prod.ext ((skipDatagram_iff _ _ 0x31).2 ⟨_, h2⟩) rfl
  | _ => cases he

/-- A frame is skipped exactly. -/
theorem skip_complete {b : UInt8} {t rest : Bytes} {f : Frame} (h : StartsWith (b :: t) f rest) :
    skipSwitch b t = (some rest, pureAck f) := by
  cases he : isExt f with
  | false => exact skip_short_complete he h
  | true =>
    rw [skipSwitch_ext (ext_first (parseExt_complete he h))]
    exact skip_ext_complete he h

theorem skip_ext_sound {bs rest : Bytes} {a : Bool} (h : skipExtension bs = (some rest, a)) :
    (∃ f, StartsWith bs f rest) ∨ (Loose bs ∧ ∃ p, p ≠ [] ∧ bs = p ++ rest) := by
  unfold skipExtension at h
  cases hd : framesVarintDecode bs with
  | none => rw [hd] at h; cases h
  | some x =>
    obtain ⟨type, r⟩ := x
    rw [hd] at h
    dsimp only at h
    obtain ⟨t, rfl, ht⟩ := Ack.varint_of_decode hd
    by_cases ht' : type = 0xAF
    · rw [if_pos ht'] at h
      have h := (Prod.mk.inj h).1
      obtain ⟨x0, x1, x2, x3, hx⟩ := (skip4_iff _ _).1 h
      exact .inl ⟨.ackFrequency x0 x1 x2 x3, (startsWith_int rfl (fun _ => Iff.rfl)).2 ⟨r, ht' ▸ hd, hx, trivial, trivial⟩⟩
    rw [if_neg ht'] at h
    by_cases ht' : type = 0x1F
    · rw [if_pos ht'] at h
      have h := (Prod.mk.inj h).1
      have h := Option.some.inj h
      subst h
      exact .inl ⟨.immediateAck, (startsWith_int rfl (fun _ => Iff.rfl)).2 ⟨r, ht' ▸ hd, (at_nil _ _).2 rfl, trivial, trivial⟩⟩
    rw [if_neg ht'] at h
    by_cases ht' : type = 757
    · rw [if_pos ht'] at h
      have h := (Prod.mk.inj h).1
      obtain ⟨x0, hx⟩ := (skip1_iff _ _).1 h
      exact .inl ⟨.timeStamp x0, (startsWith_int rfl (fun _ => Iff.rfl)).2 ⟨r, ht' ▸ hd, hx, trivial, trivial⟩⟩
    rw [if_neg ht'] at h
    by_cases ht' : type = 0x15228c00
    · rw [if_pos ht'] at h
      have h := (Prod.mk.inj h).1
      exact .inr ⟨⟨type, r, ⟨t, rfl, ht⟩, by omega⟩, skipAck_suffix h⟩
    rw [if_neg ht'] at h
    by_cases ht' : type = 0x15228c01
    · rw [if_pos ht'] at h
      have h := (Prod.mk.inj h).1
      exact .inr ⟨⟨type, r, ⟨t, rfl, ht⟩, by omega⟩, skipAck_suffix h⟩
    rw [if_neg ht'] at h
    by_cases ht' : type = 0x15228c05
    · rw [if_pos ht'] at h
      have h := (Prod.mk.inj h).1
      obtain ⟨x0, x1, hx⟩ := (skip2_iff _ _).1 h
      exact .inl ⟨.pathAbandon x0 x1, (startsWith_int rfl (fun _ => Iff.rfl)).2 ⟨r, ht' ▸ hd, hx, trivial, trivial⟩⟩
    rw [if_neg ht'] at h
    by_cases ht' : type = 0x15228c07 ∨ type = 0x15228c08
    · rw [if_pos ht'] at h
      have h := (Prod.mk.inj h).1
      obtain ⟨x0, x1, hx⟩ := (skip2_iff _ _).1 h
      rcases ht' with ht' | ht'
      · exact .inl ⟨.pathStatus false x0 x1, (startsWith_int rfl (fun _ => Iff.rfl)).2 ⟨r, ht' ▸ hd, hx, trivial, trivial⟩⟩
      · exact .inl ⟨.pathStatus true x0 x1, (startsWith_int rfl (fun _ => Iff.rfl)).2 ⟨r, ht' ▸ hd, hx, trivial, trivial⟩⟩
    rw [if_neg ht'] at h
    by_cases ht' : type = 0x15228c0c
    · rw [if_pos ht'] at h
      have h := (Prod.mk.inj h).1
      obtain ⟨x0, hx⟩ := (skip1_iff _ _).1 h
      exact .inl ⟨.maxPathId x0, (startsWith_int rfl (fun _ => Iff.rfl)).2 ⟨r, ht' ▸ hd, hx, trivial, trivial⟩⟩
    rw [if_neg ht'] at h
    by_cases ht' : type = 0x15228c0d
    · rw [if_pos ht'] at h
      have h := (Prod.mk.inj h).1
      obtain ⟨x0, hx⟩ := (skip1_iff _ _).1 h
      exact .inl ⟨.pathsBlocked x0, (startsWith_int rfl (fun _ => Iff.rfl)).2 ⟨r, ht' ▸ hd, hx, trivial, trivial⟩⟩
    rw [if_neg ht'] at h
    by_cases ht' : type = 0x15228c0e
    · rw [if_pos ht'] at h
      have h := (Prod.mk.inj h).1
      obtain ⟨x0, x1, hx⟩ := (skip2_iff _ _).1 h
      exact .inl ⟨.pathCidBlocked x0 x1, (startsWith_int rfl (fun _ => Iff.rfl)).2 ⟨r, ht' ▸ hd, hx, trivial, trivial⟩⟩
    rw [if_neg ht'] at h
    by_cases ht' : type = 0xebd9
    · rw [if_pos ht'] at h
      have h := (Prod.mk.inj h).1
      obtain ⟨x0, x1, x2, x3, u, hu, _⟩ := (skipBdp_iff _ _).1 h
      obtain ⟨b, p', hp', _⟩ := varint_head ht
      exact .inr ⟨⟨type, r, ⟨t, rfl, ht⟩, by omega⟩, t ++ u, by simp [hp'], by rw [hu, List.append_assoc]⟩
    rw [if_neg ht'] at h
    by_cases ht' : type = 0x15228c09
    · rw [if_pos ht'] at h
      have h := (Prod.mk.inj h).1
      rw [skipNewCid_mp _ _ _ hd, Option.bind_eq_some_iff] at h
      obtain ⟨r1, h1, h2⟩ := h
      obtain ⟨path, h1⟩ := (varintSkip_iff _ _).1 h1
      obtain ⟨seq, retire, cid, token, h3, h4⟩ := (newCid_tail_iff _ _).1 h2
      exact .inl ⟨.newConnectionId (some path) seq retire cid token, (startsWith_int rfl (fun _ => Iff.rfl)).2
        ⟨r, ht' ▸ hd, (at_int _ _ _ _).2 ⟨r1, h1, h4⟩, h3, trivial⟩⟩
    rw [if_neg ht'] at h
    by_cases ht' : type = 0x15228c0a
    · rw [if_pos ht'] at h
      have h := (Prod.mk.inj h).1
      have h : skip3 (t ++ r) = some rest := h
      unfold skip3 at h
      rw [framesVarintSkip_eq, hd] at h
      obtain ⟨path, seq, hx⟩ := (skip2_iff _ _).1 h
      exact .inl ⟨.retireConnectionId (some path) seq, (startsWith_int rfl (fun _ => Iff.rfl)).2
        ⟨r, ht' ▸ hd, hx, trivial, trivial⟩⟩
    rw [if_neg ht'] at h
    by_cases ht' : type = 0x9f81a6 ∨ type = 0x9f81a7
    · rw [if_pos ht'] at h
      have h := (Prod.mk.inj h).1
      obtain ⟨seq, ip, p, h3, hx⟩ := (skipObservedAddress_iff _ _ _).1 h
      rcases ht' with ht' | ht'
      · subst ht'
        exact .inl ⟨.observedAddress false seq ip p, (startsWith_int rfl (fun _ => Iff.rfl)).2 ⟨r, hd, hx, h3, trivial⟩⟩
      · subst ht'
        exact .inl ⟨.observedAddress true seq ip p, (startsWith_int rfl (fun _ => Iff.rfl)).2 ⟨r, hd, hx, h3, trivial⟩⟩
    rw [if_neg ht'] at h
    cases h

theorem skip_sound {b : UInt8} {t rest : Bytes} {a : Bool} (h : skipSwitch b t = (some rest, a)) :
    (∃ f, StartsWith (b :: t) f rest) ∨ (Loose (b :: t) ∧ ∃ p, p ≠ [] ∧ b :: t = p ++ rest) := by
  unfold skipSwitch at h
  by_cases hb : 8 ≤ b.toNat ∧ b.toNat ≤ 15
  · rw [if_pos hb] at h
    exact .inl (skipStream_sound hb (Prod.mk.inj h).1)
  rw [if_neg hb] at h
  split at h
  · rename_i hk
    obtain rfl : b = 0x02 := u8_inj hk (by decide)
    have h := (Prod.mk.inj h).1
    exact .inr ⟨⟨2, t, ⟨[2], rfl, ⟨0, by decide, rfl, by decide, by decide⟩⟩, by decide⟩, skipAck_suffix h⟩
  · rename_i hk
    obtain rfl : b = 0x03 := u8_inj hk (by decide)
    have h := (Prod.mk.inj h).1
    exact .inr ⟨⟨3, t, ⟨[3], rfl, ⟨0, by decide, rfl, by decide, by decide⟩⟩, by decide⟩, skipAck_suffix h⟩
  · rename_i hk
    obtain rfl : b = 0x00 := u8_inj hk (by decide)
    have h := (Prod.mk.inj h).1
    have h := Option.some.inj h
    exact .inl ⟨.padding (skip0len 0 t).1, (startsWith_run 0 _ t _ _ (.padding (skip0len 0 t).1) rfl (fun _ => Iff.rfl)
      trivial Iff.rfl).2 ⟨rfl, by rw [← h]⟩⟩
  · rename_i hk
    obtain rfl : b = 0x04 := u8_inj hk (by decide)
    have h := (Prod.mk.inj h).1
    obtain ⟨x0, x1, x2, hx⟩ := (skip3_iff _ _).1 h
    exact .inl ⟨.resetStream x0 x1 x2, (startsWith_raw rfl (fun _ => Iff.rfl)).2 ⟨rfl, hx, trivial, trivial⟩⟩
  · rename_i hk
    obtain rfl : b = 0x1c := u8_inj hk (by decide)
    have h := (Prod.mk.inj h).1
    obtain ⟨x0, x1, x2, hx⟩ := (skipConnectionClose_iff _ _).1 h
    exact .inl ⟨.connectionClose x0 x1 x2, (startsWith_raw rfl (fun _ => Iff.rfl)).2 ⟨rfl, hx, trivial, trivial⟩⟩
  · rename_i hk
    obtain rfl : b = 0x1d := u8_inj hk (by decide)
    have h := (Prod.mk.inj h).1
    obtain ⟨x0, x1, hx⟩ := (skipApplicationClose_iff _ _).1 h
    exact .inl ⟨.applicationClose x0 x1, (startsWith_raw rfl (fun _ => Iff.rfl)).2 ⟨rfl, hx, trivial, trivial⟩⟩
  · rename_i hk
    obtain rfl : b = 0x10 := u8_inj hk (by decide)
    have h := (Prod.mk.inj h).1
    obtain ⟨x0, hx⟩ := (skip1_iff _ _).1 h
    exact .inl ⟨.maxData x0, (startsWith_raw rfl (fun _ => Iff.rfl)).2 ⟨rfl, hx, trivial, trivial⟩⟩
  · rename_i hk
    obtain rfl : b = 0x11 := u8_inj hk (by decide)
    have h := (Prod.mk.inj h).1
    obtain ⟨x0, x1, hx⟩ := (skip2_iff _ _).1 h
    exact .inl ⟨.maxStreamData x0 x1, (startsWith_raw rfl (fun _ => Iff.rfl)).2 ⟨rfl, hx, trivial, trivial⟩⟩
  · rename_i hk
    obtain rfl : b = 0x12 := u8_inj hk (by decide)
    have h := (Prod.mk.inj h).1
    obtain ⟨x0, hx⟩ := (skip1_iff _ _).1 h
    exact .inl ⟨.maxStreams true x0, (startsWith_raw rfl (fun _ => Iff.rfl)).2 ⟨rfl, hx, trivial, trivial⟩⟩
  · rename_i hk
    obtain rfl : b = 0x13 := u8_inj hk (by decide)
    have h := (Prod.mk.inj h).1
    obtain ⟨x0, hx⟩ := (skip1_iff _ _).1 h
    exact .inl ⟨.maxStreams false x0, (startsWith_raw rfl (fun _ => Iff.rfl)).2 ⟨rfl, hx, trivial, trivial⟩⟩
  · rename_i hk
    obtain rfl : b = 0x01 := u8_inj hk (by decide)
    have h := (Prod.mk.inj h).1
    have h := Option.some.inj h
    exact .inl ⟨.ping (skip0len 1 t).1, (startsWith_run 1 _ t _ _ (.ping (skip0len 1 t).1) rfl (fun _ => Iff.rfl)
      trivial Iff.rfl).2 ⟨rfl, by rw [← h]⟩⟩
  · rename_i hk
    obtain rfl : b = 0x14 := u8_inj hk (by decide)
    have h := (Prod.mk.inj h).1
    obtain ⟨x0, hx⟩ := (skip1_iff _ _).1 h
    exact .inl ⟨.dataBlocked x0, (startsWith_raw rfl (fun _ => Iff.rfl)).2 ⟨rfl, hx, trivial, trivial⟩⟩
  · rename_i hk
    obtain rfl : b = 0x15 := u8_inj hk (by decide)
    have h := (Prod.mk.inj h).1
    obtain ⟨x0, x1, hx⟩ := (skip2_iff _ _).1 h
    exact .inl ⟨.streamDataBlocked x0 x1, (startsWith_raw rfl (fun _ => Iff.rfl)).2 ⟨rfl, hx, trivial, trivial⟩⟩
  · rename_i hk
    obtain rfl : b = 0x16 := u8_inj hk (by decide)
    have h := (Prod.mk.inj h).1
    obtain ⟨x0, hx⟩ := (skip1_iff _ _).1 h
    exact .inl ⟨.streamsBlocked true x0, (startsWith_raw rfl (fun _ => Iff.rfl)).2 ⟨rfl, hx, trivial, trivial⟩⟩
  · rename_i hk
    obtain rfl : b = 0x17 := u8_inj hk (by decide)
    have h := (Prod.mk.inj h).1
    obtain ⟨x0, hx⟩ := (skip1_iff _ _).1 h
    exact .inl ⟨.streamsBlocked false x0, (startsWith_raw rfl (fun _ => Iff.rfl)).2 ⟨rfl, hx, trivial, trivial⟩⟩
  · rename_i hk
    obtain rfl : b = 0x18 := u8_inj hk (by decide)
    have h := (Prod.mk.inj h).1
    have h : skipNewCid false (0x18 :: t) = some rest := h
    unfold skipNewCid at h
    rw [framesVarintSkip_eq, decode_short (by decide)] at h
    obtain ⟨seq, retire, cid, token, h3, h4⟩ := (newCid_tail_iff _ _).1 h
    exact .inl ⟨.newConnectionId none seq retire cid token, (startsWith_raw rfl (fun _ => Iff.rfl)).2 ⟨rfl, h4, h3, trivial⟩⟩
  · rename_i hk
    obtain rfl : b = 0x05 := u8_inj hk (by decide)
    have h := (Prod.mk.inj h).1
    obtain ⟨x0, x1, hx⟩ := (skip2_iff _ _).1 h
    exact .inl ⟨.stopSending x0 x1, (startsWith_raw rfl (fun _ => Iff.rfl)).2 ⟨rfl, hx, trivial, trivial⟩⟩
  · rename_i hk
    obtain rfl : b = 0x1a := u8_inj hk (by decide)
    have h := (Prod.mk.inj h).1
    obtain ⟨d, hd, ht⟩ := (fixedSkip_iff _ _ _).1 h
    exact .inl ⟨.pathChallenge (bigEndian d), (startsWith_raw rfl (fun _ => Iff.rfl)).2
      ⟨rfl, (at_fixed _ _ _ _ _).2 ⟨d, rest, hd, ht, rfl, (at_nil _ _).2 rfl⟩, trivial, trivial⟩⟩
  · rename_i hk
    obtain rfl : b = 0x1b := u8_inj hk (by decide)
    have h := (Prod.mk.inj h).1
    obtain ⟨d, hd, ht⟩ := (fixedSkip_iff _ _ _).1 h
    exact .inl ⟨.pathResponse (bigEndian d), (startsWith_raw rfl (fun _ => Iff.rfl)).2
      ⟨rfl, (at_fixed _ _ _ _ _).2 ⟨d, rest, hd, ht, rfl, (at_nil _ _).2 rfl⟩, trivial, trivial⟩⟩
  · rename_i hk
    obtain rfl : b = 0x06 := u8_inj hk (by decide)
    have h := (Prod.mk.inj h).1
    obtain ⟨x0, x1, hx⟩ := (skipCrypto_iff _ _).1 h
    exact .inl ⟨.crypto x0 x1, (startsWith_raw rfl (fun _ => Iff.rfl)).2 ⟨rfl, hx, trivial, trivial⟩⟩
  · rename_i hk
    obtain rfl : b = 0x07 := u8_inj hk (by decide)
    have h := (Prod.mk.inj h).1
    obtain ⟨x0, hx⟩ := (lengthDataSkip_iff _ _).1 h
    exact .inl ⟨.newToken x0, (startsWith_raw rfl (fun _ => Iff.rfl)).2 ⟨rfl, hx, trivial, trivial⟩⟩
  · rename_i hk
    obtain rfl : b = 0x19 := u8_inj hk (by decide)
    have h := (Prod.mk.inj h).1
    obtain ⟨x0, hx⟩ := (skip1_iff _ _).1 h
    exact .inl ⟨.retireConnectionId none x0, (startsWith_raw rfl (fun _ => Iff.rfl)).2 ⟨rfl, hx, trivial, trivial⟩⟩
  · rename_i hk
    obtain rfl : b = 0x1e := u8_inj hk (by decide)
    have h := (Prod.mk.inj h).1
    have h := Option.some.inj h
    subst h
    exact .inl ⟨.handshakeDone, (startsWith_raw rfl (fun _ => Iff.rfl)).2 ⟨rfl, (at_nil _ _).2 rfl, trivial, trivial⟩⟩
  · rename_i hk
    obtain rfl : b = 0x30 := u8_inj hk (by decide)
    have h := (Prod.mk.inj h).1
    have h : rest = [] := (skipDatagram_iff _ _ 0x30).1 h
    subst h
    exact .inl ⟨.datagram t false, (startsWith_raw rfl (fun _ => Iff.rfl)).2
      ⟨rfl, (at_raw _ _ _ _).2 ⟨[], by simp, (at_nil _ _).2 rfl⟩, trivial, fun _ => rfl⟩⟩
  · rename_i hk
    obtain rfl : b = 0x31 := u8_inj hk (by decide)
    have h := (Prod.mk.inj h).1
    obtain ⟨d, hx⟩ := (skipDatagram_iff _ _ 0x31).1 h
    exact .inl ⟨.datagram d true, (startsWith_raw rfl (fun _ => Iff.rfl)).2
      ⟨rfl, hx, trivial, fun he => by cases he⟩⟩
  · exact skip_ext_sound h

/-- What follows a frame that is skipped is a proper suffix. -/
theorem skip_suffix' {b : UInt8} {t rest : Bytes} {a : Bool} (h : skipSwitch b t = (some rest, a)) :
    ∃ p, p ≠ [] ∧ b :: t = p ++ rest := by
  rcases skip_sound h with ⟨f, hf⟩ | ⟨_, h⟩
  · exact startsWith_suffix hf
  · exact h

theorem skipFrame_complete {bs rest : Bytes} {f : Frame} (h : StartsWith bs f rest) :
    ∃ x, skipFrame bs = some x ∧ x.ret = true ∧ bs.drop x.consumed = rest ∧ x.pureAck = pureAck f := by
  cases bs with
  | nil => exact absurd h not_startsWith_nil
  | cons b t =>
    obtain ⟨p, _, hp⟩ := startsWith_suffix h
    refine ⟨⟨true, (b :: t).length - rest.length, pureAck f⟩, ?_, rfl, ?_, rfl⟩
    · unfold skipFrame
      dsimp only
      rw [skip_complete h]
    · dsimp only
      rw [hp, List.length_append, Nat.add_sub_cancel, List.drop_left]

theorem skipFrame_sound {bs : Bytes} {x : Skip} (h : skipFrame bs = some x) :
    (x.ret = false → x.consumed = bs.length) ∧
    (x.ret = true → 0 < x.consumed ∧ x.consumed ≤ bs.length ∧
      ((∃ f, StartsWith bs f (bs.drop x.consumed) ∧ x.pureAck = pureAck f) ∨ Loose bs)) := by
  cases bs with
  | nil => cases h
  | cons b t =>
    unfold skipFrame at h
    dsimp only at h
    cases hs : skipSwitch b t with
    | mk o a =>
      rw [hs] at h
      cases o with
      | none =>
        have h := Option.some.inj h
        subst h
        exact ⟨fun _ => rfl, fun h => by cases h⟩
      | some r =>
        have h := Option.some.inj h
        subst h
        refine ⟨(fun h => by cases h), fun _ => ?_⟩
        obtain ⟨p, hne, hp⟩ := skip_suffix' hs
        have hl : p.length ≠ 0 := by simp [hne]
        have hc : (b :: t).length - r.length = p.length := by rw [hp, List.length_append]; omega
        dsimp only
        rw [hc]
        refine ⟨by omega, by rw [hp, List.length_append]; omega, ?_⟩
        rcases skip_sound hs with ⟨f, hf⟩ | ⟨h, _⟩
        · refine .inl ⟨f, ?_, ?_⟩
          · rw [hp, List.drop_left, ← hp]; exact hf
          · rw [skip_complete hf] at hs
            exact (Prod.mk.inj hs).2.symm
        · exact .inr h

theorem closingLoop_total : ∀ (n : Nat) (bs : Bytes), bs.length ≤ n → ∃ r, closingLoop n bs = some r := by
  intro n
  induction n with
  | zero =>
    intro bs h
    cases bs with
    | nil => exact ⟨false, rfl⟩
    | cons b t => simp at h
  | succ n ih =>
    intro bs h
    cases bs with
    | nil => exact ⟨false, rfl⟩
    | cons b t =>
      rw [closingLoop]
      split
      · exact ⟨true, rfl⟩
      · cases hs : skipFrame (b :: t) with
        | none => exact ⟨false, rfl⟩
        | some x =>
          dsimp only
          cases hr : x.ret with
          | false => exact ⟨false, rfl⟩
          | true =>
            obtain ⟨h1, h2, _⟩ := (skipFrame_sound hs).2 hr
            exact ih _ (by rw [List.length_drop]; omega)

end Picoquic.Frames
