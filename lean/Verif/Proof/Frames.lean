import Verif.Model.Frames
import Verif.Proof.Fixed
import Verif.Proof.AckProcess
import Verif.Proof.StreamFrame
/-! Proofs about the parsing of frames. -/

namespace Picoquic.Frames
open Picoquic Picoquic.Spec

/-- `bs` is an encoding of the fields followed by `rest`. -/
def At (fields : List Field) (bs rest : Bytes) : Prop := ∃ p, bs = p ++ rest ∧ Encodes fields p

theorem at_nil (bs rest : Bytes) : At [] bs rest ↔ bs = rest := by
  simp [At, Encodes]

theorem at_int (n : Nat) (fs : List Field) (bs rest : Bytes) :
    At (.int n :: fs) bs rest ↔ ∃ r, framesVarintDecode bs = some (n, r) ∧ At fs r rest := by
  constructor
  · rintro ⟨_, rfl, p, t, rfl, hv, ht⟩
    exact ⟨t ++ rest, by rw [List.append_assoc, Ack.varint_decode hv], t, rfl, ht⟩
  · rintro ⟨r, hd, t, rfl, ht⟩
    obtain ⟨p, rfl, hv⟩ := Ack.varint_of_decode hd
    exact ⟨p ++ t, by simp, p, t, rfl, hv, ht⟩

theorem at_raw (d : Bytes) (fs : List Field) (bs rest : Bytes) :
    At (.raw d :: fs) bs rest ↔ ∃ r, bs = d ++ r ∧ At fs r rest := by
  constructor
  · rintro ⟨_, rfl, t, rfl, ht⟩
    exact ⟨t ++ rest, by simp, t, rfl, ht⟩
  · rintro ⟨r, rfl, t, rfl, ht⟩
    exact ⟨d ++ t, by simp, t, rfl, ht⟩

theorem at_fixed (k n : Nat) (fs : List Field) (bs rest : Bytes) :
    At (.fixed k n :: fs) bs rest ↔ ∃ p r, p.length = k ∧ bs = p ++ r ∧ bigEndian p = n ∧ At fs r rest := by
  constructor
  · rintro ⟨_, rfl, p, t, rfl, h1, h2, ht⟩
    exact ⟨p, t ++ rest, h1, by simp, h2, t, rfl, ht⟩
  · rintro ⟨p, r, h1, rfl, h2, t, rfl, ht⟩
    exact ⟨p ++ t, by simp, p, t, rfl, h1, h2, ht⟩

theorem at_fixed8 (n : Nat) (fs : List Field) (bs rest : Bytes) :
    At (.fixed 8 n :: fs) bs rest ↔ ∃ r, framesUint64Decode bs = some (n, r) ∧ At fs r rest := by
  rw [at_fixed]
  simp only [framesUint64Decode_iff]
  constructor
  · rintro ⟨p, r, a, b, c, d⟩; exact ⟨r, ⟨p, a, b, c⟩, d⟩
  · rintro ⟨r, ⟨p, a, b, c⟩, d⟩; exact ⟨p, r, a, b, c, d⟩

theorem at_fixed2 (n : Nat) (fs : List Field) (bs rest : Bytes) :
    At (.fixed 2 n :: fs) bs rest ↔ ∃ r, framesUint16Decode bs = some (n, r) ∧ At fs r rest := by
  rw [at_fixed]
  simp only [framesUint16Decode_iff]
  constructor
  · rintro ⟨p, r, a, b, c, d⟩; exact ⟨r, ⟨p, a, b, c⟩, d⟩
  · rintro ⟨r, ⟨p, a, b, c⟩, d⟩; exact ⟨p, r, a, b, c, d⟩

theorem at_fixed1 (n : Nat) (fs : List Field) (bs rest : Bytes) :
    At (.fixed 1 n :: fs) bs rest ↔ ∃ b r, bs = b :: r ∧ b.toNat = n ∧ At fs r rest := by
  rw [at_fixed]
  constructor
  · rintro ⟨p, r, a, rfl, c, d⟩
    match p, a with
    | [b], _ => exact ⟨b, r, rfl, by simpa [bigEndian] using c, d⟩
  · rintro ⟨b, r, rfl, c, d⟩
    exact ⟨[b], r, rfl, rfl, by simpa [bigEndian] using c, d⟩

theorem fixedData_iff (n : Nat) (bs d r : Bytes) :
    fixedData n bs = some (d, r) ↔ d.length = n ∧ bs = d ++ r := by
  unfold fixedData framesFixedSkip
  constructor
  · intro h
    split at h
    · simp only [Option.map_some, Option.some.injEq, Prod.mk.injEq] at h
      obtain ⟨rfl, rfl⟩ := h
      simp; omega
    · cases h
  · rintro ⟨rfl, rfl⟩
    simp

theorem fixedSkip_iff (n : Nat) (bs r : Bytes) :
    framesFixedSkip n bs = some r ↔ ∃ d, d.length = n ∧ bs = d ++ r := by
  unfold framesFixedSkip
  constructor
  · intro h
    split at h
    · simp only [Option.some.injEq] at h
      subst h
      exact ⟨bs.take n, by simp; omega, by simp⟩
    · cases h
  · rintro ⟨d, rfl, rfl⟩
    simp

theorem uint8_iff (bs r : Bytes) (b : UInt8) : framesUint8Decode bs = some (b, r) ↔ bs = b :: r := by
  cases bs with
  | nil => simp [framesUint8Decode]
  | cons a t => simp [framesUint8Decode]

section parse
variable (bs rest : Bytes) (f : Frame)

theorem parse1_iff (g : Nat → Frame) :
    parse1 g bs = some (f, rest) ↔ ∃ a, f = g a ∧ At [.int a] bs rest := by
  simp only [parse1, Option.bind_eq_some_iff, at_int, at_nil, Prod.exists, Option.some.injEq, Prod.mk.injEq]
  grind

theorem parse2_iff (g : Nat → Nat → Frame) :
    parse2 g bs = some (f, rest) ↔ ∃ a b, f = g a b ∧ At [.int a, .int b] bs rest := by
  simp only [parse2, Option.bind_eq_some_iff, at_int, at_nil, Prod.exists, Option.some.injEq, Prod.mk.injEq]
  grind

theorem parseReset_iff :
    parseReset bs = some (f, rest) ↔ ∃ a b c, f = .resetStream a b c ∧ At [.int a, .int b, .int c] bs rest := by
  simp only [parseReset, Option.bind_eq_some_iff, at_int, at_nil, Prod.exists, Option.some.injEq, Prod.mk.injEq]
  grind

theorem parseStopSending_iff :
    parseStopSending bs = some (f, rest) ↔ ∃ a b, f = .stopSending a b ∧ At [.int a, .int b] bs rest := by
  simp only [parseStopSending, Option.bind_eq_some_iff, at_int, at_nil, Prod.exists, Option.some.injEq, Prod.mk.injEq]
  grind

theorem parseNewToken_iff :
    parseNewToken bs = some (f, rest) ↔ ∃ d, f = .newToken d ∧ At [.int d.length, .raw d] bs rest := by
  simp only [parseNewToken, Option.bind_eq_some_iff, at_int, at_nil, at_raw, fixedData_iff, Prod.exists,
    Option.some.injEq, Prod.mk.injEq]
  grind

theorem parseCrypto_iff :
    parseCrypto bs = some (f, rest) ↔
      ∃ o d, f = .crypto o d ∧ At [.int o, .int d.length, .raw d] bs rest := by
  simp only [parseCrypto, Option.bind_eq_some_iff, at_int, at_nil, at_raw, fixedData_iff, Prod.exists,
    Option.some.injEq, Prod.mk.injEq]
  grind

theorem parseConnectionClose_iff :
    parseConnectionClose bs = some (f, rest) ↔
      ∃ a b d, f = .connectionClose a b d ∧ At [.int a, .int b, .int d.length, .raw d] bs rest := by
  simp only [parseConnectionClose, Option.bind_eq_some_iff, at_int, at_nil, at_raw, fixedData_iff, Prod.exists,
    Option.some.injEq, Prod.mk.injEq]
  grind

theorem parseApplicationClose_iff :
    parseApplicationClose bs = some (f, rest) ↔
      ∃ a d, f = .applicationClose a d ∧ At [.int a, .int d.length, .raw d] bs rest := by
  simp only [parseApplicationClose, Option.bind_eq_some_iff, at_int, at_nil, at_raw, fixedData_iff, Prod.exists,
    Option.some.injEq, Prod.mk.injEq]
  grind

theorem parsePathResponse_iff :
    parsePathResponse bs = some (f, rest) ↔ ∃ a, f = .pathResponse a ∧ At [.fixed 8 a] bs rest := by
  simp only [parsePathResponse, Option.bind_eq_some_iff, at_fixed8, at_nil, Prod.exists, Option.some.injEq, Prod.mk.injEq]
  grind

theorem parsePathChallenge_iff :
    parsePathChallenge bs = some (f, rest) ↔ ∃ a, f = .pathChallenge a ∧ At [.fixed 8 a] bs rest := by
  have hl : bs.length + 1 ≤ 8 → framesUint64Decode bs = none := by
    intro h
    cases hd : framesUint64Decode bs with
    | none => rfl
    | some x =>
      obtain ⟨p, hp, rfl, _⟩ := (framesUint64Decode_iff bs x.1 x.2).1 hd
      simp at h; omega
  by_cases h : bs.length + 1 ≤ 8
  · simp only [parsePathChallenge, if_pos h, at_fixed8, at_nil, hl h]
    simp
  · simp only [parsePathChallenge, if_neg h, Option.map_eq_some_iff, at_fixed8, at_nil, Prod.exists,
      Prod.mk.injEq]
    grind

theorem parseDatagram_iff (l : Bool) :
    parseDatagram l bs = some (f, rest) ↔
      ∃ d, f = .datagram d l ∧ if l then At [.int d.length, .raw d] bs rest else bs = d ∧ rest = [] := by
  cases l with
  | false => simp only [parseDatagram]; grind
  | true =>
    simp only [parseDatagram, if_true, Option.bind_eq_some_iff, at_int, at_nil, at_raw, Prod.exists]
    constructor
    · rintro ⟨n, r, h1, h2⟩
      split at h2
      · cases h2
      · simp only [Option.some.injEq, Prod.mk.injEq] at h2
        obtain ⟨rfl, rfl⟩ := h2
        refine ⟨r.take n, rfl, r, ?_, r.drop n, by simp, rfl⟩
        rw [h1, List.length_take, Nat.min_eq_left (by omega)]
    · rintro ⟨d, rfl, r, h1, _, rfl, rfl⟩
      exact ⟨_, _, h1, by simp⟩

theorem parseAckFrequency_iff :
    parseAckFrequency bs = some (f, rest) ↔
      ∃ a b c d, f = .ackFrequency a b c d ∧ At [.int a, .int b, .int c, .int d] bs rest := by
  simp only [parseAckFrequency, Option.bind_eq_some_iff, at_int, at_nil, Prod.exists, Option.some.injEq, Prod.mk.injEq]
  grind

theorem parseBdp_iff :
    parseBdp bs = some (f, rest) ↔
      ∃ a b c ip, f = .bdp a b c ip ∧ (ip.length = 4 ∨ ip.length = 16) ∧
        At [.int a, .int b, .int c, .int ip.length, .raw ip] bs rest := by
  simp only [parseBdp, Option.bind_eq_some_iff, at_int, at_nil, at_raw, Prod.exists, Option.ite_none_left_eq_some,
    Option.some.injEq, Prod.mk.injEq, fixedData_iff]
  grind

theorem parseObservedAddress_iff (v6 : Bool) :
    parseObservedAddress v6 bs = some (f, rest) ↔
      ∃ a ip p, f = .observedAddress v6 a ip p ∧ ip.length = (if v6 then 16 else 4) ∧
        At [.int a, .raw ip, .fixed 2 p] bs rest := by
  simp only [parseObservedAddress, Option.bind_eq_some_iff, at_int, at_nil, at_raw, at_fixed2, Prod.exists,
    Option.some.injEq, Prod.mk.injEq, fixedData_iff]
  grind

theorem parseRetireCid_iff (mp : Bool) :
    parseRetireCid mp bs = some (f, rest) ↔
      ∃ path seq, f = .retireConnectionId path seq ∧
        (if mp then ∃ p, path = some p ∧ At [.int p, .int seq] bs rest else path = none ∧ At [.int seq] bs rest) := by
  cases mp with
  | false =>
    rw [parseRetireCid, if_neg Bool.false_ne_true]
    simp only [Option.bind_eq_some_iff, at_int, at_nil, Prod.exists, Option.some.injEq, Prod.mk.injEq]
    grind
  | true =>
    rw [parseRetireCid, if_pos rfl]
    simp only [Option.bind_eq_some_iff, at_int, at_nil, Prod.exists, Option.some.injEq, Prod.mk.injEq]
    grind

/-- The fields of NEW_CONNECTION_ID behind the path. -/
def newCidFields (seq retire : Nat) (cid token : Bytes) : List Field :=
  [.int seq, .int retire, .fixed 1 cid.length, .raw cid, .raw token]

theorem parseNewCid_iff (mp : Bool) :
    parseNewCid mp bs = some (f, rest) ↔
      ∃ path seq retire cid token, f = .newConnectionId path seq retire cid token ∧ token.length = 16 ∧
        (if mp then ∃ p, path = some p ∧ At (.int p :: newCidFields seq retire cid token) bs rest
         else path = none ∧ At (newCidFields seq retire cid token) bs rest) := by
  have core : ∀ (path : Option Nat) (bs : Bytes),
      ((framesVarintDecode bs).bind fun seq => (framesVarintDecode seq.2).bind fun retire =>
      (framesUint8Decode retire.2).bind fun len =>
        (framesFixedSkip (len.1.toNat + 16) len.2).bind fun rest =>
          some (Frame.newConnectionId path seq.1 retire.1 (len.2.take len.1.toNat)
            ((len.2.drop len.1.toNat).take 16), rest)) = some (f, rest) ↔
      ∃ seq retire cid token, f = .newConnectionId path seq retire cid token ∧ token.length = 16 ∧
        At (newCidFields seq retire cid token) bs rest := by
    intro path bs
    simp only [newCidFields, Option.bind_eq_some_iff, at_int, at_nil, at_raw, at_fixed1, Prod.exists,
      Option.some.injEq, Prod.mk.injEq, uint8_iff, fixedSkip_iff]
    constructor
    · rintro ⟨seq, r1, h1, retire, r2, h2, l, r3, h3, r4, ⟨d, hd, rfl⟩, rfl, rfl⟩
      refine ⟨seq, retire, _, _, rfl, ?_, r1, h1, r2, h2, l, _, h3, ?_, d.drop l.toNat ++ r4, ?_, r4, ?_, rfl⟩
      · simp [hd]; omega
      · simp [hd]; omega
      · rw [List.take_append_of_le_length (by omega), ← List.append_assoc, List.take_append_drop]
      · rw [List.drop_append_of_le_length (by omega), List.take_append_of_le_length (by simp; omega),
          List.take_of_length_le (by simp; omega)]
    · rintro ⟨seq, retire, cid, token, rfl, ht, r1, h1, r2, h2, l, r3, h3, hl, r4, rfl, r5, rfl, rfl⟩
      refine ⟨seq, r1, h1, retire, r2, h2, l, _, h3, r5, ⟨cid ++ token, by simp [ht, hl], by simp⟩, ?_, rfl⟩
      rw [hl]
      simp [← ht]
  cases mp with
  | false =>
    rw [parseNewCid, if_neg Bool.false_ne_true, Option.bind_some, core]
    grind
  | true =>
    rw [parseNewCid, if_pos rfl]
    simp only [Option.bind_map]
    rw [Option.bind_eq_some_iff]
    simp only [Function.comp_apply, core, at_int, if_true]
    constructor
    · rintro ⟨⟨p, r⟩, h, a, b, c, d, h1, h2, h3⟩
      exact ⟨_, a, b, c, d, h1, h2, p, rfl, r, h, h3⟩
    · rintro ⟨_, a, b, c, d, h1, h2, p, rfl, r, h, h3⟩
      exact ⟨⟨p, r⟩, h, a, b, c, d, h1, h2, h3⟩

end parse

/-! ## ACK and STREAM -/

theorem ackRanges_pos {largest : Nat} {body : Bytes} {rs : List (Nat × Nat)} (h : AckRanges largest body rs) :
    0 < rs.length := by
  cases h <;> simp

theorem parseRanges_iff (n : Nat) : ∀ (largest : Nat) (bs rest : Bytes) (rs : List (Nat × Nat)),
    parseRanges n largest bs = some (rs, rest) ↔
      ∃ body, bs = body ++ rest ∧ AckRanges largest body rs ∧ rs.length = n + 1 := by
  induction n with
  | zero =>
    intro largest bs rest rs
    rw [parseRanges, Option.bind_eq_some_iff]
    constructor
    · rintro ⟨⟨len, r⟩, h1, h2⟩
      dsimp only at h2
      split at h2
      · cases h2
      · rename_i hle
        simp only [Option.some.injEq, Prod.mk.injEq] at h2
        obtain ⟨rfl, rfl⟩ := h2
        obtain ⟨p, rfl, hp⟩ := Ack.varint_of_decode h1
        exact ⟨p, rfl, .last hp (by omega), rfl⟩
    · rintro ⟨body, rfl, hr, hl⟩
      cases hr with
      | @last _ len _ hv hle =>
        refine ⟨(len, rest), Ack.varint_decode hv rest, ?_⟩
        dsimp only
        rw [if_neg (by omega)]
      | @more _ len gap next l g body ranges hv hle hg hn hsub =>
        have := ackRanges_pos hsub
        rw [List.length_cons] at hl; omega
  | succ n ih =>
    intro largest bs rest rs
    rw [parseRanges, Option.bind_eq_some_iff]
    constructor
    · rintro ⟨⟨len, r⟩, h1, h2⟩
      dsimp only at h2
      split at h2
      · cases h2
      · rename_i hle
        rw [Option.bind_eq_some_iff] at h2
        obtain ⟨⟨gap, r2⟩, h3, h4⟩ := h2
        dsimp only at h4
        split at h4
        · cases h4
        · rename_i hgap
          rw [Option.bind_eq_some_iff] at h4
          obtain ⟨⟨rs', r3⟩, h5, h6⟩ := h4
          simp only [Option.some.injEq, Prod.mk.injEq] at h6
          obtain ⟨rfl, rfl⟩ := h6
          obtain ⟨body, rfl, hb, hlen⟩ := (ih _ _ _ _).1 h5
          obtain ⟨p, rfl, hp⟩ := Ack.varint_of_decode h1
          obtain ⟨q, rfl, hq⟩ := Ack.varint_of_decode h3
          exact ⟨p ++ (q ++ body), by simp, .more hp (by omega) hq (by omega) hb, by simp [hlen]⟩
    · rintro ⟨body, rfl, hr, hl⟩
      cases hr with
      | @last _ len _ hv hle => simp at hl
      | @more _ len gap next l g body ranges hv hle hg hn hsub =>
        refine ⟨(len, g ++ (body ++ rest)), by rw [List.append_assoc, Ack.varint_decode hv]; simp, ?_⟩
        dsimp only
        rw [if_neg (by omega), Option.bind_eq_some_iff]
        refine ⟨(gap, body ++ rest), Ack.varint_decode hg _, ?_⟩
        dsimp only
        rw [if_neg (by omega), Option.bind_eq_some_iff]
        have e : largest - (gap + 1 + (len + 1)) = next := by omega
        rw [e]
        exact ⟨(ranges, rest), (ih _ _ _ _).2 ⟨body, rfl, hsub, by simpa using hl⟩, rfl⟩

theorem parseAck_iff (isEcn hasPath : Bool) (bs rest : Bytes) (c : AckContent) :
    parseAck isEcn hasPath bs = some (c, rest) ↔
      ∃ body, bs = body ++ rest ∧ IsAckBody body c ∧ c.pathId.isSome = hasPath ∧ c.ecn.isSome = isEcn := by
  have core : ∀ (path : Option Nat) (bs : Bytes),
      ((framesVarintDecode bs).bind fun l => (framesVarintDecode l.2).bind fun d =>
        (framesVarintDecode d.2).bind fun n => (parseRanges n.1 l.1 n.2).bind fun rs =>
          if isEcn then
            (framesVarintDecode rs.2).bind fun a => (framesVarintDecode a.2).bind fun b =>
              (framesVarintDecode b.2).bind fun x =>
                some ((⟨path, l.1, d.1, rs.1, some (a.1, b.1, x.1)⟩ : AckContent), x.2)
          else some (⟨path, l.1, d.1, rs.1, none⟩, rs.2)) = some (c, rest) ↔
      ∃ l d n body e, bs = l ++ (d ++ (n ++ (body ++ (e ++ rest)))) ∧ c.pathId = path ∧
        Varint l c.largest ∧ Varint d c.delay ∧ Varint n (c.ranges.length - 1) ∧
        AckRanges c.largest body c.ranges ∧ c.ecn.isSome = isEcn ∧
        (match c.ecn with
         | none => e = []
         | some (a, b, x) => ∃ e0 e1 e2, e = e0 ++ (e1 ++ e2) ∧ Varint e0 a ∧ Varint e1 b ∧ Varint e2 x) := by
    intro path bs
    simp only [Option.bind_eq_some_iff]
    constructor
    · rintro ⟨⟨l, r1⟩, h1, ⟨d, r2⟩, h2, ⟨n, r3⟩, h3, ⟨rs, r4⟩, h4, h5⟩
      obtain ⟨p1, rfl, v1⟩ := Ack.varint_of_decode h1
      obtain ⟨p2, rfl, v2⟩ := Ack.varint_of_decode h2
      obtain ⟨p3, rfl, v3⟩ := Ack.varint_of_decode h3
      obtain ⟨body, rfl, hb, hl⟩ := (parseRanges_iff _ _ _ _ _).1 h4
      dsimp only at h5
      have e3 : n = rs.length - 1 := by omega
      subst e3
      cases isEcn with
      | false =>
        rw [if_neg Bool.false_ne_true] at h5
        simp only [Option.some.injEq, Prod.mk.injEq] at h5
        obtain ⟨rfl, rfl⟩ := h5
        exact ⟨p1, p2, p3, body, [], rfl, rfl, v1, v2, v3, hb, rfl, rfl⟩
      | true =>
        rw [if_pos rfl] at h5
        simp only [Option.bind_eq_some_iff] at h5
        obtain ⟨⟨a, r5⟩, h6, ⟨b, r6⟩, h7, ⟨x, r7⟩, h8, h9⟩ := h5
        simp only [Option.some.injEq, Prod.mk.injEq] at h9
        obtain ⟨rfl, rfl⟩ := h9
        obtain ⟨q1, rfl, w1⟩ := Ack.varint_of_decode h6
        obtain ⟨q2, rfl, w2⟩ := Ack.varint_of_decode h7
        obtain ⟨q3, rfl, w3⟩ := Ack.varint_of_decode h8
        exact ⟨p1, p2, p3, body, q1 ++ (q2 ++ q3), by simp, rfl, v1, v2, v3, hb, rfl, q1, q2, q3, rfl, w1, w2, w3⟩
    · obtain ⟨cp, cl, cd, cr, ce⟩ := c
      rintro ⟨l, d, n, body, e, rfl, rfl, v1, v2, v3, hb, hecn, he⟩
      have hpos : 0 < cr.length := ackRanges_pos hb
      refine ⟨_, Ack.varint_decode v1 _, _, Ack.varint_decode v2 _, _, Ack.varint_decode v3 _, (cr, e ++ rest),
        (parseRanges_iff _ _ _ _ _).2 ⟨body, rfl, hb, by dsimp only; omega⟩, ?_⟩
      dsimp only at hecn he ⊢
      cases isEcn with
      | false =>
        rw [if_neg Bool.false_ne_true]
        cases ce with
        | none =>
          dsimp only at he
          subst he
          rfl
        | some x => simp at hecn
      | true =>
        rw [if_pos rfl]
        cases ce with
        | none => simp at hecn
        | some x =>
          obtain ⟨a, b, x⟩ := x
          dsimp only at he
          obtain ⟨e0, e1, e2, rfl, w1, w2, w3⟩ := he
          simp only [List.append_assoc]
          rw [Ack.varint_decode w1, Option.bind_some]
          dsimp only
          rw [Ack.varint_decode w2, Option.bind_some]
          dsimp only
          rw [Ack.varint_decode w3, Option.bind_some]
  cases hasPath with
  | false =>
    rw [parseAck, if_neg Bool.false_ne_true, Option.bind_some, core]
    constructor
    · rintro ⟨l, d, n, body, e, rfl, hp, v1, v2, v3, hb, he1, he2⟩
      refine ⟨l ++ (d ++ (n ++ (body ++ e))), by simp, ⟨[], l, d, n, body, e, rfl, ?_, v1, v2, v3, hb, he2⟩, ?_, he1⟩
      · rw [hp]
      · rw [hp]; rfl
    · rintro ⟨body, rfl, ⟨p, l, d, n, b, e, rfl, hp, v1, v2, v3, hb, he⟩, h1, h2⟩
      have hp0 : c.pathId = none := by cases hc : c.pathId <;> simp [hc] at h1 ⊢
      rw [hp0] at hp
      dsimp only at hp
      subst hp
      exact ⟨l, d, n, b, e, by simp, hp0, v1, v2, v3, hb, h2, he⟩
  | true =>
    rw [parseAck, if_pos rfl, Option.bind_map, Option.bind_eq_some_iff]
    simp only [Function.comp_apply, core]
    constructor
    · rintro ⟨⟨i, r⟩, hi, l, d, n, body, e, rfl, hp, v1, v2, v3, hb, he1, he2⟩
      obtain ⟨p, rfl, hv⟩ := Ack.varint_of_decode hi
      refine ⟨p ++ (l ++ (d ++ (n ++ (body ++ e)))), by simp,
        ⟨p, l, d, n, body, e, rfl, ?_, v1, v2, v3, hb, he2⟩, ?_, he1⟩
      · rw [hp]; exact hv
      · rw [hp]; rfl
    · rintro ⟨body, rfl, ⟨p, l, d, n, b, e, rfl, hp, v1, v2, v3, hb, he⟩, h1, h2⟩
      cases hc : c.pathId with
      | none => rw [hc] at h1; cases h1
      | some i =>
        rw [hc] at hp
        refine ⟨(i, l ++ (d ++ (n ++ (b ++ (e ++ rest))))), ?_, l, d, n, b, e, rfl, rfl, v1, v2, v3, hb, h2, he⟩
        rw [← Ack.varint_decode hp]; simp

theorem parseStream_iff (b : UInt8) (t rest : Bytes) (f : Frame) (hb : 8 ≤ b.toNat ∧ b.toNat < 16) :
    parseStream (b :: t) = some (f, rest) ↔
      ∃ id offset fin data explicit, f = .stream id offset fin data explicit ∧
        StartsWith (b :: t) f rest := by
  have fwd : ∀ id offset fin data explicit rest, StartsWith (b :: t) (.stream id offset fin data explicit) rest →
      parseStream (b :: t) = some (.stream id offset fin data explicit, rest) := by
    rintro id offset fin data explicit rest ⟨p, hp, hf, he⟩
    have hf' : IsStreamFrame p id offset fin data explicit := hf
    obtain ⟨c, h1, h2, h3⟩ := StreamFrame.parse_of_frame hf' rest he
    rw [parseStream, hp, h1, Option.map_some]
    dsimp only
    have e1 : (p ++ rest).drop (c + data.length) = rest := by rw [h2]; simp
    have e2 : ((p ++ rest).drop c).take data.length = data := by
      rw [List.drop_append_of_le_length (by omega), h3, List.take_left]
    obtain ⟨ty, wo, i, o, l, rfl, hty, hr⟩ := hf'
    have hbits := (StreamFrame.type_bits ty wo explicit fin hty).2.1
    rw [e1, e2]
    simp only [List.cons_append, List.headD_cons]
    have : decide (ty &&& 2 ≠ 0) = explicit := by
      cases explicit <;> simp_all
    exact congrArg (fun e => some (Frame.stream id offset fin data e, rest)) this
  constructor
  · intro h
    cases hp : StreamFrame.parseStreamHeader (b :: t) with
    | none => rw [parseStream, hp] at h; cases h
    | some x =>
      obtain ⟨p, data, r, explicit, hbs, hf, he, hd⟩ := StreamFrame.frame_of_parse (by simpa using ⟨hb.1, hb.2⟩) hp
      have hs : StartsWith (b :: t) (.stream x.id x.offset x.fin data explicit) r := ⟨p, hbs, hf, he⟩
      have := fwd _ _ _ _ _ _ hs
      rw [h] at this
      simp only [Option.some.injEq, Prod.mk.injEq] at this
      obtain ⟨rfl, rfl⟩ := this
      exact ⟨_, _, _, _, _, rfl, hs⟩
  · rintro ⟨id, offset, fin, data, explicit, rfl, hs⟩
    exact fwd _ _ _ _ _ _ hs

/-! ## The parser as a whole -/

theorem varint_head {p : Bytes} {n : Nat} (h : Varint p n) :
    ∃ b p', p = b :: p' ∧ (b.toNat < 64 → p' = [] ∧ n = b.toNat) := by
  obtain ⟨k, hk⟩ := h
  obtain ⟨b, p', rfl, hl, hb, hn⟩ := isVarint_cases hk
  refine ⟨b, p', rfl, fun hlt => ?_⟩
  have hk0 : k = 0 := by omega
  subst hk0
  have : p' = [] := List.length_eq_zero_iff.1 (by simpa using hl)
  subst this
  refine ⟨rfl, ?_⟩
  simp [bigEndian] at hn
  omega

/-- A frame at the start of the buffer, for the frames with a layout. -/
theorem startsWith_iff {bs rest : Bytes} {f : Frame}
    (h : ∀ p, IsFrame p f ↔ Encodes (layout f) p ∧ SizesOk f) :
    StartsWith bs f rest ↔ At (layout f) bs rest ∧ SizesOk f ∧ EndsWith f rest := by
  unfold StartsWith At
  simp only [h]
  constructor
  · rintro ⟨p, h1, ⟨h2, h3⟩, h4⟩; exact ⟨⟨p, h1, h2⟩, h3, h4⟩
  · rintro ⟨⟨p, h1, h2⟩, h3, h4⟩; exact ⟨p, h1, ⟨h2, h3⟩, h4⟩

theorem startsWith_raw {b k : UInt8} {t rest : Bytes} {f : Frame} {fields : List Field}
    (hl : layout f = .raw [k] :: fields) (hf : ∀ p, IsFrame p f ↔ Encodes (layout f) p ∧ SizesOk f) :
    StartsWith (b :: t) f rest ↔ b = k ∧ At fields t rest ∧ SizesOk f ∧ EndsWith f rest := by
  rw [startsWith_iff hf, hl, at_raw]
  constructor
  · rintro ⟨⟨r, h1, h2⟩, h3⟩
    simp only [List.cons_append, List.nil_append, List.cons.injEq] at h1
    obtain ⟨rfl, rfl⟩ := h1
    exact ⟨rfl, h2, h3⟩
  · rintro ⟨rfl, h2, h3⟩
    exact ⟨⟨t, rfl, h2⟩, h3⟩

theorem startsWith_int {bs rest : Bytes} {n : Nat} {f : Frame} {fields : List Field}
    (hl : layout f = .int n :: fields) (hf : ∀ p, IsFrame p f ↔ Encodes (layout f) p ∧ SizesOk f) :
    StartsWith bs f rest ↔
      ∃ r, framesVarintDecode bs = some (n, r) ∧ At fields r rest ∧ SizesOk f ∧ EndsWith f rest := by
  rw [startsWith_iff hf, hl, at_int]
  constructor
  · rintro ⟨⟨r, h1, h2⟩, h3⟩; exact ⟨r, h1, h2, h3⟩
  · rintro ⟨r, h1, h2, h3⟩; exact ⟨⟨r, h1, h2⟩, h3⟩

theorem skip0len_eq (b : UInt8) (t : Bytes) : t = List.replicate (skip0len b t).1 b ++ (skip0len b t).2 ∧
    (skip0len b t).2.head? ≠ some b := by
  induction t with
  | nil => simp [skip0len]
  | cons c t ih =>
    rw [skip0len]
    split
    · rename_i h
      subst h
      refine ⟨?_, ih.2⟩
      dsimp only
      rw [List.replicate_succ, List.cons_append, ← ih.1]
    · rename_i h
      simp [h]

theorem skip0len_of (b : UInt8) (n : Nat) (rest : Bytes) (h : rest.head? ≠ some b) :
    skip0len b (List.replicate n b ++ rest) = (n, rest) := by
  induction n with
  | zero =>
    cases rest with
    | nil => rfl
    | cons c t =>
      rw [List.replicate_zero, List.nil_append, skip0len, if_neg]
      intro hc
      simp [hc] at h
  | succ n ih => rw [List.replicate_succ, List.cons_append, skip0len, if_pos rfl, ih]

theorem startsWith_run (k b : UInt8) (t rest : Bytes) (n : Nat) (f : Frame)
    (hl : layout f = [.raw (List.replicate (n + 1) k)])
    (hf : ∀ p, IsFrame p f ↔ Encodes (layout f) p ∧ SizesOk f) (hs : SizesOk f)
    (he : EndsWith f rest ↔ rest.head? ≠ some k) :
    StartsWith (b :: t) f rest ↔ b = k ∧ skip0len k t = (n, rest) := by
  rw [startsWith_iff hf, hl, at_raw, he]
  simp only [at_nil, hs, true_and]
  constructor
  · rintro ⟨⟨r, h1, rfl⟩, h2⟩
    rw [List.replicate_succ, List.cons_append] at h1
    simp only [List.cons.injEq] at h1
    obtain ⟨rfl, rfl⟩ := h1
    exact ⟨rfl, skip0len_of _ _ _ h2⟩
  · rintro ⟨rfl, h2⟩
    have := skip0len_eq b t
    rw [h2] at this
    refine ⟨⟨rest, ?_, rfl⟩, this.2⟩
    rw [List.replicate_succ, List.cons_append, ← this.1]

/-- The frames of extensions. -/
def parseExt (bs : Bytes) : Parse :=
  match framesVarintDecode bs with
  | none => none
  | some (type, r) =>
    if type = 0xAF then parseAckFrequency r
    else if type = 0x1F then some (.immediateAck, r)
    else if type = 757 then parse1 .timeStamp r
    else if type = 0x15228c00 then (parseAck false true r).map fun x => (.ack x.1, x.2)
    else if type = 0x15228c01 then (parseAck true true r).map fun x => (.ack x.1, x.2)
    else if type = 0x15228c05 then parse2 .pathAbandon r
    else if type = 0x15228c07 then parse2 (.pathStatus false) r
    else if type = 0x15228c08 then parse2 (.pathStatus true) r
    else if type = 0x15228c0c then parse1 .maxPathId r
    else if type = 0x15228c0d then parse1 .pathsBlocked r
    else if type = 0x15228c0e then parse2 .pathCidBlocked r
    else if type = 0x15228c09 then parseNewCid true r
    else if type = 0x15228c0a then parseRetireCid true r
    else if type = 0xebd9 then parseBdp r
    else if type = 0x9f81a6 then parseObservedAddress false r
    else if type = 0x9f81a7 then parseObservedAddress true r
    else none

/-- The frames with a type of one byte. -/
def parseShort (b : UInt8) (t : Bytes) : Parse :=
  if 8 ≤ b.toNat ∧ b.toNat < 16 then parseStream (b :: t)
  else if b = 0x02 then (parseAck false false t).map fun x => (.ack x.1, x.2)
  else if b = 0x03 then (parseAck true false t).map fun x => (.ack x.1, x.2)
  else if b = 0x00 then some (.padding (skip0len 0 t).1, (skip0len 0 t).2)
  else if b = 0x01 then some (.ping (skip0len 1 t).1, (skip0len 1 t).2)
  else if b = 0x04 then parseReset t
  else if b = 0x1c then parseConnectionClose t
  else if b = 0x1d then parseApplicationClose t
  else if b = 0x10 then parse1 .maxData t
  else if b = 0x11 then parse2 .maxStreamData t
  else if b = 0x12 then parse1 (.maxStreams true) t
  else if b = 0x13 then parse1 (.maxStreams false) t
  else if b = 0x14 then parse1 .dataBlocked t
  else if b = 0x15 then parse2 .streamDataBlocked t
  else if b = 0x16 then parse1 (.streamsBlocked true) t
  else if b = 0x17 then parse1 (.streamsBlocked false) t
  else if b = 0x18 then parseNewCid false t
  else if b = 0x05 then parseStopSending t
  else if b = 0x1a then parsePathChallenge t
  else if b = 0x1b then parsePathResponse t
  else if b = 0x06 then parseCrypto t
  else if b = 0x07 then parseNewToken t
  else if b = 0x19 then parseRetireCid false t
  else if b = 0x1e then some (.handshakeDone, t)
  else if b = 0x30 then parseDatagram false t
  else if b = 0x31 then parseDatagram true t
  else none

/-- Frames whose type is a variable length integer. -/
def isExt : Frame → Bool
  | .ack c => c.pathId.isSome
  | .newConnectionId path .. | .retireConnectionId path _ => path.isSome
  | .ackFrequency .. | .immediateAck | .timeStamp _ | .pathAbandon .. | .pathStatus .. | .maxPathId _
  | .pathsBlocked _ | .pathCidBlocked .. | .bdp .. | .observedAddress .. => true
  | _ => false

theorem u8_inj {b : UInt8} {k : Nat} (h : b.toNat = k) (hk : k < 256) : b = UInt8.ofNat k := by
  apply UInt8.toNat_inj.1
  rw [h]
  simp [Nat.mod_eq_of_lt hk]

theorem startsWith_ack_ext {bs rest : Bytes} {c : AckContent} (hp : c.pathId.isSome = true) :
    StartsWith bs (.ack c) rest ↔
      ∃ r, framesVarintDecode bs = some (c.type, r) ∧ parseAck c.ecn.isSome true r = some (c, rest) := by
  have hf : ∀ p, IsFrame p (.ack c) ↔ ∃ t body, p = t ++ body ∧ IsAckBody body c ∧ Varint t c.type := by
    intro p
    unfold IsFrame
    cases h : c.pathId with
    | none => rw [h] at hp; cases hp
    | some i => simp only [h]
  constructor
  · rintro ⟨p, rfl, h, _⟩
    obtain ⟨t, body, rfl, hb, ht⟩ := (hf p).1 h
    refine ⟨body ++ rest, by rw [List.append_assoc, Ack.varint_decode ht], ?_⟩
    exact (parseAck_iff _ _ _ _ _).2 ⟨body, rfl, hb, hp, rfl⟩
  · rintro ⟨r, h1, h2⟩
    obtain ⟨t, rfl, ht⟩ := Ack.varint_of_decode h1
    obtain ⟨body, rfl, hb, _, _⟩ := (parseAck_iff _ _ _ _ _).1 h2
    exact ⟨t ++ body, by simp, (hf _).2 ⟨t, body, rfl, hb, ht⟩, trivial⟩

theorem startsWith_ack_short {b : UInt8} {t rest : Bytes} {c : AckContent} (hp : c.pathId = none) :
    StartsWith (b :: t) (.ack c) rest ↔
      b.toNat = c.type ∧ parseAck c.ecn.isSome false t = some (c, rest) := by
  have hty : c.type < 4 := by
    unfold AckContent.type
    rw [hp]
    cases c.ecn <;> simp
  have hf : ∀ p, IsFrame p (.ack c) ↔ ∃ t body, p = t ++ body ∧ IsAckBody body c ∧ t = [u8 c.type] := by
    intro p
    unfold IsFrame
    simp only [hp]
  constructor
  · rintro ⟨p, hbt, h, _⟩
    obtain ⟨t', body, rfl, hb, rfl⟩ := (hf p).1 h
    simp only [List.cons_append, List.nil_append, List.cons.injEq] at hbt
    obtain ⟨rfl, rfl⟩ := hbt
    refine ⟨?_, (parseAck_iff _ _ _ _ _).2 ⟨body, rfl, hb, by rw [hp]; rfl, rfl⟩⟩
    show (UInt8.ofNat c.type).toNat = _
    simp; omega
  · rintro ⟨h1, h2⟩
    obtain ⟨body, rfl, hb, _, _⟩ := (parseAck_iff _ _ _ _ _).1 h2
    refine ⟨b :: body, by simp, (hf _).2 ⟨[b], body, rfl, hb, ?_⟩, trivial⟩
    rw [u8_inj h1 (by omega)]
    rfl


theorem parseExt_sound {bs rest : Bytes} {f : Frame} (h : parseExt bs = some (f, rest)) :
    isExt f = true ∧ StartsWith bs f rest := by
  unfold parseExt at h
  cases hd : framesVarintDecode bs with
  | none => rw [hd] at h; cases h
  | some x =>
    obtain ⟨type, r⟩ := x
    rw [hd] at h
    dsimp only at h
    by_cases ht : type = 0xAF
    · rw [if_pos ht] at h
      obtain ⟨a, b, c, d, rfl, hx⟩ := (parseAckFrequency_iff _ _ _).1 h
      exact ⟨rfl, (startsWith_int rfl (fun _ => Iff.rfl)).2 ⟨r, ht ▸ hd, hx, trivial, trivial⟩⟩
    rw [if_neg ht] at h
    by_cases ht : type = 0x1F
    · rw [if_pos ht] at h
      simp only [Option.some.injEq, Prod.mk.injEq] at h
      obtain ⟨rfl, rfl⟩ := h
      exact ⟨rfl, (startsWith_int rfl (fun _ => Iff.rfl)).2 ⟨r, ht ▸ hd, (at_nil _ _).2 rfl, trivial, trivial⟩⟩
    rw [if_neg ht] at h
    by_cases ht : type = 757
    · rw [if_pos ht] at h
      obtain ⟨a, rfl, hx⟩ := (parse1_iff _ _ _ _).1 h
      exact ⟨rfl, (startsWith_int rfl (fun _ => Iff.rfl)).2 ⟨r, ht ▸ hd, hx, trivial, trivial⟩⟩
    rw [if_neg ht] at h
    by_cases ht : type = 0x15228c00
    · rw [if_pos ht] at h
      rw [Option.map_eq_some_iff] at h
      obtain ⟨⟨c, r'⟩, h, he⟩ := h
      simp only [Prod.mk.injEq] at he
      obtain ⟨rfl, rfl⟩ := he
      obtain ⟨body, _, _, h1, h2⟩ := (parseAck_iff _ _ _ _ _).1 h
      refine ⟨h1, (startsWith_ack_ext h1).2 ⟨r, ?_, by rw [h2]; exact h⟩⟩
      rw [hd, ht]
      unfold AckContent.type
      cases hp : c.pathId <;> cases he : c.ecn <;> simp_all
    rw [if_neg ht] at h
    by_cases ht : type = 0x15228c01
    · rw [if_pos ht] at h
      rw [Option.map_eq_some_iff] at h
      obtain ⟨⟨c, r'⟩, h, he⟩ := h
      simp only [Prod.mk.injEq] at he
      obtain ⟨rfl, rfl⟩ := he
      obtain ⟨body, _, _, h1, h2⟩ := (parseAck_iff _ _ _ _ _).1 h
      refine ⟨h1, (startsWith_ack_ext h1).2 ⟨r, ?_, by rw [h2]; exact h⟩⟩
      rw [hd, ht]
      unfold AckContent.type
      cases hp : c.pathId <;> cases he : c.ecn <;> simp_all
    rw [if_neg ht] at h
    by_cases ht : type = 0x15228c05
    · rw [if_pos ht] at h
      obtain ⟨a, b, rfl, hx⟩ := (parse2_iff _ _ _ _).1 h
      exact ⟨rfl, (startsWith_int rfl (fun _ => Iff.rfl)).2 ⟨r, ht ▸ hd, hx, trivial, trivial⟩⟩
    rw [if_neg ht] at h
    by_cases ht : type = 0x15228c07
    · rw [if_pos ht] at h
      obtain ⟨a, b, rfl, hx⟩ := (parse2_iff _ _ _ _).1 h
      exact ⟨rfl, (startsWith_int rfl (fun _ => Iff.rfl)).2 ⟨r, ht ▸ hd, hx, trivial, trivial⟩⟩
    rw [if_neg ht] at h
    by_cases ht : type = 0x15228c08
    · rw [if_pos ht] at h
      obtain ⟨a, b, rfl, hx⟩ := (parse2_iff _ _ _ _).1 h
      exact ⟨rfl, (startsWith_int rfl (fun _ => Iff.rfl)).2 ⟨r, ht ▸ hd, hx, trivial, trivial⟩⟩
    rw [if_neg ht] at h
    by_cases ht : type = 0x15228c0c
    · rw [if_pos ht] at h
      obtain ⟨a, rfl, hx⟩ := (parse1_iff _ _ _ _).1 h
      exact ⟨rfl, (startsWith_int rfl (fun _ => Iff.rfl)).2 ⟨r, ht ▸ hd, hx, trivial, trivial⟩⟩
    rw [if_neg ht] at h
    by_cases ht : type = 0x15228c0d
    · rw [if_pos ht] at h
      obtain ⟨a, rfl, hx⟩ := (parse1_iff _ _ _ _).1 h
      exact ⟨rfl, (startsWith_int rfl (fun _ => Iff.rfl)).2 ⟨r, ht ▸ hd, hx, trivial, trivial⟩⟩
    rw [if_neg ht] at h
    by_cases ht : type = 0x15228c0e
    · rw [if_pos ht] at h
      obtain ⟨a, b, rfl, hx⟩ := (parse2_iff _ _ _ _).1 h
      exact ⟨rfl, (startsWith_int rfl (fun _ => Iff.rfl)).2 ⟨r, ht ▸ hd, hx, trivial, trivial⟩⟩
    rw [if_neg ht] at h
    by_cases ht : type = 0x15228c09
    · rw [if_pos ht] at h
      obtain ⟨path, a, b, c, d, rfl, h2, p, rfl, hx⟩ := (parseNewCid_iff _ _ _ _).1 h
      exact ⟨rfl, (startsWith_int rfl (fun _ => Iff.rfl)).2 ⟨r, ht ▸ hd, hx, h2, trivial⟩⟩
    rw [if_neg ht] at h
    by_cases ht : type = 0x15228c0a
    · rw [if_pos ht] at h
      obtain ⟨path, a, rfl, p, rfl, hx⟩ := (parseRetireCid_iff _ _ _ _).1 h
      exact ⟨rfl, (startsWith_int rfl (fun _ => Iff.rfl)).2 ⟨r, ht ▸ hd, hx, trivial, trivial⟩⟩
    rw [if_neg ht] at h
    by_cases ht : type = 0xebd9
    · rw [if_pos ht] at h
      obtain ⟨a, b, c, ip, rfl, h2, hx⟩ := (parseBdp_iff _ _ _).1 h
      exact ⟨rfl, (startsWith_int rfl (fun _ => Iff.rfl)).2 ⟨r, ht ▸ hd, hx, h2, trivial⟩⟩
    rw [if_neg ht] at h
    by_cases ht : type = 0x9f81a6
    · rw [if_pos ht] at h
      obtain ⟨a, ip, p, rfl, h2, hx⟩ := (parseObservedAddress_iff _ _ _ _).1 h
      exact ⟨rfl, (startsWith_int rfl (fun _ => Iff.rfl)).2 ⟨r, ht ▸ hd, hx, h2, trivial⟩⟩
    rw [if_neg ht] at h
    by_cases ht : type = 0x9f81a7
    · rw [if_pos ht] at h
      obtain ⟨a, ip, p, rfl, h2, hx⟩ := (parseObservedAddress_iff _ _ _ _).1 h
      exact ⟨rfl, (startsWith_int rfl (fun _ => Iff.rfl)).2 ⟨r, ht ▸ hd, hx, h2, trivial⟩⟩
    rw [if_neg ht] at h
    cases h

theorem parseExt_complete {bs rest : Bytes} {f : Frame} (he : isExt f = true) (h : StartsWith bs f rest) :
    parseExt bs = some (f, rest) := by
  unfold parseExt
  cases f with
  | ack c =>
    obtain ⟨r, h1, h2⟩ := (startsWith_ack_ext he).1 h
    have hty : c.type = if c.ecn.isSome then 0x15228c01 else 0x15228c00 := by
      unfold AckContent.type
      cases hp : c.pathId <;> cases he' : c.ecn <;> simp_all [isExt]
    rw [h1, hty]
    cases hc : c.ecn.isSome <;> rw [hc] at h2 <;> simp [h2]
  | newConnectionId path a b c d =>
    cases path with
    | none => cases he
    | some p =>
      obtain ⟨r, h1, h2, h3, _⟩ := (startsWith_int rfl (fun _ => Iff.rfl)).1 h
      rw [h1]
      exact (parseNewCid_iff _ _ _ true).2 ⟨_, _, _, _, _, rfl, h3, _, rfl, h2⟩
  | retireConnectionId path a =>
    cases path with
    | none => cases he
    | some p =>
      obtain ⟨r, h1, h2, h3, _⟩ := (startsWith_int rfl (fun _ => Iff.rfl)).1 h
      rw [h1]
      exact (parseRetireCid_iff _ _ _ true).2 ⟨_, _, rfl, _, rfl, h2⟩
  | ackFrequency a b c d =>
    obtain ⟨r, h1, h2, h3, _⟩ := (startsWith_int rfl (fun _ => Iff.rfl)).1 h
    rw [h1]
    exact (parseAckFrequency_iff _ _ _).2 ⟨_, _, _, _, rfl, h2⟩
  | immediateAck =>
    obtain ⟨r, h1, h2, h3, _⟩ := (startsWith_int rfl (fun _ => Iff.rfl)).1 h
    rw [h1, (at_nil _ _).1 h2]
    rfl
  | timeStamp a =>
    obtain ⟨r, h1, h2, h3, _⟩ := (startsWith_int rfl (fun _ => Iff.rfl)).1 h
    rw [h1]
    exact (parse1_iff _ _ _ _).2 ⟨_, rfl, h2⟩
  | pathAbandon a b =>
    obtain ⟨r, h1, h2, h3, _⟩ := (startsWith_int rfl (fun _ => Iff.rfl)).1 h
    rw [h1]
    exact (parse2_iff _ _ _ _).2 ⟨_, _, rfl, h2⟩
  | pathStatus v a b =>
    obtain ⟨r, h1, h2, h3, _⟩ := (startsWith_int rfl (fun _ => Iff.rfl)).1 h
    rw [h1]
    cases v <;> exact (parse2_iff _ _ _ _).2 ⟨_, _, rfl, h2⟩
  | maxPathId a =>
    obtain ⟨r, h1, h2, h3, _⟩ := (startsWith_int rfl (fun _ => Iff.rfl)).1 h
    rw [h1]
    exact (parse1_iff _ _ _ _).2 ⟨_, rfl, h2⟩
  | pathsBlocked a =>
    obtain ⟨r, h1, h2, h3, _⟩ := (startsWith_int rfl (fun _ => Iff.rfl)).1 h
    rw [h1]
    exact (parse1_iff _ _ _ _).2 ⟨_, rfl, h2⟩
  | pathCidBlocked a b =>
    obtain ⟨r, h1, h2, h3, _⟩ := (startsWith_int rfl (fun _ => Iff.rfl)).1 h
    rw [h1]
    exact (parse2_iff _ _ _ _).2 ⟨_, _, rfl, h2⟩
  | bdp a b c d =>
    obtain ⟨r, h1, h2, h3, _⟩ := (startsWith_int rfl (fun _ => Iff.rfl)).1 h
    rw [h1]
    exact (parseBdp_iff _ _ _).2 ⟨_, _, _, _, rfl, h3, h2⟩
  | observedAddress v a b c =>
    obtain ⟨r, h1, h2, h3, _⟩ := (startsWith_int rfl (fun _ => Iff.rfl)).1 h
    rw [h1]
    cases v <;> exact (parseObservedAddress_iff _ _ _ _).2 ⟨_, _, _, rfl, h3, h2⟩
  | _ => cases he

theorem parseShort_sound {b : UInt8} {t rest : Bytes} {f : Frame} (h : parseShort b t = some (f, rest)) :
    isExt f = false ∧ StartsWith (b :: t) f rest := by
  unfold parseShort at h
  by_cases hb : 8 ≤ b.toNat ∧ b.toNat < 16
  · rw [if_pos hb] at h
    obtain ⟨_, _, _, _, _, rfl, hx⟩ := (parseStream_iff _ _ _ _ hb).1 h
    exact ⟨rfl, hx⟩
  rw [if_neg hb] at h
  by_cases hb : b = 0x02
  · rw [if_pos hb] at h
    rw [Option.map_eq_some_iff] at h
    obtain ⟨⟨c, r'⟩, h, he⟩ := h
    simp only [Prod.mk.injEq] at he
    obtain ⟨rfl, rfl⟩ := he
    obtain ⟨body, _, _, h1, h2⟩ := (parseAck_iff _ _ _ _ _).1 h
    have hp : c.pathId = none := by cases hc : c.pathId <;> simp_all
    refine ⟨h1, (startsWith_ack_short hp).2 ⟨?_, by rw [h2]; exact h⟩⟩
    rw [hb]
    unfold AckContent.type
    cases he : c.ecn <;> simp_all
  rw [if_neg hb] at h
  by_cases hb : b = 0x03
  · rw [if_pos hb] at h
    rw [Option.map_eq_some_iff] at h
    obtain ⟨⟨c, r'⟩, h, he⟩ := h
    simp only [Prod.mk.injEq] at he
    obtain ⟨rfl, rfl⟩ := he
    obtain ⟨body, _, _, h1, h2⟩ := (parseAck_iff _ _ _ _ _).1 h
    have hp : c.pathId = none := by cases hc : c.pathId <;> simp_all
    refine ⟨h1, (startsWith_ack_short hp).2 ⟨?_, by rw [h2]; exact h⟩⟩
    rw [hb]
    unfold AckContent.type
    cases he : c.ecn <;> simp_all
  rw [if_neg hb] at h
  by_cases hb : b = 0x00
  · rw [if_pos hb] at h
    simp only [Option.some.injEq, Prod.mk.injEq] at h
    obtain ⟨rfl, rfl⟩ := h
    exact ⟨rfl, (startsWith_run 0 b t _ _ (.padding (skip0len 0 t).1) rfl (fun _ => Iff.rfl) trivial Iff.rfl).2 ⟨hb, rfl⟩⟩
  rw [if_neg hb] at h
  by_cases hb : b = 0x01
  · rw [if_pos hb] at h
    simp only [Option.some.injEq, Prod.mk.injEq] at h
    obtain ⟨rfl, rfl⟩ := h
    exact ⟨rfl, (startsWith_run 1 b t _ _ (.ping (skip0len 1 t).1) rfl (fun _ => Iff.rfl) trivial Iff.rfl).2 ⟨hb, rfl⟩⟩
  rw [if_neg hb] at h
  by_cases hb : b = 0x04
  · rw [if_pos hb] at h
    obtain ⟨_, _, _, rfl, hx⟩ := (parseReset_iff _ _ _).1 h
    exact ⟨rfl, (startsWith_raw rfl (fun _ => Iff.rfl)).2 ⟨hb, hx, trivial, trivial⟩⟩
  rw [if_neg hb] at h
  by_cases hb : b = 0x1c
  · rw [if_pos hb] at h
    obtain ⟨_, _, _, rfl, hx⟩ := (parseConnectionClose_iff _ _ _).1 h
    exact ⟨rfl, (startsWith_raw rfl (fun _ => Iff.rfl)).2 ⟨hb, hx, trivial, trivial⟩⟩
  rw [if_neg hb] at h
  by_cases hb : b = 0x1d
  · rw [if_pos hb] at h
    obtain ⟨_, _, rfl, hx⟩ := (parseApplicationClose_iff _ _ _).1 h
    exact ⟨rfl, (startsWith_raw rfl (fun _ => Iff.rfl)).2 ⟨hb, hx, trivial, trivial⟩⟩
  rw [if_neg hb] at h
  by_cases hb : b = 0x10
  · rw [if_pos hb] at h
    obtain ⟨_, rfl, hx⟩ := (parse1_iff _ _ _ _).1 h
    exact ⟨rfl, (startsWith_raw rfl (fun _ => Iff.rfl)).2 ⟨hb, hx, trivial, trivial⟩⟩
  rw [if_neg hb] at h
  by_cases hb : b = 0x11
  · rw [if_pos hb] at h
    obtain ⟨_, _, rfl, hx⟩ := (parse2_iff _ _ _ _).1 h
    exact ⟨rfl, (startsWith_raw rfl (fun _ => Iff.rfl)).2 ⟨hb, hx, trivial, trivial⟩⟩
  rw [if_neg hb] at h
  by_cases hb : b = 0x12
  · rw [if_pos hb] at h
    obtain ⟨_, rfl, hx⟩ := (parse1_iff _ _ _ _).1 h
    exact ⟨rfl, (startsWith_raw rfl (fun _ => Iff.rfl)).2 ⟨hb, hx, trivial, trivial⟩⟩
  rw [if_neg hb] at h
  by_cases hb : b = 0x13
  · rw [if_pos hb] at h
    obtain ⟨_, rfl, hx⟩ := (parse1_iff _ _ _ _).1 h
    exact ⟨rfl, (startsWith_raw rfl (fun _ => Iff.rfl)).2 ⟨hb, hx, trivial, trivial⟩⟩
  rw [if_neg hb] at h
  by_cases hb : b = 0x14
  · rw [if_pos hb] at h
    obtain ⟨_, rfl, hx⟩ := (parse1_iff _ _ _ _).1 h
    exact ⟨rfl, (startsWith_raw rfl (fun _ => Iff.rfl)).2 ⟨hb, hx, trivial, trivial⟩⟩
  rw [if_neg hb] at h
  by_cases hb : b = 0x15
  · rw [if_pos hb] at h
    obtain ⟨_, _, rfl, hx⟩ := (parse2_iff _ _ _ _).1 h
    exact ⟨rfl, (startsWith_raw rfl (fun _ => Iff.rfl)).2 ⟨hb, hx, trivial, trivial⟩⟩
  rw [if_neg hb] at h
  by_cases hb : b = 0x16
  · rw [if_pos hb] at h
    obtain ⟨_, rfl, hx⟩ := (parse1_iff _ _ _ _).1 h
    exact ⟨rfl, (startsWith_raw rfl (fun _ => Iff.rfl)).2 ⟨hb, hx, trivial, trivial⟩⟩
  rw [if_neg hb] at h
  by_cases hb : b = 0x17
  · rw [if_pos hb] at h
    obtain ⟨_, rfl, hx⟩ := (parse1_iff _ _ _ _).1 h
    exact ⟨rfl, (startsWith_raw rfl (fun _ => Iff.rfl)).2 ⟨hb, hx, trivial, trivial⟩⟩
  rw [if_neg hb] at h
  by_cases hb : b = 0x18
  · rw [if_pos hb] at h
    obtain ⟨_, _, _, _, _, rfl, h2, rfl, hx⟩ := (parseNewCid_iff _ _ _ _).1 h
    exact ⟨rfl, (startsWith_raw rfl (fun _ => Iff.rfl)).2 ⟨hb, hx, h2, trivial⟩⟩
  rw [if_neg hb] at h
  by_cases hb : b = 0x05
  · rw [if_pos hb] at h
    obtain ⟨_, _, rfl, hx⟩ := (parseStopSending_iff _ _ _).1 h
    exact ⟨rfl, (startsWith_raw rfl (fun _ => Iff.rfl)).2 ⟨hb, hx, trivial, trivial⟩⟩
  rw [if_neg hb] at h
  by_cases hb : b = 0x1a
  · rw [if_pos hb] at h
    obtain ⟨_, rfl, hx⟩ := (parsePathChallenge_iff _ _ _).1 h
    exact ⟨rfl, (startsWith_raw rfl (fun _ => Iff.rfl)).2 ⟨hb, hx, trivial, trivial⟩⟩
  rw [if_neg hb] at h
  by_cases hb : b = 0x1b
  · rw [if_pos hb] at h
    obtain ⟨_, rfl, hx⟩ := (parsePathResponse_iff _ _ _).1 h
    exact ⟨rfl, (startsWith_raw rfl (fun _ => Iff.rfl)).2 ⟨hb, hx, trivial, trivial⟩⟩
  rw [if_neg hb] at h
  by_cases hb : b = 0x06
  · rw [if_pos hb] at h
    obtain ⟨_, _, rfl, hx⟩ := (parseCrypto_iff _ _ _).1 h
    exact ⟨rfl, (startsWith_raw rfl (fun _ => Iff.rfl)).2 ⟨hb, hx, trivial, trivial⟩⟩
  rw [if_neg hb] at h
  by_cases hb : b = 0x07
  · rw [if_pos hb] at h
    obtain ⟨_, rfl, hx⟩ := (parseNewToken_iff _ _ _).1 h
    exact ⟨rfl, (startsWith_raw rfl (fun _ => Iff.rfl)).2 ⟨hb, hx, trivial, trivial⟩⟩
  rw [if_neg hb] at h
  by_cases hb : b = 0x19
  · rw [if_pos hb] at h
    obtain ⟨_, _, rfl, rfl, hx⟩ := (parseRetireCid_iff _ _ _ _).1 h
    exact ⟨rfl, (startsWith_raw rfl (fun _ => Iff.rfl)).2 ⟨hb, hx, trivial, trivial⟩⟩
  rw [if_neg hb] at h
  by_cases hb : b = 0x1e
  · rw [if_pos hb] at h
    simp only [Option.some.injEq, Prod.mk.injEq] at h
    obtain ⟨rfl, rfl⟩ := h
    exact ⟨rfl, (startsWith_raw rfl (fun _ => Iff.rfl)).2 ⟨hb, (at_nil _ _).2 rfl, trivial, trivial⟩⟩
  rw [if_neg hb] at h
  by_cases hb : b = 0x30
  · rw [if_pos hb] at h
    obtain ⟨d, rfl, rfl, rfl⟩ := (parseDatagram_iff _ _ _ _).1 h
    exact ⟨rfl, (startsWith_raw rfl (fun _ => Iff.rfl)).2
      ⟨hb, (at_raw _ _ _ _).2 ⟨[], by simp, (at_nil _ _).2 rfl⟩, trivial, fun _ => rfl⟩⟩
  rw [if_neg hb] at h
  by_cases hb : b = 0x31
  · rw [if_pos hb] at h
    obtain ⟨d, rfl, hx⟩ := (parseDatagram_iff _ _ _ _).1 h
    exact ⟨rfl, (startsWith_raw rfl (fun _ => Iff.rfl)).2 ⟨hb, hx, trivial, fun he => by cases he⟩⟩
  rw [if_neg hb] at h
  cases h

theorem parseShort_complete {b : UInt8} {t rest : Bytes} {f : Frame} (he : isExt f = false)
    (h : StartsWith (b :: t) f rest) : parseShort b t = some (f, rest) := by
  cases f with
  | stream id o fin d e =>
    have hb : 8 ≤ b.toNat ∧ b.toNat < 16 := by
      obtain ⟨p, hp, hf, _⟩ := h
      obtain ⟨ty, wo, i, o, l, rfl, hty, _⟩ := (hf : IsStreamFrame p _ _ _ _ _)
      simp only [List.cons_append, List.cons.injEq] at hp
      rw [hp.1, hty]
      (repeat' split) <;> omega
    unfold parseShort
    rw [if_pos hb]
    exact (parseStream_iff _ _ _ _ hb).2 ⟨_, _, _, _, _, rfl, h⟩
  | ack c =>
    have hp : c.pathId = none := by
      cases hc : c.pathId with
      | none => rfl
      | some i => simp [isExt, hc] at he
    obtain ⟨h1, h2⟩ := (startsWith_ack_short hp).1 h
    unfold AckContent.type at h1
    rw [hp] at h1
    cases hc : c.ecn with
    | none =>
      rw [hc] at h1 h2
      obtain rfl : b = 2 := u8_inj h1 (by decide)
      unfold parseShort
      rw [if_neg (by decide), if_pos rfl]
      exact Option.map_eq_some_iff.2 ⟨_, h2, rfl⟩
    | some e =>
      rw [hc] at h1 h2
      obtain rfl : b = 3 := u8_inj h1 (by decide)
      unfold parseShort
      rw [if_neg (by decide), if_neg (by decide), if_pos rfl]
      exact Option.map_eq_some_iff.2 ⟨_, h2, rfl⟩
  | padding n =>
    obtain ⟨rfl, h2⟩ := (startsWith_run 0 b t rest n (.padding n) rfl (fun _ => Iff.rfl) trivial Iff.rfl).1 h
    show some (Frame.padding (skip0len 0 t).1, (skip0len 0 t).2) = _
    rw [h2]
  | ping n =>
    obtain ⟨rfl, h2⟩ := (startsWith_run 1 b t rest n (.ping n) rfl (fun _ => Iff.rfl) trivial Iff.rfl).1 h
    show some (Frame.ping (skip0len 1 t).1, (skip0len 1 t).2) = _
    rw [h2]
  | resetStream _ _ _ =>
    obtain ⟨rfl, h2, h3, _⟩ := (startsWith_raw rfl (fun _ => Iff.rfl)).1 h
    exact (parseReset_iff _ _ _).2 ⟨_, _, _, rfl, h2⟩
  | stopSending _ _ =>
    obtain ⟨rfl, h2, h3, _⟩ := (startsWith_raw rfl (fun _ => Iff.rfl)).1 h
    exact (parseStopSending_iff _ _ _).2 ⟨_, _, rfl, h2⟩
  | crypto _ _ =>
    obtain ⟨rfl, h2, h3, _⟩ := (startsWith_raw rfl (fun _ => Iff.rfl)).1 h
    exact (parseCrypto_iff _ _ _).2 ⟨_, _, rfl, h2⟩
  | newToken _ =>
    obtain ⟨rfl, h2, h3, _⟩ := (startsWith_raw rfl (fun _ => Iff.rfl)).1 h
    exact (parseNewToken_iff _ _ _).2 ⟨_, rfl, h2⟩
  | maxData _ =>
    obtain ⟨rfl, h2, h3, _⟩ := (startsWith_raw rfl (fun _ => Iff.rfl)).1 h
    exact (parse1_iff _ _ _ _).2 ⟨_, rfl, h2⟩
  | maxStreamData _ _ =>
    obtain ⟨rfl, h2, h3, _⟩ := (startsWith_raw rfl (fun _ => Iff.rfl)).1 h
    exact (parse2_iff _ _ _ _).2 ⟨_, _, rfl, h2⟩
  | maxStreams v _ =>
    obtain ⟨hb, h2, h3, _⟩ := (startsWith_raw rfl (fun _ => Iff.rfl)).1 h
    cases v <;> subst hb <;> exact (parse1_iff _ _ _ _).2 ⟨_, rfl, h2⟩
  | dataBlocked _ =>
    obtain ⟨rfl, h2, h3, _⟩ := (startsWith_raw rfl (fun _ => Iff.rfl)).1 h
    exact (parse1_iff _ _ _ _).2 ⟨_, rfl, h2⟩
  | streamDataBlocked _ _ =>
    obtain ⟨rfl, h2, h3, _⟩ := (startsWith_raw rfl (fun _ => Iff.rfl)).1 h
    exact (parse2_iff _ _ _ _).2 ⟨_, _, rfl, h2⟩
  | streamsBlocked v _ =>
    obtain ⟨hb, h2, h3, _⟩ := (startsWith_raw rfl (fun _ => Iff.rfl)).1 h
    cases v <;> subst hb <;> exact (parse1_iff _ _ _ _).2 ⟨_, rfl, h2⟩
  | newConnectionId path _ _ _ _ =>
    cases path with
    | some p => cases he
    | none =>
      obtain ⟨rfl, h2, h3, _⟩ := (startsWith_raw rfl (fun _ => Iff.rfl)).1 h
      exact (parseNewCid_iff _ _ _ false).2 ⟨_, _, _, _, _, rfl, h3, rfl, h2⟩
  | retireConnectionId path _ =>
    cases path with
    | some p => cases he
    | none =>
      obtain ⟨rfl, h2, h3, _⟩ := (startsWith_raw rfl (fun _ => Iff.rfl)).1 h
      exact (parseRetireCid_iff _ _ _ false).2 ⟨_, _, rfl, rfl, h2⟩
  | pathChallenge _ =>
    obtain ⟨rfl, h2, h3, _⟩ := (startsWith_raw rfl (fun _ => Iff.rfl)).1 h
    exact (parsePathChallenge_iff _ _ _).2 ⟨_, rfl, h2⟩
  | pathResponse _ =>
    obtain ⟨rfl, h2, h3, _⟩ := (startsWith_raw rfl (fun _ => Iff.rfl)).1 h
    exact (parsePathResponse_iff _ _ _).2 ⟨_, rfl, h2⟩
  | connectionClose _ _ _ =>
    obtain ⟨rfl, h2, h3, _⟩ := (startsWith_raw rfl (fun _ => Iff.rfl)).1 h
    exact (parseConnectionClose_iff _ _ _).2 ⟨_, _, _, rfl, h2⟩
  | applicationClose _ _ =>
    obtain ⟨rfl, h2, h3, _⟩ := (startsWith_raw rfl (fun _ => Iff.rfl)).1 h
    exact (parseApplicationClose_iff _ _ _).2 ⟨_, _, rfl, h2⟩
  | handshakeDone =>
    obtain ⟨rfl, h2, h3, _⟩ := (startsWith_raw rfl (fun _ => Iff.rfl)).1 h
    rw [(at_nil _ _).1 h2]
    rfl
  | datagram d e =>
    cases e with
    | false =>
      obtain ⟨rfl, h2, h3, h4⟩ := (startsWith_raw rfl (fun _ => Iff.rfl)).1 h
      obtain ⟨r, rfl, h5⟩ := (at_raw _ _ _ _).1 h2
      have := h4 rfl
      rw [(at_nil _ _).1 h5, this]
      exact (parseDatagram_iff _ _ _ false).2 ⟨_, rfl, by simp, rfl⟩
    | true =>
      obtain ⟨rfl, h2, h3, h4⟩ := (startsWith_raw rfl (fun _ => Iff.rfl)).1 h
      exact (parseDatagram_iff _ _ _ true).2 ⟨_, rfl, h2⟩
  | _ => cases he

theorem decode_short {b : UInt8} (hb : b.toNat < 64) (t : Bytes) : framesVarintDecode (b :: t) = some (b.toNat, t) := by
  have : Varint [b] b.toNat := ⟨0, by decide, rfl, by omega, by simp [bigEndian]⟩
  exact Ack.varint_decode this t

theorem ext_first {b : UInt8} {t : Bytes} {x : Frame × Bytes} (h : parseExt (b :: t) = some x) :
    64 ≤ b.toNat ∨ b = 0x1f := by
  by_cases hb : b.toNat < 64
  · right
    unfold parseExt at h
    rw [decode_short hb] at h
    by_cases h1 : b.toNat = 0x1f
    · exact u8_inj h1 (by decide)
    · dsimp only at h
      rw [if_neg (by omega), if_neg h1] at h
      iterate 14 rw [if_neg (by omega)] at h
      cases h
  · omega

theorem short_none {b : UInt8} {t : Bytes} (h : 64 ≤ b.toNat ∨ b = 0x1f) : parseShort b t = none := by
  rcases h with h | rfl
  · unfold parseShort
    rw [if_neg (by omega)]
    iterate 25 rw [if_neg (by rintro rfl; revert h; decide)]
  · rfl

/-- The parser of frames: the frame and what follows. -/
def parseFrame : Bytes → Parse
  | [] => none
  | b :: t => match parseShort b t with
    | some x => some x
    | none => parseExt (b :: t)

theorem not_startsWith_nil {f : Frame} {rest : Bytes} : ¬ StartsWith [] f rest := by
  rintro ⟨p, hp, hf, he⟩
  have : p = [] ∧ rest = [] := by simpa using hp.symm
  obtain ⟨rfl, rfl⟩ := this
  by_cases hx : isExt f = true
  · have := parseExt_complete hx (⟨[], rfl, hf, he⟩ : StartsWith [] f [])
    simp [parseExt, framesVarintDecode] at this
  · cases f with
    | ack c =>
      unfold IsFrame at hf
      obtain ⟨t, body, h, _, h2⟩ := hf
      have : t = [] := by simp_all
      subst this
      cases hc : c.pathId with
      | none => rw [hc] at h2; cases h2
      | some i => exact hx (by simp [isExt, hc])
    | stream => obtain ⟨_, _, _, _, _, h, _⟩ := (hf : IsStreamFrame _ _ _ _ _ _); cases h
    | padding n =>
      obtain ⟨⟨t, h, _⟩, _⟩ := (hf : Encodes _ _ ∧ _)
      rw [List.replicate_succ] at h; cases h
    | ping n =>
      obtain ⟨⟨t, h, _⟩, _⟩ := (hf : Encodes _ _ ∧ _)
      rw [List.replicate_succ] at h; cases h
    | newConnectionId path =>
      cases path with
      | none => obtain ⟨⟨t, h, _⟩, _⟩ := (hf : Encodes _ _ ∧ _); cases h
      | some p => exact hx rfl
    | retireConnectionId path =>
      cases path with
      | none => obtain ⟨⟨t, h, _⟩, _⟩ := (hf : Encodes _ _ ∧ _); cases h
      | some p => exact hx rfl
    | datagram d e => cases e <;> (obtain ⟨⟨t, h, _⟩, _⟩ := (hf : Encodes _ _ ∧ _); cases h)
    | ackFrequency | immediateAck | timeStamp | pathAbandon | pathStatus | maxPathId | pathsBlocked
    | pathCidBlocked | bdp | observedAddress => exact hx rfl
    | _ => obtain ⟨⟨t, h, _⟩, _⟩ := (hf : Encodes _ _ ∧ _); cases h

theorem parseFrame_iff (bs rest : Bytes) (f : Frame) : parseFrame bs = some (f, rest) ↔ StartsWith bs f rest := by
  cases bs with
  | nil =>
    constructor
    · intro h; cases h
    · intro h; exact absurd h not_startsWith_nil
  | cons b t =>
    constructor
    · intro h
      rw [parseFrame] at h
      cases hs : parseShort b t with
      | some x =>
        rw [hs] at h
        have h := Option.some.inj h
        subst h
        exact (parseShort_sound hs).2
      | none =>
        rw [hs] at h
        exact (parseExt_sound h).2
    · intro h
      rw [parseFrame]
      cases hx : isExt f with
      | false => rw [parseShort_complete hx h]
      | true =>
        have := parseExt_complete hx h
        rw [short_none (ext_first this)]
        exact this

theorem startsWith_unique {bs r r' : Bytes} {f f' : Frame} (h : StartsWith bs f r) (h' : StartsWith bs f' r') :
    f = f' ∧ r = r' := by
  rw [← parseFrame_iff] at h h'
  rw [h] at h'
  simpa using h'

theorem endsWith_nil (f : Frame) : EndsWith f [] := by
  cases f <;> simp [EndsWith]

theorem isFrame_ne_nil {f : Frame} : ¬ IsFrame [] f := fun h =>
  not_startsWith_nil (rest := []) ⟨[], rfl, h, endsWith_nil f⟩

theorem startsWith_suffix {bs rest : Bytes} {f : Frame} (h : StartsWith bs f rest) :
    ∃ p, p ≠ [] ∧ bs = p ++ rest := by
  obtain ⟨p, hp, hf, _⟩ := h
  refine ⟨p, ?_, hp⟩
  rintro rfl
  exact isFrame_ne_nil hf

end Picoquic.Frames
