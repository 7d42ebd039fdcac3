import Verif.Proof.AckExact
/-!
# Histories of packets sent and acknowledged
-/

namespace Picoquic.Ack
open Picoquic Picoquic.Spec

theorem climb_spec (largest : Nat) (next : List Pkt) : ∀ (older : List Pkt) (p : Pkt),
    (climb largest older p next).1.reverse ++ (climb largest older p next).2 = older.reverse ++ p :: next ∧
    ((older.reverse ++ p :: next).Pairwise (fun a b => a.seq < b.seq) →
      ∀ x ∈ (climb largest older p next).2, largest < x.seq) ∧ (climb largest older p next).1 ≠ [] := by
  induction next with
  | nil => intro older p; simp [climb]
  | cons q next ih =>
    intro older p
    rw [climb]
    by_cases h : p.seq < largest
    · rw [if_pos h]
      have := ih (p :: older) q
      simp only [List.reverse_cons, List.append_assoc, List.cons_append, List.nil_append] at this
      exact this
    · rw [if_neg h]
      refine ⟨by simp, ?_, by simp⟩
      intro hp x hx
      rw [List.pairwise_append] at hp
      have := (List.pairwise_cons.1 hp.2.1).1 x hx
      omega

theorem findAcked_pend (c : Ctx) (largest : Nat) :
    (findAcked c largest).1.reverse ++ (findAcked c largest).2.1 = c.pending := by
  unfold findAcked
  dsimp only
  cases c.pending with
  | nil => rfl
  | cons p next =>
    dsimp only
    split
    · have := (climb_spec largest next [] p).1
      simpa using this
    · simp

theorem findAcked_new {c : Ctx} {largest : Nat} (hnew : largest > c.highest ∨ c.highest = UINT64_MAX)
    (hp : c.pending.Pairwise (fun a b => a.seq < b.seq)) :
    (findAcked c largest).2.2 = true ∧ ∀ x ∈ (findAcked c largest).2.1, largest < x.seq := by
  unfold findAcked
  dsimp only
  cases hc : c.pending with
  | nil => simp [hnew]
  | cons p next =>
    dsimp only
    rw [if_pos (by simpa using hnew)]
    refine ⟨rfl, ?_⟩
    have := (climb_spec largest next [] p).2.1
    apply this
    rw [← hc] 
    exact hp

/-- The state at the start of the processing of a frame. -/
def startWork (c : Ctx) (largest : Nat) : Work :=
  { older := (findAcked c largest).1, newer := (findAcked c largest).2.1, lostPassed := [], lostRest := c.lost
    inTransit := c.inTransit, acked := c.acked }

theorem startWork_pend (c : Ctx) (largest : Nat) : pend (startWork c largest) = c.pending := findAcked_pend c largest

theorem dequeueOld_spec (latest : Nat) (lost : List Pkt) :
    ∃ old, lost = dequeueOld latest lost ++ old ∧ ∀ p ∈ old, p.sendTime + 1000000 < latest := by
  unfold dequeueOld
  by_cases h : latest > 1000000
  · rw [if_pos h]
    refine ⟨(lost.reverse.takeWhile (fun p => decide (p.sendTime < latest - 1000000))).reverse, ?_, ?_⟩
    · rw [← List.reverse_append, List.takeWhile_append_dropWhile, List.reverse_reverse]
    · intro p hp
      rw [List.mem_reverse] at hp
      have hall := List.all_takeWhile (p := fun p : Pkt => decide (p.sendTime < latest - 1000000)) (l := lost.reverse)
      rw [List.all_eq_true] at hall
      have := hall p hp
      simp at this
      omega
  · rw [if_neg h]; exact ⟨[], by simp, by simp⟩

/-- The send time of the latest packet acknowledged, after a frame. -/
def newLatest (c : Ctx) (largest : Nat) : Nat :=
  match (findAcked c largest).1 with
  | [] => c.latest
  | top :: _ => if (findAcked c largest).2.2 && c.latest < top.sendTime then top.sendTime else c.latest

/-- The context after the processing of the ranges of a frame. -/
def endCtx (c : Ctx) (largest : Nat) (w : Work) : Ctx :=
  { c with pending := pend w, lost := dequeueOld (newLatest c largest) (lst w)
           highest := if (findAcked c largest).2.2 then largest else c.highest
           latest := newLatest c largest, inTransit := w.inTransit, acked := w.acked }

theorem decodeAck_eq {c : Ctx} {ecn hasPath multipath : Bool} {exponent : Nat} {bs : Bytes}
    {path largest delay n : Nat} {r : Bytes}
    (hh : parseAckHeader hasPath exponent bs = some (path, largest, delay, n, r)) :
    decodeAck c ecn hasPath multipath exponent bs =
      if hasPath && !multipath then (c, .error .protocolViolation)
      else if largest ≥ c.nextSeq then (c, .error .protocolViolation)
      else (endCtx c largest (ackLoop n largest (startWork c largest) r).1,
        match (ackLoop n largest (startWork c largest) r).2 with
        | .error e => .error e
        | .ok bs => match skipEcn ecn bs with | none => .malformed | some bs => .ok bs) := by
  rw [decodeAck, hh]
  dsimp only
  by_cases h1 : (hasPath && !multipath) = true
  · rw [if_pos h1, if_pos h1]
  · rw [if_neg h1, if_neg h1]
    by_cases h2 : largest ≥ c.nextSeq
    · rw [if_pos h2, if_pos h2]
    · rw [if_neg h2, if_neg h2]
      unfold endCtx startWork newLatest pend lst
      generalize ackLoop n largest _ r = z
      obtain ⟨z1, z2⟩ := z
      dsimp only
      cases z2 with
      | error e => rfl
      | ok bs =>
        dsimp only
        cases skipEcn ecn bs <;> rfl

/-- The result of a frame, in terms of the working state. -/
theorem decodeAck_work (c : Ctx) (ecn hasPath multipath : Bool) (exponent : Nat) (bs : Bytes) :
    (decodeAck c ecn hasPath multipath exponent bs).1 = c ∨
    ∃ (largest : Nat) (w : Work), largest < c.nextSeq ∧
      Progress (fun n => n ≤ largest) (startWork c largest) w ∧
      (decodeAck c ecn hasPath multipath exponent bs).1 = endCtx c largest w := by
  cases hh : parseAckHeader hasPath exponent bs with
  | none => left; rw [decodeAck, hh]
  | some x =>
    obtain ⟨path, largest, delay, numBlock, r⟩ := x
    rw [decodeAck_eq hh]
    by_cases h1 : (hasPath && !multipath) = true
    · rw [if_pos h1]; left; rfl
    · rw [if_neg h1]
      by_cases h2 : largest ≥ c.nextSeq
      · rw [if_pos h2]; left; rfl
      · rw [if_neg h2]
        right
        exact ⟨largest, _, by omega, ackLoop_progress _ _ _ _, rfl⟩

/-! ### Frames -/

theorem varint_length {t : Bytes} {n : Nat} (h : Varint t n) (rest : Bytes) :
    ∃ b l, t ++ rest = b :: l ∧ (b :: l).drop (decodeVarintLength b) = rest := by
  have hd := varint_decode h rest
  cases ht : t ++ rest with
  | nil => rw [ht] at hd; simp [framesVarintDecode] at hd
  | cons b l =>
    refine ⟨b, l, rfl, ?_⟩
    rw [ht] at hd
    unfold framesVarintDecode at hd
    dsimp only at hd
    rw [varintLen_eq] at hd
    rw [decodeVarintLength_eq]
    have hpos : 0 < 2 ^ (b.toNat / 64) := Nat.two_pow_pos _
    by_cases hle : 2 ^ (b.toNat / 64) ≤ (b :: l).length
    · rw [if_pos hle] at hd
      obtain ⟨m, hm⟩ : ∃ m, 2 ^ (b.toNat / 64) = m + 1 := ⟨_, (Nat.succ_pred_eq_of_pos hpos).symm⟩
      rw [hm] at hd ⊢
      have := congrArg Prod.snd (Option.some.inj hd)
      simpa using this
    · rw [if_neg hle] at hd; cases hd

/-- The fields of a frame. -/
theorem parse_of_body {t b rest : Bytes} {ty : Nat} {c : AckContent} (ht : Varint t ty) (hb : IsAckBody b c)
    (exponent : Nat) :
    ∃ body e, parseAckHeader c.pathId.isSome exponent (t ++ (b ++ rest)) =
        some (c.pathId.getD 0, c.largest, u64 (c.delay <<< exponent), c.ranges.length - 1, body ++ (e ++ rest)) ∧
      AckRanges c.largest body c.ranges ∧ skipEcn c.ecn.isSome (e ++ rest) = some rest := by
  obtain ⟨p, l, d, n, body, e, hbs, h1, h2, h3, h4, h5, h6⟩ := hb
  refine ⟨body, e, ?_, h5, ?_⟩
  · obtain ⟨b0, l0, e0, e1⟩ := varint_length ht (b ++ rest)
    rw [e0, parseAckHeader, e1, hbs]
    simp only [List.append_assoc]
    cases hp : c.pathId with
    | none =>
      rw [hp] at h1
      dsimp only at h1
      subst h1
      simp only [Option.isSome_none, Bool.false_eq_true, if_false, List.nil_append]
      rw [varint_decode h2]
      dsimp only
      rw [varint_decode h3]
      dsimp only
      rw [varint_decode h4]
      rfl
    | some i =>
      rw [hp] at h1
      dsimp only at h1
      simp only [Option.isSome_some, if_true]
      rw [varint_decode h1]
      dsimp only
      rw [varint_decode h2]
      dsimp only
      rw [varint_decode h3]
      dsimp only
      rw [varint_decode h4]
      rfl
  · cases hc : c.ecn with
    | none =>
      rw [hc] at h6
      dsimp only at h6
      subst h6
      rfl
    | some x =>
      obtain ⟨x0, x1, x2⟩ := x
      rw [hc] at h6
      obtain ⟨e0, e1, e2, he, g0, g1, g2⟩ := h6
      subst he
      simp only [List.append_assoc]
      rw [skipEcn, Option.isSome_some, if_pos rfl, varint_decode g0]
      dsimp only
      rw [varint_decode g1]
      dsimp only
      rw [varint_decode g2]

/-- The outcome of a frame that is well formed. -/
theorem decode_of_body {t b rest : Bytes} {ty : Nat} {f : AckContent} (ht : Varint t ty) (hb : IsAckBody b f)
    (c : Ctx) (multipath : Bool) (exponent : Nat) :
    decodeAck c f.ecn.isSome f.pathId.isSome multipath exponent (t ++ (b ++ rest)) =
      if f.pathId.isSome && !multipath then (c, .error .protocolViolation)
      else if f.largest ≥ c.nextSeq then (c, .error .protocolViolation)
      else (endCtx c f.largest (applyRanges (startWork c f.largest) f.ranges).1,
        if (applyRanges (startWork c f.largest) f.ranges).2 then .ok rest else .error .protocolViolation) := by
  obtain ⟨body, e, h1, h2, h3⟩ := parse_of_body (rest := rest) ht hb exponent
  rw [decodeAck_eq h1]
  rw [ackLoop_of_ranges h2]
  dsimp only
  by_cases h : (applyRanges (startWork c f.largest) f.ranges).2 = true
  · rw [if_pos h, if_pos h]
    dsimp only
    rw [h3]
  · rw [if_neg h, if_neg h]

/-- A frame that is accepted is well formed. -/
theorem body_of_decode {c c' : Ctx} {ecn hasPath multipath : Bool} {exponent : Nat} {t bs rest : Bytes} {ty : Nat}
    (ht : Varint t ty) (h : decodeAck c ecn hasPath multipath exponent (t ++ bs) = (c', .ok rest)) :
    ∃ b f, bs = b ++ rest ∧ IsAckBody b f ∧ f.pathId.isSome = hasPath ∧ f.ecn.isSome = ecn := by
  obtain ⟨b0, l0, e0, e1⟩ := varint_length ht bs
  cases hh : parseAckHeader hasPath exponent (t ++ bs) with
  | none => rw [decodeAck, hh] at h; cases h
  | some x =>
    obtain ⟨path, largest, delay, n, r⟩ := x
    rw [decodeAck_eq hh] at h
    by_cases h1 : (hasPath && !multipath) = true
    · rw [if_pos h1] at h; cases h
    rw [if_neg h1] at h
    by_cases h2 : largest ≥ c.nextSeq
    · rw [if_pos h2] at h; cases h
    rw [if_neg h2] at h
    have h3 := congrArg Prod.snd h
    dsimp only at h3
    cases hl : (ackLoop n largest (startWork c largest) r).2 with
    | error e => rw [hl] at h3; cases h3
    | ok r' =>
      rw [hl] at h3
      dsimp only at h3
      have hl' : ackLoop n largest (startWork c largest) r = ((ackLoop n largest (startWork c largest) r).1, .ok r') := by
        rw [← hl]
      obtain ⟨body, rs, hr, hrs, hlen⟩ := ranges_of_ackLoop hl'
      have hecn : ∃ e ecn', r' = e ++ rest ∧ Option.isSome ecn' = ecn ∧
          (match ecn' with
           | none => e = []
           | some (a, b, x) => ∃ e0 e1 e2, e = e0 ++ (e1 ++ e2) ∧ Varint e0 a ∧ Varint e1 b ∧ Varint e2 x) := by
        unfold skipEcn at h3
        cases ecn with
        | false => simp at h3; exact ⟨[], none, by simp [h3], rfl, rfl⟩
        | true =>
          rw [if_pos rfl] at h3
          cases hd0 : framesVarintDecode r' with
          | none => rw [hd0] at h3; cases h3
          | some y0 =>
            obtain ⟨v0, s0⟩ := y0
            rw [hd0] at h3
            dsimp only at h3
            cases hd1 : framesVarintDecode s0 with
            | none => rw [hd1] at h3; cases h3
            | some y1 =>
              obtain ⟨v1, s1⟩ := y1
              rw [hd1] at h3
              dsimp only at h3
              cases hd2 : framesVarintDecode s1 with
              | none => rw [hd2] at h3; cases h3
              | some y2 =>
                obtain ⟨v2, s2⟩ := y2
                rw [hd2] at h3
                simp at h3
                subst h3
                obtain ⟨p0, q0, g0⟩ := varint_of_decode hd0
                obtain ⟨p1, q1, g1⟩ := varint_of_decode hd1
                obtain ⟨p2, q2, g2⟩ := varint_of_decode hd2
                refine ⟨p0 ++ (p1 ++ p2), some (v0, v1, v2), ?_, rfl, p0, p1, p2, rfl, g0, g1, g2⟩
                rw [q0, q1, q2]; simp
      obtain ⟨e, ecn', he, hecn1, hecn2⟩ := hecn
      -- the header
      rw [e0, parseAckHeader, e1] at hh
      have hpath : ∃ p pathId r0, bs = p ++ r0 ∧ Option.isSome pathId = hasPath ∧
          (match pathId with | none => p = [] | some i => Varint p i) ∧
          (if hasPath then framesVarintDecode bs else some (0, bs)) = some (Option.getD pathId 0, r0) := by
        cases hasPath with
        | false => exact ⟨[], none, bs, rfl, rfl, rfl, rfl⟩
        | true =>
          cases hd : framesVarintDecode bs with
          | none => rw [if_pos rfl, hd] at hh; cases hh
          | some y =>
            obtain ⟨i, r0⟩ := y
            obtain ⟨p, q, g⟩ := varint_of_decode hd
            exact ⟨p, some i, r0, q, rfl, g, by rw [if_pos rfl]; rfl⟩
      obtain ⟨p, pathId, r0, hp0, hp1, hp2, hp3⟩ := hpath
      rw [hp3] at hh
      dsimp only at hh
      cases hd0 : framesVarintDecode r0 with
      | none => rw [hd0] at hh; cases hh
      | some y0 =>
        obtain ⟨v0, s0⟩ := y0
        rw [hd0] at hh
        dsimp only at hh
        cases hd1 : framesVarintDecode s0 with
        | none => rw [hd1] at hh; cases hh
        | some y1 =>
          obtain ⟨v1, s1⟩ := y1
          rw [hd1] at hh
          dsimp only at hh
          cases hd2 : framesVarintDecode s1 with
          | none => rw [hd2] at hh; cases hh
          | some y2 =>
            obtain ⟨v2, s2⟩ := y2
            rw [hd2] at hh
            simp only [Option.some.injEq, Prod.mk.injEq] at hh
            obtain ⟨_, k1, _, k3, k4⟩ := hh
            subst k1 k3 k4
            obtain ⟨p0, q0, g0⟩ := varint_of_decode hd0
            obtain ⟨p1, q1, g1⟩ := varint_of_decode hd1
            obtain ⟨p2, q2, g2⟩ := varint_of_decode hd2
            refine ⟨p ++ (p0 ++ (p1 ++ (p2 ++ (body ++ e)))), ⟨pathId, v0, v1, rs, ecn'⟩, ?_,
              ⟨p, p0, p1, p2, body, e, rfl, hp2, g0, g1, ?_, hrs, hecn2⟩, hp1, hecn1⟩
            · rw [hp0, q0, q1, q2, hr, he]; simp
            · dsimp only
              rw [hlen]; exact g2

/-! ### What a frame removes -/

/-- The packets acknowledged by a frame, named by its ranges. -/
theorem frame_progress {f : AckContent} {body : Bytes} (hr : AckRanges f.largest body f.ranges) (c : Ctx) :
    Progress (InRanges f.ranges) (startWork c f.largest) (applyRanges (startWork c f.largest) f.ranges).1 :=
  applyRanges_progress _ _ (fun r h => ((AckRanges.ordered hr).1 r h).1)

theorem older_desc {c : Ctx} {largest : Nat} (hp : c.pending.Pairwise (fun a b => a.seq < b.seq)) :
    Desc (findAcked c largest).1 := by
  have h := findAcked_pend c largest
  have hs : (findAcked c largest).1.reverse.Sublist c.pending := by rw [← h]; exact List.sublist_append_left _ _
  have := hp.sublist hs
  rw [List.pairwise_reverse] at this
  exact this

/-- A frame with a new largest number removes exactly the packets it names, if no skipped number is among
them. -/
theorem frame_new {c : Ctx} {f : AckContent} {body : Bytes} (hr : AckRanges f.largest body f.ranges)
    (hp : c.pending.Pairwise (fun a b => a.seq < b.seq))
    (hnew : f.largest > c.highest ∨ c.highest = UINT64_MAX)
    (ht : ∀ p ∈ c.pending, InRanges f.ranges p.seq → p.trap = false) :
    (applyRanges (startWork c f.largest) f.ranges).2 = true ∧
    pend (applyRanges (startWork c f.largest) f.ranges).1 = c.pending.filter (fun p => !inR f.ranges p) ∧
    (Desc c.lost → lst (applyRanges (startWork c f.largest) f.ranges).1 =
      c.lost.filter (fun p => !inR f.ranges p)) := by
  obtain ⟨o1, o2, _⟩ := AckRanges.ordered hr
  obtain ⟨_, hnewer⟩ := findAcked_new hnew hp
  have hpend := findAcked_pend c f.largest
  have hpe := applyRanges_pend f.ranges (fun r h => (o1 r h).1) o2 (startWork c f.largest) (older_desc hp)
    (fun p hm hin => ht p (by rw [← hpend]; exact List.mem_append_left _ (List.mem_reverse.2 hm)) hin)
  refine ⟨hpe.1, ?_, ?_⟩
  · rw [hpe.2]
    conv => rhs; rw [← hpend]
    rw [List.filter_append, List.filter_reverse]
    congr 1
    symm
    show (findAcked c f.largest).2.1.filter _ = (findAcked c f.largest).2.1
    rw [List.filter_eq_self]
    intro x hx
    have := hnewer x hx
    cases h : inR f.ranges x with
    | false => rfl
    | true =>
      obtain ⟨r, hr', h1, h2⟩ := (inR_iff f.ranges x).1 h
      have := (o1 r hr').2
      omega
  · intro hd
    have := (applyRanges_exact f.ranges (fun r h => (o1 r h).1) o2 (startWork c f.largest) (older_desc hp) hd
      (fun p hm hin => ht p (by rw [← hpend]; exact List.mem_append_left _ (List.mem_reverse.2 hm)) hin)).2.2
    rw [this]
    rfl

/-- A frame with a new largest number that names a skipped number is rejected. -/
theorem frame_trap {c : Ctx} {f : AckContent} {body : Bytes} (hr : AckRanges f.largest body f.ranges)
    (hp : c.pending.Pairwise (fun a b => a.seq < b.seq))
    (hnew : f.largest > c.highest ∨ c.highest = UINT64_MAX)
    (ht : ∃ p ∈ c.pending, InRanges f.ranges p.seq ∧ p.trap = true) :
    (applyRanges (startWork c f.largest) f.ranges).2 = false := by
  obtain ⟨o1, o2, _⟩ := AckRanges.ordered hr
  obtain ⟨_, hnewer⟩ := findAcked_new hnew hp
  have hpend := findAcked_pend c f.largest
  apply applyRanges_trap f.ranges (fun r h => (o1 r h).1) o2 (startWork c f.largest) (older_desc hp)
  obtain ⟨p, h1, h2, h3⟩ := ht
  refine ⟨p, ?_, h2, h3⟩
  rw [← hpend] at h1
  rcases List.mem_append.1 h1 with h | h
  · exact List.mem_reverse.1 h
  · have := hnewer p h
    obtain ⟨r, hr', _, h5⟩ := h2
    have := (o1 r hr').2
    omega

/-- A frame that names no skipped number is accepted, new or not. -/
theorem frame_ok {c : Ctx} {f : AckContent} {body : Bytes} (hr : AckRanges f.largest body f.ranges)
    (hp : c.pending.Pairwise (fun a b => a.seq < b.seq))
    (ht : ∀ p ∈ c.pending, InRanges f.ranges p.seq → p.trap = false) :
    (applyRanges (startWork c f.largest) f.ranges).2 = true := by
  obtain ⟨o1, o2, _⟩ := AckRanges.ordered hr
  have hpend := findAcked_pend c f.largest
  exact (applyRanges_pend f.ranges (fun r h => (o1 r h).1) o2 (startWork c f.largest) (older_desc hp)
    (fun p hm hin => ht p (by rw [← hpend]; exact List.mem_append_left _ (List.mem_reverse.2 hm)) hin)).1

/-! ### The invariant -/

/-- Invariant of a context. -/
structure Inv (c : Ctx) : Prop where
  sorted : c.pending.Pairwise (fun a b => a.seq < b.seq)
  nodup : ((c.pending ++ (c.lost ++ c.acked)).map Pkt.seq).Nodup
  bound : ∀ p ∈ c.pending ++ (c.lost ++ c.acked), p.seq < c.nextSeq
  transit : c.inTransit = total c.pending
  holes : ∀ p ∈ c.pending, p.trap = true → p.size = 0
  noHole : ∀ p ∈ c.lost ++ c.acked, p.trap = false

theorem inv_init (first start : Nat) : Inv (Ctx.init first start) := by
  constructor <;> simp [Ctx.init, total]

/-- Adding the next packet, or a hole. -/
theorem inv_add {c : Ctx} (h : Inv c) (q : Pkt) (hq : q.seq = c.nextSeq) (hz : q.trap = true → q.size = 0) :
    Inv { c with pending := c.pending ++ [q], nextSeq := c.nextSeq + 1, inTransit := c.inTransit + q.size } := by
  obtain ⟨h1, h2, h3, h4, h5, h6⟩ := h
  have hlt : ∀ p ∈ c.pending, p.seq < c.nextSeq := fun p hp => h3 p (List.mem_append_left _ hp)
  refine ⟨?_, ?_, ?_, ?_, ?_, h6⟩
  · dsimp only
    rw [List.pairwise_append]
    refine ⟨h1, by simp, ?_⟩
    intro a ha b hb
    rw [List.mem_singleton] at hb
    subst hb
    rw [hq]
    exact hlt a ha
  · dsimp only
    have hp : ((c.pending ++ [q] ++ (c.lost ++ c.acked)).map Pkt.seq).Perm
        (q.seq :: (c.pending ++ (c.lost ++ c.acked)).map Pkt.seq) := by
      simp only [List.map_append, List.append_assoc, List.map_cons, List.cons_append, List.nil_append]
      exact List.perm_middle
    rw [hp.nodup_iff, List.nodup_cons]
    refine ⟨?_, h2⟩
    intro hm
    obtain ⟨p, hp, he⟩ := List.mem_map.1 hm
    have := h3 p hp
    omega
  · intro p hp
    dsimp only at hp ⊢
    rcases List.mem_append.1 hp with hp | hp
    · rcases List.mem_append.1 hp with hp | hp
      · have := hlt p hp; omega
      · rw [List.mem_singleton] at hp; subst hp; omega
    · have := h3 p (List.mem_append_right _ hp); omega
  · dsimp only
    rw [total_append, h4]; simp [total]
  · intro p hp ht
    dsimp only at hp
    rcases List.mem_append.1 hp with hp | hp
    · exact h5 p hp ht
    · rw [List.mem_singleton] at hp; subst hp; exact hz ht

theorem inv_send {c : Ctx} (h : Inv c) (size now : Nat) : Inv (send c size now) :=
  inv_add h { seq := c.nextSeq, size := size, sendTime := now, trap := false } rfl (fun h => by cases h)

theorem inv_hole {c : Ctx} (h : Inv c) (now : Nat) : Inv (insertHole c now) := by
  unfold insertHole
  cases c.pending.getLast? with
  | none => exact h
  | some q =>
    dsimp only
    split
    · exact h
    · exact inv_add h { seq := c.nextSeq, size := 0, sendTime := now, trap := true } rfl (fun _ => rfl)

theorem perm_eraseIdx {l : List Pkt} {k : Nat} {p : Pkt} (h : l[k]? = some p) : l.Perm (p :: l.eraseIdx k) := by
  induction l generalizing k with
  | nil => simp at h
  | cons q l ih =>
    cases k with
    | zero => simp at h; subst h; simp
    | succ k =>
      simp at h
      rw [List.eraseIdx_cons_succ]
      exact ((ih h).cons q).trans (List.Perm.swap _ _ _)

theorem leaveTransit_inv {t : Nat} {p : Pkt} (h : p.trap = true → p.size = 0) : leaveTransit t p = t - p.size := by
  cases ht : p.trap with
  | false => exact leaveTransit_eq ht
  | true => unfold leaveTransit; rw [ht, if_pos rfl, h ht]; omega

theorem total_perm {a b : List Pkt} (h : a.Perm b) : total a = total b := (h.map Pkt.size).sum_nat

/-- Forgetting packets keeps the invariant. -/
theorem inv_of_sub {c c' : Ctx} (h : Inv c) (hn : c'.nextSeq = c.nextSeq)
    (hs : c'.pending.Sublist c.pending)
    (hperm : ∃ x, (c.pending ++ (c.lost ++ c.acked)).Perm ((c'.pending ++ (c'.lost ++ c'.acked)) ++ x))
    (ht : c'.inTransit = total c'.pending) (hh : ∀ p ∈ c'.lost ++ c'.acked, p.trap = false) : Inv c' := by
  obtain ⟨h1, h2, h3, h4, h5, h6⟩ := h
  obtain ⟨x, hx⟩ := hperm
  refine ⟨h1.sublist hs, ?_, ?_, ht, fun p hp => h5 p (hs.subset hp), hh⟩
  · have := (hx.map Pkt.seq).nodup_iff.1 h2
    rw [List.map_append] at this
    exact (List.nodup_append.1 this).1
  · intro p hp
    rw [hn]
    exact h3 p (hx.mem_iff.2 (List.mem_append_left _ hp))

theorem inv_lose {c : Ctx} (h : Inv c) (k : Nat) (keep : Bool) : Inv (declareLost c k keep) := by
  unfold declareLost
  cases hk : c.pending[k]? with
  | none => exact h
  | some p =>
    dsimp only
    have hperm := perm_eraseIdx hk
    have hmem : p ∈ c.pending := List.mem_of_getElem? hk
    have htot := total_perm hperm
    rw [total_cons] at htot
    have htr : leaveTransit c.inTransit p = total (c.pending.eraseIdx k) := by
      rw [leaveTransit_inv (h.holes p hmem), h.transit]; omega
    refine inv_of_sub h rfl (List.eraseIdx_sublist _ _) ?_ htr ?_
    · dsimp only
      cases hkt : (keep && !p.trap) with
      | true =>
        rw [if_pos rfl]
        refine ⟨[], ?_⟩
        rw [List.append_nil]
        refine (hperm.append_right _).trans ?_
        simp only [List.cons_append]
        exact List.perm_middle.symm
      | false =>
        rw [if_neg (by decide)]
        refine ⟨[p], ?_⟩
        refine (hperm.append_right _).trans ?_
        simp only [List.cons_append]
        exact (List.perm_append_singleton p _).symm
    · dsimp only
      intro q hq
      cases hkt : (keep && !p.trap) with
      | true =>
        rw [hkt, if_pos rfl] at hq
        rcases List.mem_append.1 hq with hq | hq
        · rcases List.mem_cons.1 hq with rfl | hq
          · simp at hkt; exact hkt.2
          · exact h.noHole q (List.mem_append_left _ hq)
        · exact h.noHole q (List.mem_append_right _ hq)
      | false =>
        rw [hkt, if_neg (by decide)] at hq
        exact h.noHole q hq

theorem inv_ack {c : Ctx} (h : Inv c) (ecn hasPath multipath : Bool) (exponent : Nat) (bs : Bytes) :
    Inv (decodeAck c ecn hasPath multipath exponent bs).1 := by
  rcases decodeAck_work c ecn hasPath multipath exponent bs with he | ⟨largest, w, _, hp, he⟩
  · rw [he]; exact h
  · rw [he]
    obtain ⟨s1, s2, rp, rl, new, e1, e2, e3, e4, e5, e6, e7⟩ := hp
    rw [startWork_pend] at s1 e3
    have hl0 : lst (startWork c largest) = c.lost := rfl
    rw [hl0] at s2 e4
    have ha0 : (startWork c largest).acked = c.acked := rfl
    rw [ha0] at e1
    have ht0 : (startWork c largest).inTransit = c.inTransit := rfl
    rw [ht0] at e7
    obtain ⟨old, ho, _⟩ := dequeueOld_spec (newLatest c largest) (lst w)
    unfold endCtx
    refine inv_of_sub h rfl s1 ⟨old, ?_⟩ ?_ ?_
    · dsimp only
      rw [List.perm_iff_count]
      intro x
      have c3 := (List.perm_iff_count.1 e3) x
      have c4 := (List.perm_iff_count.1 e4) x
      have c2 := (List.perm_iff_count.1 e2) x
      have co := congrArg (List.count x) ho
      simp only [List.count_append] at c2 c3 c4 co ⊢
      rw [e1, List.count_append]
      omega
    · dsimp only
      have := total_perm e3
      rw [total_append] at this
      rw [e7, h.transit]; omega
    · intro q hq
      dsimp only at hq
      rcases List.mem_append.1 hq with hq | hq
      · exact h.noHole q (List.mem_append_left _ (s2.subset (by rw [ho]; exact List.mem_append_left _ hq)))
      · rw [e1] at hq
        rcases List.mem_append.1 hq with hq | hq
        · exact h.noHole q (List.mem_append_right _ hq)
        · rcases List.mem_append.1 (e2.mem_iff.1 hq) with hq | hq
          · exact (e5 q hq).2
          · exact h.noHole q (List.mem_append_left _ (e4.mem_iff.2 (List.mem_append_right _ hq)))

theorem inv_run (c : Ctx) (h : Inv c) (ops : List Op) : Inv (run c ops) := by
  induction ops generalizing c with
  | nil => exact h
  | cons op ops ih =>
    apply ih
    cases op with
    | send size now => exact inv_send h size now
    | hole now => exact inv_hole h now
    | lose k keep => exact inv_lose h k keep
    | ack ecn hasPath multipath exponent bs => exact inv_ack h ecn hasPath multipath exponent bs

end Picoquic.Ack
