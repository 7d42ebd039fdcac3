import Verif.Proof.AckRun
import Verif.Proof.AckSelect
import Verif.Props.Sack
import Verif.Proof.StreamLimits
/-!
# Properties C07, C08, C09, C51, C52: ACK frames
-/

namespace Picoquic.Props
open Picoquic Picoquic.Spec Picoquic.Ack

/-! ## C07: the frames sent -/

theorem received_bounds {ops : List Sack.Op} (hv : ValidOps ops)
    (hlt : ∀ n now, Sack.Op.received n now ∈ ops → n < 2 ^ 62) :
    Sack.Sep (Sack.run Sack.SackList.init ops).items ∧
    ∀ i ∈ (Sack.run Sack.SackList.init ops).items, i.stop < 2 ^ 62 := by
  obtain ⟨h1, _, h3, _, _⟩ := run_spec ops hv Sack.SackList.init Sack.sep_nil rfl
  refine ⟨h1, fun i hi => ?_⟩
  rcases h3 i.stop ⟨i, hi, h1.2 i hi, Nat.le_refl _⟩ with h | ⟨now, h⟩
  · exact absurd h (Sack.cov_nil _)
  · exact hlt _ now h

theorem lastStop_eq {s : Sack.SackList} {last : Sack.Item} (hl : s.items.getLast? = some last) :
    Sack.sackListLast s = last.stop := by
  unfold Sack.sackListLast
  generalize s.items = is at hl
  induction is with
  | nil => cases hl
  | cons i is ih =>
    cases is with
    | nil => simp at hl; subst hl; rfl
    | cons j is => rw [List.getLast?_cons_cons] at hl; exact ih hl

/-- What a frame with the last range and some others says about the packets received. -/
theorem content_received {ops : List Sack.Op} (hv : ValidOps ops) (a : Args) (ecn : Bool) {last : Sack.Item}
    {sub : List (Nat × Nat)} (hl : (Sack.run Sack.SackList.init ops).items.getLast? = some last)
    (hs : sub.Sublist (rangesOf (Sack.run Sack.SackList.init ops).items).dropLast.reverse) :
    (∀ n, InRanges (contentOf a ecn last sub).ranges n → ∃ now, Sack.Op.received n now ∈ ops) ∧
    (∃ now, Sack.Op.received (contentOf a ecn last sub).largest now ∈ ops) ∧
    (∀ n now, Sack.Op.received n now ∈ ops → n ≤ (contentOf a ecn last sub).largest) := by
  obtain ⟨h1, h2, h3, _, h5⟩ := run_spec ops hv Sack.SackList.init Sack.sep_nil rfl
  have hcov : ∀ n, Sack.Cov (Sack.run Sack.SackList.init ops).items n → ∃ now, Sack.Op.received n now ∈ ops := by
    intro n h
    rcases h3 n h with h | h
    · exact absurd h (Sack.cov_nil _)
    · exact h
  have hmem : last ∈ (Sack.run Sack.SackList.init ops).items := List.mem_of_getLast? hl
  refine ⟨?_, hcov _ ⟨last, hmem, h1.2 last hmem, Nat.le_refl _⟩, ?_⟩
  · rintro n ⟨r, hr, hn1, hn2⟩
    apply hcov
    rw [contentOf] at hr
    rcases List.mem_cons.1 hr with rfl | hr
    · exact ⟨last, hmem, hn1, hn2⟩
    · have hr := List.dropLast_subset _ (List.mem_reverse.1 (hs.subset hr))
      unfold rangesOf at hr
      obtain ⟨i, hi, rfl⟩ := List.mem_map.1 hr
      exact ⟨i, hi, hn1, hn2⟩
  · intro n now h
    obtain ⟨m, hm1, hm2⟩ := h5 n (.inr ⟨now, h⟩)
    have := Sack.cov_le_last _ h1 m hm2
    have e : Sack.sackListLast (Sack.run Sack.SackList.init ops) = last.stop := lastStop_eq hl
    show n ≤ last.stop
    omega

/-- **C07 (partial).** After any history of received packets, ACK frames sent and acknowledgements of ACK
frames, whatever the room: the bytes written fit; nothing is written, or a well-formed ACK frame that
names only packet numbers received, among them the largest received.
Missing for the full property: frames of the multipath extension with ECN counts, for which see
`C07_multipath_ecn_violated`. -/
theorem C07_ack_frame_partial (ops : List Sack.Op) (hv : ValidOps ops)
    (hlt : ∀ n now, Sack.Op.received n now ∈ ops → n < 2 ^ 62) (a : Args) (ha : ArgsOk a)
    (hne : a.ecn = false ∨ a.pathId = none) (room : Nat) :
    (formatAck (Sack.run Sack.SackList.init ops) a room).1.length ≤ room ∧
    ((formatAck (Sack.run Sack.SackList.init ops) a room).1 = [] ∨
      ∃ f : AckContent, IsAckFrame (formatAck (Sack.run Sack.SackList.init ops) a room).1 f ∧
        f.pathId = a.pathId ∧ f.delay = a.delay ∧ (f.ecn = none ∨ a.ecn = true ∧ f.ecn = some (a.ect0, a.ect1, a.ce)) ∧
        f.ranges.length ≤ 33 ∧
        (∀ n, InRanges f.ranges n → ∃ now, Sack.Op.received n now ∈ ops) ∧
        (∃ now, Sack.Op.received f.largest now ∈ ops) ∧
        (∀ n now, Sack.Op.received n now ∈ ops → n ≤ f.largest)) := by
  obtain ⟨hsep, hmax⟩ := received_bounds hv hlt
  obtain ⟨h1, _, h3⟩ := formatAck_spec (Sack.run Sack.SackList.init ops) a room hsep hmax ha
  refine ⟨h1, ?_⟩
  rcases h3 with h3 | ⟨last, sub, hl, hsub, hlen, _, h4⟩
  · exact .inl h3
  · right
    have key : ∀ ecn, (ecn = true → a.ecn = true) → IsAckFrame (formatAck (Sack.run Sack.SackList.init ops) a room).1
        (contentOf a ecn last sub) →
        ∃ f : AckContent, IsAckFrame (formatAck (Sack.run Sack.SackList.init ops) a room).1 f ∧
          f.pathId = a.pathId ∧ f.delay = a.delay ∧
          (f.ecn = none ∨ a.ecn = true ∧ f.ecn = some (a.ect0, a.ect1, a.ce)) ∧ f.ranges.length ≤ 33 ∧
          (∀ n, InRanges f.ranges n → ∃ now, Sack.Op.received n now ∈ ops) ∧
          (∃ now, Sack.Op.received f.largest now ∈ ops) ∧
          (∀ n now, Sack.Op.received n now ∈ ops → n ≤ f.largest) := by
      intro ecn he hf
      refine ⟨contentOf a ecn last sub, hf, rfl, rfl, ?_, by rw [contentOf]; simp; omega,
        content_received hv a ecn hl hsub⟩
      cases ecn with
      | false => exact .inl rfl
      | true => exact .inr ⟨he rfl, rfl⟩
    rcases h4 with ⟨_, h⟩ | ⟨he, h⟩ | ⟨he, _, h⟩ | ⟨he, hp, _⟩
    · exact key false (fun h => by cases h) h
    · exact key true (fun _ => he) h
    · exact key false (fun h => by cases h) h
    · rcases hne with h | h
      · rw [h] at he; cases he
      · exact absurd h hp

/-- Non-vacuity of C07: three ranges received; the frame names them all. With 8 bytes of room, only two. -/
example :
    ValidOps [.received 1 0, .received 2 0, .received 5 0, .received 9 0] ∧
    (formatAck (Sack.run Sack.SackList.init [.received 1 0, .received 2 0, .received 5 0, .received 9 0])
      { pathId := none, ecn := false, ect0 := 0, ect1 := 0, ce := 0, delay := 3, needed := true, opp := false } 100).1 =
      [2, 9, 3, 2, 0, 2, 0, 1, 1] ∧
    (formatAck (Sack.run Sack.SackList.init [.received 1 0, .received 2 0, .received 5 0, .received 9 0])
      { pathId := none, ecn := false, ect0 := 0, ect1 := 0, ce := 0, delay := 3, needed := true, opp := false } 8).1 =
      [2, 9, 3, 1, 0, 2, 0] := by
  refine ⟨?_, by decide +kernel, by decide +kernel⟩
  intro a b h; simp at h

/-- **C07 (violated).** With the multipath extension, when the ECN counts do not fit, the type is
rewritten wrongly: the first byte of the four-byte type becomes 2, the type of a plain ACK frame. Here
only packet 10 was received, on path 1. The bytes sent are a complete ACK frame for packet 34, which was
never received, followed by other frames. -/
theorem C07_multipath_ecn_violated :
    ∃ (ops : List Sack.Op) (a : Args) (room : Nat) (frame rest : Bytes) (f : AckContent) (n : Nat),
      ValidOps ops ∧ (∀ n now, Sack.Op.received n now ∈ ops → n < 2 ^ 62) ∧ ArgsOk a ∧
      (formatAck (Sack.run Sack.SackList.init ops) a room).1 = frame ++ rest ∧ IsAckFrame frame f ∧
      InRanges f.ranges n ∧ ¬ ∃ now, Sack.Op.received n now ∈ ops := by
  refine ⟨[.received 10 0],
    { pathId := some 1, ecn := true, ect0 := 1, ect1 := 0, ce := 0, delay := 0, needed := true, opp := false }, 10,
    [0x02, 0x22, 0x8c, 0x01, 0x01, 0x0a, 0x00, 0x00], [0],
    { pathId := none, largest := 34, delay := 0x0c01010a, ranges := [(34, 34)], ecn := none }, 34, ?_, ?_, ?_, ?_, ?_, ?_, ?_⟩
  · intro a b h; simp at h
  · intro n now h; simp at h; omega
  · constructor <;> simp
  · decide +kernel
  · exact ⟨[2], _, rfl, ⟨0, by decide⟩, [], [0x22], [0x8c, 0x01, 0x01, 0x0a], [0], [0], [], rfl, rfl,
      ⟨0, by decide⟩, ⟨2, by decide⟩, ⟨0, by decide⟩, AckRanges.last (len := 0) ⟨0, by decide⟩ (by decide), rfl⟩
  · exact ⟨(34, 34), by simp, by decide, by decide⟩
  · rintro ⟨now, h⟩; simp at h

/-! ## C08: the checks on the frames received -/

/-- The numbers given to packets in a history that starts with number `first`: what `picoquic` sent. -/
def Sent (first start : Nat) (ops : List Op) (p : Pkt) : Prop :=
  ∃ pre post size now, ops = pre ++ Op.send size now :: post ∧
    p = { seq := (run (Ctx.init first start) pre).nextSeq, size := size, sendTime := now, trap := false }

/-- A number that was skipped on purpose is in the queue of packets in flight, as a hole. -/
def Skipped (c : Ctx) (n : Nat) : Prop := ∃ p ∈ c.pending, p.seq = n ∧ p.trap = true

/-- **C08 (partial).** For every history and every frame received, whatever its bytes: the frame is
accepted only if it is a well-formed ACK frame (so every range is above zero), of the announced form, and
its largest number was given to a packet already. Conversely such a frame is accepted, unless a skipped
number is in its ranges; if the largest number is new and a skipped number is in its ranges, the
connection is closed.
Missing for the full property: skipped numbers in frames whose largest number is not new, and numbers
below the first one, see `C08_unsent_violated`. -/
theorem C08_ack_checks_partial (first start : Nat) (ops : List Op) (ecn hasPath multipath : Bool) (exponent : Nat)
    (t : Bytes) (ty : Nat) (ht : Varint t ty) (bs : Bytes) :
    let c := run (Ctx.init first start) ops
    (∀ rest, (decodeAck c ecn hasPath multipath exponent (t ++ bs)).2 = .ok rest →
      ∃ b f, bs = b ++ rest ∧ IsAckBody b f ∧ f.pathId.isSome = hasPath ∧ f.ecn.isSome = ecn ∧
        (hasPath = true → multipath = true) ∧ ∀ n, InRanges f.ranges n → n ≤ f.largest ∧ f.largest < c.nextSeq) ∧
    (∀ b rest f, bs = b ++ rest → IsAckBody b f → f.pathId.isSome = hasPath → f.ecn.isSome = ecn →
      (c.nextSeq ≤ f.largest →
        decodeAck c ecn hasPath multipath exponent (t ++ bs) = (c, .error .protocolViolation)) ∧
      ((hasPath = true → multipath = true) → f.largest < c.nextSeq →
        (∀ n, InRanges f.ranges n → ¬ Skipped c n) →
        (decodeAck c ecn hasPath multipath exponent (t ++ bs)).2 = .ok rest) ∧
      ((f.largest > c.highest ∨ c.highest = UINT64_MAX) → (∃ n, InRanges f.ranges n ∧ Skipped c n) →
        (decodeAck c ecn hasPath multipath exponent (t ++ bs)).2 = .error .protocolViolation)) := by
  dsimp only
  have hinv := inv_run (Ctx.init first start) (inv_init first start) ops
  generalize run (Ctx.init first start) ops = c at hinv ⊢
  constructor
  · intro rest h
    have hd : decodeAck c ecn hasPath multipath exponent (t ++ bs) =
        ((decodeAck c ecn hasPath multipath exponent (t ++ bs)).1, .ok rest) := by rw [← h]
    obtain ⟨b, f, h1, h2, h3, h4⟩ := body_of_decode ht hd
    refine ⟨b, f, h1, h2, h3, h4, ?_⟩
    subst h1 h3 h4
    rw [decode_of_body ht h2] at h
    by_cases g1 : (f.pathId.isSome && !multipath) = true
    · rw [if_pos g1] at h; cases h
    rw [if_neg g1] at h
    by_cases g2 : f.largest ≥ c.nextSeq
    · rw [if_pos g2] at h; cases h
    refine ⟨?_, ?_⟩
    · intro hp
      rw [hp] at g1
      cases multipath with
      | true => rfl
      | false => exact absurd rfl g1
    · obtain ⟨_, _, _, _, body, _, _, _, _, _, _, hr, _⟩ := h2
      rintro n ⟨r, hr', _, h6⟩
      have := ((AckRanges.ordered hr).1 r hr').2
      omega
  · intro b rest f h1 h2 h3 h4
    subst h1 h3 h4
    rw [decode_of_body ht h2]
    obtain ⟨_, _, _, _, body, _, _, _, _, _, _, hr, _⟩ := h2
    refine ⟨?_, ?_, ?_⟩
    · intro hle
      split <;> rfl
    · intro hp hlt hno
      rw [if_neg (by
        cases hi : f.pathId.isSome with
        | false => simp
        | true => simp [hp hi]), if_neg (by omega)]
      dsimp only
      rw [frame_ok hr hinv.sorted (fun p hm hin => by
        cases htr : p.trap with
        | false => rfl
        | true => exact absurd ⟨p, hm, rfl, htr⟩ (hno p.seq hin)), if_pos rfl]
    · rintro hnew ⟨n, hin, p, hp, rfl, htr⟩
      split
      · rfl
      · split
        · rfl
        · dsimp only
          rw [frame_trap hr hinv.sorted hnew ⟨p, hp, hin, htr⟩, if_neg Bool.false_ne_true]

/-- Non-vacuity of C08: an accepted frame, one for the future, one that goes below zero, one for a skipped
number. -/
example :
    let c := run (Ctx.init 0 0) [.send 100 1, .hole 2, .send 100 3]
    c.nextSeq = 3 ∧ Skipped c 1 ∧
    (decodeAck c false false false 3 [2, 2, 0, 1, 0, 0, 0, 7]).2 = .ok [7] ∧
    (decodeAck c false false false 3 [2, 3, 0, 0, 0]).2 = .error .protocolViolation ∧
    (decodeAck c false false false 3 [2, 2, 0, 0, 3]).2 = .error .frameFormat ∧
    (decodeAck c false false false 3 [2, 2, 0, 0, 2]).2 = .error .protocolViolation := by
  refine ⟨by decide +kernel, ⟨⟨1, 0, 2, true⟩, by decide +kernel, rfl, rfl⟩, by decide +kernel, by decide +kernel,
    by decide +kernel, by decide +kernel⟩

/-- **C08 (violated).** A frame that acknowledges a number never sent is not always rejected: a skipped
number goes unnoticed when the largest number was acknowledged before; so does a number below the first
one, when the first is chosen at random. -/
theorem C08_unsent_violated :
    (∃ (ops : List Op) (bs : Bytes) (f : AckContent) (n : Nat), IsAckFrame bs f ∧ InRanges f.ranges n ∧
      (¬ ∃ p, Sent 0 0 ops p ∧ p.seq = n) ∧ Skipped (run (Ctx.init 0 0) ops) n ∧
      (decodeAck (run (Ctx.init 0 0) ops) false false false 3 bs).2 = .ok []) ∧
    (∃ (first : Nat) (ops : List Op) (bs : Bytes) (f : AckContent) (n : Nat), IsAckFrame bs f ∧ InRanges f.ranges n ∧
      n < first ∧ (decodeAck (run (Ctx.init first 0) ops) false false false 3 bs).2 = .ok []) := by
  constructor
  · refine ⟨[.send 100 1, .hole 2, .send 100 3, .ack false false false 3 [2, 2, 0, 0, 0]], [2, 2, 0, 0, 1],
      { pathId := none, largest := 2, delay := 0, ranges := [(1, 2)], ecn := none }, 1, ?_, ?_, ?_, ?_, ?_⟩
    · exact ⟨[2], _, rfl, ⟨0, by decide⟩, [], [2], [0], [0], [1], [], rfl, rfl,
        ⟨0, by decide⟩, ⟨0, by decide⟩, ⟨0, by decide⟩, AckRanges.last (len := 1) ⟨0, by decide⟩ (by decide), rfl⟩
    · exact ⟨(1, 2), by simp, by decide, by decide⟩
    · rintro ⟨p, ⟨pre, post, size, now, he, hp⟩, h1⟩
      rw [hp] at h1
      dsimp only at h1
      cases pre with
      | nil => revert h1; decide +kernel
      | cons x pre =>
        injection he with h0 he
        subst h0
        cases pre with
        | nil => injection he with h0 _; cases h0
        | cons x pre =>
          injection he with h0 he
          subst h0
          cases pre with
          | nil => revert h1; decide +kernel
          | cons x pre =>
            injection he with h0 he
            subst h0
            cases pre with
            | nil => injection he with h0 _; cases h0
            | cons x pre =>
              injection he with h0 he
              cases pre <;> cases he
    · exact ⟨⟨1, 0, 2, true⟩, by decide +kernel, rfl, rfl⟩
    · decide +kernel
  · refine ⟨1000, [.send 100 1], [2, 10, 0, 0, 0],
      { pathId := none, largest := 10, delay := 0, ranges := [(10, 10)], ecn := none }, 10, ?_, ?_, by decide, ?_⟩
    · exact ⟨[2], _, rfl, ⟨0, by decide⟩, [], [10], [0], [0], [0], [], rfl, rfl,
        ⟨0, by decide⟩, ⟨0, by decide⟩, ⟨0, by decide⟩, AckRanges.last (len := 0) ⟨0, by decide⟩ (by decide), rfl⟩
    · exact ⟨(10, 10), by simp, by decide, by decide⟩
    · decide +kernel

/-! ## C09, C51: the packets acknowledged and in flight -/

/-- Every packet known in a history was sent in it. -/
theorem known_sent (first start : Nat) (ops : List Op) :
    ∀ p, (p ∈ (run (Ctx.init first start) ops).pending ∧ p.trap = false) ∨
      p ∈ (run (Ctx.init first start) ops).lost ++ (run (Ctx.init first start) ops).acked → Sent first start ops p := by
  induction ops using StreamInput.snoc_induction with
  | h0 => intro p h; simp [run, Ctx.init] at h
  | h1 ops op ih =>
    have hrun : run (Ctx.init first start) (ops ++ [op]) = step (run (Ctx.init first start) ops) op := by
      unfold run; rw [List.foldl_append]; rfl
    have mono : ∀ p, Sent first start ops p → Sent first start (ops ++ [op]) p := by
      rintro p ⟨pre, post, size, now, h1, h2⟩
      exact ⟨pre, post ++ [op], size, now, by rw [h1]; simp, h2⟩
    have hinv := inv_run (Ctx.init first start) (inv_init first start) ops
    rw [hrun]
    cases op with
    | send size now =>
      intro p h
      simp only [step, send] at h
      rcases h with ⟨h, ht⟩ | h
      · rcases List.mem_append.1 h with h | h
        · exact mono p (ih p (.inl ⟨h, ht⟩))
        · rw [List.mem_singleton] at h
          exact ⟨ops, [], size, now, rfl, h⟩
      · exact mono p (ih p (.inr h))
    | hole now =>
      intro p h
      apply mono
      apply ih
      simp only [step] at h
      unfold insertHole at h
      split at h
      · exact h
      · split at h
        · exact h
        · dsimp only at h
          rcases h with ⟨h, ht⟩ | h
          · rcases List.mem_append.1 h with h | h
            · exact .inl ⟨h, ht⟩
            · rw [List.mem_singleton] at h; subst h; cases ht
          · exact .inr h
    | lose k keep =>
      intro p h
      apply mono
      apply ih
      simp only [step] at h
      unfold declareLost at h
      split at h
      · exact h
      · rename_i q hq
        dsimp only at h
        rcases h with ⟨h, ht⟩ | h
        · exact .inl ⟨List.mem_of_mem_eraseIdx h, ht⟩
        · split at h
          · rename_i hk
            rcases List.mem_append.1 h with h | h
            · rcases List.mem_cons.1 h with h | h
              · subst h
                simp at hk
                exact .inl ⟨List.mem_of_getElem? hq, hk.2⟩
              · exact .inr (List.mem_append_left _ h)
            · exact .inr (List.mem_append_right _ h)
          · exact .inr h
    | ack ecn hasPath multipath exponent bs =>
      intro p h
      apply mono
      apply ih
      simp only [step] at h
      generalize run (Ctx.init first start) ops = c at h hinv ⊢
      rcases decodeAck_work c ecn hasPath multipath exponent bs with he | ⟨largest, w, _, hp, he⟩
      · rw [he] at h; exact h
      · rw [he] at h
        obtain ⟨s1, s2, rp, rl, new, e1, e2, e3, e4, e5, e6, e7⟩ := hp
        rw [startWork_pend] at s1 e3
        have hl0 : lst (startWork c largest) = c.lost := rfl
        rw [hl0] at s2 e4
        have ha0 : (startWork c largest).acked = c.acked := rfl
        rw [ha0] at e1
        obtain ⟨old, ho, _⟩ := dequeueOld_spec (newLatest c largest) (lst w)
        unfold endCtx at h
        dsimp only at h
        rcases h with ⟨h, ht⟩ | h
        · exact .inl ⟨s1.subset h, ht⟩
        · rcases List.mem_append.1 h with h | h
          · exact .inr (List.mem_append_left _ (s2.subset (by rw [ho]; exact List.mem_append_left _ h)))
          · rw [e1] at h
            rcases List.mem_append.1 h with h | h
            · exact .inr (List.mem_append_right _ h)
            · rcases List.mem_append.1 (e2.mem_iff.1 h) with h | h
              · exact .inl ⟨e3.mem_iff.2 (List.mem_append_right _ h), (e5 p h).2⟩
              · exact .inr (List.mem_append_left _ (e4.mem_iff.2 (List.mem_append_right _ h)))

/-- **C51.** In every history of packets sent, numbers skipped, packets declared lost and ACK frames
received (well formed or not): the bytes in transit are the sizes of the packets in flight, in total;
every packet acknowledged was sent, and is acknowledged at most once; no packet is at the same time in
flight, lost or acknowledged. -/
theorem C51_bytes_in_transit (first start : Nat) (ops : List Op) :
    let c := run (Ctx.init first start) ops
    c.inTransit = (c.pending.map Pkt.size).sum ∧
    ((c.pending ++ (c.lost ++ c.acked)).map Pkt.seq).Nodup ∧
    (∀ p ∈ c.acked, Sent first start ops p) ∧
    (∀ p ∈ c.pending, Sent first start ops p ∨ Skipped c p.seq ∧ p.size = 0) := by
  dsimp only
  have hinv := inv_run (Ctx.init first start) (inv_init first start) ops
  have hk := known_sent first start ops
  refine ⟨hinv.transit, hinv.nodup, fun p hp => hk p (.inr (List.mem_append_right _ hp)), fun p hp => ?_⟩
  cases ht : p.trap with
  | false => exact .inl (hk p (.inl ⟨hp, ht⟩))
  | true => exact .inr ⟨⟨p, hp, rfl, ht⟩, hinv.holes p hp ht⟩

/-- Non-vacuity of C51. -/
example :
    let c := run (Ctx.init 0 0) [.send 100 1, .send 200 2, .hole 3, .send 400 4, .lose 0 true,
      .ack false false false 3 [2, 1, 0, 0, 1]]
    c.inTransit = 400 ∧ c.acked.map Pkt.seq = [1, 0] ∧ c.pending.map Pkt.seq = [2, 3] := by
  decide +kernel

/-- **C09 (partial).** In every history, for every ACK frame that is accepted, whatever its form: the
packets it acknowledges are packets in flight or lost, which its ranges name; all others stay. If its
largest number is new, all the packets in flight that it names leave, and the others stay, in order; also
the lost packets it names, if the lost ones are in order; of the others, only some sent long ago (more
than one second before the latest packet acknowledged) are forgotten.
Missing for the full property: frames whose largest number is not new, see
`C09_late_range_violated`. -/
theorem C09_ack_removes_partial (first start : Nat) (ops : List Op) (multipath : Bool) (exponent : Nat)
    (bs rest : Bytes) (f : AckContent) (hf : IsAckFrame bs f)
    (hok : (decodeAck (run (Ctx.init first start) ops) f.ecn.isSome f.pathId.isSome multipath exponent
      (bs ++ rest)).2 = .ok rest) :
    let c := run (Ctx.init first start) ops
    let c' := (decodeAck c f.ecn.isSome f.pathId.isSome multipath exponent (bs ++ rest)).1
    (∃ new : List Pkt, c'.acked = c.acked ++ new ∧
      (∀ p ∈ new, InRanges f.ranges p.seq ∧ p ∈ c.pending ++ c.lost) ∧
      (∀ p ∈ c.pending, p ∈ c'.pending ∨ p ∈ new)) ∧
    c'.pending.Sublist c.pending ∧ c'.lost.Sublist c.lost ∧
    ((f.largest > c.highest ∨ c.highest = UINT64_MAX) →
      (∀ p, p ∈ c'.pending ↔ p ∈ c.pending ∧ ¬ InRanges f.ranges p.seq) ∧
      (c.lost.Pairwise (fun a b => b.seq < a.seq) →
        ∀ p, p ∈ c.lost → (p ∈ c'.lost → ¬ InRanges f.ranges p.seq) ∧
          (p ∉ c'.lost → InRanges f.ranges p.seq ∨ p.sendTime + 1000000 < c'.latest))) := by
  dsimp only
  have hinv := inv_run (Ctx.init first start) (inv_init first start) ops
  generalize run (Ctx.init first start) ops = c at hinv hok ⊢
  obtain ⟨t, b, rfl, ht, hb⟩ := hf
  rw [List.append_assoc] at hok ⊢
  rw [decode_of_body ht hb] at hok ⊢
  by_cases g1 : (f.pathId.isSome && !multipath) = true
  · rw [if_pos g1] at hok; cases hok
  rw [if_neg g1] at hok ⊢
  by_cases g2 : f.largest ≥ c.nextSeq
  · rw [if_pos g2] at hok; cases hok
  rw [if_neg g2] at hok ⊢
  dsimp only at hok ⊢
  obtain ⟨_, _, _, _, body, _, _, _, _, _, _, hr, _⟩ := hb
  obtain ⟨s1, s2, rp, rl, new, e1, e2, e3, e4, e5, e6, e7⟩ := frame_progress hr c
  rw [startWork_pend] at s1 e3
  have hl0 : lst (startWork c f.largest) = c.lost := rfl
  rw [hl0] at s2 e4
  have ha0 : (startWork c f.largest).acked = c.acked := rfl
  rw [ha0] at e1
  obtain ⟨old, ho, ho'⟩ := dequeueOld_spec (newLatest c f.largest) (lst (applyRanges (startWork c f.largest) f.ranges).1)
  refine ⟨⟨new, e1, ?_, ?_⟩, s1, ?_, ?_⟩
  · intro p hp
    rcases List.mem_append.1 (e2.mem_iff.1 hp) with h | h
    · exact ⟨(e5 p h).1, List.mem_append_left _ (e3.mem_iff.2 (List.mem_append_right _ h))⟩
    · exact ⟨e6 p h, List.mem_append_right _ (e4.mem_iff.2 (List.mem_append_right _ h))⟩
  · intro p hp
    rcases List.mem_append.1 (e3.mem_iff.1 hp) with h | h
    · exact .inl h
    · exact .inr (e2.mem_iff.2 (List.mem_append_left _ h))
  · refine List.Sublist.trans ?_ s2
    unfold endCtx
    dsimp only
    conv => rhs; rw [ho]
    exact List.sublist_append_left _ _
  · intro hnew
    have hno : ∀ p ∈ c.pending, InRanges f.ranges p.seq → p.trap = false := by
      intro p hp hin
      cases htr : p.trap with
      | false => rfl
      | true =>
        rw [frame_trap hr hinv.sorted hnew ⟨p, hp, hin, htr⟩, if_neg Bool.false_ne_true] at hok
        cases hok
    obtain ⟨_, n2, n3⟩ := frame_new hr hinv.sorted hnew hno
    have hin : ∀ p : Pkt, (!inR f.ranges p) = true ↔ ¬ InRanges f.ranges p.seq := by
      intro p
      rw [← inR_iff]; simp
    refine ⟨?_, ?_⟩
    · intro p
      unfold endCtx
      dsimp only
      rw [n2, List.mem_filter, hin]
    · intro hd p hp
      unfold endCtx
      dsimp only
      have n3 := n3 hd
      refine ⟨?_, ?_⟩
      · intro hp'
        have : p ∈ lst (applyRanges (startWork c f.largest) f.ranges).1 := by
          rw [ho]; exact List.mem_append_left _ hp'
        rw [n3, List.mem_filter, hin] at this
        exact this.2
      · intro hp'
        by_cases hr' : InRanges f.ranges p.seq
        · exact .inl hr'
        · right
          have : p ∈ lst (applyRanges (startWork c f.largest) f.ranges).1 := by
            rw [n3, List.mem_filter, hin]; exact ⟨hp, hr'⟩
          rw [ho] at this
          rcases List.mem_append.1 this with h | h
          · exact absurd h hp'
          · exact ho' p h

/-- Non-vacuity of C09: of five packets, two are acknowledged and one lost packet is. -/
example :
    let c := run (Ctx.init 0 0) [.send 100 1, .send 200 2, .send 300 3, .send 400 4, .send 500 5, .lose 1 true]
    let c' := (decodeAck c false false false 3 [2, 4, 0, 1, 0, 0, 1]).1
    c.highest = UINT64_MAX ∧ c.lost.map Pkt.seq = [1] ∧ c'.acked.map Pkt.seq = [4, 2, 1] ∧
    c'.pending.map Pkt.seq = [0, 3] ∧ c'.inTransit = 500 := by
  decide +kernel

/-- **C09 (violated).** Packets 0 to 4 are sent. An ACK frame acknowledges packet 4; then an ACK frame
acknowledges 4 and 2, because packet 2 arrived late. It is accepted, but packet 2 stays in flight. -/
theorem C09_late_range_violated :
    ∃ (ops : List Op) (bs : Bytes) (f : AckContent) (p : Pkt), IsAckFrame bs f ∧ InRanges f.ranges p.seq ∧
      p ∈ (run (Ctx.init 0 0) ops).pending ∧
      (decodeAck (run (Ctx.init 0 0) ops) false false false 3 bs).2 = .ok [] ∧
      p ∈ (decodeAck (run (Ctx.init 0 0) ops) false false false 3 bs).1.pending := by
  refine ⟨[.send 100 1, .send 200 2, .send 300 3, .send 400 4, .send 500 5, .ack false false false 3 [2, 4, 0, 0, 0]],
    [2, 4, 0, 1, 0, 0, 0], { pathId := none, largest := 4, delay := 0, ranges := [(4, 4), (2, 2)], ecn := none },
    ⟨2, 300, 3, false⟩, ?_, ?_, ?_, ?_, ?_⟩
  · exact ⟨[2], _, rfl, ⟨0, by decide⟩, [], [4], [0], [1], [0, 0, 0], [], rfl, rfl,
      ⟨0, by decide⟩, ⟨0, by decide⟩, ⟨0, by decide⟩,
      AckRanges.more (l := [0]) (g := [0]) (len := 0) (gap := 0) (next := 2) ⟨0, by decide⟩ (by decide) ⟨0, by decide⟩
        (by decide) (AckRanges.last (len := 0) ⟨0, by decide⟩ (by decide)), rfl⟩
  · exact ⟨(2, 2), by simp, by decide, by decide⟩
  · decide +kernel
  · decide +kernel
  · decide +kernel

/-! ## C52: which ranges are sent -/

theorem run_counts (ops : List Sack.Op) : Sack.CountsOk (Sack.run Sack.SackList.init ops) := by
  have key : ∀ (ops : List Sack.Op) (s : Sack.SackList), Sack.CountsOk s → Sack.CountsOk (Sack.run s ops) := by
    intro ops
    induction ops with
    | nil => intro s h; exact h
    | cons op ops ih =>
      intro s h
      apply ih
      cases op with
      | received pn now => exact Sack.update_counts s pn pn now h
      | ackOfAck a b => exact Sack.ackOfAck_counts s a b h
      | sent k opp => exact Sack.recordSent_counts s k opp h
  exact key ops _ (by intro i _; simp [Sack.SackList.init])

/-- **C52 (partial).** After any history of receptions and of ACK frames sent, if a frame is written and
nothing was left out for lack of room: besides the top range it has 32 ranges, or every range that was
reported at most four times. All its ranges were reported at most four times before. If at least 32 of
the other ranges were reported fewer than four times, the frame has 32 of them, and none is left out
while one reported more often is sent.
Missing for the full property: the last clause when there are fewer than 32 such ranges, see
`C52_range_selection_violated`. -/
theorem C52_range_selection_partial (ops : List Sack.Op) (hv : ValidOps ops)
    (hlt : ∀ n now, Sack.Op.received n now ∈ ops → n < 2 ^ 62) (a : Args) (ha : ArgsOk a)
    (hne : a.ecn = false ∨ a.pathId = none) (room : Nat) :
    let s := Sack.run Sack.SackList.init ops
    let others := s.items.dropLast
    (formatAck s a room).1 = [] ∨ (formatAck s a room).2.2 = true ∨
    ∃ f : AckContent, IsAckFrame (formatAck s a room).1 f ∧
      (∀ r ∈ f.ranges, r.2 = f.largest ∨ ∃ i ∈ others, r = (i.start, i.stop) ∧ timesSent i a.opp ≤ 4) ∧
      (f.ranges.length = 33 ∨
        ∀ i ∈ others, timesSent i a.opp ≤ 4 → (i.start, i.stop) ∈ f.ranges) ∧
      (32 ≤ others.countP (fun i => decide (timesSent i a.opp < 4)) → f.ranges.length = 33 ∧
        ∀ i ∈ others, ∀ j ∈ others, (i.start, i.stop) ∈ f.ranges → (j.start, j.stop) ∉ f.ranges →
          timesSent i a.opp ≤ timesSent j a.opp) := by
  dsimp only
  obtain ⟨hsep, hmax⟩ := received_bounds hv hlt
  have hc := run_counts ops
  generalize Sack.run Sack.SackList.init ops = s at hsep hmax hc ⊢
  obtain ⟨_, _, h3⟩ := formatAck_spec s a room hsep hmax ha
  rcases h3 with h3 | ⟨last, sub, hl, hsub, hlen, hpick, h4⟩
  · exact .inl h3
  right
  cases hm : (formatAck s a room).2.2 with
  | true => exact .inl rfl
  | false =>
    right
    have hsubeq := hpick hm
    have hframe : ∃ ecn, IsAckFrame (formatAck s a room).1 (contentOf a ecn last sub) := by
      rcases h4 with ⟨_, h⟩ | ⟨he, h⟩ | ⟨he, _, h⟩ | ⟨he, hp, _⟩
      · exact ⟨_, h⟩
      · exact ⟨_, h⟩
      · exact ⟨_, h⟩
      · rcases hne with h | h
        · rw [h] at he; cases he
        · exact absurd h hp
    obtain ⟨ecn, hframe⟩ := hframe
    refine ⟨contentOf a ecn last sub, hframe, ?_⟩
    have hsplit := Sack.dropLast_append_getLast? hl
    have hcov := counts_others s hc last hl a.opp
    have hsel := selectAckRanges_spec a.opp _ _ _ hcov
    generalize selectAckRanges _ _ 32 = sel at hsel hsubeq
    have hlast : last ∉ s.items.dropLast := by
      intro hm
      have h1 := hsep.1
      rw [hsplit, List.pairwise_append] at h1
      have := h1.2.2 last hm last (by simp)
      have := hsep.2 last (by rw [hsplit]; simp)
      omega
    have hmemAll : ∀ i ∈ s.items.dropLast, i ∈ s.items := fun i hi => List.dropLast_subset _ hi
    have hmemLast : last ∈ s.items := by rw [hsplit]; simp
    -- membership in the frame is membership in the selection
    have hin : ∀ i ∈ s.items.dropLast, ((i.start, i.stop) ∈ (contentOf a ecn last sub).ranges ↔
        i ∈ pick a.opp sel.1 s.items.dropLast.reverse sel.2 0) := by
      intro i hi
      rw [contentOf]
      dsimp only
      rw [hsubeq]
      unfold rangesOf
      constructor
      · intro h
        rcases List.mem_cons.1 h with h | h
        · have := item_unique hsep (hmemAll i hi) hmemLast (congrArg Prod.fst h)
          rw [this] at hi
          exact absurd hi hlast
        · obtain ⟨j, hj, he⟩ := List.mem_map.1 h
          have hj' := List.mem_reverse.1 (pick_subset _ _ _ _ _ j hj)
          rw [← item_unique hsep (hmemAll j hj') (hmemAll i hi) (congrArg Prod.fst he)]
          exact hj
      · intro h
        exact List.mem_cons_of_mem _ (List.mem_map.2 ⟨i, h, rfl⟩)
    have hlen33 : (contentOf a ecn last sub).ranges.length =
        (pick a.opp sel.1 s.items.dropLast.reverse sel.2 0).length + 1 := by
      rw [contentOf]; dsimp only; rw [hsubeq]; simp [rangesOf]
    have hmax4 : sel.1 ≤ 4 := by
      rcases hsel with ⟨h, _⟩ | ⟨m, k, h, hm, _⟩
      · rw [h]; decide
      · rw [h]; have : Sack.MAX_ACK_RANGE_REPEAT = 4 := rfl; dsimp only; omega
    refine ⟨?_, ?_, ?_⟩
    · intro r hr
      rw [contentOf] at hr
      rcases List.mem_cons.1 hr with rfl | hr
      · exact .inl rfl
      · right
        rw [hsubeq] at hr
        obtain ⟨j, hj, rfl⟩ := List.mem_map.1 hr
        have := pick_le _ _ _ _ _ j hj
        exact ⟨j, List.mem_reverse.1 (pick_subset _ _ _ _ _ j hj), rfl, by omega⟩
    · rcases hsel with ⟨h, _⟩ | ⟨m, k, h, hm, hb, he⟩
      · rw [h] at hin hlen33
        rcases pick_noskip a.opp Sack.MAX_ACK_RANGE_REPEAT s.items.dropLast.reverse 0 (by omega) with h | h
        · left; rw [hlen33, h]
        · right
          intro i hi ht
          exact (hin i hi).2 (h i (List.mem_reverse.2 hi) ht)
      · left
        rw [h] at hlen33
        have := (pick_full a.opp m s.items.dropLast.reverse k 0 (by omega)).1
        rw [hlen33, this]
        omega
    · intro hcount
      rcases hsel with ⟨_, h⟩ | ⟨m, k, h, hm, hb, he⟩
      · unfold below at h
        rw [List.countP_reverse] at h
        have : Sack.MAX_ACK_RANGE_REPEAT = 4 := rfl
        rw [this] at h
        omega
      · rw [h] at hlen33 hin
        obtain ⟨hf1, hf2⟩ := pick_full a.opp m s.items.dropLast.reverse k 0 (by omega)
        refine ⟨by rw [hlen33, hf1]; omega, ?_⟩
        intro i hi j hj h1 h2
        have h1 := pick_le _ _ _ _ _ i ((hin i hi).1 h1)
        by_cases hlt' : timesSent j a.opp < m
        · exact absurd ((hin j hj).2 (hf2 j (List.mem_reverse.2 hj) hlt')) h2
        · omega

/-- The history of `C52_range_selection_violated`. -/
def crowdedOps : List Sack.Op :=
  (List.range 33).map (fun k => .received (2 * k + 2) 0) ++
    ((List.range 32).flatMap fun k => List.replicate 4 (.sent k false)) ++ [.received 0 0]

/-- Arguments of a plain ACK frame. -/
def plainArgs : Args :=
  { pathId := none, ecn := false, ect0 := 0, ect1 := 0, ce := 0, delay := 0, needed := true, opp := false }

/-- **C52 (violated).** A range never reported is left out while 32 ranges already reported four times
are sent: 33 isolated packets are received and all but the last range are reported four times, then
packet 0 arrives. -/
theorem C52_range_selection_violated :
    ∃ (ops : List Sack.Op) (a : Args) (f : AckContent), ValidOps ops ∧
      IsAckFrame (formatAck (Sack.run Sack.SackList.init ops) a 1000).1 f ∧
      (formatAck (Sack.run Sack.SackList.init ops) a 1000).2.2 = false ∧
      ∃ i ∈ (Sack.run Sack.SackList.init ops).items, ∃ j ∈ (Sack.run Sack.SackList.init ops).items,
        (i.start, i.stop) ∈ f.ranges ∧ (j.start, j.stop) ∉ f.ranges ∧
        timesSent j a.opp = 0 ∧ timesSent i a.opp = 4 := by
  have hv : ValidOps crowdedOps := by
    intro a b h
    simp [crowdedOps, List.mem_flatMap] at h
  have hlt : ∀ n now, Sack.Op.received n now ∈ crowdedOps → n < 2 ^ 62 := by
    intro n now h
    have hall : crowdedOps.all (fun op => match op with | .received n _ => decide (n < 1000) | _ => true) = true := by
      decide +kernel
    rw [List.all_eq_true] at hall
    have := hall _ h
    simp at this
    omega
  obtain ⟨hsep, hmax⟩ := received_bounds hv hlt
  obtain ⟨_, _, h3⟩ := formatAck_spec (Sack.run Sack.SackList.init crowdedOps) plainArgs 1000 hsep hmax
    (by constructor <;> simp [plainArgs])
  have hne : (formatAck (Sack.run Sack.SackList.init crowdedOps) plainArgs 1000).1 ≠ [] := by decide +kernel
  have hm : (formatAck (Sack.run Sack.SackList.init crowdedOps) plainArgs 1000).2.2 = false := by decide +kernel
  rcases h3 with h3 | ⟨last, sub, hl, _, _, hpick, h4⟩
  · exact absurd h3 hne
  have hsub := hpick hm
  have hlast : (Sack.run Sack.SackList.init crowdedOps).items.getLast? = some ⟨66, 66, 0, 0, 0⟩ := by decide +kernel
  rw [hlast] at hl
  obtain rfl := (Option.some.inj hl).symm
  have hf : IsAckFrame (formatAck (Sack.run Sack.SackList.init crowdedOps) plainArgs 1000).1
      (contentOf plainArgs false ⟨66, 66, 0, 0, 0⟩ sub) := by
    rcases h4 with ⟨_, h⟩ | ⟨he, h⟩ | ⟨he, _, h⟩ | ⟨he, _⟩
    · exact h
    · cases he
    · cases he
    · cases he
  refine ⟨crowdedOps, plainArgs, _, hv, hf, hm, ⟨2, 2, 0, 4, 0⟩, by decide +kernel, ⟨0, 0, 0, 0, 0⟩, by decide +kernel, ?_⟩
  rw [hsub]
  decide +kernel

/-- Non-vacuity of C52: with 40 ranges never reported, 33 are sent. -/
example :
    32 ≤ ((Sack.run Sack.SackList.init ((List.range 40).map fun k => Sack.Op.received (2 * k) 0)).items.dropLast).countP
      (fun i => decide (timesSent i false < 4)) ∧
    (formatAck (Sack.run Sack.SackList.init ((List.range 40).map fun k => Sack.Op.received (2 * k) 0))
      plainArgs 1000).2.2 = false := by
  decide +kernel

end Picoquic.Props
