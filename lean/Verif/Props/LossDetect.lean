import Verif.Proof.LossDetect
/-!
# C82: which packets are declared lost, and when they are repeated
-/

namespace Picoquic.Props
open Picoquic Picoquic.LossDetect Picoquic.Spec

/-- **C82.** A packet is declared lost exactly when one sent three numbers later was acknowledged, or a later one was and the packet has been overtaken for long enough: never because of a timer alone. -/
theorem C82_rule (e : Env) (a : Path) (last : Nat) (p : Pkt) (hp : plain e a p) (h : plausible e a p) (he : p.eliciting = true) :
    (verdict e a last p).1 = true ↔ (laterAcked e p 3 ∨ (laterAcked e p 1 ∧ p.sent + overtakenFor e a ≤ e.now)) := by
  rw [verdict_plain _ _ _ _ hp, ← first_plain e a p hp h]
  cases hf : (first e a p).1
  · cases hl : late e a last p
    · simp [(judge_early e a last p hf hl).1]
    · rw [(judge_late e a last p hf hl).1, hp.2.2.2.1, he]; simp
  · rw [judge_first _ _ _ _ hf]

/-- **C82.** The timer of a packet that is not lost expires after the retransmission timeout of the path, counted from the last packet sent; or after two of them if more packets were sent in the meantime, and nothing was
repeated yet. -/
theorem C82_timer (e : Env) (a : Path) (last : Nat) (p : Pkt) (hp : plain e a p) (h : plausible e a p) (he : p.eliciting = true) :
    (verdict e a last p).2.1 = true ↔ (¬ (laterAcked e p 3 ∨ (laterAcked e p 1 ∧ p.sent + overtakenFor e a ≤ e.now)) ∧
      (last + a.cur ≤ e.now ∨ (a.nbRet = 0 ∧ p.sent + 2 * a.cur < last ∧ p.sent + 2 * a.cur ≤ e.now))) := by
  rw [verdict_plain _ _ _ _ hp, ← first_plain e a p hp h]
  cases hf : (first e a p).1
  · cases hl : late e a last p
    · rw [(judge_early e a last p hf hl).2.1]
      simp only [late, Bool.or_eq_false_iff, decide_eq_false_iff_not, Bool.and_eq_false_iff] at hl
      constructor
      · intro x; cases x
      · rintro ⟨_, x | ⟨x, y, z⟩⟩
        · exact absurd x hl.1
        · rcases hl.2 with (l | l) | l
          · exact absurd x l
          · exact absurd y l
          · exact absurd z l
    · rw [(judge_late e a last p hf hl).2, (judge_late e a last p hf hl).1, hp.2.2.2.1, he]
      simp only [late, Bool.or_eq_true, decide_eq_true_eq, Bool.and_eq_true] at hl
      simp
      rcases hl with hl | ⟨⟨x, y⟩, z⟩
      · exact Or.inl hl
      · exact Or.inr ⟨x, y, z⟩
  · rw [judge_first _ _ _ _ hf]; simp

/-- Packet 4 of 3, 4, 5, 6, when 7 was acknowledged at 120 (sent at 40): three later. Packet 5 waits until 35 + 80 + 10 + 25. -/
example : (verdict { now := 125, highest := 7, latestSent := 40, ackTime := 120, maxAckDelay := 25 } { srtt := 40, rto := 300, cur := 300 } 36 { seq := 4, sent := 34 }).1 = true ∧
    verdict { now := 125, highest := 7, latestSent := 40, ackTime := 120, maxAckDelay := 25 } { srtt := 40, rto := 300, cur := 300 } 36 { seq := 5, sent := 35 } = (false, false, 150) ∧
    (verdict { now := 150, highest := 7, latestSent := 40, ackTime := 120, maxAckDelay := 25 } { srtt := 40, rto := 300, cur := 300 } 36 { seq := 5, sent := 35 }).1 = true := by decide

/-- **C82.** After an acknowledgement was processed no packet waits that was overtaken by three, if the packets are queued in the order of their numbers. -/
theorem C82_number (e : Env) (a : Path) (q : List Pkt) (hs : q.Pairwise (fun x y => x.seq < y.seq)) (hq : ∀ p ∈ q, p.seq < 2 ^ 62) (hh : e.highest = UINT64_MAX ∨ e.highest < 2 ^ 62)
    (he : e.st = 13 ∨ e.st = 14) : ∀ p ∈ (onAck e a q).1, ¬ laterAcked e p 3 := by
  intro p hp hl
  have happ := onAck_perm e a q
  cases hk : (onAck e a q).1 with
  | nil => rw [hk] at hp; simp at hp
  | cons x xs =>
    have hv := onAck_head e a q x xs hk
    have hx : x ∈ q := by rw [← happ, hk]; simp
    have hle : x.seq ≤ p.seq := by
      rw [← happ, hk] at hs
      have := (List.pairwise_append.1 hs).2.1
      rw [hk] at hp
      rcases List.mem_cons.1 hp with rfl | hp
      · exact Nat.le_refl _
      · exact Nat.le_of_lt ((List.pairwise_cons.1 this).1 p hp)
    have := verdict_three e a (lastTime q) x (hq x hx) hh (fun _ _ => he) ⟨hl.1, by have := hl.2; omega⟩
    rw [hv] at this; cases this

example : (onAck { now := 125, highest := 7, latestSent := 40, ackTime := 120, maxAckDelay := 25 } { srtt := 40, rto := 300, cur := 300 }
    [{ seq := 3, sent := 33 }, { seq := 4, sent := 34 }, { seq := 5, sent := 35 }, { seq := 6, sent := 36 }]) =
    ([{ seq := 5, sent := 35 }, { seq := 6, sent := 36 }], [.lost { seq := 3, sent := 33 }, .lost { seq := 4, sent := 34 }]) := by decide

/-- **C82.** No packet disappears: each packet of the queue stays there, or something is said about it; once. -/
theorem C82_all (e : Env) (a : Path) (w : Nat) (q : List Pkt) :
    ((needed e a w q).evs.map Ev.pkt ++ (needed e a w q).kept).Perm q ∧ (onAck e a q).2.map Ev.pkt ++ (onAck e a q).1 = q :=
  ⟨needed_perm e a w q, onAck_perm e a q⟩

/-- **C82.** What is said is right: the packets declared lost are lost by the rule, and the timer of those repeated has expired. -/
theorem C82_right (e : Env) (a : Path) (w : Nat) (q : List Pkt) (p : Pkt) :
    (.lost p ∈ (needed e a w q).evs ∨ .lost p ∈ (onAck e a q).2 → p ∈ q ∧ (verdict e a (lastTime q) p).1 = true) ∧
    (.timer p ∈ (needed e a w q).evs → p ∈ q ∧ (verdict e a (lastTime q) p).2.1 = true) ∧
    (.dropped p ∈ (needed e a w q).evs → p ∈ q ∧ p.eliciting = false ∧ (verdict e a (lastTime q) p).2.1 = true) := by
  refine ⟨?_, fun h => ?_, fun h => ?_⟩
  · rintro (h | h)
    · obtain ⟨x, y⟩ := needed_fair e a w q _ h; exact ⟨x, y.1⟩
    · obtain ⟨x, y⟩ := onAck_fair e a q _ h; exact ⟨x, y.1⟩
  · obtain ⟨x, y⟩ := needed_fair e a w q _ h; exact ⟨x, y.2.1⟩
  · obtain ⟨x, y⟩ := needed_fair e a w q _ h; exact ⟨x, y.2.2.2, y.2.1⟩

/-- **C82 (partial).** While packets wait for an acknowledgement and none has to be repeated now, the connection asks to be called when the timer of the last one expires, at the latest. Missing: 0-RTT packets
(see `C82_zero_rtt_violated`). -/
theorem C82_wake_partial (e : Env) (a : Path) (w : Nat) (q : List Pkt) (hz : ∀ p ∈ q, p.zero = false) (hc : ∀ p ∈ q, p.crypto = false ∨ p.len ≤ e.room) (hp : a.pto = false)
    (hl : (needed e a w q).evs.countP isProbe = 0) (hd : (needed e a w q).length = 0) (hk : (needed e a w q).kept ≠ []) :
    (needed e a w q).wake ≤ lastTime q + a.cur := needed_wake e a w q hz hc hp hl hd hk

example : needed { now := 125, highest := 2 } { srtt := 40, rto := 300, cur := 300 } 1000000 [{ seq := 3, sent := 33, copied := 10 }, { seq := 4, sent := 34, copied := 10 }] =
    ⟨[{ seq := 3, sent := 33, copied := 10 }, { seq := 4, sent := 34, copied := 10 }], [], 334, 0, { srtt := 40, rto := 300, cur := 300 }⟩ := by decide +kernel

/-- **C82.** A 0-RTT packet that waits for its acknowledgement after the handshake sets no timer: if no other packet waits, the connection asks for no call because of it, whatever the time asked for otherwise.
Here packet 1 was acknowledged and packet 0 was not; it will be lost at 158, but the connection is not called then. -/
theorem C82_zero_rtt_violated : ∃ (e : Env) (a : Path) (p : Pkt), p.zero = true ∧ p.eliciting = true ∧ plain e a p ∧
    (verdict e a p.sent p).2.2 = 158 ∧ (verdict { e with now := 158 } a p.sent p).1 = true ∧ ∀ w, needed e a w [p] = ⟨[p], [], w, 0, a⟩ := by
  refine ⟨{ now := 125, highest := 1, latestSent := 40, ackTime := 120, maxAckDelay := 25 }, { srtt := 40, rto := 300, cur := 300 }, { seq := 0, sent := 43, zero := true, copied := 10 },
    rfl, rfl, ⟨rfl, rfl, rfl, rfl, fun _ => ⟨rfl, Or.inr rfl⟩⟩, by decide, by decide, fun w => ?_⟩
  have h : verdict { now := 125, highest := 1, latestSent := 40, ackTime := 120, maxAckDelay := 25 } { srtt := 40, rto := 300, cur := 300 } 43 { seq := 0, sent := 43, zero := true, copied := 10 } = (false, false, 158) := by decide
  simp [needed, lastSent, h]

/-- **C82.** When the timer of the last packet has expired, a packet is repeated, or no packet waits any more. -/
theorem C82_probe (e : Env) (a : Path) (w : Nat) (q : List Pkt) (hz : ∀ p ∈ q, p.zero = false) (hc : ∀ p ∈ q, p.crypto = false ∨ p.len ≤ e.room) (hp : a.pto = false)
    (ht : lastTime q + a.cur ≤ e.now) : (needed e a w q).kept = [] ∨ 0 < (needed e a w q).length ∨ (needed e a w q).evs.countP isProbe = 1 :=
  needed_probe e a w q hz hc hp ht

example : needed { now := 334, highest := 2 } { srtt := 40, rto := 300, cur := 300 } 1000000 [{ seq := 3, sent := 33, copied := 10 }, { seq := 4, sent := 34, copied := 10 }] =
    ⟨[{ seq := 4, sent := 34, copied := 10 }], [.timer { seq := 3, sent := 33, copied := 10 }], 1000000, 10, { srtt := 40, rto := 300, cur := 300, nbRet := 1, pto := true }⟩ := by decide

/-- **C82.** On an established connection a timer repeats at most one packet, which is counted, and no other until that one was sent. -/
theorem C82_one (e : Env) (a : Path) (w : Nat) (q : List Pkt) (hs : 13 < e.st) :
    ((needed e a w q).evs.countP isProbe = 0 ∧ (needed e a w q).path = a) ∨
    ((needed e a w q).evs.countP isProbe = 1 ∧ a.pto = false ∧ (needed e a w q).path = { a with pto := true, nbRet := a.nbRet + 1 }) := needed_one e a w q hs

end Picoquic.Props
