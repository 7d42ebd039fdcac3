import Verif.Proof.KeyLimit
/-!
# C103: no key is used for more packets than the limit
-/

namespace Picoquic.Props
open Picoquic.KeyUpdate Picoquic.KeyLimit Picoquic.Spec

/-- **C103 (the first key).** After the handshake, whatever arrives and whatever the application asks: the packets encrypted with the first key are no more than the limit and one,
less those sent before, and those which check addresses. -/
theorem C103_first_key (multipath : Bool) (first n limit : Nat) (es : List KlEvent) (timed : ∀ e ∈ es, klTimed e)
    (small : n + es.length < 2 ^ 64) :
    klCount (klRun (klStart multipath first n limit) es).sent 0 ≤ limit + 1 - n + klControls es := by
  have h0 : FirstKey n limit 0 (klStart multipath first n limit) :=
    ⟨start_keys .., rfl, Nat.le_refl _, Nat.zero_le _, fun _ => ⟨Nat.le_of_eq (Nat.zero_add _), rfl, rfl⟩⟩
  have h := (first_run n limit es _ 0 h0 timed small).all
  rw [Nat.zero_add] at h
  exact h

/-- **C103 (all keys, partial).** If the other end has always answered when an update is due, and has sent enough packets, no key is used for more packets than the
limit and one, and the packets which check addresses, and the numbers that were left out. Missing: the limit without these conditions, see
`C103_unequal_violated`. -/
theorem C103_limit_partial (multipath : Bool) (first n limit : Nat) (es : List KlEvent) (earlier : first ≤ n)
    (small : n + es.length < 2 ^ 64) (answered : KlAnswered (klStart multipath first n limit) es) (key : Nat) :
    klCount (klRun (klStart multipath first n limit) es).sent key ≤ limit + 1 + klExtra es := by
  have h0 : Bounded 0 limit n (klStart multipath first n limit) :=
    ⟨start_keys .., rfl, earlier, Nat.le_refl _, Nat.le_of_eq (Nat.zero_add _), Nat.zero_le _, fun _ => Nat.zero_le _, fun _ _ => rfl⟩
  obtain ⟨m, h⟩ := bounded_run limit es _ 0 n h0 answered small
  have := h.all key
  rw [Nat.zero_add] at this
  exact this

/-- **C103 (an update that is due).** When the other end has answered the last update, some time ago, and has sent as many packets as this end had sent then, and more packets than the limit were
sent: the next packet is encrypted with the next key. -/
theorem C103_due (multipath : Bool) (first n limit : Nat) (es : List KlEvent) (now path : Nat) (hole : Bool) :
    let s := (klRun (klStart multipath first n limit) es).s
    s.k.dec = s.k.enc → s.k.epochSeq ≤ s.k.lastRecv → s.k.guard < now → s.k.epochSeq + s.limit < s.nbSent → s.nbSent < 2 ^ 64 →
    ∃ p, (prepare s now path hole true).2 = [p] ∧ p.key = some (s.k.enc + 1) := by
  intro s h1 h2 h3 h4 h5
  have hk : KeysOk s.k := by
    have key : ∀ (es : List KlEvent) (y : KlSys), KeysOk y.s.k → KeysOk (klRun y es).s.k := by
      intro es
      induction es with
      | nil => intro y h; exact h
      | cons e es ih =>
        intro y h
        refine ih (klStep y e) ?_
        cases e with
        | prepare now path hole sends =>
          have ha : ∀ s : Kl, KeysOk s.k → KeysOk (autoRotate s now).k := by
            intro s h
            rcases auto_cases s now h with ⟨e, _⟩ | ⟨b, _⟩
            · rw [e]; exact h
            · exact b
          unfold klStep prepare
          cases hole <;> cases sends
          · exact ha _ h
          · exact emit_keys (ha _ h)
          · exact ha _ (skip_keys h)
          · exact emit_keys (ha _ (skip_keys h))
        | control path => exact emit_keys h
        | receive now rto p => exact (receive_keys y.s.k now rto p h).1
        | ask =>
          unfold klStep
          cases e : startRotation y.s.k with
          | none => exact h
          | some k' => exact (start_some h e).1
    exact key es _ (start_keys ..)
  have key : ∀ t : Kl, KeysOk t.k → t.k.dec = t.k.enc → t.k.epochSeq ≤ t.k.lastRecv → t.k.guard < now →
      t.k.epochSeq + t.limit < t.nbSent → t.nbSent < 2 ^ 64 → (autoRotate t now).k.enc = t.k.enc + 1 := by
    intro t g0 g1 g2 g3 g4 g5
    rcases auto_cases t now g0 with ⟨_, e⟩ | b
    · obtain ⟨k', hk⟩ := start_answered g0 g1 g2
      rw [e g4 g5 g3] at hk
      exact absurd hk (by simp)
    · exact b.2.1
  cases hole
  · exact ⟨_, rfl, congrArg some (key s hk h1 h2 h3 h4 h5)⟩
  · exact ⟨_, rfl, congrArg some (key (skipNumber s path) (skip_keys hk) h1 h2 h3 h4 h5)⟩

/-- **C103 (not too early, partial).** Without multipath, if no number is left out and only the limit leads to updates: each key which was replaced was used for more packets than the
limit, less those sent before the handshake was complete. Missing: the other cases, see the violations. -/
theorem C103_not_early_partial (first n limit : Nat) (es : List KlEvent) (earlier : first ≤ n)
    (small : n + es.length < 2 ^ 64) (quiet : KlQuiet (klStart false first n limit) es) (key : Nat) :
    let y := klRun (klStart false first n limit) es
    key < y.s.k.enc → limit + 1 ≤ klCount y.sent key + n := by
  have h0 : Long first n limit n (klStart false first n limit) :=
    ⟨rfl, start_keys .., rfl, Nat.add_comm _ _, Nat.zero_add _, Nat.le_of_eq (Nat.zero_add _).symm, Nat.zero_le _, fun g hg => absurd hg (Nat.not_lt_zero g), fun _ _ => rfl⟩
  obtain ⟨m, h⟩ := long_run first n limit earlier es _ n h0 quiet small
  exact h.all key

/-- New keys for decryption set the time. -/
theorem kl_guard (k : Kx) (arrival rto : Nat) (p : Pkt) (small : arrival + rto < 2 ^ 64)
    (changed : (receive k arrival rto p).1.dec ≠ k.dec) : (receive k arrival rto p).1.guard = arrival + rto := by
  have key : (decryptWith k arrival rto p).1.dec ≠ k.dec → (decryptWith k arrival rto p).1.guard = arrival + rto := by
    unfold decryptWith
    dsimp only
    split
    · split
      · dsimp only
        split <;> exact fun h => absurd rfl h
      · exact fun h => absurd rfl h
    · split
      · split
        · exact fun h => absurd rfl h
        · split <;> exact fun h => absurd rfl h
      · split
        · exact fun h => absurd rfl h
        · rename_i k' hk
          have hd : k'.dec = k.dec := by
            split at hk
            · unfold computeNew at hk
              split at hk
              · split at hk
                · exact absurd hk (by simp)
                · cases hk; rfl
              · cases hk; rfl
            · cases hk; rfl
          split
          · exact fun h => absurd hd h
          · split
            · intro _
              have hu : u64 (arrival + rto) = arrival + rto := by unfold u64; omega
              have h1 : ∀ x : Kx, (applyDec x).guard = x.guard := by intro x; unfold applyDec; split <;> rfl
              have h2 : ∀ x : Kx, (applyEnc x).guard = x.guard := by intro x; unfold applyEnc; split <;> rfl
              unfold rotate
              dsimp only
              split <;> split <;> simp only [h2, h1, hu]
            · exact fun h => absurd hd h
  unfold receive at changed ⊢
  dsimp only at changed ⊢
  split at changed
  · rename_i hc
    rw [if_pos hc]
    exact key changed
  · rename_i hc
    rw [if_neg hc]
    exact key changed

/-- **C103 (the time between two updates).** Packets of the other end with keys that are older can still be on the way during the retransmission time behind the arrival of the first packet with new keys: until then no
key update is started by itself. -/
theorem C103_time (k : Kx) (nbSent limit arrival rto now path : Nat) (hole sends : Bool) (p : Pkt) (small : arrival + rto < 2 ^ 64)
    (changed : (receive k arrival rto p).1.dec ≠ k.dec) (soon : now ≤ arrival + rto) :
    let s : Kl := ⟨(receive k arrival rto p).1, nbSent, limit⟩
    (prepare s now path hole sends).1.k.enc = s.k.enc ∧ ∀ q ∈ (prepare s now path hole sends).2, q.key = some s.k.enc := by
  intro s
  have hg : s.k.guard = arrival + rto := kl_guard k arrival rto p small changed
  have ha : ∀ t : Kl, t.k.guard = arrival + rto → autoRotate t now = t := by
    intro t ht
    unfold autoRotate
    rw [if_neg (by rw [ht]; omega)]
  unfold prepare
  cases hole <;> cases sends
  · simp only [Bool.false_eq_true, if_false, ha s hg]; exact ⟨by trivial, fun q hq => absurd hq (by simp)⟩
  · simp only [Bool.false_eq_true, if_false, if_true, ha s hg]
    exact ⟨by trivial, fun q hq => by rw [List.mem_singleton.1 hq]; rfl⟩
  · simp only [Bool.false_eq_true, if_false, if_true, ha (skipNumber s path) hg]; exact ⟨by trivial, fun q hq => absurd hq (by simp)⟩
  · simp only [if_true, ha (skipNumber s path) hg]
    exact ⟨by trivial, fun q hq => by rw [List.mem_singleton.1 hq]; rfl⟩

/-- **C103 (the limit that is set).** What the application sets is the limit, and there is always one. -/
theorem C103_set (s : Kl) (n : Nat) : 0 < (setLimit s n).limit ∧ (0 < n → (setLimit s n).limit = n) := by
  unfold setLimit
  dsimp only
  split <;> omega

/-! ### Violations -/

/-- Packets are sent, and the other end sends one packet for each one. -/
def klPairs : Nat → List KlEvent
  | 0 => []
  | i + 1 => klPairs i ++ [.prepare (200 + i) 0 false true, .receive (200 + i) 1 ⟨0, i + 1, true, some 1⟩]

/-- An end that cannot update its key. -/
structure KlStuck (n i : Nat) (y : KlSys) : Prop where
  single : y.s.k.multipath = false
  enc : y.s.k.enc = 1
  dec : y.s.k.dec = 1
  phase : y.s.k.phaseDec = true
  epoch : y.s.k.epochSeq = n + 1
  last : y.s.k.lastRecv ≤ i
  sent : klCount y.sent 1 = i + 1

/-- A packet with the same key. -/
theorem kl_same (k : Kx) (now rto : Nat) (p : Pkt) (h1 : k.multipath = false) (h2 : p.phase = k.phaseDec) (h3 : p.key = some k.dec) :
    (receive k now rto p).1.multipath = false ∧ (receive k now rto p).1.enc = k.enc ∧ (receive k now rto p).1.dec = k.dec ∧
      (receive k now rto p).1.phaseDec = k.phaseDec ∧ (receive k now rto p).1.epochSeq = k.epochSeq ∧
      (receive k now rto p).1.lastRecv = max k.lastRecv p.pn := by
  unfold receive decryptWith
  dsimp only
  rw [if_pos h2, if_pos h3, if_pos (by simp [h1])]
  split <;> exact ⟨h1, rfl, rfl, rfl, rfl, rfl⟩

theorem kl_stuck (n : Nat) (y : KlSys) (h : KlStuck n 0 y) : ∀ i, i ≤ n → KlStuck n i (klRun y (klPairs i)) := by
  intro i
  induction i with
  | zero => intro _; exact h
  | succ i ih =>
    intro hi
    obtain ⟨a1, a2, a3, a4, a5, a6, a7⟩ := ih (by omega)
    unfold klPairs klRun
    rw [List.foldl_append]
    show KlStuck n (i + 1) (klStep (klStep (klRun y (klPairs i)) (.prepare (200 + i) 0 false true))
      (.receive (200 + i) 1 ⟨0, i + 1, true, some 1⟩))
    generalize klRun y (klPairs i) = y at *
    have hs : startRotation y.s.k = none := by
      unfold startRotation
      rw [if_pos (.inr (by omega))]
    have ha : autoRotate y.s (200 + i) = y.s := by
      unfold autoRotate
      rw [hs]
      split <;> rfl
    have hp : klStep y (.prepare (200 + i) 0 false true) = ⟨(emit y.s 0).1, (emit y.s 0).2 ++ y.sent⟩ := by
      show KlSys.mk (emit (autoRotate y.s (200 + i)) 0).1 ((emit (autoRotate y.s (200 + i)) 0).2 ++ y.sent) = _
      rw [ha]
    rw [hp]
    have hc : klCount ((emit y.s 0).2 ++ y.sent) 1 = i + 1 + 1 := by rw [count_emit, if_pos a2]; omega
    have hm : (emit y.s 0).1.k.lastRecv ≤ i := a6
    obtain ⟨b1, b2, b3, b4, b5, b6⟩ := kl_same (emit y.s 0).1.k (200 + i) 1 ⟨0, i + 1, true, some 1⟩ a1 a4.symm (congrArg some a3.symm)
    refine ⟨b1, b2.trans a2, b3.trans a3, b4.trans a4, b5.trans a5, ?_, hc⟩
    show (receive (emit y.s 0).1.k (200 + i) 1 ⟨0, i + 1, true, some 1⟩).1.lastRecv ≤ i + 1
    rw [b6]
    dsimp only
    omega

/-- **C103, violation.** One end sends, and the other one sends one packet for each packet. All packets arrive, and the other end has answered the last update. For every limit and every number: that many packets are
encrypted with the same key, and the key cannot be updated. -/
theorem C103_unequal_violated (limit n : Nat) :
    let y := klRun (klStart false (n + 1) (n + 1) limit)
      ([.ask, .prepare 1 0 false true, .receive 2 1 ⟨0, 0, true, some 1⟩] ++ klPairs n)
    y.s.k.dec = y.s.k.enc ∧ n < klCount y.sent y.s.k.enc ∧ startRotation y.s.k = none := by
  intro y
  have h0 : KlStuck n 0 (klRun (klStart false (n + 1) (n + 1) limit) [.ask, .prepare 1 0 false true, .receive 2 1 ⟨0, 0, true, some 1⟩]) := by
    have e1 : klStep (klStart false (n + 1) (n + 1) limit) .ask =
        ⟨⟨⟨false, true, 1, 0, none, some 1, none, 1, 1, true, false, fun _ => 0, 0, n + 1, fun _ => n + 1, 0⟩, n + 1, limit⟩, []⟩ := rfl
    show KlStuck n 0 (klStep (klStep (klStep (klStart false (n + 1) (n + 1) limit) .ask) (.prepare 1 0 false true))
      (.receive 2 1 ⟨0, 0, true, some 1⟩))
    rw [e1]
    have ha : autoRotate ⟨⟨false, true, 1, 0, none, some 1, none, 1, 1, true, false, fun _ => 0, 0, n + 1, fun _ => n + 1, 0⟩, n + 1, limit⟩ 1 =
        ⟨⟨false, true, 1, 0, none, some 1, none, 1, 1, true, false, fun _ => 0, 0, n + 1, fun _ => n + 1, 0⟩, n + 1, limit⟩ := by
      unfold autoRotate startRotation
      rw [if_pos (c := (_ ∨ _)) (.inr (by dsimp only; omega))]
      split <;> rfl
    have e2 : klStep ⟨⟨⟨false, true, 1, 0, none, some 1, none, 1, 1, true, false, fun _ => 0, 0, n + 1, fun _ => n + 1, 0⟩, n + 1, limit⟩, []⟩ (.prepare 1 0 false true) =
        ⟨⟨⟨false, true, 1, 0, none, some 1, none, 1, 1, true, false, fun _ => 0, 0, n + 1, upd (fun _ => n + 1) 0 (n + 2), 0⟩, n + 2, limit⟩,
          [⟨0, n + 1, true, some 1⟩]⟩ := by
      unfold klStep prepare
      simp only [Bool.false_eq_true, if_false, if_true, ha]
      rfl
    rw [e2]
    exact ⟨rfl, rfl, rfl, rfl, rfl, Nat.le_refl _, rfl⟩
  have h : KlStuck n n y := by
    have := kl_stuck n _ h0 n (Nat.le_refl _)
    unfold klRun at this
    rw [← List.foldl_append] at this
    exact this
  obtain ⟨a1, a2, a3, a4, a5, a6, a7⟩ := h
  refine ⟨by omega, by rw [a2]; omega, ?_⟩
  unfold startRotation
  rw [if_pos (.inr (by omega))]

/-- **C103, violation.** With multipath, once more packets than the limit were sent the keys are updated whenever the other end has answered: with a limit of 3, one packet
per key. -/
theorem C103_multipath_violated :
    let y := klRun (klStart true 0 1 3) [.prepare 1 0 false true, .prepare 2 0 false true, .prepare 3 0 false true, .prepare 4 0 false true,
      .receive 5 1 ⟨0, 0, true, some 1⟩, .prepare 7 0 false true, .receive 8 1 ⟨0, 1, false, some 2⟩, .prepare 10 0 false true]
    y.s.k.enc = 3 ∧ klCount y.sent 1 = 1 ∧ klCount y.sent 2 = 1 := by
  decide +kernel

/-- **C103, violation.** When more numbers were left out than packets were sent before the handshake was complete, the count is below zero: a key is replaced after one packet with a limit of 1000. -/
theorem C103_skipped_violated :
    let y := klRun (klStart false 0 2 1000) [.prepare 1 0 true true, .prepare 2 0 true true, .prepare 3 0 true true, .prepare 4 0 true true,
      .ask, .prepare 5 0 false true, .receive 6 1 ⟨0, 9, true, some 1⟩, .prepare 8 0 false true]
    y.s.k.enc = 2 ∧ klCount y.sent 1 = 1 := by
  decide +kernel

/-- **C103, violation.** An update started by the other end is not taken into account: a key is replaced after one packet, with a limit of 3. -/
theorem C103_peer_violated :
    let y := klRun (klStart false 0 0 3) [.prepare 1 0 false true, .prepare 2 0 false true, .prepare 3 0 false true,
      .receive 4 1 ⟨0, 0, true, some 1⟩, .prepare 6 0 false true, .prepare 7 0 false true]
    y.s.k.enc = 2 ∧ klCount y.sent 1 = 1 := by
  decide +kernel

/-! ### Examples -/

/-- The limit is 3: five packets, an answer, and four more packets. -/
def klFour : List KlEvent :=
  [.prepare 1 0 false true, .prepare 2 0 false true, .prepare 3 0 false true, .prepare 4 0 false true, .prepare 5 0 false true,
   .receive 6 1 ⟨0, 7, true, some 1⟩, .prepare 8 0 false true, .prepare 9 0 false true, .prepare 10 0 false true, .prepare 11 0 false true]

example :
    let y := klRun (klStart false 0 0 3) klFour
    KlAnswered (klStart false 0 0 3) klFour ∧ KlQuiet (klStart false 0 0 3) klFour ∧ (∀ e ∈ klFour, klTimed e) ∧
      klCount y.sent 0 = 4 ∧ klCount y.sent 1 = 4 ∧ klCount y.sent 2 = 1 ∧ y.s.k.enc = 2 := by
  refine ⟨?_, ?_, ?_, by decide +kernel, by decide +kernel, by decide +kernel, by decide +kernel⟩
  · unfold klFour
    refine ⟨?_, ?_, ?_, ?_, ?_, trivial, ?_, ?_, ?_, ?_, trivial⟩ <;> decide +kernel
  · unfold klFour
    refine ⟨rfl, rfl, rfl, rfl, rfl, ?_, rfl, rfl, rfl, rfl, trivial⟩
    decide +kernel
  · unfold klFour
    simp [klTimed]

/-- The hypotheses of `C103_time` are met behind the answer, when the limit is passed. -/
example :
    let k := (klRun (klStart false 0 0 3) (klFour.take 5)).s.k
    (receive k 6 100 ⟨0, 7, true, some 1⟩).1.dec ≠ k.dec ∧ (prepare ⟨(receive k 6 100 ⟨0, 7, true, some 1⟩).1, 9, 3⟩ 106 0 false true).1.k.enc = 1 ∧
      (prepare ⟨(receive k 6 100 ⟨0, 7, true, some 1⟩).1, 9, 3⟩ 107 0 false true).1.k.enc = 2 := by
  decide +kernel

/-- The first key, with a packet that checks an address behind the limit. -/
example : klCount (klRun (klStart true 0 1 2) [.prepare 1 0 false true, .prepare 2 0 false true, .control 1, .prepare 3 0 false true]).sent 0 = 3 ∧
    klCount (klRun (klStart true 0 1 2) [.prepare 1 0 false true, .prepare 2 0 false true, .control 1, .prepare 3 0 false true]).sent 1 = 1 := by
  decide +kernel

end Picoquic.Props
