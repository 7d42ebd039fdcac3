import Verif.Proof.Amplification
/-!
# Properties of the limit of amplification (C72)
-/

namespace Picoquic.Props
open Picoquic.Amplification Picoquic.Spec

/-- **C72, limit (partial).** For all sequences of datagrams received and of packets asked for, and all contents: as long as the address of
the client is not validated, the server has sent at most three times the bytes it received, and the packets that it sends while
it closes the connection. Missing: these packets, and servers without connection IDs, for which it is false. -/
theorem C72_limit_partial (initialCid localCid : Cid) (hi : initialCid ≠ []) (hl : localCid ≠ []) (es : List AmpEvent)
    (fits : ∀ e ∈ es, e.Fits) (small : (ampRun initialCid localCid es).received < 2 ^ 62)
    (hv : (ampRun initialCid localCid es).cnx.validated = false) :
    (ampRun initialCid localCid es).sent ≤ 3 * (ampRun initialCid localCid es).received + (ampRun initialCid localCid es).closing := by
  have h : AmpInv initialCid localCid (ampRun initialCid localCid es) :=
    run_inv hi hl es _ ⟨rfl, rfl, Nat.le_refl _, Nat.le_refl _, fun _ => ⟨rfl, Nat.le_refl _⟩⟩ fits small
  obtain ⟨h1, h2⟩ := h.sent hv
  have h3 := h.received
  have h4 := h.closing
  omega

/-- **C72, validation.** For all sequences, also for servers without connection IDs: the address is validated only by a packet that proves it. -/
theorem C72_validated (initialCid localCid : Cid) (es : List AmpEvent) (hv : (ampRun initialCid localCid es).cnx.validated = true) :
    ∃ len ss s, AmpEvent.receive len ss ∈ es ∧ s ∈ ss ∧ ProvesAddress localCid s := by
  rcases run_validated localCid es _ rfl hv with h | h
  · exact absurd h Bool.false_ne_true
  · exact h

/-- **C72, not too strict.** A packet is made when its room is in the limit, or when the address is validated. -/
theorem C72_allowed (c : Amp) (bufferMax mtu : Nat) (make : Nat → Nat)
    (h : c.validated = true ∨ (c.sent + min bufferMax mtu ≤ 3 * c.received ∧ 3 * c.received < 2 ^ 64)) :
    (prepare c bufferMax mtu make).2 = make (min bufferMax mtu) := by
  have e : (if bufferMax > mtu then mtu else bufferMax) = min bufferMax mtu := by
    split <;> omega
  unfold prepare
  rw [e]
  dsimp only
  rw [if_neg]
  rintro ⟨h1, h2⟩
  rcases h with h | ⟨h, h'⟩
  · rw [h] at h1; exact absurd h1 (by decide)
  · unfold u64 at h2; omega

/-- **C72, violation.** The packets by which a connection is closed are sent when the limit is reached. -/
theorem C72_close_violated : ∃ es, (∀ e ∈ es, e.Fits) ∧
    (ampRun [1, 2, 3, 4, 5, 6, 7, 8] [9, 9, 9, 9, 9, 9, 9, 9] es).cnx.validated = false ∧
    3 * (ampRun [1, 2, 3, 4, 5, 6, 7, 8] [9, 9, 9, 9, 9, 9, 9, 9] es).received <
      (ampRun [1, 2, 3, 4, 5, 6, 7, 8] [9, 9, 9, 9, 9, 9, 9, 9] es).sent := by
  refine ⟨[.receive 1200 [.initial [1, 2, 3, 4, 5, 6, 7, 8] false], .send 1200 1252 id, .send 1200 1252 id, .send 1200 1252 id,
    .close 1200 1252 (fun room => min room 62)], ?_, by decide, by decide⟩
  intro e he
  simp only [List.mem_cons, List.not_mem_nil, or_false] at he
  rcases he with rfl | rfl | rfl | rfl | rfl
  · intro d hd
    simp at hd
  · exact ⟨by omega, fun room => Nat.le_refl _⟩
  · exact ⟨by omega, fun room => Nat.le_refl _⟩
  · exact ⟨by omega, fun room => Nat.le_refl _⟩
  · exact ⟨by omega, fun room => Nat.min_le_left _ _⟩

/-- A datagram of 1200 bytes with `n` Initial packets to a server without connection IDs. -/
def apMany (n : Nat) : List Seg := List.replicate n (.initial [] false)

/-- **C72, violation.** A server without connection IDs counts a datagram once for each Initial packet in it: after a datagram with 20
Initial packets, it sends up to 60 times what it received. -/
theorem C72_null_cid_violated (initialCid : Cid) (n : Nat) (h : n * 1200 < 2 ^ 62) :
    (ampRun initialCid [] [.receive 1200 (apMany n)]).cnx.received = n * 1200 ∧
    (ampRun initialCid [] [.receive 1200 (apMany n)]).cnx.validated = false ∧
    (ampRun initialCid [] [.receive 1200 (apMany n)]).received = 1200 := by
  have key : ∀ m (c : Amp), c.localCid = [] → c.validated = false → c.received + m * 1200 < 2 ^ 62 →
      (segments 1200 c [] (apMany m)).received = c.received + m * 1200 ∧ (segments 1200 c [] (apMany m)).validated = false := by
    intro m
    induction m with
    | zero => intro c h1 h2 h3; exact ⟨by show c.received = _; omega, h2⟩
    | succ m ih =>
      intro c h1 h2 h3
      have e : apMany (m + 1) = .initial [] false :: apMany m := rfl
      rw [e]
      unfold segments
      rw [if_pos rfl]
      show (segments 1200 (segment c 1200 true (.initial [] false)) [] (apMany m)).received = _ ∧ _
      have s1 : (segment c 1200 true (.initial [] false)) = { c with received := c.received + 1200 } := by
        unfold segment
        dsimp only
        rw [if_pos (.inr h1.symm), if_pos rfl, h1, h2]
        have : u64 (c.received + 1200) = c.received + 1200 := by unfold u64; omega
        rw [this]
        cases c
        simp only at h1 h2
        rw [h1, h2]
        rfl
      obtain ⟨r1, r2⟩ := ih { c with received := c.received + 1200 } h1 h2 (by show c.received + 1200 + m * 1200 < _; omega)
      rw [s1]
      refine ⟨?_, r2⟩
      rw [r1]
      show c.received + 1200 + m * 1200 = _
      omega
  obtain ⟨r1, r2⟩ := key n ⟨false, 0, 0, initialCid, []⟩ rfl rfl (by show 0 + n * 1200 < _; omega)
  refine ⟨?_, r2, ?_⟩
  · show (segments 1200 _ [] (apMany n)).received = _
    rw [r1]
    show 0 + n * 1200 = _
    omega
  · rfl

/-- 30 packets in answer to two datagrams, of which the second has 20 Initial packets. -/
example :
    let es : List AmpEvent := [.receive 1200 [.initial [1, 2, 3, 4, 5, 6, 7, 8] false], .receive 1200 (apMany 20)] ++
      List.replicate 30 (.send 1200 1252 id)
    let r := ampRun [1, 2, 3, 4, 5, 6, 7, 8] [] es
    r.cnx.validated = false ∧ r.received = 2400 ∧ r.sent = 36000 := by decide +kernel

/-- With a connection ID only three packets are sent, until a Handshake packet arrives. -/
example :
    let es : List AmpEvent :=
      [.receive 1200 [.initial [1, 2, 3, 4, 5, 6, 7, 8] false, .zeroRtt [1, 2, 3, 4, 5, 6, 7, 8]]] ++ List.replicate 30 (.send 1200 1252 id)
    let r := ampRun [1, 2, 3, 4, 5, 6, 7, 8] [9, 9, 9, 9] es
    let r' := ampRun [1, 2, 3, 4, 5, 6, 7, 8] [9, 9, 9, 9] (es ++ [.receive 100 [.handshake [9, 9, 9, 9]], .send 1200 1252 id])
    r.cnx.validated = false ∧ r.received = 1200 ∧ r.sent = 3600 ∧ r'.cnx.validated = true ∧ r'.sent = 4800 := by decide +kernel

end Picoquic.Props
