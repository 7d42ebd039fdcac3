import Verif.Spec.Closing
/-! # Closing: lemmas -/

namespace Picoquic.Closing
open Picoquic Picoquic.Spec

theorem code_disc {s : St} : s.code ≥ 19 ↔ s = .disconnected := by cases s <;> simp [St.code]

theorem late {s : St} (h : 15 ≤ s.code) : s = .disconnecting ∨ s = .closingReceived ∨ s = .closing ∨ s = .draining ∨ s = .disconnected := by
  cases s <;> simp [St.code] at h ⊢

theorem disconnect_st (c : Conn) : (disconnect c).1.st = .disconnected := by
  unfold disconnect; by_cases h : c.st = .disconnected
  · rw [if_neg (by simp [h])]; exact h
  · rw [if_pos h]

theorem disconnect_ev (c : Conn) (h : c.st ≠ .disconnected) : (disconnect c).2 = [.close] := by
  unfold disconnect; rw [if_pos h]

theorem disconnect_idle (c : Conn) (h : c.st = .disconnected) : disconnect c = (c, []) := by
  unfold disconnect; rw [if_neg (by simp [h])]

theorem packet_disc (c : Conn) (p : Pkt) (fs : List Fr) (r : Tls) (h : c.st = .disconnected) :
    (packet c p fs r).1 = c ∧ (packet c p fs r).2.1 = [] := by
  cases p <;> simp [packet, h, St.code]

theorem recv_disc (c : Conn) (t : Nat) (p : Pkt) (fs : List Fr) (r : Tls) (h : c.st = .disconnected) : recv c t p fs r = (c, []) := by
  have := packet_disc c p fs r h
  unfold recv
  simp [this.1, this.2, h]

theorem prepare_disc (c : Conn) (t : Nat) (p : Env) (h : c.st = .disconnected) : (prepare c t p).1.st = .disconnected ∧ (prepare c t p).2.1 = [] := by
  unfold prepare
  by_cases hd : t ≥ idleDeadline c p
  · rw [if_pos hd]
    simp [h, disconnect_idle]
  · rw [if_neg hd, if_pos h]
    exact ⟨h, rfl⟩

theorem step_disc (c : Conn) (o : Op) (h : c.st = .disconnected) : (step c o).1.st = .disconnected ∧ ∀ e ∈ (step c o).2, e = .reset := by
  cases o with
  | close code => simp [step, close, h, St.code]
  | closeImmediate t => simp [step, closeImmediate, h, St.code]
  | error e => simp [step, error, h, St.code]
  | recv t p fs r => simp [step, recv_disc _ _ _ _ _ h, h]
  | statelessReset => simp [step, statelessReset, disconnect_idle _ h, h]
  | versionNegotiation => simp [step, versionNegotiation, h]
  | prepare t p =>
    obtain ⟨a, b⟩ := prepare_disc c t p h
    simp only [step]; rw [b]; exact ⟨a, by simp⟩
  | keys a b d => simp [step, h]

theorem run_disc (c : Conn) (os : List Op) (h : c.st = .disconnected) : (run c os).1.st = .disconnected ∧ ∀ e ∈ (run c os).2, e = .reset := by
  induction os generalizing c with
  | nil => exact ⟨h, by simp [run]⟩
  | cons o os ih =>
    obtain ⟨a, b⟩ := step_disc c o h
    obtain ⟨x, y⟩ := ih _ a
    refine ⟨x, fun e he => ?_⟩
    simp only [run, List.mem_append] at he
    rcases he with he | he
    · exact b e he
    · exact y e he

/-- What a packet does to a connection that is being closed. -/
theorem packet_late (c : Conn) (p : Pkt) (fs : List Fr) (r : Tls) (h : 15 ≤ c.st.code) :
    ((packet c p fs r).1 = c ∧ (packet c p fs r).2.1 = []) ∨
    ((c.st = .closing ∨ c.st = .disconnecting) ∧ p = .oneRtt ∧
      ((closingFrames fs = some false ∧ (packet c p fs r).1 = { c with ackNeeded := true } ∧ (packet c p fs r).2.1 = []) ∨
       (closingFrames fs = some true ∧ c.client = true ∧ (packet c p fs r).1 = { c with st := .disconnected } ∧ (packet c p fs r).2.1 = [.close]) ∨
       (closingFrames fs = some true ∧ c.client = false ∧ (packet c p fs r).1 = { c with st := .draining } ∧ (packet c p fs r).2.1 = []))) := by
  cases p with
  | oneRtt =>
    rcases late h with hs | hs | hs | hs | hs
    · cases hf : closingFrames fs with
      | none => left; simp [packet, hs, St.code, hf]
      | some b => cases b <;> cases hc : c.client <;> simp [packet, hs, St.code, hf, disconnect, hc]
    · left; simp [packet, hs, St.code]
    · cases hf : closingFrames fs with
      | none => left; simp [packet, hs, St.code, hf]
      | some b => cases b <;> cases hc : c.client <;> simp [packet, hs, St.code, hf, disconnect, hc]
    · left; simp [packet, hs, St.code]
    · left; simp [packet, hs, St.code]
  | _ => left; rcases late h with hs | hs | hs | hs | hs <;> simp [packet, hs, St.code]

/-- What a packet does, with its time. -/
theorem recv_late (c : Conn) (t : Nat) (p : Pkt) (fs : List Fr) (r : Tls) (h : 15 ≤ c.st.code) :
    ∃ x, ((recv c t p fs r).1 = { c with lastRecv := x } ∧ (recv c t p fs r).2 = []) ∨
    ((c.st = .closing ∨ c.st = .disconnecting) ∧ p = .oneRtt ∧
      ((closingFrames fs = some false ∧ (recv c t p fs r).1 = { c with ackNeeded := true, lastRecv := x } ∧ (recv c t p fs r).2 = []) ∨
       (closingFrames fs = some true ∧ (recv c t p fs r).1 = { c with st := .disconnected, lastRecv := x } ∧ (recv c t p fs r).2 = [.close]) ∨
       (closingFrames fs = some true ∧ (recv c t p fs r).1 = { c with st := .draining, lastRecv := x } ∧ (recv c t p fs r).2 = []))) := by
  by_cases hk : (packet c p fs r).2.2 = true ∧ (packet c p fs r).1.st ≠ .disconnected
  · refine ⟨t, ?_⟩
    have e : recv c t p fs r = ({ (packet c p fs r).1 with lastRecv := t }, (packet c p fs r).2.1) := by unfold recv; rw [if_pos hk]
    rw [e]
    rcases packet_late c p fs r h with ⟨a, b⟩ | ⟨hs, hp, ⟨f, a, b⟩ | ⟨f, _, a, b⟩ | ⟨f, _, a, b⟩⟩
    · left; rw [a, b]; exact ⟨rfl, rfl⟩
    · right; refine ⟨hs, hp, ?_⟩; left; rw [a, b]; exact ⟨f, rfl, rfl⟩
    · exact absurd (by rw [a]) hk.2
    · right; refine ⟨hs, hp, ?_⟩; right; right; rw [a, b]; exact ⟨f, rfl, rfl⟩
  · refine ⟨c.lastRecv, ?_⟩
    have e : recv c t p fs r = ((packet c p fs r).1, (packet c p fs r).2.1) := by unfold recv; rw [if_neg hk]
    rw [e]
    rcases packet_late c p fs r h with ⟨a, b⟩ | ⟨hs, hp, ⟨f, a, b⟩ | ⟨f, _, a, b⟩ | ⟨f, _, a, b⟩⟩
    · left; rw [a, b]; exact ⟨rfl, rfl⟩
    · right; refine ⟨hs, hp, ?_⟩; left; rw [a, b]; exact ⟨f, rfl, rfl⟩
    · right; refine ⟨hs, hp, ?_⟩; right; left; rw [a, b]; exact ⟨f, rfl, rfl⟩
    · right; refine ⟨hs, hp, ?_⟩; right; right; rw [a, b]; exact ⟨f, rfl, rfl⟩

theorem pc_disconnecting (c : Conn) (p : Env) (t w : Nat) (h : c.st = .disconnecting) :
    prepareClosing c p t w = ({ c with st := .closing, progress := t, lastClose := t, ackNeeded := false }, [.sent t (closeContent c)], t) := by
  simp [prepareClosing, h]

theorem pc_received (c : Conn) (p : Env) (t w : Nat) (h : c.st = .closingReceived) :
    prepareClosing c p t w = ({ c with lastClose := t, st := .draining }, [.sent t (.conn c.localError)], t) := by
  simp [prepareClosing, h]

theorem pc_draining (c : Conn) (p : Env) (t w : Nat) (h : c.st = .draining) :
    prepareClosing c p t w = if t ≥ c.progress + 3 * p.rto then ({ c with st := .disconnected }, [.close], t) else (c, [], c.progress + 3 * p.rto) := by
  simp [prepareClosing, h, disconnect]

theorem pc_closing (c : Conn) (p : Env) (t w : Nat) (h : c.st = .closing) :
    (t ≥ c.progress + 3 * p.rto ∧ prepareClosing c p t w = ({ c with st := .disconnected }, [.close], t)) ∨
    (t < c.progress + 3 * p.rto ∧ t ≥ c.lastClose + p.srtt ∧ c.ackNeeded = true ∧
      prepareClosing c p t w = ({ c with ackNeeded := false, lastClose := t }, [.sent t (closeContent c)], t)) ∨
    (t < c.progress + 3 * p.rto ∧ ∃ w', w' ≤ c.progress + 3 * p.rto ∧ prepareClosing c p t w = (c, [], w')) := by
  by_cases h1 : t ≥ c.progress + 3 * p.rto
  · left; refine ⟨h1, ?_⟩; simp [prepareClosing, h, disconnect, h1]
  · right
    by_cases h2 : t ≥ c.lastClose + p.srtt
    · cases ha : c.ackNeeded
      · right
        have e : prepareClosing c p t w = (c, [], if t + (if p.rttMin * 2 < p.rto then p.rto / 2 else p.rttMin) > c.progress + 3 * p.rto then c.progress + 3 * p.rto
            else t + (if p.rttMin * 2 < p.rto then p.rto / 2 else p.rttMin)) := by
          dsimp only [prepareClosing]
          rw [if_neg (by simp [h]), if_pos h, if_neg h1, if_pos h2, if_neg (by simp [ha])]
        refine ⟨by omega, _, ?_, e⟩
        generalize (if p.rttMin * 2 < p.rto then p.rto / 2 else p.rttMin) = x
        split <;> omega
      · left; refine ⟨by omega, h2, rfl, ?_⟩
        dsimp only [prepareClosing]
        rw [if_neg (by simp [h]), if_pos h, if_neg h1, if_pos h2, if_pos ha]
    · right
      have e : prepareClosing c p t w = (c, [], if w > c.progress + 3 * p.rto then c.progress + 3 * p.rto else w) := by
        dsimp only [prepareClosing]
        rw [if_neg (by simp [h]), if_pos h, if_neg h1, if_neg h2]
      refine ⟨by omega, _, ?_, e⟩
      split <;> omega

/-- A connection that is being closed and is asked for a packet. -/
theorem prepare_late (c : Conn) (t : Nat) (p : Env) (h : 15 ≤ c.st.code) (hn : c.st ≠ .disconnected) :
    (t ≥ idleDeadline c p ∧ (prepare c t p).1.st = .disconnected ∧ (prepare c t p).2.1 = [.close]) ∨
    (t < idleDeadline c p ∧ p.control = true ∧ prepare c t p = (c, [.sent t .control], t)) ∨
    (t < idleDeadline c p ∧ p.control = false ∧
      prepare c t p = prepareClosing c p t (if idleDeadline c p < p.wake then idleDeadline c p else p.wake)) := by
  unfold prepare
  by_cases hd : t ≥ idleDeadline c p
  · left
    rw [if_pos hd]
    refine ⟨hd, disconnect_st _, ?_⟩
    exact disconnect_ev _ (by by_cases hx : c.st = .draining <;> simp [hx, hn])
  · right
    rw [if_neg hd, if_neg hn]
    by_cases hc : p.control = true
    · left; refine ⟨by omega, hc, ?_⟩; simp [hc]
    · right
      have hc' : p.control = false := by cases hp : p.control <;> simp_all
      refine ⟨by omega, hc', ?_⟩
      have hi : isClosing c.st = true := by
        rcases late h with hs | hs | hs | hs | hs <;> first | exact absurd hs hn | simp [hs, isClosing, St.code]
      simp only [hc', hi, if_true, Bool.false_eq_true, if_false]
      rw [if_neg]
      rintro ⟨_, hx⟩
      revert hx
      rcases late h with hs | hs | hs | hs | hs
      · rw [pc_disconnecting _ _ _ _ hs]; intro hx; cases hx
      · rw [pc_received _ _ _ _ hs]; intro hx; cases hx
      · rcases pc_closing c p t (if idleDeadline c p < p.wake then idleDeadline c p else p.wake) hs with ⟨_, b⟩ | ⟨_, _, _, b⟩ | ⟨_, _, _, b⟩ <;> rw [b] <;> simp [hs]
      · rw [pc_draining _ _ _ _ hs]; split <;> simp [hs]
      · exact absurd hs hn

/-- The order of the states of closing. -/
theorem step_mono (c : Conn) (o : Op) (h : 15 ≤ c.st.code) : c.st.code ≤ (step c o).1.st.code := by
  by_cases hn : c.st = .disconnected
  · rw [(step_disc c o hn).1, hn]; exact Nat.le_refl _
  have h18 : c.st.code ≤ 18 := by rcases late h with hs | hs | hs | hs | hs <;> first | exact absurd hs hn | (rw [hs]; decide)
  cases o with
  | close code =>
    simp only [step, close]
    rcases late h with hs | hs | hs | hs | hs <;> simp [hs, St.code]
  | closeImmediate t =>
    simp only [step, closeImmediate]
    split
    · exact h18
    · exact Nat.le_refl _
  | error e =>
    simp only [step, error]
    rcases late h with hs | hs | hs | hs | hs <;> simp [hs, St.code]
  | recv t p fs r =>
    simp only [step]
    obtain ⟨x, ⟨a, _⟩ | ⟨hs, _, ⟨_, a, _⟩ | ⟨_, a, _⟩ | ⟨_, a, _⟩⟩⟩ := recv_late c t p fs r h
    · rw [a]; exact Nat.le_refl _
    · rw [a]; exact Nat.le_refl _
    · rw [a]; exact Nat.le_trans h18 (by simp [St.code])
    · rw [a]; exact h18
  | statelessReset => simp only [step, statelessReset]; rw [disconnect_st]; exact Nat.le_trans h18 (by decide)
  | versionNegotiation => simp only [step, versionNegotiation]; rw [if_pos (by rcases late h with hs | hs | hs | hs | hs <;> simp [hs])]; exact Nat.le_refl _
  | prepare t p =>
    simp only [step]
    rcases prepare_late c t p h hn with ⟨_, a, _⟩ | ⟨_, _, a⟩ | ⟨_, _, a⟩
    · rw [a]; exact Nat.le_trans h18 (by decide)
    · rw [a]; exact Nat.le_refl _
    · rw [a]
      rcases late h with hs | hs | hs | hs | hs
      · rw [pc_disconnecting _ _ _ _ hs, hs]; simp [St.code]
      · rw [pc_received _ _ _ _ hs, hs]; simp [St.code]
      · rcases pc_closing c p t _ hs with ⟨_, b⟩ | ⟨_, _, _, b⟩ | ⟨_, _, _, b⟩ <;> rw [b] <;> simp [hs, St.code]
      · rw [pc_draining _ _ _ _ hs]; split <;> simp [hs, St.code]
      · exact absurd hs hn
  | keys a b d => exact Nat.le_refl _

theorem run_mono (c : Conn) (os : List Op) (h : 15 ≤ c.st.code) : c.st.code ≤ (run c os).1.st.code := by
  induction os generalizing c with
  | nil => exact Nat.le_refl _
  | cons o os ih =>
    have h1 := step_mono c o h
    exact Nat.le_trans h1 (ih _ (by omega))

/-- The time from which the end is counted does not move. -/
theorem step_progress (c : Conn) (o : Op) (h : 17 ≤ c.st.code) (ho : ∀ t, o ≠ .closeImmediate t) : (step c o).1.progress = c.progress := by
  have h15 : 15 ≤ c.st.code := by omega
  have hs : c.st = .closing ∨ c.st = .draining ∨ c.st = .disconnected := by
    rcases late h15 with hs | hs | hs | hs | hs <;> first | exact Or.inl hs | exact Or.inr (Or.inl hs) | exact Or.inr (Or.inr hs) | (rw [hs] at h; exact absurd h (by decide))
  cases o with
  | close code => rcases hs with hs | hs | hs <;> simp [step, close, hs, St.code]
  | closeImmediate t => exact absurd rfl (ho t)
  | error e => rcases hs with hs | hs | hs <;> simp [step, error, hs, St.code]
  | recv t p fs r =>
    obtain ⟨x, ⟨a, _⟩ | ⟨_, _, ⟨_, a, _⟩ | ⟨_, a, _⟩ | ⟨_, a, _⟩⟩⟩ := recv_late c t p fs r h15 <;> simp [step, a]
  | statelessReset => simp only [step, statelessReset, disconnect]; split <;> rfl
  | versionNegotiation => rcases hs with hs | hs | hs <;> simp [step, versionNegotiation, hs]
  | prepare t p =>
    simp only [step, prepare]
    by_cases hd : t ≥ idleDeadline c p
    · rw [if_pos hd]
      rcases hs with hs | hs | hs <;> simp [hs, disconnect]
    · rw [if_neg hd]
      by_cases hx : c.st = .disconnected
      · rw [if_pos hx]
      · have hl := prepare_late c t p h15 hx
        unfold prepare at hl
        rw [if_neg hd, if_neg hx] at hl
        rw [if_neg hx]
        rcases hl with ⟨b, _⟩ | ⟨_, _, b⟩ | ⟨_, _, b⟩
        · omega
        · rw [b]
        · rw [b]
          rcases hs with hs | hs | hs
          · rcases pc_closing c p t (if idleDeadline c p < p.wake then idleDeadline c p else p.wake) hs with ⟨_, b⟩ | ⟨_, _, _, b⟩ | ⟨_, _, _, b⟩ <;> rw [b]
          · rw [pc_draining _ _ _ _ hs]; split <;> rfl
          · exact absurd hs hx
  | keys a b d => rfl

theorem run_progress (c : Conn) (os : List Op) (h : 17 ≤ c.st.code) (ho : ∀ t, Op.closeImmediate t ∉ os) : (run c os).1.progress = c.progress := by
  induction os generalizing c with
  | nil => rfl
  | cons o os ih =>
    have h1 := step_mono c o (by omega)
    have h2 := step_progress c o h (fun t e => ho t (by simp [e]))
    rw [← h2]
    exact ih _ (by omega) (fun t e => ho t (by simp [e]))

/-- After the first packet, a connection that is closed is closing or draining. -/
theorem prepare_first (c : Conn) (t : Nat) (p : Env) (h : 15 ≤ c.st.code) (hp : c.progress ≤ t) (hc : p.control = false) :
    17 ≤ (prepare c t p).1.st.code ∧ (prepare c t p).1.progress ≤ t := by
  by_cases hn : c.st = .disconnected
  · refine ⟨by rw [(prepare_disc c t p hn).1]; decide, ?_⟩
    have := step_progress c (.prepare t p) (by rw [hn]; decide) (by simp)
    simp only [step] at this
    omega
  rcases prepare_late c t p h hn with ⟨a, b, _⟩ | ⟨_, a, _⟩ | ⟨_, _, a⟩
  · refine ⟨by rw [b]; decide, ?_⟩
    have hq : (prepare c t p).1.progress = c.progress := by
      unfold prepare; rw [if_pos a]
      by_cases hx : c.st = .draining <;> simp [hx, disconnect, hn]
    omega
  · rw [hc] at a; cases a
  · rw [a]
    rcases late h with hs | hs | hs | hs | hs
    · rw [pc_disconnecting _ _ _ _ hs]; simp [St.code]
    · rw [pc_received _ _ _ _ hs]; simp [St.code]; exact hp
    · rcases pc_closing c p t (if idleDeadline c p < p.wake then idleDeadline c p else p.wake) hs with ⟨_, b⟩ | ⟨_, _, _, b⟩ | ⟨_, _, _, b⟩ <;> rw [b] <;> simp [hs, St.code, hp]
    · rw [pc_draining _ _ _ _ hs]; split <;> simp [hs, St.code, hp]
    · exact absurd hs hn

theorem prepare_last (c : Conn) (t : Nat) (p : Env) (h : 17 ≤ c.st.code) (hp : c.progress + 3 * p.rto ≤ t) (hc : p.control = false) :
    (prepare c t p).1.st = .disconnected := by
  by_cases hn : c.st = .disconnected
  · exact (prepare_disc c t p hn).1
  rcases prepare_late c t p (by omega) hn with ⟨_, b, _⟩ | ⟨_, a, _⟩ | ⟨_, _, a⟩
  · exact b
  · rw [hc] at a; cases a
  · rw [a]
    rcases late (by omega : 15 ≤ c.st.code) with hs | hs | hs | hs | hs
    · rw [hs] at h; simp [St.code] at h
    · rw [hs] at h; simp [St.code] at h
    · rcases pc_closing c p t (if idleDeadline c p < p.wake then idleDeadline c p else p.wake) hs with ⟨_, b⟩ | ⟨b, _⟩ | ⟨b, _⟩
      · rw [b]
      · omega
      · omega
    · rw [pc_draining _ _ _ _ hs, if_pos (by omega)]
    · exact absurd hs hn

theorem run_append (c : Conn) (a b : List Op) : run c (a ++ b) = ((run (run c a).1 b).1, (run c a).2 ++ (run (run c a).1 b).2) := by
  induction a generalizing c with
  | nil => rfl
  | cons o os ih => simp [run, ih, List.append_assoc]

/-! ## Packets sent while closing -/

/-- Packets that will be sent even if nothing is received. -/
def pending (c : Conn) : Nat :=
  if c.st = .disconnecting ∨ c.st = .closingReceived then 1 else if c.st = .closing ∧ c.ackNeeded = true then 1 else 0

theorem step_few (c : Conn) (o : Op) (h : 15 ≤ c.st.code) (hc : noAddressValidated o = true) :
    (step c o).2.countP isPacketSent + pending (step c o).1 ≤ pending c + (if packetReceived o then 1 else 0) := by
  by_cases hn : c.st = .disconnected
  · obtain ⟨a, b⟩ := step_disc c o hn
    have : (step c o).2.countP isPacketSent = 0 := by
      rw [List.countP_eq_zero]; intro e he; rw [b e he]; decide
    simp [this, pending, a]
  cases o with
  | close code => rcases late h with hs | hs | hs | hs | hs <;> simp [step, close, hs, St.code, pending]
  | closeImmediate t => rcases late h with hs | hs | hs | hs | hs <;> simp [step, closeImmediate, hs, St.code, pending]
  | error e => rcases late h with hs | hs | hs | hs | hs <;> simp [step, error, hs, St.code, pending]
  | recv t p fs r =>
    obtain ⟨x, ⟨a, b⟩ | ⟨hs, _, ⟨_, a, b⟩ | ⟨_, a, b⟩ | ⟨_, a, b⟩⟩⟩ := recv_late c t p fs r h
    · simp [step, a, b, pending]
    · rcases hs with hs | hs <;> simp [step, a, b, pending, hs, packetReceived]
    · simp [step, a, b, pending, isPacketSent]
    · simp [step, a, b, pending]
  | statelessReset => simp [step, statelessReset, disconnect, hn, pending, isPacketSent]
  | versionNegotiation => rcases late h with hs | hs | hs | hs | hs <;> simp [step, versionNegotiation, hs, pending]
  | prepare t p =>
    simp only [step]
    rcases prepare_late c t p h hn with ⟨_, a, b⟩ | ⟨_, a, _⟩ | ⟨_, _, a⟩
    · simp [a, b, pending, isPacketSent]
    · simp [noAddressValidated, a] at hc
    · rw [a]
      rcases late h with hs | hs | hs | hs | hs
      · rw [pc_disconnecting _ _ _ _ hs]; simp [pending, hs, isPacketSent]
      · rw [pc_received _ _ _ _ hs]; simp [pending, hs, isPacketSent]
      · rcases pc_closing c p t (if idleDeadline c p < p.wake then idleDeadline c p else p.wake) hs with ⟨_, b⟩ | ⟨_, _, e, b⟩ | ⟨_, _, _, b⟩ <;> rw [b] <;> simp [pending, isPacketSent, *]
      · rw [pc_draining _ _ _ _ hs]; split <;> simp [pending, hs, isPacketSent]
      · exact absurd hs hn
  | keys a b d =>
    refine Nat.le_trans (Nat.le_of_eq ?_) (Nat.le_add_right _ _)
    show 0 + pending c = pending c
    omega

theorem run_few (c : Conn) (os : List Op) (h : 15 ≤ c.st.code) (hc : ∀ o ∈ os, noAddressValidated o = true) :
    (run c os).2.countP isPacketSent ≤ pending c + os.countP packetReceived := by
  induction os generalizing c with
  | nil => simp [run]
  | cons o os ih =>
    have h1 := step_mono c o h
    have h2 := step_few c o h (hc o (by simp))
    have h3 := ih (step c o).1 (by omega) (fun o' ho' => hc o' (by simp [ho']))
    simp only [run, List.countP_append, List.countP_cons]
    omega

theorem timesSent_append (a b : List Ev) : timesSent (a ++ b) = timesSent a ++ timesSent b := by
  induction a with
  | nil => rfl
  | cons e a ih => cases e <;> simp [timesSent, ih]

theorem timesSent_nil (a : List Ev) (h : a.countP isPacketSent = 0) : timesSent a = [] := by
  induction a with
  | nil => rfl
  | cons e a ih => cases e <;> simp [isPacketSent] at h <;> simp [timesSent] <;> exact ih (by simpa [isPacketSent] using h)

theorem roundTripAtLeast_noControl {m : Nat} {o : Op} (h : roundTripAtLeast m o = true) : noAddressValidated o = true := by
  cases o <;> simp_all [roundTripAtLeast, noAddressValidated]

/-- A connection in the closing state: nothing is sent, or one packet, late enough. -/
theorem step_spaced (m : Nat) (c : Conn) (o : Op) (h : c.st = .closing) (hm : roundTripAtLeast m o = true) :
    (timesSent (step c o).2 = [] ∧ ((step c o).1.st = .closing ∧ ((step c o).1.lastClose = c.lastClose) ∨ 18 ≤ (step c o).1.st.code)) ∨
    (∃ t, timesSent (step c o).2 = [t] ∧ c.lastClose + m ≤ t ∧ (step c o).1.st = .closing ∧ (step c o).1.lastClose = t) := by
  have h15 : 15 ≤ c.st.code := by rw [h]; decide
  have hn : c.st ≠ .disconnected := by rw [h]; decide
  cases o with
  | close code => simp [step, close, h, St.code, timesSent]
  | closeImmediate t => simp [step, closeImmediate, h, St.code, timesSent]
  | error e => simp [step, error, h, St.code, timesSent]
  | recv t p fs r =>
    obtain ⟨x, ⟨a, b⟩ | ⟨hs, _, ⟨_, a, b⟩ | ⟨_, a, b⟩ | ⟨_, a, b⟩⟩⟩ := recv_late c t p fs r h15 <;> simp [step, a, b, timesSent, h, St.code]
  | statelessReset => simp [step, statelessReset, disconnect, hn, timesSent, St.code]
  | versionNegotiation => simp [step, versionNegotiation, h, timesSent]
  | prepare t p =>
    simp only [step]
    simp [roundTripAtLeast] at hm
    rcases prepare_late c t p h15 hn with ⟨_, a, b⟩ | ⟨_, a, _⟩ | ⟨_, _, a⟩
    · simp [a, b, timesSent, St.code]
    · rw [hm.1] at a; cases a
    · rw [a]
      rcases pc_closing c p t (if idleDeadline c p < p.wake then idleDeadline c p else p.wake) h with ⟨_, b⟩ | ⟨_, d, e, b⟩ | ⟨_, _, _, b⟩
      · rw [b]; simp [timesSent, St.code]
      · rw [b]; right; refine ⟨t, rfl, by omega, ?_, rfl⟩; exact h
      · rw [b]; simp [timesSent, h]
  | keys a b d => simp [step, timesSent, h]

theorem run_silent (c : Conn) (os : List Op) (h : 18 ≤ c.st.code) (hc : ∀ o ∈ os, noAddressValidated o = true) : (run c os).2.countP isPacketSent = 0 := by
  induction os generalizing c with
  | nil => rfl
  | cons o os ih =>
    have h1 := step_mono c o (by omega)
    have h2 : (step c o).2.countP isPacketSent = 0 := by
      by_cases hn : c.st = .disconnected
      · rw [List.countP_eq_zero]; intro e he; rw [(step_disc c o hn).2 e he]; decide
      · have hd : c.st = .draining := by
          rcases late (by omega : 15 ≤ c.st.code) with hs | hs | hs | hs | hs
          · rw [hs] at h; exact absurd h (by decide)
          · rw [hs] at h; exact absurd h (by decide)
          · rw [hs] at h; exact absurd h (by decide)
          · exact hs
          · exact absurd hs hn
        cases o with
        | close code => simp [step, close, hd, St.code]
        | closeImmediate t => simp [step, closeImmediate, hd, St.code]
        | error e => simp [step]
        | recv t p fs r =>
          obtain ⟨x, ⟨a, b⟩ | ⟨hs, _, ⟨_, a, b⟩ | ⟨_, a, b⟩ | ⟨_, a, b⟩⟩⟩ := recv_late c t p fs r (by omega) <;> simp [step, b, isPacketSent]
        | statelessReset => simp [step, statelessReset, disconnect, hn, isPacketSent]
        | versionNegotiation => simp [step, versionNegotiation, hd]
        | prepare t p =>
          simp only [step]
          rcases prepare_late c t p (by omega) hn with ⟨_, a, b⟩ | ⟨_, a, _⟩ | ⟨_, _, a⟩
          · simp [b, isPacketSent]
          · have := hc (.prepare t p) (by simp); simp [noAddressValidated, a] at this
          · rw [a, pc_draining _ _ _ _ hd]; split <;> simp [isPacketSent]
        | keys a b d => simp [step]
    simp only [run, List.countP_append, h2, Nat.zero_add]
    exact ih _ (by omega) (fun o' ho' => hc o' (by simp [ho']))

theorem run_spaced (m : Nat) (c : Conn) (os : List Op) (h : c.st = .closing) (hm : ∀ o ∈ os, roundTripAtLeast m o = true) :
    (c.lastClose :: timesSent (run c os).2).Pairwise (fun a b => a + m ≤ b) := by
  induction os generalizing c with
  | nil => simp [run, timesSent]
  | cons o os ih =>
    have hm' : ∀ o' ∈ os, roundTripAtLeast m o' = true := fun o' ho' => hm o' (by simp [ho'])
    simp only [run, timesSent_append]
    rcases step_spaced m c o h (hm o (by simp)) with ⟨a, ⟨b, e⟩ | b⟩ | ⟨t, a, b, d, e⟩
    · rw [a, List.nil_append, ← e]; exact ih _ b hm'
    · rw [a, timesSent_nil _ (run_silent _ os b (fun o' ho' => roundTripAtLeast_noControl (hm' o' ho')))]; simp
    · rw [a]
      have := ih _ d hm'
      rw [e] at this
      simp only [List.cons_append, List.nil_append]
      rw [List.pairwise_cons]
      refine ⟨fun x hx => ?_, this⟩
      rcases List.mem_cons.1 hx with rfl | hx
      · exact b
      · have := (List.pairwise_cons.1 this).1 x hx
        omega

/-! ## The reason -/

/-- The reason does not change. -/
theorem step_reason (c : Conn) (o : Op) (h : c.st = .disconnecting ∨ c.st = .closing) (ho : ∀ t, o ≠ .closeImmediate t) :
    (∀ t x, Ev.sent t x ∈ (step c o).2 → x = .control ∨ x = closeContent c) ∧
    (((step c o).1.st = .disconnecting ∨ (step c o).1.st = .closing) ∧ closeContent (step c o).1 = closeContent c ∨ 18 ≤ (step c o).1.st.code) := by
  have h15 : 15 ≤ c.st.code := by rcases h with h | h <;> rw [h] <;> decide
  have hn : c.st ≠ .disconnected := by rcases h with h | h <;> rw [h] <;> decide
  cases o with
  | close code => rcases h with h | h <;> simp [step, close, h, St.code]
  | closeImmediate t => exact absurd rfl (ho t)
  | error e => rcases h with h | h <;> simp [step, error, h, St.code]
  | recv t p fs r =>
    obtain ⟨x, ⟨a, b⟩ | ⟨hs, _, ⟨_, a, b⟩ | ⟨_, a, b⟩ | ⟨_, a, b⟩⟩⟩ := recv_late c t p fs r h15 <;> simp [step, a, b, h, St.code, closeContent]
  | statelessReset => simp [step, statelessReset, disconnect, hn, St.code]
  | versionNegotiation => rcases h with h | h <;> simp [step, versionNegotiation, h]
  | prepare t p =>
    simp only [step]
    rcases prepare_late c t p h15 hn with ⟨_, a, b⟩ | ⟨_, _, a⟩ | ⟨_, _, a⟩
    · simp [a, b, St.code]
    · rw [a]; simp [h]
    · rw [a]
      rcases h with h | h
      · rw [pc_disconnecting _ _ _ _ h]; simp [closeContent]
      · rcases pc_closing c p t (if idleDeadline c p < p.wake then idleDeadline c p else p.wake) h with ⟨_, b⟩ | ⟨_, d, e, b⟩ | ⟨_, _, _, b⟩ <;> rw [b] <;> simp [h, St.code, closeContent]
  | keys a b d => exact ⟨by simp [step], Or.inl ⟨h, rfl⟩⟩

/-- While draining, only other addresses get packets. -/
theorem step_draining (c : Conn) (o : Op) (h : 18 ≤ c.st.code) : ∀ t x, Ev.sent t x ∈ (step c o).2 → x = .control := by
  intro t x hx
  have h15 : 15 ≤ c.st.code := by omega
  by_cases hn : c.st = .disconnected
  · have := (step_disc c o hn).2 _ hx; cases this
  have hd : c.st = .draining := by
    rcases late h15 with hs | hs | hs | hs | hs
    · rw [hs] at h; exact absurd h (by decide)
    · rw [hs] at h; exact absurd h (by decide)
    · rw [hs] at h; exact absurd h (by decide)
    · exact hs
    · exact absurd hs hn
  revert hx
  cases o with
  | close code => simp [step, close, hd, St.code]
  | closeImmediate t => simp [step, closeImmediate, hd, St.code]
  | error e => simp [step]
  | recv t p fs r =>
    obtain ⟨y, ⟨a, b⟩ | ⟨hs, _, ⟨_, a, b⟩ | ⟨_, a, b⟩ | ⟨_, a, b⟩⟩⟩ := recv_late c t p fs r h15 <;> simp [step, b]
  | statelessReset => simp [step, statelessReset, disconnect, hn]
  | versionNegotiation => simp [step, versionNegotiation, hd]
  | prepare t p =>
    simp only [step]
    rcases prepare_late c t p h15 hn with ⟨_, a, b⟩ | ⟨_, _, a⟩ | ⟨_, _, a⟩
    · simp [b]
    · rw [a]; simp
    · rw [a, pc_draining _ _ _ _ hd]; split <;> simp
  | keys a b d => simp [step]

theorem run_draining (c : Conn) (os : List Op) (h : 18 ≤ c.st.code) : ∀ t x, Ev.sent t x ∈ (run c os).2 → x = .control := by
  induction os generalizing c with
  | nil => simp [run]
  | cons o os ih =>
    intro t x hx
    have h1 := step_mono c o (by omega)
    simp only [run, List.mem_append] at hx
    rcases hx with hx | hx
    · exact step_draining c o h t x hx
    · exact ih _ (by omega) t x hx

theorem run_reason (c : Conn) (os : List Op) (h : c.st = .disconnecting ∨ c.st = .closing) (ho : ∀ t, Op.closeImmediate t ∉ os) :
    ∀ t x, Ev.sent t x ∈ (run c os).2 → x = .control ∨ x = closeContent c := by
  induction os generalizing c with
  | nil => simp [run]
  | cons o os ih =>
    intro t x hx
    obtain ⟨a, b⟩ := step_reason c o h (fun t e => ho t (by simp [e]))
    simp only [run, List.mem_append] at hx
    rcases hx with hx | hx
    · exact a t x hx
    · rcases b with ⟨b, d⟩ | b
      · rw [← d]; exact ih _ b (fun t e => ho t (by simp [e])) t x hx
      · exact Or.inl (run_draining _ os b t x hx)

/-! ## The application is told -/

theorem error_disc (c : Conn) (e : Nat) : (error c e).st = .disconnected ↔ c.st = .disconnected := by
  cases hs : c.st <;> simp [error, hs, St.code]

theorem tls_disc (c : Conn) (r : Tls) : (tls c r).st = .disconnected ↔ c.st = .disconnected := by
  cases r with
  | nothing => exact Iff.rfl
  | fail e => exact error_disc c e
  | ok complete params enc1 pushed auth =>
    cases hs : c.st <;> cases complete <;> cases params <;> cases enc1 <;> cases pushed <;> cases auth <;> simp [tls, hs, error, St.code]
  | more complete => cases hs : c.st <;> cases complete <;> simp [tls, hs]

/-- A frame that ends the connection is told. -/
theorem frame_told (b : Bool) (c : Conn) (f : Fr) (h : (frame b c f).1.st = .disconnected) :
    c.st = .disconnected ∨ Ev.close ∈ (frame b c f).2.1 ∨ Ev.appClose ∈ (frame b c f).2.1 := by
  cases f with
  | other => exact Or.inl h
  | close =>
    simp only [frame] at h ⊢
    by_cases hs : c.st = .disconnected
    · exact Or.inl hs
    · right; left; rw [if_pos ⟨by rw [h]; exact fun x => hs x.symm, h⟩]; simp
  | appClose =>
    cases b
    · exact Or.inl ((error_disc c 0xA).1 (by simpa [frame] using h))
    · right; right; simp [frame]
  | handshakeDone =>
    simp only [frame, readyTransition] at h
    split at h
    · exact Or.inl ((error_disc c 0xA).1 h)
    · split at h
      · simp at h
      · split at h
        · exact Or.inl ((error_disc c 0xA).1 h)
        · exact Or.inl h
  | ack =>
    simp only [frame, readyTransition] at h
    split at h
    · simp at h
    · exact Or.inl h
  | bad e => exact Or.inl ((error_disc c e).1 h)

/-- Other frames do not end it, and those tell nothing. -/
theorem frame_quiet (b : Bool) (c : Conn) (f : Fr) (hf : closeFrame f = false) :
    ((frame b c f).1.st = .disconnected ↔ c.st = .disconnected) ∧ Ev.close ∉ (frame b c f).2.1 ∧ Ev.appClose ∉ (frame b c f).2.1 := by
  cases f with
  | other => simp [frame]
  | close => cases hf
  | appClose => cases hf
  | handshakeDone =>
    simp only [frame, readyTransition]
    split
    · exact ⟨error_disc c 0xA, by simp, by simp⟩
    · split
      · rename_i h; simp [h]
      · split
        · exact ⟨error_disc c 0xA, by simp, by simp⟩
        · simp
  | ack =>
    simp only [frame, readyTransition]
    split
    · rename_i h; rcases h with h | h <;> simp [h]
    · simp
  | bad e => exact ⟨error_disc c e, by simp [frame], by simp [frame]⟩

theorem frames_cons (b : Bool) (c : Conn) (f : Fr) (fs : List Fr) :
    frames b c (f :: fs) = if (frame b c f).2.2 then ((frames b (frame b c f).1 fs).1, (frame b c f).2.1 ++ (frames b (frame b c f).1 fs).2.1, (frames b (frame b c f).1 fs).2.2)
      else ((frame b c f).1, (frame b c f).2.1, false) := by
  rw [frames]
  rcases frame b c f with ⟨c', e, k⟩
  cases k <;> rfl

theorem frames_told (b : Bool) (c : Conn) (fs : List Fr) (h : (frames b c fs).1.st = .disconnected) :
    c.st = .disconnected ∨ Ev.close ∈ (frames b c fs).2.1 ∨ Ev.appClose ∈ (frames b c fs).2.1 := by
  induction fs generalizing c with
  | nil => exact Or.inl h
  | cons f fs ih =>
    rw [frames_cons] at h ⊢
    split at h
    · rename_i hk
      rw [if_pos hk]
      simp only [List.mem_append]
      rcases ih _ h with a | a | a
      · rcases frame_told b c f a with x | x | x
        · exact Or.inl x
        · exact Or.inr (Or.inl (Or.inl x))
        · exact Or.inr (Or.inr (Or.inl x))
      · exact Or.inr (Or.inl (Or.inr a))
      · exact Or.inr (Or.inr (Or.inr a))
    · rename_i hk
      rw [if_neg hk]
      exact frame_told b c f h

theorem frames_quiet (b : Bool) (c : Conn) (fs : List Fr) (hf : fs.countP closeFrame = 0) :
    ((frames b c fs).1.st = .disconnected ↔ c.st = .disconnected) ∧ Ev.close ∉ (frames b c fs).2.1 := by
  induction fs generalizing c with
  | nil => simp [frames]
  | cons f fs ih =>
    have h1 : closeFrame f = false := by
      cases hx : closeFrame f with
      | false => rfl
      | true => rw [List.countP_cons_of_pos hx] at hf; omega
    rw [List.countP_cons_of_neg (by simp [h1])] at hf
    obtain ⟨q1, q2, _⟩ := frame_quiet b c f h1
    obtain ⟨i1, i2⟩ := ih (frame b c f).1 hf
    rw [frames_cons]
    split
    · exact ⟨i1.trans q1, by simp only [List.mem_append, not_or]; exact ⟨q2, i2⟩⟩
    · exact ⟨q1, q2⟩

/-- One close frame is told once. -/
theorem frames_once (b : Bool) (c : Conn) (fs : List Fr) (hn : c.st ≠ .disconnected) (hf : fs.countP closeFrame ≤ 1) :
    (frames b c fs).2.1.count .close = 0 ∨ ((frames b c fs).2.1.count .close = 1 ∧ (frames b c fs).1.st = .disconnected) := by
  induction fs generalizing c with
  | nil => left; simp [frames]
  | cons f fs ih =>
    rw [frames_cons]
    cases hx : closeFrame f with
    | false =>
      rw [List.countP_cons_of_neg (by simp [hx])] at hf
      obtain ⟨q1, q2, _⟩ := frame_quiet b c f hx
      split
      · have := ih (frame b c f).1 (fun e => hn (q1.1 e)) hf
        simp only [List.count_append, List.count_eq_zero.2 q2, Nat.zero_add]
        exact this
      · left; exact List.count_eq_zero.2 q2
    | true =>
      rw [List.countP_cons_of_pos hx] at hf
      obtain ⟨i1, i2⟩ := frames_quiet b (frame b c f).1 fs (by omega)
      have hone : (frame b c f).2.1.count .close = 0 ∨ ((frame b c f).2.1.count .close = 1 ∧ (frame b c f).1.st = .disconnected) := by
        cases f with
        | close =>
          simp only [frame]
          generalize (if c.st.code < 13 ∨ c.keys1 = false then St.disconnected else St.closingReceived) = s
          by_cases hs : s ≠ c.st ∧ s = .disconnected
          · right; rw [if_pos hs]; exact ⟨by simp, hs.2⟩
          · left; rw [if_neg hs]; simp
        | appClose => left; cases b <;> simp [frame]
        | _ => cases hx
      split
      · simp only [List.count_append, List.count_eq_zero.2 i2, Nat.add_zero]
        rcases hone with a | ⟨a, d⟩
        · exact Or.inl a
        · exact Or.inr ⟨a, i1.2 d⟩
      · exact hone

theorem framesTls_spec (b : Bool) (c : Conn) (fs : List Fr) (r : Tls) :
    ((framesTls b c fs r).1.st = .disconnected ↔ (frames b c fs).1.st = .disconnected) ∧ (framesTls b c fs r).2.1 = (frames b c fs).2.1 := by
  unfold framesTls
  dsimp only
  split
  · exact ⟨tls_disc _ _, rfl⟩
  · exact ⟨Iff.rfl, rfl⟩

/-- What a packet may do to a connection that is not disconnected. -/
theorem packet_cases (c : Conn) (p : Pkt) (fs : List Fr) (r : Tls) (hn : c.st ≠ .disconnected) :
    ((packet c p fs r).1.st ≠ .disconnected ∧ (packet c p fs r).2.1 = []) ∨
    ((packet c p fs r).1.st = .disconnected ∧ (packet c p fs r).2.1 = [.close]) ∨
    (∃ b c' es, c'.st ≠ .disconnected ∧ ((packet c p fs r).1.st = .disconnected ↔ (frames b c' fs).1.st = .disconnected) ∧
      (packet c p fs r).2.1 = (frames b c' fs).2.1 ++ es ∧ Ev.close ∉ es) := by
  cases p with
  | serverInitial =>
    simp only [packet]
    generalize hx : (if c.st = .clientInitSent ∨ c.st = .clientInitResent then { c with st := St.clientHandshakeStart } else c) = c'
    have hn' : c'.st ≠ .disconnected := by
      rw [← hx]; split
      · simp
      · exact hn
    split
    · right; right
      obtain ⟨a, b⟩ := framesTls_spec false c' fs r
      exact ⟨false, c', [], hn', a, by rw [b]; simp, by simp⟩
    · exact Or.inl ⟨hn', rfl⟩
  | clientInitial busy =>
    simp only [packet]
    split
    · exact Or.inl ⟨by simp, rfl⟩
    · split
      · right; right
        obtain ⟨a, b⟩ := framesTls_spec false c fs r
        exact ⟨false, c, [], hn, a, by rw [b]; simp, by simp⟩
      · exact Or.inl ⟨hn, rfl⟩
  | serverHandshake =>
    simp only [packet]
    split
    · right; right
      split
      · obtain ⟨a, b⟩ := framesTls_spec false c fs r
        exact ⟨false, c, [], hn, a, by rw [b]; simp, by simp⟩
      · exact ⟨false, c, [], hn, Iff.rfl, by simp, by simp⟩
    · exact Or.inl ⟨hn, rfl⟩
  | clientHandshake complete =>
    simp only [packet]
    split
    · right; right
      obtain ⟨a, b⟩ := framesTls_spec false c fs r
      split
      · rename_i hx
        refine ⟨false, c, [.ready], hn, ?_, by rw [b]; rfl, by simp⟩
        rw [← a]
        constructor
        · intro e; cases e
        · intro e; rw [e] at hx; exact absurd hx.2.2.1 (by decide)
      · exact ⟨false, c, [], hn, a, by rw [b]; simp, by simp⟩
    · exact Or.inl ⟨hn, rfl⟩
  | zeroRtt =>
    simp only [packet]
    split
    · right; right
      obtain ⟨a, b⟩ := framesTls_spec true c fs r
      exact ⟨true, c, [], hn, a, by rw [b]; simp, by simp⟩
    · exact Or.inl ⟨hn, rfl⟩
  | oneRtt =>
    by_cases h15 : 15 ≤ c.st.code
    · rcases packet_late c .oneRtt fs r h15 with ⟨a, b⟩ | ⟨hs, _, ⟨_, a, b⟩ | ⟨_, _, a, b⟩ | ⟨_, _, a, b⟩⟩
      · left; rw [a]; exact ⟨hn, b⟩
      · left; rw [a]; exact ⟨hn, b⟩
      · right; left; rw [a]; exact ⟨rfl, b⟩
      · left; rw [a]; exact ⟨by simp, b⟩
    · simp only [packet]
      split
      · exact Or.inl ⟨hn, rfl⟩
      · right; right
        obtain ⟨a, b⟩ := framesTls_spec true c fs r
        exact ⟨true, c, [], hn, a, by rw [b]; simp, by simp⟩

theorem recv_st (c : Conn) (t : Nat) (p : Pkt) (fs : List Fr) (r : Tls) :
    (recv c t p fs r).1.st = (packet c p fs r).1.st ∧ (recv c t p fs r).2 = (packet c p fs r).2.1 := by
  unfold recv
  dsimp only
  split <;> exact ⟨rfl, rfl⟩

theorem prepareOpen_quiet (c : Conn) (p : Env) (t w : Nat) (hn : c.st ≠ .disconnected) :
    (prepareOpen c p t w).1.st ≠ .disconnected ∧ Ev.close ∉ (prepareOpen c p t w).2.1 := by
  unfold prepareOpen
  generalize hx : (if p.eliciting = true then { c with progress := t } else c) = c'
  have hn' : c'.st ≠ .disconnected := by rw [← hx]; split <;> exact hn
  dsimp only
  cases hs : c'.st <;> simp only [readyTransition]
  all_goals first | exact absurd hs hn' | skip
  all_goals (repeat' split)
  all_goals simp [hs]

theorem prepareClosing_told (c : Conn) (p : Env) (t w : Nat) (hn : c.st ≠ .disconnected) :
    ((prepareClosing c p t w).1.st ≠ .disconnected ∧ Ev.close ∉ (prepareClosing c p t w).2.1) ∨
    ((prepareClosing c p t w).1.st = .disconnected ∧ (prepareClosing c p t w).2.1.count .close = 1) := by
  cases hs : c.st
  case disconnected => exact absurd hs hn
  case closing =>
    rcases pc_closing c p t w hs with ⟨_, b⟩ | ⟨_, _, _, b⟩ | ⟨_, _, _, b⟩
    · right; rw [b]; exact ⟨rfl, by simp⟩
    · left; rw [b]; exact ⟨hn, by simp⟩
    · left; rw [b]; exact ⟨hn, by simp⟩
  case draining =>
    rw [pc_draining _ _ _ _ hs]
    split
    · right; simp
    · left; exact ⟨hn, by simp⟩
  case disconnecting => left; rw [pc_disconnecting _ _ _ _ hs]; simp
  case closingReceived => left; rw [pc_received _ _ _ _ hs]; simp
  case handshakeFailure =>
    simp only [prepareClosing, hs]
    by_cases hk : c.keysHs = true ∧ c.hsRecv = false
    · left; simp [hk]
    · right; cases h1 : c.keysHs <;> cases h2 : c.hsRecv <;> simp_all [disconnect]
  case handshakeFailureResend => right; simp [prepareClosing, hs, disconnect]
  all_goals (left; simp [prepareClosing, hs])

theorem prepare_told (c : Conn) (t : Nat) (p : Env) (hn : c.st ≠ .disconnected) :
    ((prepare c t p).1.st ≠ .disconnected ∧ Ev.close ∉ (prepare c t p).2.1) ∨
    ((prepare c t p).1.st = .disconnected ∧ (prepare c t p).2.1.count .close = 1) := by
  unfold prepare
  by_cases hd : t ≥ idleDeadline c p
  · right
    rw [if_pos hd]
    refine ⟨disconnect_st _, ?_⟩
    dsimp only
    rw [disconnect_ev _ (by split <;> exact hn)]; simp
  · rw [if_neg hd, if_neg hn]
    dsimp only
    generalize (if idleDeadline c p < p.wake then idleDeadline c p else p.wake) = w
    split
    · left; exact ⟨hn, by simp⟩
    · split
      · split
        · rename_i hx
          have h1 := prepareClosing_told c p t w hn
          have h2 : (prepareClosing c p t w).1.st ≠ .disconnected := by rw [hx.2]; decide
          have h3 : Ev.close ∉ (prepareClosing c p t w).2.1 := by
            rcases h1 with h1 | h1
            · exact h1.2
            · exact absurd h1.1 h2
          rcases prepareClosing_told (prepareClosing c p t w).1 p t w h2 with ⟨a, b⟩ | ⟨a, b⟩
          · left; refine ⟨a, ?_⟩; simp only [List.mem_append, not_or]; exact ⟨h3, b⟩
          · right; refine ⟨a, ?_⟩; simp only [List.count_append, List.count_eq_zero.2 h3, b]
        · exact prepareClosing_told c p t w hn
      · left; exact prepareOpen_quiet c p t w hn

theorem step_told (c : Conn) (o : Op) (hn : c.st ≠ .disconnected) (h : (step c o).1.st = .disconnected) :
    Ev.close ∈ (step c o).2 ∨ Ev.appClose ∈ (step c o).2 := by
  cases o with
  | close code =>
    simp only [step, close] at h
    split at h
    · cases h
    · split at h
      · cases h
      · exact absurd h hn
  | closeImmediate t =>
    simp only [step, closeImmediate] at h
    split at h
    · cases h
    · exact absurd h hn
  | error e => exact absurd ((error_disc c e).1 h) hn
  | recv t p fs r =>
    simp only [step] at h ⊢
    rw [(recv_st c t p fs r).1] at h
    rw [(recv_st c t p fs r).2]
    rcases packet_cases c p fs r hn with ⟨a, _⟩ | ⟨_, b⟩ | ⟨b, c', es, h1, h2, h3, h4⟩
    · exact absurd h a
    · rw [b]; simp
    · rw [h3]
      simp only [List.mem_append]
      rcases frames_told b c' fs (h2.1 h) with x | x | x
      · exact absurd x h1
      · exact Or.inl (Or.inl x)
      · exact Or.inr (Or.inl x)
  | statelessReset => left; simp [step, statelessReset, disconnect, hn]
  | versionNegotiation =>
    simp only [step, versionNegotiation] at h ⊢
    split at h
    · exact absurd h hn
    · rename_i hx; rw [if_neg hx]; left; rw [disconnect_ev _ hn]; simp
  | prepare t p =>
    simp only [step] at h ⊢
    rcases prepare_told c t p hn with ⟨a, _⟩ | ⟨_, b⟩
    · exact absurd h a
    · left; exact List.count_pos_iff.1 (by omega)
  | keys a b d => exact absurd h hn

theorem run_told (c : Conn) (os : List Op) (hn : c.st ≠ .disconnected) (h : (run c os).1.st = .disconnected) :
    Ev.close ∈ (run c os).2 ∨ Ev.appClose ∈ (run c os).2 := by
  induction os generalizing c with
  | nil => exact absurd h hn
  | cons o os ih =>
    simp only [run, List.mem_append] at h ⊢
    by_cases hx : (step c o).1.st = .disconnected
    · rcases step_told c o hn hx with a | a
      · exact Or.inl (Or.inl a)
      · exact Or.inr (Or.inl a)
    · rcases ih _ hx h with a | a
      · exact Or.inl (Or.inr a)
      · exact Or.inr (Or.inr a)

theorem step_once (c : Conn) (o : Op) (hn : c.st ≠ .disconnected) (ho : oneCloseFrame o = true) :
    (step c o).2.count .close = 0 ∨ ((step c o).2.count .close = 1 ∧ (step c o).1.st = .disconnected) := by
  cases o with
  | close code => left; simp only [step, close]; repeat' split
                  all_goals simp
  | closeImmediate t => left; simp only [step, closeImmediate]; split <;> simp
  | error e => left; simp [step]
  | recv t p fs r =>
    simp only [step]
    rw [(recv_st c t p fs r).1, (recv_st c t p fs r).2]
    rcases packet_cases c p fs r hn with ⟨_, b⟩ | ⟨a, b⟩ | ⟨b, c', es, h1, h2, h3, h4⟩
    · left; rw [b]; simp
    · right; rw [b]; exact ⟨by simp, a⟩
    · rw [h3, List.count_append, List.count_eq_zero.2 h4, h2, Nat.add_zero]
      exact frames_once b c' fs h1 (by simpa [oneCloseFrame] using ho)
  | statelessReset => right; simp [step, statelessReset, disconnect, hn]
  | versionNegotiation =>
    simp only [step, versionNegotiation]
    split
    · left; simp
    · right; exact ⟨by rw [disconnect_ev _ hn]; simp, disconnect_st c⟩
  | prepare t p =>
    simp only [step]
    rcases prepare_told c t p hn with ⟨_, b⟩ | ⟨a, b⟩
    · left; exact List.count_eq_zero.2 b
    · right; exact ⟨b, a⟩
  | keys a b d => left; simp [step]

theorem run_once (c : Conn) (os : List Op) (hn : c.st ≠ .disconnected) (ho : ∀ o ∈ os, oneCloseFrame o = true) :
    (run c os).2.count .close = 0 ∨ ((run c os).2.count .close = 1 ∧ (run c os).1.st = .disconnected) := by
  induction os generalizing c with
  | nil => left; simp [run]
  | cons o os ih =>
    simp only [run, List.count_append]
    by_cases hx : (step c o).1.st = .disconnected
    · obtain ⟨a, b⟩ := run_disc _ os hx
      have h0 : (run (step c o).1 os).2.count .close = 0 := by
        rw [List.count_eq_zero]; intro e; have := b _ e; cases this
      rw [h0, Nat.add_zero]
      rcases step_once c o hn (ho o (by simp)) with e | ⟨e, _⟩
      · exact Or.inl e
      · exact Or.inr ⟨e, a⟩
    · rcases step_once c o hn (ho o (by simp)) with e | ⟨_, e⟩
      · rw [e, Nat.zero_add]; exact ih _ hx (fun o' ho' => ho o' (by simp [ho']))
      · exact absurd e hx

/-! ## Timers -/

theorem step_lasts (c : Conn) (o : Op) (h : c.st = .closing) (hx : (step c o).1.st ≠ .closing) :
    (∃ t, o = .closeImmediate t) ∨ o = .statelessReset ∨ (∃ t fs r, o = .recv t .oneRtt fs r ∧ closingFrames fs = some true) ∨
    (∃ t p, o = .prepare t p ∧ (c.progress + 3 * p.rto ≤ t ∨ idleDeadline c p ≤ t)) := by
  have h15 : 15 ≤ c.st.code := by rw [h]; decide
  have hn : c.st ≠ .disconnected := by rw [h]; decide
  cases o with
  | close code => exact absurd (by simp [step, close, h, St.code]) hx
  | closeImmediate t => exact Or.inl ⟨t, rfl⟩
  | error e => exact absurd (by simp [step, error, h, St.code]) hx
  | recv t p fs r =>
    right; right; left
    obtain ⟨x, ⟨a, b⟩ | ⟨hs, hp, ⟨_, a, b⟩ | ⟨f, a, b⟩ | ⟨f, a, b⟩⟩⟩ := recv_late c t p fs r h15
    · exact absurd (by simp only [step]; rw [a]; exact h) hx
    · exact absurd (by simp only [step]; rw [a]; exact h) hx
    · subst hp; exact ⟨t, fs, r, rfl, f⟩
    · subst hp; exact ⟨t, fs, r, rfl, f⟩
  | statelessReset => exact Or.inr (Or.inl rfl)
  | versionNegotiation => exact absurd (by simp [step, versionNegotiation, h]) hx
  | prepare t p =>
    right; right; right
    refine ⟨t, p, rfl, ?_⟩
    rcases prepare_late c t p h15 hn with ⟨a, _⟩ | ⟨_, _, a⟩ | ⟨_, _, a⟩
    · exact Or.inr a
    · exact absurd (by simp only [step]; rw [a]; exact h) hx
    · rcases pc_closing c p t (if idleDeadline c p < p.wake then idleDeadline c p else p.wake) h with ⟨b, _⟩ | ⟨_, _, _, b⟩ | ⟨_, _, _, b⟩
      · exact Or.inl b
      · exact absurd (by simp only [step]; rw [a, b]; exact h) hx
      · exact absurd (by simp only [step]; rw [a, b]; exact h) hx
  | keys a b d => exact absurd h hx

theorem prepare_open (c : Conn) (t : Nat) (p : Env) (ho : isClosing c.st = false) (hn : c.st ≠ .disconnected) :
    (prepare c t p).1.st = .disconnected ↔ idleDeadline c p ≤ t := by
  unfold prepare
  by_cases hd : t ≥ idleDeadline c p
  · rw [if_pos hd]; exact ⟨fun _ => hd, fun _ => disconnect_st _⟩
  · rw [if_neg hd, if_neg hn]
    dsimp only
    refine ⟨fun h => ?_, fun h => absurd h hd⟩
    split at h
    · exact absurd h hn
    · rw [if_neg (by simp [ho])] at h
      exact absurd h (prepareOpen_quiet c p t _ hn).1

theorem prepare_wake (c : Conn) (t : Nat) (p : Env) (h : 15 ≤ c.st.code) (hl : (prepare c t p).1.st ≠ .disconnected) :
    (prepare c t p).2.2 ≤ max t (c.progress + 3 * p.rto) := by
  have hn : c.st ≠ .disconnected := fun e => hl (prepare_disc c t p e).1
  rcases prepare_late c t p h hn with ⟨_, a, _⟩ | ⟨_, _, a⟩ | ⟨_, _, a⟩
  · exact absurd a hl
  · rw [a]; exact Nat.le_max_left _ _
  · rw [a]
    rcases late h with hs | hs | hs | hs | hs
    · rw [pc_disconnecting _ _ _ _ hs]; exact Nat.le_max_left _ _
    · rw [pc_received _ _ _ _ hs]; exact Nat.le_max_left _ _
    · rcases pc_closing c p t (if idleDeadline c p < p.wake then idleDeadline c p else p.wake) hs with ⟨_, b⟩ | ⟨_, _, _, b⟩ | ⟨_, w, hw, b⟩ <;> rw [b]
      · exact Nat.le_max_left _ _
      · exact Nat.le_max_left _ _
      · exact Nat.le_trans hw (Nat.le_max_right _ _)
    · rw [pc_draining _ _ _ _ hs]; split
      · exact Nat.le_max_left _ _
      · exact Nat.le_max_right _ _
    · exact absurd hs hn

end Picoquic.Closing
