import Verif.Proof.Capsule
/-!
# C87. Capsules arrive whole

The capsules of a web transport session arrive as they were sent, however the control stream is cut into pieces, and no bytes from the peer make the receiver read or write
outside of its buffers.
-/

namespace Picoquic.Props
open Picoquic Picoquic.Spec Picoquic.Capsule

/-- However the bytes are cut into pieces, the application gets the same messages, and the session ends up in the same state. -/
theorem C87_cut (mem : Nat → Bool) (ps qs : List Bytes) (h : ps.flatten = qs.flatten) : receiveAll mem {} ps = receiveAll mem {} qs := by
  rw [receiveAll_outcome, receiveAll_outcome, h]

example : receiveAll (fun _ => true) {} [[0], [2, 7], [8]] = receiveAll (fun _ => true) {} [[0, 2, 7, 8]] ∧
    (receiveAll (fun _ => true) {} [[0], [2, 7], [8]]).1 = [.datagram [7, 8]] := by decide +kernel

/-- A datagram in the first capsule of a session arrives as it is, once, when its last byte arrives and not before. What is missing: datagrams in later capsules, see
`C87_second_violated`, and empty datagrams, see `C87_empty_violated`. -/
theorem C87_datagram_partial (mem : Nat → Bool) (v bs : Bytes) (ps : List Bytes) (hb : CapsuleBytes 0 v bs) (hv : v ≠ []) (hm : mem v.length = true) :
    (ps.flatten = bs → ∃ c, receiveAll mem {} ps = ([.datagram v], .ok c)) ∧ (ps.flatten <+: bs → ps.flatten ≠ bs → ∃ c, receiveAll mem {} ps = ([], .ok c)) := by
  constructor
  · intro h
    obtain ⟨x, hx⟩ := outcome_whole (mem := mem) hb []
    rw [receiveAll_outcome, h, ← List.append_nil bs, hx, if_neg (by rw [hm]; simp [hv]), body_whole, act_datagram]
    exact ⟨_, rfl⟩
  · intro h hn
    rw [receiveAll_outcome]
    refine outcome_part hb hv hm h ?_
    have := h.length_le
    by_cases c : ps.flatten.length = bs.length
    · exact absurd (h.eq_of_length c) hn
    · omega

example : CapsuleBytes 0 [7, 8] [0x40, 0, 2, 7, 8] := ⟨[0x40, 0], [2], rfl, ⟨1, by decide⟩, ⟨0, by decide⟩⟩

/-- A message in the first capsule of a session that closes it arrives with its code and its text, when its last byte arrives and not before. What is missing: messages in later capsules, see
`C87_second_violated`. -/
theorem C87_close_partial (mem : Nat → Bool) (code : Nat) (msg v bs : Bytes) (ps : List Bytes) (hb : CapsuleBytes 0x2843 v bs) (hv : CloseValue code msg v) (hm : mem v.length = true) :
    (ps.flatten = bs → ∃ c, receiveAll mem {} ps = ([.session 0x2843 code msg], .ok c)) ∧
    (ps.flatten <+: bs → ps.flatten ≠ bs → ∃ c, receiveAll mem {} ps = ([], .ok c)) := by
  have hv0 : v ≠ [] := by
    obtain ⟨p, rfl, hp, -⟩ := hv
    intro h
    have := congrArg List.length h
    rw [List.length_append, hp, List.length_nil] at this
    omega
  constructor
  · intro h
    obtain ⟨x, hx⟩ := outcome_whole (mem := mem) hb []
    rw [receiveAll_outcome, h, ← List.append_nil bs, hx, if_neg (by rw [hm]; simp [hv0]), body_whole, act_session _ _ msg (.inr rfl) hv]
    exact ⟨_, rfl⟩
  · intro h hn
    rw [receiveAll_outcome]
    refine outcome_part hb hv0 hm h ?_
    have := h.length_le
    by_cases c : ps.flatten.length = bs.length
    · exact absurd (h.eq_of_length c) hn
    · omega

example : CapsuleBytes 0x2843 [0, 0, 1, 2, 0x62, 0x79] [0x68, 0x43, 6, 0, 0, 1, 2, 0x62, 0x79] ∧ CloseValue 258 [0x62, 0x79] [0, 0, 1, 2, 0x62, 0x79] :=
  ⟨⟨[0x68, 0x43], [6], rfl, ⟨1, by decide⟩, ⟨0, by decide⟩⟩, ⟨[0, 0, 1, 2], rfl, rfl, by decide⟩⟩

/-- A session can be closed with any message of up to 504 bytes, once: the bytes are a capsule with the code and the message, and nothing is sent after them. A longer message
is refused, and nothing is sent. -/
theorem C87_send_close (s : Ctl) (code : Nat) (msg : Bytes) (hc : code < 2 ^ 32) :
    ((sendClose s code msg).1 = true ↔ s.fin = false ∧ msg.length ≤ 504) ∧
    ((sendClose s code msg).1 = true → ∃ v bs, (sendClose s code msg).2 = { fin := true, out := s.out ++ bs } ∧ CapsuleBytes 0x2843 v bs ∧ CloseValue code msg v) ∧
    ((sendClose s code msg).1 = false → (sendClose s code msg).2 = s) := by
  have hlen : (varintBytes (4 + msg.length)).length = encodeVarintLength (4 + msg.length) := varintBytes_length _
  have hfit : 6 + (varintBytes (4 + msg.length)).length + msg.length ≤ 512 ↔ msg.length ≤ 504 := by
    rw [hlen]
    unfold encodeVarintLength
    by_cases c1 : 4 + msg.length < 16384
    · rw [if_pos c1]
      by_cases c2 : 4 + msg.length < 64
      · rw [if_pos c2]; omega
      · rw [if_neg c2]; omega
    · rw [if_neg c1]
      constructor
      · intro h; split at h <;> omega
      · intro h; omega
  unfold sendClose
  by_cases hf : s.fin = true
  · rw [if_pos hf]
    refine ⟨⟨(fun h => nomatch h), fun h => ?_⟩, (fun h => nomatch h), fun _ => rfl⟩
    rw [hf] at h; exact absurd h.1 (by decide)
  · rw [if_neg hf]
    have hf : s.fin = false := by simpa using hf
    cases e : closeBytes code msg with
    | none =>
      refine ⟨⟨(fun h => nomatch h), fun h => ?_⟩, (fun h => nomatch h), fun _ => rfl⟩
      have := (closeBytes_iff code msg _).2 ⟨hfit.2 h.2, rfl⟩
      rw [e] at this; cases this
    | some bs =>
      obtain ⟨h1, h2⟩ := (closeBytes_iff code msg bs).1 e
      refine ⟨⟨fun _ => ⟨hf, hfit.1 h1⟩, fun _ => rfl⟩, fun _ => ⟨picoformat32 code ++ msg, bs, rfl, ?_, ?_⟩, (fun h => nomatch h)⟩
      · have hl : (picoformat32 code ++ msg).length = 4 + msg.length := by rw [List.length_append]; rfl
        refine ⟨varintBytes 0x2843, varintBytes (4 + msg.length), h2, ?_, ?_⟩
        · obtain ⟨k, hk, -⟩ := varintBytes_isVarint 0x2843 (by decide)
          exact ⟨k, hk⟩
        rw [hl]
        have := hfit.1 h1
        obtain ⟨k, hk, -⟩ := varintBytes_isVarint (4 + msg.length) (by simp only [Nat.reducePow]; omega)
        exact ⟨k, hk⟩
      · exact ⟨picoformat32 code, rfl, rfl, bigEndian_format32 hc⟩

example : sendClose {} 258 [0x62, 0x79] = (true, { fin := true, out := [0x68, 0x43, 6, 0, 0, 1, 2, 0x62, 0x79] }) ∧ (sendClose {} 0 (List.replicate 505 0)).1 = false := by decide +kernel

/-- From one end to the other: the peer of a session that is closed gets the code and the message, however the control stream is cut. -/
theorem C87_end_to_end (mem : Nat → Bool) (code : Nat) (msg : Bytes) (ps : List Bytes) (hc : code < 2 ^ 32) (hl : msg.length ≤ 504) (hm : mem (4 + msg.length) = true)
    (hp : ps.flatten = (sendClose {} code msg).2.out) : ∃ c, receiveAll mem {} ps = ([.session 0x2843 code msg], .ok c) := by
  obtain ⟨h1, h2, -⟩ := C87_send_close {} code msg hc
  obtain ⟨v, bs, e, hb, hv⟩ := h2 (h1.2 ⟨rfl, hl⟩)
  rw [e] at hp
  refine (C87_close_partial mem code msg v bs ps hb hv ?_).1 hp
  obtain ⟨p, rfl, hp4, -⟩ := hv
  rw [List.length_append, hp4]; exact hm

example : receiveAll (fun n => decide (n < 1000)) {} [[0x68], [0x43, 6, 0, 0, 1], [2, 0x62, 0x79]] =
    ([.session 0x2843 258 [0x62, 0x79]], (receiveAll (fun _ => true) {} [(sendClose {} 258 [0x62, 0x79]).2.out]).2) := by decide +kernel

theorem ctlRun_spec : ∀ (ops : List CtlOp) (s : Ctl), s.fin = false → (∀ op, op ∈ ops → ∀ code msg, op = .close code msg → code < 2 ^ 32) →
    ∃ n, ((ctlRun s ops).fin = false ∧ (ctlRun s ops).out = s.out ++ (List.replicate n [0x80, 0, 0x78, 0xae, 0]).flatten) ∨
      ((ctlRun s ops).fin = true ∧ ∃ code msg v bs, .close code msg ∈ ops ∧ CapsuleBytes 0x2843 v bs ∧ CloseValue code msg v ∧
        (ctlRun s ops).out = s.out ++ (List.replicate n [0x80, 0, 0x78, 0xae, 0]).flatten ++ bs) := by
  have hfin : ∀ (ops : List CtlOp) (s : Ctl), s.fin = true → ctlRun s ops = s := by
    intro ops
    induction ops with
    | nil => intro s _; rfl
    | cons op ops ih =>
      intro s hs
      cases op with
      | drain => show ctlRun (sendDrain s).2 ops = s; unfold sendDrain; rw [if_pos hs]; exact ih s hs
      | close code msg => show ctlRun (sendClose s code msg).2 ops = s; unfold sendClose; rw [if_pos hs]; exact ih s hs
  intro ops
  induction ops with
  | nil => intro s hs _; exact ⟨0, .inl ⟨hs, by simp [ctlRun]⟩⟩
  | cons op ops ih =>
    intro s hs hop
    have hop' : ∀ op, op ∈ ops → ∀ code msg, op = .close code msg → code < 2 ^ 32 := fun o ho => hop o (List.mem_cons_of_mem _ ho)
    cases op with
    | drain =>
      have e : (sendDrain s).2 = { s with out := s.out ++ [0x80, 0, 0x78, 0xae, 0] } := by
        unfold sendDrain; rw [if_neg (by rw [hs]; decide)]; rfl
      have e' : ctlRun s (.drain :: ops) = ctlRun { s with out := s.out ++ [0x80, 0, 0x78, 0xae, 0] } ops := by
        show ctlRun (sendDrain s).2 ops = _; rw [e]
      obtain ⟨n, h⟩ := ih { s with out := s.out ++ [0x80, 0, 0x78, 0xae, 0] } hs hop'
      refine ⟨n + 1, ?_⟩
      rw [e', List.replicate_succ, List.flatten_cons]
      rcases h with ⟨h1, h2⟩ | ⟨h1, code, msg, v, bs, h2, h3, h4, h5⟩
      · exact .inl ⟨h1, by rw [h2]; simp⟩
      · exact .inr ⟨h1, code, msg, v, bs, List.mem_cons_of_mem _ h2, h3, h4, by rw [h5]; simp⟩
    | close code msg =>
      have e' : ctlRun s (.close code msg :: ops) = ctlRun (sendClose s code msg).2 ops := rfl
      obtain ⟨-, k2, k3⟩ := C87_send_close s code msg (hop _ List.mem_cons_self code msg rfl)
      rw [e']
      cases hr : (sendClose s code msg).1 with
      | true =>
        obtain ⟨v, bs, h1, h2, h3⟩ := k2 hr
        rw [h1, hfin ops _ rfl]
        exact ⟨0, .inr ⟨rfl, code, msg, v, bs, List.mem_cons_self, h2, h3, by simp⟩⟩
      | false =>
        rw [k3 hr]
        obtain ⟨n, h⟩ := ih s hs hop'
        refine ⟨n, ?_⟩
        rcases h with h | ⟨h1, code', msg', v, bs, h2, h3⟩
        · exact .inl h
        · exact .inr ⟨h1, code', msg', v, bs, List.mem_cons_of_mem _ h2, h3⟩

/-- Whatever an application asks for, the control stream holds drain messages, and then at most one message that closes the session, which is the end of the stream. -/
theorem C87_control_stream (ops : List CtlOp) (h : ∀ op, op ∈ ops → ∀ code msg, op = .close code msg → code < 2 ^ 32) :
    ∃ n, ((ctlRun {} ops).fin = false ∧ (ctlRun {} ops).out = (List.replicate n [0x80, 0, 0x78, 0xae, 0]).flatten) ∨
      ((ctlRun {} ops).fin = true ∧ ∃ code msg v bs, .close code msg ∈ ops ∧ CapsuleBytes 0x2843 v bs ∧ CloseValue code msg v ∧
        (ctlRun {} ops).out = (List.replicate n [0x80, 0, 0x78, 0xae, 0]).flatten ++ bs) := by
  have := ctlRun_spec ops {} rfl h
  simpa using this

example : (ctlRun {} [.drain, .close 258 [0x62, 0x79], .drain, .close 1 []]).out = [0x80, 0, 0x78, 0xae, 0, 0x68, 0x43, 6, 0, 0, 1, 2, 0x62, 0x79] := by decide +kernel

/-- Any byte that follows the first capsule of a session, in the same piece or in another, makes the receiver copy almost 2^64 bytes: the length and the type of the capsule are forgotten, but
the number of bytes that were read is not. -/
theorem C87_second_violated (mem : Nat → Bool) (t : Nat) (v bs rest : Bytes) (ps : List Bytes) (hb : CapsuleBytes t v bs) (hv : v ≠ []) (hm : mem v.length = true)
    (ht : t = 0 ∨ ((t = 0x78ae ∨ t = 0x2843) ∧ 4 ≤ v.length)) (hr : rest ≠ []) (hp : ps.flatten = bs ++ rest) : (receiveAll mem {} ps).2 = .ub := by
  obtain ⟨x, hx⟩ := outcome_whole (mem := mem) hb rest
  rw [receiveAll_outcome, hp, hx, if_neg (by rw [hm]; simp [hv]), body_whole]
  rcases ht with rfl | ⟨ht, hl⟩
  · rw [act_datagram]; dsimp only; rw [if_neg hr]
  · have : CloseValue (bigEndian (v.take 4)) (v.drop 4) v := ⟨v.take 4, (List.take_append_drop 4 v).symm, by rw [List.length_take]; omega, rfl⟩
    rw [act_session _ _ _ ht this]; dsimp only; rw [if_neg hr]

example : receiveAll (fun _ => true) {} [[0, 2, 7, 8], [0, 1, 9]] = ([.datagram [7, 8]], .ub) := by decide +kernel

/-- The receiver reads or writes outside of its buffers if, and only if, bytes follow a first capsule that it accepts. It never loops forever. What is missing: that it never does, see
`C87_second_violated`. -/
theorem C87_memory_partial (mem : Nat → Bool) (ps : List Bytes) :
    (receiveAll mem {} ps).2 ≠ .hang ∧
    ((receiveAll mem {} ps).2 = .ub ↔
      ∃ t v bs rest, ps.flatten = bs ++ rest ∧ rest ≠ [] ∧ CapsuleBytes t v bs ∧ v ≠ [] ∧ mem v.length = true ∧ (t = 0 ∨ ((t = 0x78ae ∨ t = 0x2843) ∧ 4 ≤ v.length))) := by
  rw [receiveAll_outcome]
  refine ⟨outcome_hang _ _, outcome_ub, ?_⟩
  rintro ⟨t, v, bs, rest, h1, h2, h3, h4, h5, h6⟩
  rw [← receiveAll_outcome]
  exact C87_second_violated mem t v bs rest ps h3 h4 h5 h6 h2 h1

example : (receiveAll (fun _ => true) {} [[0x68, 0x43, 6, 0, 0, 1]]).2 ≠ .ub ∧ (receiveAll (fun _ => true) {} [[0x68, 0x43, 3, 0, 0, 1, 9]]).2 = .refused := by decide +kernel

/-- A capsule with no value is refused, though an empty datagram is one. -/
theorem C87_empty_violated (mem : Nat → Bool) (t : Nat) (bs : Bytes) (ps : List Bytes) (hb : CapsuleBytes t [] bs) (hp : ps.flatten = bs) : receiveAll mem {} ps = ([], .refused) := by
  obtain ⟨x, hx⟩ := outcome_whole (mem := mem) hb []
  rw [receiveAll_outcome, hp, ← List.append_nil bs, hx, if_pos (.inl rfl)]

example : CapsuleBytes 0 [] [0, 0] := ⟨[0], [0], rfl, ⟨0, by decide⟩, ⟨0, by decide⟩⟩

/-- The message that asks to drain a session is refused by the receiver of the same code, however the control stream is cut and whatever follows. -/
theorem C87_drain_violated (mem : Nat → Bool) (ps : List Bytes) (ops : List CtlOp) (hp : ps.flatten = (ctlRun {} (.drain :: ops)).out) : receiveAll mem {} ps = ([], .refused) := by
  have hout : ∀ (ops : List CtlOp) (s : Ctl), ∃ x, (ctlRun s ops).out = s.out ++ x := by
    intro ops
    induction ops with
    | nil => intro s; exact ⟨[], by simp [ctlRun]⟩
    | cons op ops ih =>
      intro s
      cases op with
      | drain =>
        obtain ⟨x, hx⟩ := ih (sendDrain s).2
        have e : ctlRun s (.drain :: ops) = ctlRun (sendDrain s).2 ops := rfl
        rw [e, hx]
        unfold sendDrain
        split
        · exact ⟨x, rfl⟩
        · exact ⟨_ ++ x, by rw [← List.append_assoc]⟩
      | close code msg =>
        obtain ⟨x, hx⟩ := ih (sendClose s code msg).2
        have e : ctlRun s (.close code msg :: ops) = ctlRun (sendClose s code msg).2 ops := rfl
        rw [e, hx]
        unfold sendClose
        split
        · exact ⟨x, rfl⟩
        · split
          · exact ⟨x, rfl⟩
          · exact ⟨_ ++ x, by rw [← List.append_assoc]⟩
  obtain ⟨x, hx⟩ := hout ops (sendDrain {}).2
  have e : ctlRun {} (.drain :: ops) = ctlRun (sendDrain {}).2 ops := rfl
  rw [e, hx] at hp
  have e2 : (sendDrain {}).2.out ++ x = [0x80, 0, 0x78, 0xae] ++ ([0] ++ x) := rfl
  rw [receiveAll_outcome, hp, e2, outcome_front (t := 0x78ae) (n := 0) ⟨2, by decide⟩ ⟨0, by decide⟩, if_pos (.inl rfl)]

example : receiveAll (fun _ => true) {} [[0x80, 0], [0x78, 0xae, 0]] = ([], .refused) ∧ [[0x80, 0], [0x78, 0xae, 0]].flatten = (ctlRun {} [.drain]).out := by decide +kernel

/-- A capsule of a type that is not known is refused: it should be ignored. -/
theorem C87_unknown_violated (mem : Nat → Bool) (t : Nat) (v bs : Bytes) (ps : List Bytes) (hb : CapsuleBytes t v bs) (hp : ps.flatten = bs) (h0 : t ≠ 0) (h1 : t ≠ 0x78ae) (h2 : t ≠ 0x2843) :
    receiveAll mem {} ps = ([], .refused) := by
  obtain ⟨x, hx⟩ := outcome_whole (mem := mem) hb []
  rw [receiveAll_outcome, hp, ← List.append_nil bs, hx]
  by_cases c : v = [] ∨ mem v.length = false
  · rw [if_pos c]
  · rw [if_neg c, body_whole, act_other _ _ h0 h1 h2]

example : CapsuleBytes 0x17 [5] [0x17, 1, 5] ∧ receiveAll (fun _ => true) {} [[0x17], [1, 5]] = ([], .refused) :=
  ⟨⟨[0x17], [1], rfl, ⟨0, by decide⟩, ⟨0, by decide⟩⟩, by decide +kernel⟩

/-- The front of a capsule is enough for the receiver to reserve as many bytes as it announces, however many. -/
theorem C87_reserve_violated (mem : Nat → Bool) (t n : Nat) (p q : Bytes) (hp : Varint p t) (hq : Varint q n) (h0 : 0 < n) (hm : mem n = true) :
    ∃ c, receiveAll mem {} [p ++ q] = ([], .ok c) ∧ (c.buf.getD []).length = n := by
  rw [receiveAll_outcome]
  have e : [p ++ q].flatten = p ++ (q ++ []) := by simp
  rw [e, outcome_front hp hq, if_neg (by rw [hm]; simp; omega)]
  unfold body
  rw [if_pos (by show 0 < n; omega)]
  refine ⟨_, rfl, ?_⟩
  show ([] ++ List.replicate (n - 0) (0 : UInt8)).length = n
  simp

example : Varint [0xC0, 0, 1, 0, 0, 0, 0, 0] (2 ^ 40) := ⟨3, by decide⟩

end Picoquic.Props
