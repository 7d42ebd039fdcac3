import Verif.Proof.H3Datagram
/-!
# C86: HTTP/3 datagrams
-/

namespace Picoquic.Props
open Picoquic Picoquic.H3Datagram Picoquic.Spec

/-- **C86**, what is sent. When the connection asks for a datagram and gets one, it fits in the space, a session of the connection that asked to send provided its content, and the datagram is the number of the stream of that
session divided by four, as a variable length integer, followed by that content. -/
theorem C86_sent (c : Ctx) (hs : ∀ x ∈ c.sessions, x.stream < 2 ^ 64) (space : Nat) (app : Nat → Nat → Reply) (p : Nat) (bs : Bytes) (h : (prepare space app c).2 = some (p, some bs)) :
    bs.length ≤ space ∧ ∃ x ∈ c.sessions, x.stream = p ∧ x.ready = true ∧ x.handler = true ∧
      ∃ header, Varint header (p / 4) ∧ bs = header ++ (app p (space - header.length)).data ∧ (app p (space - header.length)).data ≠ [] := by
  obtain ⟨l1, x, l2, g1, g2, g3, _⟩ := prepare_some h
  have hx : x ∈ c.sessions := (order_perm c).mem_iff.1 (by rw [g1]; simp)
  obtain ⟨k1, k2, header, k3, k4, k5, k6⟩ := poll_sent g3
  rw [g2] at k3 k5 k6
  have hlt := hs x hx
  have e4 : p >>> 2 = p / 4 := Nat.shiftRight_eq_div_pow p 2
  have hv : Varint header (p / 4) := by
    obtain ⟨e, _⟩ := Ack.varintEnc_some k3
    rw [e, e4]
    exact Ack.varintBytes_varint (by rw [← g2]; omega)
  rw [provide] at k6
  by_cases hl : (app p (space - header.length)).data.length + header.length ≤ space
  · rw [if_pos hl] at k6
    cases k6
    exact ⟨by rw [List.length_append]; omega, x, hx, g2, k1, k2, header, hv, rfl, k5⟩
  · rw [if_neg hl] at k6; cases k6

/-- **C86**, what arrives. What follows the number in a datagram is given to the session whose stream is four times the number, if there is one and it has an application, and to no other. -/
theorem C86_receive (c : Ctx) (bs : Bytes) (p : Nat) (data : Bytes) :
    H3Datagram.receive c bs = some (p, data) ↔ ∃ header q, bs = header ++ data ∧ Varint header q ∧ p = 4 * q ∧
      ∃ x, c.sessions.find? (fun x => decide (x.stream = p)) = some x ∧ x.handler = true ∧ x.open_ = true := by
  have hu {q : Nat} {header : Bytes} (h : Varint header q) : u64 (q * 4) = 4 * q := by
    obtain ⟨k, hk⟩ := h
    have hq : q < 2 ^ 62 := Nat.lt_of_lt_of_le hk.2.2.1 (Nat.pow_le_pow_right (by decide) (by
      have : 2 ^ k ≤ 2 ^ 3 := Nat.pow_le_pow_right (by decide) (by have := hk.1; omega)
      omega))
    simp only [u64]; omega
  constructor
  · intro h
    rw [H3Datagram.receive] at h
    cases hd : framesVarintDecode bs with
    | none => rw [hd] at h; cases h
    | some r =>
      obtain ⟨q, rest⟩ := r
      rw [hd] at h
      dsimp only at h
      obtain ⟨header, e1, hv⟩ := Ack.varint_of_decode hd
      rw [hu hv] at h
      cases hf : c.sessions.find? (fun x => decide (x.stream = 4 * q)) with
      | none => rw [hf] at h; cases h
      | some x =>
        rw [hf] at h
        dsimp only at h
        cases h1 : x.handler
        · rw [h1, if_pos rfl] at h; cases h
        · cases h2 : x.open_
          · rw [h1, h2, if_neg (by decide), if_pos rfl] at h; cases h
          · rw [h1, h2, if_neg (by decide), if_neg (by decide)] at h
            cases h
            have := List.find?_some hf
            simp only [decide_eq_true_eq] at this
            exact ⟨header, q, e1, hv, this, x, by rw [this]; exact hf, h1, h2⟩
  · rintro ⟨header, q, rfl, hv, rfl, x, hf, h1, h2⟩
    rw [H3Datagram.receive, Ack.varint_decode hv data]
    dsimp only
    rw [hu hv, hf]
    dsimp only
    have := List.find?_some hf
    simp only [decide_eq_true_eq] at this
    rw [h1, h2, if_neg (by decide), if_neg (by decide), this]

/-- **C86**, from end to end. What the application of a session on a stream that clients open in both directions provides is what the peer gives to its session of that stream. -/
theorem C86_end_to_end (c peer : Ctx) (hs : ∀ x ∈ c.sessions, x.stream < 2 ^ 64) (space : Nat) (app : Nat → Nat → Reply) (p : Nat) (bs : Bytes) (h : (prepare space app c).2 = some (p, some bs)) (h4 : p % 4 = 0)
    (x : Session) (hx : peer.sessions.find? (fun x => decide (x.stream = p)) = some x) (hh : x.handler = true) (ho : x.open_ = true) :
    ∃ n ≤ space, H3Datagram.receive peer bs = some (p, (app p n).data) := by
  obtain ⟨_, _, _, _, _, _, header, hv, e, _⟩ := C86_sent c hs space app p bs h
  exact ⟨space - header.length, Nat.sub_le .., (C86_receive peer bs p _).2 ⟨header, p / 4, e, hv, by omega, x, hx, hh, ho⟩⟩

/-- **C86**, readiness. After the connection asked, it asks again if and only if a session is ready to send. -/
theorem C86_active (c : Ctx) (space : Nat) (app : Nat → Nat → Reply) : (prepare space app c).1.active = true ↔ ∃ x ∈ (prepare space app c).1.sessions, x.ready = true := by
  have : (prepare space app c).1.active = (prepare space app c).1.sessions.any (·.ready) := by
    cases h : (prepare space app c).2 with
    | none => exact (prepare_none h).2.2.2
    | some q => obtain ⟨p, d⟩ := q; obtain ⟨_, _, _, _, _, _, _, _, e, _⟩ := prepare_some h; exact e
  rw [this, List.any_eq_true]

/-- **C86**, sessions are on distinct streams: adding a session refuses a stream that has one. -/
theorem C86_distinct (c : Ctx) (hd : distinctSessions c) (stream : Nat) (handler open_ : Bool) :
    distinctSessions (declare c stream handler open_).1 ∧ ((declare c stream handler open_).2 = true ↔ ∀ x ∈ c.sessions, x.stream ≠ stream) := by
  rw [declare]
  by_cases h : (c.sessions.find? (fun x => decide (x.stream = stream))).isSome = true
  · rw [if_pos h]
    refine ⟨hd, (fun h => nomatch h), fun ha => ?_⟩
    obtain ⟨x, hx⟩ := Option.isSome_iff_exists.1 h
    have := List.find?_some hx
    exact absurd (of_decide_eq_true this) (ha x (List.mem_of_find?_eq_some hx))
  · rw [if_neg h]
    have hn : ∀ x ∈ c.sessions, x.stream ≠ stream := by
      rw [Bool.not_eq_true, Option.isSome_eq_false_iff, Option.isNone_iff_eq_none, List.find?_eq_none] at h
      intro x hx e
      exact h x hx (decide_eq_true e)
    refine ⟨?_, fun _ => hn, fun _ => rfl⟩
    rw [distinctSessions] at hd ⊢
    dsimp only
    rw [List.map_append, List.nodup_append]
    refine ⟨hd, by simp, fun a ha b hb e => ?_⟩
    obtain ⟨x, hx, ex⟩ := List.mem_map.1 ha
    simp only [List.map_cons, List.map_nil, List.mem_singleton] at hb
    exact hn x hx (by rw [ex, e, hb])

/-- **C86**, fairness. Whatever the other sessions do, and in whatever state the connection is, a session that is ready and always has something to send sends at least once, when the connection asks as many times as there are
sessions. -/
theorem C86_fair (c : Ctx) (hd : distinctSessions c) (p : Nat) (hp : ∃ x ∈ c.sessions, x.stream = p ∧ x.ready = true ∧ x.handler = true) (ops : List H3DgOp)
    (hb : ∀ op ∈ ops, h3DgBusy p op) (hl : c.sessions.length ≤ h3DgAsks ops) : p ∈ h3DgSenders c ops := by
  have hm : p ∈ (order c).map (·.stream) := by
    obtain ⟨x, hx, e, _⟩ := hp
    exact List.mem_map.2 ⟨x, (order_perm c).mem_iff.2 hx, e⟩
  obtain ⟨a, r, e⟩ := List.append_of_mem hm
  refine turns p ops c a r hd hp e hb ?_
  have := congrArg List.length e
  rw [List.length_map, (order_perm c).length_eq, List.length_append, List.length_cons] at this
  omega

/-- **C86**, the turn of a session. A session that is not asked keeps its state. One that is asked is ready afterwards only if its application says so. -/
theorem C86_turn (c : Ctx) (space : Nat) (app : Nat → Nat → Reply) (n : Nat) (x : Session) (hn : c.sessions[n]? = some x) :
    ∃ y, (prepare space app c).1.sessions[n]? = some y ∧ y.stream = x.stream ∧ (y = x ∨
      (y.ready = true → ∃ k, (app x.stream k).marked = true ∨ (app x.stream k).more = true)) := by
  have hpoll : ((poll space app x).1 = x ∨ ((poll space app x).1.ready = true → ∃ k, (app x.stream k).marked = true ∨ (app x.stream k).more = true)) := by
    rw [poll]
    split
    · split
      · exact .inr (fun h => nomatch h)
      · split
        · exact .inr (fun h => ⟨_, Bool.or_eq_true_iff.1 h⟩)
        · exact .inr (fun h => nomatch h)
    · exact .inl rfl
  cases h : (prepare space app c).2 with
  | none =>
    obtain ⟨_, e, _⟩ := prepare_none h
    refine ⟨(poll space app x).1, by rw [e, List.getElem?_map, hn]; rfl, (poll_stream space app x).1, hpoll⟩
  | some q =>
    obtain ⟨p, d⟩ := q
    obtain ⟨l1, z, l2, _, _, _, _, _, _, hp, _⟩ := prepare_some h
    rcases hp n x hn with g | ⟨_, g⟩
    · exact ⟨x, g, rfl, .inl rfl⟩
    · exact ⟨_, g, (poll_stream space app x).1, hpoll⟩

/-- **C86**, asking to send. When the application of a session asks to send datagrams, the connection asks for them and the session is ready; the others keep their state. If there is no such session, nothing changes. -/
theorem C86_mark (c : Ctx) (hd : distinctSessions c) (p : Nat) :
    (∀ x ∈ c.sessions, x.stream = p → (H3Datagram.mark c p).active = true) ∧
    (H3Datagram.mark c p).sessions = c.sessions.map (fun x => if x.stream = p then { x with ready := true } else x) ∧
    ((∀ x ∈ c.sessions, x.stream ≠ p) → H3Datagram.mark c p = c) := by
  have hset : ∀ l : List Session, (l.map (·.stream)).Nodup → setReady p l = l.map (fun x => if x.stream = p then { x with ready := true } else x) := by
    intro l
    induction l with
    | nil => intro _; rfl
    | cons x l ih =>
      intro hn
      rw [List.map_cons, List.nodup_cons] at hn
      rw [setReady, List.map_cons]
      by_cases hx : x.stream = p
      · rw [if_pos hx, if_pos hx]
        congr 1
        conv => lhs; rw [← List.map_id l]
        refine List.map_congr_left fun y hy => ?_
        rw [if_neg]
        · rfl
        · intro e; exact hn.1 (List.mem_map.2 ⟨y, hy, by rw [e, hx]⟩)
      · rw [if_neg hx, if_neg hx, ih hn.2]
  have hnone (h : ∀ x ∈ c.sessions, x.stream ≠ p) : H3Datagram.mark c p = c := by
    rw [H3Datagram.mark, if_neg]
    rw [Bool.not_eq_true, Option.isSome_eq_false_iff, Option.isNone_iff_eq_none, List.find?_eq_none]
    intro x hx e
    exact h x hx (of_decide_eq_true e)
  refine ⟨fun x hx e => ?_, ?_, hnone⟩
  · rw [H3Datagram.mark, if_pos]
    rw [List.find?_isSome]
    exact ⟨x, hx, decide_eq_true e⟩
  · by_cases h : ∀ x ∈ c.sessions, x.stream ≠ p
    · rw [hnone h]
      conv => lhs; rw [← List.map_id c.sessions]
      refine List.map_congr_left fun y hy => ?_
      rw [if_neg (h y hy)]; rfl
    · rw [H3Datagram.mark, if_pos]
      · exact hset _ hd
      · rw [List.find?_isSome]
        rw [Classical.not_forall] at h
        obtain ⟨x, h⟩ := h
        rw [Classical.not_imp, Classical.not_not] at h
        exact ⟨x, h.1, decide_eq_true h.2⟩

/-- **C86**, negation of the claim that a session that is ready to send is asked until it says otherwise: if the space is no more than the length of the number of its stream, a session that is ready is no longer ready although its
application was not called; if it is the only session, the connection does not ask again. -/
theorem C86_forgotten_violated (p : Nat) (space : Nat) (app : Nat → Nat → Reply) (hp : 1073741824 ≤ p / 4 ∧ space ≤ 8 ∨ 64 ≤ p / 4 ∧ space ≤ 2 ∨ space ≤ 1) :
    prepare space app { sessions := [{ stream := p, handler := true, open_ := true, ready := true }], last := 0, active := true } =
      ({ sessions := [{ stream := p, handler := true, open_ := true, ready := false }], last := 0, active := false }, none) := by
  have hpoll : poll space app { stream := p, handler := true, open_ := true, ready := true } = ({ stream := p, handler := true, open_ := true, ready := false }, none) := by
    obtain ⟨w, hw, _⟩ := header_some (p >>> 2)
    have hl : space ≤ w.length := by
      obtain ⟨e, _⟩ := Ack.varintEnc_some hw
      have e4 : p >>> 2 = p / 4 := Nat.shiftRight_eq_div_pow p 2
      rw [e, varintBytes_length, e4]
      unfold encodeVarintLength
      (repeat' split) <;> omega
    rw [poll, if_pos ⟨rfl, rfl⟩]
    dsimp only
    rw [hw]
    dsimp only
    rw [if_neg (by omega)]
  have hall : pollAll space app [{ stream := p, handler := true, open_ := true, ready := true }] = ([{ stream := p, handler := true, open_ := true, ready := false }], none, false) := by
    rw [pollAll, hpoll]; rfl
  rw [prepare]
  dsimp only
  by_cases h0 : p = 0
  · rw [splitLast, if_pos h0]
    dsimp only
    rw [hall]; rfl
  · rw [splitLast, if_neg h0, splitLast]
    dsimp only
    rw [hall]; rfl

/-- Three sessions, two of them busy: they take turns. -/
example : h3DgSenders { sessions := [⟨0, true, true, true⟩, ⟨4, true, true, false⟩, ⟨400, true, true, true⟩], last := 0 }
    [.prepare 20 (fun p _ => { data := [u8 p], more := true }), .prepare 20 (fun p _ => { data := [u8 p], more := true }), .mark 4,
      .prepare 20 (fun p _ => { data := [u8 p], more := true }), .prepare 20 (fun p _ => { data := [u8 p], more := true })] = [400, 0, 4, 400] := by decide +kernel

example : prepare 20 (fun _ _ => { data := [7, 8] }) { sessions := [⟨0, true, true, false⟩, ⟨400, true, true, true⟩], last := 0 } =
    ({ sessions := [⟨0, true, true, false⟩, ⟨400, true, true, false⟩], last := 400, active := false }, some (400, some [64, 100, 7, 8])) := by decide +kernel

example : H3Datagram.receive { sessions := [⟨0, true, true, false⟩, ⟨400, true, true, true⟩], last := 0 } [64, 100, 7, 8] = some (400, [7, 8]) := by decide +kernel

end Picoquic.Props
