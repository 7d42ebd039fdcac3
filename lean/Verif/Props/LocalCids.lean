import Verif.Proof.LocalCidsUse
/-!
# C32, C60, C61, C62: the connection IDs issued by this endpoint

Packets are routed by the connection IDs which the peers know, and only by these (C60). The endpoint never gives
more of them than the limit of the peer (C61), and gives as many as it can up to nine (C62), except that nothing
is given to a peer whose limit is 2^31 or more (`C62_large_violated`). A RETIRE_CONNECTION_ID frame retires
exactly the connection ID it names (C32) when it comes in a packet on the first address tuple. The claim is false
for a sequence number which was never issued, which is ignored without error (`C32_unknown_violated`), and for
packets on another tuple (`C32_tuple_violated`, `C32_tuple_own_violated`).
-/

namespace Picoquic.Props
open Picoquic Picoquic.Spec Picoquic.LocalCids

/-- The history used as example: two connections; the first issues two more connection IDs to its peer, one
proposal being already taken. -/
def lcA : Bytes := [1, 1]
def lcB : Bytes := [2, 2]
def lcC : Bytes := [3, 3]
def lcD : Bytes := [4, 4]
def lcEvents : List Event :=
  [.open 0 0 3 [lcA] none, .open 1 0 8 [lcA, lcB] none, .issue 0 10 1000 [([lcB, lcC], true), ([lcD], true)]]
def lcNotes : List Note :=
  [.issued 0 0 0 lcA, .issued 1 0 0 lcB, .issued 0 1 0 lcC, .issued 0 2 0 lcD]

theorem lcReached : Reached (run {} lcEvents).1 lcNotes := ⟨lcEvents, rfl⟩

/-- **C60, routing.** After any history, a packet is routed to connection `n` exactly when its destination
connection ID is one which was issued for that connection and is not retired. -/
theorem C60_routing {e : Endpoint} {notes : List Note} (h : Reached e notes) (cid : Bytes) (n : Nat) :
    lookup e.table cid = some n ↔ ∃ q, (⟨n, q, cid⟩ : Known) ∈ known notes := by
  have i := inv_of_reached h
  rw [lookup_some i.keys, i.tab]
  constructor
  · rintro ⟨c, hc, l, hl, h1⟩
    exact ⟨l.seq, (known_of_conn i).mpr ⟨c, hc, l, hl, rfl, h1⟩⟩
  · rintro ⟨q, hq⟩
    obtain ⟨c, hc, l, hl, _, h2⟩ := (known_of_conn i).mp hq
    exact ⟨c, hc, l, hl, h2⟩

example : lookup (run {} lcEvents).1.table lcC = some 0 ∧ lookup (run {} lcEvents).1.table lcB = some 1 ∧
    (⟨0, 1, lcC⟩ : Known) ∈ known lcNotes := ⟨rfl, rfl, by decide⟩

/-- **C60, unique.** No connection ID is known twice, for two connections or for two sequence numbers, and no
sequence number of a connection has two connection IDs. -/
theorem C60_unique {e : Endpoint} {notes : List Note} (h : Reached e notes) {n m p q : Nat} {a b : Bytes}
    (h1 : (⟨n, p, a⟩ : Known) ∈ known notes) (h2 : (⟨m, q, b⟩ : Known) ∈ known notes) :
    (a = b → n = m ∧ p = q) ∧ (n = m → p = q → a = b) := by
  have i := inv_of_reached h
  obtain ⟨c1, hc1, l1, hl1, e1, e2⟩ := (known_of_conn i).mp h1
  obtain ⟨c2, hc2, l2, hl2, e3, e4⟩ := (known_of_conn i).mp h2
  subst e1 e2 e3 e4
  constructor
  · intro hab
    have hnm := i.unique_cid hc1 hc2 hl1 hl2 hab
    subst hnm
    rw [hc1] at hc2
    obtain rfl := Option.some.inj hc2
    rw [(i.good n c1 hc1).cid_eq hl1 hl2 hab]
    exact ⟨rfl, rfl⟩
  · intro hnm hpq
    subst hnm
    rw [hc1] at hc2
    obtain rfl := Option.some.inj hc2
    rw [(i.good n c1 hc1).seq_eq hl1 hl2 hpq]

/-- **C60, numbers.** The connection IDs of a connection are issued with the sequence numbers 0, 1, 2, … in this
order, none missing and none repeated. -/
theorem C60_numbers {e : Endpoint} {notes : List Note} (h : Reached e notes) (n : Nat) :
    ∃ k, numbers n notes = List.range k :=
  ⟨_, num_of_reached h n⟩

example : numbers 0 lcNotes = [0, 1, 2] := by decide

/-- **C61, limit.** When a connection ID is given to the peer in a NEW_CONNECTION_ID frame, the number of
connection IDs which the peer knows, and which it is not asked to retire by this frame, is at most its limit,
and at most nine. -/
theorem C61_limit {e e' : Endpoint} {notes out o1 o2 : List Note} {n now ttl m q rp : Nat} {cid : Bytes} {c : Conn}
    {turns : List (List Bytes × Bool)} (h : Reached e notes) (hc : e.conns n = some c)
    (hs : step e (.issue n now ttl turns) = (e', out)) (ho : out = o1 ++ .issued m q rp cid :: o2) :
    m = n ∧ usable (known (notes ++ o1 ++ [.issued m q rp cid])) n rp ≤ c.limit ∧
      usable (known (notes ++ o1 ++ [.issued m q rp cid])) n rp ≤ 9 := by
  have i := inv_of_reached h
  unfold step at hs
  dsimp only at hs
  rw [hc] at hs
  dsimp only at hs
  by_cases hcl : c.closed = true
  · rw [if_pos hcl] at hs
    have := (Prod.mk.inj hs).2
    rw [ho] at this
    exact absurd this (by cases o1 <;> simp)
  · rw [if_neg hcl] at hs
    have i1 := i.replace (c' := checkTtl c now ttl) hc (checkTtl_fields c now ttl).1 ((i.good n c hc).checkTtl now ttl)
    have h2 := issueLoop_limit n now turns _ notes (checkTtl c now ttl) i1 (setConn_same e n _) o1 o2 m q rp cid
      ((Prod.mk.inj hs).2.trans ho)
    rw [(checkTtl_fields c now ttl).2.1] at h2
    exact h2

example : (step (run {} (lcEvents.take 2)).1 (.issue 0 10 1000 [([lcB, lcC], true), ([lcD], true), ([[5]], true)])).2 =
      [] ++ .issued 0 1 0 lcC :: [.issued 0 2 0 lcD] ∧
    usable (known (lcNotes.take 2 ++ [.issued 0 1 0 lcC] ++ [.issued 0 2 0 lcD])) 0 0 = 3 := ⟨rfl, by decide⟩

/-- After the connection IDs expire, more are given, and the frame asks the peer to retire the old ones. -/
example : (run {} (lcEvents ++ [.issue 0 2000 1000 [([[5]], true), ([[6]], true)]])).2 =
    lcNotes ++ [.issued 0 3 3 [5], .issued 0 4 3 [6]] := rfl

/-- **C62, supply, partial.** After the preparation of packets with enough room and enough unused proposals, the
peer knows at least as many connection IDs as the smaller of its limit and nine. What is missing: that so many
of them are not yet to be retired, which needs the clock not to go back; and a limit of 2^31 or more, where it
is false. -/
theorem C62_supply_partial {e e' : Endpoint} {notes out : List Note} {n now ttl : Nat} {c : Conn}
    {turns : List (Bytes × List Bytes)} (h : Reached e notes) (hc : e.conns n = some c) (hcl : c.closed = false)
    (hlim : c.limit < 2 ^ 31) (hlen : 9 ≤ turns.length) (hn : (turns.map Prod.fst).Nodup)
    (hf : ∀ p ∈ turns, lookup e.table p.1 = none)
    (hs : step e (.issue n now ttl (turns.map (fun p => (p.1 :: p.2, true)))) = (e', out)) :
    min c.limit 9 ≤ usable (known (notes ++ out)) n 0 := by
  have i := inv_of_reached h
  have i2 := step_inv i (.issue n now ttl (turns.map (fun p => (p.1 :: p.2, true))))
  rw [hs] at i2
  unfold step at hs
  dsimp only at hs
  rw [hc] at hs
  dsimp only at hs
  rw [hcl, if_neg Bool.false_ne_true] at hs
  have hcount := count_conn i2 (n := n) (c := (issueLoop n now (turns.map (fun p => (p.1 :: p.2, true))) e.table
    (checkTtl c now ttl)).2.1) (by rw [← (Prod.mk.inj hs).1]; exact setConn_same e n _)
  rw [hcount]
  have hl := (checkTtl_fields c now ttl).2.1
  rcases issueLoop_supply n now turns e.table (checkTtl c now ttl) (by rw [hl]; exact hlim) hn hf with h1 | h1
  · rw [hl] at h1; exact h1
  · refine Nat.le_trans (Nat.min_le_right _ _) (Nat.le_trans hlen (Nat.le_trans (Nat.le_add_left _ _) h1))

/-- Nine proposals for the example. -/
def lcNine : List (Bytes × List Bytes) := [10, 11, 12, 13, 14, 15, 16, 17, 18].map (fun x => ([x], []))

example : ∃ c, (run {} (lcEvents.take 2)).1.conns 1 = some c ∧ c.closed = false ∧ c.limit = 8 ∧
    (∀ p ∈ lcNine, lookup (run {} (lcEvents.take 2)).1.table p.1 = none) ∧ (lcNine.map Prod.fst).Nodup ∧
    usable (known (lcNotes.take 2 ++ (step (run {} (lcEvents.take 2)).1
      (.issue 1 10 1000 (lcNine.map (fun p => (p.1 :: p.2, true))))).2)) 1 0 = 8 :=
  ⟨_, rfl, rfl, rfl, by decide, by decide, by decide +kernel⟩

/-- **C62 is false for a large limit.** A peer which accepts 2^31 connection IDs or more (up to 2^32 - 1) is
never given any in a NEW_CONNECTION_ID frame. -/
theorem C62_large_violated {e : Endpoint} {notes : List Note} {n : Nat} {c : Conn} (h : Reached e notes)
    (hc : e.conns n = some c) (hlim : 2 ^ 31 ≤ c.limit) (now ttl : Nat) (turns : List (List Bytes × Bool)) :
    (step e (.issue n now ttl turns)).2 = [] := by
  have i := inv_of_reached h
  have hsm := small_of_reached h n c hc
  unfold step
  dsimp only
  rw [hc]
  dsimp only
  by_cases hcl : c.closed = true
  · rw [if_pos hcl]
  · rw [if_neg hcl]
    have hl := (checkTtl_fields c now ttl).2.1
    exact issueLoop_large n now turns e.table
      (wants_large ((i.good n c hc).checkTtl now ttl) (by rw [hl]; exact hlim) (by rw [hl]; exact hsm))

example : (run {} [.open 0 0 (2 ^ 31) [lcA] none, .issue 0 1 1000 [([lcC], true)]]).2 = [.issued 0 0 0 lcA] ∧
    (run {} [.open 0 0 (2 ^ 31 - 1) [lcA] none, .issue 0 1 1000 [([lcC], true)]]).2 =
      [.issued 0 0 0 lcA, .issued 0 1 0 lcC] := ⟨rfl, rfl⟩

/-- **C32, retirement, partial.** A packet comes on the first address tuple, to a connection which is open, with
a RETIRE_CONNECTION_ID frame for a connection ID the peer knows, other than the destination of the packet: then
this connection ID is retired, packets to it are not routed any more, all the others are routed as before, and
there is no error. What is missing: packets on other tuples. -/
theorem C32_retire_partial {e e' : Endpoint} {notes out : List Note} {n q : Nat} {c : Conn} {dest cid : Bytes}
    (h : Reached e notes) (hl : lookup e.table dest = some n) (hc : e.conns n = some c) (hcl : c.closed = false)
    (hk : (⟨n, q, cid⟩ : Known) ∈ known notes) (hd : cid ≠ dest)
    (hs : step e (.packet dest true q) = (e', out)) :
    out = [.retired n q] ∧ (∀ a, lookup e'.table a = if a = cid then none else lookup e.table a) ∧
      (∀ k, k ∈ known (notes ++ out) ↔ k ∈ known notes ∧ k ≠ ⟨n, q, cid⟩) := by
  have i := inv_of_reached h
  obtain ⟨c', hc', l, hlm, hq, hcid⟩ := (known_of_conn i).mp hk
  rw [hc] at hc'
  obtain rfl := Option.some.inj hc'
  have g := i.good n c hc
  rw [step_packet hl hc hcl] at hs
  obtain ⟨h1, h2⟩ := Prod.mk.inj hs
  have hfirst := (arrive_first c dest true).2.2 rfl
  have hne : (arrive c dest true).first ≠ some q := by
    rw [hfirst]
    intro hh
    cases hf : c.list.find? (fun x => decide (x.cid = dest)) with
    | none => rw [hf] at hh; cases hh
    | some x =>
      rw [hf] at hh
      obtain ⟨hx1, hx2⟩ := find_cid hf
      have := g.seq_eq hx1 hlm ((Option.some.inj hh).trans hq.symm)
      rw [this, hcid] at hx2
      exact hd hx2
  have hout : out = [.retired n q] := by
    rw [← h2]
    unfold decodeRetire
    rw [if_neg hne]
    dsimp only
    rw [arrive_list, if_pos (by rw [← hq]; exact List.mem_map_of_mem hlm)]
  refine ⟨hout, ?_, ?_⟩
  · intro a
    rw [← h1]
    show lookup (decodeRetire e.table n (arrive c dest true) q).1 a = _
    unfold decodeRetire
    rw [if_neg hne]
    dsimp only
    unfold LocalCids.retire
    rw [arrive_list, ← hq, find_number g hlm]
    dsimp only
    rw [← hcid]
    exact lookup_unregister l.cid a
  · intro k
    rw [hout, known_snoc]
    show k ∈ (known notes).filter _ ↔ _
    rw [List.mem_filter]
    constructor
    · rintro ⟨k1, k2⟩
      refine ⟨k1, ?_⟩
      rintro rfl
      simp at k2
    · rintro ⟨k1, k2⟩
      refine ⟨k1, ?_⟩
      rw [decide_eq_true_iff]
      rintro ⟨k3, k4⟩
      obtain ⟨kn, kq, kc⟩ := k
      replace k3 : kn = n := k3
      replace k4 : kq = q := k4
      exact k2 (by rw [k3, k4, (C60_unique h k1 hk).2 k3 k4])

example : (run {} (lcEvents ++ [.packet lcA true 1])).2 = lcNotes ++ [.retired 0 1] ∧
    lookup (run {} (lcEvents ++ [.packet lcA true 1])).1.table lcC = none := ⟨rfl, rfl⟩

/-- **C32, own connection ID, partial.** A frame which asks, in a packet on the first address tuple, to retire the
destination connection ID of that same packet closes the connection with PROTOCOL_VIOLATION and retires
nothing. -/
theorem C32_own_partial {e e' : Endpoint} {notes out : List Note} {n q : Nat} {c : Conn} {dest : Bytes}
    (h : Reached e notes) (hc : e.conns n = some c) (hcl : c.closed = false)
    (hk : (⟨n, q, dest⟩ : Known) ∈ known notes) (hs : step e (.packet dest true q) = (e', out)) :
    out = [.error n 0xA] ∧ e'.table = e.table := by
  have i := inv_of_reached h
  have hl := (C60_routing h dest n).mpr ⟨q, hk⟩
  obtain ⟨c', hc', l, hlm, hq, hcid⟩ := (known_of_conn i).mp hk
  rw [hc] at hc'
  obtain rfl := Option.some.inj hc'
  have g := i.good n c hc
  rw [step_packet hl hc hcl] at hs
  obtain ⟨h1, h2⟩ := Prod.mk.inj hs
  have hfirst := (arrive_first c dest true).2.2 rfl
  rw [← hcid, find_own g hlm] at hfirst
  have hf : (arrive c dest true).first = some q := by rw [← hcid, hfirst, ← hq]; rfl
  rw [← h1, ← h2]
  unfold decodeRetire
  rw [if_pos hf]
  exact ⟨rfl, rfl⟩

example : (run {} (lcEvents ++ [.packet lcC true 1])).2 = lcNotes ++ [.error 0 0xA] := rfl

/-- **C32, repetition.** A frame for a sequence number which the peer does not know any more has no effect:
nothing is retired, every packet is routed as before, and there is no error. -/
theorem C32_repeat {e e' : Endpoint} {notes out : List Note} {n q : Nat} {dest : Bytes} {b : Bool}
    (h : Reached e notes) (hl : lookup e.table dest = some n)
    (hk : ∀ cid, (⟨n, q, cid⟩ : Known) ∉ known notes) (hs : step e (.packet dest b q) = (e', out)) :
    out = [] ∧ e'.table = e.table := by
  have i := inv_of_reached h
  obtain ⟨p, hp⟩ := (C60_routing h dest n).mp hl
  obtain ⟨c, hc, _⟩ := (known_of_conn i).mp hp
  have g := i.good n c hc
  have hq : q ∉ c.list.map Local.seq := by
    intro hh
    obtain ⟨l, hlm, hlq⟩ := List.mem_map.mp hh
    exact hk l.cid ((known_of_conn i).mpr ⟨c, hc, l, hlm, hlq, rfl⟩)
  cases hcl : c.closed with
  | true =>
    unfold step at hs
    dsimp only at hs
    rw [hl] at hs
    dsimp only at hs
    rw [hc] at hs
    dsimp only at hs
    rw [hcl, if_pos rfl] at hs
    rw [← (Prod.mk.inj hs).1, ← (Prod.mk.inj hs).2]
    exact ⟨rfl, rfl⟩
  | false =>
    rw [step_packet hl hc hcl] at hs
    rw [← (Prod.mk.inj hs).1, ← (Prod.mk.inj hs).2]
    have hf : (arrive c dest b).first ≠ some q := by
      intro hh
      have := (g.arrive dest b).first q hh
      rw [arrive_list] at this
      exact hq this
    have hnone : (arrive c dest b).list.find? (fun l => decide (l.seq = q)) = none := by
      rw [List.find?_eq_none]
      intro x hx hh
      rw [arrive_list] at hx
      exact hq (by rw [← of_decide_eq_true hh]; exact List.mem_map_of_mem hx)
    unfold decodeRetire
    rw [if_neg hf]
    dsimp only
    rw [arrive_list, if_neg hq]
    refine ⟨rfl, ?_⟩
    show (LocalCids.retire e.table (arrive c dest b) q).1 = e.table
    unfold LocalCids.retire
    rw [hnone]

example : (run {} (lcEvents ++ [.packet lcA true 1, .packet lcA true 1, .packet lcD false 1])).2 =
    lcNotes ++ [.retired 0 1] := rfl

/-- **C32 is false for numbers never issued.** The protocol asks for the error PROTOCOL_VIOLATION; the frame is
ignored, in every state and for every such number. -/
theorem C32_unknown_violated {e e' : Endpoint} {notes out : List Note} {n q : Nat} {dest : Bytes} {b : Bool}
    (h : Reached e notes) (hl : lookup e.table dest = some n) (hq : q ∉ numbers n notes)
    (hs : step e (.packet dest b q) = (e', out)) : out = [] ∧ e'.table = e.table := by
  have i := inv_of_reached h
  refine C32_repeat h hl ?_ hs
  intro cid hk
  obtain ⟨c, hc, l, hlm, hlq, _⟩ := (known_of_conn i).mp hk
  apply hq
  rw [num_of_reached h n, hc, List.mem_range, ← hlq]
  exact (i.good n c hc).below l hlm

example : 7 ∉ numbers 0 lcNotes ∧ (run {} (lcEvents ++ [.packet lcA true 7])).2 = lcNotes := ⟨by decide, rfl⟩

/-- **C32 is false on another tuple.** The peer uses connection ID number 1 from a second address, and there
retires number 0, which it used on the first one. It is accused of a protocol violation. -/
theorem C32_tuple_violated : ∃ e, Reached e lcNotes ∧ lookup e.table lcC = some 0 ∧
    (⟨0, 0, lcA⟩ : Known) ∈ known lcNotes ∧ lcA ≠ lcC ∧
    (step e (.packet lcC false 0)).2 = [.error 0 0xA] :=
  ⟨_, lcReached, rfl, by decide, by decide, rfl⟩

/-- **C32 is false on another tuple.** The frame in a packet with connection ID number 1 from a second address
asks to retire number 1. The protocol forbids that, and it is accepted. -/
theorem C32_tuple_own_violated : ∃ e, Reached e lcNotes ∧ lookup e.table lcC = some 0 ∧
    (⟨0, 1, lcC⟩ : Known) ∈ known lcNotes ∧
    (step e (.packet lcC false 1)).2 = [.retired 0 1] :=
  ⟨_, lcReached, rfl, by decide, rfl⟩

end Picoquic.Props
