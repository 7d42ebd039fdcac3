import Verif.Proof.Sooner

/-!
# C91: packets that come before their keys

On the network packets can overtake each other: a packet may arrive before the packet that carries
what is needed to decrypt it. Such packets are stored and tried again. A new connection is
`{ client }`; `run` gives its state after a history of arriving datagrams and prepared packets.
`done` lists the numbers of the packets processed, in order; `stash` lists what is stored.
-/

namespace Picoquic.Props
open Picoquic.Spec Picoquic.Sooner Picoquic.Proof.Sooner

/-- A 1-RTT packet, or a Handshake packet at a client, is never lost because it came early: when it
arrives at any time in a datagram, alone or after other packets that are new, then after any
further history in which its keys have come, the preparation of the next packet processes it
(unless it is forged). The list of stored packets is written while it is walked through; this
theorem says that nothing is lost by that. -/
theorem C91_delivered (client : Bool) (ops more : List ArriveOp) (before after : List Sealed)
    (p : Sealed)
    (hneed : p.need = .oneRtt ∨ (p.need = .handshake ∧ client = true))
    (hnew : ∀ x ∈ before, x.num ∉ (run { client } ops).done)
    (hdist : (before.map (·.num)).Nodup) (hauth : p.forged = false)
    (hkey : hasKey (run { client } (ops ++ .datagram (before ++ p :: after) :: more)) p.need = true) :
    p.num ∈ (run { client }
      (ops ++ .datagram (before ++ p :: after) :: more ++ [.prepare])).done := by
  have hi := inv_run ops { client } (inv_init client)
  have hcl : (run { client } ops).client = client := (le_run ops { client }).client
  have hs : Storable (run { client } ops).client p := by
    rw [hcl]
    exact hneed.symm
  have hw := waits_arrival p after before _ hi.keys hs hnew hdist
  have hi' := inv_datagram _ (before ++ p :: after) hi
  have hw2 := waits_run p more _ hi' hw
  have hi2 := inv_run more _ hi'
  have e1 : run { client } (ops ++ .datagram (before ++ p :: after) :: more) =
      run (datagram (run { client } ops) (before ++ p :: after)) more := by
    rw [run_append]; rfl
  have e2 : run { client } (ops ++ .datagram (before ++ p :: after) :: more ++ [.prepare]) =
      step (run (datagram (run { client } ops) (before ++ p :: after)) more) .prepare := by
    rw [run_append, e1]; rfl
  rw [e1] at hkey
  rw [e2]
  rcases done_prepare p _ hi2 hw2 (by
    rcases hneed with h | h
    · rw [h]; exact nofun
    · rw [h.1]; exact nofun) hkey with h | h
  · exact h
  · rw [hauth] at h; exact nomatch h

-- Handshake packet 1 and 1-RTT packet 2 in one datagram come first, then what gives the keys.
example :
    (run { client := true }
      [.datagram [⟨1, .handshake, false, false, true, false⟩, ⟨2, .oneRtt, false, false, false, true⟩],
       .datagram [⟨0, .early, false, true, false, false⟩], .prepare]).done = [0, 1, 2] := by
  decide

-- Here the keys come one after the other: packet 2 is stored again and is not lost.
example :
    (run { client := true }
      [.datagram [⟨1, .handshake, false, false, false, false⟩, ⟨2, .oneRtt, false, false, false, false⟩],
       .datagram [⟨0, .early, false, true, false, false⟩], .prepare,
       .datagram [⟨3, .handshake, false, false, true, false⟩], .prepare]).done = [0, 1, 3, 2] := by
  decide

/-- A packet that is stored stays stored until it is processed, or proves to be forged, whatever
happens. -/
theorem C91_stored (client : Bool) (ops more : List ArriveOp) (p : Sealed) (rest : List Sealed)
    (h : p :: rest ∈ (run { client } ops).stash) :
    (∃ r, p :: r ∈ (run { client } (ops ++ more)).stash) ∨
    p.num ∈ (run { client } (ops ++ more)).done ∨ p.forged = true := by
  rw [run_append]
  exact waits_run p more _ (inv_run ops _ (inv_init client)) (Or.inl ⟨rest, h⟩)

example : [⟨5, .oneRtt, false, false, false, false⟩] ∈
    (run { client := false } [.datagram [⟨5, .oneRtt, false, false, false, false⟩]]).stash := by
  decide

/-- No packet is processed twice, although parts of a datagram are stored several times. -/
theorem C91_once (client : Bool) (ops : List ArriveOp) : (run { client } ops).done.Nodup :=
  (from_run (A := fun _ => True) ops { client }
    ⟨List.nodup_nil, fun n h => absurd h List.not_mem_nil, fun d h => absurd h List.not_mem_nil⟩
    (fun _ _ _ _ => trivial)).once

/-- A packet is processed only if it has arrived, is not forged, and its keys are there. -/
theorem C91_authentic (client : Bool) (ops : List ArriveOp) (n : Nat)
    (h : n ∈ (run { client } ops).done) :
    ∃ d, .datagram d ∈ ops ∧ ∃ p ∈ d, p.num = n ∧ p.forged = false ∧
      hasKey (run { client } ops) p.need = true := by
  have := from_run (A := fun p => ∃ d, .datagram d ∈ ops ∧ p ∈ d) ops { client }
    ⟨List.nodup_nil, fun n h => absurd h List.not_mem_nil, fun d h => absurd h List.not_mem_nil⟩
    (fun d hd p hp => ⟨d, hd, hp⟩)
  obtain ⟨p, ⟨d, h1, h2⟩, h3, h4, h5⟩ := this.auth n h
  exact ⟨d, h1, p, h2, h3, h4, h5⟩

example : 2 ∈ (run { client := false }
    [.datagram [⟨2, .oneRtt, false, false, false, false⟩],
     .datagram [⟨0, .early, false, true, true, false⟩], .prepare]).done := by decide

/-- The packets that came early are processed in the order opposite to that of their arrival. -/
theorem C91_order_violated (client : Bool) (l : List Sealed) (k : Sealed)
    (hl : ∀ p ∈ l, p.need = .oneRtt ∧ p.forged = false)
    (hd : ((k :: l).map (·.num)).Nodup)
    (hk : k.need = .early ∧ k.forged = false ∧ k.givesOneRtt = true) :
    (run { client } (l.map (fun p => .datagram [p]) ++ [.datagram [k], .prepare])).done =
      k.num :: (l.map (·.num)).reverse := by
  rw [run_append, run_singles l { client } rfl rfl (fun p hp => (hl p hp).1)]
  have hk2 : datagram { client, stash := (l.map (fun p => [p])).reverse ++ [] } [k] =
      processed { client, stash := (l.map (fun p => [p])).reverse ++ [] } k := by
    simp [datagram, segment, hasKey, hk.1, hk.2.1]
  show (step (datagram _ [k]) .prepare).done = _
  rw [hk2]
  have hr : (processed { client, stash := (l.map (fun p => [p])).reverse ++ [] } k).recycle = true := by
    simp [processed, hk.2.2]
  simp only [step, if_pos hr, processSooner]
  have e : (processed { client, stash := (l.map (fun p => [p])).reverse ++ [] } k).stash =
      l.reverse.map (fun p => [p]) := by simp [processed]
  rw [e]
  simp only [List.map_cons, List.nodup_cons] at hd
  rw [(loop_singles l.reverse _ rfl (by simp [processed, hk.2.2]) (by
    intro p hp
    have hp' := List.mem_reverse.1 hp
    refine ⟨(hl p hp').1, (hl p hp').2, ?_⟩
    show p.num ∉ [] ++ [k.num]
    rw [List.nil_append, List.mem_singleton]
    intro t
    exact hd.1 (List.mem_map.2 ⟨p, hp', t⟩)) (by
    rw [List.map_reverse]; exact List.pairwise_reverse.2 (hd.2.imp Ne.symm))).1]
  simp [processed]

example :
    (run { client := true }
      [.datagram [⟨1, .oneRtt, false, false, false, false⟩],
       .datagram [⟨2, .oneRtt, false, false, false, false⟩],
       .datagram [⟨3, .oneRtt, false, false, false, false⟩],
       .datagram [⟨0, .early, false, true, true, false⟩], .prepare]).done = [0, 3, 2, 1] := by
  decide

/-- What is stored has no limit, and it need not come from the peer: `n` forged datagrams make `n`
entries that stay until the handshake gives the keys. -/
theorem C91_memory_violated (client : Bool) (n : Nat) : ∃ ops : List ArriveOp,
    (∀ d, .datagram d ∈ ops → ∀ p ∈ d, p.forged = true) ∧
    (run { client } ops).stash.length = n ∧ (run { client } ops).done = [] := by
  refine ⟨(List.replicate n ⟨0, .oneRtt, true, false, false, false⟩).map (fun p => .datagram [p]),
    ?_, ?_⟩
  · intro d hd p hp
    rw [List.mem_map] at hd
    obtain ⟨q, hq, e⟩ := hd
    cases e
    rw [List.mem_singleton] at hp
    subst hp
    rw [(List.mem_replicate.1 hq).2]
  · rw [run_singles _ { client } rfl rfl (fun p hp => by rw [(List.mem_replicate.1 hp).2])]
    simp

/-- A datagram of `k` Handshake packets is stored by a client as `k` datagrams, which have
`k·(k+1)/2` packets in all. -/
theorem C91_copies_violated (d : List Sealed) (h : ∀ p ∈ d, p.need = .handshake) :
    (run { client := true } [.datagram d]).stash.length = d.length ∧
    2 * (run { client := true } [.datagram d]).stash.flatten.length = d.length * (d.length + 1) := by
  obtain ⟨new, e1, e2, e3⟩ := datagram_copies d { client := true } rfl rfl rfl h
  have : (run { client := true } [.datagram d]).stash = new := by
    show (datagram { client := true } d).stash = new
    rw [e1]; exact List.append_nil _
  rw [this]
  exact ⟨e2, e3⟩

example : (run { client := true } [.datagram
    [⟨1, .handshake, false, false, false, false⟩, ⟨2, .handshake, false, false, false, false⟩,
     ⟨3, .handshake, false, false, false, false⟩]]).stash.map (·.map (·.num)) =
    [[3], [2, 3], [1, 2, 3]] := by decide

/-- A server keeps no Handshake packet that comes before its keys: it is dropped, and the client has
to send it again. -/
theorem C91_server_violated (ops : List ArriveOp) (p : Sealed) (hp : p.need = .handshake)
    (hk : (run { client := false } ops).handshakeKey = false) :
    run { client := false } (ops ++ [.datagram [p]]) = run { client := false } ops := by
  rw [run_append]
  have hc : (run { client := false } ops).client = false := (le_run ops _).client
  show datagram (run { client := false } ops) [p] = _
  simp [datagram, segment, hasKey, notDecrypted, hp, hk, hc]

example : (run { client := false } [.datagram [⟨7, .early, false, false, false, false⟩]]).handshakeKey
    = false := by decide

/-- Once the connection is ready nothing more is stored, and everything stored before can be
processed at the next packet. -/
theorem C91_ready (client : Bool) (ops : List ArriveOp) (d : List Sealed)
    (hr : (run { client } ops).ready = true) :
    (run { client } (ops ++ [.datagram d])).stash = (run { client } ops).stash ∧
    ∀ p r, p :: r ∈ (run { client } ops).stash → p.forged = false → p.need ≠ .early →
      p.num ∈ (run { client } (ops ++ [.prepare])).done := by
  have hi := inv_run ops { client } (inv_init client)
  rw [run_append, run_append]
  refine ⟨?_, fun p r h hf hn => ?_⟩
  · show (datagram (run { client } ops) d).stash = _
    obtain ⟨new, e1, e2⟩ := datagram_stash d (run { client } ops)
    cases new with
    | nil => rw [e1]; rfl
    | cons e new =>
      obtain ⟨u, q, r, _, _, _, h4, _⟩ := e2 e (List.mem_cons_self ..)
      rw [hi.keys.hasKey hr] at h4
      exact nomatch h4
  · rcases done_prepare p _ hi (Or.inl ⟨r, h⟩) hn (hi.keys.hasKey hr _) with k | k
    · exact k
    · rw [hf] at k; exact nomatch k

example : (run { client := false }
    [.datagram [⟨2, .oneRtt, false, false, false, false⟩],
     .datagram [⟨0, .early, false, true, true, true⟩]]).ready = true ∧
   (run { client := false }
    [.datagram [⟨2, .oneRtt, false, false, false, false⟩],
     .datagram [⟨0, .early, false, true, true, true⟩]]).stash ≠ [] := by decide

end Picoquic.Props
