import Verif.Proof.RepeatProgress
import Verif.Model.Splay
/-!
# C30, C35: repetition of lost stream data
-/

namespace Picoquic.Props
open Picoquic Picoquic.Spec Picoquic.Repeat

/-! ## C30 -/

/-- Whatever the packets sent, lost, acknowledged, acknowledged late or forgotten, in any order, whatever the sizes
of the packets and the order of the queue: a position sent in a frame with data, on a stream which exists and was
not reset, is acknowledged, or in a packet in flight, or among what is left to repeat.

The full property holds for all positions sent. The end of a stream sent in a frame without data is missing here,
see `C30_violated`. -/
theorem C30_not_lost_partial {w : World} {sent acked : List Bytes} (h : RepeatHistory (fun _ => True) w sent acked)
    {payload : Bytes} (hp : payload ∈ sent) {id pos : Nat} (hd : PacketHasData payload id pos) (ha : Active w id) :
    (∃ a ∈ acked, PacketHas a id pos) ∨ (∃ b ∈ w.inflight, PacketHasData b id pos) ∨
      ∃ q ∈ w.queue, ToRepeat q id pos := by
  have hI := inv_of_history fragments_true h
  obtain ⟨s, h1, h2⟩ := ha
  by_cases hc : Sack.Cov s.sack.items pos
  · exact .inl (hI.cov id s h1 pos hc)
  · exact .inr (hI.main payload hp id pos hd ⟨s, h1, h2, hc⟩)

/-- The bytes sent again are those sent first: if the frames made by the sender agree with the content and the final
size of each stream, so do all frames of all packets sent. -/
theorem C30_same_bytes {content : Nat → Nat → UInt8} {size : Nat → Nat} {w : World} {sent acked : List Bytes}
    (h : RepeatHistory (Agrees content size) w sent acked) {payload : Bytes} (hp : payload ∈ sent) :
    ∃ fs, IsPayload payload fs ∧ ∀ f ∈ fs, Agrees content size f := by
  obtain ⟨fs, h1, h2⟩ := (inv_of_history (fragments_agrees content size) h).sentGood payload hp
  refine ⟨fs, h1, ?_⟩
  intro f hf
  cases f with
  | stream id offset fin data e => exact (h2 _ (List.mem_filter.2 ⟨hf, rfl⟩)).2
  | _ => trivial

/-- A packet can always be made from the queue: there is no internal error, and what is written fits in the room
given and is made of STREAM frames and padding. -/
theorem C30_writes {w : World} {sent acked : List Bytes} (h : RepeatHistory (fun _ => True) w sent acked)
    (place : List Queued → Queued → Nat) (current room : Nat) :
    ∃ out queue fs, copyLoop place w.streams current (w.queue.length + 1) w.queue room = some (out, queue) ∧
      out.length ≤ room ∧ IsPayload out fs := by
  have hI := inv_of_history fragments_true h
  obtain ⟨out, queue, h1, h2, ⟨os, h3, _⟩, _⟩ := copyLoop_spec fragments_true (fun f h => h.1) hI.sorted place current
    (w.queue.length + 1) w.queue room hI.queue
  exact ⟨out, queue, os, h1, h2, h3⟩

/-- Each packet with at least 529 bytes of room takes something from the queue, so that a finite number of packets
empties it. -/
theorem C30_progress {w w' : World} {sent acked : List Bytes} (h : RepeatHistory (fun _ => True) w sent acked)
    {place : List Queued → Queued → Nat} {current room : Nat} {pre post packet : Bytes} (hq : w.queue ≠ [])
    (hp : ∀ q ∈ w.queue, q.priority ≤ current) (hr : 529 ≤ room)
    (hs : send w place current room pre post = some (packet, w')) : remaining w'.queue < remaining w.queue := by
  have hI := inv_of_history fragments_true h
  unfold send at hs
  cases hw : w.queue with
  | nil => exact absurd hw hq
  | cons q queue =>
    rw [hw] at hs hp
    cases hc : copyLoop place w.streams current ((q :: queue).length + 1) (q :: queue) room with
    | none => rw [hc] at hs; cases hs
    | some x =>
      obtain ⟨out, queue'⟩ := x
      rw [hc] at hs
      have hs := Option.some.inj hs
      rw [Prod.mk.injEq] at hs
      rw [← hs.2]
      exact copyLoop_lt fragments_true (fun f h => h.1) hI.sorted place current (by rw [← hw]; exact hI.queue)
        (hp q (List.mem_cons_self ..)) hr hc

/-! An example: three bytes of stream 0 are sent, then the end of stream 4 at offset 5, without data. Both packets
are lost. -/

/-- STREAM frame with length: stream 0, offset 0, three bytes. -/
def exData : Bytes := [0x0a, 0, 3, 1, 2, 3]
/-- STREAM frame with offset, length and FIN: stream 4, offset 5, no data. -/
def exFin : Bytes := [0x0f, 4, 5, 0]
/-- New packets are put at the end of the queue. -/
def exPlace : List Queued → Queued → Nat := fun l _ => l.length

theorem exData_payload : IsPayload exData [.stream 0 0 false [1, 2, 3] true] :=
  .cons (rest := []) ⟨exData, rfl, ⟨0x0a, false, [0], [], [3], rfl, rfl, ⟨0, by decide⟩, ⟨rfl, rfl⟩, ⟨0, by decide⟩⟩,
    by intro h; cases h⟩ .nil

theorem exFin_payload : IsPayload exFin [.stream 4 5 true [] true] :=
  .cons (rest := []) ⟨exFin, rfl, ⟨0x0f, true, [4], [5], [0], rfl, rfl, ⟨0, by decide⟩, ⟨0, by decide⟩, ⟨0, by decide⟩⟩,
    by intro h; cases h⟩ .nil

/-- Both packets sent. -/
def exSent : World := { World.init with inflight := [exData, exFin] }

theorem exSent_history : RepeatHistory (fun _ => True) exSent [exData, exFin] [] := by
  have h1 : RepeatHistory (fun _ => True) { World.init with inflight := [exData] } [exData] [] :=
    .send (sent := []) (place := exPlace) (current := 0) (room := 1000) (pre := []) (post := exData) .init .nil exData_payload
      (by simp) (by
        intro f hf
        rw [List.nil_append, List.mem_singleton] at hf
        subst hf
        exact ⟨⟨by decide, by simp⟩, trivial⟩) rfl (by decide) (by decide)
  exact .send (sent := [exData]) (place := exPlace) (current := 0) (room := 1000) (pre := []) (post := exFin) h1 .nil exFin_payload
      (by simp) (by
        intro f hf
        rw [List.nil_append, List.mem_singleton] at hf
        subst hf
        exact ⟨⟨by decide, by simp⟩, trivial⟩) rfl (by decide) (by decide)

/-- Both packets are lost and queued. -/
theorem exLost_queue : (lose (lose exSent exPlace 0 true) exPlace 0 true).queue =
    [⟨exData, 0, 9, 0, 0, 3⟩, ⟨exFin, 0, 9, 4, 5, 0⟩] := by decide +kernel

/-- The repetition, in a packet where 9 bytes are left. -/
theorem exRepeat : (send (lose (lose exSent exPlace 0 true) exPlace 0 true) exPlace (2 ^ 64 - 1) 9 [] []).map
    (fun x => (x.1, x.2.inflight, x.2.queue)) = some (exData, [exData], []) := by decide +kernel

/-- The end of a stream is lost for ever: it was sent, it was not acknowledged, the stream exists and was not reset,
but it is neither in flight nor queued. In the example the packet in which the data of another stream is repeated
has three bytes left, just the header of the frame: nothing is written, but since there is no data to send, the frame
is taken as sent. -/
theorem C30_violated : ∃ w sent acked payload id pos, RepeatHistory (fun _ => True) w sent acked ∧ payload ∈ sent ∧
    PacketHas payload id pos ∧ Active w id ∧ w.queue = [] ∧ (∀ b ∈ w.inflight, ¬ PacketHas b id pos) ∧
    ∀ a ∈ acked, ¬ PacketHas a id pos := by
  cases hs : send (lose (lose exSent exPlace 0 true) exPlace 0 true) exPlace (2 ^ 64 - 1) 9 [] [] with
  | none =>
    have := exRepeat
    rw [hs] at this
    cases this
  | some x =>
    obtain ⟨packet, w⟩ := x
    have hx := exRepeat
    rw [hs, Option.map_some] at hx
    have hx := Option.some.inj hx
    rw [Prod.mk.injEq, Prod.mk.injEq] at hx
    obtain ⟨h1, h2, h3⟩ := hx
    dsimp only at h1 h2 h3
    have hh := RepeatHistory.lose (place := exPlace) (i := 0) (keep := true)
      (RepeatHistory.lose (place := exPlace) (i := 0) (keep := true) exSent_history)
    have hst : w.streams 4 = some ⟨false, 9, Sack.SackList.init⟩ := by
      unfold send at hs
      split at hs
      · cases hs
      · have hs := Option.some.inj hs
        rw [Prod.mk.injEq] at hs
        rw [← hs.2]
        rfl
    have hnot : ∀ b ∈ w.inflight, ¬ PacketHas b 4 5 := by
      rw [h2]
      intro b hb
      rw [List.mem_singleton.1 hb, packetHas_iff exData_payload]
      rintro ⟨f, hf, hff⟩
      have : f = .stream 0 0 false [1, 2, 3] true := List.mem_singleton.1 hf
      subst this
      exact absurd hff.1 (by decide)
    refine ⟨w, _, _, exFin, 4, 5, .send hh .nil .nil (by simp) (by simp) hs ?_ (by decide), ?_, ?_, ⟨_, hst, rfl⟩, h3, hnot,
      by simp⟩
    · rw [h1]; decide
    · simp
    · rw [packetHas_iff exFin_payload]
      exact ⟨_, List.mem_singleton.2 rfl, rfl, by decide, by decide⟩

/-- The hypotheses of `C30_not_lost_partial` and `C30_progress` are met: the lost packets are queued. -/
example : RepeatHistory (fun _ => True) (lose (lose exSent exPlace 0 true) exPlace 0 true) [exData, exFin] [] ∧
    exData ∈ [exData, exFin] ∧ PacketHasData exData 0 2 ∧ Active (lose (lose exSent exPlace 0 true) exPlace 0 true) 0 ∧
    (lose (lose exSent exPlace 0 true) exPlace 0 true).queue ≠ [] := by
  refine ⟨.lose (.lose exSent_history), by simp, ?_, ⟨⟨false, 9, Sack.SackList.init⟩, rfl, rfl⟩, by rw [exLost_queue]; simp⟩
  rw [packetHasData_iff exData_payload]
  exact ⟨_, List.mem_singleton.2 rfl, ⟨rfl, by decide, by decide⟩, by simp [HasData]⟩

/-- A long frame is repeated in two parts when 600 bytes are left. -/
example : let q : Queued := ⟨0x0b :: 0 :: 0x44 :: 0 :: List.replicate 1024 7, 0, 9, 0, 0, 1024⟩
    (copySingle World.init.streams q 600).map (fun x => (x.1.length, x.2)) =
      some (600, .kept { q with done := 4 + 598 }) := by decide +kernel

/-! ## C35 -/

/-- The order of the queue does not depend on the priorities, nor on the streams: of two packets the one that was
sent when fewer bytes were in flight is repeated first, whichever was queued first. -/
theorem C35_violated (a b : PacketKeys) (h : b.inflightPrior < a.inflightPrior) :
    (∃ t1 t2 z, Splay.insert repeatCompare .empty a = some t1 ∧ Splay.insert repeatCompare t1 b = some t2 ∧
      Splay.first t2 = some z ∧ z.x = b) ∧
    ∃ t1 t2 z, Splay.insert repeatCompare .empty b = some t1 ∧ Splay.insert repeatCompare t1 a = some t2 ∧
      Splay.first t2 = some z ∧ z.x = b := by
  have h1 : repeatCompare b a < 0 := by
    unfold repeatCompare compareRead
    rw [if_neg (by omega), if_pos h]
    decide
  have h2 : ¬ repeatCompare a b < 0 := by
    unfold repeatCompare compareRead
    rw [if_pos h]
    decide
  constructor
  · refine ⟨⟨.node .nil a .nil, 1⟩, ⟨.node .nil b (.node .nil a .nil), 2⟩, _, rfl, ?_, rfl, rfl⟩
    unfold Splay.insert
    simp only [Splay.insertPos, if_pos h1]
    rfl
  · refine ⟨⟨.node .nil b .nil, 1⟩, ⟨.node (.node .nil b .nil) a .nil, 2⟩, _, rfl, ?_, rfl, rfl⟩
    unfold Splay.insert
    simp only [Splay.insertPos, if_neg h2]
    rfl

/-- So the more urgent of two packets may wait behind the other. -/
theorem C35_urgent_waits : ∃ a b : PacketKeys, MoreUrgent a b ∧
    ∃ t1 t2 z, Splay.insert repeatCompare .empty a = some t1 ∧ Splay.insert repeatCompare t1 b = some t2 ∧
      Splay.first t2 = some z ∧ z.x = b :=
  ⟨⟨3000, 0, 0, 1, 4, 0, 1000⟩, ⟨1500, 0, 0, 9, 0, 0, 1000⟩, .inl (by decide),
    (C35_violated _ _ (by decide)).1⟩

/-- The part of the property that holds: the packets that have a priority above the limit given are left as they
are. The only caller (sender.c 2851-2860) gives the limit 2^64 - 1. -/
theorem C35_gate_partial (place : List Queued → Queued → Nat) (streams : Streams) (current fuel : Nat)
    (queue queue' : List Queued) (room : Nat) (out : Bytes)
    (h : copyLoop place streams current fuel queue room = some (out, queue')) (q : Queued) (hq : q ∈ queue)
    (hp : current < q.priority) : q ∈ queue' := by
  induction fuel generalizing queue room out queue' with
  | zero =>
    have h := Option.some.inj h
    rw [Prod.mk.injEq] at h
    rw [← h.2]; exact hq
  | succ fuel ih =>
    cases queue with
    | nil => cases hq
    | cons x queue =>
      rw [copyLoop] at h
      by_cases hx : x.priority > current
      · rw [if_pos hx] at h
        have h := Option.some.inj h
        rw [Prod.mk.injEq] at h
        rw [← h.2]; exact hq
      · rw [if_neg hx] at h
        have hq' : q ∈ queue := by
          rcases List.mem_cons.1 hq with rfl | hq
          · omega
          · exact hq
        split at h
        · cases h
        · split at h
          · split at h
            · cases h
            · rename_i hcl
              have h := Option.some.inj h
              rw [Prod.mk.injEq] at h
              rw [← h.2]
              exact ih _ _ _ _ hcl hq'
          · have h := Option.some.inj h
            rw [Prod.mk.injEq] at h
            rw [← h.2]; exact hq'
        · have h := Option.some.inj h
          rw [Prod.mk.injEq] at h
          rw [← h.2]; exact mem_insertAt.2 (.inr hq')
        · have h := Option.some.inj h
          rw [Prod.mk.injEq] at h
          rw [← h.2]; exact List.mem_cons_of_mem _ hq'

/-- A packet of priority 9 waits while one of priority 2 is repeated. -/
example : copyLoop exPlace World.init.streams 3 3 [⟨exData, 0, 2, 0, 0, 3⟩, ⟨exData, 0, 9, 0, 0, 3⟩] 100 =
    some (exData, [⟨exData, 0, 9, 0, 0, 3⟩]) := by decide +kernel

end Picoquic.Props
