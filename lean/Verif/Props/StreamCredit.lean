import Verif.Proof.StreamCreditRun
/-!
# C45: credit for finished streams

`run p (initial maxdata client) ops` is the receiving side of a connection after the history `ops`.
`computed u` is the counter from which the limit announced in MAX_STREAMS frames is computed, for
bidirectional (`false`) or unidirectional (`true`) streams: 4 for each stream.
-/

namespace Picoquic.Props
open Picoquic Picoquic.Spec Picoquic.StreamInput Picoquic.StreamCredit

/-- C45: after any history without a connection error, the credit is four times the number of streams in a list without
repetition; each of them was finished locally and the peer announced its end; and all the streams that are finished
locally and of which all the data was received, up to the end announced by FIN or RESET_STREAM, are in the list.

Missing from the full statement: a stream reset by the peer before all its data was received
(`C45_reset_violated`), and the credit may be given before the data is received (`C45_early_violated`). -/
theorem C45_credit_partial (p : Params) (maxdata : Nat) (client : Bool) (ops : List Op)
    (herr : (run p (initial maxdata client) ops).rx.error = none) (unidir : Bool) :
    ∃ L : List Nat, L.Nodup ∧
      (run p (initial maxdata client) ops).computed unidir =
        (if unidir then 2 else 0) + (if client then 0 else 1) + 4 * L.length ∧
      (∀ id ∈ L, p.receiveOnly id = unidir ∧ LocallyFinished p.receiveOnly ops id ∧ EndReceived ops id) ∧
      ∀ id F, p.receiveOnly id = unidir → SizedStream F ops id → LocallyFinished p.receiveOnly ops id →
        (FullyReceived F ops id ∨ ResetAtEnd F ops id) → id ∈ L := by
  obtain ⟨L, h1, h2, h3⟩ := run_count p maxdata client ops unidir
  refine ⟨L, h1, h3, fun id hid => ?_, fun id F hu hs hl hf => ?_⟩
  · obtain ⟨g1, g2⟩ := (h2 id).1 hid
    have hm := (run_means p maxdata client ops herr id).upd g1
    exact ⟨g2, hm.2.1, hm.1⟩
  · exact (h2 id).2 ⟨run_finished F p maxdata client id ops hs herr hl hf, hu⟩

/-- Streams 0 and 4 are bidirectional, 2 is unidirectional. -/
def creditParams : Params := ⟨fun id => decide (id < 8), fun _ => 100, fun id => id % 4 == 2⟩

/-- The data of stream 0 arrives out of order, then the local side finishes; stream 2 is complete at once; stream 4
is reset after its three bytes. -/
def creditOps : List Op :=
  [.frame 0 2 true [3], .frame 2 0 true [7, 8], .frame 4 0 false [1, 2, 3], .frame 0 0 false [1, 2],
   .sendSide 4 true false, .reset 4 3, .sendSide 0 true false]

/-- The hypotheses and conclusion on a history. -/
example : (run creditParams (initial 1000 false) creditOps).rx.error = none ∧
    (run creditParams (initial 1000 false) creditOps).computed false = 1 + 4 * 2 ∧
    (run creditParams (initial 1000 false) creditOps).computed true = 3 + 4 * 1 := by decide +kernel

example : SizedStream 3 creditOps 4 ∧ LocallyFinished creditParams.receiveOnly creditOps 4 ∧
    ResetAtEnd 3 creditOps 4 ∧ SizedStream 3 creditOps 0 ∧ LocallyFinished creditParams.receiveOnly creditOps 0 ∧
    FullyReceived 3 creditOps 0 := by
  refine ⟨⟨?_, ?_⟩, .inr ⟨creditOps.take 4, [.reset 4 3, .sendSide 0 true false], false, rfl, ?_⟩,
    ⟨creditOps.take 5, [.sendSide 0 true false], rfl, ?_, ?_⟩, ⟨?_, ?_⟩,
    .inr ⟨creditOps.take 6, [], false, rfl, ?_⟩, ?_, ?_, ?_⟩
  · intro o f b h; simp [creditOps] at h; obtain ⟨rfl, rfl, rfl⟩ := h; decide
  · intro f h; simp [creditOps] at h; exact h
  · exact .inl ⟨0, false, [1, 2, 3], by simp [creditOps]⟩
  · intro f h; simp [creditOps] at h
  · intro i hi; exact ⟨0, false, [1, 2, 3], by simp [creditOps], by omega, by simpa using hi⟩
  · intro o f b h; simp [creditOps] at h; rcases h with ⟨rfl, rfl, rfl⟩ | ⟨rfl, rfl, rfl⟩ <;> decide
  · intro f h; simp [creditOps] at h
  · exact .inl ⟨0, false, [1, 2], by simp [creditOps]⟩
  · intro f h; simp [creditOps] at h
  · exact ⟨2, [3], by simp [creditOps]⟩
  · intro i hi
    by_cases h2 : i < 2
    · exact ⟨0, false, [1, 2], by simp [creditOps], by omega, by simpa using h2⟩
    · exact ⟨2, true, [3], by simp [creditOps], by omega, by simp; omega⟩

/-- C45 does not hold when the peer resets a stream before all its data was received: the stream is finished on both
sides, and deleted, and the credit is never given, whatever follows on the stream. -/
theorem C45_reset_violated (after : List Op) (h : ∀ op ∈ after, op.id = 0) :
    let ops := [Op.frame 0 0 false [1], .sendSide 0 true true, .reset 0 2]
    (run creditParams (initial 1000 false) (ops ++ after)).rx.error = none ∧
    (run creditParams (initial 1000 false) (ops ++ after)).computed false =
      (initial 1000 false).computed false ∧
    SizedStream 2 ops 0 ∧ LocallyFinished creditParams.receiveOnly ops 0 ∧ EndReceived ops 0 := by
  intro ops
  rw [StreamCredit.run_append]
  obtain ⟨h1, h2⟩ := stuck creditParams after (run creditParams (initial 1000 false) ops) 0 h (by decide +kernel)
    (by decide +kernel) (by decide +kernel) (by decide +kernel)
  refine ⟨h2, ?_, ⟨?_, ?_⟩, .inr ⟨[.frame 0 0 false [1]], [.reset 0 2], true, rfl, ?_⟩, .inr ⟨2, by simp [ops]⟩⟩
  · rw [h1]; decide +kernel
  · intro o f b h; simp [ops] at h; obtain ⟨rfl, rfl, rfl⟩ := h; decide
  · intro f h; simp [ops] at h; exact h
  · exact .inl ⟨0, false, [1], by simp⟩

/-- The credit may be given before any data is received: a FIN that arrives first, ahead of the data, is enough. -/
theorem C45_early_violated :
    (run creditParams (initial 1000 false) [.frame 2 50 true [1]]).computed true = (initial 1000 false).computed true + 4 ∧
    (run creditParams (initial 1000 false) [.frame 2 50 true [1]]).rx.error = none ∧
    ¬ Received [.frame 2 50 true [1]] 2 0 := by
  refine ⟨by decide +kernel, by decide +kernel, ?_⟩
  rintro ⟨o, f, b, h, h1, _⟩
  simp at h
  omega

end Picoquic.Props
