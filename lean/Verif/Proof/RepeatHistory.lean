import Verif.Proof.DataRepeat
/-! # Stream data is in flight, acknowledged or queued: the invariant -/

namespace Picoquic.Repeat
open Picoquic Picoquic.Spec Picoquic.Sack Picoquic.StreamFrame

/-- The invariant of a connection. -/
structure Inv (P : Frame → Prop) (w : World) (sent acked : List Bytes) : Prop where
  sorted : Sorted w.streams
  cov : ∀ id s, w.streams id = some s → ∀ n, Cov s.sack.items n → ∃ a ∈ acked, PacketHas a id n
  inflight : ∀ p ∈ w.inflight, Good P p
  retransmitted : ∀ p ∈ w.retransmitted, Good P p
  queue : ∀ q ∈ w.queue, QInv P q
  sentGood : ∀ p ∈ sent, Good P p
  main : ∀ p ∈ sent, ∀ id pos, PacketHasData p id pos → Unacked w.streams id pos →
    (∃ b ∈ w.inflight, PacketHasData b id pos) ∨ ∃ q ∈ w.queue, ToRepeat q id pos

theorem mem_eraseIdx_or {α : Type} {l : List α} {i : Nat} {p x : α} (h : l[i]? = some p) (hx : x ∈ l) :
    x = p ∨ x ∈ l.eraseIdx i := by
  induction l generalizing i with
  | nil => cases hx
  | cons a t ih =>
    cases i with
    | zero =>
      have : a = p := by simpa using h
      subst this
      rcases List.mem_cons.1 hx with h | h
      · exact .inl h
      · exact .inr h
    | succ i =>
      rw [List.eraseIdx_cons_succ]
      rcases List.mem_cons.1 hx with h' | h'
      · right; rw [h']; exact List.mem_cons_self ..
      · rcases ih (by simpa using h) h' with h'' | h''
        · exact .inl h''
        · exact .inr (List.mem_cons_of_mem _ h'')

theorem unacked_of_acked {streams streams' : Streams} {has : Nat → Nat → Prop} (h : Acked streams streams' has)
    {id pos : Nat} (hu : Unacked streams' id pos) : Unacked streams id pos ∧ ¬ has id pos := by
  obtain ⟨s', h1, h2, h3⟩ := hu
  cases hst : streams id with
  | none => rw [(h id).1 hst] at h1; cases h1
  | some s =>
    obtain ⟨s'', a1, a2, a3⟩ := (h id).2 s hst
    rw [h1] at a1
    have := Option.some.inj a1
    subst this
    rw [a3] at h3
    exact ⟨⟨s, hst, a2 ▸ h2, fun hc => h3 (.inl hc)⟩, fun hc => h3 (.inr hc)⟩

theorem packetHas_of_data {p : Bytes} {id pos : Nat} (h : PacketHasData p id pos) : PacketHas p id pos := by
  obtain ⟨fs, f, h1, h2, h3, _⟩ := h
  exact ⟨fs, f, h1, h2, h3⟩

/-- The streams after the acknowledgement of a packet. -/
theorem ack_streams {P : Frame → Prop} (hsend : ∀ f, P f → Sendable f) {w : World} {sent acked : List Bytes}
    (h : Inv P w sent acked) {p : Bytes} (hp : Good P p) :
    Sorted (ackFrames (p.length + 1) p w.streams) ∧
    (∀ id s, ackFrames (p.length + 1) p w.streams id = some s → ∀ n, Cov s.sack.items n →
      ∃ a ∈ acked ++ [p], PacketHas a id n) ∧
    ∀ id pos, Unacked (ackFrames (p.length + 1) p w.streams) id pos → Unacked w.streams id pos ∧ ¬ PacketHas p id pos := by
  obtain ⟨fs, h1, h2⟩ := hp
  obtain ⟨a1, a2⟩ := ackFrames_spec (p.length + 1) p fs w.streams h1 (fun f hf => hsend f (h2 f hf)) (by omega) h.sorted
  refine ⟨a1, ?_, ?_⟩
  · intro id s hs n hn
    cases hst : w.streams id with
    | none => rw [(a2 id).1 hst] at hs; cases hs
    | some s0 =>
      obtain ⟨s', b1, _, b3⟩ := (a2 id).2 s0 hst
      rw [hs] at b1
      have := Option.some.inj b1
      subst this
      rcases (b3 n).1 hn with hn | hn
      · obtain ⟨a, ha, hh⟩ := h.cov id s0 hst n hn
        exact ⟨a, List.mem_append_left _ ha, hh⟩
      · exact ⟨p, List.mem_append_right _ (List.mem_singleton.2 rfl), (packetHas_iff h1 id n).2 hn⟩
  · intro id pos hu
    obtain ⟨c1, c2⟩ := unacked_of_acked a2 hu
    exact ⟨c1, fun hh => c2 ((packetHas_iff h1 id pos).1 hh)⟩

theorem inv_of_history {ok : Frame → Prop} (hfrag : Fragments fun f => Sendable f ∧ ok f) {w : World} {sent acked : List Bytes}
    (h : RepeatHistory ok w sent acked) : Inv (fun f => Sendable f ∧ ok f) w sent acked := by
  have hsend : ∀ f, Sendable f ∧ ok f → Sendable f := fun f h => h.1
  induction h with
  | init =>
    refine ⟨?_, ?_, by simp [World.init], by simp [World.init], by simp [World.init], by simp, by simp⟩
    · intro id s hs
      have : s = ⟨false, 9, SackList.init⟩ := (Option.some.inj hs).symm
      subst this
      exact ⟨sep_nil, rfl⟩
    · intro id s hs n hn
      have : s = ⟨false, 9, SackList.init⟩ := (Option.some.inj hs).symm
      subst this
      obtain ⟨i, hi, _⟩ := hn
      cases hi
  | @send w w' sent acked place current room pre post packet fs gs hh hpre hpost hcl hok hsnd hlen hmax ih =>
    obtain ⟨out, queue', c1, c2, ⟨os, o1, o2, o3⟩, c4, c5⟩ := copyLoop_spec hfrag hsend ih.sorted place current
      (w.queue.length + 1) w.queue room ih.queue
    unfold send at hsnd
    rw [c1] at hsnd
    have hsnd := Option.some.inj hsnd
    rw [Prod.mk.injEq] at hsnd
    obtain ⟨rfl, rfl⟩ := hsnd
    obtain ⟨hs1, r1, r2, _⟩ := payload_append o1 hpost (by
      rcases o3 with o3 | o3
      · exact .inr o3
      · left
        apply List.length_eq_zero_iff.1
        simp only [List.length_append] at hlen
        omega)
    obtain ⟨hs2, s1, s2, _⟩ := payload_append hpre r1 (.inr hcl)
    have hgood : Good (fun f => Sendable f ∧ ok f) (pre ++ (out ++ post)) := by
      refine ⟨hs2, s1, ?_⟩
      rw [s2, r2]
      intro f hf
      rcases List.mem_append.1 hf with hf | hf
      · exact hok f (List.mem_append_left _ (List.mem_filter.1 hf).1)
      · rcases List.mem_append.1 hf with hf | hf
        · exact o2 f hf
        · exact hok f (List.mem_append_right _ (List.mem_filter.1 hf).1)
    refine ⟨ih.sorted, ih.cov, ?_, ih.retransmitted, c4, ?_, ?_⟩
    · intro p hp
      rcases List.mem_append.1 hp with hp | hp
      · exact ih.inflight p hp
      · rw [List.mem_singleton.1 hp]; exact hgood
    · intro p hp
      rcases List.mem_append.1 hp with hp | hp
      · exact ih.sentGood p hp
      · rw [List.mem_singleton.1 hp]; exact hgood
    · intro p hp id pos hd hu
      rcases List.mem_append.1 hp with hp | hp
      · rcases ih.main p hp id pos hd hu with ⟨b, hb, h⟩ | h
        · exact .inl ⟨b, List.mem_append_left _ hb, h⟩
        · rcases c5 id pos h hu with h | h
          · refine .inl ⟨_, List.mem_append_right _ (List.mem_singleton.2 rfl), ?_⟩
            rw [packetHasData_iff s1, s2, r2]
            obtain ⟨f, hf, h⟩ := (packetHasData_iff o1 id pos).1 h
            exact ⟨f, List.mem_append_right _ (List.mem_append_left _ hf), h⟩
          · exact .inr h
      · rw [List.mem_singleton.1 hp] at hd
        exact .inl ⟨_, List.mem_append_right _ (List.mem_singleton.2 rfl), hd⟩
  | @ack w sent acked i p hh hi ih =>
    have hg := ih.inflight p (List.mem_of_getElem? hi)
    obtain ⟨a1, a2, a3⟩ := ack_streams hsend ih hg
    unfold ack
    rw [hi]
    refine ⟨a1, a2, fun b hb => ih.inflight b (List.mem_of_mem_eraseIdx hb), ih.retransmitted, ih.queue, ih.sentGood, ?_⟩
    intro b hb id pos hd hu
    obtain ⟨u1, u2⟩ := a3 id pos hu
    rcases ih.main b hb id pos hd u1 with ⟨c, hc, h⟩ | h
    · rcases mem_eraseIdx_or hi hc with rfl | hc
      · exact absurd (packetHas_of_data h) u2
      · exact .inl ⟨c, hc, h⟩
    · exact .inr h
  | @lateAck w sent acked i p hh hi ih =>
    have hg := ih.retransmitted p (List.mem_of_getElem? hi)
    obtain ⟨a1, a2, a3⟩ := ack_streams hsend ih hg
    unfold lateAck
    rw [hi]
    refine ⟨a1, a2, ih.inflight, fun b hb => ih.retransmitted b (List.mem_of_mem_eraseIdx hb), ih.queue, ih.sentGood, ?_⟩
    intro b hb id pos hd hu
    exact ih.main b hb id pos hd (a3 id pos hu).1
  | @lose w sent acked place i keep hh ih =>
    unfold lose
    cases hi : w.inflight[i]? with
    | none => exact ih
    | some p =>
      have hg := ih.inflight p (List.mem_of_getElem? hi)
      obtain ⟨fs, g1, g2⟩ := hg
      obtain ⟨add, s1, s2⟩ := scanLost_spec ih.sorted (p.length + 1) p fs g1 (fun f hf => (g2 f hf).1) (by omega)
      dsimp only
      rw [s1]
      obtain ⟨e1, e2, e3⟩ := enqueue_spec (P := fun f => Sendable f ∧ ok f) place (streams := w.streams) ⟨fs, g1, g2⟩ ih.queue
      refine ⟨ih.sorted, ih.cov, fun b hb => ih.inflight b (List.mem_of_mem_eraseIdx hb), ?_, ?_, ih.sentGood, ?_⟩
      · dsimp only
        intro b hb
        cases keep with
        | false => exact ih.retransmitted b hb
        | true =>
          rcases List.mem_append.1 hb with hb | hb
          · exact ih.retransmitted b hb
          · rw [List.mem_singleton.1 hb]; exact ⟨fs, g1, g2⟩
      · dsimp only
        cases add with
        | true => rw [if_pos rfl]; exact e1
        | false => rw [if_neg (by simp)]; exact ih.queue
      · intro b hb id pos hd hu
        dsimp only at hu ⊢
        rcases ih.main b hb id pos hd hu with ⟨c, hc, h⟩ | ⟨q, hq, h⟩
        · rcases mem_eraseIdx_or hi hc with rfl | hc
          · right
            cases add with
            | true => rw [if_pos rfl]; exact e3 id pos h
            | false =>
              obtain ⟨f, hf, h3, _⟩ := (packetHasData_iff g1 id pos).1 h
              exact absurd hu (s2 rfl f hf id pos h3)
          · exact .inl ⟨c, hc, h⟩
        · right
          cases add with
          | true => rw [if_pos rfl]; exact ⟨q, e2 q hq, h⟩
          | false => rw [if_neg (by simp)]; exact ⟨q, hq, h⟩
  | @forget w sent acked i hh ih =>
    exact ⟨ih.sorted, ih.cov, ih.inflight, fun b hb => ih.retransmitted b (List.mem_of_mem_eraseIdx hb), ih.queue,
      ih.sentGood, ih.main⟩
  | @reset w sent acked id hh ih =>
    have hst : ∀ i s', (resetStream w id).streams i = some s' → ∃ s, w.streams i = some s ∧ s'.sack = s.sack ∧
        (s'.resetSent = false → s.resetSent = false) := by
      intro i s' h
      unfold resetStream at h
      dsimp only at h
      by_cases he : i = id
      · rw [if_pos he] at h
        obtain ⟨s, h1, rfl⟩ := Option.map_eq_some_iff.1 h
        exact ⟨s, h1, rfl, by simp⟩
      · rw [if_neg he] at h
        exact ⟨s', h, rfl, fun h => h⟩
    refine ⟨?_, ?_, ih.inflight, ih.retransmitted, ih.queue, ih.sentGood, ?_⟩
    · intro i s' h
      obtain ⟨s, h1, h2, _⟩ := hst i s' h
      rw [h2]; exact ih.sorted i s h1
    · intro i s' h n hn
      obtain ⟨s, h1, h2, _⟩ := hst i s' h
      rw [h2] at hn
      exact ih.cov i s h1 n hn
    · rintro p hp i pos hd ⟨s', h, hr, hc⟩
      obtain ⟨s, h1, h2, h3⟩ := hst i s' h
      rw [h2] at hc
      exact ih.main p hp i pos hd ⟨s, h1, h3 hr, hc⟩
  | @close w sent acked id hh ih =>
    have hst : ∀ i s', (closeStream w id).streams i = some s' → w.streams i = some s' := by
      intro i s' h
      unfold closeStream at h
      dsimp only at h
      by_cases he : i = id
      · rw [if_pos he] at h; cases h
      · rw [if_neg he] at h; exact h
    exact ⟨fun i s h => ih.sorted i s (hst i s h), fun i s h => ih.cov i s (hst i s h), ih.inflight, ih.retransmitted,
      ih.queue, ih.sentGood, fun p hp i pos hd ⟨s, h, hr⟩ => ih.main p hp i pos hd ⟨s, hst i s h, hr⟩⟩
  | @priority w sent acked id prio hh ih =>
    have hst : ∀ i s', (setPriority w id prio).streams i = some s' → ∃ s, w.streams i = some s ∧ s'.sack = s.sack ∧
        s'.resetSent = s.resetSent := by
      intro i s' h
      unfold setPriority at h
      dsimp only at h
      by_cases he : i = id
      · rw [if_pos he] at h
        obtain ⟨s, h1, rfl⟩ := Option.map_eq_some_iff.1 h
        exact ⟨s, h1, rfl, rfl⟩
      · rw [if_neg he] at h
        exact ⟨s', h, rfl, rfl⟩
    refine ⟨?_, ?_, ih.inflight, ih.retransmitted, ih.queue, ih.sentGood, ?_⟩
    · intro i s' h
      obtain ⟨s, h1, h2, _⟩ := hst i s' h
      rw [h2]; exact ih.sorted i s h1
    · intro i s' h n hn
      obtain ⟨s, h1, h2, _⟩ := hst i s' h
      rw [h2] at hn
      exact ih.cov i s h1 n hn
    · rintro p hp i pos hd ⟨s', h, hr, hc⟩
      obtain ⟨s, h1, h2, h3⟩ := hst i s' h
      rw [h2] at hc
      exact ih.main p hp i pos hd ⟨s, h1, h3 ▸ hr, hc⟩

/-- `Agrees` holds for the parts of a frame. -/
theorem fragments_agrees (content : Nat → Nat → UInt8) (size : Nat → Nat) :
    Fragments fun f => Sendable f ∧ Agrees content size f := by
  intro id offset fin data explicit k m e h hkm hk hm
  obtain ⟨⟨h1, h2⟩, h3, h4⟩ := h
  have hlen : ((data.drop k).take m).length = m := by
    rw [List.length_take, List.length_drop]; omega
  refine ⟨⟨?_, ?_⟩, ?_, ?_⟩
  · rw [hlen]; omega
  · by_cases h0 : m = 0
    · have h5 := congrArg List.length (hm h0)
      rw [List.length_drop, List.length_nil] at h5
      have hd : data.length = 0 := by omega
      rcases h2 with h2 | h2
      · exact absurd (List.length_eq_zero_iff.1 hd) h2
      · right
        rw [h2, Bool.true_and, decide_eq_true_eq]
        omega
    · left
      intro h5
      rw [h5] at hlen
      exact h0 hlen.symm
  · intro i hi
    rw [hlen] at hi
    rw [List.getElem?_take_of_lt hi, List.getElem?_drop, h3 (k + i) (by omega), Nat.add_assoc]
  · intro h5
    rw [Bool.and_eq_true, decide_eq_true_eq] at h5
    rw [hlen, Nat.add_assoc, h5.2]
    exact h4 h5.1

theorem fragments_true : Fragments fun f => Sendable f ∧ True := by
  intro id offset fin data explicit k m e h hkm hk hm
  -- any frame agrees with the content made of its own bytes
  have := fragments_agrees (fun _ p => data.getD (p - offset) 0) (fun _ => offset + data.length) id offset fin data explicit k m e
    ⟨h.1, ?_, fun _ => rfl⟩ hkm hk hm
  · exact ⟨this.1, trivial⟩
  · intro i hi
    dsimp only
    rw [Nat.add_sub_cancel_left, List.getD_eq_getElem?_getD, List.getElem?_eq_getElem hi]
    rfl

end Picoquic.Repeat
