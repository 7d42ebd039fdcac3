import Verif.Proof.StreamLimitsRun
import Verif.Proof.StreamFrame
/-!
# Proofs about the announced number of streams and the completed streams
-/

namespace Picoquic.StreamLimits
open Picoquic Picoquic.Spec

theorem length_le_of_ranks (t m : Nat) (L : List Nat) (hn : L.Nodup) (h : ∀ x ∈ L, ∃ k, k < m ∧ x = 4 * k + t) :
    L.length ≤ m := by
  induction m generalizing L with
  | zero =>
    cases L with
    | nil => exact Nat.le_refl _
    | cons a L => obtain ⟨k, hk, _⟩ := h a (List.mem_cons_self ..); omega
  | succ m ih =>
    have h1 := ih (L.erase (4 * m + t)) (hn.erase _) (fun x hx => by
      rw [hn.mem_erase_iff] at hx
      obtain ⟨k, hk, he⟩ := h x hx.2
      refine ⟨k, ?_, he⟩
      by_cases hkm : k = m
      · rw [hkm] at he; exact absurd he hx.1
      · omega)
    have h2 := List.le_length_erase (a := 4 * m + t) (l := L)
    omega

/-- Stream `id` is opened by the peer and of the given kind. -/
theorem peer_iff (client u : Bool) (id : Nat) : (∃ k, id = streamId (!client) u k) ↔
    client ≠ isClientStreamId id ∧ isUnidirStreamId id = u := by
  unfold streamId isClientStreamId isUnidirStreamId
  constructor
  · rintro ⟨k, rfl⟩
    cases client <;> cases u <;> simp <;> omega
  · intro h
    refine ⟨id / 4, ?_⟩
    cases client <;> cases u <;> simp at h ⊢ <;> omega

/-- Operations other than completing a stream keep the flags. -/
theorem stepOk_flags {c : Conn} {evs : List Event} (hI : InvA c evs) (op : Op) (hop : ∀ id, op ≠ .complete id) :
    (stepOk c op).1.maxStreamIdLocalComputed = c.maxStreamIdLocalComputed ∧
    ∀ s' ∈ (stepOk c op).1.streams, (∃ s ∈ c.streams, s'.id = s.id ∧ s'.maxStreamUpdated = s.maxStreamUpdated) ∨
      (c.nextStreamId (s'.id % 4) ≤ s'.id ∧ s'.maxStreamUpdated = false) := by
  have keep : ∀ s' ∈ c.streams, (∃ s ∈ c.streams, s'.id = s.id ∧ s'.maxStreamUpdated = s.maxStreamUpdated) ∨
      (c.nextStreamId (s'.id % 4) ≤ s'.id ∧ s'.maxStreamUpdated = false) := fun s h => .inl ⟨s, h, rfl, rfl⟩
  have new : ∀ s' : Stream, (s' ∈ c.streams ∨ (s' = newStream c s'.id ∧ c.nextStreamId (s'.id % 4) ≤ s'.id)) →
      (∃ s ∈ c.streams, s'.id = s.id ∧ s'.maxStreamUpdated = s.maxStreamUpdated) ∨
      (c.nextStreamId (s'.id % 4) ≤ s'.id ∧ s'.maxStreamUpdated = false) := by
    rintro s' (h | ⟨h, h'⟩)
    · exact keep s' h
    · refine .inr ⟨h', ?_⟩
      rw [h, newStream_eq]
  have fms : ∀ id v r, (formatMaxStreamData c id v r).1.maxStreamIdLocalComputed = c.maxStreamIdLocalComputed ∧
      ∀ s' ∈ (formatMaxStreamData c id v r).1.streams,
        (∃ s ∈ c.streams, s'.id = s.id ∧ s'.maxStreamUpdated = s.maxStreamUpdated) ∨
        (c.nextStreamId (s'.id % 4) ≤ s'.id ∧ s'.maxStreamUpdated = false) := by
    intro id v r
    rcases formatMaxStreamData_cases c id v r with h | h <;> rw [h]
    · exact ⟨rfl, keep⟩
    · refine ⟨rfl, fun s' hs' => ?_⟩
      obtain ⟨s, h0, ⟨_, rfl⟩ | ⟨_, rfl⟩⟩ := mem_map_update (c := c) (id := id)
          (f := fun s => { s with maxdataLocal := v }) hs'
      · exact .inl ⟨s, h0, rfl, rfl⟩
      · exact .inl ⟨s', h0, rfl, rfl⟩
  have fmd : ∀ c i r, (formatMaxData c i r).1.streams = c.streams ∧
      (formatMaxData c i r).1.maxStreamIdLocalComputed = c.maxStreamIdLocalComputed := by
    intro c i r
    rcases formatMaxData_cases c i r with h | h <;> rw [h] <;> exact ⟨rfl, rfl⟩
  cases op with
  | peerFrame id =>
    exact ⟨(findOrCreate_frame c id true).1.computed, fun s hs => new s ((findOrCreate_streams hI id true).2.1 s hs)⟩
  | maxStreamData id v =>
    refine ⟨(findOrCreate_frame c id true).1.computed, fun s' hs' => ?_⟩
    obtain ⟨s, h0, h4⟩ := mem_map_update hs'
    have h5 := new s ((findOrCreate_streams hI id true).2.1 s h0)
    rcases h4 with ⟨_, rfl⟩ | ⟨_, rfl⟩
    · split
      · exact h5
      · exact h5
    · exact h5
  | maxData v =>
    simp only [stepOk, decodeMaxData]
    split <;> exact ⟨rfl, keep⟩
  | maxStreams u n =>
    obtain ⟨_, _, _, _, _, _, _, k2, k3, _⟩ := decodeMaxStreams_fields c u n
    rw [show (stepOk c (.maxStreams u n)).1 = decodeMaxStreams c u n from rfl, k2, k3]
    exact ⟨rfl, keep⟩
  | streamsBlocked u n =>
    simp only [stepOk, decodeStreamsBlocked]
    split <;> exact ⟨rfl, keep⟩
  | write id =>
    refine ⟨(findForWriting_frame c id).1.computed, ?_⟩
    simp only [stepOk, findStreamForWriting]
    split
    · exact keep
    · split
      · exact keep
      · exact fun s hs => new s ((createMissing_streams hI id false).2.1 s hs)
  | complete id => exact absurd rfl (hop id)
  | delete id => exact ⟨rfl, fun s' hs' => keep s' (List.mem_filter.1 hs').1⟩
  | prepareMaxData d l w r =>
    rw [show stepOk c (.prepareMaxData d l w r) = prepareMaxData c d l w r from rfl]
    rcases prepareMaxData_cases c d l w r with h | ⟨i, h⟩ <;> rw [h]
    · exact ⟨rfl, keep⟩
    · rw [(fmd c i r).1, (fmd c i r).2]; exact ⟨rfl, keep⟩
  | requiredMaxStreamData id k w r =>
    simp only [stepOk, requiredMaxStreamData]
    split
    · exact ⟨rfl, keep⟩
    · split
      · exact fms _ _ _
      · exact ⟨rfl, keep⟩
  | openFlowControl id k e =>
    simp only [stepOk, openFlowControl]
    split
    · exact ⟨rfl, keep⟩
    · split
      · rw [(fmd _ _ _).1, (fmd _ _ _).2]; exact fms _ _ _
      · exact ⟨rfl, keep⟩
  | prepareMaxStreams r =>
    rw [show (stepOk c (.prepareMaxStreams r)).1 = (formatMaxStreamsHalf (formatMaxStreamsHalf c false r).1 true
      (formatMaxStreamsHalf c false r).2.2).1 from rfl]
    obtain ⟨_, _, _, _, _, a1, _, a2, _⟩ := half_frame c false r
    obtain ⟨_, _, _, _, _, b1, _, b2, _⟩ := half_frame (formatMaxStreamsHalf c false r).1 true
      (formatMaxStreamsHalf c false r).2.2
    rw [b1, b2, a1, a2]
    exact ⟨rfl, keep⟩

/-- The completed streams of one kind. -/
structure InvD (client : Bool) (c0 : Conn) (ops : List Op) (c : Conn) (u : Bool) (L : List Nat) : Prop where
  nodup : L.Nodup
  mem : ∀ id, id ∈ L ↔ (∃ k, id = streamId (!client) u k) ∧ CompletedIn c0 ops id
  lt : ∀ id ∈ L, id < c.nextStreamId (id % 4)
  comp : c.maxStreamIdLocalComputed u = 2 * u.toNat + (!client).toNat + 4 * L.length
  flag : ∀ s ∈ c.streams, (∃ k, s.id = streamId (!client) u k) → (s.maxStreamUpdated = true ↔ s.id ∈ L)

theorem completedIn_snoc (c : Conn) (ops : List Op) (op : Op) (id : Nat) :
    CompletedIn c (ops ++ [op]) id ↔ CompletedIn c ops id ∨
      (op = .complete id ∧ ∃ s ∈ (run c ops).1.streams, s.id = id) := by
  constructor
  · rintro ⟨b, a, h, h'⟩
    rcases List.eq_nil_or_concat a with rfl | ⟨a', x, rfl⟩
    · have := List.append_inj' h rfl
      rw [this.1]
      exact .inr ⟨List.singleton_inj.1 this.2, h'⟩
    · rw [List.concat_eq_append, ← List.cons_append, ← List.append_assoc] at h
      have := List.append_inj' h rfl
      exact .inl ⟨b, a', this.1, h'⟩
  · rintro (⟨b, a, h, h'⟩ | ⟨h, h'⟩)
    · exact ⟨b, a ++ [op], by rw [h]; simp, h'⟩
    · exact ⟨ops, [], by rw [h], h'⟩

theorem run_invD (client : Bool) (l r : Tp) (p : Bool → Option Nat) (ops : List Op) (u : Bool)
    (hlen : ops.length < 2 ^ 50) (herr : (run (initial client l r p) ops).1.error = none) :
    ∃ L, InvD client (initial client l r p) ops (run (initial client l r p) ops).1 u L ∧ L.length ≤ ops.length := by
  induction ops using StreamInput.snoc_induction with
  | h0 =>
    refine ⟨[], ⟨List.nodup_nil, ?_, ?_, ?_, ?_⟩, Nat.le_refl _⟩
    · intro id
      constructor
      · intro h; cases h
      · rintro ⟨_, b, a, h, _⟩; cases b <;> cases h
    · intro id h; cases h
    · show streamTypeFromId (streamIdFromRank (l.maxStreams u) client u) = _
      have := toNat_le_one u
      have := toNat_le_one (!client)
      unfold streamTypeFromId streamIdFromRank u64
      simp only [List.length_nil]
      omega
    · intro s h; cases h
  | h1 ops op ih =>
    rw [List.length_append, List.length_singleton] at hlen ⊢
    have hn := run_error_none herr
    obtain ⟨L, hD, hL⟩ := ih (by omega) hn
    have hA := run_invA client l r p ops
    have hc := run_const (initial client l r p) ops
    have hcl : (run (initial client l r p) ops).1.client = client := hc.1
    have hS := stepOk_streams hA op
    have hcs := completedIn_snoc (initial client l r p) ops op
    rw [run_snoc, step_of_none hn]
    generalize hst : run (initial client l r p) ops = st at *
    by_cases hop : ∃ id, op = .complete id
    · obtain ⟨id, rfl⟩ := hop
      have hst1 : (stepOk st.1 (.complete id)).1 = updateMaxStreamIdLocal st.1 id := rfl
      simp only [hst1] at *
      cases hf : findStream st.1 id with
      | none =>
        have e : updateMaxStreamIdLocal st.1 id = st.1 := by unfold updateMaxStreamIdLocal; rw [hf]
        rw [e]
        refine ⟨L, ⟨hD.nodup, fun j => ?_, hD.lt, hD.comp, hD.flag⟩, by omega⟩
        rw [hD.mem, hcs]
        refine and_congr_right fun _ => ⟨.inl, ?_⟩
        rintro (h | ⟨h, s, hs, hid⟩)
        · exact h
        · cases h
          unfold findStream at hf
          rw [List.find?_eq_none] at hf
          exact absurd (by simpa using hid) (hf s hs)
      | some s =>
        obtain ⟨hs, hid⟩ := findStream_some hf
        by_cases hg : st.1.client ≠ isClientStreamId id ∧ s.maxStreamUpdated = false
        · have e : updateMaxStreamIdLocal st.1 id =
            { updateStream st.1 id (fun s => { s with maxStreamUpdated := true }) with
              maxStreamIdLocalComputed := setB st.1.maxStreamIdLocalComputed (isUnidirStreamId id)
                (u64 (st.1.maxStreamIdLocalComputed (isUnidirStreamId id) + 4)) } := by
            unfold updateMaxStreamIdLocal; rw [hf]; simp only; rw [if_pos hg]
          rw [e]
          by_cases hu : isUnidirStreamId id = u
          · have hp : ∃ k, id = streamId (!client) u k := (peer_iff client u id).2 ⟨by rw [← hcl]; exact hg.1, hu⟩
            have hnot : id ∉ L := by
              intro h
              have := (hD.flag s hs (by rw [hid]; exact hp)).2 (by rw [hid]; exact h)
              rw [this] at hg; cases hg.2
            refine ⟨id :: L, ⟨List.nodup_cons.2 ⟨hnot, hD.nodup⟩, fun j => ?_, fun j hj => ?_, ?_, fun s' hs' hp' => ?_⟩, ?_⟩
            · rw [List.mem_cons, hD.mem, hcs]
              constructor
              · rintro (rfl | h)
                · exact ⟨hp, .inr ⟨rfl, s, hs, hid⟩⟩
                · exact ⟨h.1, .inl h.2⟩
              · rintro ⟨h, h' | ⟨h', _⟩⟩
                · exact .inr ⟨h, h'⟩
                · cases h'; exact .inl rfl
            · show j < st.1.nextStreamId (j % 4)
              rcases List.mem_cons.1 hj with rfl | hj
              · rw [← hid]; exact hA.st s hs
              · exact hD.lt j hj
            · show setB _ _ _ u = _
              unfold setB
              rw [if_pos hu.symm, hu, hD.comp, List.length_cons]
              have := toNat_le_one u
              have := toNat_le_one (!client)
              unfold u64; omega
            · obtain ⟨s0, h0, ⟨h1, h2⟩ | ⟨h1, h2⟩⟩ := mem_map_update (c := st.1) (id := id)
                (f := fun s => { s with maxStreamUpdated := true }) hs'
              · rw [h2]
                simp only [true_iff]
                rw [h1]; exact List.mem_cons_self ..
              · rw [h2] at hp' ⊢
                rw [hD.flag s0 h0 hp', List.mem_cons]
                exact ⟨.inr, fun h => h.resolve_left h1⟩
            · rw [List.length_cons]; omega
          · refine ⟨L, ⟨hD.nodup, fun j => ?_, hD.lt, ?_, fun s' hs' hp' => ?_⟩, by omega⟩
            · rw [hD.mem, hcs]
              refine and_congr_right fun hp => ⟨.inl, ?_⟩
              rintro (h | ⟨h, _⟩)
              · exact h
              · cases h; exact absurd ((peer_iff client u id).1 hp).2 hu
            · show setB _ _ _ u = _
              unfold setB
              rw [if_neg (fun h => hu h.symm)]
              exact hD.comp
            · obtain ⟨s0, h0, ⟨h1, h2⟩ | ⟨h1, h2⟩⟩ := mem_map_update (c := st.1) (id := id)
                (f := fun s => { s with maxStreamUpdated := true }) hs'
              · rw [h2] at hp'
                simp only [h1] at hp'
                exact absurd ((peer_iff client u id).1 hp').2 hu
              · rw [h2] at hp' ⊢; exact hD.flag s0 h0 hp'
        · have e : updateMaxStreamIdLocal st.1 id = st.1 := by
            unfold updateMaxStreamIdLocal; rw [hf]; simp only; rw [if_neg hg]
          rw [e]
          refine ⟨L, ⟨hD.nodup, fun j => ?_, hD.lt, hD.comp, hD.flag⟩, by omega⟩
          rw [hD.mem, hcs]
          refine and_congr_right fun hp => ⟨.inl, ?_⟩
          rintro (h | ⟨h, _⟩)
          · exact h
          · cases h
            have hp1 := (peer_iff client u id).1 hp
            have hup : s.maxStreamUpdated = true := by
              cases hx : s.maxStreamUpdated with
              | true => rfl
              | false => exact absurd ⟨by rw [hcl]; exact hp1.1, hx⟩ hg
            have := (hD.flag s hs (by rw [hid]; exact hp)).1 hup
            rw [hid] at this
            exact ((hD.mem id).1 this).2
    · obtain ⟨f1, f2⟩ := stepOk_flags hA op (fun id h => hop ⟨id, h⟩)
      refine ⟨L, ⟨hD.nodup, fun j => ?_, fun j hj => ?_, ?_, fun s' hs' hp' => ?_⟩, by omega⟩
      · rw [hD.mem, hcs]
        refine and_congr_right fun _ => ⟨.inl, ?_⟩
        rintro (h | ⟨h, _⟩)
        · exact h
        · exact absurd ⟨j, h⟩ hop
      · have := hS.next (j % 4); have := hD.lt j hj; dsimp only; omega
      · dsimp only; rw [f1]; exact hD.comp
      · rcases f2 s' hs' with ⟨s, h1, h2, h3⟩ | ⟨h1, h2⟩
        · rw [h3, h2]; exact hD.flag s h1 (by rw [← h2]; exact hp')
        · rw [h2]
          constructor
          · intro h; cases h
          · intro h
            have := hD.lt _ h
            omega

/-- A MAX_STREAMS frame that is needed is sent if there is room. -/
theorem half_sends (c : Conn) (u : Bool) (r k d : Nat) (hk : 1 ≤ k) (hk' : k < 2 ^ 56)
    (hl : c.maxStreamIdLocal u = 4 * (k - 1) + 2 * u.toNat + (!c.client).toNat)
    (hN : c.localTp.maxStreams u < 2 ^ 50)
    (hc : c.maxStreamIdLocalComputed u = 2 * u.toNat + (!c.client).toNat + 4 * d) (hd : d < 2 ^ 50) (hr : 9 ≤ r)
    (hneed : 2 * (k - 1) < 2 * d + c.localTp.maxStreams u) :
    (formatMaxStreamsHalf c u r).2.1 = [.maxStreams u (k + c.localTp.maxStreams u)] := by
  have hu := toNat_le_one u
  have hcl := toNat_le_one (!c.client)
  obtain ⟨N, hNe⟩ : ∃ N, c.localTp.maxStreams u = N := ⟨_, rfl⟩
  rw [hNe] at hN hneed ⊢
  have e1 : u64 (2 * N) = 2 * N := Nat.mod_eq_of_lt (by omega)
  have e2 : u64 (2 * u.toNat + (!c.client).toNat + 4 * d + 2 * N) = 2 * u.toNat + (!c.client).toNat + 4 * d + 2 * N :=
    Nat.mod_eq_of_lt (by omega)
  have e3 : u64 (4 * N) = 4 * N := Nat.mod_eq_of_lt (by omega)
  have e4 : u64 (4 * (k - 1) + 2 * u.toNat + (!c.client).toNat + 4 * N) =
      4 * (k + N - 1) + 2 * u.toNat + (!c.client).toNat := by unfold u64; omega
  have e5 : streamRankFromId (4 * (k + N - 1) + 2 * u.toNat + (!c.client).toNat) = k + N := by
    unfold streamRankFromId u64; omega
  unfold formatMaxStreamsHalf
  rw [hNe, hc, hl, e1, e2, e3, e4]
  dsimp only
  rw [e5, if_pos (by omega)]
  have hfit : ∃ b, (framesUint8Encode (if u then 0x13 else 0x12)).seq (framesVarintEncode (k + N)) r = some b := by
    unfold Enc.seq
    rw [StreamFrame.framesUint8Encode_eq, if_pos (by omega)]
    dsimp only
    rw [framesVarintEncode_eq, if_pos (by
      have : encodeVarintLength (k + N) ≤ 8 := by unfold encodeVarintLength; split <;> split <;> omega
      simp only [List.length_singleton]; omega)]
    exact ⟨_, rfl⟩
  obtain ⟨b, hb⟩ := hfit
  rw [hb]

theorem half_room (c : Conn) (u : Bool) (r : Nat) : r ≤ (formatMaxStreamsHalf c u r).2.2 + 9 := by
  unfold formatMaxStreamsHalf
  dsimp only
  split
  · split
    · rename_i b hb
      unfold Enc.seq at hb
      rw [StreamFrame.framesUint8Encode_eq] at hb
      by_cases h1 : 1 ≤ r
      · rw [if_pos h1] at hb
        dsimp only at hb
        generalize streamRankFromId _ = v at hb
        rw [framesVarintEncode_eq] at hb
        by_cases h2 : encodeVarintLength v ≤ r - [u8 (if u = true then 0x13 else 0x12)].length
        · rw [if_pos h2] at hb
          have : encodeVarintLength v ≤ 8 := by unfold encodeVarintLength; split <;> split <;> omega
          cases hb
          simp only [List.length_append, List.length_singleton, varintBytes_length]
          omega
        · rw [if_neg h2] at hb; cases hb
      · rw [if_neg h1] at hb; cases hb
    · exact Nat.le_add_right _ _
  · exact Nat.le_add_right _ _

/-- The peer may open at least half of its initial allowance beyond the completed streams. -/
theorem announced_room (client : Bool) (l r : Tp) (p : Bool → Option Nat) (ops : List Op) (u : Bool) (room : Nat)
    (hlen : ops.length < 2 ^ 50) (hN : l.maxStreams u < 2 ^ 50) (hN1 : 1 ≤ l.maxStreams u)
    (herr : (run (initial client l r p) ops).1.error = none) (hroom : 18 ≤ room) :
    ∃ L : List Nat, L.Nodup ∧ (∀ id, id ∈ L ↔ (∃ k, id = streamId (!client) u k) ∧ CompletedIn (initial client l r p) ops id) ∧
      L.length + (l.maxStreams u + 1) / 2 ≤ latest (l.maxStreams u)
        (maxStreamsSent u (run (initial client l r p) (ops ++ [.prepareMaxStreams room])).2) := by
  obtain ⟨L, hD, hL⟩ := run_invD client l r p ops u hlen herr
  refine ⟨L, hD.nodup, hD.mem, ?_⟩
  have hS := run_invS client l r p ops u hlen hN
  have hK := run_invK client l r p ops u hlen hN
  have hA := run_invA client l r p ops
  have hc := run_const (initial client l r p) ops
  rw [run_snoc, step_of_none herr, maxStreamsSent_append, latest_append]
  generalize run (initial client l r p) ops = st at *
  have hcl : st.1.client = client := hc.1
  have htp : st.1.localTp = l := hc.2.1
  have hp := hS.pos hN1
  have hi := hS.init
  have hb := hS.bound
  generalize latest (l.maxStreams u) (maxStreamsSent u st.2) = K at *
  -- as many streams are completed as were opened, at most
  have hLK : L.length ≤ K := by
    obtain ⟨n, hn, _⟩ := hA.cr (streamId (!client) u 0) (by unfold streamId; cases client <;> cases u <;> decide)
    have hle : L.length ≤ n := by
      refine length_le_of_ranks (streamId (!client) u 0) n L hD.nodup (fun x hx => ?_)
      obtain ⟨k, hk⟩ := ((hD.mem x).1 hx).1
      have hlt := hD.lt x hx
      have hm : x % 4 = streamId (!client) u 0 := by
        rw [hk]; unfold streamId; cases client <;> cases u <;> simp <;> omega
      rw [hm, hn] at hlt
      have hxe : x = 4 * k + streamId (!client) u 0 := by rw [hk]; unfold streamId; omega
      exact ⟨k, by omega, hxe⟩
    unfold InvK at hK
    rw [hn, hp] at hK
    have := toNat_le_one u
    have := toNat_le_one (!client)
    have : streamId (!client) u 0 + (!client).toNat = 2 * u.toNat + 1 := by
      unfold streamId; cases client <;> cases u <;> rfl
    omega
  have key : ∀ (c : Conn) (rm : Nat), c.client = client → c.localTp = l →
      c.maxStreamIdLocal u = 4 * (K - 1) + 2 * u.toNat + (!client).toNat →
      c.maxStreamIdLocalComputed u = 2 * u.toNat + (!client).toNat + 4 * L.length → 9 ≤ rm →
      L.length + (l.maxStreams u + 1) / 2 ≤ latest K (maxStreamsSent u (formatMaxStreamsHalf c u rm).2.1) := by
    intro c rm e1 e2 e3 e4 e5
    by_cases hneed : 2 * (K - 1) < 2 * L.length + l.maxStreams u
    · rw [half_sends c u rm K L.length (by omega) (by omega) (by rw [e1]; exact e3) (by rw [e2]; exact hN)
        (by rw [e1]; exact e4) (by omega) e5 (by rw [e2]; exact hneed), e2]
      simp only [maxStreamsSent, if_true, latest, List.foldl]
      omega
    · rcases half_spec c u rm K ops.length (by omega) (by omega) (by rw [e1]; exact e3) (by rw [e2]; exact hN)
        (by rw [e4]; have := toNat_le_one u; have := toNat_le_one (!client); omega) hlen with ⟨h1, _⟩ | ⟨h1, _⟩
      · rw [h1]; simp only [maxStreamsSent, latest, List.foldl]; omega
      · rw [h1, e2]; simp only [maxStreamsSent, if_true, latest, List.foldl]; omega
  rw [show (stepOk st.1 (.prepareMaxStreams room)).2 = (formatMaxStreamsHalf st.1 false room).2.1 ++
    (formatMaxStreamsHalf (formatMaxStreamsHalf st.1 false room).1 true (formatMaxStreamsHalf st.1 false room).2.2).2.1
    from rfl, maxStreamsSent_append]
  have hf := half_frame st.1 false room
  have hr := half_room st.1 false room
  cases u with
  | false =>
    rw [(half_other (formatMaxStreamsHalf st.1 false room).1 true false (formatMaxStreamsHalf st.1 false room).2.2
      (by decide)).1, List.append_nil]
    exact key st.1 room hcl htp hp hD.comp (by omega)
  | true =>
    obtain ⟨o1, o2⟩ := half_other st.1 false true room (by decide)
    rw [o1, List.nil_append]
    exact key _ _ (hf.1.trans hcl) (hf.2.1.trans htp) (by rw [o2]; exact hp)
      (by rw [hf.2.2.2.2.2.1]; exact hD.comp) (by omega)

end Picoquic.StreamLimits
