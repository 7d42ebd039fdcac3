import Verif.Proof.RepeatHistory
/-! # The queue of repeated data empties -/

namespace Picoquic.Repeat
open Picoquic Picoquic.Spec Picoquic.Sack Picoquic.StreamFrame

theorem varintLength_le (n : Nat) : encodeVarintLength n ≤ 8 := by
  unfold encodeVarintLength
  (repeat' split) <;> omega

/-- A header has at most 17 bytes. -/
theorem header_some (id offset room : Nat) (hr : 17 ≤ room) :
    ∃ h, formatStreamFrameHeader id offset room = some h ∧ h.length ≤ 17 := by
  have h1 := varintLength_le id
  have h2 := varintLength_le offset
  unfold formatStreamFrameHeader Enc.seq
  simp only [framesUint8Encode_eq, framesVarintEncode_eq]
  rw [if_pos (by omega)]
  dsimp only
  have h3 : [u8 8].length = 1 := rfl
  rw [if_pos (by omega)]
  dsimp only
  have h4 : ([u8 8] ++ varintBytes id).length = 1 + encodeVarintLength id := by
    rw [List.length_append, varintBytes_length, h3]
  by_cases h : offset > 0
  · rw [if_pos h, if_pos (by omega)]
    refine ⟨_, rfl, ?_⟩
    simp [orHead, varintBytes_length]
    omega
  · rw [if_neg h]
    exact ⟨_, rfl, by omega⟩

/-- With enough room some bytes are sent. -/
theorem writeRepeat_progress (id offset : Nat) (fin : Bool) (data : Bytes) (room : Nat) (hr : 529 ≤ room) :
    (writeRepeat id offset fin data room).2 = 0 ∨ (writeRepeat id offset fin data room).2 < data.length := by
  obtain ⟨h, h1, h2⟩ := header_some id offset room (by omega)
  have hn : (writeNoLength h fin data room).2 = 0 ∨ (writeNoLength h fin data room).2 < data.length := by
    unfold writeNoLength
    by_cases h3 : h.length + data.length ≤ room
    · rw [if_pos h3]; exact .inl rfl
    · rw [if_neg h3, if_neg (by omega)]
      dsimp only
      omega
  unfold writeRepeat
  rw [h1]
  dsimp only
  rw [if_neg (by omega)]
  split
  · exact hn
  · split
    · exact .inl rfl
    · exact hn

theorem writeRepeat_le (id offset : Nat) (fin : Bool) (data : Bytes) (room : Nat) :
    (writeRepeat id offset fin data room).2 ≤ data.length := by
  have hn : ∀ h, (writeNoLength h fin data room).2 ≤ data.length := by
    intro h
    unfold writeNoLength
    (repeat' split) <;> dsimp only <;> omega
  unfold writeRepeat
  split
  · exact Nat.le_refl _
  · split
    · exact Nat.le_refl _
    · split
      · exact hn _
      · split
        · exact Nat.zero_le _
        · exact hn _

theorem copyFrame_progress {streams : Streams} {q : Queued}
    {p : Bytes} {id offset : Nat} {fin : Bool} {data : Bytes} {explicit : Bool} {rest : Bytes} {fs : List Frame} {k : Nat}
    (h : Front q p id offset fin data explicit rest fs k) {room : Nat} {out : Bytes} {q' : Queued}
    (hc : copyFrame streams q room = some (out, q')) :
    (q'.rest = rest ∧ q'.done = 0) ∨
      (q'.rest = q.rest ∧ q.done ≤ q'.done ∧ (529 ≤ room → q.done < q'.done) ∧ q'.done ≤ p.length) := by
  obtain ⟨c, h1, h2, h3⟩ := parse_of_frame h.frame rest h.closed
  have hk : k = q.done - c := by have := h.hk; omega
  unfold copyFrame at hc
  rw [h.eq, h1] at hc
  dsimp only at hc
  rw [alreadySent_eq hk h.klt] at hc
  have hd : (List.take data.length (List.drop c (p ++ rest))).drop k = data.drop k := by
    rw [List.drop_append_of_le_length (by omega), h3, List.take_left']
    rfl
  rw [hd] at hc
  have hdrop : q.rest.drop (c + data.length) = rest := by
    rw [h.eq, h2, List.drop_left']
    rfl
  have hlen : (data.drop k).length = data.length - k := List.length_drop
  have hw := writeRepeat_progress id (offset + k) fin (data.drop k) room
  have hw' := writeRepeat_le id (offset + k) fin (data.drop k) room
  have hc := Option.some.inj hc
  rw [Prod.mk.injEq] at hc
  have hc := hc.2
  generalize hgen : (if needed streams id (offset + k) (data.length - k) fin = true then
      writeRepeat id (offset + k) fin (data.drop k) room else ([], 0)).2 = n at hc
  have hn : n ≤ data.length - k ∧ (529 ≤ room → n = 0 ∨ n < data.length - k) := by
    rw [← hgen]
    split
    · rw [hlen] at hw hw'; exact ⟨hw', hw⟩
    · exact ⟨Nat.zero_le _, fun _ => .inl rfl⟩
  unfold progress at hc
  by_cases h0 : n = 0
  · rw [if_pos h0, hdrop] at hc
    left
    rw [← hc]
    exact ⟨rfl, rfl⟩
  · rw [if_neg h0] at hc
    right
    have hz := h.hz
    have hklt := h.klt
    by_cases h5 : n < data.length
    · rw [if_pos h5] at hc
      rw [← hc]
      refine ⟨rfl, ?_, ?_, ?_⟩
      · dsimp only
        rcases Nat.eq_zero_or_pos k with hk0 | hk0
        · rw [hz hk0]; omega
        · omega
      · intro hr
        dsimp only
        have := hn.2 hr
        rcases Nat.eq_zero_or_pos k with hk0 | hk0
        · rw [hz hk0]; omega
        · omega
      · dsimp only
        omega
    · rw [if_neg h5] at hc
      rw [← hc]
      have hk0 : k = 0 := by omega
      refine ⟨rfl, Nat.le_refl _, ?_, ?_⟩
      · intro hr
        have := hn.2 hr
        omega
      · rw [hz hk0]; omega

/-- What is left of the packet in front. -/
def leftOf : Copied → Nat
  | .dequeued => 0
  | .requeued q | .kept q => q.rest.length - q.done

theorem copySingle_progress {P : Frame → Prop} (hfrag : Fragments P) (hsend : ∀ f, P f → Sendable f) {streams : Streams}
    (hs : Sorted streams) {q : Queued} (hq : QInv P q) {room : Nat} {out : Bytes} {c : Copied}
    (hc : copySingle streams q room = some (out, c)) :
    leftOf c ≤ q.rest.length - q.done ∧ (529 ≤ room → leftOf c < q.rest.length - q.done) := by
  obtain ⟨p, id, offset, fin, data, explicit, rest, fs, k, hF, hP, hfs⟩ := hq
  obtain ⟨out1, q1, h1, _, _, h4⟩ := copyFrame_spec hfrag hs hF hP (hsend _ hP).1 room
  have h5 := copyFrame_progress hF h1
  obtain ⟨cc, _, g2, _⟩ := parse_of_frame hF.frame rest hF.closed
  have hdone : q.done < p.length := by
    have hp := startsWith_length hF.starts
    rw [hF.eq, List.length_append] at hp
    have e1 := hF.hz
    have e2 := hF.hk
    have e3 := hF.klt
    rcases Nat.eq_zero_or_pos k with hk0 | hk0
    · rw [e1 hk0]; omega
    · omega
  have hql : q.rest.length = p.length + rest.length := by rw [hF.eq, List.length_append]
  have hhead : isStreamType (q.rest.headD 0) = true := by
    have hh := hF.starts
    cases hr : q.rest with
    | nil => rw [hr] at hh; exact absurd hh Frames.not_startsWith_nil
    | cons b t =>
      rw [hr] at hh
      exact head_stream hh
  unfold copySingle at hc
  rw [if_pos hhead, h1] at hc
  dsimp only at hc
  have hfin : ∀ q2 : Queued, (q2.rest.length - q2.done ≤ q.rest.length - q.done ∧
        (529 ≤ room → q2.rest.length - q2.done < q.rest.length - q.done)) →
      (if q2.rest = [] then some (out1, Copied.dequeued)
        else if q2.rest.length < q.rest.length then some (out1, .requeued q2) else some (out1, .kept q2)) = some (out, c) →
      leftOf c ≤ q.rest.length - q.done ∧ (529 ≤ room → leftOf c < q.rest.length - q.done) := by
    intro q2 hlt hcc
    by_cases e1 : q2.rest = []
    · rw [if_pos e1] at hcc
      have := (Prod.mk.injEq ..▸ Option.some.inj hcc : out1 = out ∧ Copied.dequeued = c).2
      rw [← this]
      show 0 ≤ _ ∧ (_ → 0 < _)
      omega
    · rw [if_neg e1] at hcc
      by_cases e2 : q2.rest.length < q.rest.length
      · rw [if_pos e2] at hcc
        have := (Prod.mk.injEq ..▸ Option.some.inj hcc : out1 = out ∧ Copied.requeued q2 = c).2
        rw [← this]
        exact hlt
      · rw [if_neg e2] at hcc
        have := (Prod.mk.injEq ..▸ Option.some.inj hcc : out1 = out ∧ Copied.kept q2 = c).2
        rw [← this]
        exact hlt
  rcases h5 with ⟨e1, e2⟩ | ⟨e1, e2, e4, e3⟩
  · obtain ⟨q2, h6, h7⟩ := adjusted (P := P) (streams := streams) (q1 := q1) (fs := fs) (by rw [e1]; exact hF.payload) e2 hfs
    rw [h6] at hc
    refine hfin q2 ?_ hc
    rcases h7 with ⟨h7, _⟩ | ⟨_, h7, _⟩
    · rw [h7]; simp; omega
    · rw [e1] at h7; omega
  · have hp1 : IsPayload q1.rest (.stream id offset fin data explicit :: fs) := by
      rw [e1]; exact .cons hF.starts hF.payload
    obtain ⟨q2, h6, h7⟩ := adjust_spec streams (q1.rest.length + 1) q1 _ hp1 (by omega)
    rw [h6] at hc
    refine hfin q2 ?_ hc
    rcases h7 with ⟨h7, _⟩ | ⟨_, _, _, _, _, ⟨h7, h8⟩ | ⟨h7, h8⟩⟩
    · rw [h7]; simp; omega
    · rw [h7, h8, e1]; omega
    · -- not possible, the first frame is a STREAM frame; the bound holds anyway
      have hst : StartsWith q1.rest (.stream id offset fin data explicit) rest := by rw [e1]; exact hF.starts
      exfalso
      have : adjust streams (q1.rest.length + 1) q1 = setKeys streams q1 := by
        cases hr : q1.rest with
        | nil => rw [hr] at hst; exact absurd hst Frames.not_startsWith_nil
        | cons b t =>
          rw [hr] at hst
          rw [adjust, hr]
          dsimp only
          have hb : isStreamType b = true := head_stream hst
          rw [if_pos hb]
      rw [this] at h6
      unfold setKeys at h6
      split at h6
      · cases h6
      · rw [← Option.some.inj h6] at h7
        dsimp only at h7
        omega

theorem remaining_cons (q : Queued) (l : List Queued) : remaining (q :: l) = (q.rest.length - q.done) + remaining l := by
  simp [remaining]

theorem remaining_insertAt (n : Nat) (q : Queued) (l : List Queued) :
    remaining (insertAt n q l) = (q.rest.length - q.done) + remaining l := by
  unfold insertAt
  have h : remaining l = remaining (l.take n) + remaining (l.drop n) := by
    conv => lhs; rw [← List.take_append_drop n l]
    unfold remaining
    rw [List.map_append, List.sum_append]
  have h2 : remaining (l.take n ++ q :: l.drop n) = remaining (l.take n) + remaining (q :: l.drop n) := by
    unfold remaining
    rw [List.map_append, List.sum_append]
  rw [h2, h, remaining_cons]
  omega

theorem copyLoop_le {P : Frame → Prop} (hfrag : Fragments P) (hsend : ∀ f, P f → Sendable f) {streams : Streams}
    (hs : Sorted streams) (place : List Queued → Queued → Nat) (current : Nat) :
    ∀ (fuel : Nat) (queue : List Queued) (room : Nat) (out : Bytes) (queue' : List Queued), (∀ q ∈ queue, QInv P q) →
    copyLoop place streams current fuel queue room = some (out, queue') → remaining queue' ≤ remaining queue := by
  intro fuel
  induction fuel with
  | zero =>
    intro queue room out queue' _ h
    have h := Option.some.inj h
    rw [Prod.mk.injEq] at h
    rw [h.2]; exact Nat.le_refl _
  | succ fuel ih =>
    intro queue room out queue' hq h
    cases queue with
    | nil =>
      have h := Option.some.inj h
      rw [Prod.mk.injEq] at h
      rw [h.2]; exact Nat.le_refl _
    | cons q queue =>
      rw [copyLoop] at h
      by_cases hp : q.priority > current
      · rw [if_pos hp] at h
        have h := Option.some.inj h
        rw [Prod.mk.injEq] at h
        rw [h.2]; exact Nat.le_refl _
      · rw [if_neg hp] at h
        have hq0 := hq q (List.mem_cons_self ..)
        have hq' : ∀ x ∈ queue, QInv P x := fun x hx => hq x (List.mem_cons_of_mem _ hx)
        obtain ⟨out1, c, h1, _⟩ := copySingle_spec hfrag hsend hs hq0 room
        have hpr := (copySingle_progress hfrag hsend hs hq0 h1).1
        rw [h1] at h
        rw [remaining_cons]
        cases c with
        | dequeued =>
          dsimp only at h
          by_cases hl : out1.length < room
          · rw [if_pos hl] at h
            cases hcl : copyLoop place streams current fuel queue (room - out1.length) with
            | none => rw [hcl] at h; cases h
            | some x =>
              obtain ⟨o2, q2⟩ := x
              rw [hcl] at h
              have h := Option.some.inj h
              rw [Prod.mk.injEq] at h
              rw [← h.2]
              have := ih queue _ o2 q2 hq' hcl
              omega
          · rw [if_neg hl] at h
            have h := Option.some.inj h
            rw [Prod.mk.injEq] at h
            rw [← h.2]; omega
        | requeued q' =>
          have h := Option.some.inj h
          rw [Prod.mk.injEq] at h
          rw [← h.2, remaining_insertAt]
          simp only [leftOf] at hpr
          omega
        | kept q' =>
          have h := Option.some.inj h
          rw [Prod.mk.injEq] at h
          rw [← h.2, remaining_cons]
          simp only [leftOf] at hpr
          omega

theorem copyLoop_lt {P : Frame → Prop} (hfrag : Fragments P) (hsend : ∀ f, P f → Sendable f) {streams : Streams}
    (hs : Sorted streams) (place : List Queued → Queued → Nat) (current : Nat)
    {fuel : Nat} {q : Queued} {queue : List Queued} {room : Nat} {out : Bytes} {queue' : List Queued}
    (hq : ∀ x ∈ q :: queue, QInv P x) (hp : q.priority ≤ current) (hr : 529 ≤ room)
    (h : copyLoop place streams current (fuel + 1) (q :: queue) room = some (out, queue')) :
    remaining queue' < remaining (q :: queue) := by
  rw [copyLoop, if_neg (by omega)] at h
  have hq0 := hq q (List.mem_cons_self ..)
  have hq' : ∀ x ∈ queue, QInv P x := fun x hx => hq x (List.mem_cons_of_mem _ hx)
  obtain ⟨out1, c, h1, _⟩ := copySingle_spec hfrag hsend hs hq0 room
  have hpr := (copySingle_progress hfrag hsend hs hq0 h1).2 hr
  rw [h1] at h
  rw [remaining_cons]
  cases c with
  | dequeued =>
    dsimp only at h
    by_cases hl : out1.length < room
    · rw [if_pos hl] at h
      cases hcl : copyLoop place streams current fuel queue (room - out1.length) with
      | none => rw [hcl] at h; cases h
      | some x =>
        obtain ⟨o2, q2⟩ := x
        rw [hcl] at h
        have h := Option.some.inj h
        rw [Prod.mk.injEq] at h
        rw [← h.2]
        have := copyLoop_le hfrag hsend hs place current fuel queue _ o2 q2 hq' hcl
        omega
    · rw [if_neg hl] at h
      have h := Option.some.inj h
      rw [Prod.mk.injEq] at h
      rw [← h.2]; omega
  | requeued q' =>
    have h := Option.some.inj h
    rw [Prod.mk.injEq] at h
    rw [← h.2, remaining_insertAt]
    simp only [leftOf] at hpr
    omega
  | kept q' =>
    have h := Option.some.inj h
    rw [Prod.mk.injEq] at h
    rw [← h.2, remaining_cons]
    simp only [leftOf] at hpr
    omega

end Picoquic.Repeat
