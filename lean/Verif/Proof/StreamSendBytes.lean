import Verif.Proof.StreamSendRun
/-!
# Bytes sent on one stream
-/

namespace Picoquic.StreamSend
open Picoquic Picoquic.StreamFrame Picoquic.Spec

theorem sentBytes_append (id : Nat) (a b : List Event) :
    sentBytes id (a ++ b) = sentBytes id a ++ sentBytes id b := by simp [sentBytes]

theorem acceptedBytes_append (id : Nat) (a b : List Event) :
    acceptedBytes id (a ++ b) = acceptedBytes id a ++ acceptedBytes id b := by simp [acceptedBytes]

theorem sentBytes_evOf (id : Nat) (ev : List Event) : sentBytes id (evOf id ev) = sentBytes id ev := by
  induction ev with
  | nil => rfl
  | cons e ev ih =>
    rw [show e :: ev = [e] ++ ev from rfl, evOf_append, sentBytes_append, sentBytes_append, ih]
    congr 1
    by_cases h : e.id = id
    · simp [evOf, h]
    · have : evOf id [e] = [] := by simp [evOf, h]
      rw [this]
      cases e <;> simp_all [sentBytes, Event.id]

theorem acceptedBytes_evOf (id : Nat) (ev : List Event) : acceptedBytes id (evOf id ev) = acceptedBytes id ev := by
  induction ev with
  | nil => rfl
  | cons e ev ih =>
    rw [show e :: ev = [e] ++ ev from rfl, evOf_append, acceptedBytes_append, acceptedBytes_append, ih]
    congr 1
    by_cases h : e.id = id
    · simp [evOf, h]
    · have : evOf id [e] = [] := by simp [evOf, h]
      rw [this]
      cases e <;> simp_all [acceptedBytes, Event.id]

theorem mem_evOf {id : Nat} {ev : List Event} {e : Event} : e ∈ evOf id ev ↔ e ∈ ev ∧ e.id = id := by
  simp [evOf]

/-- The place of an event in the events of its stream. -/
theorem evOf_split {id : Nat} {ev pre post : List Event} {e : Event} (h : ev = pre ++ e :: post) (he : e.id = id) :
    evOf id ev = evOf id pre ++ e :: evOf id post := by
  subst h
  rw [evOf_append, show e :: post = [e] ++ post from rfl, evOf_append]
  simp [evOf, he]

/-! ## Limits -/

/-- Invariant for the limit of a stream. -/
structure LimInv (M : Nat) (s : Stream) (ev : List Event) : Prop where
  maxdata : s.maxdataRemote ≤ M
  sent : s.sentOffset ≤ M
  frames : ∀ i o f d r, Event.stream i o f d r ∈ ev → o + d.length ≤ M

theorem addToStream_fields (s : Stream) (data : Bytes) (fin : Bool) :
    (addToStream s data fin).1.maxdataRemote = s.maxdataRemote ∧
    (addToStream s data fin).1.sentOffset = s.sentOffset ∧
    (addToStream s data fin).1.resetSent = s.resetSent ∧
    (addToStream s data fin).1.resetRequested = s.resetRequested ∧
    (addToStream s data fin).1.finSent = s.finSent ∧
    ((addToStream s data fin).2 = true → (addToStream s data fin).1.queue.flatten = s.queue.flatten ++ data ∧
      (addToStream s data fin).1.finRequested = (s.finRequested || fin) ∧
      (addToStream s data fin).1.isActive = false ∧ s.resetSent = false ∧
      (data = [] → (addToStream s data fin).1.queue = s.queue)) ∧
    ((addToStream s data fin).2 = false → (addToStream s data fin).1.queue = s.queue ∧
      (addToStream s data fin).1.isActive = s.isActive ∧
      (fin = false → (addToStream s data fin).1.finRequested = s.finRequested)) := by
  unfold addToStream
  dsimp only
  by_cases h1 : fin = true ∧ s.finRequested = true ∧ data.length > 0
  · rw [if_pos h1]; simp
  · rw [if_neg h1]
    cases fin <;> simp only [if_true, if_false, Bool.false_eq_true]
    · by_cases h2 : s.resetSent = true ∨ s.stopReceived = true
      · simp only [if_pos h2]; simp
      · simp only [if_neg h2]
        have h3 : s.resetSent = false := by
          cases h : s.resetSent with
          | true => exact absurd (.inl h) h2
          | false => rfl
        by_cases h4 : data.length > 0
        · simp only [if_pos h4]
          simp [h3]
          intro h; rw [h] at h4; exact absurd h4 (by simp)
        · simp only [if_neg h4]
          have : data = [] := List.eq_nil_of_length_eq_zero (by omega)
          simp [this, h3]
    · by_cases h2 : s.resetSent = true ∨ s.stopReceived = true
      · simp only [if_pos h2]; simp
      · simp only [if_neg h2]
        have h3 : s.resetSent = false := by
          cases h : s.resetSent with
          | true => exact absurd (.inl h) h2
          | false => rfl
        by_cases h4 : data.length > 0
        · simp only [if_pos h4]
          simp [h3]
          intro h; rw [h] at h4; exact absurd h4 (by simp)
        · simp only [if_neg h4]
          have : data = [] := List.eq_nil_of_length_eq_zero (by omega)
          simp [this, h3]

theorem requestReset_fields (s : Stream) (error : Nat) (acked : Bool) :
    (requestReset s error acked).maxdataRemote = s.maxdataRemote ∧
    (requestReset s error acked).sentOffset = s.sentOffset ∧
    (requestReset s error acked).resetSent = s.resetSent ∧
    (requestReset s error acked).finSent = s.finSent ∧
    (requestReset s error acked).finRequested = s.finRequested ∧
    (requestReset s error acked).isActive = s.isActive ∧
    (requestReset s error acked).queue = s.queue := by
  unfold requestReset
  (repeat' split) <;> simp

theorem limInv_trans (id M : Nat) (s t : Stream) (ev ev' : List Event) (h : LimInv M s ev)
    (ht : Trans id M s t ev') : LimInv M t (ev ++ ev') := by
  have hm := h.maxdata
  have hs := h.sent
  have keep : ∀ {t' : Stream} {e}, (∀ i o f d r, Event.stream i o f d r ∈ e → o + d.length ≤ M) →
      t'.maxdataRemote ≤ M → t'.sentOffset ≤ M → LimInv M t' (ev ++ e) := by
    intro t' e he a b
    refine ⟨a, b, fun i o f d r hx => ?_⟩
    rcases List.mem_append.1 hx with hx | hx
    · exact h.frames i o f d r hx
    · exact he i o f d r hx
  cases ht with
  | same a b => exact keep (by simp) (by omega) (by rw [a.sentOffset]; exact hs)
  | write data fin =>
    obtain ⟨a, b, _⟩ := addToStream_fields s data fin
    exact keep (by intro i o f d r hx; split at hx <;> simp at hx) (by rw [a]; exact hm) (by rw [b]; exact hs)
  | reqReset e k =>
    obtain ⟨a, b, _⟩ := requestReset_fields s e k
    exact keep (by simp) (by rw [a]; exact hm) (by rw [b]; exact hs)
  | polled data fin raw _ _ _ _ _ hl _ hso _ _ _ _ _ _ hmr =>
    refine keep ?_ (by omega) (by omega)
    intro i o f d r hx
    simp only [List.mem_cons, List.not_mem_nil, or_false, reduceCtorEq, false_or, Event.stream.injEq] at hx
    obtain ⟨rfl, rfl, rfl, rfl, rfl⟩ := hx
    have : s.sentOffset ≤ s.maxdataRemote ∨ d.length = 0 := by omega
    omega
  | queued data rest fin raw _ _ _ _ hl _ hso _ _ _ _ _ _ _ _ hmr =>
    refine keep ?_ (by omega) (by omega)
    intro i o f d r hx
    simp only [List.mem_cons, List.not_mem_nil, or_false, Event.stream.injEq] at hx
    obtain ⟨rfl, rfl, rfl, rfl, rfl⟩ := hx
    omega
  | reset _ _ hso _ _ hmr _ _ _ => exact keep (by simp) (by omega) (by omega)
  | stopSending a b => exact keep (by simp) (by omega) (by rw [a.sentOffset]; exact hs)

/-! ## Order -/

/-- Invariant for the bytes. -/
structure BytesInv (id : Nat) (s : Stream) (ev : List Event) : Prop where
  offset : s.sentOffset = (sentBytes id ev).length
  pre : sentBytes id ev <+: acceptedBytes id ev
  all : s.resetSent = false → sentBytes id ev ++ s.queue.flatten = acceptedBytes id ev
  hasReset : ∀ e n, Event.reset id e n ∈ ev → s.resetSent = true
  frames : ∀ pre post o f d r, ev = pre ++ Event.stream id o f d r :: post →
    o = (sentBytes id pre).length ∧ Raw id o f d r
  resets : ∀ pre post e n, ev = pre ++ Event.reset id e n :: post →
    n = (sentBytes id pre).length ∧ ∀ o f d r, Event.stream id o f d r ∉ post

theorem bytesInv_none {id : Nat} {s t : Stream} {ev e : List Event} (h : BytesInv id s ev)
    (h1 : t.sentOffset = s.sentOffset) (h2 : t.resetSent = s.resetSent)
    (h3 : s.resetSent = false → t.queue.flatten = s.queue.flatten ++ acceptedBytes id e)
    (hs : ∀ i o f d r, Event.stream i o f d r ∉ e) (hr : ∀ i x n, Event.reset i x n ∉ e) :
    BytesInv id t (ev ++ e) := by
  have hse : sentBytes id e = [] := by
    unfold sentBytes
    rw [List.flatMap_eq_nil_iff]
    intro x hx
    cases x <;> try rfl
    exact absurd hx (hs _ _ _ _ _)
  have hsb : sentBytes id (ev ++ e) = sentBytes id ev := by rw [sentBytes_append, hse, List.append_nil]
  refine ⟨by rw [h1, hsb, h.offset], ?_, ?_, ?_, ?_, ?_⟩
  · rw [hsb, acceptedBytes_append]
    exact h.pre.trans (List.prefix_append _ _)
  · intro hr0
    rw [h2] at hr0
    rw [hsb, h3 hr0, acceptedBytes_append, ← List.append_assoc, h.all hr0]
  · intro x n hx
    rw [h2]
    rcases List.mem_append.1 hx with hx | hx
    · exact h.hasReset x n hx
    · exact absurd hx (hr _ _ _)
  · intro pre post o f d r he
    rcases List.append_eq_append_iff.1 he with ⟨a, rfl, ha⟩ | ⟨a, rfl, ha⟩
    · exact absurd (by rw [ha]; simp) (hs id o f d r)
    · cases a with
      | nil => exact absurd (by rw [List.nil_append] at ha; rw [← ha]; simp) (hs id o f d r)
      | cons x a =>
        rw [List.cons_append, List.cons.injEq] at ha
        obtain ⟨rfl, _⟩ := ha
        exact h.frames pre a o f d r rfl
  · intro pre post x n he
    rcases List.append_eq_append_iff.1 he with ⟨a, rfl, ha⟩ | ⟨a, rfl, ha⟩
    · exact absurd (by rw [ha]; simp) (hr id x n)
    · cases a with
      | nil => exact absurd (by rw [List.nil_append] at ha; rw [← ha]; simp) (hr id x n)
      | cons y a =>
        rw [List.cons_append, List.cons.injEq] at ha
        obtain ⟨rfl, rfl⟩ := ha
        obtain ⟨p, q⟩ := h.resets pre a x n rfl
        refine ⟨p, fun o f d r hx => ?_⟩
        rcases List.mem_append.1 hx with hx | hx
        · exact q o f d r hx
        · exact hs _ _ _ _ _ hx

/-- A frame is added. -/
theorem bytesInv_stream {id : Nat} {s t : Stream} {ev : List Event} {f d r} (h : BytesInv id s ev)
    (h0 : s.resetSent = false) (h1 : t.sentOffset = s.sentOffset + d.length) (_ : t.resetSent = false)
    (h3 : s.queue.flatten = d ++ t.queue.flatten) (hraw : Raw id s.sentOffset f d r) :
    BytesInv id t (ev ++ [.stream id s.sentOffset f d r]) := by
  have hsb : sentBytes id (ev ++ [.stream id s.sentOffset f d r]) = sentBytes id ev ++ d := by
    rw [sentBytes_append]; simp [sentBytes]
  have hab : acceptedBytes id (ev ++ [.stream id s.sentOffset f d r]) = acceptedBytes id ev := by
    rw [acceptedBytes_append]; simp [acceptedBytes]
  have hall : sentBytes id (ev ++ [.stream id s.sentOffset f d r]) ++ t.queue.flatten =
      acceptedBytes id (ev ++ [.stream id s.sentOffset f d r]) := by
    rw [hsb, hab, List.append_assoc, ← h3, h.all h0]
  have hnr : ∀ e n, Event.reset id e n ∉ ev := fun e n hx => by
    have := h.hasReset e n hx
    rw [h0] at this; cases this
  refine ⟨by rw [h1, hsb, h.offset, List.length_append], ⟨_, hall⟩, fun _ => hall, ?_, ?_, ?_⟩
  · intro x n hx
    rcases List.mem_append.1 hx with hx | hx
    · exact absurd hx (hnr x n)
    · simp at hx
  · intro pre post o f' d' r' he
    rcases List.append_eq_append_iff.1 he with ⟨a, rfl, ha⟩ | ⟨a, rfl, ha⟩
    · cases a with
      | nil =>
        simp only [List.nil_append, List.cons.injEq, Event.stream.injEq] at ha
        obtain ⟨⟨_, rfl, rfl, rfl, rfl⟩, _⟩ := ha
        rw [List.append_nil]
        exact ⟨h.offset, hraw⟩
      | cons x a => simp at ha
    · cases a with
      | nil =>
        simp only [List.nil_append, List.cons.injEq, Event.stream.injEq] at ha
        obtain ⟨⟨_, rfl, rfl, rfl, rfl⟩, _⟩ := ha
        rw [List.append_nil] at h
        exact ⟨h.offset, hraw⟩
      | cons x a =>
        rw [List.cons_append, List.cons.injEq] at ha
        obtain ⟨rfl, _⟩ := ha
        exact h.frames pre a o f' d' r' rfl
  · intro pre post x n he
    exfalso
    have : Event.reset id x n ∈ ev ++ [.stream id s.sentOffset f d r] := by rw [he]; simp
    rcases List.mem_append.1 this with hx | hx
    · exact hnr x n hx
    · simp at hx

theorem bytesInv_trans (id M : Nat) (s t : Stream) (ev ev' : List Event) (h : BytesInv id s ev)
    (ht : Trans id M s t ev') : BytesInv id t (ev ++ ev') := by
  cases ht with
  | same a b =>
    exact bytesInv_none h a.sentOffset a.resetSent (fun _ => by rw [a.queue]; simp [acceptedBytes]) (by simp) (by simp)
  | write data fin =>
    obtain ⟨a, b, c, d, e, f, g⟩ := addToStream_fields s data fin
    refine bytesInv_none h b c (fun hr => ?_) ?_ ?_
    · cases hx : (addToStream s data fin).2 with
      | true => rw [(f hx).1]; simp [acceptedBytes]
      | false => rw [(g hx).1]; simp [acceptedBytes]
    · intros; split <;> simp
    · intros; split <;> simp
  | reqReset e k =>
    obtain ⟨a, b, c, _, _, _, q⟩ := requestReset_fields s e k
    exact bytesInv_none h b c (fun _ => by rw [q]; simp [acceptedBytes]) (by simp) (by simp)
  | polled data fin raw ha hq hf hr hr' hl hraw hso hq' _ _ _ hrs _ _ =>
    have h1 : BytesInv id { s with queue := [data] } (ev ++ [.accepted id data fin]) := by
      refine bytesInv_none h rfl rfl (fun _ => ?_) (by simp) (by simp)
      simp [hq, acceptedBytes]
    have h2 := bytesInv_stream (t := t) (f := fin) (d := data) (r := raw) h1 hr' hso hrs (by simp [hq']) hraw
    rw [List.append_assoc] at h2
    exact h2
  | queued data rest fin raw hr hr' _ hfl hl hraw hso hq' _ _ _ _ _ hrs _ _ =>
    exact bytesInv_stream h hr' hso hrs (by rw [hq', hfl]) hraw
  | reset hrr hrs hso hrs' _ _ _ _ _ =>
    have hse : sentBytes id (ev ++ [.reset id s.localError s.sentOffset]) = sentBytes id ev := by
      rw [sentBytes_append]; simp [sentBytes]
    have hab : acceptedBytes id (ev ++ [.reset id s.localError s.sentOffset]) = acceptedBytes id ev := by
      rw [acceptedBytes_append]; simp [acceptedBytes]
    have hnr : ∀ e n, Event.reset id e n ∉ ev := fun e n hx => by
      have := h.hasReset e n hx
      rw [hrs] at this; cases this
    refine ⟨by rw [hse, hso, h.offset], by rw [hse, hab]; exact h.pre, (fun h => by rw [hrs'] at h; cases h),
      fun _ _ _ => hrs', ?_, ?_⟩
    · intro pre post o f d r he
      rcases List.append_eq_append_iff.1 he with ⟨a, rfl, ha⟩ | ⟨a, rfl, ha⟩
      · have : Event.stream id o f d r ∈ [Event.reset id s.localError s.sentOffset] := by rw [ha]; simp
        simp at this
      · cases a with
        | nil => simp at ha
        | cons x a =>
          rw [List.cons_append, List.cons.injEq] at ha
          obtain ⟨rfl, _⟩ := ha
          exact h.frames pre a o f d r rfl
    · intro pre post x n he
      rcases List.append_eq_append_iff.1 he with ⟨a, rfl, ha⟩ | ⟨a, rfl, ha⟩
      · cases a with
        | nil =>
          simp only [List.nil_append, List.cons.injEq, Event.reset.injEq] at ha
          obtain ⟨⟨_, rfl, rfl⟩, rfl⟩ := ha
          rw [List.append_nil]
          exact ⟨h.offset, by simp⟩
        | cons x a => simp at ha
      · cases a with
        | nil =>
          simp only [List.nil_append, List.cons.injEq, Event.reset.injEq] at ha
          obtain ⟨⟨_, rfl, rfl⟩, rfl⟩ := ha
          rw [List.append_nil] at h
          exact ⟨h.offset, by simp⟩
        | cons y a =>
          rw [List.cons_append, List.cons.injEq] at ha
          obtain ⟨rfl, _⟩ := ha
          exact absurd (by simp) (hnr x n)
  | stopSending a b =>
    exact bytesInv_none h a.sentOffset a.resetSent (fun _ => by rw [a.queue]; simp [acceptedBytes]) (by simp) (by simp)

theorem run_limInv (id : Nat) (client : Bool) (maxdata : Nat) (limit : Bool → Nat) (ops : List Op) :
    LimInv (peerStreamLimit id ops) ((run (initial client maxdata limit) ops).1.get id)
      (evOf id (run (initial client maxdata limit) ops).2) := by
  refine run_stream LimInv id ⟨Nat.le_refl _, Nat.le_refl _, by simp⟩ ?_ (limInv_trans id) client maxdata limit ops
  intro M M' s ev hM h
  exact ⟨Nat.le_trans h.maxdata hM, Nat.le_trans h.sent hM, fun i o f d r hx => Nat.le_trans (h.frames i o f d r hx) hM⟩

theorem run_bytesInv (id : Nat) (client : Bool) (maxdata : Nat) (limit : Bool → Nat) (ops : List Op) :
    BytesInv id ((run (initial client maxdata limit) ops).1.get id)
      (evOf id (run (initial client maxdata limit) ops).2) := by
  refine run_stream (fun _ => BytesInv id) id ?_ (fun _ _ _ _ _ h => h) (bytesInv_trans id) client maxdata limit ops
  exact ⟨rfl, List.prefix_refl _, fun _ => rfl, by simp, by simp, by simp⟩

/-! ## Connection -/

theorem run_conn (client : Bool) (maxdata : Nat) (limit : Bool → Nat) (ops : List Op) :
    let r := run (initial client maxdata limit) ops
    r.1.dataSent = totalSent r.2 ∧ r.1.maxdataRemote ≤ peerConnLimit maxdata ops ∧
    r.1.dataSent ≤ peerConnLimit maxdata ops := by
  dsimp only
  induction ops using StreamInput.snoc_induction with
  | h0 => exact ⟨rfl, Nat.le_refl _, Nat.zero_le _⟩
  | h1 ops op ih =>
    rw [run_snoc]
    obtain ⟨a, b, c⟩ := ih
    obtain ⟨e, f⟩ := step_eff (run_base client maxdata limit ops) op
    have hl : peerConnLimit maxdata (ops ++ [op]) = max (peerConnLimit maxdata ops) (opConnLimit op) := by
      unfold peerConnLimit
      rw [List.foldl_append]
      generalize List.foldl _ maxdata ops = m
      cases op <;> simp [opConnLimit]
    dsimp only
    rw [hl]
    refine ⟨by rw [totalSent_append, ← a, e.total], by omega, ?_⟩
    have h1 := e.total
    have h2 := e.credit
    omega

end Picoquic.StreamSend
