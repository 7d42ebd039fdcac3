import Verif.Proof.StreamSendBytes
/-!
# The end of a stream
-/

namespace Picoquic.StreamSend
open Picoquic Picoquic.StreamFrame Picoquic.Spec

theorem endsOnce_left {id : Nat} {a b : List Event} (h : EndsOnce id (a ++ b)) : EndsOnce id a := by
  refine ⟨fun pre post data fin he hf => ?_, fun d hx => h.2 d (List.mem_append_left _ hx)⟩
  exact h.1 pre (post ++ b) data fin (by rw [he]; simp) hf

theorem finAccepted_mono {id : Nat} {a b : List Event} (h : finAccepted id a) : finAccepted id (a ++ b) := by
  obtain ⟨d, h⟩ := h
  exact ⟨d, List.mem_append_left _ h⟩

/-- Invariant for the end of the stream. -/
structure FinInv (id : Nat) (s : Stream) (ev : List Event) : Prop where
  asked : s.finRequested = true → finAccepted id ev
  asked' : finAccepted id ev → s.finRequested = true
  active : s.finRequested = true → s.isActive = false
  sent : ∀ o d r, Event.stream id o true d r ∈ ev → s.finSent = true
  done : s.finSent = true → s.resetSent = true ∨ (s.finRequested = true ∧ s.queue = [])
  frames : ∀ pre post o d r, ev = pre ++ Event.stream id o true d r :: post →
    finAccepted id pre ∧ o + d.length = (acceptedBytes id ev).length ∧
    ∀ o f d r, Event.stream id o f d r ∉ post

/-- Events without STREAM frame. -/
theorem finInv_none {id : Nat} {s t : Stream} {ev e : List Event} (h : FinInv id s ev)
    (h1 : t.finRequested = true ↔ finAccepted id (ev ++ e))
    (h2 : t.finRequested = true → t.isActive = false)
    (h3 : s.finSent = true → t.finSent = true)
    (h4 : t.finSent = true → t.resetSent = true ∨ (t.finRequested = true ∧ t.queue = []))
    (h5 : finAccepted id ev → acceptedBytes id e = [])
    (hs : ∀ i o f d r, Event.stream i o f d r ∉ e) : FinInv id t (ev ++ e) := by
  refine ⟨h1.1, h1.2, h2, ?_, h4, ?_⟩
  · intro o d r hx
    rcases List.mem_append.1 hx with hx | hx
    · exact h3 (h.sent o d r hx)
    · exact absurd hx (hs _ _ _ _ _)
  · intro pre post o d r he
    rcases List.append_eq_append_iff.1 he with ⟨a, rfl, ha⟩ | ⟨a, rfl, ha⟩
    · exact absurd (by rw [ha]; simp) (hs id o true d r)
    · cases a with
      | nil => exact absurd (by rw [List.nil_append] at ha; rw [← ha]; simp) (hs id o true d r)
      | cons x a =>
        rw [List.cons_append, List.cons.injEq] at ha
        obtain ⟨rfl, rfl⟩ := ha
        obtain ⟨p, q, w⟩ := h.frames pre a o d r rfl
        refine ⟨p, ?_, fun o f d r hx => ?_⟩
        · rw [acceptedBytes_append, h5 (finAccepted_mono p), List.append_nil]; exact q
        · rcases List.mem_append.1 hx with hx | hx
          · exact w o f d r hx
          · exact hs _ _ _ _ _ hx

/-- A STREAM frame, on a stream without FIN so far. -/
theorem finInv_stream {id : Nat} {s t : Stream} {ev : List Event} {f d r} (h : FinInv id s ev)
    (hb : BytesInv id t (ev ++ [.stream id s.sentOffset f d r])) (ht : t.resetSent = false)
    (h0 : s.finSent = false) (h1 : t.finRequested = s.finRequested) (h2 : t.isActive = true → s.isActive = true)
    (h3 : t.finSent = f) (h4 : f = true → s.finRequested = true ∧ t.queue = [])
    (h5 : t.sentOffset = s.sentOffset + d.length) :
    FinInv id t (ev ++ [.stream id s.sentOffset f d r]) := by
  have hno : ∀ o d r, Event.stream id o true d r ∉ ev := fun o d r hx => by
    have := h.sent o d r hx; rw [h0] at this; cases this
  have hacc : finAccepted id (ev ++ [.stream id s.sentOffset f d r]) ↔ finAccepted id ev := by
    simp [finAccepted]
  have hab : acceptedBytes id (ev ++ [.stream id s.sentOffset f d r]) = acceptedBytes id ev := by
    rw [acceptedBytes_append]; simp [acceptedBytes]
  refine ⟨?_, ?_, ?_, ?_, ?_, ?_⟩
  · rw [h1, hacc]; exact h.asked
  · rw [h1, hacc]; exact h.asked'
  · intro hx
    rw [h1] at hx
    cases ha : t.isActive with
    | false => rfl
    | true => have := h.active hx; rw [h2 ha] at this; cases this
  · intro o d' r' hx
    rcases List.mem_append.1 hx with hx | hx
    · exact absurd hx (hno _ _ _)
    · simp only [List.mem_cons, List.not_mem_nil, or_false, Event.stream.injEq] at hx
      rw [h3]; exact hx.2.2.1.symm
  · intro hx
    rw [h3] at hx
    exact .inr ⟨by rw [h1]; exact (h4 hx).1, (h4 hx).2⟩
  · intro pre post o d' r' he
    have main : f = true → finAccepted id ev ∧
        s.sentOffset + d.length = (acceptedBytes id (ev ++ [.stream id s.sentOffset f d r])).length := by
      intro hf
      refine ⟨h.asked (h4 hf).1, ?_⟩
      rw [← hb.all ht, (h4 hf).2, ← h5, hb.offset]
      simp
    rcases List.append_eq_append_iff.1 he with ⟨a, rfl, ha⟩ | ⟨a, rfl, ha⟩
    · cases a with
      | nil =>
        simp only [List.nil_append, List.cons.injEq, Event.stream.injEq] at ha
        obtain ⟨⟨_, rfl, rfl, rfl, rfl⟩, rfl⟩ := ha
        rw [List.append_nil] at *
        exact ⟨(main rfl).1, (main rfl).2, by simp⟩
      | cons x a => simp at ha
    · cases a with
      | nil =>
        simp only [List.nil_append, List.cons.injEq, Event.stream.injEq] at ha
        obtain ⟨⟨_, rfl, rfl, rfl, rfl⟩, rfl⟩ := ha
        rw [List.append_nil] at main
        exact ⟨(main rfl).1, by rw [List.append_nil]; exact (main rfl).2, by simp⟩
      | cons x a =>
        rw [List.cons_append, List.cons.injEq] at ha
        obtain ⟨rfl, _⟩ := ha
        exact absurd (by simp) (hno o d' r')

theorem finInv_trans (id M : Nat) (s t : Stream) (ev ev' : List Event) (hb : BytesInv id s ev)
    (h : FinInv id s ev) (hE : EndsOnce id (ev ++ ev')) (ht : Trans id M s t ev') : FinInv id t (ev ++ ev') := by
  have hb' := bytesInv_trans id M s t ev ev' hb ht
  have nofin : ∀ {e : List Event}, (∀ d, Event.accepted id d true ∉ e) →
      (finAccepted id (ev ++ e) ↔ s.finRequested = true) := by
    intro e he
    constructor
    · rintro ⟨d, hd⟩
      rcases List.mem_append.1 hd with hd | hd
      · exact h.asked' ⟨d, hd⟩
      · exact absurd hd (he d)
    · intro hx; exact finAccepted_mono (h.asked hx)
  cases ht with
  | same a b =>
    refine finInv_none h ?_ ?_ (by rw [a.finSent]; exact fun h => h) ?_ (fun _ => rfl) (by simp)
    · rw [a.finRequested]; exact (nofin (by simp)).symm
    · intro hx
      rw [a.finRequested] at hx
      cases hact : t.isActive with
      | false => rfl
      | true =>
        rcases a.active hact with h' | h'
        · have := h.active hx; rw [h'] at this; cases this
        · rw [h'] at hx; cases hx
    · rw [a.finSent, a.resetSent, a.finRequested, a.queue]; exact h.done
  | write data fin =>
    obtain ⟨_, _, hrs, _, hfs, hok, hko⟩ := addToStream_fields s data fin
    cases hx : (addToStream s data fin).2 with
    | true =>
      simp only [hx, if_true] at *
      obtain ⟨o1, o2, o3, o4, o5⟩ := hok trivial
      have hd0 : finAccepted id ev → data = [] := fun hf => hE.1 ev [] data fin rfl hf
      refine finInv_none h ?_ (fun _ => o3) (by rw [hfs]; exact fun h => h) ?_ ?_ (by simp)
      · rw [o2, Bool.or_eq_true]
        constructor
        · rintro (hx | rfl)
          · exact finAccepted_mono (h.asked hx)
          · exact ⟨data, by simp⟩
        · rintro ⟨d, hd⟩
          rcases List.mem_append.1 hd with hd | hd
          · exact .inl (h.asked' ⟨d, hd⟩)
          · simp only [List.mem_cons, List.not_mem_nil, or_false, Event.accepted.injEq] at hd
            exact .inr hd.2.2.symm
      · rw [hfs, hrs, o2]
        intro hx
        rcases h.done hx with h' | ⟨h1, h2⟩
        · exact .inl h'
        · exact .inr ⟨by simp [h1], by rw [o5 (hd0 (h.asked h1)), h2]⟩
      · intro hf
        simp [acceptedBytes, hd0 hf]
    | false =>
      simp only [hx, if_false, Bool.false_eq_true] at *
      obtain ⟨o1, o2, o3⟩ := hko trivial
      have hfin : fin = false := by
        cases hf : fin with
        | false => rfl
        | true => exact absurd (by simp [hf]) (hE.2 data)
      have o3 := o3 hfin
      refine finInv_none h ?_ ?_ (by rw [hfs]; exact fun h => h) ?_ (fun _ => by simp [acceptedBytes]) (by simp)
      · rw [o3]; exact (nofin (by simp)).symm
      · rw [o3, o2]; exact h.active
      · rw [hfs, hrs, o3, o1]; exact h.done
  | reqReset e k =>
    obtain ⟨_, _, q1, q2, q3, q4, q5⟩ := requestReset_fields s e k
    refine finInv_none h ?_ ?_ (by rw [q2]; exact fun h => h) ?_ (fun _ => rfl) (by simp)
    · rw [q3]; exact (nofin (by simp)).symm
    · rw [q3, q4]; exact h.active
    · rw [q1, q2, q3, q5]; exact h.done
  | polled data fin raw ha hq hf hr hr' hl hraw hso hq' hfr hfs _ hrs hact _ =>
    have hs0 : s.finSent = false := by
      cases hx : s.finSent with
      | false => rfl
      | true =>
        rcases h.done hx with h' | h'
        · rw [hr'] at h'; cases h'
        · rw [hf] at h'; cases h'.1
    have hnf : ¬ finAccepted id ev := fun hx => by have := h.asked' hx; rw [hf] at this; cases this
    have h1 : FinInv id { s with finRequested := fin, isActive := !fin } (ev ++ [.accepted id data fin]) := by
      refine finInv_none h ?_ (fun hx => by simpa using hx) (by simp [hs0]) (by simp [hs0])
        (fun hx => absurd hx hnf) (by simp)
      constructor
      · intro hx
        change fin = true at hx
        subst hx
        exact ⟨data, by simp⟩
      · rintro ⟨d, hd⟩
        rcases List.mem_append.1 hd with hd | hd
        · exact absurd ⟨d, hd⟩ hnf
        · simp only [List.mem_cons, List.not_mem_nil, or_false, Event.accepted.injEq] at hd
          exact hd.2.2.symm
    rw [show ev ++ [Event.accepted id data fin, .stream id s.sentOffset fin data raw] =
      (ev ++ [.accepted id data fin]) ++ [.stream id s.sentOffset fin data raw] by simp] at hb' ⊢
    refine finInv_stream (s := { s with finRequested := fin, isActive := !fin }) (t := t) (f := fin) (d := data)
      (r := raw) h1 hb' hrs hs0 hfr ?_ (by simp [hfs, hs0])
      (fun hx => ⟨hx, hq'⟩) hso
    intro hx
    cases hfin : fin with
    | false => rfl
    | true => rw [hact hfin] at hx; cases hx
  | queued data rest fin raw hr hr' hcan hfl hl hraw hso hq' hfr hfs hfin _ _ hrs hact _ =>
    have hs0 : s.finSent = false := by
      cases hx : s.finSent with
      | false => rfl
      | true =>
        rcases h.done hx with h' | ⟨h1, h2⟩
        · rw [hr'] at h'; cases h'
        · rcases hcan with h' | h' | h'
          · have := h.active h1; rw [h'] at this; cases this
          · exact absurd h2 h'
          · rw [hx] at h'; cases h'.2
    exact finInv_stream (t := t) (f := fin) (d := data) (r := raw) h hb' hrs hs0 hfr (by rw [hact]; exact fun h => h)
      (by simp [hfs, hs0]) hfin hso
  | reset hrr hrs hso hrs' _ _ hfs hfr hact =>
    refine finInv_none h ?_ ?_ (fun _ => hfs) (fun _ => .inl hrs') (fun _ => rfl) (by simp)
    · rw [hfr]; exact (nofin (by simp)).symm
    · rw [hfr, hact]; exact h.active
  | stopSending a b =>
    refine finInv_none h ?_ ?_ (by rw [a.finSent]; exact fun h => h) ?_ (fun _ => rfl) (by simp)
    · rw [a.finRequested]; exact (nofin (by simp)).symm
    · intro hx
      rw [a.finRequested] at hx
      cases hact : t.isActive with
      | false => rfl
      | true =>
        rcases a.active hact with h' | h'
        · have := h.active hx; rw [h'] at this; cases this
        · rw [h'] at hx; cases hx
    · rw [a.finSent, a.resetSent, a.finRequested, a.queue]; exact h.done

theorem run_finInv (id : Nat) (client : Bool) (maxdata : Nat) (limit : Bool → Nat) (ops : List Op)
    (hE : EndsOnce id (evOf id (run (initial client maxdata limit) ops).2)) :
    FinInv id ((run (initial client maxdata limit) ops).1.get id)
      (evOf id (run (initial client maxdata limit) ops).2) := by
  have := run_stream (fun _ s ev => BytesInv id s ev ∧ (EndsOnce id ev → FinInv id s ev)) id ?_
    (fun _ _ _ _ _ h => h) ?_ client maxdata limit ops
  · exact this.2 hE
  · refine ⟨⟨rfl, List.prefix_refl _, fun _ => rfl, by simp, by simp, by simp⟩, fun _ => ?_⟩
    exact ⟨fun h => (by cases h), (fun ⟨_, h⟩ => by cases h), fun h => (by cases h), by simp, fun h => (by cases h), by simp⟩
  · intro M s t ev ev' h ht
    exact ⟨bytesInv_trans id M s t ev ev' h.1 ht,
      fun hE => finInv_trans id M s t ev ev' h.1 (h.2 (endsOnce_left hE)) hE ht⟩

end Picoquic.StreamSend
