import Verif.Proof.LostFrames
import Verif.Spec.LostFrames
/-!
# What the history of a connection says about lost frames
-/

namespace Picoquic.Lost
open Picoquic Picoquic.Sack Picoquic.StreamFrame Picoquic.Spec Picoquic.Frames Picoquic.Repeat

theorem run_append (s : State) (a b : List Event) : run s (a ++ b) = run (run s a) b := List.foldl_append ..

theorem run_cons (s : State) (e : Event) (b : List Event) : run s (e :: b) = run (step s e) b := rfl

theorem run_inv {P : State → Prop} : ∀ {s : State} {es : List Event}, P s →
    (∀ ev ∈ es, ∀ s, P s → P (step s ev)) → P (run s es) := by
  intro s es
  induction es generalizing s with
  | nil => intro h _; exact h
  | cons e es ih =>
    intro h hs
    exact ih (hs e (List.mem_cons_self ..) s h) fun ev hv => hs ev (List.mem_cons_of_mem _ hv)

/-- A frame acknowledged in a packet of this epoch. -/
def AckedBy (es : List Event) (e : Epoch) (f : Frame) : Prop :=
  ∃ bs fs, Event.acked e bs ∈ es ∧ IsPayload bs fs ∧ f ∈ fs ∧ ¬ Misplaced f ∧ ¬ SaysNothing f ∧ bs.length < 65536

theorem readable_of {f : Frame} (h : ¬ Misplaced f) : readable f = true := by
  cases f <;> first | rfl | exact absurd trivial h | skip
  rename_i path _
  cases path with
  | none => rfl
  | some p => exact absurd (fun h => by cases h) h

theorem foldl_inv {P : State → Prop} (e : Epoch) : ∀ {fs : List Frame} {s : State}, P s →
    (∀ f ∈ fs, ∀ s, P s → P (ackFrame e s f)) → P (fs.foldl (ackFrame e) s) := by
  intro fs
  induction fs with
  | nil => intro s h _; exact h
  | cons f fs ih =>
    intro s h hs
    exact ih (hs f (List.mem_cons_self ..) s h) fun g hg => hs g (List.mem_cons_of_mem _ hg)

/-- Invariants of histories: what acknowledged frames preserve and what the other events preserve. -/
theorem hist_inv {P : State → Prop} {s : State} {es : List Event} (hreg : Regular es) (h0 : P s)
    (hack : ∀ e f, AckedBy es e f → ∀ s, P s → P (ackFrame e s f))
    (hev : ∀ ev ∈ es, (∀ e bs, ev ≠ .acked e bs) → ∀ s, P s → P (step s ev)) : P (run s es) := by
  refine run_inv h0 fun ev hv s h => ?_
  by_cases hx : ∃ e bs, ev = .acked e bs
  · obtain ⟨e, bs, rfl⟩ := hx
    obtain ⟨h0, fs, h1, h2⟩ := hreg e bs hv
    show P (acked s e bs)
    rw [acked_eq s e h1 fun f hf => readable_of (h2 f hf).1]
    exact foldl_inv e h fun f hf => hack e f ⟨bs, fs, hv, h1, hf, (h2 f hf).1, (h2 f hf).2, h0⟩
  · exact hev ev hv (fun e bs hb => hx ⟨e, bs, hb⟩) s h

theorem AckedBy.acked {es : List Event} {e : Epoch} {f : Frame} (h : AckedBy es e f) : AckedIn es f := by
  obtain ⟨bs, fs, h1, h2, h3, _⟩ := h
  exact ⟨e, bs, fs, h1, h2, h3⟩

theorem regular_mono {es es' : List Event} (h : Regular es) (hs : ∀ e ∈ es', e ∈ es) : Regular es' :=
  fun e bs hb => h e bs (hs _ hb)

section
variable {es : List Event} {s : State}

theorem hist_handshakeDone (hr : Regular es) (h0 : s.handshakeDoneAcked = false)
    (hn : ¬ AckedIn es .handshakeDone) : (run s es).handshakeDoneAcked = false := by
  refine hist_inv (P := fun s => s.handshakeDoneAcked = false) hr h0 (fun e f hf s h => ?_) fun ev hv hx s h => ?_
  · have := hf.acked
    cases f <;> simp only [ackFrame, ackMaxData, ackMaxStreams] <;> (repeat' split) <;> first | exact h | exact absurd this hn
  · cases ev <;> simp only [step] <;> (repeat' split) <;> first | exact h | exact absurd rfl (hx _ _) | skip
    rename_i f
    cases f <;> simp only [sent] <;> (repeat' split) <;> exact h

theorem hist_newToken (hr : Regular es) (h0 : s.newTokenAcked = false)
    (hn : ∀ t, ¬ AckedIn es (.newToken t)) : (run s es).newTokenAcked = false := by
  refine hist_inv (P := fun s => s.newTokenAcked = false) hr h0 (fun e f hf s h => ?_) fun ev hv hx s h => ?_
  · have := hf.acked
    cases f <;> simp only [ackFrame, ackMaxData, ackMaxStreams] <;> (repeat' split) <;> first | exact h | exact absurd this (hn _)
  · cases ev <;> simp only [step] <;> (repeat' split) <;> first | exact h | exact absurd rfl (hx _ _) | skip
    rename_i f
    cases f <;> simp only [sent] <;> (repeat' split) <;> exact h

theorem hist_maxData {v : Nat} (hr : Regular es) (h0 : s.maxdataLocal ≤ v ∧ s.maxdataLocalAcked < v)
    (hs : ∀ v', Event.sent (.maxData v') ∈ es → v' ≤ v) (hn : ∀ v', AckedIn es (.maxData v') → v' < v) :
    (run s es).maxdataLocal ≤ v ∧ (run s es).maxdataLocalAcked < v := by
  refine hist_inv (P := fun s => s.maxdataLocal ≤ v ∧ s.maxdataLocalAcked < v) hr h0 (fun e f hf s h => ?_)
    fun ev hv hx s h => ?_
  · have := hf.acked
    cases f <;> simp only [ackFrame, ackMaxData, ackMaxStreams] <;> (repeat' split) <;> first
      | exact h
      | exact ⟨h.1, hn _ this⟩
  · cases ev <;> simp only [step] <;> (repeat' split) <;> first | exact h | exact absurd rfl (hx _ _) | skip
    rename_i f
    cases f <;> simp only [sent] <;> (repeat' split) <;> first
      | exact h
      | exact ⟨hs _ hv, h.2⟩

theorem hist_client (hr : Regular es) : (run s es).client = s.client := by
  refine hist_inv (P := fun x => x.client = s.client) hr rfl (fun e f hf s h => ?_) fun ev hv hx s h => ?_
  · cases f <;> simp only [ackFrame, ackMaxData, ackMaxStreams] <;> (repeat' split) <;> exact h
  · cases ev <;> simp only [step] <;> (repeat' split) <;> first | exact h | exact absurd rfl (hx _ _) | skip
    rename_i f
    cases f <;> simp only [sent] <;> (repeat' split) <;> exact h

theorem rank_le {c b : Bool} {r v : Nat} (h1 : 0 < r) (h2 : r ≤ v) (h3 : v ≤ 2 ^ 60) :
    streamIdFromRank r c b ≤ streamIdFromRank v c b := by
  unfold streamIdFromRank
  omega

theorem rank_le_rev {c b : Bool} {r v : Nat} (h1 : 0 < v) (h2 : r ≤ 2 ^ 60) (h3 : v ≤ 2 ^ 60)
    (h : streamIdFromRank r c b ≤ streamIdFromRank v c b) (hr : 0 < r) : r ≤ v := by
  unfold streamIdFromRank at h
  omega

attribute [local irreducible] streamIdFromRank endOf updateSackList

theorem hist_maxStreams {v : Nat} (bidir : Bool) (hr : Regular es) (hv : v ≤ 2 ^ 60)
    (h0 : (if bidir then s.maxBidirLocal else s.maxUnidirLocal) ≤ streamIdFromRank v s.client bidir ∧
      (if bidir then s.bidirRankAcked else s.unidirRankAcked) < v)
    (hs : ∀ v', Event.sent (.maxStreams bidir v') ∈ es → 0 < v' ∧ v' ≤ v)
    (hn : ∀ v', AckedIn es (.maxStreams bidir v') → v' < v) :
    (if bidir then (run s es).maxBidirLocal else (run s es).maxUnidirLocal) ≤
        streamIdFromRank v (run s es).client bidir ∧
      (if bidir then (run s es).bidirRankAcked else (run s es).unidirRankAcked) < v := by
  refine hist_inv (P := fun s => (if bidir then s.maxBidirLocal else s.maxUnidirLocal) ≤
      streamIdFromRank v s.client bidir ∧
      (if bidir then s.bidirRankAcked else s.unidirRankAcked) < v) hr h0 (fun e f hf s h => ?_)
    fun ev hv' hx s h => ?_
  · have ha := hf.acked
    cases f with
    | maxStreams b r =>
      by_cases hb : b = bidir
      · subst hb
        have := hn _ ha
        cases b <;> simp only [ackFrame, ackMaxStreams] <;> (repeat' split) <;> simp_all
      · cases b <;> cases bidir <;> simp only [ackFrame, ackMaxStreams] <;> (repeat' split) <;> simp_all
    | maxData w =>
      simp only [ackFrame, ackMaxData]
      by_cases hw : w > s.maxdataLocalAcked
      · rw [if_pos hw]; exact h
      · rw [if_neg hw]; exact h
    | _ => exact h
  · cases ev with
    | sent f =>
      cases f with
      | maxStreams b r =>
        by_cases hb : b = bidir
        · subst hb
          obtain ⟨h1, h2⟩ := hs _ hv'
          have := rank_le (c := s.client) (b := b) h1 h2 hv
          cases b <;> simp only [step, sent] <;> simp_all
        · cases b <;> cases bidir <;> simp only [step, sent] <;> (repeat' split) <;> simp_all
      | streamsBlocked b _ => cases b <;> exact h
      | _ => exact h
    | acked e bs => exact absurd rfl (hx _ _)
    | maxStreams b r => cases b <;> simp only [step] <;> (repeat' split) <;> first | exact h | simp_all
    | maxData w =>
      simp only [step]
      by_cases hw : w > s.maxdataRemote
      · rw [if_pos hw]; exact h
      · rw [if_neg hw]; exact h
    | maxPathId w =>
      simp only [step]
      by_cases hw : s.maxPathIdRemote < w
      · rw [if_pos hw]; exact h
      · rw [if_neg hw]; exact h
    | _ => exact h

/-! ## Streams -/

/-- What the acknowledgement of a frame does to the stream `id`. -/
def ackCS (id : Nat) (x : CStream) : Frame → CStream
  | .resetStream i _ _ => if id = i then { x with resetAcked := true } else x
  | .stream i offset fin data _ =>
    if id = i then { x with sack := (updateSackList x.sack offset (endOf offset data.length fin) 0).1 } else x
  | .maxStreamData i v => if id = i then (if v > x.maxdataLocalAcked then { x with maxdataLocalAcked := v } else x) else x
  | _ => x

theorem streams_ack (e : Epoch) (s : State) (f : Frame) (id : Nat) :
    (ackFrame e s f).streams id = (s.streams id).map fun x => ackCS id x f := by
  cases f with
  | resetStream i _ _ =>
    simp only [ackFrame, ackReset, update, ackCS]
    split <;> simp
  | stream i _ _ _ _ =>
    simp only [ackFrame, ackStream, update, ackCS]
    split <;> simp
  | maxStreamData i v =>
    simp only [ackFrame, ackMaxStreamData, update, ackCS]
    split <;> simp
  | maxData _ => simp only [ackFrame, ackMaxData, ackCS]; split <;> simp
  | maxStreams _ _ => simp only [ackFrame, ackMaxStreams, ackCS]; (repeat' split) <;> simp
  | _ => simp [ackFrame, ackCS, ackCrypto, ackNewCid, ackRetireCid]

/-- What an event does to the stream `id`. -/
def stepCS (id : Nat) (o : Option CStream) : Event → Option CStream
  | .sent (.maxStreamData i v) => if id = i then o.map fun x => { x with maxdataLocal := v } else o
  | .sent (.streamDataBlocked i _) => if id = i then o.map fun x => { x with blockedSent := true } else o
  | .sent (.resetStream i _ _) => if id = i then o.map fun x => { x with resetSent := true } else o
  | .sent (.stopSending i _) => if id = i then o.map fun x => { x with stopSendingSent := true } else o
  | .sent (.stream i _ fin _ _) => if id = i then o.map fun x => { x with finSent := x.finSent || fin } else o
  | .opened i l r => if id = i then some (o.getD { maxdataLocal := l, maxdataRemote := r }) else o
  | .closed i => if id = i then none else o
  | .finRequested i => if id = i then o.map fun x => { x with finRequested := true } else o
  | .resetRequested i => if id = i then o.map fun x => { x with resetRequested := true } else o
  | .finReceived i => if id = i then o.map fun x => { x with finReceived := true } else o
  | .resetReceived i => if id = i then o.map fun x => { x with resetReceived := true } else o
  | .maxStreamData i v =>
    if id = i then o.map fun x => if v > x.maxdataRemote then { x with maxdataRemote := v } else x else o
  | _ => o

theorem streams_step (s : State) (ev : Event) (id : Nat) (hx : ∀ e bs, ev ≠ .acked e bs) :
    (step s ev).streams id = stepCS id (s.streams id) ev := by
  cases ev with
  | acked e bs => exact absurd rfl (hx _ _)
  | sent f =>
    cases f with
    | maxStreams b _ => cases b <;> simp [step, sent, stepCS]
    | streamsBlocked b _ => cases b <;> simp [step, sent, stepCS]
    | _ => simp only [step, sent, stepCS, update]
  | maxData w =>
    simp only [step, stepCS]
    by_cases h : w > s.maxdataRemote
    · rw [if_pos h]
    · rw [if_neg h]
  | maxStreams b r =>
    cases b
    · simp only [step, stepCS, Bool.false_eq_true, if_false]
      by_cases h : streamIdFromRank r s.client false > s.maxUnidirRemote
      · rw [if_pos h]
      · rw [if_neg h]
    · simp only [step, stepCS, if_true]
      by_cases h : streamIdFromRank r s.client true > s.maxBidirRemote
      · rw [if_pos h]
      · rw [if_neg h]
  | maxPathId w =>
    simp only [step, stepCS]
    by_cases h : s.maxPathIdRemote < w
    · rw [if_pos h]
    · rw [if_neg h]
  | _ => simp only [step, stepCS, update]

/-- Invariants of a stream. -/
theorem hist_stream {P : Option CStream → Prop} (id : Nat) (hr : Regular es) (h0 : P (s.streams id))
    (hack : ∀ f, AckedIn es f → ∀ o, P o → P (o.map fun x => ackCS id x f))
    (hev : ∀ ev ∈ es, ∀ o, P o → P (stepCS id o ev)) : P ((run s es).streams id) := by
  refine hist_inv (P := fun s => P (s.streams id)) hr h0 (fun e f hf s h => ?_) fun ev hv hx s h => ?_
  · show P ((ackFrame e s f).streams id)
    rw [streams_ack]
    exact hack f hf.acked _ h
  · show P ((step s ev).streams id)
    rw [streams_step s ev id hx]
    exact hev ev hv _ h

/-- A stream exists after it was opened, if it is not closed. -/
theorem hist_live {id : Nat} (hr : Regular es) (h : LiveStream es id) : ((run s es).streams id).isSome = true := by
  obtain ⟨⟨l, r, ho⟩, hc⟩ := h
  obtain ⟨a, b, rfl⟩ := List.append_of_mem ho
  rw [run_append, run_cons]
  refine hist_stream (P := fun o => o.isSome = true) id
    (regular_mono hr fun e he => List.mem_append.2 (.inr (List.mem_cons_of_mem _ he))) ?_ ?_ ?_
  · rw [streams_step _ _ _ (fun _ _ h => by cases h)]
    simp [stepCS]
  · intro f _ o h
    rw [Option.isSome_map]
    exact h
  · intro ev hv o h
    have hne : ev ≠ .closed id := by
      rintro rfl
      exact hc (List.mem_append.2 (.inr (List.mem_cons_of_mem _ hv)))
    cases ev with
    | closed i =>
      have : id ≠ i := fun hi => hne (by rw [hi])
      simp only [stepCS, if_neg this]
      exact h
    | sent f => cases f <;> simp only [stepCS] <;> (repeat' split) <;> simp_all
    | _ => simp only [stepCS] <;> (repeat' split) <;> simp_all

theorem if_ind {Q : CStream → Prop} {p : Prop} [Decidable p] {x y : CStream} (h1 : Q x) (h2 : Q y) :
    Q (if p then x else y) := by
  by_cases hp : p
  · rw [if_pos hp]; exact h1
  · rw [if_neg hp]; exact h2

/-- For all the streams. -/
def OnStream (Q : CStream → Prop) (o : Option CStream) : Prop := ∀ x, o = some x → Q x

theorem onStream_map {Q : CStream → Prop} {o : Option CStream} {g : CStream → CStream} (h : OnStream Q o)
    (hg : ∀ x, Q x → Q (g x)) : OnStream Q (o.map g) := by
  intro x hx
  cases o with
  | none => cases hx
  | some y => rw [← Option.some.inj hx]; exact hg y (h y rfl)

theorem onStream_ite {Q : CStream → Prop} {o : Option CStream} {p : Prop} [Decidable p] {g : CStream → CStream}
    (h : OnStream Q o) (hg : p → ∀ x, Q x → Q (g x)) : OnStream Q (if p then o.map g else o) := by
  by_cases hp : p
  · rw [if_pos hp]; exact onStream_map h (hg hp)
  · rw [if_neg hp]; exact h

theorem onStream_open {Q : CStream → Prop} {o : Option CStream} {p : Prop} [Decidable p] {y : CStream}
    (h : OnStream Q o) (hg : p → Q y) : OnStream Q (if p then some (o.getD y) else o) := by
  by_cases hp : p
  · rw [if_pos hp]
    intro x hx
    cases o with
    | none => rw [← Option.some.inj hx]; exact hg hp
    | some z => rw [← Option.some.inj hx]; exact h z rfl
  · rw [if_neg hp]; exact h

theorem onStream_close {Q : CStream → Prop} {o : Option CStream} {p : Prop} [Decidable p]
    (h : OnStream Q o) : OnStream Q (if p then none else o) := by
  by_cases hp : p
  · rw [if_pos hp]; intro x hx; cases hx
  · rw [if_neg hp]; exact h

/-- Invariants of what a stream contains: each event which changes it. -/
theorem hist_content {Q : CStream → Prop} (id : Nat) (hr : Regular es) (h0 : s.streams id = none)
    (h1 : ∀ l r, Event.opened id l r ∈ es → Q { maxdataLocal := l, maxdataRemote := r })
    (h2 : ∀ x k, Q x → Q { x with sack := k } ∧ Q { x with resetAcked := true })
    (h3 : ∀ x v, AckedIn es (.maxStreamData id v) → v > x.maxdataLocalAcked → Q x → Q { x with maxdataLocalAcked := v })
    (h4 : ∀ x v, Event.sent (.maxStreamData id v) ∈ es → Q x → Q { x with maxdataLocal := v })
    (h5 : ∀ x v, Event.sent (.streamDataBlocked id v) ∈ es → Q x → Q { x with blockedSent := true })
    (h6 : ∀ x a b, Event.sent (.resetStream id a b) ∈ es → Q x → Q { x with resetSent := true })
    (h7 : ∀ x a, Event.sent (.stopSending id a) ∈ es → Q x → Q { x with stopSendingSent := true })
    (h8 : ∀ x a fin b c, Event.sent (.stream id a fin b c) ∈ es → Q x → Q { x with finSent := x.finSent || fin })
    (h9 : ∀ x, Event.finRequested id ∈ es → Q x → Q { x with finRequested := true })
    (h10 : ∀ x, Event.resetRequested id ∈ es → Q x → Q { x with resetRequested := true })
    (h11 : ∀ x, Event.finReceived id ∈ es → Q x → Q { x with finReceived := true })
    (h12 : ∀ x, Event.resetReceived id ∈ es → Q x → Q { x with resetReceived := true })
    (h13 : ∀ x v, Event.maxStreamData id v ∈ es → v > x.maxdataRemote → Q x → Q { x with maxdataRemote := v }) :
    OnStream Q ((run s es).streams id) := by
  refine hist_stream id hr (by rw [h0]; intro x hx; cases hx) ?_ ?_
  · intro f hf o ho
    refine onStream_map ho fun x hx => ?_
    cases f with
    | resetStream i _ _ => simp only [ackCS]; exact if_ind (h2 x x.sack hx).2 hx
    | stream i _ _ _ _ => simp only [ackCS]; exact if_ind (h2 x _ hx).1 hx
    | maxStreamData i v =>
      simp only [ackCS]
      split
      · rename_i hi
        subst hi
        split
        · exact h3 x v hf (by assumption) hx
        · exact hx
      · exact hx
    | _ => exact hx
  · intro ev hv o ho
    cases ev with
    | sent f =>
      cases f with
      | maxStreamData i v => exact onStream_ite ho fun hi x hx => by subst hi; exact h4 x v hv hx
      | streamDataBlocked i v => exact onStream_ite ho fun hi x hx => by subst hi; exact h5 x v hv hx
      | resetStream i a b => exact onStream_ite ho fun hi x hx => by subst hi; exact h6 x a b hv hx
      | stopSending i a => exact onStream_ite ho fun hi x hx => by subst hi; exact h7 x a hv hx
      | stream i a fin b c => exact onStream_ite ho fun hi x hx => by subst hi; exact h8 x a fin b c hv hx
      | _ => exact ho
    | opened i l r => exact onStream_open ho fun hi => by subst hi; exact h1 l r hv
    | closed i => exact onStream_close ho
    | finRequested i => exact onStream_ite ho fun hi x hx => by subst hi; exact h9 x hv hx
    | resetRequested i => exact onStream_ite ho fun hi x hx => by subst hi; exact h10 x hv hx
    | finReceived i => exact onStream_ite ho fun hi x hx => by subst hi; exact h11 x hv hx
    | resetReceived i => exact onStream_ite ho fun hi x hx => by subst hi; exact h12 x hv hx
    | maxStreamData i v =>
      refine onStream_ite ho fun hi x hx => ?_
      subst hi
      split
      · exact h13 x v hv (by assumption) hx
      · exact hx
    | _ => exact ho

theorem hist_maxStreamData {id v : Nat} (hr : Regular es) (h0 : s.streams id = none)
    (hl : LiveStream es id) (hf : Event.finReceived id ∉ es) (hrr : Event.resetReceived id ∉ es)
    (hss : ∀ x, Event.sent (.stopSending id x) ∉ es) (ho : ∀ l r, Event.opened id l r ∈ es → l < v)
    (hs : ∀ v', Event.sent (.maxStreamData id v') ∈ es → v' ≤ v)
    (ha : ∀ v', AckedIn es (.maxStreamData id v') → v' < v) :
    ∃ x, (run s es).streams id = some x ∧ x.finReceived = false ∧ x.resetReceived = false ∧
      x.stopSendingSent = false ∧ x.maxdataLocal ≤ v ∧ x.maxdataLocalAcked < v := by
  have h := hist_live (s := s) hr hl
  obtain ⟨x, hx⟩ := Option.isSome_iff_exists.1 h
  refine ⟨x, hx, ?_⟩
  refine hist_content (Q := fun x => x.finReceived = false ∧ x.resetReceived = false ∧
      x.stopSendingSent = false ∧ x.maxdataLocal ≤ v ∧ x.maxdataLocalAcked < v) id hr h0
    ?_ ?_ ?_ ?_ ?_ ?_ ?_ ?_ ?_ ?_ ?_ ?_ ?_ x hx
  · intro l r h; have := ho l r h; exact ⟨rfl, rfl, rfl, by dsimp only; omega, by dsimp only; omega⟩
  · intro x k h; exact ⟨h, h⟩
  · intro x w h _ hq; exact ⟨hq.1, hq.2.1, hq.2.2.1, hq.2.2.2.1, ha w h⟩
  · intro x w h hq; exact ⟨hq.1, hq.2.1, hq.2.2.1, hs w h, hq.2.2.2.2⟩
  · intro x w h hq; exact hq
  · intro x a b h hq; exact hq
  · intro x a h hq; exact absurd h (hss a)
  · intro x a b c d h hq; exact hq
  · intro x h hq; exact hq
  · intro x h hq; exact hq
  · intro x h hq; exact absurd h hf
  · intro x h hq; exact absurd h hrr
  · intro x w h _ hq; exact hq

theorem hist_stopSending {id : Nat} (hr : Regular es) (h0 : s.streams id = none)
    (hl : LiveStream es id) (hf : Event.finReceived id ∉ es) (hrr : Event.resetReceived id ∉ es) :
    ∃ x, (run s es).streams id = some x ∧ x.finReceived = false ∧ x.resetReceived = false := by
  have h := hist_live (s := s) hr hl
  obtain ⟨x, hx⟩ := Option.isSome_iff_exists.1 h
  refine ⟨x, hx, ?_⟩
  refine hist_content (Q := fun x => x.finReceived = false ∧ x.resetReceived = false) id hr h0
    ?_ ?_ ?_ ?_ ?_ ?_ ?_ ?_ ?_ ?_ ?_ ?_ ?_ x hx
  · intro l r h; exact ⟨rfl, rfl⟩
  · intro x k h; exact ⟨h, h⟩
  · intro x w h _ hq; exact hq
  · intro x w h hq; exact hq
  · intro x w h hq; exact hq
  · intro x a b h hq; exact hq
  · intro x a h hq; exact hq
  · intro x a b c d h hq; exact hq
  · intro x h hq; exact hq
  · intro x h hq; exact hq
  · intro x h hq; exact absurd h hf
  · intro x h hq; exact absurd h hrr
  · intro x w h _ hq; exact hq

theorem hist_streamDataBlocked {id v : Nat} {a b : List Event} (hr : Regular es)
    (he : es = a ++ Event.sent (.streamDataBlocked id v) :: b) (h0 : s.streams id = none)
    (hl : LiveStream a id) (hc : Event.closed id ∉ b) (h1 : Event.finRequested id ∉ es)
    (h2 : Event.resetRequested id ∉ es) (h3 : ∀ a b, Event.sent (.resetStream id a b) ∉ es)
    (h4 : ∀ o d x, Event.sent (.stream id o true d x) ∉ es)
    (h5 : ∀ l r, Event.opened id l r ∈ es → r ≤ v) (h6 : ∀ v', Event.maxStreamData id v' ∈ es → v' ≤ v) :
    ∃ x, (run s es).streams id = some x ∧ x.finRequested = false ∧ x.resetRequested = false ∧ x.finSent = false ∧
      x.resetSent = false ∧ x.maxdataRemote ≤ v ∧ x.blockedSent = true := by
  have hl' : LiveStream es id := by
    obtain ⟨⟨l, r, h⟩, h'⟩ := hl
    subst he
    refine ⟨⟨l, r, List.mem_append.2 (.inl h)⟩, fun hm => ?_⟩
    rcases List.mem_append.1 hm with hm | hm
    · exact h' hm
    · rcases List.mem_cons.1 hm with hm | hm
      · cases hm
      · exact hc hm
  have h := hist_live (s := s) hr hl'
  obtain ⟨x, hx⟩ := Option.isSome_iff_exists.1 h
  refine ⟨x, hx, ?_⟩
  have key := hist_content (Q := fun x => x.finRequested = false ∧ x.resetRequested = false ∧ x.finSent = false ∧
      x.resetSent = false ∧ x.maxdataRemote ≤ v) (s := s) id hr h0
    ?_ ?_ ?_ ?_ ?_ ?_ ?_ ?_ ?_ ?_ ?_ ?_ ?_ x hx
  rotate_left
  · intro l r h; exact ⟨rfl, rfl, rfl, rfl, h5 l r h⟩
  · intro x k h; exact ⟨h, h⟩
  · intro x w h _ hq; exact hq
  · intro x w h hq; exact hq
  · intro x w h hq; exact hq
  · intro x a b h hq; exact absurd h (h3 a b)
  · intro x a h hq; exact hq
  · intro x a fin c d h hq
    cases fin with
    | true => exact absurd h (h4 _ _ _)
    | false => exact ⟨hq.1, hq.2.1, by simpa using hq.2.2.1, hq.2.2.2⟩
  · intro x h hq; exact absurd h h1
  · intro x h hq; exact absurd h h2
  · intro x h hq; exact hq
  · intro x h hq; exact hq
  · intro x w h _ hq; exact ⟨hq.1, hq.2.1, hq.2.2.1, hq.2.2.2.1, h6 w h⟩
  refine ⟨key.1, key.2.1, key.2.2.1, key.2.2.2.1, key.2.2.2.2, ?_⟩
  subst he
  rw [run_append, run_cons] at hx
  have hra : Regular a := regular_mono hr fun e he => List.mem_append.2 (.inl he)
  have hrb : Regular b := regular_mono hr fun e he => List.mem_append.2 (.inr (List.mem_cons_of_mem _ he))
  have hl0 := hist_live (s := s) hra hl
  obtain ⟨y, hy⟩ := Option.isSome_iff_exists.1 hl0
  have hz := streams_step (run s a) (.sent (.streamDataBlocked id v)) id (fun _ _ h => by cases h)
  simp only [hy, stepCS, if_true, Option.map_some] at hz
  have := hist_stream (P := fun o => ∃ x, o = some x ∧ x.blockedSent = true) (s := step (run s a) (.sent (.streamDataBlocked id v)))
    id hrb ⟨_, hz, rfl⟩ ?_ ?_
  · obtain ⟨x', h1, h2⟩ := this
    rw [hx] at h1
    rw [Option.some.inj h1]; exact h2
  · rintro f hf o ⟨x, rfl, hx⟩
    refine ⟨_, rfl, ?_⟩
    cases f <;> simp only [ackCS] <;> (repeat' split) <;> exact hx
  · rintro ev hv o ⟨x, rfl, hx⟩
    cases ev with
    | closed i =>
      have : id ≠ i := by rintro rfl; exact hc hv
      simp only [stepCS, if_neg this]
      exact ⟨x, rfl, hx⟩
    | sent f => cases f <;> simp only [stepCS] <;> (repeat' split) <;> exact ⟨_, rfl, by first | exact hx | rfl⟩
    | maxStreamData i w =>
      simp only [stepCS]
      split
      · refine ⟨_, rfl, ?_⟩
        dsimp only
        split <;> exact hx
      · exact ⟨_, rfl, hx⟩
    | _ => simp only [stepCS] <;> (repeat' split) <;> exact ⟨_, rfl, hx⟩

/-! ## Connection IDs -/

theorem hist_newCid {p n : Nat} (hr : Regular es) (h0 : s.localCids p n = none)
    (hc : Event.cidCreated p n ∈ es) (hd : Event.cidRetired p n ∉ es)
    (hn : ∀ path a b c, pathOf path = p → ¬ AckedIn es (.newConnectionId path n a b c)) :
    (run s es).localCids p n = some false := by
  have hA : ∀ es', (∀ e ∈ es', e ∈ es) → ∀ s : State, s.localCids p n ≠ some true →
      (run s es').localCids p n ≠ some true := by
    intro es' hsub s h0
    refine hist_inv (P := fun s => s.localCids p n ≠ some true) (regular_mono hr hsub) h0 (fun e f hf s h => ?_)
      fun ev hv hx s h => ?_
    · have ha : AckedIn es f := by
        obtain ⟨e, bs, fs, h1, h2⟩ := hf.acked
        exact ⟨e, bs, fs, hsub _ h1, h2⟩
      cases f with
      | newConnectionId path seq a b c =>
        by_cases hp : p = pathOf path
        · by_cases hq : n = seq
          · subst hq
            exact absurd ha (hn path a b c hp.symm)
          · simp only [ackFrame, ackNewCid]
            split
            · unfold update
              rw [if_neg hq]
              exact h
            · exact h
        · have : ¬ p = path.getD 0 := hp
          simp only [ackFrame, ackNewCid, if_neg this]
          exact h
      | maxData w =>
        simp only [ackFrame, ackMaxData]
        by_cases hw : w > s.maxdataLocalAcked
        · rw [if_pos hw]; exact h
        · rw [if_neg hw]; exact h
      | maxStreams b w => simp only [ackFrame, ackMaxStreams]; (repeat' split) <;> exact h
      | _ => exact h
    · cases ev with
      | acked e bs => exact absurd rfl (hx _ _)
      | sent f => cases f <;> simp only [step, sent] <;> (repeat' split) <;> exact h
      | cidCreated q m =>
        simp only [step]
        by_cases hpm : p = q ∧ n = m
        · rw [if_pos hpm]
          cases hz : s.localCids p n with
          | none => simp
          | some b => rw [hz] at h; exact h
        · rw [if_neg hpm]; exact h
      | cidRetired q m =>
        simp only [step]
        split
        · simp
        · exact h
      | _ => simp only [step] <;> (repeat' split) <;> exact h
  have hB : ((run s es).localCids p n).isSome = true := by
    obtain ⟨a, b, rfl⟩ := List.append_of_mem hc
    rw [run_append, run_cons]
    refine hist_inv (P := fun s => (s.localCids p n).isSome = true)
      (regular_mono hr fun e he => List.mem_append.2 (.inr (List.mem_cons_of_mem _ he))) (by simp [step])
      (fun e f hf s h => ?_) fun ev hv hx s h => ?_
    · cases f with
      | newConnectionId path seq a b c =>
        simp only [ackFrame, ackNewCid]
        split
        · unfold update
          split
          · rw [Option.isSome_map]; exact h
          · exact h
        · exact h
      | maxData w =>
        simp only [ackFrame, ackMaxData]
        by_cases hw : w > s.maxdataLocalAcked
        · rw [if_pos hw]; exact h
        · rw [if_neg hw]; exact h
      | maxStreams b w => simp only [ackFrame, ackMaxStreams]; (repeat' split) <;> exact h
      | _ => exact h
    · cases ev with
      | acked e bs => exact absurd rfl (hx _ _)
      | sent f => cases f <;> simp only [step, sent] <;> (repeat' split) <;> exact h
      | cidCreated q m =>
        simp only [step]
        by_cases hpm : p = q ∧ n = m
        · rw [if_pos hpm]; rfl
        · rw [if_neg hpm]; exact h
      | cidRetired q m =>
        simp only [step]
        by_cases hpm : p = q ∧ n = m
        · obtain ⟨rfl, rfl⟩ := hpm
          exact absurd (List.mem_append.2 (.inr (List.mem_cons_of_mem _ hv))) hd
        · rw [if_neg hpm]; exact h
      | _ => simp only [step] <;> (repeat' split) <;> exact h
  have hA' := hA es (fun _ h => h) s (by rw [h0]; simp)
  cases hz : (run s es).localCids p n with
  | none => rw [hz] at hB; cases hB
  | some b => cases b with
    | false => rfl
    | true => exact absurd hz hA'

theorem mem_markCid {seq : Nat} {l : List (Nat × Bool)} : ∀ x ∈ markCid seq l, x ∈ l ∨ x.1 = seq := by
  induction l with
  | nil => intro x h; cases h
  | cons y l ih =>
    intro x h
    unfold markCid at h
    split at h
    · rename_i hy
      rcases List.mem_cons.1 h with h | h
      · right; rw [h]; exact hy
      · exact .inl (List.mem_cons_of_mem _ h)
    · rcases List.mem_cons.1 h with h | h
      · exact .inl (by rw [h]; exact List.mem_cons_self ..)
      · rcases ih x h with h | h
        · exact .inl (List.mem_cons_of_mem _ h)
        · exact .inr h

theorem markCid_map (seq : Nat) (l : List (Nat × Bool)) : (markCid seq l).map (·.1) = l.map (·.1) := by
  induction l with
  | nil => rfl
  | cons y l ih =>
    unfold markCid
    split
    · rfl
    · rw [List.map_cons, List.map_cons, ih]

theorem findCid_eq {l : List (Nat × Bool)} {seq : Nat} (h1 : ∀ x ∈ l, x.1 = seq → x.2 = false)
    (h2 : seq ∈ l.map (·.1)) : findCid l seq = some false := by
  unfold findCid
  cases hf : l.find? fun x => x.1 = seq with
  | none =>
    obtain ⟨x, hx, he⟩ := List.mem_map.1 h2
    have := List.find?_eq_none.1 hf x hx
    simp [he] at this
  | some x =>
    have hm := List.mem_of_find?_eq_some hf
    have hp := List.find?_some hf
    simp only [decide_eq_true_eq] at hp
    rw [Option.map_some, h1 x hm hp]

theorem hist_retireCid {p n : Nat} (hr : Regular es) (h0 : s.stash p = [])
    (hc : Event.cidReceived p n ∈ es) (hd : Event.cidRemoved p n ∉ es)
    (hn : ∀ path, pathOf path = p → ¬ AckedIn es (.retireConnectionId path n)) :
    findCid ((run s es).stash p) n = some false := by
  have hA : ∀ x ∈ (run s es).stash p, x.1 = n → x.2 = false := by
    refine hist_inv (P := fun s => ∀ x ∈ s.stash p, x.1 = n → x.2 = false) hr (by rw [h0]; intro x h; cases h)
      (fun e f hf s h => ?_) fun ev hv hx s h => ?_
    · have ha := hf.acked
      cases f with
      | retireConnectionId path seq =>
        by_cases hp : p = path.getD 0
        · have hq : n ≠ seq := by
            rintro rfl
            exact hn path hp.symm ha
          simp only [ackFrame, ackRetireCid, if_pos hp]
          intro x hx hxn
          rcases mem_markCid x hx with hx | hx
          · exact h x hx hxn
          · exact absurd (hxn.symm.trans hx) hq
        · simp only [ackFrame, ackRetireCid, if_neg hp]
          exact h
      | maxData w =>
        simp only [ackFrame, ackMaxData]
        by_cases hw : w > s.maxdataLocalAcked
        · rw [if_pos hw]; exact h
        · rw [if_neg hw]; exact h
      | maxStreams b w => simp only [ackFrame, ackMaxStreams]; (repeat' split) <;> exact h
      | _ => exact h
    · cases ev with
      | acked e bs => exact absurd rfl (hx _ _)
      | sent f => cases f <;> simp only [step, sent] <;> (repeat' split) <;> exact h
      | cidReceived q m =>
        simp only [step]
        split
        · intro x hx hxn
          rcases List.mem_append.1 hx with hx | hx
          · exact h x hx hxn
          · rw [List.mem_singleton.1 hx]
        · exact h
      | cidRemoved q m =>
        simp only [step]
        split
        · intro x hx hxn
          exact h x ((List.mem_filter.1 hx).1) hxn
        · exact h
      | _ => simp only [step] <;> (repeat' split) <;> exact h
  refine findCid_eq hA ?_
  obtain ⟨a, b, rfl⟩ := List.append_of_mem hc
  rw [run_append, run_cons]
  refine hist_inv (P := fun s => n ∈ (s.stash p).map (·.1)) (s := step (run s a) (.cidReceived p n))
    (regular_mono hr fun e he => List.mem_append.2 (.inr (List.mem_cons_of_mem _ he))) (by simp [step])
    (fun e f hf s h => ?_) fun ev hv hx s h => ?_
  · cases f with
    | retireConnectionId path seq =>
      simp only [ackFrame, ackRetireCid]
      split
      · rw [markCid_map]; exact h
      · exact h
    | maxData w =>
      simp only [ackFrame, ackMaxData]
      by_cases hw : w > s.maxdataLocalAcked
      · rw [if_pos hw]; exact h
      · rw [if_neg hw]; exact h
    | maxStreams b w => simp only [ackFrame, ackMaxStreams]; (repeat' split) <;> exact h
    | _ => exact h
  · cases ev with
    | acked e bs => exact absurd rfl (hx _ _)
    | sent f => cases f <;> simp only [step, sent] <;> (repeat' split) <;> exact h
    | cidReceived q m =>
      simp only [step]
      split
      · rw [List.map_append]; exact List.mem_append.2 (.inl h)
      · exact h
    | cidRemoved q m =>
      simp only [step]
      split
      · rename_i hp
        subst hp
        have hne : n ≠ m := by
          rintro rfl
          exact hd (List.mem_append.2 (.inr (List.mem_cons_of_mem _ hv)))
        obtain ⟨x, hx, he⟩ := List.mem_map.1 h
        refine List.mem_map.2 ⟨x, List.mem_filter.2 ⟨hx, ?_⟩, he⟩
        simp [he, hne]
      · exact h
    | _ => simp only [step] <;> (repeat' split) <;> exact h

/-! ## Paths -/

/-- What an event does to the path `p`. -/
def stepCP (p : Nat) (o : Option CPath) : Event → Option CPath
  | .sent (.pathStatus _ q seq) => if p = q then o.map fun x => { x with statusSent := seq } else o
  | .sent (.pathCidBlocked q _) => if p = q then o.map fun x => { x with cidBlockedSent := true } else o
  | .pathCreated q => if p = q then some {} else o
  | .pathDeleted q => if p = q then none else o
  | .pathDemoted q => if p = q then o.map fun x => { x with demoted := true } else o
  | _ => o

theorem paths_ack (e : Epoch) (s : State) (f : Frame) : (ackFrame e s f).paths = s.paths := by
  cases f with
  | maxData w =>
    simp only [ackFrame, ackMaxData]
    by_cases hw : w > s.maxdataLocalAcked
    · rw [if_pos hw]
    · rw [if_neg hw]
  | maxStreams b w => simp only [ackFrame, ackMaxStreams]; (repeat' split) <;> rfl
  | _ => rfl

theorem paths_step (s : State) (ev : Event) (p : Nat) (hx : ∀ e bs, ev ≠ .acked e bs) :
    (step s ev).paths p = stepCP p (s.paths p) ev := by
  cases ev with
  | acked e bs => exact absurd rfl (hx _ _)
  | sent f =>
    cases f with
    | maxStreams b _ => cases b <;> simp [step, sent, stepCP]
    | streamsBlocked b _ => cases b <;> simp [step, sent, stepCP]
    | _ => simp only [step, sent, stepCP, update]
  | maxData w =>
    simp only [step, stepCP]
    by_cases h : w > s.maxdataRemote
    · rw [if_pos h]
    · rw [if_neg h]
  | maxStreams b r =>
    cases b
    · simp only [step, stepCP, Bool.false_eq_true, if_false]
      by_cases h : streamIdFromRank r s.client false > s.maxUnidirRemote
      · rw [if_pos h]
      · rw [if_neg h]
    · simp only [step, stepCP, if_true]
      by_cases h : streamIdFromRank r s.client true > s.maxBidirRemote
      · rw [if_pos h]
      · rw [if_neg h]
  | maxPathId w =>
    simp only [step, stepCP]
    by_cases h : s.maxPathIdRemote < w
    · rw [if_pos h]
    · rw [if_neg h]
  | _ => simp only [step, stepCP, update]

/-- Invariants of a path. -/
theorem hist_path {P : Option CPath → Prop} (p : Nat) (hr : Regular es) (h0 : P (s.paths p))
    (hev : ∀ ev ∈ es, ∀ o, P o → P (stepCP p o ev)) : P ((run s es).paths p) := by
  refine hist_inv (P := fun s => P (s.paths p)) hr h0 (fun e f hf s h => ?_) fun ev hv hx s h => ?_
  · show P ((ackFrame e s f).paths p)
    rw [paths_ack]
    exact h
  · show P ((step s ev).paths p)
    rw [paths_step s ev p hx]
    exact hev ev hv _ h

theorem path_exists {p : Nat} (hr : Regular es) (h : Event.pathCreated p ∈ es) (hc : Event.pathDeleted p ∉ es) :
    ((run s es).paths p).isSome = true := by
  obtain ⟨a, b, rfl⟩ := List.append_of_mem h
  rw [run_append, run_cons]
  refine hist_path (P := fun o => o.isSome = true) p
    (regular_mono hr fun e he => List.mem_append.2 (.inr (List.mem_cons_of_mem _ he))) ?_ ?_
  · rw [paths_step _ _ _ (fun _ _ h => by cases h)]
    simp [stepCP]
  · intro ev hv o h
    cases ev with
    | pathDeleted i =>
      have : p ≠ i := by
        rintro rfl
        exact hc (List.mem_append.2 (.inr (List.mem_cons_of_mem _ hv)))
      simp only [stepCP, if_neg this]
      exact h
    | sent f => cases f <;> simp only [stepCP] <;> (repeat' split) <;> simp_all
    | _ => simp only [stepCP] <;> (repeat' split) <;> simp_all

theorem hist_pathStatus {p seq : Nat} {av : Bool} {a b : List Event} (hr : Regular es)
    (he : es = a ++ Event.sent (.pathStatus av p seq) :: b) (h0 : s.paths p = none)
    (h1 : Event.pathCreated p ∈ a) (h2 : Event.pathCreated p ∉ b) (h3 : Event.pathDeleted p ∉ es)
    (h4 : Event.pathDemoted p ∉ es) (h5 : ∀ v seq', Event.sent (.pathStatus v p seq') ∉ b) :
    ∃ x, (run s es).paths p = some x ∧ x.statusSent = seq ∧ x.demoted = false := by
  subst he
  have hra : Regular a := regular_mono hr fun e he => List.mem_append.2 (.inl he)
  have hrb : Regular b := regular_mono hr fun e he => List.mem_append.2 (.inr (List.mem_cons_of_mem _ he))
  obtain ⟨y, hy⟩ := Option.isSome_iff_exists.1
    (path_exists (s := s) hra h1 fun h => h3 (List.mem_append.2 (.inl h)))
  have hd : y.demoted = false := by
    have := hist_path (P := fun o => ∀ x : CPath, o = some x → x.demoted = false) (s := s) p hra
      (by rw [h0]; intro x h; cases h) ?_ y hy
    · exact this
    · intro ev hv o h
      cases ev with
      | pathDemoted q =>
        have : p ≠ q := by
          rintro rfl
          exact h4 (List.mem_append.2 (.inl hv))
        simp only [stepCP, if_neg this]
        exact h
      | pathCreated q =>
        simp only [stepCP]
        split
        · intro x hx; rw [← Option.some.inj hx]
        · exact h
      | pathDeleted q =>
        simp only [stepCP]
        split
        · intro x hx; cases hx
        · exact h
      | sent f =>
        cases f <;> simp only [stepCP] <;> first | exact h | skip
        all_goals
          split
          · intro x hx
            obtain ⟨z, hz, rfl⟩ := Option.map_eq_some_iff.1 hx
            exact h z hz
          · exact h
      | _ => exact h
  rw [run_append, run_cons]
  refine hist_path (P := fun o => ∃ x : CPath, o = some x ∧ x.statusSent = seq ∧ x.demoted = false) p hrb ?_ ?_
  · rw [paths_step _ _ _ (fun _ _ h => by cases h), hy]
    simp only [stepCP, if_true, Option.map_some]
    exact ⟨_, rfl, rfl, hd⟩
  · rintro ev hv o ⟨x, rfl, hx⟩
    cases ev with
    | pathDemoted q =>
      have : p ≠ q := by
        rintro rfl
        exact h4 (List.mem_append.2 (.inr (List.mem_cons_of_mem _ hv)))
      simp only [stepCP, if_neg this]
      exact ⟨x, rfl, hx⟩
    | pathDeleted q =>
      have : p ≠ q := by
        rintro rfl
        exact h3 (List.mem_append.2 (.inr (List.mem_cons_of_mem _ hv)))
      simp only [stepCP, if_neg this]
      exact ⟨x, rfl, hx⟩
    | pathCreated q =>
      have : p ≠ q := by
        rintro rfl
        exact h2 hv
      simp only [stepCP, if_neg this]
      exact ⟨x, rfl, hx⟩
    | sent f =>
      cases f with
      | pathStatus v q seq' =>
        have : p ≠ q := by
          rintro rfl
          exact h5 _ _ hv
        simp only [stepCP, if_neg this]
        exact ⟨x, rfl, hx⟩
      | pathCidBlocked q _ =>
        simp only [stepCP]
        split
        · exact ⟨_, rfl, hx⟩
        · exact ⟨_, rfl, hx⟩
      | _ => exact ⟨x, rfl, hx⟩
    | _ => exact ⟨x, rfl, hx⟩

theorem nextSequence_le {n : Nat} : ∀ (l : List (Nat × Bool)) (m : Nat), m ≤ n → (∀ x ∈ l, x.1 < n) →
    l.foldl (fun n x => if n ≤ x.1 then x.1 + 1 else n) m ≤ n := by
  intro l
  induction l with
  | nil => intro m hm _; exact hm
  | cons y l ih =>
    intro m hm h
    refine ih _ ?_ fun x hx => h x (List.mem_cons_of_mem _ hx)
    have := h y (List.mem_cons_self ..)
    dsimp only
    split <;> omega

theorem hist_pathCidBlocked {p seq : Nat} {a b : List Event} (hr : Regular es)
    (he : es = a ++ Event.sent (.pathCidBlocked p seq) :: b) (h0 : s.stash p = [])
    (h1 : Event.pathCreated p ∈ a) (h2 : Event.pathCreated p ∉ b) (h3 : Event.pathDeleted p ∉ es)
    (h4 : ∀ seq', Event.cidReceived p seq' ∈ es → seq' < seq) :
    (∃ x, (run s es).paths p = some x ∧ x.cidBlockedSent = true) ∧ nextSequence ((run s es).stash p) ≤ seq := by
  constructor
  · subst he
    have hra : Regular a := regular_mono hr fun e he => List.mem_append.2 (.inl he)
    have hrb : Regular b := regular_mono hr fun e he => List.mem_append.2 (.inr (List.mem_cons_of_mem _ he))
    obtain ⟨y, hy⟩ := Option.isSome_iff_exists.1
      (path_exists (s := s) hra h1 fun h => h3 (List.mem_append.2 (.inl h)))
    rw [run_append, run_cons]
    refine hist_path (P := fun o => ∃ x : CPath, o = some x ∧ x.cidBlockedSent = true) p hrb ?_ ?_
    · rw [paths_step _ _ _ (fun _ _ h => by cases h), hy]
      simp only [stepCP, if_true, Option.map_some]
      exact ⟨_, rfl, rfl⟩
    · rintro ev hv o ⟨x, rfl, hx⟩
      cases ev with
      | pathDemoted q => simp only [stepCP]; split <;> exact ⟨_, rfl, hx⟩
      | pathDeleted q =>
        have : p ≠ q := by
          rintro rfl
          exact h3 (List.mem_append.2 (.inr (List.mem_cons_of_mem _ hv)))
        simp only [stepCP, if_neg this]
        exact ⟨x, rfl, hx⟩
      | pathCreated q =>
        have : p ≠ q := by
          rintro rfl
          exact h2 hv
        simp only [stepCP, if_neg this]
        exact ⟨x, rfl, hx⟩
      | sent f =>
        cases f with
        | pathStatus v q seq' => simp only [stepCP]; split <;> exact ⟨_, rfl, hx⟩
        | pathCidBlocked q _ =>
          simp only [stepCP]
          split
          · exact ⟨_, rfl, rfl⟩
          · exact ⟨_, rfl, hx⟩
        | _ => exact ⟨x, rfl, hx⟩
      | _ => exact ⟨x, rfl, hx⟩
  · refine nextSequence_le _ 0 (Nat.zero_le _) ?_
    refine hist_inv (P := fun s => ∀ x ∈ s.stash p, x.1 < seq) hr (by rw [h0]; intro x h; cases h)
      (fun e f hf s h => ?_) fun ev hv hx s h => ?_
    · cases f with
      | retireConnectionId path m =>
        simp only [ackFrame, ackRetireCid]
        split
        · intro x hx
          have : x.1 ∈ (s.stash p).map (·.1) := by
            rw [← markCid_map m]
            exact List.mem_map.2 ⟨x, hx, rfl⟩
          obtain ⟨y, hy, he⟩ := List.mem_map.1 this
          rw [← he]
          exact h y hy
        · exact h
      | maxData w =>
        simp only [ackFrame, ackMaxData]
        by_cases hw : w > s.maxdataLocalAcked
        · rw [if_pos hw]; exact h
        · rw [if_neg hw]; exact h
      | maxStreams b w => simp only [ackFrame, ackMaxStreams]; (repeat' split) <;> exact h
      | _ => exact h
    · cases ev with
      | acked e bs => exact absurd rfl (hx _ _)
      | sent f => cases f <;> simp only [step, sent] <;> (repeat' split) <;> exact h
      | cidReceived q m =>
        simp only [step]
        split
        · rename_i hp
          subst hp
          intro x hx
          rcases List.mem_append.1 hx with hx | hx
          · exact h x hx
          · rw [List.mem_singleton.1 hx]; exact h4 m hv
        · exact h
      | cidRemoved q m =>
        simp only [step]
        split
        · intro x hx
          exact h x ((List.mem_filter.1 hx).1)
        · exact h
      | _ => simp only [step] <;> (repeat' split) <;> exact h

/-! ## Limits of the peer -/

theorem maxdataRemote_mono {v : Nat} (hr : Regular es) (h0 : v ≤ s.maxdataRemote) : v ≤ (run s es).maxdataRemote := by
  refine hist_inv (P := fun s => v ≤ s.maxdataRemote) hr h0 (fun e f hf s h => ?_) fun ev hv hx s h => ?_
  · cases f <;> simp only [ackFrame, ackMaxData, ackMaxStreams] <;> (repeat' split) <;> exact h
  · cases ev with
    | acked e bs => exact absurd rfl (hx _ _)
    | sent f => cases f <;> simp only [step, sent] <;> (repeat' split) <;> exact h
    | maxData w =>
      simp only [step]
      split
      · rename_i hw; exact Nat.le_trans h (Nat.le_of_lt hw)
      · exact h
    | _ => simp only [step] <;> (repeat' split) <;> exact h

theorem maxdataRemote_le {v : Nat} (hr : Regular es) (h0 : s.maxdataRemote ≤ v)
    (h1 : ∀ w, Event.maxData w ∈ es → w ≤ v) : (run s es).maxdataRemote ≤ v := by
  refine hist_inv (P := fun s => s.maxdataRemote ≤ v) hr h0 (fun e f hf s h => ?_) fun ev hv hx s h => ?_
  · cases f <;> simp only [ackFrame, ackMaxData, ackMaxStreams] <;> (repeat' split) <;> exact h
  · cases ev with
    | acked e bs => exact absurd rfl (hx _ _)
    | sent f => cases f <;> simp only [step, sent] <;> (repeat' split) <;> exact h
    | maxData w =>
      simp only [step]
      split
      · exact h1 w hv
      · exact h
    | _ => simp only [step] <;> (repeat' split) <;> exact h

theorem mem_peerData {init v : Nat} : v ∈ peerData init es ↔ v = init ∨ Event.maxData v ∈ es := by
  unfold peerData
  rw [List.mem_cons, List.mem_filterMap]
  constructor
  · rintro (h | ⟨ev, h, he⟩)
    · exact .inl h
    · cases ev <;> first | cases he; exact .inr h | cases he
  · rintro (h | h)
    · exact .inl h
    · exact .inr ⟨_, h, rfl⟩

theorem hist_dataBlocked {v : Nat} {a b : List Event} (hr : Regular es)
    (he : es = a ++ Event.sent (.dataBlocked v) :: b) (h1 : GreatestOf (peerData s.maxdataRemote a) v)
    (h2 : ∀ v', Event.maxData v' ∈ b → v' ≤ v) :
    (run s es).maxdataRemote = v ∧ (run s es).sentBlocked = true := by
  subst he
  have hra : Regular a := regular_mono hr fun e he => List.mem_append.2 (.inl he)
  have hrb : Regular b := regular_mono hr fun e he => List.mem_append.2 (.inr (List.mem_cons_of_mem _ he))
  have hle : (run s a).maxdataRemote ≤ v :=
    maxdataRemote_le hra (h1.2 _ (mem_peerData.2 (.inl rfl))) fun w hw => h1.2 w (mem_peerData.2 (.inr hw))
  have hge : v ≤ (run s a).maxdataRemote := by
    rcases mem_peerData.1 h1.1 with h | h
    · exact maxdataRemote_mono hra (Nat.le_of_eq h)
    · obtain ⟨c, d, rfl⟩ := List.append_of_mem h
      rw [run_append, run_cons]
      refine maxdataRemote_mono (regular_mono hra fun e he => List.mem_append.2 (.inr (List.mem_cons_of_mem _ he))) ?_
      simp only [step]
      split
      · exact Nat.le_refl _
      · omega
  rw [run_append, run_cons]
  refine hist_inv (P := fun s => s.maxdataRemote = v ∧ s.sentBlocked = true) hrb ⟨Nat.le_antisymm hle hge, rfl⟩
    (fun e f hf s h => ?_) fun ev hv hx s h => ?_
  · cases f <;> simp only [ackFrame, ackMaxData, ackMaxStreams] <;> (repeat' split) <;> exact h
  · cases ev with
    | acked e bs => exact absurd rfl (hx _ _)
    | sent f =>
      cases f <;> simp only [step, sent] <;> (repeat' split) <;> first | exact h | exact ⟨h.1, trivial⟩
    | maxData w =>
      have := h2 w hv
      simp only [step]
      rw [if_neg (by omega)]
      exact h
    | _ => simp only [step] <;> (repeat' split) <;> exact h

/-- The limit on the streams of a kind, and whether STREAMS_BLOCKED was sent since it changed. -/
def remote (s : State) (bidir : Bool) : Nat := if bidir then s.maxBidirRemote else s.maxUnidirRemote

def blocked (s : State) (bidir : Bool) : Bool := if bidir then s.bidirBlockedSent else s.unidirBlockedSent

theorem remote_ack (e : Epoch) (s : State) (f : Frame) (b : Bool) :
    remote (ackFrame e s f) b = remote s b ∧ blocked (ackFrame e s f) b = blocked s b ∧
      (ackFrame e s f).client = s.client := by
  cases f with
  | maxData w =>
    simp only [ackFrame, ackMaxData]
    by_cases hw : w > s.maxdataLocalAcked
    · rw [if_pos hw]; exact ⟨rfl, rfl, rfl⟩
    · rw [if_neg hw]; exact ⟨rfl, rfl, rfl⟩
  | maxStreams c w =>
    simp only [ackFrame, ackMaxStreams]
    cases c
    · simp only [Bool.false_eq_true, if_false]
      by_cases hw : w > s.unidirRankAcked
      · rw [if_pos hw]; exact ⟨rfl, rfl, rfl⟩
      · rw [if_neg hw]; exact ⟨rfl, rfl, rfl⟩
    · simp only [if_true]
      by_cases hw : w > s.bidirRankAcked
      · rw [if_pos hw]; exact ⟨rfl, rfl, rfl⟩
      · rw [if_neg hw]; exact ⟨rfl, rfl, rfl⟩
  | _ => exact ⟨rfl, rfl, rfl⟩

theorem remote_step (s : State) (ev : Event) (b : Bool) (hx : ∀ e bs, ev ≠ .acked e bs) :
    (step s ev).client = s.client ∧
    ((∃ r, ev = .maxStreams b r ∧ streamIdFromRank r s.client b > remote s b ∧
        remote (step s ev) b = streamIdFromRank r s.client b) ∨
      (remote (step s ev) b = remote s b ∧
        (∀ r, ev = .maxStreams b r → streamIdFromRank r s.client b ≤ remote s b) ∧
        (blocked s b = true ∨ (∃ r, ev = .sent (.streamsBlocked b r)) → blocked (step s ev) b = true))) := by
  cases ev with
  | acked e bs => exact absurd rfl (hx _ _)
  | sent f =>
    cases f with
    | maxStreams c r =>
      refine ⟨by cases c <;> rfl, .inr ⟨by cases c <;> rfl, fun r h => (by cases h), ?_⟩⟩
      rintro (h | ⟨r, h⟩)
      · cases c <;> exact h
      · cases h
    | streamsBlocked c r =>
      refine ⟨by cases c <;> rfl, .inr ⟨by cases c <;> rfl, fun r h => (by cases h), ?_⟩⟩
      rintro (h | ⟨r, h⟩)
      · cases c <;> cases b <;> first | exact h | rfl
      · cases h
        cases b <;> rfl
    | _ =>
      refine ⟨rfl, .inr ⟨rfl, fun r h => (by cases h), ?_⟩⟩
      rintro (h | ⟨r, h⟩)
      · exact h
      · cases h
  | maxData w =>
    simp only [step]
    by_cases hw : w > s.maxdataRemote
    · rw [if_pos hw]
      exact ⟨rfl, .inr ⟨rfl, fun r h => (by cases h), fun h => h.elim id fun ⟨_, h⟩ => by cases h⟩⟩
    · rw [if_neg hw]
      exact ⟨rfl, .inr ⟨rfl, fun r h => (by cases h), fun h => h.elim id fun ⟨_, h⟩ => by cases h⟩⟩
  | maxPathId w =>
    simp only [step]
    by_cases hw : s.maxPathIdRemote < w
    · rw [if_pos hw]
      exact ⟨rfl, .inr ⟨rfl, fun r h => (by cases h), fun h => h.elim id fun ⟨_, h⟩ => by cases h⟩⟩
    · rw [if_neg hw]
      exact ⟨rfl, .inr ⟨rfl, fun r h => (by cases h), fun h => h.elim id fun ⟨_, h⟩ => by cases h⟩⟩
  | maxStreams c r =>
    by_cases hc : c = b
    · subst hc
      by_cases hw : streamIdFromRank r s.client c > remote s c
      · refine ⟨?_, .inl ⟨r, rfl, hw, ?_⟩⟩
        · cases c
          · simp only [remote, Bool.false_eq_true, if_false] at hw
            simp only [step, Bool.false_eq_true, if_false, if_pos hw]
          · simp only [remote, if_true] at hw
            simp only [step, if_true, if_pos hw]
        · cases c
          · simp only [remote, Bool.false_eq_true, if_false] at hw
            simp only [step, remote, Bool.false_eq_true, if_false, if_pos hw]
          · simp only [remote, if_true] at hw
            simp only [step, remote, if_true, if_pos hw]
      · have hst : step s (.maxStreams c r) = s := by
          cases c
          · simp only [remote, Bool.false_eq_true, if_false] at hw
            simp only [step, Bool.false_eq_true, if_false, if_neg hw]
          · simp only [remote, if_true] at hw
            simp only [step, if_true, if_neg hw]
        rw [hst]
        refine ⟨rfl, .inr ⟨rfl, fun r' h => ?_, fun h => h.elim id fun ⟨_, h⟩ => by cases h⟩⟩
        cases h
        exact Nat.le_of_not_lt hw
    · have hst : (step s (.maxStreams c r)).client = s.client ∧ remote (step s (.maxStreams c r)) b = remote s b ∧
          blocked (step s (.maxStreams c r)) b = blocked s b := by
        cases c <;> cases b <;> first | exact absurd rfl hc | skip
        · simp only [step, Bool.false_eq_true, if_false]
          by_cases hw : streamIdFromRank r s.client false > s.maxUnidirRemote
          · rw [if_pos hw]; exact ⟨rfl, rfl, rfl⟩
          · rw [if_neg hw]; exact ⟨rfl, rfl, rfl⟩
        · simp only [step, if_true]
          by_cases hw : streamIdFromRank r s.client true > s.maxBidirRemote
          · rw [if_pos hw]; exact ⟨rfl, rfl, rfl⟩
          · rw [if_neg hw]; exact ⟨rfl, rfl, rfl⟩
      refine ⟨hst.1, .inr ⟨hst.2.1, fun r' h => ?_, fun h => ?_⟩⟩
      · cases h; exact absurd rfl hc
      · rw [hst.2.2]
        exact h.elim id fun ⟨_, h⟩ => by cases h
  | _ =>
    refine ⟨rfl, .inr ⟨rfl, fun r h => (by cases h), ?_⟩⟩
    rintro (h | ⟨r, h⟩)
    · exact h
    · cases h

theorem mem_peerStreams {init v : Nat} {b : Bool} :
    v ∈ peerStreams init b es ↔ v = init ∨ Event.maxStreams b v ∈ es := by
  unfold peerStreams
  rw [List.mem_cons, List.mem_filterMap]
  constructor
  · rintro (h | ⟨ev, h, he⟩)
    · exact .inl h
    · cases ev <;> first | cases he | skip
      dsimp only at he
      split at he
      · rename_i hb
        cases he
        subst hb
        exact .inr h
      · cases he
  · rintro (h | h)
    · exact .inl h
    · exact .inr ⟨_, h, if_pos rfl⟩

theorem hist_streamsBlocked {v init : Nat} {c : Bool} {a b : List Event} (hr : Regular es)
    (he : es = a ++ Event.sent (.streamsBlocked c v) :: b) (h0 : remote s c = streamIdFromRank init s.client c)
    (h1 : GreatestOf (peerStreams init c a) v) (h2 : ∀ v', Event.maxStreams c v' ∈ b → v' ≤ v)
    (h3 : ∀ v' ∈ peerStreams init c es, 0 < v' ∧ v' ≤ 2 ^ 60) :
    (run s es).client = s.client ∧ remote (run s es) c = streamIdFromRank v s.client c ∧
      blocked (run s es) c = true := by
  subst he
  have hra : Regular a := regular_mono hr fun e he => List.mem_append.2 (.inl he)
  have hrb : Regular b := regular_mono hr fun e he => List.mem_append.2 (.inr (List.mem_cons_of_mem _ he))
  have hin : ∀ w ∈ peerStreams init c a, 0 < w ∧ w ≤ 2 ^ 60 := by
    intro w hw
    refine h3 w (mem_peerStreams.2 ?_)
    rcases mem_peerStreams.1 hw with h | h
    · exact .inl h
    · exact .inr (List.mem_append.2 (.inl h))
  have hv0 := hin v h1.1
  have mono : ∀ (es : List Event) (s : State) (n : Nat), Regular es → n ≤ remote s c → n ≤ remote (run s es) c := by
    intro es s n hr h0
    refine hist_inv (P := fun s => n ≤ remote s c) hr h0 (fun e f hf s h => ?_) fun ev hv hx s h => ?_
    · rw [(remote_ack e s f c).1]; exact h
    · rcases (remote_step s ev c hx).2 with ⟨r, -, h1, h2⟩ | ⟨h1, -⟩
      · rw [h2]; exact Nat.le_trans h (Nat.le_of_lt h1)
      · rw [h1]; exact h
  have hcl : ∀ (es : List Event) (s : State), Regular es → (run s es).client = s.client := fun es s hr => hist_client hr
  have hle : remote (run s a) c ≤ streamIdFromRank v s.client c := by
    have := hist_inv (P := fun x => x.client = s.client ∧ remote x c ≤ streamIdFromRank v s.client c) (s := s)
      (es := a) hra ⟨rfl, ?_⟩ (fun e f hf s h => ?_) fun ev hv hx s h => ?_
    · exact this.2
    · rw [h0]
      have hi := mem_peerStreams (init := init) (v := init) (b := c) (es := a) |>.2 (.inl rfl)
      exact rank_le (hin init hi).1 (h1.2 _ hi) hv0.2
    · have := remote_ack e s f c
      rw [this.1, this.2.2]; exact h
    · have h' := remote_step s ev c hx
      refine ⟨h'.1.trans h.1, ?_⟩
      rcases h'.2 with ⟨r, he, h4, h5⟩ | ⟨h4, -⟩
      · rw [h5, h.1]
        subst he
        have hi := mem_peerStreams (init := init) (v := r) (b := c) (es := a) |>.2 (.inr hv)
        exact rank_le (hin r hi).1 (h1.2 _ hi) hv0.2
      · rw [h4]; exact h.2
  have hge : streamIdFromRank v s.client c ≤ remote (run s a) c := by
    rcases mem_peerStreams.1 h1.1 with h | h
    · refine mono a s _ hra ?_
      rw [h0, h]; exact Nat.le_refl _
    · obtain ⟨d, f, rfl⟩ := List.append_of_mem h
      rw [run_append, run_cons]
      have hrd : Regular d := regular_mono hra fun e he => List.mem_append.2 (.inl he)
      refine mono f _ _ (regular_mono hra fun e he => List.mem_append.2 (.inr (List.mem_cons_of_mem _ he))) ?_
      have hcd := hcl d s hrd
      rcases (remote_step (run s d) (.maxStreams c v) c (fun _ _ h => by cases h)).2 with
        ⟨r, he, h4, h5⟩ | ⟨h4, h5, -⟩
      · cases he
        rw [h5, hcd]; exact Nat.le_refl _
      · rw [h4, ← hcd]
        exact h5 v rfl
  rw [run_append, run_cons]
  have hst := remote_step (run s a) (.sent (.streamsBlocked c v)) c (fun _ _ h => by cases h)
  refine hist_inv (P := fun x => x.client = s.client ∧ remote x c = streamIdFromRank v s.client c ∧ blocked x c = true)
    hrb ⟨hst.1.trans (hcl a s hra), ?_⟩ (fun e f hf s h => ?_) fun ev hv hx x h => ?_
  · rcases hst.2 with ⟨r, he, -⟩ | ⟨h4, -, h5⟩
    · cases he
    · exact ⟨h4.trans (Nat.le_antisymm hle hge), h5 (.inr ⟨v, rfl⟩)⟩
  · have := remote_ack e s f c
    rw [this.1, this.2.1, this.2.2]; exact h
  · have h' := remote_step x ev c hx
    refine ⟨h'.1.trans h.1, ?_⟩
    rcases h'.2 with ⟨r, he, h4, h5⟩ | ⟨h4, -, h5⟩
    · subst he
      exfalso
      rw [h.1, h.2.1] at h4
      have hr0 := (h3 r (mem_peerStreams.2 (.inr (List.mem_append.2 (.inr (List.mem_cons_of_mem _ hv)))))).1
      have := rank_le (c := s.client) (b := c) hr0 (h2 r hv) hv0.2
      omega
    · exact ⟨h4.trans h.2.1, h5 (.inl h.2.2)⟩

/-! ## CRYPTO -/

theorem payload_mem {bs : Bytes} {fs : List Frame} (h : IsPayload bs fs) {f : Frame} (hf : f ∈ fs) :
    ∃ b r, StartsWith b f r := by
  induction h with
  | nil => cases hf
  | @cons bs rest g fs hst _ ih =>
    rcases List.mem_cons.1 hf with h | h
    · subst h; exact ⟨_, _, hst⟩
    · exact ih h

theorem decode_lt {bs r : Bytes} {n : Nat} (h : framesVarintDecode bs = some (n, r)) : n < 2 ^ 62 := by
  obtain ⟨k, p, -, hk, _, hn, _⟩ := (framesVarintDecode_iff bs n r).1 h
  refine Nat.lt_of_lt_of_le hn (Nat.pow_le_pow_right (by decide) ?_)
  have : 2 ^ k ≤ 2 ^ 3 := Nat.pow_le_pow_right (by decide) (by omega)
  omega

theorem crypto_bound {b r : Bytes} {o : Nat} {d : Bytes} (h : StartsWith b (.crypto o d) r) :
    o < 2 ^ 62 ∧ d.length < 2 ^ 62 := by
  cases b with
  | nil => exact absurd h not_startsWith_nil
  | cons b t =>
    obtain ⟨_, h2, _⟩ := (startsWith_raw rfl (fun _ => Iff.rfl)).1 h
    obtain ⟨r1, h3, h4⟩ := (at_int _ _ _ _).1 h2
    obtain ⟨r2, h5, h6⟩ := (at_int _ _ _ _).1 h4
    exact ⟨decode_lt h3, decode_lt h5⟩

theorem hist_crypto {e : Epoch} {i : Nat} (hr : Regular es)
    (h0 : Sep (s.crypto e).items ∧ (s.crypto e).horizonDelay = 0 ∧ ¬ Cov (s.crypto e).items i)
    (hn : ¬ CryptoAcked es e i) :
    Sep ((run s es).crypto e).items ∧ ((run s es).crypto e).horizonDelay = 0 ∧
      ¬ Cov ((run s es).crypto e).items i := by
  refine hist_inv (P := fun s => Sep (s.crypto e).items ∧ (s.crypto e).horizonDelay = 0 ∧ ¬ Cov (s.crypto e).items i)
    hr h0 (fun e' f hf s h => ?_) fun ev hv hx s h => ?_
  · cases f with
    | crypto o d =>
      obtain ⟨bs, fs, h1, h2, h3, -, h4, -⟩ := hf
      by_cases he : e = e'
      · subst he
        obtain ⟨b, r, hst⟩ := payload_mem h2 h3
        have hb := crypto_bound hst
        have hd : 0 < d.length := by
          cases d with
          | nil => exact absurd rfl h4
          | cons x d => exact Nat.succ_pos _
        have hend : endOf o d.length false = o + d.length - 1 := by
          unfold endOf
          simp only [Bool.false_eq_true, if_false]
          omega
        have hi : ¬ (o ≤ i ∧ i < o + d.length) := fun hi => hn ⟨bs, fs, o, d, h1, h2, h3, hi⟩
        have hup : updateSackList (s.crypto e) o (o + d.length - 1) 0 =
            updateCore (s.crypto e) o (o + d.length - 1) 0 := by
          unfold updateSackList
          dsimp only
          rw [if_neg (by rw [h.2.1]; decide)]
        have hc := updateCore_spec (s.crypto e) o (o + d.length - 1) 0 h.1 (by omega)
        simp only [ackFrame, ackCrypto, if_true, hend, hup]
        refine ⟨hc.1, hc.2.2.2.2.1.trans h.2.1, fun hcov => ?_⟩
        rcases (hc.2.1 i).1 hcov with hcov | hcov
        · exact h.2.2 hcov
        · exact hi (by omega)
      · simp only [ackFrame, ackCrypto, if_neg he]
        exact h
    | maxData w =>
      simp only [ackFrame, ackMaxData]
      by_cases hw : w > s.maxdataLocalAcked
      · rw [if_pos hw]; exact h
      · rw [if_neg hw]; exact h
    | maxStreams b w =>
      simp only [ackFrame, ackMaxStreams]
      cases b
      · simp only [Bool.false_eq_true, if_false]
        by_cases hw : w > s.unidirRankAcked
        · rw [if_pos hw]; exact h
        · rw [if_neg hw]; exact h
      · simp only [if_true]
        by_cases hw : w > s.bidirRankAcked
        · rw [if_pos hw]; exact h
        · rw [if_neg hw]; exact h
    | _ => exact h
  · have hcr : (step s ev).crypto = s.crypto := by
      cases ev with
      | acked e bs => exact absurd rfl (hx _ _)
      | sent f => cases f <;> simp only [step, sent] <;> (repeat' split) <;> rfl
      | _ => simp only [step] <;> (repeat' split) <;> rfl
    rw [hcr]
    exact h

theorem crypto_needed {l : SackList} {o n i : Nat} (h : Sep l.items) (hi : ¬ Cov l.items i) (h1 : o ≤ i)
    (h2 : i < o + n) (h3 : o < 2 ^ 62) (h4 : n < 2 ^ 62) : checkSackList l o (endOf o n false) = false := by
  have hend : endOf o n false = o + n - 1 := by
    unfold endOf
    simp only [Bool.false_eq_true, if_false]
    omega
  rw [hend]
  cases hc : checkSackList l o (o + n - 1) with
  | false => rfl
  | true => exact absurd ((checkSackList_cov l h o (o + n - 1) (by omega)).1 hc i h1 (by omega)) hi

end

/-! ## All the kinds -/

theorem needed_frame {c : Bool} {l : Limits} {es : List Event} {e : Epoch} {f : Frame} (hr : Regular es)
    (hf : ∃ b r, StartsWith b f r) (h : StillNeeded l es e f) : frameNoNeed (run (start c l) es) e f = false := by
  cases f with
  | ping _ => rfl
  | connectionClose _ _ _ => rfl
  | applicationClose _ _ => rfl
  | immediateAck => rfl
  | pathAbandon _ _ => rfl
  | bdp _ _ _ _ => rfl
  | observedAddress _ _ _ _ => rfl
  | handshakeDone => exact hist_handshakeDone hr rfl h
  | newToken _ => exact hist_newToken hr rfl h
  | crypto o d =>
    obtain ⟨i, h1, h2, h3⟩ := h
    obtain ⟨b, r, hst⟩ := hf
    have hb := crypto_bound hst
    have hc := hist_crypto (s := start c l) hr
      ⟨⟨List.Pairwise.nil, fun i h => by cases h⟩, rfl, fun ⟨i, h, _⟩ => by cases h⟩ h3
    exact crypto_needed hc.1 hc.2.2 h1 h2 hb.1 hb.2
  | maxData v =>
    obtain ⟨h1, h2, h3⟩ := h
    have := hist_maxData (s := start c l) hr ⟨Nat.le_of_lt h1, Nat.lt_of_le_of_lt (Nat.zero_le _) h1⟩ h2 h3
    simp only [frameNoNeed, Bool.or_eq_false_iff, decide_eq_false_iff_not]
    omega
  | maxStreams b v =>
    obtain ⟨h0, h1, h2, h3, h4⟩ := h
    have := hist_maxStreams (s := start c l) b hr h2 ?_ h3 h4
    · cases b
      · simp only [Bool.false_eq_true, if_false] at this
        simp only [frameNoNeed, Bool.false_eq_true, if_false, Bool.or_eq_false_iff, decide_eq_false_iff_not]
        exact ⟨Nat.not_le_of_lt this.2, Nat.not_lt_of_le this.1⟩
      · simp only [if_true] at this
        simp only [frameNoNeed, if_true, Bool.or_eq_false_iff, decide_eq_false_iff_not]
        exact ⟨Nat.not_le_of_lt this.2, Nat.not_lt_of_le this.1⟩
    · cases b
      · simp only [Bool.false_eq_true, if_false] at h0 h1 ⊢
        exact ⟨rank_le h0 (Nat.le_of_lt h1) h2, Nat.lt_of_le_of_lt (Nat.zero_le _) h1⟩
      · simp only [if_true] at h0 h1 ⊢
        exact ⟨rank_le h0 (Nat.le_of_lt h1) h2, Nat.lt_of_le_of_lt (Nat.zero_le _) h1⟩
  | maxStreamData id v =>
    obtain ⟨h1, h2, h3, h4, h5, h6, h7⟩ := h
    obtain ⟨x, hx, q1, q2, q3, q4, q5⟩ := hist_maxStreamData (s := start c l) hr rfl h1 h2 h3 h4 h5 h6 h7
    simp only [frameNoNeed, hx, q1, q2, q3, Bool.false_or, Bool.or_eq_false_iff, decide_eq_false_iff_not]
    omega
  | stopSending id _ =>
    obtain ⟨h1, h2, h3⟩ := h
    obtain ⟨x, hx, q1, q2⟩ := hist_stopSending (s := start c l) hr rfl h1 h2 h3
    simp only [frameNoNeed, hx, q1, q2, Bool.false_or]
  | newConnectionId path seq _ _ _ =>
    obtain ⟨h1, h2, h3⟩ := h
    have := hist_newCid (s := start c l) hr rfl h1 h2 h3
    simp only [pathOf] at this
    simp only [frameNoNeed, this, Option.getD_some]
  | retireConnectionId path seq =>
    obtain ⟨h1, h2, h3⟩ := h
    have := hist_retireCid (s := start c l) hr rfl h1 h2 h3
    simp only [pathOf] at this
    simp only [frameNoNeed, this, Option.getD_some]
  | pathStatus av path seq =>
    obtain ⟨a, b, h0, h1, h2, h3, h4, h5⟩ := h
    obtain ⟨x, hx, q1, q2⟩ := hist_pathStatus (s := start c l) hr h0 rfl h1 h2 h3 h4 h5
    simp [frameNoNeed, hx, q1, q2]
  | streamDataBlocked id v =>
    obtain ⟨a, b, h0, h1, h2, h3, h4, h5, h6, h7, h8⟩ := h
    obtain ⟨x, hx, q1, q2, q3, q4, q5, q6⟩ :=
      hist_streamDataBlocked (s := start c l) hr h0 rfl h1 h2 h3 h4 h5 h6 h7 h8
    simp only [frameNoNeed, hx, q1, q2, q3, q4, q6, Bool.false_or, Bool.not_true, Bool.or_false,
      decide_eq_false_iff_not]
    omega
  | dataBlocked v =>
    obtain ⟨a, b, h0, h1, h2⟩ := h
    obtain ⟨q1, q2⟩ := hist_dataBlocked (s := start c l) hr h0 h1 h2
    simp only [frameNoNeed, q1, q2]
    rw [if_neg (Nat.lt_irrefl _)]
    rfl
  | streamsBlocked b v =>
    obtain ⟨a, a', h0, h1, h2, h3⟩ := h
    have := hist_streamsBlocked (s := start c l) hr h0 (by cases b <;> rfl) h1 h2 h3
    obtain ⟨q1, q2, q3⟩ := this
    cases b
    · simp only [remote, blocked, Bool.false_eq_true, if_false] at q2 q3
      simp only [frameNoNeed, Bool.false_eq_true, if_false, q1, q2, q3]
      rw [if_neg (Nat.lt_irrefl _)]
      rfl
    · simp only [remote, blocked, if_true] at q2 q3
      simp only [frameNoNeed, if_true, q1, q2, q3]
      rw [if_neg (Nat.lt_irrefl _)]
      rfl
  | pathCidBlocked path seq =>
    obtain ⟨a, b, h0, h1, h2, h3, h4⟩ := h
    obtain ⟨⟨x, hx, q1⟩, q2⟩ := hist_pathCidBlocked (s := start c l) hr h0 rfl h1 h2 h3 h4
    simp only [frameNoNeed, hx, q1, Bool.not_true, Bool.false_or, decide_eq_false_iff_not]
    omega
  | _ => exact absurd h id

end Picoquic.Lost
