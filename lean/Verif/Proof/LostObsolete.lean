import Verif.Proof.LostHistory
/-!
# Obsolete frames, and the effect of acknowledgements on lost frames
-/

namespace Picoquic.Lost
open Picoquic Picoquic.Sack Picoquic.StreamFrame Picoquic.Spec Picoquic.Frames Picoquic.Repeat

attribute [local irreducible] streamIdFromRank endOf updateSackList checkSackList

/-- What holds after the acknowledgement of a frame, and is preserved. -/
theorem after_ack {P : State → Prop} {s : State} {es : List Event} {f : Frame} (hr : Regular es) (hf : AckedIn es f)
    (h0 : ∀ e s, P (ackFrame e s f)) (hack : ∀ e g s, P s → P (ackFrame e s g))
    (hev : ∀ ev, (∀ e bs, ev ≠ .acked e bs) → ∀ s, P s → P (step s ev)) : P (run s es) := by
  obtain ⟨e, bs, fs, h1, h2, h3⟩ := hf
  obtain ⟨a, b, rfl⟩ := List.append_of_mem h1
  rw [run_append, run_cons]
  refine hist_inv (regular_mono hr fun e he => List.mem_append.2 (.inr (List.mem_cons_of_mem _ he))) ?_
    (fun e g _ s h => hack e g s h) fun ev _ hx s h => hev ev hx s h
  obtain ⟨-, gs, h4, h5⟩ := hr e bs h1
  have : fs = gs := Repeat.payload_unique h2 h4
  subst this
  show P (acked (run s a) e bs)
  rw [acked_eq _ e h2 fun f hf => readable_of (h5 f hf).1]
  obtain ⟨c, d, rfl⟩ := List.append_of_mem h3
  rw [List.foldl_append, List.foldl_cons]
  exact foldl_inv e (h0 e _) fun g _ s h => hack e g s h

theorem obsolete_frame {c : Bool} {l : Limits} {es : List Event} {f : Frame} (hr : Regular es) (h : Obsolete es f)
    (e : Epoch) : frameNoNeed (run (start c l) es) e f = true := by
  revert h
  have stream : ∀ id : Nat, (∃ before after, es = before ++ Event.closed id :: after ∧
      ∀ l r, Event.opened id l r ∉ after) → (run (start c l) es).streams id = none := by
    rintro id ⟨a, b, rfl, h⟩
    rw [run_append, run_cons]
    refine hist_stream (P := fun o => o = none) id
      (regular_mono hr fun e he => List.mem_append.2 (.inr (List.mem_cons_of_mem _ he))) ?_ ?_ ?_
    · rw [streams_step _ _ _ (fun _ _ h => by cases h)]
      simp [stepCS]
    · rintro f _ o rfl; rfl
    · rintro ev hv o rfl
      cases ev with
      | opened i l r =>
        have : id ≠ i := by rintro rfl; exact h l r hv
        simp only [stepCS, if_neg this]
      | sent f => cases f <;> simp [stepCS]
      | _ => simp [stepCS]
  have path : ∀ p : Nat, (∃ before after, es = before ++ Event.pathDeleted p :: after ∧
      Event.pathCreated p ∉ after) → (run (start c l) es).paths p = none := by
    rintro p ⟨a, b, rfl, h⟩
    rw [run_append, run_cons]
    refine hist_path (P := fun o => o = none) p
      (regular_mono hr fun e he => List.mem_append.2 (.inr (List.mem_cons_of_mem _ he))) ?_ ?_
    · rw [paths_step _ _ _ (fun _ _ h => by cases h)]
      simp [stepCP]
    · rintro ev hv o rfl
      cases ev with
      | pathCreated i =>
        have : p ≠ i := by rintro rfl; exact h hv
        simp only [stepCP, if_neg this]
      | sent f => cases f <;> simp [stepCP]
      | _ => simp [stepCP]
  intro h
  cases f with
  | handshakeDone =>
    refine after_ack (P := fun s => s.handshakeDoneAcked = true) hr h (fun _ _ => rfl) (fun e g s h => ?_)
      fun ev hx s h => ?_
    · cases g <;> simp only [ackFrame, ackMaxData, ackMaxStreams] <;> (repeat' split) <;> first | exact h | rfl
    · cases ev <;> simp only [step] <;> (repeat' split) <;> first | exact h | exact absurd rfl (hx _ _) | skip
      rename_i f
      cases f <;> simp only [sent] <;> (repeat' split) <;> exact h
  | newToken t =>
    obtain ⟨t, h⟩ := h
    refine after_ack (P := fun s => s.newTokenAcked = true) hr h (fun _ _ => rfl) (fun e g s h => ?_)
      fun ev hx s h => ?_
    · cases g <;> simp only [ackFrame, ackMaxData, ackMaxStreams] <;> (repeat' split) <;> first | exact h | rfl
    · cases ev <;> simp only [step] <;> (repeat' split) <;> first | exact h | exact absurd rfl (hx _ _) | skip
      rename_i f
      cases f <;> simp only [sent] <;> (repeat' split) <;> exact h
  | maxData v =>
    obtain ⟨v', hle, h⟩ := h
    have : v ≤ (run (start c l) es).maxdataLocalAcked := by
      refine after_ack (P := fun s => v ≤ s.maxdataLocalAcked) hr h (fun _ s => ?_) (fun e g s h => ?_)
        fun ev hx s h => ?_
      · simp only [ackFrame, ackMaxData]
        split
        · exact hle
        · omega
      · cases g with
        | maxData w =>
          simp only [ackFrame, ackMaxData]
          split
          · dsimp only; omega
          · exact h
        | maxStreams b w => simp only [ackFrame, ackMaxStreams]; (repeat' split) <;> exact h
        | _ => exact h
      · cases ev <;> simp only [step] <;> (repeat' split) <;> first | exact h | exact absurd rfl (hx _ _) | skip
        rename_i f
        cases f <;> simp only [sent] <;> (repeat' split) <;> exact h
    simp only [frameNoNeed, Bool.or_eq_true, decide_eq_true_eq]
    exact .inr this
  | maxStreams b v =>
    obtain ⟨v', hle, h⟩ := h
    have : v ≤ (if b then (run (start c l) es).bidirRankAcked else (run (start c l) es).unidirRankAcked) := by
      refine after_ack (P := fun s => v ≤ (if b then s.bidirRankAcked else s.unidirRankAcked)) hr h (fun _ s => ?_)
        (fun e g s h => ?_) fun ev hx s h => ?_
      · cases b
        · simp only [ackFrame, ackMaxStreams, Bool.false_eq_true, if_false]
          split
          · exact hle
          · omega
        · simp only [ackFrame, ackMaxStreams, if_true]
          split
          · exact hle
          · omega
      · cases g with
        | maxData w =>
          simp only [ackFrame, ackMaxData]
          by_cases hw : w > s.maxdataLocalAcked
          · rw [if_pos hw]; exact h
          · rw [if_neg hw]; exact h
        | maxStreams b' w =>
          cases b' <;> cases b <;> simp only [ackFrame, ackMaxStreams, if_true, Bool.false_eq_true, if_false] at h ⊢ <;>
            split <;> first | exact h | (dsimp only; omega)
        | _ => exact h
      · cases ev with
        | acked _ _ => exact absurd rfl (hx _ _)
        | sent f =>
          cases f with
          | maxStreams b' _ => cases b' <;> exact h
          | streamsBlocked b' _ => cases b' <;> exact h
          | _ => exact h
        | maxData w =>
          simp only [step]
          by_cases hw : w > s.maxdataRemote
          · rw [if_pos hw]; exact h
          · rw [if_neg hw]; exact h
        | maxPathId w =>
          simp only [step]
          by_cases hw : s.maxPathIdRemote < w
          · rw [if_pos hw]; exact h
          · rw [if_neg hw]; exact h
        | maxStreams b' r =>
          cases b'
          · simp only [step, Bool.false_eq_true, if_false]
            by_cases hw : streamIdFromRank r s.client false > s.maxUnidirRemote
            · rw [if_pos hw]; exact h
            · rw [if_neg hw]; exact h
          · simp only [step, if_true]
            by_cases hw : streamIdFromRank r s.client true > s.maxBidirRemote
            · rw [if_pos hw]; exact h
            · rw [if_neg hw]; exact h
        | _ => exact h
    cases b
    · simp only [Bool.false_eq_true, if_false] at this
      simp only [frameNoNeed, Bool.false_eq_true, if_false, Bool.or_eq_true, decide_eq_true_eq]
      exact .inl this
    · simp only [if_true] at this
      simp only [frameNoNeed, if_true, Bool.or_eq_true, decide_eq_true_eq]
      exact .inl this
  | maxStreamData id v => simp only [frameNoNeed, stream id h]
  | stopSending id v => simp only [frameNoNeed, stream id h]
  | streamDataBlocked id v => simp only [frameNoNeed, stream id h]
  | stream id _ _ _ _ => simp only [frameNoNeed, stream id h]
  | pathStatus _ p _ => simp only [frameNoNeed, path p h]
  | pathCidBlocked p _ => simp only [frameNoNeed, path p h]
  | _ => exact absurd h id

theorem lost_none {s : State} {e : Epoch} {payload : Bytes} {f : Frame} (hp : IsPayload payload [f])
    (h : frameNoNeed s e f = true) : lost s e payload = ⟨[], false, true⟩ := by
  obtain ⟨cut, h1, h2⟩ := cut_of_payload hp
  rw [lost_eq _ e h1]
  have hsame : ∀ x ∈ cut, frameNoNeed s e x.2 = true := by
    intro x hx
    have : x.2 ∈ cut.map (·.2) := List.mem_map.2 ⟨x, hx, rfl⟩
    rw [h2] at this
    rw [List.mem_singleton.1 this]
    exact h
  have e1 : (cut.filter fun x => !frameNoNeed s e x.2 && !isStream x.2) = [] :=
    List.filter_eq_nil_iff.2 fun x hx => by rw [hsame x hx]; simp
  have e2 : (cut.any fun x => !frameNoNeed s e x.2 && isStream x.2) = false :=
    List.any_eq_false.2 fun x hx => by rw [hsame x hx]; simp
  rw [e1, e2]
  rfl

theorem any_congr {α : Type} {l : List α} {p q : α → Bool} (h : ∀ x ∈ l, p x = q x) : l.any p = l.any q := by
  induction l with
  | nil => rfl
  | cons a l ih =>
    rw [List.any_cons, List.any_cons, h a (List.mem_cons_self ..), ih fun x hx => h x (List.mem_cons_of_mem _ hx)]

/-! ## The values never repeated -/

theorem no_stream {c : Bool} {l : Limits} {es : List Event} (hr : Regular es) {id : Nat}
    (h : ∀ l r, Event.opened id l r ∉ es) : (run (start c l) es).streams id = none := by
  refine hist_stream (P := fun o => o = none) id hr rfl ?_ ?_
  · rintro f _ o rfl; rfl
  · rintro ev hv o rfl
    cases ev with
    | opened i l r =>
      have : id ≠ i := by rintro rfl; exact h l r hv
      simp only [stepCS, if_neg this]
    | sent f => cases f <;> simp [stepCS]
    | _ => simp [stepCS]

theorem last_maxPathId {s : State} {es a b : List Event} {v : Nat} (hr : Regular es)
    (he : es = a ++ Event.sent (.maxPathId v) :: b) (h : ∀ w, Event.sent (.maxPathId w) ∉ b) :
    (run s es).maxPathIdLocal = v := by
  subst he
  rw [run_append, run_cons]
  refine hist_inv (P := fun s => s.maxPathIdLocal = v)
    (regular_mono hr fun e he => List.mem_append.2 (.inr (List.mem_cons_of_mem _ he))) rfl (fun e f _ s h => ?_)
    fun ev hv hx s h' => ?_
  · cases f <;> simp only [ackFrame, ackMaxData, ackMaxStreams] <;> (repeat' split) <;> exact h
  · cases ev with
    | acked e bs => exact absurd rfl (hx _ _)
    | sent f =>
      cases f with
      | maxPathId w => exact absurd hv (h w)
      | _ => simp only [step, sent] <;> (repeat' split) <;> exact h'
    | _ => simp only [step] <;> (repeat' split) <;> exact h'

theorem last_ackFrequency {s : State} {es a b : List Event} {seq x y z : Nat} (hr : Regular es)
    (he : es = a ++ Event.sent (.ackFrequency seq x y z) :: b)
    (h : ∀ m x y z, Event.sent (.ackFrequency m x y z) ∉ b) :
    (run s es).ackFrequencySequence = seq := by
  subst he
  rw [run_append, run_cons]
  refine hist_inv (P := fun s => s.ackFrequencySequence = seq)
    (regular_mono hr fun e he => List.mem_append.2 (.inr (List.mem_cons_of_mem _ he))) rfl (fun e f _ s h => ?_)
    fun ev hv hx s h' => ?_
  · cases f <;> simp only [ackFrame, ackMaxData, ackMaxStreams] <;> (repeat' split) <;> exact h
  · cases ev with
    | acked e bs => exact absurd rfl (hx _ _)
    | sent f =>
      cases f with
      | ackFrequency m x y z => exact absurd hv (h m x y z)
      | _ => simp only [step, sent] <;> (repeat' split) <;> exact h'
    | _ => simp only [step] <;> (repeat' split) <;> exact h'

theorem maxPathIdRemote_ge {s : State} {es : List Event} {v : Nat} (hr : Regular es)
    (h : v ∈ peerPathIds s.maxPathIdRemote es) : v ≤ (run s es).maxPathIdRemote := by
  have mono : ∀ (es : List Event) (s : State), Regular es → v ≤ s.maxPathIdRemote →
      v ≤ (run s es).maxPathIdRemote := by
    intro es s hr h0
    refine hist_inv (P := fun s => v ≤ s.maxPathIdRemote) hr h0 (fun e f _ s h => ?_) fun ev hv hx s h => ?_
    · cases f <;> simp only [ackFrame, ackMaxData, ackMaxStreams] <;> (repeat' split) <;> exact h
    · cases ev with
      | acked e bs => exact absurd rfl (hx _ _)
      | sent f => cases f <;> simp only [step, sent] <;> (repeat' split) <;> exact h
      | maxPathId w =>
        simp only [step]
        split
        · dsimp only; omega
        · exact h
      | _ => simp only [step] <;> (repeat' split) <;> exact h
  unfold peerPathIds at h
  rcases List.mem_cons.1 h with h | h
  · exact mono es s hr (Nat.le_of_eq h)
  · obtain ⟨ev, h1, h2⟩ := List.mem_filterMap.1 h
    cases ev <;> first | cases h2 | skip
    obtain ⟨a, b, rfl⟩ := List.append_of_mem h1
    rw [run_append, run_cons]
    refine mono b _ (regular_mono hr fun e he => List.mem_append.2 (.inr (List.mem_cons_of_mem _ he))) ?_
    simp only [step]
    split
    · exact Nat.le_refl _
    · omega

/-! ## Unrelated acknowledgements -/

theorem findCid_mark {n m : Nat} (h : ¬ n = m) (l : List (Nat × Bool)) : findCid (markCid n l) m = findCid l m := by
  unfold findCid
  congr 1
  induction l with
  | nil => rfl
  | cons x l ih =>
    unfold markCid
    by_cases hx : x.1 = n
    · rw [if_pos hx, List.find?_cons, List.find?_cons]
      simp [hx, h]
    · rw [if_neg hx, List.find?_cons, List.find?_cons, ih]

theorem nextSequence_map (l : List (Nat × Bool)) : ∀ n : Nat,
    l.foldl (fun n x => if n ≤ x.1 then x.1 + 1 else n) n =
      (l.map (·.1)).foldl (fun n x => if n ≤ x then x + 1 else n) n := by
  induction l with
  | nil => intro n; rfl
  | cons x l ih => intro n; exact ih _

theorem nextSequence_mark (n : Nat) (l : List (Nat × Bool)) : nextSequence (markCid n l) = nextSequence l := by
  unfold nextSequence
  rw [nextSequence_map, nextSequence_map, markCid_map]

theorem unrelated (e e' : Epoch) (s : State) (f g : Frame) (h : ¬ SameSubject f g) :
    frameNoNeed (ackFrame e s f) e' g = frameNoNeed s e' g := by
  cases f with
  | resetStream i _ _ =>
    cases g <;> first | rfl | exact absurd trivial h | skip
    all_goals
      simp only [frameNoNeed, streams_ack]
      cases s.streams _ with
      | none => rfl
      | some x => simp only [Option.map_some, ackCS]; split <;> rfl
  | stream i _ _ _ _ =>
    cases g <;> first | rfl | skip
    case stream id o fin d x =>
      have hi : ¬ id = i := fun hi => h hi.symm
      simp only [frameNoNeed, streams_ack, ackCS, if_neg hi]
      cases s.streams id <;> rfl
    all_goals
      simp only [frameNoNeed, streams_ack]
      cases s.streams _ with
      | none => rfl
      | some x => simp only [Option.map_some, ackCS]; split <;> rfl
  | maxStreamData i v =>
    cases g <;> first | rfl | skip
    case maxStreamData id w =>
      have hi : ¬ id = i := fun hi => h hi.symm
      simp only [frameNoNeed, streams_ack, ackCS, if_neg hi]
      cases s.streams id <;> rfl
    all_goals
      simp only [frameNoNeed, streams_ack]
      cases s.streams _ with
      | none => rfl
      | some x =>
        simp only [Option.map_some, ackCS]
        split
        · split <;> rfl
        · rfl
  | crypto o d => cases g <;> first | rfl | exact absurd trivial h
  | newToken t => cases g <;> first | rfl | exact absurd trivial h
  | handshakeDone => cases g <;> first | rfl | exact absurd trivial h
  | maxData v =>
    simp only [ackFrame, ackMaxData]
    by_cases hv : v > s.maxdataLocalAcked
    · rw [if_pos hv]
      cases g <;> first | rfl | exact absurd trivial h
    · rw [if_neg hv]
  | maxStreams b v =>
    simp only [ackFrame, ackMaxStreams]
    cases b
    · simp only [Bool.false_eq_true, if_false]
      by_cases hv : v > s.unidirRankAcked
      · rw [if_pos hv]
        cases g <;> first | rfl | skip
        case maxStreams b' w =>
          cases b'
          · exact absurd rfl h
          · rfl
      · rw [if_neg hv]
    · simp only [if_true]
      by_cases hv : v > s.bidirRankAcked
      · rw [if_pos hv]
        cases g <;> first | rfl | skip
        case maxStreams b' w =>
          cases b'
          · rfl
          · exact absurd rfl h
      · rw [if_neg hv]
  | newConnectionId p n _ _ _ =>
    cases g <;> first | rfl | skip
    case newConnectionId q m _ _ _ =>
      simp only [ackFrame, ackNewCid, frameNoNeed]
      by_cases hp : q.getD 0 = p.getD 0
      · have hm : ¬ m = n := fun hm => h ⟨hp.symm, hm.symm⟩
        rw [if_pos hp]
        unfold update
        rw [if_neg hm]
      · rw [if_neg hp]
  | retireConnectionId p n =>
    cases g <;> first | rfl | skip
    case retireConnectionId q m =>
      simp only [ackFrame, ackRetireCid, frameNoNeed]
      by_cases hp : q.getD 0 = p.getD 0
      · have hm : ¬ n = m := fun hm => h ⟨hp.symm, hm⟩
        rw [if_pos hp, findCid_mark hm]
      · rw [if_neg hp]
    case pathCidBlocked q m =>
      have hst : nextSequence ((ackRetireCid s (p.getD 0) n).stash q) = nextSequence (s.stash q) := by
        simp only [ackRetireCid]
        by_cases hp : q = p.getD 0
        · rw [if_pos hp, nextSequence_mark]
        · rw [if_neg hp]
      show (match s.paths q with
        | none => true
        | some x => !x.cidBlockedSent || decide (nextSequence ((ackRetireCid s (p.getD 0) n).stash q) > m)) = _
      rw [hst]
      rfl
  | _ => rfl

/-! ## Acknowledged frames are not repeated -/

/-- The list of acknowledged ranges is in order. -/
def Ordered (l : SackList) : Prop := Sep l.items ∧ l.horizonDelay = 0

def Good (s : State) : Prop := (∀ e, Ordered (s.crypto e)) ∧ ∀ id x, s.streams id = some x → Ordered x.sack

/-- The positions of a CRYPTO or STREAM frame fit in 63 bits, and there is at least one, maybe that of the FIN. -/
def Fits : Frame → Prop
  | .crypto o d => o + d.length < 2 ^ 63 ∧ 0 < d.length
  | .stream _ o fin d _ => o + d.length < 2 ^ 63 ∧ (0 < d.length ∨ fin = true)
  | _ => True

theorem endOf_fits {o n : Nat} {fin : Bool} (h : o + n < 2 ^ 63) (h' : 0 < n ∨ fin = true) :
    endOf o n fin = o + n - (if fin then 0 else 1) ∧ o ≤ o + n - (if fin then 0 else 1) := by
  unfold endOf
  cases fin with
  | true => simp only [if_true, Nat.sub_zero]; omega
  | false =>
    have : 0 < n := by simpa using h'
    simp only [Bool.false_eq_true, if_false]
    omega

theorem ordered_update {l : SackList} {a b : Nat} (h : Ordered l) (hab : a ≤ b) :
    Ordered (updateSackList l a b 0).1 ∧
      ∀ n, Cov (updateSackList l a b 0).1.items n ↔ Cov l.items n ∨ (a ≤ n ∧ n ≤ b) := by
  have hup : updateSackList l a b 0 = updateCore l a b 0 := by
    unfold updateSackList
    dsimp only
    rw [if_neg (by rw [h.2]; decide)]
  have hc := updateCore_spec l a b 0 h.1 hab
  rw [hup]
  exact ⟨⟨hc.1, hc.2.2.2.2.1.trans h.2⟩, hc.2.1⟩

theorem check_update {l : SackList} {a b c d : Nat} (h : Ordered l) (hab : a ≤ b) (hcd : c ≤ d) :
    (checkSackList l c d = true → checkSackList (updateSackList l a b 0).1 c d = true) ∧
      (a ≤ c → d ≤ b → checkSackList (updateSackList l a b 0).1 c d = true) := by
  obtain ⟨h1, h2⟩ := ordered_update h hab
  rw [checkSackList_cov l h.1 c d hcd, checkSackList_cov _ h1.1 c d hcd]
  constructor
  · intro h3 n hn hn'
    exact (h2 n).2 (.inl (h3 n hn hn'))
  · intro h3 h4 n hn hn'
    exact (h2 n).2 (.inr (by omega))

theorem good_ack {e : Epoch} {s : State} {f : Frame} (h : Good s) (hf : Fits f) : Good (ackFrame e s f) := by
  constructor
  · intro e'
    cases f with
    | crypto o d =>
      simp only [ackFrame, ackCrypto]
      obtain ⟨h1, h2⟩ := endOf_fits (fin := false) hf.1 (.inl hf.2)
      split
      · rw [h1]; exact (ordered_update (h.1 e') h2).1
      · exact h.1 e'
    | maxData w =>
      simp only [ackFrame, ackMaxData]
      by_cases hw : w > s.maxdataLocalAcked
      · rw [if_pos hw]; exact h.1 e'
      · rw [if_neg hw]; exact h.1 e'
    | maxStreams b w => simp only [ackFrame, ackMaxStreams]; (repeat' split) <;> exact h.1 e'
    | _ => exact h.1 e'
  · intro id x hx
    rw [streams_ack] at hx
    obtain ⟨y, hy, rfl⟩ := Option.map_eq_some_iff.1 hx
    have hg := h.2 id y hy
    cases f with
    | stream i o fin d _ =>
      simp only [ackCS]
      split
      · obtain ⟨h1, h2⟩ := endOf_fits hf.1 hf.2
        rw [h1]; exact (ordered_update hg h2).1
      · exact hg
    | resetStream i _ _ => simp only [ackCS]; split <;> exact hg
    | maxStreamData i _ => simp only [ackCS]; (repeat' split) <;> exact hg
    | _ => exact hg

theorem payload_mem_le {bs : Bytes} {fs : List Frame} (h : IsPayload bs fs) {f : Frame} (hf : f ∈ fs) :
    ∃ b r, StartsWith b f r ∧ b.length ≤ bs.length := by
  induction h with
  | nil => cases hf
  | @cons bs rest g fs hst _ ih =>
    have := startsWith_length hst
    rcases List.mem_cons.1 hf with h | h
    · subst h; exact ⟨_, _, hst, Nat.le_refl _⟩
    · obtain ⟨b, r, h1, h2⟩ := ih h
      exact ⟨b, r, h1, by omega⟩

theorem fits_of {bs : Bytes} {fs : List Frame} (h : IsPayload bs fs) (hl : bs.length < 65536) {f : Frame} (hf : f ∈ fs)
    (hn : ¬ SaysNothing f) : Fits f := by
  obtain ⟨b, r, h1, h2⟩ := payload_mem_le h hf
  cases f with
  | crypto o d =>
    have := crypto_bound h1
    refine ⟨by omega, ?_⟩
    cases d with
    | nil => exact absurd rfl hn
    | cons x d => exact Nat.succ_pos _
  | stream id o fin d x =>
    obtain ⟨p, rfl, ⟨type, w, i, oo, l, rfl, h3, h4, h5, h6⟩, _⟩ := h1
    have ho : o < 2 ^ 62 := by
      cases w with
      | false => simp only [Bool.false_eq_true, if_false] at h5; omega
      | true =>
        simp only [if_true] at h5
        obtain ⟨k, hk, _, hn, _⟩ := h5
        refine Nat.lt_of_lt_of_le hn (Nat.pow_le_pow_right (by decide) ?_)
        have : 2 ^ k ≤ 2 ^ 3 := Nat.pow_le_pow_right (by decide) (by omega)
        omega
    simp only [List.length_append, List.length_cons] at h2
    refine ⟨by omega, ?_⟩
    cases d with
    | nil =>
      right
      cases fin with
      | true => rfl
      | false => exact absurd ⟨rfl, rfl⟩ hn
    | cons x d => exact .inl (Nat.succ_pos _)
  | _ => trivial

theorem good_run {c : Bool} {l : Limits} {es : List Event} (hr : Regular es) : Good (run (start c l) es) := by
  refine hist_inv hr ⟨fun e => ⟨⟨List.Pairwise.nil, fun i h => by cases h⟩, rfl⟩, fun id x h => by cases h⟩
    (fun e f hf s h => ?_) fun ev hv hx s h => ⟨?_, ?_⟩
  · obtain ⟨bs, fs, h1, h2, h3, h4, h5, h6⟩ := hf
    exact good_ack h (fits_of h2 h6 h3 h5)
  · have hcr : (step s ev).crypto = s.crypto := by
      cases ev with
      | acked e bs => exact absurd rfl (hx _ _)
      | sent f => cases f <;> simp only [step, sent] <;> (repeat' split) <;> rfl
      | _ => simp only [step] <;> (repeat' split) <;> rfl
    rw [hcr]
    exact h.1
  · intro id
    show OnStream (fun x => Ordered x.sack) ((step s ev).streams id)
    rw [streams_step s ev id hx]
    have ho : OnStream (fun x => Ordered x.sack) (s.streams id) := h.2 id
    revert ho
    generalize s.streams id = o
    intro ho
    cases ev with
    | sent f => cases f <;> first | exact ho | exact onStream_ite ho fun hi x hx => hx
    | opened i l r =>
      exact onStream_open ho fun hi => ⟨⟨List.Pairwise.nil, fun i h => by cases h⟩, rfl⟩
    | closed i => exact onStream_close ho
    | maxStreamData i v =>
      refine onStream_ite ho fun hi x hx => ?_
      split <;> exact hx
    | _ => first | exact ho | exact onStream_ite ho fun hi x hx => hx

theorem fits_acked {es : List Event} (hr : Regular es) {f : Frame} (h : AckedIn es f) : Fits f := by
  obtain ⟨e, bs, fs, h1, h2, h3⟩ := h
  obtain ⟨h4, gs, h5, h6⟩ := hr e bs h1
  have : fs = gs := Repeat.payload_unique h2 h5
  subst this
  exact fits_of h2 h4 h3 (h6 f h3).2

theorem stream_needed {c : Bool} {l : Limits} {es : List Event} (hr : Regular es) {id o n : Nat} {fin : Bool}
    {d : Bytes} {x : Bool} {e : Epoch} (hf : o + d.length < 2 ^ 63) (hl : LiveStream es id)
    (hrs : ∀ a b, Event.sent (.resetStream id a b) ∉ es) (hn : ¬ StreamAcked es id n) (h1 : o ≤ n)
    (h2 : n < o + d.length ∨ (fin = true ∧ n = o + d.length)) :
    frameNoNeed (run (start c l) es) e (.stream id o fin d x) = false := by
  have h := hist_live (s := start c l) hr hl
  obtain ⟨y, hy⟩ := Option.isSome_iff_exists.1 h
  have key := hist_stream (P := OnStream fun x => Ordered x.sack ∧ ¬ Cov x.sack.items n ∧ x.resetSent = false)
    (s := start c l) id hr (fun x h => by cases h) ?_ ?_ y hy
  · obtain ⟨k1, k2, k3⟩ := key
    have hfit : 0 < d.length ∨ fin = true := by
      rcases h2 with h2 | h2
      · left; omega
      · exact .inr h2.1
    obtain ⟨e1, e2⟩ := endOf_fits hf hfit
    have hle : n ≤ o + d.length - (if fin then 0 else 1) := by
      rcases h2 with h2 | ⟨h2, h3⟩
      · cases fin <;> simp <;> omega
      · rw [h2]; simp; omega
    simp only [frameNoNeed, hy]
    rw [if_neg (by rw [k3]; exact Bool.false_ne_true), e1]
    cases hc : checkSackList y.sack o (o + d.length - (if fin then 0 else 1)) with
    | false => rfl
    | true => exact absurd ((checkSackList_cov _ k1.1 _ _ e2).1 hc n h1 hle) k2
  · intro f hf o ho
    refine onStream_map ho fun x hx => ?_
    cases f with
    | stream i o' fin' d' x' =>
      simp only [ackCS]
      by_cases hi : id = i
      · rw [if_pos hi]
        subst hi
        have hfit := fits_acked hr hf
        obtain ⟨e1, e2⟩ := endOf_fits hfit.1 hfit.2
        rw [e1]
        obtain ⟨q1, q2⟩ := ordered_update hx.1 e2
        refine ⟨q1, fun hc => ?_, hx.2.2⟩
        rcases (q2 n).1 hc with hc | hc
        · exact hx.2.1 hc
        · refine hn ⟨o', fin', d', x', hf, hc.1, ?_⟩
          cases fin' with
          | false =>
            have := hfit.2
            simp only [Bool.false_eq_true, or_false, if_false] at this hc
            left; omega
          | true =>
            simp only [if_true, Nat.sub_zero] at hc
            by_cases hlt : n < o' + d'.length
            · exact .inl hlt
            · exact .inr ⟨rfl, by omega⟩
      · rw [if_neg hi]; exact hx
    | resetStream i _ _ => simp only [ackCS]; split <;> exact hx
    | maxStreamData i _ => simp only [ackCS]; (repeat' split) <;> exact hx
    | _ => exact hx
  · intro ev hv o ho
    cases ev with
    | sent f =>
      cases f <;> first | exact ho | skip
      case resetStream i a b =>
        refine onStream_ite ho fun hi x hx => ?_
        subst hi
        exact absurd hv (hrs a b)
      all_goals exact onStream_ite ho fun hi x hx => hx
    | opened i l r =>
      exact onStream_open ho fun hi =>
        ⟨⟨⟨List.Pairwise.nil, fun i h => by cases h⟩, rfl⟩, (fun hc => by obtain ⟨i, h, _⟩ := hc; cases h), rfl⟩
    | closed i => exact onStream_close ho
    | maxStreamData i v =>
      refine onStream_ite ho fun hi x hx => ?_
      split <;> exact hx
    | _ => first | exact ho | exact onStream_ite ho fun hi x hx => hx

theorem tracked_now {e : Epoch} {s : State} {f : Frame} (hg : Good s) (hf : Fits f) (ht : Tracked f) :
    frameNoNeed (ackFrame e s f) e f = true := by
  cases f with
  | handshakeDone => rfl
  | newToken _ => rfl
  | crypto o d =>
    obtain ⟨h1, h2⟩ := endOf_fits (fin := false) hf.1 (.inl hf.2)
    simp only [ackFrame, ackCrypto, frameNoNeed, if_true, h1]
    exact (check_update (hg.1 e) h2 h2).2 (Nat.le_refl _) (Nat.le_refl _)
  | stream id o fin d _ =>
    obtain ⟨h1, h2⟩ := endOf_fits hf.1 hf.2
    simp only [frameNoNeed, streams_ack]
    cases hs : s.streams id with
    | none => rfl
    | some x =>
      simp only [Option.map_some, ackCS, if_true, h1]
      by_cases hr : x.resetSent = true
      · rw [if_pos hr]
      · rw [if_neg hr]
        exact (check_update (hg.2 id x hs) h2 h2).2 (Nat.le_refl _) (Nat.le_refl _)
  | maxData v =>
    simp only [ackFrame, ackMaxData]
    by_cases hv : v > s.maxdataLocalAcked
    · rw [if_pos hv]
      simp only [frameNoNeed, Bool.or_eq_true, decide_eq_true_eq]
      exact .inr (Nat.le_refl _)
    · rw [if_neg hv]
      simp only [frameNoNeed, Bool.or_eq_true, decide_eq_true_eq]
      exact .inr (Nat.le_of_not_lt hv)
  | maxStreams b v =>
    cases b
    · simp only [ackFrame, ackMaxStreams, Bool.false_eq_true, if_false]
      by_cases hv : v > s.unidirRankAcked
      · rw [if_pos hv]
        simp only [frameNoNeed, Bool.false_eq_true, if_false, Bool.or_eq_true, decide_eq_true_eq]
        exact .inl (Nat.le_refl _)
      · rw [if_neg hv]
        simp only [frameNoNeed, Bool.false_eq_true, if_false, Bool.or_eq_true, decide_eq_true_eq]
        exact .inl (Nat.le_of_not_lt hv)
    · simp only [ackFrame, ackMaxStreams, if_true]
      by_cases hv : v > s.bidirRankAcked
      · rw [if_pos hv]
        simp only [frameNoNeed, if_true, Bool.or_eq_true, decide_eq_true_eq]
        exact .inl (Nat.le_refl _)
      · rw [if_neg hv]
        simp only [frameNoNeed, if_true, Bool.or_eq_true, decide_eq_true_eq]
        exact .inl (Nat.le_of_not_lt hv)
  | maxStreamData id v =>
    simp only [frameNoNeed, streams_ack]
    cases hs : s.streams id with
    | none => rfl
    | some x =>
      simp only [Option.map_some, ackCS, if_true, Bool.or_eq_true, decide_eq_true_eq]
      right
      split
      · exact Nat.le_refl _
      · omega
  | newConnectionId p n _ _ _ =>
    simp only [ackFrame, ackNewCid, frameNoNeed, if_true]
    unfold update
    rw [if_pos rfl]
    cases s.localCids (p.getD 0) n <;> rfl
  | retireConnectionId p n =>
    simp only [ackFrame, ackRetireCid, frameNoNeed, if_true]
    generalize s.stash (p.getD 0) = l
    unfold findCid
    induction l with
    | nil => rfl
    | cons x l ih =>
      unfold markCid
      by_cases hx : x.1 = n
      · rw [if_pos hx, List.find?_cons]
        simp [hx]
      · rw [if_neg hx, List.find?_cons]
        simp only [hx, decide_false]
        exact ih
  | _ => exact False.elim ht

theorem tracked_after {e e' : Epoch} {s : State} {f g : Frame} (hg : Good s) (hfg : Fits g) (hf : Fits f)
    (ht : Tracked f) (h : frameNoNeed s e f = true) : frameNoNeed (ackFrame e' s g) e f = true := by
  by_cases hs : SameSubject g f
  · cases f with
    | handshakeDone => cases g <;> first | exact False.elim hs | rfl
    | newToken _ => cases g <;> first | exact False.elim hs | rfl
    | crypto o d =>
      cases g <;> first | exact False.elim hs | skip
      rename_i o' d'
      obtain ⟨h1, h2⟩ := endOf_fits (fin := false) hf.1 (.inl hf.2)
      obtain ⟨h3, h4⟩ := endOf_fits (fin := false) hfg.1 (.inl hfg.2)
      simp only [frameNoNeed, h1] at h
      simp only [ackFrame, ackCrypto, frameNoNeed, h1, h3]
      split
      · exact (check_update (hg.1 e) h4 h2).1 h
      · exact h
    | stream id o fin d _ =>
      cases g <;> first | exact False.elim hs | skip
      rename_i i o' fin' d' _
      obtain ⟨h1, h2⟩ := endOf_fits hf.1 hf.2
      obtain ⟨h3, h4⟩ := endOf_fits hfg.1 hfg.2
      simp only [frameNoNeed, h1] at h
      simp only [frameNoNeed, streams_ack, h1]
      cases hst : s.streams id with
      | none => rfl
      | some x =>
        rw [hst] at h
        simp only [Option.map_some, ackCS, h3] at h ⊢
        by_cases hi : id = i
        · rw [if_pos hi]
          by_cases hr : x.resetSent = true
          · rw [if_pos hr]
          · rw [if_neg hr] at h ⊢
            exact (check_update (hg.2 id x hst) h4 h2).1 h
        · rw [if_neg hi]; exact h
    | maxData v =>
      cases g <;> first | exact False.elim hs | skip
      rename_i v'
      simp only [ackFrame, ackMaxData]
      by_cases hv : v' > s.maxdataLocalAcked
      · rw [if_pos hv]
        simp only [frameNoNeed, Bool.or_eq_true, decide_eq_true_eq] at h ⊢
        exact h.imp id (fun h => by omega)
      · rw [if_neg hv]; exact h
    | maxStreams b v =>
      cases g <;> first | exact False.elim hs | skip
      rename_i b' v'
      have hs : b' = b := hs
      subst hs
      cases b'
      · simp only [ackFrame, ackMaxStreams, Bool.false_eq_true, if_false]
        by_cases hv : v' > s.unidirRankAcked
        · rw [if_pos hv]
          simp only [frameNoNeed, Bool.false_eq_true, if_false, Bool.or_eq_true, decide_eq_true_eq] at h ⊢
          exact h.imp (fun h => by omega) id
        · rw [if_neg hv]; exact h
      · simp only [ackFrame, ackMaxStreams, if_true]
        by_cases hv : v' > s.bidirRankAcked
        · rw [if_pos hv]
          simp only [frameNoNeed, if_true, Bool.or_eq_true, decide_eq_true_eq] at h ⊢
          exact h.imp (fun h => by omega) id
        · rw [if_neg hv]; exact h
    | maxStreamData id v =>
      cases g <;> first | exact False.elim hs | skip
      rename_i i v'
      simp only [frameNoNeed, streams_ack]
      simp only [frameNoNeed] at h
      cases hst : s.streams id with
      | none => rfl
      | some x =>
        rw [hst] at h
        simp only [Option.map_some, ackCS, Bool.or_eq_true, decide_eq_true_eq] at h ⊢
        by_cases hi : id = i
        · rw [if_pos hi]
          split
          · exact h.imp (fun h => h) (fun h => by dsimp only; omega)
          · exact h
        · rw [if_neg hi]; exact h
    | newConnectionId p n _ _ _ =>
      cases g <;> first | exact False.elim hs | skip
      rename_i p' n' _ _ _
      obtain ⟨hp, hn⟩ := hs
      simp only [pathOf] at hp
      subst hn
      simp only [ackFrame, ackNewCid, frameNoNeed, hp, if_true]
      unfold update
      rw [if_pos rfl]
      cases s.localCids (p.getD 0) n' <;> rfl
    | retireConnectionId p n =>
      cases g <;> first | exact False.elim hs | skip
      rename_i p' n'
      obtain ⟨hp, hn⟩ := hs
      simp only [pathOf] at hp
      subst hn
      have := tracked_now (e := e) (f := .retireConnectionId p n') hg trivial trivial
      simp only [ackFrame] at this
      simp only [ackFrame, hp]
      exact this
    | _ => exact False.elim ht
  · rw [unrelated e' e s g f hs]; exact h

theorem tracked_acked {e : Epoch} {fs : List Frame} {f : Frame} (hf : f ∈ fs) (ht : Tracked f)
    (hfs : ∀ g ∈ fs, Fits g) : ∀ s : State, Good s → frameNoNeed (fs.foldl (ackFrame e) s) e f = true := by
  intro s hg
  obtain ⟨a, b, rfl⟩ := List.append_of_mem hf
  rw [List.foldl_append, List.foldl_cons]
  have hga : Good (a.foldl (ackFrame e) s) :=
    foldl_inv e hg fun g hga s h => good_ack h (hfs g (List.mem_append.2 (.inl hga)))
  have := foldl_inv (P := fun s => Good s ∧ frameNoNeed s e f = true) e (fs := b)
    (s := ackFrame e (a.foldl (ackFrame e) s) f) ⟨good_ack hga (hfs f hf), tracked_now hga (hfs f hf) ht⟩ ?_
  · exact this.2
  · intro g hgb s h
    have hfg := hfs g (List.mem_append.2 (.inr (List.mem_cons_of_mem _ hgb)))
    exact ⟨good_ack h.1 hfg, tracked_after h.1 hfg (hfs f hf) ht h.2⟩

end Picoquic.Lost
