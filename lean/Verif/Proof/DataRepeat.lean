import Verif.Spec.DataRepeat
import Verif.Proof.FrameSkip
import Verif.Proof.StreamFrame
import Verif.Proof.Sack
/-! # Proofs about the repetition of stream data -/

namespace Picoquic.Repeat
open Picoquic Picoquic.Spec Picoquic.Sack Picoquic.StreamFrame

/-! ## Payloads -/

/-- STREAM frames. -/
def isStream : Frame → Bool
  | .stream .. => true
  | _ => false

/-- The STREAM frames of a list. -/
def streamsOf (fs : List Frame) : List Frame := fs.filter isStream

theorem payload_unique {bs : Bytes} {fs gs : List Frame} (h : IsPayload bs fs) (h' : IsPayload bs gs) : fs = gs := by
  induction h generalizing gs with
  | nil =>
    cases h' with
    | nil => rfl
    | cons hs _ => exact absurd hs Frames.not_startsWith_nil
  | cons hs hp ih =>
    cases h' with
    | nil => exact absurd hs Frames.not_startsWith_nil
    | cons hs' hp' =>
      obtain ⟨rfl, rfl⟩ := Frames.startsWith_unique hs hs'
      rw [ih hp']

theorem isStreamType_iff (b : UInt8) : isStreamType b = true ↔ 8 ≤ b.toNat ∧ b.toNat < 16 := by
  simp [isStreamType]

theorem isStream_iff (f : Frame) : isStream f = true ↔ ∃ id offset fin data explicit, f = .stream id offset fin data explicit := by
  cases f <;> simp [isStream]

theorem head_stream {b : UInt8} {t rest : Bytes} {f : Frame} (h : StartsWith (b :: t) f rest) :
    isStreamType b = isStream f := by
  rw [Bool.eq_iff_iff, isStreamType_iff, isStream_iff]
  constructor
  · intro hb
    cases hx : Frames.isExt f with
    | true =>
      rcases Frames.ext_first (Frames.parseExt_complete hx h) with h1 | rfl
      · omega
      · exact absurd hb (by decide)
    | false =>
      have h1 := Frames.parseShort_complete hx h
      unfold Frames.parseShort at h1
      rw [if_pos hb, Frames.parseStream_iff b t rest f hb] at h1
      obtain ⟨id, offset, fin, data, explicit, hf, _⟩ := h1
      exact ⟨id, offset, fin, data, explicit, hf⟩
  · rintro ⟨id, offset, fin, data, explicit, rfl⟩
    obtain ⟨p, hp, ⟨ty, wo, i, o, l, rfl, ht, _⟩, _⟩ := h
    simp only [List.cons_append, List.cons.injEq] at hp
    rw [hp.1, ht]
    cases wo <;> cases explicit <;> cases fin <;> decide

theorem startsWith_zero {t rest : Bytes} {f : Frame} (h : StartsWith (0 :: t) f rest) :
    ∃ n, f = .padding n ∧ (0 :: t) = List.replicate (n + 1) 0 ++ rest ∧ rest.head? ≠ some 0 := by
  have h1 := Frames.skip0len_eq 0 t
  have h2 : StartsWith (0 :: t) (.padding (Frames.skip0len 0 t).1) (Frames.skip0len 0 t).2 :=
    ⟨List.replicate ((Frames.skip0len 0 t).1 + 1) 0, by rw [List.replicate_succ, List.cons_append, ← h1.1],
      ⟨⟨[], by simp, rfl⟩, trivial⟩, h1.2⟩
  obtain ⟨rfl, rfl⟩ := Frames.startsWith_unique h h2
  exact ⟨_, rfl, by rw [List.replicate_succ, List.cons_append, ← h1.1], h1.2⟩

theorem startsWith_one {t rest : Bytes} {f : Frame} (h : StartsWith (1 :: t) f rest) :
    ∃ n, f = .ping n ∧ (1 :: t) = List.replicate (n + 1) 1 ++ rest ∧ rest.head? ≠ some 1 := by
  have h1 := Frames.skip0len_eq 1 t
  have h2 : StartsWith (1 :: t) (.ping (Frames.skip0len 1 t).1) (Frames.skip0len 1 t).2 :=
    ⟨List.replicate ((Frames.skip0len 1 t).1 + 1) 1, by rw [List.replicate_succ, List.cons_append, ← h1.1],
      ⟨⟨[], by simp, rfl⟩, trivial⟩, h1.2⟩
  obtain ⟨rfl, rfl⟩ := Frames.startsWith_unique h h2
  exact ⟨_, rfl, by rw [List.replicate_succ, List.cons_append, ← h1.1], h1.2⟩

theorem streamsOf_append (fs gs : List Frame) : streamsOf (fs ++ gs) = streamsOf fs ++ streamsOf gs :=
  List.filter_append ..

/-- One frame before a payload. -/
theorem payload_cons_gen {p b : Bytes} {f : Frame} {gs : List Frame} (hf : IsFrame p f) (hb : IsPayload b gs)
    (hc : b = [] ∨ Closed f) :
    ∃ hs, IsPayload (p ++ b) hs ∧ (∀ g : Frame → Bool, (∀ n, g (.padding n) = false) → (∀ n, g (.ping n) = false) →
        hs.filter g = [f].filter g ++ gs.filter g) ∧
      (Closed f → (∀ g ∈ gs, Closed g) → ∀ h ∈ hs, Closed h) := by
  by_cases he : EndsWith f b
  · refine ⟨f :: gs, .cons ⟨p, rfl, hf, he⟩ hb, fun g _ _ => List.filter_append (p := g) [f] gs, ?_⟩
    intro h1 h2 h hh
    rcases List.mem_cons.1 hh with rfl | hh
    · exact h1
    · exact h2 h hh
  · cases f with
    | padding n =>
      have hh : b.head? = some 0 := by simpa [EndsWith] using he
      cases b with
      | nil => simp at hh
      | cons c t =>
      have hc0 : c = 0 := by simpa using hh
      subst hc0
      cases hb with
      | cons hs hp =>
      obtain ⟨m, rfl, ht, hr⟩ := startsWith_zero hs
      obtain ⟨⟨x, hx, hx0⟩, _⟩ := hf
      have hx0 : x = [] := hx0
      subst hx0
      rw [ht, hx]
      refine ⟨.padding (n + 1 + m) :: _, .cons ⟨List.replicate (n + 1 + m + 1) 0, ?_, ⟨⟨[], by simp, rfl⟩, trivial⟩, hr⟩ hp, ?_, ?_⟩
      · rw [List.append_nil, ← List.append_assoc, List.replicate_append_replicate]
        rfl
      · intro g g1 _; simp [g1]
      · intro _ h2 h hh
        rcases List.mem_cons.1 hh with rfl | hh
        · trivial
        · exact h2 h (List.mem_cons_of_mem _ hh)
    | ping n =>
      have hh : b.head? = some 1 := by simpa [EndsWith] using he
      cases b with
      | nil => simp at hh
      | cons c t =>
      have hc0 : c = 1 := by simpa using hh
      subst hc0
      cases hb with
      | cons hs hp =>
      obtain ⟨m, rfl, ht, hr⟩ := startsWith_one hs
      obtain ⟨⟨x, hx, hx0⟩, _⟩ := hf
      have hx0 : x = [] := hx0
      subst hx0
      rw [ht, hx]
      refine ⟨.ping (n + 1 + m) :: _, .cons ⟨List.replicate (n + 1 + m + 1) 1, ?_, ⟨⟨[], by simp, rfl⟩, trivial⟩, hr⟩ hp, ?_, ?_⟩
      · rw [List.append_nil, ← List.append_assoc, List.replicate_append_replicate]
        rfl
      · intro g _ g2; simp [g2]
      · intro _ h2 h hh
        rcases List.mem_cons.1 hh with rfl | hh
        · trivial
        · exact h2 h (List.mem_cons_of_mem _ hh)
    | stream id offset fin data explicit =>
      exfalso; apply he
      intro hx
      rcases hc with hc | hc
      · exact hc
      · rw [hx] at hc; cases hc
    | datagram data explicit =>
      exfalso; apply he
      intro hx
      rcases hc with hc | hc
      · exact hc
      · rw [hx] at hc; cases hc
    | _ => exact absurd trivial he

/-- Two payloads one behind the other. -/
theorem payload_append_gen {a b : Bytes} {fs gs : List Frame} (ha : IsPayload a fs) (hb : IsPayload b gs)
    (hc : b = [] ∨ ∀ f ∈ fs, Closed f) :
    ∃ hs, IsPayload (a ++ b) hs ∧ (∀ g : Frame → Bool, (∀ n, g (.padding n) = false) → (∀ n, g (.ping n) = false) →
        hs.filter g = fs.filter g ++ gs.filter g) ∧
      ((∀ f ∈ fs, Closed f) → (∀ g ∈ gs, Closed g) → ∀ h ∈ hs, Closed h) := by
  induction ha with
  | nil => exact ⟨gs, hb, fun _ _ _ => rfl, fun _ h => h⟩
  | @cons bs rest f fs hs hp ih =>
    obtain ⟨p, rfl, hf, he⟩ := hs
    obtain ⟨hs', h1, h2, h5⟩ := ih (hc.imp id fun h f' hf' => h f' (List.mem_cons_of_mem _ hf'))
    obtain ⟨hs, h3, h4, h6⟩ := payload_cons_gen hf h1 (by
      rcases hc with rfl | hc
      · cases rest with
        | nil => exact .inl rfl
        | cons c t =>
          right
          cases f with
          | stream id offset fin data explicit =>
            cases explicit with
            | true => rfl
            | false => cases he rfl
          | datagram data explicit =>
            cases explicit with
            | true => rfl
            | false => cases he rfl
          | _ => trivial
      · exact .inr (hc f (List.mem_cons_self ..)))
    refine ⟨hs, by rw [List.append_assoc]; exact h3, ?_, ?_⟩
    · intro g g1 g2
      rw [h4 g g1 g2, h2 g g1 g2, ← List.append_assoc, ← List.filter_append]
      rfl
    · intro h7 h8
      exact h6 (h7 f (List.mem_cons_self ..)) (h5 (fun g hg => h7 g (List.mem_cons_of_mem _ hg)) h8)

theorem payload_cons {p b : Bytes} {f : Frame} {gs : List Frame} (hf : IsFrame p f) (hb : IsPayload b gs)
    (hc : b = [] ∨ Closed f) :
    ∃ hs, IsPayload (p ++ b) hs ∧ streamsOf hs = streamsOf [f] ++ streamsOf gs ∧
      (Closed f → (∀ g ∈ gs, Closed g) → ∀ h ∈ hs, Closed h) := by
  obtain ⟨hs, h1, h2, h3⟩ := payload_cons_gen hf hb hc
  exact ⟨hs, h1, h2 isStream (fun _ => rfl) (fun _ => rfl), h3⟩

theorem payload_append {a b : Bytes} {fs gs : List Frame} (ha : IsPayload a fs) (hb : IsPayload b gs)
    (hc : b = [] ∨ ∀ f ∈ fs, Closed f) :
    ∃ hs, IsPayload (a ++ b) hs ∧ streamsOf hs = streamsOf fs ++ streamsOf gs ∧
      ((∀ f ∈ fs, Closed f) → (∀ g ∈ gs, Closed g) → ∀ h ∈ hs, Closed h) := by
  obtain ⟨hs, h1, h2, h3⟩ := payload_append_gen ha hb hc
  exact ⟨hs, h1, h2 isStream (fun _ => rfl) (fun _ => rfl), h3⟩

/-! ## Writing a frame -/

theorem writeNoLength_spec {id offset room : Nat} {h : Bytes} (fin : Bool) (data : Bytes)
    (hh : formatStreamFrameHeader id offset room = some h) (hid : id < 2 ^ 62) (hoff : offset < 2 ^ 62) :
    writeNoLength h fin data room = ([], data.length) ∨
    ∃ pad frame explicit m, writeNoLength h fin data room = (List.replicate pad 0 ++ frame, data.length - m) ∧
      IsStreamFrame frame id offset (fin && decide (m = data.length)) (data.take m) explicit ∧
      m ≤ data.length ∧ (m = 0 → data = []) ∧ (List.replicate pad 0 ++ frame).length ≤ room ∧
      (explicit = false → (List.replicate pad 0 ++ frame).length = room) := by
  obtain ⟨hl, rfl⟩ := header_eq hh
  have hvi := varintBytes_varint id hid
  have hvo := varintBytes_varint offset hoff
  generalize hv1 : varintBytes id = vi at *
  have ho : ∃ o, (if offset > 0 then varintBytes offset else []) = o ∧
      (if decide (offset > 0) = true then Varint o offset else o = [] ∧ offset = 0) := by
    refine ⟨_, rfl, ?_⟩
    by_cases h : offset > 0
    · simp only [if_pos h, h, decide_true, if_true]; exact hvo
    · have h0 : offset = 0 := by omega
      simp [h0]
  obtain ⟨o, ho1, ho2⟩ := ho
  rw [ho1] at hl hh ⊢
  generalize ht : (if offset > 0 then (12 : UInt8) else 8) = t at *
  have htype : ∀ (f : Bool), (t ||| (if f then 1 else 0)).toNat =
      8 + (if decide (offset > 0) = true then 4 else 0) + (if false = true then 2 else 0) + (if f then 1 else 0) := by
    intro f
    rw [← ht]
    by_cases h : offset > 0
    · simp only [if_pos h, h]; cases f <;> decide
    · simp only [if_neg h, h]; cases f <;> decide
  have hlen : (t :: (vi ++ o)).length = vi.length + o.length + 1 := by simp
  rw [hlen] at hl
  unfold writeNoLength
  rw [hlen]
  by_cases h1 : vi.length + o.length + 1 + data.length ≤ room
  · rw [if_pos h1]
    right
    refine ⟨room - (vi.length + o.length + 1) - data.length, (t ||| (if fin then 1 else 0)) :: (vi ++ (o ++ ([] ++ data))), false,
      data.length, ?_, ⟨_, decide (offset > 0), vi, o, [], by rw [List.take_length], ?_, hvi, ho2, rfl⟩, Nat.le_refl _, ?_, ?_, ?_⟩
    · cases fin <;> simp [orHead]
    · have := htype fin
      simpa using this
    · intro h; exact List.length_eq_zero_iff.1 h
    · simp; omega
    · intro _; simp; omega
  · rw [if_neg h1]
    by_cases h2 : room - (vi.length + o.length + 1) < 512
    · rw [if_pos h2]; exact .inl rfl
    · rw [if_neg h2]
      right
      refine ⟨0, t :: (vi ++ (o ++ ([] ++ data.take (room - (vi.length + o.length + 1))))), false,
        room - (vi.length + o.length + 1), ?_,
        ⟨_, decide (offset > 0), vi, o, [], rfl, ?_, hvi, ho2, rfl⟩, ?_, ?_, ?_, ?_⟩
      · simp
      · have := htype false
        have h3 : decide (room - (vi.length + o.length + 1) = data.length) = false := by
          simp; omega
        rw [h3, Bool.and_false]
        simpa using this
      · omega
      · intro h; omega
      · simp; omega
      · intro _; simp; omega

theorem writeRepeat_spec (id offset : Nat) (fin : Bool) (data : Bytes) (room : Nat) (hid : id < 2 ^ 62)
    (hoff : offset + data.length < 2 ^ 62) :
    writeRepeat id offset fin data room = ([], data.length) ∨
    ∃ pad frame explicit m, writeRepeat id offset fin data room = (List.replicate pad 0 ++ frame, data.length - m) ∧
      IsStreamFrame frame id offset (fin && decide (m = data.length)) (data.take m) explicit ∧
      m ≤ data.length ∧ (m = 0 → data = []) ∧ (List.replicate pad 0 ++ frame).length ≤ room ∧
      (explicit = false → (List.replicate pad 0 ++ frame).length = room) := by
  unfold writeRepeat
  cases hh : formatStreamFrameHeader id offset room with
  | none => exact .inl rfl
  | some h =>
    dsimp only
    have hno := writeNoLength_spec fin data hh hid (by omega)
    by_cases h0 : h.length = room
    · rw [if_pos h0]; exact .inl rfl
    rw [if_neg h0]
    cases hl : framesVarintEncode data.length (room - h.length) with
    | none => exact hno
    | some l =>
      dsimp only
      by_cases h1 : h.length + l.length + data.length ≤ room
      · rw [if_pos h1]
        clear hno
        right
        rw [framesVarintEncode_eq] at hl
        have hl' : l = varintBytes data.length := by
          split at hl
          · exact (Option.some.inj hl).symm
          · cases hl
        obtain ⟨_, rfl⟩ := header_eq hh
        have hvi := varintBytes_varint id hid
        have hvo := varintBytes_varint offset (by omega)
        have hvd := varintBytes_varint data.length (by omega)
        rw [← hl'] at hvd
        generalize hv1 : varintBytes id = vi at *
        have ho : ∃ o, (if offset > 0 then varintBytes offset else []) = o ∧
            (if decide (offset > 0) = true then Varint o offset else o = [] ∧ offset = 0) := by
          refine ⟨_, rfl, ?_⟩
          by_cases h : offset > 0
          · simp only [if_pos h, h, decide_true, if_true]; exact hvo
          · have h0 : offset = 0 := by omega
            simp [h0]
        obtain ⟨o, ho1, ho2⟩ := ho
        rw [ho1] at h1 ⊢
        generalize ht : (if offset > 0 then (12 : UInt8) else 8) = t at *
        have htype : ((t ||| 2) ||| (if fin then 1 else 0)).toNat =
            8 + (if decide (offset > 0) = true then 4 else 0) + (if true = true then 2 else 0) + (if fin then 1 else 0) := by
          rw [← ht]
          by_cases h : offset > 0
          · simp only [if_pos h, h]; cases fin <;> decide
          · simp only [if_neg h, h]; cases fin <;> decide
        refine ⟨0, ((t ||| 2) ||| (if fin then 1 else 0)) :: (vi ++ (o ++ (l ++ data))), true,
          data.length, ?_, ⟨_, decide (offset > 0), vi, o, l, by rw [List.take_length], ?_, hvi, ho2, ?_⟩,
          Nat.le_refl _, ?_, ?_, by simp⟩
        · cases fin <;> simp [orHead]
        · simpa using htype
        · rw [List.take_length]; exact hvd
        · intro h; exact List.length_eq_zero_iff.1 h
        · simp at h1 ⊢; omega
      · rw [if_neg h1]; exact hno

/-! ## What a packet has -/

theorem packetHasData_iff {bs : Bytes} {fs : List Frame} (h : IsPayload bs fs) (id pos : Nat) :
    PacketHasData bs id pos ↔ ∃ f ∈ streamsOf fs, FrameHas f id pos ∧ HasData f := by
  constructor
  · rintro ⟨gs, f, hg, hf, h1, h2⟩
    have := payload_unique h hg
    subst this
    refine ⟨f, List.mem_filter.2 ⟨hf, ?_⟩, h1, h2⟩
    cases f <;> first | rfl | exact False.elim h1
  · rintro ⟨f, hf, h1, h2⟩
    exact ⟨fs, f, h, (List.mem_filter.1 hf).1, h1, h2⟩

theorem packetHas_iff {bs : Bytes} {fs : List Frame} (h : IsPayload bs fs) (id pos : Nat) :
    PacketHas bs id pos ↔ ∃ f ∈ streamsOf fs, FrameHas f id pos := by
  constructor
  · rintro ⟨gs, f, hg, hf, h1⟩
    have := payload_unique h hg
    subst this
    refine ⟨f, List.mem_filter.2 ⟨hf, ?_⟩, h1⟩
    cases f <;> first | rfl | exact False.elim h1
  · rintro ⟨f, hf, h1⟩
    exact ⟨fs, f, h, (List.mem_filter.1 hf).1, h1⟩

/-- The first frame of a packet of the queue, the number `k` of its bytes already repeated, and what follows. -/
structure Front (q : Queued) (p : Bytes) (id offset : Nat) (fin : Bool) (data : Bytes) (explicit : Bool)
    (rest : Bytes) (fs : List Frame) (k : Nat) : Prop where
  eq : q.rest = p ++ rest
  frame : IsStreamFrame p id offset fin data explicit
  closed : explicit = false → rest = []
  payload : IsPayload rest fs
  hk : k = q.done - (p.length - data.length)
  klt : k < data.length ∨ k = 0
  hz : k = 0 → q.done = 0

theorem Front.starts {q : Queued} {p : Bytes} {id offset : Nat} {fin : Bool} {data : Bytes} {explicit : Bool}
    {rest : Bytes} {fs : List Frame} {k : Nat} (h : Front q p id offset fin data explicit rest fs k) :
    StartsWith q.rest (.stream id offset fin data explicit) rest := ⟨p, h.eq, h.frame, h.closed⟩

theorem toRepeat_iff {q : Queued} {p : Bytes} {id offset : Nat} {fin : Bool} {data : Bytes} {explicit : Bool}
    {rest : Bytes} {fs : List Frame} {k : Nat} (h : Front q p id offset fin data explicit rest fs k) (i pos : Nat) :
    ToRepeat q i pos ↔ (i = id ∧ data ≠ [] ∧ offset + k ≤ pos ∧ pos < offset + data.length + (if fin then 1 else 0)) ∨
      PacketHasData rest i pos := by
  constructor
  · rintro ⟨p', f, rest', h1, h2, h3, h4⟩
    obtain ⟨rfl, rfl⟩ := Frames.startsWith_unique h.starts ⟨p', h1, h2, h3⟩
    have hp : p' = p := by
      have := h.eq
      rw [h1] at this
      exact List.append_cancel_right this
    subst hp
    rcases h4 with ⟨o, fi, d, e, hf, h5, h6, h7⟩ | h4
    · injection hf with e1 e2 e3 e4 e5
      subst e1; subst e2; subst e3; subst e4; subst e5
      left
      rw [h.hk]
      exact ⟨rfl, h5, h6, h7⟩
    · exact .inr h4
  · rintro (⟨rfl, h1, h2, h3⟩ | h1)
    · refine ⟨p, .stream i offset fin data explicit, rest, h.eq, h.frame, h.closed, .inl ⟨offset, fin, data, explicit, rfl, h1, ?_, h3⟩⟩
      rw [← h.hk]; exact h2
    · exact ⟨p, .stream id offset fin data explicit, rest, h.eq, h.frame, h.closed, .inr h1⟩

/-- A packet of the queue, all STREAM frames of which satisfy `P`. -/
def QInv (P : Frame → Prop) (q : Queued) : Prop :=
  ∃ p id offset fin data explicit rest fs k, Front q p id offset fin data explicit rest fs k ∧
    P (.stream id offset fin data explicit) ∧ ∀ f ∈ streamsOf fs, P f

/-! ## Moving to the next frame -/

theorem startsWith_length {bs rest : Bytes} {f : Frame} (h : StartsWith bs f rest) : rest.length < bs.length := by
  obtain ⟨p, rfl, hf, _⟩ := h
  cases p with
  | nil => exact absurd hf Frames.isFrame_ne_nil
  | cons b t => simp; omega

theorem adjust_spec (streams : Streams) : ∀ (fuel : Nat) (q : Queued) (fs : List Frame), IsPayload q.rest fs →
    q.rest.length < fuel → ∃ q', adjust streams fuel q = some q' ∧
      ((q'.rest = [] ∧ streamsOf fs = []) ∨
       ∃ f fs', isStream f = true ∧ IsPayload q'.rest (f :: fs') ∧ streamsOf fs = f :: streamsOf fs' ∧
        (q'.rest = q.rest ∧ q'.done = q.done ∨ q'.rest.length < q.rest.length ∧ q'.done = 0)) := by
  intro fuel
  induction fuel with
  | zero => intro q fs _ h; omega
  | succ fuel ih =>
    intro q fs hp hlen
    rw [adjust]
    cases hr : q.rest with
    | nil =>
      rw [hr] at hp
      refine ⟨q, rfl, .inl ⟨hr, ?_⟩⟩
      cases hp with
      | nil => rfl
      | cons hs _ => exact absurd hs Frames.not_startsWith_nil
    | cons b t =>
      dsimp only
      rw [hr] at hp
      cases hp with
      | @cons _ rest f fs hs hp =>
      have hb := head_stream hs
      cases hf : isStream f with
      | true =>
        rw [hf] at hb
        rw [if_pos hb]
        obtain ⟨id, offset, fin, data, explicit, rfl⟩ := (isStream_iff f).1 hf
        have hs' := hs
        obtain ⟨p, h1, h2, h3⟩ := hs
        obtain ⟨c, h4, _, _⟩ := parse_of_frame h2 rest h3
        unfold setKeys
        rw [hr, h1, h4]
        refine ⟨_, rfl, .inr ⟨_, fs, hf, ?_, ?_, .inl ⟨rfl, rfl⟩⟩⟩
        · rw [← h1]
          exact .cons hs' hp
        · exact List.filter_cons_of_pos rfl
      | false =>
        rw [hf] at hb
        rw [if_neg (by rw [hb]; decide)]
        obtain ⟨x, h1, h2, h3, _⟩ := Frames.skipFrame_complete hs
        have hl := startsWith_length hs
        rw [hr] at hlen
        rw [h1]
        dsimp only
        rw [if_pos h2, h3]
        obtain ⟨q', h4, h5⟩ := ih { q with rest := rest, done := 0 } fs hp (by dsimp only; omega)
        refine ⟨q', h4, ?_⟩
        have he : streamsOf (f :: fs) = streamsOf fs := by simp [streamsOf, hf]
        rw [he]
        rcases h5 with h5 | ⟨g, fs', h6, h7, h8, h9⟩
        · exact .inl h5
        · right
          refine ⟨g, fs', h6, h7, h8, .inr ?_⟩
          rcases h9 with ⟨h9, h10⟩ | ⟨h9, h10⟩
          · rw [h9, h10]; exact ⟨hl, rfl⟩
          · exact ⟨Nat.lt_trans h9 hl, h10⟩

theorem payload_cons_inv {bs : Bytes} {f : Frame} {fs : List Frame} (h : IsPayload bs (f :: fs)) :
    ∃ rest, StartsWith bs f rest ∧ IsPayload rest fs := by
  cases h with
  | cons hs hp => exact ⟨_, hs, hp⟩

/-- A packet at a frame boundary. -/
theorem qinv_of_payload {P : Frame → Prop} {q : Queued} {f : Frame} {fs : List Frame} (hf : isStream f = true)
    (h : IsPayload q.rest (f :: fs)) (hd : q.done = 0) (hP : P f) (hfs : ∀ g ∈ streamsOf fs, P g) :
    QInv P q ∧ ∀ id pos, PacketHasData q.rest id pos → ToRepeat q id pos := by
  obtain ⟨i, offset, fin, data, explicit, rfl⟩ := (isStream_iff f).1 hf
  have h' := h
  obtain ⟨rest, ⟨p, h1, h2, h3⟩, hp⟩ := payload_cons_inv h
  have hF : Front q p i offset fin data explicit rest fs 0 := ⟨h1, h2, h3, hp, by rw [hd]; omega, .inr rfl, fun _ => hd⟩
  refine ⟨⟨p, i, offset, fin, data, explicit, rest, fs, 0, hF, hP, hfs⟩, ?_⟩
  intro id pos h
  rw [packetHasData_iff h'] at h
  obtain ⟨g, hg, h4, h5⟩ := h
  rw [toRepeat_iff hF]
  have he : streamsOf (Frame.stream i offset fin data explicit :: fs) = .stream i offset fin data explicit :: streamsOf fs := 
    List.filter_cons_of_pos rfl
  rw [he, List.mem_cons] at hg
  rcases hg with rfl | hg
  · left
    exact ⟨h4.1.symm, h5, h4.2⟩
  · right
    exact (packetHasData_iff hp id pos).2 ⟨g, hg, h4, h5⟩

/-! ## Copying a frame -/

/-- The position is not acknowledged, on a stream which exists and was not reset. -/
def Unacked (streams : Streams) (id pos : Nat) : Prop :=
  ∃ s, streams id = some s ∧ s.resetSent = false ∧ ¬ Cov s.sack.items pos

/-- The lists of acknowledged ranges are in order. -/
def Sorted (streams : Streams) : Prop := ∀ id s, streams id = some s → Sep s.sack.items ∧ s.sack.horizonDelay = 0

theorem endOf_eq (offset len : Nat) (fin : Bool) (h1 : offset + len < 2 ^ 62) (h2 : 0 < len ∨ fin = true) :
    endOf offset len fin = offset + len - (if fin then 0 else 1) := by
  unfold endOf
  cases fin with
  | true => simp only [if_true, Nat.sub_zero]; omega
  | false =>
    have : 0 < len := by simpa using h2
    simp only [Bool.false_eq_true, if_false]; omega

theorem needed_of_unacked {streams : Streams} (hs : Sorted streams) {id offset len pos : Nat} {fin : Bool}
    (h1 : offset + len < 2 ^ 62) (h3 : offset ≤ pos) (h4 : pos < offset + len + (if fin then 1 else 0))
    (hu : Unacked streams id pos) : needed streams id offset len fin = true := by
  obtain ⟨s, e1, e2, e3⟩ := hu
  have h2 : 0 < len ∨ fin = true := by
    cases fin with
    | true => exact .inr rfl
    | false => simp at h4; left; omega
  unfold needed
  rw [e1]
  dsimp only
  rw [e2, endOf_eq _ _ _ h1 h2]
  cases hc : checkSackList s.sack offset (offset + len - (if fin then 0 else 1)) with
  | false => rfl
  | true =>
    exfalso
    rw [checkSackList_cov s.sack (hs id s e1).1 _ _ (by cases fin <;> simp at * <;> omega)] at hc
    exact e3 (hc pos h3 (by cases fin <;> simp at * <;> omega))

/-- `P` holds for the parts of frames. -/
def Fragments (P : Frame → Prop) : Prop :=
  ∀ id offset fin data explicit k m e, P (.stream id offset fin data explicit) → k + m ≤ data.length →
    (k < data.length ∨ k = 0) → (m = 0 → data.drop k = []) →
    P (.stream id (offset + k) (fin && decide (k + m = data.length)) ((data.drop k).take m) e)

theorem alreadySent_eq {done consumed len k : Nat} (hk : k = done - consumed) (h : k < len ∨ k = 0) :
    alreadySent done consumed len = k := by
  unfold alreadySent
  (repeat' split) <;> omega

/-- What a copy does: it writes a part of the frame, from the first byte not sent, and leaves the rest. -/
theorem copyFrame_spec {P : Frame → Prop} (hfrag : Fragments P) {streams : Streams} (hs : Sorted streams) {q : Queued}
    {p : Bytes} {id offset : Nat} {fin : Bool} {data : Bytes} {explicit : Bool} {rest : Bytes} {fs : List Frame} {k : Nat}
    (h : Front q p id offset fin data explicit rest fs k) (hP : P (.stream id offset fin data explicit))
    (hoff : offset + data.length < 2 ^ 62) (room : Nat) :
    ∃ out q', copyFrame streams q room = some (out, q') ∧ out.length ≤ room ∧
      (∃ os, IsPayload out os ∧ (∀ f ∈ streamsOf os, P f) ∧ ((∀ f ∈ os, Closed f) ∨ out.length = room)) ∧
      ((q'.rest = rest ∧ q'.done = 0 ∧
          ∀ pos, offset + k ≤ pos → pos < offset + data.length + (if fin then 1 else 0) → data ≠ [] →
            Unacked streams id pos → PacketHasData out id pos) ∨
       ∃ k', Front q' p id offset fin data explicit rest fs k' ∧
          ∀ pos, offset + k ≤ pos → pos < offset + data.length + (if fin then 1 else 0) → data ≠ [] →
            Unacked streams id pos → PacketHasData out id pos ∨ offset + k' ≤ pos) := by
  obtain ⟨c, h1, h2, h3⟩ := parse_of_frame h.frame rest h.closed
  have hc : c = p.length - data.length := by omega
  have hk := h.hk
  rw [← hc] at hk
  have hid : id < 2 ^ 62 := by
    obtain ⟨_, _, i, _, _, _, _, ⟨kk, hv⟩, _⟩ := h.frame
    obtain ⟨h1, _, h3, _⟩ := hv
    have : kk = 0 ∨ kk = 1 ∨ kk = 2 ∨ kk = 3 := by omega
    rcases this with rfl | rfl | rfl | rfl <;> omega
  unfold copyFrame
  rw [h.eq, h1]
  dsimp only
  rw [alreadySent_eq hk h.klt]
  have hd : (List.take data.length (List.drop c (p ++ rest))).drop k = data.drop k := by
    rw [List.drop_append_of_le_length (by omega), h3, List.take_left']
    rfl
  rw [hd]
  have hdrop : q.rest.drop (c + data.length) = rest := by
    rw [h.eq, h2, List.drop_left']
    rfl
  have hlen : (data.drop k).length = data.length - k := List.length_drop
  by_cases hn : needed streams id (offset + k) (data.length - k) fin = true
  · rw [if_pos hn]
    rcases writeRepeat_spec id (offset + k) fin (data.drop k) room hid (by rw [hlen]; have := h.klt; omega) with hw | hw
    · rw [hw]
      refine ⟨[], _, rfl, by simp, ⟨[], .nil, by simp [streamsOf], .inl (by simp)⟩, ?_⟩
      unfold progress
      dsimp only
      rw [hlen]
      by_cases h0 : data.length - k = 0
      · rw [if_pos h0, hdrop]
        left
        refine ⟨rfl, rfl, ?_⟩
        intro pos _ _ hne
        have := List.length_pos_iff.2 hne
        have := h.klt
        omega
      · rw [if_neg h0]
        right
        by_cases h4 : data.length - k < data.length
        · rw [if_pos h4]
          refine ⟨k, ⟨h.eq, h.frame, h.closed, h.payload, ?_, h.klt, fun h0 => by omega⟩, fun pos h5 _ _ _ => .inr h5⟩
          dsimp only; omega
        · rw [if_neg h4]
          exact ⟨k, h, fun pos h5 _ _ _ => .inr h5⟩
    · obtain ⟨pad, frame, e, m, hw, hf, hm, hm0, hl, hel⟩ := hw
      rw [hw]
      dsimp only
      rw [hlen] at hm hf ⊢
      have hpay : ∃ os, IsPayload (List.replicate pad 0 ++ frame) os ∧
          streamsOf os = [.stream id (offset + k) (fin && decide (m = data.length - k)) ((data.drop k).take m) e] ∧
          ((∀ f ∈ os, Closed f) ∨ (List.replicate pad 0 ++ frame).length = room) := by
        have hg : IsPayload frame [.stream id (offset + k) (fin && decide (m = data.length - k)) ((data.drop k).take m) e] :=
          .cons ⟨frame, by simp, hf, Frames.endsWith_nil _⟩ .nil
        cases pad with
        | zero =>
          refine ⟨_, hg, rfl, ?_⟩
          cases e with
          | true => left; intro f hf'; rw [List.mem_singleton.1 hf']; rfl
          | false => right; exact hel rfl
        | succ n =>
          have hne : (frame).head? ≠ some 0 := by
            obtain ⟨ty, wo, i, o, l, rfl, ht, _⟩ := hf
            intro h0
            have : ty = 0 := by simpa using h0
            rw [this] at ht
            simp at ht
            omega
          refine ⟨[.padding n, _], .cons ⟨_, rfl, ⟨⟨[], by simp, rfl⟩, trivial⟩, hne⟩ hg, by simp [streamsOf, isStream], ?_⟩
          cases e with
          | true =>
            left
            intro f hf'
            rcases List.mem_cons.1 hf' with rfl | hf'
            · trivial
            · rw [List.mem_singleton.1 hf']; rfl
          | false => right; exact hel rfl
      obtain ⟨os, ho1, ho2, ho3⟩ := hpay
      have hdec : decide (m = data.length - k) = decide (k + m = data.length) := by
        have := h.klt
        rw [Bool.eq_iff_iff, decide_eq_true_eq, decide_eq_true_eq]; omega
      have hhas : ∀ pos, data ≠ [] → offset + k ≤ pos → (pos < offset + k + m ∨ m = data.length - k ∧
          pos < offset + data.length + (if fin then 1 else 0)) → PacketHasData (List.replicate pad 0 ++ frame) id pos := by
        intro pos hne h5 h6
        rw [packetHasData_iff ho1, ho2]
        refine ⟨_, List.mem_singleton.2 rfl, ⟨rfl, h5, ?_⟩, ?_⟩
        · rw [List.length_take, hlen, Nat.min_eq_left hm]
          rcases h6 with h6 | ⟨h6, h7⟩
          · split <;> omega
          · simp only [h6, decide_true, Bool.and_true]
            have := h.klt
            omega
        · have := List.length_pos_iff.2 hne
          have hkl := h.klt
          intro h0
          have h0 := congrArg List.length h0
          rw [List.length_take, hlen, Nat.min_eq_left hm, List.length_nil] at h0
          have h8 := congrArg List.length (hm0 h0)
          rw [hlen, List.length_nil] at h8
          omega
      refine ⟨_, _, rfl, hl, ⟨os, ho1, ?_, ho3⟩, ?_⟩
      · rw [ho2]
        intro f hf'
        rw [List.mem_singleton.1 hf', hdec]
        exact hfrag id offset fin data explicit k m e hP (by have := h.klt; omega) h.klt hm0
      · unfold progress
        by_cases h0 : data.length - k - m = 0
        · rw [if_pos h0, hdrop]
          left
          refine ⟨rfl, rfl, ?_⟩
          intro pos h5 h6 hne _
          exact hhas pos hne h5 (.inr ⟨by omega, h6⟩)
        · rw [if_neg h0]
          right
          have hmpos : m ≠ 0 := by
            intro hm'
            have h8 := congrArg List.length (hm0 hm')
            rw [hlen, List.length_nil] at h8
            omega
          rw [if_pos (by omega)]
          refine ⟨k + m, ⟨h.eq, h.frame, h.closed, h.payload, ?_, .inl (by omega), fun h0 => by omega⟩, ?_⟩
          · dsimp only; omega
          · intro pos h5 h6 hne _
            by_cases h7 : pos < offset + k + m
            · exact .inl (hhas pos hne h5 (.inl h7))
            · right; omega
  · rw [if_neg hn]
    refine ⟨[], _, rfl, by simp, ⟨[], .nil, by simp [streamsOf], .inl (by simp)⟩, .inl ?_⟩
    unfold progress
    rw [if_pos rfl, hdrop]
    refine ⟨rfl, rfl, ?_⟩
    intro pos h5 h6 hne hu
    exfalso
    exact hn (needed_of_unacked hs (by have := h.klt; omega) h5 (by have := h.klt; omega) hu)

/-- What becomes of the packet. -/
def Left (P : Frame → Prop) (streams : Streams) (q : Queued) (out : Bytes) : Copied → Prop
  | .dequeued => ∀ id pos, ToRepeat q id pos → Unacked streams id pos → PacketHasData out id pos
  | .requeued q' => QInv P q' ∧
      ∀ id pos, ToRepeat q id pos → Unacked streams id pos → PacketHasData out id pos ∨ ToRepeat q' id pos
  | .kept q' => QInv P q' ∧
      ∀ id pos, ToRepeat q id pos → Unacked streams id pos → PacketHasData out id pos ∨ ToRepeat q' id pos

/-- The packet at a frame boundary, after moving to the next STREAM frame. -/
theorem adjusted {P : Frame → Prop} {streams : Streams} {q1 : Queued} {fs : List Frame} (hp : IsPayload q1.rest fs)
    (hd : q1.done = 0) (hP : ∀ f ∈ streamsOf fs, P f) :
    ∃ q2, adjust streams (q1.rest.length + 1) q1 = some q2 ∧
      ((q2.rest = [] ∧ streamsOf fs = []) ∨
       (q2.rest ≠ [] ∧ q2.rest.length ≤ q1.rest.length ∧ QInv P q2 ∧
         ∀ id pos, PacketHasData q1.rest id pos → ToRepeat q2 id pos)) := by
  obtain ⟨q2, h1, h2⟩ := adjust_spec streams (q1.rest.length + 1) q1 fs hp (by omega)
  refine ⟨q2, h1, ?_⟩
  rcases h2 with h2 | ⟨f, fs', hf, hp', he, h2⟩
  · exact .inl h2
  · right
    have hd2 : q2.done = 0 := by rcases h2 with ⟨_, h2⟩ | ⟨_, h2⟩ <;> omega
    rw [he] at hP
    obtain ⟨h3, h4⟩ := qinv_of_payload hf hp' hd2 (hP f (List.mem_cons_self ..))
      (fun g hg => hP g (List.mem_cons_of_mem _ hg))
    refine ⟨?_, ?_, h3, ?_⟩
    · intro h0
      rw [h0] at hp'
      obtain ⟨r, hr, _⟩ := payload_cons_inv hp'
      exact absurd hr Frames.not_startsWith_nil
    · rcases h2 with ⟨h2, _⟩ | ⟨h2, _⟩
      · rw [h2]; exact Nat.le_refl _
      · omega
    · intro id pos h5
      apply h4
      rw [packetHasData_iff hp] at h5
      rw [packetHasData_iff hp']
      have he' : streamsOf (f :: fs') = f :: streamsOf fs' := List.filter_cons_of_pos hf
      rw [he', ← he]
      exact h5

theorem copySingle_spec {P : Frame → Prop} (hfrag : Fragments P) (hsend : ∀ f, P f → Sendable f) {streams : Streams}
    (hs : Sorted streams) {q : Queued} (hq : QInv P q) (room : Nat) :
    ∃ out c, copySingle streams q room = some (out, c) ∧ out.length ≤ room ∧
      (∃ os, IsPayload out os ∧ (∀ f ∈ streamsOf os, P f) ∧ ((∀ f ∈ os, Closed f) ∨ out.length = room)) ∧
      Left P streams q out c := by
  obtain ⟨p, id, offset, fin, data, explicit, rest, fs, k, hF, hP, hfs⟩ := hq
  have hoff := (hsend _ hP).1
  obtain ⟨out, q1, h1, h2, h3, h4⟩ := copyFrame_spec hfrag hs hF hP hoff room
  have hhead : isStreamType (q.rest.headD 0) = true := by
    have hh := hF.starts
    cases hr : q.rest with
    | nil => rw [hr] at hh; exact absurd hh Frames.not_startsWith_nil
    | cons b t =>
      rw [hr] at hh
      exact head_stream hh
  unfold copySingle
  rw [if_pos hhead, h1]
  dsimp only
  rcases h4 with ⟨e1, e2, h4⟩ | ⟨k', hF', h4⟩
  · -- the frame is finished
    obtain ⟨q2, h5, h6⟩ := adjusted (P := P) (streams := streams) (q1 := q1) (fs := fs) (by rw [e1]; exact hF.payload) e2 hfs
    rw [h5]
    dsimp only
    rcases h6 with ⟨h6, h7⟩ | ⟨h6, h7, h8, h9⟩
    · rw [if_pos h6]
      refine ⟨_, _, rfl, h2, h3, ?_⟩
      intro i pos ht hu
      rw [toRepeat_iff hF] at ht
      rcases ht with ⟨rfl, t1, t2, t3⟩ | ht
      · exact h4 pos t2 t3 t1 hu
      · rw [packetHasData_iff hF.payload, h7] at ht
        obtain ⟨_, hm, _⟩ := ht
        cases hm
    · rw [if_neg h6]
      have hlt : q2.rest.length < q.rest.length := by
        rw [e1] at h7
        have := startsWith_length hF.starts
        omega
      rw [if_pos hlt]
      refine ⟨_, _, rfl, h2, h3, h8, ?_⟩
      intro i pos ht hu
      rw [toRepeat_iff hF] at ht
      rcases ht with ⟨rfl, t1, t2, t3⟩ | ht
      · exact .inl (h4 pos t2 t3 t1 hu)
      · rw [← e1] at ht
        exact .inr (h9 i pos ht)
  · -- some bytes are left
    have hpay : IsPayload q1.rest (.stream id offset fin data explicit :: fs) := .cons hF'.starts hF'.payload
    obtain ⟨q2, h5, h6⟩ := adjust_spec streams (q1.rest.length + 1) q1 _ hpay (by omega)
    rw [h5]
    dsimp only
    have hst : streamsOf (Frame.stream id offset fin data explicit :: fs) = .stream id offset fin data explicit :: streamsOf fs :=
      List.filter_cons_of_pos rfl
    have heq : q2.rest = q1.rest ∧ q2.done = q1.done := by
      have hlen := startsWith_length hF'.starts
      cases hr : q1.rest with
      | nil => rw [hr] at hlen; simp at hlen
      | cons b t =>
        have hb : isStreamType b = true := by
          have hh := hF'.starts
          rw [hr] at hh
          exact head_stream hh
        rw [adjust, hr] at h5
        dsimp only at h5
        rw [if_pos hb] at h5
        unfold setKeys at h5
        split at h5
        · cases h5
        · rw [← Option.some.inj h5]; exact ⟨hr, rfl⟩
    have hF2 : Front q2 p id offset fin data explicit rest fs k' :=
      ⟨heq.1.trans hF'.eq, hF'.frame, hF'.closed, hF'.payload, by rw [heq.2]; exact hF'.hk, hF'.klt, by rw [heq.2]; exact hF'.hz⟩
    have hne : q2.rest ≠ [] := by
      intro h0
      have := startsWith_length hF2.starts
      rw [h0] at this
      simp at this
    have hnlt : ¬ q2.rest.length < q.rest.length := by
      rw [hF2.eq, hF.eq]
      omega
    rw [if_neg hne, if_neg hnlt]
    refine ⟨_, _, rfl, h2, h3, ⟨p, id, offset, fin, data, explicit, rest, fs, k', hF2, hP, hfs⟩, ?_⟩
    intro i pos ht hu
    rw [toRepeat_iff hF] at ht
    rw [toRepeat_iff hF2]
    rcases ht with ⟨rfl, t1, t2, t3⟩ | ht
    · rcases h4 pos t2 t3 t1 hu with h4 | h4
      · exact .inl h4
      · exact .inr (.inl ⟨rfl, t1, h4, t3⟩)
    · exact .inr (.inr ht)

/-! ## The loop -/

theorem mem_insertAt {n : Nat} {q x : Queued} {l : List Queued} : x ∈ insertAt n q l ↔ x = q ∨ x ∈ l := by
  unfold insertAt
  rw [List.mem_append, List.mem_cons]
  have : x ∈ l ↔ x ∈ l.take n ∨ x ∈ l.drop n := by
    rw [← List.mem_append, List.take_append_drop]
  rw [this]
  constructor
  · rintro (h | h | h)
    · exact .inr (.inl h)
    · exact .inl h
    · exact .inr (.inr h)
  · rintro (h | h | h)
    · exact .inr (.inl h)
    · exact .inl h
    · exact .inr (.inr h)

theorem copyLoop_spec {P : Frame → Prop} (hfrag : Fragments P) (hsend : ∀ f, P f → Sendable f) {streams : Streams}
    (hs : Sorted streams) (place : List Queued → Queued → Nat) (current : Nat) : ∀ (fuel : Nat) (queue : List Queued) (room : Nat),
    (∀ q ∈ queue, QInv P q) →
    ∃ out queue', copyLoop place streams current fuel queue room = some (out, queue') ∧ out.length ≤ room ∧
      (∃ os, IsPayload out os ∧ (∀ f ∈ streamsOf os, P f) ∧ ((∀ f ∈ os, Closed f) ∨ out.length = room)) ∧
      (∀ q ∈ queue', QInv P q) ∧
      ∀ id pos, (∃ q ∈ queue, ToRepeat q id pos) → Unacked streams id pos →
        PacketHasData out id pos ∨ ∃ q ∈ queue', ToRepeat q id pos := by
  intro fuel
  induction fuel with
  | zero =>
    intro queue room hq
    exact ⟨[], queue, rfl, by simp, ⟨[], .nil, by simp [streamsOf], .inl (by simp)⟩, hq, fun _ _ h _ => .inr h⟩
  | succ fuel ih =>
    intro queue room hq
    cases queue with
    | nil =>
      refine ⟨[], [], rfl, by simp, ⟨[], .nil, by simp [streamsOf], .inl (by simp)⟩, hq, fun _ _ h _ => .inr h⟩
    | cons q queue =>
      rw [copyLoop]
      by_cases hp : q.priority > current
      · rw [if_pos hp]
        exact ⟨[], _, rfl, by simp, ⟨[], .nil, by simp [streamsOf], .inl (by simp)⟩, hq, fun _ _ h _ => .inr h⟩
      · rw [if_neg hp]
        have hq0 := hq q (List.mem_cons_self ..)
        have hq' : ∀ x ∈ queue, QInv P x := fun x hx => hq x (List.mem_cons_of_mem _ hx)
        obtain ⟨out, c, h1, h2, ⟨os, o1, o2, o3⟩, h4⟩ := copySingle_spec hfrag hsend hs hq0 room
        rw [h1]
        cases c with
        | dequeued =>
          dsimp only
          by_cases hl : out.length < room
          · rw [if_pos hl]
            obtain ⟨out', queue', g1, g2, ⟨os', p1, p2, p3⟩, g4, g5⟩ := ih queue (room - out.length) hq'
            rw [g1]
            obtain ⟨hs', r1, r2, r3⟩ := payload_append o1 p1 (.inr (by
              rcases o3 with o3 | o3
              · exact o3
              · omega))
            refine ⟨_, _, rfl, ?_, ⟨hs', r1, ?_, ?_⟩, g4, ?_⟩
            · rw [List.length_append]; omega
            · rw [r2]
              intro f hf
              rcases List.mem_append.1 hf with hf | hf
              · exact o2 f hf
              · exact p2 f hf
            · rcases p3 with p3 | p3
              · left
                have hcl : ∀ f ∈ os, Closed f := by
                  rcases o3 with o3 | o3
                  · exact o3
                  · omega
                exact r3 hcl p3
              · right
                rw [List.length_append]; omega
            · rintro id pos ⟨x, hx, ht⟩ hu
              have hout : PacketHasData out id pos ∨ PacketHasData out' id pos → PacketHasData (out ++ out') id pos := by
                rw [packetHasData_iff r1, packetHasData_iff o1, packetHasData_iff p1, r2]
                rintro (⟨f, hf, h⟩ | ⟨f, hf, h⟩)
                · exact ⟨f, List.mem_append_left _ hf, h⟩
                · exact ⟨f, List.mem_append_right _ hf, h⟩
              rcases List.mem_cons.1 hx with rfl | hx
              · exact .inl (hout (.inl (h4 id pos ht hu)))
              · rcases g5 id pos ⟨x, hx, ht⟩ hu with h | h
                · exact .inl (hout (.inr h))
                · exact .inr h
          · rw [if_neg hl]
            refine ⟨_, _, rfl, h2, ⟨os, o1, o2, o3⟩, hq', ?_⟩
            rintro id pos ⟨x, hx, ht⟩ hu
            rcases List.mem_cons.1 hx with rfl | hx
            · exact .inl (h4 id pos ht hu)
            · exact .inr ⟨x, hx, ht⟩
        | requeued q' =>
          refine ⟨_, _, rfl, h2, ⟨os, o1, o2, o3⟩, ?_, ?_⟩
          · intro x hx
            rcases mem_insertAt.1 hx with rfl | hx
            · exact h4.1
            · exact hq' x hx
          · rintro id pos ⟨x, hx, ht⟩ hu
            rcases List.mem_cons.1 hx with rfl | hx
            · rcases h4.2 id pos ht hu with h | h
              · exact .inl h
              · exact .inr ⟨_, mem_insertAt.2 (.inl rfl), h⟩
            · exact .inr ⟨x, mem_insertAt.2 (.inr hx), ht⟩
        | kept q' =>
          refine ⟨_, _, rfl, h2, ⟨os, o1, o2, o3⟩, ?_, ?_⟩
          · intro x hx
            rcases List.mem_cons.1 hx with rfl | hx
            · exact h4.1
            · exact hq' x hx
          · rintro id pos ⟨x, hx, ht⟩ hu
            rcases List.mem_cons.1 hx with rfl | hx
            · rcases h4.2 id pos ht hu with h | h
              · exact .inl h
              · exact .inr ⟨_, List.mem_cons_self .., h⟩
            · exact .inr ⟨x, List.mem_cons_of_mem _ hx, ht⟩

/-! ## Loss -/

/-- A packet made of frames, the STREAM frames of which satisfy `P`. -/
def Good (P : Frame → Prop) (p : Bytes) : Prop := ∃ fs, IsPayload p fs ∧ ∀ f ∈ streamsOf fs, P f

theorem streamsOf_cons_pos {f : Frame} (fs : List Frame) (h : isStream f = true) : streamsOf (f :: fs) = f :: streamsOf fs :=
  List.filter_cons_of_pos h

theorem streamsOf_cons_neg {f : Frame} (fs : List Frame) (h : isStream f = false) : streamsOf (f :: fs) = streamsOf fs :=
  List.filter_cons_of_neg (by rw [h]; decide)

theorem scanLost_spec {streams : Streams} (hs : Sorted streams) : ∀ (fuel : Nat) (bs : Bytes) (fs : List Frame),
    IsPayload bs fs → (∀ f ∈ streamsOf fs, Sendable f) → bs.length < fuel →
    ∃ add, scanLost streams fuel bs = some add ∧
      (add = false → ∀ f ∈ streamsOf fs, ∀ id pos, FrameHas f id pos → ¬ Unacked streams id pos) := by
  intro fuel
  induction fuel with
  | zero => intro bs fs _ _ h; omega
  | succ fuel ih =>
    intro bs fs hp hsend hlen
    cases hp with
    | nil => exact ⟨false, rfl, fun _ f hf => by cases hf⟩
    | @cons _ rest f fs hst hp =>
    cases bs with
    | nil => exact absurd hst Frames.not_startsWith_nil
    | cons b t =>
      rw [scanLost]
      obtain ⟨x, h1, h2, h3, _⟩ := Frames.skipFrame_complete hst
      have hb := head_stream hst
      have hl := startsWith_length hst
      rw [h1]
      dsimp only
      rw [if_pos h2, h3]
      cases hf : isStream f with
      | false =>
        rw [hf] at hb
        rw [if_neg (by rw [hb]; decide)]
        rw [streamsOf_cons_neg _ hf] at hsend ⊢
        obtain ⟨add, h4, h5⟩ := ih rest fs hp hsend (by omega)
        dsimp only
        rw [h4]
        exact ⟨_, rfl, h5⟩
      | true =>
        rw [hf] at hb
        rw [if_pos hb]
        rw [streamsOf_cons_pos _ hf] at hsend ⊢
        obtain ⟨add, h4, h5⟩ := ih rest fs hp (fun g hg => hsend g (List.mem_cons_of_mem _ hg)) (by omega)
        obtain ⟨id, offset, fin, data, explicit, rfl⟩ := (isStream_iff f).1 hf
        obtain ⟨p, e1, e2, e3⟩ := hst
        have ht : (b :: t).take x.consumed = p := by
          have := List.take_append_drop x.consumed (b :: t)
          rw [h3] at this
          rw [e1] at this ⊢
          exact List.append_cancel_right this
        obtain ⟨c, e4, _, _⟩ := parse_of_frame e2 [] (fun _ => rfl)
        rw [List.append_nil] at e4
        rw [ht, e4]
        simp only [Option.map_some]
        rw [h4]
        refine ⟨_, rfl, ?_⟩
        intro ha g hg i pos hh hu
        rw [Bool.or_eq_false_iff] at ha
        rcases List.mem_cons.1 hg with rfl | hg
        · obtain ⟨rfl, g1, g2⟩ := hh
          have := needed_of_unacked hs (hsend _ (List.mem_cons_self ..)).1 g1 g2 hu
          rw [this] at ha
          cases ha.1
        · exact h5 ha.2 g hg i pos hh hu

theorem enqueue_spec {P : Frame → Prop} (place : List Queued → Queued → Nat) {streams : Streams} {p : Bytes}
    (hp : Good P p) {queue : List Queued} (hq : ∀ q ∈ queue, QInv P q) :
    (∀ q ∈ enqueue place streams p queue, QInv P q) ∧ (∀ q ∈ queue, q ∈ enqueue place streams p queue) ∧
    ∀ id pos, PacketHasData p id pos → ∃ q ∈ enqueue place streams p queue, ToRepeat q id pos := by
  obtain ⟨fs, h1, h2⟩ := hp
  obtain ⟨q2, h3, h4⟩ := adjusted (P := P) (streams := streams) (q1 := ⟨p, 0, 0, 0, 0, 0⟩) (fs := fs) h1 rfl h2
  dsimp only at h3
  unfold enqueue
  rw [h3]
  dsimp only
  rcases h4 with ⟨h4, h5⟩ | ⟨h4, h5, h6, h7⟩
  · rw [if_pos h4]
    refine ⟨hq, fun q hq => hq, ?_⟩
    intro id pos h
    rw [packetHasData_iff h1, h5] at h
    obtain ⟨_, h, _⟩ := h
    cases h
  · rw [if_neg h4]
    refine ⟨?_, fun q hq => mem_insertAt.2 (.inr hq), fun id pos h => ⟨q2, mem_insertAt.2 (.inl rfl), h7 id pos h⟩⟩
    intro q hx
    rcases mem_insertAt.1 hx with rfl | hx
    · exact h6
    · exact hq q hx

/-! ## Acknowledgement -/

/-- The effect of acknowledgements: more positions are acknowledged, those of `has`. -/
def Acked (streams streams' : Streams) (has : Nat → Nat → Prop) : Prop :=
  ∀ id, (streams id = none → streams' id = none) ∧
    ∀ s, streams id = some s → ∃ s', streams' id = some s' ∧ s'.resetSent = s.resetSent ∧
      ∀ n, Cov s'.sack.items n ↔ Cov s.sack.items n ∨ has id n

theorem recordAck_spec {streams : Streams} (hs : Sorted streams) {id lo hi : Nat} (h : lo ≤ hi) :
    Sorted (recordAck streams id lo hi) ∧
      Acked streams (recordAck streams id lo hi) (fun i n => i = id ∧ lo ≤ n ∧ n ≤ hi) := by
  have key : ∀ s : StreamState, Sep s.sack.items ∧ s.sack.horizonDelay = 0 → ∀ r : StreamState,
      r = { s with sack := (updateSackList s.sack lo hi 0).1 } →
      (Sep r.sack.items ∧ r.sack.horizonDelay = 0) ∧ ∀ n, Cov r.sack.items n ↔ Cov s.sack.items n ∨ (lo ≤ n ∧ n ≤ hi) := by
    rintro s ⟨h1, h2⟩ r rfl
    have h3 := updateCore_spec s.sack lo hi 0 h1 h
    dsimp only at h3 ⊢
    have h4 : updateSackList s.sack lo hi 0 = updateCore s.sack lo hi 0 := by
      unfold updateSackList
      dsimp only
      rw [if_neg (by rw [h2]; decide)]
    rw [h4]
    exact ⟨⟨h3.1, h3.2.2.2.2.1.trans h2⟩, h3.2.1⟩
  constructor
  · intro i s hi'
    unfold recordAck at hi'
    cases hst : streams i with
    | none => rw [hst] at hi'; cases hi'
    | some s0 =>
      rw [hst] at hi'
      dsimp only at hi'
      by_cases he : i = id
      · rw [if_pos he] at hi'
        exact (key s0 (hs i s0 hst) s (Option.some.inj hi').symm).1
      · rw [if_neg he] at hi'
        rw [← Option.some.inj hi']
        exact hs i s0 hst
  · intro i
    constructor
    · intro h0
      unfold recordAck
      rw [h0]
    · intro s hst
      by_cases he : i = id
      · refine ⟨{ s with sack := (updateSackList s.sack lo hi 0).1 }, ?_, ?_, ?_⟩
        · unfold recordAck; rw [hst]; dsimp only; rw [if_pos he]
        · rfl
        · intro n
          rw [(key s (hs i s hst) _ rfl).2 n]
          simp [he]
      · refine ⟨s, ?_, rfl, ?_⟩
        · unfold recordAck; rw [hst]; dsimp only; rw [if_neg he]
        · intro n; simp [he]

theorem ackFrames_spec : ∀ (fuel : Nat) (bs : Bytes) (fs : List Frame) (streams : Streams),
    IsPayload bs fs → (∀ f ∈ streamsOf fs, Sendable f) → bs.length < fuel → Sorted streams →
    Sorted (ackFrames fuel bs streams) ∧
      Acked streams (ackFrames fuel bs streams) (fun id n => ∃ f ∈ streamsOf fs, FrameHas f id n) := by
  intro fuel
  induction fuel with
  | zero => intro bs fs _ _ _ h; omega
  | succ fuel ih =>
    intro bs fs streams hp hsend hlen hs
    cases hp with
    | nil =>
      have e0 : ackFrames (fuel + 1) [] streams = streams := rfl
      rw [e0]
      refine ⟨hs, fun id => ⟨fun h => h, fun s h => ⟨s, h, rfl, fun n => ?_⟩⟩⟩
      simp [streamsOf]
    | @cons _ rest f fs hst hp =>
    cases bs with
    | nil => exact absurd hst Frames.not_startsWith_nil
    | cons b t =>
      rw [ackFrames]
      have hb := head_stream hst
      have hl := startsWith_length hst
      cases hf : isStream f with
      | false =>
        rw [hf] at hb
        rw [if_neg (by rw [hb]; decide)]
        obtain ⟨x, h1, h2, h3, _⟩ := Frames.skipFrame_complete hst
        rw [h1]
        dsimp only
        rw [if_pos h2, h3]
        rw [streamsOf_cons_neg _ hf] at hsend ⊢
        exact ih rest fs streams hp hsend (by omega) hs
      | true =>
        rw [hf] at hb
        rw [if_pos hb]
        rw [streamsOf_cons_pos _ hf] at hsend ⊢
        obtain ⟨id, offset, fin, data, explicit, rfl⟩ := (isStream_iff f).1 hf
        obtain ⟨p, e1, e2, e3⟩ := hst
        obtain ⟨c, e4, e5, _⟩ := parse_of_frame e2 rest e3
        rw [e1, e4]
        dsimp only
        rw [e5, List.drop_left' rfl]
        have hsd := hsend _ (List.mem_cons_self ..)
        have hne : 0 < data.length ∨ fin = true := hsd.2.imp (fun h => List.length_pos_iff.2 h) (fun h => h)
        rw [endOf_eq offset data.length fin hsd.1 hne]
        obtain ⟨r1, r2⟩ := recordAck_spec hs (id := id) (lo := offset)
          (hi := offset + data.length - (if fin = true then 0 else 1)) (by
            rcases hne with h | h
            · split <;> omega
            · rw [if_pos h]; omega)
        obtain ⟨i1, i2⟩ := ih rest fs _ hp (fun g hg => hsend g (List.mem_cons_of_mem _ hg)) (by omega) r1
        refine ⟨i1, ?_⟩
        intro i
        refine ⟨fun h0 => (i2 i).1 ((r2 i).1 h0), ?_⟩
        intro s h0
        obtain ⟨s1, a1, a2, a3⟩ := (r2 i).2 s h0
        obtain ⟨s2, b1, b2, b3⟩ := (i2 i).2 s1 a1
        refine ⟨s2, b1, b2.trans a2, ?_⟩
        intro n
        rw [b3, a3]
        have hfh : FrameHas (.stream id offset fin data explicit) i n ↔
            i = id ∧ offset ≤ n ∧ n ≤ offset + data.length - (if fin = true then 0 else 1) := by
          unfold FrameHas
          dsimp only
          constructor
          · rintro ⟨rfl, h1, h2⟩
            refine ⟨rfl, h1, ?_⟩
            cases fin <;> simp at * <;> omega
          · rintro ⟨rfl, h1, h2⟩
            refine ⟨rfl, h1, ?_⟩
            cases fin <;> simp at * <;> omega
        constructor
        · rintro ((h | h) | ⟨g, hg, h⟩)
          · exact .inl h
          · exact .inr ⟨_, List.mem_cons_self .., hfh.2 h⟩
          · exact .inr ⟨g, List.mem_cons_of_mem _ hg, h⟩
        · rintro (h | ⟨g, hg, h⟩)
          · exact .inl (.inl h)
          · rcases List.mem_cons.1 hg with rfl | hg
            · exact .inl (.inr (hfh.1 h))
            · exact .inr ⟨g, hg, h⟩

end Picoquic.Repeat
