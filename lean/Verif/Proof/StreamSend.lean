import Verif.Spec.StreamSend
import Verif.Proof.StreamFrame
import Verif.Proof.StreamRun
/-!
# Transitions of the send side of one stream

Every step of the model changes a stream, and emits events on it, by a sequence of the transitions
`Trans`. Properties of one stream are then proved for `Trans` only.
-/

namespace Picoquic.StreamSend
open Picoquic Picoquic.StreamFrame Picoquic.Spec

/-- The identifier of an event. -/
def Event.id : Event → Nat
  | .accepted i _ _ => i
  | .refused i _ _ => i
  | .stream i _ _ _ _ => i
  | .reset i _ _ => i
  | .stopSending i _ => i

/-- Events of one stream. -/
def evOf (id : Nat) (ev : List Event) : List Event := ev.filter (fun e => e.id = id)

/-- The fields that decide what is sent on the stream. -/
structure SameSend (s t : Stream) : Prop where
  sentOffset : t.sentOffset = s.sentOffset
  queue : t.queue = s.queue
  finRequested : t.finRequested = s.finRequested
  finSent : t.finSent = s.finSent
  resetRequested : t.resetRequested = s.resetRequested
  resetSent : t.resetSent = s.resetSent
  localError : t.localError = s.localError
  active : t.isActive = true → s.isActive = true ∨ s.finRequested = false

/-- `raw` is a frame written by the code of C17. -/
def Raw (id offset : Nat) (fin : Bool) (data raw : Bytes) : Prop :=
  ∃ (room : Nat) (header : Bytes) (polled : Bool), formatStreamFrameHeader id offset room = some header ∧
    data.length ≤ room - header.length ∧
    raw = if polled then polledFrame header (room - header.length) data fin
      else queuedFrame header (room - header.length) data fin

/-- The transitions of a stream; `L` is the flow control limit received, if any. -/
inductive Trans (id L : Nat) : Stream → Stream → List Event → Prop
  | same {s t} : SameSend s t → t.maxdataRemote ≤ max s.maxdataRemote L → Trans id L s t []
  | write {s} (data fin) : Trans id L s (addToStream s data fin).1
      [if (addToStream s data fin).2 then .accepted id data fin else .refused id data fin]
  | reqReset {s} (error acked) : Trans id L s (requestReset s error acked) []
  | polled {s t} (data fin raw) : s.isActive = true → s.queue = [] → s.finRequested = false →
      s.resetRequested = false → s.resetSent = false → data.length ≤ s.maxdataRemote - s.sentOffset →
      Raw id s.sentOffset fin data raw →
      t.sentOffset = s.sentOffset + data.length → t.queue = [] → t.finRequested = fin →
      t.finSent = (s.finSent || fin) → t.resetRequested = false → t.resetSent = false →
      (fin = true → t.isActive = false) → t.maxdataRemote = s.maxdataRemote →
      Trans id L s t [.accepted id data fin, .stream id s.sentOffset fin data raw]
  | queued {s t} (data rest fin raw) : s.resetRequested = false → s.resetSent = false →
      (s.isActive = true ∨ s.queue ≠ [] ∨ (s.finRequested = true ∧ s.finSent = false)) →
      s.queue.flatten = data ++ rest →
      data.length ≤ s.maxdataRemote - s.sentOffset → Raw id s.sentOffset fin data raw →
      t.sentOffset = s.sentOffset + data.length → t.queue.flatten = rest →
      t.finRequested = s.finRequested → t.finSent = (s.finSent || fin) →
      (fin = true → s.finRequested = true ∧ t.queue = []) →
      (t.queue = [] → fin = s.finRequested) → t.resetRequested = false → t.resetSent = false →
      t.isActive = s.isActive → t.maxdataRemote = s.maxdataRemote →
      Trans id L s t [.stream id s.sentOffset fin data raw]
  | reset {s t} : s.resetRequested = true → s.resetSent = false → t.sentOffset = s.sentOffset →
      t.resetSent = true → t.resetRequested = true → t.maxdataRemote = s.maxdataRemote →
      t.finSent = true → t.finRequested = s.finRequested → t.isActive = s.isActive →
      Trans id L s t [.reset id s.localError s.sentOffset]
  | stopSending {s t error} : SameSend s t → t.maxdataRemote = s.maxdataRemote → Trans id L s t [.stopSending id error]

/-- Sequences of transitions. -/
inductive Star (id L : Nat) : Stream → Stream → List Event → Prop
  | nil {s} : Star id L s s []
  | snoc {s t u e f} : Star id L s t e → Trans id L t u f → Star id L s u (e ++ f)

theorem Star.one {id L s t e} (h : Trans id L s t e) : Star id L s t e := Star.snoc (e := []) .nil h

theorem Star.append {id L s t u e f} (h : Star id L s t e) (h' : Star id L t u f) : Star id L s u (e ++ f) := by
  induction h' with
  | nil => simpa using h
  | snoc _ ht ih => rw [← List.append_assoc]; exact .snoc ih ht

theorem SameSend.refl (s : Stream) : SameSend s s := ⟨rfl, rfl, rfl, rfl, rfl, rfl, rfl, fun h => .inl h⟩

/-! ## Structure of the connection -/

/-- The streams that may be used have their identifier, and there is no trace of streams that do not exist
yet. -/
structure Base (c : Conn) : Prop where
  idOf : ∀ i ∈ c.ids, (c.get i).id = i
  out : ∀ i ∈ c.output, i ∈ c.ids
  fresh : ∀ i, c.nextStreamId (i % 4) ≤ i → SameSend {} (c.get i) ∧ i ∉ c.ids

theorem insertLoop_mem (g : Nat → Stream) (id x : Nat) (l : List Nat) :
    x ∈ insertLoop g id l ↔ x = id ∨ x ∈ l := by
  induction l with
  | nil => simp [insertLoop]
  | cons y l ih =>
    unfold insertLoop
    split
    · simp
    · simp only [List.mem_cons, ih]
      constructor
      · rintro (h | h | h) <;> simp [h]
      · rintro (h | h | h) <;> simp [h]

/-- `insertOutput` changes only the output list. -/
theorem insertOutput_out (c : Conn) (id : Nat) : ∃ l, insertOutput c id = { c with output := l } ∧
    ∀ x ∈ l, x = id ∨ x ∈ c.output := by
  unfold insertOutput
  split
  · exact ⟨c.output, rfl, fun x h => .inr h⟩
  · split
    · exact ⟨c.output, rfl, fun x h => .inr h⟩
    · split
      · exact ⟨_, rfl, fun _ h => by simp at h; exact .inl h⟩
      · split
        · exact ⟨_, rfl, fun _ h => (insertLoop_mem _ _ _ _).1 h⟩
        · exact ⟨_, rfl, fun _ h => by simp at h; exact h.symm⟩

theorem removeOutput_out (c : Conn) (id : Nat) : ∃ l, removeOutput c id = { c with output := l } ∧
    ∀ x ∈ l, x ∈ c.output := ⟨_, rfl, fun x h => (List.mem_filter.1 h).1⟩

/-- Changes of the output list only. -/
def OutOnly (c d : Conn) : Prop := ∃ l, d = { c with output := l }

theorem OutOnly.refl (c : Conn) : OutOnly c c := ⟨c.output, rfl⟩
theorem OutOnly.trans {c d e : Conn} (h : OutOnly c d) (h' : OutOnly d e) : OutOnly c e := by
  obtain ⟨l, rfl⟩ := h
  obtain ⟨m, rfl⟩ := h'
  exact ⟨m, rfl⟩

theorem foldl_insert (l : List Nat) (c : Conn) : OutOnly c (l.foldl insertOutput c) ∧
    ∀ x ∈ (l.foldl insertOutput c).output, x ∈ l ∨ x ∈ c.output := by
  induction l generalizing c with
  | nil => exact ⟨.refl c, fun x h => .inr h⟩
  | cons a l ih =>
    obtain ⟨m, he, hm⟩ := insertOutput_out c a
    obtain ⟨h1, h2⟩ := ih (insertOutput c a)
    refine ⟨.trans ⟨m, he⟩ h1, fun x hx => ?_⟩
    rcases h2 x hx with h | h
    · exact .inl (List.mem_cons_of_mem _ h)
    · rw [he] at h
      rcases hm x h with rfl | h
      · exact .inl (List.mem_cons_self ..)
      · exact .inr h

theorem foldl_remove (l : List Nat) (c : Conn) :
    l.foldl removeOutput c = { c with output := c.output.filter (· ∉ l) } := by
  induction l generalizing c with
  | nil =>
    have : c.output.filter (fun x => decide (x ∉ ([] : List Nat))) = c.output := List.filter_eq_self.2 (by simp)
    rw [this]; rfl
  | cons a l ih =>
    rw [List.foldl_cons, ih]
    simp only [removeOutput, List.filter_filter]
    congr 1
    apply List.filter_congr
    intro x _
    simp [not_or, Bool.and_comm]

theorem findReady_out (c : Conn) (path : Option Nat) :
    (findReady c path).2 = { c with output := c.output.filter (· ∉ (findLoop c path none c.output).2) } := by
  unfold findReady
  exact foldl_remove _ _

/-! ## The stream found -/

/-- The stream may be chosen: there is a RESET_STREAM or STOP_SENDING to send, or data and credit. -/
def Sendable (c : Conn) (path : Option Nat) (id : Nat) : Prop :=
  isUrgent (c.get id) = true ∨
    (hasData c path (c.get id) = true ∧ ((c.get id).sentOffset = 0 → allowedStream c id = true))

theorem findLoop_found (c : Conn) (path found) (l : List Nat) (id : Nat)
    (h : (findLoop c path found l).1 = some id) :
    found = some id ∨ (id ∈ l ∧ Sendable c path id) := by
  induction l generalizing found with
  | nil => exact .inl h
  | cons a l ih =>
    unfold findLoop at h
    dsimp only at h
    split at h
    · exact .inl h
    split at h
    · rename_i hu
      cases h
      exact .inr ⟨List.mem_cons_self .., .inl hu⟩
    split at h
    · rename_i hd
      split at h
      · rcases ih _ h with h | h
        · exact .inl h
        · exact .inr ⟨List.mem_cons_of_mem _ h.1, h.2⟩
      rename_i hna
      have ha : Sendable c path a := .inr ⟨hd, fun h0 => by
        cases hx : allowedStream c a with
        | true => rfl
        | false => exact absurd ⟨h0, by simp [hx]⟩ hna⟩
      split at h
      · cases h
        exact .inr ⟨List.mem_cons_self .., ha⟩
      split at h
      · rcases ih _ h with h | h
        · cases h
          exact .inr ⟨List.mem_cons_self .., ha⟩
        · exact .inr ⟨List.mem_cons_of_mem _ h.1, h.2⟩
      · rcases ih _ h with h | h
        · split at h
          · cases h
            exact .inr ⟨List.mem_cons_self .., ha⟩
          · exact .inl h
        · exact .inr ⟨List.mem_cons_of_mem _ h.1, h.2⟩
    split at h
    · rcases ih _ h with h | h
      · exact .inl h
      · exact .inr ⟨List.mem_cons_of_mem _ h.1, h.2⟩
    · rcases ih _ h with h | h
      · exact .inl h
      · exact .inr ⟨List.mem_cons_of_mem _ h.1, h.2⟩

theorem findLoop_removed (c : Conn) (path found) (l : List Nat) (x : Nat)
    (h : x ∈ (findLoop c path found l).2) :
    isUrgent (c.get x) = false ∧ hasData c path (c.get x) = false ∧ isExhausted (c.get x) = true := by
  induction l generalizing found with
  | nil => simp [findLoop] at h
  | cons a l ih =>
    unfold findLoop at h
    dsimp only at h
    split at h
    · simp at h
    split at h
    · simp at h
    rename_i hu
    split at h
    · split at h
      · exact ih _ h
      split at h
      · simp at h
      split at h
      · exact ih _ h
      · exact ih _ h
    rename_i hd
    split at h
    · rename_i he
      rcases List.mem_cons.1 h with rfl | h
      · exact ⟨by simpa using hu, by simpa using hd, he⟩
      · exact ih _ h
    · exact ih _ h

theorem sendable_out {c : Conn} {path id} {l : List Nat} :
    Sendable { c with output := l } path id ↔ Sendable c path id := Iff.rfl

theorem findReady_sendable {c : Conn} {path id} (h : (findReady c path).1 = some id) :
    id ∈ c.output ∧ id ∈ (findReady c path).2.output ∧ Sendable c path id := by
  rcases findLoop_found c path none c.output id h with h' | ⟨h1, h2⟩
  · cases h'
  · refine ⟨h1, ?_, h2⟩
    rw [findReady_out]
    refine List.mem_filter.2 ⟨h1, ?_⟩
    simp only [decide_eq_true_eq]
    intro hx
    obtain ⟨a, b, _⟩ := findLoop_removed c path none c.output id hx
    rcases h2 with h2 | ⟨h2, _⟩
    · simp [a] at h2
    · simp [b] at h2

/-! ## Effect of an operation -/

theorem totalSent_append (a b : List Event) : totalSent (a ++ b) = totalSent a + totalSent b := by
  simp [totalSent]

theorem evOf_append (id : Nat) (a b : List Event) : evOf id (a ++ b) = evOf id a ++ evOf id b := by
  simp [evOf]

/-- What every operation does, with the limits `L` received for the streams. -/
structure Eff (L : Nat → Nat) (c d : Conn) (ev : List Event) : Prop where
  base : Base d
  star : ∀ i, Star i (L i) (c.get i) (d.get i) (evOf i ev)
  total : d.dataSent = c.dataSent + totalSent ev
  credit : totalSent ev = 0 ∨ d.dataSent ≤ c.maxdataRemote

theorem Eff.refl {L} {c : Conn} (hb : Base c) : Eff L c c [] :=
  ⟨hb, fun _ => .nil, rfl, .inl rfl⟩

theorem Eff.append {L} {c d e : Conn} {ev ev'} (h : Eff L c d ev) (hm : d.maxdataRemote = c.maxdataRemote)
    (h' : Eff L d e ev') : Eff L c e (ev ++ ev') := by
  refine ⟨h'.base, fun i => ?_, ?_, ?_⟩
  · rw [evOf_append]
    exact (h.star i).append (h'.star i)
  · rw [totalSent_append, h'.total, h.total]; omega
  · rw [totalSent_append]
    have a := h.credit
    have b := h'.credit
    have t := h'.total
    rw [hm] at b
    omega

/-- A change of the output list within the streams that exist. -/
theorem Base.out_of {c : Conn} (hb : Base c) {l : List Nat} (hl : ∀ x ∈ l, x ∈ c.ids) :
    Base { c with output := l } := ⟨hb.idOf, hl, hb.fresh⟩

theorem Base.insert {c : Conn} (hb : Base c) {id : Nat} (hi : id ∈ c.ids) : Base (insertOutput c id) := by
  obtain ⟨l, he, hl⟩ := insertOutput_out c id
  rw [he]
  refine hb.out_of fun x hx => ?_
  rcases hl x hx with rfl | h
  · exact hi
  · exact hb.out _ h

theorem Base.remove {c : Conn} (hb : Base c) (id : Nat) : Base (removeOutput c id) :=
  hb.out_of fun _ hx => hb.out _ (List.mem_filter.1 hx).1

theorem Base.findReady {c : Conn} (hb : Base c) (path) : Base (findReady c path).2 := by
  rw [findReady_out]
  exact hb.out_of fun _ hx => hb.out _ (List.mem_filter.1 hx).1

/-- The change of one stream that exists. -/
theorem Base.set {c : Conn} (hb : Base c) {id : Nat} {s : Stream} (hi : id ∈ c.ids) (hs : s.id = id) :
    Base (c.set id s) := by
  refine ⟨fun i h => ?_, hb.out, fun i h => ?_⟩
  · simp only [Conn.set]
    split
    · rename_i e; rw [hs, e]
    · exact hb.idOf _ h
  · have hf := hb.fresh i h
    refine ⟨?_, hf.2⟩
    simp only [Conn.set]
    split
    · rename_i e; subst e; exact absurd hi hf.2
    · exact hf.1

/-- Operations that change one stream by a transition. -/
theorem eff_set {L} {c : Conn} (hb : Base c) {id : Nat} {s : Stream} {ev} (hi : id ∈ c.ids) (hs : s.id = id)
    (hev : ∀ e ∈ ev, e.id = id) (ht : Trans id (L id) (c.get id) s ev) (h0 : totalSent ev = 0) :
    Eff L c (c.set id s) ev := by
  refine ⟨hb.set hi hs, fun i => ?_, by rw [h0]; rfl, .inl h0⟩
  simp only [Conn.set]
  by_cases e : i = id
  · subst e
    rw [if_pos rfl, show evOf i ev = ev from List.filter_eq_self.2 (by simpa using hev)]
    exact .one ht
  · rw [if_neg e]
    have : evOf i ev = [] := by
      refine List.filter_eq_nil_iff.2 fun x hx => ?_
      rw [hev x hx]
      simpa using fun h => e h.symm
    rw [this]
    exact .nil

/-- A change of the output list, or of the limits of the connection. -/
theorem eff_conn {L} {c d : Conn} (hb : Base d) (hg : d.get = c.get) (hd : d.dataSent = c.dataSent) :
    Eff L c d [] := ⟨hb, fun i => by rw [hg]; exact .nil, by rw [hd]; rfl, .inl rfl⟩

/-! ## Writing a frame -/

theorem sub64_le {a b : Nat} (h : b ≤ a) : sub64 a b ≤ a - b := by
  unfold sub64 u64
  rw [show a + 18446744073709551616 - b = (a - b) + 18446744073709551616 by omega, Nat.add_mod_right]
  exact Nat.mod_le _ _

theorem allowed_le {c : Conn} {s : Stream} (space : Nat) (h1 : s.sentOffset ≤ s.maxdataRemote)
    (h2 : c.dataSent ≤ c.maxdataRemote) :
    allowedSpace c s space ≤ space ∧ allowedSpace c s space ≤ s.maxdataRemote - s.sentOffset ∧
    allowedSpace c s space ≤ c.maxdataRemote - c.dataSent := by
  have a := sub64_le h1
  have b := sub64_le h2
  unfold allowedSpace
  dsimp only
  generalize sub64 s.maxdataRemote s.sentOffset = x at *
  generalize sub64 c.maxdataRemote c.dataSent = y at *
  (repeat' split) <;> omega

theorem flatten_take {q : List Bytes} (hq : q ≠ []) (n : Nat) :
    q.flatten = (q.headD []).take n ++ ((q.headD []).drop n ++ q.tail.flatten) := by
  cases q with
  | nil => exact absurd rfl hq
  | cons a l => simp [← List.append_assoc]

/-- Effect of a frame on a stream. -/
structure Wrote (L : Nat → Nat) (c : Conn) (w : Written) : Prop where
  eff : Eff L c w.1 w.2.1
  maxdata : w.1.maxdataRemote = c.maxdataRemote
  ids : w.1.ids = c.ids

/-- A frame that carries `n` bytes of data changes one stream. -/
theorem wrote_data {L} {c d : Conn} (hb : Base c) {id : Nat} {s : Stream} {ev} {k : Nat} (hi : id ∈ c.ids)
    (hs : s.id = id) (hev : ∀ e ∈ ev, e.id = id) (ht : Trans id (L id) (c.get id) s ev)
    (hd : OutOnly { c.set id s with dataSent := c.dataSent + totalSent ev } d)
    (ho : ∀ x ∈ d.output, x ∈ c.output)
    (hc : totalSent ev ≤ c.maxdataRemote - c.dataSent) (hc' : c.dataSent ≤ c.maxdataRemote) :
    Wrote L c (d, ev, k) := by
  obtain ⟨l, rfl⟩ := hd
  have hb' := hb.set hi hs
  refine ⟨⟨⟨hb'.idOf, fun x hx => hb.out _ (ho x hx), hb'.fresh⟩, fun i => ?_, rfl, .inr ?_⟩, rfl, rfl⟩
  · simp only [Conn.set]
    by_cases e : i = id
    · subst e
      rw [if_pos rfl, show evOf i ev = ev from List.filter_eq_self.2 (by simpa using hev)]
      exact .one ht
    · rw [if_neg e]
      have : evOf i ev = [] := by
        refine List.filter_eq_nil_iff.2 fun x hx => ?_
        rw [hev x hx]
        simpa using fun h => e h.symm
      rw [this]
      exact .nil
  · show c.dataSent + totalSent ev ≤ c.maxdataRemote
    omega

theorem wrote_set {L} {c : Conn} (hb : Base c) {id : Nat} {s : Stream} {ev} {k : Nat} (hi : id ∈ c.ids)
    (hs : s.id = id) (hev : ∀ e ∈ ev, e.id = id) (ht : Trans id (L id) (c.get id) s ev)
    (h0 : totalSent ev = 0) : Wrote L c (c.set id s, ev, k) :=
  ⟨eff_set hb hi hs hev ht h0, rfl, rfl⟩

theorem wrote_nothing {L} {c : Conn} (hb : Base c) {k : Nat} : Wrote L c (c, [], k) := ⟨.refl hb, rfl, rfl⟩

theorem formatPolled_wrote {L} {c : Conn} (hb : Base c) {id : Nat} (hi : id ∈ c.ids) (header : Bytes)
    (room time : Nat) (answer : Answer)
    (hh : formatStreamFrameHeader id (c.get id).sentOffset room = some header)
    (ha : (c.get id).isActive = true) (hq : (c.get id).queue = []) (hf : (c.get id).finRequested = false)
    (hr : (c.get id).resetRequested = false) (hr' : (c.get id).resetSent = false)
    (h1 : (c.get id).sentOffset ≤ (c.get id).maxdataRemote) (h2 : c.dataSent ≤ c.maxdataRemote) :
    Wrote L c (formatPolled c (c.get id) header room time answer) := by
  have hid := hb.idOf id hi
  generalize hs : c.get id = s at *
  have hal := allowed_le (c := c) (s := s) (room - header.length) h1 h2
  unfold formatPolled
  dsimp only
  generalize ha' : (if answer.data.length ≤ allowedSpace c s (room - header.length) then answer
    else ⟨[], false, false⟩ : Answer) = a
  have hlen : a.data.length ≤ allowedSpace c s (room - header.length) := by
    subst ha'
    split
    · assumption
    · exact Nat.zero_le _
  subst hid
  split
  · refine wrote_set hb hi rfl (by simp) (.same ?_ (by rw [hs]; exact Nat.le_max_left _ _)) rfl
    rw [hs]
    exact ⟨rfl, rfl, rfl, rfl, rfl, rfl, rfl, fun _ => .inl ha⟩
  · refine wrote_data hb hi (id := s.id)
      (s := { s with sentOffset := s.sentOffset + a.data.length, lastSent := time,
                     isActive := if a.fin then false else a.stillActive,
                     finRequested := s.finRequested || a.fin, finSent := s.finSent || a.fin })
      rfl (by simp [Event.id]) ?_ ?_ ?_ ?_ h2
    · rw [hs]
      refine .polled a.data a.fin _ ha hq hf hr hr' (by omega) ⟨room, header, true, hh, by omega, (if_pos rfl).symm⟩ rfl hq
        (by simp [hf]) rfl hr hr' (fun h => by simp [h]) rfl
    · simp only [totalSent, List.map_cons, List.map_nil, List.sum_cons, List.sum_nil]
      rw [show 0 + (a.data.length + 0) = a.data.length by omega]
      split
      · exact ⟨_, rfl⟩
      · exact .refl _
    · intro x hx
      split at hx
      · exact (List.mem_filter.1 hx).1
      · exact hx
    · simp only [totalSent, List.map_cons, List.map_nil, List.sum_cons, List.sum_nil]
      omega

theorem totalSent_stream (id o : Nat) (f : Bool) (d r : Bytes) : totalSent [.stream id o f d r] = d.length := by
  simp [totalSent]

theorem formatQueued_wrote {L} {c : Conn} (hb : Base c) {id : Nat} (hi : id ∈ c.ids) (header : Bytes)
    (room time : Nat)
    (hh : formatStreamFrameHeader id (c.get id).sentOffset room = some header)
    (hr : (c.get id).resetRequested = false) (hr' : (c.get id).resetSent = false)
    (ha : (c.get id).isActive = true ∨ (c.get id).queue ≠ [] ∨
      ((c.get id).finRequested = true ∧ (c.get id).finSent = false))
    (h1 : (c.get id).sentOffset ≤ (c.get id).maxdataRemote) (h2 : c.dataSent ≤ c.maxdataRemote) :
    Wrote L c (formatQueued c (c.get id) header room time) := by
  have hid := hb.idOf id hi
  generalize hs : c.get id = s at *
  have hal := allowed_le (c := c) (s := s) (room - header.length) h1 h2
  unfold formatQueued
  dsimp only
  subst hid
  generalize allowedSpace c s (room - header.length) = A at *
  generalize hd : List.take A (s.queue.headD []) = data
  have hlen : data.length ≤ A := by
    rw [← hd, List.length_take]; omega
  have hdl : List.take data.length (s.queue.headD []) = data := by
    rw [← hd, List.length_take, List.take_eq_take_iff]
    omega
  generalize hq' : (if data.length > 0 then
      (if List.drop data.length (s.queue.headD []) = [] then s.queue.tail
        else List.drop data.length (s.queue.headD []) :: s.queue.tail)
    else s.queue) = queue
  have hflat : s.queue.flatten = data ++ queue.flatten := by
    by_cases h0 : data.length > 0
    · have hne : s.queue ≠ [] := by
        intro e
        rw [e] at hd
        simp at hd
        rw [hd] at h0
        exact absurd h0 (by simp)
      rw [flatten_take hne data.length, hdl, ← hq', if_pos h0]
      split
      · rename_i e; rw [e]; rfl
      · rfl
    · rw [← hq', if_neg h0, List.eq_nil_of_length_eq_zero (show data.length = 0 by omega)]
      rfl
  by_cases hqe : queue = []
  · rw [if_pos hqe]
    have hraw : Raw s.id s.sentOffset s.finRequested data
        (queuedFrame header (room - header.length) data s.finRequested) :=
      ⟨room, header, false, hh, by omega, (if_neg (by decide)).symm⟩
    generalize queuedFrame header (room - header.length) data s.finRequested = raw at *
    refine wrote_data hb hi (id := s.id)
      (s := { s with queue := queue, sentOffset := s.sentOffset + data.length,
                     lastSent := if data.length > 0 then time else s.lastSent,
                     finSent := s.finSent || (queue.isEmpty && s.finRequested) })
      rfl (by simp [Event.id]) ?_ ?_ (fun _ h => h) ?_ h2
    · rw [hs]
      refine .queued data queue.flatten s.finRequested _ hr hr' ha hflat (by omega)
        hraw rfl rfl rfl (by simp [hqe]) (fun h => ⟨h, hqe⟩) (fun _ => rfl)
        hr hr' rfl rfl
    · rw [totalSent_stream]
      exact .refl _
    · rw [totalSent_stream]
      omega
  · rw [if_neg hqe]
    have hemp : queue.isEmpty = false := by simpa using hqe
    by_cases h0 : data.length = 0
    · rw [if_pos h0]
      have hqq : queue = s.queue := by rw [← hq', if_neg (by omega)]
      have := wrote_set (L := L) hb hi (k := 0) (ev := [])
        (s := { s with queue := queue, sentOffset := s.sentOffset + data.length,
                       lastSent := if data.length > 0 then time else s.lastSent,
                       finSent := s.finSent || (queue.isEmpty && s.finRequested) })
        rfl (by simp) (.same (by
          rw [hs]
          exact ⟨by simp [h0], hqq, rfl, by simp [hemp], rfl, rfl, rfl, fun h => .inl h⟩)
          (by rw [hs]; exact Nat.le_max_left _ _)) rfl
      rw [h0] at this ⊢
      exact this
    · rw [if_neg h0]
      have hraw : Raw s.id s.sentOffset false data
          (queuedFrame header (room - header.length) data false) :=
        ⟨room, header, false, hh, by omega, (if_neg (by decide)).symm⟩
      generalize queuedFrame header (room - header.length) data false = raw at *
      refine wrote_data hb hi (id := s.id)
        (s := { s with queue := queue, sentOffset := s.sentOffset + data.length,
                       lastSent := if data.length > 0 then time else s.lastSent,
                       finSent := s.finSent || (queue.isEmpty && s.finRequested) })
        rfl (by simp [Event.id]) ?_ ?_ (fun _ h => h) ?_ h2
      · rw [hs]
        refine .queued data queue.flatten false _ hr hr' ha hflat (by omega)
          hraw rfl rfl rfl (by simp [hemp]) (fun h => by cases h)
          (fun h => absurd h hqe) hr hr' rfl rfl
      · rw [totalSent_stream]
        exact .refl _
      · rw [totalSent_stream]
        omega

theorem formatStreamFrame_wrote {L} {c : Conn} (hb : Base c) {path : Option Nat} {id : Nat} (hi : id ∈ c.ids)
    (room time : Nat) (answer : Answer) (hsd : Sendable c path id) :
    Wrote L c (formatStreamFrame c id room time answer) := by
  have hid := hb.idOf id hi
  unfold formatStreamFrame
  dsimp only
  split
  · exact wrote_nothing hb
  split
  · exact wrote_nothing hb
  rename_i hrs
  split
  · rename_i hrr
    unfold formatReset
    split
    · rw [hid]
      exact wrote_set hb hi rfl (by simp [Event.id])
        (.reset hrr (by simpa using hrs) rfl rfl hrr rfl rfl rfl rfl) rfl
    · exact wrote_nothing hb
  rename_i hrr
  split
  · unfold formatStopSending
    rw [hid]
    split
    · exact wrote_set hb hi rfl (by simp) (.same ⟨rfl, rfl, rfl, rfl, rfl, rfl, rfl, fun h => .inl h⟩
        (Nat.le_max_left _ _)) rfl
    · split
      · exact wrote_set hb hi rfl (by simp [Event.id])
          (.stopSending ⟨rfl, rfl, rfl, rfl, rfl, rfl, rfl, fun h => .inl h⟩ rfl) rfl
      · exact wrote_nothing hb
  rename_i hst
  split
  · exact wrote_nothing hb
  rename_i hns
  have hnu : isUrgent (c.get id) = false := by
    unfold isUrgent
    simp only [Bool.not_eq_true] at hrs hrr
    simp only [hrr, Bool.false_and, Bool.false_or]
    cases h1 : (c.get id).stopRequested <;> cases h2 : (c.get id).stopSent <;> simp_all
  rcases hsd with hu | ⟨hd, _⟩
  · rw [hnu] at hu; cases hu
  unfold hasData at hd
  simp only [decide_eq_true_eq] at hd
  obtain ⟨d1, d2, d3, _⟩ := hd
  rw [hid]
  split
  · exact wrote_nothing hb
  · rename_i header hh
    simp only [Bool.not_eq_true] at hrs hrr
    split
    · rename_i hp
      exact formatPolled_wrote hb hi header room time answer hh hp.1 hp.2.1 (by simpa using hp.2.2) hrr hrs
        (by omega) (by omega)
    · rename_i hp
      refine formatQueued_wrote hb hi header room time hh hrr hrs ?_ (by omega) (by omega)
      · rcases d3 with h | h | h
        · exact .inl h
        · exact .inr (.inl h)
        · exact .inr (.inr ⟨h.1, by simpa using h.2⟩)

end Picoquic.StreamSend
