import Verif.Proof.StreamSendOrder
import Verif.Proof.StreamSendBytes
/-!
# Streams that may send are in the output list
-/

namespace Picoquic.StreamSend
open Picoquic Picoquic.StreamFrame Picoquic.Spec
open Picoquic.StreamLimits (isClientStreamId isUnidirStreamId isLocalStreamId streamIdFromRank
  streamRankFromId streamTypeFromId nextStreamIdForType setB setN)

theorem client_iff (client : Bool) (id : Nat) : isClientStreamId id = client ↔ LocalId client id := by
  unfold isClientStreamId LocalId
  cases client <;> simp

theorem allowed_iff (c : Conn) (id : Nat) : allowedStream c id = true ↔ StreamAllowed c id := by
  unfold allowedStream StreamAllowed
  rw [← client_iff]
  by_cases h : isClientStreamId id = c.client
  · rw [if_pos h]
    simp only [decide_eq_true_eq]
    exact ⟨fun a _ => a, fun a => a h⟩
  · rw [if_neg h]
    simp only [true_iff]
    exact fun a => absurd a h

/-- Nothing is left to be sent but STOP_SENDING. -/
def Done (s : Stream) : Prop :=
  ¬ ResetPending s ∧ s.finSent = true ∧ (s.finRequested = true ∨ s.resetSent = true)

/-- Invariant of a stream. -/
structure SOk (client : Bool) (id : Nat) (s : Stream) : Prop where
  nodes : [] ∉ s.queue
  resetReq : s.resetRequested = true → s.isActive = false
  reset : s.resetSent = true → s.resetRequested = true ∧ s.queue = [] ∧ s.finSent = true
  finActive : s.finRequested = true → s.isActive = false
  fin : s.finSent = true → s.resetSent = true ∨ (s.finRequested = true ∧ s.queue = [])
  peer : ¬ CanSend client id → s.isActive = false ∧ s.queue = [] ∧ s.finRequested = false ∧
    s.resetRequested = false

/-- The type of the local streams. -/
def localType (client unidir : Bool) : Nat := 2 * unidir.toNat + (!client).toNat

/-- Invariant of the connection. -/
structure Cov (c : Conn) : Prop where
  base : Base c
  sok : ∀ i, SOk c.client i (c.get i)
  allowed : ∀ i ∈ c.output, StreamAllowed c i
  closed : ∀ i, ¬ StreamAllowed c i → (c.get i).finSent = false ∧ (c.get i).resetSent = false
  lim : ∀ u, ∃ n, 1 ≤ n ∧ n ≤ 2 ^ 60 ∧ c.maxStreamIdRemote u = 4 * (n - 1) + localType c.client u
  sorted : c.ids.Pairwise (· < ·)
  next : ∀ i, i < c.nextStreamId (i % 4) → ¬ StreamAllowed c i → i ∈ c.ids
  cover : ∀ i ∈ c.ids, StreamAllowed c i → i ∈ c.output ∨
    (¬ StopPending (c.get i) ∧ (CanSend c.client i → Done (c.get i)))

/-- Update of a stream. -/
theorem Cov.set {c : Conn} (h : Cov c) {id : Nat} {s : Stream} (hi : id ∈ c.ids) (hid : s.id = id)
    (hs : SOk c.client id s)
    (hc : ¬ StreamAllowed c id → s.finSent = false ∧ s.resetSent = false)
    (hv : StreamAllowed c id → id ∈ c.output ∨ (¬ StopPending s ∧ (CanSend c.client id → Done s))) :
    Cov (c.set id s) := by
  refine ⟨h.base.set hi hid, fun i => ?_, h.allowed, fun i hx => ?_, h.lim, h.sorted, h.next, fun i hx ha => ?_⟩
  · show SOk c.client i (if i = id then s else c.get i)
    split
    · rename_i e; subst e; exact hs
    · exact h.sok i
  · show (if i = id then s else c.get i).finSent = false ∧ (if i = id then s else c.get i).resetSent = false
    split
    · rename_i e; subst e; exact hc hx
    · exact h.closed i hx
  · show i ∈ c.output ∨ (¬ StopPending (if i = id then s else c.get i) ∧
      (CanSend c.client i → Done (if i = id then s else c.get i)))
    split
    · rename_i e; subst e; exact hv ha
    · exact h.cover i hx ha

theorem Cov.data {c : Conn} (h : Cov c) (n : Nat) : Cov { c with dataSent := n } :=
  ⟨⟨h.base.idOf, h.base.out, h.base.fresh⟩, h.sok, h.allowed, h.closed, h.lim, h.sorted, h.next, h.cover⟩

/-- Update of a stream in the output list. -/
theorem Cov.write {c : Conn} (h : Cov c) {id : Nat} {s : Stream} (n : Nat) (ho : id ∈ c.output) (hid : s.id = id)
    (hs : SOk c.client id s) : Cov { c.set id s with dataSent := n } :=
  (h.set (h.base.out id ho) hid hs (fun hn => absurd (h.allowed id ho) hn) (fun _ => .inl ho)).data n

/-- Removal from the output list. -/
theorem Cov.filter {c : Conn} (h : Cov c) (p : Nat → Bool)
    (hp : ∀ i ∈ c.output, p i = false → ¬ StopPending (c.get i) ∧ (CanSend c.client i → Done (c.get i))) :
    Cov { c with output := c.output.filter p } := by
  refine ⟨⟨h.base.idOf, fun i hi => h.base.out i (List.mem_filter.1 hi).1, h.base.fresh⟩, h.sok,
    fun i hi => h.allowed i (List.mem_filter.1 hi).1, h.closed, h.lim, h.sorted, h.next, fun i hi ha => ?_⟩
  rcases h.cover i hi ha with h' | h'
  · cases hpi : p i with
    | true => exact .inl (List.mem_filter.2 ⟨h', hpi⟩)
    | false => exact .inr (hp i h' hpi)
  · exact .inr h'

theorem Cov.findReady {c : Conn} (h : Cov c) (path : Option Nat) : Cov (findReady c path).2 := by
  rw [findReady_out]
  refine h.filter _ fun i _ hp => ?_
  obtain ⟨hu, _, he⟩ := findLoop_removed c path none c.output i (by simpa using hp)
  have hs := h.sok i
  unfold isUrgent at hu
  unfold isExhausted at he
  unfold Done ResetPending StopPending
  have h1 := hs.reset
  revert hu he h1
  cases (c.get i).resetRequested <;> cases (c.get i).resetSent <;> cases (c.get i).finSent <;>
    cases (c.get i).finRequested <;> cases (c.get i).stopRequested <;> cases (c.get i).stopSent <;> simp

/-! ## Sending -/

theorem cov_polled {c : Conn} (h : Cov c) {id : Nat} (ho : id ∈ c.output) (header : Bytes) (room time : Nat)
    (answer : Answer) (h1 : (c.get id).resetRequested = false)
    (h2 : ¬ ((c.get id).stopRequested = true ∧ (c.get id).stopSent = false)) (h3 : (c.get id).isActive = true)
    (h4 : (c.get id).queue = []) (h5 : (c.get id).finRequested = false) :
    Cov (formatPolled c (c.get id) header room time answer).1 := by
  have hs := h.sok id
  have hid := h.base.idOf id (h.base.out id ho)
  generalize hg : c.get id = s at *
  subst hid
  rw [formatPolled]
  dsimp only
  generalize (if answer.data.length ≤ allowedSpace c s (room - header.length) then answer
    else ⟨[], false, false⟩ : Answer) = a
  have hr0 : s.resetSent = false := by
    cases hx : s.resetSent with
    | false => rfl
    | true => have := (hs.reset hx).1; rw [h1] at this; cases this
  have hcan : CanSend c.client s.id := by
    apply Classical.byContradiction
    intro hn
    have := (hs.peer hn).1
    rw [h3] at this; cases this
  split
  · refine (h.write (id := s.id) (s := { s with isActive := a.stillActive }) c.dataSent ho rfl ?_)
    exact ⟨hs.nodes, (fun e => by rw [h1] at e; cases e), hs.reset, (fun e => by rw [h5] at e; cases e), hs.fin,
      fun e => absurd hcan e⟩
  · dsimp only
    generalize polledFrame header (room - header.length) a.data a.fin = raw
    generalize ht : ({ s with
      sentOffset := s.sentOffset + a.data.length, lastSent := time
      isActive := if a.fin then false else a.stillActive
      finRequested := s.finRequested || a.fin
      finSent := s.finSent || a.fin } : Stream) = t
    have hw : ∀ n, Cov { c.set s.id t with dataSent := n } := by
      intro n
      refine h.write n ho (by rw [← ht]) ?_
      rw [← ht]
      refine ⟨hs.nodes, (fun e => by rw [h1] at e; cases e), fun e => ?_, fun e => ?_, fun e => ?_,
        fun e => absurd hcan e⟩
      · rw [hr0] at e; cases e
      · dsimp only at e ⊢
        rw [h5] at e
        simp at e
        simp [e]
      · dsimp only at e ⊢
        cases hx : s.finSent with
        | true => exact (hs.fin hx).imp_right fun h => ⟨by rw [h.1]; rfl, h.2⟩
        | false =>
          rw [hx] at e
          simp at e
          exact .inr ⟨by rw [e]; simp, h4⟩
    split
    · rename_i hf
      have hgt : ({ c.set s.id t with dataSent := c.dataSent + a.data.length } : Conn).get s.id = t := by
        simp [Conn.set]
      have := (hw (c.dataSent + a.data.length)).filter (fun i => decide (i ≠ s.id)) (by
        intro i hi hp
        have hi' : i = s.id := by simpa using hp
        rw [hi', hgt, ← ht]
        refine ⟨h2, fun _ => ⟨fun e => ?_, by simp [hf], .inl (by simp [hf])⟩⟩
        have := e.1
        dsimp only at this
        rw [h1] at this; cases this)
      exact this
    · exact hw _

theorem cov_queued {c : Conn} (h : Cov c) {id : Nat} (ho : id ∈ c.output) (header : Bytes) (room time : Nat)
    (h1 : (c.get id).resetRequested = false) (h2 : ¬ ((c.get id).isActive = false ∧ (c.get id).queue = [] ∧
      ((c.get id).finRequested = false ∨ (c.get id).finSent = true))) :
    Cov (formatQueued c (c.get id) header room time).1 := by
  have hs := h.sok id
  have hid := h.base.idOf id (h.base.out id ho)
  generalize hg : c.get id = s at *
  subst hid
  rw [formatQueued]
  dsimp only
  generalize allowedSpace c s (room - header.length) = A
  generalize List.take A (s.queue.headD []) = data
  generalize hq : (if data.length > 0 then
      (if (s.queue.headD []).drop data.length = [] then s.queue.tail
        else (s.queue.headD []).drop data.length :: s.queue.tail)
    else s.queue) = queue
  generalize (if data.length > 0 then time else s.lastSent) = ls
  generalize queuedFrame header (room - header.length) data s.finRequested = r1
  generalize queuedFrame header (room - header.length) data false = r2
  have hr0 : s.resetSent = false := by
    cases hx : s.resetSent with
    | false => rfl
    | true => have := (hs.reset hx).1; rw [h1] at this; cases this
  have hcan : CanSend c.client s.id := by
    apply Classical.byContradiction
    intro hn
    obtain ⟨a, b, c, d⟩ := hs.peer hn
    exact h2 ⟨a, b, .inl c⟩
  have hsub : ∀ x ∈ s.queue.tail, x ∈ s.queue := fun x hx => List.mem_of_mem_tail hx
  have hnodes : [] ∉ queue := by
    rw [← hq]
    intro hx
    split at hx
    · split at hx
      · exact hs.nodes (hsub _ hx)
      · rename_i hne
        rcases List.mem_cons.1 hx with hx | hx
        · exact hne hx.symm
        · exact hs.nodes (hsub _ hx)
    · exact hs.nodes hx
  have hempty : s.queue = [] → queue = [] := by
    intro e
    rw [← hq, e]
    simp
  generalize ht : ({ s with
    queue := queue, sentOffset := s.sentOffset + data.length
    lastSent := ls
    finSent := s.finSent || (queue.isEmpty && s.finRequested) } : Stream) = t
  have hw : ∀ n, Cov { c.set s.id t with dataSent := n } := by
    intro n
    refine h.write n ho (by rw [← ht]) ?_
    rw [← ht]
    refine ⟨hnodes, hs.resetReq, fun e => ?_, hs.finActive, fun e => ?_, fun e => absurd hcan e⟩
    · rw [hr0] at e; cases e
    · dsimp only at e ⊢
      cases hx : s.finSent with
      | true => exact (hs.fin hx).imp_right fun h => ⟨h.1, hempty h.2⟩
      | false =>
        rw [hx] at e
        simp at e
        exact .inr ⟨e.2, e.1⟩
  split
  · exact hw _
  · split
    · exact hw _
    · exact hw _

theorem cov_set_id {c : Conn} {i id : Nat} {s : Stream} (hi : i = id) (h : Cov (c.set id s)) : Cov (c.set i s) := by
  subst hi; exact h

theorem cov_format {c : Conn} (h : Cov c) {id : Nat} (ho : id ∈ c.output) (room time : Nat) (answer : Answer) :
    Cov (formatStreamFrame c id room time answer).1 := by
  have hs := h.sok id
  have hid := h.base.idOf id (h.base.out id ho)
  rw [formatStreamFrame]
  by_cases h0 : ¬ allowedStream c id = true
  · rw [if_pos h0]; exact h
  rw [if_neg h0]
  by_cases h1 : (c.get id).resetSent = true
  · rw [if_pos h1]; exact h
  rw [if_neg h1]
  by_cases h2 : (c.get id).resetRequested = true
  · rw [if_pos h2]
    unfold formatReset
    split
    · refine cov_set_id hid ?_
      refine h.write (s := { c.get id with resetSent := true, finSent := true, queue := [] }) c.dataSent ho hid ?_
      refine ⟨by simp, hs.resetReq, fun _ => ⟨h2, rfl, rfl⟩, hs.finActive, fun _ => .inl rfl, fun e => ?_⟩
      have := (hs.peer e).2.2.2
      rw [h2] at this; cases this
    · exact h
  rw [if_neg h2]
  by_cases h3 : (c.get id).stopRequested = true ∧ ¬ (c.get id).stopSent = true
  · rw [if_pos h3]
    have hset : Cov (c.set id { c.get id with stopSent := true }) :=
      h.write (s := { c.get id with stopSent := true }) c.dataSent ho hid
        ⟨hs.nodes, hs.resetReq, hs.reset, hs.finActive, hs.fin, hs.peer⟩
    unfold formatStopSending
    split
    · exact cov_set_id hid hset
    split
    · exact cov_set_id hid hset
    · exact h
  rw [if_neg h3]
  split
  · exact h
  rename_i h4
  split
  · exact h
  · split
    · rename_i h5
      exact cov_polled h ho _ _ _ _ (by simpa using h2) (by simpa using h3) h5.1 h5.2.1 (by simpa using h5.2.2)
    · exact cov_queued h ho _ _ _ (by simpa using h2) (by simpa using h4)

theorem cov_turns (path : Option Nat) (priority time : Nat) (answers : Nat → Answer) (n : Nat) :
    ∀ (c : Conn) (found : Option Nat) (room : Nat), Cov c → (∀ id, found = some id → id ∈ c.output) →
      Cov (sendTurns path priority time answers n c found room).1 := by
  induction n with
  | zero => intro c found room h _; exact h
  | succ n ih =>
    intro c found room h hf
    cases found with
    | none => exact h
    | some id =>
      unfold sendTurns
      have hk := cov_format h (hf id rfl) room time (answers n)
      by_cases hc : (c.get id).priority ≤ priority ∧ room > 0
      · rw [if_pos hc]
        dsimp only
        generalize formatStreamFrame c id room time (answers n) = w at *
        have hk2 := hk.findReady path
        split
        · exact hk2
        · exact ih _ _ _ hk2 fun id hid => (findReady_sendable hid).2.1
      · rw [if_neg hc]
        exact h

theorem cov_sendStreams {c : Conn} (h : Cov c) (path : Option Nat) (priority room time : Nat)
    (answers : Nat → Answer) (n : Nat) : Cov (sendStreams c path priority room time answers n).1 := by
  unfold sendStreams
  exact cov_turns path priority time answers n _ _ _ (h.findReady path) fun id hid => (findReady_sendable hid).2.1

/-! ## Operations -/

theorem Cov.insert {c : Conn} (h : Cov c) {id : Nat} (hi : id ∈ c.ids) :
    Cov (insertOutput c id) ∧ (StreamAllowed c id → id ∈ (insertOutput c id).output) := by
  have hb := h.base.insert hi
  have key : ∀ l : List Nat, (∀ x, x ∈ l ↔ x = id ∨ x ∈ c.output) → StreamAllowed c id →
      Base { c with output := l } → Cov { c with output := l } := by
    intro l hl ha hb
    refine ⟨hb, h.sok, fun i hx => ?_, h.closed, h.lim, h.sorted, h.next, fun i hx hy => ?_⟩
    · rcases (hl i).1 hx with rfl | hx
      · exact ha
      · exact h.allowed i hx
    · rcases h.cover i hx hy with hz | hz
      · exact .inl ((hl i).2 (.inr hz))
      · exact .inr hz
  unfold insertOutput at hb ⊢
  by_cases h1 : id ∈ c.output
  · rw [if_pos h1]; exact ⟨h, fun _ => h1⟩
  rw [if_neg h1] at hb ⊢
  by_cases h2 : allowedStream c id = true
  · have ha := (allowed_iff c id).1 h2
    rw [if_neg (by simpa using h2)] at hb ⊢
    split at hb
    · rename_i hl
      rw [List.getLast?_eq_none_iff] at hl
      exact ⟨key [id] (by simp [hl]) ha hb, fun _ => by simp⟩
    · split at hb
      · rename_i hx
        refine ⟨?_, fun _ => ?_⟩
        · rw [if_pos hx]
          exact key _ (fun x => insertLoop_mem c.get id x c.output) ha hb
        · rw [if_pos hx]
          exact (insertLoop_mem c.get id id c.output).2 (.inl rfl)
      · rename_i hx
        refine ⟨?_, fun _ => ?_⟩
        · rw [if_neg hx]
          exact key _ (fun x => by simp [or_comm]) ha hb
        · rw [if_neg hx]
          simp
  · rw [if_pos (by simpa using h2)]
    exact ⟨h, fun ha => absurd ((allowed_iff c id).2 ha) h2⟩

/-- Insertion of several streams, one of which may be missing. -/
theorem foldl_insert_mem (l : List Nat) (c : Conn) :
    (∀ x ∈ c.output, x ∈ (l.foldl insertOutput c).output) ∧
    (∀ x ∈ l, StreamAllowed c x → x ∈ (l.foldl insertOutput c).output) ∧
    (∀ x ∈ (l.foldl insertOutput c).output, x ∈ c.output ∨ (x ∈ l ∧ StreamAllowed c x)) := by
  have one : ∀ (c : Conn) (id : Nat), (∀ x ∈ c.output, x ∈ (insertOutput c id).output) ∧
      (StreamAllowed c id → id ∈ (insertOutput c id).output) ∧
      ∀ x ∈ (insertOutput c id).output, x ∈ c.output ∨ (x = id ∧ StreamAllowed c x) := by
    intro c id
    unfold insertOutput
    by_cases h1 : id ∈ c.output
    · rw [if_pos h1]; exact ⟨fun _ h => h, fun _ => h1, fun _ h => .inl h⟩
    rw [if_neg h1]
    by_cases h2 : allowedStream c id = true
    · have ha := (allowed_iff c id).1 h2
      rw [if_neg (by simpa using h2)]
      split
      · rename_i hl
        rw [List.getLast?_eq_none_iff] at hl
        refine ⟨by simp [hl], fun _ => by simp, fun x hx => .inr ?_⟩
        have : x = id := by simpa using hx
        exact ⟨this, this ▸ ha⟩
      · split
        · refine ⟨fun x hx => (insertLoop_mem c.get id x c.output).2 (.inr hx),
            fun _ => (insertLoop_mem c.get id id c.output).2 (.inl rfl), fun x hx => ?_⟩
          rcases (insertLoop_mem c.get id x c.output).1 hx with rfl | hx
          · exact .inr ⟨rfl, ha⟩
          · exact .inl hx
        · refine ⟨fun x hx => List.mem_append_left _ hx, fun _ => by simp, fun x hx => ?_⟩
          rcases List.mem_append.1 hx with hx | hx
          · exact .inl hx
          · have : x = id := by simpa using hx
            exact .inr ⟨this, this ▸ ha⟩
    · rw [if_pos (by simpa using h2)]
      exact ⟨fun _ h => h, fun ha => absurd ((allowed_iff c id).2 ha) h2, fun _ h => .inl h⟩
  induction l generalizing c with
  | nil => exact ⟨fun _ h => h, by simp, fun _ h => .inl h⟩
  | cons a l ih =>
    rw [List.foldl_cons]
    obtain ⟨o1, o2, o3⟩ := one c a
    obtain ⟨i1, i2, i3⟩ := ih (insertOutput c a)
    have hal : ∀ x, StreamAllowed (insertOutput c a) x ↔ StreamAllowed c x := by
      intro x
      obtain ⟨m, he, _⟩ := insertOutput_out c a
      rw [he]
      exact Iff.rfl
    refine ⟨fun x hx => i1 x (o1 x hx), fun x hx ha => ?_, fun x hx => ?_⟩
    · rcases List.mem_cons.1 hx with rfl | hx
      · exact i1 x (o2 ha)
      · exact i2 x hx ((hal x).2 ha)
    · rcases i3 x hx with hx | ⟨hx, ha⟩
      · rcases o3 x hx with hx | ⟨rfl, ha⟩
        · exact .inl hx
        · exact .inr ⟨List.mem_cons_self .., ha⟩
      · exact .inr ⟨List.mem_cons_of_mem _ hx, (hal x).1 ha⟩

/-- An update of the fields of one stream that does not bring new things to send. -/
theorem cov_onStream {c : Conn} (h : Cov c) (id : Nat) (f : Stream → Stream) (hid : (f (c.get id)).id = (c.get id).id)
    (hs : SOk c.client id (f (c.get id)))
    (hc : (f (c.get id)).finSent = (c.get id).finSent ∧ (f (c.get id)).resetSent = (c.get id).resetSent)
    (hst : StopPending (f (c.get id)) → StopPending (c.get id)) (hd : Done (c.get id) → Done (f (c.get id))) :
    Cov (onStream c id f) := by
  unfold onStream
  split
  · rename_i hi
    refine h.set hi (hid.trans (h.base.idOf id hi)) hs ?_ fun ha => ?_
    · rw [hc.1, hc.2]; exact h.closed id
    · exact (h.cover id hi ha).imp_right fun hx => ⟨fun e => hx.1 (hst e), fun e => hd (hx.2 e)⟩
  · exact h

theorem localType_eq (client u : Bool) (i : Nat) : i % 4 = localType client u ↔
    LocalId client i ∧ decide (i / 2 % 2 = 1) = u := by
  unfold localType LocalId
  have : i % 4 < 4 := Nat.mod_lt _ (by decide)
  have h1 : i % 2 = i % 4 % 2 := by omega
  have h2 : i / 2 % 2 = i % 4 / 2 := by omega
  rw [h1, h2]
  generalize i % 4 = m at this
  match m, this with
  | 0, _ => cases client <;> cases u <;> simp
  | 1, _ => cases client <;> cases u <;> simp
  | 2, _ => cases client <;> cases u <;> simp
  | 3, _ => cases client <;> cases u <;> simp

theorem rank_eq (n : Nat) (client u : Bool) (h1 : 1 ≤ n) (h2 : n ≤ 2 ^ 60) :
    streamIdFromRank n client u = 4 * (n - 1) + localType client u := by
  unfold streamIdFromRank localType u64
  rw [show n + 18446744073709551615 = (n - 1) + 18446744073709551616 by omega, Nat.add_mod_right,
    Nat.mod_eq_of_lt (show n - 1 < 18446744073709551616 by omega),
    Nat.mod_eq_of_lt (show (n - 1) * 4 < 18446744073709551616 by omega)]
  omega

theorem localType_lt (client u : Bool) : localType client u < 4 := by
  cases client <;> cases u <;> decide

theorem pairwise_dropWhile {l : List Nat} (h : l.Pairwise (· < ·)) (first x : Nat) (hx : x ∈ l) (hf : first ≤ x) :
    x ∈ l.dropWhile (· < first) := by
  induction l with
  | nil => cases hx
  | cons a l ih =>
    rw [List.dropWhile_cons]
    split
    · rename_i ha
      have ha : a < first := by simpa using ha
      rcases List.mem_cons.1 hx with rfl | hx
      · omega
      · exact ih (List.pairwise_cons.1 h).2 hx
    · exact hx

theorem pairwise_takeWhile {l : List Nat} (h : l.Pairwise (· < ·)) (p : Nat → Bool)
    (hp : ∀ a b, a < b → p b = true → p a = true) (x : Nat) (hx : x ∈ l) (hpx : p x = true) :
    x ∈ l.takeWhile p := by
  induction l with
  | nil => cases hx
  | cons a l ih =>
    obtain ⟨h1, h2⟩ := List.pairwise_cons.1 h
    rw [List.takeWhile_cons]
    have hpa : p a = true := by
      rcases List.mem_cons.1 hx with rfl | hx
      · exact hpx
      · exact hp a x (h1 x hx) hpx
    rw [if_pos hpa]
    rcases List.mem_cons.1 hx with rfl | hx
    · exact List.mem_cons_self ..
    · exact List.mem_cons_of_mem _ (ih h2 hx)

theorem local_iff (client : Bool) (i : Nat) : isLocalStreamId i client = true ↔ LocalId client i := by
  unfold isLocalStreamId LocalId
  cases client <;> simp <;> omega

theorem cov_maxStreams {c : Conn} (h : Cov c) (u : Bool) (n : Nat) (h1 : 1 ≤ n) (h2 : n ≤ 2 ^ 60) :
    Cov (decodeMaxStreams c u n) := by
  unfold decodeMaxStreams
  dsimp only
  rw [rank_eq n c.client u h1 h2]
  obtain ⟨m, m1, m2, hm⟩ := h.lim u
  have ht := localType_lt c.client u
  split
  case isFalse => exact h
  rename_i hgt
  rw [hm] at hgt ⊢
  generalize hnew : 4 * (n - 1) + localType c.client u = new at *
  generalize hold : 4 * (m - 1) + localType c.client u = old at *
  generalize hc' : ({ c with maxStreamIdRemote := setB c.maxStreamIdRemote u new } : Conn) = c'
  have hget : c'.get = c.get := by rw [← hc']
  have hids : c'.ids = c.ids := by rw [← hc']
  have hout : c'.output = c.output := by rw [← hc']
  have hnext : c'.nextStreamId = c.nextStreamId := by rw [← hc']
  have hcl : c'.client = c.client := by rw [← hc']
  have hl : ∀ v, c'.maxStreamIdRemote v = if v = u then new else c.maxStreamIdRemote v := by
    rw [← hc']; intro v; rfl
  have hb' : Base c' := by
    rw [← hc']; exact ⟨h.base.idOf, h.base.out, h.base.fresh⟩
  clear hc'
  -- the streams that become allowed
  have hallow : ∀ i, StreamAllowed c i → StreamAllowed c' i := by
    intro i hx hloc
    rw [hcl] at hloc
    have := hx hloc
    rw [hl]
    split
    · rename_i e; rw [e, hm] at this; omega
    · exact this
  have hnewly : ∀ i, ¬ StreamAllowed c i → StreamAllowed c' i →
      LocalId c.client i ∧ decide (i / 2 % 2 = 1) = u ∧ old < i ∧ i ≤ new := by
    intro i hx hy
    unfold StreamAllowed at hx hy
    rw [hcl, hl] at hy
    have hloc : LocalId c.client i := Classical.byContradiction fun e => hx fun a => absurd a e
    have hy := hy hloc
    have hx : ¬ (i ≤ c.maxStreamIdRemote (decide (i / 2 % 2 = 1))) := fun e => hx fun _ => e
    by_cases e : decide (i / 2 % 2 = 1) = u
    · rw [if_pos e] at hy
      rw [e, hm] at hx
      exact ⟨hloc, e, by omega, hy⟩
    · rw [if_neg e] at hy; exact absurd hy hx
  have hrank : streamRankFromId old + 1 = m + 1 := by
    unfold streamRankFromId u64
    rw [Nat.mod_eq_of_lt (by omega)]
    omega
  -- the result, for any list of output streams that has the new ones
  have key : ∀ l : List Nat, Base { c' with output := l } → (∀ x ∈ c.output, x ∈ l) →
      (∀ x ∈ l, x ∈ c.output ∨ StreamAllowed c' x) →
      (∀ x ∈ c.ids, ¬ StreamAllowed c x → StreamAllowed c' x → x ∈ l) → Cov { c' with output := l } := by
    intro l hbl hl1 hl2 hl3
    refine ⟨hbl, fun i => ?_, fun i hi => ?_, fun i hi => ?_, fun v => ?_, ?_, fun i hi hx => ?_, fun i hi hx => ?_⟩
    · show SOk c'.client i (c'.get i)
      rw [hcl, hget]; exact h.sok i
    · rcases hl2 i hi with hi | hi
      · exact hallow i (h.allowed i hi)
      · exact hi
    · show (c'.get i).finSent = false ∧ (c'.get i).resetSent = false
      rw [hget]
      exact h.closed i fun e => hi (hallow i e)
    · show ∃ n, 1 ≤ n ∧ n ≤ 2 ^ 60 ∧ c'.maxStreamIdRemote v = 4 * (n - 1) + localType c'.client v
      rw [hl, hcl]
      split
      · rename_i e; subst e; exact ⟨n, h1, h2, hnew.symm⟩
      · exact h.lim v
    · show c'.ids.Pairwise (· < ·)
      rw [hids]; exact h.sorted
    · show i ∈ c'.ids
      rw [hids]
      refine h.next i ?_ fun e => hx (hallow i e)
      have : i < c'.nextStreamId (i % 4) := hi
      rwa [hnext] at this
    · show i ∈ l ∨ (¬ StopPending (c'.get i) ∧ (CanSend c'.client i → Done (c'.get i)))
      have hi' : i ∈ c.ids := hids ▸ hi
      rw [hget, hcl]
      by_cases ha : StreamAllowed c i
      · exact (h.cover i hi' ha).imp_left (hl1 i)
      · exact .inl (hl3 i hi' ha hx)
  unfold addOutputStreams
  dsimp only
  rw [hrank, hcl, rank_eq (m + 1) c.client u (by omega) (by omega), hids]
  have hfirst : 4 * (m + 1 - 1) + localType c.client u = old + 4 := by omega
  rw [hfirst]
  by_cases hmem : old + 4 ∈ c.ids
  · rw [if_pos hmem]
    generalize hl' : (List.filter (fun i => decide (i > old ∧ isLocalStreamId i c.client = true ∧
      isUnidirStreamId i = u)) (List.takeWhile (fun i => decide ¬(i > old ∧ i > new))
        (List.dropWhile (fun x => decide (x < old + 4)) c.ids))) = l
    have hli : ∀ x ∈ l, x ∈ c'.ids := by
      intro x hx
      rw [← hl'] at hx
      rw [hids]
      exact (List.dropWhile_sublist _).subset ((List.takeWhile_sublist _).subset (List.mem_filter.1 hx).1)
    obtain ⟨f1, f2, f3⟩ := foldl_insert_mem l c'
    obtain ⟨⟨m', he⟩, hbase⟩ := foldl_insert l c'
    have hbf : Base (l.foldl insertOutput c') := by
      have : ∀ (l : List Nat) (d : Conn), Base d → (∀ x ∈ l, x ∈ d.ids) → Base (l.foldl insertOutput d) := by
        intro l
        induction l with
        | nil => intro d hd _; exact hd
        | cons a l ih =>
          intro d hd hx
          rw [List.foldl_cons]
          refine ih _ (hd.insert (hx a (List.mem_cons_self ..))) fun x hxx => ?_
          obtain ⟨k, hk, _⟩ := insertOutput_out d a
          rw [hk]
          exact hx x (List.mem_cons_of_mem _ hxx)
      exact this l c' hb' hli
    rw [he] at f1 f2 f3 hbf ⊢
    refine key m' hbf (fun x hx => f1 x (hout ▸ hx)) (fun x hx => ?_) fun x hx hna hal => ?_
    · rcases f3 x hx with hx | hx
      · exact .inl (hout ▸ hx)
      · exact .inr hx.2
    · obtain ⟨a1, a2, a3, a4⟩ := hnewly x hna hal
      refine f2 x ?_ hal
      rw [← hl']
      have hmod : x % 4 = localType c.client u := (localType_eq c.client u x).2 ⟨a1, a2⟩
      refine List.mem_filter.2 ⟨?_, ?_⟩
      · refine pairwise_takeWhile (List.Pairwise.sublist (List.dropWhile_sublist _) h.sorted) _ ?_ x ?_ ?_
        · intro a b hab hb
          simp only [decide_eq_true_eq] at hb ⊢
          omega
        · exact pairwise_dropWhile h.sorted _ x hx (by omega)
        · simp only [decide_eq_true_eq]; omega
      · simp only [decide_eq_true_eq]
        exact ⟨a3, (local_iff _ _).2 a1, by rw [← a2]; rfl⟩
  · rw [if_neg hmem]
    have : c' = { c' with output := c.output } := by rw [← hout]
    rw [this]
    refine key c.output (by rw [← this]; exact hb') (fun _ h => h) (fun _ h => .inl h) fun x hx hna hal => ?_
    exfalso
    obtain ⟨a1, a2, a3, a4⟩ := hnewly x hna hal
    have hmod : x % 4 = localType c.client u := (localType_eq c.client u x).2 ⟨a1, a2⟩
    have hxn : x < c.nextStreamId (x % 4) := by
      apply Classical.byContradiction
      intro hge
      exact (h.base.fresh x (by omega)).2 hx
    have hmod' : (old + 4) % 4 = x % 4 := by omega
    refine hmem (h.next (old + 4) (by rw [hmod']; omega) fun e => ?_)
    obtain ⟨b1, b2⟩ := (localType_eq c.client u (old + 4)).1 (by omega)
    have := e b1
    rw [b2, hm] at this
    omega

theorem pairwise_insertId {l : List Nat} (h : l.Pairwise (· < ·)) (id : Nat) (hn : id ∉ l) :
    (insertId id l).Pairwise (· < ·) := by
  induction l with
  | nil => simp [insertId]
  | cons a l ih =>
    obtain ⟨h1, h2⟩ := List.pairwise_cons.1 h
    unfold insertId
    have hne : id ≠ a := fun e => hn (e ▸ List.mem_cons_self ..)
    split
    · rename_i hlt
      refine List.pairwise_cons.2 ⟨fun x hx => ?_, h⟩
      rcases List.mem_cons.1 hx with rfl | hx
      · exact hlt
      · exact Nat.lt_trans hlt (h1 x hx)
    · refine List.pairwise_cons.2 ⟨fun x hx => ?_, ih h2 fun e => hn (List.mem_cons_of_mem _ e)⟩
      rcases (mem_insertId id x l).1 hx with rfl | hx
      · omega
      · exact h1 x hx

theorem sok_new (client : Bool) (id priority maxdata : Nat) :
    SOk client id { id := id, priority := priority, maxdataRemote := maxdata } :=
  ⟨by simp, by simp, by simp, by simp, by simp, by simp⟩

/-- A new stream, not yet in the output list. -/
theorem cov_create {c : Conn} (h : Cov c) (id maxdata priority : Nat) : Cov (createStream c id maxdata priority) := by
  unfold createStream
  by_cases hid : id = c.nextStreamId (streamTypeFromId id)
  case neg => rw [if_neg hid]; exact h
  rw [if_pos hid]
  have hb := createStream_base h.base id maxdata priority hid
  have hid' : id = c.nextStreamId (id % 4) := hid
  obtain ⟨hfresh, hno⟩ := h.base.fresh id (by omega)
  generalize hd : addStream c id maxdata priority = d at *
  have hcl : d.client = c.client := by rw [← hd]; rfl
  have hids : d.ids = insertId id c.ids := by rw [← hd]; rfl
  have hout : d.output = c.output := by rw [← hd]; rfl
  have hlim : d.maxStreamIdRemote = c.maxStreamIdRemote := by rw [← hd]; rfl
  have hget : ∀ i, d.get i = if i = id then { id := id, priority := priority, maxdataRemote := maxdata }
      else c.get i := by intro i; rw [← hd]; rfl
  have hnext : ∀ t, d.nextStreamId t = if t = id % 4 then id + 4 else c.nextStreamId t := by
    intro t; rw [← hd]; rfl
  have hal : ∀ i, StreamAllowed d i ↔ StreamAllowed c i := by
    intro i; unfold StreamAllowed; rw [hcl, hlim]
  have hmem : ∀ i, i ∈ d.ids ↔ i = id ∨ i ∈ c.ids := by intro i; rw [hids]; exact mem_insertId id i c.ids
  -- what holds for any output list with the new stream
  have key : ∀ e : Conn, Base e → e.client = d.client → e.ids = d.ids → e.maxStreamIdRemote = d.maxStreamIdRemote →
      e.get = d.get → e.nextStreamId = d.nextStreamId → (∀ x ∈ c.output, x ∈ e.output) →
      (∀ x ∈ e.output, x ∈ c.output ∨ StreamAllowed c x) →
      (StreamAllowed c id → CanSend c.client id → id ∈ e.output) → Cov e := by
    intro e he e1 e2 e3 e4 e5 e6 e7 e8
    have hae : ∀ i, StreamAllowed e i ↔ StreamAllowed c i := by
      intro i; rw [← hal]; unfold StreamAllowed; rw [e1, e3]
    refine ⟨he, fun i => ?_, fun i hi => ?_, fun i hi => ?_, fun u => ?_, ?_, fun i hi hx => ?_, fun i hi hx => ?_⟩
    · rw [e1, e4, hcl, hget]
      split
      · rename_i e; subst e; exact sok_new _ _ _ _
      · exact h.sok i
    · rw [hae]
      exact (e7 i hi).elim (h.allowed i) fun a => a
    · rw [e4, hget]
      split
      · exact ⟨rfl, rfl⟩
      · exact h.closed i fun a => hi ((hae i).2 a)
    · rw [e3, e1, hcl, hlim]; exact h.lim u
    · rw [e2, hids]; exact pairwise_insertId h.sorted id hno
    · rw [e2, hmem]
      rw [e5, hnext] at hi
      rw [hae] at hx
      by_cases ht : i % 4 = id % 4
      · rw [if_pos ht] at hi
        by_cases hlt : i < id
        · exact .inr (h.next i (by rw [ht, ← hid']; exact hlt) hx)
        · exact .inl (by omega)
      · rw [if_neg ht] at hi
        exact .inr (h.next i hi hx)
    · rw [hae] at hx
      rw [e4, e1, hcl, hget]
      rcases (hmem i).1 (e2 ▸ hi) with rfl | hi'
      · rw [if_pos rfl]
        by_cases hcs : CanSend c.client i
        · exact .inl (e8 hx hcs)
        · exact .inr ⟨(fun a => by cases a.1), fun a => absurd a hcs⟩
      · have hne : i ≠ id := fun a => hno (a ▸ hi')
        rw [if_neg hne]
        exact (h.cover i hi' hx).imp_left (e6 i)
  have hins : Cov (insertOutput d id) := by
    obtain ⟨f1, f2, f3⟩ := foldl_insert_mem [id] d
    obtain ⟨m, he, _⟩ := insertOutput_out d id
    have hbi := hb.insert ((hmem id).2 (.inl rfl))
    simp only [List.foldl_cons, List.foldl_nil] at f1 f2 f3
    refine key (insertOutput d id) hbi (by rw [he]) (by rw [he]) (by rw [he]) (by rw [he]) (by rw [he])
      (fun x hx => f1 x (hout ▸ hx)) (fun x hx => ?_) fun ha _ => f2 id (by simp) ((hal id).2 ha)
    rcases f3 x hx with hx | hx
    · exact .inl (hout ▸ hx)
    · exact .inr ((hal x).1 hx.2)
  have hnot : ¬ (StreamAllowed c id ∧ CanSend c.client id) → Cov d := by
    intro hn
    exact key d hb rfl rfl rfl rfl rfl (fun x hx => hout ▸ hx) (fun x hx => .inl (hout ▸ hx))
      (fun a b => absurd ⟨a, b⟩ hn)
  by_cases hloc : isLocalStreamId id c.client = true
  · rw [if_pos hloc]
    split
    · exact hins
    · rename_i hle
      exact hnot fun a => hle (a.1 ((local_iff _ _).1 hloc))
  · rw [if_neg hloc]
    split
    · rename_i hu
      refine hnot fun a => ?_
      rcases a.2 with a | a
      · exact hloc ((local_iff _ _).2 a)
      · simp [isUnidirStreamId] at hu
        omega
    · exact hins

theorem addToStream_more (s : Stream) (data : Bytes) (fin : Bool) :
    (addToStream s data fin).1.stopRequested = s.stopRequested ∧
    (addToStream s data fin).1.stopSent = s.stopSent ∧
    ((addToStream s data fin).1.queue = s.queue ∨
      ((addToStream s data fin).1.queue = s.queue ++ [data] ∧ data ≠ [])) ∧
    (s.finRequested = true → (addToStream s data fin).1.finRequested = true) ∧
    (s.resetSent = false → s.stopReceived = false → (addToStream s data fin).2 = false →
      s.finRequested = true ∧ data ≠ []) := by
  unfold addToStream
  dsimp only
  by_cases h1 : fin = true ∧ s.finRequested = true ∧ data.length > 0
  · rw [if_pos h1]
    refine ⟨rfl, rfl, .inl rfl, fun h => h, fun _ _ _ => ⟨h1.2.1, ?_⟩⟩
    intro e; rw [e] at h1; exact absurd h1.2.2 (by simp)
  · rw [if_neg h1]
    have hne : data.length > 0 → data ≠ [] := fun h e => by rw [e] at h; exact absurd h (by simp)
    cases fin <;> simp only [if_true, if_false, Bool.false_eq_true]
    all_goals
      by_cases h2 : s.resetSent = true ∨ s.stopReceived = true
      · simp only [if_pos h2]
        refine ⟨trivial, trivial, .inl trivial, by simp, fun a b => ?_⟩
        rw [a, b] at h2; simp at h2
      · simp only [if_neg h2]
        by_cases h4 : data.length > 0
        · simp only [if_pos h4]
          exact ⟨trivial, trivial, .inr ⟨trivial, hne h4⟩, by simp, by simp⟩
        · simp only [if_neg h4]
          exact ⟨trivial, trivial, .inl trivial, by simp, by simp⟩

theorem cov_write {c : Conn} (h : Cov c) (id : Nat) (data : Bytes) (fin : Bool) (hi : id ∈ c.ids)
    (hok : OpOk c (.write id data fin)) : Cov (c.set id (addToStream (c.get id) data fin).1) := by
  obtain ⟨ok1, ok2, ok3⟩ := hok
  have hs := h.sok id
  have hcl := h.closed id
  have hcv := h.cover id hi
  have hidof := h.base.idOf id hi
  obtain ⟨_, _, f1, f2, f3, f4, f5⟩ := addToStream_fields (c.get id) data fin
  obtain ⟨g1, g2, g3, g4, g5⟩ := addToStream_more (c.get id) data fin
  have hid := (addToStream_id (c.get id) data fin).trans hidof
  generalize c.get id = s at *
  generalize addToStream s data fin = t at *
  refine h.set hi hid ?_ ?_ ?_
  · refine ⟨?_, fun e => ?_, fun e => ?_, fun e => ?_, fun e => ?_, fun e => absurd ok1 e⟩
    · intro hx
      rcases g3 with g | ⟨g, hne⟩
      · rw [g] at hx; exact hs.nodes hx
      · rw [g] at hx
        rcases List.mem_append.1 hx with hx | hx
        · exact hs.nodes hx
        · have : [] = data := by simpa using hx
          exact hne this.symm
    · cases hb : t.2 with
      | true => exact (f4 hb).2.2.1
      | false => rw [(f5 hb).2.1]; exact hs.resetReq (f2 ▸ e)
    · rw [f1] at e
      cases hb : t.2 with
      | true => rw [(f4 hb).2.2.2.1] at e; cases e
      | false => rw [f2, f3, (f5 hb).1]; exact hs.reset e
    · cases hb : t.2 with
      | true => exact (f4 hb).2.2.1
      | false =>
        rw [(f5 hb).2.1]
        cases hf : fin with
        | false => exact hs.finActive ((f5 hb).2.2 hf ▸ e)
        | true =>
          obtain ⟨o1, o2⟩ := ok3 hf
          exact hs.finActive (g5 o1 o2 hb).1
    · rw [f3] at e
      rw [f1]
      rcases hs.fin e with hx | ⟨hx, hy⟩
      · exact .inl hx
      · refine .inr ⟨g4 hx, ?_⟩
        rcases g3 with g | ⟨_, hne⟩
        · rw [g]; exact hy
        · exact absurd (ok2 hx) hne
  · rw [f1, f3]; exact hcl
  · intro ha
    refine (hcv ha).imp_right fun hx => ⟨fun e => hx.1 ⟨g1 ▸ e.1, g2 ▸ e.2⟩, fun e => ?_⟩
    obtain ⟨a, b, d⟩ := hx.2 e
    exact ⟨fun e => a ⟨f2 ▸ e.1, f1 ▸ e.2⟩, f3 ▸ b, d.imp g4 fun e => f1 ▸ e⟩

theorem step_cov {c : Conn} (h : Cov c) (op : Op) (hok : OpOk c op) : Cov (step c op).1 := by
  cases op with
  | create id maxdata priority => exact cov_create h id maxdata priority
  | write id data fin =>
    unfold step
    dsimp only
    split
    · rename_i hi; exact cov_write h id data fin hi hok
    · exact h
  | markActive id active =>
    have hs := h.sok id
    have hok : CanSend c.client id := hok
    refine cov_onStream h id (fun s => markActive s active) ?_ ?_ ?_ ?_ ?_
    · unfold markActive; (repeat' split) <;> rfl
    · unfold markActive
      split
      · split
        · rename_i hx
          have h1 : (c.get id).finRequested = false := by simpa using hx.1
          have h2 : (c.get id).resetRequested = false := by simpa using hx.2
          exact ⟨hs.nodes, (fun e => by rw [h2] at e; cases e), hs.reset, (fun e => by rw [h1] at e; cases e), hs.fin,
            fun e => absurd hok e⟩
        · exact hs
      · exact ⟨hs.nodes, fun _ => rfl, hs.reset, fun _ => rfl, hs.fin, fun e => absurd hok e⟩
    · unfold markActive; (repeat' split) <;> exact ⟨rfl, rfl⟩
    · unfold markActive; (repeat' split) <;> exact fun a => a
    · unfold markActive; (repeat' split) <;> exact fun a => a
  | setPriority id priority =>
    unfold step
    dsimp only
    split
    case isFalse => exact h
    rename_i hi
    have hs := h.sok id
    have hset : Cov (c.set id { c.get id with priority := priority }) :=
      h.set (s := { c.get id with priority := priority }) hi (h.base.idOf id hi)
        ⟨hs.nodes, hs.resetReq, hs.reset, hs.finActive, hs.fin, hs.peer⟩ (h.closed id) (h.cover id hi)
    generalize c.set id { c.get id with priority := priority } = d at *
    unfold reorderOutput
    split
    case isFalse => exact hset
    rename_i ho
    dsimp only
    split
    case isFalse => exact hset
    have hal := hset.allowed id ho
    -- removal and insertion
    obtain ⟨f1, f2, f3⟩ := foldl_insert_mem [id] (removeOutput d id)
    obtain ⟨m, he, _⟩ := insertOutput_out (removeOutput d id) id
    have hbi := (hset.base.remove id).insert (id := id) (hset.base.out id ho)
    simp only [List.foldl_cons, List.foldl_nil] at f1 f2 f3
    rw [he] at f1 f2 f3 hbi ⊢
    refine ⟨hbi, hset.sok, fun i hx => ?_, hset.closed, hset.lim, hset.sorted, hset.next, fun i hx hy => ?_⟩
    · rcases f3 i hx with hx | ⟨_, hx⟩
      · exact hset.allowed i (List.mem_filter.1 hx).1
      · exact hx
    · rcases hset.cover i hx hy with hz | hz
      · by_cases hii : i = id
        · subst hii; exact .inl (f2 i (by simp) hal)
        · exact .inl (f1 i (List.mem_filter.2 ⟨hz, by simpa using hii⟩))
      · exact .inr hz
  | setAffinity id path =>
    have hs := h.sok id
    exact cov_onStream h id (fun s => { s with affinity := path }) rfl
      ⟨hs.nodes, hs.resetReq, hs.reset, hs.finActive, hs.fin, hs.peer⟩ ⟨rfl, rfl⟩ (fun a => a) (fun a => a)
  | reset id error acked =>
    obtain ⟨ok1, ok2, ok3⟩ := hok
    subst ok3
    have hs := h.sok id
    refine cov_onStream h id (fun s => requestReset s error false) ?_ ?_ ?_ ?_ ?_
    · unfold requestReset; (repeat' split) <;> rfl
    · unfold requestReset
      split
      · exact hs
      split
      · rename_i hx hy
        refine ⟨hs.nodes, fun _ => ok2, fun e => ⟨rfl, (hs.reset e).2⟩, hs.finActive, hs.fin, fun e => absurd ok1 e⟩
      · exact hs
    · unfold requestReset; (repeat' split) <;> exact ⟨rfl, rfl⟩
    · unfold requestReset; (repeat' split) <;> exact fun a => a
    · intro hd
      unfold requestReset
      rw [if_pos ⟨hd.2.1, by simp⟩]
      exact hd
  | stopSending id error =>
    unfold step
    dsimp only
    split
    case isFalse => exact h
    rename_i hi
    have hs := h.sok id
    -- the stream with the request, then in the list
    generalize hd : c.set id { c.get id with stopError := error, stopRequested := true } = d
    have hb : Base d := by
      rw [← hd]
      exact h.base.set (s := { c.get id with stopError := error, stopRequested := true }) hi.1 (h.base.idOf id hi.1)
    have hg : ∀ i, d.get i = if i = id then { c.get id with stopError := error, stopRequested := true } else c.get i := by
      intro i; rw [← hd]; rfl
    have e1 : d.client = c.client := by rw [← hd]; rfl
    have e2 : d.ids = c.ids := by rw [← hd]; rfl
    have e3 : d.output = c.output := by rw [← hd]; rfl
    have e4 : d.maxStreamIdRemote = c.maxStreamIdRemote := by rw [← hd]; rfl
    have e5 : d.nextStreamId = c.nextStreamId := by rw [← hd]; rfl
    have hal : ∀ i, StreamAllowed d i ↔ StreamAllowed c i := by
      intro i; unfold StreamAllowed; rw [e1, e4]
    obtain ⟨f1, f2, f3⟩ := foldl_insert_mem [id] d
    obtain ⟨m, he, _⟩ := insertOutput_out d id
    have hbi := hb.insert (id := id) (by rw [e2]; exact hi.1)
    simp only [List.foldl_cons, List.foldl_nil] at f1 f2 f3
    rw [he] at f1 f2 f3 hbi ⊢
    refine ⟨hbi, fun i => ?_, fun i hx => ?_, fun i hx => ?_, fun u => ?_, ?_, fun i hx hy => ?_, fun i hx hy => ?_⟩
    · show SOk d.client i (d.get i)
      rw [e1, hg]
      split
      · rename_i e; subst e
        exact ⟨hs.nodes, hs.resetReq, hs.reset, hs.finActive, hs.fin, hs.peer⟩
      · exact h.sok i
    · rcases f3 i hx with hx | ⟨_, hx⟩
      · exact (hal i).2 (h.allowed i (e3 ▸ hx))
      · exact hx
    · show (d.get i).finSent = false ∧ (d.get i).resetSent = false
      have := h.closed i fun a => hx ((hal i).2 a)
      rw [hg]
      split
      · rename_i e; subst e; exact this
      · exact this
    · show ∃ n, 1 ≤ n ∧ n ≤ 2 ^ 60 ∧ d.maxStreamIdRemote u = 4 * (n - 1) + localType d.client u
      rw [e1, e4]; exact h.lim u
    · show d.ids.Pairwise (· < ·)
      rw [e2]; exact h.sorted
    · show i ∈ d.ids
      have hx : i < d.nextStreamId (i % 4) := hx
      rw [e5] at hx
      rw [e2]; exact h.next i hx fun a => hy ((hal i).2 a)
    · show i ∈ m ∨ (¬ StopPending (d.get i) ∧ (CanSend d.client i → Done (d.get i)))
      by_cases hii : i = id
      · subst hii; exact .inl (f2 i (by simp) hy)
      · rw [hg, if_neg hii, e1]
        have hx : i ∈ d.ids := hx
        exact (h.cover i (e2 ▸ hx) ((hal i).1 hy)).imp_left fun a => f1 i (e3 ▸ a)
  | stopReceived id =>
    have hs := h.sok id
    refine cov_onStream h id
      (fun s => if ¬ s.resetRequested ∧ ¬ s.finSent then { s with stopReceived := true } else s) ?_ ?_ ?_ ?_ ?_
    · split <;> rfl
    · split
      · exact ⟨hs.nodes, hs.resetReq, hs.reset, hs.finActive, hs.fin, hs.peer⟩
      · exact hs
    · split <;> exact ⟨rfl, rfl⟩
    · split <;> exact fun a => a
    · split <;> exact fun a => a
  | finReceived id =>
    have hs := h.sok id
    exact cov_onStream h id (fun s => { s with finReceived := true }) rfl
      ⟨hs.nodes, hs.resetReq, hs.reset, hs.finActive, hs.fin, hs.peer⟩ ⟨rfl, rfl⟩ (fun a => a) (fun a => a)
  | resetReceived id =>
    have hs := h.sok id
    exact cov_onStream h id (fun s => { s with resetReceived := true }) rfl
      ⟨hs.nodes, hs.resetReq, hs.reset, hs.finActive, hs.fin, hs.peer⟩ ⟨rfl, rfl⟩ (fun a => a) (fun a => a)
  | maxData v =>
    unfold step
    dsimp only
    split
    · exact ⟨⟨h.base.idOf, h.base.out, h.base.fresh⟩, h.sok, h.allowed, h.closed, h.lim, h.sorted, h.next, h.cover⟩
    · exact h
  | maxStreamData id v =>
    have hs := h.sok id
    refine cov_onStream h id (fun s => if v > s.maxdataRemote then { s with maxdataRemote := v } else s) ?_ ?_ ?_ ?_ ?_
    · split <;> rfl
    · split
      · exact ⟨hs.nodes, hs.resetReq, hs.reset, hs.finActive, hs.fin, hs.peer⟩
      · exact hs
    · split <;> exact ⟨rfl, rfl⟩
    · split <;> exact fun a => a
    · split <;> exact fun a => a
  | maxStreams u n => exact cov_maxStreams h u n hok.1 hok.2
  | params maxdata count stream => exact hok.elim
  | delete id =>
    unfold step
    dsimp only
    split
    case isFalse => exact h
    rename_i hi
    refine ⟨⟨fun i hx => h.base.idOf i (List.mem_filter.1 hx).1, fun i hx => ?_, fun i hx => ?_⟩, h.sok,
      fun i hx => h.allowed i (List.mem_filter.1 hx).1, h.closed, h.lim,
      List.Pairwise.sublist List.filter_sublist h.sorted, fun i hx hy => ?_, fun i hx hy => ?_⟩
    · obtain ⟨a, b⟩ := List.mem_filter.1 hx
      exact List.mem_filter.2 ⟨h.base.out i a, b⟩
    · exact ⟨(h.base.fresh i hx).1, fun a => (h.base.fresh i hx).2 (List.mem_filter.1 a).1⟩
    · refine List.mem_filter.2 ⟨h.next i hx hy, ?_⟩
      simp only [decide_eq_true_eq]
      rintro rfl
      obtain ⟨a, b⟩ := h.closed i hy
      rcases hi.2 with e | e | e
      · rw [a] at e; cases e
      · rw [b] at e; cases e
      · apply hy
        intro hl
        have hl : LocalId c.client i := hl
        rw [(local_iff _ _).2 hl] at e
        cases e.1
    · obtain ⟨a, b⟩ := List.mem_filter.1 hx
      exact (h.cover i a hy).imp_left fun e => List.mem_filter.2 ⟨e, b⟩
  | send path priority room time answers turns =>
    exact cov_sendStreams h path priority room time answers turns

theorem historyOk_snoc {c : Conn} {ops : List Op} {op : Op} (h : HistoryOk c (ops ++ [op])) :
    HistoryOk c ops ∧ OpOk (run c ops).1 op := by
  induction ops generalizing c with
  | nil => exact ⟨trivial, h.1⟩
  | cons a ops ih =>
    obtain ⟨h1, h2⟩ := h
    obtain ⟨h3, h4⟩ := ih h2
    exact ⟨⟨h1, h3⟩, h4⟩

theorem run_cov (client : Bool) (maxdata : Nat) (n : Bool → Nat) (hn : ∀ u, 1 ≤ n u ∧ n u ≤ 2 ^ 60) (ops : List Op)
    (h : HistoryOk (initial client maxdata fun u => streamIdFromRank (n u) client u) ops) :
    Cov (run (initial client maxdata fun u => streamIdFromRank (n u) client u) ops).1 := by
  induction ops using StreamInput.snoc_induction with
  | h0 =>
    refine ⟨initial_base _ _ _, fun i => ?_, by simp [run, initial], fun i _ => ⟨rfl, rfl⟩, fun u => ?_, List.Pairwise.nil,
      fun i hi => ?_, by simp [run, initial]⟩
    · exact ⟨by simp [run, initial], by simp [run, initial], by simp [run, initial], by simp [run, initial],
        by simp [run, initial], by simp [run, initial]⟩
    · exact ⟨n u, (hn u).1, (hn u).2, rank_eq _ _ _ (hn u).1 (hn u).2⟩
    · have hi : i < i % 4 := hi
      omega
  | h1 ops op ih =>
    obtain ⟨h1, h2⟩ := historyOk_snoc h
    rw [run_snoc]
    exact step_cov (ih h1) op h2

/-- The streams in the output list: what the code looks at is what the specification says. -/
theorem Cov.ready_iff {c : Conn} (h : Cov c) (path : Option Nat) {id : Nat} (ho : id ∈ c.output) :
    Sendable c path id ↔ Ready c path id := by
  have hs := h.sok id
  have ha := h.allowed id ho
  have h1 : isUrgent (c.get id) = true ↔ (ResetPending (c.get id) ∨ StopPending (c.get id)) := by
    simp [isUrgent, ResetPending, StopPending]
  have h2 : hasData c path (c.get id) = true ↔ HasDataToSend c path (c.get id) := by
    simp only [hasData, HasDataToSend, decide_eq_true_eq, Bool.not_eq_true]
    have : ¬(path ≠ none ∧ (c.get id).affinity ≠ path ∧ (c.get id).affinity ≠ none) ↔
        (path = none ∨ (c.get id).affinity = none ∨ (c.get id).affinity = path) := by
      by_cases a : path = none
      · simp [a]
      · by_cases b : (c.get id).affinity = none
        · simp [b]
        · simp [a, b]
    rw [this]
    constructor
    · rintro ⟨a, b, c, d⟩; exact ⟨b, a, c, d⟩
    · rintro ⟨a, b, c, d⟩; exact ⟨b, a, c, d⟩
  unfold Sendable Ready
  rw [h1, h2]
  have hcan : ∀ {p : Prop}, (¬ CanSend c.client id → p) → (¬ p → CanSend c.client id) := fun hp hn =>
    Classical.byContradiction fun e => hn (hp e)
  constructor
  · rintro ((h | h) | ⟨h, _⟩)
    · refine ⟨ha, .inr ⟨?_, .inl h⟩⟩
      apply Classical.byContradiction
      intro e
      have := (hs.peer e).2.2.2
      rw [h.1] at this; cases this
    · exact ⟨ha, .inl h⟩
    · refine ⟨ha, .inr ⟨?_, .inr ⟨?_, h⟩⟩⟩
      · apply Classical.byContradiction
        intro e
        obtain ⟨p1, p2, p3, _⟩ := hs.peer e
        rcases h.2.2.1 with q | q | q
        · rw [p1] at q; cases q
        · exact q p2
        · rw [p3] at q; cases q.1
      · cases hx : (c.get id).resetSent with
        | false => rfl
        | true =>
          obtain ⟨p1, p2, p3⟩ := hs.reset hx
          rcases h.2.2.1 with q | q | q
          · rw [hs.resetReq p1] at q; cases q
          · exact absurd p2 q
          · rw [p3] at q; cases q.2
  · rintro ⟨_, h | ⟨_, h | ⟨_, h⟩⟩⟩
    · exact .inl (.inr h)
    · exact .inl (.inl h)
    · exact .inr ⟨h, fun _ => (allowed_iff c id).2 ha⟩

/-- A stream of the connection that may send is in the list. -/
theorem Cov.ready_mem {c : Conn} (h : Cov c) (path : Option Nat) {id : Nat} (hi : id ∈ c.ids)
    (hr : Ready c path id) : id ∈ c.output := by
  have hs := h.sok id
  obtain ⟨ha, hr⟩ := hr
  rcases h.cover id hi ha with hx | ⟨hx1, hx2⟩
  · exact hx
  · exfalso
    rcases hr with hr | ⟨hc, hr | ⟨hr, hd⟩⟩
    · exact hx1 hr
    · exact (hx2 hc).1 hr
    · obtain ⟨d1, d2, d3⟩ := hx2 hc
      rcases hs.fin d2 with e | ⟨e1, e2⟩
      · rw [hr] at e; cases e
      · rcases hd.2.2.1 with q | q | q
        · rw [hs.finActive e1] at q; cases q
        · exact q e2
        · rw [d2] at q; cases q.2

theorem Cov.best {c : Conn} (h : Cov c) (ho : Ord c.get c.output) (path : Option Nat) :
    (∀ id, (StreamSend.findReady c path).1 = some id → BestChoice c path c.ids id) ∧
    ((StreamSend.findReady c path).1 = none → ∀ id ∈ c.ids, ¬ Ready c path id) := by
  obtain ⟨h1, h2⟩ := findReady_best h.base ho path
  have hu : ∀ i, isUrgent (c.get i) = true ↔ (ResetPending (c.get i) ∨ StopPending (c.get i)) := fun i => by
    simp [isUrgent, ResetPending, StopPending]
  have hu' : ∀ i, isUrgent (c.get i) = false ↔ ¬ (ResetPending (c.get i) ∨ StopPending (c.get i)) := fun i => by
    rw [← hu, Bool.not_eq_true]
  refine ⟨fun id hid => ?_, fun hn id hi hr => ?_⟩
  · obtain ⟨a, b, d⟩ := h1 id hid
    refine ⟨h.base.out id a, (h.ready_iff path a).1 b, fun j hj hr => ?_⟩
    have hjo := h.ready_mem path hj hr
    obtain ⟨d1, d2, d3⟩ := d j hjo ((h.ready_iff path hjo).2 hr)
    refine ⟨d1, d2, fun e e' => ?_⟩
    have := d3 e e'
    rwa [hu, hu, hu'] at this
  · have hjo := h.ready_mem path hi hr
    exact h2 hn id hjo ((h.ready_iff path hjo).2 hr)

end Picoquic.StreamSend
