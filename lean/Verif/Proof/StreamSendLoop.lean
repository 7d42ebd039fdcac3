import Verif.Proof.StreamSendCover
/-!
# The loop that fills a packet ends
-/

namespace Picoquic.StreamSend
open Picoquic Picoquic.StreamFrame Picoquic.Spec

/-! ## Loops without end -/

/-- A stream that is found again and again, and for which nothing is written. -/
theorem sendTurns_stuck {path : Option Nat} {priority time : Nat} {answers : Nat → Answer} {c : Conn} {id room : Nat}
    (hw : ∀ n, formatStreamFrame c id room time (answers n) = (c, [], 0))
    (hf : findReady c path = (some id, c)) (hr : 17 < room) (hp : (c.get id).priority ≤ priority) (n : Nat) :
    sendTurns path priority time answers n c (some id) room = (c, [], false) := by
  induction n with
  | zero => rfl
  | succ n ih =>
    unfold sendTurns
    rw [if_pos ⟨hp, by omega⟩, hw n]
    dsimp only
    rw [hf]
    dsimp only
    rw [if_neg (by omega), Nat.sub_zero, ih]
    rfl

/-! ## Nothing to send -/

theorem findLoop_none (c : Conn) (path : Option Nat) (l : List Nat) (h : ∀ i ∈ l, ¬ Sendable c path i) :
    (findLoop c path none l).1 = none := by
  cases hx : (findLoop c path none l).1 with
  | none => rfl
  | some id =>
    rcases findLoop_found c path none l id hx with h' | ⟨h1, h2⟩
    · cases h'
    · exact absurd h2 (h id h1)

theorem send_nothing (c : Conn) (path : Option Nat) (h : ∀ i ∈ c.output, ¬ Sendable c path i)
    (priority room time : Nat) (answers : Nat → Answer) (turns : Nat) :
    (sendStreams c path priority room time answers turns).2.1 = [] := by
  unfold sendStreams
  have : (findReady c path).1 = none := findLoop_none c path c.output h
  dsimp only
  rw [this]
  cases turns <;> rfl

/-! ## Turns that make progress -/

/-- Flags that a turn without output may clear. -/
def pendingFlags (s : Stream) : Nat :=
  (if s.isActive then 1 else 0) + (if s.stopRequested ∧ ¬ s.stopSent then 1 else 0)

def pendingSum (c : Conn) : Nat := (c.output.map fun i => pendingFlags (c.get i)).sum

theorem sum_le_of_sublist {l l' : List Nat} (h : l.Sublist l') (f g : Nat → Nat) (hfg : ∀ i ∈ l, f i ≤ g i) :
    (l.map f).sum ≤ (l'.map g).sum := by
  induction h with
  | slnil => simp
  | cons a h ih =>
    simp only [List.map_cons, List.sum_cons]
    have := ih hfg
    omega
  | cons_cons a h ih =>
    simp only [List.map_cons, List.sum_cons]
    have := ih fun i hi => hfg i (List.mem_cons_of_mem _ hi)
    have := hfg a (List.mem_cons_self ..)
    omega

theorem sum_lt_of_mem {l : List Nat} (f g : Nat → Nat) (hfg : ∀ i ∈ l, f i ≤ g i) {x : Nat} (hx : x ∈ l)
    (hlt : f x < g x) : (l.map f).sum < (l.map g).sum := by
  induction l with
  | nil => cases hx
  | cons a l ih =>
    simp only [List.map_cons, List.sum_cons]
    have h0 := hfg a (List.mem_cons_self ..)
    have h1 := fun i hi => hfg i (List.mem_cons_of_mem a hi)
    have h2 := sum_le_of_sublist (List.Sublist.refl l) f g h1
    rcases List.mem_cons.1 hx with rfl | hx
    · omega
    · have := ih h1 hx; omega

/-- Conditions for the progress of the loop. -/
structure Live (c : Conn) : Prop where
  cov : Cov c
  /-- not reset and asked to stop at the same time -/
  both : ∀ i ∈ c.output, (c.get i).resetRequested = true → ¬ StopPending (c.get i)
  /-- RESET_STREAM frames have at most 18 bytes -/
  small : ∀ i ∈ c.output, (c.get i).resetRequested = true → i < 2 ^ 30 ∧ (c.get i).localError < 2 ^ 30
  /-- limits are 64 bit numbers -/
  limits : c.maxdataRemote < 2 ^ 64 ∧ ∀ i ∈ c.output, (c.get i).maxdataRemote < 2 ^ 64

/-- What a turn does to streams. -/
def SLess (s t : Stream) : Prop :=
  t.resetRequested = s.resetRequested ∧ t.localError = s.localError ∧ t.maxdataRemote = s.maxdataRemote ∧
  (StopPending t → StopPending s) ∧ pendingFlags t ≤ pendingFlags s

/-- What a turn does. -/
structure Less (c d : Conn) : Prop where
  sub : d.output.Sublist c.output
  maxdata : d.maxdataRemote = c.maxdataRemote
  get : ∀ i, SLess (c.get i) (d.get i)

theorem SLess.refl (s : Stream) : SLess s s := ⟨rfl, rfl, rfl, fun h => h, Nat.le_refl _⟩

theorem Less.refl (c : Conn) : Less c c := ⟨List.Sublist.refl _, rfl, fun _ => .refl _⟩

theorem SLess.trans {s t u : Stream} (h : SLess s t) (h' : SLess t u) : SLess s u :=
  ⟨h'.1.trans h.1, h'.2.1.trans h.2.1, h'.2.2.1.trans h.2.2.1, fun x => h.2.2.2.1 (h'.2.2.2.1 x),
    Nat.le_trans h'.2.2.2.2 h.2.2.2.2⟩

theorem Less.trans {c d e : Conn} (h : Less c d) (h' : Less d e) : Less c e :=
  ⟨h'.sub.trans h.sub, h'.maxdata.trans h.maxdata, fun i => (h.get i).trans (h'.get i)⟩

theorem Less.live {c d : Conn} (h : Less c d) (hl : Live c) (hc : Cov d) : Live d := by
  refine ⟨hc, fun i hi hr => ?_, fun i hi hr => ?_, by rw [h.maxdata]; exact hl.limits.1, fun i hi => ?_⟩
  · have hg := h.get i
    exact fun hs => hl.both i (h.sub.subset hi) (hg.1 ▸ hr) (hg.2.2.2.1 hs)
  · have hg := h.get i
    rw [hg.2.1]
    exact hl.small i (h.sub.subset hi) (hg.1 ▸ hr)
  · rw [(h.get i).2.2.1]
    exact hl.limits.2 i (h.sub.subset hi)

theorem Less.sum {c d : Conn} (h : Less c d) : pendingSum d ≤ pendingSum c :=
  sum_le_of_sublist h.sub _ _ fun i _ => (h.get i).2.2.2.2

theorem less_set {c : Conn} {id n : Nat} {s : Stream} (h : SLess (c.get id) s) :
    Less c { c.set id s with dataSent := n } := by
  refine ⟨List.Sublist.refl _, rfl, fun i => ?_⟩
  simp only [Conn.set]
  split
  · rename_i e; rw [e]; exact h
  · exact .refl _

theorem less_remove (c : Conn) (id : Nat) : Less c (removeOutput c id) := by
  unfold removeOutput
  exact ⟨List.filter_sublist, rfl, fun _ => .refl _⟩

theorem less_findReady (c : Conn) (path) : Less c (findReady c path).2 := by
  rw [findReady_out]
  exact ⟨List.filter_sublist, rfl, fun _ => .refl _⟩

/-- A flag is cleared. -/
theorem set_sum_lt {c : Conn} {id n : Nat} {s : Stream} (ho : id ∈ c.output) (h : SLess (c.get id) s)
    (hlt : pendingFlags s < pendingFlags (c.get id)) :
    pendingSum { c.set id s with dataSent := n } < pendingSum c := by
  refine sum_lt_of_mem _ _ (fun i _ => ((less_set (n := n) h).get i).2.2.2.2) ho ?_
  simp only [Conn.set, if_pos]
  exact hlt

/-! ## Frames fit -/

theorem varint_fits (n room : Nat) (h : 8 ≤ room) :
    framesVarintEncode n room = some (varintBytes n) ∧ (varintBytes n).length ≤ 8 ∧ 1 ≤ (varintBytes n).length := by
  rw [framesVarintEncode_eq, varintBytes_length]
  have : encodeVarintLength n ≤ 8 ∧ 1 ≤ encodeVarintLength n := by
    unfold encodeVarintLength
    (repeat' split) <;> omega
  rw [if_pos (by omega)]
  exact ⟨rfl, this⟩

theorem varint_small (n room : Nat) (hn : n < 2 ^ 30) (h : 4 ≤ room) :
    framesVarintEncode n room = some (varintBytes n) ∧ (varintBytes n).length ≤ 4 := by
  rw [framesVarintEncode_eq, varintBytes_length]
  have : encodeVarintLength n ≤ 4 := by
    unfold encodeVarintLength
    have : n < 1073741824 := by omega
    (repeat' split) <;> omega
  rw [if_pos (by omega)]
  exact ⟨rfl, this⟩

theorem byte_fits (n room : Nat) (h : 1 ≤ room) : framesUint8Encode n room = some [u8 n] := by
  rw [framesUint8Encode_eq, if_pos h]

theorem reset_fits (id err off room : Nat) (h1 : id < 2 ^ 30) (h2 : err < 2 ^ 30) (h : 18 ≤ room) :
    ∃ b, (framesUint8Encode 4).seq ((framesVarintEncode id).seq
      ((framesVarintEncode err).seq (framesVarintEncode off))) room = some b ∧ 0 < b.length := by
  unfold Enc.seq
  rw [byte_fits _ _ (by omega)]
  dsimp only
  have a := varint_small id (room - [u8 4].length) h1 (by simp; omega)
  rw [a.1]
  dsimp only
  simp only [List.length_singleton] at *
  have b := varint_small err (room - 1 - (varintBytes id).length) h2 (by omega)
  rw [b.1]
  dsimp only
  have d := varint_fits off (room - 1 - (varintBytes id).length - (varintBytes err).length) (by omega)
  rw [d.1]
  exact ⟨_, rfl, by simp⟩

theorem stop_fits (id err room : Nat) (h : 18 ≤ room) :
    ∃ b, (framesUint8Encode 5).seq ((framesVarintEncode id).seq (framesVarintEncode err)) room = some b ∧
      0 < b.length := by
  unfold Enc.seq
  rw [byte_fits _ _ (by omega)]
  dsimp only
  have a := varint_fits id (room - [u8 5].length) (by simp; omega)
  rw [a.1]
  dsimp only
  simp only [List.length_singleton] at *
  have d := varint_fits err (room - 1 - (varintBytes id).length) (by omega)
  rw [d.1]
  exact ⟨_, rfl, by simp⟩

theorem header_fits (id off room : Nat) (h : 18 ≤ room) :
    ∃ t tl, formatStreamFrameHeader id off room = some (t :: tl) ∧ (t :: tl).length < room := by
  have hx : ∃ b, formatStreamFrameHeader id off room = some b := by
    unfold formatStreamFrameHeader Enc.seq
    rw [byte_fits _ _ (by omega)]
    dsimp only
    have a := varint_fits id (room - [u8 8].length) (by simp; omega)
    rw [a.1]
    dsimp only
    split
    · have d := varint_fits off (room - ([u8 8] ++ varintBytes id).length) (by simp; omega)
      rw [d.1]
      exact ⟨_, rfl⟩
    · exact ⟨_, rfl⟩
  obtain ⟨b, hb⟩ := hx
  have := (header_eq hb).2
  refine ⟨_, _, hb.trans (congrArg some this), ?_⟩
  have a := varint_fits id 8 (by omega)
  have d := varint_fits off 8 (by omega)
  simp only [List.length_cons, List.length_append]
  split
  · omega
  · simp only [List.length_nil]; omega

theorem orHead_length (m : UInt8) (b : Bytes) : (orHead m b).length = b.length := by
  cases b <;> rfl

theorem encodeLength_pos (t : UInt8) (tl : Bytes) (space n : Nat) :
    0 < (encodeLengthOfStreamFrame (t :: tl) space n).1.length := by
  unfold encodeLengthOfStreamFrame
  (repeat' split) <;> simp [orHead_length]

theorem queued_pos (t : UInt8) (tl : Bytes) (space : Nat) (data : Bytes) (fin : Bool) :
    0 < (queuedFrame (t :: tl) space data fin).length := by
  have := encodeLength_pos t tl space data.length
  unfold queuedFrame
  dsimp only
  split
  · unfold setFin
    rw [List.length_append, orHead_length, ← List.length_append, List.take_append_drop, List.length_append]
    omega
  · rw [List.length_append]; omega

theorem sub64_pos {a b : Nat} (h : b < a) (ha : a < 2 ^ 64) : 0 < sub64 a b := by
  unfold sub64 u64
  rw [show a + 18446744073709551616 - b = (a - b) + 18446744073709551616 by omega, Nat.add_mod_right,
    Nat.mod_eq_of_lt (by omega)]
  omega

theorem allowedSpace_pos {c : Conn} {s : Stream} {space : Nat} (h0 : 0 < space) (h1 : s.sentOffset < s.maxdataRemote)
    (h2 : c.dataSent < c.maxdataRemote) (h3 : s.maxdataRemote < 2 ^ 64) (h4 : c.maxdataRemote < 2 ^ 64) :
    0 < allowedSpace c s space := by
  have a := sub64_pos h1 h3
  have b := sub64_pos h2 h4
  unfold allowedSpace
  dsimp only
  (repeat' split) <;> omega

/-! ## Progress -/

/-- A turn writes bytes or clears a flag. -/
def Progress (c : Conn) (w : Written) : Prop :=
  Less c w.1 ∧ (0 < w.2.2 ∨ pendingSum w.1 < pendingSum c)

/-- An answer of the application: if it gives no data and no FIN, the stream is not active any more. -/
def AnswerOk (a : Answer) : Prop := a.data = [] → a.fin = false → a.stillActive = false

theorem progress_polled {c : Conn} {s : Stream} (ho : s.id ∈ c.output) (hs : c.get s.id = s) (t : UInt8) (tl : Bytes)
    (room time : Nat) (answer : Answer) (ha : AnswerOk answer) (hact : s.isActive = true) :
    Progress c (formatPolled c s (t :: tl) room time answer) := by
  unfold formatPolled
  dsimp only
  have ha' : AnswerOk (if answer.data.length ≤ allowedSpace c s (room - (t :: tl).length) then answer
    else ⟨[], false, false⟩ : Answer) := by
    split
    · exact ha
    · intro _ _; rfl
  generalize (if answer.data.length ≤ allowedSpace c s (room - (t :: tl).length) then answer
    else ⟨[], false, false⟩ : Answer) = a at *
  rw [polled_eq_queued]
  have hp := queued_pos t tl (room - (t :: tl).length) a.data a.fin
  generalize queuedFrame (t :: tl) (room - (t :: tl).length) a.data a.fin = raw at *
  split
  · rename_i h
    have hf := ha' (List.length_eq_zero_iff.1 h.1) h.2
    rw [hf]
    have hsl : SLess (c.get s.id) { s with isActive := false } := by
      rw [hs]
      refine ⟨rfl, rfl, rfl, fun h => h, ?_⟩
      simp [pendingFlags]
    refine ⟨less_set (n := c.dataSent) hsl, .inr (set_sum_lt (n := c.dataSent) ho hsl ?_)⟩
    rw [hs]
    simp [pendingFlags, hact]
  · refine ⟨?_, .inl hp⟩
    dsimp only
    generalize hd : ({ s with
      sentOffset := s.sentOffset + a.data.length
      lastSent := time
      isActive := if a.fin then false else a.stillActive
      finRequested := s.finRequested || a.fin
      finSent := s.finSent || a.fin } : Stream) = t
    have hsl : SLess (c.get s.id) t := by
      rw [hs, ← hd]
      refine ⟨rfl, rfl, rfl, fun h => h, ?_⟩
      simp only [pendingFlags, hact, if_true]
      split <;> split <;> omega
    split
    · exact (less_set (n := c.dataSent + a.data.length) hsl).trans (less_remove _ _)
    · exact less_set (n := c.dataSent + a.data.length) hsl

theorem progress_queued {c : Conn} {s : Stream} (hs : c.get s.id = s) (t : UInt8) (tl : Bytes)
    (room time : Nat) (hr : (t :: tl).length < room) (hn : [] ∉ s.queue)
    (h1 : s.sentOffset < s.maxdataRemote)
    (h2 : c.dataSent < c.maxdataRemote) (h3 : s.maxdataRemote < 2 ^ 64) (h4 : c.maxdataRemote < 2 ^ 64) :
    Progress c (formatQueued c s (t :: tl) room time) := by
  have hA := allowedSpace_pos (space := room - (t :: tl).length) (by omega) h1 h2 h3 h4
  clear h1 h2 h3 h4
  rw [formatQueued]
  dsimp only
  generalize allowedSpace c s (room - (t :: tl).length) = A at *
  have hd : s.queue = [] ∨ 0 < (List.take A (s.queue.headD [])).length := by
    cases hq : s.queue with
    | nil => exact .inl rfl
    | cons a q =>
      right
      rw [hq] at hn
      have : a ≠ [] := fun h => hn (by rw [h]; exact List.mem_cons_self ..)
      have := List.length_pos_iff.2 this
      simp only [List.headD_cons, List.length_take]
      omega
  generalize List.take A (s.queue.headD []) = data at *
  generalize hq : (if data.length > 0 then
      (if (s.queue.headD []).drop data.length = [] then s.queue.tail
        else (s.queue.headD []).drop data.length :: s.queue.tail)
    else s.queue) = queue
  generalize (if data.length > 0 then time else s.lastSent) = ls
  generalize (s.finSent || (queue.isEmpty && s.finRequested)) = fs
  have hp := fun f => queued_pos t tl (room - (t :: tl).length) data f
  have hp1 := hp s.finRequested
  have hp2 := hp false
  clear hp
  generalize queuedFrame (t :: tl) (room - (t :: tl).length) data s.finRequested = r1 at *
  generalize queuedFrame (t :: tl) (room - (t :: tl).length) data false = r2 at *
  generalize hd' : ({ s with queue := queue, sentOffset := s.sentOffset + data.length, lastSent := ls, finSent := fs } : Stream) = t
  have ht : SLess (c.get s.id) t := by
    rw [hs]
    unfold SLess StopPending pendingFlags
    subst hd'
    dsimp only
    exact ⟨rfl, rfl, rfl, fun h => h, Nat.le_refl _⟩
  clear hd'
  by_cases hq0 : queue = []
  · rw [if_pos hq0]
    exact ⟨less_set ht, .inl hp1⟩
  · rw [if_neg hq0]
    have : data.length ≠ 0 := by
      rcases hd with h | h
      · intro h0
        rw [if_neg (by omega), h] at hq
        exact hq0 hq.symm
      · omega
    rw [if_neg this]
    exact ⟨less_set ht, .inl hp2⟩

theorem progress_format {c : Conn} (h : Live c) {path : Option Nat} {id : Nat} (ho : id ∈ c.output)
    (hs : Sendable c path id) {room : Nat} (hr : 18 ≤ room) (time : Nat) (answer : Answer) (ha : AnswerOk answer) :
    Progress c (formatStreamFrame c id room time answer) := by
  have hok := h.cov.sok id
  have hid := h.cov.base.idOf id (h.cov.base.out id ho)
  have hall := (allowed_iff c id).2 (h.cov.allowed id ho)
  have hready := (h.cov.ready_iff path ho).1 hs
  have hboth := h.both id ho
  have hsmall := h.small id ho
  have hl1 := h.limits.1
  have hl2 := h.limits.2 id ho
  clear h
  rw [formatStreamFrame]
  rw [if_neg (by simp [hall])]
  by_cases h1 : (c.get id).resetSent = true
  · exfalso
    have := hok.reset h1
    rcases hready.2 with h | ⟨_, h | h⟩
    · exact hboth this.1 h
    · rw [h.2] at h1; cases h1
    · rw [h.1] at h1; cases h1
  rw [if_neg h1]
  by_cases h2 : (c.get id).resetRequested = true
  · rw [if_pos h2]
    have hsm := hsmall h2
    rw [formatReset, hid]
    obtain ⟨b, hb, hb0⟩ := reset_fits id (c.get id).localError (c.get id).sentOffset room hsm.1 hsm.2 hr
    rw [hb]
    dsimp only
    exact ⟨less_set (n := c.dataSent) ⟨rfl, rfl, rfl, fun h => h, Nat.le_refl _⟩, .inl hb0⟩
  rw [if_neg h2]
  by_cases h3 : (c.get id).stopRequested = true ∧ ¬ (c.get id).stopSent = true
  · rw [if_pos h3]
    have hsl : SLess (c.get id) { c.get id with stopSent := true } := by
      refine ⟨rfl, rfl, rfl, fun h => absurd h.2 (by simp), ?_⟩
      simp [pendingFlags]
    unfold formatStopSending
    rw [hid]
    split
    · refine ⟨less_set (n := c.dataSent) hsl, .inr (set_sum_lt (n := c.dataSent) ho hsl ?_)⟩
      simp [pendingFlags, h3]
    · obtain ⟨b, hb, hb0⟩ := stop_fits id (c.get id).stopError room hr
      rw [hb]
      exact ⟨less_set (n := c.dataSent) hsl, .inl hb0⟩
  rw [if_neg h3]
  have hdata : HasDataToSend c path (c.get id) := by
    rcases hready.2 with h | ⟨_, h | h⟩
    · exact absurd ⟨h.1, by simp [h.2]⟩ h3
    · exact absurd h.1 h2
    · exact h.2
  obtain ⟨d1, d2, d3, _⟩ := hdata
  rw [if_neg (by
    intro ⟨e1, e2, e3⟩
    rcases d3 with d | d | ⟨d, d'⟩
    · exact e1 d
    · exact d e2
    · rcases e3 with e | e
      · exact e d
      · rw [d'] at e; cases e)]
  obtain ⟨t, tl, hh, hlt⟩ := header_fits (c.get id).id (c.get id).sentOffset room hr
  rw [hh]
  dsimp only
  by_cases h4 : (c.get id).isActive = true ∧ (c.get id).queue = [] ∧ ¬ (c.get id).finRequested = true
  · rw [if_pos h4]
    exact progress_polled (by rw [hid]; exact ho) (by rw [hid]) t tl room time answer ha h4.1
  · rw [if_neg h4]
    exact progress_queued (by rw [hid]) t tl room time hlt hok.nodes d1 d2 hl2 hl1

/-- The loop ends after at most `room + pendingSum + 1` turns. -/
theorem turns_end (path : Option Nat) (priority time : Nat) (answers : Nat → Answer) (ha : ∀ n, AnswerOk (answers n))
    (n : Nat) : ∀ (c : Conn) (found : Option Nat) (room : Nat), Live c →
      (∀ id, found = some id → id ∈ c.output ∧ Sendable c path id) → 18 ≤ room → room + pendingSum c < n →
      (sendTurns path priority time answers n c found room).2.2 = true := by
  induction n with
  | zero => intro c found room _ _ _ h; omega
  | succ n ih =>
    intro c found room hl hf hr hn
    cases found with
    | none => rfl
    | some id =>
      obtain ⟨h1, h2⟩ := hf id rfl
      unfold sendTurns
      by_cases hc : (c.get id).priority ≤ priority ∧ room > 0
      · rw [if_pos hc]
        dsimp only
        have hp := progress_format hl h1 h2 hr time (answers n) (ha n)
        have hcov := cov_format hl.cov h1 room time (answers n)
        generalize formatStreamFrame c id room time (answers n) = w at *
        have hcov2 := hcov.findReady path
        have hless := hp.1.trans (less_findReady w.1 path)
        have hsum := (less_findReady w.1 path).sum
        have hsum1 := hp.1.sum
        have hfound : ∀ id, (findReady w.1 path).1 = some id →
            id ∈ (findReady w.1 path).2.output ∧ Sendable (findReady w.1 path).2 path id := fun id hid =>
          ⟨(findReady_sendable hid).2.1, (by
            have := (findReady_sendable hid).2.2
            rw [findReady_out]
            exact this)⟩
        cases hx : (findReady w.1 path).1 with
        | none =>
          rw [if_neg (by simp)]
          cases n with
          | zero => omega
          | succ n => rfl
        | some j =>
          by_cases h17 : room - w.2.2 ≤ 17
          · rw [if_pos ⟨rfl, h17⟩]
          · rw [if_neg (fun h => h17 h.2)]
            refine ih _ _ _ (hless.live hl hcov2) (hx ▸ hfound) (by omega) ?_
            rcases hp.2 with h | h <;> omega
      · rw [if_neg hc]

theorem sendStreams_end {c : Conn} (h : Live c) (path : Option Nat) (priority room time : Nat) (answers : Nat → Answer)
    (ha : ∀ n, AnswerOk (answers n)) (turns : Nat) (ht : room + pendingSum c + 1 < turns) :
    (sendStreams c path priority room time answers turns).2.2 = true := by
  unfold sendStreams
  dsimp only
  have hl := (less_findReady c path).live h (h.cov.findReady path)
  have hsum := (less_findReady c path).sum
  have hf : ∀ id, (findReady c path).1 = some id →
      id ∈ (findReady c path).2.output ∧ Sendable (findReady c path).2 path id := fun id hid =>
    ⟨(findReady_sendable hid).2.1, by
      have := (findReady_sendable hid).2.2
      rw [findReady_out]
      exact this⟩
  generalize (findReady c path).1 = found at *
  generalize (findReady c path).2 = d at *
  by_cases hr : 18 ≤ room
  · exact turns_end path priority time answers ha turns d found room hl hf hr (by omega)
  · obtain ⟨m, rfl⟩ : ∃ m, turns = m + 2 := ⟨turns - 2, by omega⟩
    cases found with
    | none => rfl
    | some id =>
      unfold sendTurns
      split
      · dsimp only
        generalize formatStreamFrame d id room time (answers (m + 1)) = w
        cases hx : (findReady w.1 path).1 with
        | none =>
          rw [if_neg (by simp)]
          rfl
        | some j => rw [if_pos ⟨rfl, by omega⟩]
      · rfl

/-! ## Loops without end -/

theorem format_resetSent {c : Conn} {id : Nat} (h : (c.get id).resetSent = true) (room time : Nat) (a : Answer) :
    formatStreamFrame c id room time a = (c, [], 0) := by
  rw [formatStreamFrame]
  by_cases h0 : ¬ allowedStream c id = true
  · exact if_pos h0
  · rw [if_neg h0]
    exact if_pos h

theorem format_notAllowed {c : Conn} {id : Nat} (h : allowedStream c id = false) (room time : Nat) (a : Answer) :
    formatStreamFrame c id room time a = (c, [], 0) := by
  rw [formatStreamFrame]
  exact if_pos (by simp [h])

theorem findReady_of_loop {c : Conn} {path : Option Nat} {id : Nat} (h : findLoop c path none c.output = (some id, [])) :
    findReady c path = (some id, c) := by
  unfold findReady
  rw [h]
  rfl

theorem sendStreams_stuck {path : Option Nat} {priority time : Nat} {answers : Nat → Answer} {c : Conn} {id room : Nat}
    (hw : ∀ n, formatStreamFrame c id room time (answers n) = (c, [], 0))
    (hf : findLoop c path none c.output = (some id, [])) (hr : 17 < room) (hp : (c.get id).priority ≤ priority)
    (n : Nat) : sendStreams c path priority room time answers n = (c, [], false) := by
  unfold sendStreams
  rw [findReady_of_loop hf]
  exact sendTurns_stuck hw (findReady_of_loop hf) hr hp n

/-! ## The space in which frames were written -/

/-- A STREAM frame written by the code of C17, in at most `R` bytes. -/
def RawIn (R : Nat) (e : Event) : Prop :=
  match e with
  | .stream id offset fin data raw => ∃ (room : Nat) (header : Bytes) (polled : Bool), room ≤ R ∧
      formatStreamFrameHeader id offset room = some header ∧ data.length ≤ room - header.length ∧
      raw = if polled then polledFrame header (room - header.length) data fin
        else queuedFrame header (room - header.length) data fin
  | _ => True

theorem allowedSpace_le (c : Conn) (s : Stream) (space : Nat) : allowedSpace c s space ≤ space := by
  unfold allowedSpace
  dsimp only
  (repeat' split) <;> omega

theorem raw_format (c : Conn) (id R room time : Nat) (answer : Answer) (hR : room ≤ R) :
    ∀ e ∈ (formatStreamFrame c id room time answer).2.1, RawIn R e := by
  rw [formatStreamFrame]
  generalize c.get id = s
  by_cases h0 : ¬ allowedStream c id = true
  · rw [if_pos h0]; simp
  rw [if_neg h0]
  by_cases h1 : s.resetSent = true
  · rw [if_pos h1]; simp
  rw [if_neg h1]
  by_cases h2 : s.resetRequested = true
  · rw [if_pos h2, formatReset]
    split
    · simp [RawIn]
    · simp
  rw [if_neg h2]
  by_cases h3 : s.stopRequested = true ∧ ¬ s.stopSent = true
  · rw [if_pos h3, formatStopSending]
    split
    · simp
    · split
      · simp [RawIn]
      · simp
  rw [if_neg h3]
  by_cases h4 : ¬ s.isActive = true ∧ s.queue = [] ∧ (¬ s.finRequested = true ∨ s.finSent = true)
  · rw [if_pos h4]; simp
  rw [if_neg h4]
  cases hh : formatStreamFrameHeader s.id s.sentOffset room with
  | none => simp
  | some header =>
    dsimp only
    have hle := allowedSpace_le c s (room - header.length)
    split
    · rw [formatPolled]
      dsimp only
      have ha : (if answer.data.length ≤ allowedSpace c s (room - header.length) then answer
          else ⟨[], false, false⟩ : Answer).data.length ≤ room - header.length := by
        split
        · omega
        · simp
      generalize (if answer.data.length ≤ allowedSpace c s (room - header.length) then answer
        else ⟨[], false, false⟩ : Answer) = a at *
      split
      · simp
      · intro e he
        simp only [List.mem_cons, List.not_mem_nil, or_false] at he
        rcases he with rfl | rfl
        · trivial
        · exact ⟨room, header, true, hR, hh, ha, (if_pos rfl).symm⟩
    · rw [formatQueued]
      dsimp only
      generalize allowedSpace c s (room - header.length) = A at *
      have hd : (List.take A (s.queue.headD [])).length ≤ room - header.length := by
        rw [List.length_take]; omega
      generalize List.take A (s.queue.headD []) = data at *
      generalize (if data.length > 0 then
          (if (s.queue.headD []).drop data.length = [] then s.queue.tail
            else (s.queue.headD []).drop data.length :: s.queue.tail)
        else s.queue) = queue
      by_cases hq : queue = []
      · rw [if_pos hq]
        intro e he
        simp only [List.mem_cons, List.not_mem_nil, or_false] at he
        subst he
        exact ⟨room, header, false, hR, hh, hd, (if_neg Bool.false_ne_true).symm⟩
      · rw [if_neg hq]
        split
        · simp
        · intro e he
          simp only [List.mem_cons, List.not_mem_nil, or_false] at he
          subst he
          exact ⟨room, header, false, hR, hh, hd, (if_neg Bool.false_ne_true).symm⟩

theorem raw_turns (path : Option Nat) (priority time : Nat) (answers : Nat → Answer) (R n : Nat) :
    ∀ (c : Conn) (found : Option Nat) (room : Nat), room ≤ R →
      ∀ e ∈ (sendTurns path priority time answers n c found room).2.1, RawIn R e := by
  induction n with
  | zero => intro c found room _ e he; simp [sendTurns] at he
  | succ n ih =>
    intro c found room hR
    cases found with
    | none => intro e he; simp [sendTurns] at he
    | some id =>
      unfold sendTurns
      split
      · dsimp only
        have hw := raw_format c id R room time (answers n) hR
        generalize formatStreamFrame c id room time (answers n) = w at *
        split
        · exact hw
        · intro e he
          rcases List.mem_append.1 he with he | he
          · exact hw e he
          · exact ih _ _ _ (by omega) e he
      · intro e he; cases he

/-- The space of a packet is at most `R`. -/
def RoomIn (R : Nat) : Op → Prop
  | .send _ _ room _ _ _ => room ≤ R
  | _ => True

theorem raw_step (c : Conn) (op : Op) (R : Nat) (h : RoomIn R op) : ∀ e ∈ (step c op).2, RawIn R e := by
  cases op with
  | send path priority room time answers turns =>
    unfold step sendStreams
    exact raw_turns path priority time answers R turns _ _ room h
  | write id data fin =>
    unfold step
    dsimp only
    split
    · intro e he
      simp only [List.mem_cons, List.not_mem_nil, or_false] at he
      subst he
      split <;> trivial
    · simp
  | _ => intro e he; simp [step] at he

theorem raw_run (c : Conn) (ops : List Op) (R : Nat) (h : ∀ op ∈ ops, RoomIn R op) : ∀ e ∈ (run c ops).2, RawIn R e := by
  induction ops generalizing c with
  | nil => intro e he; simp [run] at he
  | cons op ops ih =>
    intro e he
    rcases List.mem_append.1 he with he | he
    · exact raw_step c op R (h op (List.mem_cons_self ..)) e he
    · exact ih _ (fun o ho => h o (List.mem_cons_of_mem _ ho)) e he

/-! ## The end of a stream, in the events of all streams -/

theorem endsOnce_evOf {id : Nat} {ev : List Event} (h : EndsOnce id ev) : EndsOnce id (evOf id ev) := by
  refine ⟨fun pre post data fin he hf => ?_, fun data hx => h.2 data (mem_evOf.1 hx).1⟩
  obtain ⟨a, b, hab, ha, hb⟩ := List.filter_eq_append_iff.1 he
  obtain ⟨b1, b2, hb12, hb1, hb2, hb3⟩ := List.filter_eq_cons_iff.1 hb
  refine h.1 (a ++ b1) b2 data fin (by rw [hab, hb12]; simp) ?_
  obtain ⟨d, hd⟩ := hf
  rw [← ha] at hd
  exact ⟨d, List.mem_append_left _ (List.mem_filter.1 hd).1⟩

end Picoquic.StreamSend
