import Verif.Proof.StreamSend
/-!
# Histories of the send side
-/

namespace Picoquic.StreamSend
open Picoquic Picoquic.StreamFrame Picoquic.Spec
open Picoquic.StreamLimits (setN setB streamTypeFromId nextStreamIdForType)

/-! ## One packet -/

theorem sendTurns_eff {L} (path : Option Nat) (priority time : Nat) (answers : Nat → Answer) (n : Nat) :
    ∀ (c : Conn) (found : Option Nat) (room : Nat), Base c →
      (∀ id, found = some id → id ∈ c.output ∧ Sendable c path id) →
      Eff L c (sendTurns path priority time answers n c found room).1
        (sendTurns path priority time answers n c found room).2.1 ∧
      (sendTurns path priority time answers n c found room).1.maxdataRemote = c.maxdataRemote ∧
      (sendTurns path priority time answers n c found room).1.ids = c.ids := by
  induction n with
  | zero => intro c found room hb _; exact ⟨.refl hb, rfl, rfl⟩
  | succ n ih =>
    intro c found room hb hf
    cases found with
    | none => exact ⟨.refl hb, rfl, rfl⟩
    | some id =>
      unfold sendTurns
      obtain ⟨h1, h2⟩ := hf id rfl
      have hw := formatStreamFrame_wrote (L := L) hb (hb.out _ h1) room time (answers n) h2
      by_cases hc : (c.get id).priority ≤ priority ∧ room > 0
      · rw [if_pos hc]
        dsimp only
        generalize formatStreamFrame c id room time (answers n) = w at hw
        have hbr := hw.eff.base.findReady path
        have hge : Eff L w.1 (findReady w.1 path).2 [] := by
          refine eff_conn hbr ?_ ?_ <;> rw [findReady_out]
        have hmr : (findReady w.1 path).2.maxdataRemote = w.1.maxdataRemote := by rw [findReady_out]
        have hids : (findReady w.1 path).2.ids = w.1.ids := by rw [findReady_out]
        have h3 : Eff L c (findReady w.1 path).2 w.2.1 := by
          have := hw.eff.append hw.maxdata hge
          rwa [List.append_nil] at this
        split
        · exact ⟨h3, by rw [hmr, hw.maxdata], by rw [hids, hw.ids]⟩
        · have hs : ∀ id, (findReady w.1 path).1 = some id →
              id ∈ (findReady w.1 path).2.output ∧ Sendable (findReady w.1 path).2 path id := by
            intro id hid
            obtain ⟨_, a, b⟩ := findReady_sendable hid
            refine ⟨a, ?_⟩
            rw [findReady_out]
            exact b
          obtain ⟨i1, i2, i3⟩ := ih (findReady w.1 path).2 (findReady w.1 path).1 (room - w.2.2) hbr hs
          exact ⟨h3.append (by rw [hmr, hw.maxdata]) i1, by rw [i2, hmr, hw.maxdata], by rw [i3, hids, hw.ids]⟩
      · rw [if_neg hc]
        exact ⟨.refl hb, rfl, rfl⟩

theorem sendStreams_eff {L} {c : Conn} (hb : Base c) (path : Option Nat) (priority room time : Nat)
    (answers : Nat → Answer) (n : Nat) :
    Eff L c (sendStreams c path priority room time answers n).1
      (sendStreams c path priority room time answers n).2.1 ∧
    (sendStreams c path priority room time answers n).1.maxdataRemote = c.maxdataRemote ∧
    (sendStreams c path priority room time answers n).1.ids = c.ids := by
  unfold sendStreams
  dsimp only
  have hge : Eff L c (findReady c path).2 [] := by
    refine eff_conn (hb.findReady path) ?_ ?_ <;> rw [findReady_out]
  have hmr : (findReady c path).2.maxdataRemote = c.maxdataRemote := by rw [findReady_out]
  have hids : (findReady c path).2.ids = c.ids := by rw [findReady_out]
  obtain ⟨i1, i2, i3⟩ := sendTurns_eff (L := L) path priority time answers n (findReady c path).2
    (findReady c path).1 room (hb.findReady path) (by
      intro id hid
      obtain ⟨_, a, b⟩ := findReady_sendable hid
      refine ⟨a, ?_⟩
      rw [findReady_out]
      exact b)
  exact ⟨by simpa using hge.append hmr i1, by rw [i2, hmr], by rw [i3, hids]⟩

/-! ## All operations -/

/-- The limit given for a stream by an operation. -/
def opLimit (id : Nat) : Op → Nat
  | .create i v _ => if i = id then v else 0
  | .maxStreamData i v => if i = id then v else 0
  | .params _ _ v => v id
  | _ => 0

/-- The limit given for the connection. -/
def opConnLimit : Op → Nat
  | .maxData v => v
  | .params v _ _ => v
  | _ => 0

theorem mem_insertId (id x : Nat) (l : List Nat) : x ∈ insertId id l ↔ x = id ∨ x ∈ l := by
  induction l with
  | nil => simp [insertId]
  | cons y l ih =>
    unfold insertId
    split
    · simp
    · simp only [List.mem_cons, ih]
      constructor
      · rintro (h | h | h) <;> simp [h]
      · rintro (h | h | h) <;> simp [h]

theorem addToStream_id (s : Stream) (data : Bytes) (fin : Bool) : (addToStream s data fin).1.id = s.id := by
  unfold addToStream
  dsimp only
  (repeat' split) <;> rfl

/-- Operations on a stream that exists. -/
theorem onStream_eff {L} {c : Conn} (hb : Base c) (id X : Nat) (f : Stream → Stream)
    (hf : (f (c.get id)).id = (c.get id).id) (ht : Trans id (L id) (c.get id) (f (c.get id)) []) :
    Eff L c (onStream c id f) [] ∧ (onStream c id f).maxdataRemote ≤ max c.maxdataRemote X := by
  unfold onStream
  split
  · rename_i hi
    exact ⟨eff_set hb hi (by rw [hf, hb.idOf id hi]) (by simp) ht rfl, Nat.le_max_left _ _⟩
  · exact ⟨.refl hb, Nat.le_max_left _ _⟩

theorem createStream_base {c : Conn} (hb : Base c) (id maxdata priority : Nat)
    (h : id = c.nextStreamId (streamTypeFromId id)) : Base (addStream c id maxdata priority) := by
  refine ⟨fun i hi => ?_, fun i hi => ?_, fun i hi => ?_⟩
  · show (if i = id then _ else c.get i : Stream).id = i
    split
    · rename_i e; exact e.symm
    · rename_i e
      rcases (mem_insertId _ _ _).1 hi with h | h
      · exact absurd h e
      · exact hb.idOf _ h
  · exact (mem_insertId _ _ _).2 (.inr (hb.out _ hi))
  · change setN c.nextStreamId (id % 4) (id + 4) (i % 4) ≤ i at hi
    change id = c.nextStreamId (id % 4) at h
    have hlt : i ≠ id ∧ c.nextStreamId (i % 4) ≤ i := by
      unfold setN at hi
      split at hi
      · rename_i e
        rw [e]
        exact ⟨by omega, by omega⟩
      · rename_i e
        exact ⟨fun e' => e (by rw [e']), hi⟩
    obtain ⟨a, b⟩ := hb.fresh i hlt.2
    refine ⟨?_, ?_⟩
    · show SameSend {} (if i = id then _ else c.get i)
      rw [if_neg hlt.1]
      exact a
    · show i ∉ insertId id c.ids
      rw [mem_insertId]
      rintro (h | h)
      · exact hlt.1 h
      · exact b h

theorem createStream_eff {L} {c : Conn} (hb : Base c) (id maxdata priority : Nat) (hL : L id = maxdata) :
    Eff L c (createStream c id maxdata priority) [] ∧
    (createStream c id maxdata priority).maxdataRemote = c.maxdataRemote := by
  unfold createStream
  by_cases h : id = c.nextStreamId (streamTypeFromId id)
  · rw [if_pos h]
    have hb' := createStream_base hb id maxdata priority h
    generalize hd : addStream c id maxdata priority = d at *
    have hget : ∀ i, d.get i = if i = id then { id := id, priority := priority, maxdataRemote := maxdata }
      else c.get i := by subst hd; exact fun _ => rfl
    have hmem : id ∈ d.ids := by subst hd; exact (mem_insertId _ _ _).2 (.inl rfl)
    have hds : d.dataSent = c.dataSent := by subst hd; rfl
    have hmr : d.maxdataRemote = c.maxdataRemote := by subst hd; rfl
    have he : Eff L c d [] := by
      refine ⟨hb', fun i => ?_, by rw [hds]; rfl, .inl rfl⟩
      rw [hget]
      split
      · rename_i e
        subst e
        have hf := (hb.fresh i (by rw [show i % 4 = streamTypeFromId i from rfl, ← h]; exact Nat.le_refl _)).1
        refine .one (.same ⟨hf.sentOffset.symm, hf.queue.symm, hf.finRequested.symm, hf.finSent.symm,
          hf.resetRequested.symm, hf.resetSent.symm, hf.localError.symm, fun h => by cases h⟩ ?_)
        rw [hL]
        exact Nat.le_max_right _ _
      · exact .nil
    have hins : Eff L c (insertOutput d id) [] ∧ (insertOutput d id).maxdataRemote = c.maxdataRemote := by
      have hbi := hb'.insert hmem
      obtain ⟨l, hl, _⟩ := insertOutput_out d id
      have : Eff L d (insertOutput d id) [] := by
        refine eff_conn hbi ?_ ?_ <;> rw [hl]
      exact ⟨by simpa using he.append hmr this, by rw [hl]; exact hmr⟩
    (repeat' split) <;> first | exact hins | exact ⟨he, hmr⟩
  · rw [if_neg h]
    exact ⟨.refl hb, rfl⟩

theorem addOutputStreams_base {c : Conn} (hb : Base c) (old new : Nat) (u : Bool) :
    Base (addOutputStreams c old new u) ∧ OutOnly c (addOutputStreams c old new u) := by
  unfold addOutputStreams
  dsimp only
  split
  · generalize hl : List.filter _ _ = l
    have hsub : ∀ x ∈ l, x ∈ c.ids := by
      intro x hx
      rw [← hl] at hx
      have h1 := (List.mem_filter.1 hx).1
      exact (List.dropWhile_sublist _).subset ((List.takeWhile_sublist _).subset h1)
    obtain ⟨⟨m, hm⟩, h2⟩ := foldl_insert l c
    refine ⟨?_, m, hm⟩
    rw [hm] at h2 ⊢
    refine hb.out_of fun x hx => ?_
    rcases h2 x hx with h | h
    · exact hsub x h
    · exact hb.out x h
  · exact ⟨hb, .refl c⟩

theorem paramStreams_base {c : Conn} (hb : Base c) (u : Bool) (count : Option Nat) :
    Base (paramStreams c u count) ∧ (paramStreams c u count).get = c.get ∧
    (paramStreams c u count).dataSent = c.dataSent ∧ (paramStreams c u count).maxdataRemote = c.maxdataRemote := by
  have hb0 : ∀ f, Base { c with maxStreamIdRemote := f } := fun f => ⟨hb.idOf, hb.out, hb.fresh⟩
  unfold paramStreams
  dsimp only
  split
  · exact ⟨hb0 _, rfl, rfl, rfl⟩
  · obtain ⟨h1, l, h2⟩ := addOutputStreams_base (hb0 (setB (setB c.maxStreamIdRemote u 0) u _)) 0 _ u
    exact ⟨h1, by rw [h2], by rw [h2], by rw [h2]⟩

theorem reorderOutput_base {c : Conn} (hb : Base c) (id : Nat) (hi : id ∈ c.ids) :
    Base (reorderOutput c id) ∧ OutOnly c (reorderOutput c id) := by
  unfold reorderOutput
  split
  · dsimp only
    split
    · obtain ⟨l, hl, _⟩ := insertOutput_out (removeOutput c id) id
      refine ⟨(hb.remove id).insert hi, l, ?_⟩
      rw [hl]
      rfl
    · exact ⟨hb, .refl c⟩
  · exact ⟨hb, .refl c⟩

theorem step_eff {c : Conn} (hb : Base c) (op : Op) :
    Eff (fun i => opLimit i op) c (step c op).1 (step c op).2 ∧
    (step c op).1.maxdataRemote ≤ max c.maxdataRemote (opConnLimit op) := by
  have same : ∀ {s t : Stream} {i L : Nat}, SameSend s t → t.maxdataRemote = s.maxdataRemote →
      Trans i L s t [] := fun h e => .same h (by rw [e]; exact Nat.le_max_left _ _)
  cases op with
  | create id maxdata priority =>
    obtain ⟨a, b⟩ := createStream_eff (L := fun i => opLimit i (.create id maxdata priority)) hb id maxdata
      priority (by simp [opLimit])
    exact ⟨a, by show (createStream c id maxdata priority).maxdataRemote ≤ _; rw [b]; exact Nat.le_max_left _ _⟩
  | write id data fin =>
    unfold step
    dsimp only
    split
    · rename_i hi
      refine ⟨eff_set hb hi ?_ ?_ (.write data fin) ?_, Nat.le_max_left _ _⟩
      · exact (addToStream_id _ data fin).trans (hb.idOf id hi)
      · intro e he
        simp only [List.mem_singleton] at he
        rw [he]
        split <;> rfl
      · split <;> rfl
    · exact ⟨.refl hb, Nat.le_max_left _ _⟩
  | markActive id active =>
    refine onStream_eff hb id _ (fun s => markActive s active) ?_ (same ?_ ?_)
    · unfold markActive; (repeat' split) <;> rfl
    · unfold markActive
      split
      · split
        · rename_i h
          exact ⟨rfl, rfl, rfl, rfl, rfl, rfl, rfl, fun _ => .inr (by simpa using h.1)⟩
        · exact .refl _
      · exact ⟨rfl, rfl, rfl, rfl, rfl, rfl, rfl, fun h => by cases h⟩
    · unfold markActive; (repeat' split) <;> rfl
  | setPriority id priority =>
    unfold step
    dsimp only
    split
    · rename_i hi
      have hs := eff_set (L := fun i => opLimit i (.setPriority id priority)) hb hi
        (s := { c.get id with priority := priority }) (hb.idOf id hi) (ev := []) (by simp)
        (same ⟨rfl, rfl, rfl, rfl, rfl, rfl, rfl, fun h => .inl h⟩ rfl) rfl
      obtain ⟨h1, l, h2⟩ := reorderOutput_base hs.base id hi
      refine ⟨?_, ?_⟩
      · have := hs.append rfl (eff_conn (d := reorderOutput (c.set id { c.get id with priority := priority }) id)
          h1 (by rw [h2]) (by rw [h2]))
        simpa using this
      · rw [h2]; exact Nat.le_max_left _ _
    · exact ⟨.refl hb, Nat.le_max_left _ _⟩
  | setAffinity id path =>
    exact onStream_eff hb id _ (fun s => { s with affinity := path }) rfl
      (same ⟨rfl, rfl, rfl, rfl, rfl, rfl, rfl, fun h => .inl h⟩ rfl)
  | reset id error acked =>
    refine onStream_eff hb id _ (fun s => requestReset s error acked) ?_ (.reqReset error acked)
    unfold requestReset; (repeat' split) <;> rfl
  | stopSending id error =>
    unfold step
    dsimp only
    split
    · rename_i hi
      have hs := eff_set (L := fun i => opLimit i (.stopSending id error)) hb hi.1
        (s := { c.get id with stopError := error, stopRequested := true }) (hb.idOf id hi.1) (ev := [])
        (by simp) (same ⟨rfl, rfl, rfl, rfl, rfl, rfl, rfl, fun h => .inl h⟩ rfl) rfl
      obtain ⟨l, h2, _⟩ := insertOutput_out (c.set id { c.get id with stopError := error, stopRequested := true }) id
      refine ⟨?_, ?_⟩
      · have := hs.append rfl (eff_conn (d := insertOutput (c.set id { c.get id with
          stopError := error, stopRequested := true }) id)
          (hs.base.insert hi.1) (by rw [h2]) (by rw [h2]))
        simpa using this
      · rw [h2]; exact Nat.le_max_left _ _
    · exact ⟨.refl hb, Nat.le_max_left _ _⟩
  | stopReceived id =>
    refine onStream_eff hb id _
      (fun s => if ¬ s.resetRequested ∧ ¬ s.finSent then { s with stopReceived := true } else s) ?_ (same ?_ ?_)
    · split <;> rfl
    · split
      · exact ⟨rfl, rfl, rfl, rfl, rfl, rfl, rfl, fun h => .inl h⟩
      · exact .refl _
    · split <;> rfl
  | finReceived id =>
    exact onStream_eff hb id _ (fun s => { s with finReceived := true }) rfl
      (same ⟨rfl, rfl, rfl, rfl, rfl, rfl, rfl, fun h => .inl h⟩ rfl)
  | resetReceived id =>
    exact onStream_eff hb id _ (fun s => { s with resetReceived := true }) rfl
      (same ⟨rfl, rfl, rfl, rfl, rfl, rfl, rfl, fun h => .inl h⟩ rfl)
  | maxData v =>
    unfold step
    dsimp only
    split
    · exact ⟨eff_conn ⟨hb.idOf, hb.out, hb.fresh⟩ rfl rfl, Nat.le_max_right _ _⟩
    · exact ⟨.refl hb, Nat.le_max_left _ _⟩
  | maxStreamData id v =>
    refine onStream_eff hb id _ (fun s => if v > s.maxdataRemote then { s with maxdataRemote := v } else s) ?_
      (.same ?_ ?_)
    · split <;> rfl
    · split
      · exact ⟨rfl, rfl, rfl, rfl, rfl, rfl, rfl, fun h => .inl h⟩
      · exact .refl _
    · simp only [opLimit, if_pos]
      split
      · exact Nat.le_max_right _ _
      · exact Nat.le_max_left _ _
  | maxStreams u count =>
    unfold step decodeMaxStreams
    dsimp only
    split
    · have hb0 : ∀ f, Base { c with maxStreamIdRemote := f } := fun f => ⟨hb.idOf, hb.out, hb.fresh⟩
      obtain ⟨h1, l, h2⟩ := addOutputStreams_base (hb0 (setB c.maxStreamIdRemote u _)) (c.maxStreamIdRemote u) _ u
      exact ⟨eff_conn h1 (by rw [h2]) (by rw [h2]), by rw [h2]; exact Nat.le_max_left _ _⟩
    · exact ⟨.refl hb, Nat.le_max_left _ _⟩
  | params maxdata count stream =>
    unfold step
    dsimp only
    generalize hd : ({ c with
      maxdataRemote := maxdata
      get := fun i => { c.get i with maxdataRemote := max (c.get i).maxdataRemote (stream i) } } : Conn) = d
    have hg : ∀ i, d.get i = { c.get i with maxdataRemote := max (c.get i).maxdataRemote (stream i) } := by
      subst hd; exact fun _ => rfl
    have hbd : Base d := by
      subst hd
      refine ⟨hb.idOf, hb.out, fun i h => ?_⟩
      obtain ⟨a, b⟩ := hb.fresh i h
      exact ⟨⟨a.sentOffset, a.queue, a.finRequested, a.finSent, a.resetRequested, a.resetSent, a.localError,
        a.active⟩, b⟩
    obtain ⟨a1, a2, a3, a4⟩ := paramStreams_base hbd false (count false)
    obtain ⟨b1, b2, b3, b4⟩ := paramStreams_base a1 true (count true)
    refine ⟨⟨b1, fun i => ?_, ?_, .inl rfl⟩, ?_⟩
    · rw [b2, a2, hg]
      exact .one (.same ⟨rfl, rfl, rfl, rfl, rfl, rfl, rfl, fun h => .inl h⟩ (Nat.le_refl _))
    · rw [b3, a3]; subst hd; rfl
    · rw [b4, a4]; subst hd; exact Nat.le_max_right _ _
  | delete id =>
    unfold step
    dsimp only
    split
    · refine ⟨eff_conn ?_ rfl rfl, Nat.le_max_left _ _⟩
      refine ⟨fun i hi => hb.idOf i (List.mem_filter.1 hi).1, fun i hi => ?_, fun i h => ?_⟩
      · have := List.mem_filter.1 hi
        exact List.mem_filter.2 ⟨hb.out i this.1, this.2⟩
      · obtain ⟨a, b⟩ := hb.fresh i h
        exact ⟨a, fun h => b (List.mem_filter.1 h).1⟩
    · exact ⟨.refl hb, Nat.le_max_left _ _⟩
  | send path priority room time answers turns =>
    obtain ⟨a, b, _⟩ := sendStreams_eff (L := fun i => opLimit i (.send path priority room time answers turns))
      hb path priority room time answers turns
    exact ⟨a, by
      show (sendStreams c path priority room time answers turns).1.maxdataRemote ≤ _
      rw [b]; exact Nat.le_max_left _ _⟩

/-! ## Histories -/

theorem run_snoc (c : Conn) (ops : List Op) (op : Op) :
    run c (ops ++ [op]) =
      ((step (run c ops).1 op).1, (run c ops).2 ++ (step (run c ops).1 op).2) := by
  induction ops generalizing c with
  | nil => simp [run]
  | cons a l ih =>
    simp only [List.cons_append, run, ih]
    simp

theorem initial_base (client : Bool) (maxdata : Nat) (limit : Bool → Nat) : Base (initial client maxdata limit) := by
  refine ⟨?_, ?_, fun i _ => ⟨.refl _, ?_⟩⟩ <;> simp [initial]

theorem run_base (client : Bool) (maxdata : Nat) (limit : Bool → Nat) (ops : List Op) :
    Base (run (initial client maxdata limit) ops).1 := by
  induction ops using StreamInput.snoc_induction with
  | h0 => exact initial_base _ _ _
  | h1 ops op ih => rw [run_snoc]; exact (step_eff ih op).1.base

/-- A property of one stream, kept by the transitions, holds after every history. -/
theorem run_stream (P : Nat → Stream → List Event → Prop) (id : Nat) (h0 : P 0 {} [])
    (hm : ∀ M M' s ev, M ≤ M' → P M s ev → P M' s ev)
    (ht : ∀ M s t ev ev', P M s ev → Trans id M s t ev' → P M t (ev ++ ev'))
    (client : Bool) (maxdata : Nat) (limit : Bool → Nat) (ops : List Op) :
    P (peerStreamLimit id ops) ((run (initial client maxdata limit) ops).1.get id)
      (evOf id (run (initial client maxdata limit) ops).2) := by
  induction ops using StreamInput.snoc_induction with
  | h0 => exact h0
  | h1 ops op ih =>
    rw [run_snoc]
    have hs := (step_eff (run_base client maxdata limit ops) op).1.star id
    have hl : peerStreamLimit id (ops ++ [op]) = max (peerStreamLimit id ops) (opLimit id op) := by
      unfold peerStreamLimit
      rw [List.foldl_append]
      generalize List.foldl _ 0 ops = m
      cases op <;> simp only [List.foldl_cons, List.foldl_nil, opLimit] <;>
        first | (split <;> simp) | simp
    rw [hl]
    dsimp only
    rw [evOf_append]
    generalize opLimit id op = L at hs
    generalize (step (run (initial client maxdata limit) ops).1 op).1.get id = t at hs
    generalize evOf id (step (run (initial client maxdata limit) ops).1 op).2 = ev' at hs
    have ih' := hm _ (max (peerStreamLimit id ops) L) _ _ (Nat.le_max_left _ _) ih
    have hLM : L ≤ max (peerStreamLimit id ops) L := Nat.le_max_right _ _
    generalize max (peerStreamLimit id ops) L = M at ih' hLM
    clear hl ih
    induction hs with
    | nil => simpa using ih'
    | snoc _ htr ih2 =>
      rw [← List.append_assoc]
      refine ht _ _ _ _ _ ih2 ?_
      cases htr with
      | same a b => exact .same a (by omega)
      | write => exact .write _ _
      | reqReset => exact .reqReset _ _
      | polled => exact .polled _ _ _ ‹_› ‹_› ‹_› ‹_› ‹_› ‹_› ‹_› ‹_› ‹_› ‹_› ‹_› ‹_› ‹_› ‹_› ‹_›
      | queued => exact .queued _ _ _ _ ‹_› ‹_› ‹_› ‹_› ‹_› ‹_› ‹_› ‹_› ‹_› ‹_› ‹_› ‹_› ‹_› ‹_› ‹_› ‹_›
      | reset => exact .reset ‹_› ‹_› ‹_› ‹_› ‹_› ‹_› ‹_› ‹_› ‹_›
      | stopSending a b => exact .stopSending a b

end Picoquic.StreamSend
