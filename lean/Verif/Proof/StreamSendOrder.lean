import Verif.Proof.StreamSendRun
/-!
# The order of the output streams and the choice of a stream
-/

namespace Picoquic.StreamSend
open Picoquic Picoquic.StreamFrame Picoquic.Spec
open Picoquic.StreamLimits (isClientStreamId isUnidirStreamId)

/-! ## The list of output streams is in order -/

theorem before_iff (s t : Stream) : before s t = true ↔
    s.priority < t.priority ∨ (s.priority = t.priority ∧ s.id < t.id) := by
  simp [before]

theorem before_trans {s t u : Stream} (h : before s t = true) (h' : before t u = true) : before s u = true := by
  rw [before_iff] at *; omega

theorem before_of_not {s t : Stream} (hn : s.id ≠ t.id) (h : ¬ before s t = true) : before t s = true := by
  rw [before_iff] at *; omega

theorem before_irrefl {s : Stream} : ¬ before s s = true := by rw [before_iff]; omega

/-- Priorities are in order along the list. -/
def Ord (g : Nat → Stream) (l : List Nat) : Prop := l.Pairwise (fun a b => before (g a) (g b) = true)

theorem ord_congr {g g' : Nat → Stream} {l : List Nat} (h : Ord g l)
    (hg : ∀ i ∈ l, (g' i).priority = (g i).priority ∧ (g' i).id = (g i).id) : Ord g' l := by
  unfold Ord at *
  refine List.Pairwise.imp_of_mem ?_ h
  intro a b ha hb hab
  obtain ⟨a1, a2⟩ := hg a ha
  obtain ⟨b1, b2⟩ := hg b hb
  rw [before_iff] at *
  rw [a1, a2, b1, b2]
  exact hab

theorem insertLoop_ord {g : Nat → Stream} {id : Nat} {l : List Nat} (h : Ord g l)
    (hn : ∀ x ∈ l, (g x).id ≠ (g id).id) : Ord g (insertLoop g id l) := by
  induction l with
  | nil => simp [insertLoop, Ord]
  | cons y l ih =>
    unfold insertLoop
    have hy := List.pairwise_cons.1 h
    split
    · rename_i hb
      refine List.pairwise_cons.2 ⟨fun x hx => ?_, h⟩
      rcases List.mem_cons.1 hx with rfl | hx
      · exact hb
      · exact before_trans hb (hy.1 x hx)
    · rename_i hb
      refine List.pairwise_cons.2 ⟨fun x hx => ?_, ih hy.2 fun x hx => hn x (List.mem_cons_of_mem _ hx)⟩
      rcases (insertLoop_mem g id x l).1 hx with rfl | hx
      · exact before_of_not (fun e => hn y (List.mem_cons_self ..) e.symm) hb
      · exact hy.1 x hx

theorem append_ord {g : Nat → Stream} {id last : Nat} {l : List Nat} (h : Ord g l)
    (hl : l.getLast? = some last) (hb : before (g last) (g id) = true) : Ord g (l ++ [id]) := by
  refine List.pairwise_append.2 ⟨h, by simp, fun a ha b hb' => ?_⟩
  simp only [List.mem_singleton] at hb'
  subst hb'
  obtain ⟨ys, rfl⟩ := List.getLast?_eq_some_iff.1 hl
  rcases List.mem_append.1 ha with ha | ha
  · exact before_trans ((List.pairwise_append.1 h).2.2 a ha last (by simp)) hb
  · simp only [List.mem_singleton] at ha
    rw [ha]; exact hb

/-- Identifiers of the output streams. -/
def IdsOk (c : Conn) : Prop := ∀ i ∈ c.output, (c.get i).id = i

theorem insertOutput_ord {c : Conn} {id : Nat} (h : Ord c.get c.output) (hi : IdsOk c) (hid : (c.get id).id = id) :
    Ord (insertOutput c id).get (insertOutput c id).output := by
  unfold insertOutput
  split
  · exact h
  rename_i hn
  have hne : ∀ x ∈ c.output, (c.get x).id ≠ (c.get id).id := by
    intro x hx e
    rw [hi x hx, hid] at e
    exact hn (e ▸ hx)
  split
  · exact h
  split
  · simp [Ord]
  · rename_i last hl
    split
    · exact insertLoop_ord h hne
    · rename_i hb
      have hmem : last ∈ c.output := List.mem_of_getLast? hl
      exact append_ord h hl (before_of_not (fun e => hne last hmem e.symm) hb)

theorem foldl_insert_ord (l : List Nat) {c : Conn} (h : Ord c.get c.output) (hb : Base c) (hl : ∀ x ∈ l, x ∈ c.ids) :
    Ord (l.foldl insertOutput c).get (l.foldl insertOutput c).output := by
  induction l generalizing c with
  | nil => exact h
  | cons a l ih =>
    have ha := hl a (List.mem_cons_self ..)
    rw [List.foldl_cons]
    refine ih (insertOutput_ord h (fun i hi => hb.idOf i (hb.out i hi)) (hb.idOf a ha)) (hb.insert ha) ?_
    intro x hx
    obtain ⟨m, he, _⟩ := insertOutput_out c a
    rw [he]
    exact hl x (List.mem_cons_of_mem _ hx)

theorem neighbours_eq (id : Nat) (p q : List Nat) (hn : id ∉ p) :
    neighbours id (p ++ id :: q) = (p.getLast?, q.head?) := by
  induction p with
  | nil =>
    cases q with
    | nil => rfl
    | cons y q => simp [neighbours]
  | cons x p ih =>
    have hx : x ≠ id := fun e => hn (by simp [e])
    have hp : id ∉ p := fun e => hn (List.mem_cons_of_mem _ e)
    cases p with
    | nil => simp [neighbours, hx]
    | cons y p =>
      have hy : y ≠ id := fun e => hp (by simp [e])
      have := ih hp
      rw [List.cons_append] at this
      simp only [List.cons_append, neighbours, hx, hy, if_false]
      rw [this]
      simp

/-- The list after a change of the priority of one stream. -/
theorem reorderOutput_ord {c : Conn} {id : Nat} {s : Stream} (h : Ord c.get c.output) (hb : Base c)
    (hi : id ∈ c.ids) (hs : s.id = id) :
    Ord (reorderOutput (c.set id s) id).get (reorderOutput (c.set id s) id).output := by
  have hb' := hb.set hi hs
  have hget : ∀ x, x ≠ id → (c.set id s).get x = c.get x := fun x hx => by simp [Conn.set, hx]
  have hIds : ∀ i ∈ c.output, (c.get i).id = i := fun i hi => hb.idOf i (hb.out i hi)
  by_cases hmem : id ∈ c.output
  · obtain ⟨p, q, hpq⟩ := List.append_of_mem hmem
    have h0 := h
    rw [hpq] at h0
    obtain ⟨hp, hq, hcross⟩ := List.pairwise_append.1 h0
    obtain ⟨hq1, hq2⟩ := List.pairwise_cons.1 hq
    have hnp : id ∉ p := fun hx => before_irrefl (hcross id hx id (by simp))
    have hnq : id ∉ q := fun hx => before_irrefl (hq1 id hx)
    have hrest : Ord (c.set id s).get (p ++ q) := by
      refine ord_congr (g := c.get) ?_ ?_
      · exact List.pairwise_append.2 ⟨hp, hq2, fun a ha b hb => hcross a ha b (List.mem_cons_of_mem _ hb)⟩
      · intro i hi'
        have : i ≠ id := by
          rintro rfl
          rcases List.mem_append.1 hi' with h | h
          · exact hnp h
          · exact hnq h
        rw [hget i this]; exact ⟨rfl, rfl⟩
    have hidset : ((c.set id s).get id).id = id := hb'.idOf id hi
    have hne : ∀ x ∈ p ++ q, ((c.set id s).get x).id ≠ ((c.set id s).get id).id := by
      intro x hx e
      have hxid : x ≠ id := by
        rintro rfl
        rcases List.mem_append.1 hx with h | h
        · exact hnp h
        · exact hnq h
      have hxo : x ∈ c.output := by
        rw [hpq]
        rcases List.mem_append.1 hx with h | h <;> simp [h]
      rw [hidset, hget x hxid, hIds x hxo] at e
      exact hxid e
    unfold reorderOutput
    rw [if_pos (show id ∈ (c.set id s).output from hmem)]
    dsimp only
    rw [show (c.set id s).output = p ++ id :: q from hpq, neighbours_eq id p q hnp]
    have hfil : (p ++ id :: q).filter (· ≠ id) = p ++ q := by
      rw [List.filter_append, List.filter_cons_of_neg (by simp)]
      rw [List.filter_eq_self.2 (fun a ha => by
          have : a ≠ id := fun e => hnp (e ▸ ha)
          simpa using this),
        List.filter_eq_self.2 (fun a ha => by
          have : a ≠ id := fun e => hnq (e ▸ ha)
          simpa using this)]
    split
    · have hro : (removeOutput (c.set id s) id).output = p ++ q := by
        unfold removeOutput
        rw [show (c.set id s).output = p ++ id :: q from hpq, hfil]
      refine insertOutput_ord (c := removeOutput (c.set id s) id) (by rw [hro]; exact hrest) ?_ hidset
      intro i hi'
      exact (hb'.remove id).idOf i ((hb'.remove id).out i hi')
    · rename_i hcond
      simp only [Bool.or_eq_true, not_or] at hcond
      obtain ⟨c1, c2⟩ := hcond
      show Ord (c.set id s).get (c.set id s).output
      rw [show (c.set id s).output = p ++ id :: q from hpq]
      obtain ⟨rp, rq, rc⟩ := List.pairwise_append.1 hrest
      have hpid : ∀ a ∈ p, before ((c.set id s).get a) ((c.set id s).get id) = true := by
        intro a ha
        cases hl : p.getLast? with
        | none => rw [List.getLast?_eq_none_iff] at hl; subst hl; cases ha
        | some last =>
          have hlb : before ((c.set id s).get last) ((c.set id s).get id) = true := by
            refine before_of_not (fun e => hne last ?_ e.symm) ?_
            · exact List.mem_append_left _ (List.mem_of_getLast? hl)
            · rw [hl] at c1; simpa using c1
          obtain ⟨ys, rfl⟩ := List.getLast?_eq_some_iff.1 hl
          rcases List.mem_append.1 ha with ha | ha
          · exact before_trans ((List.pairwise_append.1 rp).2.2 a ha last (by simp)) hlb
          · simp only [List.mem_singleton] at ha
            rw [ha]; exact hlb
      have hidq : ∀ b ∈ q, before ((c.set id s).get id) ((c.set id s).get b) = true := by
        intro b hb
        cases q with
        | nil => cases hb
        | cons y q =>
          have hyb : before ((c.set id s).get id) ((c.set id s).get y) = true := by
            refine before_of_not (fun e => hne y (by simp) e) ?_
            simpa using c2
          rcases List.mem_cons.1 hb with rfl | hb
          · exact hyb
          · exact before_trans hyb ((List.pairwise_cons.1 rq).1 b hb)
      refine List.pairwise_append.2 ⟨rp, List.pairwise_cons.2 ⟨hidq, rq⟩, ?_⟩
      intro a ha b hb
      rcases List.mem_cons.1 hb with rfl | hb
      · exact hpid a ha
      · exact rc a ha b hb
  · unfold reorderOutput
    rw [if_neg (show ¬ id ∈ (c.set id s).output from hmem)]
    refine ord_congr h ?_
    intro i hi'
    rw [hget i (fun e => hmem (e ▸ hi'))]
    exact ⟨rfl, rfl⟩

/-! ## Operations keep the order -/

/-- The output list gets shorter, priorities do not change. -/
structure Keep (c d : Conn) : Prop where
  sub : d.output.Sublist c.output
  get : ∀ i, (d.get i).priority = (c.get i).priority ∧ (d.get i).id = (c.get i).id

theorem Keep.refl (c : Conn) : Keep c c := ⟨List.Sublist.refl _, fun _ => ⟨rfl, rfl⟩⟩
theorem Keep.trans {c d e : Conn} (h : Keep c d) (h' : Keep d e) : Keep c e :=
  ⟨h'.sub.trans h.sub, fun i => ⟨(h'.get i).1.trans (h.get i).1, (h'.get i).2.trans (h.get i).2⟩⟩
theorem Keep.ord {c d : Conn} (h : Keep c d) (ho : Ord c.get c.output) : Ord d.get d.output :=
  ord_congr (List.Pairwise.sublist h.sub ho) fun i _ => h.get i

theorem keep_set {c : Conn} {id : Nat} {s : Stream} (h : s.priority = (c.get id).priority ∧ s.id = (c.get id).id) :
    Keep c (c.set id s) := by
  refine ⟨List.Sublist.refl _, fun i => ?_⟩
  simp only [Conn.set]
  split
  · rename_i e; rw [e]; exact h
  · exact ⟨rfl, rfl⟩

theorem keep_findReady (c : Conn) (path) : Keep c (findReady c path).2 := by
  rw [findReady_out]
  exact ⟨List.filter_sublist, fun _ => ⟨rfl, rfl⟩⟩

theorem keep_data {c : Conn} {i : Nat} {s : Stream} {n : Nat}
    (h : s.priority = (c.get i).priority ∧ s.id = (c.get i).id) :
    Keep c { c.set i s with dataSent := n } :=
  ⟨(keep_set h).sub, (keep_set h).get⟩

theorem keep_remove (c : Conn) (i : Nat) : Keep c (removeOutput c i) :=
  ⟨List.filter_sublist, fun _ => ⟨rfl, rfl⟩⟩

theorem keep_polled (c : Conn) (s : Stream) (hs : c.get s.id = s) (header room time answer) :
    Keep c (formatPolled c s header room time answer).1 := by
  unfold formatPolled
  dsimp only
  generalize (if answer.data.length ≤ allowedSpace c s (room - header.length) then answer
    else ⟨[], false, false⟩ : Answer) = a
  split
  · exact keep_set (by rw [hs]; exact ⟨rfl, rfl⟩)
  · dsimp only
    split
    · exact (keep_data (by rw [hs]; exact ⟨rfl, rfl⟩)).trans (keep_remove _ _)
    · exact keep_data (by rw [hs]; exact ⟨rfl, rfl⟩)

theorem keep_queued (c : Conn) (s : Stream) (hs : c.get s.id = s) (header room time) :
    Keep c (formatQueued c s header room time).1 := by
  rw [formatQueued]
  dsimp only
  generalize allowedSpace c s (room - header.length) = A
  generalize List.take A (s.queue.headD []) = data
  generalize (if data.length > 0 then
      (if (s.queue.headD []).drop data.length = [] then s.queue.tail
        else (s.queue.headD []).drop data.length :: s.queue.tail)
    else s.queue) = queue
  generalize (if data.length > 0 then time else s.lastSent) = ls
  generalize (s.finSent || (queue.isEmpty && s.finRequested)) = fs
  generalize queuedFrame header (room - header.length) data s.finRequested = r1
  generalize queuedFrame header (room - header.length) data false = r2
  generalize hd : ({ s with queue := queue, sentOffset := s.sentOffset + data.length, lastSent := ls, finSent := fs } : Stream) = t
  have ht : t.priority = (c.get s.id).priority ∧ t.id = (c.get s.id).id := by
    rw [hs, ← hd]; exact ⟨rfl, rfl⟩
  clear hd
  split
  · exact keep_data ht
  · split
    · exact keep_data ht
    · exact keep_data ht

theorem keep_format (c : Conn) (id room time : Nat) (answer : Answer) (hid : (c.get id).id = id) :
    Keep c (formatStreamFrame c id room time answer).1 := by
  unfold formatStreamFrame
  dsimp only
  split
  · exact .refl c
  split
  · exact .refl c
  split
  · unfold formatReset
    split
    · dsimp only
      generalize hs : c.get id = s at *
      subst hid
      exact keep_set (by rw [hs]; exact ⟨rfl, rfl⟩)
    · exact .refl c
  split
  · unfold formatStopSending
    generalize hs : c.get id = s at *
    subst hid
    split
    · exact keep_set (by rw [hs]; exact ⟨rfl, rfl⟩)
    split
    · exact keep_set (by rw [hs]; exact ⟨rfl, rfl⟩)
    · exact .refl c
  split
  · exact .refl c
  split
  · exact .refl c
  · split
    · exact keep_polled c _ (by rw [hid]) _ _ _ _
    · exact keep_queued c _ (by rw [hid]) _ _ _

theorem keep_turns (path : Option Nat) (priority time : Nat) (answers : Nat → Answer) (n : Nat) :
    ∀ (c : Conn) (found : Option Nat) (room : Nat), Base c →
      (∀ id, found = some id → id ∈ c.output ∧ Sendable c path id) →
      Keep c (sendTurns path priority time answers n c found room).1 := by
  induction n with
  | zero => intro c found room _ _; exact .refl c
  | succ n ih =>
    intro c found room hb hf
    cases found with
    | none => exact .refl c
    | some id =>
      unfold sendTurns
      obtain ⟨h1, h2⟩ := hf id rfl
      by_cases hc : (c.get id).priority ≤ priority ∧ room > 0
      · rw [if_pos hc]
        dsimp only
        have hw := formatStreamFrame_wrote (L := fun _ => 0) hb (hb.out _ h1) room time (answers n) h2
        have hk := keep_format c id room time (answers n) (hb.idOf id (hb.out id h1))
        generalize formatStreamFrame c id room time (answers n) = w at *
        have hk2 := hk.trans (keep_findReady w.1 path)
        split
        · exact hk2
        · refine hk2.trans (ih _ _ _ (hw.eff.base.findReady path) ?_)
          intro id hid
          obtain ⟨_, a, b⟩ := findReady_sendable hid
          refine ⟨a, ?_⟩
          rw [findReady_out]
          exact b
      · rw [if_neg hc]
        exact .refl c

theorem keep_sendStreams {c : Conn} (hb : Base c) (path : Option Nat) (priority room time : Nat)
    (answers : Nat → Answer) (n : Nat) : Keep c (sendStreams c path priority room time answers n).1 := by
  unfold sendStreams
  refine (keep_findReady c path).trans (keep_turns path priority time answers n _ _ _ (hb.findReady path) ?_)
  intro id hid
  obtain ⟨_, a, b⟩ := findReady_sendable hid
  refine ⟨a, ?_⟩
  rw [findReady_out]
  exact b

theorem keep_onStream (c : Conn) (id : Nat) (f : Stream → Stream)
    (h : (f (c.get id)).priority = (c.get id).priority ∧ (f (c.get id)).id = (c.get id).id) :
    Keep c (onStream c id f) := by
  unfold onStream
  split
  · exact keep_set h
  · exact .refl c

theorem addOutputStreams_ord {c : Conn} (hb : Base c) (h : Ord c.get c.output) (old new : Nat) (u : Bool) :
    Ord (addOutputStreams c old new u).get (addOutputStreams c old new u).output := by
  unfold addOutputStreams
  dsimp only
  split
  · refine foldl_insert_ord _ h hb ?_
    intro x hx
    have h1 := (List.mem_filter.1 hx).1
    exact (List.dropWhile_sublist _).subset ((List.takeWhile_sublist _).subset h1)
  · exact h

theorem paramStreams_ord {c : Conn} (hb : Base c) (h : Ord c.get c.output) (u : Bool) (count : Option Nat) :
    Ord (paramStreams c u count).get (paramStreams c u count).output := by
  have hb0 : ∀ f, Base { c with maxStreamIdRemote := f } := fun f => ⟨hb.idOf, hb.out, hb.fresh⟩
  unfold paramStreams
  dsimp only
  split
  · exact h
  · apply addOutputStreams_ord
    · exact hb0 _
    · exact h

theorem step_ord {c : Conn} (hb : Base c) (h : Ord c.get c.output) (op : Op) :
    Ord (step c op).1.get (step c op).1.output := by
  have hIds : ∀ i ∈ c.output, (c.get i).id = i := fun i hi => hb.idOf i (hb.out i hi)
  cases op with
  | create id maxdata priority =>
    show Ord (createStream c id maxdata priority).get (createStream c id maxdata priority).output
    unfold createStream
    split
    · rename_i hid
      have hb' := createStream_base hb id maxdata priority hid
      have hno : id ∉ c.ids := (hb.fresh id (by
        rw [show id % 4 = StreamLimits.streamTypeFromId id from rfl, ← hid]; exact Nat.le_refl _)).2
      have h0 : Ord (addStream c id maxdata priority).get (addStream c id maxdata priority).output := by
        refine ord_congr h ?_
        intro i hi
        have : i ≠ id := fun e => hno (e ▸ hb.out i hi)
        simp [addStream, this]
      have h1 := insertOutput_ord (id := id) h0 (fun i hi => hb'.idOf i (hb'.out i hi))
        (hb'.idOf id ((mem_insertId _ _ _).2 (.inl rfl)))
      (repeat' split) <;> assumption
    · exact h
  | write id data fin =>
    unfold step
    dsimp only
    split
    · refine (keep_set ⟨?_, addToStream_id _ data fin⟩).ord h
      unfold addToStream
      dsimp only
      (repeat' split) <;> rfl
    · exact h
  | markActive id active =>
    refine (keep_onStream c id (fun s => markActive s active) ?_).ord h
    unfold markActive
    (repeat' split) <;> exact ⟨rfl, rfl⟩
  | setPriority id priority =>
    unfold step
    dsimp only
    split
    · rename_i hi
      exact reorderOutput_ord h hb hi (hb.idOf id hi)
    · exact h
  | setAffinity id path => exact (keep_onStream c id (fun s => { s with affinity := path }) ⟨rfl, rfl⟩).ord h
  | reset id error acked =>
    refine (keep_onStream c id (fun s => requestReset s error acked) ?_).ord h
    unfold requestReset
    (repeat' split) <;> exact ⟨rfl, rfl⟩
  | stopSending id error =>
    unfold step
    dsimp only
    split
    · rename_i hi
      have hk := keep_set (c := c) (id := id)
        (s := { c.get id with stopError := error, stopRequested := true }) ⟨rfl, rfl⟩
      have hb' := hb.set (s := { c.get id with stopError := error, stopRequested := true }) hi.1 (hb.idOf id hi.1)
      exact insertOutput_ord (hk.ord h) (fun i hi => hb'.idOf i (hb'.out i hi)) (hb'.idOf id hi.1)
    · exact h
  | stopReceived id =>
    refine (keep_onStream c id
      (fun s => if ¬ s.resetRequested ∧ ¬ s.finSent then { s with stopReceived := true } else s) ?_).ord h
    split <;> exact ⟨rfl, rfl⟩
  | finReceived id => exact (keep_onStream c id (fun s => { s with finReceived := true }) ⟨rfl, rfl⟩).ord h
  | resetReceived id => exact (keep_onStream c id (fun s => { s with resetReceived := true }) ⟨rfl, rfl⟩).ord h
  | maxData v =>
    unfold step
    dsimp only
    split <;> exact h
  | maxStreamData id v =>
    refine (keep_onStream c id (fun s => if v > s.maxdataRemote then { s with maxdataRemote := v } else s) ?_).ord h
    split <;> exact ⟨rfl, rfl⟩
  | maxStreams u count =>
    unfold step decodeMaxStreams
    dsimp only
    split
    · apply addOutputStreams_ord
      · exact ⟨hb.idOf, hb.out, hb.fresh⟩
      · exact h
    · exact h
  | params maxdata count stream =>
    unfold step
    dsimp only
    generalize hd : ({ c with
      maxdataRemote := maxdata
      get := fun i => { c.get i with maxdataRemote := max (c.get i).maxdataRemote (stream i) } } : Conn) = d
    have hbd : Base d := by
      subst hd
      refine ⟨hb.idOf, hb.out, fun i h => ?_⟩
      obtain ⟨a, b⟩ := hb.fresh i h
      exact ⟨⟨a.sentOffset, a.queue, a.finRequested, a.finSent, a.resetRequested, a.resetSent, a.localError,
        a.active⟩, b⟩
    have hd' : Ord d.get d.output := by
      subst hd
      exact ord_congr h fun i _ => ⟨rfl, rfl⟩
    exact paramStreams_ord (paramStreams_base hbd _ _).1 (paramStreams_ord hbd hd' _ _) _ _
  | delete id =>
    unfold step
    dsimp only
    split
    · exact List.Pairwise.sublist List.filter_sublist h
    · exact h
  | send path priority room time answers turns =>
    exact (keep_sendStreams hb path priority room time answers turns).ord h

theorem run_ord (client : Bool) (maxdata : Nat) (limit : Bool → Nat) (ops : List Op) :
    Ord (run (initial client maxdata limit) ops).1.get (run (initial client maxdata limit) ops).1.output := by
  induction ops using StreamInput.snoc_induction with
  | h0 => exact List.Pairwise.nil
  | h1 ops op ih => rw [run_snoc]; exact step_ord (run_base client maxdata limit ops) ih op

/-! ## The choice -/

theorem findLoop_cons (c : Conn) (path found : Option Nat) (a : Nat) (l : List Nat) :
    findLoop c path found (a :: l) =
      if (found.any fun f => decide ((c.get a).priority > (c.get f).priority)) = true then (found, [])
      else if isUrgent (c.get a) = true then (some a, [])
      else if hasData c path (c.get a) = true then
        if (c.get a).sentOffset = 0 ∧ ¬ allowedStream c a = true then findLoop c path found l
        else if (c.get a).priority % 2 ≠ 0 then (some a, [])
        else
          match found with
          | none => findLoop c path (some a) l
          | some f => findLoop c path (some (if (c.get a).lastSent < (c.get f).lastSent then a else f)) l
      else if isExhausted (c.get a) = true then
        ((findLoop c path found l).1, a :: (findLoop c path found l).2)
      else findLoop c path found l := by
  rw [findLoop.eq_def]
  rfl

/-- What the loop finds in the rest `l` of the list, when it has found `found` so far. -/
theorem findLoop_best (c : Conn) (path : Option Nat) (l : List Nat) (hid : ∀ i ∈ l, (c.get i).id = i) :
    ∀ found, Ord c.get l →
      (∀ f, found = some f → (c.get f).priority % 2 = 0 ∧ isUrgent (c.get f) = false ∧
        ∀ i ∈ l, (c.get f).priority ≤ (c.get i).priority) →
      (∀ id, (findLoop c path found l).1 = some id →
        (found = some id ∨ id ∈ l) ∧
        (∀ f, found = some f → (c.get id).priority = (c.get f).priority ∧
          (isUrgent (c.get id) = true ∨ (c.get id).lastSent ≤ (c.get f).lastSent)) ∧
        ∀ j ∈ l, Sendable c path j →
          (c.get id).priority ≤ (c.get j).priority ∧
          ((c.get id).priority = (c.get j).priority → (c.get id).priority % 2 = 1 → id ≤ j) ∧
          ((c.get id).priority = (c.get j).priority → (c.get id).priority % 2 = 0 →
            (isUrgent (c.get id) = true ∧ (isUrgent (c.get j) = true → id ≤ j)) ∨
            (isUrgent (c.get j) = false ∧ (c.get id).lastSent ≤ (c.get j).lastSent))) ∧
      ((findLoop c path found l).1 = none → found = none ∧ ∀ j ∈ l, ¬ Sendable c path j) := by
  induction l with
  | nil =>
    intro found _ _
    refine ⟨fun id h => ⟨.inl h, fun f hf => ?_, by simp⟩, fun h => ⟨h, by simp⟩⟩
    have : (findLoop c path found []).1 = found := rfl
    rw [this, hf] at h
    cases h
    exact ⟨rfl, .inr (Nat.le_refl _)⟩
  | cons a l ih =>
    intro found ho hf
    obtain ⟨ha, ho'⟩ := List.pairwise_cons.1 ho
    have ih' := ih (fun i hi => hid i (List.mem_cons_of_mem _ hi))
    have hida := hid a (List.mem_cons_self ..)
    have hle : ∀ i ∈ l, (c.get a).priority ≤ (c.get i).priority := fun i hi => by
      have := ha i hi
      rw [before_iff] at this
      omega
    have hlt : ∀ i ∈ l, (c.get a).priority = (c.get i).priority → a < i := fun i hi he => by
      have := ha i hi
      rw [before_iff, hida, hid i (List.mem_cons_of_mem _ hi)] at this
      omega
    have hf' : ∀ f, found = some f → (c.get f).priority % 2 = 0 ∧ isUrgent (c.get f) = false ∧
        ∀ i ∈ l, (c.get f).priority ≤ (c.get i).priority := fun f h =>
      ⟨(hf f h).1, (hf f h).2.1, fun i hi => (hf f h).2.2 i (List.mem_cons_of_mem _ hi)⟩
    by_cases h1 : (found.any fun f => decide ((c.get a).priority > (c.get f).priority)) = true
    · -- later streams have larger priority values
      obtain ⟨f, rfl, hx⟩ : ∃ f, found = some f ∧ (c.get a).priority > (c.get f).priority := by
        cases found with
        | none => simp at h1
        | some f => exact ⟨f, rfl, by simpa using h1⟩
      have he : (findLoop c path (some f) (a :: l)).1 = some f := by
        rw [findLoop_cons]
        rw [if_pos h1]
      rw [he]
      refine ⟨fun id h => ?_, fun h => by cases h⟩
      cases h
      refine ⟨.inl rfl, fun g hg => by cases hg; exact ⟨rfl, .inr (Nat.le_refl _)⟩, fun j hj _ => ?_⟩
      have : (c.get f).priority < (c.get j).priority := by
        rcases List.mem_cons.1 hj with rfl | hj
        · exact hx
        · have := hle j hj; omega
      exact ⟨by omega, fun e => by omega, fun e => by omega⟩
    have hfa : ∀ f, found = some f → (c.get a).priority = (c.get f).priority := by
      intro f hfe
      have := (hf f hfe).2.2 a (List.mem_cons_self ..)
      subst hfe
      simp at h1
      omega
    by_cases h2 : isUrgent (c.get a) = true
    · have he : (findLoop c path found (a :: l)).1 = some a := by
        rw [findLoop_cons]
        rw [if_neg h1, if_pos h2]
      rw [he]
      refine ⟨fun id h => ?_, fun h => by cases h⟩
      cases h
      refine ⟨.inr (List.mem_cons_self ..), fun f hfe => ⟨hfa f hfe, .inl h2⟩, fun j hj _ => ?_⟩
      rcases List.mem_cons.1 hj with rfl | hj
      · exact ⟨Nat.le_refl _, fun _ _ => Nat.le_refl _, fun _ _ => .inl ⟨h2, fun _ => Nat.le_refl _⟩⟩
      · exact ⟨hle j hj, fun e _ => Nat.le_of_lt (hlt j hj e), fun e _ => .inl ⟨h2, fun _ => Nat.le_of_lt (hlt j hj e)⟩⟩
    have h2' : isUrgent (c.get a) = false := by simpa using h2
    by_cases h3 : hasData c path (c.get a) = true
    · by_cases h4 : (c.get a).sentOffset = 0 ∧ ¬ allowedStream c a = true
      · have he : (findLoop c path found (a :: l)).1 = (findLoop c path found l).1 := by
          rw [findLoop_cons]
          rw [if_neg h1, if_neg h2, if_pos h3, if_pos h4]
        have hns : ¬ Sendable c path a := by
          rintro (h | ⟨_, h⟩)
          · exact h2 h
          · exact h4.2 (h h4.1)
        rw [he]
        obtain ⟨q1, q2⟩ := ih' found ho' hf'
        refine ⟨fun id h => ?_, fun h => ?_⟩
        · obtain ⟨r1, r2, r3⟩ := q1 id h
          refine ⟨r1.imp_right (List.mem_cons_of_mem _), r2, fun j hj hs => ?_⟩
          rcases List.mem_cons.1 hj with rfl | hj
          · exact absurd hs hns
          · exact r3 j hj hs
        · obtain ⟨r1, r2⟩ := q2 h
          refine ⟨r1, fun j hj => ?_⟩
          rcases List.mem_cons.1 hj with rfl | hj
          · exact hns
          · exact r2 j hj
      · by_cases h5 : (c.get a).priority % 2 ≠ 0
        · have he : (findLoop c path found (a :: l)).1 = some a := by
            rw [findLoop_cons]
            rw [if_neg h1, if_neg h2, if_pos h3, if_neg h4, if_pos h5]
          rw [he]
          refine ⟨fun id h => ?_, fun h => by cases h⟩
          cases h
          refine ⟨.inr (List.mem_cons_self ..), fun f hfe => ?_, fun j hj _ => ?_⟩
          · have := hfa f hfe
            have := (hf f hfe).1
            omega
          · rcases List.mem_cons.1 hj with rfl | hj
            · exact ⟨Nat.le_refl _, fun _ _ => Nat.le_refl _, fun _ e => absurd e h5⟩
            · exact ⟨hle j hj, fun e _ => Nat.le_of_lt (hlt j hj e), fun _ e => absurd e h5⟩
        · -- the new candidate `g`
          have main : ∀ g, (g = a ∨ found = some g) → (c.get g).lastSent ≤ (c.get a).lastSent →
              (∀ f, found = some f → (c.get g).lastSent ≤ (c.get f).lastSent) →
              (findLoop c path found (a :: l)).1 = (findLoop c path (some g) l).1 → _ :=
            fun g hg hga hgf he => by
              have hgp : (c.get g).priority = (c.get a).priority := by
                rcases hg with rfl | hg
                · rfl
                · exact (hfa g hg).symm
              have hgu : isUrgent (c.get g) = false := by
                rcases hg with rfl | hg
                · exact h2'
                · exact (hf g hg).2.1
              obtain ⟨q1, q2⟩ := ih' (some g) ho' (by
                intro f hfe
                cases hfe
                exact ⟨by omega, hgu, fun i hi => by rw [hgp]; exact hle i hi⟩)
              rw [← he] at q1 q2
              exact (⟨fun id h => by
                  obtain ⟨r1, r2, r3⟩ := q1 id h
                  obtain ⟨s1, s2⟩ := r2 g rfl
                  refine ⟨?_, fun f hfe => ⟨by rw [s1, hgp]; exact hfa f hfe, ?_⟩, fun j hj hs => ?_⟩
                  · rcases r1 with r1 | r1
                    · cases r1
                      rcases hg with rfl | hg
                      · exact .inr (List.mem_cons_self ..)
                      · exact .inl hg
                    · exact .inr (List.mem_cons_of_mem _ r1)
                  · rcases s2 with s2 | s2
                    · exact .inl s2
                    · exact .inr (Nat.le_trans s2 (hgf f hfe))
                  · rcases List.mem_cons.1 hj with rfl | hj
                    · refine ⟨by omega, fun _ e => by omega, fun _ _ => ?_⟩
                      rcases s2 with s2 | s2
                      · exact .inl ⟨s2, fun e => by rw [h2'] at e; cases e⟩
                      · exact .inr ⟨h2', Nat.le_trans s2 hga⟩
                    · exact r3 j hj hs, fun h => by have := (q2 h).1; cases this⟩ :
                (∀ id, (findLoop c path found (a :: l)).1 = some id →
                  (found = some id ∨ id ∈ a :: l) ∧
                  (∀ f, found = some f → (c.get id).priority = (c.get f).priority ∧
                    (isUrgent (c.get id) = true ∨ (c.get id).lastSent ≤ (c.get f).lastSent)) ∧
                  ∀ j ∈ a :: l, Sendable c path j →
                    (c.get id).priority ≤ (c.get j).priority ∧
                    ((c.get id).priority = (c.get j).priority → (c.get id).priority % 2 = 1 → id ≤ j) ∧
                    ((c.get id).priority = (c.get j).priority → (c.get id).priority % 2 = 0 →
                      (isUrgent (c.get id) = true ∧ (isUrgent (c.get j) = true → id ≤ j)) ∨
                      (isUrgent (c.get j) = false ∧ (c.get id).lastSent ≤ (c.get j).lastSent))) ∧
                ((findLoop c path found (a :: l)).1 = none → found = none ∧ ∀ j ∈ a :: l, ¬ Sendable c path j))
          cases found with
          | none =>
            refine main a (.inl rfl) (Nat.le_refl _) (fun f h => by cases h) ?_
            rw [findLoop_cons]
            rw [if_neg h1, if_neg h2, if_pos h3, if_neg h4, if_neg h5]
          | some f =>
            by_cases h6 : (c.get a).lastSent < (c.get f).lastSent
            · refine main a (.inl rfl) (Nat.le_refl _) (fun f' h => by cases h; omega) ?_
              rw [findLoop_cons]
              rw [if_neg h1, if_neg h2, if_pos h3, if_neg h4, if_neg h5]
              dsimp only
              rw [if_pos h6]
            · refine main f (.inr rfl) (by omega) (fun f' h => by cases h; omega) ?_
              rw [findLoop_cons]
              rw [if_neg h1, if_neg h2, if_pos h3, if_neg h4, if_neg h5]
              dsimp only
              rw [if_neg h6]
    · have hns : ¬ Sendable c path a := by
        rintro (h | ⟨h, _⟩)
        · exact h2 h
        · exact h3 h
      have he : (findLoop c path found (a :: l)).1 = (findLoop c path found l).1 := by
        rw [findLoop_cons]
        rw [if_neg h1, if_neg h2, if_neg h3]
        split <;> rfl
      rw [he]
      obtain ⟨q1, q2⟩ := ih' found ho' hf'
      refine ⟨fun id h => ?_, fun h => ?_⟩
      · obtain ⟨r1, r2, r3⟩ := q1 id h
        refine ⟨r1.imp_right (List.mem_cons_of_mem _), r2, fun j hj hs => ?_⟩
        rcases List.mem_cons.1 hj with rfl | hj
        · exact absurd hs hns
        · exact r3 j hj hs
      · obtain ⟨r1, r2⟩ := q2 h
        refine ⟨r1, fun j hj => ?_⟩
        rcases List.mem_cons.1 hj with rfl | hj
        · exact hns
        · exact r2 j hj

theorem findReady_best {c : Conn} (hb : Base c) (ho : Ord c.get c.output) (path : Option Nat) :
    (∀ id, (findReady c path).1 = some id → id ∈ c.output ∧ Sendable c path id ∧
      ∀ j ∈ c.output, Sendable c path j →
        (c.get id).priority ≤ (c.get j).priority ∧
        ((c.get id).priority = (c.get j).priority → (c.get id).priority % 2 = 1 → id ≤ j) ∧
        ((c.get id).priority = (c.get j).priority → (c.get id).priority % 2 = 0 →
          (isUrgent (c.get id) = true ∧ (isUrgent (c.get j) = true → id ≤ j)) ∨
          (isUrgent (c.get j) = false ∧ (c.get id).lastSent ≤ (c.get j).lastSent))) ∧
    ((findReady c path).1 = none → ∀ id ∈ c.output, ¬ Sendable c path id) := by
  obtain ⟨h1, h2⟩ := findLoop_best c path c.output (fun i hi => hb.idOf i (hb.out i hi)) none ho
    (fun f h => by cases h)
  refine ⟨fun id h => ?_, fun h => (h2 h).2⟩
  obtain ⟨_, _, b⟩ := h1 id h
  obtain ⟨a, _, hs⟩ := findReady_sendable h
  exact ⟨a, hs, b⟩

end Picoquic.StreamSend
