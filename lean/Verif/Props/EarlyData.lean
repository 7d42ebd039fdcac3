import Verif.Proof.EarlyData

/-!
# C99: early data

A client that resumes a session sends data before the parameters of the server are known. It keeps to the limits that
were remembered, sends refused data again, and keeps to the limits that the server gives then.

`before` is what happens before the parameters of the server, `p`, and its answer; `after` is what happens then.
-/

namespace Picoquic.Props

open Picoquic.EarlyData Picoquic.Spec

/-- The client when the parameters and the answer of the server came. -/
def resumed (r : Limits) (before : List Op) (p : Limits) (accepted : Bool) : Client :=
  params (run (start {} (some r)) before).1 p accepted

/-- Data sent before the parameters of the server are known are early data, keep to the limits that were remembered, and
go beyond none of them. -/
theorem C99_early_within (r : Limits) (hr : 0 < r.count) (before : List Op) (hb : ∀ o ∈ before, OfClient o = true) :
    (∀ f ∈ (run (start {} (some r)) before).2, f.early = true ∧ Keeps (allowedBy r) f) ∧
    newBytes (run (start {} (some r)) before).2 ≤ r.data := by
  have hinv := run_inv before _ _ (start_inv r hr)
  rw [allowed_client before _ hb] at hinv
  obtain ⟨_, h2, h3, _⟩ := run_early before (start {} (some r)) hb rfl
  refine ⟨fun f hf => ⟨(h2 f hf).1, hinv.early f (by rw [h3]; simp [hf])⟩, ?_⟩
  have := run_sent before (start {} (some r))
  have h0 : (start {} (some r)).dataSent = 0 := rfl
  rw [h0] at this
  have := hinv.sent
  simp only [allowedBy] at this
  omega

/-- Without a session to resume, nothing is sent early. -/
theorem C99_no_session (before : List Op) (hb : ∀ o ∈ before, OfClient o = true) :
    (run (start {} none) before).2 = [] := by
  suffices h : ∀ c : Client, c.ready = false → c.keys = false → (run c before).2 = [] from h _ rfl rfl
  induction before with
  | nil => intro c _ _; rfl
  | cons o os ih =>
    intro c h hk
    obtain ⟨a1, _, _, a4⟩ := step_early c o (hb o (by simp)) h
    have ho := hb o (by simp)
    have : (step c o).2 = [] := by
      cases o <;> simp only [OfClient, Bool.false_eq_true] at ho <;> simp only [step, send] <;>
        (repeat' split) <;> simp_all
    simp only [run, this, List.nil_append]
    exact ih (fun x hx => hb x (by simp [hx])) _ a1 (a4.trans hk)

/-- If the server does not lower the limits, then everything that is sent, at every point of every history and also
what is sent again, keeps to what the server allowed by then, and the bytes sent are in all not more than that. -/
theorem C99_kept_partial (r p : Limits) (hr : 0 < r.count) (hn : NotLower r p) (before : List Op)
    (hb : ∀ o ∈ before, OfClient o = true) (accepted : Bool) (after : List Op) (o : Op) :
    let c := (run (resumed r before p accepted) after).1
    (∀ f ∈ (step c o).2, Keeps (allowedAfter (allowedBy p) after) f) ∧
    newBytes (run (start {} (some r)) before).2 + newBytes (run (resumed r before p accepted) (after ++ [o])).2
      ≤ (allowedAfter (allowedBy p) (after ++ [o])).data := by
  have hp : 0 < p.count := Nat.lt_of_lt_of_le hr hn.2.2
  have h1 := run_inv before _ _ (start_inv r hr)
  rw [allowed_client before _ hb] at h1
  have h2 := params_inv (r := r) ⟨rfl, fun _ => rfl, rfl⟩ h1 hn hp accepted
  have h3 := run_inv after _ _ h2
  have h4 := step_inv _ _ o h3
  refine ⟨?_, ?_⟩
  · intro f hf
    have hk := h4.2 f hf
    cases o <;> first | exact hk | (exfalso; simp [step] at hf)
  · have e1 := run_sent before (start {} (some r))
    have e2 := run_sent (after ++ [o]) (resumed r before p accepted)
    have e3 := (run_inv (after ++ [o]) _ _ h2).sent
    have e4 : (resumed r before p accepted).dataSent = (run (start {} (some r)) before).1.dataSent := rfl
    have e5 : (start {} (some r)).dataSent = 0 := rfl
    unfold resumed at *
    omega

/-- Data refused by the server are sent again, each frame once and in order, and not as early data: what was sent again
and what is still to be sent again are together what was sent early. -/
theorem C99_refused_sent_again (r p : Limits) (before : List Op) (hb : ∀ o ∈ before, OfClient o = true)
    (after : List Op) :
    let sent := (run (resumed r before p false) after).2
    (∀ f ∈ sent, f.early = false) ∧
    ∃ todo, (sent.filter (·.again)) ++ todo =
        (run (start {} (some r)) before).2.map (fun f => { f with early := false, again := true }) ∧
      (∀ n, (run (run (resumed r before p false) after).1 (List.replicate (todo.length + n) .repeatEarly)).2 = todo) := by
  obtain ⟨h1, h2, h3, h4, _⟩ := run_late after (resumed r before p false) rfl
  have he : (resumed r before p false).early = (run (start {} (some r)) before).2 := by
    have := (run_early before (start {} (some r)) hb rfl).2.2.1
    simpa [resumed, params, start] using this
  refine ⟨h3, (run (resumed r before p false) after).1.early.map (fun f => { f with early := false, again := true }),
    by rw [h4, he], ?_⟩
  have hacc : (run (resumed r before p false) after).1.accepted = false := h2
  generalize (run (resumed r before p false) after).1 = c at h1 hacc
  intro n
  rw [List.length_map]
  suffices h : ∀ (l : List Sent) (c : Client), c.ready = true → c.accepted = false → c.early = l →
      (run c (List.replicate (l.length + n) .repeatEarly)).2 = l.map (fun f => { f with early := false, again := true })
    from h c.early c h1 hacc rfl
  intro l
  induction l with
  | nil =>
    intro c hr ha hl
    simp only [List.length_nil, Nat.zero_add, List.map_nil]
    induction n with
    | zero => rfl
    | succ n ih =>
      simp only [List.replicate_succ, run]
      have : step c .repeatEarly = (c, []) := by simp [step, repeatEarly, hr, ha, hl]
      rw [this]
      simpa using ih
  | cons f l ih =>
    intro c hr ha hl
    have e : (f :: l).length + n = (l.length + n) + 1 := by simp; omega
    rw [e, List.replicate_succ]
    simp only [run]
    have : step c .repeatEarly = ({ c with early := l }, [{ f with early := false, again := true }]) := by
      simp [step, repeatEarly, hr, ha, hl]
    rw [this]
    simp only [List.map_cons, List.singleton_append]
    rw [ih { c with early := l } hr ha rfl]

/-- Nothing is sent again as refused before the answer of the server, nor if it accepted the early data. -/
theorem C99_accepted_once (r p : Limits) (before : List Op) (hb : ∀ o ∈ before, OfClient o = true) (after : List Op) :
    (run (start {} (some r)) (before ++ [.repeatEarly])).2 = (run (start {} (some r)) before).2 ∧
    ∀ f ∈ (run (start {} (some r)) before).2 ++ (run (resumed r before p true) after).2, f.again = false := by
  obtain ⟨h1, h2, _⟩ := run_early before (start {} (some r)) hb rfl
  refine ⟨?_, ?_⟩
  · rw [run_append]
    simp [run, step, repeatEarly, h1]
  · intro f hf
    rcases List.mem_append.mp hf with hf | hf
    · exact (h2 f hf).2
    · exact (run_late after (resumed r before p true) rfl).2.2.2.2 rfl f hf

/-- A server that refuses early data may lower its limits. The client then sends new data beyond the limit of the stream:
the limits of streams are only raised. -/
theorem C99_lowered_new_violated : ∃ (r p : Limits) (before after : List Op), (∀ o ∈ before, OfClient o = true) ∧
    ∃ f ∈ (run (resumed r before p false) after).2, f.again = false ∧ ¬ Keeps (allowedAfter (allowedBy p) after) f :=
  ⟨⟨1000, 100, 1⟩, ⟨1000, 10, 1⟩, [.write 0 50], [.send 0 50], by decide,
    ⟨false, false, 0, 0, 50⟩, by decide, rfl, by unfold Keeps; decide⟩

/-- It sends the refused data again beyond the limit of the stream, for every such server and length. -/
theorem C99_lowered_again_violated (r p : Limits) (n : Nat) (hr : 0 < r.count) (hs : n ≤ r.stream) (hd : n ≤ r.data)
    (hp : p.stream < n) :
    ∃ f ∈ (run (resumed r [.write 0 n, .send 0 n] p false) [.repeatEarly]).2,
      f.again = true ∧ ¬ Keeps (allowedAfter (allowedBy p) [.repeatEarly]) f := by
  have h : (run (start {} (some r)) [.write 0 n, .send 0 n]).1.early = [⟨true, false, 0, 0, n⟩] := by
    have e1 : (if r.count = 0 then 2 ^ 62 else r.count) = r.count := if_neg (by omega)
    have e2 : min n (min r.stream r.data) = n := by omega
    have c1 : 0 < r.data := by omega
    have c2 : 0 < r.stream := by omega
    have c3 : 0 < n := by omega
    simp [run, step, write, send, start, e1, e2, c1, c2, c3, hr]
  refine ⟨⟨false, true, 0, 0, n⟩, ?_, rfl, ?_⟩
  · have : (resumed r [.write 0 n, .send 0 n] p false).early = [⟨true, false, 0, 0, n⟩] := h
    simp only [run, step, repeatEarly, this]
    simp [resumed, params]
  · unfold Keeps
    simp only [allowedAfter, List.foldl_cons, List.foldl_nil, raised, allowedBy]
    omega

/-- And it sends the refused data of streams that it may not open any more. -/
theorem C99_lowered_count_violated : ∃ (r p : Limits) (before after : List Op), (∀ o ∈ before, OfClient o = true) ∧
    p.data = r.data ∧ p.stream = r.stream ∧
    ∃ f ∈ (run (resumed r before p false) after).2, ¬ f.rank < (allowedAfter (allowedBy p) after).count :=
  ⟨⟨1000, 100, 2⟩, ⟨1000, 100, 1⟩, [.write 1 50, .send 1 50], [.repeatEarly], by decide, rfl, rfl,
    ⟨false, true, 1, 0, 50⟩, by decide, by decide⟩

/-- A server that accepts early data and lowers its limits breaks the rules; the client goes on. -/
theorem C99_accepted_lowered_violated : ∃ (r p : Limits) (before after : List Op), ¬ NotLower r p ∧
    (run (resumed r before p true) after).2 ≠ [] :=
  ⟨⟨1000, 100, 1⟩, ⟨1000, 10, 1⟩, [.write 0 50], [.send 0 50], by unfold NotLower; decide, by decide⟩

/-- Data written before the connection is started are never early data: the stream was made with a limit of 0, and the
remembered limit is not given to it. -/
theorem C99_written_before_violated (r : Limits) (n : Nat) (before : List Op) (hb : ∀ o ∈ before, OfClient o = true) :
    ∀ f ∈ (run (start (write {} 0 n) (some r)) before).2, f.rank ≠ 0 := by
  suffices h : ∀ c : Client, (∃ s, c.stream 0 = some s ∧ s.max = 0) → ∀ f ∈ (run c before).2, f.rank ≠ 0 from
    h _ ⟨_, rfl, rfl⟩
  induction before with
  | nil => intro c _ f hf; cases hf
  | cons o os ih =>
    intro c ⟨s, hs, hm⟩ f hf
    simp only [run, List.mem_append] at hf
    have ho := hb o (by simp)
    have h1 : (∃ s, (step c o).1.stream 0 = some s ∧ s.max = 0) ∧ ∀ f ∈ (step c o).2, f.rank ≠ 0 := by
      cases o <;> simp only [OfClient, Bool.false_eq_true] at ho
      · rename_i k m
        simp only [step, write]
        by_cases hk : 0 = k
        · subst hk; simp [hs, hm]
        · simp [hk, hs, hm]
      · rename_i k m
        simp only [step, send]
        by_cases hk : 0 = k
        · subst hk; simp [hs, hm]
        · split
          · exact ⟨⟨s, hs, hm⟩, by simp⟩
          · split
            · refine ⟨⟨s, by simp [hk, hs], hm⟩, ?_⟩
              intro g hg
              rw [List.mem_singleton.mp hg]
              exact fun e => hk e.symm
            · exact ⟨⟨s, hs, hm⟩, by simp⟩
    exact hf.elim (h1.2 f) (ih (fun x hx => hb x (by simp [hx])) _ h1.1 f)

/-- With room, data written after the start are sent as early data up to the limits. -/
theorem C99_early_sent (r : Limits) (n room : Nat) (hr : 0 < r.count) (hs : 0 < r.stream) (hd : 0 < r.data) (hn : 0 < n)
    (hroom : n ≤ room) :
    (run (start {} (some r)) [.write 0 n, .send 0 room]).2 = [⟨true, false, 0, 0, min n (min r.stream r.data)⟩] := by
  have e1 : (if r.count = 0 then 2 ^ 62 else r.count) = r.count := if_neg (by omega)
  have e2 : min n room = n := by omega
  have e3 : 0 < room := by omega
  simp [run, step, write, send, start, e1, e2, e3, hr, hs, hd, hn]

/-- A remembered number of streams of 0 is taken for no limit. -/
theorem C99_no_streams_violated : ∃ (r : Limits) (before : List Op), (∀ o ∈ before, OfClient o = true) ∧
    ∃ f ∈ (run (start {} (some r)) before).2, ¬ Keeps (allowedBy r) f :=
  ⟨⟨1000, 100, 0⟩, [.write 0 50, .send 0 50], by decide, ⟨true, false, 0, 0, 50⟩, by decide, by unfold Keeps; decide⟩

/-- Early data on two streams, refused, sent again after new data, with limits that grow. -/
example : NotLower ⟨100, 60, 2⟩ ⟨120, 60, 2⟩ ∧
    (run (start {} (some ⟨100, 60, 2⟩)) [.write 0 80, .send 0 1000, .write 1 70, .send 1 30, .send 1 30]).2 =
      [⟨true, false, 0, 0, 60⟩, ⟨true, false, 1, 0, 30⟩, ⟨true, false, 1, 30, 10⟩] ∧
    (run (resumed ⟨100, 60, 2⟩ [.write 0 80, .send 0 1000, .write 1 70, .send 1 30, .send 1 30] ⟨120, 60, 2⟩ false)
      [.send 1 1000, .repeatEarly, .send 0 10, .maxData 200, .maxStreamData 0 90, .send 0 10, .repeatEarly]).2 =
      [⟨false, false, 1, 40, 20⟩, ⟨false, true, 0, 0, 60⟩, ⟨false, false, 0, 60, 10⟩, ⟨false, true, 1, 0, 30⟩] := by
  refine ⟨by unfold NotLower; decide, by decide, by decide⟩

/-- The bytes of each stream are sent in order, none left out, none twice except as refused data, and none that were not
written: a frame of new data starts where the new data sent on the stream so far end, before and after the parameters. -/
theorem C99_in_order (r p : Limits) (before after : List Op) (accepted : Bool) (o : Op) :
    (∀ f ∈ (step (run (start {} (some r)) before).1 o).2, f.again = false →
      f.offset = newBytesOn f.rank (run (start {} (some r)) before).2 ∧
      f.offset + f.length ≤ writtenOn f.rank before) ∧
    ∀ f ∈ (step (run (resumed r before p accepted) after).1 o).2, f.again = false →
      f.offset = newBytesOn f.rank ((run (start {} (some r)) before).2 ++ (run (resumed r before p accepted) after).2) ∧
      f.offset + f.length ≤ writtenOn f.rank (before ++ after) := by
  have h0 : EarlyData.Bytes (start {} (some r)) (fun _ => 0) (fun _ => 0) := by
    intro k; simp [start]
  have h1 := run_bytes before _ _ _ h0
  have h2 := run_bytes after _ _ _ (params_bytes h1 p accepted)
  refine ⟨fun f hf ha => ?_, fun f hf ha => ?_⟩
  · have := (step_bytes _ _ _ o h1).2 f hf ha
    simpa using this
  · have := (step_bytes _ _ _ o h2).2 f hf ha
    rw [newBytesOn_append, writtenOn_append]
    simpa [resumed] using this

/-- Once the limits of the server allow all that was written on a stream, and there is room, it is all sent. -/
theorem C99_all_sent (r p : Limits) (before after : List Op) (accepted : Bool) (k room : Nat) (hp : 0 < p.count)
    (hk : k < (allowedAfter (allowedBy p) after).count) (hs : writtenOn k (before ++ after) ≤ p.stream)
    (hd : newBytes ((run (start {} (some r)) before).2 ++ (run (resumed r before p accepted) after).2) +
      writtenOn k (before ++ after) ≤ (allowedAfter (allowedBy p) after).data)
    (hr : writtenOn k (before ++ after) ≤ room) :
    newBytesOn k ((run (start {} (some r)) before).2 ++ (run (resumed r before p accepted) (after ++ [.send k room])).2) =
      writtenOn k (before ++ after) := by
  have h0 : EarlyData.Bytes (start {} (some r)) (fun _ => 0) (fun _ => 0) := by
    intro k; simp [start]
  have h1 := run_bytes before _ _ _ h0
  have h2 := run_bytes after _ _ _ (params_bytes h1 p accepted)
  have hready := (run_late after (resumed r before p accepted) rfl).1
  have hknow : Knows (run (resumed r before p accepted) after).1 (allowedAfter (allowedBy p) after) p.stream :=
    run_knows after _ _ _ (params_knows _ p accepted hp)
  have hsent : (run (resumed r before p accepted) after).1.dataSent =
      newBytes ((run (start {} (some r)) before).2 ++ (run (resumed r before p accepted) after).2) := by
    rw [run_sent, newBytes_append]
    have e := run_sent before (start {} (some r))
    have e0 : (start {} (some r)).dataSent = 0 := rfl
    have e1 : (resumed r before p accepted).dataSent = (run (start {} (some r)) before).1.dataSent := rfl
    omega
  rw [← hsent] at hd
  obtain ⟨k1, k2, _, k4⟩ := hknow
  rw [← k1] at hd
  rw [← k2] at hk
  rw [run_append, newBytesOn_append, newBytesOn_append]
  have h2k := h2 k
  rw [show params (run (start {} (some r)) before).1 p accepted = resumed r before p accepted from rfl] at h2k
  simp only [Nat.zero_add] at h2k
  clear hsent k1 k2 h0 h1 h2
  generalize (run (resumed r before p accepted) after).1 = c at *
  generalize newBytesOn k (run (resumed r before p accepted) after).2 = x at *
  generalize newBytesOn k (run (start {} (some r)) before).2 = y at *
  rw [writtenOn_append] at *
  generalize writtenOn k before + writtenOn k after = w at *
  simp only [run, step, send, List.append_nil]
  cases he : c.stream k with
  | none =>
    have := h2k.1 he
    simp [newBytesOn]
    omega
  | some s =>
    have a := h2k.2 s he
    have b := k4 k s he
    simp only
    by_cases hq : 0 < s.queued
    · rw [if_pos (by simp [hready, hq, hk]; omega)]
      simp [newBytesOn]
      omega
    · rw [if_neg (by simp [hq])]
      simp [newBytesOn]
      omega

example : writtenOn 0 [.write 0 50, .send 0 20, .write 0 30] = 80 ∧
    newBytesOn 0 ((run (start {} (some ⟨100, 60, 1⟩)) [.write 0 50, .send 0 20]).2 ++
      (run (resumed ⟨100, 60, 1⟩ [.write 0 50, .send 0 20] ⟨200, 90, 1⟩ true) [.write 0 30, .send 0 100]).2) = 80 := by
  decide

end Picoquic.Props
