import Verif.Proof.Buffers

/-!
# C94: received data stay what they are until they are given

`run limit {} ops` is a history of packets, of all the connections of a QUIC context, from the start; its result
is `none` if a buffer is used after it was freed. `log` has, for all data given to the application or to TLS, the bytes
found in the buffer and the bytes that arrived.
-/

namespace Picoquic.Props
open Picoquic.Spec Picoquic.Buffers

/-- **C94.** In every history, data that waited are given as they arrived: whatever frames follow in the packet, and
whatever packets are received in between, nothing is written over them. -/
theorem C94_content (limit : Nat) (ops : List BufferOp) (m : Mem) (hr : run limit {} ops = some m) :
    (∀ r ∈ m.log, r.1 = r.2) ∧
      ∀ h ∈ m.held, ∃ p, m.ptr h.id = some p ∧ part (m.data h.id) p = h.expect := by
  have h := run_inv ops inv_init hr
  exact ⟨h.logs, h.good⟩

/-- **C94.** In every history, a buffer is never in the pool twice, nor in the pool and with waiting data, nor
with two pieces of waiting data, and none of these is freed; so it is never given out twice and never freed twice. -/
theorem C94_exclusive (limit : Nat) (ops : List BufferOp) (m : Mem) (hr : run limit {} ops = some m) :
    (m.pool ++ m.held.map Held.id).Nodup ∧ ∀ x ∈ m.pool ++ m.held.map Held.id, x ∉ m.freed := by
  have h := run_inv ops inv_init hr
  exact ⟨h.nodup, h.nf⟩

/-- **C94.** In every history, no frame, and no data given, leads to a use of a freed buffer; the only place
where this is possible is the test at the end of the packet. -/
theorem C94_frames (limit : Nat) (ops : List BufferOp) (m : Mem) (hr : run limit {} ops = some m) (text : Bytes)
    (frames : List WaitFrame) (drops : List Nat) :
    ∃ m1 m2, decodeFrames limit text (alloc m).2 { (alloc m).1 with data := Buffers.upd (alloc m).1.data (alloc m).2 text }
      frames = some m1 ∧ leaveAll limit m1 drops = some m2 := by
  obtain ⟨m1, e1, d1, _⟩ := frames_spec limit frames (cur_start (run_inv ops inv_init hr) text)
  obtain ⟨m2, e2, _⟩ := done_leaveAll limit drops d1
  exact ⟨m1, m2, e1, e2⟩

/-- At each point of the history, the pieces that wait, with those of the packet and the packet itself, are at most
`limit`. -/
def FewWaiting (limit : Nat) (m : Mem) : List BufferOp → Prop
  | [] => True
  | op :: ops => m.held.length + piecesOf op + 1 ≤ limit ∧ ∀ m', Buffers.step limit m op = some m' → FewWaiting limit m' ops

/-- **C94, partial.** As long as never more pieces wait than the pool can take, no buffer is used after it was freed.
Missing: longer lists (`C94_freed_violated`). -/
theorem C94_safe_partial (limit : Nat) (ops : List BufferOp) (hf : FewWaiting limit {} ops) :
    ∃ m, run limit {} ops = some m ∧ m.freed = [] := by
  have hgen : ∀ (ops : List BufferOp) (m : Mem), Inv m [] → m.fresh ≤ limit → m.freed = [] → FewWaiting limit m ops →
      ∃ m', run limit m ops = some m' ∧ m'.freed = [] := by
    intro ops
    induction ops with
    | nil => intro m _ _ h _; exact ⟨m, rfl, h⟩
    | cons op ops ih =>
      intro m hi h1 h2 hw
      obtain ⟨m1, e, a, b⟩ := step_room hi h1 h2 hw.1
      obtain ⟨m2, e2, c⟩ := ih m1 (step_inv hi e) a b (hw.2 m1 e)
      exact ⟨m2, by rw [run, e]; exact e2, c⟩
  exact hgen ops {} inv_init (Nat.zero_le _) rfl hf

/-! ## When many pieces wait -/

/-- A packet with a STREAM frame of one byte behind a gap, and a PING frame. -/
def byteBehindGap : BufferOp := .packet [42] [⟨false, [(0, 1)], false, []⟩, ⟨false, [], false, []⟩] []

theorem flood_step {limit : Nat} (hl : 0 < limit) {m : Mem} (hp : m.pool = [0]) (hf : 0 < m.fresh) (hr : m.freed = []) :
    ∃ m', Buffers.step limit m byteBehindGap = some m' ∧ m'.pool = [0] ∧ m'.fresh = m.fresh + 1 ∧ m'.freed = [] ∧
      m'.held = m.held ++ [⟨false, m.fresh, [42]⟩] := by
  obtain ⟨pool, fresh, freed, ptr, data, held, log⟩ := m
  simp only at hp hf hr
  subst hp hr
  have h0 : (0 : Nat) ≠ fresh := by omega
  simp [Buffers.step, byteBehindGap, packet, decodeFrames, addChunks, addChunk, alloc, leaveStreams,
    leaveAll, endPacket, Buffers.upd, h0, recycle, hl, part]

theorem flood {limit : Nat} (hl : 0 < limit) (n : Nat) :
    ∃ m, run limit {} (List.replicate (n + 1) byteBehindGap) = some m ∧ m.pool = [0] ∧ m.fresh = n + 2 ∧ m.freed = [] ∧
      m.held.length = n + 1 ∧ ∀ h ∈ m.held, h.crypto = false ∧ h.expect = [42] := by
  have hgen : ∀ (n : Nat) (m : Mem), m.pool = [0] → 0 < m.fresh → m.freed = [] →
      (∀ h ∈ m.held, h.crypto = false ∧ h.expect = [42]) →
      ∃ m', run limit m (List.replicate n byteBehindGap) = some m' ∧ m'.pool = [0] ∧ m'.fresh = m.fresh + n ∧
        m'.freed = [] ∧ m'.held.length = m.held.length + n ∧ ∀ h ∈ m'.held, h.crypto = false ∧ h.expect = [42] := by
    intro n
    induction n with
    | zero => intro m a b c d; exact ⟨m, rfl, a, rfl, c, rfl, d⟩
    | succ n ih =>
      intro m a b c d
      obtain ⟨m1, e1, a1, b1, c1, d1⟩ := flood_step hl a b c
      obtain ⟨m2, e2, a2, b2, c2, d2, f2⟩ := ih m1 a1 (by omega) c1 (by
        rw [d1]
        intro h hh
        rcases List.mem_append.1 hh with hh | hh
        · exact d h hh
        · rw [List.mem_singleton] at hh
          subst hh
          exact ⟨rfl, rfl⟩)
      refine ⟨m2, by rw [List.replicate_succ, run, e1]; exact e2, a2, by omega, c2, ?_, f2⟩
      rw [d2, d1, List.length_append, List.length_singleton]
      omega
  have hbase : ∃ m1, Buffers.step limit {} byteBehindGap = some m1 ∧ m1.pool = [0] ∧ m1.fresh = 2 ∧ m1.freed = [] ∧
      m1.held = [⟨false, 1, [42]⟩] := by
    simp [Buffers.step, byteBehindGap, packet, decodeFrames, addChunks, addChunk, alloc, leaveStreams,
      leaveAll, endPacket, Buffers.upd, recycle, hl, part]
  obtain ⟨m1, e1, a1, b1, c1, d1⟩ := hbase
  obtain ⟨m2, e2, a2, b2, c2, d2, f2⟩ := hgen n m1 a1 (by omega) c1 (by
    rw [d1]
    intro h hh
    rw [List.mem_singleton] at hh
    subst hh
    exact ⟨rfl, rfl⟩)
  refine ⟨m2, by rw [List.replicate_succ, run, e1]; exact e2, a2, by omega, c2, ?_, f2⟩
  rw [d2, d1, List.length_singleton]
  omega

/-- **C94 is violated** in memory: a peer that sends single bytes behind gaps makes the receiver keep 1536 bytes of
buffer, and more, for each byte of data; flow control counts one. -/
theorem C94_amplified_violated (n : Nat) :
    ∃ m, run LIMIT {} (List.replicate (n + 1) byteBehindGap) = some m ∧
      (m.held.map (fun h => h.expect.length)).sum = n + 1 ∧
      1536 * (n + 1) ≤ BUFFER_SIZE * (m.fresh - m.freed.length) := by
  obtain ⟨m, e, _, b, c, d, f⟩ := flood (limit := LIMIT) (by decide) n
  refine ⟨m, e, ?_, ?_⟩
  · rw [← d]
    have : ∀ l : List Held, (∀ h ∈ l, h.crypto = false ∧ h.expect = [42]) → (l.map (fun h => h.expect.length)).sum = l.length := by
      intro l
      induction l with
      | nil => intro _; rfl
      | cons x l ih =>
        intro hx
        rw [List.map_cons, List.sum_cons, ih (fun h hh => hx h (List.mem_cons_of_mem _ hh)),
          (hx x List.mem_cons_self).2, List.length_singleton, List.length_cons]
        omega
    exact this m.held f
  · rw [b, c]
    show 1536 * (n + 1) ≤ 1536 * (n + 2 - 0)
    omega

/-- All the waiting data of streams leave, and the pool takes their buffers. -/
theorem all_leave {limit : Nat} : ∀ (n : Nat) (m : Mem) (own : List Nat), Inv m own → m.held.length = n →
    (∀ h ∈ m.held, h.crypto = false) → m.pool.length + n ≤ limit →
    ∃ m', leaveStreams limit m (List.replicate n 0) = some m' ∧ m'.held = [] ∧ m'.pool.length = m.pool.length + n ∧
      m'.freed = m.freed ∧ m'.ptr = m.ptr := by
  intro n
  induction n with
  | zero =>
    intro m _ _ hn _ _
    exact ⟨m, rfl, List.eq_nil_of_length_eq_zero hn, rfl, rfl, rfl⟩
  | succ n ih =>
    intro m own hi hn hk hl
    cases hh : m.held with
    | nil => rw [hh] at hn; exact absurd hn (by simp)
    | cons x l =>
      have hx : x.crypto = false := hk x (by rw [hh]; exact List.mem_cons_self)
      have hget : m.held[0]? = some x := by rw [hh]; rfl
      have hmem : x ∈ m.held := by rw [hh]; exact List.mem_cons_self
      obtain ⟨p, hp, _⟩ := hi.good x hmem
      have hnf : x.id ∉ m.freed :=
        hi.nf _ (List.mem_append_right _ (List.mem_append_right _ (List.mem_map_of_mem hmem)))
      obtain ⟨m1, e1, i1, p1, _, _, h1, _⟩ := leave_spec limit hi 0
      have hm1 : leave limit m 0 = some { m with
          pool := x.id :: m.pool, held := m.held.eraseIdx 0, log := m.log ++ [(part (m.data x.id) p, x.expect)] } := by
        unfold leave
        rw [hget]
        simp only
        rw [if_neg hnf, hp]
        simp only [recycle]
        rw [if_pos (by omega)]
      rw [hm1] at e1
      injection e1 with e1
      have hheld : m1.held = l := by rw [h1, hh]; rfl
      obtain ⟨m2, e2, a2, b2, c2, d2⟩ := ih m1 own i1
        (by rw [hheld]; rw [hh, List.length_cons] at hn; omega)
        (by rw [hheld]; intro h hm; exact hk h (by rw [hh]; exact List.mem_cons_of_mem _ hm))
        (by rw [← e1]; simp only [List.length_cons]; omega)
      refine ⟨m2, ?_, a2, ?_, ?_, d2.trans p1⟩
      · rw [List.replicate_succ, leaveStreams, leaveStream, hget]
        simp only
        rw [hx, if_neg (fun a => nomatch a), hm1, e1]
        exact e2
      · rw [b2, ← e1]; simp only [List.length_cons]; omega
      · rw [c2, ← e1]

/-- A packet with a STREAM frame that fills the gap, after which all the data are given, and a CRYPTO frame with
the next data for TLS. -/
def fillGap (n : Nat) : BufferOp :=
  .packet [1, 2] [⟨false, [], false, List.replicate n 0⟩, ⟨true, [(1, 1)], true, []⟩] [0]

theorem flood_freed (n : Nat) : run (n + 1) {} (List.replicate (n + 1) byteBehindGap ++ [fillGap (n + 1)]) = none := by
  have happ : ∀ (a b : List BufferOp) (m : Mem),
      run (n + 1) m (a ++ b) = (run (n + 1) m a).bind (fun x => run (n + 1) x b) := by
    intro a b
    induction a with
    | nil => intro m; rfl
    | cons op a ih =>
      intro m
      rw [List.cons_append, run, run]
      cases Buffers.step (n + 1) m op with
      | none => rfl
      | some m1 => exact ih m1
  obtain ⟨m, e, a, b, c, d, f⟩ := flood (limit := n + 1) (Nat.succ_pos n) n
  have hi := run_inv _ inv_init e
  rw [happ, e]
  simp only [Option.bind_some, run]
  have hcur := cur_start hi [1, 2]
  rw [alloc_cons a] at hcur
  simp only at hcur
  have hiv : Inv { m with pool := [], ptr := Buffers.upd m.ptr 0 none, data := Buffers.upd m.data 0 [1, 2] } [0] := by
    rcases hcur.place with h | h
    · exact h.1
    · exact absurd (show Buffers.upd m.ptr 0 none 0 = none from rfl) h.2.1
  obtain ⟨m2, e2, a2, b2, c2, d2⟩ := all_leave (limit := n + 1) (n + 1) _ [0] hiv d (fun h hh => (f h hh).1)
    (by rw [List.length_nil]; omega)
  have hpool : m2.pool.length = n + 1 := by rw [b2, List.length_nil]; omega
  have hfreed : m2.freed = [] := c2.trans c
  have hptr : m2.ptr 0 = none := by rw [d2]; rfl
  clear b2 c2 d2
  have hstep : Buffers.step (n + 1) m (fillGap (n + 1)) = none := by
    unfold fillGap Buffers.step packet
    rw [alloc_cons a]
    simp only [decodeFrames, addChunks]
    rw [e2]
    obtain ⟨pool, fresh, freed, ptr, data, held, log⟩ := m2
    simp only at a2 hpool hfreed hptr
    subst a2 hfreed
    simp [addChunk, hptr, leaveStreams, leaveAll, leave, recycle, hpool, endPacket, upd_same]
  rw [hstep]

/-- **C94 is violated**: after 8192 packets with one byte each behind a gap, a packet that fills the gap and brings
the next message of TLS makes the receiver read its buffer after it was freed. -/
theorem C94_freed_violated : run LIMIT {} (List.replicate LIMIT byteBehindGap ++ [fillGap LIMIT]) = none :=
  flood_freed 8191

/-! ## The hypotheses are met -/

/-- Data behind a gap in two packets (the second one in the buffer of its packet), then the gap is filled; a CRYPTO
frame that is not the last one takes the buffer. -/
def bufferHistory : List BufferOp :=
  [.packet [9, 8, 7] [⟨false, [(1, 2)], true, []⟩] [],
    .packet [5, 6, 7, 8] [⟨true, [(0, 2)], true, []⟩, ⟨false, [(2, 1), (3, 1)], true, []⟩] [],
    .packet [1] [⟨false, [], true, [0]⟩] [0, 0, 0]]

example : ∃ m, run LIMIT {} bufferHistory = some m ∧
    m.log = [([8, 7], [8, 7]), ([5, 6], [5, 6]), ([7], [7]), ([8], [8])] ∧ m.held = [] ∧ m.freed = [] :=
  ⟨_, rfl, rfl, rfl, rfl⟩

example : FewWaiting LIMIT {} bufferHistory := by
  refine ⟨by decide, fun m1 h1 => ?_⟩
  injection h1 with h1
  subst h1
  refine ⟨by decide, fun m2 h2 => ?_⟩
  injection h2 with h2
  subst h2
  refine ⟨by decide, fun m3 _ => trivial⟩

end Picoquic.Props
