import Verif.Proof.TlsStream

/-!
# C93: the messages of the handshake reach TLS whole, in order and at their level

`TlsMachine` is any TLS: a state, the level from which it reads, and what it does with bytes. `fed` is what TLS
was given, `wrote` what it wrote, `sent` the CRYPTO frames (level, offset, data) that were put in packets.
-/

namespace Picoquic.Props
open Picoquic.Spec Picoquic.TlsStream

variable {σ : Type}

/-- A TLS that reads 4 bytes of level 0, then 6 of level 2, then level 3, and answers at level 2. -/
def toyTls : TlsMachine (Nat → Nat) where
  reads s := if s 0 < 4 then 0 else if s 2 < 6 then 2 else 3
  handle s e b := (fun i => if i = e then s i + b.length else s i, false, [(2, [7, 8, 9])])

theorem toyTls_counts : toyTls.Counts (fun e => if e = 0 then 4 else if e = 2 then 6 else 0) (fun s e => s e) where
  add _ _ _ _ := rfl
  leaves s e h := by
    unfold toyTls at h
    simp only at h ⊢
    by_cases h0 : s 0 < 4
    · rw [if_pos h0] at h; omega
    · rw [if_neg h0] at h
      by_cases h2 : s 2 < 6
      · rw [if_pos h2] at h
        by_cases e0 : e = 0
        · subst e0; rw [if_pos rfl]; omega
        · rw [if_neg e0, if_neg (by omega)]; omega
      · rw [if_neg h2] at h
        by_cases e0 : e = 0
        · subst e0; rw [if_pos rfl]; omega
        · rw [if_neg e0]
          by_cases e2 : e = 2
          · subst e2; rw [if_pos rfl]; omega
          · rw [if_neg e2]; omega

theorem toyTls_forward : toyTls.Forward := by
  intro s e b
  unfold toyTls
  simp only
  by_cases h0 : s 0 < 4
  · rw [if_pos h0]; exact Nat.zero_le _
  · rw [if_neg h0]
    have h1 : ¬ (if 0 = e then s 0 + b.length else s 0) < 4 := by
      by_cases he : 0 = e
      · rw [if_pos he]; omega
      · rw [if_neg he]; exact h0
    rw [if_neg h1]
    by_cases h2 : s 2 < 6
    · rw [if_pos h2]; (repeat' split) <;> omega
    · rw [if_neg h2]
      have h3 : ¬ (if 2 = e then s 2 + b.length else s 2) < 6 := by
        by_cases he : 2 = e
        · rw [if_pos he]; omega
        · rw [if_neg he]; exact h2
      rw [if_neg h3]
      exact Nat.le_refl _

/-- The packets of a toy handshake, in the wrong order and with repetitions. -/
def toyOps : List CryptoOp :=
  [.crypto 2 3 [23, 24, 25], .process, .crypto 0 1 [11, 12, 13], .process, .crypto 0 0 [10, 11], .process,
    .crypto 2 0 [20, 21, 22, 23], .crypto 2 3 [23, 24], .process, .send 2 20]

/-- **C93.** For every TLS and every history, whatever the frames of the peer contain, the loop never computes a
length below zero, and each byte that TLS is given at a level is a byte that arrived in a frame of this level for
this position. -/
theorem C93_origin (T : TlsMachine σ) (t : σ) (hello : Bytes) (ops : List CryptoOp) :
    ∃ c, run T (init t hello) ops = some c ∧ ∀ e i x, (atLevel e c.fed)[i]? = some x → ArrivedByte ops e i x := by
  obtain ⟨c, h1, h2, _⟩ := run_in T ops (rinv_init (ArrivedByte ops) t hello) (allowed_arrived ops)
  refine ⟨c, h1, fun e i x hx => ?_⟩
  have := h2.fedA e i x hx
  rwa [Nat.zero_add] at this

/-- **C93.** If the frames of each level are pieces of one stream, in any order and with any repetitions and
overlaps, then TLS is given, at each level, the beginning of this stream, each byte once and in order. -/
theorem C93_order (T : TlsMachine σ) (t : σ) (hello : Bytes) (ops : List CryptoOp) (S : Nat → Nat → UInt8)
    (hS : ∀ e o b, .crypto e o b ∈ ops → b = slice (S e) o b.length) :
    ∃ c, run T (init t hello) ops = some c ∧ ∀ e, ∃ n, atLevel e c.fed = slice (S e) 0 n := by
  obtain ⟨c, h1, h2, _⟩ := run_in T ops (rinv_init (fun e i x => x = S e i) t hello) (by
    intro e o b hm
    rw [hS e o b hm]
    exact StreamInput.slice_agree (S e) o b.length)
  exact ⟨c, h1, fun e => ⟨_, StreamInput.agree_eq_slice (h2.fedA e)⟩⟩

/-- **C93.** Nothing waits: after a packet was processed without error, the level that TLS reads was given every
byte up to the first position that did not arrive. -/
theorem C93_delivered (T : TlsMachine σ) (hT : T.Forward) (t : σ) (hello : Bytes) (ops : List CryptoOp) (c : Cnx σ)
    (hr : run T (init t hello) (ops ++ [.process]) = some c) (he : c.error = none) (h4 : T.reads c.tls < 4) (n : Nat)
    (hn : ∀ i, i < n → ∃ o b, .crypto (T.reads c.tls) o b ∈ ops ∧ o ≤ i ∧ i < o + b.length) :
    n ≤ (atLevel (T.reads c.tls) c.fed).length := by
  obtain ⟨c1, r1, r2, r3, r4, r5⟩ := run_in T ops (rinv_init (ArrivedByte ops) t hello) (allowed_arrived ops)
  rw [run_append, r1] at hr
  simp only [Option.bind_some, run] at hr
  obtain ⟨c2, s1, s2, s3, s4, _⟩ := step_in (A := ArrivedByte ops) (op := .process) T r2
    (fun e o b hm => by rw [List.mem_singleton] at hm; exact nomatch hm)
  rw [s1] at hr
  injection hr with hr
  subst hr
  have he1 : c1.error = none := by
    cases hc : c1.error with
    | none => rfl
    | some x => exact absurd he (s4 (by rw [hc]; exact fun a => nomatch a))
  have hdr : ∀ d ∈ c2.tree (T.reads c2.tls), c2.consumed (T.reads c2.tls) < d.offset := by
    unfold step at s1
    rw [if_neg (fun a => a he1)] at s1
    refine levels_drained hT [0, 1, 2, 3] r2 (by decide) s1 he ?_
    have : T.reads c2.tls = 0 ∨ T.reads c2.tls = 1 ∨ T.reads c2.tls = 2 ∨ T.reads c2.tls = 3 := by omega
    rcases this with h | h | h | h <;> rw [h] <;> decide
  rw [s2.len]
  refine Nat.le_of_not_lt (fun hlt => ?_)
  obtain ⟨o, b, hm, ho1, ho2⟩ := hn _ hlt
  rcases s3 _ _ (r5 he1 _ o b hm _ ho1 ho2) with h | h
  · omega
  · obtain ⟨d, hd, h1, _⟩ := h
    have := hdr d hd
    omega

/-- **C93.** The data that wait for earlier ones take at most 16384 bytes and one frame per level. -/
theorem C93_memory (T : TlsMachine σ) (t : σ) (hello : Bytes) (ops : List CryptoOp) (M : Nat)
    (hM : ∀ e o b, .crypto e o b ∈ ops → b.length ≤ M) (c : Cnx σ) (hr : run T (init t hello) ops = some c) (e : Nat) :
    ((c.tree e).map (fun d => d.bytes.length)).sum ≤ 16384 + M := by
  obtain ⟨c1, r1, r2, _⟩ := run_in T ops (rinv_init (ArrivedByte ops) t hello) (allowed_arrived ops)
  have hc : c1 = c := by rw [r1] at hr; injection hr
  subst hc
  have hn := near_run T ops (rinv_init (ArrivedByte ops) t hello)
    (M := M) (by
      intro x d hd
      rw [show (init t hello).tree = _ from (sameIn_add ({ tls := t } : Cnx σ) 0 hello).tree] at hd
      exact absurd hd List.not_mem_nil)
    (allowed_arrived ops) hM hr
  rw [kept_eq]
  have := kept_le (r2.ord e) (r2.low e) (hn e) (by omega)
  unfold GAP at this
  omega

/-- **C93.** A peer that keeps to the protocol is never accused: if no flight is longer than 16384 bytes, the
frames lie within the flights, and TLS leaves a level only when it has the flight of this level, then the connection
fails only if TLS itself does. -/
theorem C93_honest_partial (T : TlsMachine σ) (N : Nat → Nat) (count : σ → Nat → Nat) (hT : T.Counts N count)
    (hN : ∀ e, N e ≤ 16384) (t : σ) (h0 : ∀ e, count t e = 0) (hello : Bytes) (ops : List CryptoOp)
    (hops : ∀ e o b, .crypto e o b ∈ ops → o + b.length ≤ N e) (c : Cnx σ)
    (hr : run T (init t hello) ops = some c) :
    c.error = none ∨ (c.error = some TLS_FAILED ∧ ∃ s e b, (T.handle s e b).2.1 = true) := by
  have hs := sameIn_add ({ tls := t } : Cnx σ) 0 hello
  have hi : HInv T N count (init t hello) := hinv_same (c := { tls := t })
    ⟨h0, fun _ _ h => absurd h List.not_mem_nil, Or.inl rfl⟩ hs
  exact (hinv_run hT hN ops (rinv_init (ArrivedByte ops) t hello) hi (allowed_arrived ops) hops hr).err

/-- **C93 is violated** for longer flights: if the flight of the peer is longer than 16384 bytes, then any piece of
it that ends beyond this and arrives before the first byte closes the connection with CRYPTO_BUFFER_EXCEEDED. -/
theorem C93_large_violated (T : TlsMachine σ) (t : σ) (hello : Bytes) (S : Nat → UInt8) (e o n : Nat) (ho : 0 < o)
    (hn : 16384 < o + n) :
    ∃ c, run T (init t hello) [.crypto e o (slice S o n)] = some c ∧ c.error = some 0xD := by
  have hs := sameIn_add ({ tls := t } : Cnx σ) 0 hello
  have hl : (slice S o n).length = n := by rw [slice, List.length_map, List.length_range]
  have hc : (init t hello).consumed e = 0 := by
    show (addToTlsStream ({ tls := t } : Cnx σ) 0 hello).consumed e = 0
    rw [hs.consumed]
  refine ⟨decodeCrypto (init t hello) e o (slice S o n), ?_, ?_⟩
  · rw [run, step, if_neg (fun a => a (init_error t hello))]
    rfl
  · unfold decodeCrypto
    rw [if_pos ⟨by rw [hc]; exact ho, by rw [hc, hl]; show 0 + 16384 < _; omega⟩]
    rfl

/-- **C93 is violated**: data beyond the end of the flight of a level that TLS has left are not refused (RFC 9001,
4.1.3, asks for PROTOCOL_VIOLATION). -/
theorem C93_extends_violated :
    ∃ c, run toyTls (init (fun _ => 0) []) [.crypto 0 0 [10, 11, 12, 13], .process, .crypto 0 4 [99], .process]
        = some c ∧ toyTls.reads c.tls = 2 ∧ c.error = none :=
  ⟨_, rfl, rfl, rfl⟩

/-- **C93.** What TLS wrote at a level is what was sent in the frames of this level, in order, followed by what waits
in the queue; and each frame sent carries the bytes of the stream at its offset. -/
theorem C93_sent (T : TlsMachine σ) (t : σ) (hello : Bytes) (ops : List CryptoOp) (c : Cnx σ)
    (hr : run T (init t hello) ops = some c) :
    (∀ e, atLevel e c.wrote = atLevel e (c.sent.map (fun s => (s.1, s.2.2))) ++ (c.queue e).flatten) ∧
      ∀ e o d, (e, o, d) ∈ c.sent → d = ((atLevel e c.wrote).drop o).take d.length := by
  have h := sinv_run T ops (sinv_init t hello) hr
  refine ⟨h.all, ?_⟩
  intro e o d hm
  obtain ⟨pre, post, e1, e2⟩ := h.frames _ hm
  simp only at e1 e2
  rw [e1, ← e2, List.drop_left, List.take_left]

/-- **C93.** What a packet gets is a CRYPTO frame of the next bytes, or nothing; with room for 18 bytes and something
in the queue, it is not nothing. -/
theorem C93_frame (T : TlsMachine σ) (t : σ) (hello : Bytes) (ops : List CryptoOp) (c : Cnx σ)
    (hr : run T (init t hello) ops = some c) (e room : Nat) (hl : (atLevel e c.wrote).length < 2 ^ 62) :
    (sendCrypto c e room).2.length ≤ room ∧
    ∃ d, (sendCrypto c e room).1.sent = (if d = [] then c.sent else c.sent ++ [(e, c.sentOffset e, d)]) ∧
      ((sendCrypto c e room).2 ≠ [] → IsFrame (sendCrypto c e room).2 (.crypto (c.sentOffset e) d)) ∧
      ((sendCrypto c e room).2 = [] → d = []) ∧
      (c.queue e ≠ [] → 18 ≤ room → d ≠ []) := by
  have h := sinv_run T ops (sinv_init t hello) hr
  have hall := congrArg List.length (h.all e)
  rw [List.length_append, ← h.off e] at hall
  unfold sendCrypto
  cases hq : c.queue e with
  | nil => exact ⟨Nat.zero_le _, [], by rw [if_pos rfl], fun a => absurd rfl a, fun _ => rfl, fun a => absurd rfl a⟩
  | cons q qs =>
    rw [hq, List.flatten_cons, List.length_append] at hall
    have hqne : q ≠ [] := h.ne e q (by rw [hq]; exact List.mem_cons_self)
    have hqp := List.length_pos_iff.2 hqne
    obtain ⟨f1, f2, f3, f4, f5⟩ := Frames.formatCrypto_spec (offset := c.sentOffset e) (room := room) (queued := q)
      (w := (Frames.formatCrypto (c.sentOffset e) q room).1) (n := (Frames.formatCrypto (c.sentOffset e) q room).2)
      (by omega) (by omega) rfl
    simp only
    by_cases hn : (Frames.formatCrypto (c.sentOffset e) q room).2 > 0
    · rw [if_pos hn]
      have hne : q.take (Frames.formatCrypto (c.sentOffset e) q room).2 ≠ [] := by
        apply List.ne_nil_of_length_pos
        rw [List.length_take]
        omega
      refine ⟨f2, q.take (Frames.formatCrypto (c.sentOffset e) q room).2, ?_, f4, ?_, fun _ _ => hne⟩
      · rw [if_neg hne]
      · intro hw
        have := f3 hw
        omega
    · rw [if_neg hn]
      have h0 : (Frames.formatCrypto (c.sentOffset e) q room).2 = 0 := by omega
      rw [h0, List.take_zero] at f4
      exact ⟨f2, [], by rw [if_pos rfl], f4, fun _ => rfl, fun _ hroom => absurd (f5 hqne hroom) hn⟩

/-! ## The hypotheses are met -/

/-- The toy handshake: both flights arrive whole, and TLS is then at the last level. -/
example : ∃ c, run toyTls (init (fun _ => 0) [1, 2, 3]) toyOps = some c ∧ atLevel 0 c.fed = [10, 11, 12, 13] ∧
    atLevel 2 c.fed = [20, 21, 22, 23, 24, 25] ∧ toyTls.reads c.tls = 3 ∧ c.error = none ∧
    c.sent = [(2, 0, [7, 8, 9])] :=
  ⟨_, rfl, rfl, rfl, rfl, rfl, rfl⟩

/-- Its frames are pieces of streams and lie within the flights. -/
example : ∀ e o b, .crypto e o b ∈ toyOps → b = slice (fun i => (10 + 5 * e + i).toUInt8) o b.length ∧
    o + b.length ≤ (if e = 0 then 4 else if e = 2 then 6 else 0) := by
  intro e o b h
  simp only [toyOps, List.mem_cons, CryptoOp.crypto.injEq, reduceCtorEq, List.not_mem_nil, or_false, false_or] at h
  rcases h with ⟨rfl, rfl, rfl⟩ | ⟨rfl, rfl, rfl⟩ | ⟨rfl, rfl, rfl⟩ | ⟨rfl, rfl, rfl⟩ | ⟨rfl, rfl, rfl⟩ <;> decide

end Picoquic.Props
