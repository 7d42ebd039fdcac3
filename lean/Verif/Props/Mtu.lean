import Verif.Proof.Mtu
/-!
# C88: path MTU discovery

The size of the packets that are sent on a path starts with one that all paths of the Internet carry; it grows only when a larger packet was acknowledged; it never exceeds what either
end allows; it falls back when the path no longer carries large packets; and the search ends.
-/

namespace Picoquic.Props
open Picoquic Picoquic.Spec Picoquic.Mtu

/-- In every history of a path, all the packets that are sent are no longer than the first size, or are no longer than what both ends allow. Missing: packets are not larger than what both ends
allow if this is less than the first size, see `C88_limits_violated`, and addresses of another family, see `C88_moved_violated`. -/
theorem C88_size_partial (c : Cfg) (v6 : Bool) (ops : List MtuOp) (h : MtuHist) (hr : 0 < c.remote) (h1 : c.mtuMax = 0 ∨ overhead v6 ≤ c.mtuMax) (h2 : c.mtuMax < 2 ^ 32)
    (hm : ∀ v, .move v ∈ ops → v = v6) (e : mtuRun c { path := newPath v6 } ops = some h) :
    ∀ size probe, (size, probe) ∈ h.sent → size ≤ (if v6 then 1232 else 1252) ∨ MtuAllows c v6 size := by
  intro size probe hs
  have hi := inv_run hr ops _ h (inv_new c v6) hm e
  have hb : size ≤ bound c v6 := hi.sent _ hs
  have ei : (if v6 then 1232 else 1252) = initialMtu v6 := rfl
  rw [ei]
  unfold bound at hb
  by_cases a : size ≤ initialMtu v6
  · exact .inl a
  · exact .inr (Mtu.MtuAllows.mono (firstMax_allows h1 h2) (by omega))

/-- The limits that are below the first size are ignored: a peer that accepts packets of 1200 bytes only, or a local limit of 1200 bytes, do not prevent packets of the first size. -/
theorem C88_limits_violated (c : Cfg) (v6 : Bool) (h : c.remote < initialMtu v6 ∨ (0 < c.mtuMax ∧ c.mtuMax < initialMtu v6 + overhead v6)) :
    ∃ ops r size, mtuRun c { path := newPath v6 } ops = some r ∧ (size, false) ∈ r.sent ∧ ¬ MtuAllows c v6 size := by
  refine ⟨[.data (initialMtu v6)], { path := newPath v6, sent := [(initialMtu v6, false)] }, initialMtu v6, ?_, List.mem_singleton.2 rfl, ?_⟩
  · have e : mtuStep c { path := newPath v6 } (.data (initialMtu v6)) = some { path := newPath v6, sent := [(initialMtu v6, false)] } := by
      unfold mtuStep
      exact if_pos (Nat.le_refl _)
    unfold mtuRun
    rw [e]
    rfl
  · rintro ⟨a, b⟩
    have ho : (if v6 then 48 else 28) = overhead v6 := rfl
    rw [ho] at b
    rcases h with h | h
    · omega
    · have := b (by omega); omega

example : ({ remote := 1200, mtuMax := 0 } : Cfg).remote < initialMtu false := by decide

/-- The size of packets is the first one, or that of a packet that was sent and acknowledged; it is never less than the first one. -/
theorem C88_acked (c : Cfg) (v6 : Bool) (ops : List MtuOp) (h : MtuHist) (hr : 0 < c.remote) (hm : ∀ v, .move v ∈ ops → v = v6) (e : mtuRun c { path := newPath v6 } ops = some h) :
    (if v6 then 1232 else 1252) ≤ h.path.mtu ∧ (h.path.mtu = (if v6 then 1232 else 1252) ∨ (h.path.mtu ∈ h.acks ∧ ∃ probe, (h.path.mtu, probe) ∈ h.sent)) := by
  have hi := inv_run hr ops _ h (inv_new c v6) hm e
  exact ⟨hi.lo, hi.best.elim .inl (fun a => .inr ⟨a, hi.acks _ a⟩)⟩

example : (mtuRun { remote := 1500, mtuMax := 0 } { path := newPath false } [.probe true .basic 0 true 20 16 1536, .ack 0, .data 1500]).map (fun h => (h.path.mtu, h.sent, h.acks)) =
    some (1500, [(1500, true), (1500, false)], [1500]) := by decide +kernel

/-- When the path moves to other addresses its size is the first one. But an acknowledgment of a large packet that was sent to the former addresses makes it large again, though no large
packet was ever sent to the new ones. -/
theorem C88_moved_violated (c : Cfg) (v6' : Bool) (h : MtuHist) (k size : Nat) (probe : Bool) (hk : h.sent[k]? = some (size, probe)) (hs : initialMtu v6' < size) :
    (∀ r, mtuRun c h [.move v6'] = some r → r.path.mtu = initialMtu v6') ∧ (∀ r, mtuRun c h [.move v6', .ack k] = some r → r.path.mtu = size ∧ r.path.v6 = v6' ∧ r.sent = h.sent) := by
  refine ⟨?_, ?_⟩
  · intro r e
    simp only [mtuRun, mtuStep, Option.some.injEq] at e
    rw [← e]; rfl
  · intro r e
    simp only [mtuRun, mtuStep, hk, Option.some.injEq] at e
    rw [← e]
    unfold acked
    rw [if_neg (show ¬ size = (moved h.path v6').mtu from fun h => by rw [h] at hs; exact absurd hs (Nat.lt_irrefl _)), if_pos (show size > (moved h.path v6').mtu from hs)]
    exact ⟨rfl, rfl, rfl⟩

example : (mtuRun { remote := 1500, mtuMax := 0 } { path := newPath false } [.probe true .basic 0 true 20 16 1536, .move true, .ack 0]).map (fun h => (h.path.v6, h.path.mtu)) = some (true, 1500) := by
  decide +kernel

/-- A probe is sent only if there is nothing else to send, discovery is not blocked and no other probe is on its way; it is larger than the packets of data, fits the buffer of the caller, and
both ends allow it. -/
theorem C88_probe (c : Cfg) (v6 : Bool) (ops : List MtuOp) (h h' : MtuHist) (ready : Bool) (pol : Policy) (queued : Nat) (idle : Bool) (header checksum bufMax : Nat) (hr : 0 < c.remote)
    (h1 : c.mtuMax = 0 ∨ overhead v6 ≤ c.mtuMax) (h2 : c.mtuMax < 2 ^ 32) (hm : ∀ v, .move v ∈ ops → v = v6) (e : mtuRun c { path := newPath v6 } ops = some h)
    (es : mtuStep c h (.probe ready pol queued idle header checksum bufMax) = some h') (hn : h'.sent ≠ h.sent) :
    idle = true ∧ pol ≠ .blocked ∧ h.path.probeSent = false ∧ h'.path.probeSent = true ∧
    ∃ size, h'.sent = h.sent ++ [(size, true)] ∧ h.path.mtu < size ∧ size ≤ bufMax ∧ MtuAllows c v6 size := by
  have hi := inv_run hr ops _ h (inv_new c v6) hm e
  unfold mtuStep at es
  dsimp only at es
  by_cases a : mayProbe c h.path ready pol queued idle bufMax = true
  · rw [if_pos a] at es
    obtain ⟨a1, a2, a3, a4, a5, a6, a7⟩ := mayProbe_iff a
    cases ep : prepareProbe c h.path header checksum bufMax with
    | none => rw [ep] at es; cases es
    | some length =>
      rw [ep] at es
      injection es with es
      subst es
      obtain ⟨k1, -⟩ := prepareProbe_some ep
      refine ⟨a1, a5, a4, rfl, length + checksum, rfl, by omega, by omega, ?_⟩
      have hb := nextProbe_le (p := h.path) hr hi.mtu hi.tried (by rw [hi.fam]; exact Nat.le_max_right _ _)
      have := hi.lo
      unfold bound at hb
      exact Mtu.MtuAllows.mono (firstMax_allows h1 h2) (by omega)
  · rw [if_neg a] at es
    injection es with es
    subst es
    exact absurd rfl hn

example : (mtuStep { remote := 1500, mtuMax := 1400 } { path := newPath true } (.probe true .basic 0 true 20 16 1536)).map (fun h => h.sent) = some [(1352, true)] := by decide +kernel

/-- No probe is written outside of the buffer of its packet, if this end has set no limit or one below 1536 bytes and headers. Missing: larger limits, see `C88_memory_violated`. -/
theorem C88_memory_partial (c : Cfg) (v6 : Bool) (ops : List MtuOp) (hr : 0 < c.remote) (h1 : c.mtuMax = 0 ∨ (overhead v6 ≤ c.mtuMax ∧ c.mtuMax ≤ 1536 + overhead v6))
    (hm : ∀ v, .move v ∈ ops → v = v6)
    (hp : ∀ ready pol queued idle header checksum bufMax, .probe ready pol queued idle header checksum bufMax ∈ ops → header + checksum < 1200) :
    ∃ h, mtuRun c { path := newPath v6 } ops = some h := by
  have hb : firstMax c v6 ≤ MAX_PACKET_SIZE := by
    have hM : MAX_PACKET_SIZE = 1536 := rfl
    unfold firstMax
    by_cases a : c.mtuMax > 0 ∧ c.remote > localMax c v6
    · rw [if_pos a]
      have hx := h1.resolve_left (by omega)
      rw [localMax_eq hx.1 (by have : overhead v6 ≤ 48 := by cases v6 <;> decide
                               simp only [Nat.reducePow]; omega)]
      omega
    · rw [if_neg a]
      split <;> omega
  cases e : mtuRun c { path := newPath v6 } ops with
  | none => exact absurd e (run_ok hr hb ops _ (inv_new c v6) hm hp)
  | some h => exact ⟨h, rfl⟩

/-- If both ends set a limit of more than 1536 bytes, as for jumbo frames, and the buffer of the caller is large, as it is when packets are sent in trains, the first probe is written outside
of the buffer of its packet. -/
theorem C88_memory_violated (c : Cfg) (v6 : Bool) (header checksum bufMax : Nat) (h1 : 1536 + checksum + overhead v6 < c.mtuMax) (h2 : c.mtuMax < 2 ^ 32) (h3 : c.mtuMax ≤ c.remote)
    (hb : 1536 + checksum < bufMax) : mtuRun c { path := newPath v6 } [.probe true .basic 0 true header checksum bufMax] = none := by
  have hl : localMax c v6 = c.mtuMax - overhead v6 := localMax_eq (by omega) h2
  have ho : 0 < overhead v6 := by cases v6 <;> decide
  have hi : initialMtu v6 < 1536 := by cases v6 <;> decide
  have hn : nextProbe c (newPath v6) = c.mtuMax - overhead v6 := by
    unfold nextProbe
    rw [if_pos (show (newPath v6).tried = 0 from rfl), if_pos (by omega), show (newPath v6).v6 = v6 from rfl, show (newPath v6).mtu = initialMtu v6 from rfl, hl, if_pos (by omega)]
    omega
  have hM : MAX_PACKET_SIZE = 1536 := rfl
  have hp : prepareProbe c (newPath v6) header checksum bufMax = none := by
    unfold prepareProbe
    rw [hn]
    split
    · rfl
    · split
      · rfl
      · rw [if_pos (by omega)]
  have hneed : probeNeeded c (newPath v6) true .basic 0 = .optional := by
    unfold probeNeeded
    rw [if_pos ⟨rfl, rfl, by decide⟩, if_pos (.inl rfl), hn, if_pos (show c.mtuMax - overhead v6 > (newPath v6).mtu by show _ > initialMtu v6; omega), if_neg (by decide)]
    rw [Nat.zero_div, Nat.zero_div, if_neg (by simp)]
    rfl
  unfold mtuRun mtuStep
  dsimp only
  rw [if_pos (show mayProbe c (newPath v6) true .basic 0 true bufMax = true from ?_), hp]
  unfold mayProbe
  rw [hneed]
  have : bufMax > (newPath v6).mtu := by show _ > initialMtu v6; omega
  simp [this]

example : mtuRun { remote := 9000, mtuMax := 9000 } { path := newPath false } [.probe true .basic 0 true 20 16 65536] = none :=
  C88_memory_violated _ _ _ _ _ (by decide) (by decide) (by decide) (by decide)

/-- If discovery is blocked no probe is sent, and the size of packets remains the first one. -/
theorem C88_blocked (c : Cfg) (v6 : Bool) (ops : List MtuOp) (h : MtuHist) (hm : ∀ v, .move v ∈ ops → v = v6)
    (hp : ∀ ready pol queued idle header checksum bufMax, .probe ready pol queued idle header checksum bufMax ∈ ops → pol = .blocked) (e : mtuRun c { path := newPath v6 } ops = some h) :
    h.path.mtu = (if v6 then 1232 else 1252) ∧ ∀ size probe, (size, probe) ∈ h.sent → probe = false ∧ size ≤ (if v6 then 1232 else 1252) := by
  have hi := still_run (v6 := v6) ops _ h ⟨rfl, rfl, (fun _ h => absurd h List.not_mem_nil)⟩ hm hp e
  exact ⟨hi.mtu, fun size probe hs => ⟨(hi.sent _ hs).2, (hi.sent _ hs).1⟩⟩

example : (mtuRun { remote := 1500, mtuMax := 0 } { path := newPath false } [.probe true .blocked 100000 true 20 16 1536, .data 1252, .ack 0]).map (fun h => (h.path.mtu, h.sent)) =
    some (1252, [(1252, false)]) := by decide +kernel

/-! ### Black holes -/

theorem blackHole_low (full : Nat) : ∀ (es : List (Option Nat)) (p : Path), p.mtu = initialMtu p.v6 → (∀ s, some s ∈ es → s < initialMtu p.v6) → (blackHole full p es).mtu = initialMtu p.v6 := by
  intro es
  induction es with
  | nil => intro p h _; exact h
  | cons x es ih =>
    intro p h hs
    cases x with
    | none =>
      obtain ⟨l1, l2, -⟩ := lost_cases p full false false true
      have := ih (lost p full false false true) (by rw [l1]; rcases l2 with l2 | l2 <;> rw [l2]; exact h) (by rw [l1]; exact fun s hx => hs s (List.mem_cons_of_mem _ hx))
      rw [l1] at this
      exact this
    | some s =>
      have e : acked p s = p := by
        have := hs s List.mem_cons_self
        unfold acked
        rw [if_neg (by omega), if_neg (by omega)]
      show (blackHole full (acked p s) es).mtu = _
      rw [e]
      exact ih p h (fun s hx => hs s (List.mem_cons_of_mem _ hx))

/-- If packets of the current size are lost and none of them is acknowledged, the size falls back to the first one with the eleventh loss, or before, whatever smaller packets are
acknowledged between them. -/
theorem C88_black_hole (p : Path) (es : List (Option Nat)) (hs : ∀ s, some s ∈ es → s < initialMtu p.v6) (hm : initialMtu p.v6 ≤ p.mtu) (hn : 11 ≤ es.count none) :
    (blackHole p.mtu p es).mtu = (if p.v6 then 1232 else 1252) := by
  have key : ∀ (es : List (Option Nat)) (q : Path), q.mtu = p.mtu → q.v6 = p.v6 → (∀ s, some s ∈ es → s < initialMtu p.v6) → 11 ≤ q.losses + es.count none → q.losses ≤ 10 →
      (blackHole p.mtu q es).mtu = initialMtu p.v6 := by
    intro es
    induction es with
    | nil => intro q _ _ _ h1 h2; rw [List.count_nil] at h1; omega
    | cons x es ih =>
      intro q e1 e2 hs h1 h2
      cases x with
      | some s =>
        have e : acked q s = q := by
          have := hs s List.mem_cons_self
          unfold acked
          rw [if_neg (by omega), if_neg (by omega)]
        show (blackHole p.mtu (acked q s) es).mtu = _
        rw [e]
        rw [List.count_cons_of_ne (by simp)] at h1
        exact ih q e1 e2 (fun s hx => hs s (List.mem_cons_of_mem _ hx)) h1 h2
      | none =>
        rw [List.count_cons_self] at h1
        show (blackHole p.mtu (lost q p.mtu false false true) es).mtu = _
        by_cases a : q.losses + 1 > LOSS_THRESHOLD
        · have e : lost q p.mtu false false true = reset { q with losses := q.losses + 1 } := by
            unfold lost checkLoss
            rw [if_neg (by decide), if_pos ⟨.inl e1.symm, rfl⟩, if_pos (.inl a)]
          rw [e]
          have := blackHole_low p.mtu es (reset { q with losses := q.losses + 1 }) rfl (by show ∀ s, some s ∈ es → s < initialMtu q.v6; rw [e2]; exact fun s hx => hs s (List.mem_cons_of_mem _ hx))
          rw [this]
          show initialMtu q.v6 = _
          rw [e2]
        · have e : lost q p.mtu false false true = { q with losses := q.losses + 1 } := by
            unfold lost checkLoss
            rw [if_neg (by decide), if_pos ⟨.inl e1.symm, rfl⟩, if_neg (by rintro (h | h); exact a h; cases h)]
          rw [e]
          have hL : LOSS_THRESHOLD = 10 := rfl
          exact ih _ e1 e2 (fun s hx => hs s (List.mem_cons_of_mem _ hx)) (by show 11 ≤ q.losses + 1 + _; omega) (by show q.losses + 1 ≤ 10; omega)
  by_cases hl : p.losses ≤ 10
  · exact key es p rfl rfl hs (by omega) hl
  · -- the counter is already above the threshold: the first loss is enough
    have aux : ∀ (es : List (Option Nat)), (∀ s, some s ∈ es → s < initialMtu p.v6) → 11 ≤ es.count none → (blackHole p.mtu p es).mtu = initialMtu p.v6 := by
      intro es
      induction es with
      | nil => intro _ h; rw [List.count_nil] at h; omega
      | cons x es ih =>
        intro hs h
        cases x with
        | some s =>
          have e : acked p s = p := by
            have := hs s List.mem_cons_self
            unfold acked
            rw [if_neg (by omega), if_neg (by omega)]
          show (blackHole p.mtu (acked p s) es).mtu = _
          rw [e]
          rw [List.count_cons_of_ne (by simp)] at h
          exact ih (fun s hx => hs s (List.mem_cons_of_mem _ hx)) h
        | none =>
          show (blackHole p.mtu (lost p p.mtu false false true) es).mtu = _
          have e : lost p p.mtu false false true = reset { p with losses := p.losses + 1 } := by
            have hL : LOSS_THRESHOLD = 10 := rfl
            unfold lost checkLoss
            rw [if_neg (by decide), if_pos ⟨.inl rfl, rfl⟩, if_pos (.inl (by omega))]
          rw [e]
          exact blackHole_low p.mtu es (reset { p with losses := p.losses + 1 }) rfl (fun s hx => hs s (List.mem_cons_of_mem _ hx))
    exact aux es hs hn

example : (blackHole 1440 { v6 := false, mtu := 1440 } ((some 100) :: List.replicate 11 none)).mtu = 1252 := by decide +kernel

/-- Ten losses do not make the size fall back. -/
theorem C88_ten_losses (p : Path) (n : Nat) (h : p.losses + n ≤ 10) : (blackHole p.mtu p (List.replicate n none)).mtu = p.mtu := by
  have key : ∀ (n : Nat) (q : Path), q.mtu = p.mtu → q.losses + n ≤ 10 → (blackHole p.mtu q (List.replicate n none)).mtu = p.mtu := by
    intro n
    induction n with
    | zero => intro q h _; exact h
    | succ n ih =>
      intro q e1 hn
      show (blackHole p.mtu (lost q p.mtu false false true) (List.replicate n none)).mtu = _
      have hL : LOSS_THRESHOLD = 10 := rfl
      have e : lost q p.mtu false false true = { q with losses := q.losses + 1 } := by
        unfold lost checkLoss
        rw [if_neg (by decide), if_pos ⟨.inl e1.symm, rfl⟩, if_neg (by rintro (h | h); · omega
                                                                       · cases h)]
      rw [e]
      exact ih _ e1 (by show q.losses + 1 + n ≤ 10; omega)
  exact key n p rfl h

/-- Losses of packets of the size of the path do not make it fall back, however many they are, if there are at most ten of them between two acknowledgments of packets of this size. -/
theorem C88_kept (p : Path) (runs : List Nat) (h0 : p.losses = 0) (hr : ∀ n, n ∈ runs → n ≤ 10) :
    (blackHole p.mtu p (runs.flatMap (fun n => List.replicate n none ++ [some p.mtu]))).mtu = p.mtu := by
  have key : ∀ (n : Nat) (q : Path) (es : List (Option Nat)), q.mtu = p.mtu → q.losses + n ≤ 10 →
      ∃ q', q'.mtu = p.mtu ∧ q'.losses = 0 ∧ blackHole p.mtu q (List.replicate n none ++ some p.mtu :: es) = blackHole p.mtu q' es := by
    intro n
    induction n with
    | zero =>
      intro q es e1 _
      refine ⟨{ q with losses := 0 }, e1, rfl, ?_⟩
      show blackHole p.mtu (acked q p.mtu) es = _
      unfold acked
      rw [if_pos e1.symm]
    | succ n ih =>
      intro q es e1 hn
      have hL : LOSS_THRESHOLD = 10 := rfl
      have e : lost q p.mtu false false true = { q with losses := q.losses + 1 } := by
        unfold lost checkLoss
        rw [if_neg (by decide), if_pos ⟨.inl e1.symm, rfl⟩, if_neg (by rintro (h | h); · omega
                                                                       · cases h)]
      obtain ⟨q', k1, k2, k3⟩ := ih { q with losses := q.losses + 1 } es e1 (by show q.losses + 1 + n ≤ 10; omega)
      refine ⟨q', k1, k2, ?_⟩
      show blackHole p.mtu (lost q p.mtu false false true) (List.replicate n none ++ some p.mtu :: es) = _
      rw [e]
      exact k3
  have all : ∀ (runs : List Nat) (q : Path), q.mtu = p.mtu → q.losses = 0 → (∀ n, n ∈ runs → n ≤ 10) →
      (blackHole p.mtu q (runs.flatMap (fun n => List.replicate n none ++ [some p.mtu]))).mtu = p.mtu := by
    intro runs
    induction runs with
    | nil => intro q e _ _; exact e
    | cons n runs ih =>
      intro q e1 e2 hr
      obtain ⟨q', k1, k2, k3⟩ := key n q (runs.flatMap (fun n => List.replicate n none ++ [some p.mtu])) e1 (by have := hr n List.mem_cons_self; omega)
      rw [List.flatMap_cons, List.append_assoc, List.singleton_append, k3]
      exact ih q' k1 k2 (fun n hn => hr n (List.mem_cons_of_mem _ hn))
  exact all runs p rfl h0 hr

example : (blackHole 1440 { v6 := false, mtu := 1440 } ([10, 10].flatMap (fun n => List.replicate n none ++ [some 1440]))).mtu = 1440 := by decide +kernel

/-- The count of losses is not reset when the size falls back, nor when it grows. Hence, after a path fell back and a new probe was acknowledged, the loss of one packet of the new size is
enough for a second fall back, although ten in a row are accepted on a new path. -/
theorem C88_second_violated (v6 : Bool) (full : Nat) (h : initialMtu v6 < full) :
    let p := acked (newPath v6) full
    let q := acked (blackHole full p (List.replicate 11 none)) full
    p.mtu = full ∧ (blackHole full p (List.replicate 10 none)).mtu = full ∧ q.mtu = full ∧ (lost q full false false true).mtu = initialMtu v6 := by
  intro p q
  have ep : p = { v6 := v6, mtu := full } := by
    show acked (newPath v6) full = _
    unfold acked
    rw [if_neg (show ¬ full = (newPath v6).mtu by show ¬ full = initialMtu v6; omega), if_pos (show full > (newPath v6).mtu from h)]
    rfl
  have eq1 : blackHole full p (List.replicate 11 none) = { v6 := v6, mtu := initialMtu v6, losses := 11 } := by
    rw [ep]
    simp [List.replicate, blackHole, lost, checkLoss, LOSS_THRESHOLD, reset]
  have eq : q = { v6 := v6, mtu := full, losses := 11 } := by
    show acked (blackHole full p (List.replicate 11 none)) full = _
    rw [eq1]
    unfold acked
    rw [if_neg (show ¬ full = initialMtu v6 by omega), if_pos (show full > initialMtu v6 from h)]
  refine ⟨by rw [ep], ?_, by rw [eq], ?_⟩
  · have := C88_ten_losses p 10 (by rw [ep]; show 0 + 10 ≤ 10; omega)
    rw [ep] at this ⊢
    exact this
  · rw [eq]
    simp [lost, checkLoss, LOSS_THRESHOLD, reset]

example : initialMtu false < 1440 := by decide

/-! ### The search ends -/

/-- Whatever the path, the policy, the data to send and the buffers, at most three probes are lost, and at most one is sent for each byte of the interval between the first size and what
both ends allow. -/
theorem C88_rounds (c : Cfg) (v6 : Bool) (rs : List (Policy × Nat × Nat × Bool)) (hr : 0 < c.remote) (h1 : c.mtuMax = 0 ∨ overhead v6 ≤ c.mtuMax) (h2 : c.mtuMax < 2 ^ 32) :
    (mtuRounds c (newPath v6) rs).2.2 ≤ 3 ∧ (mtuRounds c (newPath v6) rs).2.1 ≤ c.remote - initialMtu v6 ∧ (c.mtuMax ≠ 0 → (mtuRounds c (newPath v6) rs).2.1 ≤ c.mtuMax - overhead v6 - initialMtu v6) := by
  obtain ⟨k1, k2, k3⟩ := rounds_spec (B := bound c v6) hr rs (newPath v6) (by cases v6 <;> decide) rfl (Nat.le_max_left _ _) (Nat.zero_le _) (Nat.le_max_right _ _)
  have hz : rank (newPath v6).tried = 3 := rfl
  have he : (newPath v6).mtu = initialMtu v6 := rfl
  rw [hz] at k3
  rw [he] at k1
  obtain ⟨a1, a2⟩ := firstMax_allows h1 h2
  have ho : (if v6 then 48 else 28) = overhead v6 := rfl
  rw [ho] at a2
  unfold bound at k2
  refine ⟨by omega, by omega, fun hn => ?_⟩
  have := a2 hn
  omega

example : mtuRounds { remote := 1536, mtuMax := 0 } (newPath false) [(.basic, 0, 1536, false), (.basic, 0, 1536, false), (.basic, 0, 1536, true), (.basic, 0, 1536, true)] =
    ({ v6 := false, mtu := 1400, tried := 1500, probeSent := false, losses := 0 }, 1, 2) := by decide +kernel

end Picoquic.Props
