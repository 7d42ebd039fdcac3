import Verif.Proof.KeyUpdate
/-!
# Properties of key updates (C76)
-/

namespace Picoquic.Props
open Picoquic.KeyUpdate Picoquic.Spec

/-- What both theorems about delivery use. -/
theorem ku_inv (first : Bool → Nat) (es : List KuEvent) (left : Nat) (small : ∀ x, first x + es.length + left < 2 ^ 62)
    (ho : KuObeys (kuStart false first) es ∨ ∃ a, ∀ x, KuEvent.rotate x ∈ es → x = a) : SysInv (kuRun (kuStart false first) es) left := by
  have h0 : SysInv (kuStart false first) (left + es.length) := kuStart_inv first _ (fun x => by
    have := small x
    unfold U64_MAX; omega)
  rcases ho with ho | ⟨a, ha⟩
  · exact kuRun_inv es _ left h0 ho
  · exact kuRun_inv es _ left h0 (one_obeys a es _ left h0 rfl ha)

/-- **C76, delivery (partial).** For all histories of packets sent, delivered in any order, lost, repeated and forged, and of key updates, if only one end
starts key updates, or each end starts one only after the other one has received a packet with the current keys: a packet that an end sends
is decrypted by the other end, and the packets which the other end then sends have keys at least as new. Missing: histories in which
both ends start key updates at the same time, and several paths, for which it is false. -/
theorem C76_delivered_partial (first : Bool → Nat) (es : List KuEvent) (small : ∀ x, first x + es.length + 1 < 2 ^ 62)
    (ho : KuObeys (kuStart false first) es ∨ ∃ a, ∀ x, KuEvent.rotate x ∈ es → x = a) (x : Bool) (path path' now rto : Nat) :
    let s := kuRun (kuStart false first) es
    let p := (send (s.ep x) path).2
    let r := receive (s.ep (!x)) now rto p
    r.2 = true ∧ ∃ g g', p.key = some g ∧ (send r.1 path').2.key = some g' ∧ g ≤ g' := by
  intro s p r
  have h1 : SysInv s 1 := ku_inv first es 1 small ho
  have h2 : SysInv (kuStep s (.send x path)) 0 := kuStep_inv (left := 0) h1 _ trivial
  have d := h2.dir x
  have e1 : (kuStep s (.send x path)).ep x = (send (s.ep x) path).1 := kuSet_same ..
  have e2 : (kuStep s (.send x path)).ep (!x) = s.ep (!x) := kuSet_not ..
  have e3 : (kuStep s (.send x path)).sent x = p :: s.sent x := kuSet_same ..
  rw [e1, e2, e3] at d
  have hsm := h2.small x
  rw [e1] at hsm
  have hk : p.key = some (s.ep x).enc := rfl
  have hle := d.le
  have henc : (send (s.ep x) path).1.enc = (s.ep x).enc := rfl
  rw [henc] at hle
  have hy := h1.ep (!x)
  have hye : (s.ep (!x)).dec ≤ (s.ep (!x)).enc := by
    rcases hy.keys with ⟨-, -, -, -, e⟩ | ⟨-, -, -, -, e⟩ | ⟨-, -, -, -, e⟩ <;> omega
  obtain ⟨n, hn⟩ := receive_one (s.ep (!x)) now rto p
  have hr1 : r.1 = { (decryptWith (s.ep (!x)) now rto p).1 with lastRecv := n } := hn
  have hr2 : r.2 = (decryptWith (s.ep (!x)) now rto p).2 := receive_two ..
  have hkey : (send r.1 path').2.key = some (decryptWith (s.ep (!x)) now rto p).1.enc := by rw [hr1]; rfl
  rcases decryptWith_sent hy d (by omega) (List.mem_cons_self ..) hk now rto with ⟨c1, c2, c3⟩ | ⟨c1, c2, c3⟩ | ⟨c1, -⟩
  · refine ⟨by rw [hr2]; exact c2, _, _, hk, hkey, ?_⟩
    rcases c3 with c3 | c3 <;> rw [c3] <;> (show (s.ep x).enc ≤ (s.ep (!x)).enc; omega)
  · refine ⟨by rw [hr2]; exact c2, _, _, hk, hkey, ?_⟩
    rw [c3.enc]; omega
  · omega

/-- **C76, reordering (partial).** In the same histories: when the first packet with new keys arrives, the packets with the keys before are still decrypted for the time of
a retransmission timer. Missing: as above, and an end that starts a key update forgets the keys before at once. -/
theorem C76_reordered_partial (first : Bool → Nat) (es : List KuEvent) (small : ∀ x, first x + es.length + 1 < 2 ^ 62)
    (ho : KuObeys (kuStart false first) es ∨ ∃ a, ∀ x, KuEvent.rotate x ∈ es → x = a) (y : Bool) (now rto : Nat) (ht : now + rto < 2 ^ 64) (i : Nat) (q : Pkt)
    (hq : ((kuRun (kuStart false first) es).sent (!y))[i]? = some q) (hn : q.key = some (((kuRun (kuStart false first) es).ep y).dec + 1)) :
    let s := kuRun (kuStart false first) es
    ∀ p ∈ s.sent (!y), p.key = some (s.ep y).dec → ∀ now' rto', now' ≤ now + rto →
      (receive (receive (s.ep y) now rto q).1 now' rto' p).2 = true := by
  intro s p hp hk now' rto' hnow
  have h1 : SysInv s 1 := ku_inv first es 1 small ho
  have hqm : q ∈ s.sent (!y) := List.mem_of_getElem? hq
  have inc : DirInv (s.ep (!y)) (s.ep y) (s.sent (!y)) := by have := h1.dir (!y); rwa [Bool.not_not] at this
  have h2 : SysInv (kuStep s (.deliver y now rto i)) 0 := kuStep_inv (left := 0) h1 _ trivial
  have es' : kuStep s (.deliver y now rto i) = { s with ep := kuSet s.ep y (receive (s.ep y) now rto q).1 } := by
    unfold kuStep
    dsimp only
    rw [hq]
  rw [es'] at h2
  have hy2 : EpInv (receive (s.ep y) now rto q).1 := by
    have : EpInv (kuSet s.ep y (receive (s.ep y) now rto q).1 y) := h2.ep y
    rwa [kuSet_same] at this
  have inc2 : DirInv (s.ep (!y)) (receive (s.ep y) now rto q).1 (s.sent (!y)) := by
    have : DirInv (kuSet s.ep y (receive (s.ep y) now rto q).1 (!y)) (kuSet s.ep y (receive (s.ep y) now rto q).1 (!!y)) (s.sent (!y)) := h2.dir (!y)
    rwa [Bool.not_not, kuSet_same, kuSet_not] at this
  have hsm := h1.small (!y)
  obtain ⟨n, hn1⟩ := receive_one (s.ep y) now rto q
  rcases decryptWith_sent (h1.ep y) inc (by omega) hqm hn now rto with ⟨c1, -⟩ | ⟨-, -, c⟩ | ⟨c1, -⟩
  · have : (s.ep y).dec + 1 = (s.ep y).dec := c1
    omega
  · have hd : (receive (s.ep y) now rto q).1.dec = (s.ep y).dec + 1 := by rw [hn1]; exact c.dec
    have ho : (receive (s.ep y) now rto q).1.oldDec = some (s.ep y).dec := by rw [hn1]; exact c.old
    have hg : (receive (s.ep y) now rto q).1.guard = now + rto := by
      rw [hn1]
      show (decryptWith (s.ep y) now rto q).1.guard = _
      rw [c.guard]; unfold u64; omega
    rw [receive_two]
    rcases decryptWith_sent hy2 inc2 (by omega) hp hk now' rto' with ⟨c1, -⟩ | ⟨c1, -⟩ | ⟨-, -, c3⟩
    · omega
    · omega
    · exact c3 hd.symm (by omega) ho
  · have : (s.ep y).dec + 1 < (s.ep y).dec := c1
    omega

/-- **C76, the next update (partial).** In the same histories: an end that has received a packet with keys as new as its own ones, and in the past has decrypted a packet with a number not below the one it
was about to send at the last update, can start a key update; the packets it sends have keys of the next generation, and the other key phase. Missing: the condition on the numbers. -/
theorem C76_next_partial (first : Bool → Nat) (es es' : List KuEvent) (x : Bool) (now rto i : Nat)
    (small : ∀ y, first y + (es ++ .deliver x now rto i :: es').length + 1 < 2 ^ 62)
    (ho : KuObeys (kuStart false first) (es ++ .deliver x now rto i :: es') ∨ ∃ a, ∀ y, KuEvent.rotate y ∈ es ++ .deliver x now rto i :: es' → y = a) (path : Nat) (q : Pkt)
    (hq : ((kuRun (kuStart false first) es).sent (!x))[i]? = some q) (hd : (receive ((kuRun (kuStart false first) es).ep x) now rto q).2 = true) :
    let s := kuRun (kuStart false first) (es ++ .deliver x now rto i :: es')
    (s.ep x).ready = true → (s.ep x).enc = (s.ep x).dec → (s.ep x).epochSeq ≤ q.pn →
      ∃ k, startRotation (s.ep x) = some k ∧ (send k path).2.key = some ((s.ep x).enc + 1) ∧
        (send k path).2.phase = !(send (s.ep x) path).2.phase := by
  intro s hr he hs0
  have hs : (s.ep x).epochSeq ≤ (s.ep x).lastRecv := by
    have e0 : s = kuRun (kuStep (kuRun (kuStart false first) es) (.deliver x now rto i)) es' := by
      show List.foldl _ _ _ = _
      rw [List.foldl_append]; rfl
    have e1 : (kuStep (kuRun (kuStart false first) es) (.deliver x now rto i)).ep x = (receive ((kuRun (kuStart false first) es).ep x) now rto q).1 := by
      unfold kuStep
      dsimp only
      rw [hq]
      exact kuSet_same ..
    have m := (kuRun_last es (kuStart false first) x).2
    have l := (kuRun_last es' (kuStep (kuRun (kuStart false first) es) (.deliver x now rto i)) x).1
    rw [← e0, e1] at l
    have := (receive_last ((kuRun (kuStart false first) es).ep x) now rto q).2.2 hd m
    omega
  have h1 : SysInv s 1 := ku_inv first _ 1 small ho
  have hc : ∃ k', computeNew (s.ep x) = some k' ∧ k'.newEnc = some ((s.ep x).enc + 1) ∧ k'.phaseEnc = (s.ep x).phaseEnc := by
    unfold computeNew
    rcases (h1.ep x).keys with ⟨c1, c2, c3, c4, -⟩ | ⟨c1, c2, c3, c4, -⟩ | ⟨-, -, -, -, e⟩
    · rw [c1, c2]
      exact ⟨_, rfl, by show some ((s.ep x).secEnc + 1) = _; rw [c3], rfl⟩
    · rw [c1, c2]
      exact ⟨_, rfl, c1, rfl⟩
    · omega
  obtain ⟨k', c1, c2, c3⟩ := hc
  refine ⟨{ applyEnc k' with oldDec := none, epochSeq := k'.sendSeq 0 }, ?_, ?_, ?_⟩
  · unfold startRotation
    rw [if_neg (by rw [hr]; rintro (h | h); · exact absurd h (by decide)
                   · omega), c1]
  · show some (applyEnc k').enc = _
    unfold applyEnc
    rw [c2]
  · show (applyEnc k').phaseEnc = !(s.ep x).phaseEnc
    unfold applyEnc
    rw [c2, ← c3]

/-- **C76, forged packets.** In any state, a packet that the peer did not encrypt is not decrypted, and the keys in use, the
key phases, the packets taken for old ones and the time until which these are read are the same behind it. -/
theorem C76_forged (k : Kx) (now rto path pn : Nat) (phase : Bool) :
    let r := receive k now rto ⟨path, pn, phase, none⟩
    r.2 = false ∧ r.1.enc = k.enc ∧ r.1.dec = k.dec ∧ r.1.oldDec = k.oldDec ∧ r.1.phaseEnc = k.phaseEnc ∧ r.1.phaseDec = k.phaseDec ∧
      r.1.rotSeq = k.rotSeq ∧ r.1.guard = k.guard ∧ r.1.epochSeq = k.epochSeq ∧ r.1.sendSeq = k.sendSeq := by
  intro r
  obtain ⟨h1, h2⟩ := decryptWith_forged k now rto ⟨path, pn, phase, none⟩ rfl
  obtain ⟨n, hn⟩ := receive_one k now rto ⟨path, pn, phase, none⟩
  have hr1 : r.1 = { (decryptWith k now rto ⟨path, pn, phase, none⟩).1 with lastRecv := n } := hn
  have hr2 : r.2 = (decryptWith k now rto ⟨path, pn, phase, none⟩).2 := receive_two ..
  refine ⟨by rw [hr2, h1], ?_⟩
  rw [hr1]
  rcases h2 with h2 | h2
  · rw [h2]; exact ⟨rfl, rfl, rfl, rfl, rfl, rfl, rfl, rfl, rfl⟩
  · generalize (decryptWith k now rto ⟨path, pn, phase, none⟩).1 = k' at *
    unfold computeNew at h2
    split at h2
    · split at h2
      · cases h2
      · cases h2; exact ⟨rfl, rfl, rfl, rfl, rfl, rfl, rfl, rfl, rfl⟩
    · cases h2; exact ⟨rfl, rfl, rfl, rfl, rfl, rfl, rfl, rfl, rfl⟩

/-! ### Violations -/

/-- Both ends start a key update, a packet of each is on its way; the one of the end `true` arrives, and the end `false` starts a second key update. -/
def kuBoth : List KuEvent :=
  [.rotate false, .rotate true, .send true 0, .send false 0, .deliver false 0 0 0, .rotate false]

/-- The end `false` has keys of generation 2 and the end `true` expects those of generation 0 or 1. -/
structure KuStuck (s : KuSys) : Prop where
  a : (s.ep false).multipath = false ∧ (s.ep false).enc = 2 ∧ (s.ep false).dec = 1 ∧ (s.ep false).newEnc = none ∧ (s.ep false).newDec = some 2 ∧
    (s.ep false).oldDec = none ∧ (s.ep false).phaseEnc = false ∧ (s.ep false).phaseDec = true
  b : (s.ep true).multipath = false ∧ (s.ep true).enc = 1 ∧ (s.ep true).dec = 0 ∧ (s.ep true).newEnc = none ∧ (s.ep true).newDec = some 1 ∧
    (s.ep true).oldDec = none ∧ (s.ep true).phaseEnc = true ∧ (s.ep true).phaseDec = false ∧ (s.ep true).rotSeq 0 = 0
  sa : ∀ p ∈ s.sent false, p.key = some 1 ∨ p.phase = false
  sb : ∀ p ∈ s.sent true, p.key = some 1 ∧ p.phase = true

/-- No packet with keys of generation 1 of the end `false` is delivered. -/
def kuLost (s : KuSys) : List KuEvent → Prop
  | [] => True
  | e :: es =>
    (match e with
     | .deliver true _ _ i => ∀ p, (s.sent false)[i]? = some p → p.key ≠ some 1
     | _ => True) ∧ kuLost (kuStep s e) es

/-- What the end `true` does with the packets that are left. -/
theorem ku_true {k : Kx} (hb : k.multipath = false ∧ k.enc = 1 ∧ k.dec = 0 ∧ k.newEnc = none ∧ k.newDec = some 1 ∧
    k.oldDec = none ∧ k.phaseEnc = true ∧ k.phaseDec = false ∧ k.rotSeq 0 = 0) (now rto : Nat) (p : Pkt) (hp : p.key ≠ some 1) : (decryptWith k now rto p).1 = k ∧ (p.key ≠ some 0 → (decryptWith k now rto p).2 = false) := by
  obtain ⟨b1, b2, b3, b4, b5, b6, b7, b8, b9⟩ := hb
  unfold decryptWith
  dsimp only
  rw [ctx_single b1, b8, b3, b9]
  by_cases c : p.phase = false
  · rw [if_pos c]
    by_cases c2 : p.key = some 0
    · rw [if_pos c2, if_neg (Nat.not_lt_zero _)]
      exact ⟨rfl, fun h => absurd c2 h⟩
    · rw [if_neg c2]
      exact ⟨rfl, fun _ => rfl⟩
  · rw [if_neg c, if_neg (by rintro (⟨h, -⟩ | h); · unfold U64_MAX at h; omega
                             · omega), if_neg (by rw [b5]; simp)]
    dsimp only
    rw [b5]
    dsimp only
    rw [if_neg hp]
    exact ⟨rfl, fun _ => rfl⟩

theorem ku_stuck_step (s : KuSys) (h : KuStuck s) (e : KuEvent)
    (hl : match e with
     | .deliver true _ _ i => ∀ p, (s.sent false)[i]? = some p → p.key ≠ some 1
     | _ => True) : KuStuck (kuStep s e) := by
  obtain ⟨a1, a2, a3, a4, a5, a6, a7, a8⟩ := h.a
  obtain ⟨b1, b2, b3, b4, b5, b6, b7, b8, b9⟩ := h.b
  cases e with
  | send x path =>
    cases x
    · refine ⟨⟨a1, a2, a3, a4, a5, a6, a7, a8⟩, h.b, ?_, h.sb⟩
      intro p hp
      rcases List.mem_cons.1 (show p ∈ (send (s.ep false) path).2 :: s.sent false from hp) with rfl | hp
      · exact .inr a7
      · exact h.sa p hp
    · refine ⟨h.a, ⟨b1, b2, b3, b4, b5, b6, b7, b8, b9⟩, h.sa, ?_⟩
      intro p hp
      rcases List.mem_cons.1 (show p ∈ (send (s.ep true) path).2 :: s.sent true from hp) with rfl | hp
      · exact ⟨congrArg some b2, b7⟩
      · exact h.sb p hp
  | deliver x now rto i =>
    cases x
    · show KuStuck (match (s.sent true)[i]? with
        | some p => { s with ep := kuSet s.ep false (receive (s.ep false) now rto p).1 }
        | none => s)
      cases hi : (s.sent true)[i]? with
      | none => exact h
      | some p =>
        obtain ⟨p1, p2⟩ := h.sb p (List.mem_of_getElem? hi)
        obtain ⟨n, hn⟩ := receive_one (s.ep false) now rto p
        dsimp only
        rw [hn]
        have ed : (decryptWith (s.ep false) now rto p).1 = s.ep false ∨ ∃ f, (decryptWith (s.ep false) now rto p).1 = { s.ep false with rotSeq := f } := by
          unfold decryptWith
          dsimp only
          rw [if_pos (by rw [p2, a8]), if_pos (by rw [p1, a3])]
          dsimp only
          split
          · exact .inr ⟨_, rfl⟩
          · exact .inl rfl
        rcases ed with ed | ⟨f, ed⟩
        · rw [ed]; exact ⟨⟨a1, a2, a3, a4, a5, a6, a7, a8⟩, h.b, h.sa, h.sb⟩
        · rw [ed]; exact ⟨⟨a1, a2, a3, a4, a5, a6, a7, a8⟩, h.b, h.sa, h.sb⟩
    · show KuStuck (match (s.sent false)[i]? with
        | some p => { s with ep := kuSet s.ep true (receive (s.ep true) now rto p).1 }
        | none => s)
      cases hi : (s.sent false)[i]? with
      | none => exact h
      | some p =>
        have p1 : p.key ≠ some 1 := hl p hi
        obtain ⟨n, hn⟩ := receive_one (s.ep true) now rto p
        dsimp only
        rw [hn, (ku_true h.b now rto p p1).1]
        exact ⟨h.a, ⟨b1, b2, b3, b4, b5, b6, b7, b8, b9⟩, h.sa, h.sb⟩
  | forge x now rto path pn phase =>
    obtain ⟨n, hn⟩ := receive_one (s.ep x) now rto ⟨path, pn, phase, none⟩
    have hsame : (decryptWith (s.ep x) now rto ⟨path, pn, phase, none⟩).1 = s.ep x := by
      rcases (decryptWith_forged (s.ep x) now rto ⟨path, pn, phase, none⟩ rfl).2 with e | e
      · exact e
      · exfalso
        unfold computeNew at e
        cases x
        · rw [a4, a5] at e; simp at e
        · rw [b4, b5] at e; simp at e
    unfold kuStep
    dsimp only
    rw [hn, hsame]
    cases x
    · exact ⟨⟨a1, a2, a3, a4, a5, a6, a7, a8⟩, h.b, h.sa, h.sb⟩
    · exact ⟨h.a, ⟨b1, b2, b3, b4, b5, b6, b7, b8, b9⟩, h.sa, h.sb⟩
  | rotate x =>
    have hnone : startRotation (s.ep x) = none := by
      have hc : computeNew (s.ep x) = none := by
        unfold computeNew
        cases x
        · rw [a4, a5]; rfl
        · rw [b4, b5]; rfl
      unfold startRotation
      rw [hc]
      split <;> rfl
    unfold kuStep
    dsimp only
    rw [hnone]
    exact h

/-- **C76, violation.** When both ends start a key update at the same time, one of them may start a second one before the first one has reached the other end: the check
compares a number of a packet sent with a number of a packet received. If the packets with the keys in between are lost, no packet of this
end is ever decrypted again, whatever both ends do. -/
theorem C76_simultaneous_violated : ∀ es, kuLost (kuRun (kuStart false (fun _ => 10)) kuBoth) es → ∀ path now rto,
    let s := kuRun (kuRun (kuStart false (fun _ => 10)) kuBoth) es
    (receive (s.ep true) now rto (send (s.ep false) path).2).2 = false := by
  have key : ∀ (es : List KuEvent) (s : KuSys), KuStuck s → kuLost s es → KuStuck (kuRun s es) := by
    intro es
    induction es with
    | nil => intro s h _; exact h
    | cons e es ih =>
      intro s h hl
      exact ih _ (ku_stuck_step s h e hl.1) hl.2
  intro es hl path now rto s
  have h0 : KuStuck (kuRun (kuStart false (fun _ => 10)) kuBoth) := by
    refine ⟨by decide, by decide, by decide, by decide⟩
  have h := key es _ h0 hl
  rw [receive_two]
  have hk : (send (s.ep false) path).2.key = some 2 := congrArg some h.a.2.1
  exact (ku_true h.b now rto _ (by rw [hk]; decide)).2 (by rw [hk]; decide)

/-- **C76, violation.** A key update is refused although all packets were received and both ends use the same keys: after 1000 packets, the end which started the
last update cannot start another one before it has received 1000 packets. -/
theorem C76_refused_violated :
    let es : List KuEvent := [.rotate false, .send false 0, .deliver true 0 0 0, .send true 0, .deliver false 0 0 0]
    let s := kuRun (kuStart false (fun x => if x then 0 else 1000)) es
    (s.ep false).enc = 1 ∧ (s.ep false).dec = 1 ∧ (s.ep true).enc = 1 ∧ (s.ep true).dec = 1 ∧ (s.ep false).ready = true ∧
      startRotation (s.ep false) = none := by
  intro es s
  refine ⟨by decide, by decide, by decide, by decide, by decide, ?_⟩
  have h1 : (s.ep false).epochSeq = 1000 := by decide
  have h2 : (s.ep false).lastRecv = 0 := by decide
  unfold startRotation
  rw [h1, h2, if_pos (.inr (by omega))]

/-- **C76, violation.** With several paths and only one end that starts key updates, each one after the other end has answered with the current keys: the first packet with new keys is not
decrypted, at any time, if it is sent on a path on which no packet with the keys before was received. -/
theorem C76_multipath_violated :
    let es : List KuEvent := [.rotate false, .send false 0, .deliver true 0 100 0, .send true 0, .deliver false 0 100 0, .rotate false]
    let s := kuRun (kuStart true (fun _ => 0)) es
    KuObeys (kuStart true (fun _ => 0)) es ∧ ∀ now rto, (receive (s.ep true) now rto (send (s.ep false) 1).2).2 = false ∧
      (receive (s.ep true) now rto (send (s.ep false) 1).2).1.dec = (s.ep true).dec := by
  intro es s
  refine ⟨⟨by intro _; decide, trivial, trivial, trivial, trivial, by intro _; decide, trivial⟩, ?_⟩
  intro now rto
  have hp : (send (s.ep false) 1).2 = ⟨1, 0, false, some 2⟩ := by decide
  have hm : (s.ep true).multipath = true := by decide
  have hd : (s.ep true).phaseDec = true := by decide
  have hr : (s.ep true).rotSeq 2 = U64_MAX := by decide
  have ho : (s.ep true).oldDec = some 0 := by decide
  have e : decryptWith (s.ep true) now rto ⟨1, 0, false, some 2⟩ = (s.ep true, false) := by
    unfold decryptWith Kx.ctx
    dsimp only
    rw [hm, hd]
    rw [if_neg (by decide), if_pos (.inr (by rw [if_pos rfl, hr]; decide)), ho]
    dsimp only
    split <;> rfl
  rw [hp]
  unfold receive
  rw [e]
  exact ⟨rfl, rfl⟩

/-! ### Examples -/

/-- Three key updates by the same end, with answers, a forged packet and a packet that arrives late. -/
def kuThree : List KuEvent :=
  [.send false 0, .rotate false, .send false 0, .deliver true 5 100 0, .deliver true 6 100 1, .send true 0, .deliver false 7 100 0,
   .rotate false, .forge true 8 100 0 99 false, .send false 0, .deliver true 9 100 0, .send true 0, .deliver false 10 100 0, .rotate false,
   .send false 0]

example :
    let s := kuRun (kuStart false (fun x => if x then 5 else 0)) kuThree
    (s.ep false).enc = 3 ∧ (s.ep true).dec = 2 ∧ (s.sent false).map (·.key) = [some 3, some 2, some 1, some 0] ∧
      (receive (s.ep true) 11 100 ⟨0, 3, true, some 3⟩).2 = true ∧ ∀ x, KuEvent.rotate x ∈ kuThree → x = false := by
  refine ⟨by decide, by decide, by decide, by decide, ?_⟩
  intro x hx
  cases x
  · rfl
  · revert hx
    unfold kuThree
    simp

/-- The hypotheses of `C76_next_partial` are met behind the first two updates. -/
example :
    let s := kuRun (kuStart false (fun x => if x then 5 else 0)) (kuThree.take 13)
    (s.ep false).ready = true ∧ (s.ep false).enc = 2 ∧ (s.ep false).dec = 2 ∧ (s.ep false).epochSeq = 2 ∧
      ((kuRun (kuStart false (fun x => if x then 5 else 0)) (kuThree.take 12)).sent true)[0]? = some ⟨0, 6, false, some 2⟩ := by decide

/-- A packet with the keys before is delivered behind the first one with new keys. -/
example :
    let es : List KuEvent := [.send false 0, .send false 0, .rotate false, .send false 0]
    let s := kuRun (kuStart false (fun _ => 7)) es
    (receive (receive (s.ep true) 50 100 ⟨0, 9, true, some 1⟩).1 150 0 ⟨0, 8, false, some 0⟩).2 = true ∧
      ⟨0, 9, true, some 1⟩ ∈ s.sent false ∧ ⟨0, 8, false, some 0⟩ ∈ s.sent false := by decide

/-- Packets with the keys in between of the violation are really lost in a history in which the end `false` goes on. -/
example : kuLost (kuRun (kuStart false (fun _ => 10)) kuBoth) [.send false 0, .deliver true 0 0 0, .rotate true, .send true 0, .deliver false 0 0 0] := by
  refine ⟨trivial, ?_, trivial, trivial, trivial, trivial⟩
  intro p hp
  have e : (kuStep (kuRun (kuStart false (fun _ => 10)) kuBoth) (.send false 0)).sent false =
    [⟨0, 11, false, some 2⟩, ⟨0, 10, true, some 1⟩] := by decide
  rw [e] at hp
  cases hp
  decide

end Picoquic.Props
