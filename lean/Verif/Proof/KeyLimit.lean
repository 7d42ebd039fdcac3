import Verif.Spec.KeyLimit
/-!
# Proofs about the number of packets per key
-/

namespace Picoquic.KeyLimit
open Picoquic.KeyUpdate Picoquic.Spec

/-- The keys of an end. -/
structure KeysOk (k : Kx) : Prop where
  ready : k.ready = true
  sec : k.secDec = k.secEnc
  le : k.dec ≤ k.enc
  enc : (k.newEnc = none ∧ k.enc = k.secEnc) ∨ (k.newEnc = some k.secEnc ∧ k.enc + 1 = k.secEnc)
  dec : (k.newDec = none ∧ k.dec = k.secDec) ∨ (k.newDec = some k.secDec ∧ k.dec + 1 = k.secDec)

theorem start_some {k k' : Kx} (h : KeysOk k) (e : startRotation k = some k') :
    KeysOk k' ∧ k'.enc = k.enc + 1 ∧ k'.epochSeq = k.sendSeq 0 ∧ k'.sendSeq = k.sendSeq ∧ k'.multipath = k.multipath := by
  obtain ⟨h1, h2, h3, h4, h5⟩ := h
  unfold startRotation at e
  split at e
  · exact absurd e (by simp)
  · rename_i hn
    unfold computeNew at e
    rcases h4 with ⟨a, b⟩ | ⟨a, b⟩ <;> rcases h5 with ⟨c, d⟩ | ⟨c, d⟩ <;> simp [a, c, applyEnc] at e <;> subst e <;>
      refine ⟨⟨?_, ?_, ?_, ?_, ?_⟩, ?_, ?_, ?_, ?_⟩ <;> simp_all <;> omega

theorem start_answered {k : Kx} (h : KeysOk k) (h1 : k.dec = k.enc) (h2 : k.epochSeq ≤ k.lastRecv) :
    ∃ k', startRotation k = some k' := by
  obtain ⟨a1, a2, a3, a4, a5⟩ := h
  unfold startRotation
  rw [if_neg (by rw [a1]; simp; omega)]
  unfold computeNew
  rcases a4 with ⟨a, b⟩ | ⟨a, b⟩ <;> rcases a5 with ⟨c, d⟩ | ⟨c, d⟩ <;> simp [a, c] <;> omega

theorem receive_keys (k : Kx) (now rto : Nat) (p : Pkt) (h : KeysOk k) :
    KeysOk (receive k now rto p).1 ∧ k.enc ≤ (receive k now rto p).1.enc ∧ (receive k now rto p).1.epochSeq = k.epochSeq ∧
      (receive k now rto p).1.sendSeq = k.sendSeq ∧ (receive k now rto p).1.multipath = k.multipath ∧
      ((receive k now rto p).1.enc = k.enc → (receive k now rto p).1.enc = 0 → (receive k now rto p).1.guard = k.guard) := by
  have key : KeysOk (decryptWith k now rto p).1 ∧ k.enc ≤ (decryptWith k now rto p).1.enc ∧
      (decryptWith k now rto p).1.epochSeq = k.epochSeq ∧
      (decryptWith k now rto p).1.sendSeq = k.sendSeq ∧ (decryptWith k now rto p).1.multipath = k.multipath ∧
      ((decryptWith k now rto p).1.enc = k.enc → (decryptWith k now rto p).1.enc = 0 →
        (decryptWith k now rto p).1.guard = k.guard) := by
    have h0 := h
    obtain ⟨a1, a2, a3, a4, a5⟩ := h
    unfold decryptWith
    dsimp only
    split
    · split
      · dsimp only
        split
        · exact ⟨⟨a1, a2, a3, a4, a5⟩, Nat.le_refl _, rfl, rfl, rfl, fun _ _ => rfl⟩
        · exact ⟨h0, Nat.le_refl _, rfl, rfl, rfl, fun _ _ => rfl⟩
      · exact ⟨h0, Nat.le_refl _, rfl, rfl, rfl, fun _ _ => rfl⟩
    · split
      · split
        · exact ⟨h0, Nat.le_refl _, rfl, rfl, rfl, fun _ _ => rfl⟩
        · split <;> exact ⟨h0, Nat.le_refl _, rfl, rfl, rfl, fun _ _ => rfl⟩
      · unfold computeNew rotate applyDec applyEnc
        rcases a4 with ⟨a, b⟩ | ⟨a, b⟩ <;> rcases a5 with ⟨c, d⟩ | ⟨c, d⟩ <;> simp [a, c] <;> (try split) <;>
          first
          | (exfalso; omega)
          | (refine ⟨⟨?_, ?_, ?_, ?_, ?_⟩, ?_⟩ <;> simp_all <;> omega)
  obtain ⟨⟨b1, b2, b3, b4, b5⟩, hr⟩ := key
  unfold receive
  dsimp only
  split
  · exact ⟨⟨b1, b2, b3, b4, b5⟩, hr⟩
  · exact ⟨⟨b1, b2, b3, b4, b5⟩, hr⟩

theorem skip_keys {s : Kl} {path : Nat} (h : KeysOk s.k) : KeysOk (skipNumber s path).k := by
  obtain ⟨a1, a2, a3, a4, a5⟩ := h
  exact ⟨a1, a2, a3, a4, a5⟩

theorem emit_keys {s : Kl} {path : Nat} (h : KeysOk s.k) : KeysOk (emit s path).1.k := by
  obtain ⟨a1, a2, a3, a4, a5⟩ := h
  exact ⟨a1, a2, a3, a4, a5⟩

theorem upd_le (f : Nat → Nat) (c : Nat) : f 0 ≤ upd f c (f c + 1) 0 ∧ upd f c (f c + 1) 0 ≤ f 0 + 1 := by
  unfold upd
  split
  · rename_i h; subst h; omega
  · omega

/-- What the start of a key update may do. -/
theorem auto_cases (s : Kl) (now : Nat) (h : KeysOk s.k) :
    ((autoRotate s now) = s ∧ (s.k.epochSeq + s.limit < s.nbSent → s.nbSent < 18446744073709551616 → s.k.guard < now →
        startRotation s.k = none)) ∨
      (KeysOk (autoRotate s now).k ∧ (autoRotate s now).k.enc = s.k.enc + 1 ∧ (autoRotate s now).k.epochSeq = s.k.sendSeq 0 ∧
        (autoRotate s now).k.sendSeq = s.k.sendSeq ∧ (autoRotate s now).k.multipath = s.k.multipath ∧
        (autoRotate s now).nbSent = s.nbSent ∧ (autoRotate s now).limit = s.limit ∧
        (s.k.epochSeq ≤ s.nbSent → s.nbSent < 18446744073709551616 → s.k.epochSeq + s.limit < s.nbSent)) := by
  unfold autoRotate
  split
  · rename_i hc
    cases e : startRotation s.k with
    | none => exact .inl ⟨rfl, fun _ _ _ => rfl⟩
    | some k' =>
      obtain ⟨b1, b2, b3, b4, b5⟩ := start_some h e
      refine .inr ⟨b1, b2, b3, b4, b5, rfl, rfl, ?_⟩
      intro h1 h2
      have := hc.1
      unfold u64 at this
      omega
  · rename_i hc
    refine .inl ⟨rfl, fun h1 h2 h3 => absurd ⟨?_, h3⟩ hc⟩
    unfold u64
    omega

theorem count_cons (p : Pkt) (l : List Pkt) (g : Nat) :
    klCount (p :: l) g = (if p.key = some g then 1 else 0) + klCount l g := by
  unfold klCount
  rw [List.filter_cons]
  by_cases h : p.key = some g
  · simp [h]; omega
  · simp [h]

theorem count_emit (s : Kl) (path : Nat) (l : List Pkt) (g : Nat) :
    klCount ((emit s path).2 ++ l) g = (if s.k.enc = g then 1 else 0) + klCount l g := by
  show klCount ((send s.k path).2 :: l) g = _
  rw [count_cons]
  unfold send
  simp

/-- What holds at any time: `d` is what was added to the limit, `m` the number of packets when the key was taken. -/
structure Bounded (d limit m : Nat) (y : KlSys) : Prop where
  keys : KeysOk y.s.k
  lim : y.s.limit = limit
  seq : y.s.k.sendSeq 0 ≤ y.s.nbSent + d
  since : m ≤ y.s.nbSent
  cur : klCount y.sent y.s.k.enc + m ≤ y.s.nbSent
  epoch : y.s.k.epochSeq ≤ m + d
  all : ∀ g, klCount y.sent g ≤ limit + 1 + d
  later : ∀ g, y.s.k.enc < g → klCount y.sent g = 0

theorem Bounded.emit {d limit m path : Nat} {y : KlSys} (h : Bounded d limit m y) (hd : klCount y.sent y.s.k.enc ≤ limit + d) :
    Bounded d limit m ⟨(KeyLimit.emit y.s path).1, (KeyLimit.emit y.s path).2 ++ y.sent⟩ := by
  have hu := upd_le y.s.k.sendSeq (y.s.k.ctx path)
  have hq := h.seq
  have hs := h.since
  have hc := h.cur
  refine ⟨emit_keys h.keys, h.lim, ?_, ?_, ?_, h.epoch, ?_, ?_⟩
  · show upd y.s.k.sendSeq (y.s.k.ctx path) (y.s.k.sendSeq (y.s.k.ctx path) + 1) 0 ≤ y.s.nbSent + 1 + d
    omega
  · show m ≤ y.s.nbSent + 1
    omega
  · show klCount ((KeyLimit.emit y.s path).2 ++ y.sent) y.s.k.enc + m ≤ y.s.nbSent + 1
    rw [count_emit, if_pos rfl]
    omega
  · intro g
    show klCount ((KeyLimit.emit y.s path).2 ++ y.sent) g ≤ _
    rw [count_emit]
    have := h.all g
    split
    · rename_i e; subst e; omega
    · omega
  · intro g hg
    show klCount ((KeyLimit.emit y.s path).2 ++ y.sent) g = 0
    have hg : y.s.k.enc < g := hg
    rw [count_emit, if_neg (by omega), h.later g hg]

theorem Bounded.mono {d d' limit m : Nat} {y : KlSys} (h : Bounded d limit m y) (hd : d ≤ d') : Bounded d' limit m y := by
  obtain ⟨a, b, c, e, f, i, j, k⟩ := h
  exact ⟨a, b, by omega, e, f, by omega, fun g => by have := j g; omega, k⟩

/-- A new key. -/
theorem Bounded.fresh {d limit m : Nat} {y : KlSys} {k' : Kx} (h : Bounded d limit m y) (h1 : KeysOk k') (h2 : y.s.k.enc ≤ k'.enc)
    (h3 : k'.sendSeq = y.s.k.sendSeq) (h4 : k'.epochSeq = y.s.k.epochSeq ∨ (k'.epochSeq = y.s.k.sendSeq 0 ∧ y.s.k.enc < k'.enc)) :
    ∃ m', Bounded d limit m' { y with s := { y.s with k := k' } } := by
  obtain ⟨a, b, c, e, f, i, j, l⟩ := h
  by_cases he : k'.enc = y.s.k.enc
  · refine ⟨m, h1, b, by rw [h3]; exact c, e, by rw [he]; exact f, ?_, j, by rw [he]; exact l⟩
    show k'.epochSeq ≤ m + d
    omega
  · refine ⟨y.s.nbSent, h1, b, by rw [h3]; exact c, Nat.le_refl _, ?_, ?_, j, ?_⟩
    · show klCount y.sent k'.enc + y.s.nbSent ≤ y.s.nbSent
      rw [l _ (by omega)]; omega
    · show k'.epochSeq ≤ y.s.nbSent + d
      omega
    · intro g hg
      have hg : k'.enc < g := hg
      exact l g (by omega)

theorem Bounded.hole {d limit m path : Nat} {y : KlSys} (h : Bounded d limit m y) :
    Bounded (d + 1) limit m { y with s := skipNumber y.s path } := by
  have hu := upd_le y.s.k.sendSeq (y.s.k.ctx path)
  obtain ⟨a, b, c, e, f, i, j, l⟩ := h
  refine ⟨skip_keys a, b, ?_, e, f, ?_, fun g => by have := j g; show klCount y.sent g ≤ _; omega, l⟩
  · show upd y.s.k.sendSeq (y.s.k.ctx path) (y.s.k.sendSeq (y.s.k.ctx path) + 1) 0 ≤ y.s.nbSent + (d + 1)
    omega
  · show y.s.k.epochSeq ≤ m + (d + 1)
    omega

/-- The call which may start a key update, when the other end has answered. -/
theorem Bounded.auto {d limit m now : Nat} {y : KlSys} (h : Bounded d limit m y) (small : y.s.nbSent < 18446744073709551616)
    (ha : y.s.k.epochSeq + y.s.limit < y.s.nbSent → y.s.k.dec = y.s.k.enc ∧ y.s.k.epochSeq ≤ y.s.k.lastRecv ∧ y.s.k.guard < now) :
    ∃ m', Bounded d limit m' { y with s := autoRotate y.s now } ∧
      klCount y.sent (autoRotate y.s now).k.enc ≤ limit + d := by
  rcases auto_cases y.s now h.keys with ⟨e, hn⟩ | ⟨b1, b2, b3, b4, b5, b6, b7, b8⟩
  · rw [e]
    refine ⟨m, h, ?_⟩
    by_cases hx : y.s.k.epochSeq + y.s.limit < y.s.nbSent
    · obtain ⟨c1, c2, c3⟩ := ha hx
      obtain ⟨k', hk⟩ := start_answered h.keys c1 c2
      rw [hn hx small c3] at hk
      exact absurd hk (by simp)
    · have h1 := h.cur
      have h2 := h.epoch
      have h3 := h.lim
      omega
  · obtain ⟨m', hm⟩ := h.fresh b1 (by omega) b4 (.inr ⟨b3, by omega⟩)
    refine ⟨m', ?_, ?_⟩
    · have e : autoRotate y.s now = { y.s with k := (autoRotate y.s now).k } := by
        cases hq : autoRotate y.s now with
        | mk a b c => rw [hq] at b6 b7; simp only at b6 b7; subst b6 b7; rfl
      rw [e]
      exact hm
    · rw [h.later _ (by omega)]; omega

theorem prepare_nb (s : Kl) (now path : Nat) (hole sends : Bool) : (prepare s now path hole sends).1.nbSent ≤ s.nbSent + 1 := by
  have ht : ∀ s : Kl, (autoRotate s now).nbSent = s.nbSent := by
    intro s; unfold autoRotate; split
    · split <;> rfl
    · rfl
  unfold prepare
  cases hole <;> cases sends <;> simp [emit, ht, skipNumber]

theorem bounded_run (limit : Nat) : ∀ (es : List KlEvent) (y : KlSys) (d m : Nat), Bounded d limit m y → KlAnswered y es →
    y.s.nbSent + es.length < 18446744073709551616 → ∃ m', Bounded (d + klExtra es) limit m' (klRun y es) := by
  intro es
  induction es with
  | nil => intro y d m h _ _; exact ⟨m, h⟩
  | cons e es ih =>
    intro y d m h ha hs
    obtain ⟨ha1, ha2⟩ := ha
    simp only [List.length_cons] at hs
    show ∃ m', Bounded (d + klExtra (e :: es)) limit m' (klRun (klStep y e) es)
    cases e with
    | prepare now path hole sends =>
      have key : ∀ (d : Nat) (y' : KlSys), Bounded d limit m y' → y'.s.nbSent = y.s.nbSent →
          (y'.s.k.epochSeq + y'.s.limit < y'.s.nbSent → y'.s.k.dec = y'.s.k.enc ∧ y'.s.k.epochSeq ≤ y'.s.k.lastRecv ∧ y'.s.k.guard < now) →
          ∃ m', Bounded d limit m' ⟨(if sends then emit (autoRotate y'.s now) path else (autoRotate y'.s now, [])).1,
            (if sends then emit (autoRotate y'.s now) path else (autoRotate y'.s now, [])).2 ++ y'.sent⟩ := by
        intro d y' hb hn hx
        obtain ⟨m', hm, hc⟩ := hb.auto (by omega) hx
        refine ⟨m', ?_⟩
        cases sends
        · exact hm
        · exact hm.emit hc
      have hnb : (klStep y (.prepare now path hole sends)).s.nbSent ≤ y.s.nbSent + 1 :=
        prepare_nb y.s now path _ sends
      cases hole
      · obtain ⟨m', hm⟩ := key d y h rfl ha1
        exact ih _ d m' hm ha2 (by omega)
      · obtain ⟨m', hm⟩ := key (d + 1) _ h.hole rfl ha1
        obtain ⟨m'', hm''⟩ := ih (klStep y (.prepare now path true sends)) (d + 1) m' hm ha2 (by omega)
        refine ⟨m'', hm''.mono ?_⟩
        simp only [klExtra]; omega
    | control path =>
      have hb : Bounded (d + 1) limit m (klStep y (.control path)) := by
        refine (h.mono (Nat.le_succ d)).emit ?_
        have := h.all y.s.k.enc
        omega
      have hnb : (klStep y (.control path)).s.nbSent = y.s.nbSent + 1 := rfl
      obtain ⟨m'', hm''⟩ := ih _ (d + 1) m hb ha2 (by omega)
      refine ⟨m'', hm''.mono ?_⟩
      simp only [klExtra]; omega
    | receive now rto p =>
      obtain ⟨b1, b2, b3, b4, b5, _⟩ := receive_keys y.s.k now rto p h.keys
      obtain ⟨m', hm⟩ := h.fresh b1 b2 b4 (.inl b3)
      have hnb : (klStep y (.receive now rto p)).s.nbSent = y.s.nbSent := rfl
      exact ih _ d m' hm ha2 (by omega)
    | ask =>
      have hb : ∃ m', Bounded d limit m' (klStep y .ask) ∧ (klStep y .ask).s.nbSent = y.s.nbSent := by
        unfold klStep
        cases e : startRotation y.s.k with
        | none => exact ⟨m, h, rfl⟩
        | some k' =>
          obtain ⟨b1, b2, b3, b4, b5⟩ := start_some h.keys e
          obtain ⟨m', hm⟩ := h.fresh b1 (by omega) b4 (.inr ⟨b3, by omega⟩)
          exact ⟨m', hm, rfl⟩
      obtain ⟨m', hm, hnb⟩ := hb
      exact ih _ d m' hm ha2 (by omega)

/-- What holds while the first key is used. -/
structure FirstKey (n limit c : Nat) (y : KlSys) : Prop where
  keys : KeysOk y.s.k
  lim : y.s.limit = limit
  since : n ≤ y.s.nbSent
  all : klCount y.sent 0 ≤ limit + 1 - n + c
  cur : y.s.k.enc = 0 → klCount y.sent 0 + n ≤ y.s.nbSent ∧ y.s.k.epochSeq = 0 ∧ y.s.k.guard = 0

theorem FirstKey.emit {n limit c path : Nat} {y : KlSys} (h : FirstKey n limit c y)
    (hd : y.s.k.enc = 0 → klCount y.sent 0 < limit + 1 - n + c) :
    FirstKey n limit c ⟨(KeyLimit.emit y.s path).1, (KeyLimit.emit y.s path).2 ++ y.sent⟩ := by
  obtain ⟨a, b, d, e, f⟩ := h
  refine ⟨emit_keys a, b, ?_, ?_, ?_⟩
  · show n ≤ y.s.nbSent + 1
    omega
  · show klCount ((KeyLimit.emit y.s path).2 ++ y.sent) 0 ≤ _
    rw [count_emit]
    split
    · rename_i he
      have := hd he
      omega
    · omega
  · intro he
    have he : y.s.k.enc = 0 := he
    obtain ⟨f1, f2, f3⟩ := f he
    refine ⟨?_, f2, f3⟩
    show klCount ((KeyLimit.emit y.s path).2 ++ y.sent) 0 + n ≤ y.s.nbSent + 1
    rw [count_emit, if_pos he]
    omega

theorem FirstKey.fresh {n limit c : Nat} {y : KlSys} {k' : Kx} (h : FirstKey n limit c y) (h1 : KeysOk k') (h2 : y.s.k.enc ≤ k'.enc)
    (h3 : k'.enc = 0 → y.s.k.enc = k'.enc → k'.epochSeq = y.s.k.epochSeq ∧ k'.guard = y.s.k.guard) :
    FirstKey n limit c { y with s := { y.s with k := k' } } := by
  obtain ⟨a, b, d, e, f⟩ := h
  refine ⟨h1, b, d, e, ?_⟩
  intro he
  have he : k'.enc = 0 := he
  obtain ⟨f1, f2, f3⟩ := f (by omega)
  obtain ⟨g1, g2⟩ := h3 he (by omega)
  exact ⟨f1, g1.trans f2, g2.trans f3⟩

theorem FirstKey.auto {n limit c now : Nat} {y : KlSys} (h : FirstKey n limit c y) (small : y.s.nbSent < 18446744073709551616)
    (ht : 0 < now) : FirstKey n limit c { y with s := autoRotate y.s now } ∧
      ((autoRotate y.s now).k.enc = 0 → klCount y.sent 0 < limit + 1 - n + c) := by
  rcases auto_cases y.s now h.keys with ⟨e, hn⟩ | ⟨b1, b2, b3, b4, b5, b6, b7, b8⟩
  · rw [e]
    refine ⟨h, ?_⟩
    intro he
    obtain ⟨f1, f2, f3⟩ := h.cur he
    have h3 := h.lim
    by_cases hx : y.s.k.epochSeq + y.s.limit < y.s.nbSent
    · have := h.keys.le
      obtain ⟨k', hk⟩ := start_answered h.keys (by omega) (by omega)
      rw [hn hx small (by omega)] at hk
      exact absurd hk (by simp)
    · omega
  · refine ⟨?_, fun he => by omega⟩
    have e : autoRotate y.s now = { y.s with k := (autoRotate y.s now).k } := by
      cases hq : autoRotate y.s now with
      | mk a b c => rw [hq] at b6 b7; simp only at b6 b7; subst b6 b7; rfl
    rw [e]
    exact h.fresh b1 (by omega) (fun he => by omega)

theorem first_run (n limit : Nat) : ∀ (es : List KlEvent) (y : KlSys) (c : Nat), FirstKey n limit c y → (∀ e ∈ es, klTimed e) →
    y.s.nbSent + es.length < 18446744073709551616 → FirstKey n limit (c + klControls es) (klRun y es) := by
  intro es
  induction es with
  | nil => intro y c h _ _; exact h
  | cons e es ih =>
    intro y c h ht hs
    have ht2 : ∀ e ∈ es, klTimed e := fun x hx => ht x (List.mem_cons_of_mem _ hx)
    have ht1 := ht e List.mem_cons_self
    simp only [List.length_cons] at hs
    show FirstKey n limit (c + klControls (e :: es)) (klRun (klStep y e) es)
    cases e with
    | prepare now path hole sends =>
      have ht1 : 0 < now := ht1
      have hnb : (klStep y (.prepare now path hole sends)).s.nbSent ≤ y.s.nbSent + 1 :=
        prepare_nb y.s now path _ sends
      have key : ∀ y' : KlSys, FirstKey n limit c y' → y'.s.nbSent = y.s.nbSent →
          FirstKey n limit c ⟨(if sends then emit (autoRotate y'.s now) path else (autoRotate y'.s now, [])).1,
            (if sends then emit (autoRotate y'.s now) path else (autoRotate y'.s now, [])).2 ++ y'.sent⟩ := by
        intro y' hb hn
        obtain ⟨hm, hc⟩ := hb.auto (by omega) ht1
        cases sends
        · exact hm
        · exact hm.emit hc
      refine ih (klStep y (.prepare now path hole sends)) c ?_ ht2 (by omega)
      cases hole
      · exact key y h rfl
      · exact key { y with s := skipNumber y.s path } ⟨skip_keys h.keys, h.lim, h.since, h.all, h.cur⟩ rfl
    | control path =>
      have hb : FirstKey n limit (c + 1) (klStep y (.control path)) := by
        have h' : FirstKey n limit (c + 1) y := by
          obtain ⟨a, b, d, e, f⟩ := h
          exact ⟨a, b, d, by omega, f⟩
        refine h'.emit ?_
        intro _
        have := h.all
        omega
      have hnb : (klStep y (.control path)).s.nbSent = y.s.nbSent + 1 := rfl
      have := ih _ (c + 1) hb ht2 (by omega)
      simp only [klControls]
      rw [Nat.add_comm (klControls es) 1, ← Nat.add_assoc]
      exact this
    | receive now rto p =>
      obtain ⟨b1, b2, b3, b4, b5, b6⟩ := receive_keys y.s.k now rto p h.keys
      have hnb : (klStep y (.receive now rto p)).s.nbSent = y.s.nbSent := rfl
      exact ih _ c (h.fresh b1 b2 (fun h1 h2 => ⟨b3, b6 h2.symm h1⟩)) ht2 (by omega)
    | ask =>
      have hb : FirstKey n limit c (klStep y .ask) ∧ (klStep y .ask).s.nbSent = y.s.nbSent := by
        unfold klStep
        cases e : startRotation y.s.k with
        | none => exact ⟨h, rfl⟩
        | some k' =>
          obtain ⟨b1, b2, b3, b4, b5⟩ := start_some h.keys e
          exact ⟨h.fresh b1 (by omega) (fun he => by omega), rfl⟩
      exact ih _ c hb.1 ht2 (by omega)

/-- What holds when only the limit leads to key updates: `m` is the number of packets when the key was taken. -/
structure Long (first n limit m : Nat) (y : KlSys) : Prop where
  single : y.s.k.multipath = false
  keys : KeysOk y.s.k
  lim : y.s.limit = limit
  seq : y.s.k.sendSeq 0 + n = y.s.nbSent + first
  cur : klCount y.sent y.s.k.enc + m = y.s.nbSent
  epoch : m ≤ y.s.k.epochSeq + n
  low : y.s.k.epochSeq ≤ y.s.nbSent
  all : ∀ g, g < y.s.k.enc → limit + 1 ≤ klCount y.sent g + n
  later : ∀ g, y.s.k.enc < g → klCount y.sent g = 0

theorem Long.emit {first n limit m path : Nat} {y : KlSys} (h : Long first n limit m y) :
    Long first n limit m ⟨(KeyLimit.emit y.s path).1, (KeyLimit.emit y.s path).2 ++ y.sent⟩ := by
  obtain ⟨a1, a2, a3, a4, a5, a6, a7, a8, a9⟩ := h
  refine ⟨a1, emit_keys a2, a3, ?_, ?_, a6, ?_, ?_, ?_⟩
  · have hc : y.s.k.ctx path = 0 := by unfold Kx.ctx; rw [a1]; rfl
    show upd y.s.k.sendSeq (y.s.k.ctx path) (y.s.k.sendSeq (y.s.k.ctx path) + 1) 0 + n = y.s.nbSent + 1 + first
    rw [hc]
    unfold upd
    rw [if_pos rfl]
    omega
  · show klCount ((KeyLimit.emit y.s path).2 ++ y.sent) y.s.k.enc + m = y.s.nbSent + 1
    rw [count_emit, if_pos rfl]
    omega
  · show y.s.k.epochSeq ≤ y.s.nbSent + 1
    omega
  · intro g hg
    have hg : g < y.s.k.enc := hg
    show _ ≤ klCount ((KeyLimit.emit y.s path).2 ++ y.sent) g + n
    rw [count_emit, if_neg (by omega)]
    have := a8 g hg
    omega
  · intro g hg
    have hg : y.s.k.enc < g := hg
    show klCount ((KeyLimit.emit y.s path).2 ++ y.sent) g = 0
    rw [count_emit, if_neg (by omega), a9 g hg]

theorem Long.auto {first n limit m now : Nat} {y : KlSys} (h : Long first n limit m y) (hf : first ≤ n)
    (small : y.s.nbSent < 18446744073709551616) : ∃ m', Long first n limit m' { y with s := autoRotate y.s now } := by
  obtain ⟨a1, a2, a3, a4, a5, a6, a7, a8, a9⟩ := h
  rcases auto_cases y.s now a2 with ⟨e, hn⟩ | ⟨b1, b2, b3, b4, b5, b6, b7, b8⟩
  · rw [e]
    exact ⟨m, a1, a2, a3, a4, a5, a6, a7, a8, a9⟩
  · have b8 := b8 a7 small
    refine ⟨y.s.nbSent, b5.trans a1, b1, b7.trans a3, ?_, ?_, ?_, ?_, ?_, ?_⟩
    · simp only [b4, b6]; exact a4
    · simp only [b6]; rw [a9 _ (by omega)]; omega
    · simp only [b3]; omega
    · simp only [b3, b6]; omega
    · intro g hg
      simp only [b2] at hg ⊢
      by_cases hx : g < y.s.k.enc
      · exact a8 g hx
      · have : g = y.s.k.enc := by omega
        subst this
        omega
    · intro g hg
      simp only [b2] at hg ⊢
      exact a9 g (by omega)

theorem long_run (first n limit : Nat) (hf : first ≤ n) : ∀ (es : List KlEvent) (y : KlSys) (m : Nat), Long first n limit m y →
    KlQuiet y es → y.s.nbSent + es.length < 18446744073709551616 → ∃ m', Long first n limit m' (klRun y es) := by
  intro es
  induction es with
  | nil => intro y m h _ _; exact ⟨m, h⟩
  | cons e es ih =>
    intro y m h hq hs
    obtain ⟨hq1, hq2⟩ := hq
    simp only [List.length_cons] at hs
    show ∃ m', Long first n limit m' (klRun (klStep y e) es)
    cases e with
    | prepare now path hole sends =>
      have hq1 : hole = false := hq1
      subst hq1
      obtain ⟨m', hm⟩ := h.auto (now := now) hf (by omega)
      have hnb : (klStep y (.prepare now path false sends)).s.nbSent ≤ y.s.nbSent + 1 :=
        prepare_nb y.s now path _ sends
      refine ih (klStep y (.prepare now path false sends)) m' ?_ hq2 (by omega)
      cases sends
      · exact hm
      · exact hm.emit
    | control path =>
      have hnb : (klStep y (.control path)).s.nbSent = y.s.nbSent + 1 := rfl
      exact ih _ m h.emit hq2 (by omega)
    | receive now rto p =>
      obtain ⟨b1, b2, b3, b4, b5, b6⟩ := receive_keys y.s.k now rto p h.keys
      have hnb : (klStep y (.receive now rto p)).s.nbSent = y.s.nbSent := rfl
      have he : (receive y.s.k now rto p).1.enc = y.s.k.enc := hq1
      obtain ⟨a1, a2, a3, a4, a5, a6, a7, a8, a9⟩ := h
      refine ih (klStep y (.receive now rto p)) m ⟨b5.trans a1, b1, a3, ?_, ?_, ?_, ?_, ?_, ?_⟩ hq2 (by omega)
      · simp only [klStep, b4]; exact a4
      · simp only [klStep, he]; exact a5
      · simp only [klStep, b3]; exact a6
      · simp only [klStep, b3]; exact a7
      · simp only [klStep, he]; exact a8
      · simp only [klStep, he]; exact a9
    | ask => exact absurd hq1 (by simp)

theorem start_keys (multipath : Bool) (first n limit : Nat) : KeysOk (klStart multipath first n limit).s.k :=
  ⟨rfl, rfl, Nat.le_refl _, .inl ⟨rfl, rfl⟩, .inl ⟨rfl, rfl⟩⟩

end Picoquic.KeyLimit
