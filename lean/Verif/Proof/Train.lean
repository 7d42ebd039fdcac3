import Verif.Spec.Train
/-!
# Proofs about trains of datagrams
-/

namespace Picoquic.Train
open Picoquic.Spec

/-- One turn of the inner loop. -/
theorem makeDatagram_step (c : Call σ) (first fuel : Nat) (s : σ) (size : Nat) :
    makeDatagram c first (fuel + 1) s size =
      if 0 < size ∧ c.mtu < size + MIN_SEGMENT_SIZE then ⟨s, size, true, []⟩
      else
        if (c.prepare s (if 0 < size then c.mtu - size else first)).2.ok then
          if (c.prepare s (if 0 < size then c.mtu - size else first)).2.packetLength = 0 ∨
              (c.prepare s (if 0 < size then c.mtu - size else first)).2.oneRtt ∨
              (c.prepare s (if 0 < size then c.mtu - size else first)).2.length = 0 ∨ c.dontCoalesce then
            ⟨(c.prepare s (if 0 < size then c.mtu - size else first)).1,
              size + (c.prepare s (if 0 < size then c.mtu - size else first)).2.length, true,
              [(size, if 0 < size then c.mtu - size else first)]⟩
          else
            { makeDatagram c first fuel (c.prepare s (if 0 < size then c.mtu - size else first)).1
                (size + (c.prepare s (if 0 < size then c.mtu - size else first)).2.length) with
              rooms := (size, if 0 < size then c.mtu - size else first) ::
                (makeDatagram c first fuel (c.prepare s (if 0 < size then c.mtu - size else first)).1
                  (size + (c.prepare s (if 0 < size then c.mtu - size else first)).2.length)).rooms }
        else ⟨(c.prepare s (if 0 < size then c.mtu - size else first)).1, size, decide (size ≠ 0),
          [(size, if 0 < size then c.mtu - size else first)]⟩ := rfl

/-- What a started datagram becomes. -/
theorem makeDatagram_started {c : Call σ} (hf : FitsRoom c) (first : Nat) :
    ∀ (fuel : Nat) (s : σ) (size : Nat), 0 < size →
      size ≤ (makeDatagram c first fuel s size).size ∧
      ((makeDatagram c first fuel s size).size ≤ size ∨ (makeDatagram c first fuel s size).size ≤ c.mtu) ∧
      (∀ r ∈ (makeDatagram c first fuel s size).rooms, r.1 + r.2 ≤ c.mtu) ∧
      (makeDatagram c first fuel s size).ok = true := by
  intro fuel
  induction fuel with
  | zero => intro s size h; exact ⟨Nat.le_refl _, .inl (Nat.le_refl _), (by rintro r ⟨⟩), rfl⟩
  | succ fuel ih =>
    intro s size h
    rw [makeDatagram_step]
    by_cases h1 : 0 < size ∧ c.mtu < size + MIN_SEGMENT_SIZE
    · rw [if_pos h1]; exact ⟨Nat.le_refl _, .inl (Nat.le_refl _), (by rintro r ⟨⟩), rfl⟩
    · rw [if_neg h1, if_pos h]
      have h256 : size + 256 ≤ c.mtu := by unfold MIN_SEGMENT_SIZE at h1; omega
      have hl := hf s (c.mtu - size)
      generalize c.prepare s (c.mtu - size) = p at *
      by_cases h2 : p.2.ok = true
      · rw [if_pos h2]
        by_cases h3 : p.2.packetLength = 0 ∨ p.2.oneRtt = true ∨ p.2.length = 0 ∨ c.dontCoalesce = true
        · rw [if_pos h3]
          refine ⟨by dsimp only; omega, by dsimp only; omega, ?_, rfl⟩
          intro r hr
          simp only [List.mem_singleton] at hr
          subst hr; dsimp only; omega
        · rw [if_neg h3]
          obtain ⟨i1, i2, i3, i4⟩ := ih p.1 (size + p.2.length) (by omega)
          refine ⟨by dsimp only; omega, by dsimp only; omega, ?_, i4⟩
          intro r hr
          rcases List.mem_cons.1 hr with rfl | hr
          · dsimp only; omega
          · exact i3 r hr
      · rw [if_neg h2]
        refine ⟨Nat.le_refl _, .inl (Nat.le_refl _), ?_, by simp; omega⟩
        intro r hr
        simp only [List.mem_singleton] at hr
        subst hr; dsimp only; omega

/-- What a datagram becomes. -/
theorem makeDatagram_new {c : Call σ} (hf : FitsRoom c) (first : Nat) (fuel : Nat) (s : σ) :
    ((makeDatagram c first fuel s 0).size ≤ first ∨ (makeDatagram c first fuel s 0).size ≤ c.mtu) ∧
    (∀ r ∈ (makeDatagram c first fuel s 0).rooms, r = (0, first) ∨ r.1 + r.2 ≤ c.mtu) ∧
    ((makeDatagram c first fuel s 0).ok = false → (makeDatagram c first fuel s 0).size = 0) ∧
    (NoProbe c → (makeDatagram c first fuel s 0).size ≤ c.mtu) ∧
    (OnlyOneRtt c → (makeDatagram c first fuel s 0).size ≤ first ∧
      ∀ r ∈ (makeDatagram c first fuel s 0).rooms, r = (0, first)) ∧
    (first = 0 → (makeDatagram c first fuel s 0).size = 0) := by
  cases fuel with
  | zero =>
    exact ⟨.inl (Nat.zero_le _), (by rintro r ⟨⟩), (by rintro ⟨⟩), fun _ => Nat.zero_le _, fun _ => ⟨Nat.zero_le _, by rintro r ⟨⟩⟩,
      fun _ => rfl⟩
  | succ fuel =>
    rw [makeDatagram_step, if_neg (by omega)]
    rw [if_neg (Nat.lt_irrefl 0)]
    have hl := hf s first
    have hn : NoProbe c → (c.prepare s first).2.length ≤ c.mtu := fun h => h s first
    have ho : OnlyOneRtt c → (c.prepare s first).2.oneRtt = true := fun h => h s first
    generalize c.prepare s first = p at *
    by_cases h2 : p.2.ok = true
    · rw [if_pos h2]
      by_cases h3 : p.2.packetLength = 0 ∨ p.2.oneRtt = true ∨ p.2.length = 0 ∨ c.dontCoalesce = true
      · rw [if_pos h3]
        dsimp only
        rw [Nat.zero_add]
        refine ⟨.inl hl, ?_, (by rintro ⟨⟩), hn, fun _ => ⟨hl, ?_⟩, fun h => by omega⟩ <;>
        · intro r hr
          simp only [List.mem_singleton] at hr
          simp [hr]
      · rw [if_neg h3]
        dsimp only
        rw [Nat.zero_add]
        obtain ⟨i1, i2, i3, i4⟩ := makeDatagram_started hf first fuel p.1 p.2.length (by omega)
        refine ⟨by omega, ?_, ?_, ?_, ?_, ?_⟩
        · intro r hr
          rcases List.mem_cons.1 hr with rfl | hr
          · exact .inl rfl
          · exact .inr (i3 r hr)
        · rw [i4]; rintro ⟨⟩
        · intro h; have := hn h; omega
        · intro h
          exact absurd (.inr (.inl (ho h))) h3
        · intro h; omega
    · rw [if_neg h2]
      refine ⟨.inl (Nat.zero_le _), ?_, fun _ => rfl, fun _ => Nat.zero_le _, fun _ => ⟨Nat.zero_le _, ?_⟩, fun _ => rfl⟩ <;>
      · intro r hr
        simp only [List.mem_singleton] at hr
        simp [hr]

/-- One turn of the outer loop. -/
theorem fill_step (c : Call σ) (fuel : Nat) (s : σ) (len msg : Nat) :
    ∃ first d, d = makeDatagram c first (c.mtu + 2) s 0 ∧
      first = (if c.train ∧ 0 < msg ∧ 0 < len ∧ c.bufferMax - len > msg then msg else c.bufferMax - len) ∧
      fill c (fuel + 1) s len msg =
        (if !c.train then ⟨d.state, [d.size], len + d.size, msg, d.ok, d.rooms.map (fun r => (len + r.1, r.2))⟩
        else if d.size < msg then ⟨d.state, [d.size], len + d.size, msg, d.ok, d.rooms.map (fun r => (len + r.1, r.2))⟩
        else if d.size = msg ∧ len + d.size + msg > c.bufferMax then
          ⟨d.state, [d.size], len + d.size, msg, d.ok, d.rooms.map (fun r => (len + r.1, r.2))⟩
        else if !d.ok then
          ⟨d.state, [d.size], len + d.size, if d.size > msg then d.size else msg, d.ok, d.rooms.map (fun r => (len + r.1, r.2))⟩
        else
          { fill c fuel d.state (len + d.size) (if d.size > msg then d.size else msg) with
            sizes := d.size :: (fill c fuel d.state (len + d.size) (if d.size > msg then d.size else msg)).sizes,
            rooms := d.rooms.map (fun r => (len + r.1, r.2)) ++
              (fill c fuel d.state (len + d.size) (if d.size > msg then d.size else msg)).rooms }) :=
  ⟨_, _, rfl, rfl, rfl⟩

/-- What holds while the buffer is filled: the bytes written and the rooms granted are in the buffer. -/
theorem fill_bounds {c : Call σ} (hf : FitsRoom c)
    (hc : (c.mtu ≤ c.bufferMax ∧ (c.train = true → NoProbe c)) ∨ OnlyOneRtt c) :
    ∀ (fuel : Nat) (s : σ) (len msg : Nat), len ≤ c.bufferMax →
      (OnlyOneRtt c ∨ (msg = c.mtu ∧ len + c.mtu ≤ c.bufferMax)) →
      (fill c fuel s len msg).sendLength ≤ c.bufferMax ∧ ∀ r ∈ (fill c fuel s len msg).rooms, r.1 + r.2 ≤ c.bufferMax := by
  intro fuel
  induction fuel with
  | zero => intro s len msg h _; exact ⟨h, by rintro r ⟨⟩⟩
  | succ fuel ih =>
    intro s len msg hlen hm
    obtain ⟨first, d, hd, hfirst, heq⟩ := fill_step c fuel s len msg
    obtain ⟨d1, d2, d3, d4, d5, d6⟩ := makeDatagram_new hf first (c.mtu + 2) s
    rw [← hd] at d1 d2 d3 d4 d5 d6
    have hfb : first ≤ c.bufferMax - len := by
      rw [hfirst]; split <;> omega
    have hsize : len + d.size ≤ c.bufferMax := by
      rcases hm with h | ⟨_, h⟩
      · have := (d5 h).1; omega
      · omega
    have hrooms : ∀ r ∈ d.rooms.map (fun r => (len + r.1, r.2)), r.1 + r.2 ≤ c.bufferMax := by
      intro r hr
      obtain ⟨q, hq, rfl⟩ := List.mem_map.1 hr
      dsimp only
      rcases hm with h | ⟨_, h⟩
      · rw [(d5 h).2 q hq]; dsimp only; omega
      · rcases d2 q hq with rfl | h'
        · dsimp only; omega
        · omega
    rw [heq]
    by_cases t : c.train = true
    · rw [t]
      simp only [Bool.not_true, Bool.false_eq_true, if_false]
      by_cases h1 : d.size < msg
      · rw [if_pos h1]; exact ⟨hsize, hrooms⟩
      · rw [if_neg h1]
        by_cases h2 : d.size = msg ∧ len + d.size + msg > c.bufferMax
        · rw [if_pos h2]; exact ⟨hsize, hrooms⟩
        · rw [if_neg h2]
          by_cases h3 : (!d.ok) = true
          · rw [if_pos h3]; exact ⟨hsize, hrooms⟩
          · rw [if_neg h3]
            have hm' : OnlyOneRtt c ∨ ((if d.size > msg then d.size else msg) = c.mtu ∧ len + d.size + c.mtu ≤ c.bufferMax) := by
              rcases hc with ⟨_, hn⟩ | h
              · rcases hm with h | ⟨e1, e2⟩
                · exact .inl h
                · right
                  have := d4 (hn t)
                  rw [if_neg (by omega)]
                  exact ⟨e1, by omega⟩
              · exact .inl h
            obtain ⟨i1, i2⟩ := ih d.state (len + d.size) _ hsize hm'
            refine ⟨i1, ?_⟩
            intro r hr
            rcases List.mem_append.1 hr with hr | hr
            · exact hrooms r hr
            · exact i2 r hr
    · rw [show c.train = false by simpa using t]
      simp only [Bool.not_false, if_true]
      exact ⟨hsize, hrooms⟩

theorem cutEvery_fuel (m : Nat) (hm : 0 < m) : ∀ (f g n : Nat), n ≤ f → n ≤ g → cutEvery m f n = cutEvery m g n := by
  intro f
  induction f with
  | zero =>
    intro g n h1 h2
    have : n = 0 := by omega
    subst this
    cases g <;> simp [cutEvery]
  | succ f ih =>
    intro g n h1 h2
    by_cases hn : n = 0
    · subst hn; cases g <;> simp [cutEvery]
    · obtain ⟨g, rfl⟩ : ∃ g', g = g' + 1 := ⟨g - 1, by omega⟩
      unfold cutEvery
      rw [if_neg hn, if_neg hn]
      split
      · rfl
      · rw [ih g (n - m) (by omega) (by omega)]

/-- The datagrams of a train: all have the size which is returned, except the last one, which may be shorter. -/
theorem fill_train {c : Call σ} (hf : FitsRoom c) (ht : c.train = true) :
    ∀ (fuel : Nat) (s : σ) (len msg : Nat), 0 < msg → c.mtu ≤ msg → (len = 0 ∨ 0 < len) →
      ∃ total, (fill c fuel s len msg).sendLength = len + total ∧ msg ≤ (fill c fuel s len msg).msgSize ∧
        (0 < len → (fill c fuel s len msg).msgSize = msg) ∧
        ∀ f, total ≤ f → (fill c fuel s len msg).sizes.filter (· ≠ 0) = cutEvery (fill c fuel s len msg).msgSize f total := by
  intro fuel
  induction fuel with
  | zero =>
    intro s len msg h0 _ _
    refine ⟨0, rfl, Nat.le_refl _, fun _ => rfl, ?_⟩
    intro f _
    cases f <;> simp [cutEvery, fill]
  | succ fuel ih =>
    intro s len msg h0 hmtu _
    obtain ⟨first, d, hd, hfirst, heq⟩ := fill_step c fuel s len msg
    obtain ⟨d1, d2, d3, d4, d5, d6⟩ := makeDatagram_new hf first (c.mtu + 2) s
    rw [← hd] at d1 d2 d3 d4 d5 d6
    have hle : 0 < len → d.size ≤ msg := by
      intro hl
      have : first ≤ msg := by
        rw [hfirst]
        split
        · exact Nat.le_refl _
        · rename_i hn
          have : ¬(c.bufferMax - len > msg) := fun h => hn ⟨ht, h0, hl, h⟩
          omega
      omega
    have hsingle : ∀ m, d.size ≤ m → ∀ f, d.size ≤ f → [d.size].filter (· ≠ 0) = cutEvery m f d.size := by
      intro m hm f hfu
      by_cases hz : d.size = 0
      · rw [hz]; cases f <;> simp [cutEvery]
      · obtain ⟨f, rfl⟩ : ∃ f', f = f' + 1 := ⟨f - 1, by omega⟩
        unfold cutEvery
        rw [if_neg hz, if_pos hm]
        simp [hz]
    rw [heq, ht]
    simp only [Bool.not_true, Bool.false_eq_true, if_false]
    by_cases h1 : d.size < msg
    · rw [if_pos h1]
      exact ⟨d.size, rfl, Nat.le_refl _, fun _ => rfl, hsingle msg (by omega)⟩
    · rw [if_neg h1]
      by_cases h2 : d.size = msg ∧ len + d.size + msg > c.bufferMax
      · rw [if_pos h2]
        exact ⟨d.size, rfl, Nat.le_refl _, fun _ => rfl, hsingle msg (by omega)⟩
      · rw [if_neg h2]
        have hok : d.ok = true := by
          cases h : d.ok with
          | true => rfl
          | false => have := d3 h; omega
        rw [hok]
        simp only [Bool.not_true, Bool.false_eq_true, if_false]
        have hsame : (if d.size > msg then d.size else msg) = d.size := by
          by_cases h : d.size > msg
          · rw [if_pos h]
          · rw [if_neg h]; omega
        rw [hsame]
        obtain ⟨tot, i1, i2, i3, i4⟩ := ih d.state (len + d.size) d.size (by omega) (by omega) (.inr (by omega))
        have i3 := i3 (by omega)
        refine ⟨d.size + tot, ?_, ?_, ?_, ?_⟩
        · omega
        · omega
        · intro hl
          have := hle hl
          omega
        · intro f hfu
          obtain ⟨f, rfl⟩ : ∃ f', f = f' + 1 := ⟨f - 1, by omega⟩
          have hz : d.size ≠ 0 := by omega
          rw [List.filter_cons_of_pos (by simp [hz])]
          unfold cutEvery
          rw [if_neg (by omega), i3]
          have i4 := i4 f (by omega)
          rw [i3] at i4
          by_cases htot : tot = 0
          · subst htot
            rw [if_pos (by omega), i4]
            cases f <;> simp [cutEvery]
          · rw [if_neg (by omega), i4, Nat.add_sub_cancel_left]

/-- The bound on the turns of the inner loop has no effect. -/
theorem makeDatagram_fuel (c : Call σ) (first : Nat) :
    ∀ (f g : Nat) (s : σ) (size : Nat), 0 < size → 1 ≤ f → 1 ≤ g → c.mtu + 1 ≤ f + size → c.mtu + 1 ≤ g + size →
      makeDatagram c first f s size = makeDatagram c first g s size := by
  intro f
  induction f with
  | zero => intro g s size _ h; omega
  | succ f ih =>
    intro g s size h0 _ hg hf' hg'
    obtain ⟨g, rfl⟩ : ∃ g', g = g' + 1 := ⟨g - 1, by omega⟩
    rw [makeDatagram_step, makeDatagram_step]
    by_cases h1 : 0 < size ∧ c.mtu < size + MIN_SEGMENT_SIZE
    · rw [if_pos h1, if_pos h1]
    · rw [if_neg h1, if_neg h1, if_pos h0]
      unfold MIN_SEGMENT_SIZE at h1
      generalize c.prepare s (c.mtu - size) = p at *
      by_cases h2 : p.2.ok = true
      · rw [if_pos h2, if_pos h2]
        by_cases h3 : p.2.packetLength = 0 ∨ p.2.oneRtt = true ∨ p.2.length = 0 ∨ c.dontCoalesce = true
        · rw [if_pos h3, if_pos h3]
        · rw [if_neg h3, if_neg h3]
          rw [ih g p.1 (size + p.2.length) (by omega) (by omega) (by omega) (by omega) (by omega)]
      · rw [if_neg h2, if_neg h2]

theorem makeDatagram_fuel0 (c : Call σ) (first f g : Nat) (s : σ) (hf : c.mtu + 2 ≤ f) (hg : c.mtu + 2 ≤ g) :
    makeDatagram c first f s 0 = makeDatagram c first g s 0 := by
  obtain ⟨f, rfl⟩ : ∃ f', f = f' + 1 := ⟨f - 1, by omega⟩
  obtain ⟨g, rfl⟩ : ∃ g', g = g' + 1 := ⟨g - 1, by omega⟩
  have hz : ¬(0 < 0 ∧ c.mtu < 0 + MIN_SEGMENT_SIZE) := fun h => Nat.lt_irrefl 0 h.1
  rw [makeDatagram_step, makeDatagram_step, if_neg hz, if_neg hz, if_neg (Nat.lt_irrefl 0)]
  generalize c.prepare s first = p at *
  by_cases h2 : p.2.ok = true
  · rw [if_pos h2, if_pos h2]
    by_cases h3 : p.2.packetLength = 0 ∨ p.2.oneRtt = true ∨ p.2.length = 0 ∨ c.dontCoalesce = true
    · rw [if_pos h3, if_pos h3]
    · rw [if_neg h3, if_neg h3]
      rw [makeDatagram_fuel c first f g p.1 (0 + p.2.length) (by omega) (by omega) (by omega) (by omega) (by omega)]
  · rw [if_neg h2, if_neg h2]

/-- The bound on the turns of the outer loop has no effect. -/
theorem fill_fuel {c : Call σ} (hfit : FitsRoom c) :
    ∀ (f g : Nat) (s : σ) (len msg : Nat), 0 < msg → 1 ≤ f → 1 ≤ g → c.bufferMax + 1 ≤ f + len → c.bufferMax + 1 ≤ g + len →
      fill c f s len msg = fill c g s len msg := by
  intro f
  induction f with
  | zero => intro g s len msg _ h; omega
  | succ f ih =>
    intro g s len msg h0 _ hg hf' hg'
    obtain ⟨g, rfl⟩ : ∃ g', g = g' + 1 := ⟨g - 1, by omega⟩
    obtain ⟨first, d, hd, hfirst, heq⟩ := fill_step c f s len msg
    obtain ⟨first', d', hd', hfirst', heq'⟩ := fill_step c g s len msg
    have e1 : first' = first := by rw [hfirst, hfirst']
    subst e1
    have e2 : d' = d := by rw [hd, hd']
    subst e2
    obtain ⟨-, -, -, -, -, d6⟩ := makeDatagram_new hfit first' (c.mtu + 2) s
    rw [← hd] at d6
    rw [heq, heq']
    by_cases t : (!c.train) = true
    · rw [if_pos t, if_pos t]
    · rw [if_neg t, if_neg t]
      by_cases h1 : d'.size < msg
      · rw [if_pos h1, if_pos h1]
      · rw [if_neg h1, if_neg h1]
        have hfz : first' ≠ 0 := fun h => by have := d6 h; omega
        have hlen : len < c.bufferMax := by
          have : first' ≤ c.bufferMax - len := by
            rw [hfirst]; split <;> omega
          omega
        have : 0 < (if d'.size > msg then d'.size else msg) := by split <;> omega
        rw [ih g d'.state (len + d'.size) _ this (by omega) (by omega) (by omega) (by omega)]

/-- Every datagram respects the MTU, when no probe is sent. -/
theorem fill_mtu {c : Call σ} (hf : FitsRoom c) (hn : NoProbe c) :
    ∀ (fuel : Nat) (s : σ) (len msg : Nat), ∀ n ∈ (fill c fuel s len msg).sizes, n ≤ c.mtu := by
  intro fuel
  induction fuel with
  | zero => rintro s len msg n ⟨⟩
  | succ fuel ih =>
    intro s len msg
    obtain ⟨first, d, hd, hfirst, heq⟩ := fill_step c fuel s len msg
    obtain ⟨-, -, -, d4, -, -⟩ := makeDatagram_new hf first (c.mtu + 2) s
    have d4 := d4 hn
    rw [← hd] at d4
    rw [heq]
    have h1 : ∀ n ∈ [d.size], n ≤ c.mtu := by
      intro n hn
      rw [List.mem_singleton.1 hn]; exact d4
    split
    · exact h1
    split
    · exact h1
    split
    · exact h1
    split
    · exact h1
    · intro n hn
      rcases List.mem_cons.1 hn with rfl | hn
      · exact d4
      · exact ih _ _ _ n hn

end Picoquic.Train
