import Verif.Model.AckFormat
import Verif.Spec.Ack
import Verif.Proof.IntFormat
import Verif.Proof.Sack
/-!
# Proofs about ACK frames written
-/

namespace Picoquic.Ack
open Picoquic Picoquic.Spec Picoquic.Sack

theorem varintBytes_varint {n : Nat} (h : n < 2 ^ 62) : Varint (varintBytes n) n := by
  obtain ⟨k, hk, _⟩ := varintBytes_isVarint n h
  exact ⟨k, hk⟩

/-- Sequencing of encoders. -/
theorem seq_some {e f : Enc} {room : Nat} {w : Bytes} (h : (e.seq f) room = some w) :
    ∃ a b, e room = some a ∧ f (room - a.length) = some b ∧ w = a ++ b := by
  unfold Enc.seq at h
  cases ha : e room with
  | none => rw [ha] at h; cases h
  | some a =>
    rw [ha] at h
    dsimp only at h
    cases hb : f (room - a.length) with
    | none => rw [hb] at h; cases h
    | some b =>
      rw [hb] at h
      exact ⟨a, b, rfl, hb, (Option.some.inj h).symm⟩

theorem varintEnc_some {n room : Nat} {w : Bytes} (h : framesVarintEncode n room = some w) :
    w = varintBytes n ∧ w.length ≤ room ∧ 0 < w.length := by
  rw [framesVarintEncode_eq] at h
  by_cases hl : encodeVarintLength n ≤ room
  · rw [if_pos hl] at h
    have := Option.some.inj h
    subst this
    rw [varintBytes_length]
    exact ⟨rfl, hl, encodeVarintLength_pos n⟩
  · rw [if_neg hl] at h; cases h

/-- `w` continues an ACK frame whose lowest number so far is `lowest`. -/
def Tail (lowest : Nat) (w : Bytes) (rs : List (Nat × Nat)) : Prop :=
  ∀ largest l len, Varint l len → len ≤ largest → largest - len = lowest →
    AckRanges largest (l ++ w) ((lowest, largest) :: rs)

theorem tail_nil (lowest : Nat) : Tail lowest [] [] := by
  intro largest l len hl hle he
  subst he
  rw [List.append_nil]
  exact .last hl hle

theorem tail_cons {lowest start stop : Nat} {w : Bytes} {rs : List (Nat × Nat)} (h1 : start ≤ stop)
    (h2 : stop + 1 < lowest) (hl : lowest < 2 ^ 62) (h : Tail start w rs) :
    Tail lowest (varintBytes (lowest - stop - 2) ++ (varintBytes (stop - start) ++ w)) ((start, stop) :: rs) := by
  intro largest l len hv hle he
  have ht := h stop (varintBytes (stop - start)) (stop - start) (varintBytes_varint (by omega)) (by omega) (by omega)
  have := AckRanges.more (largest := largest) (next := stop) hv hle
    (varintBytes_varint (n := lowest - stop - 2) (by omega)) (by omega) ht
  rw [he] at this
  exact this

/-- The first and last numbers of the items. -/
def rangesOf (items : List Item) : List (Nat × Nat) := items.map fun i => (i.start, i.stop)

theorem recordSent_rangesOf (s : SackList) (k : Nat) (opp : Bool) :
    rangesOf (recordSent s k opp).items = rangesOf s.items :=
  (recordSent_ranges s k opp).1

theorem recordSent_length (s : SackList) (k : Nat) (opp : Bool) :
    (recordSent s k opp).items.length = s.items.length := by
  have := congrArg List.length (recordSent_rangesOf s k opp)
  simpa [rangesOf] using this

theorem rangesOf_get {items : List Item} {k : Nat} {i : Item} (h : items[k]? = some i) :
    (rangesOf items)[k]? = some (i.start, i.stop) := by
  simp [rangesOf, h]

/-- The items chosen by the loop, from the newest to the oldest, if there is room for all. -/
def pick (opp : Bool) (maxSent : Nat) : List Item → (skip n : Nat) → List Item
  | [], _, _ => []
  | i :: is, skip, n =>
    if n < 32 then
      if timesSent i opp ≤ maxSent then
        if timesSent i opp = maxSent ∧ skip > 0 then pick opp maxSent is (skip - 1) n
        else i :: pick opp maxSent is skip (n + 1)
      else pick opp maxSent is skip n
    else []

theorem recordSent_take (s : SackList) (k : Nat) (opp : Bool) :
    (recordSent s k opp).items.take k = s.items.take k := by
  unfold recordSent
  split
  · rfl
  · split <;> exact List.take_set_of_le (Nat.le_refl _)

/-- What the loop over the ranges writes. `rs` are the ranges of the items. -/
theorem blockLoop_spec (opp : Bool) (maxSent : Nat) (rs : List (Nat × Nat)) (hsep : Separated rs) :
    ∀ (k skip room : Nat) (b : Blocks), k ≤ rs.length → rangesOf b.list.items = rs → b.lowest < 2 ^ 62 →
    (∀ r ∈ rs.take k, r.2 + 1 < b.lowest) → b.numBlock ≤ 32 →
    ∃ (w : Bytes) (sub : List (Nat × Nat)) (ks : List Nat), (blockLoop opp maxSent k skip room b).out = b.out ++ w ∧ w.length ≤ room ∧
      (blockLoop opp maxSent k skip room b).numBlock = b.numBlock + sub.length ∧
      (blockLoop opp maxSent k skip room b).numBlock ≤ 32 ∧
      Tail b.lowest w sub ∧ sub.Sublist (rs.take k).reverse ∧
      (blockLoop opp maxSent k skip room b).list = ks.foldl (fun s k => recordSent s k opp) b.list ∧
      ((blockLoop opp maxSent k skip room b).moreData = false →
        sub = rangesOf (pick opp maxSent (b.list.items.take k).reverse skip b.numBlock)) := by
  intro k
  induction k with
  | zero =>
    intro skip room b hk hr hlow hle hn
    exact ⟨[], [], [], by simp [blockLoop], by simp, by simp [blockLoop], by simpa [blockLoop] using hn,
      tail_nil _, by simp, by simp [blockLoop], by simp [pick, rangesOf]⟩
  | succ k ih =>
    intro skip room b hk hr hlow hle hn
    rw [blockLoop]
    have hstop : ∀ m, (m = true ∨ pick opp maxSent (b.list.items.take (k + 1)).reverse skip b.numBlock = []) → ∃ w sub ks, ({ b with moreData := m } : Blocks).out = b.out ++ w ∧ w.length ≤ room ∧
        ({ b with moreData := m } : Blocks).numBlock = b.numBlock + sub.length ∧
        ({ b with moreData := m } : Blocks).numBlock ≤ 32 ∧
        Tail b.lowest w sub ∧ sub.Sublist (rs.take (k + 1)).reverse ∧
        ({ b with moreData := m } : Blocks).list = List.foldl (fun s k => recordSent s k opp) b.list ks ∧
        (m = false → sub = rangesOf (pick opp maxSent (b.list.items.take (k + 1)).reverse skip b.numBlock)) :=
      fun m hm => ⟨[], [], [], by simp, by simp, by simp, hn, tail_nil _, by simp, rfl, by
        intro h; rcases hm with hm | hm
        · rw [hm] at h; cases h
        · rw [hm]; rfl⟩
    have htake : rs.take (k + 1) = rs.take k ++ [rs[k]'(by omega)] := by
      rw [List.take_add_one, List.getElem?_eq_getElem (by omega)]
      rfl
    have hskip : ∀ skip', pick opp maxSent (b.list.items.take (k + 1)).reverse skip b.numBlock =
          pick opp maxSent (b.list.items.take k).reverse skip' b.numBlock → ∃ (w : Bytes) (sub : List (Nat × Nat)) (ks : List Nat), (blockLoop opp maxSent k skip' room b).out = b.out ++ w ∧ w.length ≤ room ∧
        (blockLoop opp maxSent k skip' room b).numBlock = b.numBlock + sub.length ∧
        (blockLoop opp maxSent k skip' room b).numBlock ≤ 32 ∧
        Tail b.lowest w sub ∧ sub.Sublist (rs.take (k + 1)).reverse ∧
        (blockLoop opp maxSent k skip' room b).list = ks.foldl (fun s k => recordSent s k opp) b.list ∧
        ((blockLoop opp maxSent k skip' room b).moreData = false →
          sub = rangesOf (pick opp maxSent (b.list.items.take (k + 1)).reverse skip b.numBlock)) := by
      intro skip' hpick
      obtain ⟨w, sub, ks, h1, h2, h3, h4, h5, h6, h7, h8⟩ := ih skip' room b (by omega) hr hlow
        (fun r hr' => hle r (by rw [htake]; exact List.mem_append_left _ hr')) hn
      refine ⟨w, sub, ks, h1, h2, h3, h4, h5, ?_, h7, by rw [hpick]; exact h8⟩
      rw [htake, List.reverse_append]
      exact h6.trans (List.sublist_append_right _ _)
    by_cases h32 : b.numBlock < 32
    · rw [if_pos h32]
      cases hi : b.list.items[k]? with
      | none =>
        have : b.list.items.length = rs.length := by rw [← hr]; simp [rangesOf]
        rw [List.getElem?_eq_getElem (by omega)] at hi
        cases hi
      | some i =>
        have hrev : (b.list.items.take (k + 1)).reverse = i :: (b.list.items.take k).reverse := by
          rw [List.take_add_one, hi, List.reverse_append]; rfl
        have hri : rs[k]'(by omega) = (i.start, i.stop) := by
          have := rangesOf_get hi
          rw [hr, List.getElem?_eq_getElem (by omega)] at this
          exact Option.some.inj this
        have hmem : (i.start, i.stop) ∈ rs.take (k + 1) := by
          rw [htake, hri]; simp
        have hlt := hle _ hmem
        have hne := hsep.2 _ (List.mem_of_mem_take hmem)
        dsimp only at hlt hne ⊢
        by_cases hs : timesSent i opp ≤ maxSent
        · rw [if_pos hs]
          by_cases hsk : timesSent i opp = maxSent ∧ skip > 0
          · rw [if_pos hsk]; exact hskip _ (by rw [hrev, pick, if_pos h32, if_pos hs, if_pos hsk])
          · rw [if_neg hsk]
            cases he : (framesVarintEncode (b.lowest - i.stop - 2)).seq (framesVarintEncode (i.stop - i.start)) room with
            | none => exact hstop true (.inl rfl)
            | some w0 =>
              dsimp only
              obtain ⟨g, l, hg, hl, hw⟩ := seq_some he
              obtain ⟨hg1, hg2, _⟩ := varintEnc_some hg
              obtain ⟨hl1, hl2, _⟩ := varintEnc_some hl
              obtain ⟨w, sub, ks, h1, h2, h3, h4, h5, h6, h7, h8⟩ := ih skip (room - w0.length)
                { list := recordSent b.list k opp, out := b.out ++ w0, numBlock := b.numBlock + 1
                  lowest := i.start, moreData := b.moreData } (by omega)
                (by dsimp only; rw [recordSent_rangesOf, hr]) (by dsimp only; omega)
                (by
                  intro r hr'
                  dsimp only
                  have hp := hsep.1.sublist (List.take_sublist (k + 1) rs)
                  rw [htake, hri, List.pairwise_append] at hp
                  exact hp.2.2 r hr' (i.start, i.stop) (by simp))
                (by dsimp only; omega)
              dsimp only at h1 h3 h5 h7 h8
              have hwl : w0.length = g.length + l.length := by rw [hw, List.length_append]
              refine ⟨w0 ++ w, (i.start, i.stop) :: sub, k :: ks, ?_, ?_, ?_, h4, ?_, ?_, ?_, ?_⟩
              · rw [h1, List.append_assoc]
              · rw [List.length_append]; omega
              · rw [h3, List.length_cons]; omega
              · rw [hw, hg1, hl1, List.append_assoc]
                exact tail_cons hne hlt hlow h5
              · rw [htake, List.reverse_append, hri]
                exact h6.cons_cons _
              · rw [h7]; rfl
              · intro hm
                rw [h8 hm, recordSent_take, hrev, pick, if_pos h32, if_pos hs, if_neg hsk]
                rfl
        · rw [if_neg hs]; exact hskip _ (by rw [hrev, pick, if_pos h32, if_neg hs])
    · rw [if_neg h32]; exact hstop b.moreData (.inr (by
        cases (b.list.items.take (k + 1)).reverse with
        | nil => rfl
        | cons i is => rw [pick, if_neg h32]))

/-- Valid numbers: everything written fits in 62 bits. -/
structure ArgsOk (a : Args) : Prop where
  delay : a.delay < 2 ^ 62
  path : ∀ p, a.pathId = some p → p < 2 ^ 62
  ect0 : a.ect0 < 2 ^ 62
  ect1 : a.ect1 < 2 ^ 62
  ce : a.ce < 2 ^ 62

theorem headerEnc_spec {a : Args} {largest room : Nat} {h : Bytes} (hh : headerEnc a largest room = some h) :
    h.length ≤ room ∧ 0 < h.length ∧
    h = varintBytes (ackType a) ++ ((match a.pathId with | none => [] | some p => varintBytes p) ++
      (varintBytes largest ++ varintBytes a.delay)) := by
  unfold headerEnc at hh
  obtain ⟨t, b, ht, hb, rfl⟩ := seq_some hh
  obtain ⟨rfl, t2, t3⟩ := varintEnc_some ht
  have two : ∀ {room : Nat} {b : Bytes}, (framesVarintEncode largest).seq (framesVarintEncode a.delay) room = some b →
      b = varintBytes largest ++ varintBytes a.delay ∧ b.length ≤ room := by
    intro room b hb
    obtain ⟨l, d, hl, hd, rfl⟩ := seq_some hb
    obtain ⟨rfl, l2, _⟩ := varintEnc_some hl
    obtain ⟨rfl, d2, _⟩ := varintEnc_some hd
    exact ⟨rfl, by rw [List.length_append]; omega⟩
  cases hp : a.pathId with
  | none =>
    rw [hp] at hb
    obtain ⟨hb, h2⟩ := two hb
    refine ⟨by rw [List.length_append]; omega, by rw [List.length_append]; omega, by rw [hb]; rfl⟩
  | some p =>
    rw [hp] at hb
    dsimp only at hb
    obtain ⟨q, b', hq, hb', rfl⟩ := seq_some hb
    obtain ⟨rfl, q2, _⟩ := varintEnc_some hq
    obtain ⟨rfl, h2⟩ := two hb'
    refine ⟨?_, ?_, rfl⟩ <;> simp only [List.length_append] at * <;> omega

theorem ecnEnc_spec {a : Args} {room : Nat} {e : Bytes} (he : ecnEnc a room = some e) :
    e.length ≤ room ∧ e = varintBytes a.ect0 ++ (varintBytes a.ect1 ++ varintBytes a.ce) := by
  unfold ecnEnc at he
  obtain ⟨e0, b, h0, hb, rfl⟩ := seq_some he
  obtain ⟨e1, e2, h1, h2, rfl⟩ := seq_some hb
  obtain ⟨rfl, l0, _⟩ := varintEnc_some h0
  obtain ⟨rfl, l1, _⟩ := varintEnc_some h1
  obtain ⟨rfl, l2, _⟩ := varintEnc_some h2
  refine ⟨?_, rfl⟩
  simp only [List.length_append] at *
  omega

/-- The content of the frame that `formatAck` writes. -/
def contentOf (a : Args) (ecn : Bool) (last : Item) (sub : List (Nat × Nat)) : AckContent :=
  { pathId := a.pathId, largest := last.stop, delay := a.delay, ranges := (last.start, last.stop) :: sub
    ecn := if ecn then some (a.ect0, a.ect1, a.ce) else none }

theorem u8_varintBytes {n : Nat} (h : n < 64) : [u8 n] = varintBytes n := by
  unfold varintBytes
  rw [if_pos (by omega), if_pos h]

/-- Everything `formatAck` does: nothing, or the frame with the last range and some of the others. In one
case the type is wrong: when the ECN counts do not fit in a multipath frame. -/
theorem formatAck_spec (s : SackList) (a : Args) (room : Nat) (hsep : Sep s.items)
    (hmax : ∀ i ∈ s.items, i.stop < 2 ^ 62) (ha : ArgsOk a) :
    (formatAck s a room).1.length ≤ room ∧
    (∃ ks : List Nat, (formatAck s a room).2.1 = ks.foldl (fun s k => recordSent s k a.opp) s) ∧
    ((formatAck s a room).1 = [] ∨
      ∃ (last : Item) (sub : List (Nat × Nat)), s.items.getLast? = some last ∧
        sub.Sublist (rangesOf s.items).dropLast.reverse ∧ sub.length ≤ 32 ∧
        ((formatAck s a room).2.2 = false →
          sub = rangesOf (pick a.opp
            (selectAckRanges (SackList.rc (recordSent s (s.items.length - 1) a.opp) a.opp) (timesSent last a.opp + 1) 32).1
            s.items.dropLast.reverse
            (selectAckRanges (SackList.rc (recordSent s (s.items.length - 1) a.opp) a.opp) (timesSent last a.opp + 1) 32).2
            0)) ∧
        ((a.ecn = false ∧ IsAckFrame (formatAck s a room).1 (contentOf a false last sub)) ∨
         (a.ecn = true ∧ IsAckFrame (formatAck s a room).1 (contentOf a true last sub)) ∨
         (a.ecn = true ∧ a.pathId = none ∧ IsAckFrame (formatAck s a room).1 (contentOf a false last sub)) ∨
         (a.ecn = true ∧ a.pathId ≠ none ∧ ∃ t body, (formatAck s a room).1 = 2 :: t ++ body ∧
            2 :: t = setFirst (varintBytes TYPE_PATH_ACK_ECN) 2 ∧ IsAckBody body (contentOf a false last sub)))) := by
  rw [formatAck.eq_def]
  by_cases hn : notNeeded s a = true
  · rw [if_pos hn]
    exact ⟨by simp, ⟨[], rfl⟩, .inl rfl⟩
  rw [if_neg hn]
  cases hl : s.items.getLast? with
  | none => exact ⟨by simp, ⟨[], rfl⟩, .inl rfl⟩
  | some last =>
    dsimp only
    cases hh : headerEnc a last.stop room with
    | none => exact ⟨by simp, ⟨[], rfl⟩, .inl rfl⟩
    | some h =>
      dsimp only
      by_cases hr : h.length < room
      case neg => rw [if_neg hr]; exact ⟨by simp, ⟨[], rfl⟩, .inl rfl⟩
      rw [if_pos hr]
      cases he : framesVarintEncode (last.stop - last.start) (room - h.length - 1) with
      | none => exact ⟨by simp, ⟨[], rfl⟩, .inl rfl⟩
      | some r =>
        dsimp only
        obtain ⟨hh1, hh2, hh3⟩ := headerEnc_spec hh
        obtain ⟨hr1, hr2, _⟩ := varintEnc_some he
        have hsplit := dropLast_append_getLast? hl
        have hmem : last ∈ s.items := by rw [hsplit]; simp
        have hlast := hmax last hmem
        have hle := hsep.2 last hmem
        have hsep' := (sep_iff s.items).1 hsep
        have hlen : (rangesOf s.items).length = s.items.length := by simp [rangesOf]
        have htake : (rangesOf s.items).take (s.items.length - 1) = (rangesOf s.items).dropLast := by
          rw [List.dropLast_eq_take, hlen]
        generalize hsel : selectAckRanges (SackList.rc (recordSent s (s.items.length - 1) a.opp) a.opp)
          (timesSent last a.opp + 1) 32 = sel
        obtain ⟨w, sub, ks, b1, b2, b3, b4, b5, b6, b7, b8⟩ := blockLoop_spec a.opp sel.1 (rangesOf s.items) hsep'
          (s.items.length - 1) sel.2 (room - h.length - 1 - r.length)
          { list := recordSent s (s.items.length - 1) a.opp, out := [], numBlock := 0, lowest := last.start
            moreData := false } (by omega) (recordSent_rangesOf _ _ _) (by dsimp only; omega)
          (by
            intro x hx
            dsimp only
            rw [htake] at hx
            have hp := hsep'.1
            change (rangesOf s.items).Pairwise _ at hp
            have e : rangesOf s.items = (rangesOf s.items).dropLast ++ [(last.start, last.stop)] := by
              conv => lhs; rw [hsplit]
              unfold rangesOf
              rw [List.map_append, ← List.map_dropLast]; rfl
            rw [e, List.pairwise_append] at hp
            exact hp.2.2 x hx (last.start, last.stop) (by simp))
          (Nat.zero_le _)
        dsimp only at b1 b3 b5 b7 b8
        rw [List.nil_append] at b1
        rw [Nat.zero_add] at b3
        generalize blockLoop a.opp sel.1 (s.items.length - 1) sel.2 (room - h.length - 1 - r.length)
          { list := recordSent s (s.items.length - 1) a.opp, out := [], numBlock := 0, lowest := last.start
            moreData := false } = b at b1 b3 b4 b7 b8 ⊢
        rw [recordSent_take, ← List.dropLast_eq_take] at b8
        rw [htake] at b6
        have hks : ∃ ks : List Nat, b.list = ks.foldl (fun s k => recordSent s k a.opp) s :=
          ⟨(s.items.length - 1) :: ks, b7⟩
        have hranges : AckRanges last.stop (r ++ w) ((last.start, last.stop) :: sub) := by
          have := b5 last.stop (varintBytes (last.stop - last.start)) (last.stop - last.start)
            (varintBytes_varint (by omega)) (by omega) (by omega)
          rw [← hr1] at this
          exact this
        have hnb : b.numBlock < 64 := by omega
        have hcount : Varint [u8 b.numBlock] (((last.start, last.stop) :: sub).length - 1) := by
          rw [u8_varintBytes hnb, b3]
          exact varintBytes_varint (by omega)
        -- the body of the frame
        have hbody : ∀ (ecn : Bool) (e : Bytes),
            e = (if ecn then varintBytes a.ect0 ++ (varintBytes a.ect1 ++ varintBytes a.ce) else []) →
            IsAckBody ((match a.pathId with | none => [] | some p => varintBytes p) ++
              (varintBytes last.stop ++ (varintBytes a.delay ++ ([u8 b.numBlock] ++ ((r ++ w) ++ e)))))
              (contentOf a ecn last sub) := by
          intro ecn e hee
          refine ⟨_, varintBytes last.stop, varintBytes a.delay, [u8 b.numBlock], r ++ w, e, rfl, ?_,
            varintBytes_varint hlast, varintBytes_varint ha.delay, hcount, hranges, ?_⟩
          · unfold contentOf
            dsimp only
            cases hp : a.pathId with
            | none => rfl
            | some p => exact varintBytes_varint (ha.path p hp)
          · subst hee
            unfold contentOf
            dsimp only
            cases ecn with
            | false => rfl
            | true =>
              exact ⟨_, _, _, rfl, varintBytes_varint ha.ect0, varintBytes_varint ha.ect1, varintBytes_varint ha.ce⟩
        have htype : ∀ ecn, ecn = a.ecn → Varint (varintBytes (ackType a)) (contentOf a ecn last sub).type := by
          intro ecn hecn
          have : ackType a = (contentOf a ecn last sub).type := by
            subst hecn
            unfold ackType contentOf AckContent.type
            dsimp only
            cases a.pathId <;> cases a.ecn <;> rfl
          rw [← this]
          apply varintBytes_varint
          unfold ackType TYPE_ACK TYPE_ACK_ECN TYPE_PATH_ACK TYPE_PATH_ACK_ECN
          cases a.pathId <;> dsimp only <;> split <;> decide
        have hframe : ∀ e, h ++ u8 b.numBlock :: (r ++ b.out) ++ e = varintBytes (ackType a) ++
            ((match a.pathId with | none => [] | some p => varintBytes p) ++
              (varintBytes last.stop ++ (varintBytes a.delay ++ ([u8 b.numBlock] ++ ((r ++ w) ++ e))))) := by
          intro e
          rw [hh3, b1]
          simp only [List.append_assoc, List.cons_append, List.nil_append]
        have hlenf : (h ++ u8 b.numBlock :: (r ++ b.out)).length ≤ room := by
          rw [b1]
          simp only [List.length_append, List.length_cons]
          omega
        have hf0 := hframe []
        rw [List.append_nil] at hf0
        cases hecn : a.ecn with
        | false =>
          rw [if_neg (by decide)]
          refine ⟨hlenf, hks, .inr ⟨last, sub, rfl, b6, by omega, by rw [hsel]; exact b8, .inl ⟨rfl, ?_⟩⟩⟩
          dsimp only
          exact ⟨_, _, hf0, htype false hecn.symm, hbody false [] rfl⟩
        | true =>
          rw [if_pos rfl]
          cases hec : ecnEnc a (room - (h ++ u8 b.numBlock :: (r ++ b.out)).length) with
          | some e =>
            dsimp only
            obtain ⟨ec1, ec2⟩ := ecnEnc_spec hec
            refine ⟨by rw [List.length_append]; omega, hks, .inr ⟨last, sub, rfl, b6, by omega, by rw [hsel]; exact b8, .inr (.inl ⟨rfl, ?_⟩)⟩⟩
            exact ⟨_, _, hframe e, htype true hecn.symm, hbody true e ec2⟩
          | none =>
            dsimp only
            have hset : ∀ (x : Bytes) (y : UInt8), (setFirst x y).length = x.length := by
              intro x y; cases x <;> rfl
            refine ⟨by rw [hset]; exact hlenf, hks, .inr ⟨last, sub, rfl, b6, by omega, (fun h => by cases h), .inr (.inr ?_)⟩⟩
            rw [hf0]
            cases hp : a.pathId with
            | none =>
              refine .inl ⟨rfl, rfl, ?_⟩
              have hb := hbody false [] rfl
              rw [hp] at hb
              have ht : ackType a = 3 := by unfold ackType; rw [hp, hecn]; rfl
              rw [ht]
              refine ⟨[2], _, rfl, ?_, hb⟩
              have : (contentOf a false last sub).type = 2 := by
                unfold contentOf AckContent.type; rw [hp]; rfl
              rw [this]
              exact ⟨0, by decide⟩
            | some p =>
              refine .inr ⟨rfl, by simp, ?_⟩
              have hb := hbody false [] rfl
              rw [hp] at hb
              have ht : ackType a = TYPE_PATH_ACK_ECN := by unfold ackType; rw [hp, hecn]; rfl
              rw [ht]
              exact ⟨[0x22, 0x8c, 0x01], _, rfl, by decide, hb⟩

end Picoquic.Ack
