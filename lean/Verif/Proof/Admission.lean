import Verif.Spec.Admission
import Verif.Spec.Varint
import Verif.Proof.Fixed
import Verif.Proof.PacketHeader
/-!
# Address tokens: proofs
-/

namespace Picoquic.Admission
open Picoquic.Packet Picoquic.Spec

theorem cidEncode_eq {c : Cid} (h : c.length ≤ 20) (room : Nat) :
    framesCidEncode c room = if 1 + c.length ≤ room then some (u8 c.length :: c) else none := by
  unfold framesCidEncode
  rw [framesLengthDataEncode_eq]
  have h1 : encodeVarintLength c.length = 1 := by
    unfold encodeVarintLength; rw [if_pos (by omega), if_pos (by omega)]
  have h2 : varintBytes c.length = [u8 c.length] := by
    unfold varintBytes; rw [if_pos (by omega), if_pos (by omega)]
  rw [h1, h2]
  rfl

/-- The text of a token is read as it was written. -/
theorem tokenText_parse {time pn : Nat} {odcid rcid : Cid} (ht : time < 2 ^ 64) (ho : odcid.length ≤ 20) (hr : rcid.length ≤ 20)
    (hp : pn < 2 ^ 32) :
    ∃ text, tokenText time odcid rcid pn = some text ∧ text.length ≤ 58 ∧ parseToken text = some (time, odcid, rcid, pn) := by
  have hv : encodeVarintLength pn ≤ 8 := by
    unfold encodeVarintLength; split <;> split <;> omega
  have h64 : framesUint64Encode time 128 = some (picoformat64 time) := rfl
  have e : Enc.seq (framesUint64Encode time) (Enc.seq (framesCidEncode odcid) (Enc.seq (framesCidEncode rcid) (framesVarintEncode pn))) 128 =
      some (picoformat64 time ++ ((u8 odcid.length :: odcid) ++ ((u8 rcid.length :: rcid) ++ varintBytes pn))) := by
    unfold Enc.seq
    rw [h64]
    dsimp only
    have l8 : (picoformat64 time).length = 8 := rfl
    rw [l8, cidEncode_eq ho, if_pos (by omega)]
    dsimp only
    rw [cidEncode_eq hr, if_pos (by simp only [List.length_cons]; omega)]
    dsimp only
    rw [framesVarintEncode_eq, if_pos (by simp only [List.length_cons]; omega)]
  refine ⟨_, by unfold tokenText; rw [e]; rfl, ?_, ?_⟩
  · simp only [List.length_append, List.length_cons, List.length_replicate, varintBytes_length, TOKEN_PAD]
    have : (picoformat64 time).length = 8 := rfl
    omega
  · dsimp only
    generalize List.replicate _ (0 : UInt8) = pad
    unfold parseToken
    have d1 : framesUint64Decode (picoformat64 time ++ ((u8 odcid.length :: odcid) ++ ((u8 rcid.length :: rcid) ++ varintBytes pn)) ++ pad) =
        some (time, (u8 odcid.length :: odcid) ++ ((u8 rcid.length :: rcid) ++ (varintBytes pn ++ pad))) := by
      rw [framesUint64Decode_iff]
      exact ⟨_, rfl, by simp, bigEndian_format64 ht⟩
    rw [d1]
    dsimp only
    have d2 : framesCidDecode 0 ((u8 odcid.length :: odcid) ++ ((u8 rcid.length :: rcid) ++ (varintBytes pn ++ pad))) =
        .ok odcid ((u8 rcid.length :: rcid) ++ (varintBytes pn ++ pad)) := by
      rw [framesCidDecode_ok_iff]
      exact ⟨ho, by simp [u8]⟩
    rw [d2]
    dsimp only
    have d3 : framesCidDecode 0 ((u8 rcid.length :: rcid) ++ (varintBytes pn ++ pad)) = .ok rcid (varintBytes pn ++ pad) := by
      rw [framesCidDecode_ok_iff]
      exact ⟨hr, by simp [u8]⟩
    rw [d3]
    dsimp only
    obtain ⟨x, hx, -⟩ := varintBytes_isVarint pn (by omega)
    rw [framesVarintDecode_of_isVarint hx]

theorem msb_set (b : UInt8) : (b ||| 0x80) &&& 0x80 = 0x80 := by
  have : ∀ x : Fin 256, (x.val ||| 128) &&& 128 = 128 := by decide +kernel
  apply UInt8.toNat_inj.1
  rw [UInt8.toNat_and, UInt8.toNat_or]
  exact this ⟨b.toNat, b.toNat_lt⟩

theorem msb_clear (b : UInt8) : (b &&& 0x7F) &&& 0x80 = 0 := by
  have : ∀ x : Fin 256, (x.val &&& 127) &&& 128 = 0 := by decide +kernel
  apply UInt8.toNat_inj.1
  rw [UInt8.toNat_and, UInt8.toNat_and]
  exact this ⟨b.toNat, b.toNat_lt⟩

/-- What is in a token that was made. -/
theorem prepareToken_spec {k : TokenKeys} (hk : Sealing k) {ip : Bytes} {now pn : Nat} {odcid rcid : Cid} {r0 : UInt8}
    {rnd token : Bytes} (ho : odcid.length ≤ 20) (hr : rcid.length ≤ 20) (hp : pn < 2 ^ 32)
    (h : prepareToken k ip now odcid rcid pn r0 rnd = some token) :
    ∃ sequence sealed text, framesUint64Decode token = some (sequence, sealed) ∧ k.dec sequence ip sealed = some text ∧
      8 ≤ token.length ∧ token.length ≤ 128 ∧ (token.headD 0 &&& 0x80 != 0) = (odcid.length == 0) ∧
      parseToken text = some (u64 (now + if odcid.length = 0 then TOKEN_EXTRA_LONG else TOKEN_EXTRA_SHORT), odcid, rcid, pn) := by
  unfold prepareToken at h
  dsimp only at h
  generalize hT : u64 (now + if odcid.length = 0 then TOKEN_EXTRA_LONG else TOKEN_EXTRA_SHORT) = time at h ⊢
  have htime : time < 2 ^ 64 := by rw [← hT]; unfold u64; omega
  obtain ⟨text, e1, e2, e3⟩ := tokenText_parse htime ho hr hp
  rw [e1] at h
  dsimp only at h
  unfold encryptToken at h
  rw [if_neg (by omega)] at h
  dsimp only at h
  split at h
  · rename_i sequence hs
    cases h
    obtain ⟨p, hp1, hp2, hp3⟩ := (framesUint64Decode_iff _ _ _).1 hs
    rw [List.append_nil] at hp2
    refine ⟨sequence, k.enc sequence ip text, text, ?_, hk.recover _ _ _, ?_, ?_, ?_, e3⟩
    · rw [framesUint64Decode_iff]
      exact ⟨p, hp1, by rw [← hp2], hp3⟩
    · rw [List.length_append, hk.length, hp2, hp1]; omega
    · rw [List.length_append, hk.length, hp2, hp1]; omega
    · rw [List.cons_append, List.headD_cons]
      by_cases hz : odcid.length = 0
      · rw [if_pos (by simpa using hz), msb_set, hz]; decide
      · rw [if_neg (by simpa using hz), msb_clear]
        rw [beq_eq_false_iff_ne.2 hz]; decide
  · cases h

/-- The end of life of a token, as it is written in it. -/
def endOf (i : Issued) : Nat := i.time + i.life

theorem issued_short {i : Issued} (hr : i.retry = true) (h : i.time + 124000000 < 2 ^ 64) :
    u64 (i.time + TOKEN_DELAY_SHORT + TOKEN_EXTRA_SHORT) = endOf i := by
  have e1 : TOKEN_DELAY_SHORT = 120000000 := rfl
  have e2 : TOKEN_EXTRA_SHORT = 4000000 := rfl
  have e3 : i.life = 124000000 := by unfold Issued.life; rw [if_pos hr]
  unfold endOf u64
  rw [e1, e2, e3]
  omega

theorem issued_long {i : Issued} (hr : i.retry = false) (h : i.time + 172800000000 < 2 ^ 64) :
    u64 (i.time + TOKEN_DELAY_LONG + TOKEN_EXTRA_LONG) = endOf i := by
  have e1 : TOKEN_DELAY_LONG = 86400000000 := rfl
  have e2 : TOKEN_EXTRA_LONG = 86400000000 := rfl
  have e3 : i.life = 172800000000 := by unfold Issued.life; rw [if_neg (by simp [hr])]
  unfold endOf u64
  rw [e1, e2, e3]
  omega

theorem admit_used (s : Server) (p : First) (v : Verified) : (admit s p v).2.used = v.used := by
  unfold admit
  dsimp only
  split
  · rfl
  · split
    · rfl
    · split <;> rfl

theorem admit_keys (s : Server) (p : First) (v : Verified) : (admit s p v).2.keys = s.keys := by
  unfold admit
  dsimp only
  split
  · rfl
  · split
    · rfl
    · split <;> rfl

theorem screen_cases (s : Server) (now : Nat) (p : First) :
    (((screen s now p).1 = .dropped ∨ (screen s now p).1 = .busy) ∧ (screen s now p).2 = s) ∨
    ((¬ p.length < 1200 ∧ ¬ p.dcid.length < 8 ∧ p.reserved = false ∧ s.clientOnly = false ∧ p.authentic = true ∧ s.busy = false ∧
      s.connections < s.maxConnections) ∧ screen s now p = admit s p (if p.token.length > 0 then
      verifyToken s.keys s.used p.ip now p.dcid (u32 p.pn) p.token else ⟨false, false, [], s.used⟩)) := by
  unfold screen
  by_cases c1 : p.length < 1200
  · rw [if_pos c1]; exact .inl ⟨.inl rfl, rfl⟩
  rw [if_neg c1]
  by_cases c2 : p.dcid.length < 8
  · rw [if_pos c2]; exact .inl ⟨.inl rfl, rfl⟩
  rw [if_neg c2]
  by_cases c3 : p.reserved = true
  · rw [if_pos c3]; exact .inl ⟨.inl rfl, rfl⟩
  rw [if_neg c3]
  by_cases c4 : s.clientOnly = true
  · rw [if_pos c4]; exact .inl ⟨.inr rfl, rfl⟩
  rw [if_neg c4]
  by_cases c5 : s.busy = true ∨ s.connections ≥ s.maxConnections
  · rw [if_pos c5]; exact .inl ⟨.inr rfl, rfl⟩
  rw [if_neg c5]
  by_cases c6 : (!p.authentic) = true
  · rw [if_pos c6]; exact .inl ⟨.inl rfl, rfl⟩
  rw [if_neg c6]
  refine .inr ⟨⟨c1, c2, by simpa using c3, by simpa using c4, by simpa using c6, ?_, ?_⟩, ?_⟩
  · cases hb : s.busy
    · rfl
    · exact absurd (.inl hb) c5
  · exact Nat.lt_of_not_le (fun q => c5 (.inr q))
  · split <;> rfl

theorem screen_keys (s : Server) (now : Nat) (p : First) : (screen s now p).2.keys = s.keys := by
  rcases screen_cases s now p with ⟨-, e⟩ | ⟨-, e⟩
  · rw [e]
  · rw [e, admit_keys]

/-- A token that was given out, as it is seen when it is verified. -/
structure Readable (k : TokenKeys) (i : Issued) : Prop where
  read : ∃ sequence sealed text pn, framesUint64Decode i.token = some (sequence, sealed) ∧ k.dec sequence i.ip sealed = some text ∧
    parseToken text = some (endOf i, i.odcid, i.rcid, pn)
  odcid : i.retry = true ↔ 0 < i.odcid.length
  length : 8 ≤ i.token.length

theorem happens_issued {k : TokenKeys} (hk : Sealing k) {t : Nat} {s : Server} {is : List Issued} {as : List Admitted}
    (h : Happens k t s is as) : s.keys = k ∧ ∀ i ∈ is, Readable k i ∧ i.time ≤ t := by
  induction h with
  | start keys used => exact ⟨keys, by simp⟩
  | settings h keys used ih => exact ⟨keys.trans ih.1, ih.2⟩
  | @retry _ now _ _ _ ip token odcid rcid pn _ _ h time end_ ol rl number make ih =>
    refine ⟨ih.1, ?_⟩
    intro i hi
    rcases List.mem_cons.1 hi with rfl | hi
    · refine ⟨⟨?_, ?_, ?_⟩, Nat.le_refl _⟩
      · obtain ⟨sq, se, tx, h1, h2, -, -, -, h3⟩ := prepareToken_spec hk ol.2 rl number make
        refine ⟨sq, se, tx, pn, h1, h2, h3.trans ?_⟩
        rw [if_neg (by omega)]
        have e := issued_short (i := ⟨ip, token, true, now, odcid, rcid⟩) rfl end_
        dsimp only at e
        rw [e]
      · exact ⟨fun _ => ol.1, fun _ => rfl⟩
      · obtain ⟨-, -, -, -, -, h1, -⟩ := prepareToken_spec hk ol.2 rl number make
        exact h1
    · have := ih.2 i hi
      exact ⟨this.1, by omega⟩
  | @newToken _ now _ _ _ ip token _ _ h time end_ make ih =>
    refine ⟨ih.1, ?_⟩
    intro i hi
    rcases List.mem_cons.1 hi with rfl | hi
    · refine ⟨⟨?_, ?_, ?_⟩, Nat.le_refl _⟩
      · obtain ⟨sq, se, tx, h1, h2, -, -, -, h3⟩ := prepareToken_spec hk (by simp) (by simp) (by decide) make
        refine ⟨sq, se, tx, 0, h1, h2, h3.trans ?_⟩
        have e := issued_long (i := ⟨ip, token, false, now, [], []⟩) rfl end_
        dsimp only at e
        rw [if_pos List.length_nil, e]
      · exact ⟨fun q => absurd q (by simp), fun q => absurd q (by simp)⟩
      · obtain ⟨-, -, -, -, -, h1, -⟩ := prepareToken_spec hk (by simp) (by simp) (by decide) make
        exact h1
    · have := ih.2 i hi
      exact ⟨this.1, by omega⟩
  | @initial t now s is as p h time unforged ih =>
    refine ⟨?_, fun i hi => ⟨(ih.2 i hi).1, by have := (ih.2 i hi).2; omega⟩⟩
    rw [screen_keys, ih.1]

/-- The token of a packet that was found good. -/
theorem verify_good {k : TokenKeys} {is : List Issued} {p : First} {now : Nat} {used : Used}
    (hr : ∀ i ∈ is, Readable k i) (hu : Unforged k is p)
    (hg : (verifyToken k used p.ip now p.dcid (u32 p.pn) p.token).good = true) :
    ∃ i ∈ is, i.ip = p.ip ∧ i.token = p.token ∧ now ≤ endOf i ∧ (i.retry = true → p.dcid = i.rcid) ∧
      (verifyToken k used p.ip now p.dcid (u32 p.pn) p.token).odcid = i.odcid ∧
      (endOf i, p.token.drop (p.token.length - 8)) ∉ clearUsed used now ∧
      (verifyToken k used p.ip now p.dcid (u32 p.pn) p.token).used =
        (endOf i, p.token.drop (p.token.length - 8)) :: clearUsed used now := by
  unfold verifyToken at hg ⊢
  by_cases hl : p.token.length > 128
  · rw [if_pos hl] at hg; cases hg
  · rw [if_neg hl] at hg ⊢
    cases hd : framesUint64Decode p.token with
    | none => rw [hd] at hg; cases hg
    | some x =>
      obtain ⟨sequence, sealed⟩ := x
      rw [hd] at hg
      dsimp only at hg ⊢
      cases ht : k.dec sequence p.ip sealed with
      | none => rw [ht] at hg; cases hg
      | some text =>
        rw [ht] at hg
        dsimp only at hg ⊢
        obtain ⟨i, hi, i1, i2⟩ := hu sequence sealed text hd ht
        obtain ⟨sq, se, tx, pn, r1, r2, r3⟩ := (hr i hi).read
        rw [i2, hd] at r1
        cases r1
        rw [i1, ht] at r2
        cases r2
        rw [r3] at hg ⊢
        dsimp only at hg ⊢
        by_cases c1 : endOf i < now
        · rw [if_pos c1] at hg; cases hg
        · rw [if_neg c1] at hg ⊢
          by_cases c2 : u32 p.pn ≠ 4294967295 ∧ i.odcid.length > 0 ∧ pn ≥ u32 p.pn
          · rw [if_pos c2] at hg; cases hg
          · rw [if_neg c2] at hg ⊢
            by_cases c3 : (clearUsed used now).contains (endOf i, p.token.drop (p.token.length - 8)) = true
            · rw [if_pos c3] at hg; cases hg
            · rw [if_neg c3] at hg ⊢
              by_cases c4 : i.odcid.length > 0 ∧ (!compareCidEq p.dcid i.rcid) = true
              · rw [if_pos c4] at hg; cases hg
              · rw [if_neg c4]
                refine ⟨i, hi, i1, i2, by omega, ?_, rfl, ?_, rfl⟩
                · intro q
                  have := (hr i hi).odcid.1 q
                  have hn : ¬ (!compareCidEq p.dcid i.rcid) = true := fun z => c4 ⟨this, z⟩
                  unfold compareCidEq at hn
                  have h' : List.length p.dcid = List.length i.rcid ∧ p.dcid = i.rcid := by simpa using hn
                  exact h'.2
                · simpa using c3

/-- A validated packet has a token that was found good. -/
theorem screen_validated {s : Server} {now : Nat} {p : First} {od : Cid} (h : (screen s now p).1 = .created true od) :
    (verifyToken s.keys s.used p.ip now p.dcid (u32 p.pn) p.token).good = true ∧
    od = (verifyToken s.keys s.used p.ip now p.dcid (u32 p.pn) p.token).odcid ∧
    (screen s now p).2.used = (verifyToken s.keys s.used p.ip now p.dcid (u32 p.pn) p.token).used := by
  rcases screen_cases s now p with ⟨e, -⟩ | ⟨-, e⟩
  · rcases e with e | e <;> · rw [e] at h; cases h
  · rw [e] at h ⊢
    rw [admit_used]
    unfold admit at h
    dsimp only at h
    by_cases ht : p.token.length > 0
    · rw [if_pos ht] at h ⊢
      generalize verifyToken s.keys s.used p.ip now p.dcid (u32 p.pn) p.token = v at h ⊢
      by_cases c7 : (p.token.length > 0 ∧ (!v.good) = true) ∧ (!v.isNew) = true
      · rw [if_pos c7] at h; cases h
      rw [if_neg c7] at h
      by_cases c8 : ¬(p.token.length > 0 ∧ v.good = true) ∧ (s.forceToken = true ∨ s.maxHalfOpen ≤ s.halfOpen ∨
          (!s.portsOpen && portBlocked p.port blockedPorts) = true)
      · rw [if_pos c8] at h; cases h
      rw [if_neg c8] at h
      by_cases c9 : p.token.length > 0 ∧ v.good = true
      · rw [if_pos c9] at h
        cases h
        exact ⟨c9.2, rfl, rfl⟩
      · rw [if_neg c9] at h; cases h
    · rw [if_neg ht] at h
      rw [if_neg (fun q => ht q.1.1)] at h
      split at h
      · cases h
      · rw [if_neg (fun q => ht q.1)] at h
        cases h

/-- Entries of used tokens are only removed when they are too old. -/
theorem verify_used (k : TokenKeys) (used : Used) (ip : Bytes) (now : Nat) (dcid : Cid) (pn : Nat) (token : Bytes) {e : Nat × Bytes}
    (he : e ∈ used) : e ∈ (verifyToken k used ip now dcid pn token).used ∨ e.1 < now := by
  have hv : e ∈ clearUsed used now ∨ e.1 < now := by
    by_cases hlt : e.1 < now
    · exact .inr hlt
    · refine .inl (List.mem_filter.2 ⟨he, ?_⟩)
      simp; omega
  unfold verifyToken
  dsimp only
  split
  · exact .inl he
  · split
    · exact .inl he
    · split
      · exact .inl he
      · split
        · exact .inl he
        · split
          · exact .inl he
          · split
            · exact .inl he
            · rcases hv with h | h
              · left
                split
                · exact h
                · split
                  · exact List.mem_cons_of_mem _ h
                  · exact List.mem_cons_of_mem _ h
              · exact .inr h

/-- The same for the screening. -/
theorem screen_used (s : Server) (now : Nat) (p : First) {e : Nat × Bytes} (he : e ∈ s.used) :
    e ∈ (screen s now p).2.used ∨ e.1 < now := by
  rcases screen_cases s now p with ⟨-, e1⟩ | ⟨-, e1⟩
  · rw [e1]; exact .inl he
  · rw [e1, admit_used]
    split
    · exact verify_used _ _ _ _ _ _ _ he
    · exact .inl he

/-- The tokens that were used are remembered as long as they could be used. -/
theorem happens_used {k : TokenKeys} (hk : Sealing k) {t : Nat} {s : Server} {is : List Issued} {as : List Admitted}
    (h : Happens k t s is as) :
    (∀ a ∈ as, a.now ≤ t) ∧
    (∀ a ∈ as, ∀ od, a.outcome = .created true od →
      ∃ i ∈ is, i.ip = a.first.ip ∧ i.token = a.first.token ∧ a.now ≤ endOf i ∧ i.time ≤ a.now ∧
        (i.retry = true → a.first.dcid = i.rcid) ∧ od = i.odcid ∧
        ((endOf i, a.first.token.drop (a.first.token.length - 8)) ∈ s.used ∨ endOf i < t)) := by
  induction h with
  | start keys used => simp
  | settings h keys used ih =>
    refine ⟨ih.1, fun a ha od ho => ?_⟩
    obtain ⟨i, hi, h1, h2, h3, h4, h5, h6, h7⟩ := ih.2 a ha od ho
    exact ⟨i, hi, h1, h2, h3, h4, h5, h6, by rw [used]; exact h7⟩
  | retry h time end_ ol rl number make ih =>
    refine ⟨fun a ha => Nat.le_trans (ih.1 a ha) time, fun a ha od ho => ?_⟩
    obtain ⟨i, hi, h1, h2, h3, h4, h5, h6, h7⟩ := ih.2 a ha od ho
    exact ⟨i, List.mem_cons_of_mem _ hi, h1, h2, h3, h4, h5, h6, h7.imp id (fun q => Nat.lt_of_lt_of_le q time)⟩
  | newToken h time end_ make ih =>
    refine ⟨fun a ha => Nat.le_trans (ih.1 a ha) time, fun a ha od ho => ?_⟩
    obtain ⟨i, hi, h1, h2, h3, h4, h5, h6, h7⟩ := ih.2 a ha od ho
    exact ⟨i, List.mem_cons_of_mem _ hi, h1, h2, h3, h4, h5, h6, h7.imp id (fun q => Nat.lt_of_lt_of_le q time)⟩
  | @initial t now s is as p h time unforged ih =>
    refine ⟨?_, ?_⟩
    · intro a ha
      rcases List.mem_cons.1 ha with rfl | ha
      · exact Nat.le_refl _
      · exact Nat.le_trans (ih.1 a ha) time
    · intro a ha od ho
      rcases List.mem_cons.1 ha with rfl | ha
      · obtain ⟨hkeys, hread⟩ := happens_issued hk h
        dsimp only at ho ⊢
        obtain ⟨v1, v2, v3⟩ := screen_validated ho
        rw [hkeys] at v1 v2 v3
        obtain ⟨i, hi, i1, i2, i3, i4, i5, -, i6⟩ := verify_good (fun i hi => (hread i hi).1) unforged v1
        refine ⟨i, hi, i1, i2, i3, Nat.le_trans (hread i hi).2 time, i4, v2.trans i5, .inl ?_⟩
        rw [v3, i6]
        exact List.mem_cons_self
      · obtain ⟨i, hi, h1, h2, h3, h4, h5, h6, h7⟩ := ih.2 a ha od ho
        refine ⟨i, hi, h1, h2, h3, h4, h5, h6, ?_⟩
        rcases h7 with h7 | h7
        · exact screen_used s now p h7
        · exact .inr (by omega)

/-- The packets that were validated have different tokens. -/
theorem happens_once {k : TokenKeys} (hk : Sealing k) {t : Nat} {s : Server} {is : List Issued} {as : List Admitted}
    (h : Happens k t s is as) :
    as.Pairwise (fun a b => a.Validated → b.Validated → ¬(a.first.token = b.first.token ∧ a.first.ip = b.first.ip)) := by
  induction h with
  | start keys used => exact List.Pairwise.nil
  | settings h keys used ih => exact ih
  | retry h time end_ ol rl number make ih => exact ih
  | newToken h time end_ make ih => exact ih
  | @initial t now s is as p h time unforged ih =>
    refine List.Pairwise.cons ?_ ih
    rintro b hb ⟨od, ho⟩ ⟨od', ho'⟩ ⟨htok, hip⟩
    dsimp only at ho htok hip
    obtain ⟨hkeys, hread⟩ := happens_issued hk h
    obtain ⟨v1, -, -⟩ := screen_validated ho
    rw [hkeys] at v1
    obtain ⟨i, hi, i1, i2, i3, -, -, i5, -⟩ := verify_good (fun i hi => (hread i hi).1) unforged v1
    obtain ⟨j, hj, j1, j2, -, -, -, -, j3⟩ := (happens_used hk h).2 b hb od' ho'
    have hend : endOf i = endOf j := by
      obtain ⟨q1, q2, q3, q4, r1, r2, r3⟩ := (hread i hi).1.read
      obtain ⟨w1, w2, w3, w4, x1, x2, x3⟩ := (hread j hj).1.read
      rw [i2] at r1
      rw [i1] at r2
      rw [j2, ← htok, r1] at x1
      cases x1
      rw [j1, ← hip, r2] at x2
      cases x2
      rw [r3] at x3
      exact congrArg (fun o : Option (Nat × Cid × Cid × Nat) => (o.getD (0, [], [], 0)).1) x3
    rcases j3 with j3 | j3
    · apply i5
      unfold clearUsed
      rw [List.mem_filter]
      refine ⟨by rw [hend, htok]; exact j3, by simpa using i3⟩
    · omega

/-! ### Retry packets -/

/-- The bytes of a Retry packet before the token. -/
def retryFront (vn version : Nat) (clientCid serverCid : Cid) : Bytes :=
  createLongType .retry version :: picoformat32 vn ++ (u8 clientCid.length :: clientCid) ++ (u8 serverCid.length :: serverCid)

theorem retryFront_length (vn version : Nat) (c s : Cid) : (retryFront vn version c s).length = 7 + c.length + s.length := by
  unfold retryFront
  simp [picoformat32]
  omega

theorem retryPacket_eq (tag : Bytes → Bytes) (vn version : Nat) {odcid clientCid serverCid : Cid} {token : Bytes}
    (ho : odcid.length ≤ 20) (hc : clientCid.length ≤ 20) (hs : serverCid.length ≤ 20) (ht : token.length ≤ 128) :
    retryPacket tag vn version odcid clientCid serverCid token = retryFront vn version clientCid serverCid ++ token ++
      tag (u8 odcid.length :: odcid ++ (retryFront vn version clientCid serverCid ++ token)) := by
  have hl := retryFront_length vn version clientCid serverCid
  unfold retryPacket
  dsimp only
  have e : (createLong
      { ptype := .retry, version := version, vn := vn, dcid := clientCid, scid := serverCid, token := token, number := 0,
        grease := false, flags := 0, pnLength := 4, payload := [] }).1 = retryFront vn version clientCid serverCid := rfl
  have e2 : (retryFront vn version clientCid serverCid).length + token.length < MAX_PACKET_SIZE := by
    unfold MAX_PACKET_SIZE; omega
  rw [e, if_pos e2, if_pos]
  rw [List.length_append]
  unfold MAX_PACKET_SIZE
  omega

theorem retry_first (i : Nat) : createLongType .retry i &&& 0x80 = 0x80 ∧ parseLongType (createLongType .retry i) i = .retry ∧
    createLongType .retry i &&& 0x40 ≠ 0 := by
  unfold createLongType parseLongType
  cases isV2 i <;> decide

/-- The client finds in a Retry packet what the server put in. -/
theorem retry_parsed (h : Host) {vn version : Nat} {clientCid serverCid : Cid} {rest : Bytes} (hv : vn ≠ 0)
    (hv32 : vn < 2 ^ 32) (hi : versionIndex vn = some version) (hc : clientCid.length ≤ 20) (hs : serverCid.length ≤ 20)
    (hr : 0 < rest.length) (hr' : rest.length < 65536) {x : Cnx} (hx : findLong h .retry clientCid = some x) :
    parseHeader h (retryFront vn version clientCid serverCid ++ rest) = .header
      { ptype := .retry, vn := vn, version := some version, dcid := clientCid, scid := serverCid, token := [],
        offset := 7 + clientCid.length + serverCid.length, payloadLength := rest.length,
        pnOffset := 7 + clientCid.length + serverCid.length, pn64 := 0 } (some x) := by
  obtain ⟨b1, b2, b3⟩ := retry_first version
  have hl := retryFront_length vn version clientCid serverCid
  have hlen : (retryFront vn version clientCid serverCid ++ rest).length = 7 + clientCid.length + serverCid.length + rest.length := by
    rw [List.length_append, hl]
  have h32 : ∀ r, framesUint32Decode (picoformat32 vn ++ r) = some (vn, r) := by
    intro r
    rw [framesUint32Decode_iff]
    exact ⟨picoformat32 vn, rfl, rfl, bigEndian_format32 hv32⟩
  have hc1 : ∀ r, framesCidDecode 0 ((u8 clientCid.length :: clientCid) ++ r) = .ok clientCid r := by
    intro r; rw [framesCidDecode_ok_iff]; exact ⟨hc, rfl⟩
  have hc2 : ∀ r, framesCidDecode 0 ((u8 serverCid.length :: serverCid) ++ r) = .ok serverCid r := by
    intro r; rw [framesCidDecode_ok_iff]; exact ⟨hs, rfl⟩
  have e : retryFront vn version clientCid serverCid ++ rest = createLongType .retry version :: (picoformat32 vn ++
      ((u8 clientCid.length :: clientCid) ++ ((u8 serverCid.length :: serverCid) ++ rest))) := by
    unfold retryFront; simp
  unfold parseHeader
  rw [if_pos (by rw [e]; exact b1)]
  unfold parseLong
  have hfl : framesUint8Decode (retryFront vn version clientCid serverCid ++ rest) = some (createLongType .retry version,
      picoformat32 vn ++ ((u8 clientCid.length :: clientCid) ++ ((u8 serverCid.length :: serverCid) ++ rest))) := by
    rw [e]; rfl
  rw [hfl]
  dsimp only
  rw [h32]
  dsimp only
  rw [if_neg (by rw [hi]; simp), hc1]
  dsimp only
  rw [hc2]
  dsimp only
  rw [if_neg hv, hi, Option.getD_some, b2, hlen, Nat.add_sub_cancel]
  unfold parseTyped
  dsimp only
  rw [if_pos (by omega), Nat.add_sub_cancel_left]
  have hu : u16 rest.length = rest.length := by unfold u16; omega
  rw [hu]
  unfold longFound
  dsimp only
  rw [hx]
  dsimp only
  rw [if_neg (fun q => b3 q.1)]

/-- The client accepts a Retry packet of the server. -/
theorem retry_accepted {tag : Bytes → Bytes} {check : Bytes → Bytes → Bool} (hcheck : ∀ a, check a (tag a) = true)
    (htag : ∀ a, (tag a).length = 16) {vn version : Nat} {clientCid serverCid : Cid} {token : Bytes}
    (h8 : 0 < token.length) (ht : token.length ≤ 128) (hc : clientCid.length ≤ 20) (hs : serverCid.length ≤ 20)
    {c : Client} (hw : c.waiting = true) (ho : c.original = []) (hi : c.initial.length ≤ 20) (hv : c.vn = vn) {ph : Ph}
    (e1 : ph.vn = vn) (e2 : ph.pn64 = 0) (e3 : ph.offset = 7 + clientCid.length + serverCid.length)
    (e4 : ph.payloadLength = token.length + 16) (e5 : ph.scid = serverCid) :
    incomingRetry check c ph (retryPacket tag vn version c.initial clientCid serverCid token) =
      some { c with original := c.initial, initial := serverCid, token := token } := by
  have hl := retryFront_length vn version clientCid serverCid
  rw [retryPacket_eq tag vn version hi hc hs ht]
  generalize hT : tag (u8 c.initial.length :: c.initial ++ (retryFront vn version clientCid serverCid ++ token)) = T
  have hTl : T.length = 16 := by rw [← hT]; exact htag _
  unfold incomingRetry
  have n1 : ¬((!c.waiting) = true ∨ c.original.length ≠ 0) := by rw [hw, ho]; simp
  have n2 : ¬(ph.vn ≠ c.vn ∨ ph.pn64 ≠ 0) := by rw [e1, hv, e2]; simp
  rw [if_neg n1, if_neg n2]
  dsimp only
  rw [e3, e4, ← Nat.add_assoc, if_pos (by omega), Nat.add_sub_cancel]
  have l2 : (retryFront vn version clientCid serverCid ++ token).length = 7 + clientCid.length + serverCid.length + token.length := by
    rw [List.length_append, hl]
  have t1 : (retryFront vn version clientCid serverCid ++ token ++ T).take (7 + clientCid.length + serverCid.length + token.length) =
      retryFront vn version clientCid serverCid ++ token := by
    rw [← l2, List.take_left]
  have t2 : (retryFront vn version clientCid serverCid ++ token ++ T).drop (7 + clientCid.length + serverCid.length + token.length) =
      T := by
    rw [← l2, List.drop_left]
  have t3 : (retryFront vn version clientCid serverCid ++ token).drop (7 + clientCid.length + serverCid.length) = token := by
    rw [← hl, List.drop_left]
  rw [t1, t2, t3, List.take_of_length_le (by omega), ← hT, hcheck, if_pos ⟨by unfold MAX_PACKET_SIZE; omega, rfl⟩, e5]

/-- The server accepts an unused token at the right time. -/
theorem verify_issued {k : TokenKeys} (hk : Sealing k) {ip : Bytes} {time now pn n : Nat} {odcid rcid : Cid} {r0 : UInt8}
    {rnd token : Bytes} {used : Used} (ho : 0 < odcid.length) (ho' : odcid.length ≤ 20) (hr : rcid.length ≤ 20) (hp : pn < 2 ^ 32)
    (h : prepareToken k ip (time + TOKEN_DELAY_SHORT) odcid rcid pn r0 rnd = some token) (hend : time + 124000000 < 2 ^ 64)
    (hnow : now ≤ time + 124000000) (hn : pn < n) (hu : (time + 124000000, token.drop (token.length - 8)) ∉ used) :
    (verifyToken k used ip now rcid n token).good = true ∧ (verifyToken k used ip now rcid n token).odcid = odcid ∧
      0 < token.length ∧ token.length ≤ 128 := by
  obtain ⟨sq, se, tx, h1, h2, h3, h4, -, h6⟩ := prepareToken_spec hk ho' hr hp h
  have e := issued_short (i := ⟨ip, token, true, time, odcid, rcid⟩) rfl hend
  have e' : endOf ⟨ip, token, true, time, odcid, rcid⟩ = time + 124000000 := by
    unfold endOf Issued.life
    rw [if_pos rfl]
  dsimp only at e
  rw [if_neg (by omega), e, e'] at h6
  unfold verifyToken
  rw [if_neg (by omega), h1]
  dsimp only
  rw [h2]
  dsimp only
  rw [h6]
  dsimp only
  rw [if_neg (by omega), if_neg (by omega)]
  have hne : ¬ (clearUsed used now).contains (time + 124000000, token.drop (token.length - 8)) = true := by
    intro q
    rw [List.contains_iff_mem] at q
    exact hu (List.mem_filter.1 q).1
  have hcmp : compareCidEq rcid rcid = true := by unfold compareCidEq; simp
  rw [if_neg hne, hcmp, if_neg (by simp)]
  exact ⟨rfl, rfl, by omega, h4⟩

theorem screen_good {s : Server} {now : Nat} {p : First} (h : ¬ p.length < 1200) (hd : ¬ p.dcid.length < 8) (hr : p.reserved = false)
    (hc : s.clientOnly = false) (ha : p.authentic = true) (hb : s.busy = false) (hm : s.connections < s.maxConnections)
    (ht : 0 < p.token.length) (hg : (verifyToken s.keys s.used p.ip now p.dcid (u32 p.pn) p.token).good = true) :
    (screen s now p).1 = .created true (verifyToken s.keys s.used p.ip now p.dcid (u32 p.pn) p.token).odcid := by
  unfold screen
  rw [if_neg h, if_neg hd, if_neg (by rw [hr]; decide), if_neg (by rw [hc]; decide)]
  rw [if_neg (by rw [hb]; simp; omega), if_neg (by rw [ha]; decide), if_pos ht]
  generalize verifyToken s.keys s.used p.ip now p.dcid (u32 p.pn) p.token = v at hg ⊢
  unfold admit
  dsimp only
  rw [if_neg (by rw [hg]; simp), if_neg (fun q => q.1 ⟨ht, hg⟩), if_pos ⟨ht, hg⟩]

theorem portBlocked_iff {ps : List Nat} (h : ps.Pairwise (fun a b => b < a)) (p : Nat) : portBlocked p ps = true ↔ p ∈ ps := by
  induction ps with
  | nil => simp [portBlocked]
  | cons a ps ih =>
    obtain ⟨h1, h2⟩ := List.pairwise_cons.1 h
    unfold portBlocked
    by_cases c : p ≤ a
    · rw [if_pos c]
      by_cases c' : p = a
      · rw [if_pos c', c']; simp
      · rw [if_neg c', ih h2]
        simp [c']
    · rw [if_neg c]
      constructor
      · intro q; cases q
      · intro q
        rcases List.mem_cons.1 q with q | q
        · omega
        · have := h1 p q; omega

end Picoquic.Admission
