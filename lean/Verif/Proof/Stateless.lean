import Verif.Spec.Stateless
import Verif.Proof.Fixed
import Verif.Proof.PacketHeader
/-!
# Proofs about version negotiation and stateless resets
-/

namespace Picoquic.Stateless
open Picoquic.Packet Picoquic.Spec

/-! ### Resets -/

theorem padSize_bounds {rnd : ResetRandom} (h : GoodRandom rnd) {length : Nat} (hl : RESET_MIN_SIZE < length) :
    22 ≤ padSize rnd length ∧ padSize rnd length + 18 ≤ length := by
  unfold RESET_MIN_SIZE at hl
  unfold padSize RESET_MIN_SIZE
  dsimp only
  by_cases hp : length - 16 - 2 > 39 - 16 - 1
  · rw [if_pos hp]
    have := h.uniform (length - 16 - 2 - (39 - 16 - 1)) (by omega)
    omega
  · rw [if_neg hp]; omega

theorem resetPacket_length {rnd : ResetRandom} (h : GoodRandom rnd) (length : Nat) {secret : Bytes} (hs : secret.length = 16) :
    (resetPacket rnd length secret).length = padSize rnd length + 17 := by
  unfold resetPacket
  rw [List.length_cons, List.length_append, h.bytes, hs]

theorem resetPacket_last (rnd : ResetRandom) (length : Nat) {secret : Bytes} (hs : secret.length = 16) :
    lastBytes (resetPacket rnd length secret) = secret := by
  unfold lastBytes resetPacket
  rw [← List.cons_append]
  have e : ((0x40 ||| (rnd.bits &&& 0x3F)) :: rnd.bytes (padSize rnd length) ++ secret).length - 16 =
      ((0x40 ||| (rnd.bits &&& 0x3F)) :: rnd.bytes (padSize rnd length)).length := by
    simp only [List.length_append, List.length_cons, hs]; omega
  rw [e, List.drop_left]

theorem unknownPacket_some {c : ResetCtx} {bd b : Bool} {now length : Nat} {ph : Ph} {rnd : ResetRandom} {secretOf : Cid → Bytes} {p : Bytes}
    (h : (unknownPacket c bd b now length ph rnd secretOf).2 = some p) :
    ph.dcid ≠ [] ∧ (bd = true ∨ b = false) ∧ RESET_MIN_SIZE < length ∧ ph.ptype = .oneRtt ∧ c.nextTime ≤ now ∧
      p = resetPacket rnd length (secretOf ph.dcid) ∧
      (unknownPacket c bd b now length ph rnd secretOf).1 = { c with nextTime := u64 (now + c.interval) } := by
  unfold unknownPacket at h ⊢
  by_cases h1 : ph.dcid ≠ [] ∧ (bd = true ∨ (!b) = true)
  · rw [if_pos h1] at h ⊢
    unfold unexpectedCnxid at h ⊢
    by_cases h2 : length > RESET_MIN_SIZE ∧ ph.ptype = .oneRtt ∧ c.nextTime ≤ now
    · rw [if_pos h2] at h ⊢
      refine ⟨h1.1, ?_, h2.1, h2.2.1, h2.2.2, ?_, rfl⟩
      · rcases h1.2 with h | h
        · exact .inl h
        · exact .inr (by simpa using h)
      · exact (Option.some.inj h).symm
    · rw [if_neg h2] at h; cases h
  · rw [if_neg h1] at h; cases h

theorem unknownPacket_none {c : ResetCtx} {bd b : Bool} {now length : Nat} {ph : Ph} {rnd : ResetRandom} {secretOf : Cid → Bytes}
    (h : (unknownPacket c bd b now length ph rnd secretOf).2 = none) :
    (unknownPacket c bd b now length ph rnd secretOf).1 = c := by
  unfold unknownPacket at h ⊢
  split
  · next h1 =>
    rw [if_pos h1] at h
    unfold unexpectedCnxid at h ⊢
    split
    · next h2 => rw [if_pos h2] at h; cases h
    · rfl
  · rfl

theorem resetTimes_ge (bd : Bool) (secretOf : Cid → Bytes) : ∀ (es : List ResetEvent) (c : ResetCtx),
    (∀ e ∈ es, e.now + c.interval < 2 ^ 64) → ∀ t ∈ resetTimes bd secretOf c es, c.nextTime ≤ t ∧ ∃ e ∈ es, e.now = t := by
  intro es
  induction es with
  | nil => intro c _ t ht; cases ht
  | cons e es ih =>
    intro c hb t ht
    unfold resetTimes at ht
    dsimp only at ht
    cases hr : (unknownPacket c bd e.blocked e.now e.length e.ph e.rnd secretOf).2 with
    | none =>
      rw [hr, unknownPacket_none hr] at ht
      obtain ⟨h1, e', h2, h3⟩ := ih c (fun e he => hb e (List.mem_cons_of_mem _ he)) t ht
      exact ⟨h1, e', List.mem_cons_of_mem _ h2, h3⟩
    | some p =>
      obtain ⟨-, -, -, -, h5, -, h7⟩ := unknownPacket_some hr
      rw [hr, h7] at ht
      rcases List.mem_cons.1 ht with rfl | ht
      · exact ⟨h5, e, List.mem_cons_self .., rfl⟩
      · obtain ⟨h1, e', h2, h3⟩ := ih { c with nextTime := u64 (e.now + c.interval) } (fun e he => hb e (List.mem_cons_of_mem _ he)) t ht
        have h8 := hb e (List.mem_cons_self ..)
        have h9 : u64 (e.now + c.interval) = e.now + c.interval := by unfold u64; omega
        refine ⟨?_, e', List.mem_cons_of_mem _ h2, h3⟩
        have h1' : u64 (e.now + c.interval) ≤ t := h1
        rw [h9] at h1'
        omega

theorem resetTimes_pairwise (bd : Bool) (secretOf : Cid → Bytes) : ∀ (es : List ResetEvent) (c : ResetCtx),
    (∀ e ∈ es, e.now + c.interval < 2 ^ 64) → (resetTimes bd secretOf c es).Pairwise (fun a b => a + c.interval ≤ b) := by
  intro es
  induction es with
  | nil => intro c _; exact List.Pairwise.nil
  | cons e es ih =>
    intro c hb
    unfold resetTimes
    dsimp only
    cases hr : (unknownPacket c bd e.blocked e.now e.length e.ph e.rnd secretOf).2 with
    | none =>
      rw [unknownPacket_none hr]
      exact ih c (fun e he => hb e (List.mem_cons_of_mem _ he))
    | some p =>
      obtain ⟨-, -, -, -, h5, -, h7⟩ := unknownPacket_some hr
      rw [h7]
      refine List.Pairwise.cons ?_ (ih { c with nextTime := u64 (e.now + c.interval) } (fun e he => hb e (List.mem_cons_of_mem _ he)))
      intro t ht
      obtain ⟨h1, -⟩ := resetTimes_ge bd secretOf es { c with nextTime := u64 (e.now + c.interval) } (fun e he => hb e (List.mem_cons_of_mem _ he)) t ht
      have h8 := hb e (List.mem_cons_self ..)
      have h9 : u64 (e.now + c.interval) = e.now + c.interval := by unfold u64; omega
      have h1' : u64 (e.now + c.interval) ≤ t := h1
      rw [h9] at h1'
      exact h1'

theorem resetFirst (b : UInt8) : (0x40 ||| (b &&& 0x3F)) &&& 0x80 ≠ 0x80 ∧ (0x40 ||| (b &&& 0x3F)) &&& 0x40 ≠ 0 ∧
    (0x40 ||| (b &&& 0x3F)) &&& 0xC0 = 0x40 := by
  have h : ∀ x : Fin 256, (0x40 ||| (UInt8.ofNat x.val &&& 0x3F)) &&& 0x80 ≠ 0x80 ∧ (0x40 ||| (UInt8.ofNat x.val &&& 0x3F)) &&& 0x40 ≠ 0 ∧
      (0x40 ||| (UInt8.ofNat x.val &&& 0x3F)) &&& 0xC0 = 0x40 := by decide +kernel
  have := h ⟨b.toNat, b.toNat_lt⟩
  simpa using this

/-! ### Version negotiation -/

theorem greaseVn_lt (r : Nat) : greaseVn r < 2 ^ 32 := by
  unfold greaseVn
  exact Nat.or_lt_two_pow (Nat.lt_of_le_of_lt Nat.and_le_right (by decide)) (by decide)

theorem versionTable_lt : ∀ e ∈ versionTable, e.1 < 2 ^ 32 := by decide

theorem versionIndex_isSome {vn : Nat} : (versionIndex vn).isSome ↔ vn ∈ versionTable.map (·.1) := by
  unfold versionIndex
  rw [List.findIdx?_isSome, List.any_eq_true, List.mem_map]
  constructor
  · rintro ⟨e, h1, h2⟩; exact ⟨e, h1, by simpa using h2⟩
  · rintro ⟨e, h1, h2⟩; exact ⟨e, h1, by simpa using h2⟩

theorem VersionList.format (vs : List Nat) (h : ∀ v ∈ vs, v < 2 ^ 32) : VersionList vs (vs.map picoformat32).flatten := by
  induction vs with
  | nil => exact .nil
  | cons v vs ih =>
    rw [List.map_cons, List.flatten_cons]
    exact .cons rfl (bigEndian_format32 (h v (List.mem_cons_self ..))) (ih (fun v hv => h v (List.mem_cons_of_mem _ hv)))

theorem VersionList.length {vs : List Nat} {bs : Bytes} (h : VersionList vs bs) : bs.length = 4 * vs.length := by
  induction h with
  | nil => rfl
  | cons h hv t ih => rw [List.length_append, h, ih, List.length_cons]; omega

theorem vnScan_iff (proposed : Nat) : ∀ fuel (bs : Bytes), bs.length ≤ fuel → ∀ n,
    vnScan proposed fuel bs = some n ↔ ∃ vs, VersionList vs bs ∧ proposed ∉ vs ∧ 0 ∉ vs ∧ n = (vs.filter (fun v => (versionIndex v).isSome)).length := by
  intro fuel
  induction fuel with
  | zero =>
    intro bs hl n
    have : bs = [] := List.length_eq_zero_iff.1 (by omega)
    subst this
    unfold vnScan
    constructor
    · intro h; cases h; exact ⟨[], .nil, List.not_mem_nil, List.not_mem_nil, rfl⟩
    · rintro ⟨vs, h1, -, -, h4⟩
      cases vs with
      | nil => rw [h4]; rfl
      | cons v vs => have := VersionList.length h1; simp at this
  | succ fuel ih =>
    intro bs hl n
    unfold vnScan
    by_cases hb : bs = []
    · rw [if_pos hb]
      subst hb
      constructor
      · intro h; cases h; exact ⟨[], .nil, List.not_mem_nil, List.not_mem_nil, rfl⟩
      · rintro ⟨vs, h1, -, -, h4⟩
        cases vs with
        | nil => rw [h4]; rfl
        | cons v vs => have := VersionList.length h1; simp at this
    · rw [if_neg hb]
      cases hd : framesUint32Decode bs with
      | none =>
        dsimp only
        constructor
        · intro h; cases h
        · rintro ⟨vs, h1, -⟩
          cases h1 with
          | nil => exact absurd rfl hb
          | @cons v vs p bytes h hv t =>
            rw [(framesUint32Decode_iff _ v bytes).2 ⟨p, h, rfl, hv⟩] at hd
            cases hd
      | some x =>
        obtain ⟨vn, r⟩ := x
        dsimp only
        obtain ⟨p, h1, h2, h3⟩ := (framesUint32Decode_iff _ _ _).1 hd
        have hr : r.length ≤ fuel := by
          have := congrArg List.length h2
          rw [List.length_append] at this; omega
        have inv : ∀ vs, VersionList vs bs → ∃ vs', vs = vn :: vs' ∧ VersionList vs' r := by
          intro vs h
          cases h with
          | nil => exact absurd rfl hb
          | @cons v vs p' bytes h hv t =>
            have e : framesUint32Decode (p' ++ bytes) = some (v, bytes) := (framesUint32Decode_iff _ v bytes).2 ⟨p', h, rfl, hv⟩
            rw [e] at hd
            cases hd
            exact ⟨vs, rfl, t⟩
        by_cases hv : vn = proposed ∨ vn = 0
        · rw [if_pos hv]
          constructor
          · intro h; cases h
          · rintro ⟨vs, g1, g2, g3, -⟩
            obtain ⟨vs', rfl, -⟩ := inv vs g1
            rcases hv with hv | hv
            · exact absurd (hv ▸ List.mem_cons_self ..) g2
            · exact absurd (hv ▸ List.mem_cons_self ..) g3
        · rw [if_neg hv]
          have hv1 : vn ≠ proposed := fun h => hv (.inl h)
          have hv2 : vn ≠ 0 := fun h => hv (.inr h)
          have cnt : ∀ vs' : List Nat, ((vn :: vs').filter (fun v => (versionIndex v).isSome)).length =
              if (versionIndex vn).isSome then (vs'.filter (fun v => (versionIndex v).isSome)).length + 1
              else (vs'.filter (fun v => (versionIndex v).isSome)).length := by
            intro vs'
            rw [List.filter_cons]
            split <;> rfl
          cases hs : vnScan proposed fuel r with
          | none =>
            dsimp only
            constructor
            · intro h; cases h
            · rintro ⟨vs, g1, g2, g3, -⟩
              obtain ⟨vs', rfl, g4⟩ := inv vs g1
              rw [(ih r hr _).2 ⟨vs', g4, fun h => g2 (List.mem_cons_of_mem _ h), fun h => g3 (List.mem_cons_of_mem _ h), rfl⟩] at hs
              cases hs
          | some m =>
            dsimp only
            obtain ⟨vs', k1, k2, k3, k4⟩ := (ih r hr m).1 hs
            constructor
            · intro h
              refine ⟨vn :: vs', h2 ▸ .cons h1 h3 k1, ?_, ?_, ?_⟩
              · intro h; rcases List.mem_cons.1 h with h | h
                · exact hv1 h.symm
                · exact k2 h
              · intro h; rcases List.mem_cons.1 h with h | h
                · exact hv2 h.symm
                · exact k3 h
              · rw [cnt, ← k4]; exact (Option.some.inj h).symm
            · rintro ⟨vs, g1, g2, g3, g4⟩
              obtain ⟨vs'', rfl, g5⟩ := inv vs g1
              have hm := (ih r hr ((vs''.filter (fun v => (versionIndex v).isSome)).length)).2
                ⟨vs'', g5, fun h => g2 (List.mem_cons_of_mem _ h), fun h => g3 (List.mem_cons_of_mem _ h), rfl⟩
              rw [hs] at hm
              rw [g4, cnt, ← Option.some.inj hm]

theorem or80 (b : UInt8) : 128 ≤ (b ||| 0x80).toNat := by
  have h : ∀ x : Fin 256, 128 ≤ (UInt8.ofNat x.val ||| 0x80).toNat := by decide +kernel
  have := h ⟨b.toNat, b.toNat_lt⟩
  simpa using this

theorem ge128 {b : UInt8} (h : 128 ≤ b.toNat) : b &&& 0x80 = 0x80 := by
  have g : ∀ x : Fin 256, 128 ≤ x.val → UInt8.ofNat x.val &&& 0x80 = 0x80 := by decide +kernel
  have := g ⟨b.toNat, b.toNat_lt⟩ h
  simpa using this

theorem vnPacket_message (first : UInt8) (r : Nat) (dcid scid : Cid) :
    VnMessage scid dcid (versionTable.map (·.1) ++ [greaseVn r]) (vnPacket first r dcid scid) := by
  refine ⟨first ||| 0x80, ((versionTable.map (·.1) ++ [greaseVn r]).map picoformat32).flatten, or80 first, ?_, ?_⟩
  · apply VersionList.format
    intro v hv
    rw [List.mem_append, List.mem_map, List.mem_singleton] at hv
    rcases hv with ⟨e, h1, rfl⟩ | rfl
    · exact versionTable_lt e h1
    · exact greaseVn_lt r
  · unfold vnPacket
    have e0 : picoformat32 0 = [0, 0, 0, 0] := by decide
    rw [e0, List.map_append, List.flatten_append, List.map_map]
    simp only [List.map_cons, List.map_nil, List.flatten_cons, List.flatten_nil, List.append_nil, List.append_assoc]
    rfl

theorem vnPacket_length (first : UInt8) (r : Nat) (dcid scid : Cid) :
    (vnPacket first r dcid scid).length = 63 + scid.length + dcid.length := by
  obtain ⟨f, t, -, h2, h3⟩ := vnPacket_message first r dcid scid
  rw [h3]
  have := VersionList.length h2
  have e : (versionTable.map (·.1) ++ [greaseVn r]).length = 14 := by
    rw [List.length_append, List.length_map]; rfl
  rw [e] at this
  simp only [List.length_cons, List.length_append, this, List.length_nil]
  omega

theorem vnFound_none {h : Host} {dcid : Cid} (hn : h.cidLength = 0 → h.byNet = none) (hn1 : h.byId dcid = none)
    (hn2 : h.byIcid dcid = none) : vnFound h dcid = none := by
  unfold vnFound
  have e : (if dcid.length = h.cidLength then (if h.cidLength = 0 then h.byNet else h.byId dcid) else none) = none := by
    split
    · split
      · next h0 => exact hn h0
      · exact hn1
    · rfl
  rw [e]
  dsimp only
  rw [hn2]
  split <;> rfl

theorem vnFound_some {h : Host} {dcid : Cid} (hd : dcid.length ≤ 20)
    (hk : (dcid ≠ [] ∧ dcid.length = h.cidLength ∧ h.byId dcid ≠ none) ∨ h.byIcid dcid ≠ none) : vnFound h dcid ≠ none := by
  unfold vnFound
  rw [if_pos hd]
  rcases hk with ⟨h1, h2, h3⟩ | hk
  · have h0 : ¬h.cidLength = 0 := by
      intro h0
      rw [h0] at h2
      exact h1 (List.length_eq_zero_iff.1 h2)
    rw [if_pos h2, if_neg h0]
    cases hb : h.byId dcid with
    | none => exact absurd hb h3
    | some c => intro h; cases h
  · split
    · intro h; cases h
    · exact hk

/-- The fields that the server reads in the packet of a client. -/
theorem vnAnswer_eq (h : Host) (first flags : UInt8) (r vn : Nat) (dcid scid rest : Bytes) (hd : dcid.length ≤ 255) (hs : scid.length ≤ 255) :
    vnAnswer h first r (flags :: (picoformat32 vn ++ (u8 dcid.length :: dcid) ++ (u8 scid.length :: scid) ++ rest)) =
      match vnFound h dcid with
      | some _ => .silent
      | none => .packet (vnPacket first r dcid scid) := by
  have e4 : (picoformat32 vn).length = 4 := rfl
  have hd8 : (u8 dcid.length).toNat = dcid.length := by simp [u8_toNat]; omega
  have hs8 : (u8 scid.length).toNat = scid.length := by simp [u8_toNat]; omega
  generalize hb : (flags :: (picoformat32 vn ++ (u8 dcid.length :: dcid) ++ (u8 scid.length :: scid) ++ rest)) = bs
  have b1 : bs = (flags :: picoformat32 vn) ++ (u8 dcid.length :: (dcid ++ (u8 scid.length :: (scid ++ rest)))) := by
    rw [← hb]; simp
  have b2 : bs = (flags :: picoformat32 vn ++ [u8 dcid.length]) ++ (dcid ++ (u8 scid.length :: (scid ++ rest))) := by
    rw [← hb]; simp
  have b3 : bs = (flags :: picoformat32 vn ++ [u8 dcid.length] ++ dcid) ++ (u8 scid.length :: (scid ++ rest)) := by
    rw [← hb]; simp
  have b4 : bs = (flags :: picoformat32 vn ++ [u8 dcid.length] ++ dcid ++ [u8 scid.length]) ++ (scid ++ rest) := by
    rw [← hb]; simp
  have g5 : bs[5]? = some (u8 dcid.length) := by
    rw [b1, List.getElem?_append_right (by simp [e4])]; simp [e4]
  have g6 : bs[6 + dcid.length]? = some (u8 scid.length) := by
    rw [b3, List.getElem?_append_right (by simp [e4]; omega)]; simp [e4]; 
    rw [show 6 + dcid.length - (4 + (dcid.length + 1) + 1) = 0 by omega]
    rfl
  have t6 : (bs.drop 6).take dcid.length = dcid := by
    rw [b2]
    rw [List.drop_append_of_le_length (by simp [e4])]
    rw [List.drop_of_length_le (by simp [e4])]
    simp
  have t7 : (bs.drop (7 + dcid.length)).take scid.length = scid := by
    rw [b4, List.drop_append_of_le_length (by simp [e4]; omega), List.drop_of_length_le (by simp [e4]; omega)]
    simp
  unfold vnAnswer
  rw [g5]
  dsimp only
  rw [hd8, g6]
  dsimp only
  rw [hs8, t6, t7, if_neg (Nat.lt_irrefl _)]
  cases vnFound h dcid <;> rfl

theorem vnAnswer_inBounds (h : Host) (first : UInt8) (r : Nat) (bs : Bytes) (hl : 517 ≤ bs.length) :
    vnAnswer h first r bs ≠ .overread := by
  unfold vnAnswer
  have g5 : bs[5]? = some (bs[5]'(by omega)) := List.getElem?_eq_getElem _
  rw [g5]
  dsimp only
  generalize bs[5]'(by omega) = dl
  have hdl := dl.toNat_lt
  have g6 : bs[6 + dl.toNat]? = some (bs[6 + dl.toNat]'(by omega)) := List.getElem?_eq_getElem _
  rw [g6]
  dsimp only
  generalize bs[6 + dl.toNat]'(by omega) = sl
  have hsl := sl.toNat_lt
  split
  · intro hc; cases hc
  · rw [if_neg]
    · intro hc; cases hc
    · rw [List.length_take, List.length_drop]; omega

theorem vnAnswer_length (h : Host) (first : UInt8) (r : Nat) (bs p : Bytes) (he : vnAnswer h first r bs = .packet p) :
    p.length ≤ 573 := by
  unfold vnAnswer at he
  split at he
  · cases he
  · next dl _ =>
    split at he
    · cases he
    · next sl _ =>
      dsimp only at he
      split at he
      · cases he
      · split at he
        · cases he
        · cases he
          rw [vnPacket_length, List.length_take, List.length_take]
          have := dl.toNat_lt
          have := sl.toNat_lt
          omega

/-- The parsing of a version negotiation packet. -/
theorem parseHeader_vn (h : Host) {dest source : Cid} {vs : List Nat} {p : Bytes} (m : VnMessage dest source vs p) (hd : dest.length ≤ 20)
    (hs : source.length ≤ 20) : ∃ ph tail, parseHeader h p = .header ph (findOther h dest) ∧ ph.ptype = .versionNegotiation ∧ ph.vn = 0 ∧
      ph.dcid = dest ∧ ph.scid = source ∧ p.drop ph.offset = tail ∧ VersionList vs tail := by
  obtain ⟨first, tail, h1, h2, h3⟩ := m
  have h4 : p = first :: ([0, 0, 0, 0] ++ ((u8 dest.length :: (dest ++ (u8 source.length :: (source ++ tail)))))) := by
    rw [h3]; simp [u8]
  have e32 : framesUint32Decode ([0, 0, 0, 0] ++ ((u8 dest.length :: (dest ++ (u8 source.length :: (source ++ tail)))))) =
      some (0, u8 dest.length :: (dest ++ (u8 source.length :: (source ++ tail)))) := rfl
  have c1 : framesCidDecode 0 (u8 dest.length :: (dest ++ (u8 source.length :: (source ++ tail)))) = .ok dest (u8 source.length :: (source ++ tail)) := by
    rw [framesCidDecode_ok_iff]; exact ⟨hd, rfl⟩
  have c2 : framesCidDecode 0 (u8 source.length :: (source ++ tail)) = .ok source tail := by
    rw [framesCidDecode_ok_iff]; exact ⟨hs, rfl⟩
  have hp : p.headD 0 &&& 0x80 = 0x80 := by rw [h4]; exact ge128 h1
  have hoff : p.drop (p.length - tail.length) = tail := by
    rw [h4]
    have : first :: ([0, 0, 0, 0] ++ ((u8 dest.length :: (dest ++ (u8 source.length :: (source ++ tail)))))) =
      (first :: ([0, 0, 0, 0] ++ (u8 dest.length :: (dest ++ (u8 source.length :: source))))) ++ tail := by simp
    rw [this, List.length_append, Nat.add_sub_cancel, List.drop_left]
  refine ⟨{ ptype := .versionNegotiation, vn := 0, version := versionIndex 0, dcid := dest,
            scid := source, token := [], offset := p.length - tail.length, payloadLength := u16 (p.length - (p.length - tail.length)),
            pnOffset := 0, pn64 := 0 }, tail, ?_, rfl, rfl, rfl, rfl, hoff, h2⟩
  unfold parseHeader
  rw [if_pos hp]
  unfold parseLong
  have e8 : framesUint8Decode p = some (first, [0, 0, 0, 0] ++ ((u8 dest.length :: (dest ++ (u8 source.length :: (source ++ tail)))))) := by
    rw [h4]; rfl
  rw [e8]
  dsimp only
  rw [e32]
  dsimp only
  rw [if_neg (by simp), c1]
  dsimp only
  rw [c2]
  dsimp only
  rw [if_pos rfl]

/-- A version negotiation packet is not answered by another one. -/
theorem parseHeader_vn_supported (h : Host) (flags : UInt8) (rest : Bytes) (hf : 128 ≤ flags.toNat) :
    parseHeader h (flags :: ([0, 0, 0, 0] ++ rest)) ≠ .unsupported := by
  have hp : (flags :: ([0, 0, 0, 0] ++ rest)).headD 0 &&& 0x80 = 0x80 := ge128 hf
  unfold parseHeader
  rw [if_pos hp]
  unfold parseLong
  have e8 : framesUint8Decode (flags :: ([0, 0, 0, 0] ++ rest)) = some (flags, [0, 0, 0, 0] ++ rest) := rfl
  have e32 : framesUint32Decode ([0, 0, 0, 0] ++ rest) = some (0, rest) := rfl
  rw [e8]
  dsimp only
  rw [e32]
  dsimp only
  rw [if_neg (by simp)]
  split
  · split
    · rw [if_pos rfl]; intro h; cases h
    · intro h; cases h
  · intro h; cases h

end Picoquic.Stateless
