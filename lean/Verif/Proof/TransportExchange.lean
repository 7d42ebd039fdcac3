import Verif.Proof.TransportEmit
/-!
# Transport parameters: the exchange between two connections
-/

namespace Picoquic.TransportParams
open Picoquic Picoquic.Spec

theorem greaseType_range (a : Conn) : greaseType a % 31 = 27 ∧ greaseType a ≤ 7963 ∧ greaseType a ≠ 3127 := by
  have h1 : (a.initialCid.getD 0 0).toNat < 256 := UInt8.toNat_lt _
  have h2 : a.client.toNat ≤ 1 := Bool.toNat_le _
  unfold greaseType
  dsimp only
  split <;> omega

theorem mem_opt {c : Bool} {t t' : Nat} {v v' : Bytes} :
    (t, v) ∈ opt c t' v' ↔ c = true ∧ t = t' ∧ v = v' := by
  unfold opt
  cases c <;> simp

theorem val_bytes {n : Nat} (h : n < 2 ^ 62) : val (varintBytes n) = n := val_varint (Ack.varintBytes_varint h)

/-! ### Each parameter is good -/

theorem good_int (c : Conn) (t n : Nat) (hn : n < 2 ^ 62) (hi : IntegerType t) (hl : LegalInteger t n)
    (h3 : t = 3 → n ≤ 65527) : Good c t (varintBytes n) := by
  have hv := Ack.varintBytes_varint hn
  have h := hi
  unfold IntegerType at h
  refine ⟨fun _ => ⟨n, hv, hl⟩, fun e => by rw [val_varint hv]; exact h3 e, ⟨?_, ?_, ?_, ?_⟩, ?_, ?_, ?_⟩
  all_goals
    intro e
    exfalso
    first
      | (subst e; revert h; decide)
      | (rcases e with rfl | rfl <;> revert h <;> decide)
      | (rcases e with rfl | rfl | rfl <;> revert h <;> decide)

/-- A parameter that picoquic ignores. -/
theorem good_other (c : Conn) (t : Nat) (v : Bytes) (h : ¬ IntegerType t)
    (h' : t ∉ [0, 2, 12, 13, 15, 16, 0x11, 0x2ab2]) : Good c t v := by
  simp only [List.mem_cons, List.not_mem_nil, or_false, not_or] at h'
  obtain ⟨h0, h2, h12, h13, h15, h16, h11, hg⟩ := h'
  refine ⟨fun e => absurd e h, ?_, ⟨?_, ?_, ?_, ?_⟩, ?_, ?_, ?_⟩
  · rintro rfl; exact absurd (by decide) h
  all_goals
    intro e
    exfalso
    first
      | (rcases e with e | e | e <;> first | exact h0 e | exact h15 e | exact h16 e)
      | (rcases e with e | e <;> first | exact h12 e | exact hg e)
      | exact h2 e
      | exact h13 e
      | exact h15 e
      | exact h11 e

theorem good_flag (c : Conn) (t : Nat) (h : t = 12 ∨ t = 0x2ab2) : Good c t [] := by
  refine ⟨?_, ?_, ⟨fun _ => rfl, ?_, ?_, ?_⟩, ?_, ?_, ?_⟩ <;> rcases h with rfl | rfl
  all_goals first | (intro e; exfalso; revert e; decide) | skip

theorem good_cid (c : Conn) (t : Nat) (v : Bytes) (h : t = 0 ∨ t = 15 ∨ t = 16) (hl : v.length ≤ 20)
    (hs : t = 15 → v = c.remoteCid) : Good c t v := by
  refine ⟨?_, ?_, ⟨?_, fun _ => hl, ?_, ?_⟩, hs, ?_, ?_⟩ <;> rcases h with rfl | rfl | rfl
  all_goals (intro e; exfalso; revert e; decide)

theorem good_token (c : Conn) (v : Bytes) (hl : v.length = 16) (hc : c.client = true) : Good c 2 v := by
  refine ⟨?_, ?_, ⟨?_, ?_, fun _ => hl, ?_⟩, ?_, fun _ => hc, ?_⟩
  all_goals (intro e; exfalso; revert e; decide)

theorem good_version (c : Conn) (v : Bytes) (h : VersionsAgree c v) : Good c 0x11 v := by
  refine ⟨?_, ?_, ⟨?_, ?_, ?_, ?_⟩, ?_, ?_, fun _ => versionsGood_of_agree h⟩
  all_goals (intro e; exfalso; revert e; decide)

theorem preferredValue_legal (p : PreferredAddress) (h4 : p.ipv4.length = 4) (h6 : p.ipv6.length = 16)
    (h1 : 1 ≤ List.length p.cid) (h2 : List.length p.cid ≤ 20) (h3 : p.token.length = 16) :
    LegalBlock 13 (preferredValue p) := by
  refine ⟨?_, ?_, ?_, fun _ => ⟨p.ipv4, picoformat16 p.ipv4Port, p.ipv6, picoformat16 p.ipv4Port,
    [u8 (List.length p.cid)], p.cid, p.token, rfl, h4, rfl, h6, rfl, rfl, ?_, h1, h2, h3⟩⟩
  · intro e; exfalso; revert e; decide
  · intro e; exfalso; revert e; decide
  · intro e; exfalso; revert e; decide
  · simp only [bigEndian, List.length_nil, u8_toNat]
    omega

theorem good_preferred (c : Conn) (v : Bytes) (h : LegalBlock 13 v) : Good c 13 v := by
  refine ⟨?_, ?_, h, ?_, ?_, ?_⟩
  all_goals (intro e; exfalso; revert e; decide)

theorem legalInteger_free {t n : Nat}
    (h : t ∉ [3, 8, 9, 10, 11, 0x1057, 0xff04de1b, 0x7158, 0xebd9, 0x9f81a176]) : LegalInteger t n := by
  simp only [List.mem_cons, List.not_mem_nil, or_false, not_or] at h
  obtain ⟨h1, h2, h3, h4, h5, h6, h7, h8, h9, h10⟩ := h
  exact ⟨fun e => absurd e h1, fun e => absurd e (not_or.mpr ⟨h2, h3⟩), fun e => absurd e h4,
    fun e => absurd e h5, fun e => absurd e h6, fun e => absurd e h7, fun e => absurd e h8,
    fun e => absurd e h9, fun e => absurd e h10⟩

/-- Legality of one integer, by its own rule. -/
theorem legalInteger_of {t n : Nat}
    (h : (t = 3 ∧ 1200 ≤ n) ∨ ((t = 8 ∨ t = 9) ∧ n ≤ 2 ^ 60) ∨ (t = 10 ∧ n ≤ 20) ∨ (t = 11 ∧ n < 2 ^ 14) ∨
      (t = 0x1057 ∧ n ≤ 1) ∨ (t = 0xff04de1b ∧ 1 ≤ n ∧ n < 2 ^ 24) ∨ (t = 0x7158 ∧ 1 ≤ n ∧ n ≤ 3) ∨
      (t = 0xebd9 ∧ n ≤ 1) ∨ (t = 0x9f81a176 ∧ n ≤ 2)) : LegalInteger t n := by
  unfold LegalInteger
  omega

theorem agreed_versions {a b : Conn} (hl : LegalSettings a) (hp : Peers a b) :
    VersionsAgree b ((versionList a).flatMap picoformat32) := by
  have hw : ∀ w ∈ versionList a, w < 2 ^ 32 := by
    intro w hm
    unfold versionList at hm
    rcases List.mem_cons.mp hm with rfl | hm
    · exact hl.version.1
    · cases hc : a.client with
      | true =>
        rw [hc, if_pos rfl] at hm
        split at hm
        · simp only [List.mem_cons, List.not_mem_nil, or_false] at hm
          rcases hm with rfl | rfl
          · exact hl.version.2
          · exact hl.version.1
        · simp only [List.mem_cons, List.not_mem_nil, or_false] at hm
          rw [hm]; exact hl.version.1
      | false =>
        rw [hc, if_neg (by decide)] at hm
        have key : ∀ w ∈ supportedVersions.map Prod.fst, w < 2 ^ 32 := by decide
        exact key w hm
  refine ⟨(versionList a).tail, ?_, ?_, ?_⟩
  · rw [versionWords_flatMap _ hw, hp.version]
    rfl
  · rw [flatMap32_length]; omega
  · intro hb w hm
    have ha : a.client = true := by
      have := hp.roles
      rw [hb] at this
      cases h : a.client with
      | true => rfl
      | false => rw [h] at this; cases this
    unfold versionList at hm
    rw [List.tail_cons, ha, if_pos rfl] at hm
    rw [hp.version]
    split at hm
    · rename_i hd
      simp only [List.mem_cons, List.not_mem_nil, or_false] at hm
      rcases hm with rfl | rfl
      · rcases hp.desired ha with e | e | e | e
        · exact absurd e hd.1
        · exact absurd e hd.2
        · exact .inr (.inl e)
        · exact .inr (.inr e)
      · exact .inl rfl
    · simp only [List.mem_cons, List.not_mem_nil, or_false] at hm
      exact .inl hm

theorem advertised_eq (a : Conn) : (prepareLocal a).loc.maxDatagram = advertisedDatagram a := by
  unfold prepareLocal advertisedDatagram
  split <;> rfl

theorem segments_good {a b : Conn} (hl : LegalSettings a) (hp : Peers a b) (n : Nat) :
    ∀ t v, (t, v) ∈ (segments a n).flatten → Good b t v := by
  intro t v hm
  unfold segments at hm
  simp only [List.flatten_cons, List.flatten_nil, List.append_nil, List.mem_append, mem_opt,
    List.mem_cons, List.not_mem_nil, or_false, Prod.mk.injEq, decide_eq_true_eq] at hm
  obtain ⟨g1, g2, g3⟩ := greaseType_range a
  rcases hm with ⟨rfl, rfl⟩ | ⟨rfl, rfl⟩ | ⟨h, rfl, rfl⟩ | ⟨h, rfl, rfl⟩ | ⟨rfl, rfl⟩ | ⟨h, rfl, rfl⟩ |
    ⟨h, rfl, rfl⟩ | hm | ⟨h, rfl, rfl⟩ | ⟨h, rfl, rfl⟩ | ⟨h, rfl, rfl⟩ | ⟨h, rfl, rfl⟩ | ⟨h, rfl, rfl⟩ |
    ⟨rfl, rfl⟩ | ⟨h, rfl, rfl⟩ | ⟨h, rfl, rfl⟩ | ⟨h, rfl, rfl⟩ | ⟨h, rfl, rfl⟩ | ⟨h, rfl, rfl⟩ |
    ⟨h, rfl, rfl⟩ | ⟨h, rfl, rfl⟩ | ⟨h, rfl, rfl⟩ | ⟨h, rfl, rfl⟩ | ⟨h, rfl, rfl⟩ | ⟨h, rfl, rfl⟩ |
    ⟨h, rfl, rfl⟩ | ⟨h, rfl, rfl⟩ | ⟨h, rfl, rfl⟩ | ⟨h, rfl, rfl⟩ | ⟨h, rfl, rfl⟩
  · exact good_int b 5 _ hl.bidiLocal (by decide) (legalInteger_free (by decide)) (fun h => absurd h (by decide))
  · exact good_int b 4 _ hl.data (by decide) (legalInteger_free (by decide)) (fun h => absurd h (by decide))
  · have := hl.streamsBidi
    exact good_int b 8 _ (by omega) (by decide) (legalInteger_of (by omega)) (fun h => absurd h (by decide))
  · exact good_int b 1 _ hl.idle (by decide) (legalInteger_free (by decide)) (fun h => absurd h (by decide))
  · have := hl.packet
    exact good_int b 3 _ (by omega) (by decide) (legalInteger_of (by omega)) (fun _ => this.2)
  · have := hl.exponent
    exact good_int b 10 _ (by omega) (by decide) (legalInteger_of (by omega)) (fun h => absurd h (by decide))
  · have := hl.streamsUni
    exact good_int b 9 _ (by omega) (by decide) (legalInteger_of (by omega)) (fun h => absurd h (by decide))
  · cases hpr : a.loc.preferred with
    | none => rw [hpr] at hm; cases hm
    | some x =>
      rw [hpr] at hm
      simp only [preferredSegment, List.mem_cons, List.not_mem_nil, or_false, Prod.mk.injEq] at hm
      obtain ⟨rfl, rfl⟩ := hm
      obtain ⟨_, p1, p2, _, _, p3, p4, p5⟩ := hl.preferred x hpr
      exact good_preferred b _ (preferredValue_legal x p1 p2 p3 p4 p5)
  · exact good_flag b 12 (.inl rfl)
  · exact good_int b 6 _ hl.bidiRemote (by decide) (legalInteger_free (by decide)) (fun h => absurd h (by decide))
  · exact good_int b 7 _ hl.uni (by decide) (legalInteger_free (by decide)) (fun h => absurd h (by decide))
  · have := hl.cidLimit
    exact good_int b 14 _ (by omega) (by decide) (legalInteger_free (by decide)) (fun h => absurd h (by decide))
  · have := hl.ackDelay
    have hu : u32 (a.loc.maxAckDelay + 999) = a.loc.maxAckDelay + 999 := by unfold u32; omega
    rw [hu]
    exact good_int b 11 _ (by omega) (by decide) (legalInteger_of (by omega)) (fun h => absurd h (by decide))
  · exact good_cid b 15 _ (.inr (.inl rfl)) hl.cids.1 (fun _ => hp.source.symm)
  · exact good_cid b 0 _ (.inl rfl) hl.cids.2.2 (fun h => absurd h (by decide))
  · exact good_cid b 16 _ (.inr (.inr rfl)) hl.cids.2.1 (fun h => absurd h (by decide))
  · exact good_cid b 0 _ (.inl rfl) hl.cids.2.1 (fun h => absurd h (by decide))
  · refine good_token b _ hl.secret ?_
    rw [hp.roles]; exact h
  · have h1 := hl.datagram
    have h2 : (prepareLocal a).loc.maxDatagram < 2 ^ 32 := by
      rw [advertised_eq]; unfold advertisedDatagram; split <;> omega
    exact good_int b 32 _ (by omega) (by decide) (legalInteger_free (by decide)) (fun h => absurd h (by decide))
  · refine good_other b _ _ ?_ ?_
    · unfold IntegerType
      simp only [List.mem_cons, List.not_mem_nil, or_false]
      omega
    · simp only [List.mem_cons, List.not_mem_nil, or_false]
      omega
  · exact good_other b 3127 _ (by decide) (fun h => absurd h (by decide))
  · exact good_int b 0x1057 _ (by split <;> decide) (by decide)
      (legalInteger_of (by split <;> omega)) (fun h => absurd h (by decide))
  · have := hl.minAckDelay
    exact good_int b 0xff04de1b _ (by omega) (by decide) (legalInteger_of (by omega)) (fun h => absurd h (by decide))
  · have := hl.timeStamp
    exact good_int b 0x7158 _ (by omega) (by decide) (legalInteger_of (by omega)) (fun h => absurd h (by decide))
  · exact good_flag b 0x2ab2 (.inr rfl)
  · exact good_version b _ (agreed_versions hl hp)
  · have := hl.bdp
    exact good_int b 0xebd9 _ (by omega) (by decide) (legalInteger_of (by omega)) (fun h => absurd h (by decide))
  · exact good_int b 0x0f739bbc1b666d0d _ hl.pathId (by decide) (legalInteger_free (by decide)) (fun h => absurd h (by decide))
  · have := hl.discovery
    exact good_int b 0x9f81a176 _ (by omega) (by decide) (legalInteger_of (by omega)) (fun h => absurd h (by decide))
  · exact good_other b 3127 _ (by decide) (fun h => absurd h (by decide))

/-! ### The types written -/

/-- Segments that hold nothing, or one parameter of the type given. -/
def Aligned : List (List (Nat × Bytes)) → List Nat → Prop
  | [], [] => True
  | s :: ss, t :: ts => (s = [] ∨ s.map Prod.fst = [t]) ∧ Aligned ss ts
  | _, _ => False

theorem aligned_sublist {ss : List (List (Nat × Bytes))} {ts : List Nat} (h : Aligned ss ts) :
    (ss.flatten.map Prod.fst).Sublist ts := by
  induction ss generalizing ts with
  | nil =>
    match ts, h with
    | [], _ => exact List.Sublist.slnil
  | cons s ss ih =>
    match ts, h with
    | t :: ts, ⟨h1, h2⟩ =>
      rw [List.flatten_cons, List.map_append]
      rcases h1 with rfl | h1
      · exact (ih h2).cons t
      · rw [h1]
        exact (ih h2).cons_cons t

theorem opt_aligned (c : Bool) (t : Nat) (v : Bytes) :
    opt c t v = [] ∨ (opt c t v).map Prod.fst = [t] := by
  cases c
  · exact .inl rfl
  · exact .inr rfl

theorem segments_once (a : Conn) (n : Nat) :
    (((segments a n).flatten.map Prod.fst).filter (fun t => decide (t < 64))).Nodup := by
  obtain ⟨g1, g2, g3⟩ := greaseType_range a
  have hpr : (match a.loc.preferred with
      | none => []
      | some x => [(13, preferredValue x)]) = [] ∨
      List.map Prod.fst (match a.loc.preferred with
      | none => []
      | some x => [(13, preferredValue x)]) = [13] := by
    cases a.loc.preferred
    · exact .inl rfl
    · exact .inr rfl
  -- the second place of the original connection ID is used only if the first is not
  have key : ∃ x y z : Nat, ((x = 0 ∧ y = 16 ∧ z = 63) ∨ (x = 63 ∧ y = 62 ∧ z = 0)) ∧
      Aligned (segments a n) [5, 4, 8, 1, 3, 10, 9, 13, 12, 6, 7, 14, 11, 15, x, y, z, 2, 32, greaseType a,
        3127, 0x1057, 0xff04de1b, 0x7158, 0x2ab2, 0x11, 0xebd9, 0x0f739bbc1b666d0d, 0x9f81a176, 3127] := by
    by_cases ho : a.originalCid.length > 0
    · refine ⟨0, 16, 63, .inl ⟨rfl, rfl, rfl⟩, .inr rfl, .inr rfl, opt_aligned _ _ _, opt_aligned _ _ _, .inr rfl,
        opt_aligned _ _ _, opt_aligned _ _ _, hpr, opt_aligned _ _ _, opt_aligned _ _ _, opt_aligned _ _ _,
        opt_aligned _ _ _, opt_aligned _ _ _, .inr rfl, opt_aligned _ _ _, opt_aligned _ _ _, .inl ?_,
        opt_aligned _ _ _, opt_aligned _ _ _, opt_aligned _ _ _, opt_aligned _ _ _, opt_aligned _ _ _,
        opt_aligned _ _ _, opt_aligned _ _ _, opt_aligned _ _ _, opt_aligned _ _ _, opt_aligned _ _ _,
        opt_aligned _ _ _, opt_aligned _ _ _, opt_aligned _ _ _, trivial⟩
      unfold opt
      rw [if_neg (by simp [ho])]
    · refine ⟨63, 62, 0, .inr ⟨rfl, rfl, rfl⟩, .inr rfl, .inr rfl, opt_aligned _ _ _, opt_aligned _ _ _, .inr rfl,
        opt_aligned _ _ _, opt_aligned _ _ _, hpr, opt_aligned _ _ _, opt_aligned _ _ _, opt_aligned _ _ _,
        opt_aligned _ _ _, opt_aligned _ _ _, .inr rfl, .inl ?_, .inl ?_, opt_aligned _ _ _,
        opt_aligned _ _ _, opt_aligned _ _ _, opt_aligned _ _ _, opt_aligned _ _ _, opt_aligned _ _ _,
        opt_aligned _ _ _, opt_aligned _ _ _, opt_aligned _ _ _, opt_aligned _ _ _, opt_aligned _ _ _,
        opt_aligned _ _ _, opt_aligned _ _ _, opt_aligned _ _ _, trivial⟩
      · unfold opt
        rw [if_neg (by simp only [ho]; simp)]
      · unfold opt
        rw [if_neg (by simp only [ho]; simp)]
  obtain ⟨x, y, z, hxyz, hal⟩ := key
  have hsub := (aligned_sublist hal).filter (fun t => decide (t < 64))
  refine List.Nodup.sublist hsub ?_
  generalize greaseType a = g at *
  by_cases hg : g < 64
  · have : g = 27 ∨ g = 58 := by omega
    rcases this with rfl | rfl <;> rcases hxyz with ⟨rfl, rfl, rfl⟩ | ⟨rfl, rfl, rfl⟩ <;> decide
  · have hd : (decide (g < 64)) = false := by simpa using hg
    rcases hxyz with ⟨rfl, rfl, rfl⟩ | ⟨rfl, rfl, rfl⟩
    · simp [hg]
    · simp [hg]

theorem segments_roles {a : Conn} (hl : LegalSettings a) (hc : a.client = true) (n : Nat) :
    ∀ t v, (t, v) ∈ (segments a n).flatten → t ≠ 0 ∧ t ≠ 2 ∧ t ≠ 13 ∧ t ≠ 16 := by
  intro t v hm
  obtain ⟨g1, g2, g3⟩ := greaseType_range a
  have hpr : a.loc.preferred = none := by
    cases h : a.loc.preferred with
    | none => rfl
    | some p =>
      have := (hl.preferred p h).1
      rw [hc] at this
      cases this
  unfold segments at hm
  dsimp only at hm
  rw [hpr, hc] at hm
  simp only [preferredSegment, List.flatten_cons, List.flatten_nil, List.append_nil, List.mem_append, mem_opt,
    List.mem_cons, List.not_mem_nil, or_false, Prod.mk.injEq, Bool.not_true, Bool.false_and, Bool.false_eq_true,
    false_and, false_or] at hm
  omega

theorem lastOf_opt (T : Nat) (c : Bool) (t : Nat) (v : Bytes) :
    lastOf T (opt c t v) = if c = true ∧ t = T then some v else none := by
  unfold opt
  cases c
  · simp [lastOf]
  · by_cases h : t = T <;> simp [lastOf, h]

theorem lastOf_cons (T : Nat) (t : Nat) (v : Bytes) (ps : List (Nat × Bytes)) :
    lastOf T ((t, v) :: ps) = (lastOf T ps).or (if t = T then some v else none) := rfl

theorem preferred_roundtrip (p : PreferredAddress) (h4 : p.ipv4.length = 4) (h6 : p.ipv6.length = 16)
    (hp : p.ipv4Port < 2 ^ 16) (h1 : 1 ≤ List.length p.cid) (h2 : List.length p.cid ≤ 20)
    (h3 : p.token.length = 16) :
    (preferredDecode (preferredValue p)).1 = some { p with ipv6Port := p.ipv4Port } := by
  obtain ⟨a, q, b, r, cid, token⟩ := p
  dsimp only at h4 h6 hp h1 h2 h3 ⊢
  match a, h4 with
  | [a0, a1, a2, a3], _ =>
    match b, h6 with
    | [b0, b1, b2, b3, b4, b5, b6, b7, b8, b9, b10, b11, b12, b13, b14, b15], _ =>
      have hl : (u8 (List.length cid)).toNat = List.length cid := by rw [u8_toNat]; omega
      have hq : parse16 (u8 (q >>> 8)) (u8 q) = q := by
        rw [parse16_eq, u8_toNat, u8_toNat, Nat.shiftRight_eq_div_pow]
        omega
      unfold preferredValue preferredDecode picoformat16
      simp only [List.cons_append, List.nil_append, List.length_cons, List.length_append, List.getD_cons_succ,
        List.getD_cons_zero, List.drop_succ_cons, List.drop_zero, List.take_succ_cons, List.take_zero, hl, hq]
      rw [if_pos (by omega), if_pos ⟨by omega, by unfold CONNECTION_ID_MAX_SIZE; omega, by omega⟩]
      have hd : ∀ k, List.drop (25 + k) (a0 :: a1 :: a2 :: a3 :: u8 (q >>> 8) :: u8 q :: b0 :: b1 :: b2 :: b3 :: b4 ::
          b5 :: b6 :: b7 :: b8 :: b9 :: b10 :: b11 :: b12 :: b13 :: b14 :: b15 :: u8 (q >>> 8) :: u8 q ::
          u8 (List.length cid) :: (cid ++ token)) = List.drop k (cid ++ token) := by
        intro k
        rw [Nat.add_comm 25 k]
        rfl
      rw [hd, List.drop_left, List.take_left]
      rw [List.take_of_length_le (by omega)]

theorem lastOf_preferred (T : Nat) (x : Option PreferredAddress) :
    lastOf T (preferredSegment x) = if 13 = T then x.map preferredValue else none := by
  cases x with
  | none => simp [preferredSegment, lastOf]
  | some x => simp [preferredSegment, lastOf]

theorem grease_ne (a : Conn) : ∀ T ∈ [0, 1, 2, 3, 4, 5, 6, 7, 8, 9, 10, 11, 12, 13, 14, 15, 16, 32, 0x11,
    0x1057, 0xff04de1b, 0x7158, 0x2ab2, 0xebd9, 0x0f739bbc1b666d0d, 0x9f81a176], greaseType a ≠ T := by
  obtain ⟨g1, g2, g3⟩ := greaseType_range a
  intro T hT
  simp only [List.mem_cons, List.not_mem_nil, or_false] at hT
  omega

/-- What `b` reads. -/
def seen (a : Conn) : Params :=
  { a.loc with
    maxAckDelay := if a.loc.maxAckDelay = 25000 then 0 else (a.loc.maxAckDelay + 999) / 1000 * 1000
    lossBit := min a.loc.lossBit 2
    maxDatagram := advertisedDatagram a
    maxPathId := if a.loc.multipath then a.loc.maxPathId else 0
    preferred := a.loc.preferred.map (fun p => { p with ipv6Port := p.ipv4Port }) }

theorem segments_read {a : Conn} (hl : LegalSettings a) (n : Nat) :
    readParams (segments a n).flatten = seen a := by
  have G := grease_ne a
  simp only [List.forall_mem_cons] at G
  have e5 : lastOf 5 (segments a n).flatten = some (varintBytes a.loc.maxStreamDataBidiLocal) := by
    simp [-List.reduceReplicate, -gt_iff_lt, segments, lastOf_append, lastOf_opt, lastOf_cons, lastOf_preferred, G]
  have e4 : lastOf 4 (segments a n).flatten = some (varintBytes a.loc.maxData) := by
    simp [-List.reduceReplicate, -gt_iff_lt, segments, lastOf_append, lastOf_opt, lastOf_cons, lastOf_preferred, G]
  have e3 : lastOf 3 (segments a n).flatten = some (varintBytes a.loc.maxPacketSize) := by
    simp [-List.reduceReplicate, -gt_iff_lt, segments, lastOf_append, lastOf_opt, lastOf_cons, lastOf_preferred, G]
  have e8 : lastOf 8 (segments a n).flatten = if a.loc.maxStreamsBidi > 0 then some (varintBytes a.loc.maxStreamsBidi) else none := by
    simp [-List.reduceReplicate, -gt_iff_lt, segments, lastOf_append, lastOf_opt, lastOf_cons, lastOf_preferred, G]
  have e1 : lastOf 1 (segments a n).flatten = if a.loc.idleTimeout > 0 then some (varintBytes a.loc.idleTimeout) else none := by
    simp [-List.reduceReplicate, -gt_iff_lt, segments, lastOf_append, lastOf_opt, lastOf_cons, lastOf_preferred, G]
  have e9 : lastOf 9 (segments a n).flatten = if a.loc.maxStreamsUni > 0 then some (varintBytes a.loc.maxStreamsUni) else none := by
    simp [-List.reduceReplicate, -gt_iff_lt, segments, lastOf_append, lastOf_opt, lastOf_cons, lastOf_preferred, G]
  have e6 : lastOf 6 (segments a n).flatten = if a.loc.maxStreamDataBidiRemote > 0 then some (varintBytes a.loc.maxStreamDataBidiRemote) else none := by
    simp [-List.reduceReplicate, -gt_iff_lt, segments, lastOf_append, lastOf_opt, lastOf_cons, lastOf_preferred, G]
  have e7 : lastOf 7 (segments a n).flatten = if a.loc.maxStreamDataUni > 0 then some (varintBytes a.loc.maxStreamDataUni) else none := by
    simp [-List.reduceReplicate, -gt_iff_lt, segments, lastOf_append, lastOf_opt, lastOf_cons, lastOf_preferred, G]
  have e14 : lastOf 14 (segments a n).flatten = if a.loc.activeCidLimit > 0 then some (varintBytes a.loc.activeCidLimit) else none := by
    simp [-List.reduceReplicate, -gt_iff_lt, segments, lastOf_append, lastOf_opt, lastOf_cons, lastOf_preferred, G]
  have e0xff04de1b : lastOf 0xff04de1b (segments a n).flatten = if a.loc.minAckDelay > 0 then some (varintBytes a.loc.minAckDelay) else none := by
    simp [-List.reduceReplicate, -gt_iff_lt, segments, lastOf_append, lastOf_opt, lastOf_cons, lastOf_preferred, G]
  have e0x7158 : lastOf 0x7158 (segments a n).flatten = if a.loc.timeStamp > 0 then some (varintBytes a.loc.timeStamp) else none := by
    simp [-List.reduceReplicate, -gt_iff_lt, segments, lastOf_append, lastOf_opt, lastOf_cons, lastOf_preferred, G]
  have e0xebd9 : lastOf 0xebd9 (segments a n).flatten = if a.loc.bdpFrame > 0 then some (varintBytes a.loc.bdpFrame) else none := by
    simp [-List.reduceReplicate, -gt_iff_lt, segments, lastOf_append, lastOf_opt, lastOf_cons, lastOf_preferred, G]
  have e10 : lastOf 10 (segments a n).flatten = if a.loc.ackDelayExponent ≠ 3 then some (varintBytes a.loc.ackDelayExponent) else none := by
    simp [-List.reduceReplicate, -gt_iff_lt, segments, lastOf_append, lastOf_opt, lastOf_cons, lastOf_preferred, G]
  have e11 : lastOf 11 (segments a n).flatten = if a.loc.maxAckDelay ≠ 25000 then
      some (varintBytes (u32 (a.loc.maxAckDelay + 999) / 1000)) else none := by
    simp [-List.reduceReplicate, -gt_iff_lt, segments, lastOf_append, lastOf_opt, lastOf_cons, lastOf_preferred, G]
  have e12 : lastOf 12 (segments a n).flatten = if a.loc.migrationDisabled = true then some [] else none := by
    simp [-List.reduceReplicate, -gt_iff_lt, segments, lastOf_append, lastOf_opt, lastOf_cons, lastOf_preferred, G]
  have e0x2ab2 : lastOf 0x2ab2 (segments a n).flatten = if a.loc.greaseQuicBit = true then some [] else none := by
    simp [-List.reduceReplicate, -gt_iff_lt, segments, lastOf_append, lastOf_opt, lastOf_cons, lastOf_preferred, G]
  have e13 : lastOf 13 (segments a n).flatten = a.loc.preferred.map preferredValue := by
    simp [-List.reduceReplicate, -gt_iff_lt, segments, lastOf_append, lastOf_opt, lastOf_cons, lastOf_preferred, G]
  have e32 : lastOf 32 (segments a n).flatten = if (prepareLocal a).loc.maxDatagram > 0 then
      some (varintBytes (prepareLocal a).loc.maxDatagram) else none := by
    simp [-List.reduceReplicate, -gt_iff_lt, segments, lastOf_append, lastOf_opt, lastOf_cons, lastOf_preferred, G]
  have e0x1057 : lastOf 0x1057 (segments a n).flatten = if a.loc.lossBit > 0 then
      some (varintBytes (if a.loc.lossBit > 1 then 1 else 0)) else none := by
    simp [-List.reduceReplicate, -gt_iff_lt, segments, lastOf_append, lastOf_opt, lastOf_cons, lastOf_preferred, G]
  have e0x0f739bbc1b666d0d : lastOf 0x0f739bbc1b666d0d (segments a n).flatten = if a.loc.multipath = true then some (varintBytes a.loc.maxPathId) else none := by
    simp [-List.reduceReplicate, -gt_iff_lt, segments, lastOf_append, lastOf_opt, lastOf_cons, lastOf_preferred, G]
  have e0x9f81a176 : lastOf 0x9f81a176 (segments a n).flatten = if a.loc.addressDiscovery > 0 then
      some (varintBytes (a.loc.addressDiscovery - 1)) else none := by
    simp [-List.reduceReplicate, -gt_iff_lt, segments, lastOf_append, lastOf_opt, lastOf_cons, lastOf_preferred, G]
  unfold readParams
  rw [e5, e4, e3, e8, e1, e9, e6, e7, e14, e0xff04de1b, e0x7158, e0xebd9, e10, e11, e12, e0x2ab2, e13, e32, e0x1057, e0x0f739bbc1b666d0d, e0x9f81a176]
  unfold seen
  have V {n : Nat} (h : n < 2 ^ 62) : ((if n > 0 then some (varintBytes n) else none).map val).getD 0 = n := by
    by_cases h0 : n > 0
    · rw [if_pos h0]; exact val_bytes h
    · rw [if_neg h0]; simp; omega
  have V32 {n : Nat} (h : n < 2 ^ 32) :
      ((if n > 0 then some (varintBytes n) else none).map (fun v => u32 (val v))).getD 0 = n := by
    by_cases h0 : n > 0
    · rw [if_pos h0]
      simp only [Option.map_some, Option.getD_some]
      rw [val_bytes (by omega)]; unfold u32; omega
    · rw [if_neg h0]; simp; omega
  have f5 : ((some (varintBytes a.loc.maxStreamDataBidiLocal)).map val).getD 0 = a.loc.maxStreamDataBidiLocal :=
    val_bytes hl.bidiLocal
  have f4 : ((some (varintBytes a.loc.maxData)).map val).getD 0 = a.loc.maxData := val_bytes hl.data
  have f3 : ((some (varintBytes a.loc.maxPacketSize)).map val).getD 0 = a.loc.maxPacketSize :=
    val_bytes (by have := hl.packet; omega)
  have hb := hl.streamsBidi
  have hu := hl.streamsUni
  have ht := hl.timeStamp
  have hmin := hl.minAckDelay
  have hbdp := hl.bdp
  have hex := hl.exponent
  have hdel := hl.ackDelay
  have hdis := hl.discovery
  have hdat : advertisedDatagram a < 2 ^ 32 := by
    have := hl.datagram
    unfold advertisedDatagram
    split <;> omega
  rw [advertised_eq]
  have f10 : ((if a.loc.ackDelayExponent ≠ 3 then some (varintBytes a.loc.ackDelayExponent) else none).map
      val).getD 3 = a.loc.ackDelayExponent := by
    by_cases h : a.loc.ackDelayExponent ≠ 3
    · rw [if_pos h]; exact val_bytes (by omega)
    · rw [if_neg h]; simp; omega
  have f11 : ((if a.loc.maxAckDelay ≠ 25000 then some (varintBytes (u32 (a.loc.maxAckDelay + 999) / 1000))
      else none).map (fun v => val v * 1000)).getD 0 =
        if a.loc.maxAckDelay = 25000 then 0 else (a.loc.maxAckDelay + 999) / 1000 * 1000 := by
    have hu : u32 (a.loc.maxAckDelay + 999) = a.loc.maxAckDelay + 999 := by unfold u32; omega
    rw [hu]
    by_cases h : a.loc.maxAckDelay = 25000
    · rw [if_pos h, if_neg (by simpa using h)]; rfl
    · rw [if_neg h, if_pos h]
      simp only [Option.map_some, Option.getD_some]
      rw [val_bytes (by omega)]
  have fb (x : Bool) : ((if x = true then some ([] : Bytes) else none).map (fun _ => true)).getD false = x := by
    cases x <;> rfl
  have f13 : ((a.loc.preferred.map preferredValue).map (fun v => (preferredDecode v).1)).getD none =
      a.loc.preferred.map (fun p => { p with ipv6Port := p.ipv4Port }) := by
    cases hpr : a.loc.preferred with
    | none => rfl
    | some x =>
      obtain ⟨_, p1, p2, p3, _, p4, p5, p6⟩ := hl.preferred x hpr
      simp only [Option.map_some, Option.getD_some]
      exact preferred_roundtrip x p1 p2 p3 p4 p5 p6
  have floss : ((if a.loc.lossBit > 0 then some (varintBytes (if a.loc.lossBit > 1 then 1 else 0)) else
      none).map (fun v => val v + 1)).getD 0 = min a.loc.lossBit 2 := by
    by_cases h : a.loc.lossBit > 0
    · rw [if_pos h]
      simp only [Option.map_some, Option.getD_some]
      by_cases h1 : a.loc.lossBit > 1
      · rw [if_pos h1, val_bytes (by decide)]; omega
      · rw [if_neg h1, val_bytes (by decide)]; omega
    · rw [if_neg h]; simp; omega
  have fm : ((if a.loc.multipath = true then some (varintBytes a.loc.maxPathId) else none).map
      (fun _ => true)).getD false = a.loc.multipath := by
    cases a.loc.multipath <;> rfl
  have fp : ((if a.loc.multipath = true then some (varintBytes a.loc.maxPathId) else none).map val).getD 0 =
      if a.loc.multipath then a.loc.maxPathId else 0 := by
    by_cases h : a.loc.multipath = true
    · rw [if_pos h, if_pos h]; exact val_bytes hl.pathId
    · rw [if_neg h, if_neg h]; rfl
  have fd : ((if a.loc.addressDiscovery > 0 then some (varintBytes (a.loc.addressDiscovery - 1)) else
      none).map (fun v => val v + 1)).getD 0 = a.loc.addressDiscovery := by
    by_cases h : a.loc.addressDiscovery > 0
    · rw [if_pos h]
      simp only [Option.map_some, Option.getD_some]
      rw [val_bytes (by omega)]; omega
    · rw [if_neg h]; simp; omega
  rw [f5, f4, f3, V (by omega : a.loc.maxStreamsBidi < 2 ^ 62), V hl.idle,
    V (by omega : a.loc.maxStreamsUni < 2 ^ 62), V hl.bidiRemote, V hl.uni, V32 hl.cidLimit,
    V (by omega : a.loc.minAckDelay < 2 ^ 62), V (by omega : a.loc.timeStamp < 2 ^ 62),
    V (by omega : a.loc.bdpFrame < 2 ^ 62), f10, f11, fb, fb, f13, V32 hdat, floss, fm, fp, fd]

/-! ### The exchange -/

theorem lastOf_present {t : Nat} {ps : List (Nat × Bytes)} : t ∈ ps.map Prod.fst ↔ (lastOf t ps).isSome := by
  induction ps with
  | nil => simp [lastOf]
  | cons p ps ih =>
    obtain ⟨t', v⟩ := p
    rw [lastOf_cons, List.map_cons, List.mem_cons, ih]
    by_cases h : t' = t
    · subst h
      cases lastOf t' ps <;> simp
    · rw [if_neg h, Option.or_none]
      constructor
      · rintro (rfl | h')
        · exact absurd rfl h
        · exact h'
      · exact .inr

theorem segments_cids {a b : Conn} (hp : Peers a b) (n : Nat) :
    CidsMatch b.client b.remoteCid b.initialCid b.originalCid (segments a n).flatten := by
  obtain ⟨g1, g2, g3⟩ := greaseType_range a
  rw [hp.source, hp.initial, hp.original, hp.roles]
  refine ⟨?_, ?_, ?_⟩
  · simp [-List.reduceReplicate, segments, mem_opt]
  · intro hc ho
    have hc' : a.client = false := by simpa using hc
    have hv := hp.confirmed hc'
    refine ⟨?_, ?_⟩
    · simp [-List.reduceReplicate, segments, mem_opt, hc', ho, hv]
    · intro v hm
      have h16 : 16 ∈ ((segments a n).flatten).map Prod.fst := List.mem_map.mpr ⟨_, hm, rfl⟩
      rw [lastOf_present] at h16
      have G := grease_ne a
      simp only [List.forall_mem_cons] at G
      have e16 : lastOf 16 (segments a n).flatten = none := by
        simp [-List.reduceReplicate, -gt_iff_lt, segments, lastOf_append, lastOf_opt, lastOf_cons,
          lastOf_preferred, G, ho]
      rw [e16] at h16
      cases h16
  · intro hc ho
    have hc' : a.client = false := by simpa using hc
    have ho' : 0 < a.originalCid.length := List.length_pos_iff.mpr ho
    constructor <;> simp [-List.reduceReplicate, segments, mem_opt, hc', ho']

/-- What the peer has read at the end. -/
theorem exchange {a b : Conn} (hl : LegalSettings a) (hp : Peers a b) {room : Nat} (hr : room < 2 ^ 62)
    {bs : Bytes} (h : prepare a room = some bs) :
    ∃ n, receive b bs = some (accepted b (segments a n).flatten, false) ∧
      (accepted b (segments a n).flatten).rem = { learned a b with
        preferred := a.loc.preferred.map (fun p => { p with ipv6Port := p.ipv4Port }) } := by
  obtain ⟨n, he⟩ := prepare_emits a hl hr h
  refine ⟨n, receive_good b he (segments_good hl hp n) (segments_once a n) ?_ (segments_cids hp n), ?_⟩
  · intro hb
    have hc : a.client = true := by
      have := hp.roles
      rw [hb] at this
      simpa using this.symm
    exact segments_roles hl hc n
  · rw [accepted_rem, segments_read hl n]
    have G := grease_ne a
    simp only [List.forall_mem_cons] at G
    have e14 : lastOf 14 (segments a n).flatten = if a.loc.activeCidLimit > 0 then some (varintBytes a.loc.activeCidLimit) else none := by
      simp [-List.reduceReplicate, -gt_iff_lt, segments, lastOf_append, lastOf_opt, lastOf_cons, lastOf_preferred, G]
    have e11 : lastOf 11 (segments a n).flatten = if a.loc.maxAckDelay ≠ 25000 then
        some (varintBytes (u32 (a.loc.maxAckDelay + 999) / 1000)) else none := by
      simp [-List.reduceReplicate, -gt_iff_lt, segments, lastOf_append, lastOf_opt, lastOf_cons, lastOf_preferred, G]
    have p14 : 14 ∈ ((segments a n).flatten).map Prod.fst ↔ a.loc.activeCidLimit > 0 := by
      rw [lastOf_present, e14]
      split <;> simp_all
    have p11 : 11 ∈ ((segments a n).flatten).map Prod.fst ↔ a.loc.maxAckDelay ≠ 25000 := by
      rw [lastOf_present, e11]
      split <;> simp_all
    unfold seen learned
    dsimp only
    have q11 : (if 11 ∈ ((segments a n).flatten).map Prod.fst then
        (if a.loc.maxAckDelay = 25000 then 0 else (a.loc.maxAckDelay + 999) / 1000 * 1000) else 25000) =
        (a.loc.maxAckDelay + 999) / 1000 * 1000 := by
      by_cases h : a.loc.maxAckDelay = 25000
      · rw [if_neg (by rw [p11]; simpa using h), h]
      · rw [if_pos (p11.mpr h), if_neg h]
    have q14 : (if 14 ∈ ((segments a n).flatten).map Prod.fst then a.loc.activeCidLimit
        else if b.localCid.length = 0 then 0 else 2) = if a.loc.activeCidLimit > 0 then a.loc.activeCidLimit
        else if b.localCid = [] then 0 else 2 := by
      by_cases h : a.loc.activeCidLimit > 0
      · rw [if_pos h, if_pos (p14.mpr h)]
      · rw [if_neg h, if_neg (by rw [p14]; exact h)]
        by_cases hz : b.localCid = []
        · rw [if_pos hz, if_pos (by rw [hz]; rfl)]
        · rw [if_neg hz, if_neg (by simpa using hz)]
    rw [q11, q14]

end Picoquic.TransportParams
