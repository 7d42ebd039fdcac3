import Verif.Proof.TransportExchange
/-!
# The options that result from the parsing of transport parameters
-/

namespace Picoquic.TransportParams
open Picoquic Picoquic.Spec

/-- The fields that the final steps do not touch, and the idle timeout they set. -/
theorem defaults_idle (s : RState) :
    let d := (defaults { s with c := negotiateIdle s.c }).c
    d.client = s.c.client ∧ d.loc = s.c.loc ∧ d.ackFrequency = s.c.ackFrequency ∧
    d.addressProvider = s.c.addressProvider ∧ d.addressReceiver = s.c.addressReceiver ∧
    d.oneWayGrease = s.c.oneWayGrease ∧ d.timeStampEnabled = s.c.timeStampEnabled ∧
    d.timeStampSent = s.c.timeStampSent ∧ d.version = s.c.version ∧
    d.idleTimeout = (negotiateIdle s.c).idleTimeout ∧ d.hcidVerified = s.c.hcidVerified ∧
    d.desiredVersion = s.c.desiredVersion ∧ d.ownResetSecret = s.c.ownResetSecret ∧
    SameSetup s.c d := by
  dsimp only
  have hi : ∀ c : Conn, (negotiateIdle c).client = c.client ∧ (negotiateIdle c).loc = c.loc ∧
      (negotiateIdle c).ackFrequency = c.ackFrequency ∧ (negotiateIdle c).addressProvider = c.addressProvider ∧
      (negotiateIdle c).addressReceiver = c.addressReceiver ∧ (negotiateIdle c).oneWayGrease = c.oneWayGrease ∧
      (negotiateIdle c).timeStampEnabled = c.timeStampEnabled ∧
      (negotiateIdle c).timeStampSent = c.timeStampSent ∧ (negotiateIdle c).version = c.version ∧
      (negotiateIdle c).hcidVerified = c.hcidVerified ∧
      (negotiateIdle c).desiredVersion = c.desiredVersion ∧
      (negotiateIdle c).ownResetSecret = c.ownResetSecret ∧ SameSetup c (negotiateIdle c) := by
    intro c
    unfold negotiateIdle
    dsimp only
    repeat' split
    all_goals exact ⟨rfl, rfl, rfl, rfl, rfl, rfl, rfl, rfl, rfl, rfl, rfl, rfl, ⟨rfl, rfl, rfl, rfl, rfl⟩⟩
  obtain ⟨i1, i2, i3, i4, i5, i6, i7, i8, i9, i10, i11, i12, i13⟩ := hi s.c
  generalize negotiateIdle s.c = e at *
  unfold defaults RState.setRem
  dsimp only
  repeat' split
  all_goals exact ⟨i1, i2, i3, i4, i5, i6, i7, i8, i9, rfl, i10, i11, i12, i13⟩

/-- The fields of the connection while the parameters are taken. -/
theorem takes_fields (c : Conn) (ps : List (Nat × Bytes)) :
    let s := takes (receiveInit c) ps
    s.c.client = c.client ∧ s.c.loc = c.loc ∧
    s.c.ackFrequency = (c.ackFrequency ||
      (decide (c.loc.minAckDelay > 0) && (lastOf 0xff04de1b ps).isSome)) ∧
    s.c.addressProvider = (((lastOf 0x9f81a176 ps).map (fun v =>
      decide ((val v + 1) &&& 2 ≠ 0) && decide (c.loc.addressDiscovery &&& 1 ≠ 0))).getD c.addressProvider) ∧
    s.c.addressReceiver = (((lastOf 0x9f81a176 ps).map (fun v =>
      decide ((val v + 1) &&& 1 ≠ 0) && decide (c.loc.addressDiscovery &&& 2 ≠ 0))).getD c.addressReceiver) ∧
    s.c.oneWayGrease = c.oneWayGrease ∧ s.c.timeStampEnabled = c.timeStampEnabled ∧
    s.c.timeStampSent = c.timeStampSent ∧ s.c.desiredVersion = c.desiredVersion ∧
    s.c.ownResetSecret = c.ownResetSecret ∧
    s.c.hcidVerified = (c.hcidVerified || (lastOf 15 ps).isSome) ∧ SameSetup c s.c := by
  dsimp only
  obtain ⟨t1, t2, t3, t4, t5⟩ := takes_same (receiveInit c) ps rfl
  have K {α : Type} (f : RState → α) (hstep : ∀ s t v, f (take (note s t) t v) = f s) :=
    takes_const f hstep (receiveInit c) ps
  have N : ∀ s t, (note s t).c = s.c := by
    intro s t
    unfold note
    split <;> rfl
  refine ⟨t1.1, t3, ?_, ?_, ?_, ?_, ?_, ?_, ?_, ?_, ?_, t1⟩
  · by_cases hL : c.loc.minAckDelay > 0
    · have := takes_field (fun s => s.c.ackFrequency) 0xff04de1b (fun _ => true) c.loc (by
        intro s t v h
        simp only [take, N, h]
        by_cases ht : t = 0xff04de1b <;> simp [ht, hL]) (receiveInit c) rfl ps
      rw [this]
      have e : (receiveInit c).c.ackFrequency = c.ackFrequency := rfl
      rw [e]
      cases lastOf 0xff04de1b ps <;> simp [hL]
    · have := takes_field (fun s => s.c.ackFrequency) 0xff04de1b (fun _ => c.ackFrequency) c.loc
      have h2 : ∀ (s : RState), s.c.loc = c.loc → (takes s ps).c.ackFrequency = s.c.ackFrequency := by
        intro s
        induction ps generalizing s with
        | nil => intro _; rfl
        | cons p ps ih =>
          obtain ⟨t, v⟩ := p
          intro h
          have hx : (take (note s t) t v).c.loc = c.loc := by rw [(take_same s t v).2.2.1]; exact h
          rw [takes, ih]
          · simp only [take, N, h]
            simp [hL]
          · exact (takes_same (receiveInit c) ps rfl).1
          · exact (takes_same (receiveInit c) ps rfl).2.1
          · exact (takes_same (receiveInit c) ps rfl).2.2.1
          · exact (takes_same (receiveInit c) ps rfl).2.2.2.1
          · exact (takes_same (receiveInit c) ps rfl).2.2.2.2
          · exact fun f hs => takes_const f hs (receiveInit c) ps
          · exact hx
      rw [h2 _ rfl]
      simp [hL, receiveInit]
  · exact takes_field (fun s => s.c.addressProvider) 0x9f81a176 _ c.loc (by
      intro s t v h
      simp only [take, N, h]) (receiveInit c) rfl ps
  · exact takes_field (fun s => s.c.addressReceiver) 0x9f81a176 _ c.loc (by
      intro s t v h
      simp only [take, N, h]) (receiveInit c) rfl ps
  · exact K (fun s => s.c.oneWayGrease) (fun s t v => by simp only [take, N])
  · exact K (fun s => s.c.timeStampEnabled) (fun s t v => by simp only [take, N])
  · exact K (fun s => s.c.timeStampSent) (fun s t v => by simp only [take, N])
  · exact K (fun s => s.c.desiredVersion) (fun s t v => by simp only [take, N])
  · exact K (fun s => s.c.ownResetSecret) (fun s t v => by simp only [take, N])
  · have := takes_field (fun s => s.c.hcidVerified) 15 (fun _ => true) c.loc (by
      intro s t v h
      simp only [take, N]) (receiveInit c) rfl ps
    rw [this]
    have e : (receiveInit c).c.hcidVerified = c.hcidVerified := rfl
    rw [e]
    cases lastOf 15 ps <;> simp

/-- The connection before the negotiation of options. -/
def before (c : Conn) (ps : List (Nat × Bytes)) : Conn :=
  (defaults { takes (receiveInit c) ps with c := negotiateIdle (takes (receiveInit c) ps).c }).c

theorem accepted_eq (c : Conn) (ps : List (Nat × Bytes)) :
    accepted c ps = negotiateOptions (negotiateMultipath (before c ps)) := rfl

theorem before_rem (c : Conn) (ps : List (Nat × Bytes)) : (before c ps).rem = (accepted c ps).rem := by
  rw [accepted_eq, negotiateOptions_rem, negotiateMultipath_rem]

theorem options_server_eq (d : Conn) (hc : d.client = false) :
    negotiateOptions d = { d with
      lossBitOut := decide (d.loc.lossBit > 1) && decide (d.rem.lossBit > 0)
      lossBitIn := decide (d.loc.lossBit > 0) && decide (d.rem.lossBit > 1)
      bdpFrames := decide (d.loc.bdpFrame > 0) && decide (d.rem.bdpFrame > 0)
      timeStampSent := d.timeStampSent || decide (d.rem.timeStamp &&& 1 ≠ 0)
      timeStampEnabled := d.timeStampEnabled || decide (d.rem.timeStamp &&& 2 ≠ 0)
      doGreaseQuicBit := d.rem.greaseQuicBit
      loc := { d.loc with
        timeStamp := if d.rem.timeStamp ≠ 0 then (if d.rem.timeStamp &&& 1 ≠ 0 then 2 else 0) +
              (if d.rem.timeStamp &&& 2 ≠ 0 then 1 else 0) else d.loc.timeStamp
        greaseQuicBit := d.rem.greaseQuicBit && !d.oneWayGrease
        minAckDelay := if d.ackFrequency then d.loc.minAckDelay else 0 } } := by
  unfold negotiateOptions
  dsimp only
  have b1 : ∀ (p : Prop) [Decidable p] (x : Bool), (if p then true else x) = (x || decide p) := by
    intro p _ x
    by_cases h : p <;> simp [h]
  have hn : ¬ (d.client = true) := by rw [hc]; simp
  rw [if_neg hn]
  by_cases h1 : d.rem.timeStamp ≠ 0
  · simp only [if_pos h1, b1]
    cases hf : d.ackFrequency
    · rw [if_pos ⟨hc, rfl⟩]; rfl
    · rw [if_neg (fun h => by cases h.2)]; rfl
  · have h1' : d.rem.timeStamp = 0 := by simpa using h1
    have z1 : decide (d.rem.timeStamp &&& 1 ≠ 0) = false := by rw [h1']; rfl
    have z2 : decide (d.rem.timeStamp &&& 2 ≠ 0) = false := by rw [h1']; rfl
    simp only [if_neg h1, z1, z2, Bool.or_false]
    cases hf : d.ackFrequency
    · rw [if_pos ⟨hc, rfl⟩]; rfl
    · rw [if_neg (fun h => by cases h.2)]; rfl

theorem options_client_eq (d : Conn) (hc : d.client = true) :
    negotiateOptions d = { d with
      lossBitOut := decide (d.loc.lossBit > 1) && decide (d.rem.lossBit > 0)
      lossBitIn := decide (d.loc.lossBit > 0) && decide (d.rem.lossBit > 1)
      bdpFrames := decide (d.loc.bdpFrame > 0) && decide (d.rem.bdpFrame > 0)
      timeStampEnabled := decide (d.loc.timeStamp &&& 1 ≠ 0) && decide (d.rem.timeStamp &&& 2 ≠ 0)
      timeStampSent := decide (d.loc.timeStamp &&& 2 ≠ 0) && decide (d.rem.timeStamp &&& 1 ≠ 0)
      doGreaseQuicBit := d.loc.greaseQuicBit && d.rem.greaseQuicBit } := by
  unfold negotiateOptions
  dsimp only
  rw [if_pos hc]
  exact if_neg (fun h => by have := h.1; dsimp only at this; rw [hc] at this; cases this)

theorem multipath_server_eq (d : Conn) (hc : d.client = false) :
    negotiateMultipath d = { d with
      multipath := d.loc.multipath && d.rem.multipath
      loc := { d.loc with multipath := d.loc.multipath && d.rem.multipath }
      maxPathIdAcknowledged := if d.loc.multipath && d.rem.multipath then d.loc.maxPathId else d.maxPathIdAcknowledged
      maxPathIdRemote := if d.loc.multipath && d.rem.multipath then d.rem.maxPathId else d.maxPathIdRemote
      maxPathIdLocal := if d.loc.multipath && d.rem.multipath then d.loc.maxPathId else d.maxPathIdLocal } := by
  unfold negotiateMultipath
  by_cases h1 : d.loc.multipath = true
  · by_cases h2 : d.rem.multipath = true
    · rw [if_pos ⟨h2, h1⟩]
      have hl : { d.loc with multipath := true } = d.loc := by
        generalize d.loc = l at *
        obtain ⟨⟩ := l
        dsimp only at h1
        subst h1
        rfl
      simp only [h1, h2, Bool.and_self, if_true, hl]
    · rw [if_neg (fun h => h2 h.1), if_pos hc]
      have h2' : d.rem.multipath = false := by simpa using h2
      simp only [h2', Bool.and_false]
      rfl
  · have h1' : d.loc.multipath = false := by simpa using h1
    rw [if_neg (fun h => h1 h.2), if_pos hc]
    simp only [h1', Bool.false_and]
    rfl

theorem multipath_client_eq (d : Conn) (hc : d.client = true) :
    negotiateMultipath d = { d with
      multipath := d.loc.multipath && d.rem.multipath
      maxPathIdAcknowledged := if d.loc.multipath && d.rem.multipath then d.loc.maxPathId else d.maxPathIdAcknowledged
      maxPathIdRemote := if d.loc.multipath && d.rem.multipath then d.rem.maxPathId else d.maxPathIdRemote
      maxPathIdLocal := if d.loc.multipath && d.rem.multipath then d.loc.maxPathId else d.maxPathIdLocal } := by
  unfold negotiateMultipath
  have hn : ¬ d.client = false := by rw [hc]; simp
  by_cases h1 : d.loc.multipath = true
  · by_cases h2 : d.rem.multipath = true
    · rw [if_pos ⟨h2, h1⟩]
      simp only [h1, h2, Bool.and_self, if_true]
    · rw [if_neg (fun h => h2 h.1), if_neg hn]
      have h2' : d.rem.multipath = false := by simpa using h2
      simp only [h2', Bool.and_false]
      rfl
  · have h1' : d.loc.multipath = false := by simpa using h1
    rw [if_neg (fun h => h1 h.2), if_neg hn]
    simp only [h1', Bool.false_and]
    rfl

/-! ### The version -/

theorem supported_lt {v : Nat} (h : isSupported v = true) : v < 2 ^ 32 := by
  unfold isSupported at h
  rw [List.any_eq_true] at h
  obtain ⟨e, he, h⟩ := h
  have : ∀ e ∈ supportedVersions, e.1 < 2 ^ 32 := by decide
  have h' : e.1 = v := by simpa using h
  rw [← h']
  exact this e he

theorem newVersion_lt (c : Conn) (v : Bytes) (hc : c.version < 2 ^ 32) : newVersion c v < 2 ^ 32 := by
  unfold newVersion
  split
  · exact hc
  · rename_i vn h
    split
    · exact hc
    · rename_i h0
      unfold processVersionNegotiation at h
      cases hd : framesUint32Decode v with
      | none => rw [hd] at h; cases h
      | some x =>
        obtain ⟨w, rest⟩ := x
        rw [hd] at h
        dsimp only at h
        split at h
        · cases h
        · split at h
          · have hs : ∀ r : Bytes, vnServerLoop r = .ok vn → vn = 0 := by
              intro r
              induction r using vnServerLoop.induct with
              | case1 => intro h; rw [vnServerLoop] at h; cases h; rfl
              | case2 _ _ _ _ _ ih => intro h; rw [vnServerLoop] at h; exact ih h
              | case3 => intro h; rw [vnServerLoop] at h <;> first | cases h | assumption
            exact absurd (hs _ h) h0
          · exact supported_lt (vnClientLoop_mem rest h h0).2

theorem takes_version_lt (s : RState) (ps : List (Nat × Bytes)) (h : s.c.version < 2 ^ 32) :
    (takes s ps).c.version < 2 ^ 32 := by
  induction ps generalizing s with
  | nil => exact h
  | cons p ps ih =>
    obtain ⟨t, v⟩ := p
    rw [takes]
    apply ih
    unfold take
    dsimp only
    have N : (note s t).c = s.c := by
      unfold note
      split <;> rfl
    rw [N]
    split
    · exact newVersion_lt s.c v h
    · exact h

end Picoquic.TransportParams
