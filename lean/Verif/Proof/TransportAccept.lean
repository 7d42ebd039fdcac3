import Verif.Proof.TransportFinish
/-!
# Transport parameters: legal extensions are accepted, and what is read
-/

namespace Picoquic.TransportParams
open Picoquic Picoquic.Spec

/-- The integer a value stands for. -/
def val (v : Bytes) : Nat := (varintDecode v).2

theorem val_varint {v : Bytes} {n : Nat} (h : Varint v n) : val v = n := by
  have := varintDecode_varint h []
  rw [List.append_nil] at this
  unfold val
  rw [this]

/-- The effect of a parameter without error on the remote parameters. -/
def upd (t : Nat) (v : Bytes) (p : Params) : Params :=
  { p with
    maxStreamDataBidiLocal := if t = 5 then val v else p.maxStreamDataBidiLocal
    maxStreamDataBidiRemote := if t = 6 then val v else p.maxStreamDataBidiRemote
    maxStreamDataUni := if t = 7 then val v else p.maxStreamDataUni
    maxData := if t = 4 then val v else p.maxData
    maxStreamsBidi := if t = 8 then val v else p.maxStreamsBidi
    maxStreamsUni := if t = 9 then val v else p.maxStreamsUni
    idleTimeout := if t = 1 then val v else p.idleTimeout
    maxPacketSize := if t = 3 then val v else p.maxPacketSize
    maxAckDelay := if t = 11 then val v * 1000 else p.maxAckDelay
    activeCidLimit := if t = 14 then u32 (val v) else p.activeCidLimit
    ackDelayExponent := if t = 10 then val v else p.ackDelayExponent
    migrationDisabled := if t = 12 then true else p.migrationDisabled
    preferred := if t = 13 then (preferredDecode v).1 else p.preferred
    maxDatagram := if t = 32 then u32 (val v) else p.maxDatagram
    lossBit := if t = 0x1057 then val v + 1 else p.lossBit
    timeStamp := if t = 0x7158 then val v else p.timeStamp
    minAckDelay := if t = 0xff04de1b then val v else p.minAckDelay
    greaseQuicBit := if t = 0x2ab2 then true else p.greaseQuicBit
    bdpFrame := if t = 0xebd9 then val v else p.bdpFrame
    multipath := if t = 0x0f739bbc1b666d0d then true else p.multipath
    maxPathId := if t = 0x0f739bbc1b666d0d then val v else p.maxPathId
    addressDiscovery := if t = 0x9f81a176 then val v + 1 else p.addressDiscovery }

/-- The version after version information. -/
def newVersion (c : Conn) (v : Bytes) : Nat :=
  match processVersionNegotiation c.client c.version v with
  | .fail _ => c.version
  | .ok vn => if vn = 0 then c.version else vn

/-- The effect of a parameter without error. -/
def take (s : RState) (t : Nat) (v : Bytes) : RState :=
  { s with
    ret := false
    ocid := if t = 0 then v else s.ocid
    rcid := if t = 16 then v else s.rcid
    hcid := if t = 15 then v else s.hcid
    c := { s.c with
      rem := upd t v s.c.rem
      peerResetSecret := if t = 2 then v else s.c.peerResetSecret
      hcidVerified := if t = 15 then true else s.c.hcidVerified
      version := if t = 0x11 then newVersion s.c v else s.c.version
      doVersionNegotiation := if t = 0x11 then true else s.c.doVersionNegotiation
      ackFrequency := if t = 0xff04de1b ∧ s.c.loc.minAckDelay > 0 then true else s.c.ackFrequency
      addressProvider := if t = 0x9f81a176 then
          decide ((val v + 1) &&& 2 ≠ 0) && decide (s.c.loc.addressDiscovery &&& 1 ≠ 0)
        else s.c.addressProvider
      addressReceiver := if t = 0x9f81a176 then
          decide ((val v + 1) &&& 1 ≠ 0) && decide (s.c.loc.addressDiscovery &&& 2 ≠ 0)
        else s.c.addressReceiver } }

/-- Version information that does not stop the parsing. -/
def VersionsGood (c : Conn) (v : Bytes) : Prop :=
  ∃ vn, processVersionNegotiation c.client c.version v = .ok vn ∧
    (vn = 0 ∨ vn = c.version ∨ processVersionUpgrade c.version vn = .done)

/-- A parameter that connection `c` takes without error. -/
structure Good (c : Conn) (t : Nat) (v : Bytes) : Prop where
  integer : IntegerType t → ∃ n, Varint v n ∧ LegalInteger t n
  size : t = 3 → val v ≤ 65527
  block : LegalBlock t v
  source : t = 15 → v = c.remoteCid
  token : t = 2 → c.client = true
  versions : t = 0x11 → VersionsGood c v

theorem tpVarintDecode_good {s : RState} {v : Bytes} {n : Nat} (h : Varint v n) :
    tpVarintDecode s v = (val v, s) := by
  have hd := varintDecode_varint h []
  rw [List.append_nil] at hd
  have hp := varint_pos h
  unfold tpVarintDecode val
  dsimp only
  rw [hd]
  rw [if_neg (fun h => h.elim (fun h => by omega) (fun h => h rfl))]

theorem varint_lt {v : Bytes} {n : Nat} (h : Varint v n) : n < 2 ^ 62 := by
  obtain ⟨k, hk, _, hn, _⟩ := h
  refine Nat.lt_of_lt_of_le hn (Nat.pow_le_pow_right (by decide) ?_)
  have : 2 ^ k ≤ 2 ^ 3 := Nat.pow_le_pow_right (by decide) (by omega)
  omega

theorem tpCidDecode_good {v : Bytes} (h : v.length ≤ 20) : tpCidDecode v = (v, true) := by
  unfold tpCidDecode CONNECTION_ID_MAX_SIZE
  dsimp only
  rw [Nat.mod_eq_of_lt (by omega), if_pos h, List.take_length]
  simp

theorem preferredDecode_good {v : Bytes} (h : LegalBlock 13 v) :
    ∃ a, preferredDecode v = (some a, v.length) := by
  obtain ⟨a, p, a', p', l, cid, token, rfl, h1, h2, h3, h4, h5, h6, h7, h8, h9⟩ := h.2.2.2 rfl
  obtain ⟨l0, rfl⟩ := List.length_eq_one_iff.mp h5
  simp only [bigEndian, List.length_nil, Nat.pow_zero, Nat.mul_one, Nat.add_zero] at h6
  unfold preferredDecode
  have hlen : (a ++ p ++ a' ++ p' ++ [l0] ++ cid ++ token).length = 25 + cid.length + 16 := by
    simp only [List.length_append, List.length_cons, List.length_nil]; omega
  have hget : (a ++ p ++ a' ++ p' ++ [l0] ++ cid ++ token).getD 24 0 = l0 := by
    rw [List.getD_eq_getElem?_getD, List.append_assoc (a ++ p ++ a' ++ p' ++ [l0]),
      List.append_assoc (a ++ p ++ a' ++ p'), List.getElem?_append_right (by simp; omega)]
    simp [h1, h2, h3, h4]
  rw [if_pos (by omega)]
  dsimp only
  rw [hget, h6, hlen, if_pos ⟨by omega, by unfold CONNECTION_ID_MAX_SIZE; omega, by omega⟩]
  exact ⟨_, rfl⟩

theorem processVersionUpgrade_self (v : Nat) : processVersionUpgrade v v = .done := by
  unfold processVersionUpgrade; rw [if_pos rfl]

theorem applyParam_good {s : RState} {t : Nat} {v : Bytes} (hr : s.ret = false) (g : Good s.c t v) :
    applyParam s t v = some (take s t v) := by
  by_cases hvn : t = 0x11
  · subst hvn
    obtain ⟨vn, h1, h2⟩ := g.versions rfl
    rw [applyParam_version, h1]
    dsimp only
    have hnv : newVersion s.c v = if vn = 0 then s.c.version else vn := by
      unfold newVersion; rw [h1]
    by_cases hc : vn ≠ 0 ∧ s.c.version ≠ vn
    · rw [if_pos hc]
      have hd : processVersionUpgrade s.c.version vn = .done := by
        rcases h2 with h2 | h2 | h2
        · exact absurd h2 hc.1
        · exact absurd h2.symm hc.2
        · exact h2
      rw [hd]
      dsimp only
      unfold take
      rw [hnv, if_neg hc.1]
      simp [upd]
    · rw [if_neg hc]
      have hv : newVersion s.c v = s.c.version := by
        rw [hnv]
        split
        · rfl
        · rename_i h0
          exact Decidable.byContradiction fun e => hc ⟨h0, fun e' => e e'.symm⟩
      unfold take
      rw [hv]
      simp [upd, hr]
  by_cases hi : IntegerType t
  · obtain ⟨n, h1, h2⟩ := g.integer hi
    have hd := tpVarintDecode_good (s := s) h1
    have hval := val_varint h1
    have hsz := g.size
    rw [← hval] at h2
    obtain ⟨i1, i2, i3, i4, i5, i6, i7, i8, i9⟩ := h2
    unfold IntegerType at hi
    simp only [List.mem_cons, List.not_mem_nil, or_false] at hi
    have hvl : val v < 2 ^ 62 := by rw [hval]; exact varint_lt h1
    clear hval h1 g hvn
    rcases hi with rfl | rfl | rfl | rfl | rfl | rfl | rfl | rfl | rfl | rfl | rfl | rfl | rfl | rfl | rfl |
      rfl | rfl | rfl
    · simp [applyParam, take, upd, hd, RState.setRem, hr]
    · have h1 := i1 rfl
      have h2 := hsz rfl
      simp [applyParam, take, upd, hd, RState.setRem, hr]
      intro h; omega
    · simp [applyParam, take, upd, hd, RState.setRem, hr]
    · simp [applyParam, take, upd, hd, RState.setRem, hr]
    · simp [applyParam, take, upd, hd, RState.setRem, hr]
    · simp [applyParam, take, upd, hd, RState.setRem, hr]
    · simp [applyParam, take, upd, hd, RState.setRem, hr]
    · simp [applyParam, take, upd, hd, RState.setRem, hr]
    · have h1 := i3 rfl
      have h2 : val v % 256 = val v := Nat.mod_eq_of_lt (by omega)
      simp [applyParam, take, upd, hd, RState.setRem, hr, h2]
    · have h1 := i4 rfl
      have h2 : u32 (u32 (val v) * 1000) = val v * 1000 := by unfold u32; omega
      have h3 : ¬ 16384000 < val v * 1000 := by omega
      simp [applyParam, take, upd, hd, RState.setRem, hr, h2, h3]
    · simp [applyParam, take, upd, hd, RState.setRem, hr]
    · simp [applyParam, take, upd, hd, RState.setRem, hr]
    · have h1 := i5 rfl
      have h2 : val v = 0 ∨ val v = 1 := by omega
      rcases h2 with h2 | h2
      · simp [applyParam, take, upd, hd, RState.setRem, hr, h2]
      · simp [applyParam, take, upd, hd, RState.setRem, hr, h2]
    · have h1 := i6 rfl
      have h2 : ¬ (val v = 0 ∨ 16777215 < val v) := by omega
      by_cases h3 : s.c.loc.minAckDelay > 0
      · simp [applyParam, take, upd, hd, RState.setRem, hr, h2, h3]
      · simp [applyParam, take, upd, hd, RState.setRem, hr, h2, h3]
    · have h1 := i7 rfl
      have h2 : ¬ (val v < 1 ∨ 3 < val v) := by omega
      simp [applyParam, take, upd, hd, RState.setRem, hr]
      intro h; omega
    · have h1 := i8 rfl
      simp [applyParam, take, upd, hd, RState.setRem, hr]
      intro h; omega
    · simp [applyParam, take, upd, hd, RState.setRem, hr]
    · have h1 := i9 rfl
      have h2 : ¬ 2 < val v := by omega
      simp [applyParam, take, upd, hd, RState.setRem, hr, h2]
  by_cases h12 : t = 12
  · subst h12
    have := g.block.1 (.inl rfl)
    subst this
    simp [applyParam, take, upd, RState.setRem, hr]
  by_cases h2ab2 : t = 0x2ab2
  · subst h2ab2
    have := g.block.1 (.inr rfl)
    subst this
    simp [applyParam, take, upd, RState.setRem, hr]
  by_cases h0 : t = 0
  · subst h0
    have := tpCidDecode_good (g.block.2.1 (.inl rfl))
    simp [applyParam, take, upd, this, RState.cidResult]
  by_cases h16 : t = 16
  · subst h16
    have := tpCidDecode_good (g.block.2.1 (.inr (.inr rfl)))
    simp [applyParam, take, upd, this, RState.cidResult]
  by_cases h15 : t = 15
  · subst h15
    have h1 := tpCidDecode_good (g.block.2.1 (.inr (.inl rfl)))
    have h2 := g.source rfl
    have h3 : compareCidEq s.c.remoteCid v = true := by unfold compareCidEq; rw [h2]; simp
    simp [applyParam, take, upd, h1, RState.cidResult, h3]
  by_cases h2 : t = 2
  · subst h2
    have h1 := g.block.2.2.1 rfl
    have h3 := g.token rfl
    simp [applyParam, take, upd, h1, h3, hr]
  by_cases h13 : t = 13
  · subst h13
    obtain ⟨a, ha⟩ := preferredDecode_good g.block
    simp [applyParam, take, upd, ha, hr, RState.setRem]
  · unfold IntegerType at hi
    simp only [List.mem_cons, List.not_mem_nil, or_false, not_or] at hi
    obtain ⟨j1, j2, j3, j4, j5, j6, j7, j8, j9, j10, j11, j12, j13, j14, j15, j16, j17, j18⟩ := hi
    simp [applyParam, take, upd, *]
    obtain ⟨c, r, p, o, rc, h⟩ := s
    dsimp only at hr
    subst hr
    rfl

/-- The type is recorded. -/
def note (s : RState) (t : Nat) : RState :=
  if t < 64 then { s with present := t :: s.present } else s

/-- The effect of parameters without error. -/
def takes (s : RState) : List (Nat × Bytes) → RState
  | [] => s
  | (t, v) :: ps => takes (take (note s t) t v) ps

theorem note_c (s : RState) (t : Nat) : (note s t).c = s.c := by unfold note; split <;> rfl

theorem note_ret (s : RState) (t : Nat) : (note s t).ret = s.ret := by unfold note; split <;> rfl

theorem notePresent_fresh {s : RState} {t : Nat} (h : t < 64 → t ∉ s.present) :
    notePresent s t = note s t := by
  unfold notePresent note
  by_cases ht : t < 64
  · rw [if_pos ht, if_pos ht, if_neg (h ht)]
  · rw [if_neg ht, if_neg ht]

theorem take_same (s : RState) (t : Nat) (v : Bytes) :
    SameSetup s.c (take (note s t) t v).c ∧ (take (note s t) t v).c.errs = s.c.errs ∧
    (take (note s t) t v).c.loc = s.c.loc ∧ (take (note s t) t v).ret = false ∧
    (t ≠ 0x11 → (take (note s t) t v).c.version = s.c.version) ∧
    (take (note s t) t v).present = if t < 64 then t :: s.present else s.present := by
  unfold take
  rw [note_c]
  refine ⟨⟨rfl, rfl, rfl, rfl, rfl⟩, rfl, rfl, rfl, ?_, ?_⟩
  · intro h
    exact if_neg h
  · show (note s t).present = _
    unfold note
    split <;> rfl

theorem Good.same {c c' : Conn} {t : Nat} {v : Bytes} (g : Good c t v) (hs : SameSetup c c')
    (hv : t = 0x11 → c'.version = c.version) : Good c' t v := by
  obtain ⟨g1, g2, g3, g4, g5, g6⟩ := g
  refine ⟨g1, g2, g3, by rw [hs.2.1]; exact g4, by rw [hs.1]; exact g5, ?_⟩
  intro ht
  obtain ⟨vn, h1, h2⟩ := g6 ht
  refine ⟨vn, by rw [hs.1, hv ht]; exact h1, by rw [hv ht]; exact h2⟩

theorem run_good (c0 : Conn) (s : RState) (ps : List (Nat × Bytes)) (hr : s.ret = false)
    (hs : SameSetup c0 s.c) (hv : 0x11 ∈ ps.map Prod.fst → s.c.version = c0.version)
    (hg : ∀ t v, (t, v) ∈ ps → Good c0 t v)
    (hf : ∀ t, t < 64 → t ∈ s.present → t ∉ ps.map Prod.fst)
    (ho : ((ps.map Prod.fst).filter (fun t => decide (t < 64))).Nodup) :
    runParams s ps = some (takes s ps) := by
  induction ps generalizing s with
  | nil => rfl
  | cons p ps ih =>
    obtain ⟨t, v⟩ := p
    have hfresh : t < 64 → t ∉ s.present := fun h h' => hf t h h' (by simp)
    have hgood : Good (note s t).c t v := by
      rw [note_c]
      exact (hg t v (by simp)).same hs (by intro e; subst e; exact hv (by simp))
    rw [runParams, if_neg (by simp [hr]), notePresent_fresh hfresh,
      applyParam_good (by rw [note_ret]; exact hr) hgood, Option.bind_some, takes]
    obtain ⟨t1, t2, t3, t4, t5, t6⟩ := take_same s t v
    have hnd : t < 64 → t ∉ ps.map Prod.fst := by
      intro ht hm
      rw [List.map_cons, List.filter_cons, if_pos (by simpa using ht), List.nodup_cons] at ho
      exact ho.1 (List.mem_filter.mpr ⟨hm, by simpa using ht⟩)
    refine ih _ t4 (hs.trans t1) ?_ (fun t' v' hm => hg t' v' (by simp [hm])) ?_ ?_
    · intro hm
      have hne : t ≠ 0x11 := by
        rintro rfl
        exact hnd (by decide) hm
      rw [t5 hne]
      exact hv (by simp only [List.map_cons, List.mem_cons]; exact .inr hm)
    · intro x hx hm
      rw [t6] at hm
      by_cases ht : t < 64
      · rw [if_pos ht] at hm
        rcases List.mem_cons.mp hm with rfl | hm
        · exact hnd ht
        · exact fun h => hf x hx hm (by simp only [List.map_cons, List.mem_cons]; exact .inr h)
      · rw [if_neg ht] at hm
        exact fun h => hf x hx hm (by simp only [List.map_cons, List.mem_cons]; exact .inr h)
    · rw [List.map_cons, List.filter_cons] at ho
      split at ho
      · exact (List.nodup_cons.mp ho).2
      · exact ho

theorem takes_same (s : RState) (ps : List (Nat × Bytes)) (hr : s.ret = false) :
    SameSetup s.c (takes s ps).c ∧ (takes s ps).c.errs = s.c.errs ∧
    (takes s ps).c.loc = s.c.loc ∧ (takes s ps).ret = false ∧
    (∀ t, t ∈ (takes s ps).present ↔ t ∈ s.present ∨ (t < 64 ∧ t ∈ ps.map Prod.fst)) := by
  induction ps generalizing s with
  | nil => exact ⟨SameSetup.refl _, rfl, rfl, hr, by simp [takes]⟩
  | cons p ps ih =>
    obtain ⟨t, v⟩ := p
    obtain ⟨t1, t2, t3, t4, t5, t6⟩ := take_same s t v
    obtain ⟨i1, i2, i3, i4, i5⟩ := ih _ t4
    rw [takes]
    refine ⟨t1.trans i1, i2.trans t2, i3.trans t3, i4, ?_⟩
    intro x
    rw [i5 x, t6]
    simp only [List.map_cons, List.mem_cons]
    by_cases ht : t < 64
    · rw [if_pos ht, List.mem_cons]
      constructor
      · rintro ((rfl | h) | ⟨h1, h2⟩)
        · exact .inr ⟨ht, .inl rfl⟩
        · exact .inl h
        · exact .inr ⟨h1, .inr h2⟩
      · rintro (h | ⟨h1, rfl | h2⟩)
        · exact .inl (.inr h)
        · exact .inl (.inl rfl)
        · exact .inr ⟨h1, h2⟩
    · rw [if_neg ht]
      constructor
      · rintro (h | ⟨h1, h2⟩)
        · exact .inl h
        · exact .inr ⟨h1, .inr h2⟩
      · rintro (h | ⟨h1, rfl | h2⟩)
        · exact .inl h
        · exact absurd h1 ht
        · exact .inr ⟨h1, h2⟩

/-- The last value given to a type. -/
def lastOf (t : Nat) : List (Nat × Bytes) → Option Bytes
  | [] => none
  | (t', v) :: ps => (lastOf t ps).or (if t' = t then some v else none)

theorem lastOf_append (t : Nat) (ps qs : List (Nat × Bytes)) :
    lastOf t (ps ++ qs) = (lastOf t qs).or (lastOf t ps) := by
  induction ps with
  | nil => simp [lastOf]
  | cons p ps ih =>
    obtain ⟨t', v⟩ := p
    rw [List.cons_append, lastOf, lastOf, ih, Option.or_assoc]

theorem lastOf_none {t : Nat} {ps : List (Nat × Bytes)} (h : t ∉ ps.map Prod.fst) : lastOf t ps = none := by
  induction ps with
  | nil => rfl
  | cons p ps ih =>
    obtain ⟨t', v⟩ := p
    simp only [List.map_cons, List.mem_cons, not_or] at h
    rw [lastOf, ih h.2, if_neg (fun e => h.1 e.symm)]
    rfl

theorem lastOf_mem {t : Nat} {ps : List (Nat × Bytes)} {v : Bytes} (hm : (t, v) ∈ ps)
    (ho : (ps.map Prod.fst).Nodup) : lastOf t ps = some v := by
  induction ps with
  | nil => cases hm
  | cons p ps ih =>
    obtain ⟨t', v'⟩ := p
    rw [List.map_cons, List.nodup_cons] at ho
    rw [lastOf]
    rcases List.mem_cons.mp hm with h | h
    · obtain ⟨rfl, rfl⟩ := Prod.mk.inj h
      rw [lastOf_none ho.1, if_pos rfl]
      rfl
    · rw [ih h ho.2]
      rfl

/-- A part of the state that a single type of parameter changes. -/
theorem takes_field {α : Type} (f : RState → α) (T : Nat) (g : Bytes → α) (L : Params)
    (hstep : ∀ s t v, s.c.loc = L → f (take (note s t) t v) = if t = T then g v else f s)
    (s : RState) (hL : s.c.loc = L) (ps : List (Nat × Bytes)) :
    f (takes s ps) = ((lastOf T ps).map g).getD (f s) := by
  induction ps generalizing s with
  | nil => rfl
  | cons p ps ih =>
    obtain ⟨t, v⟩ := p
    rw [takes, ih _ (by rw [(take_same s t v).2.2.1]; exact hL), hstep s t v hL, lastOf]
    cases lastOf T ps with
    | some w => rfl
    | none =>
      by_cases h : t = T
      · rw [if_pos h, if_pos h]; rfl
      · rw [if_neg h, if_neg h]; rfl

/-- A part of the state that no parameter changes. -/
theorem takes_const {α : Type} (f : RState → α)
    (hstep : ∀ s t v, f (take (note s t) t v) = f s) (s : RState) (ps : List (Nat × Bytes)) :
    f (takes s ps) = f s := by
  induction ps generalizing s with
  | nil => rfl
  | cons p ps ih =>
    obtain ⟨t, v⟩ := p
    rw [takes, ih, hstep]

theorem takes_rem (s : RState) (ps : List (Nat × Bytes)) :
    (takes s ps).c.rem = ps.foldl (fun p x => upd x.1 x.2 p) s.c.rem := by
  induction ps generalizing s with
  | nil => rfl
  | cons p ps ih =>
    obtain ⟨t, v⟩ := p
    rw [takes, ih]
    unfold take
    rw [note_c]
    rfl

/-- A remote parameter that a single type changes. -/
theorem fold_field {α : Type} (f : Params → α) (T : Nat) (g : Bytes → α)
    (hstep : ∀ p t v, f (upd t v p) = if t = T then g v else f p)
    (p : Params) (ps : List (Nat × Bytes)) :
    f (ps.foldl (fun p x => upd x.1 x.2 p) p) = ((lastOf T ps).map g).getD (f p) := by
  induction ps generalizing p with
  | nil => rfl
  | cons q ps ih =>
    obtain ⟨t, v⟩ := q
    rw [List.foldl_cons, ih, hstep, lastOf]
    cases lastOf T ps with
    | some w => rfl
    | none =>
      by_cases h : t = T
      · rw [if_pos h, if_pos h]; rfl
      · rw [if_neg h, if_neg h]; rfl

/-- All the remote parameters, from the last value of each type. -/
def readParams (ps : List (Nat × Bytes)) : Params :=
  { maxStreamDataBidiLocal := ((lastOf 5 ps).map val).getD 0
    maxStreamDataBidiRemote := ((lastOf 6 ps).map val).getD 0
    maxStreamDataUni := ((lastOf 7 ps).map val).getD 0
    maxData := ((lastOf 4 ps).map val).getD 0
    maxStreamsBidi := ((lastOf 8 ps).map val).getD 0
    maxStreamsUni := ((lastOf 9 ps).map val).getD 0
    idleTimeout := ((lastOf 1 ps).map val).getD 0
    maxPacketSize := ((lastOf 3 ps).map val).getD 0
    maxAckDelay := ((lastOf 11 ps).map (fun v => val v * 1000)).getD 0
    activeCidLimit := ((lastOf 14 ps).map (fun v => u32 (val v))).getD 0
    ackDelayExponent := ((lastOf 10 ps).map val).getD 3
    migrationDisabled := ((lastOf 12 ps).map (fun _ => true)).getD false
    preferred := ((lastOf 13 ps).map (fun v => (preferredDecode v).1)).getD none
    maxDatagram := ((lastOf 32 ps).map (fun v => u32 (val v))).getD 0
    lossBit := ((lastOf 0x1057 ps).map (fun v => val v + 1)).getD 0
    timeStamp := ((lastOf 0x7158 ps).map val).getD 0
    minAckDelay := ((lastOf 0xff04de1b ps).map val).getD 0
    greaseQuicBit := ((lastOf 0x2ab2 ps).map (fun _ => true)).getD false
    bdpFrame := ((lastOf 0xebd9 ps).map val).getD 0
    multipath := ((lastOf 0x0f739bbc1b666d0d ps).map (fun _ => true)).getD false
    maxPathId := ((lastOf 0x0f739bbc1b666d0d ps).map val).getD 0
    addressDiscovery := ((lastOf 0x9f81a176 ps).map (fun v => val v + 1)).getD 0 }

theorem takes_read (c : Conn) (ps : List (Nat × Bytes)) :
    (takes (receiveInit c) ps).c.rem = readParams ps := by
  rw [takes_rem]
  have hi : (receiveInit c).c.rem = { ackDelayExponent := 3 } := rfl
  rw [hi]
  have F {α : Type} (f : Params → α) (T : Nat) (g : Bytes → α)
      (hstep : ∀ p t v, f (upd t v p) = if t = T then g v else f p) :=
    fold_field f T g hstep { ackDelayExponent := 3 } ps
  have h1 := F (·.maxStreamDataBidiLocal) 5 val (fun _ _ _ => rfl)
  have h2 := F (·.maxStreamDataBidiRemote) 6 val (fun _ _ _ => rfl)
  have h3 := F (·.maxStreamDataUni) 7 val (fun _ _ _ => rfl)
  have h4 := F (·.maxData) 4 val (fun _ _ _ => rfl)
  have h5 := F (·.maxStreamsBidi) 8 val (fun _ _ _ => rfl)
  have h6 := F (·.maxStreamsUni) 9 val (fun _ _ _ => rfl)
  have h7 := F (·.idleTimeout) 1 val (fun _ _ _ => rfl)
  have h8 := F (·.maxPacketSize) 3 val (fun _ _ _ => rfl)
  have h9 := F (·.maxAckDelay) 11 (fun v => val v * 1000) (fun _ _ _ => rfl)
  have h10 := F (·.activeCidLimit) 14 (fun v => u32 (val v)) (fun _ _ _ => rfl)
  have h11 := F (·.ackDelayExponent) 10 val (fun _ _ _ => rfl)
  have h12 := F (·.migrationDisabled) 12 (fun _ => true) (fun _ _ _ => rfl)
  have h13 := F (·.preferred) 13 (fun v => (preferredDecode v).1) (fun _ _ _ => rfl)
  have h14 := F (·.maxDatagram) 32 (fun v => u32 (val v)) (fun _ _ _ => rfl)
  have h15 := F (·.lossBit) 0x1057 (fun v => val v + 1) (fun _ _ _ => rfl)
  have h16 := F (·.timeStamp) 0x7158 val (fun _ _ _ => rfl)
  have h17 := F (·.minAckDelay) 0xff04de1b val (fun _ _ _ => rfl)
  have h18 := F (·.greaseQuicBit) 0x2ab2 (fun _ => true) (fun _ _ _ => rfl)
  have h19 := F (·.bdpFrame) 0xebd9 val (fun _ _ _ => rfl)
  have h20 := F (·.multipath) 0x0f739bbc1b666d0d (fun _ => true) (fun _ _ _ => rfl)
  have h21 := F (·.maxPathId) 0x0f739bbc1b666d0d val (fun _ _ _ => rfl)
  have h22 := F (·.addressDiscovery) 0x9f81a176 (fun v => val v + 1) (fun _ _ _ => rfl)
  clear F hi
  generalize ps.foldl (fun p x => upd x.1 x.2 p) { ackDelayExponent := 3 } = q at *
  obtain ⟨q1, q2, q3, q4, q5, q6, q7, q8, q9, q10, q11, q12, q13, q14, q15, q16, q17, q18, q19, q20, q21,
    q22⟩ := q
  dsimp only at *
  subst h1 h2 h3 h4 h5 h6 h7 h8 h9 h10 h11 h12 h13 h14 h15 h16 h17 h18 h19 h20 h21 h22
  rfl

/-! ## The end -/

theorem compareCidEq_self (a : Cid) : compareCidEq a a = true := by unfold compareCidEq; simp

theorem finalChecks_good {s : RState} (hr : s.ret = false) (h15 : 15 ∈ s.present) (F : Final s) :
    finalChecks s = s := by
  unfold finalChecks
  dsimp only
  have n1 : ¬ (s.ret = false ∧ s.c.client = false ∧
      (2 ∈ s.present ∨ 13 ∈ s.present ∨ 0 ∈ s.present ∨ 16 ∈ s.present)) := by
    rintro ⟨_, h1, h2⟩
    obtain ⟨r1, r2, r3, r4⟩ := F.roles h1
    rcases h2 with h | h | h | h
    · exact r1 h
    · exact r2 h
    · exact r3 h
    · exact r4 h
  have n2 : ¬ (s.ret = false ∧ s.c.version ≠ DRAFT27 ∧ 15 ∉ s.present) := fun h => h.2.2 h15
  rw [if_neg n1, if_neg n2]
  by_cases hc : s.c.client = true
  · rw [if_pos ⟨hr, hc⟩, if_pos h15]
    by_cases ho : s.c.originalCid = []
    · obtain ⟨f1, f2, f3⟩ := F.original hc h15 ho
      rw [if_neg (by rw [ho]; simp), if_neg]
      rw [f3, compareCidEq_self]
      simp [f1, f2]
    · obtain ⟨f1, f2, f3, f4⟩ := F.retry hc h15 ho
      rw [if_pos (by simpa using ho), if_neg]
      rw [f3, f4, compareCidEq_self, compareCidEq_self]
      simp [f1, f2]
  · rw [if_neg (fun e => hc e.2)]

theorem finish_good {s : RState} (hr : s.ret = false) (h15 : 15 ∈ s.present) (F : Final s) :
    finish s = { s with
      c := negotiateOptions (negotiateMultipath (defaults { s with c := negotiateIdle s.c }).c) } := by
  have hd := defaults_same { s with c := negotiateIdle s.c }
  obtain ⟨i1, i2, i3⟩ := negotiateIdle_same s.c
  obtain ⟨d1, d2, d3, d4, d5, d6, d7⟩ := hd
  dsimp only at d1 d2 d3 d4 d5 d6 d7
  have d8 : (defaults { s with c := negotiateIdle s.c }).hcid = s.hcid := by
    unfold defaults RState.setRem
    dsimp only
    repeat' split
    all_goals rfl
  unfold finish
  dsimp only
  generalize defaults { s with c := negotiateIdle s.c } = e at d1 d2 d3 d4 d5 d6 d7 d8 ⊢
  have hs := i1.trans d1
  have F' : Final e := by
    obtain ⟨f1, f2, f3, f4⟩ := F
    refine ⟨?_, ?_, ?_, ?_⟩
    · rw [hs.1, d5]; exact f1
    · rw [d3, i3, d5]; exact f2
    · rw [hs.1, d5, hs.2.2.2.2, hs.2.2.2.1, d6]; exact f3
    · rw [hs.1, d5, hs.2.2.2.2, hs.2.2.2.1, d6, d7]; exact f4
  rw [finalChecks_good (d4.trans hr) (by rw [d5]; exact h15) F', if_pos (d4.trans hr)]
  obtain ⟨ec, er, ep, eo, erc, eh⟩ := e
  dsimp only at d4 d5 d6 d7 d8 ⊢
  rw [d4, d5, d6, d7, d8]

end Picoquic.TransportParams
