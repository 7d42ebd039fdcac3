import Verif.Spec.VersionChoice
import Verif.Proof.TransportEmit
import Verif.Proof.TransportFinish
/-!
# Proofs about the choice of a version
-/

namespace Picoquic.VersionChoice
open Picoquic Picoquic.Spec Picoquic.TransportParams

theorem known_iff (v : Nat) : isSupported v = true ↔ v ∈ knownVersions := by
  have e : knownVersions = supportedVersions.map Prod.fst := rfl
  unfold isSupported
  rw [e, List.any_eq_true, List.mem_map]
  constructor
  · rintro ⟨x, h1, h2⟩; exact ⟨x, h1, by simpa using h2⟩
  · rintro ⟨x, h1, h2⟩; exact ⟨x, h1, by simpa using h2⟩

theorem upgrade_eq {old new : Nat} (hn : new ∈ knownVersions) (hne : new ≠ old) :
    processVersionUpgrade old new = (if new = 0x6b3343cf ∨ new = 0x709a50c4 then (if old = 1 then .done else .hang) else .refused) := by
  unfold processVersionUpgrade
  rw [if_neg hne]
  simp only [knownVersions, List.mem_cons, List.not_mem_nil, or_false] at hn
  rcases hn with h | h | h | h | h | h | h | h | h | h | h | h | h <;> subst h <;>
    simp [supportedVersions, V1, V2, V2_DRAFT, DRAFT27, DRAFT29, upgradeFromV1, eq_comm]

theorem compatible_done {old new : Nat} (h : CompatibleVersions old new) : processVersionUpgrade old new = .done := by
  obtain ⟨rfl, rfl | rfl⟩ := h <;> decide

/-- The loop over the versions of a client. -/
theorem clientLoop_eq (v : Bytes) (hl : v.length % 4 = 0) :
    vnClientLoop v = .ok (((versionWords v).find? isSupported).getD 0) := by
  induction v using vnClientLoop.induct with
  | case1 => rfl
  | case2 a b c d rest hs =>
    rw [vnClientLoop, if_pos hs, versionWords, ← parse32_bigEndian, List.find?_cons_of_pos hs]
    rfl
  | case3 a b c d rest hs ih =>
    rw [vnClientLoop, if_neg hs, versionWords, ← parse32_bigEndian, List.find?_cons_of_neg hs]
    exact ih (by simp only [List.length_cons] at hl; omega)
  | case4 v h1 h2 =>
    exfalso
    match v, hl, h1, h2 with
    | [], _, h1, _ => exact h1 rfl
    | [_], hl, _, _ => simp at hl
    | [_, _], hl, _, _ => simp at hl
    | [_, _, _], hl, _, _ => simp at hl
    | a :: b :: c :: d :: rest, _, _, h2 => exact h2 a b c d rest rfl

theorem serverLoop_eq (v : Bytes) (hl : v.length % 4 = 0) : vnServerLoop v = .ok 0 := by
  induction v using vnServerLoop.induct with
  | case1 => rfl
  | case2 a b c d rest ih =>
    rw [vnServerLoop]
    exact ih (by simp only [List.length_cons] at hl; omega)
  | case3 v h1 h2 =>
    exfalso
    match v, hl, h1, h2 with
    | [], _, h1, _ => exact h1 rfl
    | [_], hl, _, _ => simp at hl
    | [_, _], hl, _, _ => simp at hl
    | [_, _, _], hl, _, _ => simp at hl
    | a :: b :: c :: d :: rest, _, _, h2 => exact h2 a b c d rest rfl

theorem process_eq (fromServer : Bool) (envelope chosen : Nat) (others : Bytes) (hc : chosen < 2 ^ 32) (hl : others.length % 4 = 0) :
    processVersionNegotiation fromServer envelope (picoformat32 chosen ++ others) =
      if chosen ≠ envelope then .fail 0x11
      else .ok (if fromServer then 0 else ((versionWords others).find? isSupported).getD 0) := by
  have h32 : framesUint32Decode (picoformat32 chosen ++ others) = some (chosen, others) := by
    rw [framesUint32Decode_iff]
    exact ⟨picoformat32 chosen, rfl, rfl, bigEndian_format32 hc⟩
  unfold processVersionNegotiation
  rw [h32]
  dsimp only
  by_cases h : chosen ≠ envelope
  · rw [if_pos h, if_pos h]; rfl
  · rw [if_neg h, if_neg h]
    cases fromServer with
    | true => rw [if_pos rfl, if_pos rfl, serverLoop_eq _ hl]
    | false => rw [if_neg (by decide), if_neg (by decide), clientLoop_eq _ hl]

theorem find_known {ws : List Nat} {w : Nat} (h : ws.find? isSupported = some w) : w ∈ ws ∧ w ∈ knownVersions :=
  ⟨List.mem_of_find?_eq_some h, (known_iff w).1 (List.find?_some h)⟩

theorem known_pos {w : Nat} (h : w ∈ knownVersions) : w ≠ 0 ∧ w < 2 ^ 32 := by
  simp only [knownVersions, List.mem_cons, List.not_mem_nil, or_false] at h
  rcases h with h | h | h | h | h | h | h | h | h | h | h | h | h <;> subst h <;> decide

/-- What a server does. -/
theorem serverInfo_eq (c : Cnx) (others : Bytes) (hs : c.client = false) (hv : c.version < 2 ^ 32) (hl : others.length % 4 = 0) :
    receiveInfo c (picoformat32 c.version ++ others) =
      match (versionWords others).find? isSupported with
      | none => .ok { c with doVn := true }
      | some w =>
        if w = c.version then .ok { c with doVn := true }
        else if w = 0x6b3343cf ∨ w = 0x709a50c4 then (if c.version = 1 then .ok { c with doVn := true, version := w } else .hang)
        else .refused := by
  unfold receiveInfo
  rw [hs, process_eq false _ _ _ hv hl, if_neg (by simp), if_neg (by decide)]
  cases hf : (versionWords others).find? isSupported with
  | none => dsimp only [Option.getD]; rw [if_neg (by simp)]
  | some w =>
    dsimp only [Option.getD]
    obtain ⟨-, hk⟩ := find_known hf
    by_cases he : w = c.version
    · rw [if_neg (by intro h; exact h.2 he.symm), if_pos he]
    · rw [if_pos ⟨(known_pos hk).1, fun h => he h.symm⟩, upgrade_eq hk he, if_neg he]
      by_cases h2 : w = 0x6b3343cf ∨ w = 0x709a50c4
      · rw [if_pos h2, if_pos h2]
        by_cases h1 : c.version = 1
        · rw [if_pos h1, if_pos h1]
        · rw [if_neg h1, if_neg h1]
      · rw [if_neg h2, if_neg h2]

theorem clientInfo_eq (c : Cnx) (others : Bytes) (hs : c.client = true) (hv : c.version < 2 ^ 32) (hl : others.length % 4 = 0) :
    receiveInfo c (picoformat32 c.version ++ others) = .ok { c with doVn := true } := by
  unfold receiveInfo
  rw [hs, process_eq true _ _ _ hv hl, if_neg (by simp), if_pos rfl]
  dsimp only
  rw [if_neg (by simp)]

theorem tampered_eq (c : Cnx) (chosen : Nat) (others : Bytes) (hc : chosen < 2 ^ 32) (hl : others.length % 4 = 0) (hne : chosen ≠ c.version) :
    receiveInfo c (picoformat32 chosen ++ others) = .error 0x11 := by
  unfold receiveInfo
  rw [process_eq _ _ _ _ hc hl, if_pos hne]

theorem info_eq (c : Cnx) : versionInfo c = picoformat32 c.version ++
    ((if c.client then (if c.desired ≠ 0 ∧ c.desired ≠ c.version then [c.desired, c.version] else [c.version]) else supportedVersions.map Prod.fst).flatMap picoformat32) := rfl

/-! ### Packets -/

theorem server_packets {s : Cnx} (hs : s.client = false) : ∀ vns : List Nat, packetsOf s vns = some (s, vns.filter (· == s.version)) := by
  intro vns
  induction vns with
  | nil => rfl
  | cons vn vns ih =>
    unfold packetsOf
    by_cases h : vn = s.version
    · have e : onPacket s vn = (s, .decrypted) := by unfold onPacket; rw [if_neg (by simp [h])]
      rw [e]
      dsimp only
      rw [ih, List.filter_cons_of_pos (by simp [h])]
      rfl
    · have e : onPacket s vn = (s, .wrongVersion) := by unfold onPacket; rw [if_pos h, if_neg (by rw [hs]; rintro ⟨h, -⟩; cases h)]
      rw [e]
      dsimp only
      rw [ih, List.filter_cons_of_neg (by simp [h])]

/-- A client that no longer changes. -/
theorem settled_packets {c : Cnx} (hd : c.desired = c.version ∨ c.early = false) : ∀ vns : List Nat, packetsOf c vns = some (c, vns.filter (· == c.version)) := by
  intro vns
  induction vns with
  | nil => rfl
  | cons vn vns ih =>
    unfold packetsOf
    by_cases h : vn = c.version
    · have e : onPacket c vn = (c, .decrypted) := by unfold onPacket; rw [if_neg (by simp [h])]
      rw [e]
      dsimp only
      rw [ih, List.filter_cons_of_pos (by simp [h])]
      rfl
    · have e : onPacket c vn = (c, .wrongVersion) := by
        unfold onPacket
        rw [if_pos h, if_neg]
        rintro ⟨-, a, b⟩
        rcases hd with hd | hd
        · exact h (b.trans hd)
        · rw [hd] at a; cases a
      rw [e]
      dsimp only
      rw [ih, List.filter_cons_of_neg (by simp [h])]

end Picoquic.VersionChoice
