import Verif.Spec.PreferredMove
import Verif.Proof.Fixed
import Verif.Proof.Admission
import Verif.Proof.Unreachable

/-!
# Proofs about the move to the preferred address
-/

namespace Picoquic.PreferredMove
open Picoquic Picoquic.Unreachable Picoquic.TransportParams Picoquic.Admission Picoquic.Spec

/-- The parameter is read as it was written. -/
theorem decode_bytes (v : PreferredValue) (h : v.Legal) :
    preferredDecode v.bytes = (some ⟨v.ip4, portOf v.port4, v.ip6, portOf v.port6, v.cid, v.token⟩, v.bytes.length) := by
  obtain ⟨ip4, ⟨p, q⟩, ip6, ⟨r, s⟩, cid, token⟩ := v
  obtain ⟨h4, h6, hc, hc', ht⟩ := h
  simp only at h4 h6 hc hc' ht
  match ip4, h4 with
  | [a, b, c, d], _ =>
    match ip6, h6 with
    | [x0, x1, x2, x3, x4, x5, x6, x7, x8, x9, x10, x11, x12, x13, x14, x15], _ =>
      have hl : (UInt8.ofNat cid.length).toNat = cid.length := by
        rw [UInt8.toNat_ofNat']; omega
      have hd : (25 + cid.length) = cid.length + 25 := by omega
      unfold preferredDecode PreferredValue.bytes CONNECTION_ID_MAX_SIZE portOf
      simp only
      generalize UInt8.ofNat cid.length = n at hl
      simp [parse16_eq, hl, hd, ht]
      rw [if_pos ⟨hc, hc'⟩, List.take_of_length_le (Nat.le_of_eq ht)]

theorem foldl_number (bs : Bytes) : ∀ n : Nat,
    bs.foldl (fun n b => n * 256 + b.toNat) n = n * 256 ^ bs.length + addressNumber bs := by
  induction bs with
  | nil => intro n; simp [addressNumber]
  | cons b bs ih =>
    intro n
    rw [List.foldl_cons, ih, addressNumber, List.length_cons, Nat.pow_succ, Nat.add_mul, Nat.add_assoc,
      Nat.mul_assoc, Nat.mul_comm 256]

theorem ipNumber_eq (bs : Bytes) : ipNumber bs = addressNumber bs := by
  unfold ipNumber
  rw [foldl_number, Nat.zero_mul, Nat.zero_add]

theorem blocked_iff (little : Bool) (d : Sock) (h : d.family = 2 ∨ d.family = 10) :
    addrBlocked little d = true ↔ ntohs little d.port ∈ protectedPorts := by
  unfold addrBlocked INET INET6
  rw [if_pos h, portBlocked_iff (by decide)]
  simp only [blockedPorts, protectedPorts, List.mem_cons, List.not_mem_nil, or_false]
  omega

theorem destination_family {f : Nat} {a : PreferredAddress} {d : Sock} (h : destination f a = some d) :
    d.family = 2 ∨ d.family = 10 := by
  unfold destination at h
  split at h
  · split at h
    · injection h with h; subst h; right; rfl
    · injection h with h; subst h; left; rfl
  · cases h

theorem netAddr_some {d : Sock} (h : d.family = 2 ∨ d.family = 10) : ∃ n, netAddr d = some n := by
  unfold netAddr
  rcases h with h | h <;> simp [h]

/-- What was asked for, when a move is asked for. -/
theorem prepareMove_some {little disabled stashed : Bool} {now : Tuple} {p : Option PreferredAddress} {d : Sock}
    {l : Option Sock} (h : prepareMove little disabled stashed now p = some (d, l)) :
    ∃ a, p = some a ∧ destination now.peer.family a = some d ∧ compareAddr d now.peer = false ∧
      (disabled = true ∨ addrBlocked little d = false) ∧
      l = (if now.loc.family ≠ 0 ∧ now.loc.family = d.family then some now.loc else none) := by
  unfold prepareMove at h
  cases p with
  | none => cases h
  | some a =>
    simp only at h
    split at h
    · cases hd : destination now.peer.family a with
      | none => rw [hd] at h; cases h
      | some d' =>
        rw [hd] at h
        simp only at h
        split at h
        · rename_i hc
          injection h with h
          injection h with h1 h2
          subst h1
          exact ⟨a, rfl, hd, hc.1, hc.2, h2.symm⟩
        · cases h
    · cases h

theorem ntohs_big (b : UInt8 × UInt8) : ntohs false (portOf b) = portOf b := rfl

theorem ntohs_little (b : UInt8 × UInt8) : ntohs true (portOf b) = portSwapped b := by
  have h1 := b.1.toNat_lt
  have h2 := b.2.toNat_lt
  unfold ntohs portOf portSwapped
  simp only [if_true]
  omega

end Picoquic.PreferredMove
