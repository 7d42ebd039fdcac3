import Verif.Proof.PreferredMove

/-!
# C107: a client moves to the address that the server prefers
-/

namespace Picoquic.Props
open Picoquic.Spec Picoquic.Unreachable Picoquic.TransportParams Picoquic.PreferredMove

/-- The parameter is read first. -/
theorem moveAfter_eq (little disabled stashed : Bool) (now : Tuple) (v : PreferredValue) (hv : v.Legal) :
    moveAfter little disabled stashed now v = prepareMove little disabled stashed now
      (some { ipv4 := v.ip4, ipv4Port := portOf v.port4, ipv6 := v.ip6, ipv6Port := portOf v.port6, cid := v.cid,
              token := v.token }) := by
  unfold moveAfter
  rw [decode_bytes v hv]

/-- A client only goes to an IP address that the server gave, of the version it uses now if there is one; the local
address is kept if it has that version, and is left open otherwise. -/
theorem C107_address (little disabled stashed : Bool) (now : Tuple) (v : PreferredValue) (hv : v.Legal)
    (d : Sock) (l : Option Sock) (h : moveAfter little disabled stashed now v = some (d, l)) :
    ((d.family = 2 ∧ d.ip4 = addressNumber v.ip4 ∧ portOf v.port4 ≠ 0) ∨
     (d.family = 10 ∧ d.ip6 = addressNumber v.ip6 ∧ portOf v.port6 ≠ 0)) ∧
    (now.peer.family = 2 → portOf v.port4 ≠ 0 → d.family = 2) ∧
    (now.peer.family = 10 → portOf v.port6 ≠ 0 → d.family = 10) ∧
    (∀ s, l = some s → s = now.loc ∧ s.family = d.family) ∧
    (now.loc.family = d.family → l = some now.loc) := by
  rw [moveAfter_eq _ _ _ _ _ hv] at h
  obtain ⟨a, ha, hd, _, _, hl⟩ := prepareMove_some h
  injection ha with ha
  have hfam := destination_family hd
  refine ⟨?_, ?_, ?_, ?_, ?_⟩
  · subst ha
    unfold destination at hd
    split at hd
    · rename_i hor
      simp only at hor
      split at hd
      · rename_i h6
        injection hd with hd; subst hd
        exact Or.inr ⟨rfl, ipNumber_eq _, h6.1⟩
      · rename_i h6
        injection hd with hd; subst hd
        refine Or.inl ⟨rfl, ipNumber_eq _, ?_⟩
        intro h4
        rcases hor with h | h
        · exact h h4
        · exact h6 ⟨h, fun hh => hh.1 h4⟩
    · cases hd
  · intro hp h4
    subst ha
    unfold destination INET at hd
    rw [if_pos (Or.inl h4), if_neg (by rintro ⟨_, hn⟩; exact hn ⟨h4, hp⟩)] at hd
    injection hd with hd; subst hd; rfl
  · intro hp h6
    subst ha
    unfold destination INET at hd
    rw [if_pos (Or.inr h6), if_pos ⟨h6, by rintro ⟨_, hn⟩; rw [hp] at hn; cases hn⟩] at hd
    injection hd with hd; subst hd; rfl
  · intro s hs
    rw [hs] at hl
    split at hl
    · rename_i hc
      injection hl with hl; subst hl; exact ⟨rfl, hc.2⟩
    · cases hl
  · intro he
    rw [hl, if_pos ⟨by rw [he]; rcases hfam with h | h <;> rw [h] <;> decide, he⟩]

/-- A client never probes a protected port, on hosts of both byte orders, unless the protection was disabled; and it never
probes the address it uses. -/
theorem C107_protected (little disabled stashed : Bool) (now : Tuple) (v : PreferredValue) (hv : v.Legal)
    (d : Sock) (l : Option Sock) (h : moveAfter little disabled stashed now v = some (d, l)) :
    (disabled = false → ntohs little d.port ∉ protectedPorts) ∧ netAddr d ≠ netAddr now.peer := by
  rw [moveAfter_eq _ _ _ _ _ hv] at h
  obtain ⟨a, ha, hd, hc, hb, hl⟩ := prepareMove_some h
  have hfam := destination_family hd
  refine ⟨?_, ?_⟩
  · intro hdis hm
    rw [← blocked_iff little d hfam] at hm
    rcases hb with hb | hb
    · rw [hdis] at hb; cases hb
    · rw [hm] at hb; cases hb
  · intro he
    obtain ⟨n, hn⟩ := netAddr_some hfam
    have hp : netAddr now.peer = some n := by rw [← he, hn]
    rw [(compare_iff hp).2 hn] at hc
    cases hc

/-- A client on IPv4 probes the IPv4 address that the server gave, unless it uses that address or the port is a protected
one; and so for IPv6. -/
theorem C107_moves (little disabled : Bool) (now : Tuple) (v : PreferredValue) (hv : v.Legal) :
    (now.peer.family = 2 → portOf v.port4 ≠ 0 → ntohs little (portOf v.port4) ∉ protectedPorts →
      netAddr now.peer ≠ some (.v4 (addressNumber v.ip4) (portOf v.port4)) →
      ∃ d l, moveAfter little disabled true now v = some (d, l) ∧
        netAddr d = some (.v4 (addressNumber v.ip4) (portOf v.port4))) ∧
    (now.peer.family = 10 → portOf v.port6 ≠ 0 → ntohs little (portOf v.port6) ∉ protectedPorts →
      netAddr now.peer ≠ some (.v6 (addressNumber v.ip6) (portOf v.port6)) →
      ∃ d l, moveAfter little disabled true now v = some (d, l) ∧
        netAddr d = some (.v6 (addressNumber v.ip6) (portOf v.port6))) := by
  rw [moveAfter_eq _ _ _ _ _ hv]
  have key : ∀ (d : Sock) (n : NetAddr) (a : PreferredAddress), destination now.peer.family a = some d →
      netAddr d = some n → ntohs little d.port ∉ protectedPorts → netAddr now.peer ≠ some n →
      (now.peer.family = 2 ∨ now.peer.family = 10) →
      ∃ d l, prepareMove little disabled true now (some a) = some (d, l) ∧ netAddr d = some n := by
    intro d n a hd hn hp hne hpf
    have hb : addrBlocked little d = false := by
      cases hb : addrBlocked little d with
      | false => rfl
      | true => exact absurd ((blocked_iff little d (destination_family hd)).1 hb) hp
    have hc : compareAddr d now.peer = false := by
      cases hc : compareAddr d now.peer with
      | false => rfl
      | true =>
        obtain ⟨m, hm⟩ := netAddr_some hpf
        rw [compare_iff hm] at hc
        rw [hn] at hc
        rw [hm, hc] at hne
        exact absurd rfl hne
    refine ⟨d, if now.loc.family ≠ 0 ∧ now.loc.family = d.family then some now.loc else none, ?_, hn⟩
    unfold prepareMove
    simp only [if_true, hd]
    rw [if_pos ⟨hc, Or.inr hb⟩]
  refine ⟨?_, ?_⟩
  · intro hf h4 hp hne
    refine key { family := INET, port := portOf v.port4, ip4 := addressNumber v.ip4 } _ _ ?_ rfl hp hne (Or.inl hf)
    unfold destination
    rw [if_pos (Or.inl h4), if_neg (by rintro ⟨_, hn⟩; exact hn ⟨h4, hf⟩), ← ipNumber_eq]
  · intro hf h6 hp hne
    refine key { family := INET6, port := portOf v.port6, ip6 := addressNumber v.ip6 } _ _ ?_ rfl hp hne (Or.inr hf)
    unfold destination
    rw [if_pos (Or.inr h6), if_pos ⟨h6, by rintro ⟨_, hn⟩; rw [hf] at hn; cases hn⟩, ← ipNumber_eq]

/-- Without address in the parameter, or without parameter, there is no move. -/
theorem C107_none (little disabled stashed : Bool) (now : Tuple) (v : PreferredValue) (hv : v.Legal)
    (h4 : portOf v.port4 = 0) (h6 : portOf v.port6 = 0) :
    moveAfter little disabled stashed now v = none ∧ prepareMove little disabled stashed now none = none := by
  rw [moveAfter_eq _ _ _ _ _ hv]
  refine ⟨?_, rfl⟩
  cases stashed <;> simp [prepareMove, destination, h4, h6]

/-- The port of the field, in terms of the bytes of the parameter. -/
theorem move_port {little disabled stashed : Bool} {now : Tuple} {v : PreferredValue} (hv : v.Legal)
    {d : Sock} {l : Option Sock} (h : moveAfter little disabled stashed now v = some (d, l)) :
    d.port = portOf (if d.family = 2 then v.port4 else v.port6) := by
  rw [moveAfter_eq _ _ _ _ _ hv] at h
  obtain ⟨a, ha, hd, _⟩ := prepareMove_some h
  injection ha with ha
  subst ha
  unfold destination at hd
  split at hd
  · split at hd
    · injection hd with hd; subst hd; rfl
    · injection hd with hd; subst hd; rfl
  · cases hd

/-- On a big-endian host, the packets go to the port that the server gave. Missing: little-endian hosts, see
`C107_port_violated`. -/
theorem C107_port_partial (disabled stashed : Bool) (now : Tuple) (v : PreferredValue) (hv : v.Legal)
    (d : Sock) (l : Option Sock) (h : moveAfter false disabled stashed now v = some (d, l)) :
    ntohs false d.port = portOf (if d.family = 2 then v.port4 else v.port6) := by
  rw [move_port hv h]
  rfl

/-- On a little-endian host the packets go to the port with the two bytes in the other order, so to another port than the
one that the server gave whenever its two bytes differ: the value read from the parameter is stored in the socket address
without `htons`. -/
theorem C107_port_violated (disabled stashed : Bool) (now : Tuple) (v : PreferredValue) (hv : v.Legal)
    (d : Sock) (l : Option Sock) (h : moveAfter true disabled stashed now v = some (d, l)) :
    ntohs true d.port = portSwapped (if d.family = 2 then v.port4 else v.port6) ∧
    ((if d.family = 2 then v.port4 else v.port6).1 ≠ (if d.family = 2 then v.port4 else v.port6).2 →
      ntohs true d.port ≠ portOf (if d.family = 2 then v.port4 else v.port6)) := by
  have h1 : ntohs true d.port = portSwapped (if d.family = 2 then v.port4 else v.port6) := by
    rw [move_port hv h, ntohs_little]
  refine ⟨h1, ?_⟩
  rw [h1]
  generalize (if d.family = 2 then v.port4 else v.port6) = b
  intro hne he
  apply hne
  apply UInt8.toNat_inj.1
  have := b.1.toNat_lt
  have := b.2.toNat_lt
  unfold portSwapped portOf at he
  omega

/-- A server that prefers 10.0.0.1, port 443. -/
def exPreferred : PreferredValue :=
  { ip4 := [10, 0, 0, 1], port4 := (1, 187), ip6 := List.replicate 16 0, port6 := (0, 0), cid := [1, 2, 3, 4],
    token := List.replicate 16 7 }

example : exPreferred.Legal := by unfold PreferredValue.Legal; decide

example : portOf exPreferred.port4 = 443 ∧
    moveAfter true false true { peer := { family := 2, port := 443, ip4 := 9 }, loc := { family := 2, port := 5, ip4 := 1 } } exPreferred
      = some ({ family := 2, port := 443, ip4 := 167772161 }, some { family := 2, port := 5, ip4 := 1 }) ∧
    ntohs true 443 = 47873 := by decide +kernel

/-- The port 53 of the network is not probed by a little-endian host. -/
example : moveAfter true false true { peer := { family := 2, port := 443, ip4 := 9 }, loc := {} }
    { exPreferred with port4 := (53, 0) } = none := by decide +kernel

end Picoquic.Props
