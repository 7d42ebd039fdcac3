import Verif.Spec.LoadBalancer
import Verif.Proof.LoadBalancerText
import Verif.Proof.LoadBalancerUnique
/-!
# Properties of the connection IDs for load balancers
-/

namespace Picoquic.Props

open Picoquic.LoadBalancer Picoquic.Spec

/-- **C68, server ID.** When a configuration is accepted, the server ID which is read in any connection ID made with it
is the configured one, whatever the random bytes, the method and the cipher; the connection ID has the
configured length. `pad` is what follows the connection ID in memory. -/
theorem C68_server_id {hasConnections configured : Bool} {localLength : Nat} {c : Config} {ctx : Ctx}
    (hacc : config hasConnections localLength configured c = .accepted ctx) (h64 : c.serverId64 < 2 ^ 64)
    {enc dec : Bytes → Bytes} (hc : BlockCipher enc dec) (random pad : Bytes) (hr : random.length = c.cidLength) :
    (createLocalCid enc ctx random).length = c.cidLength ∧
    verify enc dec ctx (createLocalCid enc ctx random).length (createLocalCid enc ctx random ++ pad) =
      c.serverId64 := by
  have g := config_good hacc
  have hb := (supported_bounds g.sup).1
  have hlen : (createLocalCid enc ctx random).length = c.cidLength := by
    unfold createLocalCid
    rw [List.length_take, generate_length g hc _ _ (pad_length (by omega))]
    omega
  exact ⟨hlen, by rw [hlen]; exact verify_create g hc random pad hr h64⟩

/-- **C68, two servers.** Two servers with the same configuration, except for the server ID, never use the same connection
ID, whatever random bytes they draw. -/
theorem C68_servers_differ {c : Config} {s1 s2 : Nat} {ctx1 ctx2 : Ctx} {q1 q2 p1 p2 : Bool} {l1 l2 : Nat}
    (h1 : config q1 l1 p1 { c with serverId64 := s1 } = .accepted ctx1)
    (h2 : config q2 l2 p2 { c with serverId64 := s2 } = .accepted ctx2)
    (hs1 : s1 < 2 ^ 64) (hs2 : s2 < 2 ^ 64) (hne : s1 ≠ s2)
    {enc dec : Bytes → Bytes} (hc : BlockCipher enc dec) (x y : Bytes) (hx : x.length = c.cidLength)
    (hy : y.length = c.cidLength) : createLocalCid enc ctx1 x ≠ createLocalCid enc ctx2 y := by
  intro h
  have a := (C68_server_id h1 hs1 hc x [] hx).2
  have b := (C68_server_id h2 hs2 hc y [] hy).2
  rw [h] at a
  have g1 := config_good h1
  have g2 := config_good h2
  have e : verify enc dec ctx1 (createLocalCid enc ctx2 y).length (createLocalCid enc ctx2 y ++ []) =
      verify enc dec ctx2 (createLocalCid enc ctx2 y).length (createLocalCid enc ctx2 y ++ []) := by
    unfold verify
    rw [g1.cidLength, g2.cidLength, g1.method, g2.method, g1.nonceLength, g2.nonceLength, g1.sidLength, g2.sidLength]
  rw [a, b] at e
  exact hne e

/-- **C68, random bytes.** Two connection IDs of one server are different when the random bytes differ at any place
which is not the first byte or the place of the server ID. -/
theorem C68_random_kept {hasConnections configured : Bool} {localLength : Nat} {c : Config} {ctx : Ctx}
    (hacc : config hasConnections localLength configured c = .accepted ctx)
    {enc dec : Bytes → Bytes} (hc : BlockCipher enc dec) (x y : Bytes) (hx : x.length = c.cidLength)
    (hy : y.length = c.cidLength) (i : Nat) (h1 : 1 ≤ i) (h2 : i < c.cidLength)
    (hi : i < serverIdOffset c ∨ serverIdOffset c + c.serverIdLength ≤ i) (hd : x[i]? ≠ y[i]?) :
    createLocalCid enc ctx x ≠ createLocalCid enc ctx y :=
  fun h => hd (create_inj (config_good hacc) hc x y hx hy h i h1 h2 hi)

/-- **C68, first byte.** The two high bits are the rotation bits. The six others are the length of the connection ID minus
one when this is asked, and otherwise the bits that were drawn. -/
theorem C68_first_byte {hasConnections configured : Bool} {localLength : Nat} {c : Config} {ctx : Ctx}
    (hacc : config hasConnections localLength configured c = .accepted ctx) (hrot : c.rotation < 4)
    {enc dec : Bytes → Bytes} (hc : BlockCipher enc dec) (a : UInt8) (x : Bytes) (hx : (a :: x).length = c.cidLength) :
    ∃ b t, createLocalCid enc ctx (a :: x) = b :: t ∧ b.toNat / 64 = c.rotation ∧
      b.toNat % 64 = if c.firstByteLength then c.cidLength - 1 else a.toNat % 64 := by
  have g := config_good hacc
  have hb := (supported_bounds g.sup).1
  obtain ⟨t, ht, _⟩ := create_first g hc a x hx
  refine ⟨_, t, ht, ?_⟩
  unfold first
  rw [g.firstByteLength, g.rotation]
  cases hf : c.firstByteLength with
  | true =>
    have key : ∀ r : Fin 4, ∀ l : Fin 21, (u8 ((r.val <<< 6) ||| (l.val - 1))).toNat / 64 = r.val ∧
        (u8 ((r.val <<< 6) ||| (l.val - 1))).toNat % 64 = l.val - 1 := by decide
    exact key ⟨c.rotation, hrot⟩ ⟨c.cidLength, by omega⟩
  | false =>
    have key : ∀ r : Fin 4, ∀ b : Fin 256,
        (u8 ((UInt8.ofNat b.val &&& 0x3F).toNat ||| (r.val <<< 6))).toNat / 64 = r.val ∧
        (u8 ((UInt8.ofNat b.val &&& 0x3F).toNat ||| (r.val <<< 6))).toNat % 64 = b.val % 64 := by decide +kernel
    have := key ⟨c.rotation, hrot⟩ ⟨a.toNat, a.toNat_lt⟩
    simpa using this

/-- **C68, clear.** With the method clear any observer reads the server ID, behind the first byte. -/
theorem C68_clear {hasConnections configured : Bool} {localLength : Nat} {c : Config} {ctx : Ctx}
    (hacc : config hasConnections localLength configured c = .accepted ctx) (hm : c.method = .clear)
    (enc : Bytes → Bytes) (a : UInt8) (x : Bytes) (hx : (a :: x).length = c.cidLength) :
    bigEndian (((createLocalCid enc ctx (a :: x)).drop 1).take c.serverIdLength) = c.serverId64 := by
  have g := config_good hacc
  obtain ⟨hb, hb2, _, _⟩ := supported_bounds g.sup
  have := hb2 hm
  have hsl := g.sidLength
  obtain ⟨b, n, s, r, hid, hn, hs⟩ := split3 (a :: x ++ List.replicate (20 - (a :: x).length) 0) 0 c.serverIdLength
    (by rw [pad_length (by omega)]; omega)
  have e := List.eq_nil_of_length_eq_zero hn
  subst e
  unfold createLocalCid
  rw [hid, List.nil_append, generate_clear g enc _ hm b s r hs, hx]
  obtain ⟨k, hk⟩ : ∃ k, c.cidLength = k + 1 := ⟨c.cidLength - 1, by omega⟩
  rw [hk, List.singleton_append, List.take_succ_cons, List.drop_succ_cons, List.drop_zero, List.take_take,
    Nat.min_eq_left (by omega), ← hsl, List.take_left, g.sid]

/-- **C68, other lengths.** A connection ID of another length has no server ID. -/
theorem C68_other_length (enc dec : Bytes → Bytes) (ctx : Ctx) (len : Nat) (id : Bytes) (h : len ≠ ctx.cidLength) :
    verify enc dec ctx len id = 2 ^ 64 - 1 := by
  unfold verify
  rw [if_pos h]; rfl

/-- **C68, text.** The texts which are accepted are exactly those in the format, and they are read as the configuration which
they describe. -/
theorem C68_text (txt : List Char) (c : Config) : LoadBalancer.parse txt = some c ↔ IsText txt c := parse_iff txt c

/-! ### Examples -/

/-- A cipher for the examples. -/
def lbCipher (b : Bytes) : Bytes := (b.map (· ^^^ 0x5A)).reverse

theorem lbCipher_ok : BlockCipher lbCipher lbCipher := by
  constructor
  · intro b h; simp [lbCipher, h]
  · intro b _
    simp only [lbCipher, List.map_reverse, List.reverse_reverse, List.map_map]
    conv => rhs; rw [← List.map_id b]
    congr 1
    funext x
    simp only [Function.comp_apply, id_eq, UInt8.xor_assoc, UInt8.xor_self, UInt8.xor_zero]

/-- A configuration with a stream cipher: server ID 0x0102, nonce of 8 bytes. -/
def lbStream : Config := ⟨.stream, 1, true, 2, 8, 12, 0x0102, List.replicate 16 7⟩

/-- It is the one of this text. -/
theorem lbStream_text : LoadBalancer.parse "1y12s8-0102-07070707070707070707070707070707".toList = some lbStream := by
  decide +kernel

/-- It is accepted, and so is one with another server ID and one with a block cipher. -/
theorem lbStream_accepted : (∃ ctx, config false 8 false lbStream = .accepted ctx) ∧
    (∃ ctx, config false 8 false { lbStream with serverId64 := 0xFFFF } = .accepted ctx) ∧
    (∃ ctx, config true 17 false { lbStream with method := .block, cidLength := 17 } = .accepted ctx) :=
  ⟨⟨_, rfl⟩, ⟨_, rfl⟩, ⟨_, rfl⟩⟩

/-- Non-vacuity of C68: the coded server ID is not the server ID, but it is read back. -/
example : ∃ ctx, config false 8 false lbStream = .accepted ctx ∧
    createLocalCid lbCipher ctx [9, 1, 2, 3, 4, 5, 6, 7, 8, 9, 10, 11] ≠ [0x4B, 1, 2, 3, 4, 5, 6, 7, 8, 1, 2, 11] ∧
    verify lbCipher lbCipher ctx 12 (createLocalCid lbCipher ctx [9, 1, 2, 3, 4, 5, 6, 7, 8, 9, 10, 11]) = 0x0102 :=
  ⟨_, rfl, by decide +kernel, by decide +kernel⟩

/-- A text of the format, without the length of the connection IDs. -/
def lbNoLength : List Char := "0NC-0102".toList

/-- **C68, default length (violated).** The length may be left out of the text. Such a text is accepted, but then no
configuration read from such a text can be set, whatever the length of the connection IDs of the server: it
counts as zero. -/
theorem C68_default_length_violated :
    (∃ c, LoadBalancer.parse lbNoLength = some c) ∧
    ∀ txt c, LoadBalancer.parse txt = some c → c.cidLength = 0 →
      ∀ hasConnections localLength configured, config hasConnections localLength configured c = .refused := by
  refine ⟨⟨⟨.clear, 0, false, 2, 0, 0, 0x0102, List.replicate 16 0⟩, by decide +kernel⟩, ?_⟩
  intro txt c _ h0 q l p
  have hs : supported c = false := by
    cases hs : supported c with
    | false => rfl
    | true =>
      obtain ⟨_, b2, b3, b4⟩ := supported_bounds hs
      cases hm : c.method with
      | clear => have := b2 hm; omega
      | stream => have := (b3 hm).2.2; omega
      | block => have := (b4 hm).1; omega
  unfold config
  rw [hs]
  split
  · rfl
  split
  · rfl
  rfl

/-- **C68, long server IDs (violated).** With the method clear and connection IDs of 18 to 20 bytes, a server ID of 17 bytes
or more is not refused: the array of 16 bytes is written out of bounds. -/
theorem C68_long_server_id_violated (c : Config) (hm : c.method = .clear) (h : 17 ≤ c.serverIdLength)
    (hl : c.serverIdLength + 1 ≤ c.cidLength) (h20 : c.cidLength ≤ 20) (localLength : Nat) :
    config false localLength false c = .outOfBounds := by
  have hs : supported c = true := by
    unfold supported
    rw [if_neg (by omega), hm]
    dsimp only
    rw [decide_eq_false (by omega)]; rfl
  unfold config
  rw [hs]
  simp only [Bool.false_and, Bool.false_eq_true, if_false, Bool.not_true]
  rw [if_pos (by omega)]

end Picoquic.Props
