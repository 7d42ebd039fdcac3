import Verif.Proof.PacketNumber
/-!
# C18, C44: packet numbers are recovered, header protection is undone
-/

namespace Picoquic.Props
open Picoquic Picoquic.PacketNumber

/-- Distance between two integers. -/
def dist (a b : Nat) : Nat := (a - b) + (b - a)

theorem two_dvd_pow {m : Nat} (h : 1 ≤ m) : 2 ∣ 2 ^ m := by
  obtain ⟨m, rfl⟩ := Nat.exists_eq_add_of_le h
  rw [Nat.pow_add]; exact ⟨2 ^ m, by omega⟩

/-- **C18.** For every encoding length of `k` bytes, every highest received number `h` and every
packet number `n`: if `n` is within half a window of `h + 1`, then `n` is recovered from its `k` low
order bytes. -/
theorem C18_packet_number_recovered (k h n : Nat) (hk : 1 ≤ k ∧ k ≤ 4) (hh : h < 2 ^ 62)
    (hlow : h + 1 ≤ n + 256 ^ k / 2) (hhigh : n < h + 1 + 256 ^ k / 2) :
    getPacketNumber64 h (pnMask k) (n % 256 ^ k) = n := by
  have hW : 256 ^ k = 2 ^ (8 * k) := by rw [Nat.pow_mul]
  rw [hW] at hlow hhigh ⊢
  clear hW
  have hpos : 0 < 2 ^ (8 * k) := Nat.pow_pos (by decide)
  have heq := getPacketNumber64_eq h k (n % 2 ^ (8 * k)) hk hh (Nat.mod_lt _ hpos)
  simp only at heq
  rw [heq]
  have h2 : 2 ∣ 2 ^ (8 * k) := two_dvd_pow (by omega)
  generalize 2 ^ (8 * k) = W at *
  obtain ⟨W', hW'⟩ := h2
  have hW2 : W / 2 = W' := by omega
  rw [hW2] at hlow hhigh
  clear heq hW2
  have e1 := Nat.div_add_mod (h + 1) W
  have e2 := Nat.div_add_mod n W
  have l1 : (h + 1) % W < W := Nat.mod_lt _ hpos
  have l2 : n % W < W := Nat.mod_lt _ hpos
  generalize (h + 1) % W = r1 at *
  generalize n % W = r2 at *
  -- the quotients differ by at most one
  have hq : n / W = (h + 1) / W ∨ n / W + 1 = (h + 1) / W ∨ n / W = (h + 1) / W + 1 := by
    rcases Nat.lt_trichotomy (n / W) ((h + 1) / W) with hlt | heq | hgt
    · right; left
      have hnot : ¬ n / W + 2 ≤ (h + 1) / W := by
        intro hc
        have := Nat.mul_le_mul_left W hc
        rw [Nat.mul_add] at this; omega
      omega
    · left; exact heq
    · right; right
      have hnot : ¬ (h + 1) / W + 2 ≤ n / W := by
        intro hc
        have := Nat.mul_le_mul_left W hc
        rw [Nat.mul_add] at this; omega
      omega
  have hbase : h + 1 - r1 = W * ((h + 1) / W) := by omega
  rw [hbase]
  rcases hq with hq | hq | hq
  · rw [hq] at e2
    generalize W * ((h + 1) / W) = B at *
    repeat' split
    all_goals omega
  · have : W * ((h + 1) / W) = W * (n / W) + W := by rw [← hq, Nat.mul_add, Nat.mul_one]
    rw [this] at e1 hbase ⊢
    clear this hq
    generalize W * (n / W) = B at *
    repeat' split
    all_goals omega
  · have : W * (n / W) = W * ((h + 1) / W) + W := by rw [hq, Nat.mul_add, Nat.mul_one]
    rw [this] at e2
    clear this hq
    generalize W * ((h + 1) / W) = B at *
    repeat' split
    all_goals omega

/-- The window is not empty and has a boundary inside: 255 is recovered after 200, and after 300. -/
example : getPacketNumber64 200 (pnMask 1) 255 = 255 ∧ getPacketNumber64 300 (pnMask 1) 255 = 255 ∧
    getPacketNumber64 200 (pnMask 1) 3 = 259 := by decide

/-- **C18, any input.** Whatever the truncated number, also an adversarial one, the result has the
given low order bytes and is nearest to `h + 1` among all numbers that have. -/
theorem C18_nearest (k h pn : Nat) (hk : 1 ≤ k ∧ k ≤ 4) (hh : h < 2 ^ 62) (hpn : pn < 256 ^ k) :
    getPacketNumber64 h (pnMask k) pn % 256 ^ k = pn ∧
    ∀ m, m % 256 ^ k = pn →
      dist (getPacketNumber64 h (pnMask k) pn) (h + 1) ≤ dist m (h + 1) := by
  have hW : 256 ^ k = 2 ^ (8 * k) := by rw [Nat.pow_mul]
  rw [hW] at hpn ⊢
  clear hW
  have hpos : 0 < 2 ^ (8 * k) := Nat.pow_pos (by decide)
  have heq := getPacketNumber64_eq h k pn hk hh hpn
  simp only at heq
  rw [heq]
  clear heq
  generalize 2 ^ (8 * k) = W at *
  have e1 := Nat.div_add_mod (h + 1) W
  have l1 : (h + 1) % W < W := Nat.mod_lt _ hpos
  generalize (h + 1) % W = r1 at *
  have hbase : h + 1 - r1 = W * ((h + 1) / W) := by omega
  rw [hbase]
  generalize (h + 1) / W = q at *
  have hres : ∀ j, (W * j + pn) % W = pn := fun j => by
    rw [Nat.mul_add_mod]; exact Nat.mod_eq_of_lt hpn
  have hW1 : ∀ j, W * (j + 1) = W * j + W := fun j => by rw [Nat.mul_add, Nat.mul_one]
  constructor
  · split
    · split
      · have := hres (q + 1); rw [hW1] at this
        rw [← this]; congr 1; omega
      · exact hres q
    · split
      · rename_i hc
        obtain ⟨q', rfl⟩ : ∃ q', q = q' + 1 := by
          cases q with
          | zero => simp at hc
          | succ q' => exact ⟨q', rfl⟩
        have := hres q'
        rw [hW1]
        rw [← this]; congr 1; omega
      · exact hres q
  · intro m hm
    have e2 := Nat.div_add_mod m W
    rw [hm] at e2
    generalize m / W = j at *
    unfold dist
    have hj : (j = q) ∨ (j = q + 1) ∨ (j + 1 = q) ∨ (q + 2 ≤ j) ∨ (j + 2 ≤ q) := by omega
    have hmono : ∀ {a b : Nat}, a ≤ b → W * a ≤ W * b := fun h => Nat.mul_le_mul_left W h
    rcases hj with rfl | rfl | rfl | hj | hj
    · generalize W * j = B at *
      split <;> split <;> omega
    · rw [hW1] at *
      generalize W * q = B at *
      split <;> split <;> omega
    · rw [hW1] at *
      generalize W * j = B at *
      split <;> split <;> omega
    · have := hmono hj
      rw [show q + 2 = (q + 1) + 1 by rfl, hW1, hW1] at this
      generalize W * j = B' at *
      generalize W * q = B at *
      split <;> split <;> omega
    · have := hmono hj
      rw [show j + 2 = (j + 1) + 1 by rfl, hW1, hW1] at this
      generalize W * j = B' at *
      generalize W * q = B at *
      split <;> split <;> omega

/-- **C18, sender.** The encoding length chosen by the sender is enough: if the receiver has
received nothing above `n - 1` (`h = 0` also stands for "nothing received"), has received the packet
preceding the oldest pending packet or a later one, and no more than 2^31 packets follow what it
received, then it recovers `n`. -/
theorem C18_sender_length_sufficient (n h : Nat) (pendingFirst : Option Nat)
    (hh : h < 2 ^ 62) (hn : h < n ∨ h = 0) (hfar : n ≤ h + 2 ^ 31)
    (hpend : ∀ p, pendingFirst = some p → p ≤ h + 1) :
    let k := predictPnLength n pendingFirst
    getPacketNumber64 h (pnMask k) (accumulate 0 (formatPn k n)) = n := by
  intro k
  have hk : 1 ≤ k ∧ k ≤ 4 := by
    show 1 ≤ predictPnLength n pendingFirst ∧ predictPnLength n pendingFirst ≤ 4
    unfold predictPnLength
    simp only
    repeat' split
    all_goals omega
  rw [accumulate_formatPn k n hk]
  have hW : 2 ^ (8 * k) = 256 ^ k := by rw [Nat.pow_mul]
  rw [hW]
  have hwin : n < h + 1 + 256 ^ k / 2 := by
    have hcases : (k = 1 ∧ n < 16) ∨ (k = 2 ∧ n < 1024) ∨ (k = 3 ∧ n ≤ h + 262144) ∨ k = 4 := by
      have hkdef : k = predictPnLength n pendingFirst := rfl
      unfold predictPnLength at hkdef
      cases pendingFirst with
      | none =>
        simp only at hkdef
        revert hkdef
        repeat' split
        all_goals omega
      | some p =>
        have := hpend p rfl
        simp only at hkdef
        revert hkdef
        repeat' split
        all_goals omega
    rcases hcases with ⟨h1, h2⟩ | ⟨h1, h2⟩ | ⟨h1, h2⟩ | h1 <;> rw [h1] <;> omega
  have hge : 256 ^ k ≥ 256 := by
    have : 256 ^ 1 ≤ 256 ^ k := Nat.pow_le_pow_right (by decide) hk.1
    simpa using this
  exact C18_packet_number_recovered k h n hk hh (by omega) hwin

example : predictPnLength 300000 (some 299990) = 3 ∧ predictPnLength 300000 none = 4 ∧
    predictPnLength 15 none = 1 ∧ predictPnLength 1000 (some 3) = 2 := by decide

theorem toBitVec_inj8 {a b : UInt8} (h : a.toBitVec = b.toBitVec) : a = b := UInt8.toBitVec_inj.1 h

theorem high_bit_kept (b m fm : UInt8) (h : fm &&& 0x80 = 0) :
    (b ^^^ (m &&& fm)) &&& 0x80 = b &&& 0x80 := by
  have h1 : (b ^^^ (m &&& fm)) &&& 0x80 = (b &&& 0x80) ^^^ ((m &&& fm) &&& 0x80) := by
    apply toBitVec_inj8
    simp only [UInt8.toBitVec_and, UInt8.toBitVec_xor]
    ext i hi
    simp only [BitVec.getElem_and, BitVec.getElem_xor]
    generalize b.toBitVec[i] = x
    generalize m.toBitVec[i] = y
    generalize fm.toBitVec[i] = z
    generalize (0x80 : UInt8).toBitVec[i] = w
    revert x y z w; decide
  rw [h1, UInt8.and_assoc, h]
  simp

/-- The mask of the first byte on both sides: 4 bits for long headers; for short headers 5 bits, or
3 when the loss bits are in use. -/
def firstMaskOf (b0 : UInt8) (lossBit : Bool) : UInt8 :=
  if b0 &&& 0x80 = 0x80 then 0x0F else if lossBit then 0x07 else 0x1F

theorem firstMask_high (b0 : UInt8) (lossBit : Bool) : firstMaskOf b0 lossBit &&& 0x80 = 0 := by
  unfold firstMaskOf
  split
  · decide
  · cases lossBit <;> decide

/-- **C44.** Header protection is undone exactly: for every cipher, every packet (long or short
header), every position of the packet number, and every content, if the sample lies in the packet,
then protecting the header and removing the protection restores the header and the packet number
bytes, and leaves the payload untouched. -/
theorem C44_header_protection_roundtrip (pnEnc : Bytes → Bytes) (hmask : ∀ s, 5 ≤ (pnEnc s).length)
    (ivSize : Nat) (lossBit is1rtt : Bool) (keyPhase0 pnOffset sackLast : Nat) (b0 : UInt8)
    (rest : Bytes) (hoff : 1 ≤ pnOffset) (hlen : pnOffset + 4 + ivSize ≤ (b0 :: rest).length) :
    let buf := b0 :: rest
    let pnL := (b0 &&& 3).toNat + 1
    ∃ wire u, protectPacketHeader pnEnc (firstMaskOf b0 lossBit) pnOffset buf = some wire ∧
      wire.length = buf.length ∧
      wire.drop (pnOffset + pnL) = buf.drop (pnOffset + pnL) ∧
      removeHeaderProtection pnEnc ivSize lossBit is1rtt keyPhase0 pnOffset sackLast wire = some u ∧
      u.decrypted = buf.take (pnOffset + pnL) ∧ u.offset = pnOffset + pnL ∧
      u.pn = accumulate 0 ((buf.drop pnOffset).take pnL) ∧
      u.pn64 = getPacketNumber64 sackLast (pnMask pnL) u.pn ∧
      u.payloadLength = buf.length - (pnOffset + pnL) ∧
      u.keyPhase = (if is1rtt then ((b0 >>> 2) &&& 1).toNat else keyPhase0) := by
  intro buf pnL
  have hpnL : pnL ≤ 4 := by
    have : (b0 &&& 3).toNat ≤ 3 := by
      rw [UInt8.toNat_and]; exact Nat.and_le_right
    omega
  have hbl : buf.length = rest.length + 1 := rfl
  -- split the buffer
  obtain ⟨o, rfl⟩ : ∃ o, pnOffset = o + 1 := ⟨pnOffset - 1, by omega⟩
  have hdrop : buf.drop (o + 1 + 4) = rest.drop (o + 4) := by
    show (b0 :: rest).drop (o + 4 + 1) = _; rw [List.drop_succ_cons]
  generalize hM : pnEnc (buf.drop (o + 1 + 4)) = mask
  have hml : 5 ≤ mask.length := by rw [← hM]; exact hmask _
  let X := xorMask ((rest.drop o).take pnL) mask.tail
  have hX : X.length = pnL := by
    show (xorMask _ _).length = pnL
    rw [xorMask_length, List.length_take, List.length_drop]; simp only [List.length_cons] at hlen; omega
  let f := b0 ^^^ (mask.headD 0 &&& firstMaskOf b0 lossBit)
  have hf80 : f &&& 0x80 = b0 &&& 0x80 := high_bit_kept _ _ _ (firstMask_high _ _)
  let wire := f :: rest.take o ++ X ++ rest.drop (o + pnL)
  have hro : o ≤ rest.length := by simp only [List.length_cons] at hlen; omega
  have hto : (rest.take o).length = o := by rw [List.length_take]; omega
  have hprot : protectPacketHeader pnEnc (firstMaskOf b0 lossBit) (o + 1) buf = some wire := by
    show protectPacketHeader _ _ _ (b0 :: rest) = _
    unfold protectPacketHeader
    simp only
    rw [show (b0 :: rest) = buf from rfl, hM]
    rw [if_neg (by simp only [List.length_cons] at hlen; rw [hbl]; omega)]
    simp only [Nat.add_sub_cancel]
    rfl
  have hwl : wire.length = buf.length := by
    show (f :: rest.take o ++ X ++ rest.drop (o + pnL)).length = _
    simp only [List.length_append, List.length_cons, hto, hX, List.length_drop]
    simp only [List.length_cons] at hlen; omega
  have hwdrop : ∀ j, wire.drop (o + 1 + pnL + j) = rest.drop (o + pnL + j) := by
    intro j
    show (f :: rest.take o ++ X ++ rest.drop (o + pnL)).drop (o + 1 + pnL + j) = _
    rw [List.drop_append, List.drop_eq_nil_of_le (by simp [hX, hto]; omega), List.nil_append,
      List.drop_drop]
    congr 1
    simp [hX, hto]; omega
  have hwsample : wire.drop (o + 1 + 4) = buf.drop (o + 1 + 4) := by
    have := hwdrop (4 - pnL)
    rw [show o + 1 + pnL + (4 - pnL) = o + 1 + 4 by omega] at this
    rw [this, hdrop]; congr 1; omega
  have hwpn : (wire.drop (o + 1)).take pnL = X := by
    show ((f :: rest.take o ++ X ++ rest.drop (o + pnL)).drop (o + 1)).take pnL = _
    rw [List.append_assoc, List.drop_append, List.drop_eq_nil_of_le (by simp [hto]), List.nil_append]
    simp [hto, ← hX]
  have hfirst : f ^^^ (mask.headD 0 &&& firstMaskOf b0 lossBit) = b0 := by
    show (b0 ^^^ _) ^^^ _ = b0
    rw [UInt8.xor_assoc, UInt8.xor_self, UInt8.xor_zero]
  have hfm : (if f &&& 0x80 = 0x80 then (0x0F : UInt8) else if lossBit then 0x07 else 0x1F) =
      firstMaskOf b0 lossBit := by unfold firstMaskOf; rw [hf80]
  have hXX : xorMask X mask.tail = (rest.drop o).take pnL := xorMask_xorMask _ _
  have htail : (rest.take o ++ X ++ rest.drop (o + pnL)).take o = rest.take o := by
    rw [List.append_assoc, List.take_append_of_le_length (by omega), List.take_of_length_le (by omega)]
  refine ⟨wire, {
      decrypted := b0 :: rest.take o ++ (rest.drop o).take pnL
      offset := o + 1 + pnL
      pn := accumulate 0 ((rest.drop o).take pnL)
      pnmask := pnMask pnL
      pn64 := getPacketNumber64 sackLast (pnMask pnL) (accumulate 0 ((rest.drop o).take pnL))
      payloadLength := buf.length - (o + 1) - pnL
      keyPhase := if is1rtt then ((b0 >>> 2) &&& 1).toNat else keyPhase0
      reserved := if b0 &&& 0x80 = 0 then !lossBit && decide (b0 &&& 0x18 ≠ 0)
          else decide (b0 &&& 0x0c ≠ 0) }, hprot, hwl, ?_, ?_, ?_, rfl, ?_, rfl, ?_, rfl⟩
  · have := hwdrop 0
    simp only [Nat.add_zero] at this
    rw [this]
    show _ = (b0 :: rest).drop (o + 1 + pnL)
    rw [show o + 1 + pnL = (o + pnL) + 1 by omega, List.drop_succ_cons]
  · have hw : wire = f :: (rest.take o ++ X ++ rest.drop (o + pnL)) := by
      show f :: rest.take o ++ X ++ rest.drop (o + pnL) = _
      simp
    have hwM : pnEnc (wire.drop (o + 1 + 4)) = mask := by rw [hwsample, hM]
    rw [hw] at hwM hwpn hwl ⊢
    unfold removeHeaderProtection
    simp only
    rw [if_neg (by rw [hwl]; simp only [List.length_cons] at hlen; omega), hwM, hfm, hfirst, hwpn,
      hXX, hwl]
    simp only [Nat.add_sub_cancel, htail]
    rfl
  · show _ = (b0 :: rest).take (o + 1 + pnL)
    rw [show o + 1 + pnL = (o + pnL) + 1 by omega, List.take_succ_cons,
      List.take_add (l := rest) (i := o) (j := pnL)]
    rfl
  · rfl
  · show buf.length - (o + 1) - pnL = _
    omega

/-- A concrete cipher and packet meeting the hypotheses of C44. -/
example : (protectPacketHeader (fun s => [s.headD 0, 2, 3, 4, 5]) (firstMaskOf 0x41 false) 3
    ([0x41, 9, 9, 0x12, 0x34] ++ List.replicate 20 7)).isSome = true := by decide

/-- **C18, end to end.** A short header packet created with the predicted length, protected, and
unprotected by a receiver in any state covered by the hypotheses of `C18_sender_length_sufficient`,
gives back the full packet number, for every connection ID, flags, cipher and payload. -/
theorem C18_short_header_end_to_end (pnEnc : Bytes → Bytes) (hmask : ∀ s, 5 ≤ (pnEnc s).length)
    (ivSize : Nat) (lossBit : Bool) (flags : UInt8) (hflags : flags &&& 0x83 = 0) (cid : Bytes)
    (n h : Nat) (pendingFirst : Option Nat) (payload : Bytes)
    (hh : h < 2 ^ 62) (hn : h < n ∨ h = 0) (hfar : n ≤ h + 2 ^ 31)
    (hpend : ∀ p, pendingFirst = some p → p ≤ h + 1)
    (hpay : 4 + ivSize ≤ payload.length + predictPnLength n pendingFirst) :
    let hdr := createShortHeader flags cid (1 + cid.length + predictPnLength n pendingFirst) n
    ∃ wire u, protectPacketHeader pnEnc (firstMaskOf flags lossBit) hdr.2.1 (hdr.1 ++ payload) =
        some wire ∧
      removeHeaderProtection pnEnc ivSize lossBit true 0 (1 + cid.length) h wire = some u ∧
      u.pn64 = n ∧ u.decrypted = hdr.1 ∧ wire.drop u.offset = payload ∧
      u.payloadLength = payload.length := by
  intro hdr
  have hk : 1 ≤ predictPnLength n pendingFirst ∧ predictPnLength n pendingFirst ≤ 4 := by
    unfold predictPnLength; simp only
    repeat' split
    all_goals omega
  have hrec := C18_sender_length_sufficient n h pendingFirst hh hn hfar hpend
  simp only at hrec
  generalize hkd : predictPnLength n pendingFirst = k at *
  let b0 := flags ||| u8 (k - 1)
  have hhdr : hdr = (b0 :: cid ++ formatPn k n, 1 + cid.length, k) := by
    show createShortHeader _ _ _ _ = _
    unfold createShortHeader
    simp only [hkd]
    have hpnl : (if 1 + cid.length + k > 1 + cid.length ∧ 1 + cid.length + k < 1 + cid.length + 4
        then 1 + cid.length + k - (1 + cid.length) else 4) = k := by split <;> omega
    rw [hpnl]
  -- the two low bits of the first byte are those of k - 1, the high bit is clear
  have hand : ∀ c : UInt8, b0 &&& c = (flags &&& c) ||| (u8 (k - 1) &&& c) := by
    intro c
    apply toBitVec_inj8
    show ((flags ||| u8 (k - 1)) &&& c).toBitVec = _
    simp only [UInt8.toBitVec_and, UInt8.toBitVec_or]
    ext i hi
    simp only [BitVec.getElem_and, BitVec.getElem_or]
    generalize flags.toBitVec[i] = x
    generalize (u8 (k - 1)).toBitVec[i] = y
    generalize c.toBitVec[i] = z
    revert x y z; decide
  have hsub : ∀ c : UInt8, 0x83 &&& c = c → flags &&& c = 0 := by
    intro c hc
    rw [← hc, ← UInt8.and_assoc, hflags]; simp
  have hb3 : (b0 &&& 3).toNat + 1 = k := by
    rw [hand, hsub 3 (by decide)]
    have : k = 1 ∨ k = 2 ∨ k = 3 ∨ k = 4 := by omega
    rcases this with rfl | rfl | rfl | rfl <;> decide
  have hb80 : b0 &&& 0x80 = 0 := by
    rw [hand, hsub 0x80 (by decide)]
    have : k = 1 ∨ k = 2 ∨ k = 3 ∨ k = 4 := by omega
    rcases this with rfl | rfl | rfl | rfl <;> decide
  have hfmEq : firstMaskOf flags lossBit = firstMaskOf b0 lossBit := by
    unfold firstMaskOf
    rw [hb80, hsub 0x80 (by decide)]
  have hfl := formatPn_length k n hk
  obtain ⟨wire, u, h1, h2, h3, h4, h5, h6, h7, h8, h9, -⟩ :=
    C44_header_protection_roundtrip pnEnc hmask ivSize lossBit true 0 (1 + cid.length) h b0
      (cid ++ formatPn k n ++ payload) (by omega) (by simp [hfl]; omega)
  simp only [hb3] at h3 h5 h6 h7 h8 h9
  have hbuf : b0 :: (cid ++ formatPn k n ++ payload) = (b0 :: cid ++ formatPn k n) ++ payload := by
    simp
  have hl : (b0 :: cid ++ formatPn k n).length = 1 + cid.length + k := by simp [hfl]; omega
  refine ⟨wire, u, ?_, h4, ?_, ?_, ?_, ?_⟩
  · rw [hhdr, hfmEq]; simp only; rw [← hbuf]; exact h1
  · rw [h8, h7]
    have : ((b0 :: (cid ++ formatPn k n ++ payload)).drop (1 + cid.length)).take k = formatPn k n := by
      rw [show 1 + cid.length = cid.length + 1 by omega, List.drop_succ_cons, List.append_assoc,
        List.drop_left]
      exact List.take_left' hfl
    rw [this]; exact hrec
  · rw [h5, hhdr, hbuf, ← hl, List.take_left]
  · rw [h6, h3, hbuf, ← hl, List.drop_left]
  · rw [h9, hbuf, List.length_append, hl]; omega

end Picoquic.Props
