import Verif.Model.IntFormat
/-!
# Key updates

Model of the rotation of the 1-RTT keys: `picoquic_start_key_rotation` in `picoquic/quicctx.c`, `picoquic_compute_new_rotated_keys`
and `picoquic_apply_rotated_keys` in `picoquic/tls_api.c`, and the choice of the key in `picoquic_remove_packet_protection` of
`picoquic/packet.c`. A key is its generation: the number of times that the secret was updated. The ciphers are ideal: a packet is decrypted by the key it
was encrypted with and by no other one. The computation of keys does not fail.
-/

namespace Picoquic.KeyUpdate

/-- `UINT64_MAX` -/
def U64_MAX : Nat := 2 ^ 64 - 1

/-- The parts of `picoquic_cnx_t` which are used here. -/
structure Kx where
  /-- `is_multipath_enabled` -/
  multipath : Bool
  /-- `cnx_state` is `picoquic_state_ready` -/
  ready : Bool
  /-- `crypto_context[3].aead_encrypt` and `aead_decrypt` -/
  enc : Nat
  dec : Nat
  /-- `crypto_context_new.aead_encrypt` and `aead_decrypt` -/
  newEnc : Option Nat
  newDec : Option Nat
  /-- `crypto_context_old.aead_decrypt` -/
  oldDec : Option Nat
  /-- `app_secret_enc` and `app_secret_dec` of `picoquic_tls_ctx_t` -/
  secEnc : Nat
  secDec : Nat
  /-- `key_phase_enc` and `key_phase_dec` -/
  phaseEnc : Bool
  phaseDec : Bool
  /-- `crypto_rotation_sequence` of the acknowledgement context of a path -/
  rotSeq : Nat → Nat
  /-- `crypto_rotation_time_guard` -/
  guard : Nat
  /-- `crypto_epoch_sequence` -/
  epochSeq : Nat
  /-- `send_sequence` of the packet context of a path -/
  sendSeq : Nat → Nat
  /-- `picoquic_sack_list_last` of the packets received, when multipath is not enabled -/
  lastRecv : Nat

/-- A 1-RTT packet: the path, the number, the key phase, and the key it was encrypted with, `none` for a forged one. -/
structure Pkt where
  path : Nat
  pn : Nat
  phase : Bool
  key : Option Nat
deriving DecidableEq

/-- The context of a path: `picoquic_ack_ctx_from_cnx_context`, picoquic_internal.h and packet.c 644, and sender.c 1122-1126. The
context 0 is the one of the connection, which is not used by 1-RTT packets when multipath is enabled. -/
def Kx.ctx (k : Kx) (path : Nat) : Nat := if k.multipath then path + 1 else 0

/-- An array with one element changed. -/
def upd (f : Nat → Nat) (i v : Nat) : Nat → Nat := fun j => if j = i then v else f j

/-- `picoquic_compute_new_rotated_keys`, tls_api.c 1516-1575: `none` for an error. -/
def computeNew (k : Kx) : Option Kx :=
  if k.newDec.isSome ∨ k.newEnc.isSome then
    if k.newDec.isNone ∨ k.newEnc.isNone then none else some k
  else
    some { k with secEnc := k.secEnc + 1, newEnc := some (k.secEnc + 1), secDec := k.secDec + 1, newDec := some (k.secDec + 1) }

/-- `picoquic_apply_rotated_keys` for encryption, tls_api.c 1579-1588. It is called when there is a new key. -/
def applyEnc (k : Kx) : Kx :=
  match k.newEnc with
  | some g => { k with enc := g, newEnc := none, phaseEnc := !k.phaseEnc }
  | none => k

/-- `picoquic_apply_rotated_keys` for decryption, tls_api.c 1589-1599. It is called when there is a new key. -/
def applyDec (k : Kx) : Kx :=
  match k.newDec with
  | some g => { k with oldDec := some k.dec, dec := g, newDec := none, phaseDec := !k.phaseDec }
  | none => k

/-- `picoquic_start_key_rotation`, quicctx.c 4740-4761: `none` when it fails, and then nothing is changed. The keys for
encryption in the old context are never set. -/
def startRotation (k : Kx) : Option Kx :=
  if !k.ready ∨ k.epochSeq > k.lastRecv then none
  else
    match computeNew k with
    | none => none
    | some k => some { applyEnc k with oldDec := none, epochSeq := k.sendSeq 0 }

/-- The change to new keys on a packet that was decrypted with them, packet.c 710-727. `rto` is the retransmission timer. All paths
are known. -/
def rotate (k : Kx) (now rto : Nat) (p : Pkt) : Kx :=
  let k := { k with
    guard := u64 (now + rto)
    rotSeq := upd (if k.multipath then fun _ => U64_MAX else k.rotSeq) (k.ctx p.path) p.pn }
  let k := applyDec k
  if k.newEnc.isSome then applyEnc k else k

/-- `picoquic_remove_packet_protection`, packet.c 640-741, for a 1-RTT packet: the connection, and whether the packet was
decrypted. The limit of the number of failures is not modelled. -/
def decryptWith (k : Kx) (now rto : Nat) (p : Pkt) : Kx × Bool :=
  let c := k.ctx p.path
  if p.phase = k.phaseDec then
    if p.key = some k.dec then
      (if p.pn < k.rotSeq c then { k with rotSeq := upd k.rotSeq c p.pn } else k, true)
    else (k, false)
  else if (k.rotSeq c = U64_MAX ∧ now ≤ k.guard) ∨ p.pn < k.rotSeq c then
    if now > k.guard then (k, false)
    else
      match k.oldDec with
      | some o => (k, decide (p.key = some o))
      | none => (k, false)
  else
    match (if k.newDec.isNone ∧ k.newEnc.isNone then computeNew k else some k) with
    | none => (k, false)
    | some k =>
      match k.newDec with
      | none => (k, false)
      | some g => if p.key = some g then (rotate k now rto p, true) else (k, false)

/-- A packet comes in: it is decrypted, and its number is recorded by `picoquic_record_pn_received`, sacks.c 220-260. -/
def receive (k : Kx) (now rto : Nat) (p : Pkt) : Kx × Bool :=
  let r := decryptWith k now rto p
  if r.2 ∧ !k.multipath then ({ r.1 with lastRecv := max r.1.lastRecv p.pn }, true) else r

/-- A packet is sent: the key phase, sender.c 661, and the number. -/
def send (k : Kx) (path : Nat) : Kx × Pkt :=
  let c := k.ctx path
  ({ k with sendSeq := upd k.sendSeq c (k.sendSeq c + 1) }, ⟨path, k.sendSeq c, k.phaseEnc, some k.enc⟩)

end Picoquic.KeyUpdate
