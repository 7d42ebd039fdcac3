import Verif.Model.TransportParams
/-!
# The choice of a version

Model of the parts of picoquic/quicctx.c, packet.c and transport.c by which a client chooses a version of QUIC, proposes another one, and both ends change to it.

A version index is represented by the version number, as in `TransportParams`. The computation of initial keys is assumed to succeed.
-/

namespace Picoquic.VersionChoice
open Picoquic Picoquic.TransportParams

/-- The fields of `picoquic_cnx_t` about the version: `client_mode`, `proposed_version`, the version of `version_index`, `desired_version`, `do_version_negotiation`; `early` tells if
`cnx_state < picoquic_state_client_almost_ready`. -/
structure Cnx where
  client : Bool
  proposed : Nat
  version : Nat
  desired : Nat := 0
  doVn : Bool := false
  early : Bool := true
deriving DecidableEq, Repr

/-- The version of a new client, `picoquic_create_cnx`, quicctx.c 3989-4008. `PICOQUIC_INTEROP_VERSION_INDEX` is 0, picoquic_internal.h 226. -/
def createClient (preferred : Nat) : Cnx :=
  if preferred = 0 then { client := true, proposed := V1, version := V1 }
  else if isSupported preferred then { client := true, proposed := preferred, version := preferred }
  else if preferred &&& 0x0A0A0A0A = 0x0A0A0A0A then { client := true, proposed := preferred, version := V1 }
  else { client := true, proposed := V1, version := V1 }

/-- The version of a new server, quicctx.c 4027-4034. -/
def createServer (vn : Nat) : Cnx :=
  if isSupported vn then { client := false, proposed := vn, version := vn } else { client := false, proposed := V1, version := V1 }

/-- `picoquic_set_desired_version`, quicctx.c 4897-4901. -/
def setDesired (c : Cnx) (v : Nat) : Cnx := { c with desired := v, doVn := true }

/-- `picoquic_set_rejected_version`, quicctx.c 4903-4907. -/
def setRejected (c : Cnx) (v : Nat) : Cnx := { c with desired := v, doVn := true }

/-- The version in the header of a long packet, sender.c 705-706; `first` tells if the packet is an Initial packet and the state is `client_init` or `client_init_sent`. -/
def sentVersion (c : Cnx) (first : Bool) : Nat := if first then c.proposed else c.version

/-- The version information of a connection, `picoquic_encode_transport_param_version_negotiation`, transport.c 188-209, without its type and length; it is sent if `do_version_negotiation`
is set, transport.c 448-450. -/
def versionInfo (c : Cnx) : Bytes :=
  (versionList { loc := {}, client := c.client, version := c.version, desiredVersion := c.desired }).flatMap picoformat32

/-- What happens with version information. -/
inductive Outcome
  | error (code : Nat)
  | refused
  | hang
  | ok (c : Cnx)
deriving DecidableEq, Repr

/-- The version information from the peer, transport.c 775-793. -/
def receiveInfo (c : Cnx) (v : Bytes) : Outcome :=
  match processVersionNegotiation c.client c.version v with
  | .fail code => .error code
  | .ok vn =>
    if vn ≠ 0 ∧ c.version ≠ vn then
      match processVersionUpgrade c.version vn with
      | .done => .ok { c with doVn := true, version := vn }
      | .refused => .refused
      | .hang => .hang
    else .ok { c with doVn := true }

/-- What happens with a packet. -/
inductive PacketOutcome
  /-- `PICOQUIC_ERROR_PACKET_WRONG_VERSION`: the packet is not decrypted -/
  | wrongVersion
  /-- the version upgrade failed: the packet is not decrypted -/
  | notUpgraded
  | hang
  /-- the packet is decrypted with the keys of the connection -/
  | decrypted
deriving DecidableEq, Repr

/-- The test of the version of a long packet, before it is decrypted, packet.c 799-818. The version of the packet is a supported one, packet.c 220-228. -/
def onPacket (c : Cnx) (vn : Nat) : Cnx × PacketOutcome :=
  if vn ≠ c.version then
    if c.client ∧ c.early ∧ vn = c.desired then
      match processVersionUpgrade c.version vn with
      | .done => ({ c with version := vn }, .decrypted)
      | .refused => (c, .notUpgraded)
      | .hang => (c, .hang)
    else (c, .wrongVersion)
  else (c, .decrypted)

end Picoquic.VersionChoice
