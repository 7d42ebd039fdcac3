import Verif.Model.Closing
/-!
# Closing: words used in the statements
-/

namespace Picoquic.Spec
open Picoquic.Closing

/-- Is it a packet? -/
def isPacketSent : Ev → Bool
  | .sent _ _ => true
  | _ => false

/-- Is it a packet received? -/
def packetReceived : Op → Bool
  | .recv _ _ _ _ => true
  | _ => false

/-- No other address is being validated. -/
def noAddressValidated : Op → Bool
  | .prepare _ p => !p.control
  | _ => true

/-- The times at which packets were sent. -/
def timesSent : List Ev → List Nat
  | [] => []
  | .sent t _ :: es => t :: timesSent es
  | _ :: es => timesSent es

/-- The smoothed round trip time is at least this, whenever a packet is asked for, and no other address is being validated. -/
def roundTripAtLeast (m : Nat) : Op → Bool
  | .prepare _ p => !p.control && decide (m ≤ p.srtt)
  | _ => true

/-- Is it a frame that closes the connection? -/
def closeFrame : Fr → Bool
  | .close => true
  | .appClose => true
  | _ => false

/-- At most one close frame in each packet. -/
def oneCloseFrame : Op → Bool
  | .recv _ _ fs _ => decide (fs.countP closeFrame ≤ 1)
  | _ => true

end Picoquic.Spec
