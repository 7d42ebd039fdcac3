import Verif.Model.IntFormat
/-!
# Loss detection

Model of loss_recovery.c 180-616, 1013-1073, for connections with one path: which packets that wait for an acknowledgement are declared lost, which are repeated because of a timer, and when the connection
asks to be called again. What the packets contain is summarized (see `Pkt`); how frames are repeated is the subject of other modules.
-/

namespace Picoquic.LossDetect
open Picoquic

/-- A packet waiting for an acknowledgement, `picoquic_packet_t`: number, time, kind (0-RTT; Initial or Handshake), length, is it an `is_ack_trap` (a number that was skipped), does it elicit an
acknowledgement (`picoquic_is_packet_ack_eliciting`, loss_recovery.c 957-993), has its path gone (`send_path == NULL`), does nothing in it need to be sent again
(`packet_is_pure_ack` of `picoquic_copy_before_retransmit`), and the number of bytes that are copied to the new packet. -/
structure Pkt where
  seq : Nat
  sent : Nat
  zero : Bool := false
  crypto : Bool := false
  len : Nat := 0
  trap : Bool := false
  eliciting : Bool := true
  orphan : Bool := false
  pure : Bool := false
  copied : Nat := 0
deriving DecidableEq, Repr

/-- `picoquic_path_t`: `smoothed_rtt`, `retransmit_timer`, `picoquic_current_retransmit_timer`, `nb_retransmit`, `path_is_demoted`, `is_pto_required`. -/
structure Path where
  srtt : Nat
  rto : Nat
  cur : Nat
  nbRet : Nat := 0
  demoted : Bool := false
  pto : Bool := false
deriving DecidableEq, Repr

/-- What else is looked at: the time, `cnx_state` (its number), `initial_repeat_needed`, `zero_rtt_data_accepted`, `remote_parameters.max_ack_delay` (microseconds); of the packet number space `highest_acknowledged`
(`UINT64_MAX` for none), `latest_time_acknowledged` (when that one was sent) and `highest_acknowledged_time` (when that was learned); the room in the packet. -/
structure Env where
  now : Nat
  st : Nat := 14
  initialRepeat : Bool := false
  zeroAccepted : Bool := true
  maxAckDelay : Nat := 0
  highest : Nat := UINT64_MAX
  latestSent : Nat := 0
  ackTime : Nat := 0
  room : Nat := 1500
deriving DecidableEq, Repr

/-- The value of 64 bits as a signed number. -/
def i64 (x : Int) : Int := if x % 2 ^ 64 < 2 ^ 63 then x % 2 ^ 64 else x % 2 ^ 64 - 2 ^ 64

/-- The time from which a packet is lost because a later one was acknowledged, loss_recovery.c 553-566. `PICOQUIC_RACK_DELAY` is 10 milliseconds. -/
def rackTime (e : Env) (a : Path) (p : Pkt) : Nat :=
  let delay : Int := if a.srtt / 4 > 5000 then 5000 else a.srtt / 4
  let sent := i64 (e.latestSent - p.sent)
  let m := (((e.ackTime : Int) + delay - sent + e.maxAckDelay) % 2 ^ 64).toNat
  if p.sent + a.rto > m then m else p.sent + a.rto

/-- `picoquic_is_packet_probably_lost`, loss_recovery.c 517-616: lost, timer expired, and the time to look again. `last` is the send time of the last packet of the queue. -/
def judge (e : Env) (a : Path) (last : Nat) (p : Pkt) : Bool × Bool × Nat :=
  let first : Bool × Nat :=
    if p.zero && !e.zeroAccepted then (true, e.now)
    else if p.zero && e.st != 14 && e.st != 13 then (false, e.now + a.srtt + 10000)
    else
      let d := i64 (e.highest - p.seq)
      if d ≥ 3 then (true, e.now)
      else if d > 0 then (decide (rackTime e a p ≤ e.now) || p.trap, rackTime e a p)
      else (false, UINT64_MAX)
  if first.1 then (true, false, first.2)
  else
    let timer := last + a.cur
    let low (t : Nat) := if t < first.2 then t else first.2
    if e.now ≥ timer then
      if a.demoted then (true, false, low timer) else (false, true, low timer)
    else if a.nbRet = 0 then
      let alt := p.sent + 2 * a.cur
      if alt < last then
        if e.now ≥ alt then
          if p.eliciting then (false, true, low alt) else (true, false, low alt)
        else (false, false, low alt)
      else (false, false, low timer)
    else (false, false, low timer)

/-- Is the packet lost, timer expired, when to look again: loss_recovery.c 315-316, 1052-1053. -/
def verdict (e : Env) (a : Path) (last : Nat) (p : Pkt) : Bool × Bool × Nat :=
  if e.initialRepeat || p.orphan then (true, false, UINT64_MAX) else judge e a last p

/-- What happened to a packet that left the queue: declared lost, repeated because of a timer, dropped since it needs no acknowledgement, or it was never sent. -/
inductive Ev
  | lost (p : Pkt)
  | timer (p : Pkt)
  | dropped (p : Pkt)
  | trap (p : Pkt)
deriving DecidableEq, Repr

/-- The packet. -/
def Ev.pkt : Ev → Pkt
  | .lost p => p
  | .timer p => p
  | .dropped p => p
  | .trap p => p

/-- The result of looking at the queue. -/
structure Res where
  kept : List Pkt
  evs : List Ev
  wake : Nat
  length : Nat
  path : Path
deriving DecidableEq, Repr

/-- When the last packet of a queue was sent, `picoquic_get_last_packet`, quicctx.c 1566-1570. -/
def lastSent (p : Pkt) (ps : List Pkt) : Nat := ((p :: ps).getLast (by simp)).sent

/-- `picoquic_retransmit_needed_loop` with `picoquic_retransmit_needed_packet`, loss_recovery.c 205-226, 291-509. Simplified: one path; the count of repeats during the handshake (383-388) and the changes to the
congestion control are left out. -/
def needed (e : Env) (a : Path) (wake : Nat) : List Pkt → Res
  | [] => ⟨[], [], wake, 0, a⟩
  | p :: ps =>
    if p.zero && decide (e.st < 13) then
      let r := needed e a wake ps
      { r with kept := p :: r.kept }
    else
      let v := verdict e a (lastSent p ps) p
      if v.1 then
        if p.crypto && decide (p.len > e.room) then ⟨p :: ps, [], wake, 0, a⟩
        else if p.trap then
          let r := needed e a wake ps
          { r with evs := .trap p :: r.evs }
        else if p.pure || p.copied == 0 then
          let r := needed e a wake ps
          { r with evs := .lost p :: r.evs }
        else ⟨ps, [.lost p], wake, p.copied, a⟩
      else if !v.2.1 then
        if p.zero then
          let r := needed e a wake ps
          { r with kept := p :: r.kept }
        else ⟨p :: ps, [], if v.2.2 < wake then v.2.2 else wake, 0, a⟩
      else if e.st ≤ 13 then
        if p.pure then
          let r := needed e a wake ps
          { r with evs := .timer p :: r.evs }
        else ⟨ps, [.timer p], wake, p.copied, a⟩
      else if !p.eliciting then
        let r := needed e a wake ps
        { r with evs := .dropped p :: r.evs }
      else if a.pto then ⟨p :: ps, [], wake, 0, a⟩
      else if p.pure then
        let r := needed e a wake ps
        { r with evs := .timer p :: r.evs }
      else ⟨ps, [.timer p], wake, p.copied, { a with pto := true, nbRet := a.nbRet + 1 }⟩

/-- `picoquic_queue_retransmit_on_ack`, loss_recovery.c 1023-1072: after an acknowledgement. -/
def onAck (e : Env) (a : Path) : List Pkt → List Pkt × List Ev
  | [] => ([], [])
  | p :: ps =>
    if (verdict e a (lastSent p ps) p).1 then
      ((onAck e a ps).1, (if p.trap then .trap p else .lost p) :: (onAck e a ps).2)
    else (p :: ps, [])

end Picoquic.LossDetect
