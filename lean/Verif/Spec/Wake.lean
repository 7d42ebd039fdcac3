/-!
# Specification: who is served next

The calls that a user of a QUIC context makes, what can be observed of them, and a scheduler that is
nothing but a plain list of connections with the time at which each of them wants to be woken up.
Nothing here refers to the model of the code.
-/

namespace Picoquic.Spec

/-- How the preparation of a packet for a connection ends. -/
inductive ServeEnd where
  | ok
  | error
  | disconnected
deriving DecidableEq, Repr

/-- What a connection does when it is served: how it ends, the next time at which its own timers
want it to be woken up, the values that the application gives to `picoquic_set_app_wake_time` in
successive wake-up callbacks (when the list is exhausted the callback does not set a time), and
whether it is a client connection. -/
structure Serve where
  how : ServeEnd
  next : Nat
  again : List Nat
  client : Bool
deriving DecidableEq, Repr

/-- The calls. -/
inductive WakeOp where
  /-- A connection is created, to be woken up at a time. -/
  | create (id t : Nat)
  /-- Data arrive for the connection, or the application adds data, closes it, ...: it is to be
  woken up at once. -/
  | touch (id now : Nat)
  /-- The connection is put to sleep until a time (`picoquic_close_immediate`). -/
  | sleep (id t : Nat)
  /-- `picoquic_set_app_wake_time`. -/
  | alarm (id t : Nat)
  /-- `picoquic_delete_cnx`. -/
  | delete (id : Nat)
  /-- A packet without connection is queued (a version negotiation, a retry, a stateless reset). -/
  | queue (p : List UInt8)
  /-- `picoquic_prepare_next_packet`, at a time, with a buffer of some size. -/
  | prepare (now room : Nat) (r : Serve)
deriving Repr

/-- What is seen of a call. -/
inductive WakeEvent where
  | none
  /-- The queued packet is returned. -/
  | sent (p : List UInt8)
  /-- The queued packet is thrown away, nothing is returned. -/
  | dropped (p : List UInt8)
  /-- Nobody is to be woken up. -/
  | idle
  /-- The connection is served, after some number of wake-up callbacks. -/
  | served (id callbacks : Nat)
deriving DecidableEq, Repr

/-- A place after all those who want to be woken up at the same time or before. -/
def inTurn (e : Nat × Nat) : List (Nat × Nat) → List (Nat × Nat)
  | [] => [e]
  | x :: xs => if e.2 < x.2 then e :: x :: xs else x :: inTurn e xs

/-- Everybody but one. -/
def others (id : Nat) (l : List (Nat × Nat)) : List (Nat × Nat) := l.filter (fun e => e.1 != id)

/-- The time at which a connection wants to be woken up. -/
def timeOf (id : Nat) (l : List (Nat × Nat)) : Option Nat :=
  (l.find? (fun e => e.1 == id)).map (fun e => e.2)

/-- The scheduler: the connections in turn, with their times; the times set by the application (0
is none); the packets without connection. -/
structure Agenda where
  turns : List (Nat × Nat) := []
  alarms : Nat → Nat := fun _ => 0
  packets : List (List UInt8) := []

/-- The connection takes a new turn. -/
def Agenda.move (s : Agenda) (id t : Nat) : Agenda :=
  { s with turns := inTurn (id, t) (others id s.turns) }

/-- The application sets a time: the connection moves only if this is earlier. -/
def Agenda.setAlarm (s : Agenda) (id t : Nat) : Agenda :=
  let s' := { s with alarms := fun i => if i = id then t else s.alarms i }
  match timeOf id s.turns with
  | some w => if t ≠ 0 ∧ t < w then s'.move id t else s'
  | none => s'

/-- The callbacks for the alarms that are due. -/
def Agenda.ring (s : Agenda) (id now : Nat) : List Nat → Agenda × Nat
  | [] =>
    if s.alarms id ≠ 0 ∧ s.alarms id ≤ now then
      ({ s with alarms := fun i => if i = id then 0 else s.alarms i }, 1)
    else (s, 0)
  | v :: vs =>
    if s.alarms id ≠ 0 ∧ s.alarms id ≤ now then
      let x := ({ s with alarms := fun i => if i = id then 0 else s.alarms i }.setAlarm id v).ring
        id now vs
      (x.1, x.2 + 1)
    else (s, 0)

/-- The connection is served. -/
def Agenda.serve (s : Agenda) (id now : Nat) (r : Serve) : Agenda × Nat :=
  let x := s.ring id now r.again
  match r.how with
  | .ok =>
    (x.1.move id (if x.1.alarms id ≠ 0 ∧ x.1.alarms id < r.next then x.1.alarms id else r.next), x.2)
  | .error => (x.1.move id r.next, x.2)
  | .disconnected =>
    if r.client then (x.1.move id (2 ^ 64 - 1), x.2)
    else ({ x.1 with turns := others id x.1.turns, alarms := fun i => if i = id then 0 else x.1.alarms i }, x.2)

/-- One call. Calls for connections that do not exist do nothing. -/
def Agenda.step (s : Agenda) : WakeOp → Agenda × WakeEvent
  | .create id t => if (timeOf id s.turns).isSome then (s, .none)
      else ({ s with turns := inTurn (id, t) s.turns }, .none)
  | .touch id t => if (timeOf id s.turns).isSome then (s.move id t, .none) else (s, .none)
  | .sleep id t => if (timeOf id s.turns).isSome then (s.move id t, .none) else (s, .none)
  | .alarm id t => if (timeOf id s.turns).isSome then (s.setAlarm id t, .none) else (s, .none)
  | .delete id => ({ s with turns := others id s.turns,
                            alarms := fun i => if i = id then 0 else s.alarms i }, .none)
  | .queue p => ({ s with packets := s.packets ++ [p] }, .none)
  | .prepare now room r =>
    match s.packets with
    | p :: ps => ({ s with packets := ps }, if p.length ≤ room then .sent p else .dropped p)
    | [] =>
      match s.turns with
      | [] => (s, .idle)
      | e :: _ =>
        if now ≠ 0 ∧ now < e.2 then (s, .idle)
        else
          let x := s.serve e.1 now r
          (x.1, .served e.1 x.2)

/-- A history: the final state and the events. -/
def Agenda.run (s : Agenda) : List WakeOp → Agenda × List WakeEvent
  | [] => (s, [])
  | op :: ops =>
    let x := s.step op
    let y := x.1.run ops
    (y.1, x.2 :: y.2)

/-- The packets that leave the queue. -/
def leaving : List WakeEvent → List (List UInt8)
  | [] => []
  | .sent p :: es => p :: leaving es
  | .dropped p :: es => p :: leaving es
  | _ :: es => leaving es

/-- The packets put in the queue. -/
def queued : List WakeOp → List (List UInt8)
  | [] => []
  | .queue p :: ops => p :: queued ops
  | _ :: ops => queued ops

/-- The number of requests to prepare a packet. -/
def requests : List WakeOp → Nat
  | [] => 0
  | .prepare _ _ _ :: ops => requests ops + 1
  | _ :: ops => requests ops

/-- How many connections come before a connection. -/
def ahead (b : Nat) (l : List (Nat × Nat)) : Nat := (l.takeWhile (fun e => e.1 != b)).length

/-- Calls that do not concern connection `b`, and in which nobody wants to be woken up before `w`,
while packets are requested at `w` or later. -/
def Patient (b w : Nat) : WakeOp → Prop
  | .create _ t => w ≤ t
  | .touch id t => id ≠ b ∧ w ≤ t
  | .sleep id t => id ≠ b ∧ w ≤ t
  | .alarm _ t => t = 0 ∨ w ≤ t
  | .delete id => id ≠ b
  | .queue _ => True
  | .prepare now _ r => w ≤ now ∧ w ≤ r.next

/-- The time does not go back, nobody is put to sleep by `picoquic_close_immediate`, and the
preparation of packets neither fails nor ends a client connection. -/
def Timely : Nat → List WakeOp → Prop
  | _, [] => True
  | c, .touch _ t :: ops => c ≤ t ∧ Timely t ops
  | _, .sleep _ _ :: _ => False
  | c, .prepare t _ r :: ops =>
    c ≤ t ∧ (r.how = .ok ∨ (r.how = .disconnected ∧ r.client = false)) ∧ Timely t ops
  | c, _ :: ops => Timely c ops

/-- The time of the last call that has one. -/
def lastCall : Nat → List WakeOp → Nat
  | c, [] => c
  | _, .touch _ t :: ops => lastCall t ops
  | _, .prepare t _ _ :: ops => lastCall t ops
  | c, _ :: ops => lastCall c ops

end Picoquic.Spec
