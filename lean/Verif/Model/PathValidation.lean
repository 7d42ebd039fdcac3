import Verif.Model.Frames
/-!
# Validation of paths

Model of the address tuples of a path, of the PATH_CHALLENGE and PATH_RESPONSE frames (frames.c 4606-4783), of
their preparation (paths.c 32-150), of the selection of the tuple (paths.c 294-326 and 504-548), of the deletion
of failed tuples (paths.c 263-288) and of the notification that a destination is unreachable (quicctx.c
2056-2079).

Simplifications. Without multipath: one path. The connection is ready. Addresses are a number for the IP address
and a port; the local address of the client is known. A tuple is only created if a connection ID can be assigned
to it. The random values are given by the environment. Times do not wrap around. What else is in a packet is
only modelled as 'there is data to send', the pacing and the congestion control permitting.
-/

namespace Picoquic.Paths
open Picoquic Picoquic.Frames

/-- `struct sockaddr_storage`: address and port. -/
structure Addr where
  ip : Nat
  port : Nat
deriving DecidableEq, Repr

/-- `picoquic_tuple_t`, picoquic_internal.h 1031-1065. -/
structure Tuple where
  peer : Addr
  loc : Addr
  chal : List Nat := [0, 0, 0]
  count : Nat := 0
  time : Nat := 0
  required : Bool := false
  verified : Bool := false
  failed : Bool := false
  demotion : Nat := 0
  needsResponse : Bool := false
  response : Nat := 0
deriving DecidableEq, Repr

/-- The tuples of the path, the first one being `first_tuple`, and `path_is_demoted`. -/
structure Path where
  tuples : List Tuple
  demoted : Bool := false
deriving DecidableEq, Repr

/-- What happens: challenge values are chosen for an address pair, a frame is sent to an address pair, an address
pair is declared valid or suspended to the application, data are sent to an address pair, or the connection is
closed with an error. -/
inductive Note where
  | drew (peer loc : Addr) (values : List Nat)
  | sent (peer loc : Addr) (frame : Bytes)
  | validated (peer loc : Addr)
  | suspended (peer loc : Addr)
  | data (peer loc : Addr)
  | error (code : Nat)
deriving DecidableEq, Repr

/-- The events. `packet` is the arrival of a packet (paths.c 671-716) with the values for a new tuple, `probe` a
new tuple made by the application (`picoquic_probe_new_tuple`, quicctx.c 2269-2296), `challenge` and `response`
the frames with the bytes which follow the type, `prepare` the preparation of a packet with this room for the
frames and this retransmission timer, `unreachable` an ICMP message, `cleanup` the deletion of failed tuples. -/
inductive Event where
  | packet (src dst : Addr) (now a b c : Nat) (cidAvailable : Bool)
  | probe (peer loc : Addr) (now a b c : Nat) (cidAvailable : Bool)
  | challenge (src dst : Addr) (data : Bytes)
  | response (data : Bytes)
  | prepare (now room rto : Nat) (hasData : Bool)
  | unreachable (peer loc : Addr) (now a b c : Nat)
  | cleanup (now : Nat)
deriving DecidableEq, Repr

/-- The path at the start: the tuple of the handshake, quicctx.c 3880-3900. -/
def init (peer loc : Addr) (a b c : Nat) : Path :=
  { tuples := [{ peer := peer, loc := loc, chal := [a % 2 ^ 64, b % 2 ^ 64, c % 2 ^ 64], required := true,
                 verified := true }] }

/-- `picoquic_set_tuple_challenge`, quicctx.c 1957-1972. -/
def setChallenge (t : Tuple) (now a b c : Nat) : Tuple :=
  { t with chal := [a % 2 ^ 64, b % 2 ^ 64, c % 2 ^ 64], time := now, count := 0 }

/-- A new tuple, quicctx.c 1575-1599 with paths.c 696-702 or quicctx.c 2279-2292. -/
def newTuple (peer loc : Addr) (now a b c : Nat) : Tuple :=
  { setChallenge { peer := peer, loc := loc } now a b c with required := true }

/-- Does the tuple match the addresses of a challenge? frames.c 4661-4672. -/
def matches_ (src dst : Addr) (t : Tuple) : Bool :=
  decide (src = t.peer) && ((decide (t.loc.port = 0) && decide (dst.ip = t.loc.ip)) || decide (dst = t.loc))

/-- The loop of `picoquic_decode_path_challenge_frame`, frames.c 4659-4681. -/
def recordChallenge (src dst : Addr) (v : Nat) : List Tuple → List Tuple
  | [] => []
  | t :: rest =>
    if matches_ src dst t then { t with response := v, needsResponse := true } :: rest
    else t :: recordChallenge src dst v rest

/-- The search of `picoquic_decode_path_response_frame`, frames.c 4738-4751: the tuples before, the tuple found,
and those after. -/
def findChallenge (v : Nat) : List Tuple → Option (List Tuple × Tuple × List Tuple)
  | [] => none
  | t :: rest =>
    if v ∈ t.chal then some ([], t, rest)
    else
      match findChallenge v rest with
      | none => none
      | some (pre, x, post) => some (t :: pre, x, post)

/-- `picoquic_decode_path_response_frame`, frames.c 4724-4783. -/
def decodeResponse (p : Path) (data : Bytes) : Path × List Note :=
  match framesUint64Decode data with
  | none => (p, [.error 0x7])
  | some (v, _) =>
    match findChallenge v p.tuples with
    | none => (p, [])
    | some (pre, t, post) =>
      if t.verified then (p, [])
      else ({ p with tuples := { t with verified := true } :: (pre ++ post) }, [.validated t.peer t.loc])

/-- `picoquic_tuple_challenge_time`, paths.c 239-259. -/
def challengeTime (t : Tuple) (now rto : Nat) : Nat :=
  if t.count = 0 then now
  else if t.count ≥ 2 then t.time + rto * 2 ^ (t.count - 1)
  else t.time + 250000

/-- The challenge part of `picoquic_prepare_tuple_challenge_frames`, paths.c 39-123: the tuple, the frame if one
is written, and whether the tuple has just failed and moves to the end of the list. -/
def prepareChallenge (t : Tuple) (now room rto : Nat) : Tuple × Bytes × Bool :=
  if t.verified = false ∧ t.failed = false then
    if challengeTime t now rto > now then (t, [], false)
    else if t.count < 3 then
      match formatPathChallenge (t.chal.getD t.count 0) room with
      | none => (t, [], false)
      | some frame => ({ t with time := now, count := t.count + 1 }, frame, false)
    else ({ t with failed := true, demotion := now + rto * 2 ^ 3 }, [], true)
  else (t, [], false)

/-- The response part, paths.c 126-132. -/
def prepareResponse (t : Tuple) (room : Nat) : Tuple × Bytes :=
  if t.needsResponse then
    match formatPathResponse t.response room with
    | none => (t, [])
    | some frame => ({ t with needsResponse := false }, frame)
  else (t, [])

/-- A frame which was written, as a note. -/
def noteFrame (t : Tuple) (frame : Bytes) : List Note :=
  if frame = [] then [] else [.sent t.peer t.loc frame]

/-- Does the tuple need a challenge or a response now? The test of `picoquic_check_path_control_needed`, paths.c
299-324. -/
def needsControl (now rto : Nat) (t : Tuple) : Bool :=
  if t.failed then false
  else if t.needsResponse then true
  else t.required && !t.verified && decide (now ≥ challengeTime t now rto)

/-- The first tuple which needs control, with those before and after it. -/
def findControl (now rto : Nat) : List Tuple → Option (List Tuple × Tuple × List Tuple)
  | [] => none
  | t :: rest =>
    if needsControl now rto t then some ([], t, rest)
    else
      match findControl now rto rest with
      | none => none
      | some (pre, x, post) => some (t :: pre, x, post)

/-- The selection of the tuple, paths.c 504-548 with one path: none if the list is empty. -/
def select (p : Path) (now rto : Nat) : Option (List Tuple × Tuple × List Tuple) :=
  let first := match p.tuples with
    | [] => none
    | t :: rest => some ([], t, rest)
  if p.demoted then first
  else
    match findControl now rto p.tuples with
    | some r => some r
    | none => first

/-- The preparation of a packet, sender.c 3915-3975: the path control frames for the tuple which was selected
(paths.c 34-138), and, if it was the first one, the data if the first tuple is verified (sender.c 3339-3356). All
that is in the packet goes to the addresses of the selected tuple. -/
def prepare (p : Path) (now room rto : Nat) (hasData : Bool) : Path × List Note :=
  match select p now rto with
  | none => (p, [])
  | some (pre, t, post) =>
    let c := prepareChallenge t now room rto
    let r := prepareResponse c.1 (room - c.2.1.length)
    let tuples := if c.2.2 then pre ++ post ++ [r.1] else pre ++ r.1 :: post
    let verified := match tuples with
      | [] => false
      | x :: _ => x.verified
    ({ p with tuples := tuples },
      noteFrame t c.2.1 ++ noteFrame t r.2 ++
        (if pre = [] ∧ hasData = true ∧ verified = true then [.data t.peer t.loc] else []))

/-- `picoquic_set_path_challenge`, quicctx.c 1975-1989. -/
def rechallenge (t : Tuple) (now a b c : Nat) : Tuple × List Note :=
  if t.required = false ∨ t.verified = true then
    ({ setChallenge { t with required := true } now a b c with verified := false },
      .drew t.peer t.loc [a % 2 ^ 64, b % 2 ^ 64, c % 2 ^ 64] :: (if t.verified then [.suspended t.peer t.loc] else []))
  else (t, [])

/-- `picoquic_notify_destination_unreachable`, quicctx.c 2056-2079, with one path. -/
def unreachable (p : Path) (peer loc : Addr) (now a b c : Nat) : Path × List Note :=
  match p.tuples with
  | [] => (p, [])
  | t :: rest =>
    if peer = t.peer ∧ loc = t.loc then
      if p.demoted then
        let r := rechallenge t now a b c
        ({ p with tuples := r.1 :: rest }, r.2)
      else ({ p with demoted := true }, [])
    else (p, [])

/-- `picoquic_delete_demoted_tuples`, paths.c 263-288: the first tuple stays. -/
def cleanup (p : Path) (now : Nat) : Path :=
  if p.demoted then p
  else
    match p.tuples with
    | [] => p
    | t :: rest => { p with tuples := t :: rest.filter (fun x => !(x.failed && decide (now > x.demotion))) }

/-- One event. -/
def step (p : Path) : Event → Path × List Note
  | .packet src dst now a b c cidAvailable =>
    if p.tuples.any (fun t => decide (src = t.peer) && decide (dst = t.loc)) then (p, [])
    else if cidAvailable then
      ({ p with tuples := p.tuples ++ [newTuple src dst now a b c] },
        [.drew src dst [a % 2 ^ 64, b % 2 ^ 64, c % 2 ^ 64]])
    else (p, [])
  | .probe peer loc now a b c cidAvailable =>
    if cidAvailable then
      ({ p with tuples := p.tuples ++ [newTuple peer loc now a b c] },
        [.drew peer loc [a % 2 ^ 64, b % 2 ^ 64, c % 2 ^ 64]])
    else (p, [])
  | .challenge src dst data =>
    match framesUint64Decode data with
    | none => (p, [.error 0x7])
    | some (v, _) => ({ p with tuples := recordChallenge src dst v p.tuples }, [])
  | .response data => decodeResponse p data
  | .prepare now room rto hasData => prepare p now room rto hasData
  | .unreachable peer loc now a b c => unreachable p peer loc now a b c
  | .cleanup now => (cleanup p now, [])

/-- A sequence of events, with what each one produces. -/
def run : Path → List Event → Path × List (Event × List Note)
  | p, [] => (p, [])
  | p, ev :: rest =>
    let r := step p ev
    let r2 := run r.1 rest
    (r2.1, (ev, r.2) :: r2.2)

end Picoquic.Paths
