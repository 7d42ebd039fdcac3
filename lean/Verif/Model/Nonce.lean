import Verif.Spec.Nonce

/-!
# Packet numbers, paths and nonces

Model of the numbers given to packets (`picoquic_finalize_and_protect_packet`, sender.c 1109-1194,
`picoquic_protect_packet`, sender.c 831-928, `picoquic_aead_encrypt_mp`, tls_api.c 2381-2395) and of
what creates, copies, or ends a numbering: the packet contexts, the paths, and the connection IDs
on which the identifiers of paths depend. What is in the packets is not modelled. Congestion control
and timers are reduced to the choice of the operations.
-/

namespace Picoquic.Nonce
open Picoquic.Spec

/-- A path: `unique_path_id`, `pkt_ctx.send_sequence`, and if `first_tuple->p_remote_cnxid` is set. -/
structure Path where
  uid : Nat
  seq : Nat
  hasCid : Bool
deriving DecidableEq, Repr

/-- The states: before `picoquic_state_client_almost_ready`, in it, and after it. A server goes from
the first to the last. -/
inductive Phase where
  | before
  | almost
  | after
deriving DecidableEq, Repr

/-- The fields of `picoquic_cnx_t` used here: `client_mode`, `is_multipath_enabled`, the state, the
three `pkt_ctx[].send_sequence`, the keys, the paths, the stashes of the connection IDs of the peer
(path and `is_in_use`), the paths that have a list of local connection IDs, `next_path_id_in_lists`,
and the limits `max_path_id_local` and `max_path_id_remote`, which stay the same here. `created` (the
identifiers of all paths so far) and `sent` are only for the statements. -/
structure Cnx where
  client : Bool
  multipath : Bool
  maxLocal : Nat
  maxRemote : Nat
  phase : Phase := .before
  initialSeq : Nat := 0
  handshakeSeq : Nat := 0
  appSeq : Nat := 0
  initialKey : Nat := 0
  zeroKey : Nat := 0
  oneKey : Nat := 0
  paths : List Path := [⟨0, 0, true⟩]
  stashes : List (Nat × Bool) := [(0, true)]
  locals : List Nat := [0]
  nextLocal : Nat := 1
  created : List Nat := [0]
  sent : List NonceUse := []
deriving DecidableEq, Repr

/-- A new connection: the numberings of the three contexts and of the first path start with 0, or
with a random number (`picoquic_init_packet_ctx`, quicctx.c 2693-2709). -/
def init (client multipath : Bool) (maxLocal maxRemote s1 s2 s3 s4 : Nat) : Cnx :=
  { client, multipath, maxLocal, maxRemote
    initialSeq := s1, handshakeSeq := s2, appSeq := s3, paths := [⟨0, s4, true⟩] }

/-- Sets the entry of a stash to in use, `picoquic_assign_peer_cnxid_to_tuple`, quicctx.c 2100-2117.
Each stash has an unused connection ID (simplification). -/
def useStash (uid : Nat) (l : List (Nat × Bool)) : List (Nat × Bool) :=
  l.map (fun s => if s.1 = uid then (s.1, true) else s)

/-- `picoquic_find_avalaible_unique_path_id`, quicctx.c 1526-1550, for multipath: the first stash that
is not in use and not that of path 0. -/
def pickStash : List (Nat × Bool) → Option Nat
  | [] => none
  | s :: l => if s.2 = true ∨ s.1 = 0 then pickStash l else some s.1

/-- `picoquic_create_path`, quicctx.c 1621-1700, and the assignment of a connection ID of the peer: the
new path is the last one. -/
def createPath (c : Cnx) (uid start : Nat) : Cnx :=
  { c with
    paths := c.paths ++ [⟨uid, start, decide (uid ∈ c.stashes.map (·.1))⟩]
    stashes := useStash uid c.stashes
    created := c.created ++ [uid] }

/-- Replaces the packet number of a path by the next one. -/
def bumpPath (i : Nat) (l : List Path) : List Path := l.modify i (fun p => { p with seq := p.seq + 1 })

/-- One operation; `none` is an invalid memory access. An operation that is not possible does
nothing. -/
def step (c : Cnx) : NonceOp → Option Cnx
  -- sender.c 1125 and 1143-1148
  | .initial => some { c with
      initialSeq := c.initialSeq + 1
      sent := c.sent ++ [⟨.initial c.initialKey, 0, c.initialSeq⟩] }
  -- sender.c 1125 and 1149-1154
  | .handshake => some { c with
      handshakeSeq := c.handshakeSeq + 1
      sent := c.sent ++ [⟨.handshake, 0, c.handshakeSeq⟩] }
  -- `picoquic_prepare_segment` (sender.c 3735-3743) calls `picoquic_prepare_packet_client_init` up to
  -- and including `picoquic_state_client_almost_ready`; it prepares a 0-RTT packet if there is no
  -- other (sender.c 2109-2112): in the last state this needs that what TLS has to send is blocked
  -- (sender.c 2032-2037).
  | .zeroRtt blocked =>
      if c.client = true ∧ (c.phase = .before ∨ (c.phase = .almost ∧ blocked = true)) then
        some { c with
          appSeq := c.appSeq + 1
          sent := c.sent ++ [⟨.zeroRtt c.zeroKey, 0, c.appSeq⟩] }
      else some c
  -- sender.c 1122-1126 and 1167-1173; the header needs the connection ID of the peer, sender.c 673;
  -- sender.c 906-916: the identifier of the path is part of the nonce with multipath
  | .oneRtt i =>
      if c.phase = .after then
        match c.paths[i]? with
        | none => some c
        | some p =>
          if p.hasCid then
            if c.multipath then
              some { c with
                paths := bumpPath i c.paths
                sent := c.sent ++ [⟨.oneRtt c.oneKey, p.uid, p.seq⟩] }
            else
              some { c with
                appSeq := c.appSeq + 1
                sent := c.sent ++ [⟨.oneRtt c.oneKey, 0, c.appSeq⟩] }
          else none
      else some c
  -- `picoquic_insert_hole_in_send_sequence_if_needed`, sender.c 1071-1103
  | .skip i =>
      if c.phase = .after then
        if c.multipath then some { c with paths := bumpPath i c.paths }
        else some { c with appSeq := c.appSeq + 1 }
      else some c
  -- `picoquic_reset_cnx`, quicctx.c 4643-4693: new keys, the numbers are not changed
  | .retry =>
      if c.client = true ∧ c.phase = .before then
        some { c with initialKey := c.initialKey + 1, zeroKey := c.zeroKey + 1 }
      else some c
  -- `picoquic_client_almost_ready_transition`, sender.c 2632-2643 (tls_api.c 2532-2556: once)
  | .complete start =>
      if c.phase = .before then
        if c.client then
          if c.multipath then
            match c.paths with
            | [] => none
            | p :: l => some { c with
                phase := .almost
                paths := { p with seq := c.appSeq } :: l
                appSeq := start }
          else some { c with phase := .almost }
        else some { c with phase := .after }
      else some c
  -- sender.c 2086-2098
  | .ready => if c.phase = .almost then some { c with phase := .after } else some c
  -- `picoquic_apply_rotated_keys`, tls_api.c 1577-1600
  | .rotate => some { c with oneKey := c.oneKey + 1 }
  -- sender.c 2568-2571 with `picoquic_find_or_create_local_cnxid_list`, quicctx.c 3578-3605
  | .giveIds =>
      if c.multipath = true ∧ c.nextLocal ≤ c.maxRemote then
        some { c with locals := c.locals ++ [c.nextLocal], nextLocal := c.nextLocal + 1 }
      else some c
  -- `picoquic_decode_new_connection_id_frame`, frames.c 452-516: the stash is created if there is none
  | .getIds uid =>
      if c.multipath = true ∧ uid ≤ c.maxLocal then
        if uid ∈ c.stashes.map (·.1) then some c
        else some { c with stashes := c.stashes ++ [(uid, false)] }
      else some c
  -- `picoquic_find_incoming_path`, paths.c 616-655. The connection ID is that of a local list.
  | .arrive uid start =>
      if c.multipath = true ∧ c.phase ≠ .before ∧ uid ∈ c.locals ∧ uid ∉ c.paths.map (·.uid) ∧
          c.paths.length < 8 then
        some (createPath c uid start)
      else some c
  -- `picoquic_probe_new_path_ex`, quicctx.c 2299-2340, with `picoquic_check_new_path_allowed`, quicctx.c
  -- 2136-2179: with multipath `unique_path_id_next` stays 0
  | .probe start =>
      if c.multipath = true ∧ c.phase ≠ .before ∧ c.paths.length < 8 ∧ 0 ∈ c.stashes.map (·.1) then
        match pickStash c.stashes with
        | none => some c
        | some uid => some (createPath c uid start)
      else some c
  -- `picoquic_demote_path`, quicctx.c 1889-1950 (the stash is deleted), and later
  -- `picoquic_delete_abandoned_paths`, quicctx.c 1804-1865, and `picoquic_delete_path`, quicctx.c
  -- 1737-1797 (the list of local connection IDs is deleted); the last path is kept
  | .abandon i =>
      match c.paths[i]? with
      | none => some c
      | some p =>
        if c.multipath = true ∧ c.phase ≠ .before ∧ 1 < c.paths.length then
          some { c with
            paths := c.paths.eraseIdx i
            stashes := c.stashes.filter (fun s => s.1 != p.uid)
            locals := c.locals.filter (fun u => u != p.uid) }
        else some c

/-- A history. -/
def run (c : Cnx) : List NonceOp → Option Cnx
  | [] => some c
  | op :: ops => match step c op with
    | none => none
    | some c' => run c' ops

end Picoquic.Nonce
