import Verif.Proof.Nonce

/-!
# C92: no two packets are encrypted with the same key and the same nonce

The histories are all interleavings of the operations of `NonceOp`, of any length below 2^63, which
no connection reaches; the limits on path identifiers are below 2^32, as the nonce requires.
-/

namespace Picoquic.Props
open Picoquic.Spec Picoquic.Nonce

/-- A new connection as the theorems take it: any role, limits below 2^32, first packet numbers below
2^32 (the code takes 0, or a random number below 2^17). -/
structure NonceStart (c : Cnx) : Prop where
  eq : ∃ client multipath ml mr s1 s2 s3 s4, c = init client multipath ml mr s1 s2 s3 s4 ∧
    ml < 2 ^ 32 ∧ mr < 2 ^ 32 ∧ s1 < 2 ^ 32 ∧ s2 < 2 ^ 32 ∧ s3 < 2 ^ 32 ∧ s4 < 2 ^ 32

/-- A history as the theorems take it. -/
structure NonceHistory (ops : List NonceOp) : Prop where
  len : ops.length < 2 ^ 63
  starts : ∀ op ∈ ops, op.start < 2 ^ 32

theorem nonce_run {c c' : Cnx} {ops : List NonceOp} (hc : NonceStart c) (ho : NonceHistory ops)
    (f : FreshRun c ops) (hr : run c ops = some c') : NonceUnique c'.sent := by
  obtain ⟨cl, m, ml, mr, s1, s2, s3, s4, e, h1, h2, h3, h4, h5, h6⟩ := hc.eq
  subst e
  have hi := inv_run (inv_init cl m ml mr s1 s2 s3 s4) f hr
  have hb := bnd_run (bnd_init cl m h1 h2 h3 h4 h5 h6) ho.starts hr
  refine unique_of_nodup hi.nodup ?_
  intro s hs
  have := hb.bt s hs
  have := ho.len
  exact ⟨by omega, by omega⟩

theorem fresh_single {ops : List NonceOp} : ∀ {c : Cnx}, c.multipath = false → FreshRun c ops := by
  induction ops with
  | nil => intro c _; exact True.intro
  | cons op ops ih =>
    intro c h
    refine ⟨?_, fun c' hs => ih ((mp_step hs).trans h)⟩
    cases op <;> first | exact True.intro | exact fun hm => nomatch hm.symm.trans h

/-- **C92, one path.** Without multipath, whatever happens (Retry, 0-RTT blocked or not, key updates,
skipped numbers, peers that send connection IDs), no nonce is used twice with a key. -/
theorem C92_single {c c' : Cnx} {ops : List NonceOp} (hc : NonceStart c) (hm : c.multipath = false)
    (ho : NonceHistory ops) (hr : run c ops = some c') : NonceUnique c'.sent :=
  nonce_run hc ho (fresh_single hm) hr

theorem fresh_passive {ops : List NonceOp} : ∀ {c : Cnx}, (∀ s, .probe s ∉ ops) → .zeroRtt true ∉ ops →
    FreshRun c ops := by
  induction ops with
  | nil => intro c _ _; exact True.intro
  | cons op ops ih =>
    intro c h1 h2
    refine ⟨?_, fun c' _ => ih (fun s hm => h1 s (List.mem_cons_of_mem _ hm))
      (fun hm => h2 (List.mem_cons_of_mem _ hm))⟩
    cases op with
    | probe s => exact absurd List.mem_cons_self (h1 s)
    | zeroRtt b =>
      cases b with
      | true => exact absurd List.mem_cons_self h2
      | false => exact fun _ => rfl
    | _ => exact True.intro

/-- **C92, the peer alone.** With multipath too, nothing that the peer sends makes an endpoint use a
nonce twice, as long as its own application asks for no new path: paths that the peer opens, and that
are given up, never come back. The case of 0-RTT packets sent late is excluded here; see
`C92_zero_rtt_violated`. -/
theorem C92_passive_partial {c c' : Cnx} {ops : List NonceOp} (hc : NonceStart c) (ho : NonceHistory ops)
    (hp : ∀ s, .probe s ∉ ops) (hz : .zeroRtt true ∉ ops) (hr : run c ops = some c') :
    NonceUnique c'.sent :=
  nonce_run hc ho (fresh_passive hp hz) hr

/-- The peer gives connection IDs for a path only if it gave some before and the path was not given up,
or if there never was a path with this identifier, and only for paths for which it got some. -/
def OrderlyPeer (c : Cnx) : List NonceOp → Prop
  | [] => True
  | op :: ops =>
    (∀ u, op = .getIds u → u ∈ c.stashes.map (·.1) ∨ (u ∉ c.created ∧ u < c.nextLocal)) ∧
    ∀ c', step c op = some c' → OrderlyPeer c' ops

theorem fresh_orderly {ops : List NonceOp} : ∀ {c : Cnx}, StashOk c → OrderlyPeer c ops →
    .zeroRtt true ∉ ops → FreshRun c ops := by
  induction ops with
  | nil => intro c _ _ _; exact True.intro
  | cons op ops ih =>
    intro c h o z
    refine ⟨?_, fun c' hs => ih (stash_step h o.1 hs) (o.2 c' hs) (fun hm => z (List.mem_cons_of_mem _ hm))⟩
    cases op with
    | probe s => exact fun _ u hu => h u (pick_mem hu)
    | zeroRtt b =>
      cases b with
      | true => exact absurd List.mem_cons_self z
      | false => exact fun _ => rfl
    | _ => exact True.intro

/-- **C92, orderly peers.** If the peer does not send connection IDs for a path that was given up or
that it opened without sending any before, then no nonce is used twice, whatever paths are opened by
either side. What is missing: the code does not refuse such connection IDs, see
`C92_reuse_violated`. -/
theorem C92_unique_partial {c c' : Cnx} {ops : List NonceOp} (hc : NonceStart c) (ho : NonceHistory ops)
    (hp : OrderlyPeer c ops) (hz : .zeroRtt true ∉ ops) (hr : run c ops = some c') :
    NonceUnique c'.sent := by
  refine nonce_run hc ho (fresh_orderly ?_ hp hz) hr
  obtain ⟨cl, m, ml, mr, s1, s2, s3, s4, e, _⟩ := hc.eq
  subst e
  exact stash_init cl m ml mr s1 s2 s3 s4

/-- A client with multipath and eight path identifiers. -/
def nonceClient : Cnx := init true true 7 7 0 0 0 0

theorem nonceClient_start : NonceStart nonceClient :=
  ⟨true, true, 7, 7, 0, 0, 0, 0, rfl, by decide, by decide, by decide, by decide, by decide, by decide⟩

/-- Two paths, one given up, and another one. -/
def nonceStory : List NonceOp :=
  [.initial, .zeroRtt false, .retry, .initial, .zeroRtt false, .complete 0, .handshake, .ready,
    .giveIds, .giveIds, .getIds 1, .getIds 2, .oneRtt 0, .probe 0, .oneRtt 1, .oneRtt 1, .rotate,
    .oneRtt 1, .abandon 1, .arrive 2 5, .oneRtt 1, .skip 1, .oneRtt 1, .probe 0]

/-- The hypotheses of `C92_unique_partial` are met: a history with nine encryptions on three paths. -/
example : NonceHistory nonceStory ∧ .zeroRtt true ∉ nonceStory ∧
    (run nonceClient nonceStory).map (fun c => (c.sent.map (fun s => (s.path, s.num)), c.created)) =
      some ([(0, 0), (0, 0), (0, 1), (0, 1), (0, 0), (0, 2), (1, 0), (1, 1), (1, 2), (2, 5), (2, 7)],
        [0, 1, 2]) :=
  ⟨⟨by decide, by decide⟩, by decide, by decide⟩

/-- … and that peer is orderly. -/
example : OrderlyPeer nonceClient [.complete 0, .ready, .giveIds, .getIds 1, .probe 0, .oneRtt 1] := by
  refine ⟨fun u h => (nomatch h), fun c1 h1 => ⟨fun u h => (nomatch h), fun c2 h2 => ⟨fun u h => (nomatch h),
    fun c3 h3 => ⟨?_, fun c4 _ => ⟨fun u h => (nomatch h), fun c5 _ => ⟨fun u h => (nomatch h),
    fun _ _ => True.intro⟩⟩⟩⟩⟩⟩
  intro u h
  injection h with h
  subst h
  injection h1 with h1
  subst h1
  injection h2 with h2
  subst h2
  injection h3 with h3
  subst h3
  right
  decide

/-- **C92, violated.** A path is given up, the peer sends connection IDs for it again, the application
asks for a new path: the path comes back with the same identifier, its numbering starts again, and the
next packet has the key and the nonce of another packet. The code has a comment that the IDs of such a
path must stay deleted, but the frame creates them again. -/
theorem C92_reuse_violated :
    ∃ c', run nonceClient [.complete 0, .ready, .giveIds, .getIds 1, .probe 0, .oneRtt 1, .abandon 1,
        .getIds 1, .probe 0, .oneRtt 1] = some c' ∧
      c'.sent = [⟨.oneRtt 0, 1, 0⟩, ⟨.oneRtt 0, 1, 0⟩] ∧ ¬ NonceUnique c'.sent :=
  ⟨_, rfl, rfl, show ¬ NonceUnique [⟨.oneRtt 0, 1, 0⟩, ⟨.oneRtt 0, 1, 0⟩] by
    unfold NonceUnique; decide⟩

/-- The client with path 1, on which `m` packets were sent. -/
def nonceTwo (locals created : List Nat) (m : Nat) (sent : List NonceUse) : Cnx :=
  { nonceClient with
    phase := .after, locals := locals, nextLocal := 2, stashes := [(0, true), (1, true)]
    created := created, paths := [⟨0, 0, true⟩, ⟨1, m, true⟩], sent := sent }

theorem nonceTwo_send (l c : List Nat) (n : Nat) : ∀ (k : Nat) (s : List NonceUse),
    run (nonceTwo l c k s) (List.replicate n (.oneRtt 1)) =
      some (nonceTwo l c (k + n) (s ++ (List.range' k n).map (fun j => ⟨.oneRtt 0, 1, j⟩))) := by
  induction n with
  | zero =>
    intro k s
    simp only [List.replicate, run, List.range', List.map_nil, List.append_nil, Nat.add_zero]
  | succ n ih =>
    intro k s
    rw [List.replicate_succ, run]
    have hst : step (nonceTwo l c k s) (.oneRtt 1) =
        some (nonceTwo l c (k + 1) (s ++ [⟨.oneRtt 0, 1, k⟩])) := rfl
    rw [hst]
    simp only
    rw [ih (k + 1), List.range'_succ, List.map_cons, List.append_assoc, List.singleton_append,
      show k + 1 + n = k + (n + 1) by omega]

theorem nonce_run_append (l1 l2 : List NonceOp) : ∀ c : Cnx,
    run c (l1 ++ l2) = (run c l1).bind (fun d => run d l2) := by
  induction l1 with
  | nil => intro c; rfl
  | cons op l ih =>
    intro c
    rw [List.cons_append, run, run]
    cases step c op with
    | none => rfl
    | some c1 => exact ih c1

/-- In detail: the nonce of every packet sent on the path is used again. For each number of packets `n`
sent on the path before it is given up, the first `n` packets after it is opened again have the same
nonces. -/
theorem C92_replay_violated (n : Nat) :
    ∃ c', run nonceClient ([.complete 0, .ready, .giveIds, .getIds 1, .probe 0] ++
        (List.replicate n (.oneRtt 1) ++ ([.abandon 1, .getIds 1, .probe 0] ++
        List.replicate n (.oneRtt 1)))) = some c' ∧
      c'.sent = (List.range n).map (fun k => ⟨.oneRtt 0, 1, k⟩) ++
        (List.range n).map (fun k => ⟨.oneRtt 0, 1, k⟩) := by
  have e1 : run nonceClient [.complete 0, .ready, .giveIds, .getIds 1, .probe 0] =
      some (nonceTwo [0, 1] [0, 1] 0 []) := rfl
  have e2 : ∀ (m : Nat) (s : List NonceUse), run (nonceTwo [0, 1] [0, 1] m s)
      [.abandon 1, .getIds 1, .probe 0] = some (nonceTwo [0] [0, 1, 1] 0 s) := fun _ _ => rfl
  refine ⟨nonceTwo [0] [0, 1, 1] n ((List.range n).map (fun k => ⟨.oneRtt 0, 1, k⟩) ++
        (List.range n).map (fun k => ⟨.oneRtt 0, 1, k⟩)), ?_, rfl⟩
  rw [nonce_run_append, e1, Option.bind_some, nonce_run_append, nonceTwo_send, Option.bind_some,
    nonce_run_append, e2, Option.bind_some, nonceTwo_send, Nat.zero_add, List.nil_append,
    List.range_eq_range']

/-- **C92, violated.** A client with multipath that has sent 0-RTT packets, and that completes the
handshake while the congestion window stops its last TLS message, starts the numbering of 0-RTT packets
again while it still sends them with the same key. -/
theorem C92_zero_rtt_violated :
    ∃ c', run nonceClient [.initial, .zeroRtt false, .complete 0, .zeroRtt true] = some c' ∧
      c'.sent = [⟨.initial 0, 0, 0⟩, ⟨.zeroRtt 0, 0, 0⟩, ⟨.zeroRtt 0, 0, 0⟩] ∧ ¬ NonceUnique c'.sent :=
  ⟨_, rfl, rfl, show ¬ NonceUnique [⟨.initial 0, 0, 0⟩, ⟨.zeroRtt 0, 0, 0⟩, ⟨.zeroRtt 0, 0, 0⟩] by
    unfold NonceUnique; decide⟩

/-- **C92, violated: invalid memory access.** The peer opens a path before its connection IDs for this
path arrive: the path has none, and the next packet sent on it, which the opening of the path requires,
reads through a null pointer. -/
theorem C92_null_violated :
    run nonceClient [.complete 0, .ready, .giveIds, .arrive 1 0, .oneRtt 1] = none := rfl

/-- All paths have a connection ID of the peer. -/
def AllIds (c : Cnx) : Prop := c.paths ≠ [] ∧ ∀ p ∈ c.paths, p.hasCid = true

theorem allIds_bump {c : Cnx} (h : AllIds c) (i : Nat) :
    bumpPath i c.paths ≠ [] ∧ ∀ p ∈ bumpPath i c.paths, p.hasCid = true := by
  constructor
  · intro e
    apply h.1
    have := congrArg (List.map (·.uid)) e
    rw [bump_map] at this
    exact List.map_eq_nil_iff.1 this
  · intro q hq
    rcases bump_mem hq with ⟨j, _, hj⟩ | ⟨p, hp, e⟩
    · exact h.2 q (List.mem_of_getElem? hj)
    · subst e; exact h.2 p (List.mem_of_getElem? hp)

theorem allIds_create {c : Cnx} (h : AllIds c) {u : Nat} (hu : u ∈ c.stashes.map (·.1)) (start : Nat) :
    AllIds (createPath c u start) := by
  refine ⟨?_, ?_⟩
  · intro e
    exact h.1 (List.append_eq_nil_iff.1 e).1
  · intro p hp
    rcases List.mem_append.1 hp with hp | hp
    · exact h.2 p hp
    · rw [List.mem_singleton] at hp
      subst hp
      exact decide_eq_true hu

theorem allIds_step {c : Cnx} {op : NonceOp} (h : AllIds c)
    (f : ∀ u s, op = .arrive u s → u ∈ c.stashes.map (·.1)) : ∃ c', step c op = some c' ∧ AllIds c' := by
  cases op with
  | oneRtt i =>
    simp only [step]
    split
    · split
      · exact ⟨_, rfl, h⟩
      · rename_i p hi
        rw [if_pos (h.2 p (List.mem_of_getElem? hi))]
        split
        · exact ⟨_, rfl, allIds_bump h i⟩
        · exact ⟨_, rfl, h⟩
    · exact ⟨_, rfl, h⟩
  | skip i =>
    simp only [step]
    split
    · split
      · exact ⟨_, rfl, allIds_bump h i⟩
      · exact ⟨_, rfl, h⟩
    · exact ⟨_, rfl, h⟩
  | complete s =>
    simp only [step]
    split
    · split
      · split
        · split
          · rename_i e; exact absurd e h.1
          · rename_i p l e
            refine ⟨_, rfl, (fun h => nomatch h), ?_⟩
            have hl := h.2
            rw [e] at hl
            intro q hq
            rcases List.mem_cons.1 hq with hq | hq
            · subst hq; exact hl p List.mem_cons_self
            · exact hl q (List.mem_cons_of_mem _ hq)
        · exact ⟨_, rfl, h⟩
      · exact ⟨_, rfl, h⟩
    · exact ⟨_, rfl, h⟩
  | arrive u s =>
    simp only [step]
    split
    · exact ⟨_, rfl, allIds_create h (f u s rfl) s⟩
    · exact ⟨_, rfl, h⟩
  | probe s =>
    simp only [step]
    split
    · split
      · exact ⟨_, rfl, h⟩
      · rename_i u hu
        exact ⟨_, rfl, allIds_create h (List.mem_map.2 ⟨_, pick_mem hu, rfl⟩) s⟩
    · exact ⟨_, rfl, h⟩
  | abandon i =>
    simp only [step]
    split
    · exact ⟨_, rfl, h⟩
    · rename_i p hi
      split
      · rename_i hc
        refine ⟨_, rfl, ?_, fun q hq => h.2 q (List.mem_of_mem_eraseIdx hq)⟩
        intro e
        have hlt : i < c.paths.length := by
          rcases Nat.lt_or_ge i c.paths.length with h | h
          · exact h
          · rw [List.getElem?_eq_none h] at hi; exact nomatch hi
        have hlen := List.length_eraseIdx_of_lt hlt
        rw [show c.paths.eraseIdx i = [] from e, List.length_nil] at hlen
        omega
      · exact ⟨_, rfl, h⟩
  | _ =>
    simp only [step]
    repeat' split
    all_goals exact ⟨_, rfl, h⟩

/-- The connection IDs of the peer for a path arrive before the first packet that it sends on it. -/
def IdsFirst (c : Cnx) : List NonceOp → Prop
  | [] => True
  | op :: ops =>
    (∀ u s, op = .arrive u s → u ∈ c.stashes.map (·.1)) ∧ ∀ c', step c op = some c' → IdsFirst c' ops

/-- **C92, memory.** That is the only way: in all histories in which the IDs come first, there is no
invalid access to memory, and each path has an ID of the peer. -/
theorem C92_safe_partial {c : Cnx} {ops : List NonceOp} (hc : NonceStart c) (hi : IdsFirst c ops) :
    ∃ c', run c ops = some c' ∧ c'.paths ≠ [] ∧ ∀ p ∈ c'.paths, p.hasCid = true := by
  have key : ∀ {ops : List NonceOp} {c : Cnx}, AllIds c → IdsFirst c ops →
      ∃ c', run c ops = some c' ∧ AllIds c' := by
    intro ops
    induction ops with
    | nil => intro c h _; exact ⟨c, rfl, h⟩
    | cons op ops ih =>
      intro c h f
      obtain ⟨c1, hs, h1⟩ := allIds_step h f.1
      obtain ⟨c2, hr, h2⟩ := ih h1 (f.2 c1 hs)
      refine ⟨c2, ?_, h2⟩
      rw [run, hs]
      exact hr
  refine key ?_ hi
  obtain ⟨cl, m, ml, mr, s1, s2, s3, s4, e, _⟩ := hc.eq
  subst e
  refine ⟨fun h => (nomatch h), ?_⟩
  intro p hp
  simp only [init, List.mem_singleton] at hp
  subst hp
  rfl

/-- The hypotheses of `C92_safe_partial` are met: the peer opens path 1 after its IDs came. -/
example : IdsFirst nonceClient [.complete 0, .getIds 1, .giveIds, .arrive 1 0] := by
  refine ⟨fun u s h => (nomatch h), fun c1 h1 => ⟨fun u s h => (nomatch h), fun c2 h2 =>
    ⟨fun u s h => (nomatch h), fun c3 h3 => ⟨?_, fun _ _ => True.intro⟩⟩⟩⟩
  intro u s h
  injection h with h _
  subst h
  injection h1 with h1
  subst h1
  injection h2 with h2
  subst h2
  injection h3 with h3
  subst h3
  decide

/-- **C92, violated: no new path.** Once path 0 is given up, the application can never open a new path,
with whatever connection IDs for other paths, in any further history in which the peer does not send IDs
for path 0 again. -/
theorem C92_blocked_violated {c c' : Cnx} {ops : List NonceOp} (h : 0 ∉ c.stashes.map (·.1))
    (hp : .getIds 0 ∉ ops) (hr : run c ops = some c') (s : Nat) : step c' (.probe s) = some c' := by
  simp only [step]
  rw [if_neg]
  exact fun hc => no_stash0_run h hp hr hc.2.2.2

/-- … although connection IDs for path 2 are available: the state after path 0 is given up. -/
example : (run nonceClient [.complete 0, .ready, .giveIds, .giveIds, .getIds 1, .getIds 2, .probe 0,
      .abandon 0]).map (fun c => (c.stashes, c.paths.map (·.uid), step c (.probe 0) = some c)) =
    some ([(1, true), (2, false)], [1], True) := by
  simp only [run, step, nonceClient, init]
  simp [createPath, pickStash, useStash]

end Picoquic.Props
