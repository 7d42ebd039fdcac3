import Verif.Proof.Admission
/-!
# Properties of address tokens and of Retry (C73, C74)
-/

namespace Picoquic.Props
open Picoquic.Packet Picoquic.Admission Picoquic.Spec

/-- **C73, origin.** For all histories: the address of a client is taken to be valid at the first packet only when the packet has
a token that the server gave to this address, in the last 124 seconds for a Retry packet, and in the last 48 hours otherwise. For a
Retry packet the client must use the connection ID that it was given, and the connection gets the connection ID of the
client's first packet. -/
theorem C73_validated (k : TokenKeys) (hk : Sealing k) (t : Nat) (s : Server) (is : List Issued) (as : List Admitted)
    (h : Happens k t s is as) (a : Admitted) (ha : a ∈ as) (odcid : Cid) (hv : a.outcome = .created true odcid) :
    ∃ i ∈ is, i.ip = a.first.ip ∧ i.token = a.first.token ∧ i.time ≤ a.now ∧ a.now ≤ i.time + i.life ∧
      (if i.retry then a.first.dcid = i.rcid ∧ odcid = i.odcid else odcid = []) := by
  obtain ⟨i, hi, h1, h2, h3, h4, h5, h6, -⟩ := (happens_used hk h).2 a ha odcid hv
  refine ⟨i, hi, h1, h2, h4, h3, ?_⟩
  by_cases hr : i.retry = true
  · rw [if_pos hr]; exact ⟨h5 hr, h6⟩
  · rw [if_neg hr]
    have := ((happens_issued hk h).2 i hi).1.odcid
    have hz : ¬ 0 < i.odcid.length := fun q => hr (this.2 q)
    rw [h6]
    exact List.eq_nil_of_length_eq_zero (by omega)

/-- **C73, once.** For all histories: a token validates an address once. -/
theorem C73_once (k : TokenKeys) (hk : Sealing k) (t : Nat) (s : Server) (is : List Issued) (as : List Admitted)
    (h : Happens k t s is as) :
    as.Pairwise (fun a b => a.Validated → b.Validated → ¬(a.first.token = b.first.token ∧ a.first.ip = b.first.ip)) :=
  happens_once hk h

/-- **C73, required.** For all servers and packets: when tokens are required, by the application, because there are too many half-open
connections, or because the port of the client is a blocked one, no connection is created without a valid token. No
connection is created at all when the server is busy, full or for clients only, nor for a packet that is too short, or not
authentic, or with a connection ID of less than 8 bytes. -/
theorem C73_required (s : Server) (now : Nat) (p : First) (validated : Bool) (odcid : Cid)
    (h : (screen s now p).1 = .created validated odcid) :
    (s.forceToken = true ∨ s.maxHalfOpen ≤ s.halfOpen ∨ (s.portsOpen = false ∧ p.port ∈ blockedPorts) → validated = true) ∧
    1200 ≤ p.length ∧ 8 ≤ p.dcid.length ∧ p.authentic = true ∧ s.busy = false ∧ s.clientOnly = false ∧
    s.connections < s.maxConnections := by
  rcases screen_cases s now p with ⟨e, -⟩ | ⟨⟨c1, c2, -, c4, c5, c6, c7⟩, e⟩
  · rcases e with e | e <;> · rw [e] at h; cases h
  · refine ⟨?_, by omega, by omega, c5, c6, c4, c7⟩
    intro hreq
    rw [e] at h
    generalize (if p.token.length > 0 then _ else _ : Verified) = v at h
    unfold admit at h
    dsimp only at h
    by_cases d1 : (p.token.length > 0 ∧ (!v.good) = true) ∧ (!v.isNew) = true
    · rw [if_pos d1] at h; cases h
    rw [if_neg d1] at h
    by_cases d2 : p.token.length > 0 ∧ v.good = true
    · rw [if_neg (fun q => q.1 d2), if_pos d2] at h
      cases h
      rfl
    · rw [if_pos] at h
      · cases h
      · refine ⟨d2, ?_⟩
        rcases hreq with q | q | ⟨q, q'⟩
        · exact .inl q
        · exact .inr (.inl q)
        · refine .inr (.inr ?_)
          rw [q, (portBlocked_iff (by decide) p.port).2 q']
          rfl

/-- **C73, ports.** The search finds exactly the ports of the list. -/
theorem C73_ports (port : Nat) : portBlocked port blockedPorts = true ↔
    port ∈ [0, 7, 17, 19, 53, 111, 123, 137, 138, 161, 389, 500, 520, 1900, 5353, 11211, 20800, 27015] := by
  rw [portBlocked_iff (by decide)]
  simp only [blockedPorts, List.mem_cons, List.not_mem_nil, or_false]
  omega

/-- **C73, stale tokens.** A token of a NEW_TOKEN frame never prevents a connection: whatever its age, the number of its uses, and the
address it is used from, and also when the server has new keys, the packet is admitted, or answered by a Retry packet when
a token is required. -/
theorem C73_stale (k : TokenKeys) (hk : Sealing k) (ip : Bytes) (time : Nat) (r0 : UInt8) (rnd : Bytes) (s : Server) (now : Nat) (p : First)
    (make : prepareToken k ip time [] [] 0 r0 rnd = some p.token)
    (large : 1200 ≤ p.length) (dcid : 8 ≤ p.dcid.length) (reserved : p.reserved = false) (server : s.clientOnly = false)
    (free : s.busy = false) (room : s.connections < s.maxConnections) (authentic : p.authentic = true) :
    (screen s now p).1 = .retry ∨ ∃ validated odcid, (screen s now p).1 = .created validated odcid := by
  obtain ⟨sq, se, tx, h1, h2, h3, h4, h5, h6⟩ := prepareToken_spec hk (by simp) (by simp) (by decide) make
  have hnew : (verifyToken s.keys s.used p.ip now p.dcid (u32 p.pn) p.token).isNew = true := by
    unfold verifyToken
    rw [if_neg (by omega), h1]
    dsimp only
    rw [h5]
    have : (([] : Cid).length == 0) = true := rfl
    rw [this]
    split
    · rfl
    · split
      · rfl
      · split
        · rfl
        · split
          · rfl
          · split
            · rfl
            · split <;> rfl
  unfold screen
  rw [if_neg (by omega), if_neg (by omega), if_neg (by rw [reserved]; decide), if_neg (by rw [server]; decide)]
  rw [if_neg (by rw [free]; simp; omega), if_neg (by rw [authentic]; decide), if_pos (by omega)]
  generalize verifyToken s.keys s.used p.ip now p.dcid (u32 p.pn) p.token = v at hnew ⊢
  unfold admit
  dsimp only
  rw [if_neg (by rw [hnew]; simp)]
  split
  · exact .inl rfl
  · split
    · exact .inr ⟨_, _, rfl⟩
    · exact .inr ⟨_, _, rfl⟩

/-- **C74, Retry at the client.** For all connection IDs, versions and tokens: a client that waits for the first packet of the server
finds the token and the new connection ID in the Retry packet of the server. -/
theorem C74_client (k : TokenKeys) (hk : Sealing k) (tag : Bytes → Bytes) (check : Bytes → Bytes → Bool)
    (hcheck : ∀ a, check a (tag a) = true) (htag : ∀ a, (tag a).length = 16)
    (ip : Bytes) (time pn : Nat) (r0 : UInt8) (rnd : Bytes) (hpn : pn < 2 ^ 32) (vn version : Nat) (hvn : vn ≠ 0 ∧ vn < 2 ^ 32)
    (hversion : versionIndex vn = some version) (clientCid serverCid : Cid) (hc : clientCid.length ≤ 20) (hs : serverCid.length ≤ 20)
    (c : Client) (hw : c.waiting = true) (ho : c.original = []) (hi : c.initial.length ≤ 20) (hv : c.vn = vn)
    (token : Bytes) (make : prepareToken k ip time c.initial serverCid pn r0 rnd = some token)
    (host : Host) (x : Cnx) (find : findLong host .retry clientCid = some x) :
    ∃ ph, parseHeader host (retryPacket tag vn version c.initial clientCid serverCid token) = .header ph (some x) ∧
      ph.ptype = .retry ∧
      incomingRetry check c ph (retryPacket tag vn version c.initial clientCid serverCid token) =
        some { c with original := c.initial, initial := serverCid, token := token } := by
  obtain ⟨-, -, -, -, -, h3, h4, -, -⟩ := prepareToken_spec hk hi hs hpn make
  have hp := retry_parsed host (rest := token ++ tag (u8 c.initial.length :: c.initial ++
      (retryFront vn version clientCid serverCid ++ token))) hvn.1 hvn.2 hversion hc hs
    (by rw [List.length_append]; omega) (by rw [List.length_append, htag]; omega) find
  refine ⟨_, by rw [retryPacket_eq tag vn version hi hc hs h4, List.append_assoc]; exact hp, rfl, ?_⟩
  exact retry_accepted hcheck htag (by omega) h4 hc hs hw ho hi hv rfl rfl rfl
    (by rw [List.length_append, htag]) rfl

/-- **C74, protection.** For all packets: a client takes only a Retry packet whose tag is valid for the connection ID to which it
sent its first packet, when it has received nothing else, and only one. -/
theorem C74_protected (check : Bytes → Bytes → Bool) (c c' : Client) (ph : Ph) (bs : Bytes) (h : incomingRetry check c ph bs = some c') :
    c.waiting = true ∧ c.original = [] ∧ ph.vn = c.vn ∧
      (∃ body tag, bs.take (ph.offset + ph.payloadLength) = body ++ tag ∧ check (u8 c.initial.length :: c.initial ++ body) tag = true ∧
        c'.token = body.drop ph.offset) ∧
      (c.initial ≠ [] → ∀ ph' bs', incomingRetry check c' ph' bs' = none) := by
  unfold incomingRetry at h
  by_cases c1 : (!c.waiting) = true ∨ c.original.length ≠ 0
  · rw [if_pos c1] at h; cases h
  rw [if_neg c1] at h
  by_cases c2 : ph.vn ≠ c.vn ∨ ph.pn64 ≠ 0
  · rw [if_pos c2] at h; cases h
  rw [if_neg c2] at h
  dsimp only at h
  by_cases c3 : ph.offset + 16 < ph.offset + ph.payloadLength
  · rw [if_pos c3] at h
    split at h
    · rename_i c4
      cases h
      have w : c.waiting = true := by
        cases hw : c.waiting
        · exact absurd (.inl (by rw [hw]; rfl)) c1
        · rfl
      refine ⟨w, List.eq_nil_of_length_eq_zero (Classical.not_not.1 (fun q => c1 (.inr q))),
        Classical.not_not.1 (fun q => c2 (.inl q)), ⟨_, _, ?_, c4.2, rfl⟩, ?_⟩
      · have e : ph.offset + ph.payloadLength = (ph.offset + ph.payloadLength - 16) + 16 := by omega
        conv => lhs; rw [e]
        rw [List.take_add]
      · intro hne ph' bs'
        unfold incomingRetry
        rw [if_pos]
        right
        dsimp only
        intro q
        exact hne (List.eq_nil_of_length_eq_zero q)
    · cases h
  · rw [if_neg c3] at h; cases h

/-- **C74, Retry at the server (partial).** For all servers, also when tokens are required: the next Initial packet of a client that was sent a Retry
packet is admitted, with its address validated and with its first connection ID. It comes from the same address, with the
connection ID and the token of the Retry packet, in the next 124 seconds, with a larger packet number, and the token was not
used. Missing: connection IDs of servers with less than 8 bytes, where it is false. -/
theorem C74_server_partial (s : Server) (hk : Sealing s.keys) (ip : Bytes) (time now pn : Nat) (r0 : UInt8) (rnd : Bytes)
    (odcid serverCid : Cid) (ho : 0 < odcid.length ∧ odcid.length ≤ 20) (hs : 8 ≤ serverCid.length ∧ serverCid.length ≤ 20)
    (token : Bytes) (make : prepareToken s.keys ip (time + 120000000) odcid serverCid pn r0 rnd = some token)
    (hend : time + 124000000 < 2 ^ 64) (hnow : now ≤ time + 124000000)
    (unused : (time + 124000000, token.drop (token.length - 8)) ∉ s.used)
    (p : First) (hpn : pn < p.pn ∧ p.pn < 2 ^ 32) (hip : p.ip = ip) (hd : p.dcid = serverCid) (ht : p.token = token)
    (large : 1200 ≤ p.length) (reserved : p.reserved = false) (authentic : p.authentic = true)
    (server : s.clientOnly = false) (free : s.busy = false) (room : s.connections < s.maxConnections) :
    (screen s now p).1 = .created true odcid := by
  have hu : u32 p.pn = p.pn := by unfold u32; omega
  obtain ⟨v1, v2, v3, -⟩ := verify_issued (used := s.used) (n := p.pn) hk ho.1 ho.2 hs.2 (by omega) make hend hnow hpn.1 unused
  have := screen_good (s := s) (now := now) (p := p) (by omega) (by rw [hd]; omega) reserved server authentic free room (by rw [ht]; exact v3)
    (by rw [hu, hip, hd, ht]; exact v1)
  rw [this, hu, hip, hd, ht, v2]

/-- **C74, violation.** A server may be configured with connection IDs of less than 8 bytes. Every client to which such a server
sends a Retry packet is then lost: all its next packets, with the connection ID of the Retry packet, are dropped. -/
theorem C74_short_cid_violated (s : Server) (now : Nat) (p : First) (serverCid : Cid) (hs : serverCid.length < 8) (hd : p.dcid = serverCid) :
    (screen s now p).1 = .dropped := by
  unfold screen
  by_cases h : p.length < 1200
  · rw [if_pos h]
  · rw [if_neg h, if_pos (by rw [hd]; exact hs)]

/-! ### Examples -/

/-- A toy AEAD: the tag are the sequence number and the first bytes of the authenticated data. -/
def adTag (s : Nat) (a : Bytes) : Bytes := picoformat64 s ++ (a ++ [0, 0, 0, 0, 0, 0, 0, 0]).take 8

def adKeys : TokenKeys where
  enc s a t := t ++ adTag s a
  dec s a c := if 16 ≤ c.length ∧ c.drop (c.length - 16) = adTag s a then some (c.take (c.length - 16)) else none

theorem adTag_length (s : Nat) (a : Bytes) : (adTag s a).length = 16 := by
  unfold adTag
  rw [List.length_append, List.length_take, List.length_append]
  simp [picoformat64]

theorem adSealing : Sealing adKeys where
  recover s a t := by
    show (if 16 ≤ (t ++ adTag s a).length ∧ (t ++ adTag s a).drop ((t ++ adTag s a).length - 16) = adTag s a then
      some ((t ++ adTag s a).take ((t ++ adTag s a).length - 16)) else none) = _
    have h := adTag_length s a
    have e : (t ++ adTag s a).length - 16 = t.length := by rw [List.length_append, h]; omega
    rw [e, List.drop_left, List.take_left, if_pos ⟨by rw [List.length_append]; omega, rfl⟩]
  length s a t := by
    show (t ++ adTag s a).length = _
    rw [List.length_append, adTag_length]

def adIp : Bytes := [192, 0, 2, 1]
def adOdcid : Cid := [1, 2, 3, 4, 5, 6, 7, 8]
def adRcid : Cid := [11, 12, 13, 14, 15, 16, 17, 18]
def adServer : Server := ⟨adKeys, [], false, false, 3, 100, true, 50, 0, false⟩
def adRnd : Bytes := [200, 201, 202, 203, 204, 205, 206]
/-- The token of a Retry packet at time 1000. -/
def adToken : Bytes := (prepareToken adKeys adIp (1000 + TOKEN_DELAY_SHORT) adOdcid adRcid 0 199 adRnd).getD []
def adFirst : First := ⟨1252, adIp, 4433, adRcid, adToken, false, true, 1⟩

/-- The packet of a client with the token of a Retry packet is admitted, the same packet one second later is not, nor is it when
it comes from another address. -/
example : (screen adServer 50000 adFirst).1 = .created true adOdcid ∧
    (screen (screen adServer 50000 adFirst).2 1050000 adFirst).1 = .dropped ∧
    (screen adServer 50000 { adFirst with ip := [192, 0, 2, 2] }).1 = .dropped ∧
    (screen adServer 124001001 adFirst).1 = .dropped ∧
    (screen adServer 50000 { adFirst with token := [] }).1 = .retry := by decide +kernel

/-- The history of these packets, with which the hypotheses of C73_validated and C73_once are met. -/
example : ∃ s as, Happens adKeys 1050000 s [⟨adIp, adToken, true, 1000, adOdcid, adRcid⟩] as ∧ as.length = 2 ∧
    (∃ a ∈ as, a.Validated) := by
  have h0 : Happens adKeys 0 adServer [] [] := .start rfl rfl
  have h1 : Happens adKeys 1000 adServer [⟨adIp, adToken, true, 1000, adOdcid, adRcid⟩] [] :=
    .retry h0 (by omega) (by omega) (by decide) (by decide) (by decide) (r0 := 199) (rnd := adRnd) (pn := 0) (by decide +kernel)
  have hu : Unforged adKeys [⟨adIp, adToken, true, 1000, adOdcid, adRcid⟩] adFirst :=
    fun _ _ _ _ _ => ⟨_, List.mem_singleton.2 rfl, rfl, rfl⟩
  have h2 := Happens.initial (now := 50000) h1 (by omega) hu
  have h3 := Happens.initial (now := 1050000) h2 (by omega) hu
  refine ⟨_, _, h3, rfl, _, List.mem_cons_of_mem _ (List.mem_singleton.2 rfl), adOdcid, ?_⟩
  decide +kernel

/-- A Retry packet, as it is taken by a client that waits for it. -/
def adClient : Client := ⟨true, [], adOdcid, 3, 1, []⟩

def adCnx : Cnx :=
  { client := true, version := 3, grease := false, lossIn := false, keys := fun _ => none, keyPhase := 0, otherKeys := none,
    largest := fun _ => 0, received := fun _ _ => false, resetSecret := [] }

def adHost : Host :=
  { cidLength := 4, byId := fun c => if c = [21, 22, 23, 24] then some adCnx else none, byNet := none, byIcid := fun _ => none,
    screen := fun _ _ _ => none, bySecret := fun _ => false }

def adTagOf (a : Bytes) : Bytes := (a ++ List.replicate 16 0).take 16

example : ∃ version ph, versionIndex 1 = some version ∧ findLong adHost .retry [21, 22, 23, 24] = some adCnx ∧
    parseHeader adHost (retryPacket adTagOf 1 version adClient.initial [21, 22, 23, 24] adRcid adToken) = .header ph (some adCnx) ∧
    (incomingRetry (fun a t => adTagOf a == t) adClient ph
      (retryPacket adTagOf 1 version adClient.initial [21, 22, 23, 24] adRcid adToken)).isSome = true ∧
    (incomingRetry (fun a t => adTagOf a == t) { adClient with initial := [1, 2, 3, 4, 5, 6, 7, 9] } ph
      (retryPacket adTagOf 1 version adClient.initial [21, 22, 23, 24] adRcid adToken)).isSome = false := by
  refine ⟨_, _, rfl, rfl, rfl, ?_, ?_⟩ <;> decide +kernel

/-- The hypotheses of C74_server_partial. -/
example : prepareToken adServer.keys adIp (1000 + 120000000) adOdcid adRcid 0 199 adRnd = some adToken ∧
    (1000 + 124000000, adToken.drop (adToken.length - 8)) ∉ adServer.used ∧ 8 ≤ adRcid.length ∧ 0 < adFirst.pn ∧
    adFirst.token = adToken := by
  refine ⟨by decide +kernel, by simp [adServer], by decide, by decide, rfl⟩

/-- A server with connection IDs of 4 bytes, as the API allows: the client is lost. -/
example : (screen adServer 50000 { adFirst with
      dcid := [1, 2, 3, 4], token := (prepareToken adKeys adIp (1000 + TOKEN_DELAY_SHORT) adOdcid [1, 2, 3, 4] 0 199 adRnd).getD [] }).1 =
    .dropped := C74_short_cid_violated _ _ _ [1, 2, 3, 4] (by decide) rfl

/-- An expired token of a NEW_TOKEN frame, with a server that does not require tokens. -/
example : (screen { adServer with forceToken := false } 999999999999 { adFirst with
      token := (prepareToken adKeys adIp 5 [] [] 0 199 adRnd).getD [] }).1 = .created false [] := by decide +kernel

end Picoquic.Props
