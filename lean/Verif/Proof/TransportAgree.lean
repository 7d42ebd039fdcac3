import Verif.Proof.TransportOptions
/-!
# Both ends agree after the exchange of transport parameters
-/

namespace Picoquic.TransportParams
open Picoquic Picoquic.Spec

/-- The idle timeout that results from the values of both ends. -/
def idleValue (x y : Nat) : Nat :=
  let t := if x = 0 ∨ (y > 0 ∧ y < x) then u64 (y * 1000) else u64 (x * 1000)
  if t = 0 then UINT64_MAX else t

theorem negotiateIdle_value (c : Conn) :
    (negotiateIdle c).idleTimeout = idleValue c.loc.idleTimeout c.rem.idleTimeout := by
  unfold negotiateIdle idleValue
  dsimp only
  repeat' split
  all_goals rfl

theorem idleValue_comm (x y : Nat) : idleValue x y = idleValue y x := by
  unfold idleValue
  dsimp only
  have : (if x = 0 ∨ (y > 0 ∧ y < x) then u64 (y * 1000) else u64 (x * 1000)) =
      (if y = 0 ∨ (x > 0 ∧ x < y) then u64 (x * 1000) else u64 (y * 1000)) := by
    by_cases h1 : x = 0 ∨ (y > 0 ∧ y < x)
    · rw [if_pos h1]
      by_cases h2 : y = 0 ∨ (x > 0 ∧ x < y)
      · rw [if_pos h2]
        have : x = y := by omega
        rw [this]
      · rw [if_neg h2]
    · rw [if_neg h1]
      by_cases h2 : y = 0 ∨ (x > 0 ∧ x < y)
      · rw [if_pos h2]
      · rw [if_neg h2]
        have : x = y := by omega
        rw [this]
  rw [this]

theorem idleValue_eq {x y : Nat} (hx : x * 1000 < 2 ^ 64) (hy : y * 1000 < 2 ^ 64) :
    idleValue x y = negotiatedIdle x y := by
  unfold idleValue negotiatedIdle UINT64_MAX u64
  dsimp only
  rw [Nat.mod_eq_of_lt hx, Nat.mod_eq_of_lt hy]
  repeat' split
  all_goals omega

theorem accepted_idle (c : Conn) (ps : List (Nat × Bytes)) :
    (accepted c ps).idleTimeout = idleValue c.loc.idleTimeout (readParams ps).idleTimeout := by
  obtain ⟨t1, t2, -⟩ := takes_fields c ps
  obtain ⟨-, -, -, -, -, -, -, -, -, d10, -⟩ := defaults_idle (takes (receiveInit c) ps)
  have h1 : ∀ d : Conn, (negotiateOptions d).idleTimeout = d.idleTimeout := by
    intro d
    unfold negotiateOptions
    dsimp only
    repeat' split
    all_goals rfl
  have h2 : ∀ d : Conn, (negotiateMultipath d).idleTimeout = d.idleTimeout := by
    intro d
    unfold negotiateMultipath
    repeat' split
    all_goals rfl
  rw [accepted_eq, h1, h2]
  show (defaults { takes (receiveInit c) ps with
    c := negotiateIdle (takes (receiveInit c) ps).c }).c.idleTimeout = _
  rw [d10, negotiateIdle_value, t2, takes_read]

/-- The state of `b` before the negotiation of options, after the parameters of `a`. -/
structure Informed (a b d : Conn) : Prop where
  client : d.client = b.client
  loc : d.loc = b.loc
  rem : d.rem = { learned a b with
    preferred := a.loc.preferred.map (fun p => { p with ipv6Port := p.ipv4Port }) }
  ack : d.ackFrequency = (decide (b.loc.minAckDelay > 0) && decide (a.loc.minAckDelay > 0))
  provider : d.addressProvider =
    (decide (a.loc.addressDiscovery &&& 2 ≠ 0) && decide (b.loc.addressDiscovery &&& 1 ≠ 0))
  receiver : d.addressReceiver =
    (decide (a.loc.addressDiscovery &&& 1 ≠ 0) && decide (b.loc.addressDiscovery &&& 2 ≠ 0))
  grease : d.oneWayGrease = b.oneWayGrease
  stampsEnabled : d.timeStampEnabled = false
  stampsSent : d.timeStampSent = false
  idle : d.idleTimeout = idleValue b.loc.idleTimeout a.loc.idleTimeout
  version : d.version < 2 ^ 32
  verified : d.hcidVerified = true
  desired : d.desiredVersion = b.desiredVersion
  secret : d.ownResetSecret = b.ownResetSecret
  setup : SameSetup b d

theorem informed {a b : Conn} (hl : LegalSettings a) (hf : Fresh b) (hv : b.version < 2 ^ 32) (n : Nat)
    (hrem : (accepted b (segments a n).flatten).rem = { learned a b with
        preferred := a.loc.preferred.map (fun p => { p with ipv6Port := p.ipv4Port }) }) :
    Informed a b (before b (segments a n).flatten) := by
  have G := grease_ne a
  simp only [List.forall_mem_cons] at G
  have e0xff04de1b : lastOf 0xff04de1b (segments a n).flatten = if a.loc.minAckDelay > 0 then some (varintBytes a.loc.minAckDelay) else none := by
    simp [-List.reduceReplicate, -gt_iff_lt, segments, lastOf_append, lastOf_opt, lastOf_cons, lastOf_preferred, G]
  have e0x9f81a176 : lastOf 0x9f81a176 (segments a n).flatten = if a.loc.addressDiscovery > 0 then
      some (varintBytes (a.loc.addressDiscovery - 1)) else none := by
    simp [-List.reduceReplicate, -gt_iff_lt, segments, lastOf_append, lastOf_opt, lastOf_cons, lastOf_preferred, G]
  have e15 : lastOf 15 (segments a n).flatten = some a.localCid := by
    simp [-List.reduceReplicate, -gt_iff_lt, segments, lastOf_append, lastOf_opt, lastOf_cons, lastOf_preferred, G]
  obtain ⟨t1, t2, t3, t4, t5, t6, t7, t8, t9, t10, t11, t12⟩ := takes_fields b (segments a n).flatten
  obtain ⟨d1, d2, d3, d4, d5, d6, d7, d8, d9, d10, d11, d12, d13, d14⟩ :=
    defaults_idle (takes (receiveInit b) (segments a n).flatten)
  have hd := hl.discovery
  have hidle : (takes (receiveInit b) (segments a n).flatten).c.rem.idleTimeout = a.loc.idleTimeout := by
    rw [takes_read, segments_read hl]
    rfl
  have hb : before b (segments a n).flatten = (defaults { takes (receiveInit b) (segments a n).flatten with
      c := negotiateIdle (takes (receiveInit b) (segments a n).flatten).c }).c := rfl
  have hval : a.loc.addressDiscovery > 0 →
      val (varintBytes (a.loc.addressDiscovery - 1)) + 1 = a.loc.addressDiscovery := by
    intro h
    rw [val_bytes (by omega)]
    omega
  refine ⟨?_, ?_, ?_, ?_, ?_, ?_, ?_, ?_, ?_, ?_, ?_, ?_, ?_, ?_, ?_⟩
  · rw [hb, d1, t1]
  · rw [hb, d2, t2]
  · rw [before_rem, hrem]
  · rw [hb, d3, t3, e0xff04de1b, hf.ackFrequency]
    by_cases h : a.loc.minAckDelay > 0 <;> simp [h]
  · rw [hb, d4, t4, e0x9f81a176, hf.provider]
    by_cases h : a.loc.addressDiscovery > 0
    · rw [if_pos h, Option.map_some, Option.getD_some, hval h]
    · have h' : a.loc.addressDiscovery = 0 := by omega
      rw [h']
      simp
  · rw [hb, d5, t5, e0x9f81a176, hf.receiver]
    by_cases h : a.loc.addressDiscovery > 0
    · rw [if_pos h, Option.map_some, Option.getD_some, hval h]
    · have h' : a.loc.addressDiscovery = 0 := by omega
      rw [h']
      simp
  · rw [hb, d6, t6]
  · rw [hb, d7, t7, hf.stampsEnabled]
  · rw [hb, d8, t8, hf.stampsSent]
  · rw [hb, d10, negotiateIdle_value, t2, hidle]
  · rw [hb, d9]
    exact takes_version_lt _ _ hv
  · rw [hb, d11, t11, e15]
    simp
  · rw [hb, d12, t9]
  · rw [hb, d13, t10]
  · rw [hb]
    exact t12.trans d14

/-- The outcome `r` of the negotiation of options from state `d`, but for the local parameters, the
time stamps and the QUIC bit. -/
structure Outcome (d r : Conn) : Prop where
  client : r.client = d.client
  multipath : r.multipath = (d.loc.multipath && d.rem.multipath)
  pathIds : r.multipath = true → r.maxPathIdRemote = d.rem.maxPathId ∧ r.maxPathIdLocal = d.loc.maxPathId
  lossOut : r.lossBitOut = (decide (d.loc.lossBit > 1) && decide (d.rem.lossBit > 0))
  lossIn : r.lossBitIn = (decide (d.loc.lossBit > 0) && decide (d.rem.lossBit > 1))
  bdp : r.bdpFrames = (decide (d.loc.bdpFrame > 0) && decide (d.rem.bdpFrame > 0))
  ack : r.ackFrequency = d.ackFrequency
  provider : r.addressProvider = d.addressProvider
  receiver : r.addressReceiver = d.addressReceiver
  idle : r.idleTimeout = d.idleTimeout
  version : r.version = d.version
  verified : r.hcidVerified = d.hcidVerified
  desired : r.desiredVersion = d.desiredVersion
  secret : r.ownResetSecret = d.ownResetSecret
  setup : SameSetup d r

theorem options_server (d : Conn) (hc : d.client = false) :
    Outcome d (negotiateOptions (negotiateMultipath d)) ∧
    (negotiateOptions (negotiateMultipath d)).loc = { d.loc with
      multipath := d.loc.multipath && d.rem.multipath
      timeStamp := if d.rem.timeStamp ≠ 0 then (if d.rem.timeStamp &&& 1 ≠ 0 then 2 else 0) +
              (if d.rem.timeStamp &&& 2 ≠ 0 then 1 else 0) else d.loc.timeStamp
      greaseQuicBit := d.rem.greaseQuicBit && !d.oneWayGrease
      minAckDelay := if d.ackFrequency then d.loc.minAckDelay else 0 } ∧
    (negotiateOptions (negotiateMultipath d)).timeStampSent =
      (d.timeStampSent || decide (d.rem.timeStamp &&& 1 ≠ 0)) ∧
    (negotiateOptions (negotiateMultipath d)).timeStampEnabled =
      (d.timeStampEnabled || decide (d.rem.timeStamp &&& 2 ≠ 0)) ∧
    (negotiateOptions (negotiateMultipath d)).doGreaseQuicBit = d.rem.greaseQuicBit := by
  have hm := multipath_server_eq d hc
  generalize negotiateMultipath d = e at *
  have ho := options_server_eq e (by rw [hm]; exact hc)
  generalize negotiateOptions e = r at *
  subst ho hm
  refine ⟨⟨rfl, rfl, ?_, rfl, rfl, rfl, rfl, rfl, rfl, rfl, rfl, rfl, rfl, rfl, ⟨rfl, rfl, rfl, rfl, rfl⟩⟩, rfl,
    rfl, rfl, rfl⟩
  intro h
  exact ⟨if_pos h, if_pos h⟩

theorem options_client (d : Conn) (hc : d.client = true) :
    Outcome d (negotiateOptions (negotiateMultipath d)) ∧
    (negotiateOptions (negotiateMultipath d)).loc = d.loc ∧
    (negotiateOptions (negotiateMultipath d)).timeStampSent =
      (decide (d.loc.timeStamp &&& 2 ≠ 0) && decide (d.rem.timeStamp &&& 1 ≠ 0)) ∧
    (negotiateOptions (negotiateMultipath d)).timeStampEnabled =
      (decide (d.loc.timeStamp &&& 1 ≠ 0) && decide (d.rem.timeStamp &&& 2 ≠ 0)) ∧
    (negotiateOptions (negotiateMultipath d)).doGreaseQuicBit =
      (d.loc.greaseQuicBit && d.rem.greaseQuicBit) := by
  have hm := multipath_client_eq d hc
  generalize negotiateMultipath d = e at *
  have ho := options_client_eq e (by rw [hm]; exact hc)
  generalize negotiateOptions e = r at *
  subst ho hm
  refine ⟨⟨rfl, rfl, ?_, rfl, rfl, rfl, rfl, rfl, rfl, rfl, rfl, rfl, rfl, rfl, ⟨rfl, rfl, rfl, rfl, rfl⟩⟩, rfl,
    rfl, rfl, rfl⟩
  intro h
  exact ⟨if_pos h, if_pos h⟩

/-- After the parameters of the client `a`, the server `b` sends legal parameters, to a client that
knows the version in use. -/
theorem server_legal {a b : Conn} (hlb : LegalSettings b) (hp : Peers a b) (hc : a.client = true)
    (hcid : a.remoteCid = b.localCid) {d r : Conn} (hi : Informed a b d)
    (hr : r = negotiateOptions (negotiateMultipath d)) :
    LegalSettings r ∧ Peers r { a with version := r.version } ∧ r.client = false := by
  have hb : b.client = false := by rw [hp.roles, hc]; rfl
  have hd : d.client = false := by rw [hi.client, hb]
  obtain ⟨O, o2, -, -, -⟩ := options_server d hd
  rw [← hr] at O o2
  obtain ⟨l1, l2, l3, l4, l5, l6, l7, l8, l9, l10, l11, l12, l13, l14, l15, l16, l17, l18, l19, l20, l21⟩ := hlb
  obtain ⟨s1, s2, s3, s4, s5⟩ := hi.setup
  obtain ⟨q1, q2, q3, q4, q5⟩ := O.setup
  have hrc : r.client = false := by rw [O.client, hd]
  rw [hi.loc] at o2
  refine ⟨⟨?_, ?_, ?_, ?_, ?_, ?_, ?_, ?_, ?_, ?_, ?_, ?_, ?_, ?_, ?_, ?_, ?_, ?_, ?_, ?_, ?_⟩, ?_, hrc⟩
  all_goals first | (rw [o2]; assumption) | skip
  · rw [o2]
    dsimp only
    (repeat' split) <;> omega
  · rw [o2]
    dsimp only
    split <;> omega
  · rw [o2]
    intro p h
    have := (l18 p h)
    exact ⟨hrc, this.2⟩
  · rw [q3, q4, q5, s3, s4, s5]
    exact l19
  · rw [O.secret, hi.secret]
    exact l20
  · rw [O.version, O.desired, hi.desired]
    exact ⟨hi.version, l21.2⟩
  · refine ⟨?_, rfl, ?_, ?_, ?_, fun _ => by rw [O.verified]; exact hi.verified, ?_⟩
    · dsimp only
      rw [hc, hrc]; rfl
    · dsimp only
      rw [q3, s3, hcid]
    · dsimp only
      rw [q4, s4, hp.initial]
    · dsimp only
      rw [q5, s5, hp.original]
    · intro h
      rw [hrc] at h
      cases h

theorem and_bits {x : Nat} (h : x ≤ 3) : ∃ p q : Bool, decide (x &&& 1 ≠ 0) = p ∧ decide (x &&& 2 ≠ 0) = q ∧
    x = (if p then 1 else 0) + (if q then 2 else 0) := by
  have : x = 0 ∨ x = 1 ∨ x = 2 ∨ x = 3 := by omega
  rcases this with rfl | rfl | rfl | rfl
  · exact ⟨false, false, by decide⟩
  · exact ⟨true, false, by decide⟩
  · exact ⟨false, true, by decide⟩
  · exact ⟨true, true, by decide⟩

/-- The client, informed by the server, agrees with it. -/
theorem agree {a b : Conn} (hla : LegalSettings a) (hp : Peers a b) (hc : a.client = true)
    {d r e : Conn} (hd : Informed a b d) (hr : r = negotiateOptions (negotiateMultipath d))
    {a1 : Conn} (ha1 : a1.loc = a.loc ∧ a1.client = a.client) (he : Informed r a1 e) {s : Conn}
    (hs : s = negotiateOptions (negotiateMultipath e)) :
    OptionsAgree s r := by
  have hb : b.client = false := by rw [hp.roles, hc]; rfl
  have hdc : d.client = false := by rw [hd.client, hb]
  have hec : e.client = true := by rw [he.client, ha1.2, hc]
  obtain ⟨O, o2, o3, o4, o5⟩ := options_server d hdc
  obtain ⟨Q, q2, q3, q4, q5⟩ := options_client e hec
  rw [← hr] at O o2 o3 o4 o5
  rw [← hs] at Q q2 q3 q4 q5
  have hel : e.loc = a.loc := by rw [he.loc, ha1.1]
  have hdl := hd.loc
  have hml : r.multipath = (b.loc.multipath && a.loc.multipath) := by
    rw [O.multipath, hdl, hd.rem]; rfl
  have hrl : r.loc.multipath = r.multipath := by rw [o2, O.multipath]
  have hms : s.multipath = (a.loc.multipath && r.multipath) := by
    rw [Q.multipath, hel, he.rem]
    show (a.loc.multipath && r.loc.multipath) = _
    rw [hrl]
  have hmm : s.multipath = r.multipath := by
    rw [hms, hml]
    cases a.loc.multipath <;> cases b.loc.multipath <;> rfl
  have hrid : r.loc.maxPathId = b.loc.maxPathId := by rw [o2, hdl]
  have hradd : r.loc.addressDiscovery = b.loc.addressDiscovery := by rw [o2, hdl]
  have hrts : r.loc.timeStamp = if a.loc.timeStamp ≠ 0 then (if a.loc.timeStamp &&& 1 ≠ 0 then 2 else 0) +
      (if a.loc.timeStamp &&& 2 ≠ 0 then 1 else 0) else b.loc.timeStamp := by
    rw [o2, hdl, hd.rem]; rfl
  have hrmin : r.loc.minAckDelay = if d.ackFrequency then b.loc.minAckDelay else 0 := by rw [o2, hdl]
  have hrloss : r.loc.lossBit = b.loc.lossBit := by rw [o2, hdl]
  have hrbdp : r.loc.bdpFrame = b.loc.bdpFrame := by rw [o2, hdl]
  have hridle : r.loc.idleTimeout = b.loc.idleTimeout := by rw [o2, hdl]
  have elb : e.rem.lossBit = min b.loc.lossBit 2 := by
    rw [he.rem]
    show min r.loc.lossBit 2 = _
    rw [hrloss]
  have dlb : d.rem.lossBit = min a.loc.lossBit 2 := by rw [hd.rem]; rfl
  have ets : e.rem.timeStamp = r.loc.timeStamp := by rw [he.rem]; rfl
  have dts : d.rem.timeStamp = a.loc.timeStamp := by rw [hd.rem]; rfl
  refine ⟨?_, hmm, ?_, ?_, ?_, ⟨?_, ?_⟩, ⟨?_, ?_⟩, ⟨?_, ?_⟩, ⟨?_, ?_⟩⟩
  · rw [Q.idle, O.idle, he.idle, hd.idle, ha1.1, hridle, idleValue_comm]
  · intro h
    have h' := h
    rw [hmm] at h'
    obtain ⟨x1, x2⟩ := Q.pathIds h
    obtain ⟨y1, y2⟩ := O.pathIds h'
    have hal : a.loc.multipath = true := by
      rw [hms] at h
      cases ha : a.loc.multipath
      · rw [ha] at h; cases h
      · rfl
    rw [x1, x2, y1, y2, hel, hdl, he.rem, hd.rem]
    constructor
    · show (if r.loc.multipath then r.loc.maxPathId else 0) = _
      rw [hrl, if_pos h', hrid]
    · show (if a.loc.multipath then a.loc.maxPathId else 0) = _
      rw [if_pos hal]
  · rw [Q.ack, O.ack, he.ack, ha1.1, hrmin, hd.ack]
    by_cases h1 : b.loc.minAckDelay > 0 <;> by_cases h2 : a.loc.minAckDelay > 0 <;> simp [h1, h2]
  · rw [Q.bdp, O.bdp, hel, hdl, he.rem, hd.rem]
    show (_ && decide (r.loc.bdpFrame > 0)) = (_ && decide (a.loc.bdpFrame > 0))
    rw [hrbdp, Bool.and_comm]
  · rw [Q.lossOut, O.lossIn, hel, hdl, elb, dlb, Bool.and_comm]
    congr 1
    · by_cases h : b.loc.lossBit > 0
      · have : min b.loc.lossBit 2 > 0 := by omega
        simp [h]; omega
      · simp; omega
    · simp; omega
  · rw [O.lossOut, Q.lossIn, hel, hdl, elb, dlb, Bool.and_comm]
    congr 1
    · by_cases h : a.loc.lossBit > 0
      · have : min a.loc.lossBit 2 > 0 := by omega
        simp [h]; omega
      · simp; omega
    · simp; omega
  · rw [q3, o4, hel, hd.stampsEnabled, dts, ets, hrts]
    obtain ⟨p, q, h1, h2, h3⟩ := and_bits hla.timeStamp
    cases p <;> cases q <;> simp_all
  · rw [o3, q4, hel, hd.stampsSent, dts, ets, hrts]
    obtain ⟨p, q, h1, h2, h3⟩ := and_bits hla.timeStamp
    cases p <;> cases q <;> simp_all
  · rw [Q.provider, O.receiver, he.provider, hd.receiver, ha1.1, hradd, Bool.and_comm]
  · rw [O.provider, Q.receiver, he.receiver, hd.provider, ha1.1, hradd, Bool.and_comm]
  · intro h
    rw [q5, he.rem] at h
    have : (e.loc.greaseQuicBit && r.loc.greaseQuicBit) = true := h
    rw [Bool.and_eq_true] at this
    exact this.2
  · intro h
    rw [o5, hd.rem] at h
    rw [q2, hel]
    exact h

end Picoquic.TransportParams
