import Verif.Proof.H3Control
/-!
# C80: the settings of HTTP/3, and the streams opened by the peer

`H3Control.settingsEncode` writes the SETTINGS frame. `H3Control.pieces (unidir known) u cs` are the pieces of a unidirectional stream of the peer, up to the first that is
refused: the bytes for the application, and the result with the state of the stream, in which are the settings of the connection. `known` are the web transport sessions. The frames and the
settings are those of `Spec/H3Control.lean`.
-/

namespace Picoquic.Props
open Picoquic Picoquic.Spec Picoquic.H3Control

/-- A new stream, on a connection with these settings. -/
def hcNew (s : Settings) (received : Bool) : Uni := { ctl := { settings := s, received := received } }

theorem hc_new (s : Settings) (r : Bool) : UInv (hcNew s r) := uinv_new _ rfl

/-- **C80.** What happens with a stream of the peer does not depend on how its bytes are cut into pieces. -/
theorem C80_chunks (known : Nat → Bool) (s : Settings) (r : Bool) (cs cs' : List Bytes) (h : cs.flatten = cs'.flatten) :
    pieces (unidir known) (hcNew s r) cs = pieces (unidir known) (hcNew s r) cs' := by
  rw [pieces_run _ _ _ (hc_new s r), pieces_run _ _ _ (hc_new s r), h]

example : pieces (unidir fun _ => false) (hcNew {} false) [[0, 4], [5, 1, 0x40], [100, 0x33], [1, 7, 1], [8]] =
    pieces (unidir fun _ => false) (hcNew {} false) [[0, 4, 5, 1, 0x40, 100, 0x33, 1, 7, 1, 8]] := C80_chunks _ _ _ _ _ rfl

/-- **C80, partial.** The control stream: settings first, then frames that may follow. The settings of the connection are then the values given, and 0 for those not given; nothing is
refused. Missing: settings without any pair (see `C80_empty_violated`), and frames of more than 65536 bytes. -/
theorem C80_settings_partial (known : Nat → Bool) (p bs : Bytes) (f : H3Frame) (rest : List H3Frame) (kvs : List (Nat × Nat)) (cs : List Bytes) (hp : Varint p 0) (hb : H3Stream (f :: rest) bs)
    (hf : f.ty = 4) (hk : H3Pairs kvs f.payload) (hn : kvs ≠ []) (hl : f.payload.length ≤ 65536) (hr : ∀ g ∈ rest, H3Later g) (hc : cs.flatten = p ++ bs) :
    ∃ u, pieces (unidir known) (hcNew {} false) cs = ([], .ok u []) ∧ u.ctl.received = true ∧
      u.ctl.settings.table = h3Setting kvs 1 ∧ u.ctl.settings.blocked = h3Setting kvs 7 ∧ u.ctl.settings.sessions = h3Setting kvs 0xc671706a ∧
      (h3Setting kvs 8 ≤ 1 → (u.ctl.settings.connect = true ↔ h3Setting kvs 8 = 1)) ∧ (h3Setting kvs 0x33 ≤ 1 → (u.ctl.settings.datagram = true ↔ h3Setting kvs 0x33 = 1)) := by
  obtain ⟨u, e, er, es⟩ := pieces_accept known hp hb hf hk hn hl hr hc
  refine ⟨u, e, er, ?_⟩
  rw [es]
  refine ⟨rfl, rfl, rfl, fun h => ?_, fun h => ?_⟩
  · unfold settingsOf
    simp only [decide_eq_true_eq]
    omega
  · unfold settingsOf
    simp only [decide_eq_true_eq]
    omega

example : ∃ u, pieces (unidir fun _ => false) (hcNew {} false) [[0, 4], [5, 1, 0x40], [100, 0x33], [1, 7, 1], [8]] = ([], .ok u []) ∧ u.ctl.received = true ∧
    u.ctl.settings.table = 100 ∧ u.ctl.settings.blocked = 0 ∧ u.ctl.settings.datagram = true := by
  obtain ⟨u, h, hr, h1, h2, -, -, h4⟩ := C80_settings_partial (fun _ => false) [0] [4, 5, 1, 0x40, 100, 0x33, 1, 7, 1, 8] ⟨4, [1, 0x40, 100, 0x33, 1]⟩ [⟨7, [8]⟩] [(1, 100), (0x33, 1)]
    [[0, 4], [5, 1, 0x40], [100, 0x33], [1, 7, 1], [8]] ⟨0, by decide⟩
    (.cons (a := [4, 5, 1, 0x40, 100, 0x33, 1]) (b := [7, 1, 8]) ⟨[4], [5], rfl, ⟨0, by decide⟩, ⟨0, by decide⟩⟩
      (.cons (a := [7, 1, 8]) (b := []) ⟨[7], [1], rfl, ⟨0, by decide⟩, ⟨0, by decide⟩⟩ .nil)) rfl
    (.cons (a := [1]) (b := [0x40, 100]) ⟨0, by decide⟩ ⟨1, by decide⟩ (.cons (a := [0x33]) (b := [1]) ⟨0, by decide⟩ ⟨0, by decide⟩ .nil)) (by decide) (by decide)
    (by simp [H3Later]) rfl
  exact ⟨u, h, hr, h1, h2, (h4 (by decide)).2 rfl⟩

/-- **C80.** All other control streams are refused: those that begin with another frame, whose settings are not pairs, or that have later settings or a frame that belongs on a request stream. -/
theorem C80_refused (known : Nat → Bool) (p bs : Bytes) (f : H3Frame) (rest : List H3Frame) (cs : List Bytes) (hp : Varint p 0) (hb : H3Stream (f :: rest) bs)
    (hbad : ¬ (f.ty = 4 ∧ (∃ kvs, H3Pairs kvs f.payload) ∧ ∀ g ∈ rest, H3Later g)) (hc : cs.flatten = p ++ bs) :
    ∃ code u, pieces (unidir known) (hcNew {} false) cs = ([], .refused code u) := by
  rw [pieces_run _ _ _ (hc_new _ _), hc, show hcNew {} false = { ctl := ({} : Ctl) } from rfl, run_new known {} rfl hp]
  unfold runType ofType
  rw [if_pos rfl, if_pos rfl]
  have hi : Idle (reset {}) := idle_reset rfl
  suffices h : ∃ code c, control (reset {}) bs = .refused code c by
    obtain ⟨code, c, e⟩ := h
    dsimp only
    rw [e]
    exact ⟨_, _, rfl⟩
  cases hb with
  | @cons _ _ a b hfb hrest =>
    rw [control_append _ _ _ hi.inv]
    have bad : ∀ {code c}, control (reset {}) a = .refused code c → ∃ code c, H3Control.andThen (control (reset {}) a) (fun c => control c b) = .refused code c := by
      intro code c e
      rw [e]
      exact ⟨_, _, rfl⟩
    by_cases h4 : f.ty = 4
    · by_cases hne : f.payload = []
      · obtain ⟨code, c, e⟩ := control_settings_empty hi rfl rfl hfb h4 hne
        exact bad e
      · by_cases hl : f.payload.length ≤ 65536
        · obtain ⟨g1, g2⟩ := control_settings hi rfl rfl rfl hfb h4 hne hl
          by_cases hk : ∃ kvs, H3Pairs kvs f.payload
          · obtain ⟨kvs, hk'⟩ := hk
            obtain ⟨c1, e1, i1, r1, s1⟩ := g1 kvs hk'
            rw [e1]
            exact (control_laters _ _ hrest c1 i1 r1).2 (fun h => hbad ⟨h4, ⟨kvs, hk'⟩, h⟩)
          · obtain ⟨code, c, e⟩ := g2 hk
            exact bad e
        · obtain ⟨code, c, e⟩ := control_settings_long hi rfl rfl hfb h4 (by omega)
          exact bad e
    · obtain ⟨code, c, e⟩ := control_bad hi hfb (.inr (.inl ⟨rfl, h4⟩))
      exact bad e

example : ∃ code u, pieces (unidir fun _ => false) (hcNew {} false) [[0, 4, 2, 1], [0, 4, 2, 1, 1]] = ([], .refused code u) :=
  C80_refused _ [0] [4, 2, 1, 0, 4, 2, 1, 1] ⟨4, [1, 0]⟩ [⟨4, [1, 1]⟩] _ ⟨0, by decide⟩
    (.cons (a := [4, 2, 1, 0]) (b := [4, 2, 1, 1]) ⟨[4], [2], rfl, ⟨0, by decide⟩, ⟨0, by decide⟩⟩
      (.cons (a := [4, 2, 1, 1]) (b := []) ⟨[4], [2], rfl, ⟨0, by decide⟩, ⟨0, by decide⟩⟩ .nil)) (by simp [H3Later]) rfl

/-- **C80.** The settings that one side writes are those that the other side gets, however the bytes of its control stream are cut; they take at most 40 bytes, and with room for 47 writing them does not fail.
A number of blocked streams that is `UINT64_MAX` is not written: the other side has 0. -/
theorem C80_roundtrip (known : Nat → Bool) (s : Settings) (room : Nat) (h : 47 ≤ room) (hr : room < 2 ^ 62) (ht : s.table < 2 ^ 62) (hb : s.blocked < 2 ^ 62 ∨ s.blocked = UINT64_MAX) (hs : s.sessions < 2 ^ 62) :
    ∃ bs, settingsEncode s room = some bs ∧ bs.length ≤ 40 ∧ ∀ cs : List Bytes, cs.flatten = 0 :: bs →
      ∃ u, pieces (unidir known) (hcNew {} false) cs = ([], .ok u []) ∧ u.ctl.received = true ∧
        u.ctl.settings = { s with blocked := if s.blocked = UINT64_MAX then 0 else s.blocked } := by
  obtain ⟨bs, e, hlen⟩ := settings_room s room h
  obtain ⟨kvs, payload, hf, hk, he, -, hne⟩ := settings_spec e ⟨.inl ht, hb, hs⟩ hr
  have htn : s.table ≠ UINT64_MAX := by intro hh; rw [hh] at ht; revert ht; decide
  refine ⟨bs, e, hlen, fun cs hc => ?_⟩
  have hl : payload.length ≤ 65536 := by
    obtain ⟨p, q, e, -⟩ := hf
    rw [e] at hlen
    simp only [List.length_append] at hlen
    omega
  obtain ⟨u, e, er, es⟩ := pieces_accept known (p := [0]) ⟨0, by decide⟩ (.cons hf .nil) rfl hk (hne (.inl htn)) hl (by simp) (cs := cs) (by rw [hc]; simp)
  refine ⟨u, e, er, ?_⟩
  rw [es, he]
  unfold sent
  rw [if_neg htn]

/-- The settings that `h3zero_protocol_init` sends, with datagrams. -/
example : ∃ bs, settingsEncode { sessions := 1, connect := true, datagram := true } 255 = some bs ∧ bs.length ≤ 40 ∧ ∀ cs : List Bytes, cs.flatten = 0 :: bs →
    ∃ u, pieces (unidir fun _ => false) (hcNew {} false) cs = ([], .ok u []) ∧ u.ctl.received = true ∧ u.ctl.settings = { sessions := 1, connect := true, datagram := true } :=
  C80_roundtrip _ _ 255 (by decide) (by decide) (by decide) (by decide) (by decide)

example : settingsEncode { sessions := 1, connect := true, datagram := true } 255 = some [4, 17, 1, 0, 7, 0, 8, 1, 0x33, 1, 0xc0, 0, 0, 0, 0xc6, 0x71, 0x70, 0x6a, 1] := by decide +kernel

/-- **C80.** A web transport stream (type 0x54) of a known session: the application gets the bytes behind the number of the session, all of them and in order. That of an unknown session is refused,
and no byte reaches the application. -/
theorem C80_webtransport (known : Nat → Bool) (s : Settings) (r : Bool) (p q w : Bytes) (i : Nat) (cs : List Bytes) (hp : Varint p 0x54) (hq : Varint q i) (hc : cs.flatten = p ++ (q ++ w)) :
    (known i = true → ∃ u, pieces (unidir known) (hcNew s r) cs = (w, .ok u []) ∧ u.session = some i) ∧
    (known i = false → ∃ code u, pieces (unidir known) (hcNew s r) cs = ([], .refused code u)) := by
  rw [pieces_run _ _ _ (hc_new s r), hc, show hcNew s r = { ctl := ({ settings := s, received := r } : Ctl) } from rfl, run_new known _ rfl hp]
  unfold runType ofType
  rw [if_neg (by decide), if_pos rfl, if_neg (by decide)]
  unfold H3Control.session
  dsimp only
  rw [vfs_whole hq]
  dsimp only
  constructor
  · intro h
    rw [if_pos h]
    exact ⟨_, rfl, rfl⟩
  · intro h
    rw [if_neg (by simp [h])]
    exact ⟨_, _, rfl⟩

example : ∃ u, pieces (unidir fun i => i == 4) (hcNew {} true) [[0x40], [0x54, 4], [1, 2], [3]] = ([1, 2, 3], .ok u []) ∧ u.session = some 4 :=
  (C80_webtransport (fun i => i == 4) {} true [0x40, 0x54] [4] [1, 2, 3] 4 _ ⟨1, by decide⟩ ⟨0, by decide⟩ rfl).1 rfl

/-- **C80.** Streams of other types are ignored: nothing is refused, no byte reaches the application, and the settings stay as they are. -/
theorem C80_ignored (known : Nat → Bool) (s : Settings) (r : Bool) (p w : Bytes) (t : Nat) (cs : List Bytes) (hp : Varint p t) (h0 : t ≠ 0) (h1 : t ≠ 0x54) (hc : cs.flatten = p ++ w) :
    ∃ u, pieces (unidir known) (hcNew s r) cs = ([], .ok u []) ∧ u.ctl.settings = s ∧ u.ctl.received = r ∧ u.session = none := by
  rw [pieces_run _ _ _ (hc_new s r), hc, show hcNew s r = { ctl := ({ settings := s, received := r } : Ctl) } from rfl, run_new known _ rfl hp]
  unfold runType ofType
  rw [if_neg h0, if_neg h0, if_neg h1]
  exact ⟨_, rfl, rfl, rfl, rfl⟩

example : ∃ u, pieces (unidir fun _ => true) (hcNew {} true) [[2], [4, 1, 0]] = ([], .ok u []) ∧ u.ctl.settings = {} ∧ u.ctl.received = true ∧ u.session = none :=
  C80_ignored _ _ _ [2] [4, 1, 0] 2 _ ⟨0, by decide⟩ (by decide) (by decide) rfl

/-- **C80, violated.** Settings without any pair are allowed, and mean that all have their initial values; the control stream is refused. -/
theorem C80_empty_violated : H3Stream [⟨4, []⟩] [4, 0] ∧ H3Pairs [] [] ∧ ∃ u, unidir (fun _ => false) (hcNew {} false) [0, 4, 0] = .refused 0x109 u :=
  ⟨.cons (a := [4, 0]) (b := []) ⟨[4], [0], rfl, ⟨0, by decide⟩, ⟨0, by decide⟩⟩ .nil, .nil, _, rfl⟩

/-- **C80, violated.** An error on the control stream should end the connection. The peer is only asked to stop; the next piece of the same stream is read as if the frame had been in order, and the settings that
it contains are accepted. -/
theorem C80_forgotten_violated : ∃ u u', unidir (fun _ => false) (hcNew {} false) [0, 7] = .refused 0x10A u ∧ unidir (fun _ => false) u [0, 4, 2, 1, 9] = .ok u' [] ∧
    u'.ctl.received = true ∧ u'.ctl.settings.table = 9 := by
  refine ⟨{ stype := some 0, ctl := { ty := some 7 } }, { stype := some 0, ctl := { settings := { table := 9 }, received := true } }, ?_, ?_, rfl, rfl⟩ <;> decide +kernel

/-- **C80, violated.** A web transport stream opened by a server, with a known session, is accepted when the two bytes of its type arrive together, and refused when they do not. -/
theorem C80_bidir_violated : ∃ u u', pieces (bidir fun i => i == 4) (hcNew {} true) [[0x40, 0x41, 4, 1, 2]] = ([1, 2], .ok u []) ∧
    pieces (bidir fun i => i == 4) (hcNew {} true) [[0x40], [0x41, 4, 1, 2]] = ([], .refused 0 u') := by
  refine ⟨{ stype := some 0x41, ctl := { received := true }, session := some 4 }, { ctl := { buf := [0x40], received := true } }, ?_, ?_⟩ <;> decide +kernel

/-- **C80, violated.** The settings 2 to 5, those of HTTP/2, are errors of the settings; and a flag must be 0 or 1. They are accepted, and the flag with value 2 is not set. -/
theorem C80_values_violated : ∃ u, unidir (fun _ => false) (hcNew {} false) [0, 4, 4, 2, 1, 8, 2] = .ok u [] ∧ u.ctl.received = true ∧ u.ctl.settings.connect = false := by
  refine ⟨{ stype := some 0, ctl := { received := true } }, ?_, rfl, rfl⟩
  decide +kernel

end Picoquic.Props
