import Verif.Proof.TransportFinish
/-!
# C21: the parsing of transport parameters

`receive c bs` is the processing by connection `c` of the extension `bs` received from its peer: the
connection afterwards, with the errors raised (`errs`, latest first), and the return code.
-/

namespace Picoquic.Props
open Picoquic Picoquic.Spec Picoquic.TransportParams

/-- A client parses any extension to the end. A server does, unless the extension carries the
version information of a client that is not using version 1 and lists version 2 (see
`C21_terminates_violated`). -/
theorem C21_terminates_partial (c : Conn) (bs : Bytes)
    (h : c.client = true ∨ ∀ a ps rest, bs = a ++ rest → Extension a ps →
      ∀ v, (0x11, v) ∈ ps → ¬ FromOtherToV2 v) :
    ∃ c' r, receive c bs = some (c', r) := by
  obtain ⟨a, ps, rest, rfl, ha, hr⟩ := extension_split bs
  rw [receive_eq ha hr c]
  cases hp : runParams (receiveInit c) ps with
  | none =>
    exfalso
    obtain ⟨h1, v, h2, h3⟩ := runParams_none _ _ hp
    have h1' : c.client = false := h1
    rcases h with h | h
    · rw [h1'] at h; cases h
    · exact h a ps rest rfl ha v h2 h3
  | some s => exact ⟨_, _, rfl⟩

/-- The checks made on the value of integer parameters. What `LegalInteger` asks and is missing here: the
limit of 2^60 on counts of streams, the limit of 20 on the exponent, and the limit on the maximum ACK
delay is not strict, and not enforced when the value in microseconds does not fit in 32 bits. -/
def AcceptableInteger (t n : Nat) : Prop :=
  (t = 3 → 1200 ≤ n ∧ n ≤ 65527) ∧ (t = 11 → n ≤ 2 ^ 14 ∨ 2 ^ 32 ≤ n * 1000) ∧
  (t = 0x1057 → n ≤ 1) ∧ (t = 0xff04de1b → 1 ≤ n ∧ n < 2 ^ 24) ∧ (t = 0x7158 → 1 ≤ n ∧ n ≤ 3) ∧
  (t = 0xebd9 → n ≤ 1) ∧ (t = 0x9f81a176 → n ≤ 2)

/-- What connection `c` accepts: no parameter of type below 64 is repeated, the values are
acceptable, the parameters reserved to servers come from a server, and the connection IDs are those of
the handshake. What `Legal` asks and is missing here: the repetition of types from 64 up, the limits of
integers listed above, and an empty preferred address. -/
structure Acceptable (c : Conn) (ps : List (Nat × Bytes)) : Prop where
  once : ((ps.map Prod.fst).filter (fun t => decide (t < 64))).Nodup
  integers : ∀ t v, (t, v) ∈ ps → IntegerType t → ∃ n, Varint v n ∧ AcceptableInteger t n
  blocks : ∀ t v, (t, v) ∈ ps → LegalBlock t v ∨ (t = 13 ∧ v = [])
  roles : c.client = false → ∀ t v, (t, v) ∈ ps → t ≠ 0 ∧ t ≠ 2 ∧ t ≠ 13 ∧ t ≠ 16
  cids : c.version ≠ 0xFF00001B → CidsMatch c.client c.remoteCid c.initialCid c.originalCid ps

/-- Legal extensions are among those: the limits that are missing are the only difference, except that
a maximum packet size over 65527 is refused. -/
theorem acceptable_of_legal (c : Conn) (ps : List (Nat × Bytes)) (h : Legal c.client ps)
    (hs : ∀ v n, (3, v) ∈ ps → Varint v n → n ≤ 65527)
    (hc : CidsMatch c.client c.remoteCid c.initialCid c.originalCid ps) : Acceptable c ps := by
  refine ⟨h.once.filter _, ?_, fun t v hm => .inl (h.blocks t v hm), h.roles, fun _ => hc⟩
  intro t v hm hi
  obtain ⟨n, h1, h2, _, _, h3, h4⟩ := h.integers t v hm hi
  refine ⟨n, h1, fun e => ⟨h2 e, ?_⟩, fun e => .inl (Nat.le_of_lt (h3 e)), h4⟩
  subst e
  exact hs v n hm h1

/-- The outcome of parsing: the new errors are transport errors; if there is none, either the
function succeeded and the extension is acceptable, or it is one in which a client lists another version
than the one it uses, and than version 2. -/
theorem C21_outcome_partial (c : Conn) (bs : Bytes) (c' : Conn) (r : Bool)
    (h : receive c bs = some (c', r)) :
    ∃ new, c'.errs = new ++ c.errs ∧ (∀ e ∈ new, TransportParameterError e) ∧
      (new ≠ [] ∨
       (r = false ∧ ∃ ps, Extension bs ps ∧ Acceptable c ps) ∨
       (r = true ∧ c.client = false ∧
        ∃ a ps rest v, bs = a ++ rest ∧ Extension a ps ∧ (0x11, v) ∈ ps ∧ ToOtherThanV2 v)) := by
  obtain ⟨a, ps, rest, rfl, ha, hr⟩ := extension_split bs
  rw [receive_eq ha hr c] at h
  cases hp : runParams (receiveInit c) ps with
  | none => rw [hp] at h; cases h
  | some s =>
    rw [hp, Option.map_some] at h
    simp only [Option.some.injEq, Prod.mk.injEq] at h
    obtain ⟨hc', hr'⟩ := h
    obtain ⟨new, e1, e2, e3, e4, e5, e6⟩ := run_applied (receiveInit c).c ps hp rfl
      (SameSetup.refl _) (.inl rfl)
    have e1' : s.c.errs = new ++ c.errs := e1
    -- the bytes left over
    have hx : ∃ new', (runRest rest s).c.errs = new' ++ c.errs ∧
        (∀ e ∈ new', TransportParameterError e) ∧
        (new' ≠ [] ∨ (new = [] ∧ new' = [] ∧ runRest rest s = s ∧ (s.ret = true ∨ rest = []))) := by
      by_cases hrr : s.ret = true ∨ rest = []
      · have hs : runRest rest s = s := by unfold runRest; rw [if_pos hrr]
        refine ⟨new, by rw [hs]; exact e1', e2, ?_⟩
        by_cases hn : new = []
        · exact .inr ⟨hn, hn, hs, hrr⟩
        · exact .inl hn
      · have hs : runRest rest s = s.fail PARAMETER_ERROR := by unfold runRest; rw [if_neg hrr]
        refine ⟨PARAMETER_ERROR :: new, ?_, ?_, .inl (by simp)⟩
        · rw [hs]
          show PARAMETER_ERROR :: s.c.errs = _
          rw [e1']; rfl
        · intro e he
          rcases List.mem_cons.mp he with rfl | he
          · exact .inl rfl
          · exact e2 e he
    obtain ⟨new', x1, x2, x3⟩ := hx
    rcases finish_cases (runRest rest s) with ⟨f1, f2, f3⟩ | ⟨f1, f2, f3⟩ | ⟨f1, f2, f3, F⟩
    · refine ⟨new', by rw [← hc', f3, x1], x2, ?_⟩
      rcases x3 with hn | ⟨n1, n2, n3, n4⟩
      · exact .inl hn
      · rw [n3] at f1
        rcases e5 f1 with hn | ⟨t, v, hm, hf⟩
        · exact absurd n1 hn
        · obtain ⟨g1, g2, g3⟩ := refused_versions hf
          subst g1
          exact .inr (.inr ⟨by rw [← hr', f2], g2, a, ps, rest, v, rfl, ha, hm, g3⟩)
    · refine ⟨PARAMETER_ERROR :: new', by rw [← hc', f3, x1]; rfl, ?_, .inl (by simp)⟩
      intro e he
      rcases List.mem_cons.mp he with rfl | he
      · exact .inl rfl
      · exact x2 e he
    · refine ⟨new', by rw [← hc', f3, x1], x2, ?_⟩
      rcases x3 with hn | ⟨n1, n2, n3, n4⟩
      · exact .inl hn
      · rw [n3] at f1 F
        have hrest : rest = [] := by
          rcases n4 with n4 | n4
          · rw [f1] at n4; cases n4
          · exact n4
        subst hrest
        rw [List.append_nil]
        have C := e6 f1 n1
        refine .inr (.inl ⟨by rw [← hr', f2], ps, ha, ?_⟩)
        have hmem : ∀ t, t < 64 → (t ∈ s.present ↔ t ∈ ps.map Prod.fst) := by
          intro t ht
          rw [C.present t]
          constructor
          · rintro (h | ⟨_, h⟩)
            · simp [receiveInit] at h
            · exact h
          · exact fun h => .inr ⟨ht, h⟩
        have hfst : ∀ {t v}, (t, v) ∈ ps → t ∈ ps.map Prod.fst :=
          fun hm => List.mem_map.mpr ⟨_, hm, rfl⟩
        refine ⟨C.once, fun t v hm => (C.checked t v hm).integer, fun t v hm => (C.checked t v hm).block,
          ?_, ?_⟩
        · intro hcl t v hm
          have hcl' : s.c.client = false := by rw [e3.1]; exact hcl
          obtain ⟨r1, r2, r3, r4⟩ := F.roles hcl'
          rw [hmem _ (by decide)] at r1 r2 r3 r4
          refine ⟨?_, ?_, ?_, ?_⟩ <;> rintro rfl
          · exact r3 (hfst hm)
          · exact r1 (hfst hm)
          · exact r2 (hfst hm)
          · exact r4 (hfst hm)
        · intro hv
          have hv' : s.c.version ≠ DRAFT27 := by
            rcases e4 with e | ⟨_, e⟩
            · rw [e]; exact hv
            · exact e
          have h15 := F.source hv'
          have hsrc : (15, c.remoteCid) ∈ ps := by
            have := (hmem 15 (by decide)).mp h15
            obtain ⟨⟨t, v⟩, hm, rfl⟩ := List.mem_map.mp this
            have := (C.checked 15 v hm).source rfl
            rw [this] at hm
            exact hm
          refine ⟨hsrc, ?_, ?_⟩
          · intro hcl ho
            have hcl' : s.c.client = true := by rw [e3.1]; exact hcl
            have ho' : s.c.originalCid = [] := by rw [e3.2.2.2.2]; exact ho
            obtain ⟨q1, q2, q3⟩ := F.original hcl' h15 ho'
            rw [hmem _ (by decide)] at q1 q2
            refine ⟨?_, fun v hm => q1 (hfst hm)⟩
            rcases C.ocid with ⟨_, o⟩ | ⟨o, _⟩
            · rw [q3, e3.2.2.2.1] at o
              exact o
            · exact absurd q2 o
          · intro hcl ho
            have hcl' : s.c.client = true := by rw [e3.1]; exact hcl
            have ho' : s.c.originalCid ≠ [] := by rw [e3.2.2.2.2]; exact ho
            obtain ⟨q1, q2, q3, q4⟩ := F.retry hcl' h15 ho'
            rw [hmem _ (by decide)] at q1 q2
            constructor
            · rcases C.ocid with ⟨_, o⟩ | ⟨o, _⟩
              · rw [q3, e3.2.2.2.2] at o
                exact o
              · exact absurd q2 o
            · rcases C.rcid with ⟨_, o⟩ | ⟨o, _⟩
              · rw [q4, e3.2.2.2.1] at o
                exact o
              · exact absurd q1 o

/-- An extension that is not acceptable is rejected with a transport error, unless it lists, in the
version information of a client, another version than the one used and than version 2. -/
theorem C21_rejected_partial (c : Conn) (bs : Bytes) (c' : Conn) (r : Bool)
    (h : receive c bs = some (c', r)) (hbad : ¬ ∃ ps, Extension bs ps ∧ Acceptable c ps)
    (hv : c.client = false → ∀ a ps rest, bs = a ++ rest → Extension a ps →
      ∀ v, (0x11, v) ∈ ps → ¬ ToOtherThanV2 v) :
    ∃ e new, c'.errs = (e :: new) ++ c.errs ∧ ∀ x ∈ e :: new, TransportParameterError x := by
  obtain ⟨new, h1, h2, h3⟩ := C21_outcome_partial c bs c' r h
  rcases h3 with h3 | ⟨_, h3⟩ | ⟨_, h4, a, ps, rest, v, h5, h6, h7, h8⟩
  · cases new with
    | nil => exact absurd rfl h3
    | cons e new => exact ⟨e, new, h1, h2⟩
  · exact absurd h3 hbad
  · exact absurd h8 (hv h4 a ps rest h5 h6 v h7)

/-- A server whose client chose another version than version 1 never returns from the parsing of version
information that lists version 2. -/
theorem C21_terminates_violated (c : Conn) (hc : c.client = false) (h1 : c.version ≠ 1)
    (h2 : c.version ≠ 0x6b3343cf) (hv : c.version < 2 ^ 32) :
    ∃ bs v, Extension bs [(0x11, v)] ∧ versionWords v = [c.version, 0x6b3343cf] ∧
      receive c bs = none := by
  obtain ⟨w0, w1, w2, w3, hw⟩ : ∃ a b c' d, picoformat32 c.version = [a, b, c', d] := ⟨_, _, _, _, rfl⟩
  have hbe : bigEndian [w0, w1, w2, w3] = c.version := by rw [← hw]; exact bigEndian_format32 hv
  have hext : Extension ([0x11] ++ ([8] ++ ([w0, w1, w2, w3, 0x6b, 0x33, 0x43, 0xcf] ++ [])))
      [(0x11, [w0, w1, w2, w3, 0x6b, 0x33, 0x43, 0xcf])] :=
    .cons ⟨0, by decide⟩ ⟨0, by decide, rfl, (by decide : 8 < 2 ^ 6), rfl⟩ .nil
  refine ⟨_, _, hext, ?_, ?_⟩
  · rw [versionWords, hbe]; rfl
  · have := receive_eq hext (.inl rfl) c
    rw [List.append_nil] at this
    rw [this, runParams, if_neg (by simp [receiveInit])]
    have hvn : processVersionNegotiation false c.version [w0, w1, w2, w3, 0x6b, 0x33, 0x43, 0xcf] =
        .ok V2 := by
      unfold processVersionNegotiation framesUint32Decode
      dsimp only
      rw [parse32_bigEndian, hbe, if_neg (by simp), if_neg (by decide)]
      decide
    have hup : processVersionUpgrade c.version V2 = .hang := by
      have hx : (supportedVersions.find? (fun e => e.1 == V2)).bind Prod.snd = some [V1] := by decide
      unfold processVersionUpgrade
      rw [if_neg (fun e => h2 e.symm), hx]
      dsimp only
      rw [if_neg (fun e => h1 e.symm)]
    have hap : applyParam (notePresent (receiveInit c) 0x11) 0x11
        [w0, w1, w2, w3, 0x6b, 0x33, 0x43, 0xcf] = none := by
      have hn : notePresent (receiveInit c) 0x11 =
          { receiveInit c with present := [0x11] } := rfl
      rw [hn]
      rw [applyParam_version]
      dsimp only [receiveInit]
      rw [hc, hvn]
      dsimp only
      have hcond : V2 ≠ 0 ∧ c.version ≠ V2 := ⟨by decide, h2⟩
      rw [hup]
      exact if_pos hcond
    rw [hap]
    rfl

/-! ## Concrete cases, and what is accepted but not legal -/

/-- A server; its client uses the connection ID `[1, 2]`. -/
def exServer : Conn := { client := false, loc := {}, remoteCid := [1, 2] }

/-- A client; its server uses the connection ID `[1, 2]`. -/
def exClient : Conn := { client := true, loc := {}, remoteCid := [1, 2], initialCid := [3, 4] }

-- a server parses an acceptable extension, and one that is refused, to the end
example : ∃ c', receive exServer [15, 2, 1, 2, 10, 1, 5] = some (c', false) ∧ c'.errs = [] ∧
    c'.rem.ackDelayExponent = 5 := ⟨_, rfl, by decide, by decide⟩
example : ∃ c', receive exServer [15, 2, 1, 2, 10, 1] = some (c', true) ∧ c'.errs = [8] :=
  ⟨_, rfl, by decide⟩
-- a truncated value, a repeated parameter, a wrong connection ID, a packet size of 1199
example : ((receive exServer [15, 2, 1, 2, 1, 4, 0x80]).map (fun x => x.1.errs)) = some [8] := by
  decide +kernel
example : ((receive exServer [15, 2, 1, 2, 10, 1, 3, 10, 1, 3]).map (fun x => x.1.errs)) = some [8] := by
  decide +kernel
example : ((receive exServer [15, 2, 1, 3]).map (fun x => x.1.errs)) = some [8] := by decide +kernel
example : ((receive exServer [15, 2, 1, 2, 3, 2, 0x44, 0xaf]).map (fun x => x.1.errs)) = some [8] := by
  decide +kernel
-- the client checks the connection IDs of the server
example : ((receive exClient [15, 2, 1, 2, 0, 2, 3, 4]).map (fun x => (x.1.errs, x.2))) =
    some ([], false) := by decide +kernel
example : ((receive exClient [15, 2, 1, 2, 0, 2, 3, 5]).map (fun x => (x.1.errs, x.2))) =
    some ([8], true) := by decide +kernel
-- version information that asks for version 2 from version 1 ends
example : ((receive exServer [15, 2, 1, 2, 0x11, 8, 0, 0, 0, 1, 0x6b, 0x33, 0x43, 0xcf]).map
    (fun x => (x.1.errs, x.2, x.1.version))) = some ([], false, 0x6b3343cf) := by decide +kernel
-- and a server on draft 29 meets the hypotheses of the violation
example : ({ exServer with version := 0xFF00001D } : Conn).client = false := rfl

/-- A repeated parameter is accepted when its type is 64 or more (loss bits, here). -/
theorem C21_repeated_violated : ∃ bs ps c', Extension bs ps ∧ ¬ (ps.map Prod.fst).Nodup ∧
    receive exServer bs = some (c', false) ∧ c'.errs = [] :=
  ⟨[15, 2, 1, 2, 0x50, 0x57, 1, 0, 0x50, 0x57, 1, 1], [(15, [1, 2]), (0x1057, [0]), (0x1057, [1])], _,
    extension_of_parse (fuel := 9) (by decide), by decide, rfl, by decide⟩

/-- An ACK delay exponent of 21 is accepted. One of 256 + 3 is read as 3. -/
theorem C21_exponent_violated :
    (∃ bs ps c', Extension bs ps ∧ (∃ v, (10, v) ∈ ps ∧ Varint v 21) ∧
      receive exServer bs = some (c', false) ∧ c'.errs = []) ∧
    (∃ bs ps c', Extension bs ps ∧ (∃ v, (10, v) ∈ ps ∧ Varint v 259) ∧
      receive exServer bs = some (c', false) ∧ c'.errs = [] ∧ c'.rem.ackDelayExponent = 3) :=
  ⟨⟨[15, 2, 1, 2, 10, 1, 21], [(15, [1, 2]), (10, [21])], _, extension_of_parse (fuel := 9) (by decide),
      ⟨[21], by decide, 0, by decide⟩, rfl, by decide⟩,
   ⟨[15, 2, 1, 2, 10, 2, 0x41, 3], [(15, [1, 2]), (10, [0x41, 3])], _,
      extension_of_parse (fuel := 9) (by decide), ⟨[0x41, 3], by decide, 1, by decide⟩, rfl, by decide,
      by decide⟩⟩

/-- A maximum ACK delay of 2^14 ms is accepted. One of 2^32 ms is read as zero. -/
theorem C21_max_ack_delay_violated :
    (∃ bs ps c', Extension bs ps ∧ (∃ v, (11, v) ∈ ps ∧ Varint v (2 ^ 14)) ∧
      receive exServer bs = some (c', false) ∧ c'.errs = []) ∧
    (∃ bs ps c', Extension bs ps ∧ (∃ v, (11, v) ∈ ps ∧ Varint v (2 ^ 32)) ∧
      receive exServer bs = some (c', false) ∧ c'.errs = [] ∧ c'.rem.maxAckDelay = 0) :=
  ⟨⟨[15, 2, 1, 2, 11, 4, 0x80, 0, 0x40, 0], [(15, [1, 2]), (11, [0x80, 0, 0x40, 0])], _,
      extension_of_parse (fuel := 9) (by decide), ⟨[0x80, 0, 0x40, 0], by decide, 2, by decide⟩, rfl,
      by decide⟩,
   ⟨[15, 2, 1, 2, 11, 8, 0xc0, 0, 0, 1, 0, 0, 0, 0], [(15, [1, 2]), (11, [0xc0, 0, 0, 1, 0, 0, 0, 0])], _,
      extension_of_parse (fuel := 9) (by decide),
      ⟨[0xc0, 0, 0, 1, 0, 0, 0, 0], by decide, 3, by decide⟩, rfl, by decide, by decide⟩⟩

/-- A count of 2^60 + 1 streams is accepted, for both kinds of streams. -/
theorem C21_stream_count_violated (t : Nat) (ht : t = 8 ∨ t = 9) :
    ∃ bs ps c', Extension bs ps ∧ (∃ v, (t, v) ∈ ps ∧ Varint v (2 ^ 60 + 1)) ∧
      receive exServer bs = some (c', false) ∧ c'.errs = [] := by
  rcases ht with rfl | rfl
  · exact ⟨[15, 2, 1, 2, 8, 8, 0xd0, 0, 0, 0, 0, 0, 0, 1],
      [(15, [1, 2]), (8, [0xd0, 0, 0, 0, 0, 0, 0, 1])], _, extension_of_parse (fuel := 9) (by decide),
      ⟨[0xd0, 0, 0, 0, 0, 0, 0, 1], by decide, 3, by decide⟩, rfl, by decide⟩
  · exact ⟨[15, 2, 1, 2, 9, 8, 0xd0, 0, 0, 0, 0, 0, 0, 1],
      [(15, [1, 2]), (9, [0xd0, 0, 0, 0, 0, 0, 0, 1])], _, extension_of_parse (fuel := 9) (by decide),
      ⟨[0xd0, 0, 0, 0, 0, 0, 0, 1], by decide, 3, by decide⟩, rfl, by decide⟩

/-- An empty preferred address is accepted. -/
theorem C21_preferred_address_violated : ∃ bs ps c', Extension bs ps ∧ (13, []) ∈ ps ∧
    receive exClient bs = some (c', false) ∧ c'.errs = [] :=
  ⟨[15, 2, 1, 2, 0, 2, 3, 4, 13, 0], [(15, [1, 2]), (0, [3, 4]), (13, [])], _,
    extension_of_parse (fuel := 9) (by decide), by decide, rfl, by decide⟩

/-- After version information that lists draft 29, the rest of the extension is not read and no error is
raised: a repeated parameter, a truncated value and the absence of the connection ID go unnoticed. -/
theorem C21_skipped_violated : ∃ bs c', (∀ ps, ¬ Extension bs ps) ∧
    receive exServer bs = some (c', true) ∧ c'.errs = [] := by
  refine ⟨[0x11, 8, 0, 0, 0, 1, 0xff, 0, 0, 0x1d, 10, 1], _, ?_, rfl, by decide⟩
  intro ps h
  have := parse_of_extension h 20 (by decide)
  have hn : parseExtension 20 [0x11, 8, 0, 0, 0, 1, 0xff, 0, 0, 0x1d, 10, 1] = none := by decide
  rw [hn] at this
  cases this

end Picoquic.Props
