import Verif.Proof.VersionChoice
/-!
# C89: the version of a connection

Both ends of a connection use the same version: that of the client, or the one that the client prefers if a change is possible. What an attacker sends, or removes, does not change the version
that is used.
-/

namespace Picoquic.Props
open Picoquic Picoquic.Spec Picoquic.VersionChoice Picoquic.TransportParams

/-- The version of a new client is always one that is supported: the one which the application asks for if it is, otherwise version 1. Its first packet carries this version, unless the
application asks for a reserved version: then it carries that one, so that the server answers with the list of its versions. -/
theorem C89_first (preferred : Nat) :
    (preferred ∈ knownVersions → createClient preferred = { client := true, proposed := preferred, version := preferred }) ∧
    (preferred ∉ knownVersions → (createClient preferred).version = 1 ∧ ((createClient preferred).proposed = 1 ∨ (createClient preferred).proposed = preferred)) ∧
    (ReservedVersion preferred → (createClient preferred).proposed = preferred) ∧
    (createClient preferred).version ∈ knownVersions ∧ (∀ first, sentVersion (createClient preferred) first = (if first then (createClient preferred).proposed else (createClient preferred).version)) := by
  have hk := known_iff preferred
  refine ⟨?_, ?_, ?_, ?_, fun _ => rfl⟩
  · intro h
    unfold createClient
    rw [if_neg (known_pos h).1, if_pos (hk.2 h)]
  · intro h
    unfold createClient
    split
    · exact ⟨rfl, .inl rfl⟩
    · rw [if_neg (fun x => h (hk.1 x))]
      split
      · exact ⟨rfl, .inr rfl⟩
      · exact ⟨rfl, .inl rfl⟩
  · intro h
    have h0 : preferred ≠ 0 := by rintro rfl; revert h; unfold ReservedVersion; decide
    have ha : preferred &&& 0x0A0A0A0A = 0x0A0A0A0A := by
      have e : (0x0A0A0A0A : Nat) = 0x0F0F0F0F &&& 0x0A0A0A0A := by decide
      have e2 : preferred &&& 0x0A0A0A0A = (preferred &&& 0x0F0F0F0F) &&& 0x0A0A0A0A := by rw [Nat.and_assoc, ← e]
      rw [e2, h]
      decide
    unfold createClient
    rw [if_neg h0]
    by_cases hs : isSupported preferred = true
    · rw [if_pos hs]
    · rw [if_neg hs, if_pos ha]
  · have h1 : V1 ∈ knownVersions := by decide
    unfold createClient
    split
    · exact h1
    · split
      · rename_i h; exact hk.1 h
      · split <;> exact h1

example : ReservedVersion 0x1A2A3A4A ∧ (createClient 0x1A2A3A4A).proposed = 0x1A2A3A4A := by
  constructor
  · unfold ReservedVersion; decide
  · decide

/-- The test for reserved versions is too wide: other versions that are not supported are proposed too, and the packet is protected with keys of version 1. -/
theorem C89_reserved_violated : ∃ v, v < 2 ^ 32 ∧ ¬ ReservedVersion v ∧ v ∉ knownVersions ∧ (createClient v).proposed = v ∧ (createClient v).version = 1 :=
  ⟨0x0F0F0F0F, by decide, by unfold ReservedVersion; decide, by decide, by decide, by decide⟩

/-- A version information that does not start with the version of the packets is refused: nobody can change the version of the packets of a client unnoticed. -/
theorem C89_tampered (c : Cnx) (chosen : Nat) (others : List Nat) (hc : chosen < 2 ^ 32) (hne : chosen ≠ c.version) :
    receiveInfo c (picoformat32 chosen ++ others.flatMap picoformat32) = .error 0x11 :=
  tampered_eq c chosen _ hc (by rw [flatMap32_length]; omega) hne

example : receiveInfo (createServer 1) (picoformat32 0x6b3343cf ++ [1].flatMap picoformat32) = .error 0x11 := by decide +kernel

/-- What a server does with the versions of a client, `others`, in the order of its preferences: it considers the first one which it supports; it changes to it if it may, and keeps
the current version if it is this one. -/
theorem C89_server (s : Cnx) (others : List Nat) (hs : s.client = false) (hv : s.version ∈ knownVersions) (ho : ∀ w, w ∈ others → w < 2 ^ 32) :
    ((∀ w, w ∈ others → w ∉ knownVersions) → receiveInfo s (picoformat32 s.version ++ others.flatMap picoformat32) = .ok { s with doVn := true }) ∧
    (∀ before w after, others = before ++ w :: after → (∀ x, x ∈ before → x ∉ knownVersions) → w ∈ knownVersions →
      (w = s.version → receiveInfo s (picoformat32 s.version ++ others.flatMap picoformat32) = .ok { s with doVn := true }) ∧
      (CompatibleVersions s.version w → receiveInfo s (picoformat32 s.version ++ others.flatMap picoformat32) = .ok { s with doVn := true, version := w })) := by
  have key := serverInfo_eq s (others.flatMap picoformat32) hs (known_pos hv).2 (by rw [flatMap32_length]; omega)
  rw [versionWords_flatMap _ ho] at key
  have hneg : ∀ {l : List Nat}, (∀ x, x ∈ l → x ∉ knownVersions) → l.find? isSupported = none := by
    intro l hl
    rw [List.find?_eq_none]
    intro x hx h
    exact hl x hx ((known_iff x).1 h)
  refine ⟨?_, ?_⟩
  · intro h
    rw [key, hneg h]
  · intro before w after e hb hw
    have hf : others.find? isSupported = some w := by
      rw [e, List.find?_append, hneg hb, Option.none_or, List.find?_cons_of_pos ((known_iff w).2 hw)]
    rw [hf] at key
    dsimp only at key
    refine ⟨?_, ?_⟩
    · intro h
      rw [key, if_pos h]
    · rintro ⟨h1, h2⟩
      rw [key, if_neg (by rw [h1]; rintro rfl; rcases h2 with h | h <;> cases h), if_pos h2, if_pos h1]

example : receiveInfo (createServer 1) (picoformat32 1 ++ [0x1A2A3A4A, 0x6b3343cf, 1].flatMap picoformat32) =
    .ok { createServer 1 with doVn := true, version := 0x6b3343cf } := by decide +kernel

/-- A client with a preference and a server, from one end to the other: the server takes the version information of the client, both change to the version that the client prefers if a change from the
first version to it is defined, and keep the first one otherwise; the client takes the packets of the server, and its version information. Missing: preferences for a version which the server
supports but to which no change is possible, see `C89_incompatible_violated`. -/
theorem C89_agree_partial (preferred desired : Nat) (hp : preferred ∈ knownVersions) (hd : desired < 2 ^ 32)
    (hc : desired = 0 ∨ desired = preferred ∨ desired ∉ knownVersions ∨ CompatibleVersions preferred desired) :
    let c := setDesired (createClient preferred) desired
    let v := if desired = 0x6b3343cf ∨ desired = 0x709a50c4 then desired else preferred
    ∃ s c', receiveInfo (createServer (sentVersion c true)) (versionInfo c) = .ok s ∧ s.version = v ∧ onPacket c s.version = (c', .decrypted) ∧ c'.version = v ∧
      receiveInfo c' (versionInfo s) = .ok { c' with doVn := true } := by
  intro c v
  have ec : c = { client := true, proposed := preferred, version := preferred, desired := desired, doVn := true } := by
    show setDesired (createClient preferred) desired = _
    rw [(C89_first preferred).1 hp]
    rfl
  have es : createServer (sentVersion c true) = { client := false, proposed := preferred, version := preferred } := by
    rw [ec]
    unfold createServer sentVersion
    rw [if_pos rfl, if_pos ((known_iff preferred).2 hp)]
  have hplt := (known_pos hp).2
  -- the information of a server is taken by a client of the same version
  have last : ∀ (s c' : Cnx), s.client = false → c'.client = true → c'.version = s.version → s.version < 2 ^ 32 → receiveInfo c' (versionInfo s) = .ok { c' with doVn := true } := by
    intro s c' h1 h2 h3 h4
    rw [info_eq, ← h3]
    exact clientInfo_eq c' _ h2 (by rw [h3]; exact h4) (by rw [flatMap32_length]; omega)
  have same : ∀ s : Cnx, s.client = false → s.version = preferred → v = preferred → receiveInfo (createServer (sentVersion c true)) (versionInfo c) = .ok s →
      ∃ s c', receiveInfo (createServer (sentVersion c true)) (versionInfo c) = .ok s ∧ s.version = v ∧ onPacket c s.version = (c', .decrypted) ∧ c'.version = v ∧
        receiveInfo c' (versionInfo s) = .ok { c' with doVn := true } := by
    intro s h1 h2 hv h3
    refine ⟨s, c, h3, h2.trans hv.symm, ?_, ?_, ?_⟩
    · unfold onPacket
      rw [if_neg (by rw [ec, h2]; simp)]
    · rw [ec, hv]
    · exact last s c h1 (by rw [ec]) (by rw [ec]; exact h2.symm) (by rw [h2]; exact hplt)
  have hs := fun (others : List Nat) (ho : ∀ w, w ∈ others → w < 2 ^ 32) => C89_server { client := false, proposed := preferred, version := preferred } others rfl hp ho
  by_cases h0 : desired = 0 ∨ desired = preferred
  · have hv : v = preferred := by
      show (if desired = 0x6b3343cf ∨ desired = 0x709a50c4 then desired else preferred) = preferred
      rcases h0 with rfl | rfl
      · rfl
      · split <;> rfl
    have ei : versionInfo c = picoformat32 preferred ++ [preferred].flatMap picoformat32 := by
      rw [ec, info_eq]
      dsimp only
      rw [if_pos rfl, if_neg (by rintro ⟨a, b⟩; rcases h0 with h | h; exact a h; exact b h)]
    refine same { client := false, proposed := preferred, version := preferred, doVn := true } rfl rfl hv ?_
    rw [es, ei]
    exact ((hs [preferred] (by simpa using hplt)).2 [] preferred [] rfl (fun _ h => absurd h List.not_mem_nil) hp).1 rfl
  · have ei : versionInfo c = picoformat32 preferred ++ [desired, preferred].flatMap picoformat32 := by
      rw [ec, info_eq]
      dsimp only
      rw [if_pos rfl, if_pos ⟨fun h => h0 (.inl h), fun h => h0 (.inr h)⟩]
    have hw : ∀ w, w ∈ [desired, preferred] → w < 2 ^ 32 := by
      intro w hw
      rw [List.mem_cons, List.mem_singleton] at hw
      rcases hw with rfl | rfl
      · exact hd
      · exact hplt
    rcases hc with hc | hc | hc | hc
    · exact absurd (.inl hc) h0
    · exact absurd (.inr hc) h0
    · have hv : v = preferred := by
        show (if desired = 0x6b3343cf ∨ desired = 0x709a50c4 then desired else preferred) = preferred
        rw [if_neg (by rintro (h | h) <;> exact hc (by rw [h]; decide))]
      refine same { client := false, proposed := preferred, version := preferred, doVn := true } rfl rfl hv ?_
      rw [es, ei]
      exact ((hs [desired, preferred] hw).2 [desired] preferred [] rfl (by intro x hx; rw [List.mem_singleton] at hx; rw [hx]; exact hc) hp).1 rfl
    · have hv : v = desired := by
        show (if desired = 0x6b3343cf ∨ desired = 0x709a50c4 then desired else preferred) = desired
        rw [if_pos hc.2]
      have hdk : desired ∈ knownVersions := by obtain ⟨-, h | h⟩ := hc <;> rw [h] <;> decide
      refine ⟨{ client := false, proposed := preferred, version := desired, doVn := true }, { c with version := desired }, ?_, hv.symm, ?_, hv.symm, ?_⟩
      · rw [es, ei]
        exact ((hs [desired, preferred] hw).2 [] desired [preferred] rfl (fun _ h => absurd h List.not_mem_nil) hdk).2 hc
      · rw [ec]
        unfold onPacket
        dsimp only
        rw [if_pos (fun h => h0 (.inr h)), if_pos ⟨rfl, rfl, rfl⟩, compatible_done hc]
      · exact last _ _ rfl (by rw [ec]) rfl hd

example : (1 : Nat) ∈ knownVersions ∧ CompatibleVersions 1 0x6b3343cf := ⟨by decide, rfl, .inl rfl⟩

/-- A client that prefers a version which the server supports, but to which no change is possible, does not stay with the first version, although both support it: the server refuses the
parameters, or never returns. -/
theorem C89_incompatible_violated (preferred desired : Nat) (hp : preferred ∈ knownVersions) (hd : desired ∈ knownVersions) (hne : desired ≠ preferred) (hc : ¬ CompatibleVersions preferred desired) :
    let c := setDesired (createClient preferred) desired
    receiveInfo (createServer (sentVersion c true)) (versionInfo c) = (if desired = 0x6b3343cf ∨ desired = 0x709a50c4 then .hang else .refused) := by
  intro c
  have ec : c = { client := true, proposed := preferred, version := preferred, desired := desired, doVn := true } := by
    show setDesired (createClient preferred) desired = _
    rw [(C89_first preferred).1 hp]
    rfl
  have es : createServer (sentVersion c true) = { client := false, proposed := preferred, version := preferred } := by
    rw [ec]
    unfold createServer sentVersion
    rw [if_pos rfl, if_pos ((known_iff preferred).2 hp)]
  have ei : versionInfo c = picoformat32 preferred ++ [desired, preferred].flatMap picoformat32 := by
    rw [ec, info_eq]
    dsimp only
    rw [if_pos rfl, if_pos ⟨(known_pos hd).1, hne⟩]
  have key := serverInfo_eq { client := false, proposed := preferred, version := preferred } ([desired, preferred].flatMap picoformat32) rfl (known_pos hp).2 (by rw [flatMap32_length]; omega)
  rw [versionWords_flatMap _ (by
    intro w hw
    rw [List.mem_cons, List.mem_singleton] at hw
    rcases hw with rfl | rfl
    · exact (known_pos hd).2
    · exact (known_pos hp).2), List.find?_cons_of_pos ((known_iff desired).2 hd)] at key
  rw [es, ei, key]
  dsimp only
  rw [if_neg hne]
  by_cases h : desired = 0x6b3343cf ∨ desired = 0x709a50c4
  · rw [if_pos h, if_pos h, if_neg (fun h1 => hc ⟨h1, h⟩)]
  · rw [if_neg h, if_neg h]

example : receiveInfo (createServer 0xFF00001D) (versionInfo (setDesired (createClient 0xFF00001D) 1)) = .refused ∧
    receiveInfo (createServer 0x6b3343cf) (versionInfo (setDesired (createClient 0x6b3343cf) 0x709a50c4)) = .hang := by decide +kernel

/-- A server never changes its version because of the version of a packet: it decrypts exactly the packets of its own version. -/
theorem C89_server_packets (s : Cnx) (vns : List Nat) (hs : s.client = false) : packetsOf s vns = some (s, vns.filter (· == s.version)) := server_packets hs vns

/-- A client changes its version at most once, from its first version to the one it prefers, and only if a change is defined between them; without a preference, and when the handshake is
complete, it decrypts exactly the packets of its version. -/
theorem C89_client_packets (c : Cnx) (vns : List Nat) (r : Cnx × List Nat) (e : packetsOf c vns = some r) (hk : ∀ vn, vn ∈ vns → vn ∈ knownVersions) :
    (r.1 = c ∨ (r.1 = { c with version := c.desired } ∧ CompatibleVersions c.version c.desired ∧ c.desired ∈ vns ∧ c.early = true)) ∧
    (∀ vn, vn ∈ r.2 → vn = c.version ∨ vn = c.desired) ∧
    (c.desired = c.version ∨ c.desired = 0 ∨ c.early = false → r = (c, vns.filter (· == c.version))) := by
  induction vns generalizing r with
  | nil =>
    unfold packetsOf at e
    injection e with e
    subst e
    exact ⟨.inl rfl, fun _ h => absurd h List.not_mem_nil, fun _ => rfl⟩
  | cons vn vns ih =>
    have hk' : ∀ x, x ∈ vns → x ∈ knownVersions := fun x hx => hk x (List.mem_cons_of_mem _ hx)
    have hvn := hk vn List.mem_cons_self
    unfold packetsOf at e
    by_cases h : vn = c.version
    · have ep : onPacket c vn = (c, .decrypted) := by unfold onPacket; rw [if_neg (by simp [h])]
      rw [ep] at e
      dsimp only at e
      cases er : packetsOf c vns with
      | none => rw [er] at e; cases e
      | some r' =>
        rw [er] at e
        injection e with e
        subst e
        obtain ⟨k1, k2, k3⟩ := ih r' er hk'
        refine ⟨?_, ?_, ?_⟩
        · rcases k1 with k1 | ⟨a, b, d, f⟩
          · exact .inl k1
          · exact .inr ⟨a, b, List.mem_cons_of_mem _ d, f⟩
        · intro x hx
          rw [List.mem_cons] at hx
          rcases hx with rfl | hx
          · exact .inl h
          · exact k2 x hx
        · intro hh
          rw [k3 hh, List.filter_cons_of_pos (by simp [h])]
    · by_cases hd : c.client ∧ c.early ∧ vn = c.desired
      · have h0 : vn ≠ 0 := (known_pos hvn).1
        have ep : onPacket c vn = (match processVersionUpgrade c.version vn with
            | .done => ({ c with version := vn }, .decrypted)
            | .refused => (c, .notUpgraded)
            | .hang => (c, .hang)) := by
          unfold onPacket
          rw [if_pos h, if_pos hd]
          rfl
        rw [upgrade_eq hvn h] at ep
        by_cases h2 : vn = 0x6b3343cf ∨ vn = 0x709a50c4
        · by_cases h1 : c.version = 1
          · rw [if_pos h2, if_pos h1] at ep
            dsimp only at ep
            rw [ep] at e
            dsimp only at e
            rw [settled_packets (c := { c with version := vn }) (.inl hd.2.2.symm)] at e
            injection e with e
            subst e
            refine ⟨.inr ⟨by dsimp only; rw [hd.2.2], ⟨h1, by rw [← hd.2.2]; exact h2⟩, by rw [← hd.2.2]; exact List.mem_cons_self, hd.2.1⟩, ?_, ?_⟩
            · intro x hx
              dsimp only at hx
              rw [List.mem_cons, List.mem_filter] at hx
              rcases hx with rfl | ⟨-, hx⟩
              · exact .inr hd.2.2
              · exact .inr ((by simpa using hx : x = vn).trans hd.2.2)
            · rintro (a | a | a)
              · exact absurd (hd.2.2.trans a) h
              · exact absurd (hd.2.2.trans a) h0
              · rw [hd.2.1] at a; cases a
          · rw [if_pos h2, if_neg h1] at ep
            dsimp only at ep
            rw [ep] at e
            cases e
        · rw [if_neg h2] at ep
          dsimp only at ep
          rw [ep] at e
          dsimp only at e
          obtain ⟨k1, k2, k3⟩ := ih r e hk'
          refine ⟨?_, k2, ?_⟩
          · rcases k1 with k1 | ⟨a, b, d, f⟩
            · exact .inl k1
            · exact .inr ⟨a, b, List.mem_cons_of_mem _ d, f⟩
          · rintro (a | a | a)
            · exact absurd (hd.2.2.trans a) h
            · exact absurd (hd.2.2.trans a) h0
            · rw [hd.2.1] at a; cases a
      · have ep : onPacket c vn = (c, .wrongVersion) := by unfold onPacket; rw [if_pos h, if_neg hd]
        rw [ep] at e
        dsimp only at e
        obtain ⟨k1, k2, k3⟩ := ih r e hk'
        refine ⟨?_, k2, ?_⟩
        · rcases k1 with k1 | ⟨a, b, d, f⟩
          · exact .inl k1
          · exact .inr ⟨a, b, List.mem_cons_of_mem _ d, f⟩
        · intro hh
          rw [k3 hh, List.filter_cons_of_neg (by simp [h])]

example : packetsOf (setDesired (createClient 1) 0x6b3343cf) [1, 0xFF00001D, 0x6b3343cf, 1, 0x6b3343cf] =
    some ({ client := true, proposed := 1, version := 0x6b3343cf, desired := 0x6b3343cf, doVn := true }, [1, 0x6b3343cf, 0x6b3343cf]) := by decide +kernel

/-- A client changes its version before it decrypts the packet. Hence one forged packet, of any type and content, with the version that the client prefers, changes the version of the client for
ever: none of the packets of a server that kept the first version is decrypted any more. -/
theorem C89_forged_violated (desired : Nat) (hd : CompatibleVersions 1 desired) (genuine : List Nat) (hg : ∀ vn, vn ∈ genuine → vn = 1) :
    let c := setDesired (createClient 1) desired
    packetsOf c genuine = some (c, genuine) ∧ packetsOf c (desired :: genuine) = some ({ c with version := desired }, [desired]) := by
  intro c
  have ec : c = { client := true, proposed := 1, version := 1, desired := desired, doVn := true } := rfl
  have hne : desired ≠ 1 := by obtain ⟨-, h | h⟩ := hd <;> rw [h] <;> decide
  refine ⟨?_, ?_⟩
  · clear_value c
    induction genuine with
    | nil => rfl
    | cons vn vns ih =>
      have e1 := hg vn List.mem_cons_self
      unfold packetsOf
      have ep : onPacket c vn = (c, .decrypted) := by unfold onPacket; rw [if_neg (by rw [ec, e1]; simp)]
      rw [ep]
      dsimp only
      rw [ih (fun x hx => hg x (List.mem_cons_of_mem _ hx))]
      rfl
  · unfold packetsOf
    have ep : onPacket c desired = ({ c with version := desired }, .decrypted) := by
      rw [ec]
      unfold onPacket
      dsimp only
      rw [if_pos hne, if_pos ⟨rfl, rfl, rfl⟩, compatible_done hd]
    rw [ep]
    dsimp only
    rw [settled_packets (c := { c with version := desired }) (.inl (by rw [ec]))]
    dsimp only [Option.map]
    rw [List.filter_eq_nil_iff.2]
    intro x hx
    rw [hg x hx]
    simpa using fun h => hne h.symm

/-- One forged packet also suspends for ever a client that does not use version 1 and prefers version 2. -/
theorem C89_forged_hang_violated (preferred desired : Nat) (hp : preferred ∈ knownVersions) (h1 : preferred ≠ 1) (hd : desired = 0x6b3343cf ∨ desired = 0x709a50c4) (hne : desired ≠ preferred)
    (rest : List Nat) : packetsOf (setDesired (createClient preferred) desired) (desired :: rest) = none := by
  have ec : setDesired (createClient preferred) desired = { client := true, proposed := preferred, version := preferred, desired := desired, doVn := true } := by
    rw [(C89_first preferred).1 hp]
    rfl
  have hk : desired ∈ knownVersions := by rcases hd with h | h <;> rw [h] <;> decide
  unfold packetsOf
  have ep : onPacket (setDesired (createClient preferred) desired) desired = (setDesired (createClient preferred) desired, .hang) := by
    rw [ec]
    unfold onPacket
    dsimp only
    rw [if_pos hne, if_pos ⟨rfl, rfl, rfl⟩, upgrade_eq hk hne, if_pos hd, if_neg h1]
  rw [ep]

example : packetsOf (setDesired (createClient 0xFF00001D) 0x6b3343cf) [0x6b3343cf] = none := by decide +kernel

/-- A client that connects again after it was told, by a packet that anybody can send, that the server does not support its first choice, does not detect that the server supports it: it takes
the version information of the server whatever versions it lists. RFC 9368 section 4 requires the client to compare them. -/
theorem C89_downgrade_violated (preferred rejected : Nat) (hp : preferred ∈ knownVersions) (others : List Nat) :
    let c := setRejected (createClient preferred) rejected
    receiveInfo c (picoformat32 c.version ++ (rejected :: others).flatMap picoformat32) = .ok c := by
  intro c
  have ec : c = { client := true, proposed := preferred, version := preferred, desired := rejected, doVn := true } := by
    show setRejected (createClient preferred) rejected = _
    rw [(C89_first preferred).1 hp]
    rfl
  rw [clientInfo_eq c _ (by rw [ec]) (by rw [ec]; exact (known_pos hp).2) (by rw [flatMap32_length]; omega)]
  rw [ec]

/-- The version that an application rejects is the one that the client asks for: the function that rejects a version is the same as the one that expresses a preference. -/
theorem C89_rejected_violated (preferred rejected : Nat) (hp : preferred ∈ knownVersions) (hr : rejected < 2 ^ 32) (h0 : rejected ≠ 0) (hne : rejected ≠ preferred) :
    versionWords (versionInfo (setRejected (createClient preferred) rejected)) = [preferred, rejected, preferred] := by
  have ec : setRejected (createClient preferred) rejected = { client := true, proposed := preferred, version := preferred, desired := rejected, doVn := true } := by
    rw [(C89_first preferred).1 hp]
    rfl
  have ei : versionInfo (setRejected (createClient preferred) rejected) = [preferred, rejected, preferred].flatMap picoformat32 := by
    rw [ec, info_eq]
    dsimp only
    rw [if_pos rfl, if_pos ⟨h0, hne⟩]
    rfl
  rw [ei]
  refine versionWords_flatMap _ ?_
  intro w hw
  have := (known_pos hp).2
  simp only [List.mem_cons, List.not_mem_nil, or_false] at hw
  rcases hw with rfl | rfl | rfl <;> assumption

example : receiveInfo (createServer 1) (versionInfo (setRejected (createClient 1) 0x6b3343cf)) = .ok { createServer 1 with doVn := true, version := 0x6b3343cf } := by decide +kernel

end Picoquic.Props
