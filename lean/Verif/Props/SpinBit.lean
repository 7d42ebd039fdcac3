import Verif.Proof.SpinBit
/-!
# C104: an observer sees one change of the spin bit per round trip
-/

namespace Picoquic.Props
open Picoquic.SpinBit Picoquic.Spec

/-- **C104 (one change on the way, partial).** One path, packets may be lost and arrive in order: at any time there is at most one change between two packets on the whole way from the
server to the client and from the client to the server. Missing: several paths and packets that arrive out of order, see the violations. -/
theorem C104_one_change_partial (es : List SpinEvent) (order : ∀ e ∈ es, spinInOrder e) :
    spinEdges (spinWay (spinRun spinStart es)) ≤ 1 := by
  have h := (ring_run es _ ring_start order).one
  have := edges_tail (!(spinRun spinStart es).client.spin 0) (spinWay (spinRun spinStart es))
  omega

/-- **C104 (a full round trip, partial).** When a packet makes the client change its bit, the change before has gone all the way: the server and all packets in both directions have the bit that the client has used up to now. -/
theorem C104_round_trip_partial (es : List SpinEvent) (order : ∀ e ∈ es, spinInOrder e) :
    let y := spinRun spinStart es
    let z := spinStep y (.deliver false 0)
    z.client.spin 0 ≠ y.client.spin 0 →
      z.server.spin 0 = y.client.spin 0 ∧ (∀ p ∈ z.up, p.bit = y.client.spin 0) ∧ ∀ p ∈ z.down, p.bit = y.client.spin 0 := by
  intro y z hz
  have h : Ring y := ring_run es _ ring_start order
  cases hd : y.down with
  | nil =>
    have e : z = y := by
      show spinStep y (.deliver false 0) = y
      simp only [spinStep]
      rw [hd]
      rfl
    rw [e] at hz
    exact absurd rfl hz
  | cons p r =>
    have hp : p.path = 0 := h.down p (by rw [hd]; exact List.mem_cons_self)
    have e : z = { y with client := { y.client with spin := fun q => if q = 0 then (p.bit ^^ true) else y.client.spin q }, down := r } := by
      show spinStep y (.deliver false 0) = _
      simp only [spinStep]
      rw [hd]
      simp only [List.getElem?_cons_zero, List.eraseIdx_cons_zero, in_basic y.client h.client.2, Option.getD_some, hp, h.client.1]
    rw [e] at hz ⊢
    have hb : p.bit = y.client.spin 0 := by
      revert hz
      simp only [if_true]
      cases p.bit <;> cases y.client.spin 0 <;> simp
    obtain ⟨a, b, c⟩ := (ring_down h hd).2 hb
    exact ⟨b, c, a⟩

/-- **C104 (the bit turns).** When there is one path and the client sends a packet, the server receives it and answers, and nothing else is on the way: the bit of the client changes. -/
theorem C104_turns (es : List SpinEvent) (order : ∀ e ∈ es, spinInOrder e) (r1 r2 : Nat) :
    let y := spinRun spinStart es
    y.up = [] → y.down = [] →
    (spinRun y [.send true 0 r1, .deliver true 0, .send false 0 r2, .deliver false 0]).client.spin 0 = !y.client.spin 0 := by
  intro y hu hd
  have h : Ring y := ring_run es _ ring_start order
  obtain ⟨b, e1, e2⟩ := byte_bit y.client h.client.2 r1
  have s1 : spinStep y (.send true 0 r1) = { y with up := [⟨0, y.client.spin 0⟩] } := by
    simp only [spinStep, e1, e2, hu, List.nil_append]
  have s2 : spinStep { y with up := [⟨0, y.client.spin 0⟩] } (.deliver true 0) =
      { y with up := [], server := { y.server with spin := fun q => if q = 0 then y.client.spin 0 else y.server.spin q } } := by
    simp only [spinStep, List.getElem?_cons_zero, List.eraseIdx_cons_zero, in_basic y.server h.server.2, Option.getD_some, h.server.1, Bool.xor_false]
  obtain ⟨b', e3, e4⟩ := byte_bit { y.server with spin := fun q => if q = 0 then y.client.spin 0 else y.server.spin q } h.server.2 r2
  have e4 : parseSpin b' = y.client.spin 0 := e4
  have s3 : spinStep { y with up := [], server := { y.server with spin := fun q => if q = 0 then y.client.spin 0 else y.server.spin q } } (.send false 0 r2) =
      { y with up := [], down := [⟨0, y.client.spin 0⟩], server := { y.server with spin := fun q => if q = 0 then y.client.spin 0 else y.server.spin q } } := by
    simp only [spinStep, e3, e4, hd, List.nil_append]
  show (spinStep (spinStep (spinStep (spinStep y (.send true 0 r1)) (.deliver true 0)) (.send false 0 r2)) (.deliver false 0)).client.spin 0 = _
  rw [s1, s2, s3]
  simp only [spinStep, List.getElem?_cons_zero, in_basic y.client h.client.2, Option.getD_some, h.client.1, Bool.xor_true, if_true]

/-- **C104 (the packet).** Whatever the other bits of the first byte are, encrypted or not, the bit that is read is the one that was set. -/
theorem C104_packet (e : End) (phase greased : Bool) (rand : Nat) (low : Nat) (basic : e.policy = 0) (hl : low < 32) :
    ∃ b, firstByte e phase greased rand = some b ∧ b < 256 ∧ parseSpin (b / 32 * 32 + low) = e.spin 0 := by
  unfold firstByte outgoing
  rw [basic]
  refine ⟨_, rfl, ?_, ?_⟩
  · cases phase <;> cases greased <;> cases e.spin 0 <;> decide
  · unfold parseSpin
    have : ∀ n, (n / 32 * 32 + low) / 32 = n / 32 := by intro n; omega
    rw [this]
    cases phase <;> cases greased <;> cases e.spin 0 <;> decide

/-- **C104 (policies).** A connection created with any default that is accepted, and after any policy that is accepted: the functions for the spin bit are found, and without the spin bit it is always 0. -/
theorem C104_policies (client : Bool) (default rand : Nat) (accepted : setDefault default = some default) :
    let e := create client default rand
    e.policy < 3 ∧ (∀ p e', setPolicy e p = some e' → e'.policy = p ∧ p < 3) ∧
      ∀ e' : End, e'.policy < 3 → ∀ path bit r, (incoming e' path bit).isSome ∧ (outgoing e' r).isSome ∧
        (e'.policy = 2 → outgoing e' r = some 0) := by
  have hd : default ≤ 3 := by
    unfold setDefault at accepted
    split at accepted
    · assumption
    · exact absurd accepted (by simp)
  refine ⟨?_, ?_, ?_⟩
  · unfold create
    dsimp only
    split
    · split <;> omega
    · split <;> omega
  · intro p e' h
    unfold setPolicy at h
    split at h
    · cases h
      exact ⟨rfl, by assumption⟩
    · exact absurd h (by simp)
  · intro e' he path bit r
    unfold incoming outgoing
    have : e'.policy = 0 ∨ e'.policy = 1 ∨ e'.policy = 2 := by omega
    rcases this with h | h | h <;> rw [h] <;> simp

/-- **C104 (connections that do not take part).** With the default policy the bit is not used by the connections whose random byte is one of 17 of 256: more than one in 16, as RFC 9000 section 17.4 asks. With the
policies for tests it is always used or never. -/
theorem C104_reserve (client : Bool) (rand : Nat) :
    ((create client 0 rand).policy = 2 ↔ rand % 256 < 17) ∧ ((create client 0 rand).policy = 0 ↔ 17 ≤ rand % 256) ∧
      (create client 3 rand).policy = 0 ∧ (create client 2 rand).policy = 2 ∧ (create client 1 rand).policy = 1 ∧ 256 < 17 * 16 := by
  unfold create
  refine ⟨?_, ?_, rfl, rfl, rfl, by decide⟩ <;> simp only [if_true] <;> split <;> omega

/-! ### Violations -/

/-- **C104, violation.** RFC 9000 section 17.4 asks that only packets with the highest number so far count. A packet that is late makes two more changes: three on the way. -/
theorem C104_late_violated :
    spinEdges (false :: spinWay (spinRun spinStart [.send true 0 0, .send false 0 0, .deliver false 0, .send true 0 0, .deliver true 1,
      .send false 0 0, .deliver true 0, .send false 0 0])) = 3 := by
  decide +kernel

/-- All packets are sent on another path than the first one. -/
def spinOther : SpinEvent → Prop
  | .send _ path _ => path ≠ 0
  | _ => True

/-- **C104, violation.** Packets on other paths have the bit of the first path: when all packets are sent on other paths, the bit never changes, after any number of round trips. -/
theorem C104_paths_violated (es : List SpinEvent) (other : ∀ e ∈ es, spinOther e) :
    let y := spinRun spinStart es
    (∀ p ∈ y.up, p.bit = false) ∧ ∀ p ∈ y.down, p.bit = false := by
  have key : ∀ (es : List SpinEvent) (y : SpinSys), (∀ e ∈ es, spinOther e) →
      ((∀ p ∈ y.up, p.bit = false ∧ p.path ≠ 0) ∧ (∀ p ∈ y.down, p.bit = false ∧ p.path ≠ 0) ∧ y.client.spin 0 = false ∧
        y.server.spin 0 = false ∧ y.client.policy = 0 ∧ y.server.policy = 0) →
      (∀ p ∈ (spinRun y es).up, p.bit = false) ∧ ∀ p ∈ (spinRun y es).down, p.bit = false := by
    intro es
    induction es with
    | nil => intro y _ h; exact ⟨fun p hp => (h.1 p hp).1, fun p hp => (h.2.1 p hp).1⟩
    | cons e es ih =>
      intro y ho h
      refine ih (spinStep y e) (fun x hx => ho x (List.mem_cons_of_mem _ hx)) ?_
      have ho := ho e List.mem_cons_self
      obtain ⟨h1, h2, h3, h4, h5, h6⟩ := h
      cases e with
      | send up path rand =>
        have ho : path ≠ 0 := ho
        cases up
        · obtain ⟨b, e1, e2⟩ := byte_bit y.server h6 rand
          simp only [spinStep, e1, e2]
          refine ⟨h1, ?_, h3, h4, h5, h6⟩
          intro p hp
          rcases List.mem_append.1 hp with hp | hp
          · exact h2 p hp
          · rw [List.mem_singleton.1 hp]; exact ⟨h4, ho⟩
        · obtain ⟨b, e1, e2⟩ := byte_bit y.client h5 rand
          simp only [spinStep, e1, e2]
          refine ⟨?_, h2, h3, h4, h5, h6⟩
          intro p hp
          rcases List.mem_append.1 hp with hp | hp
          · exact h1 p hp
          · rw [List.mem_singleton.1 hp]; exact ⟨h3, ho⟩
      | lose up i =>
        cases up
        · exact ⟨h1, fun p hp => h2 p (mem_erase hp), h3, h4, h5, h6⟩
        · exact ⟨fun p hp => h1 p (mem_erase hp), h2, h3, h4, h5, h6⟩
      | deliver up i =>
        cases up
        · cases hd : y.down[i]? with
          | none => simp only [spinStep, hd]; exact ⟨h1, h2, h3, h4, h5, h6⟩
          | some p =>
            have hp := h2 p (List.mem_of_getElem? hd)
            simp only [spinStep, hd, in_basic y.client h5, Option.getD_some]
            exact ⟨h1, fun p hp => h2 p (mem_erase hp), by rw [if_neg (Ne.symm hp.2)]; exact h3, h4, h5, h6⟩
        · cases hd : y.up[i]? with
          | none => simp only [spinStep, hd]; exact ⟨h1, h2, h3, h4, h5, h6⟩
          | some p =>
            have hp := h1 p (List.mem_of_getElem? hd)
            simp only [spinStep, hd, in_basic y.server h6, Option.getD_some]
            exact ⟨fun p hp => h1 p (mem_erase hp), h2, h3, by rw [if_neg (Ne.symm hp.2)]; exact h4, h5, h6⟩
  exact key es _ other ⟨by simp [spinStart], by simp [spinStart], rfl, rfl, rfl, rfl⟩

/-- **C104, violation.** `picoquic_cnx_set_spinbit_policy` accepts all values of its type: with `picoquic_spinbit_on` the next packet reads outside the table of functions. -/
theorem C104_policy_violated (e : End) (rand path : Nat) (bit : Bool) :
    outgoing (cnxSetPolicy e 3) rand = none ∧ incoming (cnxSetPolicy e 3) path bit = none ∧ setPolicy e 3 = none := ⟨rfl, rfl, rfl⟩

/-! ### Examples -/

/-- Two round trips with a loss: the client changes its bit twice. -/
example :
    let es : List SpinEvent := [.send true 0 0, .send true 0 0, .deliver true 0, .lose true 0, .send false 0 0, .send false 0 0, .deliver false 0,
      .send true 0 0, .deliver true 0]
    let y := spinRun spinStart es
    (∀ e ∈ es, spinInOrder e) ∧ y.client.spin 0 = true ∧ y.server.spin 0 = true ∧ y.down = [⟨0, false⟩] ∧ spinEdges (spinWay y) = 1 ∧
      (spinStep (spinRun y [.send false 0 0, .deliver false 0]) (.deliver false 0)).client.spin 0 ≠
        (spinRun y [.send false 0 0, .deliver false 0]).client.spin 0 := by
  refine ⟨?_, by decide +kernel, by decide +kernel, by decide +kernel, by decide +kernel, by decide +kernel⟩
  simp [spinInOrder]

/-- Round trips on another path. -/
example : (spinRun spinStart [.send true 1 0, .deliver true 0, .send false 1 0, .deliver false 0, .send true 1 0]).up = [⟨1, false⟩] ∧
    (spinRun spinStart [.send true 0 0, .deliver true 0, .send false 0 0, .deliver false 0, .send true 0 0]).up = [⟨0, true⟩] := by
  decide +kernel

end Picoquic.Props
