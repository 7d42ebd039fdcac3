import Verif.Proof.PathAnswer
/-!
# C37, C63: the validation of paths

An address is validated only by a PATH_RESPONSE with a value drawn for it (`C37_validated`, `C37_verified`), and
every PATH_RESPONSE which is sent carries the 8 bytes of a challenge which came from the same address
(`C37_echo`). A challenge from a known address is answered after a bounded number of packets
(`C37_answer_partial`), but not when another challenge comes before the answer (`C37_overwritten_violated`), when
the address failed its own validation (`C37_failed_violated`), or after one ICMP message for the main address
(`C37_demoted_violated`). Data are only sent to validated addresses as long as no ICMP message was received
(`C63_partial`); with such messages they can be sent to an address whose validation failed (`C63_violated`).
-/

namespace Picoquic.Props
open Picoquic Picoquic.Spec Picoquic.Paths

/-- The addresses of the examples, and the 8 bytes of small values. -/
def pvA : Addr := ⟨1, 1⟩
def pvB : Addr := ⟨2, 2⟩
def pvL : Addr := ⟨9, 9⟩
def pv8 (n : UInt8) : Bytes := [0, 0, 0, 0, 0, 0, 0, n]

/-- A peer moves from address A to address B: a packet comes from B, the challenge is sent, the response comes,
data are sent. -/
def pvMove : List Event :=
  [.packet pvB pvL 10 1 2 3 true, .prepare 20 100 5 true, .response (pv8 1), .prepare 30 100 5 true]
def pvMoveHist : List (Event × List Note) :=
  [(.packet pvB pvL 10 1 2 3 true, [.drew pvB pvL [1, 2, 3]]),
   (.prepare 20 100 5 true, [.sent pvB pvL (0x1a :: pv8 1)]),
   (.response (pv8 1), [.validated pvB pvL]),
   (.prepare 30 100 5 true, [.data pvB pvL])]

theorem pvMoveReached : PathReached pvA pvL (run (init pvA pvL 0 0 0) pvMove).1 pvMoveHist :=
  ⟨0, 0, 0, pvMove, rfl⟩

/-- **C37, validation.** In any history, the event at which an address becomes validated is a PATH_RESPONSE frame
whose 8 bytes are one of the values drawn before for this address. -/
theorem C37_validated {peer loc : Addr} {p : Path} {h1 h2 : List (Event × List Note)} {ev : Event} {out : List Note}
    (h : PathReached peer loc p (h1 ++ (ev, out) :: h2)) {q l : Addr} (hv : .validated q l ∈ out) :
    ∃ d rest vals, ev = .response (d ++ rest) ∧ d.length = 8 ∧ .drew q l vals ∈ produced h1 ∧ bigEndian d ∈ vals := by
  obtain ⟨p1, hr, hs⟩ := reached_split h
  subst hs
  obtain ⟨data, v, rest, vals, e1, e2, e3, e4⟩ := step_validated (inv_of_reached hr) hv
  obtain ⟨d, d1, d2, d3⟩ := (framesUint64Decode_iff data v rest).mp e2
  exact ⟨d, rest, vals, by rw [e1, d2], d1, e3, by rw [d3]; exact e4⟩

example : ∃ d rest vals, Event.response (pv8 1) = .response (d ++ rest) ∧ d.length = 8 ∧
    .drew pvB pvL vals ∈ produced (pvMoveHist.take 2) ∧ bigEndian d ∈ vals :=
  C37_validated (h1 := pvMoveHist.take 2) (h2 := pvMoveHist.drop 3) pvMoveReached List.mem_cons_self

/-- **C37, state.** At any time, a tuple is verified only if it is the one of the handshake or was validated. -/
theorem C37_verified {peer loc : Addr} {p : Path} {hist : List (Event × List Note)} (h : PathReached peer loc p hist)
    {t : Tuple} (ht : t ∈ p.tuples) (hv : t.verified = true) :
    (t.peer, t.loc) = (peer, loc) ∨ .validated t.peer t.loc ∈ produced hist :=
  (inv_of_reached h t ht).valid hv

example : ∃ t ∈ (run (init pvA pvL 0 0 0) pvMove).1.tuples, t.verified = true ∧
    (t.peer, t.loc) ≠ (pvA, pvL) ∧ .validated t.peer t.loc ∈ produced pvMoveHist := by decide

/-- **C37, frames sent.** Every path control frame sent to an address is a PATH_CHALLENGE with a value drawn for
this address, or a PATH_RESPONSE with the same 8 bytes as a challenge which came before from this address. -/
theorem C37_echo {peer loc : Addr} {p : Path} {h1 h2 : List (Event × List Note)} {ev : Event} {out : List Note}
    (h : PathReached peer loc p (h1 ++ (ev, out) :: h2)) {q l : Addr} {f : Bytes} (hv : .sent q l f ∈ out) :
    (∃ d vals, f = challengeFrame d ∧ d.length = 8 ∧ bigEndian d ∈ vals ∧ .drew q l vals ∈ produced h1) ∨
    (∃ d src dst rest, f = responseFrame d ∧ d.length = 8 ∧ .challenge src dst (d ++ rest) ∈ h1.map Prod.fst ∧
      SameTuple src dst q l) := by
  obtain ⟨p1, hr, hs⟩ := reached_split h
  subst hs
  rcases step_sent (inv_of_reached hr) hv with ⟨v, vals, e1, e2, e3, e4⟩ | e
  · exact Or.inl ⟨picoformat64 v, vals, e1, rfl, by rw [bigEndian_format64 e2]; exact e3, e4⟩
  · exact Or.inr e

example : Note.sent pvB pvL (challengeFrame (pv8 1)) ∈ produced pvMoveHist := by decide

/-- **C37, answer.** While no ICMP message was received, a PATH_CHALLENGE from a known address whose validation
did not fail is answered with the same 8 bytes to that address, in one of the next packets: at most five per known
address. This assumes that no other challenge comes from the same address before; see
`C37_overwritten_violated`. -/
theorem C37_answer_partial {peer loc : Addr} {p : Path} {hist : List (Event × List Note)}
    (h : PathReached peer loc p hist) (hu : ∀ x ∈ hist, ¬ IsUnreachable x.1)
    {pre post : List Tuple} {t : Tuple} (ht : p.tuples = pre ++ t :: post) {src dst : Addr}
    (hm : SameTuple src dst t.peer t.loc) (hpre : ∀ x ∈ pre, ¬ SameTuple src dst x.peer x.loc)
    (hf : t.failed = false) {d rest : Bytes} (hd : d.length = 8)
    {evs : List Event} (he : ∀ ev ∈ evs, IsPreparation ev) (hl : 5 * p.tuples.length ≤ evs.length) :
    .sent t.peer t.loc (responseFrame d) ∈ produced (run p (.challenge src dst (d ++ rest) :: evs)).2 := by
  have hdec := (framesUint64Decode_iff (d ++ rest) (bigEndian d) rest).mpr ⟨d, hd, rfl, rfl⟩
  have hfmt : d = picoformat64 (bigEndian d) := by
    have h1 := (format_decode hdec).1
    exact (List.append_inj h1 (by rw [hd]; rfl)).1
  have hstep : step p (.challenge src dst (d ++ rest)) =
      ({ p with tuples := pre ++ { t with response := bigEndian d, needsResponse := true } :: post }, []) := by
    unfold step
    dsimp only
    rw [hdec]
    dsimp only
    rw [ht, recordChallenge_due hm pre post hpre]
  show _ ∈ (step p (.challenge src dst (d ++ rest))).2 ++ produced (run (step p (.challenge src dst (d ++ rest))).1 evs).2
  rw [hstep]
  refine List.mem_append_right _ ?_
  have hdue : ∃ x ∈ pre ++ { t with response := bigEndian d, needsResponse := true } :: post,
      Due t.peer t.loc (bigEndian d) x :=
    ⟨_, List.mem_append_right _ List.mem_cons_self, rfl, rfl, hf, rfl, rfl⟩
  have := run_due evs (p := { p with tuples := pre ++ { t with response := bigEndian d, needsResponse := true } :: post })
    (head_of_reached h hu).1 hdue he
    (by
      refine Nat.le_trans (total_le _) ?_
      rw [ht, List.length_append, List.length_cons] at hl
      show 5 * (pre ++ _ :: post).length ≤ _
      rw [List.length_append, List.length_cons]
      exact hl)
  rw [← hfmt] at this
  exact this

/-- The hypotheses are met: after the move, a challenge from the old address is answered to it. -/
example : .sent pvA pvL (responseFrame (pv8 7)) ∈ produced (run (run (init pvA pvL 0 0 0) pvMove).1
    (.challenge pvA pvL (pv8 7 ++ []) :: List.replicate 10 (.prepare 50 18 5 true))).2 :=
  C37_answer_partial pvMoveReached (pre := (run (init pvA pvL 0 0 0) pvMove).1.tuples.take 1) (post := [])
    (t := { peer := pvA, loc := pvL, chal := [0, 0, 0], required := true, verified := true })
    (by decide) rfl ⟨rfl, Or.inl rfl⟩ (by unfold SameTuple; decide) rfl rfl
    (by intro ev hev; rw [List.eq_of_mem_replicate hev]; exact ⟨50, 18, 5, true, rfl, by decide⟩) (by decide)

/-- **C37, challenges.** While no ICMP message was received, the address of a packet which comes from an unknown
address is challenged with the first value drawn for it, in one of the next packets: at most five per known
address. -/
theorem C37_new_address_challenged {peer loc : Addr} {p : Path} {hist : List (Event × List Note)}
    (h : PathReached peer loc p hist) (hu : ∀ x ∈ hist, ¬ IsUnreachable x.1) {src dst : Addr}
    (hnew : ∀ t ∈ p.tuples, (t.peer, t.loc) ≠ (src, dst)) {now a b c : Nat} (ha : a < 2 ^ 64)
    {evs : List Event} (he : ∀ ev ∈ evs, IsPreparation ev) (hl : 5 * (p.tuples.length + 1) ≤ evs.length) :
    ∃ d, d.length = 8 ∧ bigEndian d = a ∧
      .sent src dst (challengeFrame d) ∈ produced (run p (.packet src dst now a b c true :: evs)).2 := by
  refine ⟨picoformat64 a, rfl, bigEndian_format64 ha, ?_⟩
  have hstep : step p (.packet src dst now a b c true) =
      ({ p with tuples := p.tuples ++ [newTuple src dst now a b c] },
        [.drew src dst [a % 2 ^ 64, b % 2 ^ 64, c % 2 ^ 64]]) := by
    unfold step
    dsimp only
    rw [if_neg, if_pos rfl]
    intro hany
    obtain ⟨t, ht, hb⟩ := List.any_eq_true.mp hany
    simp only [Bool.and_eq_true, decide_eq_true_iff] at hb
    exact hnew t ht (by rw [hb.1, hb.2])
  show _ ∈ (step p (.packet src dst now a b c true)).2 ++ produced (run (step p (.packet src dst now a b c true)).1 evs).2
  rw [hstep]
  refine List.mem_append_right _ ?_
  refine run_fresh evs (p := { p with tuples := p.tuples ++ [newTuple src dst now a b c] }) (head_of_reached h hu).1
    ⟨_, List.mem_append_right _ List.mem_cons_self, rfl, rfl, rfl, rfl, rfl, rfl, Nat.mod_eq_of_lt ha⟩ he ?_
  refine Nat.le_trans (total_le _) ?_
  show 5 * (p.tuples ++ [_]).length ≤ _
  rw [List.length_append]
  exact hl

example : ∃ d, d.length = 8 ∧ bigEndian d = 7 ∧ .sent pvB pvL (challengeFrame d) ∈
    produced (run (init pvA pvL 0 0 0) (.packet pvB pvL 0 7 8 9 true :: List.replicate 10 (.prepare 50 18 5 true))).2 :=
  C37_new_address_challenged (peer := pvA) (loc := pvL) (hist := []) ⟨0, 0, 0, [], rfl⟩ (by decide) (by decide)
    (by decide) (by intro ev hev; rw [List.eq_of_mem_replicate hev]; exact ⟨50, 18, 5, true, rfl, by decide⟩) (by decide)

/-- **C37, new challenges.** When an ICMP message suspends an address, the very next packet carries a challenge to
it with the new value. This assumes that no address failed its validation; see `C37_suspended_violated`. -/
theorem C37_suspended_challenged_partial {p : Path} {q l q' l' : Addr} {now a b c : Nat} (ha : a < 2 ^ 64)
    (hs : .suspended q l ∈ (step p (.unreachable q' l' now a b c)).2) (hf : ∀ t ∈ p.tuples, t.failed = false)
    {now' room rto : Nat} {more : Bool} (hr : 9 ≤ room) : ∃ d, d.length = 8 ∧ bigEndian d = a ∧
      .sent q l (challengeFrame d) ∈
        (step (step p (.unreachable q' l' now a b c)).1 (.prepare now' room rto more)).2 := by
  refine ⟨picoformat64 a, rfl, bigEndian_format64 ha, ?_⟩
  obtain ⟨hd, t, rest, ht, hfr⟩ := suspended_fresh hs hf
  rw [Nat.mod_eq_of_lt ha] at hfr
  refine prepare_sent (pre := []) (post := rest) ?_ hfr hr
  unfold select
  dsimp only
  rw [show (step p (.unreachable q' l' now a b c)).1.demoted = true from hd,
    show (step p (.unreachable q' l' now a b c)).1.tuples = t :: rest from ht]
  rfl

example : ∃ p, PathReached pvA pvL p [(.unreachable pvA pvL 5 1 2 3, [])] ∧
    .suspended pvA pvL ∈ (step p (.unreachable pvA pvL 6 4 5 6)).2 ∧ ∀ t ∈ p.tuples, t.failed = false :=
  ⟨_, ⟨0, 0, 0, [.unreachable pvA pvL 5 1 2 3], rfl⟩, by decide, by decide⟩

/-- **C37, a defect.** An address whose validation failed can still be validated by a late response, and keeps its
failure mark. If it is then suspended, it is not challenged again, in any number of packets, and no data are sent
any more. Here B is the main address. -/
theorem C37_suspended_violated : ∃ (p : Path) (hist : List (Event × List Note)),
    PathReached pvA pvL p hist ∧ hist.getLast? = some (.unreachable pvB pvL 0 4 5 6,
      [.drew pvB pvL [4, 5, 6], .suspended pvB pvL]) ∧
      ∀ evs : List Event, (∀ ev ∈ evs, IsPrepare ev) → produced (run p evs).2 = [] := by
  refine ⟨_, _, ⟨0, 0, 0, [.packet pvB pvL 0 1 2 3 true, .prepare 0 100 5 true, .prepare 250000 100 5 true,
    .prepare 250010 100 5 true, .prepare 250030 100 5 true, .response (pv8 1), .unreachable pvB pvL 0 0 0 0,
    .unreachable pvB pvL 0 4 5 6], rfl⟩, rfl, ?_⟩
  intro evs
  induction evs with
  | nil => intro _; rfl
  | cons ev rest ih =>
    intro he
    have hev := he ev List.mem_cons_self
    cases ev with
    | prepare now room rto d =>
      have hrest := ih (fun e h => he e (List.mem_cons_of_mem _ h))
      cases d <;> exact hrest
    | _ => exact absurd hev id

/-- **C37, a defect.** When a second challenge comes from the same address before the answer to the first one,
the first is never answered: whatever happens after, as long as its value does not come again, no response with
this value is sent. -/
theorem C37_overwritten_violated : ∃ (p : Path) (hist : List (Event × List Note)) (d : Bytes),
    PathReached pvA pvL p hist ∧ .challenge pvA pvL d ∈ hist.map Prod.fst ∧ d.length = 8 ∧
      (∀ q l, .sent q l (responseFrame d) ∉ produced hist) ∧
      ∀ evs : List Event, (∀ ev ∈ evs, ¬ CarriesChallenge d ev) →
        ∀ q l, .sent q l (responseFrame d) ∉ produced (run p evs).2 := by
  refine ⟨(run (init pvA pvL 0 0 0) [.challenge pvA pvL (pv8 1), .challenge pvA pvL (pv8 2)]).1,
    [(.challenge pvA pvL (pv8 1), []), (.challenge pvA pvL (pv8 2), [])], pv8 1, ⟨0, 0, 0, _, rfl⟩,
    List.mem_cons_self, rfl, ?_, ?_⟩
  · intro q l h; cases h
  · intro evs he
    exact run_noPend evs (by unfold NoPend; decide) he

/-- **C37, a defect.** The challenges from a known address are not answered, in any number of packets, when the
validation of this address failed: here B did not answer three challenges, and then challenges this endpoint. -/
theorem C37_failed_violated : ∃ (p : Path) (hist : List (Event × List Note)) (d : Bytes),
    PathReached pvA pvL p hist ∧ hist.getLast? = some (.challenge pvB pvL d, []) ∧ d.length = 8 ∧
      (∃ t ∈ p.tuples, t.peer = pvB ∧ t.loc = pvL) ∧
      ∀ evs : List Event, (∀ ev ∈ evs, IsPrepare ev) → ∀ f, .sent pvB pvL f ∉ produced (run p evs).2 := by
  refine ⟨_, _, pv8 7, ⟨0, 0, 0, [.packet pvB pvL 0 1 2 3 true, .prepare 0 100 5 true, .prepare 250000 100 5 true,
    .prepare 250010 100 5 true, .prepare 250030 100 5 true, .challenge pvB pvL (pv8 7)], rfl⟩, rfl, rfl, ?_, ?_⟩
  · decide
  · intro evs he
    refine run_stuck evs ?_ he
    exact ⟨{ peer := pvA, loc := pvL, chal := [0, 0, 0], required := true, verified := true }, _, rfl, rfl, by decide,
      Or.inr (by decide)⟩

/-- **C37, a defect.** After one ICMP message for the main address, the challenges from the other addresses are
not answered, and these addresses are not challenged, in any number of packets. -/
theorem C37_demoted_violated : ∃ (p : Path) (hist : List (Event × List Note)) (d : Bytes),
    PathReached pvA pvL p hist ∧ hist.getLast? = some (.challenge pvB pvL d, []) ∧ d.length = 8 ∧
      (∃ t ∈ p.tuples, t.peer = pvB ∧ t.loc = pvL ∧ t.failed = false) ∧
      ∀ evs : List Event, (∀ ev ∈ evs, IsPrepare ev) → ∀ f, .sent pvB pvL f ∉ produced (run p evs).2 := by
  refine ⟨_, _, pv8 7, ⟨0, 0, 0, [.unreachable pvA pvL 0 4 5 6, .packet pvB pvL 0 1 2 3 true,
    .challenge pvB pvL (pv8 7)], rfl⟩, rfl, rfl, ?_, ?_⟩
  · decide
  · intro evs he
    refine run_stuck evs ?_ he
    exact ⟨{ peer := pvA, loc := pvL, chal := [0, 0, 0], required := true, verified := true }, _, rfl, rfl, by decide,
      Or.inl rfl⟩

/-- **C37, remark.** All three values drawn for an address are accepted, even those which were not sent yet: here
the third one, before any challenge was sent. -/
theorem C37_unsent_accepted : ∃ (p : Path) (hist : List (Event × List Note)),
    PathReached pvA pvL p hist ∧ .validated pvB pvL ∈ produced hist ∧ ∀ q l f, .sent q l f ∉ produced hist := by
  refine ⟨_, _, ⟨0, 0, 0, [.packet pvB pvL 0 1 2 3 true, .response (pv8 3)], rfl⟩, ?_, ?_⟩
  · decide
  · intro q l f h
    replace h : Note.sent q l f ∈ [Note.drew pvB pvL [1, 2, 3], Note.validated pvB pvL] := h
    simp at h

/-- **C63.** As long as no ICMP message was received, data are only sent to addresses which are valid at that
time. The full claim is for all histories; it is false (`C63_violated`). -/
theorem C63_partial {peer loc : Addr} {p : Path} {h1 h2 : List (Event × List Note)} {ev : Event} {out : List Note}
    (h : PathReached peer loc p (h1 ++ (ev, out) :: h2)) (hu : ∀ x ∈ h1, ¬ IsUnreachable x.1) {q l : Addr}
    (hd : .data q l ∈ out) : (q, l) ∈ validAddrs peer loc (produced h1) := by
  obtain ⟨p1, hr, hs⟩ := reached_split h
  subst hs
  obtain ⟨t, rest, ht, hv, rfl, rfl⟩ := step_data (head_of_reached hr hu) hd
  have hns : ∀ q l, Note.suspended q l ∉ produced h1 := by
    obtain ⟨a, b, c, evs, hrun⟩ := hr
    have := run_notes_suspended evs (p := init peer loc a b c) (by rw [hrun]; exact hu)
    rw [hrun] at this
    exact this
  rcases C37_verified hr (by rw [ht]; exact List.mem_cons_self) hv with he | he
  · rw [he]
    exact fold_keep _ List.mem_cons_self hns
  · exact fold_valid _ he hns

example : (pvB, pvL) ∈ validAddrs pvA pvL (produced (pvMoveHist.take 3)) :=
  C63_partial (h1 := pvMoveHist.take 3) (h2 := []) pvMoveReached (by decide) List.mem_cons_self

/-- **C63, a defect.** Two ICMP messages for the main address B, then three challenges without answer: in the
packet where the validation of B fails, the list of addresses rotates, so that the packet, which goes to B, is
filled with data because A, now the first address, is verified. -/
theorem C63_violated : ∃ (p : Path) (h1 h2 : List (Event × List Note)) (ev : Event) (out : List Note),
    PathReached pvA pvL p (h1 ++ (ev, out) :: h2) ∧ .data pvB pvL ∈ out ∧
      (pvB, pvL) ∉ validAddrs pvA pvL (produced h1) := by
  let evs : List Event := pvMove ++ [.unreachable pvB pvL 40 0 0 0, .unreachable pvB pvL 50 4 5 6,
    .prepare 60 100 5 true, .prepare 250060 100 5 true, .prepare 250070 100 5 true, .prepare 250090 100 5 true]
  refine ⟨_, (run (init pvA pvL 0 0 0) evs).2.take 9, [], .prepare 250090 100 5 true, [.data pvB pvL],
    ⟨0, 0, 0, evs, rfl⟩, List.mem_cons_self, ?_⟩
  decide

end Picoquic.Props
