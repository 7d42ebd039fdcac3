import Verif.Spec.PathValidation
import Verif.Proof.Fixed
/-!
# Proofs about the validation of paths
-/

namespace Picoquic.Paths
open Picoquic Picoquic.Frames Picoquic.Spec

/-! ## Frames -/

theorem formatPathChallenge_eq (v room : Nat) :
    formatPathChallenge v room = if 9 ≤ room then some (0x1a :: picoformat64 v) else none := by
  unfold formatPathChallenge Enc.seq framesUint8Encode framesUint64Encode
  by_cases h : 9 ≤ room
  · rw [if_pos h, if_neg (by omega)]
    dsimp only
    rw [if_neg (by show ¬ 8 > room - 1; omega)]
    rfl
  · rw [if_neg h]
    by_cases h1 : 1 > room
    · rw [if_pos h1]
    · rw [if_neg h1]
      dsimp only
      rw [if_pos (by show 8 > room - 1; omega)]

theorem formatPathResponse_eq (v room : Nat) :
    formatPathResponse v room = if 9 ≤ room then some (0x1b :: picoformat64 v) else none := by
  unfold formatPathResponse Enc.seq framesUint8Encode framesUint64Encode
  by_cases h : 9 ≤ room
  · rw [if_pos h, if_neg (by omega)]
    dsimp only
    rw [if_neg (by show ¬ 8 > room - 1; omega)]
    rfl
  · rw [if_neg h]
    by_cases h1 : 1 > room
    · rw [if_pos h1]
    · rw [if_neg h1]
      dsimp only
      rw [if_pos (by show 8 > room - 1; omega)]

theorem format_decode {data rest : Bytes} {v : Nat} (h : framesUint64Decode data = some (v, rest)) :
    data = picoformat64 v ++ rest ∧ (picoformat64 v).length = 8 := by
  refine ⟨?_, rfl⟩
  unfold framesUint64Decode at h
  split at h
  · rename_i a b c d e f g i r
    obtain ⟨h1, h2⟩ := Prod.mk.inj (Option.some.inj h)
    subst h2
    rw [parse64_eq, parse32_eq, parse32_eq] at h1
    have ha := a.toNat_lt
    have hb := b.toNat_lt
    have hc := c.toNat_lt
    have hd := d.toNat_lt
    have he := e.toNat_lt
    have hf := f.toNat_lt
    have hg := g.toNat_lt
    have hi := i.toNat_lt
    have key : ∀ (x : UInt8) (n : Nat), n % 256 = x.toNat → x = u8 n := by
      intro x n hn
      apply UInt8.toNat_inj.mp
      rw [u8_toNat, hn]
    unfold picoformat64
    simp only [Nat.shiftRight_eq_div_pow]
    simp only [List.cons_append, List.nil_append]
    rw [← key a (v / 2 ^ 56) (by omega), ← key b (v / 2 ^ 48) (by omega), ← key c (v / 2 ^ 40) (by omega),
      ← key d (v / 2 ^ 32) (by omega), ← key e (v / 2 ^ 24) (by omega), ← key f (v / 2 ^ 16) (by omega),
      ← key g (v / 2 ^ 8) (by omega), ← key i v (by omega)]
  · cases h

/-! ## The invariant -/

/-- What is true of each tuple. -/
structure TInv (peer loc : Addr) (hist : List (Event × List Note)) (t : Tuple) : Prop where
  three : t.chal.length = 3
  small : ∀ v ∈ t.chal, v < 2 ^ 64
  drawn : t.verified = false → .drew t.peer t.loc t.chal ∈ produced hist
  valid : t.verified = true → (t.peer, t.loc) = (peer, loc) ∨ .validated t.peer t.loc ∈ produced hist
  resp : t.needsResponse = true → ∃ src dst data rest, .challenge src dst data ∈ hist.map Prod.fst ∧
    framesUint64Decode data = some (t.response, rest) ∧ SameTuple src dst t.peer t.loc

def PInv (peer loc : Addr) (p : Path) (hist : List (Event × List Note)) : Prop :=
  ∀ t ∈ p.tuples, TInv peer loc hist t

theorem produced_snoc (hist : List (Event × List Note)) (x : Event × List Note) :
    produced (hist ++ [x]) = produced hist ++ x.2 := by
  unfold produced
  rw [List.flatMap_append]
  congr 1
  exact List.append_nil _

theorem TInv.mono {peer loc : Addr} {hist : List (Event × List Note)} {t : Tuple} (i : TInv peer loc hist t)
    (x : Event × List Note) : TInv peer loc (hist ++ [x]) t := by
  refine ⟨i.three, i.small, ?_, ?_, ?_⟩
  · intro h; rw [produced_snoc]; exact List.mem_append_left _ (i.drawn h)
  · intro h
    rw [produced_snoc]
    rcases i.valid h with h | h
    · exact Or.inl h
    · exact Or.inr (List.mem_append_left _ h)
  · intro h
    obtain ⟨s, d, dt, r, h1, h2⟩ := i.resp h
    exact ⟨s, d, dt, r, by rw [List.map_append]; exact List.mem_append_left _ h1, h2⟩

theorem PInv.mono {peer loc : Addr} {hist : List (Event × List Note)} {p : Path} (i : PInv peer loc p hist)
    (x : Event × List Note) : PInv peer loc p (hist ++ [x]) := fun t ht => (i t ht).mono x

theorem matches_spec {src dst : Addr} {t : Tuple} : matches_ src dst t = true ↔ SameTuple src dst t.peer t.loc := by
  unfold matches_ SameTuple
  simp only [Bool.and_eq_true, Bool.or_eq_true, decide_eq_true_iff]
  constructor
  · rintro ⟨h1, h2 | h2⟩
    · exact ⟨h1, Or.inr h2⟩
    · exact ⟨h1, Or.inl h2⟩
  · rintro ⟨h1, h2 | h2⟩
    · exact ⟨h1, Or.inr h2⟩
    · exact ⟨h1, Or.inl h2⟩

theorem mem_recordChallenge {src dst : Addr} {v : Nat} {list : List Tuple} {x : Tuple}
    (h : x ∈ recordChallenge src dst v list) : x ∈ list ∨
      ∃ t ∈ list, SameTuple src dst t.peer t.loc ∧ x = { t with response := v, needsResponse := true } := by
  induction list with
  | nil => cases h
  | cons t rest ih =>
    unfold recordChallenge at h
    by_cases hm : matches_ src dst t = true
    · rw [if_pos hm] at h
      rcases List.mem_cons.mp h with h | h
      · exact Or.inr ⟨t, List.mem_cons_self, matches_spec.mp hm, h⟩
      · exact Or.inl (List.mem_cons_of_mem _ h)
    · rw [if_neg hm] at h
      rcases List.mem_cons.mp h with h | h
      · rw [h]; exact Or.inl List.mem_cons_self
      · rcases ih h with h | ⟨t', h1, h2⟩
        · exact Or.inl (List.mem_cons_of_mem _ h)
        · exact Or.inr ⟨t', List.mem_cons_of_mem _ h1, h2⟩

theorem findChallenge_spec {v : Nat} {list pre post : List Tuple} {t : Tuple}
    (h : findChallenge v list = some (pre, t, post)) : list = pre ++ t :: post ∧ v ∈ t.chal := by
  induction list generalizing pre with
  | nil => cases h
  | cons x rest ih =>
    unfold findChallenge at h
    by_cases hv : v ∈ x.chal
    · rw [if_pos hv] at h
      obtain ⟨h1, h2⟩ := Prod.mk.inj (Option.some.inj h)
      obtain ⟨h2, h3⟩ := Prod.mk.inj h2
      subst h1 h2 h3
      exact ⟨rfl, hv⟩
    · rw [if_neg hv] at h
      cases hf : findChallenge v rest with
      | none => rw [hf] at h; cases h
      | some r =>
        obtain ⟨a, b, c⟩ := r
        rw [hf] at h
        obtain ⟨h1, h2⟩ := Prod.mk.inj (Option.some.inj h)
        obtain ⟨h2, h3⟩ := Prod.mk.inj h2
        subst h1 h2 h3
        obtain ⟨e1, e2⟩ := ih hf
        exact ⟨by rw [e1]; rfl, e2⟩

theorem findControl_spec {now rto : Nat} {list pre post : List Tuple} {t : Tuple}
    (h : findControl now rto list = some (pre, t, post)) : list = pre ++ t :: post ∧ needsControl now rto t = true := by
  induction list generalizing pre with
  | nil => cases h
  | cons x rest ih =>
    unfold findControl at h
    by_cases hv : needsControl now rto x = true
    · rw [if_pos hv] at h
      obtain ⟨h1, h2⟩ := Prod.mk.inj (Option.some.inj h)
      obtain ⟨h2, h3⟩ := Prod.mk.inj h2
      subst h1 h2 h3
      exact ⟨rfl, hv⟩
    · rw [if_neg hv] at h
      cases hf : findControl now rto rest with
      | none => rw [hf] at h; cases h
      | some r =>
        obtain ⟨a, b, c⟩ := r
        rw [hf] at h
        obtain ⟨h1, h2⟩ := Prod.mk.inj (Option.some.inj h)
        obtain ⟨h2, h3⟩ := Prod.mk.inj h2
        subst h1 h2 h3
        obtain ⟨e1, e2⟩ := ih hf
        exact ⟨by rw [e1]; rfl, e2⟩

theorem findControl_none {now rto : Nat} {list : List Tuple} (h : findControl now rto list = none) :
    ∀ t ∈ list, needsControl now rto t = false := by
  induction list with
  | nil => intro t ht; cases ht
  | cons x rest ih =>
    unfold findControl at h
    by_cases hv : needsControl now rto x = true
    · rw [if_pos hv] at h; cases h
    · rw [if_neg hv] at h
      cases hf : findControl now rto rest with
      | some r => rw [hf] at h; cases h
      | none =>
        intro t ht
        rcases List.mem_cons.mp ht with rfl | ht
        · simpa using hv
        · exact ih hf t ht

theorem select_spec {p : Path} {now rto : Nat} {pre post : List Tuple} {t : Tuple}
    (h : select p now rto = some (pre, t, post)) : p.tuples = pre ++ t :: post := by
  have hfirst : ∀ pre t post, (match p.tuples with
      | [] => none
      | t :: rest => some ([], t, rest) : Option (List Tuple × Tuple × List Tuple)) = some (pre, t, post) →
      p.tuples = pre ++ t :: post := by
    intro pre t post hh
    cases hp : p.tuples with
    | nil => rw [hp] at hh; cases hh
    | cons x rest =>
      rw [hp] at hh
      obtain ⟨h1, h2⟩ := Prod.mk.inj (Option.some.inj hh)
      obtain ⟨h2, h3⟩ := Prod.mk.inj h2
      subst h1 h2 h3
      rfl
  unfold select at h
  dsimp only at h
  by_cases hd : p.demoted = true
  · rw [if_pos hd] at h
    exact hfirst _ _ _ h
  · rw [if_neg hd] at h
    cases hf : findControl now rto p.tuples with
    | none => rw [hf] at h; exact hfirst _ _ _ h
    | some r =>
      rw [hf] at h
      obtain rfl := Option.some.inj h
      exact (findControl_spec hf).1

/-- What the preparation of the challenge does. -/
theorem prepareChallenge_spec (t : Tuple) (now room rto : Nat) :
    let c := prepareChallenge t now room rto
    c.1.peer = t.peer ∧ c.1.loc = t.loc ∧ c.1.chal = t.chal ∧ c.1.verified = t.verified ∧
      c.1.needsResponse = t.needsResponse ∧ c.1.response = t.response ∧
      (c.2.1 = [] ∨ t.verified = false ∧ t.count < 3 ∧ c.2.1 = challengeFrame (picoformat64 (t.chal.getD t.count 0))) ∧
      (c.2.2 = true → t.verified = false ∧ c.1.failed = true ∧ c.2.1 = []) := by
  dsimp only
  unfold prepareChallenge
  by_cases h1 : t.verified = false ∧ t.failed = false
  · rw [if_pos h1]
    by_cases h2 : challengeTime t now rto > now
    · rw [if_pos h2]
      exact ⟨rfl, rfl, rfl, rfl, rfl, rfl, Or.inl rfl, by intro h; cases h⟩
    · rw [if_neg h2]
      by_cases h3 : t.count < 3
      · rw [if_pos h3, formatPathChallenge_eq]
        by_cases h4 : 9 ≤ room
        · rw [if_pos h4]
          exact ⟨rfl, rfl, rfl, rfl, rfl, rfl, Or.inr ⟨h1.1, h3, rfl⟩, by intro h; cases h⟩
        · rw [if_neg h4]
          exact ⟨rfl, rfl, rfl, rfl, rfl, rfl, Or.inl rfl, by intro h; cases h⟩
      · rw [if_neg h3]
        exact ⟨rfl, rfl, rfl, rfl, rfl, rfl, Or.inl rfl, fun _ => ⟨h1.1, rfl, rfl⟩⟩
  · rw [if_neg h1]
    exact ⟨rfl, rfl, rfl, rfl, rfl, rfl, Or.inl rfl, by intro h; cases h⟩

theorem prepareResponse_spec (t : Tuple) (room : Nat) :
    let r := prepareResponse t room
    r.1.peer = t.peer ∧ r.1.loc = t.loc ∧ r.1.chal = t.chal ∧ r.1.verified = t.verified ∧ r.1.failed = t.failed ∧
      r.1.count = t.count ∧ r.1.response = t.response ∧
      (r.2 = [] ∧ r.1.needsResponse = t.needsResponse ∨
        t.needsResponse = true ∧ r.1.needsResponse = false ∧ r.2 = responseFrame (picoformat64 t.response)) ∧
      (9 ≤ room → t.needsResponse = true → r.2 = responseFrame (picoformat64 t.response) ∧ r.1.needsResponse = false) := by
  dsimp only
  unfold prepareResponse
  by_cases h1 : t.needsResponse = true
  · rw [if_pos h1, formatPathResponse_eq]
    by_cases h2 : 9 ≤ room
    · rw [if_pos h2]
      exact ⟨rfl, rfl, rfl, rfl, rfl, rfl, rfl, Or.inr ⟨h1, rfl, rfl⟩, fun _ _ => ⟨rfl, rfl⟩⟩
    · rw [if_neg h2]
      exact ⟨rfl, rfl, rfl, rfl, rfl, rfl, rfl, Or.inl ⟨rfl, rfl⟩, fun h => absurd h h2⟩
  · rw [if_neg h1]
    exact ⟨rfl, rfl, rfl, rfl, rfl, rfl, rfl, Or.inl ⟨rfl, rfl⟩, fun _ h => absurd h h1⟩

/-- The tuple after the preparation. -/
def after (t : Tuple) (now room rto : Nat) : Tuple :=
  (prepareResponse (prepareChallenge t now room rto).1 (room - (prepareChallenge t now room rto).2.1.length)).1

theorem TInv.after {peer loc : Addr} {hist : List (Event × List Note)} {t : Tuple} (i : TInv peer loc hist t)
    (now room rto : Nat) : TInv peer loc hist (after t now room rto) := by
  obtain ⟨c1, c2, c3, c4, c5, c6, _, _⟩ := prepareChallenge_spec t now room rto
  obtain ⟨r1, r2, r3, r4, _, _, r7, r8, _⟩ := prepareResponse_spec (prepareChallenge t now room rto).1
    (room - (prepareChallenge t now room rto).2.1.length)
  refine ⟨?_, ?_, ?_, ?_, ?_⟩
  · show (prepareResponse _ _).1.chal.length = 3
    rw [r3, c3]; exact i.three
  · show ∀ v ∈ (prepareResponse _ _).1.chal, v < 2 ^ 64
    rw [r3, c3]; exact i.small
  · show (prepareResponse _ _).1.verified = false → Note.drew (prepareResponse _ _).1.peer (prepareResponse _ _).1.loc
      (prepareResponse _ _).1.chal ∈ _
    rw [r4, c4, r1, c1, r2, c2, r3, c3]; exact i.drawn
  · show (prepareResponse _ _).1.verified = true → ((prepareResponse _ _).1.peer, (prepareResponse _ _).1.loc) = _ ∨
      Note.validated (prepareResponse _ _).1.peer (prepareResponse _ _).1.loc ∈ _
    rw [r4, c4, r1, c1, r2, c2]; exact i.valid
  · show (prepareResponse _ _).1.needsResponse = true → ∃ src dst data rest, _ ∧
      framesUint64Decode data = some ((prepareResponse _ _).1.response, rest) ∧
        SameTuple src dst (prepareResponse _ _).1.peer (prepareResponse _ _).1.loc
    rw [r7, c6, r1, c1, r2, c2]
    intro h
    rcases r8 with h8 | h8
    · rw [h8.2, c5] at h; exact i.resp h
    · rw [h8.2.1] at h; cases h

/-- The list of tuples after the preparation. -/
theorem prepare_tuples {p : Path} {now room rto : Nat} {d : Bool} {pre post : List Tuple} {t : Tuple}
    (h : select p now rto = some (pre, t, post)) :
    (prepare p now room rto d).1.tuples =
      if (prepareChallenge t now room rto).2.2 = true then pre ++ post ++ [after t now room rto]
      else pre ++ after t now room rto :: post := by
  unfold prepare
  rw [h]
  rfl

theorem mem_noteFrame {t : Tuple} {frame : Bytes} {x : Note} (h : x ∈ noteFrame t frame) :
    frame ≠ [] ∧ x = .sent t.peer t.loc frame := by
  unfold noteFrame at h
  by_cases hf : frame = []
  · rw [if_pos hf] at h; cases h
  · rw [if_neg hf] at h; exact ⟨hf, List.mem_singleton.mp h⟩

theorem prepare_notes {p : Path} {now room rto : Nat} {d : Bool} {pre post : List Tuple} {t : Tuple}
    (h : select p now rto = some (pre, t, post)) {x : Note} (hx : x ∈ (prepare p now room rto d).2) :
    (x = .sent t.peer t.loc (prepareChallenge t now room rto).2.1 ∧ (prepareChallenge t now room rto).2.1 ≠ []) ∨
    (x = .sent t.peer t.loc (prepareResponse (prepareChallenge t now room rto).1
        (room - (prepareChallenge t now room rto).2.1.length)).2 ∧
      (prepareResponse (prepareChallenge t now room rto).1
        (room - (prepareChallenge t now room rto).2.1.length)).2 ≠ []) ∨
    (x = .data t.peer t.loc ∧ pre = [] ∧ ∃ y rest, (prepare p now room rto d).1.tuples = y :: rest ∧ y.verified = true) := by
  rw [prepare_tuples h]
  unfold prepare at hx
  rw [h] at hx
  dsimp only at hx
  rw [List.mem_append, List.mem_append] at hx
  rcases hx with (hx | hx) | hx
  · obtain ⟨h1, h2⟩ := mem_noteFrame hx; exact Or.inl ⟨h2, h1⟩
  · obtain ⟨h1, h2⟩ := mem_noteFrame hx; exact Or.inr (Or.inl ⟨h2, h1⟩)
  · right; right
    unfold after
    generalize (if (prepareChallenge t now room rto).2.2 = true then
          pre ++ post ++ [(prepareResponse (prepareChallenge t now room rto).1
            (room - (prepareChallenge t now room rto).2.1.length)).1]
        else pre ++ (prepareResponse (prepareChallenge t now room rto).1
          (room - (prepareChallenge t now room rto).2.1.length)).1 :: post) = T at hx ⊢
    cases T with
    | nil =>
      rw [if_neg (by intro h; exact absurd h.2.2 (by simp))] at hx
      cases hx
    | cons y rest =>
      by_cases hc : pre = [] ∧ d = true ∧ y.verified = true
      · rw [if_pos hc] at hx
        exact ⟨List.mem_singleton.mp hx, hc.1, y, rest, rfl, hc.2.2⟩
      · rw [if_neg hc] at hx
        cases hx

theorem drawn_small (a b c : Nat) : ∀ v ∈ [a % 2 ^ 64, b % 2 ^ 64, c % 2 ^ 64], v < 2 ^ 64 := by
  intro v hv
  simp only [List.mem_cons, List.not_mem_nil, or_false] at hv
  rcases hv with rfl | rfl | rfl <;> exact Nat.mod_lt _ (by decide)

theorem newTuple_inv (peer loc q l : Addr) (now a b c : Nat) (hist : List (Event × List Note)) (ev : Event) :
    TInv peer loc (hist ++ [(ev, [.drew q l [a % 2 ^ 64, b % 2 ^ 64, c % 2 ^ 64]])]) (newTuple q l now a b c) := by
  refine ⟨rfl, drawn_small a b c, ?_, ?_, ?_⟩
  · intro _
    rw [produced_snoc]
    exact List.mem_append_right _ List.mem_cons_self
  · intro h; cases h
  · intro h; cases h

theorem step_inv {peer loc : Addr} {p : Path} {hist : List (Event × List Note)} (i : PInv peer loc p hist) (ev : Event) :
    PInv peer loc (step p ev).1 (hist ++ [(ev, (step p ev).2)]) := by
  have hsame : ∀ x, PInv peer loc p (hist ++ [x]) := fun x => i.mono x
  cases ev with
  | packet src dst now a b c cid =>
    unfold step
    dsimp only
    by_cases h1 : p.tuples.any (fun t => decide (src = t.peer) && decide (dst = t.loc)) = true
    · rw [if_pos h1]; exact hsame _
    · rw [if_neg h1]
      cases cid with
      | false => exact hsame _
      | true =>
        intro t ht
        rcases List.mem_append.mp ht with ht | ht
        · exact (i t ht).mono _
        · rw [List.mem_singleton.mp ht]
          exact newTuple_inv peer loc src dst now a b c hist _
  | probe q l now a b c cid =>
    unfold step
    cases cid with
    | false => exact hsame _
    | true =>
      intro t ht
      rcases List.mem_append.mp ht with ht | ht
      · exact (i t ht).mono _
      · rw [List.mem_singleton.mp ht]
        exact newTuple_inv peer loc q l now a b c hist _
  | challenge src dst data =>
    unfold step
    dsimp only
    cases hd : framesUint64Decode data with
    | none => exact hsame _
    | some r =>
      obtain ⟨v, rest⟩ := r
      intro x hx
      rcases mem_recordChallenge hx with hx | ⟨t, ht, hs, rfl⟩
      · exact (i x hx).mono _
      · have j := (i t ht).mono (Event.challenge src dst data, ([] : List Note))
        refine ⟨j.three, j.small, j.drawn, j.valid, ?_⟩
        intro _
        exact ⟨src, dst, data, rest, by rw [List.map_append]; exact List.mem_append_right _ List.mem_cons_self, hd, hs⟩
  | response data =>
    unfold step decodeResponse
    dsimp only
    cases hd : framesUint64Decode data with
    | none => exact hsame _
    | some r =>
      obtain ⟨v, rest⟩ := r
      dsimp only
      cases hf : findChallenge v p.tuples with
      | none => exact hsame _
      | some r =>
        obtain ⟨pre, t, post⟩ := r
        dsimp only
        obtain ⟨h1, h2⟩ := findChallenge_spec hf
        by_cases hv : t.verified = true
        · rw [if_pos hv]; exact hsame _
        · rw [if_neg hv]
          intro x hx
          rcases List.mem_cons.mp hx with rfl | hx
          · have j := (i t (by rw [h1]; exact List.mem_append_right _ List.mem_cons_self)).mono
              (Event.response data, [Note.validated t.peer t.loc])
            refine ⟨j.three, j.small, (by intro h; cases h), ?_, j.resp⟩
            intro _
            rw [produced_snoc]
            exact Or.inr (List.mem_append_right _ List.mem_cons_self)
          · refine (i x ?_).mono _
            rw [h1]
            rcases List.mem_append.mp hx with hx | hx
            · exact List.mem_append_left _ hx
            · exact List.mem_append_right _ (List.mem_cons_of_mem _ hx)
  | prepare now room rto d =>
    show PInv peer loc (prepare p now room rto d).1 (hist ++ [(_, (prepare p now room rto d).2)])
    cases hs : select p now rto with
    | none =>
      unfold prepare
      rw [hs]
      exact hsame _
    | some r =>
      obtain ⟨pre, t, post⟩ := r
      have h1 := select_spec hs
      have hmem : ∀ x, x ∈ pre ∨ x = Paths.after t now room rto ∨ x ∈ post →
          TInv peer loc (hist ++ [(Event.prepare now room rto d, (prepare p now room rto d).2)]) x := by
        intro x hx
        apply TInv.mono
        rcases hx with hx | rfl | hx
        · exact i x (by rw [h1]; exact List.mem_append_left _ hx)
        · exact (i t (by rw [h1]; exact List.mem_append_right _ List.mem_cons_self)).after now room rto
        · exact i x (by rw [h1]; exact List.mem_append_right _ (List.mem_cons_of_mem _ hx))
      intro x hx
      rw [prepare_tuples hs] at hx
      apply hmem
      split at hx
      · rw [List.mem_append, List.mem_append, List.mem_singleton] at hx
        rcases hx with (hx | hx) | hx
        · exact Or.inl hx
        · exact Or.inr (Or.inr hx)
        · exact Or.inr (Or.inl hx)
      · rw [List.mem_append, List.mem_cons] at hx
        exact hx
  | unreachable q l now a b c =>
    unfold step unreachable
    dsimp only
    cases ht : p.tuples with
    | nil => exact hsame _
    | cons t rest =>
      dsimp only
      by_cases h1 : q = t.peer ∧ l = t.loc
      · rw [if_pos h1]
        by_cases h2 : p.demoted = true
        · rw [if_pos h2]
          unfold rechallenge
          have it := i t (by rw [ht]; exact List.mem_cons_self)
          by_cases h3 : t.required = false ∨ t.verified = true
          · rw [if_pos h3]
            intro x hx
            rcases List.mem_cons.mp hx with rfl | hx
            · refine ⟨rfl, drawn_small a b c, ?_, (by intro h; cases h), ?_⟩
              · intro _
                rw [produced_snoc]
                exact List.mem_append_right _ List.mem_cons_self
              · intro h
                obtain ⟨s, dd, dt, r, e1, e2⟩ := it.resp h
                exact ⟨s, dd, dt, r, by rw [List.map_append]; exact List.mem_append_left _ e1, e2⟩
            · exact (i x (by rw [ht]; exact List.mem_cons_of_mem _ hx)).mono _
          · rw [if_neg h3]
            intro x hx
            rw [show ({ p with tuples := t :: rest } : Path) = p by rw [← ht]] at hx
            exact (i x hx).mono _
        · rw [if_neg h2]
          intro x hx
          exact (i x (by rw [ht]; exact hx)).mono _
      · rw [if_neg h1]; exact hsame _
  | cleanup now =>
    intro x hx
    refine (i x ?_).mono _
    replace hx : x ∈ (cleanup p now).tuples := hx
    unfold cleanup at hx
    by_cases h1 : p.demoted = true
    · rw [if_pos h1] at hx; exact hx
    · rw [if_neg h1] at hx
      cases ht : p.tuples with
      | nil => rw [ht] at hx; dsimp only at hx; rw [ht] at hx; exact hx
      | cons t rest =>
        rw [ht] at hx
        rcases List.mem_cons.mp hx with rfl | hx
        · exact List.mem_cons_self
        · exact List.mem_cons_of_mem _ (List.mem_filter.mp hx).1

theorem init_inv (peer loc : Addr) (a b c : Nat) : PInv peer loc (init peer loc a b c) [] := by
  intro t ht
  obtain rfl := List.mem_singleton.mp ht
  exact ⟨rfl, drawn_small a b c, (by intro h; cases h), fun _ => Or.inl rfl, (by intro h; cases h)⟩

theorem run_inv {peer loc : Addr} (evs : List Event) : ∀ {p : Path} {hist : List (Event × List Note)},
    PInv peer loc p hist → PInv peer loc (run p evs).1 (hist ++ (run p evs).2) := by
  induction evs with
  | nil => intro p hist i; show PInv peer loc p (hist ++ []); rw [List.append_nil]; exact i
  | cons ev rest ih =>
    intro p hist i
    have h := ih (step_inv i ev)
    rw [List.append_assoc] at h
    exact h

theorem inv_of_reached {peer loc : Addr} {p : Path} {hist : List (Event × List Note)} (h : PathReached peer loc p hist) :
    PInv peer loc p hist := by
  obtain ⟨a, b, c, evs, h⟩ := h
  have := run_inv evs (init_inv peer loc a b c)
  rw [h] at this
  exact this

/-- A history cut at one event. -/
theorem run_split : ∀ (evs : List Event) (p0 p : Path) (h1 h2 : List (Event × List Note)) (ev : Event) (out : List Note),
    run p0 evs = (p, h1 ++ (ev, out) :: h2) →
    ∃ p1 evs1, run p0 evs1 = (p1, h1) ∧ (step p1 ev).2 = out := by
  intro evs
  induction evs with
  | nil =>
    intro p0 p h1 h2 ev out h
    have := (Prod.mk.inj h).2
    exact absurd this (by cases h1 <;> simp)
  | cons e rest ih =>
    intro p0 p h1 h2 ev out h
    obtain ⟨e1, e2⟩ := Prod.mk.inj h
    cases h1 with
    | nil =>
      obtain ⟨e3, _⟩ := List.cons.inj e2
      obtain ⟨e4, e5⟩ := Prod.mk.inj e3
      exact ⟨p0, [], rfl, by rw [← e4]; exact e5⟩
    | cons x h1 =>
      obtain ⟨e3, e4⟩ := List.cons.inj e2
      obtain ⟨p1, evs1, f1, f2⟩ := ih (step p0 e).1 p h1 h2 ev out (Prod.ext e1 e4)
      refine ⟨p1, e :: evs1, ?_, f2⟩
      show ((run (step p0 e).1 evs1).1, (e, (step p0 e).2) :: (run (step p0 e).1 evs1).2) = _
      rw [f1, e3]

theorem reached_split {peer loc : Addr} {p : Path} {h1 h2 : List (Event × List Note)} {ev : Event} {out : List Note}
    (h : PathReached peer loc p (h1 ++ (ev, out) :: h2)) : ∃ p1, PathReached peer loc p1 h1 ∧ (step p1 ev).2 = out := by
  obtain ⟨a, b, c, evs, h⟩ := h
  obtain ⟨p1, evs1, f1, f2⟩ := run_split evs _ p h1 h2 ev out h
  exact ⟨p1, ⟨a, b, c, evs1, f1⟩, f2⟩

end Picoquic.Paths
