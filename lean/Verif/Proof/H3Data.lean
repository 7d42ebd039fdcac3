import Verif.Model.H3Data
import Verif.Spec.H3Data
import Verif.Proof.IntFormat
/-!
# Proofs about the frames of an HTTP/3 request stream
-/

namespace Picoquic.H3Data
open Picoquic Picoquic.Qpack Picoquic.Spec

/-! ### Numbers -/

theorem varSkip_eq (b : UInt8) : varSkip b = 2 ^ (b.toNat / 64) := by
  have := (show ∀ x : Fin 256, 1 <<< ((x.val &&& 0xC0) >>> 6) = 2 ^ (x.val / 64) from by decide +kernel) ⟨b.toNat, b.toNat_lt⟩
  exact this

theorem varint_head {k n : Nat} {p : Bytes} (h : IsVarint k p n) : p ≠ [] ∧ varSkip (p.headD 0) = p.length ∧ varVal p = n := by
  obtain ⟨b, p', rfl, hl, hb, he⟩ := isVarint_cases h
  have hk : 0 < 2 ^ k := Nat.two_pow_pos k
  refine ⟨List.cons_ne_nil _ _, ?_, ?_⟩
  · show varSkip b = _
    rw [varSkip_eq, hb, List.length_cons]; omega
  · show accumulate (b &&& 0x3F).toNat p' = n
    rw [low6_eq, accumulate_eq, ← he]

theorem varSkip_pos (b : UInt8) : 0 < varSkip b := by rw [varSkip_eq]; exact Nat.two_pow_pos _

/-! ### The bytes in front of a frame -/

/-- The type and the length are there. -/
def complete (h : Bytes) : Bool := decide (h ≠ [] ∧ typeLen h < h.length ∧ headLen h ≤ h.length)

/-- Byte by byte. -/
def readRec : Bytes → Bytes → Bytes × Bytes × Option (Nat × Nat)
  | h, [] => (h, [], none)
  | h, b :: bs =>
    if complete (h ++ [b]) then (h ++ [b], bs, some (varVal ((h ++ [b]).take (typeLen (h ++ [b]))), varVal ((h ++ [b]).drop (typeLen (h ++ [b])))))
    else readRec (h ++ [b]) bs

theorem fill_full {h bs : Bytes} {n : Nat} (hn : n ≤ h.length) : fill h n bs = (h, bs) := by
  unfold fill
  rw [show n - h.length = 0 by omega]
  simp

theorem fill_nil (h : Bytes) (n : Nat) : fill h n [] = (h, []) := by
  unfold fill; simp

theorem fill_cons {h bs : Bytes} {b : UInt8} {n : Nat} (hn : h.length < n) : fill h n (b :: bs) = fill (h ++ [b]) n bs := by
  unfold fill
  rw [show n - h.length = (n - (h ++ [b]).length) + 1 by rw [List.length_append, List.length_singleton]; omega]
  simp

theorem typeLen_append {h : Bytes} (hn : h ≠ []) (t : Bytes) : typeLen (h ++ t) = typeLen h := by
  cases h with
  | nil => exact absurd rfl hn
  | cons a h => rfl

theorem typeLen_pos (h : Bytes) : 0 < typeLen h := varSkip_pos _

theorem headLen_append {h : Bytes} (hn : h ≠ []) (ht : typeLen h < h.length) (t : Bytes) : headLen (h ++ t) = headLen h := by
  unfold headLen
  rw [typeLen_append hn]
  congr 2
  rw [List.getD_eq_getElem?_getD, List.getD_eq_getElem?_getD, List.getElem?_append_left ht]

theorem headLen_gt (h : Bytes) : typeLen h < headLen h := by
  unfold headLen
  have := varSkip_pos (h.getD (typeLen h) 0)
  omega

theorem readType_rec : ∀ (bs h : Bytes), h ≠ [] → complete h = false → readType h bs = readRec h bs := by
  intro bs
  induction bs with
  | nil =>
    intro h hn hc
    unfold readType readLength
    simp only [fill_nil]
    have hg := headLen_gt h
    by_cases c : h.length < typeLen h
    · rw [if_pos c]; rfl
    · rw [if_neg c]
      have : ¬ h.length ≥ headLen h := by
        intro h'
        have : complete h = true := by unfold complete; exact decide_eq_true ⟨hn, by omega, h'⟩
        rw [hc] at this; cases this
      rw [if_neg this]; rfl
  | cons b bs ih =>
    intro h hn hc
    have hne : h ++ [b] ≠ [] := by simp
    have hlen : (h ++ [b]).length = h.length + 1 := by rw [List.length_append, List.length_singleton]
    have step : readType h (b :: bs) = readType (h ++ [b]) bs := by
      have hT := typeLen_append hn [b]
      unfold readType
      dsimp only
      rw [hT]
      by_cases c1 : h.length < typeLen h
      · rw [fill_cons c1]
      · rw [fill_full (Nat.le_of_not_lt c1), fill_full (h := h ++ [b]) (n := typeLen h) (by rw [hlen]; omega)]
        dsimp only
        rw [hT, if_neg c1, if_neg (by rw [hlen]; omega)]
        unfold readLength
        dsimp only
        rw [hT]
        by_cases c2 : h.length < typeLen h + 1
        · rw [fill_cons c2]
        · rw [fill_full (Nat.le_of_not_lt c2), fill_full (h := h ++ [b]) (n := typeLen h + 1) (by rw [hlen]; omega)]
          dsimp only
          have hH := headLen_append hn (by omega : typeLen h < h.length) [b]
          rw [hH]
          have c3 : h.length < headLen h := by
            by_cases c : h.length < headLen h
            · exact c
            · exfalso
              have : complete h = true := by unfold complete; exact decide_eq_true ⟨hn, by omega, by omega⟩
              rw [hc] at this; cases this
          rw [fill_cons c3]
    rw [step]
    unfold readRec
    by_cases c : complete (h ++ [b]) = true
    · rw [if_pos c]
      have hcc := of_decide_eq_true c
      obtain ⟨-, k1, k2⟩ := hcc
      unfold readType
      dsimp only
      rw [fill_full (h := h ++ [b]) (n := typeLen (h ++ [b])) (by omega)]
      dsimp only
      rw [if_neg (by omega)]
      unfold readLength
      dsimp only
      rw [fill_full (h := h ++ [b]) (n := typeLen (h ++ [b]) + 1) (by omega)]
      dsimp only
      rw [fill_full (h := h ++ [b]) (n := headLen (h ++ [b])) (by omega)]
      dsimp only
      rw [if_pos (by omega)]
    · rw [if_neg c]
      exact ih _ hne (by simpa using c)

theorem complete_short {h : Bytes} (h1 : h.length ≤ 1) : complete h = false := by
  unfold complete
  refine decide_eq_false ?_
  rintro ⟨-, h2, -⟩
  have := typeLen_pos h
  omega

theorem readHeader_rec {h bs : Bytes} (hc : complete h = false) (hb : bs ≠ []) : readHeader h bs = readRec h bs := by
  unfold readHeader
  dsimp only
  cases h with
  | nil =>
    cases bs with
    | nil => exact absurd rfl hb
    | cons b bs =>
      rw [fill_cons (by decide), fill_full (h := [] ++ [b]) (n := 1) (by simp)]
      dsimp only
      have hc1 : complete ([] ++ [b]) = false := complete_short (Nat.le_refl 1)
      rw [readType_rec bs _ (by simp) hc1]
      conv => rhs; unfold readRec
      rw [if_neg (by rw [hc1]; decide)]
  | cons a h =>
    rw [fill_full (by rw [List.length_cons]; omega)]
    exact readType_rec bs _ (List.cons_ne_nil _ _) hc

/-! ### One byte at a time -/

/-- Continuing after a piece. -/
def andThen (r : Bytes × Res) (k : DS → Bytes × Res) : Bytes × Res :=
  match r with
  | (d, .ok s) => (d ++ (k s).1, (k s).2)
  | (d, .err c) => (d, .err c)
  | (d, .ub) => (d, .ub)

/-- Continuing after a call. -/
def goOn (o : Out) (k : DS → Bytes → Bytes × Res) : Bytes × Res :=
  match o with
  | .ok s rest data => (data ++ (k s rest).1, (k s rest).2)
  | .err c => ([], .err c)
  | .ub => ([], .ub)

/-- If the front of a frame is being read, it is not complete. -/
def Inv (s : DS) : Prop := s.parsed = false → complete s.hdr = false

/-- What decreases. -/
def measure (s : DS) (bs : Bytes) : Nat := 2 * bs.length + s.parsed.toNat

theorem readRec_spec : ∀ (bs h : Bytes), bs ≠ [] → (readRec h bs).2.1.length < bs.length ∧ ((readRec h bs).2.2 = none → complete (readRec h bs).1 = false) := by
  intro bs
  induction bs with
  | nil => intro h hb; exact absurd rfl hb
  | cons b bs ih =>
    intro h _
    unfold readRec
    by_cases c : complete (h ++ [b]) = true
    · rw [if_pos c]
      exact ⟨by simp, fun h => by cases h⟩
    · rw [if_neg c]
      cases bs with
      | nil => exact ⟨by simp [readRec], fun _ => by simpa [readRec] using c⟩
      | cons b' bs =>
        obtain ⟨h1, h2⟩ := ih (h ++ [b]) (List.cons_ne_nil _ _)
        exact ⟨by rw [List.length_cons]; omega, h2⟩

theorem check_spec {s s' : DS} {ty len : Nat} {r rest data : Bytes} (h : check s ty len r = .ok s' rest data) :
    rest = r ∧ data = [] ∧ s'.parsed = true := by
  unfold check at h
  dsimp only at h
  repeat' split at h
  all_goals first | (cases h; done) | (cases h; exact ⟨rfl, rfl, rfl⟩)

theorem endHeaders_spec {s s' : DS} {frame : Bytes} {n : Nat} {r rest data : Bytes} (h : endHeaders s frame n r = .ok s' rest data) :
    rest = r ∧ data = [] ∧ s'.parsed = false ∧ s'.hdr = [] := by
  unfold endHeaders at h
  repeat' split at h
  all_goals first | (cases h; done) | (cases h; exact ⟨rfl, rfl, rfl, rfl⟩)

/-- What is taken of the bytes. -/
def takes (s : DS) (bs : Bytes) : Nat := if s.read + bs.length > s.len then s.len - s.read else bs.length

theorem takes_pos {s : DS} {bs : Bytes} (hb : bs ≠ []) : takes s bs = 0 ↔ s.len ≤ s.read := by
  unfold takes
  have : 0 < bs.length := List.length_pos_iff.2 hb
  split <;> omega

theorem contents_spec {s s' : DS} {bs rest data : Bytes} (hb : bs ≠ []) (hp : s.parsed = true) (h : contents s bs = .ok s' rest data) :
    Inv s' ∧ measure s' rest < measure s bs := by
  have hlen : 0 < bs.length := List.length_pos_iff.2 hb
  have hm : measure s bs = 2 * bs.length + 1 := by unfold measure; rw [hp]; rfl
  have hb1 : s'.parsed.toNat ≤ 1 := by cases s'.parsed <;> decide
  have hdrop : (bs.drop (takes s bs)).length = bs.length - takes s bs := List.length_drop
  unfold contents at h
  by_cases c : s.wt = true
  · rw [if_pos c] at h
    cases h
    refine ⟨fun h => (by rw [hp] at h; cases h), ?_⟩
    rw [hm]; unfold measure; rw [List.length_nil]; omega
  · rw [if_neg c] at h
    change (if s.ty = 1 then _ else _) = _ at h
    rw [show (if s.read + bs.length > s.len then s.len - s.read else bs.length) = takes s bs from rfl] at h
    have hgo : s'.parsed = false → s'.hdr = [] → rest = bs.drop (takes s bs) → Inv s' ∧ measure s' rest < measure s bs := by
      intro h1 h2 h3
      refine ⟨fun _ => by rw [h2]; exact complete_short (by decide), ?_⟩
      rw [hm]; unfold measure; rw [h1, h3, hdrop]
      show 2 * _ + 0 < _
      omega
    have hstay : ¬ s.read + takes s bs ≥ s.len → s'.parsed = true → rest = bs.drop (takes s bs) → Inv s' ∧ measure s' rest < measure s bs := by
      intro h0 h1 h3
      refine ⟨(fun h => by rw [h1] at h; cases h), ?_⟩
      have : takes s bs ≠ 0 := fun h => by rw [takes_pos hb] at h; omega
      rw [hm]; unfold measure; rw [h1, h3, hdrop]
      show 2 * _ + 1 < _
      omega
    split at h
    · split at h
      · obtain ⟨e1, -, e3, e4⟩ := endHeaders_spec h
        exact hgo e3 e4 e1
      · rename_i c2; cases h; exact hstay c2 hp rfl
    · split at h
      · split at h
        · cases h; exact hgo rfl rfl rfl
        · rename_i c2; cases h; exact hstay c2 hp rfl
      · split at h
        · cases h; exact hgo rfl rfl rfl
        · rename_i c2; cases h; exact hstay c2 hp rfl

theorem parse_spec {s s' : DS} {bs rest data : Bytes} (hi : Inv s) (hb : bs ≠ []) (h : parse s bs = .ok s' rest data) : Inv s' ∧ measure s' rest < measure s bs := by
  unfold parse at h
  by_cases hp : s.parsed = true
  · rw [if_pos hp] at h
    exact contents_spec hb hp h
  · rw [if_neg hp] at h
    have hp' : s.parsed = false := by simpa using hp
    rw [readHeader_rec (hi hp') hb] at h
    obtain ⟨h1, h2⟩ := readRec_spec bs s.hdr hb
    generalize readRec s.hdr bs = x at h h1 h2
    obtain ⟨hh, r, o⟩ := x
    dsimp only at h1 h2
    cases o with
    | none =>
      dsimp only at h
      cases h
      refine ⟨fun _ => h2 rfl, ?_⟩
      unfold measure
      show 2 * _ + s.parsed.toNat < _
      omega
    | some tl =>
      obtain ⟨ty, len⟩ := tl
      dsimp only at h
      obtain ⟨e1, -, e3⟩ := check_spec h
      refine ⟨(fun h => by rw [e3] at h; cases h), ?_⟩
      unfold measure
      rw [e1, e3, hp']
      show 2 * _ + 1 < _ + 0
      omega

theorem loop_fuel : ∀ (n n' : Nat) (s : DS) (bs : Bytes), Inv s → measure s bs ≤ n → measure s bs ≤ n' → loop n s bs = loop n' s bs := by
  intro n
  induction n with
  | zero =>
    intro n' s bs hi h _
    cases bs with
    | nil => cases n' <;> rfl
    | cons b bs => exfalso; unfold measure at h; rw [List.length_cons] at h; omega
  | succ n ih =>
    intro n' s bs hi h h'
    cases bs with
    | nil => cases n' <;> rfl
    | cons b bs =>
      cases n' with
      | zero => exfalso; unfold measure at h'; rw [List.length_cons] at h'; omega
      | succ n' =>
        unfold loop
        cases ho : parse s (b :: bs) with
        | err c => rfl
        | ub => rfl
        | ok s' rest data =>
          dsimp only
          obtain ⟨h1, h2⟩ := parse_spec hi (List.cons_ne_nil _ _) ho
          rw [ih n' s' rest h1 (by omega) (by omega)]

theorem feed_nil (s : DS) : feed s [] = ([], .ok s) := rfl

theorem feed_cons {s : DS} (hi : Inv s) {bs : Bytes} (hb : bs ≠ []) : feed s bs = goOn (parse s bs) feed := by
  cases bs with
  | nil => exact absurd rfl hb
  | cons b bs =>
    unfold feed
    rw [show 2 * (b :: bs).length + 1 = (2 * (b :: bs).length) + 1 from rfl]
    rw [loop]
    cases ho : parse s (b :: bs) with
    | err c => rfl
    | ub => rfl
    | ok s' rest data =>
      unfold goOn
      dsimp only
      obtain ⟨h1, h2⟩ := parse_spec hi (List.cons_ne_nil _ _) ho
      have hs : s.parsed.toNat ≤ 1 := by cases s.parsed <;> decide
      have h2' := h2
      have hs' : s'.parsed.toNat ≤ 1 := by cases s'.parsed <;> decide
      rw [loop_fuel (2 * (b :: bs).length) (2 * rest.length + 1) s' rest h1 (by unfold measure at h2 ⊢; omega) (by unfold measure; omega)]

theorem feed_inv {s s' : DS} : ∀ {bs d : Bytes}, Inv s → feed s bs = (d, .ok s') → Inv s' := by
  have key : ∀ (n : Nat) (s : DS) (bs d : Bytes), Inv s → loop n s bs = (d, .ok s') → Inv s' := by
    intro n
    induction n with
    | zero =>
      intro s bs d hi h
      cases bs with
      | nil => cases h; exact hi
      | cons b bs => cases h
    | succ n ih =>
      intro s bs d hi h
      cases bs with
      | nil => cases h; exact hi
      | cons b bs =>
        unfold loop at h
        cases ho : parse s (b :: bs) with
        | err c => rw [ho] at h; cases h
        | ub => rw [ho] at h; cases h
        | ok s1 rest data =>
          rw [ho] at h
          dsimp only at h
          obtain ⟨h1, -⟩ := parse_spec hi (List.cons_ne_nil _ _) ho
          have h2 := congrArg Prod.snd h
          exact ih s1 rest (loop n s1 rest).1 h1 (Prod.ext rfl h2)
  intro bs d hi h
  exact key _ s bs d hi h

theorem andThen_goOn (o : Out) (k : DS → Bytes → Bytes × Res) (k' : DS → Bytes × Res) :
    andThen (goOn o k) k' = goOn o (fun s r => andThen (k s r) k') := by
  unfold goOn
  cases o with
  | err c => rfl
  | ub => rfl
  | ok s rest data =>
    dsimp only
    generalize k s rest = x
    obtain ⟨d, r⟩ := x
    cases r <;> simp [andThen]

theorem andThen_nil (r : Bytes × Res) : andThen r (fun s => ([], .ok s)) = r := by
  obtain ⟨d, r⟩ := r
  cases r <;> simp [andThen]

/-- The front of a frame: the bytes that follow the first one can come later. -/
theorem feed_split_front {s : DS} (hi : Inv s) (hp : s.parsed = false) (b : UInt8) (bs : Bytes) :
    feed s (b :: bs) = andThen (feed s [b]) (fun s1 => feed s1 bs) := by
  cases bs with
  | nil => exact (andThen_nil _).symm
  | cons c cs =>
    rw [feed_cons hi (List.cons_ne_nil _ _), feed_cons hi (List.cons_ne_nil _ _), andThen_goOn]
    have hpn : ¬ s.parsed = true := by rw [hp]; decide
    unfold parse
    rw [if_neg hpn, if_neg hpn, readHeader_rec (hi hp) (List.cons_ne_nil _ _), readHeader_rec (hi hp) (List.cons_ne_nil _ _)]
    unfold readRec
    by_cases cc : complete (s.hdr ++ [b]) = true
    · rw [if_pos cc, if_pos cc]
      dsimp only
      unfold check
      dsimp only
      repeat' split
      all_goals first | rfl | simp [goOn, andThen, feed_nil]
    · rw [if_neg cc, if_neg cc]
      have hi' : Inv { s with hdr := s.hdr ++ [b] } := fun _ => by simpa using cc
      have e2 : readRec (s.hdr ++ [b]) [] = (s.hdr ++ [b], [], none) := rfl
      rw [e2]
      dsimp only
      unfold goOn
      dsimp only
      rw [feed_nil]
      unfold andThen
      dsimp only
      rw [List.nil_append, List.nil_append]
      rw [feed_cons hi' (List.cons_ne_nil _ _)]
      unfold parse
      rw [if_neg (by show ¬ s.parsed = true; exact hpn), readHeader_rec (by simpa using cc) (List.cons_ne_nil _ _)]
      show _ = ((goOn _ feed).1, (goOn _ feed).2)
      generalize readRec (s.hdr ++ [b]) (c :: cs) = x
      obtain ⟨h1, r, o⟩ := x
      cases o with
      | none => rfl
      | some tl =>
        obtain ⟨ty, len⟩ := tl
        rfl

theorem parse_contents {s : DS} (hp : s.parsed = true) (bs : Bytes) : parse s bs = contents s bs := by
  unfold parse; rw [if_pos hp]

/-- The contents of a frame: the bytes that follow the first one can come later. -/
theorem feed_split {s : DS} (hi : Inv s) (b : UInt8) (bs : Bytes) : feed s (b :: bs) = andThen (feed s [b]) (fun s1 => feed s1 bs) := by
  by_cases hp : s.parsed = false
  · exact feed_split_front hi hp b bs
  have hp : s.parsed = true := by simpa using hp
  cases bs with
  | nil => exact (andThen_nil _).symm
  | cons c cs =>
    generalize hbs : c :: cs = bs
    have hb : bs ≠ [] := by rw [← hbs]; exact List.cons_ne_nil _ _
    rw [feed_cons hi (List.cons_ne_nil _ _), feed_cons hi (List.cons_ne_nil _ _), andThen_goOn]
    unfold parse
    rw [if_pos hp, if_pos hp]
    by_cases hw : s.wt = true
    · have e : ∀ t, contents s t = .ok s [] t := by intro t; unfold contents; rw [if_pos hw]
      rw [e, e]
      unfold goOn
      dsimp only
      rw [feed_nil]
      unfold andThen
      dsimp only
      rw [feed_cons hi hb]
      unfold parse
      rw [if_pos hp, e]
      unfold goOn
      dsimp only
      rw [feed_nil]
      simp
    · by_cases h0 : s.len ≤ s.read
      · -- a frame without contents: what follows is the front of the next one
        have e0 : ∀ t : Bytes, (if s.read + t.length > s.len then s.len - s.read else t.length) = 0 := by
          intro t
          split <;> omega
        have e : ∃ o : (Bytes → Out), (∀ t, contents s t = o t) ∧ ((∃ s', s'.parsed = false ∧ s'.hdr = [] ∧ ∀ t, o t = .ok s' t []) ∨ (∃ c, ∀ t, o t = .err c) ∨ (∀ t, o t = .ub)) := by
          refine ⟨contents s, fun _ => rfl, ?_⟩
          by_cases c1 : s.ty = 1
          · have e1 : ∀ t, contents s t = endHeaders s s.frame s.read t := by
              intro t
              unfold contents
              rw [if_neg hw]
              dsimp only
              rw [e0, if_pos c1, if_pos (by omega)]
              simp
            unfold endHeaders at e1
            cases hq : parseFrame s.frame with
            | err => rw [hq] at e1; exact .inr (.inl ⟨_, e1⟩)
            | ub => rw [hq] at e1; exact .inr (.inr e1)
            | ok p =>
              rw [hq] at e1
              dsimp only at e1
              by_cases c2 : s.headerFound = true
              · simp only [if_pos c2] at e1
                exact .inl ⟨_, by rfl, by rfl, e1⟩
              · simp only [if_neg c2] at e1
                exact .inl ⟨_, by rfl, by rfl, e1⟩
          · by_cases c2 : s.ty = 0
            · refine .inl ⟨{ s with read := s.read, parsed := false, hdr := [], dataFound := true }, rfl, rfl, ?_⟩
              intro t
              unfold contents
              rw [if_neg hw]
              dsimp only
              rw [e0, if_neg c1, if_pos c2, if_pos (by omega)]
              simp
            · refine .inl ⟨{ s with read := s.read, parsed := false, hdr := [] }, rfl, rfl, ?_⟩
              intro t
              unfold contents
              rw [if_neg hw]
              dsimp only
              rw [e0, if_neg c1, if_neg c2, if_pos (by omega)]
              simp
        obtain ⟨o, eo, h⟩ := e
        rw [eo, eo]
        rcases h with ⟨s', k1, k2, k3⟩ | ⟨c, k⟩ | k
        · rw [k3, k3]
          have hi' : Inv s' := fun _ => by rw [k2]; exact complete_short (by decide)
          unfold goOn
          dsimp only
          rw [feed_split_front hi' k1 b bs]
        · rw [k, k]; rfl
        · rw [k, k]; rfl
      · have n1 : (if s.read + [b].length > s.len then s.len - s.read else [b].length) = 1 := by
          rw [List.length_singleton]; split <;> omega
        have hlb : 0 < bs.length := List.length_pos_iff.2 hb
        by_cases h1 : s.len = s.read + 1
        · have n2 : (if s.read + (b :: bs).length > s.len then s.len - s.read else (b :: bs).length) = 1 := by
            rw [List.length_cons]; split <;> omega
          unfold contents
          rw [if_neg hw, if_neg hw]
          dsimp only
          rw [n1, n2]
          have c : s.read + 1 ≥ s.len := by omega
          rw [if_pos c, if_pos c, if_pos c, if_pos c, if_pos c, if_pos c]
          by_cases c1 : s.ty = 1
          · rw [if_pos c1, if_pos c1]
            show goOn (endHeaders s (s.frame ++ [b]) (s.read + 1) bs) _ = goOn (endHeaders s (s.frame ++ [b]) (s.read + 1) []) _
            unfold endHeaders
            cases parseFrame (s.frame ++ [b]) with
            | err => rfl
            | ub => rfl
            | ok p =>
              dsimp only
              split <;> simp [goOn, andThen, feed_nil]
          · rw [if_neg c1, if_neg c1]
            by_cases c2 : s.ty = 0
            · rw [if_pos c2, if_pos c2]
              simp [goOn, andThen, feed_nil]
            · rw [if_neg c2, if_neg c2]
              simp [goOn, andThen, feed_nil]
        · -- the frame goes on behind the first byte
          have n2 : ∃ k, (if s.read + (b :: bs).length > s.len then s.len - s.read else (b :: bs).length) = k + 1 ∧
              (if (s.read + 1) + bs.length > s.len then s.len - (s.read + 1) else bs.length) = k ∧ k = (if (s.read + 1) + bs.length > s.len then s.len - (s.read + 1) else bs.length) := by
            refine ⟨_, ?_, rfl, rfl⟩
            rw [List.length_cons]
            by_cases c : s.read + (bs.length + 1) > s.len
            · rw [if_pos c, if_pos (by omega)]; omega
            · rw [if_neg c, if_neg (by omega)]
          obtain ⟨k, m1, m2, -⟩ := n2
          have ca : ¬ s.read + 1 ≥ s.len := by omega
          have cb : s.read + (k + 1) = s.read + 1 + k := by omega
          unfold contents
          rw [if_neg hw, if_neg hw]
          dsimp only
          rw [n1, m1, if_neg ca, if_neg ca, if_neg ca]
          by_cases c1 : s.ty = 1
          · rw [if_pos c1, if_pos c1]
            conv => rhs; unfold goOn
            dsimp only
            have hi1 : Inv { s with frame := s.frame ++ List.take 1 [b], read := s.read + 1 } := fun h => by
              have h : s.parsed = false := h
              rw [hp] at h; cases h
            show _ = ([] ++ (andThen (feed _ []) _).1, (andThen (feed _ []) _).2)
            rw [feed_nil]
            unfold andThen
            dsimp only
            rw [feed_cons hi1 hb, parse_contents (by exact hp)]
            unfold contents
            rw [if_neg (show ¬ ({ s with frame := s.frame ++ List.take 1 [b], read := s.read + 1 } : DS).wt = true from hw)]
            dsimp only
            rw [m2, if_pos c1, cb]
            simp only [List.take_succ_cons, List.take_zero, List.drop_succ_cons, List.append_assoc, List.singleton_append, List.nil_append]
            by_cases cc : s.read + 1 + k ≥ s.len
            · rw [if_pos cc, if_pos cc]
              rfl
            · rw [if_neg cc, if_neg cc]
          · rw [if_neg c1, if_neg c1]
            have hi1 : Inv { s with read := s.read + 1 } := fun h => by
              have h : s.parsed = false := h
              rw [hp] at h; cases h
            by_cases c2 : s.ty = 0
            · rw [if_pos c2, if_pos c2]
              conv => rhs; unfold goOn
              dsimp only
              show _ = (List.take 1 [b] ++ (andThen (feed _ []) _).1, (andThen (feed _ []) _).2)
              rw [feed_nil]
              unfold andThen
              dsimp only
              rw [feed_cons hi1 hb, parse_contents (by exact hp)]
              unfold contents
              rw [if_neg (show ¬ ({ s with read := s.read + 1 } : DS).wt = true from hw)]
              dsimp only
              rw [m2, if_neg c1, if_pos c2, cb]
              by_cases cc : s.read + 1 + k ≥ s.len
              · rw [if_pos cc, if_pos cc]
                simp [goOn]
              · rw [if_neg cc, if_neg cc]
                simp [goOn]
            · rw [if_neg c2, if_neg c2]
              conv => rhs; unfold goOn
              dsimp only
              show _ = ([] ++ (andThen (feed _ []) _).1, (andThen (feed _ []) _).2)
              rw [feed_nil]
              unfold andThen
              dsimp only
              rw [feed_cons hi1 hb, parse_contents (by exact hp)]
              unfold contents
              rw [if_neg (show ¬ ({ s with read := s.read + 1 } : DS).wt = true from hw)]
              dsimp only
              rw [m2, if_neg c1, if_neg c2, cb]
              by_cases cc : s.read + 1 + k ≥ s.len
              · rw [if_pos cc, if_pos cc]
                simp [goOn]
              · rw [if_neg cc, if_neg cc]
                simp [goOn]

theorem andThen_assoc (r : Bytes × Res) (k k' : DS → Bytes × Res) : andThen (andThen r k) k' = andThen r (fun s => andThen (k s) k') := by
  obtain ⟨d, r⟩ := r
  cases r with
  | ok s =>
    unfold andThen
    dsimp only
    generalize k s = x
    obtain ⟨d', r'⟩ := x
    cases r' <;> simp
  | err c => rfl
  | ub => rfl

theorem andThen_congr {r : Bytes × Res} {k k' : DS → Bytes × Res} (h : ∀ d s, r = (d, .ok s) → k s = k' s) : andThen r k = andThen r k' := by
  obtain ⟨d, r⟩ := r
  cases r with
  | ok s => unfold andThen; dsimp only; rw [h d s rfl]
  | err c => rfl
  | ub => rfl

theorem feed_append : ∀ (a b : Bytes) (s : DS), Inv s → feed s (a ++ b) = andThen (feed s a) (fun s1 => feed s1 b) := by
  intro a
  induction a with
  | nil =>
    intro b s hi
    rw [List.nil_append, feed_nil]
    simp [andThen]
  | cons x a ih =>
    intro b s hi
    rw [List.cons_append, feed_split hi x (a ++ b), feed_split hi x a, andThen_assoc]
    apply andThen_congr
    intro d s1 h
    exact ih b s1 (feed_inv hi h)

theorem feedAll_cons (s : DS) (c : Bytes) (cs : List Bytes) : feedAll s (c :: cs) = andThen (feed s c) (fun s1 => feedAll s1 cs) := by
  show (match feed s c with | (d, .ok s') => (d ++ (feedAll s' cs).1, (feedAll s' cs).2) | r => r) = _
  generalize feed s c = x
  obtain ⟨d, r⟩ := x
  cases r <;> rfl

theorem feedAll_flatten : ∀ (cs : List Bytes) (s : DS), Inv s → feedAll s cs = feed s cs.flatten := by
  intro cs
  induction cs with
  | nil => intro s _; rfl
  | cons c cs ih =>
    intro s hi
    rw [feedAll_cons, List.flatten_cons, feed_append _ _ _ hi]
    apply andThen_congr
    intro d s1 h
    exact ih s1 (feed_inv hi h)

/-! ### Frames -/

theorem front_incomplete {p q x : Bytes} {t n : Nat} (hp : Varint p t) (hq : Varint q n) (hx : x <+: p ++ q) (hl : x.length < (p ++ q).length) :
    complete x = false := by
  obtain ⟨kp, hp⟩ := hp
  obtain ⟨kq, hq⟩ := hq
  obtain ⟨hpn, hps, -⟩ := varint_head hp
  obtain ⟨hqn, hqs, -⟩ := varint_head hq
  obtain ⟨y, hy⟩ := hx
  unfold complete
  refine decide_eq_false ?_
  rintro ⟨h1, h2, h3⟩
  have e1 : typeLen x = p.length := by
    rw [← typeLen_append h1 y, hy]
    unfold typeLen
    rw [← hps]
    cases p with
    | nil => exact absurd rfl hpn
    | cons a p => rfl
  have e2 : headLen x = p.length + q.length := by
    rw [← headLen_append h1 h2 y, hy]
    have e : typeLen (p ++ q) = p.length := by rw [← hy, typeLen_append h1, e1]
    unfold headLen
    rw [e, List.getD_eq_getElem?_getD, List.getElem?_append_right (Nat.le_refl _), Nat.sub_self]
    cases q with
    | nil => exact absurd rfl hqn
    | cons a q => rw [← hqs]; simp [Nat.add_comm]
  rw [List.length_append] at hl
  omega

theorem front_complete {p q : Bytes} {t n : Nat} (hp : Varint p t) (hq : Varint q n) :
    complete (p ++ q) = true ∧ varVal ((p ++ q).take (typeLen (p ++ q))) = t ∧ varVal ((p ++ q).drop (typeLen (p ++ q))) = n := by
  obtain ⟨kp, hp⟩ := hp
  obtain ⟨kq, hq⟩ := hq
  obtain ⟨hpn, hps, hpv⟩ := varint_head hp
  obtain ⟨hqn, hqs, hqv⟩ := varint_head hq
  have e1 : typeLen (p ++ q) = p.length := by
    rw [typeLen_append hpn]
    exact hps
  have hl : 0 < q.length := List.length_pos_iff.2 hqn
  have e2 : headLen (p ++ q) = p.length + q.length := by
    unfold headLen
    rw [e1, List.getD_eq_getElem?_getD, List.getElem?_append_right (Nat.le_refl _), Nat.sub_self]
    cases q with
    | nil => exact absurd rfl hqn
    | cons a q => rw [← hqs]; simp [Nat.add_comm]
  refine ⟨?_, ?_, ?_⟩
  · unfold complete
    refine decide_eq_true ⟨by simp [hpn], ?_, ?_⟩
    · rw [e1, List.length_append]; omega
    · rw [e2, List.length_append]; omega
  · rw [e1, List.take_left]; exact hpv
  · rw [e1, List.drop_left]; exact hqv

theorem readRec_front {p q : Bytes} {t n : Nat} (hp : Varint p t) (hq : Varint q n) (rest : Bytes) :
    ∀ (y x : Bytes), x ++ y = p ++ q → y ≠ [] → readRec x (y ++ rest) = (p ++ q, rest, some (t, n)) := by
  intro y
  induction y with
  | nil => intro x _ h; exact absurd rfl h
  | cons b y ih =>
    intro x hx _
    rw [List.cons_append]
    unfold readRec
    have hx' : (x ++ [b]) ++ y = p ++ q := by rw [← hx]; simp
    cases y with
    | nil =>
      have e : x ++ [b] = p ++ q := by rw [← hx']; simp
      obtain ⟨c1, c2, c3⟩ := front_complete hp hq
      rw [e, if_pos c1, c2, c3]
      simp
    | cons b' y =>
      have c := front_incomplete hp hq ⟨_, hx'⟩ (by rw [← hx']; simp)
      rw [if_neg (by rw [c]; decide)]
      exact ih _ hx' (List.cons_ne_nil _ _)

/-- Nothing of a frame was read. -/
def Ready (s : DS) : Prop := s.parsed = false ∧ s.hdr = [] ∧ s.wt = false ∧ s.frame = []

theorem Ready.inv {s : DS} (h : Ready s) : Inv s := fun _ => by rw [h.2.1]; exact complete_short (by decide)

/-- The type and the length are read, and checked. -/
theorem feed_front {s : DS} (hs : Ready s) {p q : Bytes} {t n : Nat} (hp : Varint p t) (hq : Varint q n) (rest : Bytes) :
    feed s (p ++ q ++ rest) = goOn (check { s with hdr := p ++ q } t n rest) feed := by
  have hn : p ++ q ≠ [] := by
    obtain ⟨kp, hp⟩ := hp
    have := (varint_head hp).1
    simp [this]
  have hn' : p ++ q ++ rest ≠ [] := by simp only [ne_eq, List.append_eq_nil_iff, not_and] at hn ⊢; intro h; exact absurd h.2 (hn h.1)
  rw [feed_cons hs.inv hn']
  unfold parse
  rw [if_neg (by rw [hs.1]; decide), readHeader_rec (hs.inv hs.1) hn', hs.2.1, readRec_front hp hq rest (p ++ q) [] rfl hn]

/-- A frame whose contents are all there is settled. -/
def settle (s : DS) : DS :=
  if s.parsed && !s.wt && decide (s.ty ≠ 1) && decide (s.len ≤ s.read) then
    if s.ty = 0 then { s with parsed := false, hdr := [], dataFound := true } else { s with parsed := false, hdr := [] }
  else s

theorem feed_settle {s : DS} (hi : Inv s) {bs : Bytes} (hb : bs ≠ []) : feed s bs = feed (settle s) bs := by
  unfold settle
  split
  · rename_i c
    simp only [Bool.and_eq_true, Bool.not_eq_true', decide_eq_true_eq] at c
    obtain ⟨⟨⟨c1, c2⟩, c3⟩, c4⟩ := c
    rw [feed_cons hi hb, parse_contents c1]
    have e0 : (if s.read + bs.length > s.len then s.len - s.read else bs.length) = 0 := by
      have : 0 < bs.length := List.length_pos_iff.2 hb
      rw [if_pos (by omega)]; omega
    unfold contents
    rw [if_neg (by rw [c2]; decide)]
    dsimp only
    rw [e0, if_neg c3]
    by_cases c0 : s.ty = 0
    · rw [if_pos c0, if_pos (by omega), if_pos c0]
      simp [goOn]
    · rw [if_neg c0, if_pos (by omega), if_neg c0]
      simp [goOn]
  · rfl

/-- The state agrees with the message. -/
structure Match (m : H3Msg Parts) (data : Bool) (s : DS) : Prop where
  ready : Ready s
  hf : s.headerFound = m.header.isSome
  tf : s.trailerFound = m.trailer.isSome
  hv : ∀ p, m.header = some p → s.header = p
  tv : ∀ p, m.trailer = some p → s.trailer = p
  df : data = true → s.dataFound = true
  ord : m.header = none → m.trailer = none

/-- What the frames contain. -/
def decode (bs : Bytes) : Option Parts :=
  match parseFrame bs with
  | .ok p => some p
  | _ => none

/-- The contents of a frame, all at once. -/
theorem contents_whole {s : DS} {w : Bytes} (hw : s.wt = false) (h0 : s.read = 0) (hl : s.len = w.length) (hf : s.frame = []) :
    contents s w =
      if s.ty = 1 then endHeaders s w w.length []
      else if s.ty = 0 then .ok { s with read := w.length, parsed := false, hdr := [], dataFound := true } [] w
      else .ok { s with read := w.length, parsed := false, hdr := [] } [] [] := by
  unfold contents
  rw [if_neg (by rw [hw]; decide)]
  dsimp only
  have n : (if s.read + w.length > s.len then s.len - s.read else w.length) = w.length := by rw [h0, hl]; split <;> omega
  have c : s.read + w.length ≥ s.len := by omega
  rw [n, if_pos c, if_pos c, if_pos c, h0, hf]
  simp

/-- A frame that is not of headers. -/
theorem feed_body {s : DS} {w : Bytes} (hp : s.parsed = true) (hw : s.wt = false) (h0 : s.read = 0) (hl : s.len = w.length) (hf : s.frame = []) (h1 : s.ty ≠ 1) :
    ∃ s', feed s w = (if s.ty = 0 then w else [], .ok s') ∧ Ready (settle s') ∧ (settle s').headerFound = s.headerFound ∧ (settle s').trailerFound = s.trailerFound ∧
      (settle s').header = s.header ∧ (settle s').trailer = s.trailer ∧ (s.ty = 0 ∨ s.dataFound = true → (settle s').dataFound = true) := by
  have hi : Inv s := fun h => by rw [hp] at h; cases h
  cases hn : w with
  | nil =>
    refine ⟨s, ?_, ?_⟩
    · rw [feed_nil]; split <;> rfl
    · have c : (s.parsed && !s.wt && decide (s.ty ≠ 1) && decide (s.len ≤ s.read)) = true := by
        rw [hp, hw, hl, h0, hn]; simp [h1]
      unfold settle
      rw [if_pos c]
      by_cases c0 : s.ty = 0
      · rw [if_pos c0]
        exact ⟨⟨rfl, rfl, hw, hf⟩, rfl, rfl, rfl, rfl, fun _ => rfl⟩
      · rw [if_neg c0]
        exact ⟨⟨rfl, rfl, hw, hf⟩, rfl, rfl, rfl, rfl, fun h => h.resolve_left c0⟩
  | cons b w' =>
    rw [← hn]
    have hne : w ≠ [] := by rw [hn]; exact List.cons_ne_nil _ _
    rw [feed_cons hi hne, parse_contents hp, contents_whole hw h0 hl hf, if_neg h1]
    by_cases c0 : s.ty = 0
    · rw [if_pos c0, if_pos c0]
      refine ⟨{ s with read := w.length, parsed := false, hdr := [], dataFound := true }, by simp [goOn, feed_nil], ?_⟩
      have e : settle { s with read := w.length, parsed := false, hdr := [], dataFound := true } = { s with read := w.length, parsed := false, hdr := [], dataFound := true } := by
        unfold settle; rw [if_neg (by simp)]
      rw [e]
      exact ⟨⟨rfl, rfl, hw, hf⟩, rfl, rfl, rfl, rfl, fun _ => rfl⟩
    · rw [if_neg c0, if_neg c0]
      refine ⟨{ s with read := w.length, parsed := false, hdr := [] }, by simp [goOn, feed_nil], ?_⟩
      have e : settle { s with read := w.length, parsed := false, hdr := [] } = { s with read := w.length, parsed := false, hdr := [] } := by
        unfold settle; rw [if_neg (by simp)]
      rw [e]
      exact ⟨⟨rfl, rfl, hw, hf⟩, rfl, rfl, rfl, rfl, fun h => h.resolve_left c0⟩

/-- A frame of headers. -/
theorem feed_headers {s : DS} {w : Bytes} (hp : s.parsed = true) (hw : s.wt = false) (h0 : s.read = 0) (hl : s.len = w.length) (hf : s.frame = []) (h1 : s.ty = 1)
    (hn : w ≠ []) : feed s w = goOn (endHeaders s w w.length []) feed := by
  have hi : Inv s := fun h => by rw [hp] at h; cases h
  rw [feed_cons hi hn, parse_contents hp, contents_whole hw h0 hl hf, if_pos h1]

theorem feed_check_ok {s s1 : DS} (hs : Ready s) {p q : Bytes} {t n : Nat} (hp : Varint p t) (hq : Varint q n) (w : Bytes)
    (hc : check { s with hdr := p ++ q } t n w = .ok s1 w []) : feed s (p ++ (q ++ w)) = feed s1 w := by
  rw [← List.append_assoc, feed_front hs hp hq w, hc]
  simp [goOn]

theorem feed_check_err {s : DS} (hs : Ready s) {p q : Bytes} {t n c : Nat} (hp : Varint p t) (hq : Varint q n) (w : Bytes)
    (hc : check { s with hdr := p ++ q } t n w = .err c) : feed s (p ++ (q ++ w)) = ([], .err c) := by
  rw [← List.append_assoc, feed_front hs hp hq w, hc]
  rfl

/-- A frame that the model and the specification agree about. -/
structure Plain (data : Bool) (m : H3Msg Parts) (f : H3Frame) : Prop where
  push : f.ty ≠ 5
  wt : f.ty ≠ 0x41
  some : f.ty = 1 → f.payload ≠ []
  len : f.ty = 1 → f.payload.length ≤ 0x10000
  between : f.ty = 1 → m.header.isSome → data = true

/-- One frame. -/
theorem feed_frame {m : H3Msg Parts} {data : Bool} {s : DS} (hm : Match m data s) {f : H3Frame} {bs : Bytes} (hb : H3FrameBytes f bs) (hf : Plain data m f) :
    match (generalizing := false) h3Next decode m f with
    | some m' => ∃ s' d, feed s bs = (d, .ok s') ∧ Match m' (data || decide (f.ty = 0)) (settle s') ∧ m'.body = m.body ++ d
    | none => ∀ d s', feed s bs ≠ (d, .ok s') := by
  obtain ⟨p, q, rfl, hp, hq⟩ := hb
  have hr := hm.ready
  have hrw : s.wt = false := hr.2.2.1
  by_cases t0 : f.ty = 0
  · unfold h3Next
    rw [if_pos t0]
    by_cases c : m.header.isSome = true ∧ m.trailer.isNone = true
    · rw [if_pos c]
      dsimp only
      have hck : check { s with hdr := p ++ q } f.ty f.payload.length f.payload = .ok { s with hdr := p ++ q, ty := f.ty, len := f.payload.length, read := 0, parsed := true } f.payload [] := by
        unfold check
        dsimp only
        rw [if_pos t0, if_neg]
        rw [hm.hf, hm.tf, hrw, c.1]
        have := c.2
        cases ht : m.trailer with
        | none => simp
        | some x => rw [ht] at this; cases this
      rw [feed_check_ok hr hp hq _ hck]
      obtain ⟨s', e1, e2, e3, e4, e5, e6, e7⟩ := feed_body (s := { s with hdr := p ++ q, ty := f.ty, len := f.payload.length, read := 0, parsed := true }) (w := f.payload)
        rfl hrw rfl rfl hr.2.2.2 (by show f.ty ≠ 1; omega)
      refine ⟨s', _, e1, ⟨e2, ?_, ?_, ?_, ?_, ?_, hm.ord⟩, ?_⟩
      · rw [e3]; exact hm.hf
      · rw [e4]; exact hm.tf
      · intro x hx; rw [e5]; exact hm.hv x hx
      · intro x hx; rw [e6]; exact hm.tv x hx
      · intro _; exact e7 (.inl t0)
      · rw [if_pos (show f.ty = 0 from t0)]
    · rw [if_neg c]
      intro d s'
      have hck : check { s with hdr := p ++ q } f.ty f.payload.length f.payload = .err 0x105 := by
        unfold check
        dsimp only
        rw [if_pos t0, if_pos]
        rw [hm.hf, hm.tf]
        cases h1 : m.header <;> cases h2 : m.trailer <;> simp_all
      rw [feed_check_err hr hp hq _ hck]
      intro h; cases h
  · by_cases t1 : f.ty = 1
    · have hpl := hf.some t1
      have hfin : ∀ s1 : DS, s1 = { s with hdr := p ++ q, ty := f.ty, len := f.payload.length, read := 0, parsed := true } →
          feed s1 f.payload = goOn (endHeaders s1 f.payload f.payload.length []) feed := by
        intro s1 hs1
        subst hs1
        exact feed_headers rfl hrw rfl rfl hr.2.2.2 t1 hpl
      have hck : s.headerFound = false ∨ (s.dataFound = true ∧ s.trailerFound = false) →
          check { s with hdr := p ++ q } f.ty f.payload.length f.payload = .ok { s with hdr := p ++ q, ty := f.ty, len := f.payload.length, read := 0, parsed := true } f.payload [] := by
        intro h
        unfold check
        dsimp only
        rw [if_neg t0, if_pos t1, if_neg, if_neg (by have := hf.len t1; omega)]
        rw [hrw]
        rcases h with h | ⟨h, h'⟩
        · rw [h]; simp
        · rw [h, h']; simp
      have hck' : s.headerFound = true → s.trailerFound = true → check { s with hdr := p ++ q } f.ty f.payload.length f.payload = .err 0x105 := by
        intro h h'
        unfold check
        dsimp only
        rw [if_neg t0, if_pos t1, if_pos]
        rw [h, h']; simp
      unfold h3Next
      rw [if_neg t0, if_pos t1]
      cases hd : decode f.payload with
      | none =>
        dsimp only
        intro d s' h
        by_cases c : s.headerFound = false ∨ (s.dataFound = true ∧ s.trailerFound = false)
        · rw [feed_check_ok hr hp hq _ (hck c), hfin _ rfl] at h
          unfold endHeaders at h
          unfold decode at hd
          cases hpf : parseFrame f.payload with
          | ok x => rw [hpf] at hd; cases hd
          | err => rw [hpf] at h; cases h
          | ub => rw [hpf] at h; cases h
        · have c1 : s.headerFound = true := by cases h1 : s.headerFound <;> simp_all
          have c2 : m.header.isSome = true := by rw [← hm.hf]; exact c1
          have c3 := hm.df (hf.between t1 c2)
          have c4 : s.trailerFound = true := by cases h1 : s.trailerFound <;> simp_all
          rw [feed_check_err hr hp hq _ (hck' c1 c4)] at h
          cases h
      | some x =>
        dsimp only
        have hpf : parseFrame f.payload = .ok x := by
          unfold decode at hd
          cases hpf : parseFrame f.payload with
          | ok y => rw [hpf] at hd; cases hd; rfl
          | err => rw [hpf] at hd; cases hd
          | ub => rw [hpf] at hd; cases hd
        by_cases c1 : m.header.isNone = true
        · have c1' : m.header = none := by simpa using c1
          have c1s : s.headerFound = false := by rw [hm.hf, c1']; rfl
          rw [if_pos c1]
          dsimp only
          rw [feed_check_ok hr hp hq _ (hck (.inl c1s)), hfin _ rfl]
          unfold endHeaders
          rw [hpf]
          dsimp only
          rw [if_neg (by rw [c1s]; decide)]
          refine ⟨{ s with hdr := [], ty := f.ty, len := f.payload.length, read := f.payload.length, parsed := false, frame := [], trailerFound := s.headerFound, headerFound := true, header := x }, [], by simp [goOn, feed_nil], ?_, by simp⟩
          have e : ∀ z : DS, z.parsed = false → settle z = z := by
            intro z hz; unfold settle; rw [if_neg (by rw [hz]; simp)]
          rw [e _ rfl]
          refine ⟨⟨rfl, rfl, hrw, rfl⟩, rfl, ?_, ?_, ?_, ?_, ?_⟩
          · show s.headerFound = m.trailer.isSome
            rw [c1s]
            rw [hm.ord c1']; rfl
          · intro y hy; cases hy; rfl
          · exact hm.tv
          · intro h; rw [Bool.or_eq_true] at h; exact hm.df (h.resolve_right (by simp [t0]))
          · intro h; cases h
        · have c1' : m.header.isSome = true := by cases h : m.header <;> simp_all
          have c1s : s.headerFound = true := by rw [hm.hf, c1']
          rw [if_neg c1]
          by_cases c2 : m.trailer.isNone = true
          · have c2' : s.trailerFound = false := by rw [hm.tf]; cases h : m.trailer <;> simp_all
            have c3 := hm.df (hf.between t1 c1')
            rw [if_pos c2]
            dsimp only
            rw [feed_check_ok hr hp hq _ (hck (.inr ⟨c3, c2'⟩)), hfin _ rfl]
            unfold endHeaders
            rw [hpf]
            dsimp only
            rw [if_pos c1s]
            refine ⟨{ s with hdr := [], ty := f.ty, len := f.payload.length, read := f.payload.length, parsed := false, frame := [], trailerFound := s.headerFound, headerFound := true, trailer := x }, [], by simp [goOn, feed_nil], ?_, by simp⟩
            have e : ∀ z : DS, z.parsed = false → settle z = z := by
              intro z hz; unfold settle; rw [if_neg (by rw [hz]; simp)]
            rw [e _ rfl]
            refine ⟨⟨rfl, rfl, hrw, rfl⟩, c1'.symm, c1s, hm.hv, ?_, ?_, ?_⟩
            · intro y hy; cases hy; rfl
            · intro _; exact c3
            · intro h
              have h : m.header = none := h
              rw [h] at c1'; cases c1'
          · have c2' : s.trailerFound = true := by rw [hm.tf]; cases h : m.trailer <;> simp_all
            rw [if_neg c2]
            dsimp only
            intro d s' h
            rw [feed_check_err hr hp hq _ (hck' c1s c2')] at h
            cases h
    · unfold h3Next
      rw [if_neg t0, if_neg t1]
      by_cases c : f.ty = 3 ∨ f.ty = 4 ∨ f.ty = 5 ∨ f.ty = 7 ∨ f.ty = 13
      · rw [if_pos c]
        dsimp only
        intro d s' h
        have hck : ∃ e, check { s with hdr := p ++ q } f.ty f.payload.length f.payload = .err e := by
          unfold check
          dsimp only
          rw [if_neg t0, if_neg t1, if_neg hf.wt]
          by_cases c1 : f.ty = 3 ∨ f.ty = 7 ∨ f.ty = 0xd
          · rw [if_pos c1]; exact ⟨_, rfl⟩
          · rw [if_neg c1, if_pos (by have := hf.push; omega)]; exact ⟨_, rfl⟩
        obtain ⟨e, hck⟩ := hck
        rw [feed_check_err hr hp hq _ hck] at h
        cases h
      · rw [if_neg c]
        dsimp only
        have hck : check { s with hdr := p ++ q } f.ty f.payload.length f.payload = .ok { s with hdr := p ++ q, ty := f.ty, len := f.payload.length, read := 0, parsed := true } f.payload [] := by
          unfold check
          dsimp only
          rw [if_neg t0, if_neg t1, if_neg hf.wt, if_neg (by omega), if_neg (by omega)]
        rw [feed_check_ok hr hp hq _ hck]
        obtain ⟨s', e1, e2, e3, e4, e5, e6, e7⟩ := feed_body (s := { s with hdr := p ++ q, ty := f.ty, len := f.payload.length, read := 0, parsed := true }) (w := f.payload)
          rfl hrw rfl rfl hr.2.2.2 t1
        refine ⟨s', _, e1, ⟨e2, ?_, ?_, ?_, ?_, ?_, hm.ord⟩, ?_⟩
        · rw [e3]; exact hm.hf
        · rw [e4]; exact hm.tf
        · intro x hx; rw [e5]; exact hm.hv x hx
        · intro x hx; rw [e6]; exact hm.tv x hx
        · intro h; rw [Bool.or_eq_true] at h; exact e7 (.inr (hm.df (h.resolve_right (by simp [t0]))))
        · rw [if_neg (show ¬ f.ty = 0 from t0), List.append_nil]

theorem frame_ne_nil {f : H3Frame} {bs : Bytes} (h : H3FrameBytes f bs) : bs ≠ [] := by
  obtain ⟨p, q, rfl, ⟨k, hp⟩, -⟩ := h
  have := (varint_head hp).1
  simp [this]

theorem settle_ready {s : DS} (h : Ready s) : settle s = s := by
  unfold settle; rw [if_neg (by rw [h.1]; simp)]

/-- The frames that come behind those of `pre`. -/
def PlainAll (pre fs : List H3Frame) : Prop :=
  ∀ a f b, fs = a ++ f :: b → f.ty ≠ 5 ∧ f.ty ≠ 0x41 ∧ (f.ty = 1 → f.payload ≠ [] ∧ f.payload.length ≤ 0x10000 ∧
    ((∃ g ∈ pre ++ a, g.ty = 1) → ∃ g ∈ pre ++ a, g.ty = 0))

theorem feed_frames : ∀ (fs : List H3Frame) (bs : Bytes), H3Stream fs bs → ∀ (pre : List H3Frame) (m : H3Msg Parts) (s : DS), Inv s →
    Match m (pre.any (fun g => decide (g.ty = 0))) (settle s) → (m.header.isSome → ∃ g ∈ pre, g.ty = 1) → PlainAll pre fs →
    match (generalizing := false) h3Message decode m fs with
    | some m' => ∃ s' d, feed s bs = (d, .ok s') ∧ (∃ b, Match m' b (settle s')) ∧ m'.body = m.body ++ d
    | none => ∀ d s', feed s bs ≠ (d, .ok s') := by
  intro fs bs hst
  induction hst with
  | nil =>
    intro pre m s hi hm _ _
    unfold h3Message
    dsimp only
    exact ⟨s, [], rfl, ⟨_, hm⟩, by simp⟩
  | @cons f fs a b hf hrest ih =>
    intro pre m s hi hm hh hp
    have hi0 : Inv (settle s) := hm.ready.inv
    have hab : a ++ b ≠ [] := by simp [frame_ne_nil hf]
    have hpl : Plain (pre.any (fun g => decide (g.ty = 0))) m f := by
      obtain ⟨p1, p2, p3⟩ := hp [] f fs rfl
      refine ⟨p1, p2, fun h => (p3 h).1, fun h => (p3 h).2.1, fun h h' => ?_⟩
      obtain ⟨g, hg, hg'⟩ := (p3 h).2.2 (by simpa using hh h')
      rw [List.any_eq_true]
      exact ⟨g, by simpa using hg, by simpa using hg'⟩
    have hone := feed_frame hm hf hpl
    rw [feed_settle hi hab, feed_append _ _ _ hi0]
    unfold h3Message
    cases hn : h3Next decode m f with
    | none =>
      rw [hn] at hone
      dsimp only at hone ⊢
      intro d s' h
      generalize hx : feed (settle s) a = x at h hone
      obtain ⟨d1, r⟩ := x
      cases r with
      | ok s1 => exact hone d1 s1 rfl
      | err c => cases h
      | ub => cases h
    | some m1 =>
      rw [hn] at hone
      dsimp only at hone ⊢
      obtain ⟨s1, d1, e1, hm1, eb⟩ := hone
      have hi1 : Inv s1 := feed_inv hi0 e1
      have hm1' : Match m1 ((pre ++ [f]).any (fun g => decide (g.ty = 0))) (settle s1) := by simpa using hm1
      have hh1 : m1.header.isSome → ∃ g ∈ pre ++ [f], g.ty = 1 := by
        intro h
        by_cases t1 : f.ty = 1
        · exact ⟨f, by simp, t1⟩
        · have : m.header.isSome = true := by
            unfold h3Next at hn
            rw [if_neg t1] at hn
            split at hn
            · split at hn
              · cases hn; exact h
              · cases hn
            · split at hn
              · cases hn
              · cases hn; exact h
          obtain ⟨g, hg, hg'⟩ := hh this
          exact ⟨g, by simp [hg], hg'⟩
      have hp1 : PlainAll (pre ++ [f]) fs := by
        intro a' g b' he
        have := hp (f :: a') g b' (by rw [he]; rfl)
        simpa using this
      have hnext := ih (pre ++ [f]) m1 s1 hi1 hm1' hh1 hp1
      rw [e1]
      cases hr : h3Message decode m1 fs with
      | none =>
        rw [hr] at hnext
        dsimp only at hnext ⊢
        intro d s' h
        unfold andThen at h
        dsimp only at h
        have h2 := congrArg Prod.snd h
        exact hnext (feed s1 b).1 s' (Prod.ext rfl h2)
      | some m' =>
        rw [hr] at hnext
        dsimp only at hnext ⊢
        obtain ⟨s', d, k1, k2, k3⟩ := hnext
        refine ⟨s', d1 ++ d, ?_, k2, ?_⟩
        · unfold andThen; dsimp only; rw [k1]
        · rw [k3, eb, List.append_assoc]

theorem settle_fields (s : DS) : (settle s).headerFound = s.headerFound ∧ (settle s).trailerFound = s.trailerFound ∧ (settle s).header = s.header ∧ (settle s).trailer = s.trailer := by
  unfold settle
  repeat' split
  all_goals exact ⟨rfl, rfl, rfl, rfl⟩

/-! ### Web transport -/

theorem feed_wt {s : DS} (hp : s.parsed = true) (hw : s.wt = true) (w : Bytes) : feed s w = (w, .ok s) := by
  cases hn : w with
  | nil => rfl
  | cons b w' =>
    rw [feed_cons (fun h => by rw [hp] at h; cases h) (List.cons_ne_nil _ _), parse_contents hp]
    unfold contents
    rw [if_pos hw]
    simp [goOn, feed_nil]

/-! ### Clients -/

/-- The bytes written. -/
def writes (evs : List CEv) : Bytes := (evs.map (fun e => match e with | .write d => d | _ => [])).flatten

theorem writes_append (a b : List CEv) : writes (a ++ b) = writes a ++ writes b := by
  unfold writes; rw [List.map_append, List.flatten_append]

theorem writes_header (r : Bool) (c : Cli) : writes (cliHeader r c).2 = [] ∧ (cliHeader r c).1.ds = c.ds ∧ (cliHeader r c).1.file = c.file ∧ (cliHeader r c).1.noDisk = c.noDisk ∧
    (c.requested = false → (cliHeader r c).1.requested = false ∧ (cliHeader r c).1.upgraded = c.upgraded) ∧ ∀ code, CEv.close code ∉ (cliHeader r c).2 := by
  unfold cliHeader
  split
  · dsimp only
    repeat' split
    all_goals simp_all [writes]
  · simp [writes]

theorem cliLoop_spec (r : Bool) : ∀ (n : Nat) (c : Cli) (bs : Bytes), c.file = true → c.noDisk = false → c.requested = false →
    match (generalizing := false) loop n c.ds bs with
    | (d, .ok s) => ∃ c' evs, cliLoop r n c bs = some (c', evs) ∧ writes evs = d ∧ c'.ds = s ∧ c'.file = true ∧ c'.noDisk = false ∧ c'.requested = false ∧
        c'.upgraded = c.upgraded ∧ ∀ code, CEv.close code ∉ evs
    | (d, .err code) => ∃ c' evs, cliLoop r n c bs = some (c', evs ++ [.close code]) ∧ writes evs = d ∧ ∀ code, CEv.close code ∉ evs
    | (_, .ub) => cliLoop r n c bs = none := by
  intro n
  induction n with
  | zero =>
    intro c bs h1 h2 h3
    cases bs with
    | nil => exact ⟨c, [], rfl, rfl, rfl, h1, h2, h3, rfl, by simp⟩
    | cons b bs => rfl
  | succ n ih =>
    intro c bs h1 h2 h3
    cases bs with
    | nil => exact ⟨c, [], rfl, rfl, rfl, h1, h2, h3, rfl, by simp⟩
    | cons b bs =>
      unfold loop cliLoop
      cases hpar : parse c.ds (b :: bs) with
      | err code => exact ⟨c, [], rfl, rfl, by simp⟩
      | ub => rfl
      | ok s' rest data =>
        dsimp only
        obtain ⟨w1, w2, w3, w4, w5, w6⟩ := writes_header r { c with ds := s' }
        obtain ⟨w5, w5'⟩ := w5 h3
        generalize cliHeader r { c with ds := s' } = hh at *
        obtain ⟨c1, ev1⟩ := hh
        dsimp only at *
        rw [w4, w3, h1, h2]
        have hi := ih c1 rest (w3.trans h1) (w4.trans h2) w5
        rw [w2] at hi
        have hwr : writes (if data = [] ∨ (false = true) then ([] : List CEv) else [.write data]) = data ∧ ∀ code, CEv.close code ∉ (if data = [] ∨ (false = true) then ([] : List CEv) else [.write data]) := by
          by_cases hd : data = []
          · rw [if_pos (.inl hd), hd]; exact ⟨rfl, by simp⟩
          · rw [if_neg (by simp [hd])]; exact ⟨by simp [writes], by simp⟩
        rw [if_neg (by simp)]
        generalize (if data = [] ∨ (false = true) then ([] : List CEv) else [.write data]) = ws at hwr ⊢
        generalize loop n s' rest = x at hi ⊢
        obtain ⟨d, res⟩ := x
        cases res with
        | ok s =>
          dsimp only at hi ⊢
          obtain ⟨c', evs, k1, k2, k3, k4, k5, k6, k7, k8⟩ := hi
          rw [k1]
          refine ⟨c', ev1 ++ ws ++ evs, rfl, ?_, k3, k4, k5, k6, k7.trans w5', ?_⟩
          · rw [writes_append, writes_append, w1, hwr.1, k2]; rfl
          · intro code; simp [w6, hwr.2, k8]
        | err code =>
          dsimp only at hi ⊢
          obtain ⟨c', evs, k1, k2, k8⟩ := hi
          rw [k1]
          refine ⟨c', ev1 ++ ws ++ evs, by simp, ?_, ?_⟩
          · rw [writes_append, writes_append, w1, hwr.1, k2]; rfl
          · intro code; simp [w6, hwr.2, k8]
        | ub =>
          dsimp only at hi ⊢
          rw [hi]

theorem cliAll_spec : ∀ (ps : List Bytes) (c : Cli) (d : Bytes) (s : DS), c.file = true → c.noDisk = false → c.requested = false → c.upgraded = false →
    feedAll c.ds ps = (d, .ok s) → ∃ c' evs, cliAll c ps = some (c', evs) ∧ writes evs = d ∧ c'.ds = s ∧ ∀ code, CEv.close code ∉ evs := by
  intro ps
  induction ps with
  | nil =>
    intro c d s _ _ _ _ h
    cases h
    exact ⟨c, [], rfl, rfl, rfl, by simp⟩
  | cons p ps ih =>
    intro c d s h1 h2 h3 h4 h
    rw [feedAll_cons] at h
    have hl := cliLoop_spec (!c.ds.headerFound) (2 * p.length + 1) c p h1 h2 h3
    change match (generalizing := false) feed c.ds p with | (d, .ok s) => _ | (d, .err code) => _ | (_, .ub) => _ at hl
    generalize feed c.ds p = x at h hl
    obtain ⟨d1, res⟩ := x
    cases res with
    | err code => cases h
    | ub => cases h
    | ok s1 =>
      dsimp only at hl
      obtain ⟨c1, evs, k1, k2, k3, k4, k5, k6, k7, k8⟩ := hl
      unfold andThen at h
      dsimp only at h
      have hs : feedAll c1.ds ps = ((feedAll s1 ps).1, .ok s) := by
        have h2 := congrArg Prod.snd h
        rw [k3]; exact Prod.ext rfl h2
      obtain ⟨c2, evs2, j1, j2, j3, j4⟩ := ih c1 _ s k4 k5 k6 (k7.trans h4) hs
      unfold cliAll cliData
      rw [if_neg (by rw [h4]; decide), k1]
      dsimp only
      rw [if_neg (by decide), j1]
      refine ⟨c2, evs ++ evs2, rfl, ?_, j3, ?_⟩
      · rw [writes_append, k2, j2]; exact congrArg Prod.fst h
      · intro code; simp [k8, j4]

end Picoquic.H3Data
