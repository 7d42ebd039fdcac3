import Verif.Proof.LocalCids
/-!
# Proofs about the connection IDs issued by this endpoint: numbers, limit, supply and retirement
-/

namespace Picoquic.LocalCids
open Picoquic Picoquic.Spec

/-! ## Numbers -/

/-- The next number of a connection. -/
def nextOf : Option Conn → Nat
  | none => 0
  | some c => c.next

/-- The numbers issued are those from 0 to the next one. -/
def Num (e : Endpoint) (notes : List Note) : Prop := ∀ n, numbers n notes = List.range (nextOf (e.conns n))

theorem numbers_snoc (n : Nat) (notes : List Note) (x : Note) :
    numbers n (notes ++ [x]) = numbersStep n (numbers n notes) x := by
  unfold numbers
  rw [List.foldl_append]
  rfl

theorem Num.replace {e : Endpoint} {notes : List Note} (i : Num e notes) {n : Nat} {c' : Option Conn}
    (h : nextOf c' = nextOf (e.conns n)) (t : List (Bytes × Nat)) : Num (withConn e n c' t) notes := by
  intro m
  rw [i m]
  show _ = List.range (nextOf (setConn e n c' m))
  by_cases hm : m = n
  · rw [hm, setConn_same, h]
  · rw [setConn_other e hm]

theorem Num.issue {e : Endpoint} {notes : List Note} (i : Num e notes) {n now rp : Nat} {c c1 : Conn} {l : Local}
    {t t1 : List (Bytes × Nat)} {ps : List Bytes} (hc : nextOf (e.conns n) = c.next)
    (h : create t n c now ps = some (t1, c1, l)) :
    Num (withConn e n (some c1) t1) (notes ++ [.issued n l.seq rp l.cid]) := by
  obtain ⟨_, h2, _, h4⟩ := create_spec h
  intro m
  rw [numbers_snoc]
  show (if n = m then numbers m notes ++ [l.seq] else numbers m notes) = List.range (nextOf (setConn e n (some c1) m))
  by_cases hm : m = n
  · subst hm
    rw [if_pos rfl, setConn_same, i m, hc, h2, h4]
    show _ = List.range (c.next + 1)
    rw [List.range_succ]
  · rw [if_neg (fun h => hm h.symm), setConn_other e hm]
    exact i m

theorem Num.other {e : Endpoint} {notes : List Note} (i : Num e notes) {x : Note}
    (h : ∀ n s, numbersStep n s x = s) : Num e (notes ++ [x]) := by
  intro m
  rw [numbers_snoc, h]
  exact i m

theorem issueLoop_num (n now : Nat) (turns : List (List Bytes × Bool)) : ∀ (e : Endpoint) (notes : List Note)
    (t : List (Bytes × Nat)) (c : Conn), Num e notes → e.conns n = some c →
    Num (withConn e n (some (issueLoop n now turns t c).2.1) (issueLoop n now turns t c).1)
      (notes ++ (issueLoop n now turns t c).2.2) := by
  induction turns with
  | nil =>
    intro e notes t c i hc
    show Num (withConn e n (some c) t) (notes ++ [])
    rw [List.append_nil]
    exact i.replace (by rw [hc]) t
  | cons turn rest ih =>
    obtain ⟨ps, fits⟩ := turn
    intro e notes t c i hc
    unfold issueLoop
    by_cases hw : wants c = true
    · rw [if_pos hw]
      cases hcr : create t n c now ps with
      | none =>
        dsimp only
        rw [List.append_nil]
        exact i.replace (by rw [hc]) t
      | some r =>
        obtain ⟨t1, c1, l⟩ := r
        dsimp only
        cases fits with
        | true =>
          have i1 := i.issue (rp := c1.retireBefore) (by rw [hc]; rfl) hcr
          have h2 := ih (withConn e n (some c1) t1) _ t1 c1 i1 (setConn_same e n (some c1))
          rw [withConn_withConn, List.append_assoc] at h2
          exact h2
        | false =>
          rw [if_neg Bool.false_ne_true]
          dsimp only
          rw [List.append_nil]
          apply i.replace
          rw [hc, (create_spec hcr).2.2.2]
          rfl
    · rw [if_neg hw]
      dsimp only
      rw [List.append_nil]
      exact i.replace (by rw [hc]) t

theorem delete_next (t : List (Bytes × Nat)) (c : Conn) (l : Local) : (delete t c l).2.next = c.next := rfl

theorem retire_next (t : List (Bytes × Nat)) (c : Conn) (q : Nat) : (retire t c q).2.next = c.next := by
  unfold retire
  cases c.list.find? (fun l => decide (l.seq = q)) <;> rfl

theorem decodeRetire_next (t : List (Bytes × Nat)) (n : Nat) (c : Conn) (q : Nat) :
    (decodeRetire t n c q).2.1.next = c.next := by
  unfold decodeRetire
  by_cases h : c.first = some q
  · rw [if_pos h]
  · rw [if_neg h]; exact retire_next t c q

theorem arrive_next (c : Conn) (dest : Bytes) (b : Bool) : (arrive c dest b).next = c.next := by
  rw [(arrive_first c dest b).1]

theorem checkTtl_next (c : Conn) (now ttl : Nat) : (checkTtl c now ttl).next = c.next := by
  unfold checkTtl
  by_cases h : (now + 2 ^ 64 - c.oldest) % 2 ^ 64 ≥ ttl
  · rw [if_pos h]
  · rw [if_neg h]

theorem Num.retireNotes {e : Endpoint} {notes : List Note} (i : Num e notes) (t : List (Bytes × Nat)) (n : Nat)
    (c : Conn) (q : Nat) : Num e (notes ++ (decodeRetire t n c q).2.2) := by
  unfold decodeRetire
  by_cases h : c.first = some q
  · rw [if_pos h]; exact i.other (fun _ _ => rfl)
  · rw [if_neg h]
    dsimp only
    by_cases h2 : q ∈ c.list.map Local.seq
    · rw [if_pos h2]; exact i.other (fun _ _ => rfl)
    · rw [if_neg h2, List.append_nil]; exact i

theorem step_num {e : Endpoint} {notes : List Note} (i : Num e notes) (ev : Event) :
    Num (step e ev).1 (notes ++ (step e ev).2) := by
  have hsame : Num e (notes ++ []) := by rw [List.append_nil]; exact i
  cases ev with
  | «open» n now limit ps pref =>
    unfold step
    dsimp only
    cases hc : e.conns n with
    | some c => exact hsame
    | none =>
      dsimp only
      cases hcr : create e.table n { limit := limit % 2 ^ 32 } now ps with
      | none => exact hsame
      | some r =>
        obtain ⟨t1, c1, l1⟩ := r
        dsimp only
        have i1 := i.issue (rp := 0) (by rw [hc]; rfl) hcr
        have i2 := i1.replace (c' := some { c1 with first := some l1.seq })
          (by rw [show (withConn e n (some c1) t1).conns n = some c1 from setConn_same e n (some c1)]; rfl) t1
        rw [withConn_withConn] at i2
        cases hpr : pref.bind (create t1 n { c1 with first := some l1.seq } now) with
        | none => exact i2
        | some r2 =>
          obtain ⟨t2, c2, l2⟩ := r2
          dsimp only
          cases pref with
          | none => cases hpr
          | some ps2 =>
            have i3 := i2.issue (rp := 0) (by
              rw [show (withConn e n (some { c1 with first := some l1.seq }) t1).conns n = _ from setConn_same e n _]
              rfl) hpr
            rw [withConn_withConn, List.append_assoc] at i3
            exact i3
  | issue n now ttl turns =>
    unfold step
    dsimp only
    cases hc : e.conns n with
    | none => exact hsame
    | some c =>
      dsimp only
      by_cases hcl : c.closed = true
      · rw [if_pos hcl]; exact hsame
      · rw [if_neg hcl]
        have i1 := i.replace (n := n) (c' := some (checkTtl c now ttl))
          (by rw [hc]; exact checkTtl_next c now ttl) e.table
        have i2 := issueLoop_num n now turns _ notes e.table (checkTtl c now ttl) i1 (setConn_same e n _)
        rw [withConn_withConn] at i2
        exact i2
  | packet dest b q =>
    unfold step
    dsimp only
    cases hl : lookup e.table dest with
    | none => exact hsame
    | some n =>
      dsimp only
      cases hc : e.conns n with
      | none => exact hsame
      | some c =>
        dsimp only
        by_cases hcl : c.closed = true
        · rw [if_pos hcl]; exact hsame
        · rw [if_neg hcl]
          exact (i.replace (n := n) (c' := some (decodeRetire e.table n (arrive c dest b) q).2.1)
            (by rw [hc]; exact (decodeRetire_next _ _ _ _).trans (arrive_next c dest b))
            (decodeRetire e.table n (arrive c dest b) q).1).retireNotes _ _ _ _
  | close n =>
    unfold step
    dsimp only
    cases hc : e.conns n with
    | none => exact hsame
    | some c =>
      intro m
      show numbers m (notes ++ [.deleted n]) = List.range (nextOf (setConn e n none m))
      rw [numbers_snoc]
      show (if n = m then [] else numbers m notes) = _
      by_cases hm : m = n
      · rw [if_pos hm.symm, hm, setConn_same]; rfl
      · rw [if_neg (fun h => hm h.symm), setConn_other e hm]; exact i m

theorem run_num (evs : List Event) : ∀ {e : Endpoint} {notes : List Note}, Num e notes →
    Num (run e evs).1 (notes ++ (run e evs).2) := by
  induction evs with
  | nil =>
    intro e notes i
    show Num e (notes ++ [])
    rw [List.append_nil]; exact i
  | cons ev rest ih =>
    intro e notes i
    have h := ih (step_num i ev)
    rw [List.append_assoc] at h
    exact h

theorem num_of_reached {e : Endpoint} {notes : List Note} (h : Reached e notes) : Num e notes := by
  obtain ⟨evs, h⟩ := h
  have := run_num evs (e := {}) (notes := []) (fun _ => rfl)
  rw [h] at this
  exact this

/-! ## Limit -/

theorem usable_conn {e : Endpoint} {notes : List Note} (i : Inv e notes) {n : Nat} {c : Conn} (rp : Nat)
    (hc : e.conns n = some c) :
    usable (known notes) n rp = (c.list.filter (fun l => decide (rp ≤ l.seq))).length := by
  unfold usable
  have h1 : (known notes).filter (fun k => decide (k.conn = n ∧ rp ≤ k.seq)) =
      ((known notes).filter (fun k => decide (k.conn = n))).filter (fun k => decide (rp ≤ k.seq)) := by
    rw [List.filter_filter]
    congr 1
    funext k
    by_cases h : k.conn = n <;> simp [h]
  rw [h1, i.known n, hc]
  unfold ofConn
  dsimp only
  rw [List.filter_map, List.length_map]
  rfl

theorem filter_split (list : List Local) (rp : Nat) :
    (list.filter (fun l => decide (rp ≤ l.seq))).length + (list.filter (fun l => decide (l.seq < rp))).length =
      list.length := by
  induction list with
  | nil => rfl
  | cons l rest ih =>
    by_cases h : rp ≤ l.seq
    · rw [List.filter_cons_of_pos (by simpa using h), List.filter_cons_of_neg (by simpa using h)]
      simp only [List.length_cons]; omega
    · rw [List.filter_cons_of_neg (by simpa using h), List.filter_cons_of_pos (by simpa using h)]
      simp only [List.length_cons]; omega

theorem toInt_le (n : Nat) : toInt n ≤ n := by
  unfold toInt
  split <;> omega

theorem wants_spec {c : Conn} (h : wants c = true) :
    (c.nb : Int) < toInt c.limit + c.nbExpired ∧ c.nb ≤ 8 + c.nbExpired := by
  unfold wants at h
  rw [Bool.and_eq_true, decide_eq_true_iff, decide_eq_true_iff] at h
  exact h

theorem issueLoop_limit (n now : Nat) (turns : List (List Bytes × Bool)) : ∀ (e : Endpoint) (notes : List Note)
    (c : Conn), Inv e notes → e.conns n = some c → ∀ (o1 o2 : List Note) (m q rp : Nat) (cid : Bytes),
    (issueLoop n now turns e.table c).2.2 = o1 ++ .issued m q rp cid :: o2 →
    m = n ∧ usable (known (notes ++ o1 ++ [.issued m q rp cid])) n rp ≤ c.limit ∧
      usable (known (notes ++ o1 ++ [.issued m q rp cid])) n rp ≤ 9 := by
  induction turns with
  | nil =>
    intro e notes c i hc o1 o2 m q rp cid h
    exact absurd h (by show [] ≠ _; cases o1 <;> simp)
  | cons turn rest ih =>
    obtain ⟨ps, fits⟩ := turn
    intro e notes c i hc o1 o2 m q rp cid h
    unfold issueLoop at h
    by_cases hw : wants c = true
    · rw [if_pos hw] at h
      cases hcr : create e.table n c now ps with
      | none => rw [hcr] at h; exact absurd h (by show [] ≠ _; cases o1 <;> simp)
      | some r =>
        obtain ⟨t1, c1, l⟩ := r
        rw [hcr] at h
        cases fits with
        | false => exact absurd h (by show [] ≠ _; cases o1 <;> simp)
        | true =>
          have i1 := i.issue (rp := c1.retireBefore) hc hcr
          have hc1 : (withConn e n (some c1) t1).conns n = some c1 := setConn_same e n (some c1)
          have hsp := (create_spec hcr).2.2.2
          replace h : Note.issued n l.seq c1.retireBefore l.cid :: (issueLoop n now rest t1 c1).2.2 =
            o1 ++ .issued m q rp cid :: o2 := h
          cases o1 with
          | nil =>
            injection h with h1 h2
            injection h1 with h1 h3 h4 h5
            subst h1 h3 h4 h5
            refine ⟨rfl, ?_⟩
            rw [List.append_nil, usable_conn i1 c1.retireBefore hc1]
            obtain ⟨w1, w2⟩ := wants_spec hw
            have hs := filter_split c1.list c1.retireBefore
            have g1 := i1.good n c1 hc1
            have hx := g1.expired
            have hnb := g1.nb
            have hl := toInt_le c.limit
            have e1 : c1.nb = c.nb + 1 := by rw [hsp]
            have e2 : c1.nbExpired = c.nbExpired := by rw [hsp]
            omega
          | cons a o1 =>
            injection h with h1 h2
            subst h1
            have := ih (withConn e n (some c1) t1) _ c1 i1 hc1 o1 o2 m q rp cid h2
            rw [List.append_assoc notes] at this
            rw [show c1.limit = c.limit by rw [hsp]] at this
            exact this
    · rw [if_neg hw] at h
      exact absurd h (by show [] ≠ _; cases o1 <;> simp)

/-! ## Supply -/

theorem choose_head {t : List (Bytes × Nat)} {cid : Bytes} {ps : List Bytes} (h : lookup t cid = none) :
    choose t 32 (cid :: ps) = some cid := by
  show (match lookup t cid with | none => some cid | some _ => _) = _
  rw [h]

theorem issueLoop_supply (n now : Nat) (turns : List (Bytes × List Bytes)) :
    ∀ (t : List (Bytes × Nat)) (c : Conn), c.limit < 2 ^ 31 → (turns.map Prod.fst).Nodup →
    (∀ p ∈ turns, lookup t p.1 = none) →
    min c.limit 9 ≤ (issueLoop n now (turns.map (fun p => (p.1 :: p.2, true))) t c).2.1.nb ∨
      c.nb + turns.length ≤ (issueLoop n now (turns.map (fun p => (p.1 :: p.2, true))) t c).2.1.nb := by
  induction turns with
  | nil => intro t c _ _ _; exact Or.inr (Nat.le_refl _)
  | cons p rest ih =>
    intro t c hlim hn hf
    rw [List.map_cons, List.nodup_cons] at hn
    have hp := hf p List.mem_cons_self
    rw [List.map_cons]
    unfold issueLoop
    by_cases hw : wants c = true
    · rw [if_pos hw]
      have hcr : create t n c now (p.1 :: p.2) = some (register t p.1 n,
          { c with list := c.list ++ [⟨c.next, p.1, now⟩], next := c.next + 1, nb := c.nb + 1,
                   oldest := if c.next = 0 then now else c.oldest }, ⟨c.next, p.1, now⟩) := by
        unfold create
        rw [choose_head hp]
      rw [hcr]
      dsimp only
      rw [if_pos rfl]
      dsimp only
      have hreg : register t p.1 n = (p.1, n) :: t := by
        unfold register
        rw [hp]
      rcases ih (register t p.1 n)
        { c with list := c.list ++ [⟨c.next, p.1, now⟩], next := c.next + 1, nb := c.nb + 1,
                 oldest := if c.next = 0 then now else c.oldest } (by exact hlim) hn.2 (by
        intro x hx
        rw [hreg]
        unfold lookup
        rw [if_neg (fun hh => hn.1 (by rw [hh]; exact List.mem_map_of_mem hx))]
        exact hf x (List.mem_cons_of_mem _ hx)) with h | h
      · exact Or.inl h
      · right
        refine Nat.le_trans ?_ h
        show c.nb + (rest.length + 1) ≤ c.nb + 1 + rest.length
        omega
    · rw [if_neg hw]
      left
      dsimp only
      unfold wants at hw
      rw [Bool.and_eq_true, decide_eq_true_iff, decide_eq_true_iff] at hw
      unfold toInt at hw
      rw [if_pos hlim] at hw
      omega

theorem count_conn {e : Endpoint} {notes : List Note} (i : Inv e notes) {n : Nat} {c : Conn}
    (hc : e.conns n = some c) : usable (known notes) n 0 = c.nb := by
  rw [usable_conn i 0 hc, (i.good n c hc).nb, List.filter_eq_self.mpr (by intro l _; simp)]

/-- A limit of 2^31 or more: no connection ID is wanted. -/
theorem wants_large {c : Conn} (g : Good c) (h : 2 ^ 31 ≤ c.limit) (h2 : c.limit < 2 ^ 32) : wants c = false := by
  cases hw : wants c with
  | false => rfl
  | true =>
    obtain ⟨w1, _⟩ := wants_spec hw
    unfold toInt at w1
    rw [if_neg (by omega)] at w1
    have := g.expired
    have h3 := List.length_filter_le (fun l => decide (l.seq < c.retireBefore)) c.list
    have := g.nb
    omega

theorem issueLoop_large (n now : Nat) (turns : List (List Bytes × Bool)) (t : List (Bytes × Nat)) {c : Conn}
    (h : wants c = false) : (issueLoop n now turns t c).2.2 = [] := by
  cases turns with
  | nil => rfl
  | cons a rest =>
    obtain ⟨ps, f⟩ := a
    unfold issueLoop
    rw [if_neg (by rw [h]; exact Bool.false_ne_true)]

/-- The limit has 32 bits. -/
def Small (e : Endpoint) : Prop := ∀ n c, e.conns n = some c → c.limit < 2 ^ 32

theorem Small.set {e : Endpoint} (h : Small e) {n : Nat} {c : Option Conn} (hc : ∀ x, c = some x → x.limit < 2 ^ 32)
    (t : List (Bytes × Nat)) : Small { conns := setConn e n c, table := t } := by
  intro m x hx
  by_cases hm : m = n
  · subst hm
    have : setConn e m c m = some x := hx
    rw [setConn_same] at this
    exact hc x this
  · exact h m x (by rw [← setConn_other e hm c]; exact hx)

theorem issueLoop_fixed (n now : Nat) (turns : List (List Bytes × Bool)) : ∀ (t : List (Bytes × Nat)) (c : Conn),
    (issueLoop n now turns t c).2.1.limit = c.limit := by
  induction turns with
  | nil => intro t c; rfl
  | cons a rest ih =>
    obtain ⟨ps, f⟩ := a
    intro t c
    unfold issueLoop
    by_cases hw : wants c = true
    · rw [if_pos hw]
      cases hcr : create t n c now ps with
      | none => rfl
      | some r =>
        obtain ⟨t1, c1, l⟩ := r
        dsimp only
        have h4 := (create_spec hcr).2.2.2
        cases f with
        | true =>
          rw [if_pos rfl]
          show (issueLoop n now rest t1 c1).2.1.limit = _
          rw [ih, h4]
        | false =>
          rw [if_neg Bool.false_ne_true]
          show c1.limit = _
          rw [h4]
    · rw [if_neg hw]

theorem decodeRetire_limit (t : List (Bytes × Nat)) (n : Nat) (c : Conn) (q : Nat) :
    (decodeRetire t n c q).2.1.limit = c.limit := by
  unfold decodeRetire
  by_cases h : c.first = some q
  · rw [if_pos h]
  · rw [if_neg h]
    dsimp only
    unfold retire
    cases c.list.find? (fun l => decide (l.seq = q)) <;> rfl

theorem step_small {e : Endpoint} (h : Small e) (ev : Event) : Small (step e ev).1 := by
  cases ev with
  | «open» n now limit ps pref =>
    unfold step
    dsimp only
    cases hc : e.conns n with
    | some c => exact h
    | none =>
      dsimp only
      cases hcr : create e.table n { limit := limit % 2 ^ 32 } now ps with
      | none => exact h
      | some r =>
        obtain ⟨t1, c1, l1⟩ := r
        dsimp only
        have h4 := (create_spec hcr).2.2.2
        have h5 : c1.limit < 2 ^ 32 := by rw [h4]; exact Nat.mod_lt _ (by decide)
        cases hpr : pref.bind (create t1 n { c1 with first := some l1.seq } now) with
        | none =>
          exact h.set (by intro x hx; rw [← Option.some.inj hx]; exact h5) t1
        | some r2 =>
          obtain ⟨t2, c2, l2⟩ := r2
          cases pref with
          | none => cases hpr
          | some ps2 =>
            have h6 := (create_spec hpr).2.2.2
            exact h.set (by intro x hx; rw [← Option.some.inj hx, h6]; exact h5) t2
  | issue n now ttl turns =>
    unfold step
    dsimp only
    cases hc : e.conns n with
    | none => exact h
    | some c =>
      dsimp only
      by_cases hcl : c.closed = true
      · rw [if_pos hcl]; exact h
      · rw [if_neg hcl]
        refine h.set ?_ _
        intro x hx
        rw [← Option.some.inj hx, issueLoop_fixed, (checkTtl_fields c now ttl).2.1]
        exact h n c hc
  | packet dest b q =>
    unfold step
    dsimp only
    cases hl : lookup e.table dest with
    | none => exact h
    | some n =>
      dsimp only
      cases hc : e.conns n with
      | none => exact h
      | some c =>
        dsimp only
        by_cases hcl : c.closed = true
        · rw [if_pos hcl]; exact h
        · rw [if_neg hcl]
          refine h.set ?_ _
          intro x hx
          rw [← Option.some.inj hx, decodeRetire_limit, (arrive_first c dest b).1]
          exact h n c hc
  | close n =>
    unfold step
    dsimp only
    cases hc : e.conns n with
    | none => exact h
    | some c => exact h.set (by intro x hx; cases hx) _

theorem small_of_reached {e : Endpoint} {notes : List Note} (h : Reached e notes) : Small e := by
  obtain ⟨evs, h⟩ := h
  have : ∀ (evs : List Event) (e : Endpoint), Small e → Small (run e evs).1 := by
    intro evs
    induction evs with
    | nil => exact fun e h => h
    | cons ev rest ih => exact fun e h => ih _ (step_small h ev)
  have := this evs {} (by intro n c hc; cases hc)
  rw [h] at this
  exact this

/-! ## Retirement -/

theorem find_own {c : Conn} (g : Good c) {l : Local} (hl : l ∈ c.list) :
    c.list.find? (fun x => decide (x.cid = l.cid)) = some l := by
  cases hf : c.list.find? (fun x => decide (x.cid = l.cid)) with
  | none => exact absurd (decide_eq_true rfl) (List.find?_eq_none.mp hf l hl)
  | some x =>
    obtain ⟨h1, h2⟩ := find_cid hf
    rw [g.cid_eq h1 hl h2]

theorem find_number {c : Conn} (g : Good c) {l : Local} (hl : l ∈ c.list) :
    c.list.find? (fun x => decide (x.seq = l.seq)) = some l := by
  cases hf : c.list.find? (fun x => decide (x.seq = l.seq)) with
  | none => exact absurd (decide_eq_true rfl) (List.find?_eq_none.mp hf l hl)
  | some x =>
    obtain ⟨h1, h2⟩ := find_seq hf
    rw [g.seq_eq h1 hl h2]

theorem step_packet {e : Endpoint} {dest : Bytes} {n : Nat} {c : Conn} (hl : lookup e.table dest = some n)
    (hc : e.conns n = some c) (hcl : c.closed = false) (b : Bool) (q : Nat) :
    step e (.packet dest b q) = (withConn e n (some (decodeRetire e.table n (arrive c dest b) q).2.1)
      (decodeRetire e.table n (arrive c dest b) q).1, (decodeRetire e.table n (arrive c dest b) q).2.2) := by
  unfold step
  dsimp only
  rw [hl]
  dsimp only
  rw [hc]
  dsimp only
  rw [hcl, if_neg Bool.false_ne_true]
  rfl

theorem lookup_unregister {t : List (Bytes × Nat)} (cid cid' : Bytes) :
    lookup (unregister t cid) cid' = if cid' = cid then none else lookup t cid' := by
  by_cases h : cid' = cid
  · rw [if_pos h, lookup_none]
    intro hh
    obtain ⟨p, hp, hp2⟩ := List.mem_map.mp hh
    exact (mem_unregister.mp hp).2 (hp2.trans h)
  · rw [if_neg h]
    unfold unregister
    induction t with
    | nil => rfl
    | cons p rest ih =>
      obtain ⟨k, v⟩ := p
      by_cases hk : k = cid
      · rw [List.filter_cons_of_neg (by simpa using hk), ih]
        have : k ≠ cid' := fun hh => h (hh.symm.trans hk)
        conv => rhs; unfold lookup
        rw [if_neg this]
      · rw [List.filter_cons_of_pos (by simpa using hk)]
        unfold lookup
        rw [ih]

end Picoquic.LocalCids
