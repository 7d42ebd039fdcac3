import Verif.Proof.TokenStore
/-!
# C23 and C24: the store of address validation tokens
-/

namespace Picoquic.Props
open Picoquic Picoquic.TokenStore Picoquic.Spec

/-- **C23**, serialization. A token that can be stored is written in any buffer of at least its size, and whatever
follows, what is parsed back has the same server name, address, token and expiry time, and the length consumed
is the length written. -/
theorem C23_roundtrip (t : Token) (ht : Storable t) (room : Nat)
    (hr : 14 + t.sni.length + t.ip.length + t.token.length ≤ room) :
    ∃ r, serialize t room = some r ∧ r.length = 14 + t.sni.length + t.ip.length + t.token.length ∧
      ∀ tail, deserialize (r ++ tail) = .ok ⟨t.expiry, t.sni, t.ip, t.token, false⟩ r.length := by
  obtain ⟨r, h⟩ := serialize_some (t := t) hr
  exact ⟨r, h, (serialize_length h).1, fun tail => deserialize_serialize ht h tail⟩

/-- **C23**, bounds. Serialization never writes more than the room that it has. -/
theorem C23_room (t : Token) (room : Nat) (r : Bytes) (h : serialize t room = some r) : r.length ≤ room := by
  have := serialize_length h; omega

/-- **C23**, bounds. Parsing any bytes does not read outside of them. -/
theorem C23_in_bounds (bs : Bytes) : deserialize bs ≠ .outside := deserialize_in bs

/-- **C23**, files. If no record of the store is larger than 2016 bytes, saving succeeds, loading the file
succeeds, and a new process gets exactly the records that are unused, had not expired when the file was saved
and have not expired when it is loaded, in the same order.
Missing from the full statement: the records of 2017 to 2048 bytes, for which it is false
(`C23_file_violated`); those of more than 2048 bytes are not saved and saving reports it
(`C23_file_too_large`). -/
theorem C23_file_partial (now later : Nat) (s : List Token)
    (hs : ∀ t ∈ s, Storable t ∧ 14 + t.sni.length + t.ip.length + t.token.length ≤ 2016) :
    (save now s).2 = true ∧
    load later [] (save now s).1 =
      (s.filter (fun t => decide (now < t.expiry) && !t.used && decide (later ≤ t.expiry)), true) := by
  have h := load_save (now := now) (later := later) (s := s) hs []
  refine ⟨h.1, h.2.2.trans ?_⟩
  rw [saved, List.filter_filter]
  congr 1
  refine List.filter_congr fun t _ => ?_
  rw [Bool.and_comm]

/-- **C23**, negation of the part about files: whatever follows in the store, if its first record takes between 2017 and
2048 bytes, it is written to the file, but loading the file fails, and nothing is loaded of it. (The function that loads
adds to the size the offset of a field, as if the record was stored in memory as in the file.) -/
theorem C23_file_violated (now later : Nat) (t : Token) (s old : List Token) (ht : now < t.expiry)
    (hu : t.used = false) (h1 : 2017 ≤ 14 + t.sni.length + t.ip.length + t.token.length)
    (h2 : 14 + t.sni.length + t.ip.length + t.token.length ≤ 2048)
    (hs : ∀ t ∈ s, Storable t ∧ 14 + t.sni.length + t.ip.length + t.token.length ≤ 2016) :
    (save now (t :: s)).2 = true ∧ load later old (save now (t :: s)).1 = (old, false) := by
  refine ⟨?_, load_large old s ht hu h1 h2⟩
  obtain ⟨r, hr⟩ := serialize_some (t := t) h2
  rw [save, if_pos ⟨ht, hu⟩, hr]
  exact (load_save (now := now) (later := later) hs []).1

/-- **C23**, files: saving reports a record that it cannot save. -/
theorem C23_file_too_large (now : Nat) (t : Token) (ht : now < t.expiry) (hu : t.used = false)
    (h : 2048 < 14 + t.sni.length + t.ip.length + t.token.length) : ∀ s : List Token, t ∈ s → (save now s).2 = false
  | a :: s, hm => by
    rw [save]
    rcases List.mem_cons.1 hm with rfl | hm
    · have : serialize t 2048 = none := by rw [serialize, if_pos (by exact h)]
      rw [if_pos ⟨ht, hu⟩, this]
    · have ih := C23_file_too_large now t ht hu h s hm
      split
      · cases serialize a 2048 with
        | none => rfl
        | some r => exact ih
      · exact ih

/-- **C24**, what is returned. A token returned at time `now` for a server (and an address, if one is given) was stored
for that server (and that address) less than 24 hours before, and nothing was stored since for that
server and the address of the token. -/
theorem C24_get (last now : Nat) (ops : List TokenOp) (h : TokenHistory last ops) (sni ip : Bytes) (mark : Bool)
    (x : Bytes) (hg : (get now (tokenRun ops) sni ip mark).2 = some x) :
    ∃ pre t0 ip0 post, ops = pre ++ .store t0 sni ip0 x :: post ∧ (ip ≠ [] → ip0 = ip) ∧ now < t0 + DAY ∧
      ∀ t1 x1, TokenOp.store t1 sni ip0 x1 ∉ post := by
  have hi := inv_of h
  rcases get_first (now := now) (sni := sni) (ip := ip) (mark := mark) hi.order
    (fun t ht => (hi.fits t ht).1.token.1) with ⟨g, _⟩ | ⟨l1, t, l2, g1, ⟨k1, k2, k3, k4⟩, _, g⟩
  · rw [g] at hg; cases hg
  · rw [g] at hg
    cases hg
    obtain ⟨pre, t0, post, e1, e2, e3⟩ := hi.origin t (by rw [g1]; simp)
    refine ⟨pre, t0, t.ip, post, by rw [e1, k2], fun hne => ?_, by omega, by rw [← k2]; exact e3⟩
    rcases k4 with k4 | k4
    · exact absurd k4 hne
    · exact k4

/-- **C24**, tokens are used once. When a token is returned, whether it is to be marked or not, it was stored more times
for that server than it was already returned and marked. In particular a token that is stored once is not returned
again after it was returned and marked. -/
theorem C24_once (last now : Nat) (ops : List TokenOp) (h : TokenHistory last ops) (sni ip : Bytes) (mark : Bool)
    (x : Bytes) (hg : (get now (tokenRun ops) sni ip mark).2 = some x) :
    timesUsed sni x ops < timesStored sni x ops := by
  have hi := inv_of h
  rcases get_first (now := now) (sni := sni) (ip := ip) (mark := mark) hi.order
    (fun t ht => (hi.fits t ht).1.token.1) with ⟨g, _⟩ | ⟨l1, t, l2, g1, ⟨k1, k2, k3, k4⟩, _, g⟩
  · rw [g] at hg; cases hg
  · rw [g] at hg
    cases hg
    have hc := hi.count sni t.token
    have : 0 < unused sni t.token (tokenRun ops) := by
      rw [unused, List.countP_pos_iff]
      exact ⟨t, by rw [g1]; simp, by simp [k2, k3]⟩
    omega

/-- **C24**, the newest token. The last token stored for a server and an address is returned
for that server and address as long as it has not expired, and nothing was marked for that server and
address. If nothing was stored since for that server, it is also what is returned when no address is given;
otherwise something stored since may be returned. -/
theorem C24_newest (last now : Nat) (pre post : List TokenOp) (t0 : Nat) (sni ip x : Bytes)
    (h : TokenHistory last (pre ++ .store t0 sni ip x :: post)) (hl : last ≤ now) (hn : now < t0 + DAY)
    (hr : ∀ t1 x1, TokenOp.store t1 sni ip x1 ∉ post)
    (hm : ∀ t1 ip1, TokenOp.get t1 sni ip1 true ∈ post → ip1 ≠ [] ∧ ip1 ≠ ip) (mark : Bool) :
    (ip ≠ [] → (get now (tokenRun (pre ++ .store t0 sni ip x :: post)) sni ip mark).2 = some x) ∧
    ((∀ t1 ip1 x1, TokenOp.store t1 sni ip1 x1 ∉ post) →
      (get now (tokenRun (pre ++ .store t0 sni ip x :: post)) sni [] mark).2 = some x) ∧
    ((get now (tokenRun (pre ++ .store t0 sni ip x :: post)) sni [] mark).2).isSome := by
  have hi := inv_of h
  obtain ⟨l1, l2, e1, e2⟩ := remains h pre t0 sni ip x post rfl (by omega) hr (fun op ho ⟨t1, ip1, e, k⟩ => by
    subst e
    have := hm t1 ip1 ho
    rcases k with k | k
    · exact this.1 k
    · exact this.2 k)
  have key : ∀ ip', (ip' = [] ∨ ip = ip') → (∀ a ∈ l1, ¬ Eligible now sni ip' a) →
      (get now (tokenRun (pre ++ .store t0 sni ip x :: post)) sni ip' mark).2 = some x := by
    intro ip' hip hno
    rcases get_first (now := now) (sni := sni) (ip := ip') (mark := mark) hi.order
      (fun t ht => (hi.fits t ht).1.token.1) with ⟨_, g⟩ | ⟨m1, t, m2, g1, g2, g3, g⟩
    · exact absurd ⟨hn, rfl, rfl, hip⟩ (g ⟨t0 + DAY, sni, ip, x, false⟩ (by rw [e1]; simp))
    · rw [g]
      rw [e1] at g1
      have : t = ⟨t0 + DAY, sni, ip, x, false⟩ := by
        rcases List.append_eq_append_iff.1 g1 with ⟨c, c1, c2⟩ | ⟨c, c1, c2⟩
        · cases c with
          | nil => simp only [List.nil_append, List.cons.injEq] at c2; exact c2.1.symm
          | cons y c =>
            simp only [List.cons_append, List.cons.injEq] at c2
            exact absurd ⟨hn, rfl, rfl, hip⟩ (g3 ⟨t0 + DAY, sni, ip, x, false⟩ (by rw [c1, ← c2.1]; simp))
        · cases c with
          | nil => simp only [List.nil_append, List.cons.injEq] at c2; exact c2.1
          | cons y c =>
            simp only [List.cons_append, List.cons.injEq] at c2
            exact absurd g2 (hno t (by rw [c1, ← c2.1]; simp))
      rw [this]
  refine ⟨fun hip => key ip (.inr rfl) fun a ha he => ?_, fun hs => key [] (.inl rfl) fun a ha he => ?_, ?_⟩
  · obtain ⟨t1, x1, hh⟩ := e2 a ha
    obtain ⟨_, k1, _, k2⟩ := he
    rcases k2 with k2 | k2
    · exact hip k2
    · rw [k1, k2] at hh; exact hr _ _ hh
  · obtain ⟨t1, x1, hh⟩ := e2 a ha
    rw [he.2.1] at hh
    exact hs _ _ _ hh
  · rcases get_first (now := now) (sni := sni) (ip := []) (mark := mark) hi.order
      (fun t ht => (hi.fits t ht).1.token.1) with ⟨_, g⟩ | ⟨m1, t, m2, g1, g2, g3, g⟩
    · exact absurd ⟨hn, rfl, rfl, .inl rfl⟩ (g ⟨t0 + DAY, sni, ip, x, false⟩ (by rw [e1]; simp))
    · rw [g]; rfl

/-! ## The hypotheses are met -/

/-- A record that can be stored. -/
example : Storable ⟨5, [1, 2], [10, 0, 0, 1], [7, 8, 9], false⟩ := by constructor <;> decide

example : serialize ⟨5, [1, 2], [10, 0, 0, 1], [7, 8, 9], false⟩ 100 =
    some [0, 0, 0, 0, 0, 0, 0, 5, 0, 2, 1, 2, 0, 4, 10, 0, 0, 1, 0, 3, 7, 8, 9] := by decide +kernel

/-- A file that is written and cannot be loaded. -/
example : (load 1 [] (save 1 [⟨5, [1], [], List.replicate 2002 7, false⟩]).1) = ([], false) := by
  have := C23_file_violated 1 1 ⟨5, [1], [], List.replicate 2002 7, false⟩ [] [] (by decide) rfl
    (by rw [List.length_replicate]; decide) (by rw [List.length_replicate]; decide) (by simp)
  exact this.2

/-- A history: two tokens for one server, one of them replaced; the other server has its own; one token is used;
the process restarts. -/
def someTokens : List TokenOp :=
  [.store 10 [1] [10, 0, 0, 1] [7], .store 20 [2] [] [8], .store 30 [1] [10, 0, 0, 1] [9], .store 40 [1] [10, 0, 0, 2] [6],
   .restart 50 60, .get 70 [1] [10, 0, 0, 2] true]

example : TokenHistory 70 someTokens := by
  have h4 : ∀ (n : Nat) (sni ip token : Bytes), n < 100 → 1 ≤ sni.length → sni.length < 100 → ip.length < 100 →
      1 ≤ token.length → token.length < 100 →
      Storable ⟨n + DAY, sni, ip, token, false⟩ ∧ sni.length + ip.length + token.length ≤ 2002 := by
    intro n sni ip token h0 h1 h2 h3 h4 h5
    exact ⟨⟨by simp only [DAY]; omega, ⟨h1, by simp only; omega⟩, by simp only; omega, ⟨h4, by simp only; omega⟩⟩, by omega⟩
  have e0 := TokenHistory.nil
  have e1 := TokenHistory.snoc (op := .store 10 [1] [10, 0, 0, 1] [7]) e0 (by decide) (by decide) (by decide)
    (by intro n s i t h; cases h; exact h4 _ _ _ _ (by decide) (by decide) (by decide) (by decide) (by decide) (by decide))
  have e2 := TokenHistory.snoc (op := .store 20 [2] [] [8]) e1 (by decide) (by decide) (by decide)
    (by intro n s i t h; cases h; exact h4 _ _ _ _ (by decide) (by decide) (by decide) (by decide) (by decide) (by decide))
  have e3 := TokenHistory.snoc (op := .store 30 [1] [10, 0, 0, 1] [9]) e2 (by decide) (by decide) (by decide)
    (by intro n s i t h; cases h; exact h4 _ _ _ _ (by decide) (by decide) (by decide) (by decide) (by decide) (by decide))
  have e4 := TokenHistory.snoc (op := .store 40 [1] [10, 0, 0, 2] [6]) e3 (by decide) (by decide) (by decide)
    (by intro n s i t h; cases h; exact h4 _ _ _ _ (by decide) (by decide) (by decide) (by decide) (by decide) (by decide))
  have e5 := TokenHistory.snoc (op := .restart 50 60) e4 (by decide) (by decide) (by decide)
    (by intro n s i t h; cases h)
  exact TokenHistory.snoc (op := .get 70 [1] [10, 0, 0, 2] true) e5 (by decide) (by decide) (by decide)
    (by intro n s i t h; cases h)

example : (get 80 (tokenRun someTokens) [1] [] true).2 = some [9] ∧ (get 80 (tokenRun someTokens) [1] [10, 0, 0, 2] true).2 = none ∧
    (get 80 (tokenRun someTokens) [2] [] false).2 = some [8] := by decide +kernel

end Picoquic.Props
