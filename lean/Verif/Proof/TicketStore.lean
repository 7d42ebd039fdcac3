import Verif.Spec.TicketStore
import Verif.Proof.TokenFile
/-!
# Session tickets: proofs
-/

namespace Picoquic.TicketStore
open Picoquic Picoquic.Spec Picoquic.TokenStore

theorem read32_some {bs : Bytes} {i : Nat} (h : i + 4 ≤ bs.length) : ∃ n, read32 bs i = some n := by
  obtain ⟨x, hx, hl⟩ := read_some h
  match x, hl with
  | [a, b, c, d], _ => exact ⟨_, by rw [read32, hx]⟩

theorem read8_some {bs : Bytes} {i : Nat} (h : i + 1 ≤ bs.length) : ∃ n, read8 bs i = some n := by
  obtain ⟨x, hx, hl⟩ := read_some h
  match x, hl with
  | [a], _ => exact ⟨_, by rw [read8, hx]⟩

theorem read64s_some {bs : Bytes} : ∀ (n i : Nat), i + 8 * n ≤ bs.length → ∃ xs, read64s bs i n = some xs
  | 0, _, _ => ⟨[], rfl⟩
  | n + 1, i, h => by
    obtain ⟨x, hx⟩ := read64_some (bs := bs) (i := i) (by omega)
    obtain ⟨xs, hxs⟩ := read64s_some (bs := bs) n (i + 8) (by omega)
    exact ⟨x :: xs, by rw [read64s, hx, hxs]⟩

/-- `k` bytes of the fixed parts are ahead, and all strings are before the required length. -/
def ParseOk (bs : Bytes) (k : Nat) (d : Parse) : Prop :=
  (d.required < bs.length → d.index + k = d.required) ∧ d.sni.1 + d.sni.2 ≤ d.required ∧ d.alpn.1 + d.alpn.2 ≤ d.required ∧
    d.ip.1 + d.ip.2 ≤ d.required ∧ d.client.1 + d.client.2 ≤ d.required ∧ d.ticket.1 + d.ticket.2 ≤ d.required

theorem parse1_ok (bs : Bytes) : ∃ d, parse1 bs {} = some d ∧ ParseOk bs 90 d := by
  rw [parse1]
  by_cases h : ({} : Parse).required < bs.length
  · have h' : 100 < bs.length := h
    obtain ⟨e, he⟩ := read64_some (bs := bs) (i := 0) (by omega)
    obtain ⟨n, hn, _⟩ := read16_some (bs := bs) (i := 8) (by omega)
    rw [if_pos h, he, hn]
    exact ⟨_, rfl, by simp only [ParseOk]; omega⟩
  · rw [if_neg h]; exact ⟨_, rfl, by refine ⟨fun h' => absurd h' h, ?_⟩; decide⟩

theorem parse2_ok {bs : Bytes} {d : Parse} (hd : ParseOk bs 90 d) : ∃ d', parse2 bs d = some d' ∧ ParseOk bs 88 d' := by
  rw [parse2]
  by_cases h : d.required < bs.length
  · have := hd.1 h
    obtain ⟨n, hn, _⟩ := read16_some (bs := bs) (i := d.index) (by omega)
    rw [if_pos h, hn]
    refine ⟨_, rfl, ?_⟩
    simp only [ParseOk] at hd ⊢; omega
  · rw [if_neg h]; exact ⟨_, rfl, fun h' => absurd h' h, hd.2⟩

theorem parse3_ok {bs : Bytes} {d : Parse} (hd : ParseOk bs 88 d) : ∃ d', parse3 bs d = some d' ∧ ParseOk bs 84 d' := by
  rw [parse3]
  by_cases h : d.required < bs.length
  · have := hd.1 h
    obtain ⟨n, hn⟩ := read32_some (bs := bs) (i := d.index) (by omega)
    rw [if_pos h, hn]
    refine ⟨_, rfl, ?_⟩
    simp only [ParseOk] at hd ⊢; omega
  · rw [if_neg h]; exact ⟨_, rfl, fun h' => absurd h' h, hd.2⟩

theorem parse4_ok {bs : Bytes} {d : Parse} (hd : ParseOk bs 84 d) : ∃ d', parse4 bs d = some d' ∧ ParseOk bs 83 d' := by
  rw [parse4]
  by_cases h : d.required < bs.length
  · have := hd.1 h
    obtain ⟨n, hn⟩ := read8_some (bs := bs) (i := d.index) (by omega)
    rw [if_pos h, hn]
    refine ⟨_, rfl, ?_⟩
    simp only [ParseOk] at hd ⊢; omega
  · rw [if_neg h]; exact ⟨_, rfl, fun h' => absurd h' h, hd.2⟩

theorem parse5_ok {bs : Bytes} {d : Parse} (hd : ParseOk bs 83 d) : ∃ d', parse5 bs d = some d' ∧ ParseOk bs 82 d' := by
  rw [parse5]
  by_cases h : d.required < bs.length
  · have := hd.1 h
    obtain ⟨n, hn⟩ := read8_some (bs := bs) (i := d.index) (by omega)
    rw [if_pos h, hn]
    refine ⟨_, rfl, ?_⟩
    simp only [ParseOk] at hd ⊢; omega
  · rw [if_neg h]; exact ⟨_, rfl, fun h' => absurd h' h, hd.2⟩

theorem parse6_ok {bs : Bytes} {d : Parse} (hd : ParseOk bs 82 d) : ∃ d', parse6 bs d = some d' ∧ ParseOk bs 2 d' := by
  rw [parse6]
  by_cases h : d.required < bs.length
  · have := hd.1 h
    obtain ⟨n, hn⟩ := read64s_some (bs := bs) 10 d.index (by omega)
    rw [if_pos h, hn]
    refine ⟨_, rfl, ?_⟩
    simp only [ParseOk] at hd ⊢; omega
  · rw [if_neg h]; exact ⟨_, rfl, fun h' => absurd h' h, hd.2⟩

theorem parse7_ok {bs : Bytes} {d : Parse} (hd : ParseOk bs 2 d) :
    ∃ d', parse7 bs d = some d' ∧ d'.sni.1 + d'.sni.2 ≤ d'.required ∧ d'.alpn.1 + d'.alpn.2 ≤ d'.required ∧
    d'.ip.1 + d'.ip.2 ≤ d'.required ∧ d'.client.1 + d'.client.2 ≤ d'.required ∧ d'.ticket.1 + d'.ticket.2 ≤ d'.required := by
  rw [parse7]
  by_cases h : d.required < bs.length
  · have := hd.1 h
    obtain ⟨n, hn, _⟩ := read16_some (bs := bs) (i := d.index) (by omega)
    rw [if_pos h, hn]
    refine ⟨_, rfl, ?_⟩
    simp only [ParseOk] at hd ⊢; omega
  · rw [if_neg h]; exact ⟨_, rfl, hd.2⟩

theorem parseEnd_in {bs : Bytes} {d : Parse} (h : d.sni.1 + d.sni.2 ≤ d.required ∧ d.alpn.1 + d.alpn.2 ≤ d.required ∧
    d.ip.1 + d.ip.2 ≤ d.required ∧ d.client.1 + d.client.2 ≤ d.required ∧ d.ticket.1 + d.ticket.2 ≤ d.required) :
    parseEnd bs d ≠ .outside ∧ ∀ t n, parseEnd bs d = .ok t n → n ≤ bs.length := by
  rw [parseEnd]
  by_cases hr : d.required > bs.length
  · rw [if_pos hr]; exact ⟨(fun h => nomatch h), fun _ _ h => nomatch h⟩
  · obtain ⟨h1, h2, h3, h4, h5⟩ := h
    obtain ⟨x1, e1, _⟩ := read_some (Nat.le_trans h1 (by omega : d.required ≤ bs.length))
    obtain ⟨x2, e2, _⟩ := read_some (Nat.le_trans h2 (by omega : d.required ≤ bs.length))
    obtain ⟨x3, e3, _⟩ := read_some (Nat.le_trans h3 (by omega : d.required ≤ bs.length))
    obtain ⟨x4, e4, _⟩ := read_some (Nat.le_trans h4 (by omega : d.required ≤ bs.length))
    obtain ⟨x5, e5, _⟩ := read_some (Nat.le_trans h5 (by omega : d.required ≤ bs.length))
    rw [if_neg hr, e1, e2, e3, e4, e5]
    refine ⟨(fun h => nomatch h), fun t n h => ?_⟩
    injection h with _ h; omega

/-- No read is outside of the bytes, and no more than the bytes are consumed. -/
theorem deserialize_in (bs : Bytes) : deserialize bs ≠ .outside ∧ ∀ t n, deserialize bs = .ok t n → n ≤ bs.length := by
  obtain ⟨d1, e1, o1⟩ := parse1_ok bs
  obtain ⟨d2, e2, o2⟩ := parse2_ok o1
  obtain ⟨d3, e3, o3⟩ := parse3_ok o2
  obtain ⟨d4, e4, o4⟩ := parse4_ok o3
  obtain ⟨d5, e5, o5⟩ := parse5_ok o4
  obtain ⟨d6, e6, o6⟩ := parse6_ok o5
  obtain ⟨d7, e7, o7⟩ := parse7_ok o6
  rw [deserialize, e1, Option.bind_some, e2, Option.bind_some, e3, Option.bind_some, e4, Option.bind_some, e5, Option.bind_some, e6, Option.bind_some, e7]
  exact parseEnd_in o7

theorem flat_length : ∀ l : List Nat, ((l.map picoformat64).flatten).length = 8 * l.length
  | [] => rfl
  | x :: l => by
    rw [List.map_cons, List.flatten_cons, List.length_append, flat_length l, List.length_cons]
    simp only [picoformat64, List.length_cons, List.length_nil]; omega

theorem serialize_length {t : Ticket} (hc : t.tp.length = 10) {room : Nat} {r : Bytes} (h : serialize t room = some r) : r.length = t.size ∧ t.size ≤ room := by
  rw [serialize] at h
  split at h
  · cases h
  · cases h
    refine ⟨?_, by omega⟩
    simp only [List.length_append, flat_length, hc, Ticket.size, picoformat64, picoformat32, picoformat16, List.length_cons, List.length_nil]; omega

theorem serialize_some {t : Ticket} {room : Nat} (h : t.size ≤ room) : ∃ r, serialize t room = some r := by
  rw [serialize, if_neg (by omega)]; exact ⟨_, rfl⟩

theorem read64_append' {p q : Bytes} {i n : Nat} (hi : i = p.length) (hn : n < 2 ^ 64) : read64 (p ++ (picoformat64 n ++ q)) i = some n := by
  rw [read64, read_append hi (show 8 = (picoformat64 n).length from rfl)]
  simp only [picoformat64]
  rw [parse64_format hn]

theorem read32_append {p q : Bytes} {i n : Nat} (hi : i = p.length) (hn : n < 2 ^ 32) : read32 (p ++ (picoformat32 n ++ q)) i = some n := by
  rw [read32, read_append hi (show 4 = (picoformat32 n).length from rfl)]
  simp only [picoformat32]
  rw [parse32_eq]
  simp only [u8_toNat, Nat.shiftRight_eq_div_pow]
  congr 1; omega

theorem read8_append {p q : Bytes} {i n : Nat} (hi : i = p.length) (hn : n < 256) : read8 (p ++ ([u8 n] ++ q)) i = some n := by
  rw [read8, read_append hi (show 1 = [u8 n].length from rfl)]
  simp only [u8_toNat]
  congr 1; omega

theorem read64s_append : ∀ (l : List Nat) (p q : Bytes) (i : Nat), i = p.length → (∀ x ∈ l, x < 2 ^ 64) →
    read64s (p ++ ((l.map picoformat64).flatten ++ q)) i l.length = some l
  | [], _, _, _, _, _ => rfl
  | x :: l, p, q, i, hi, hl => by
    have e : p ++ (((x :: l).map picoformat64).flatten ++ q) = p ++ (picoformat64 x ++ ((l.map picoformat64).flatten ++ q)) := by
      rw [List.map_cons, List.flatten_cons, List.append_assoc]
    have e2 : p ++ (picoformat64 x ++ ((l.map picoformat64).flatten ++ q)) = (p ++ picoformat64 x) ++ ((l.map picoformat64).flatten ++ q) := by
      rw [List.append_assoc]
    rw [List.length_cons, read64s, e, read64_append' hi (hl x (List.mem_cons_self ..)), e2,
      read64s_append l (p ++ picoformat64 x) q (i + 8) (by rw [List.length_append, hi]; rfl) (fun y hy => hl y (List.mem_cons_of_mem _ hy))]

/-- What was serialized is parsed back, but for the address of the server without one of the client. -/
theorem deserialize_serialize {t : Ticket} (ht : StorableTicket t) {room : Nat} {r : Bytes} (h : serialize t room = some r) (tail : Bytes) :
    deserialize (r ++ tail) = .ok { asFiled t with used := false } r.length := by
  have hl := (serialize_length ht.count h).1
  obtain ⟨h1, h2, h3, h4, h5, h6, h7, h8, h9, h10⟩ := ht
  have hL : 100 + t.sni.length + t.alpn.length + t.ticket.length + t.ip.length + t.client.length ≤ (r ++ tail).length := by
    rw [List.length_append, hl, Ticket.size]; omega
  have e0 (n : Nat) : (picoformat64 n).length = 8 := rfl
  have e1 (n : Nat) : (picoformat16 n).length = 2 := rfl
  have e2 (n : Nat) : (picoformat32 n).length = 4 := rfl
  have hb : r ++ tail = picoformat64 t.expiry ++ picoformat16 t.sni.length ++ t.sni ++ picoformat16 t.alpn.length ++ t.alpn ++ picoformat32 t.version ++
    [u8 t.ip.length] ++ t.ip ++ [u8 t.client.length] ++ t.client ++ (t.tp.map picoformat64).flatten ++ picoformat16 t.ticket.length ++ t.ticket ++ tail := by
    rw [serialize] at h
    split at h
    · cases h
    · cases h; rfl
  simp only [List.append_assoc] at hb
  have g1 : read64 (r ++ tail) 0 = some t.expiry := by rw [hb]; exact read64_append h1
  have g2 : read16 (r ++ tail) 8 = some t.sni.length := by rw [hb]; exact read16_append (e0 _).symm h2
  have sh {A B C : Bytes} (h : r ++ tail = A ++ (B ++ C)) : r ++ tail = (A ++ B) ++ C := by rw [h, List.append_assoc]
  have b3 := sh hb
  have b4 := sh b3
  have b5 := sh b4
  have b6 := sh b5
  have b7 := sh b6
  have b8 := sh b7
  have b9 := sh b8
  have b10 := sh b9
  have b11 := sh b10
  have b12 := sh b11
  have b13 := sh b12
  have g3 : read (r ++ tail) 10 t.sni.length = some t.sni := by
    rw [b3]; exact read_append (by simp only [List.length_append, e0, e1]) rfl
  have g4 : read16 (r ++ tail) (10 + t.sni.length) = some t.alpn.length := by
    rw [b4]; exact read16_append (by simp only [List.length_append, e0, e1]) h3
  have g5 : read (r ++ tail) (10 + t.sni.length + 2) t.alpn.length = some t.alpn := by
    rw [b5]; exact read_append (by simp only [List.length_append, e0, e1]) rfl
  have g6 : read32 (r ++ tail) (10 + t.sni.length + 2 + t.alpn.length) = some t.version := by
    rw [b6]; exact read32_append (by simp only [List.length_append, e0, e1]) h4
  have g7 : read8 (r ++ tail) (10 + t.sni.length + 2 + t.alpn.length + 4) = some t.ip.length := by
    rw [b7]; exact read8_append (by simp only [List.length_append, e0, e1, e2]) (by omega)
  have g8 : read (r ++ tail) (10 + t.sni.length + 2 + t.alpn.length + 4 + 1) t.ip.length = some t.ip := by
    rw [b8]; exact read_append (by simp only [List.length_append, e0, e1, e2, List.length_cons, List.length_nil]) rfl
  have g9 : read8 (r ++ tail) (10 + t.sni.length + 2 + t.alpn.length + 4 + 1 + t.ip.length) = some t.client.length := by
    rw [b9]; exact read8_append (by simp only [List.length_append, e0, e1, e2, List.length_cons, List.length_nil]) (by omega)
  have g10 : read (r ++ tail) (10 + t.sni.length + 2 + t.alpn.length + 4 + 1 + t.ip.length + 1) t.client.length = some t.client := by
    rw [b10]; exact read_append (by simp only [List.length_append, e0, e1, e2, List.length_cons, List.length_nil]) rfl
  have g11 : read64s (r ++ tail) (10 + t.sni.length + 2 + t.alpn.length + 4 + 1 + t.ip.length + 1 + t.client.length) 10 = some t.tp := by
    rw [b11]
    have := read64s_append t.tp (q := picoformat16 t.ticket.length ++ (t.ticket ++ tail)) (i := 10 + t.sni.length + 2 + t.alpn.length + 4 + 1 + t.ip.length + 1 + t.client.length)
      (p := picoformat64 t.expiry ++ picoformat16 t.sni.length ++ t.sni ++ picoformat16 t.alpn.length ++ t.alpn ++ picoformat32 t.version ++ [u8 t.ip.length] ++ t.ip ++ [u8 t.client.length] ++ t.client)
      (by simp only [List.length_append, e0, e1, e2, List.length_cons, List.length_nil]) h8
    rw [h7] at this
    exact this
  have g12 : read16 (r ++ tail) (10 + t.sni.length + 2 + t.alpn.length + 4 + 1 + t.ip.length + 1 + t.client.length + 80) = some t.ticket.length := by
    rw [b12]; exact read16_append (by simp only [List.length_append, e0, e1, e2, List.length_cons, List.length_nil, flat_length, h7]) h10
  have g13 : read (r ++ tail) (10 + t.sni.length + 2 + t.alpn.length + 4 + 1 + t.ip.length + 1 + t.client.length + 80 + 2) t.ticket.length = some t.ticket := by
    rw [b13]; exact read_append (by simp only [List.length_append, e0, e1, e2, List.length_cons, List.length_nil, flat_length, h7]) rfl
  rw [deserialize, parse1, if_pos (show 100 < _ by omega), g1, g2]
  dsimp only [Option.bind_some]
  rw [parse2, if_pos (by dsimp only; omega)]
  dsimp only
  rw [g4]
  dsimp only [Option.bind_some]
  rw [parse3, if_pos (by dsimp only; omega)]
  dsimp only
  rw [g6]
  dsimp only [Option.bind_some]
  rw [parse4, if_pos (by dsimp only; omega)]
  dsimp only
  rw [g7]
  dsimp only [Option.bind_some]
  rw [parse5, if_pos (by dsimp only; omega)]
  dsimp only
  rw [g9]
  dsimp only [Option.bind_some]
  rw [parse6, if_pos (by dsimp only; omega)]
  dsimp only
  rw [g11]
  dsimp only [Option.bind_some]
  rw [parse7, if_pos (by dsimp only; omega)]
  dsimp only
  rw [g12]
  dsimp only
  rw [parseEnd, if_neg (by dsimp only; omega)]
  dsimp only
  rw [g3, g5, g8, g10, g13, hl, Ticket.size]
  dsimp only
  rw [format, asFiled, List.take_of_length_le (by simp only [IP_MAX]; omega), List.take_of_length_le (by simp only [IP_MAX]; omega)]
  congr 1
  · congr 1
    simp only [List.length_eq_zero_iff]
  · omega

/-- The records that are saved. -/
def saved (now : Nat) (s : List Ticket) : List Ticket := s.filter (fun t => decide (now < t.expiry) && !t.used)

theorem loadLoop_cons {now fuel : Nat} {r rest : Bytes} {t : Ticket} (hn : r.length ≤ 1928) (hd : deserialize r = .ok t r.length) :
    loadLoop now (fuel + 1) (le32 r.length ++ r ++ rest) =
      if t.expiry < now then loadLoop now fuel rest
      else (t :: (loadLoop now fuel rest).1, (loadLoop now fuel rest).2) := by
  have h1 : ¬ (r.length > 2048 ∨ r.length + OFFSET > 2048) := by simp only [OFFSET]; omega
  have h2 : ¬ (r ++ rest).length < r.length := by rw [List.length_append]; omega
  have h3 : ¬ (r.length ≠ r.length) := fun h => h rfl
  have h4 : loadBody r.length (r ++ rest) = .record t rest := by
    rw [loadBody, if_neg h1, if_neg h2, List.take_left, List.drop_left, hd]
    dsimp only
    rw [if_neg h3]
  have h5 : loadRecord (le32 r.length ++ r ++ rest) = .record t rest := by
    simp only [le32, List.cons_append, List.nil_append]
    rw [loadRecord, parseLe32_le32 (by omega), h4]
  rw [loadLoop, h5]

theorem loadLoop_save (now later : Nat) : ∀ (s : List Ticket) (fuel : Nat), (∀ t ∈ s, StorableTicket t ∧ t.size ≤ 1928) → (save now s).1.length < fuel →
    (save now s).2 = true ∧ loadLoop later fuel (save now s).1 = (((saved now s).filter (fun t => decide (later ≤ t.expiry))).map asFiled, true)
  | [], fuel, _, hf => by
    match fuel, hf with
    | fuel + 1, _ => exact ⟨rfl, rfl⟩
  | t :: s, fuel, hs, hf => by
    have hs' : ∀ t ∈ s, StorableTicket t ∧ t.size ≤ 1928 := fun t h => hs t (List.mem_cons_of_mem _ h)
    obtain ⟨ht, hsz⟩ := hs t (List.mem_cons_self ..)
    rw [save] at hf ⊢
    by_cases hc : t.expiry > now ∧ t.used = false
    · rw [if_pos hc] at hf ⊢
      obtain ⟨r, hr⟩ := serialize_some (t := t) (room := 2048) (by omega)
      have hl := (serialize_length ht.count hr).1
      rw [hr] at hf ⊢
      dsimp only at hf ⊢
      obtain ⟨fuel, rfl⟩ : ∃ k, fuel = k + 1 := ⟨fuel - 1, by omega⟩
      have hf' : (save now s).1.length < fuel := by
        simp only [List.length_append, le32, List.length_cons, List.length_nil] at hf; omega
      obtain ⟨i1, i2⟩ := loadLoop_save now later s fuel hs' hf'
      refine ⟨i1, ?_⟩
      have hd := deserialize_serialize ht hr []
      rw [List.append_nil] at hd
      rw [loadLoop_cons (by omega) hd, i2]
      have hu : ({ asFiled t with used := false } : Ticket) = asFiled t := by
        cases t; simp only at hc; simp only [asFiled]; rw [hc.2]
      have hx' : (asFiled t).expiry = t.expiry := rfl
      rw [hu, hx']
      have : saved now (t :: s) = t :: saved now s := by
        rw [saved, List.filter_cons_of_pos (by simp [hc])]; rfl
      rw [this]
      by_cases hx : t.expiry < later
      · rw [if_pos hx, List.filter_cons_of_neg (by simp; omega)]
      · rw [if_neg hx, List.filter_cons_of_pos (by simp; omega), List.map_cons]
    · rw [if_neg hc] at hf ⊢
      have : saved now (t :: s) = saved now s := by
        rw [saved, List.filter_cons_of_neg]; · rfl
        intro h
        rw [Bool.and_eq_true, decide_eq_true_eq, Bool.not_eq_true'] at h
        exact hc h
      rw [this]
      exact loadLoop_save now later s fuel hs' hf

/-- A saved store is loaded. -/
theorem load_save {now later : Nat} {s : List Ticket} (hs : ∀ t ∈ s, StorableTicket t ∧ t.size ≤ 1928) :
    (save now s).2 = true ∧ load later [] (save now s).1 = (((saved now s).filter (fun t => decide (later ≤ t.expiry))).map asFiled, true) := by
  obtain ⟨h1, h2⟩ := loadLoop_save now later s _ hs (Nat.lt_succ_self _)
  refine ⟨h1, ?_⟩
  rw [load, h2]
  simp only
  split
  · next h => rw [h]
  · rfl

/-- A file whose first record is too large to be loaded. -/
theorem load_large {now later : Nat} {t : Ticket} (old s : List Ticket) (hc : t.tp.length = 10) (ht : t.expiry > now) (hu : t.used = false)
    (h1 : 1929 ≤ t.size) (h2 : t.size ≤ 2048) : load later old (save now (t :: s)).1 = (old, false) := by
  obtain ⟨r, hr⟩ := serialize_some h2
  have hl := (serialize_length hc hr).1
  rw [save, if_pos ⟨ht, hu⟩, hr, load]
  dsimp only
  have h3 : loadRecord (le32 r.length ++ r ++ (save now s).1) = .invalid := by
    simp only [le32, List.cons_append, List.nil_append]
    rw [loadRecord, parseLe32_le32 (by omega), loadBody, if_pos (by simp only [OFFSET]; omega)]
  rw [loadLoop, h3]
  rfl

end Picoquic.TicketStore
