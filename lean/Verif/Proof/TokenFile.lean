import Verif.Spec.TokenStore
import Verif.Proof.Fixed
/-!
# Serialization of tokens: proofs
-/

namespace Picoquic.TokenStore
open Picoquic Picoquic.Spec

theorem read_append {p x q : Bytes} {i n : Nat} (hi : i = p.length) (hn : n = x.length) :
    read (p ++ (x ++ q)) i n = some x := by
  subst hi hn
  rw [read, if_pos (by simp)]
  simp

theorem read_some {bs : Bytes} {i n : Nat} (h : i + n ≤ bs.length) : ∃ x, read bs i n = some x ∧ x.length = n := by
  refine ⟨_, if_pos h, ?_⟩
  simp; omega

theorem read16_some {bs : Bytes} {i : Nat} (h : i + 2 ≤ bs.length) : ∃ n, read16 bs i = some n ∧ n < 65536 := by
  obtain ⟨x, hx, hl⟩ := read_some h
  obtain ⟨a, b, rfl⟩ : ∃ a b, x = [a, b] := by
    match x, hl with
    | [a, b], _ => exact ⟨a, b, rfl⟩
  exact ⟨_, by rw [read16, hx], parse16_lt a b⟩

theorem read64_some {bs : Bytes} {i : Nat} (h : i + 8 ≤ bs.length) : ∃ n, read64 bs i = some n := by
  obtain ⟨x, hx, hl⟩ := read_some h
  match x, hl with
  | [a, b, c, d, e, f, g, k], _ => exact ⟨_, by rw [read64, hx]⟩

theorem parse16_format {n : Nat} (h : n < 2 ^ 16) : parse16 (u8 (n >>> 8)) (u8 n) = n := by
  rw [parse16_eq, u8_toNat, u8_toNat, Nat.shiftRight_eq_div_pow]; omega

theorem parse64_format {n : Nat} (h : n < 2 ^ 64) :
    parse64 (u8 (n >>> 56)) (u8 (n >>> 48)) (u8 (n >>> 40)) (u8 (n >>> 32)) (u8 (n >>> 24)) (u8 (n >>> 16))
      (u8 (n >>> 8)) (u8 n) = n := by
  rw [parse64_eq, parse32_eq, parse32_eq]
  simp only [u8_toNat, Nat.shiftRight_eq_div_pow]; omega

theorem read16_append {p q : Bytes} {i n : Nat} (hi : i = p.length) (hn : n < 2 ^ 16) :
    read16 (p ++ (picoformat16 n ++ q)) i = some n := by
  rw [read16, read_append hi (show 2 = (picoformat16 n).length from rfl)]
  simp only [picoformat16]
  rw [parse16_format hn]

theorem read64_append {q : Bytes} {n : Nat} (hn : n < 2 ^ 64) : read64 (picoformat64 n ++ q) 0 = some n := by
  have := read_append (p := []) (q := q) rfl (show 8 = (picoformat64 n).length from rfl)
  simp only [List.nil_append, List.length_nil] at this
  rw [read64, this]
  simp only [picoformat64]
  rw [parse64_format hn]

theorem serialize_length {t : Token} {room : Nat} {r : Bytes} (h : serialize t room = some r) :
    r.length = t.size ∧ t.size ≤ room := by
  rw [serialize] at h
  split at h
  · cases h
  · cases h
    refine ⟨?_, by omega⟩
    simp [Token.size, picoformat64, picoformat16]; omega

theorem serialize_some {t : Token} {room : Nat} (h : t.size ≤ room) : ∃ r, serialize t room = some r := by
  rw [serialize, if_neg (by omega)]; exact ⟨_, rfl⟩

/-- What was serialized is parsed back. -/
theorem deserialize_serialize {t : Token} (ht : Storable t) {room : Nat} {r : Bytes}
    (h : serialize t room = some r) (tail : Bytes) :
    deserialize (r ++ tail) = .ok { t with used := false } r.length := by
  have hl := (serialize_length h).1
  obtain ⟨h1, ⟨h2, h3⟩, h4, ⟨h5, h6⟩⟩ := ht
  have hL : 14 + t.sni.length + t.ip.length + t.token.length ≤ (r ++ tail).length := by
    rw [List.length_append, hl, Token.size]; omega
  have e0 : (picoformat64 t.expiry).length = 8 := rfl
  have e1 (n : Nat) : (picoformat16 n).length = 2 := rfl
  have hb : r ++ tail = picoformat64 t.expiry ++ (picoformat16 t.sni.length ++ (t.sni ++
      (picoformat16 t.ip.length ++ (t.ip ++ (picoformat16 t.token.length ++ (t.token ++ tail)))))) := by
    rw [serialize] at h
    split at h
    · cases h
    · cases h; simp only [List.append_assoc]
  have g1 : read64 (r ++ tail) 0 = some t.expiry := by rw [hb]; exact read64_append h1
  have g2 : read16 (r ++ tail) 8 = some t.sni.length := by rw [hb]; exact read16_append e0.symm h3
  have b3 : r ++ tail = (picoformat64 t.expiry ++ picoformat16 t.sni.length) ++ (t.sni ++
      (picoformat16 t.ip.length ++ t.ip ++ picoformat16 t.token.length ++ t.token ++ tail)) := by
    rw [hb]; simp only [List.append_assoc]
  have b4 : r ++ tail = (picoformat64 t.expiry ++ picoformat16 t.sni.length ++ t.sni) ++
      (picoformat16 t.ip.length ++ (t.ip ++ picoformat16 t.token.length ++ t.token ++ tail)) := by
    rw [hb]; simp only [List.append_assoc]
  have b5 : r ++ tail = (picoformat64 t.expiry ++ picoformat16 t.sni.length ++ t.sni ++
      picoformat16 t.ip.length) ++ (t.ip ++ (picoformat16 t.token.length ++ t.token ++ tail)) := by
    rw [hb]; simp only [List.append_assoc]
  have b6 : r ++ tail = (picoformat64 t.expiry ++ picoformat16 t.sni.length ++ t.sni ++
      picoformat16 t.ip.length ++ t.ip) ++ (picoformat16 t.token.length ++ (t.token ++ tail)) := by
    rw [hb]; simp only [List.append_assoc]
  have b7 : r ++ tail = (picoformat64 t.expiry ++ picoformat16 t.sni.length ++ t.sni ++
      picoformat16 t.ip.length ++ t.ip ++ picoformat16 t.token.length) ++ (t.token ++ tail) := by
    rw [hb]; simp only [List.append_assoc]
  have g3 : read (r ++ tail) 10 t.sni.length = some t.sni := by
    rw [b3]; exact read_append (by simp only [List.length_append, e0, e1]) rfl
  have g4 : read16 (r ++ tail) (10 + t.sni.length) = some t.ip.length := by
    rw [b4]; exact read16_append (by simp only [List.length_append, e0, e1]) (by omega)
  have g5 : read (r ++ tail) (10 + t.sni.length + 2) t.ip.length = some t.ip := by
    rw [b5]; exact read_append (by simp only [List.length_append, e0, e1]) rfl
  have g6 : read16 (r ++ tail) (10 + t.sni.length + 2 + t.ip.length) = some t.token.length := by
    rw [b6]; exact read16_append (by simp only [List.length_append, e0, e1]) h6
  have g7 : read (r ++ tail) (10 + t.sni.length + 2 + t.ip.length + 2) t.token.length = some t.token := by
    rw [b7]; exact read_append (by simp only [List.length_append, e0, e1]) rfl
  have hm : t.ip.length % 256 = t.ip.length := Nat.mod_eq_of_lt h4
  rw [deserialize, if_pos (by omega), g1, g2]
  dsimp only
  rw [deserIp, if_pos (by omega), g4]
  dsimp only
  rw [hm, deserToken, if_pos (by omega), g6]
  dsimp only
  rw [deserFormat, if_neg (by omega), g3, g5, g7, hl, Token.size]

theorem deserFormat_in {bs : Bytes} {expiry required si sl ii il ti tl : Nat}
    (h : required ≤ bs.length → si + sl ≤ bs.length ∧ ii + il ≤ bs.length ∧ ti + tl ≤ bs.length) :
    deserFormat bs expiry required si sl ii il ti tl ≠ .outside := by
  rw [deserFormat]
  split
  · intro h; cases h
  · obtain ⟨h1, h2, h3⟩ := h (by omega)
    obtain ⟨x, hx, _⟩ := read_some h1
    obtain ⟨y, hy, _⟩ := read_some h2
    obtain ⟨z, hz, _⟩ := read_some h3
    rw [hx, hy, hz]; intro h; cases h

/-- No read is outside of the bytes. -/
theorem deserialize_in (bs : Bytes) : deserialize bs ≠ .outside := by
  rw [deserialize]
  split
  · obtain ⟨e, he⟩ := read64_some (bs := bs) (i := 0) (by omega)
    obtain ⟨n, hn, _⟩ := read16_some (bs := bs) (i := 8) (by omega)
    rw [he, hn]
    dsimp only
    rw [deserIp]
    split
    · obtain ⟨m, hm, _⟩ := read16_some (bs := bs) (i := 10 + n) (by omega)
      rw [hm]; dsimp only; rw [deserToken]
      split
      · obtain ⟨k, hk, _⟩ := read16_some (bs := bs) (i := 10 + n + 2 + m % 256) (by omega)
        rw [hk]; dsimp only
        exact deserFormat_in (fun h => by omega)
      · exact deserFormat_in (fun h => by omega)
    · rw [deserToken, if_neg (by omega)]
      exact deserFormat_in (fun h => by omega)
  · rw [deserIp, if_neg (by omega), deserToken, if_neg (by omega)]
    exact deserFormat_in (fun h => by omega)

theorem parseLe32_le32 {n : Nat} (h : n < 2 ^ 32) :
    parseLe32 (u8 n) (u8 (n >>> 8)) (u8 (n >>> 16)) (u8 (n >>> 24)) = n := by
  simp only [parseLe32, u8_toNat, Nat.shiftRight_eq_div_pow]; omega

/-- The records that are saved. -/
def saved (now : Nat) (s : List Token) : List Token := s.filter (fun t => decide (now < t.expiry) && !t.used)

theorem loadLoop_cons {now fuel : Nat} {r rest : Bytes} {t : Token} (hn : r.length ≤ 2016)
    (hd : deserialize r = .ok t r.length) :
    loadLoop now (fuel + 1) (le32 r.length ++ r ++ rest) =
      if t.expiry < now then loadLoop now fuel rest
      else (t :: (loadLoop now fuel rest).1, (loadLoop now fuel rest).2) := by
  have h1 : ¬ (r.length > 2048 ∨ r.length + OFFSET > 2048) := by simp only [OFFSET]; omega
  have h2 : ¬ (r ++ rest).length < r.length := by rw [List.length_append]; omega
  have h3 : ¬ (r.length ≠ r.length) := fun h => h rfl
  have h4 : loadBody r.length (r ++ rest) = .record t rest := by
    rw [loadBody, if_neg h1, if_neg h2, List.take_left, List.drop_left, hd]
    dsimp only
    rw [if_neg h3]
  have h5 : loadRecord (le32 r.length ++ r ++ rest) = .record t rest := by
    simp only [le32, List.cons_append, List.nil_append]
    rw [loadRecord, parseLe32_le32 (by omega), h4]
  rw [loadLoop, h5]

theorem loadLoop_save (now later : Nat) : ∀ (s : List Token) (fuel : Nat),
    (∀ t ∈ s, Storable t ∧ t.size ≤ 2016) → (save now s).1.length < fuel →
    (save now s).2 = true ∧ loadLoop later fuel (save now s).1 =
      ((saved now s).filter (fun t => decide (later ≤ t.expiry)), true)
  | [], fuel, _, hf => by
    match fuel, hf with
    | fuel + 1, _ => exact ⟨rfl, rfl⟩
  | t :: s, fuel, hs, hf => by
    have hs' : ∀ t ∈ s, Storable t ∧ t.size ≤ 2016 := fun t h => hs t (List.mem_cons_of_mem _ h)
    obtain ⟨ht, hsz⟩ := hs t (List.mem_cons_self ..)
    rw [save] at hf ⊢
    by_cases hc : t.expiry > now ∧ t.used = false
    · rw [if_pos hc] at hf ⊢
      obtain ⟨r, hr⟩ := serialize_some (t := t) (room := 2048) (by omega)
      have hl := (serialize_length hr).1
      rw [hr] at hf ⊢
      dsimp only at hf ⊢
      obtain ⟨fuel, rfl⟩ : ∃ k, fuel = k + 1 := ⟨fuel - 1, by omega⟩
      have hf' : (save now s).1.length < fuel := by
        simp only [List.length_append, le32, List.length_cons, List.length_nil] at hf; omega
      obtain ⟨i1, i2⟩ := loadLoop_save now later s fuel hs' hf'
      refine ⟨i1, ?_⟩
      have hd := deserialize_serialize ht hr []
      rw [List.append_nil] at hd
      rw [loadLoop_cons (by omega) hd, i2]
      have hu : ({ t with used := false } : Token) = t := by
        cases t; simp only at hc; rw [hc.2]
      rw [hu]
      have : saved now (t :: s) = t :: saved now s := by
        rw [saved, List.filter_cons_of_pos (by simp [hc])]; rfl
      rw [this]
      by_cases hx : t.expiry < later
      · rw [if_pos hx, List.filter_cons_of_neg (by simp; omega)]
      · rw [if_neg hx, List.filter_cons_of_pos (by simp; omega)]
    · rw [if_neg hc] at hf ⊢
      have : saved now (t :: s) = saved now s := by
        rw [saved, List.filter_cons_of_neg]; · rfl
        intro h
        rw [Bool.and_eq_true, decide_eq_true_eq, Bool.not_eq_true'] at h
        exact hc h
      rw [this]
      exact loadLoop_save now later s fuel hs' hf

/-- A saved store is loaded. -/
theorem load_save {now later : Nat} {s : List Token} (hs : ∀ t ∈ s, Storable t ∧ t.size ≤ 2016)
    (old : List Token) :
    (save now s).2 = true ∧ (load later old (save now s).1).2 = true ∧
    load later [] (save now s).1 = ((saved now s).filter (fun t => decide (later ≤ t.expiry)), true) := by
  obtain ⟨h1, h2⟩ := loadLoop_save now later s _ hs (Nat.lt_succ_self _)
  refine ⟨h1, ?_, ?_⟩
  · rw [load, h2]
  · rw [load, h2]
    simp only
    split
    · next h => rw [h]
    · rfl

/-- A file whose first record is too large to be loaded. -/
theorem load_large {now later : Nat} {t : Token} (old s : List Token) (ht : t.expiry > now) (hu : t.used = false)
    (h1 : 2017 ≤ t.size) (h2 : t.size ≤ 2048) : load later old (save now (t :: s)).1 = (old, false) := by
  obtain ⟨r, hr⟩ := serialize_some h2
  have hl := (serialize_length hr).1
  rw [save, if_pos ⟨ht, hu⟩, hr, load]
  dsimp only
  have h3 : loadRecord (le32 r.length ++ r ++ (save now s).1) = .invalid := by
    simp only [le32, List.cons_append, List.nil_append]
    rw [loadRecord, parseLe32_le32 (by omega), loadBody, if_pos (by simp only [OFFSET]; omega)]
  rw [loadLoop, h3]
  rfl

end Picoquic.TokenStore
