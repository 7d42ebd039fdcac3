import Verif.Model.WebServer
import Verif.Spec.WebServer
import Verif.Proof.IntFormat

namespace Picoquic.WebServer
open Picoquic.Spec Picoquic.Uri

theorem nameByte_iff (c : UInt8) : nameByte c = true ↔
    ((c ≥ 97 ∧ c ≤ 122) ∨ (c ≥ 65 ∧ c ≤ 90) ∨ (c ≥ 48 ∧ c ≤ 57) ∨ c = 45 ∨ c = 95) := by
  simp [nameByte]

theorem nameByte_ne {c : UInt8} (h : nameByte c = true) : c ≠ 46 ∧ c ≠ 47 := by
  constructor <;> (rintro rfl; revert h; decide)

/-- What the loop checks, in words. -/
structure LoopOk (pd : Bool) (good : Nat) (q : Bytes) : Prop where
  chars : ∀ c ∈ q, nameByte c = true ∨ c = 47 ∨ c = 46
  first : good = 0 → ∃ c r, q = c :: r ∧ nameByte c = true
  last : q.getLast? ≠ some 47
  dots : ∀ a b r, q = a ++ 46 :: (b ++ 46 :: r) → ∃ x ∈ b, nameByte x = true
  dot : pd = true → ∀ b r, q = b ++ 46 :: r → ∃ x ∈ b, nameByte x = true

theorem getLast?_cons_ne {c : UInt8} {q : Bytes} (h : q ≠ []) : (c :: q).getLast? = q.getLast? := by
  cases q with
  | nil => exact absurd rfl h
  | cons d r => simp [List.getLast?_cons_cons]

theorem saneFrom_iff (q : Bytes) : ∀ pd good, saneFrom pd good q = true ↔ LoopOk pd good q := by
  induction q with
  | nil =>
    intro pd good
    simp only [saneFrom, decide_eq_true_eq]
    constructor
    · intro h
      refine ⟨by simp, fun h0 => absurd h0 h, by simp, ?_, ?_⟩
      · intro a b r he; simp at he
      · intro _ b r he; simp at he
    · intro h h0
      obtain ⟨c, r, he, _⟩ := h.first h0
      cases he
  | cons c q ih =>
    intro pd good
    unfold saneFrom
    by_cases hn : (c ≥ 97 ∧ c ≤ 122) ∨ (c ≥ 65 ∧ c ≤ 90) ∨ (c ≥ 48 ∧ c ≤ 57) ∨ c = 45 ∨ c = 95
    · rw [if_pos hn, ih]
      have hc := (nameByte_iff c).2 hn
      obtain ⟨h46, h47⟩ := nameByte_ne hc
      constructor
      · intro h
        refine ⟨?_, fun _ => ⟨c, q, rfl, hc⟩, ?_, ?_, ?_⟩
        · intro d hd
          rcases List.mem_cons.1 hd with rfl | hd
          · exact Or.inl hc
          · exact h.chars d hd
        · by_cases hq : q = []
          · subst hq; simpa using h47
          · rw [getLast?_cons_ne hq]; exact h.last
        · intro a b r he
          cases a with
          | nil => simp at he; exact absurd he.1 h46
          | cons x a => simp at he; exact h.dots a b r he.2
        · intro _ b r he
          cases b with
          | nil => simp at he; exact absurd he.1 h46
          | cons x b => simp at he; exact ⟨x, by simp, he.1 ▸ hc⟩
      · intro h
        refine ⟨fun d hd => h.chars d (List.mem_cons_of_mem _ hd), fun h0 => by omega, ?_, ?_, fun h0 => by cases h0⟩
        · by_cases hq : q = []
          · subst hq; simp
          · rw [← getLast?_cons_ne (c := c) hq]; exact h.last
        · intro a b r he
          exact h.dots (c :: a) b r (by simp [he])
    · rw [if_neg hn]
      have hc : ¬ nameByte c = true := fun h => hn ((nameByte_iff c).1 h)
      by_cases h1 : c = 47 ∧ q ≠ [] ∧ good > 0
      · rw [if_pos h1, ih]
        obtain ⟨rfl, hq, hg⟩ := h1
        constructor
        · intro h
          refine ⟨?_, fun h0 => by omega, ?_, ?_, ?_⟩
          · intro d hd
            rcases List.mem_cons.1 hd with rfl | hd
            · exact Or.inr (Or.inl rfl)
            · exact h.chars d hd
          · rw [getLast?_cons_ne hq]; exact h.last
          · intro a b r he
            cases a with
            | nil => simp at he
            | cons x a => simp at he; exact h.dots a b r he.2
          · intro hp b r he
            cases b with
            | nil => simp at he
            | cons x b =>
              simp at he
              obtain ⟨y, hy, hy2⟩ := h.dot hp b r he.2
              exact ⟨y, List.mem_cons_of_mem _ hy, hy2⟩
        · intro h
          refine ⟨fun d hd => h.chars d (List.mem_cons_of_mem _ hd), fun h0 => by omega, ?_, ?_, ?_⟩
          · rw [← getLast?_cons_ne (c := 47) hq]; exact h.last
          · intro a b r he
            exact h.dots (47 :: a) b r (by simp [he])
          · intro hp b r he
            obtain ⟨y, hy, hy2⟩ := h.dot hp (47 :: b) r (by simp [he])
            rcases List.mem_cons.1 hy with rfl | hy
            · exact absurd hy2 hc
            · exact ⟨y, hy, hy2⟩
      · rw [if_neg h1]
        by_cases h2 : c = 46 ∧ pd = false ∧ good > 0
        · rw [if_pos h2, ih]
          obtain ⟨rfl, hp, hg⟩ := h2
          constructor
          · intro h
            refine ⟨?_, fun h0 => by omega, ?_, ?_, fun h0 => by rw [hp] at h0; cases h0⟩
            · intro d hd
              rcases List.mem_cons.1 hd with rfl | hd
              · exact Or.inr (Or.inr rfl)
              · exact h.chars d hd
            · by_cases hq : q = []
              · subst hq; simp
              · rw [getLast?_cons_ne hq]; exact h.last
            · intro a b r he
              cases a with
              | nil => simp at he; exact h.dot rfl b r he
              | cons x a => simp at he; exact h.dots a b r he.2
          · intro h
            refine ⟨fun d hd => h.chars d (List.mem_cons_of_mem _ hd), fun h0 => by omega, ?_, ?_, ?_⟩
            · by_cases hq : q = []
              · subst hq; simp
              · rw [← getLast?_cons_ne (c := 46) hq]; exact h.last
            · intro a b r he
              exact h.dots (46 :: a) b r (by simp [he])
            · intro _ b r he
              exact h.dots [] b r (by simp [he])
        · rw [if_neg h2]
          constructor
          · intro h; cases h
          · intro h
            exfalso
            have hg : good > 0 := by
              rcases Nat.eq_zero_or_pos good with h0 | h0
              · obtain ⟨d, r, he, hd⟩ := h.first h0
                injection he with he _
                exact absurd (he ▸ hd) hc
              · exact h0
            rcases h.chars c (by simp) with h3 | h3 | h3
            · exact hc h3
            · apply h1
              refine ⟨h3, ?_, hg⟩
              intro hq
              subst hq
              exact h.last (by simp [h3])
            · apply h2
              refine ⟨h3, ?_, hg⟩
              cases hpd : pd with
              | false => rfl
              | true =>
                obtain ⟨x, hx, _⟩ := h.dot hpd [] q (by simp [h3])
                cases hx

theorem sane_iff (p : Bytes) : sane p = true ↔ ∃ q, p = 47 :: q ∧ CleanRest q := by
  cases p with
  | nil => simp [sane]
  | cons c q =>
    simp only [sane]
    by_cases hc : c = 47
    · rw [if_pos hc, saneFrom_iff]
      subst hc
      constructor
      · intro h; exact ⟨q, rfl, h.chars, h.first rfl, h.last, h.dots⟩
      · rintro ⟨q', he, h⟩
        injection he with _ he
        subst he
        exact ⟨h.chars, fun _ => h.first, h.last, h.dots, fun h0 => by cases h0⟩
    · rw [if_neg hc]
      constructor
      · intro h; cases h
      · rintro ⟨q', he, _⟩
        injection he with he _
        exact absurd he hc

/-! ## Response -/

/-- The bytes to send as body. -/
def bodyOf (echo : Nat) : Option Bytes → Bytes
  | some c => c
  | none => List.replicate echo 0x5A

theorem sendBody_spec (echo : Nat) (content : Option Bytes) (hc : (bodyOf echo content).length = echo)
    (l : List Nat) : ∀ sent, sent < echo →
    ∃ b fin, sendBody echo content sent l = some (b, fin) ∧ b <+: (bodyOf echo content).drop sent ∧
      (fin = true ↔ b = (bodyOf echo content).drop sent) := by
  induction l with
  | nil =>
    intro sent hs
    refine ⟨[], false, rfl, List.nil_prefix, ?_⟩
    constructor
    · intro h; cases h
    · intro h
      have := congrArg List.length h
      rw [List.length_drop, hc] at this
      simp at this
      omega
  | cons space l ih =>
    intro sent hs
    have hp : prepare echo sent content space =
        some (((bodyOf echo content).drop sent).take (min (echo - sent) space), decide (¬ echo - sent > space),
          sent + min (echo - sent) space) := by
      have ha : (if echo - sent > space then space else echo - sent) = min (echo - sent) space := by
        split <;> omega
      unfold prepare
      rw [if_pos hs]
      dsimp only
      rw [ha]
      cases content with
      | some c =>
        simp only [bodyOf] at hc ⊢
        rw [if_neg]
        rw [List.length_take, List.length_drop, hc]
        omega
      | none =>
        simp only [bodyOf, List.drop_replicate, List.take_replicate]
        congr 3
        omega
    unfold sendBody
    rw [hp]
    by_cases hf : echo - sent > space
    · have hmin : min (echo - sent) space = space := by omega
      rw [hmin, decide_eq_false (fun h => h hf)]
      obtain ⟨b, fin, h1, h2, h3⟩ := ih (sent + space) (by omega)
      dsimp only
      rw [h1]
      have hsplit : (bodyOf echo content).drop sent =
          ((bodyOf echo content).drop sent).take space ++ (bodyOf echo content).drop (sent + space) := by
        rw [← List.drop_drop, List.take_append_drop]
      refine ⟨_, fin, rfl, ?_, ?_⟩
      · obtain ⟨t, ht⟩ := h2
        refine ⟨t, ?_⟩
        rw [List.append_assoc, ht, ← hsplit]
      · rw [h3]
        constructor
        · intro h; rw [h, ← hsplit]
        · intro h
          exact List.append_cancel_left (h.trans hsplit)
    · have hmin : min (echo - sent) space = echo - sent := by omega
      rw [hmin, decide_eq_true hf]
      have hall : ((bodyOf echo content).drop sent).take (echo - sent) = (bodyOf echo content).drop sent := by
        apply List.take_of_length_le
        rw [List.length_drop, hc]
        omega
      rw [hall]
      exact ⟨_, true, rfl, List.prefix_refl _, by simp⟩

theorem header_varint (n : Nat) (h : n < 1024) :
    Varint [u8 (((n >>> 8) ||| 0x40) &&& 0xFF), u8 n] n := by
  refine ⟨1, by omega, rfl, by omega, ?_⟩
  have hd : n >>> 8 = n / 256 := Nat.shiftRight_eq_div_pow n 8
  have hlt : n / 256 < 4 := by omega
  have hor : (u8 (((n >>> 8) ||| 0x40) &&& 0xFF)).toNat = 64 + n / 256 := by
    rw [hd]
    generalize n / 256 = k at hlt
    match k, hlt with
    | 0, _ => rfl
    | 1, _ => rfl
    | 2, _ => rfl
    | 3, _ => rfl
  have hlo : (u8 n).toNat = n % 256 := by simp [u8]
  simp only [bigEndian, hor, hlo, List.length_cons, List.length_nil, Nat.zero_add, Nat.pow_zero, Nat.pow_one]
  omega

theorem headersFrame_bytes (block : Bytes) (h : block.length < 1024) :
    H3FrameBytes ⟨1, block⟩ (headersFrame block) := by
  refine ⟨[1], [u8 (((block.length >>> 8) ||| 0x40) &&& 0xFF), u8 block.length], rfl, ?_, header_varint _ h⟩
  exact ⟨0, (by decide : IsVarint 0 [1] 1)⟩

theorem headersFrame_length (block : Bytes) : (headersFrame block).length = 3 + block.length := by
  simp [headersFrame]; omega

theorem dataFrame_bytes (n : Nat) (body l : Bytes) (room : Nat) (hb : body.length = n) (hn : n < 2 ^ 62)
    (hl : l = varintEncode room n) (hne : l ≠ []) : H3FrameBytes ⟨0, body⟩ (0 :: (l ++ body)) := by
  rw [varintEncode_eq] at hl
  have hl2 : l = varintBytes n := by
    split at hl
    · exact hl
    · exact absurd hl hne
  obtain ⟨k, hk, _, _⟩ := varintBytes_isVarint n hn
  refine ⟨[0], l, rfl, ⟨0, (by decide : IsVarint 0 [0] 0)⟩, ?_⟩
  show Varint l body.length
  rw [hb, hl2]
  exact ⟨k, hk⟩

theorem h3Stream_two {f g : H3Frame} {a b : Bytes} (ha : H3FrameBytes f a) (hb : H3FrameBytes g b) :
    H3Stream [f, g] (a ++ b) := by
  have h := H3Stream.cons hb H3Stream.nil
  rw [List.append_nil] at h
  exact H3Stream.cons ha h

theorem h3Stream_one {f : H3Frame} {a : Bytes} (ha : H3FrameBytes f a) : H3Stream [f] a := by
  have h := H3Stream.cons ha H3Stream.nil
  rw [List.append_nil] at h
  exact h

/-- The reply when there is something to send. -/
theorem found_ok {ok page : Bytes} {r : Reply} {echo : Nat} {file : Option Bytes}
    (h1 : 0 < page.length) (h2 : page.length ≤ 512) (h : found ok page echo file = some r) :
    ok.length < 1024 ∧ r.echo = echo ∧ r.file = file ∧
    ∃ l room, l ≠ [] ∧ l = varintEncode room (if echo = 0 then page.length else echo) ∧
      r.fin = decide (echo = 0) ∧
      r.first = headersFrame ok ++ 0 :: (l ++ if echo = 0 then page else []) := by
  unfold found at h
  dsimp only at h
  by_cases hb : 3 + ok.length > BUFFER
  · rw [if_pos hb] at h; cases h
  · rw [if_neg hb] at h
    have hbb : 3 + ok.length ≤ 1024 := Nat.not_lt.1 hb
    have hpos : (if echo = 0 then page.length else echo) > 0 := by split <;> omega
    rw [if_pos hpos] at h
    by_cases hr : (headersFrame ok).length + 2 < BUFFER
    · rw [if_pos hr] at h
      by_cases hl : varintEncode (BUFFER - (headersFrame ok).length - 1) (if echo = 0 then page.length else echo) = []
      · rw [if_pos hl] at h; cases h
      · rw [if_neg hl] at h
        by_cases he : echo = 0
        · simp only [he, if_true] at h hl ⊢
          rw [if_pos h2] at h
          split at h
          · injection h with h
            subst h
            exact ⟨by omega, rfl, rfl, _, _, hl, rfl, by simp, rfl⟩
          · cases h
        · simp only [if_neg he] at h hl ⊢
          injection h with h
          subst h
          exact ⟨by omega, rfl, rfl, _, _, hl, rfl, by simp [he], by simp⟩
    · rw [if_neg hr] at h; cases h

theorem found_some (ok page : Bytes) (echo : Nat) (file : Option Bytes) (h2 : ok.length ≤ 500)
    (h3 : page.length ≤ 512) : ∃ r, found ok page echo file = some r := by
  unfold found
  dsimp only
  rw [if_neg (show ¬ 3 + ok.length > BUFFER by unfold BUFFER; omega)]
  have hlen := headersFrame_length ok
  by_cases hz : (if echo = 0 then page.length else echo) > 0
  · rw [if_pos hz, if_pos (show (headersFrame ok).length + 2 < BUFFER by unfold BUFFER; omega)]
    have hv := varintEncode_eq (if echo = 0 then page.length else echo) (BUFFER - (headersFrame ok).length - 1)
    have hle := encodeVarintLength_le (if echo = 0 then page.length else echo)
    have hroom : encodeVarintLength (if echo = 0 then page.length else echo) ≤
        BUFFER - (headersFrame ok).length - 1 := by unfold BUFFER; omega
    rw [if_pos hroom] at hv
    have hvl := varintBytes_length (if echo = 0 then page.length else echo)
    have hpos' : ∀ m, 0 < encodeVarintLength m := by
      intro m; unfold encodeVarintLength; split <;> split <;> omega
    have hpos := hpos' (if echo = 0 then page.length else echo)
    have hne : varintBytes (if echo = 0 then page.length else echo) ≠ [] := by
      intro h0; rw [h0] at hvl; simp only [List.length_nil] at hvl; omega
    have hsmall : echo = 0 → encodeVarintLength (if echo = 0 then page.length else echo) ≤ 2 := by
      intro he
      rw [if_pos he]
      unfold encodeVarintLength
      rw [if_pos (show page.length < 16384 by omega)]
      split <;> omega
    rw [hv, if_neg hne]
    by_cases he : echo = 0
    · have hs := hsmall he
      simp only [if_pos he] at hvl hs ⊢
      rw [if_pos h3, if_pos (by unfold BUFFER; omega)]
      exact ⟨_, rfl⟩
    · simp only [if_neg he]
      exact ⟨_, rfl⟩
  · rw [if_neg hz]
    exact ⟨_, rfl⟩

theorem echoFrom_small (q : Bytes) : ∀ x, x < 2 ^ 62 → ∀ n, echoFrom x q = some n → n < 2 ^ 62 := by
  induction q with
  | nil => intro x hx n h; injection h with h; omega
  | cons c q ih =>
    intro x hx n h
    unfold echoFrom at h
    split at h
    · cases h
    · dsimp only at h
      split at h
      · cases h
      · rename_i hy
        exact ih _ (by simp only [UINT64_MAX] at hy; omega) n h

theorem bytes_small {files : Bytes → Option Nat} {folder : Option Bytes} {path : Bytes} {n : Nat}
    (h : parsePath files folder path = .bytes n) : n < 2 ^ 62 := by
  unfold parsePath at h
  generalize (if path = [47] then indexHtml else path) = p at h
  unfold served at h
  split at h
  · cases h
  · split at h
    · rename_i t ht
      subst h
      cases folder with
      | none => cases ht
      | some f =>
        simp only [Option.bind_some, tryFile] at ht
        split at ht
        · split at ht
          · cases ht
          · split at ht
            · split at ht <;> cases ht
            · cases ht
        · cases ht
    · split at h
      · split at h
        · rename_i m hm
          injection h with h
          subst h
          exact echoFrom_small _ 0 (by decide) _ hm
        · cases h
      · injection h with h
        subst h
        decide

end Picoquic.WebServer
