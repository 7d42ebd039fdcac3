import Verif.Spec.LoadBalancer
import Verif.Proof.LoadBalancer
/-! The random bytes of a connection ID are not lost. -/

namespace Picoquic.LoadBalancer

open Spec

/-- The bytes behind the coded part are kept. -/
theorem generate_form {c : Config} {ctx : Ctx} (g : Good c ctx) {enc dec : Bytes → Bytes} (hc : BlockCipher enc dec)
    (len : Nat) (id : Bytes) (hl : id.length = 20) :
    ∃ p p' r, id = p' ++ r ∧ generate enc ctx len id = p ++ r ∧ p.length = p'.length ∧ p.length ≤ c.cidLength := by
  obtain ⟨b1, b2, b3, b4⟩ := supported_bounds g.sup
  have hsl := g.sidLength
  cases hm : c.method with
  | clear =>
    have := b2 hm
    obtain ⟨a, n, s, r, rfl, hn, hs⟩ := split3 id 0 c.serverIdLength (by omega)
    have : n = [] := List.eq_nil_of_length_eq_zero hn
    subst this
    rw [List.nil_append, generate_clear g enc _ hm a s r hs]
    refine ⟨[first ctx len a] ++ ctx.serverId, [a] ++ s, r, ?_, ?_, ?_, ?_⟩ <;>
      simp only [List.append_assoc, List.length_append, List.length_cons, List.length_nil] <;> omega
  | stream =>
    obtain ⟨h8, h16, hll⟩ := b3 hm
    obtain ⟨a, n, s, r, rfl, hn, hs⟩ := split3 id c.nonceLength c.serverIdLength (by omega)
    rw [generate_stream g enc _ hm a n s r hn hs]
    obtain ⟨n1, s1, hs1, hn1, ln, ls, h⟩ := threePasses_eq hc (first ctx len a) n ctx.serverId r (by omega)
      (by omega)
    have l3 := onePass_length hc n1 s1 (by omega) (by omega)
    rw [h]
    refine ⟨[first ctx len a] ++ (n1 ++ onePass enc n1 s1), [a] ++ (n ++ s), r, ?_, ?_, ?_, ?_⟩ <;>
      simp only [List.append_assoc, List.length_append, List.length_cons, List.length_nil] <;> omega
  | block =>
    obtain ⟨h17, h15⟩ := b4 hm
    obtain ⟨a, s, u, r, rfl, hs, hu⟩ := split3 id c.serverIdLength (16 - c.serverIdLength) (by omega)
    have hl2 : (ctx.serverId ++ u).length = 16 := by rw [List.length_append, g.sidLength]; omega
    have hl3 := hc.length _ hl2
    rw [generate_block g hc _ hm a s u r hs (by omega)]
    refine ⟨[first ctx len a] ++ enc (ctx.serverId ++ u), [a] ++ (s ++ u), r, ?_, ?_, ?_, ?_⟩ <;>
      simp only [List.append_assoc, List.length_append, List.length_cons, List.length_nil] <;> omega

theorem generate_tail {c : Config} {ctx : Ctx} (g : Good c ctx) {enc dec : Bytes → Bytes} (hc : BlockCipher enc dec)
    (len : Nat) (id : Bytes) (hl : id.length = 20) :
    (generate enc ctx len id).drop c.cidLength = id.drop c.cidLength := by
  obtain ⟨p, p', r, rfl, h, hp, hle⟩ := generate_form g hc len id hl
  rw [h]
  obtain ⟨k, hk⟩ : ∃ k, c.cidLength = p.length + k := ⟨c.cidLength - p.length, by omega⟩
  rw [hk, ← List.drop_drop, List.drop_left, hp, ← List.drop_drop, List.drop_left]

theorem get_first {a b : UInt8} {t : Bytes} {i : Nat} (h : 1 ≤ i) : ([a] ++ t)[i]? = ([b] ++ t)[i]? := by
  cases i with
  | zero => omega
  | succ i => simp

theorem get_mid {p q p' q' : Bytes} {off : Nat} {r : Bytes} {i : Nat} (hp : p = p') (hpl : p.length = off)
    (hq : q.length = q'.length)
    (hi : i < off ∨ off + q.length ≤ i) : (p ++ (q ++ r))[i]? = (p' ++ (q' ++ r))[i]? := by
  subst hp; subst hpl
  rcases hi with h | h
  · rw [List.getElem?_append_left h, List.getElem?_append_left h]
  · rw [List.getElem?_append_right (by omega), List.getElem?_append_right (by omega),
      List.getElem?_append_right (by omega), List.getElem?_append_right (by omega), hq]

theorem generate_inj {c : Config} {ctx : Ctx} (g : Good c ctx) {enc dec : Bytes → Bytes} (hc : BlockCipher enc dec)
    (len : Nat) (id id' : Bytes) (hl : id.length = 20) (hl' : id'.length = 20)
    (h : generate enc ctx len id = generate enc ctx len id') (i : Nat) (h1 : 1 ≤ i)
    (hi : i < serverIdOffset c ∨ serverIdOffset c + c.serverIdLength ≤ i) : id[i]? = id'[i]? := by
  obtain ⟨b1, b2, b3, b4⟩ := supported_bounds g.sup
  have hsl := g.sidLength
  unfold serverIdOffset at hi
  cases hm : c.method with
  | clear =>
    have := b2 hm
    rw [hm, if_neg (by decide)] at hi
    obtain ⟨a, n, s, r, rfl, hn, hs⟩ := split3 id 0 c.serverIdLength (by omega)
    obtain ⟨a', n', s', r', rfl, hn', hs'⟩ := split3 id' 0 c.serverIdLength (by omega)
    have e := List.eq_nil_of_length_eq_zero hn
    have e' := List.eq_nil_of_length_eq_zero hn'
    subst e; subst e'
    rw [List.nil_append, List.nil_append, generate_clear g enc _ hm a s r hs, generate_clear g enc _ hm a' s' r' hs'] at h
    have h := (List.append_inj h rfl).2
    have h := (List.append_inj h rfl).2
    subst h
    rw [List.nil_append, List.nil_append, get_first (b := a') h1]
    exact get_mid rfl rfl (by omega) (by simpa [hs] using hi)
  | stream =>
    obtain ⟨h8, h16, hll⟩ := b3 hm
    rw [hm, if_pos rfl] at hi
    obtain ⟨a, n, s, r, rfl, hn, hs⟩ := split3 id c.nonceLength c.serverIdLength (by omega)
    obtain ⟨a', n', s', r', rfl, hn', hs'⟩ := split3 id' c.nonceLength c.serverIdLength (by omega)
    rw [generate_stream g enc _ hm a n s r hn hs, generate_stream g enc _ hm a' n' s' r' hn' hs'] at h
    have h := congrArg (threePasses enc n.length ctx.serverId.length) h
    rw [threePasses_twice hc _ n ctx.serverId r (by omega) (by omega)] at h
    rw [show n.length = n'.length by omega, threePasses_twice hc _ n' ctx.serverId r' (by omega) (by omega)] at h
    have h := (List.append_inj h rfl).2
    obtain ⟨e, h⟩ := List.append_inj h (by omega)
    have h := (List.append_inj h rfl).2
    subst h; subst e
    have e : ∀ z : Bytes, [a'] ++ (n ++ (z ++ r)) = ([a'] ++ n) ++ (z ++ r) := fun z => by
      rw [← List.append_assoc]
    rw [get_first (b := a') h1, e s, e s']
    exact get_mid rfl rfl (by omega) (by
      simp only [List.length_append, List.length_cons, List.length_nil]; omega)
  | block =>
    obtain ⟨h17, h15⟩ := b4 hm
    rw [hm, if_neg (by decide)] at hi
    obtain ⟨a, s, u, r, rfl, hs, hu⟩ := split3 id c.serverIdLength (16 - c.serverIdLength) (by omega)
    obtain ⟨a', s', u', r', rfl, hs', hu'⟩ := split3 id' c.serverIdLength (16 - c.serverIdLength) (by omega)
    have hl2 : (ctx.serverId ++ u).length = 16 := by rw [List.length_append, g.sidLength]; omega
    have hl2' : (ctx.serverId ++ u').length = 16 := by rw [List.length_append, g.sidLength]; omega
    rw [generate_block g hc _ hm a s u r hs (by omega), generate_block g hc _ hm a' s' u' r' hs' (by omega)] at h
    have h := (List.append_inj h rfl).2
    obtain ⟨e, h⟩ := List.append_inj h (by rw [hc.length _ hl2, hc.length _ hl2'])
    subst h
    have e := congrArg dec e
    rw [hc.inverse _ hl2, hc.inverse _ hl2'] at e
    have e := (List.append_inj e rfl).2
    subst e
    rw [get_first (b := a') h1]
    exact get_mid rfl rfl (by omega) (by simpa [hs] using hi)

theorem create_inj {c : Config} {ctx : Ctx} (g : Good c ctx) {enc dec : Bytes → Bytes} (hc : BlockCipher enc dec)
    (x y : Bytes) (hx : x.length = c.cidLength) (hy : y.length = c.cidLength)
    (h : createLocalCid enc ctx x = createLocalCid enc ctx y) (i : Nat) (h1 : 1 ≤ i) (h2 : i < c.cidLength)
    (hi : i < serverIdOffset c ∨ serverIdOffset c + c.serverIdLength ≤ i) : x[i]? = y[i]? := by
  have hb := (supported_bounds g.sup).1
  have px := pad_length (random := x) (by omega)
  have py := pad_length (random := y) (by omega)
  have hfull : generate enc ctx c.cidLength (x ++ List.replicate (20 - x.length) 0) =
      generate enc ctx c.cidLength (y ++ List.replicate (20 - y.length) 0) := by
    rw [← List.take_append_drop c.cidLength (generate enc ctx c.cidLength (x ++ List.replicate (20 - x.length) 0)),
      ← List.take_append_drop c.cidLength (generate enc ctx c.cidLength (y ++ List.replicate (20 - y.length) 0)),
      generate_tail g hc _ _ px, generate_tail g hc _ _ py]
    unfold createLocalCid at h
    rw [hx, hy] at h
    rw [hx, hy]
    rw [h]
    congr 1
    have d : ∀ l : Bytes, l.length = c.cidLength → ∀ z, (l ++ z).drop c.cidLength = z := by
      intro l hl z; rw [← hl, List.drop_left]
    rw [d x hx, d y hy]
  have := generate_inj g hc _ _ _ px py hfull i h1 hi
  rwa [List.getElem?_append_left (by omega), List.getElem?_append_left (by omega)] at this

/-- The first byte of a connection ID. -/
theorem create_first {c : Config} {ctx : Ctx} (g : Good c ctx) {enc dec : Bytes → Bytes} (hc : BlockCipher enc dec)
    (a : UInt8) (x : Bytes) (hx : (a :: x).length = c.cidLength) :
    ∃ t, createLocalCid enc ctx (a :: x) = first ctx c.cidLength a :: t ∧ t.length + 1 = c.cidLength := by
  obtain ⟨b1, b2, b3, b4⟩ := supported_bounds g.sup
  have hsl := g.sidLength
  have px := pad_length (random := a :: x) (by omega)
  have hlen := generate_length g hc c.cidLength _ px
  have key : ∃ t, generate enc ctx c.cidLength ((a :: x) ++ List.replicate (20 - (a :: x).length) 0) =
      first ctx c.cidLength a :: t := by
    generalize hid : (a :: x) ++ List.replicate (20 - (a :: x).length) (0 : UInt8) = id at *
    cases hm : c.method with
    | clear =>
      have := b2 hm
      obtain ⟨a', n, s, r, rfl, hn, hs⟩ := split3 id 0 c.serverIdLength (by omega)
      have e := List.eq_nil_of_length_eq_zero hn
      subst e
      have : a = a' := by simp at hid; exact hid.1
      subst this
      rw [List.nil_append, generate_clear g enc _ hm a s r hs]
      exact ⟨_, rfl⟩
    | stream =>
      obtain ⟨h8, h16, hll⟩ := b3 hm
      obtain ⟨a', n, s, r, rfl, hn, hs⟩ := split3 id c.nonceLength c.serverIdLength (by omega)
      have : a = a' := by simp at hid; exact hid.1
      subst this
      rw [generate_stream g enc _ hm a n s r hn hs]
      obtain ⟨n1, s1, _, _, _, _, h⟩ := threePasses_eq hc (first ctx c.cidLength a) n ctx.serverId r (by omega)
        (by omega)
      rw [h]
      exact ⟨_, rfl⟩
    | block =>
      obtain ⟨h17, h15⟩ := b4 hm
      obtain ⟨a', s, u, r, rfl, hs, hu⟩ := split3 id c.serverIdLength (16 - c.serverIdLength) (by omega)
      have : a = a' := by simp at hid; exact hid.1
      subst this
      rw [generate_block g hc _ hm a s u r hs (by omega)]
      exact ⟨_, rfl⟩
  obtain ⟨t, ht⟩ := key
  rw [ht, List.length_cons] at hlen
  obtain ⟨k, hk⟩ : ∃ k, c.cidLength = k + 1 := ⟨x.length, by rw [← hx]; rfl⟩
  unfold createLocalCid
  rw [hx] at ht ⊢
  rw [ht]
  refine ⟨t.take k, by rw [hk, List.take_succ_cons], by rw [List.length_take, hk]; omega⟩

end Picoquic.LoadBalancer
