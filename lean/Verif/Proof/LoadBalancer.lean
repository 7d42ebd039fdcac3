import Verif.Model.LoadBalancer
import Verif.Spec.LoadBalancer
import Verif.Proof.IntFormat
/-! Lemmas on the connection IDs for load balancers. -/

namespace Picoquic.LoadBalancer

open Spec (bigEndian BlockCipher)

theorem copyAt_mid (p m q src : Bytes) (off : Nat) (hp : p.length = off) (h : src.length = m.length) :
    copyAt (p ++ (m ++ q)) off src = p ++ (src ++ q) := by
  subst hp
  unfold copyAt
  rw [List.take_left, ← List.drop_drop, List.drop_left, h, List.drop_left, List.append_assoc]

theorem slice_mid (p m q : Bytes) (off len : Nat) (hp : p.length = off) (h : m.length = len) :
    slice (p ++ (m ++ q)) off len = m := by
  subst hp; subst h
  unfold slice
  rw [List.drop_left, List.take_left]

/-- The mask of one pass. -/
def mask (enc : Bytes → Bytes) (n : Bytes) : Bytes := enc (n ++ List.replicate (16 - n.length) 0)

theorem onePass_eq (enc : Bytes → Bytes) (n t : Bytes) : onePass enc n t = t.zipWith (· ^^^ ·) (mask enc n) := rfl

theorem xor_xor (t m : Bytes) (h : t.length ≤ m.length) :
    (t.zipWith (· ^^^ ·) m).zipWith (· ^^^ ·) m = t := by
  induction t generalizing m with
  | nil => cases m <;> rfl
  | cons a t ih =>
    cases m with
    | nil => simp at h
    | cons b m =>
      simp only [List.zipWith_cons_cons, List.cons.injEq]
      refine ⟨?_, ih m (by simpa using h)⟩
      rw [UInt8.xor_assoc, UInt8.xor_self, UInt8.xor_zero]

theorem mask_length {enc dec : Bytes → Bytes} (hc : BlockCipher enc dec) (n : Bytes) (h : n.length ≤ 16) :
    (mask enc n).length = 16 := by
  apply hc.length
  rw [List.length_append, List.length_replicate]; omega

theorem onePass_length {enc dec : Bytes → Bytes} (hc : BlockCipher enc dec) (n t : Bytes) (h : n.length ≤ 16)
    (ht : t.length ≤ 16) : (onePass enc n t).length = t.length := by
  rw [onePass_eq, List.length_zipWith, mask_length hc n h]; omega

theorem onePass_twice {enc dec : Bytes → Bytes} (hc : BlockCipher enc dec) (n t : Bytes) (h : n.length ≤ 16)
    (ht : t.length ≤ 16) : onePass enc n (onePass enc n t) = t := by
  rw [onePass_eq, onePass_eq]
  apply xor_xor
  rw [mask_length hc n h]; exact ht

theorem threePasses_eq {enc dec : Bytes → Bytes} (hc : BlockCipher enc dec) (a : UInt8) (n s r : Bytes)
    (hn : n.length ≤ 16) (hs : s.length ≤ 16) :
    ∃ n1 s1, s1 = onePass enc n s ∧ n1 = onePass enc s1 n ∧ n1.length = n.length ∧ s1.length = s.length ∧
      threePasses enc n.length s.length ([a] ++ (n ++ (s ++ r))) = [a] ++ (n1 ++ (onePass enc n1 s1 ++ r)) := by
  have l1 := onePass_length hc n s hn hs
  have l2 := onePass_length hc (onePass enc n s) n (by omega) hn
  have l3 := onePass_length hc (onePass enc (onePass enc n s) n) (onePass enc n s) (by omega) (by omega)
  refine ⟨_, _, rfl, rfl, l2, l1, ?_⟩
  unfold threePasses
  dsimp only
  have e : ∀ (x y z : Bytes), [a] ++ (x ++ (y ++ z)) = ([a] ++ x) ++ (y ++ z) := by
    intro x y z; simp only [List.append_assoc]
  rw [slice_mid [a] n (s ++ r) 1 n.length rfl rfl, e,
    slice_mid ([a] ++ n) s r (1 + n.length) s.length (by simp only [List.length_append, List.length_cons,
      List.length_nil]) rfl,
    copyAt_mid ([a] ++ n) s r _ (1 + n.length) (by simp only [List.length_append, List.length_cons,
      List.length_nil]) l1,
    slice_mid ([a] ++ n) (onePass enc n s) r (1 + n.length) s.length (by simp only [List.length_append,
      List.length_cons, List.length_nil]) l1, ← e,
    slice_mid [a] n (onePass enc n s ++ r) 1 n.length rfl rfl,
    copyAt_mid [a] n (onePass enc n s ++ r) _ 1 rfl l2,
    slice_mid [a] (onePass enc (onePass enc n s) n) (onePass enc n s ++ r) 1 n.length rfl l2, e,
    slice_mid ([a] ++ onePass enc (onePass enc n s) n) (onePass enc n s) r (1 + n.length) s.length
      (by simp only [List.length_append, List.length_cons, List.length_nil, l2]) l1,
    copyAt_mid ([a] ++ onePass enc (onePass enc n s) n) (onePass enc n s) r _ (1 + n.length)
      (by simp only [List.length_append, List.length_cons, List.length_nil, l2]) l3, ← e]

/-- The passes are their own inverse. -/
theorem threePasses_twice {enc dec : Bytes → Bytes} (hc : BlockCipher enc dec) (a : UInt8) (n s r : Bytes)
    (hn : n.length ≤ 16) (hs : s.length ≤ 16) :
    threePasses enc n.length s.length (threePasses enc n.length s.length ([a] ++ (n ++ (s ++ r)))) =
      [a] ++ (n ++ (s ++ r)) := by
  obtain ⟨n1, s1, hs1, hn1, ln, ls, h⟩ := threePasses_eq hc a n s r hn hs
  have l3 := onePass_length hc n1 s1 (by omega) (by omega)
  obtain ⟨n2, s2, hs2, hn2, ln2, ls2, h2⟩ := threePasses_eq hc a n1 (onePass enc n1 s1) r (by omega) (by omega)
  rw [ln, l3, ls] at h2
  rw [h, h2]
  have e1 : s2 = s1 := by rw [hs2]; exact onePass_twice hc n1 s1 (by omega) (by omega)
  have e2 : n2 = n := by rw [hn2, e1, hn1]; exact onePass_twice hc s1 n (by omega) (by omega)
  rw [e1, e2, hs1, onePass_twice hc n s hn hs]

theorem bigEndian_append (x y : Bytes) : bigEndian (x ++ y) = bigEndian x * 256 ^ y.length + bigEndian y := by
  induction x with
  | nil => simp [bigEndian]
  | cons b x ih =>
    simp only [List.cons_append, bigEndian, ih, List.length_append, Nat.pow_add]
    rw [Nat.add_mul, Nat.mul_assoc, Nat.add_assoc]

theorem decode64_eq (v : Nat) (bs : Bytes) :
    u64 (decode64 v bs) = u64 (v * 256 ^ bs.length + bigEndian bs) := by
  induction bs generalizing v with
  | nil => simp [decode64, bigEndian]
  | cons b bs ih =>
    rw [decode64, ih]
    simp only [bigEndian, List.length_cons, u64, Nat.shiftLeft_eq]
    have h2 : (v * 2 ^ 8 % 18446744073709551616 + b.toNat) % 18446744073709551616 =
        (v * 2 ^ 8 + b.toNat) % 18446744073709551616 := by omega
    rw [h2, Nat.add_mod, Nat.mul_mod, Nat.mod_mod, ← Nat.mul_mod, ← Nat.add_mod]
    congr 1
    have e : v * 256 ^ (bs.length + 1) = v * 2 ^ 8 * 256 ^ bs.length := by
      rw [Nat.pow_succ, Nat.mul_comm (256 ^ bs.length) 256, ← Nat.mul_assoc]
    rw [e, Nat.add_mul]; omega

theorem decode64_lt (v : Nat) (bs : Bytes) (h : v < 2 ^ 64) : decode64 v bs < 2 ^ 64 := by
  induction bs generalizing v with
  | nil => exact h
  | cons b bs ih => exact ih _ (Nat.mod_lt _ (by decide))

theorem serverIdBytes_spec (k s : Nat) (acc : Bytes) :
    (serverIdBytes k s acc).1.length = k + acc.length ∧
    bigEndian (serverIdBytes k s acc).1 + (serverIdBytes k s acc).2 * 256 ^ (k + acc.length) =
      s * 256 ^ acc.length + bigEndian acc := by
  induction k generalizing s acc with
  | zero => simp [serverIdBytes]; omega
  | succ k ih =>
    obtain ⟨h1, h2⟩ := ih (s >>> 8) (u8 s :: acc)
    simp only [serverIdBytes]
    refine ⟨by rw [h1, List.length_cons]; omega, ?_⟩
    rw [List.length_cons] at h2
    have e : k + (acc.length + 1) = k + 1 + acc.length := by omega
    rw [e] at h2
    rw [h2, bigEndian, Nat.shiftRight_eq_div_pow, Nat.pow_succ 256]
    have hu : (u8 s).toNat = s % 256 := by simp [u8]
    rw [hu]
    have := Nat.div_add_mod s 256
    have e2 : s * 256 ^ acc.length = (256 * (s / 256) + s % 256) * 256 ^ acc.length := by rw [this]
    rw [e2, Nat.add_mul]
    have e3 : s / 2 ^ 8 * (256 ^ acc.length * 256) = 256 * (s / 256) * 256 ^ acc.length := by
      rw [Nat.mul_comm (256 ^ acc.length) 256, ← Nat.mul_assoc, Nat.mul_comm (s / 2 ^ 8) 256]
    rw [e3]; omega

/-- What an accepted configuration gives. -/
structure Good (c : Config) (ctx : Ctx) : Prop where
  method : ctx.method = c.method
  rotation : ctx.rotation = c.rotation
  firstByteLength : ctx.firstByteLength = c.firstByteLength
  nonceLength : ctx.nonceLength = c.nonceLength
  cidLength : ctx.cidLength = c.cidLength
  sidLength : ctx.serverId.length = c.serverIdLength
  sid : bigEndian ctx.serverId = c.serverId64
  sup : supported c = true
  small : c.serverIdLength ≤ 16

theorem config_good {hc : Bool} {len : Nat} {cb : Bool} {c : Config} {ctx : Ctx}
    (h : config hc len cb c = .accepted ctx) : Good c ctx := by
  unfold config at h
  by_cases h1 : (hc && len != c.cidLength) = true
  · rw [if_pos h1] at h; cases h
  rw [if_neg h1] at h
  by_cases h2 : cb = true
  · rw [if_pos h2] at h; cases h
  rw [if_neg h2] at h
  by_cases h3 : (!supported c) = true
  · rw [if_pos h3] at h; cases h
  rw [if_neg h3] at h
  by_cases h4 : c.serverIdLength > 16
  · rw [if_pos h4] at h; cases h
  rw [if_neg h4] at h
  obtain ⟨s1, s2⟩ := serverIdBytes_spec c.serverIdLength c.serverId64 []
  generalize serverIdBytes c.serverIdLength c.serverId64 [] = p at h s1 s2
  obtain ⟨bytes, rest⟩ := p
  dsimp only at h s1 s2
  by_cases h5 : rest ≠ 0
  · rw [if_pos h5] at h; cases h
  rw [if_neg h5] at h
  have h5 : rest = 0 := Classical.byContradiction h5
  subst h5
  cases h
  simp [bigEndian] at s1 s2
  exact ⟨rfl, rfl, rfl, rfl, rfl, s1, s2, (by simpa using h3), Nat.le_of_not_lt h4⟩

theorem supported_bounds {c : Config} (h : supported c = true) :
    c.cidLength ≤ 20 ∧
    (c.method = .clear → c.serverIdLength + 1 ≤ c.cidLength) ∧
    (c.method = .stream → 8 ≤ c.nonceLength ∧ c.nonceLength ≤ 16 ∧
      c.nonceLength + c.serverIdLength + 1 ≤ c.cidLength) ∧
    (c.method = .block → 17 ≤ c.cidLength ∧ c.serverIdLength ≤ 15) := by
  unfold supported at h
  by_cases h1 : c.cidLength > 20
  · rw [if_pos h1] at h; cases h
  rw [if_neg h1] at h
  refine ⟨Nat.le_of_not_lt h1, ?_, ?_, ?_⟩ <;>
  · intro hm
    simp only [hm, Bool.not_eq_true', Bool.or_eq_false_iff, decide_eq_false_iff_not] at h
    omega

theorem split3 (id : Bytes) (i j : Nat) (h : i + j + 1 ≤ id.length) :
    ∃ a n s r, id = [a] ++ (n ++ (s ++ r)) ∧ n.length = i ∧ s.length = j := by
  cases id with
  | nil => simp at h
  | cons a t =>
    simp only [List.length_cons] at h
    refine ⟨a, t.take i, (t.drop i).take j, (t.drop i).drop j, ?_, ?_, ?_⟩
    · rw [List.take_append_drop, List.take_append_drop]; rfl
    · rw [List.length_take]; omega
    · rw [List.length_take, List.length_drop]; omega

/-- The first byte of the connection ID. -/
def first (ctx : Ctx) (len : Nat) (a : UInt8) : UInt8 :=
  if ctx.firstByteLength then u8 ((ctx.rotation <<< 6) ||| (len - 1))
  else u8 ((a &&& 0x3F).toNat ||| (ctx.rotation <<< 6))

theorem firstByte_eq (ctx : Ctx) (len : Nat) (a : UInt8) (t : Bytes) :
    firstByte ctx len (a :: t) = first ctx len a :: t := by
  unfold firstByte first
  split <;> simp [copyAt]

theorem generate_clear {c : Config} {ctx : Ctx} (g : Good c ctx) (enc : Bytes → Bytes) (len : Nat)
    (hm : c.method = .clear) (a : UInt8) (s r : Bytes) (hs : s.length = c.serverIdLength) :
    generate enc ctx len ([a] ++ (s ++ r)) = [first ctx len a] ++ (ctx.serverId ++ r) := by
  unfold generate
  rw [g.method, hm]
  dsimp only
  unfold generateClear
  rw [List.singleton_append, firstByte_eq, ← List.singleton_append,
    copyAt_mid [first ctx len a] s r ctx.serverId 1 rfl (by rw [hs, g.sidLength])]

theorem generate_stream {c : Config} {ctx : Ctx} (g : Good c ctx) (enc : Bytes → Bytes) (len : Nat)
    (hm : c.method = .stream) (a : UInt8) (n s r : Bytes) (hn : n.length = c.nonceLength)
    (hs : s.length = c.serverIdLength) :
    generate enc ctx len ([a] ++ (n ++ (s ++ r))) =
      threePasses enc n.length ctx.serverId.length ([first ctx len a] ++ (n ++ (ctx.serverId ++ r))) := by
  unfold generate
  rw [g.method, hm]
  dsimp only
  unfold generateStream
  rw [List.singleton_append, firstByte_eq, ← List.singleton_append, g.nonceLength, ← hn, ← List.append_assoc,
    copyAt_mid ([first ctx len a] ++ n) s r ctx.serverId (1 + n.length)
      (by simp only [List.length_append, List.length_cons, List.length_nil]) (by rw [hs, g.sidLength]),
    List.append_assoc]

theorem generate_block {c : Config} {ctx : Ctx} (g : Good c ctx) {enc dec : Bytes → Bytes} (hc : BlockCipher enc dec)
    (len : Nat) (hm : c.method = .block) (a : UInt8) (s u r : Bytes) (hs : s.length = c.serverIdLength)
    (hu : s.length + u.length = 16) :
    generate enc ctx len ([a] ++ (s ++ (u ++ r))) = [first ctx len a] ++ (enc (ctx.serverId ++ u) ++ r) := by
  unfold generate
  rw [g.method, hm]
  dsimp only
  unfold generateBlock
  have hl : (ctx.serverId ++ u).length = 16 := by rw [List.length_append, g.sidLength, ← hs]; exact hu
  dsimp only
  rw [List.singleton_append, firstByte_eq, ← List.singleton_append,
    copyAt_mid [first ctx len a] s (u ++ r) ctx.serverId 1 rfl (by rw [hs, g.sidLength]), ← List.append_assoc ctx.serverId u,
    slice_mid [first ctx len a] (ctx.serverId ++ u) r 1 16 rfl hl,
    copyAt_mid [first ctx len a] (ctx.serverId ++ u) r _ 1 rfl (by rw [hc.length _ hl, hl])]

theorem prefix_split {l p r : Bytes} {k : Nat} (h : l.take k = (p ++ r).take k) (hp : p.length ≤ k) :
    ∃ r', l = p ++ r' := by
  refine ⟨l.drop p.length, ?_⟩
  have h1 : (l.take k).take p.length = p := by
    rw [h, List.take_take, Nat.min_eq_left hp, List.take_left]
  rw [List.take_take, Nat.min_eq_left hp] at h1
  have h2 := List.take_append_drop p.length l
  rw [h1] at h2
  exact h2.symm

/-- The bytes which the server decodes are those of the server ID. Only the bytes of the connection ID are read. -/
theorem verify_generate {c : Config} {ctx : Ctx} (g : Good c ctx) {enc dec : Bytes → Bytes} (hc : BlockCipher enc dec)
    (len : Nat) (id id' : Bytes) (hid : id.length = 20)
    (hid' : id'.take c.cidLength = (generate enc ctx len id).take c.cidLength) :
    verify enc dec ctx c.cidLength id' = decode64 0 ctx.serverId := by
  obtain ⟨b1, b2, b3, b4⟩ := supported_bounds g.sup
  have hsl := g.sidLength
  unfold verify
  rw [if_neg (by rw [g.cidLength]; exact fun h => h rfl), g.method]
  cases hm : c.method with
  | clear =>
    have := b2 hm
    obtain ⟨a, n, s, r, rfl, hn, hs⟩ := split3 id 0 c.serverIdLength (by omega)
    have : n = [] := List.eq_nil_of_length_eq_zero hn
    subst this
    rw [List.nil_append, generate_clear g enc len hm a s r hs, ← List.append_assoc] at hid'
    obtain ⟨r', rfl⟩ := prefix_split hid' (by simp only [List.length_append, List.length_cons, List.length_nil]; omega)
    dsimp only
    rw [List.append_assoc, slice_mid [first ctx len a] ctx.serverId r' 1 _ rfl rfl]
  | stream =>
    obtain ⟨h8, h16, hl⟩ := b3 hm
    obtain ⟨a, n, s, r, rfl, hn, hs⟩ := split3 id c.nonceLength c.serverIdLength (by omega)
    rw [generate_stream g enc len hm a n s r hn hs] at hid'
    obtain ⟨n1, s1, hs1, hn1, ln, ls, h⟩ := threePasses_eq hc (first ctx len a) n ctx.serverId r (by omega) (by omega)
    have l3 := onePass_length hc n1 s1 (by omega) (by omega)
    rw [h, ← List.append_assoc, ← List.append_assoc] at hid'
    obtain ⟨r', rfl⟩ := prefix_split hid' (by
      simp only [List.length_append, List.length_cons, List.length_nil]; omega)
    dsimp only
    obtain ⟨n2, s2, hs2, hn2, ln2, ls2, h2⟩ := threePasses_eq hc (first ctx len a) n ctx.serverId r' (by omega)
      (by omega)
    rw [hs2.trans hs1.symm] at hn2 h2
    rw [hn2.trans hn1.symm] at h2
    rw [List.append_assoc, List.append_assoc, ← h2, g.nonceLength, ← hn,
      threePasses_twice hc _ n ctx.serverId r' (by omega) (by omega),
      ← List.append_assoc, slice_mid ([first ctx len a] ++ n) ctx.serverId r' _ _
        (by simp only [List.length_append, List.length_cons, List.length_nil]) rfl]
  | block =>
    obtain ⟨h17, h15⟩ := b4 hm
    obtain ⟨a, s, u, r, rfl, hs, hu⟩ := split3 id c.serverIdLength (16 - c.serverIdLength) (by omega)
    have hl : (ctx.serverId ++ u).length = 16 := by rw [List.length_append, g.sidLength]; omega
    rw [generate_block g hc len hm a s u r hs (by omega), ← List.append_assoc] at hid'
    obtain ⟨r', rfl⟩ := prefix_split hid' (by
      simp only [List.length_append, List.length_cons, List.length_nil, hc.length _ hl]; omega)
    dsimp only
    rw [List.append_assoc, slice_mid [first ctx len a] _ r' 1 16 rfl (hc.length _ hl), hc.inverse _ hl, List.take_left]

theorem pad_length {random : Bytes} (h : random.length ≤ 20) :
    (random ++ List.replicate (20 - random.length) (0 : UInt8)).length = 20 := by
  rw [List.length_append, List.length_replicate]; omega

theorem generate_length {c : Config} {ctx : Ctx} (g : Good c ctx) {enc dec : Bytes → Bytes} (hc : BlockCipher enc dec)
    (len : Nat) (l : Bytes) (hl : l.length = 20) : (generate enc ctx len l).length = 20 := by
  obtain ⟨b1, b2, b3, b4⟩ := supported_bounds g.sup
  have hsl := g.sidLength
  cases hm : c.method with
  | clear =>
    have := b2 hm
    obtain ⟨a, n, s, r, rfl, hn, hs⟩ := split3 l 0 c.serverIdLength (by omega)
    have : n = [] := List.eq_nil_of_length_eq_zero hn
    subst this
    rw [List.nil_append, generate_clear g enc _ hm a s r hs]
    simp only [List.length_append, List.length_cons, List.length_nil] at hl ⊢; omega
  | stream =>
    obtain ⟨h8, h16, hll⟩ := b3 hm
    obtain ⟨a, n, s, r, rfl, hn, hs⟩ := split3 l c.nonceLength c.serverIdLength (by omega)
    rw [generate_stream g enc _ hm a n s r hn hs]
    obtain ⟨n1, s1, hs1, hn1, ln, ls, h⟩ := threePasses_eq hc (first ctx len a) n ctx.serverId r (by omega)
      (by omega)
    have l3 := onePass_length hc n1 s1 (by omega) (by omega)
    rw [h]
    simp only [List.length_append, List.length_cons, List.length_nil] at hl ⊢; omega
  | block =>
    obtain ⟨h17, h15⟩ := b4 hm
    obtain ⟨a, s, u, r, rfl, hs, hu⟩ := split3 l c.serverIdLength (16 - c.serverIdLength) (by omega)
    have hl2 : (ctx.serverId ++ u).length = 16 := by rw [List.length_append, g.sidLength]; omega
    rw [generate_block g hc _ hm a s u r hs (by omega)]
    simp only [List.length_append, List.length_cons, List.length_nil, hc.length _ hl2] at hl ⊢; omega

theorem verify_create {c : Config} {ctx : Ctx} (g : Good c ctx) {enc dec : Bytes → Bytes} (hc : BlockCipher enc dec)
    (random pad : Bytes) (hr : random.length = c.cidLength) (h64 : c.serverId64 < 2 ^ 64) :
    verify enc dec ctx c.cidLength (createLocalCid enc ctx random ++ pad) = c.serverId64 := by
  have hb := (supported_bounds g.sup).1
  have hl := generate_length g hc random.length
  have hpad := pad_length (random := random) (by omega)
  rw [verify_generate g hc random.length _ _ hpad]
  · have h1 := decode64_eq 0 ctx.serverId
    have h2 := decode64_lt 0 ctx.serverId (by decide)
    rw [Nat.zero_mul, Nat.zero_add, g.sid] at h1
    unfold u64 at h1
    omega
  · unfold createLocalCid
    rw [hr] at *
    have hl' := hl _ hpad
    rw [List.take_append_of_le_length (by rw [List.length_take]; omega), List.take_take, Nat.min_self]

end Picoquic.LoadBalancer
