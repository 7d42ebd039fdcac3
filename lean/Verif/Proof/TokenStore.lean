import Verif.Proof.TokenFile
/-!
# The store of tokens: proofs
-/

namespace Picoquic.TokenStore
open Picoquic Picoquic.Spec

/-- The record can be returned. -/
def Eligible (now : Nat) (sni ip : Bytes) (t : Token) : Prop :=
  now < t.expiry ∧ t.sni = sni ∧ t.used = false ∧ (ip = [] ∨ t.ip = ip)

theorem findToken_best {now : Nat} {sni ip : Bytes} (hip : ip = []) (b : Nat × Nat) :
    ∀ (s : List Token) (i : Nat), (∀ t ∈ s, t.expiry ≤ b.2) → findToken now sni ip i (some b) s = some b
  | [], _, _ => rfl
  | t :: s, i, h => by
    have ih := findToken_best (now := now) (sni := sni) hip b s (i + 1) (fun t h' => h t (List.mem_cons_of_mem _ h'))
    have ht := h t (List.mem_cons_self ..)
    rw [findToken]
    rw [if_neg (by rw [hip]; simp : ¬ ip.length > 0), if_neg (by omega : ¬ t.expiry > b.2), ih]
    split <;> rfl

theorem findToken_first {now : Nat} {sni ip : Bytes} : ∀ (s : List Token) (i : Nat),
    s.Pairwise (fun a b => b.expiry ≤ a.expiry) →
    (findToken now sni ip i none s = none ∧ ∀ t ∈ s, ¬ Eligible now sni ip t) ∨
    ∃ l1 t l2, s = l1 ++ t :: l2 ∧ Eligible now sni ip t ∧ (∀ a ∈ l1, ¬ Eligible now sni ip a) ∧
      findToken now sni ip i none s = some (i + l1.length, t.expiry)
  | [], _, _ => .inl ⟨rfl, by simp⟩
  | t :: s, i, hp => by
    rw [List.pairwise_cons] at hp
    have ih := findToken_first (now := now) (sni := sni) (ip := ip) s (i + 1) hp.2
    by_cases he : Eligible now sni ip t
    · right
      refine ⟨[], t, s, rfl, he, by simp, ?_⟩
      obtain ⟨h1, h2, h3, h4⟩ := he
      rw [findToken, if_pos ⟨h1, by rw [h2], h2, h3⟩]
      by_cases hl : ip.length > 0
      · rw [if_pos hl]
        have : t.ip = ip := by
          rcases h4 with h4 | h4
          · rw [h4] at hl; simp at hl
          · exact h4
        rw [if_pos ⟨by rw [this], this⟩]; rfl
      · rw [if_neg hl]
        have : ip = [] := by
          rw [← List.length_eq_zero_iff]; omega
        exact findToken_best this _ s _ hp.1
    · have hf : findToken now sni ip i none (t :: s) = findToken now sni ip (i + 1) none s := by
        rw [findToken]
        by_cases hc : t.expiry > now ∧ t.sni.length = sni.length ∧ t.sni = sni ∧ t.used = false
        · rw [if_pos hc]
          have hl : ip.length > 0 := by
            rw [gt_iff_lt, List.length_pos_iff]
            intro h; exact he ⟨hc.1, hc.2.2.1, hc.2.2.2, .inl h⟩
          rw [if_pos hl, if_neg (fun h => he ⟨hc.1, hc.2.2.1, hc.2.2.2, .inr h.2⟩)]
        · rw [if_neg hc]
      rw [hf]
      rcases ih with ⟨h1, h2⟩ | ⟨l1, u, l2, h1, h2, h3, h4⟩
      · left
        refine ⟨h1, fun a ha => ?_⟩
        rcases List.mem_cons.1 ha with rfl | ha
        · exact he
        · exact h2 a ha
      · right
        refine ⟨t :: l1, u, l2, by rw [h1]; rfl, h2, fun a ha => ?_, by rw [h4, List.length_cons]; congr 2; omega⟩
        rcases List.mem_cons.1 ha with rfl | ha
        · exact he
        · exact h3 a ha

/-- What `get` does to a store in order: the first eligible record is returned. -/
theorem get_first {now : Nat} {s : List Token} {sni ip : Bytes} {mark : Bool}
    (hp : s.Pairwise (fun a b => b.expiry ≤ a.expiry)) (ht : ∀ t ∈ s, 1 ≤ t.token.length) :
    (get now s sni ip mark = (s, none) ∧ ∀ t ∈ s, ¬ Eligible now sni ip t) ∨
    ∃ l1 t l2, s = l1 ++ t :: l2 ∧ Eligible now sni ip t ∧ (∀ a ∈ l1, ¬ Eligible now sni ip a) ∧
      get now s sni ip mark = (l1 ++ { t with used := mark } :: l2, some t.token) := by
  rcases findToken_first (now := now) (sni := sni) (ip := ip) s 0 hp with ⟨h1, h2⟩ | ⟨l1, t, l2, h1, h2, h3, h4⟩
  · left; exact ⟨by rw [get, h1], h2⟩
  · right
    refine ⟨l1, t, l2, h1, h2, h3, ?_⟩
    have := ht t (by rw [h1]; simp)
    rw [Nat.zero_add] at h4
    rw [get, h4]
    dsimp only
    have hi : s[l1.length]? = some t := by rw [h1]; simp
    rw [hi]
    dsimp only
    rw [if_neg (by omega), h1]
    simp

theorem store_eq {now : Nat} {s : List Token} {sni ip token : Bytes} (h1 : 1 ≤ token.length) (h2 : 1 ≤ sni.length)
    (h3 : now + DAY < 2 ^ 64) (hs : ∀ t ∈ s, t.expiry ≤ now + DAY) :
    (store now s sni ip token).1 =
      ⟨now + DAY, sni, ip, token, false⟩ :: s.filter (fun o => !(decide (o.sni = sni) && decide (o.ip = ip))) := by
  rw [store, if_neg (by omega)]
  have hu : u64 (now + DAY) = now + DAY := Nat.mod_eq_of_lt h3
  generalize now + DAY = d at *
  simp only [hu]
  refine congrArg (List.cons _) (List.filter_congr fun t ht => ?_)
  have := hs t ht
  by_cases e1 : t.sni = sni
  · by_cases e2 : t.ip = ip
    · simp [e1, e2, this]
    · simp [e2]
  · simp [e1]

theorem tokenRun_snoc (ops : List TokenOp) (op : TokenOp) :
    tokenRun (ops ++ [op]) = (tokenStep (tokenRun ops) op).1 := by simp [tokenRun]

theorem tokenTrace_snoc (op : TokenOp) : ∀ (ops : List TokenOp) (s : List Token),
    tokenTrace s (ops ++ [op]) = tokenTrace s ops ++
      [(op, (tokenStep (ops.foldl (fun s op => (tokenStep s op).1) s) op).2)]
  | [], s => rfl
  | a :: ops, s => by
    rw [List.cons_append, tokenTrace, tokenTrace_snoc op ops, tokenTrace, List.cons_append, List.foldl_cons]

/-- The record comes from a use of the history, and it was not replaced since. -/
def Origin (ops : List TokenOp) (e : Token) : Prop :=
  ∃ pre t0 post, ops = pre ++ .store t0 e.sni e.ip e.token :: post ∧ e.expiry = t0 + DAY ∧
    ∀ t1 x1, TokenOp.store t1 e.sni e.ip x1 ∉ post

/-- The unused records of a token. -/
def unused (sni x : Bytes) (s : List Token) : Nat := s.countP (fun e => decide (e.sni = sni) && decide (e.token = x) && !e.used)

/-- What is true after a history. -/
structure Inv (now : Nat) (ops : List TokenOp) (s : List Token) : Prop where
  order : s.Pairwise (fun a b => b.expiry ≤ a.expiry)
  fits : ∀ t ∈ s, Storable t ∧ t.size ≤ 2016
  late : ∀ t ∈ s, t.expiry ≤ now + DAY
  origin : ∀ t ∈ s, Origin ops t
  count : ∀ sni x, unused sni x s + timesUsed sni x ops ≤ timesStored sni x ops

theorem Origin.snoc {ops : List TokenOp} {e : Token} {op : TokenOp} (h : Origin ops e)
    (hop : ∀ t1 x1, op ≠ .store t1 e.sni e.ip x1) : Origin (ops ++ [op]) e := by
  obtain ⟨pre, t0, post, h1, h2, h3⟩ := h
  refine ⟨pre, t0, post ++ [op], by rw [h1]; simp, h2, fun t1 x1 hm => ?_⟩
  rcases List.mem_append.1 hm with hm | hm
  · exact h3 t1 x1 hm
  · rw [List.mem_singleton] at hm; exact hop t1 x1 hm.symm

theorem timesUsed_snoc (sni x : Bytes) (ops : List TokenOp) (op : TokenOp) :
    timesUsed sni x (ops ++ [op]) =
      timesUsed sni x ops + if isMarkedReturnOf sni x (op, (tokenStep (tokenRun ops) op).2) then 1 else 0 := by
  rw [timesUsed, tokenTrace_snoc, List.countP_append, timesUsed, List.countP_singleton]; rfl

theorem timesStored_snoc (sni x : Bytes) (ops : List TokenOp) (op : TokenOp) :
    timesStored sni x (ops ++ [op]) = timesStored sni x ops + if isStoreOf sni x op then 1 else 0 := by
  rw [timesStored, List.countP_append, timesStored, List.countP_singleton]

theorem unused_filter (sni x : Bytes) (s : List Token) (p : Token → Bool) :
    unused sni x (s.filter p) ≤ unused sni x s := List.filter_sublist.countP_le

theorem inv_of {now : Nat} {ops : List TokenOp} (h : TokenHistory now ops) : Inv now ops (tokenRun ops) := by
  induction h with
  | nil => exact ⟨.nil, by simp [tokenRun], by simp [tokenRun], by simp [tokenRun], fun _ _ => by simp [unused, tokenRun, timesUsed, tokenTrace, timesStored]⟩
  | @snoc now ops op h h1 h2 h3 h4 ih =>
    cases op with
    | store n sni ip token =>
      obtain ⟨g1, g2⟩ := h4 n sni ip token rfl
      simp only [TokenOp.time, TokenOp.last] at h1 h2 h3 ⊢
      have hs : ∀ t ∈ tokenRun ops, t.expiry ≤ n + DAY := fun t ht => by
        have := ih.late t ht; omega
      have hR : tokenRun (ops ++ [.store n sni ip token]) = ⟨n + DAY, sni, ip, token, false⟩ ::
          (tokenRun ops).filter (fun o => !(decide (o.sni = sni) && decide (o.ip = ip))) := by
        rw [tokenRun_snoc]; exact store_eq g1.token.1 g1.sni.1 h3 hs
      rw [hR]
      constructor
      · rw [List.pairwise_cons]
        exact ⟨fun a ha => hs a (List.mem_filter.1 ha).1, ih.order.filter _⟩
      · intro t ht
        rcases List.mem_cons.1 ht with rfl | ht
        · exact ⟨g1, by simp only [Token.size]; omega⟩
        · exact ih.fits t (List.mem_filter.1 ht).1
      · intro t ht
        rcases List.mem_cons.1 ht with rfl | ht
        · exact Nat.le_refl _
        · exact hs t (List.mem_filter.1 ht).1
      · intro t ht
        rcases List.mem_cons.1 ht with rfl | ht
        · exact ⟨ops, n, [], rfl, rfl, by simp⟩
        · obtain ⟨m1, m2⟩ := List.mem_filter.1 ht
          refine (ih.origin t m1).snoc fun t1 x1 he => ?_
          cases he
          simp at m2
      · intro s x
        have hc := ih.count s x
        have hf := unused_filter s x (tokenRun ops) (fun o => !(decide (o.sni = sni) && decide (o.ip = ip)))
        rw [timesUsed_snoc, timesStored_snoc]
        have e1 : isMarkedReturnOf s x (TokenOp.store n sni ip token,
            (tokenStep (tokenRun ops) (.store n sni ip token)).2) = false := rfl
        rw [e1, unused, List.countP_cons]
        rw [unused] at hf
        have e2 : isStoreOf s x (.store n sni ip token) = (decide (sni = s) && decide (token = x)) := rfl
        rw [e2]
        simp only [Bool.not_false, Bool.and_true]
        by_cases hq : (decide (sni = s) && decide (token = x)) = true
        · simp only [if_pos hq, Bool.false_eq_true, if_false]; omega
        · simp only [if_neg hq, Bool.false_eq_true, if_false]; omega
    | get n sni ip mark =>
      simp only [TokenOp.time, TokenOp.last] at h1 h2 h3 ⊢
      have hR : tokenRun (ops ++ [.get n sni ip mark]) = (get n (tokenRun ops) sni ip mark).1 := tokenRun_snoc ..
      have hO : (tokenStep (tokenRun ops) (.get n sni ip mark)).2 = (get n (tokenRun ops) sni ip mark).2 := rfl
      have hor : ∀ t, Origin ops t → Origin (ops ++ [.get n sni ip mark]) t :=
        fun t ht => ht.snoc (fun _ _ he => by cases he)
      rcases get_first (now := n) (sni := sni) (ip := ip) (mark := mark) ih.order
        (fun t ht => (ih.fits t ht).1.token.1) with ⟨g1, _⟩ | ⟨l1, t, l2, g1, g2, _, g3⟩
      · rw [hR, g1]
        refine ⟨ih.order, ih.fits, fun t ht => ?_, fun t ht => hor t (ih.origin t ht), fun s x => ?_⟩
        · have := ih.late t ht; omega
        · rw [timesUsed_snoc, timesStored_snoc, hO, g1]
          have e1 : isMarkedReturnOf s x (TokenOp.get n sni ip mark, none) = false := by cases mark <;> rfl
          rw [e1]
          have := ih.count s x
          simp only [isStoreOf]
          simp only [Bool.false_eq_true, if_false]; omega
      · rw [hR, g3]
        dsimp only
        obtain ⟨i1, i2, i3, i4, i5⟩ := ih
        rw [g1] at i1 i2 i3 i4 i5
        have hmem : ∀ a ∈ l1 ++ { t with used := mark } :: l2, ∃ b ∈ l1 ++ t :: l2, ∃ u, a = { b with used := u } := by
          intro a ha
          rcases List.mem_append.1 ha with ha | ha
          · exact ⟨a, List.mem_append_left _ ha, a.used, rfl⟩
          · rcases List.mem_cons.1 ha with rfl | ha
            · exact ⟨t, by simp, mark, rfl⟩
            · exact ⟨a, by simp [ha], a.used, rfl⟩
        refine ⟨?_, fun a ha => ?_, fun a ha => ?_, fun a ha => ?_, fun s x => ?_⟩
        · rw [List.pairwise_append, List.pairwise_cons] at i1 ⊢
          refine ⟨i1.1, i1.2.1, fun a ha b hb => ?_⟩
          rcases List.mem_cons.1 hb with rfl | hb
          · exact i1.2.2 a ha t (by simp)
          · exact i1.2.2 a ha b (by simp [hb])
        · obtain ⟨b, hb, u, rfl⟩ := hmem a ha
          obtain ⟨⟨k1, k2, k3, k4⟩, k5⟩ := i2 b hb
          exact ⟨⟨k1, k2, k3, k4⟩, k5⟩
        · obtain ⟨b, hb, u, rfl⟩ := hmem a ha
          have := i3 b hb
          show b.expiry ≤ _
          omega
        · obtain ⟨b, hb, u, rfl⟩ := hmem a ha
          exact hor _ (i4 b hb)
        · rw [timesUsed_snoc, timesStored_snoc, hO, g3]
          have := i5 s x
          simp only [unused, List.countP_append, List.countP_cons] at this ⊢
          obtain ⟨_, k2, k3, _⟩ := g2
          have e2 : isStoreOf s x (.get n sni ip mark) = false := rfl
          rw [e2]
          simp only [k2, k3] at this ⊢
          cases mark
          · simp only [isMarkedReturnOf]
            simpa using this
          · have e3 : isMarkedReturnOf s x (.get n sni ip true, some t.token) =
                (decide (sni = s) && decide (t.token = x)) := rfl
            rw [e3]
            simp only [Bool.not_true, Bool.and_false, Bool.not_false, Bool.and_true] at this ⊢
            by_cases hq : (decide (sni = s) && decide (t.token = x)) = true
            · simp only [if_pos hq, Bool.false_eq_true, if_false] at this ⊢; omega
            · simp only [if_neg hq, Bool.false_eq_true, if_false] at this ⊢; omega
    | restart n later =>
      simp only [TokenOp.time, TokenOp.last] at h1 h2 h3 ⊢
      have hR : tokenRun (ops ++ [.restart n later]) =
          (saved n (tokenRun ops)).filter (fun t => decide (later ≤ t.expiry)) := by
        rw [tokenRun_snoc]
        have := (load_save (now := n) (later := later) ih.fits []).2.2
        show (load later [] (save n (tokenRun ops)).1).1 = _
        rw [this]
      have hm : ∀ t ∈ tokenRun (ops ++ [.restart n later]), t ∈ tokenRun ops := fun t ht => by
        rw [hR, saved] at ht
        exact (List.mem_filter.1 (List.mem_filter.1 ht).1).1
      refine ⟨?_, fun t ht => ih.fits t (hm t ht), fun t ht => ?_, fun t ht => (ih.origin t (hm t ht)).snoc (fun _ _ he => by cases he), fun s x => ?_⟩
      · rw [hR]; exact (ih.order.filter _).filter _
      · have := ih.late t (hm t ht); omega
      · rw [timesUsed_snoc, timesStored_snoc]
        have e1 : isMarkedReturnOf s x (TokenOp.restart n later,
            (tokenStep (tokenRun ops) (.restart n later)).2) = false := rfl
        have e2 : isStoreOf s x (.restart n later) = false := rfl
        rw [e1, e2, hR]
        have a1 := unused_filter s x (saved n (tokenRun ops)) (fun t => decide (later ≤ t.expiry))
        have a2 : unused s x (saved n (tokenRun ops)) ≤ unused s x (tokenRun ops) := unused_filter ..
        have := ih.count s x
        simp only [Bool.false_eq_true, if_false]
        omega

/-- A marking use that could return the record. -/
def MayMark (sni ip : Bytes) (op : TokenOp) : Prop := ∃ t1 ip1, op = .get t1 sni ip1 true ∧ (ip1 = [] ∨ ip1 = ip)

/-- The last record stored for a server and an address remains in the store until it expires, as long as
it is not marked, and what comes before it was stored after it. -/
theorem remains {now : Nat} {ops : List TokenOp} (h : TokenHistory now ops) (pre : List TokenOp) (t0 : Nat)
    (sni ip x : Bytes) : ∀ post : List TokenOp, ops = pre ++ .store t0 sni ip x :: post → now < t0 + DAY →
    (∀ t1 x1, TokenOp.store t1 sni ip x1 ∉ post) → (∀ op ∈ post, ¬ MayMark sni ip op) →
    ∃ l1 l2, tokenRun ops = l1 ++ ⟨t0 + DAY, sni, ip, x, false⟩ :: l2 ∧
      ∀ a ∈ l1, ∃ t1 x1, TokenOp.store t1 a.sni a.ip x1 ∈ post := by
  induction h with
  | nil => intro post he; simp at he
  | @snoc now ops op h h1 h2 h3 h4 ih =>
    intro post he hx hr hm
    have ii := inv_of h
    rcases List.eq_nil_or_concat post with rfl | ⟨post', op', rfl⟩
    · have hops : ops = pre ∧ op = .store t0 sni ip x := by
        have := List.append_inj' he rfl
        exact ⟨this.1, by simpa using this.2⟩
      obtain ⟨rfl, rfl⟩ := hops
      obtain ⟨g1, g2⟩ := h4 t0 sni ip x rfl
      simp only [TokenOp.time, TokenOp.last] at h1 h2 h3
      have hS := store_eq (ip := ip) g1.token.1 g1.sni.1 h3 (s := tokenRun ops)
        (fun t ht => by have := ii.late t ht; omega)
      exact ⟨[], _, (tokenRun_snoc _ _).trans hS, by simp⟩
    · have hops : ops = pre ++ .store t0 sni ip x :: post' ∧ op = op' := by
        have he' : ops ++ [op] = (pre ++ .store t0 sni ip x :: post') ++ [op'] := by rw [he]; simp
        have := List.append_inj' he' rfl
        exact ⟨this.1, by simpa using this.2⟩
      obtain ⟨hops, rfl⟩ := hops
      obtain ⟨l1, l2, e1, e2⟩ := ih post' hops (by omega) (fun t1 x1 hh => hr t1 x1 (by simp [hh]))
        (fun o ho => hm o (by simp [ho]))
      have hmo := hm op (by simp)
      have e2' : ∀ a ∈ l1, ∃ t1 x1, TokenOp.store t1 a.sni a.ip x1 ∈ post'.concat op := fun a ha => by
        obtain ⟨t1, x1, hh⟩ := e2 a ha
        exact ⟨t1, x1, by simp [hh]⟩
      cases op with
      | store n sni' ip' token =>
        obtain ⟨g1, g2⟩ := h4 n sni' ip' token rfl
        simp only [TokenOp.time, TokenOp.last] at h1 h2 h3
        have hR : tokenRun (ops ++ [.store n sni' ip' token]) = ⟨n + DAY, sni', ip', token, false⟩ ::
            (tokenRun ops).filter (fun o => !(decide (o.sni = sni') && decide (o.ip = ip'))) := by
          rw [tokenRun_snoc]
          exact store_eq g1.token.1 g1.sni.1 h3 (fun t ht => by have := ii.late t ht; omega)
        have hk : ¬ (sni = sni' ∧ ip = ip') := by
          rintro ⟨rfl, rfl⟩
          exact hr n token (by simp)
        rw [hR, e1, List.filter_append, List.filter_cons_of_pos (by simp; exact Decidable.not_and_iff_or_not.1 hk), ← List.cons_append]
        refine ⟨_, _, rfl, fun a ha => ?_⟩
        rcases List.mem_cons.1 ha with rfl | ha
        · exact ⟨n, token, by simp⟩
        · exact e2' a (List.mem_filter.1 ha).1
      | get n sni' ip' mark =>
        have hR : tokenRun (ops ++ [.get n sni' ip' mark]) = (get n (tokenRun ops) sni' ip' mark).1 :=
          tokenRun_snoc ..
        rw [hR]
        rcases get_first (now := n) (sni := sni') (ip := ip') (mark := mark) ii.order
          (fun t ht => (ii.fits t ht).1.token.1) with ⟨g1, _⟩ | ⟨m1, t, m2, g1, g2, g4, g3⟩
        · rw [g1]; exact ⟨l1, l2, e1, e2'⟩
        · rw [g3]
          dsimp only
          cases mark with
          | false =>
            have : ({ t with used := false } : Token) = t := by
              obtain ⟨_, _, k, _⟩ := g2
              cases t; simp only at k; rw [k]
            rw [this, ← g1]
            exact ⟨l1, l2, e1, e2'⟩
          | true =>
            have hne : t ≠ ⟨t0 + DAY, sni, ip, x, false⟩ := by
              rintro rfl
              obtain ⟨_, k1, _, k2⟩ := g2
              simp only at k1 k2
              subst k1
              exact hmo ⟨n, ip', rfl, by rcases k2 with k2 | k2; exact .inl k2; exact .inr k2.symm⟩
            rw [e1] at g1
            rcases List.append_eq_append_iff.1 g1 with ⟨c, c1, c2⟩ | ⟨c, c1, c2⟩
            · cases c with
              | nil => simp only [List.nil_append, List.cons.injEq] at c2; exact absurd c2.1.symm hne
              | cons y c =>
                simp only [List.cons_append, List.cons.injEq] at c2
                obtain ⟨rfl, c3⟩ := c2
                rw [c1]
                refine ⟨l1, c ++ { t with used := true } :: m2, by simp, e2'⟩
            · cases c with
              | nil => simp only [List.nil_append, List.cons.injEq] at c2; exact absurd c2.1 hne
              | cons y c =>
                simp only [List.cons_append, List.cons.injEq] at c2
                obtain ⟨rfl, c3⟩ := c2
                rw [c3]
                refine ⟨m1 ++ { t with used := true } :: c, l2, by simp, fun a ha => ?_⟩
                rcases List.mem_append.1 ha with ha | ha
                · exact e2' a (by rw [c1]; simp [ha])
                · rcases List.mem_cons.1 ha with rfl | ha
                  · exact e2' t (by rw [c1]; simp)
                  · exact e2' a (by rw [c1]; simp [ha])
      | restart n later =>
        simp only [TokenOp.time, TokenOp.last] at h1 h2 h3 hx
        have hR : tokenRun (ops ++ [.restart n later]) =
            (saved n (tokenRun ops)).filter (fun t => decide (later ≤ t.expiry)) := by
          rw [tokenRun_snoc]
          have := (load_save (now := n) (later := later) ii.fits []).2.2
          show (load later [] (save n (tokenRun ops)).1).1 = _
          rw [this]
        rw [hR, saved, e1, List.filter_append, List.filter_cons_of_pos (by simp; omega), List.filter_append,
          List.filter_cons_of_pos (by simp; omega)]
        exact ⟨_, _, rfl, fun a ha => e2' a (List.mem_filter.1 (List.mem_filter.1 ha).1).1⟩

end Picoquic.TokenStore
