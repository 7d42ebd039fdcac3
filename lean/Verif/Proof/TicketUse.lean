import Verif.Proof.TicketStore
/-!
# Uses of the store of session tickets: proofs
-/

namespace Picoquic.TicketStore
open Picoquic Picoquic.Spec Picoquic.TokenStore

theorem u64_lt (n : Nat) : u64 n < 2 ^ 64 := by simp only [u64]; omega

/-- A record that comes from a store of the history, and that can be saved and loaded. -/
structure Good (ops : List TicketOp) (t : Ticket) : Prop where
  fits : StorableTicket t
  room : t.sni.length + t.alpn.length + t.ticket.length ≤ 1796
  expiry : t.expiry = validUntil t.ticket
  origin : ∃ now, TicketOp.store now t.sni t.alpn t.version t.ticket (t.tp.take 6) ∈ ops ∧ 17 ≤ t.ticket.length ∧ (now = 0 ∨ now ≤ t.expiry)

theorem Good.size {ops : List TicketOp} {t : Ticket} (h : Good ops t) : StorableTicket t ∧ t.size ≤ 1928 := by
  refine ⟨h.fits, ?_⟩
  have := h.room; have := h.fits.ip; have := h.fits.client
  simp only [Ticket.size]; omega

theorem Good.used {ops : List TicketOp} {t : Ticket} (h : Good ops t) (b : Bool) : Good ops { t with used := b } := by
  obtain ⟨⟨a1, a2, a3, a4, a5, a6, a7, a8, a9⟩, h2, h3, h4⟩ := h
  exact ⟨⟨a1, a2, a3, a4, a5, a6, a7, a8, a9⟩, h2, h3, h4⟩

theorem Good.filed {ops : List TicketOp} {t : Ticket} (h : Good ops t) : Good ops (asFiled t) := by
  obtain ⟨⟨a1, a2, a3, a4, a5, a6, a7, a8, a9⟩, h2, h3, h4⟩ := h
  refine ⟨⟨a1, a2, a3, a4, ?_, a6, a7, a8, a9⟩, h2, h3, h4⟩
  rw [asFiled]; dsimp only
  split
  · decide
  · exact a5

theorem Good.seeded {ops : List TicketOp} {t : Ticket} (h : Good ops t) {ip client : Bytes} {a b c d : Nat}
    (hf : ip.length ≤ 16 ∧ client.length ≤ 16 ∧ a < 2 ^ 64 ∧ b < 2 ^ 64 ∧ c < 2 ^ 64 ∧ d < 2 ^ 64) :
    Good ops { t with ip := ip, client := client, tp := t.tp.take 6 ++ [a, b, c, d] } := by
  obtain ⟨⟨a1, a2, a3, a4, a5, a6, a7, a8, a9⟩, h2, h3, now, h4, h5⟩ := h
  have hl : (t.tp.take 6).length = 6 := by rw [List.length_take, a7]; rfl
  refine ⟨⟨a1, a2, a3, a4, hf.1, hf.2.1, ?_, ?_, a9⟩, h2, h3, now, ?_, h5⟩
  · simp only [List.length_append, hl, List.length_cons, List.length_nil]
  · intro x hx
    rcases List.mem_append.1 hx with hx | hx
    · exact a8 x (List.mem_of_mem_take hx)
    · obtain ⟨_, _, f3, f4, f5, f6⟩ := hf
      simp only [List.mem_cons, List.not_mem_nil, or_false] at hx
      rcases hx with rfl | rfl | rfl | rfl <;> assumption
  · have : (t.tp.take 6 ++ [a, b, c, d]).take 6 = t.tp.take 6 := by
      rw [List.take_append_of_le_length (by omega), List.take_take]; rfl
    dsimp only
    rw [this]; exact h4

theorem updateFirst_mem {p : Ticket → Bool} {f : Ticket → Ticket} {t : Ticket} : ∀ {s : List Ticket}, t ∈ updateFirst p f s → t ∈ s ∨ ∃ o ∈ s, t = f o
  | a :: s, h => by
    rw [updateFirst] at h
    by_cases hp : p a = true
    · rw [if_pos hp] at h
      rcases List.mem_cons.1 h with h | h
      · exact .inr ⟨a, List.mem_cons_self .., h⟩
      · exact .inl (List.mem_cons_of_mem _ h)
    · rw [if_neg hp] at h
      rcases List.mem_cons.1 h with h | h
      · exact .inl (by rw [h]; exact List.mem_cons_self ..)
      · rcases updateFirst_mem h with h | ⟨o, h, e⟩
        · exact .inl (List.mem_cons_of_mem _ h)
        · exact .inr ⟨o, List.mem_cons_of_mem _ h, e⟩

/-- The new record. -/
def newTicket (sni alpn : Bytes) (version : Nat) (ticket : Bytes) (tp : List Nat) : Ticket :=
  format (validUntil ticket) sni alpn version [] [] (tp ++ [0, 0, 0, 0]) ticket

theorem newTicket_eq (sni alpn : Bytes) (version : Nat) (ticket : Bytes) (tp : List Nat) :
    newTicket sni alpn version ticket tp = { expiry := validUntil ticket, sni := sni, alpn := alpn, version := version, ip := [], client := [], tp := tp ++ [0, 0, 0, 0], ticket := ticket } := rfl

theorem store_eq {now : Nat} (s : List Ticket) {sni alpn : Bytes} {version : Nat} {ticket : Bytes} {tp : List Nat}
    (h1 : 17 ≤ ticket.length) (h2 : now = 0 ∨ now ≤ validUntil ticket) :
    store now s sni alpn version ticket tp = (newTicket sni alpn version ticket tp ::
      s.filter (fun o => !(decide (o.expiry ≤ validUntil ticket) && sameKey o sni alpn version)), true) := by
  rw [store, if_neg (by omega), if_neg (by omega)]; rfl

theorem store_refused {now : Nat} (s : List Ticket) {sni alpn : Bytes} {version : Nat} {ticket : Bytes} {tp : List Nat}
    (h : ¬ (17 ≤ ticket.length ∧ (now = 0 ∨ now ≤ validUntil ticket))) : store now s sni alpn version ticket tp = (s, false) := by
  rw [store]
  by_cases h1 : ticket.length < 17
  · rw [if_pos h1]
  · rw [if_neg h1, if_pos (by omega)]

theorem step_good {all : List TicketOp} (hf : ∀ op ∈ all, ticketFits op) {s : List Ticket} (hs : ∀ t ∈ s, Good all t) {op : TicketOp} (ho : op ∈ all) :
    ∀ t ∈ (ticketStep s op).1, Good all t := by
  intro t ht
  have hfo := hf op ho
  match op, ho, hfo with
  | .store now sni alpn version ticket tp, ho, hfo =>
    simp only [ticketStep] at ht
    by_cases hc : 17 ≤ ticket.length ∧ (now = 0 ∨ now ≤ validUntil ticket)
    · rw [store_eq s hc.1 hc.2] at ht
      rcases List.mem_cons.1 ht with ht | ht
      · obtain ⟨f1, f2, f3, f4⟩ := hfo
        rw [ht, newTicket_eq]
        refine ⟨⟨?_, ?_, ?_, f2, Nat.zero_le _, Nat.zero_le _, ?_, ?_, ?_⟩, f1, rfl, now, ?_, hc.1, hc.2⟩
        · exact u64_lt _
        · dsimp only; omega
        · dsimp only; omega
        · dsimp only; rw [List.length_append, f3]; rfl
        · intro x hx
          rcases List.mem_append.1 hx with hx | hx
          · exact f4 x hx
          · simp only [List.mem_cons, List.not_mem_nil, or_false] at hx; omega
        · dsimp only; omega
        · dsimp only
          rw [List.take_append_of_le_length (by omega), List.take_of_length_le (by omega)]; exact ho
      · exact hs t (List.mem_filter.1 ht).1
    · rw [store_refused s hc] at ht; exact hs t ht
  | .resume .., _, _ => exact hs t ht
  | .get now sni alpn version mark, _, _ =>
    simp only [ticketStep, get] at ht
    rcases updateFirst_mem ht with ht | ⟨o, ho, e⟩
    · exact hs t ht
    · rw [e]; exact (hs o ho).used mark
  | .seed .., _, hfo =>
    simp only [ticketStep, seed] at ht
    rcases updateFirst_mem ht with ht | ⟨o, ho, e⟩
    · exact hs t ht
    · rw [e]; exact (hs o ho).seeded hfo
  | .restart now later, _, _ =>
    simp only [ticketStep] at ht
    rw [(load_save (fun t h => (hs t h).size)).2] at ht
    obtain ⟨o, ho, rfl⟩ := List.mem_map.1 ht
    exact (hs o (List.mem_filter.1 (List.mem_filter.1 ho).1).1).filed

theorem run_good {all : List TicketOp} (hf : ∀ op ∈ all, ticketFits op) : ∀ (ops : List TicketOp) (s : List Ticket), (∀ t ∈ s, Good all t) → (∀ op ∈ ops, op ∈ all) →
    ∀ t ∈ ticketRun s ops, Good all t
  | [], _, hs, _ => hs
  | op :: ops, s, hs, ho => by
    rw [ticketRun]
    exact run_good hf ops _ (step_good hf hs (ho op (List.mem_cons_self ..))) (fun o h => ho o (List.mem_cons_of_mem _ h))

theorem run_append : ∀ (a b : List TicketOp) (s : List Ticket), ticketRun s (a ++ b) = ticketRun (ticketRun s a) b
  | [], _, _ => rfl
  | op :: a, b, s => by rw [List.cons_append, ticketRun, run_append a b]; rfl

theorem found_iff {now : Nat} {sni alpn : Bytes} {version : Nat} {unused : Bool} {id : Nat} {t : Ticket} (h : found now sni alpn version unused id t = true) :
    now < t.expiry ∧ t.sni = sni ∧ t.alpn = alpn ∧ (version = 0 ∨ t.version = version) ∧ (unused = true → t.used = false) := by
  simp only [found, Bool.and_eq_true, decide_eq_true_eq, Bool.or_eq_true, Bool.not_eq_true'] at h
  obtain ⟨⟨⟨⟨⟨⟨⟨h1, _⟩, _⟩, h4⟩, h5⟩, h6⟩, h7⟩, _⟩ := h
  refine ⟨h1, h4, h5, h6, fun hu => ?_⟩
  rcases h7 with h7 | h7
  · rw [hu] at h7; cases h7
  · exact h7

theorem found_of {now : Nat} {version : Nat} {unused : Bool} {t : Ticket} (h1 : now < t.expiry) (h2 : version = 0 ∨ t.version = version) (h3 : unused = true → t.used = false) :
    found now t.sni t.alpn version unused 0 t = true := by
  have h4 : (!unused || !t.used) = true := by
    cases unused
    · rfl
    · rw [h3 rfl]; rfl
  simp only [found, Bool.and_eq_true, decide_eq_true_eq, Bool.or_eq_true]
  refine ⟨⟨⟨⟨⟨⟨⟨h1, trivial⟩, trivial⟩, trivial⟩, trivial⟩, h2⟩, ?_⟩, .inl trivial⟩
  simpa only [Bool.or_eq_true] using h4

theorem sameKey_iff {t : Ticket} {sni alpn : Bytes} {version : Nat} : sameKey t sni alpn version = true ↔ t.sni = sni ∧ t.alpn = alpn ∧ t.version = version := by
  simp only [sameKey, Bool.and_eq_true, decide_eq_true_eq]
  constructor
  · rintro ⟨⟨⟨⟨_, _⟩, h3⟩, h4⟩, h5⟩; exact ⟨h3, h4, h5⟩
  · rintro ⟨rfl, rfl, rfl⟩; exact ⟨⟨⟨⟨rfl, rfl⟩, rfl⟩, rfl⟩, rfl⟩

/-! ### The first record of a server, protocol and version -/

theorem find_filter {k q : Ticket → Bool} {t : Ticket} (hq : q t = true) : ∀ {s : List Ticket}, s.find? k = some t → (s.filter q).find? k = some t
  | a :: s, h => by
    rw [List.find?_cons] at h
    by_cases hk : k a = true
    · rw [hk] at h; cases h
      rw [List.filter_cons_of_pos hq, List.find?_cons, hk]
    · rw [Bool.not_eq_true] at hk
      rw [hk] at h
      by_cases ha : q a = true
      · rw [List.filter_cons_of_pos ha, List.find?_cons, hk]; exact find_filter hq h
      · rw [List.filter_cons_of_neg ha]; exact find_filter hq h

theorem find_map {k : Ticket → Bool} {f : Ticket → Ticket} (hf : ∀ t, k (f t) = k t) {t : Ticket} : ∀ {s : List Ticket}, s.find? k = some t → (s.map f).find? k = some (f t)
  | a :: s, h => by
    rw [List.find?_cons] at h
    rw [List.map_cons, List.find?_cons, hf]
    cases hk : k a <;> rw [hk] at h
    · exact find_map hf h
    · cases h; rfl

theorem find_update {k p : Ticket → Bool} {f : Ticket → Ticket} (hf : ∀ t, k (f t) = k t) {t : Ticket} : ∀ {s : List Ticket}, s.find? k = some t →
    (updateFirst p f s).find? k = some t ∨ (p t = true ∧ (updateFirst p f s).find? k = some (f t))
  | a :: s, h => by
    rw [List.find?_cons] at h
    rw [updateFirst]
    by_cases hp : p a = true
    · rw [if_pos hp, List.find?_cons, hf]
      cases hk : k a <;> rw [hk] at h
      · exact .inl h
      · cases h; exact .inr ⟨hp, rfl⟩
    · rw [if_neg hp, List.find?_cons]
      cases hk : k a <;> rw [hk] at h
      · exact find_update hf h
      · cases h; exact .inl rfl

theorem find_sub {k p : Ticket → Bool} (hkp : ∀ t, p t = true → k t = true) {t : Ticket} (hp : p t = true) : ∀ {s : List Ticket}, s.find? k = some t → s.find? p = some t
  | a :: s, h => by
    rw [List.find?_cons] at h ⊢
    cases hk : k a <;> rw [hk] at h
    · have : p a = false := by
        cases ha : p a
        · rfl
        · rw [hkp a ha] at hk; cases hk
      rw [this]; exact find_sub hkp hp h
    · cases h; rw [hp]

/-- The record of the ticket `x` is the first one of a server, protocol and version, and is not used. -/
def First (sni alpn : Bytes) (version : Nat) (x : Bytes) (tp : List Nat) (s : List Ticket) : Prop :=
  ∃ t, s.find? (fun o => sameKey o sni alpn version) = some t ∧ t.ticket = x ∧ t.expiry = validUntil x ∧ t.used = false ∧ t.tp.take 6 = tp

theorem step_first {all : List TicketOp} {sni alpn : Bytes} {version : Nat} {x : Bytes} {tp : List Nat} {s : List Ticket} (hs : ∀ t ∈ s, Good all t)
    (h : First sni alpn version x tp s) (op : TicketOp) (h1 : ∀ now y q, op ≠ .store now sni alpn version y q)
    (h2 : ∀ now v, op = .get now sni alpn v true → v ≠ 0 ∧ v ≠ version)
    (h3 : ∀ now later, op = .restart now later → now < validUntil x ∧ later ≤ validUntil x) : First sni alpn version x tp (ticketStep s op).1 := by
  obtain ⟨t, e1, e2, e3, e4, e5⟩ := h
  have hk := sameKey_iff.1 (List.find?_some (p := fun o => sameKey o sni alpn version) e1)
  match op with
  | .store now sni' alpn' version' ticket q =>
    have hne : ¬ (t.sni = sni' ∧ t.alpn = alpn' ∧ t.version = version') := by
      rintro ⟨rfl, rfl, rfl⟩
      obtain ⟨rfl, rfl, rfl⟩ := hk
      exact h1 now ticket q rfl
    simp only [ticketStep]
    by_cases hc : 17 ≤ ticket.length ∧ (now = 0 ∨ now ≤ validUntil ticket)
    · rw [store_eq s hc.1 hc.2]
      refine ⟨t, ?_, e2, e3, e4, e5⟩
      have hn : sameKey (newTicket sni' alpn' version' ticket q) sni alpn version = false := by
        cases hx : sameKey (newTicket sni' alpn' version' ticket q) sni alpn version
        · rfl
        · rw [newTicket_eq] at hx
          have := sameKey_iff.1 hx
          dsimp only at this
          rw [this.1, this.2.1, this.2.2] at hne
          exact absurd hk hne
      rw [List.find?_cons, hn]
      refine find_filter ?_ e1
      have : sameKey t sni' alpn' version' = false := by
        cases hx : sameKey t sni' alpn' version'
        · rfl
        · exact absurd (sameKey_iff.1 hx) hne
      rw [this, Bool.and_false]; rfl
    · rw [store_refused s hc]; exact ⟨t, e1, e2, e3, e4, e5⟩
  | .resume .. => exact ⟨t, e1, e2, e3, e4, e5⟩
  | .get now sni' alpn' v mark =>
    simp only [ticketStep, get]
    rcases find_update (p := found now sni' alpn' v mark 0) (f := fun t => { t with used := mark }) (k := fun o => sameKey o sni alpn version) (fun _ => rfl) e1 with g | ⟨g0, g⟩
    · exact ⟨t, g, e2, e3, e4, e5⟩
    · refine ⟨_, g, e2, e3, ?_, e5⟩
      cases mark
      · rfl
      · obtain ⟨_, f2, f3, f4, _⟩ := found_iff g0
        have := h2 now v (by rw [← hk.1, ← hk.2.1, f2, f3])
        rcases f4 with f4 | f4
        · exact absurd f4 this.1
        · exact absurd (f4.symm.trans hk.2.2) this.2
  | .seed now sni' alpn' v id ip client a b c d =>
    simp only [ticketStep, seed]
    have hl : t.tp.length = 10 := (hs t (List.mem_of_find?_eq_some e1)).fits.count
    rcases find_update (p := found now sni' alpn' v false id) (f := fun t => { t with ip := ip, client := client, tp := t.tp.take 6 ++ [a, b, c, d] })
      (k := fun o => sameKey o sni alpn version) (fun _ => rfl) e1 with g | ⟨_, g⟩
    · exact ⟨t, g, e2, e3, e4, e5⟩
    · refine ⟨_, g, e2, e3, e4, ?_⟩
      dsimp only
      rw [List.take_append_of_le_length (by rw [List.length_take, hl]; decide), List.take_take]; exact e5
  | .restart now later =>
    obtain ⟨g1, g2⟩ := h3 now later rfl
    simp only [ticketStep]
    rw [(load_save (fun t h => (hs t h).size)).2]
    refine ⟨asFiled t, ?_, e2, e3, e4, e5⟩
    refine find_map (f := asFiled) (fun _ => rfl) (find_filter ?_ (find_filter ?_ e1))
    · rw [e3]; exact decide_eq_true g2
    · rw [e3, e4]; simp only [g1, decide_true, Bool.not_false, Bool.and_self]

theorem run_first {all : List TicketOp} (hf : ∀ op ∈ all, ticketFits op) {sni alpn : Bytes} {version : Nat} {x : Bytes} {tp : List Nat} :
    ∀ (ops : List TicketOp) (s : List Ticket), (∀ t ∈ s, Good all t) → (∀ op ∈ ops, op ∈ all) → First sni alpn version x tp s →
    (∀ now y q, .store now sni alpn version y q ∉ ops) → (∀ now v, .get now sni alpn v true ∈ ops → v ≠ 0 ∧ v ≠ version) →
    (∀ now later, .restart now later ∈ ops → now < validUntil x ∧ later ≤ validUntil x) → First sni alpn version x tp (ticketRun s ops)
  | [], _, _, _, h, _, _, _ => h
  | op :: ops, s, hs, ho, h, h1, h2, h3 => by
    rw [ticketRun]
    refine run_first hf ops _ (step_good hf hs (ho op (List.mem_cons_self ..))) (fun o h => ho o (List.mem_cons_of_mem _ h))
      (step_first hs h op (fun now y q e => h1 now y q (by rw [e]; exact List.mem_cons_self ..)) (fun now v e => h2 now v (by rw [e]; exact List.mem_cons_self ..))
        (fun now later e => h3 now later (by rw [e]; exact List.mem_cons_self ..)))
      (fun now y q h => h1 now y q (List.mem_cons_of_mem _ h)) (fun now v h => h2 now v (List.mem_cons_of_mem _ h)) (fun now later h => h3 now later (List.mem_cons_of_mem _ h))

/-! ### Counting -/

/-- The unused records of a ticket. -/
def fresh (x : Bytes) (s : List Ticket) : Nat := s.countP (fun t => decide (t.ticket = x) && !t.used)

theorem fresh_filter (x : Bytes) (q : Ticket → Bool) (s : List Ticket) : fresh x (s.filter q) ≤ fresh x s := by
  rw [fresh, fresh]
  exact List.Sublist.countP_le List.filter_sublist

theorem fresh_map (x : Bytes) : ∀ s : List Ticket, fresh x (s.map asFiled) = fresh x s
  | [] => rfl
  | t :: s => by
    have := fresh_map x s
    rw [fresh] at this ⊢
    rw [fresh] at this ⊢
    rw [List.map_cons, List.countP_cons, List.countP_cons, this]; rfl

theorem fresh_same {p : Ticket → Bool} {f : Ticket → Ticket} (x : Bytes) (hf : ∀ t, (f t).ticket = t.ticket ∧ (f t).used = t.used) :
    ∀ s : List Ticket, fresh x (updateFirst p f s) = fresh x s
  | [] => rfl
  | t :: s => by
    have ih := fresh_same x hf s (p := p)
    rw [fresh] at ih ⊢
    rw [fresh] at ih ⊢
    rw [updateFirst]
    by_cases hp : p t = true
    · rw [if_pos hp, List.countP_cons, List.countP_cons, (hf t).1, (hf t).2]
    · rw [if_neg hp, List.countP_cons, List.countP_cons, ih]

theorem fresh_marked {p : Ticket → Bool} (hp : ∀ t, p t = true → t.used = false) (x : Bytes) : ∀ s : List Ticket,
    fresh x (updateFirst p (fun t => { t with used := true }) s) + (match s.find? p with | some t => if t.ticket = x then 1 else 0 | none => 0) = fresh x s
  | [] => rfl
  | t :: s => by
    have ih := fresh_marked hp x s
    rw [fresh, fresh] at ih ⊢
    rw [updateFirst, List.find?_cons]
    cases h : p t
    · rw [if_neg (by simp), List.countP_cons, List.countP_cons, ← ih]; dsimp only; omega
    · rw [if_pos rfl, List.countP_cons, List.countP_cons]
      dsimp only
      rw [hp t h]
      by_cases e : t.ticket = x
      · simp only [e, if_pos, decide_true, Bool.not_true, Bool.and_false, Bool.not_false, Bool.and_self]; rfl
      · simp only [e, decide_false, Bool.false_and]; rfl

theorem step_fresh {all : List TicketOp} {s : List Ticket} (hs : ∀ t ∈ s, Good all t) (op : TicketOp) (hl : isLook op = false) (x : Bytes) :
    fresh x (ticketStep s op).1 + (if isMarkedGet x (op, (ticketStep s op).2) = true then 1 else 0) ≤ fresh x s + (if isTicketStore x op = true then 1 else 0) := by
  match op, hl with
  | .store now sni alpn version ticket tp, _ =>
    simp only [ticketStep, isMarkedGet, isTicketStore]
    by_cases hc : 17 ≤ ticket.length ∧ (now = 0 ∨ now ≤ validUntil ticket)
    · rw [store_eq s hc.1 hc.2]
      have := fresh_filter x (fun o => !(decide (o.expiry ≤ validUntil ticket) && sameKey o sni alpn version)) s
      rw [fresh, List.countP_cons]
      rw [fresh] at this
      rw [newTicket_eq]
      simp only [Bool.not_false, Bool.and_true]
      by_cases e : ticket = x
      · simp only [e, decide_true, if_pos]; rw [e] at this; simp only [Bool.false_eq_true, if_false]; omega
      · simp only [e, decide_false, Bool.false_eq_true, if_false]; omega
    · rw [store_refused s hc]; simp
  | .resume .., _ => simp [ticketStep, isMarkedGet, isTicketStore]
  | .get now sni alpn version true, _ =>
    have := fresh_marked (p := found now sni alpn version true 0) (fun t h => (found_iff h).2.2.2.2 rfl) x s
    have e1 : (ticketStep s (.get now sni alpn version true)).1 = updateFirst (found now sni alpn version true 0) (fun t => { t with used := true }) s := rfl
    have e2 : (ticketStep s (.get now sni alpn version true)).2 = s.find? (found now sni alpn version true 0) := rfl
    rw [e1, e2]
    cases hr : s.find? (found now sni alpn version true 0) with
    | none =>
      have e3 : isMarkedGet x (.get now sni alpn version true, none) = false := rfl
      rw [hr] at this; rw [e3, if_neg (by decide)]; dsimp only at this; omega
    | some t =>
      have e3 : isMarkedGet x (.get now sni alpn version true, some t) = decide (t.ticket = x) := rfl
      rw [hr] at this; rw [e3]; dsimp only at this
      by_cases e : t.ticket = x
      · rw [if_pos e] at this; rw [if_pos (decide_eq_true e)]; omega
      · rw [if_neg e] at this; rw [decide_eq_false e, if_neg (by decide)]; omega
  | .seed now sni alpn version id ip client a b c d, _ =>
    have e1 : fresh x (ticketStep s (.seed now sni alpn version id ip client a b c d)).1 = fresh x s :=
      fresh_same x (f := fun t => { t with ip := ip, client := client, tp := t.tp.take 6 ++ [a, b, c, d] }) (fun t => ⟨rfl, rfl⟩) s
    have e2 (r : Option Ticket) : isMarkedGet x (.seed now sni alpn version id ip client a b c d, r) = false := rfl
    rw [e1, e2, if_neg (by decide)]; omega
  | .restart now later, _ =>
    simp only [ticketStep, isMarkedGet, isTicketStore]
    rw [(load_save (fun t h => (hs t h).size)).2]
    dsimp only
    rw [fresh_map]
    have h1 := fresh_filter x (fun t => decide (later ≤ t.expiry)) (saved now s)
    have h2 := fresh_filter x (fun t => decide (now < t.expiry) && !t.used) s
    rw [← saved] at h2
    simp; omega

theorem run_fresh {all : List TicketOp} (hf : ∀ op ∈ all, ticketFits op) (x : Bytes) : ∀ (ops : List TicketOp) (s : List Ticket), (∀ t ∈ s, Good all t) →
    (∀ op ∈ ops, op ∈ all) → (∀ op ∈ ops, isLook op = false) →
    fresh x (ticketRun s ops) + (ticketTrace s ops).countP (isMarkedGet x) ≤ fresh x s + ops.countP (isTicketStore x)
  | [], _, _, _, _ => by simp [ticketRun, ticketTrace]
  | op :: ops, s, hs, ho, hl => by
    have h := step_fresh hs op (hl op (List.mem_cons_self ..)) x
    have ih := run_fresh hf x ops _ (step_good hf hs (ho op (List.mem_cons_self ..))) (fun o h => ho o (List.mem_cons_of_mem _ h)) (fun o h => hl o (List.mem_cons_of_mem _ h))
    rw [ticketRun, ticketTrace, List.countP_cons, List.countP_cons]
    omega

end Picoquic.TicketStore
