import Verif.Proof.TicketUse
/-!
# C85: the store of session tickets
-/

namespace Picoquic.Props
open Picoquic Picoquic.TicketStore Picoquic.Spec

/-- **C85**, serialization. A ticket is written in any buffer of at least its size, and whatever follows, what is parsed back has the same expiry time, server name, protocol, version, addresses, parameters
and ticket, and the length consumed is the length written.
Missing from the full statement: the tickets that have an address of the server but none of the client, for which it is false (`C85_address_violated`). -/
theorem C85_roundtrip_partial (t : Ticket) (ht : StorableTicket t) (ha : t.client ≠ [] ∨ t.ip = []) (room : Nat)
    (hr : 100 + t.sni.length + t.alpn.length + t.ticket.length + t.ip.length + t.client.length ≤ room) :
    ∃ r, serialize t room = some r ∧ r.length = 100 + t.sni.length + t.alpn.length + t.ticket.length + t.ip.length + t.client.length ∧
      ∀ tail, deserialize (r ++ tail) = .ok { t with used := false } r.length := by
  obtain ⟨r, h⟩ := serialize_some (t := t) hr
  refine ⟨r, h, (serialize_length ht.count h).1, fun tail => ?_⟩
  rw [deserialize_serialize ht h tail]
  have : asFiled t = t := by
    rw [asFiled]
    by_cases hc : t.client = []
    · rw [if_pos hc]
      rcases ha with ha | ha
      · exact absurd hc ha
      · rw [← ha]
    · rw [if_neg hc]
  rw [this]

/-- **C85**, negation: of a ticket that has the address of the server, but no address of the client, all is parsed back but the address of the server. -/
theorem C85_address_violated (t : Ticket) (ht : StorableTicket t) (hc : t.client = []) (hi : t.ip ≠ []) (room : Nat) (r tail : Bytes) (h : serialize t room = some r) :
    deserialize (r ++ tail) = .ok { t with ip := [], used := false } r.length ∧ ({ t with ip := [], used := false } : Ticket).ip ≠ t.ip := by
  refine ⟨?_, fun e => hi e.symm⟩
  rw [deserialize_serialize ht h tail, asFiled, if_pos hc]

/-- **C85**, bounds. Serialization never writes more than the room that it has. -/
theorem C85_room (t : Ticket) (ht : StorableTicket t) (room : Nat) (r : Bytes) (h : serialize t room = some r) : r.length ≤ room := by
  have := serialize_length ht.count h; omega

/-- **C85**, bounds. Parsing any bytes does not read outside of them, and does not consume more than them. -/
theorem C85_in_bounds (bs : Bytes) : deserialize bs ≠ .outside ∧ ∀ t n, deserialize bs = .ok t n → n ≤ bs.length := deserialize_in bs

/-- **C85**, files. If no record of the store is larger than 1928 bytes, and those with an address of the server have one of the client, saving succeeds, loading the file succeeds, and a new process gets exactly
the records that are unused, had not expired when the file was saved and have not expired when it is loaded, in the same order.
Missing from the full statement: the records of 1929 to 2048 bytes, for which it is false (`C85_file_violated`); those of more than 2048 bytes are not saved and saving reports it (`C85_file_too_large`);
the address of a server without one of the client (`C85_address_violated`). -/
theorem C85_file_partial (now later : Nat) (s : List Ticket) (hs : ∀ t ∈ s, StorableTicket t ∧ (t.client ≠ [] ∨ t.ip = []) ∧
    100 + t.sni.length + t.alpn.length + t.ticket.length + t.ip.length + t.client.length ≤ 1928) :
    (save now s).2 = true ∧ load later [] (save now s).1 = (s.filter (fun t => decide (now < t.expiry) && !t.used && decide (later ≤ t.expiry)), true) := by
  have h := load_save (now := now) (later := later) (s := s) (fun t h => ⟨(hs t h).1, (hs t h).2.2⟩)
  refine ⟨h.1, h.2.trans ?_⟩
  rw [saved, List.filter_filter]
  congr 1
  have hm : ∀ l : List Ticket, (∀ t ∈ l, asFiled t = t) → l.map asFiled = l := fun l hl => by
    conv => rhs; rw [← List.map_id l]
    exact List.map_congr_left hl
  rw [hm]
  · refine List.filter_congr fun t _ => ?_
    rw [Bool.and_comm]
  · intro t ht
    have ha := (hs t (List.mem_filter.1 ht).1).2.1
    rw [asFiled]
    by_cases hc : t.client = []
    · rw [if_pos hc]
      rcases ha with ha | ha
      · exact absurd hc ha
      · rw [← ha]
    · rw [if_neg hc]

/-- **C85**, negation of the part about files: whatever follows in the store, if its first record takes between 1929 and 2048 bytes, it is written to the file, but loading the file fails, and nothing is loaded
of it. -/
theorem C85_file_violated (now later : Nat) (t : Ticket) (s old : List Ticket) (hc : t.tp.length = 10) (ht : now < t.expiry) (hu : t.used = false)
    (h1 : 1929 ≤ 100 + t.sni.length + t.alpn.length + t.ticket.length + t.ip.length + t.client.length)
    (h2 : 100 + t.sni.length + t.alpn.length + t.ticket.length + t.ip.length + t.client.length ≤ 2048)
    (hs : ∀ t ∈ s, StorableTicket t ∧ 100 + t.sni.length + t.alpn.length + t.ticket.length + t.ip.length + t.client.length ≤ 1928) :
    (save now (t :: s)).2 = true ∧ load later old (save now (t :: s)).1 = (old, false) := by
  refine ⟨?_, load_large old s hc ht hu h1 h2⟩
  obtain ⟨r, hr⟩ := serialize_some (t := t) h2
  rw [save, if_pos ⟨ht, hu⟩, hr]
  exact (load_save (now := now) (later := later) hs).1

/-- **C85**, files: saving reports a record that it cannot save; but the records after it are not saved either. -/
theorem C85_file_too_large (now : Nat) (t : Ticket) (ht : now < t.expiry) (hu : t.used = false)
    (h : 2048 < 100 + t.sni.length + t.alpn.length + t.ticket.length + t.ip.length + t.client.length) :
    (∀ s : List Ticket, t ∈ s → (save now s).2 = false) ∧ ∀ s : List Ticket, save now (t :: s) = ([], false) := by
  have hn : serialize t 2048 = none := by rw [serialize, if_pos (by exact h)]
  refine ⟨fun s => ?_, fun s => by rw [save, if_pos ⟨ht, hu⟩, hn]⟩
  induction s with
  | nil => intro h; cases h
  | cons a s ih =>
    intro hm
    rw [save]
    rcases List.mem_cons.1 hm with rfl | hm
    · rw [if_pos ⟨ht, hu⟩, hn]
    · split
      · cases serialize a 2048 with
        | none => rfl
        | some r => exact ih hm
      · exact ih hm

/-- **C85**, the expiry of a ticket: the time at which it was issued, in its first 8 bytes in milliseconds, and the lifetime, in the four bytes after the thirteenth in seconds, but no more than 7 days; in
microseconds, as long as that fits in 64 bits. -/
theorem C85_expiry (x : Bytes) (h : 17 ≤ x.length) (hb : bigEndian (x.take 8) * 1000 + 7 * 24 * 3600 * 1000000 < 2 ^ 64) :
    validUntil x = bigEndian (x.take 8) * 1000 + min (bigEndian ((x.drop 13).take 4)) (7 * 24 * 3600) * 1000000 := by
  have h1 : TokenStore.read64 x 0 = some (bigEndian (x.take 8)) := by
    rw [TokenStore.read64, TokenStore.read, if_pos (by omega), List.drop_zero]
    have hl : (x.take 8).length = 8 := by rw [List.length_take]; omega
    match x.take 8, hl with
    | [a, b, c, d, e, f, g, k], _ =>
      dsimp only
      rw [parse64_eq, parse32_eq, parse32_eq]
      simp only [bigEndian, List.length_cons, List.length_nil, Option.some.injEq, Nat.zero_add, Nat.reduceAdd, Nat.reducePow]
      omega
  have h2 : read32 x 13 = some (bigEndian ((x.drop 13).take 4)) := by
    rw [read32, TokenStore.read, if_pos (by omega)]
    have hl : ((x.drop 13).take 4).length = 4 := by rw [List.length_take, List.length_drop]; omega
    match (x.drop 13).take 4, hl with
    | [a, b, c, d], _ =>
      dsimp only
      rw [parse32_eq]
      simp only [bigEndian, List.length_cons, List.length_nil, Option.some.injEq, Nat.zero_add, Nat.reduceAdd, Nat.reducePow]
      omega
  rw [validUntil, h1, h2]
  simp only [Option.getD_some, u64]
  have e : (if bigEndian ((x.drop 13).take 4) > 7 * 24 * 3600 then 7 * 24 * 3600 else bigEndian ((x.drop 13).take 4)) = min (bigEndian ((x.drop 13).take 4)) (7 * 24 * 3600) := by
    split <;> omega
  rw [e]
  have := Nat.min_le_right (bigEndian ((x.drop 13).take 4)) (7 * 24 * 3600)
  omega

/-- **C85**, what a connection gets. After any history of tickets that arrive, of connections, of questions of the application and of new processes, a ticket that a connection to a server gets is one that
arrived for that server name, protocol and version, with the same parameters; it had not expired when it arrived, it has not expired now (the expiry is the one that the ticket itself says) and it is
not marked as used. -/
theorem C85_resume (ops : List TicketOp) (hf : ∀ op ∈ ops, ticketFits op) (now : Nat) (sni alpn : Bytes) (version : Nat) (hv : version ≠ 0) (t : Ticket)
    (h : (ticketStep (ticketRun [] ops) (.resume now sni alpn version)).2 = some t) :
    ∃ t0 tp, TicketOp.store t0 sni alpn version t.ticket tp ∈ ops ∧ t.tp.take 6 = tp ∧ t.sni = sni ∧ t.alpn = alpn ∧ t.version = version ∧
      t.expiry = validUntil t.ticket ∧ (t0 = 0 ∨ t0 ≤ validUntil t.ticket) ∧ now < validUntil t.ticket ∧ t.used = false := by
  have h' : (ticketRun [] ops).find? (found now sni alpn version true 0) = some t := h
  obtain ⟨f1, f2, f3, f4, f5⟩ := found_iff (List.find?_some h')
  have hg := run_good hf ops [] (fun _ h => nomatch h) (fun _ h => h) t (List.mem_of_find?_eq_some h')
  obtain ⟨t0, g1, _, g3⟩ := hg.origin
  have hv' : t.version = version := f4.resolve_left hv
  rw [f2, f3, hv'] at g1
  rw [hg.expiry] at g3 f1
  exact ⟨t0, _, g1, rfl, f2, f3, hv', hg.expiry, g3, f1, f5 rfl⟩

/-- **C85**, what the application gets, when it marks the ticket or not; with version 0, of any version. -/
theorem C85_get (ops : List TicketOp) (hf : ∀ op ∈ ops, ticketFits op) (now : Nat) (sni alpn : Bytes) (version : Nat) (mark : Bool) (t : Ticket)
    (h : (ticketStep (ticketRun [] ops) (.get now sni alpn version mark)).2 = some t) :
    ∃ t0 v tp, TicketOp.store t0 sni alpn v t.ticket tp ∈ ops ∧ (version = 0 ∨ v = version) ∧ t.tp.take 6 = tp ∧ t.version = v ∧
      now < validUntil t.ticket ∧ (mark = true → t.used = false) := by
  have h' : (ticketRun [] ops).find? (found now sni alpn version mark 0) = some t := h
  obtain ⟨f1, f2, f3, f4, f5⟩ := found_iff (List.find?_some h')
  have hg := run_good hf ops [] (fun _ h => nomatch h) (fun _ h => h) t (List.mem_of_find?_eq_some h')
  obtain ⟨t0, g1, _, g3⟩ := hg.origin
  rw [f2, f3] at g1
  rw [hg.expiry] at f1
  exact ⟨t0, t.version, _, g1, f4, rfl, rfl, f1, f5⟩

/-- **C85**, the newest ticket. A ticket of at least 17 bytes that arrives before it expires is what connections to that server with that protocol and version get, with the parameters that came with it, until it
expires, or another one arrives for them, or the application marks a ticket of them as used; also after new processes. -/
theorem C85_newest (pre post : List TicketOp) (t0 : Nat) (sni alpn : Bytes) (version : Nat) (hv : version ≠ 0) (x : Bytes) (tp : List Nat)
    (hf : ∀ op ∈ pre ++ .store t0 sni alpn version x tp :: post, ticketFits op) (hx : 17 ≤ x.length) (h0 : t0 ≤ validUntil x)
    (h1 : ∀ t1 y q, .store t1 sni alpn version y q ∉ post) (h2 : ∀ t1 v, .get t1 sni alpn v true ∈ post → v ≠ 0 ∧ v ≠ version)
    (h3 : ∀ t1 later, .restart t1 later ∈ post → t1 < validUntil x ∧ later ≤ validUntil x) (now : Nat) (hn : now < validUntil x) :
    ∃ t, (ticketStep (ticketRun [] (pre ++ .store t0 sni alpn version x tp :: post)) (.resume now sni alpn version)).2 = some t ∧ t.ticket = x ∧ t.tp.take 6 = tp := by
  have hpre := run_good hf pre [] (fun _ h => nomatch h) (fun _ h => List.mem_append.2 (.inl h))
  have hop : TicketOp.store t0 sni alpn version x tp ∈ pre ++ .store t0 sni alpn version x tp :: post := List.mem_append.2 (.inr (List.mem_cons_self ..))
  have hlen : tp.length = 6 := (hf _ hop).2.2.1
  have hfirst : First sni alpn version x tp (ticketStep (ticketRun [] pre) (.store t0 sni alpn version x tp)).1 := by
    simp only [ticketStep]
    rw [store_eq _ hx (.inr h0)]
    refine ⟨newTicket sni alpn version x tp, ?_, rfl, rfl, rfl, ?_⟩
    · have : sameKey (newTicket sni alpn version x tp) sni alpn version = true := sameKey_iff.2 ⟨rfl, rfl, rfl⟩
      rw [List.find?_cons, this]
    · rw [newTicket_eq]; dsimp only
      rw [List.take_append_of_le_length (by omega), List.take_of_length_le (by omega)]
  have hr := run_first hf post _ (step_good hf hpre hop) (fun _ h => List.mem_append.2 (.inr (List.mem_cons_of_mem _ h))) hfirst h1 h2 h3
  rw [run_append, ticketRun]
  obtain ⟨t, e1, e2, e3, e4, e5⟩ := hr
  obtain ⟨k1, k2, k3⟩ := sameKey_iff.1 (List.find?_some (p := fun o => sameKey o sni alpn version) e1)
  refine ⟨t, ?_, e2, e5⟩
  refine find_sub (k := fun o => sameKey o sni alpn version) (fun o ho => ?_) ?_ e1
  · obtain ⟨_, f2, f3, f4, _⟩ := found_iff ho
    exact sameKey_iff.2 ⟨f2, f3, f4.resolve_left hv⟩
  · have := found_of (now := now) (version := version) (unused := true) (t := t) (by rw [e3]; exact hn) (.inr k3) (fun _ => e4)
    rw [k1, k2] at this; exact this

/-- **C85**, replacement. When a ticket arrives, the older tickets for the same server, protocol and version that do not expire later are forgotten, and no others. A ticket that is too short, or expired, changes nothing. -/
theorem C85_replace (now : Nat) (s : List Ticket) (sni alpn : Bytes) (version : Nat) (x : Bytes) (tp : List Nat) :
    ((17 ≤ x.length ∧ (now = 0 ∨ now ≤ validUntil x)) → ∃ t kept, (ticketStep s (.store now sni alpn version x tp)).1 = t :: kept ∧ t.ticket = x ∧ t.sni = sni ∧ t.alpn = alpn ∧ t.version = version ∧
      kept.Sublist s ∧ ∀ o, o ∈ kept ↔ o ∈ s ∧ ¬ (o.sni = sni ∧ o.alpn = alpn ∧ o.version = version ∧ o.expiry ≤ validUntil x)) ∧
    (¬ (17 ≤ x.length ∧ (now = 0 ∨ now ≤ validUntil x)) → (ticketStep s (.store now sni alpn version x tp)).1 = s) := by
  refine ⟨fun h => ?_, fun h => ?_⟩
  · refine ⟨newTicket sni alpn version x tp, _, ?_, rfl, rfl, rfl, rfl, List.filter_sublist (p := fun o => !(decide (o.expiry ≤ validUntil x) && sameKey o sni alpn version)), fun o => ?_⟩
    · simp only [ticketStep]; rw [store_eq s h.1 h.2]
    · rw [List.mem_filter]
      refine and_congr_right fun _ => ?_
      rw [Bool.not_eq_true', ← Bool.not_eq_true, Bool.and_eq_true, decide_eq_true_eq, sameKey_iff]
      exact not_congr ⟨fun ⟨a, b, c, d⟩ => ⟨b, c, d, a⟩, fun ⟨a, b, c, d⟩ => ⟨d, a, b, c⟩⟩
  · simp only [ticketStep]; rw [store_refused s h]

/-- **C85**, tickets are used once. In a history in which the application only asks for tickets that it marks, a connection or the application gets a ticket only if it arrived more times than it was already
given to the application.
Missing from the full statement: the tickets given to connections are not marked (`C85_reuse_violated`), and the application that looks at a ticket without marking it makes it fresh (`C85_unmark_violated`). -/
theorem C85_once_partial (ops : List TicketOp) (hf : ∀ op ∈ ops, ticketFits op) (hl : ∀ op ∈ ops, isLook op = false) (now : Nat) (sni alpn : Bytes) (version : Nat) (op : TicketOp)
    (ho : op = .resume now sni alpn version ∨ op = .get now sni alpn version true) (t : Ticket) (h : (ticketStep (ticketRun [] ops) op).2 = some t) :
    (ticketTrace [] ops).countP (isMarkedGet t.ticket) < ops.countP (isTicketStore t.ticket) := by
  have h' : (ticketRun [] ops).find? (found now sni alpn version true 0) = some t := by
    rcases ho with rfl | rfl <;> exact h
  have hc := run_fresh hf t.ticket ops [] (fun _ h => nomatch h) (fun _ h => h) hl
  have hu := (found_iff (List.find?_some h')).2.2.2.2 rfl
  have : 0 < fresh t.ticket (ticketRun [] ops) := by
    rw [fresh, List.countP_pos_iff]
    exact ⟨t, List.mem_of_find?_eq_some h', by simp [hu]⟩
  have e : fresh t.ticket [] = 0 := rfl
  omega

/-- **C85**, negation: connections do not use a ticket up. Whatever the store, two connections one after the other get the same ticket. (Tickets should be used once, or an observer can link the connections,
RFC 8446 C.4.) -/
theorem C85_reuse_violated (s : List Ticket) (now : Nat) (sni alpn : Bytes) (version : Nat) :
    ticketTrace s [.resume now sni alpn version, .resume now sni alpn version] =
      [(.resume now sni alpn version, resume now s sni alpn version), (.resume now sni alpn version, resume now s sni alpn version)] := rfl

/-- A ticket issued at 1000 ms with a lifetime of 10 s: it is valid until 11 s. -/
def exTicket : Bytes := [0, 0, 0, 0, 0, 0, 3, 232, 19, 1, 0, 0, 0, 0, 0, 0, 10, 77, 88]

/-- **C85**, negation: a ticket that was marked is given again to be marked, after the application looked at it without marking it. -/
theorem C85_unmark_violated : ∃ (a : TicketOp) (t : Ticket),
    let g := TicketOp.get 2000000 [1] [2] 1 true
    (ticketTrace [] [a, g, g]).map Prod.snd = [none, some t, none] ∧
    (ticketTrace [] [a, g, .get 2000000 [1] [2] 1 false, g]).map Prod.snd = [none, some t, some { t with used := true }, some t] :=
  ⟨.store 1500000 [1] [2] 1 exTicket [1, 2, 3, 4, 5, 6], newTicket [1] [2] 1 exTicket [1, 2, 3, 4, 5, 6], by decide +kernel⟩

example : StorableTicket { expiry := 11000000, sni := [1], alpn := [2], version := 1, ip := [10, 0, 0, 1], client := [10, 0, 0, 2], tp := [1, 2, 3, 4, 5, 6, 7, 8, 9, 10], ticket := exTicket } :=
  ⟨by decide, by decide, by decide, by decide, by decide, by decide, by decide, by decide +kernel, by decide, by decide⟩

example : validUntil exTicket = 11000000 := by decide +kernel

/-- A history with a new process, in which the ticket is given with its parameters. -/
example : let ops := [TicketOp.store 1500000 [1] [2] 1 exTicket [1, 2, 3, 4, 5, 6], .seed 1600000 [1] [2] 1 1000 [10, 0, 0, 1] [] 7 8 9 10, .restart 2000000 3000000]
    (∀ op ∈ ops, ticketFits op) ∧ (∀ op ∈ ops, isLook op = false) ∧
    (ticketStep (ticketRun [] ops) (.resume 3000000 [1] [2] 1)).2 =
      some { expiry := 11000000, sni := [1], alpn := [2], version := 1, ip := [], client := [], tp := [1, 2, 3, 4, 5, 6, 7, 8, 9, 10], ticket := exTicket } := by
  refine ⟨?_, by decide, by decide +kernel⟩
  intro op h
  simp only [List.mem_cons, List.not_mem_nil, or_false] at h
  rcases h with rfl | rfl | rfl
  · exact ⟨by decide, by decide, rfl, by decide +kernel⟩
  · exact ⟨by decide, by decide, by decide, by decide, by decide, by decide⟩
  · trivial

end Picoquic.Props
