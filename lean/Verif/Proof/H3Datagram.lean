import Verif.Spec.H3Datagram
import Verif.Proof.AckFormat
import Verif.Proof.AckProcess
/-!
# HTTP/3 datagrams: proofs
-/

namespace Picoquic.H3Datagram
open Picoquic Picoquic.Spec

theorem header_some (n : Nat) : ∃ w, framesVarintEncode n 8 = some w ∧ w.length ≤ 8 := by
  obtain ⟨h1, h2⟩ : encodeVarintLength n ≤ 8 ∧ (varintBytes n).length ≤ 8 := by
    rw [varintBytes_length]
    unfold encodeVarintLength
    refine ⟨?_, ?_⟩ <;> (repeat' split) <;> decide
  exact ⟨varintBytes n, by rw [framesVarintEncode_eq, if_pos h1], h2⟩

theorem poll_stream (space : Nat) (app : Nat → Nat → Reply) (x : Session) :
    (poll space app x).1.stream = x.stream ∧ (poll space app x).1.handler = x.handler ∧ (poll space app x).1.open_ = x.open_ := by
  rw [poll]
  split
  · split
    · exact ⟨rfl, rfl, rfl⟩
    · split <;> exact ⟨rfl, rfl, rfl⟩
  · exact ⟨rfl, rfl, rfl⟩

/-- A session that sends. -/
theorem poll_sent {space : Nat} {app : Nat → Nat → Reply} {x : Session} {d : Option Bytes} (h : (poll space app x).2 = some d) :
    x.ready = true ∧ x.handler = true ∧ ∃ header, framesVarintEncode (x.stream >>> 2) 8 = some header ∧ header.length < space ∧
      (app x.stream (space - header.length)).data ≠ [] ∧ d = provide space header (app x.stream (space - header.length)).data := by
  rw [poll] at h
  by_cases hc : x.ready = true ∧ x.handler = true
  · rw [if_pos hc] at h
    obtain ⟨w, hw, _⟩ := header_some (x.stream >>> 2)
    rw [hw] at h
    dsimp only at h
    by_cases hs : space > w.length
    · rw [if_pos hs] at h
      dsimp only at h
      split at h
      · next hl =>
        cases h
        exact ⟨hc.1, hc.2, w, hw, hs, List.length_pos_iff.1 hl, rfl⟩
      · cases h
    · rw [if_neg hs] at h; cases h
  · rw [if_neg hc] at h; cases h

theorem poll_busy {space : Nat} {app : Nat → Nat → Reply} {x : Session} (hr : x.ready = true) (hh : x.handler = true) (hs : 8 < space)
    (ha : ∀ n, (app x.stream n).data ≠ []) : ∃ d, (poll space app x).2 = some d := by
  obtain ⟨w, hw, hl⟩ := header_some (x.stream >>> 2)
  rw [poll, if_pos ⟨hr, hh⟩, hw]
  dsimp only
  rw [if_pos (show space > w.length by omega)]
  dsimp only
  rw [if_pos (List.length_pos_iff.2 (ha _))]
  exact ⟨_, rfl⟩


theorem pollAll_none {space : Nat} {app : Nat → Nat → Reply} : ∀ {l : List Session}, (pollAll space app l).2.1 = none →
    (∀ x ∈ l, (poll space app x).2 = none) ∧ (pollAll space app l).1 = l.map (fun x => (poll space app x).1) ∧
    (pollAll space app l).2.2 = (pollAll space app l).1.any (·.ready)
  | [], _ => ⟨(fun _ h => nomatch h), rfl, rfl⟩
  | x :: xs, h => by
    rw [pollAll] at h ⊢
    generalize hp : poll space app x = p at h
    obtain ⟨x', o⟩ := p
    cases o with
    | some d => cases h
    | none =>
      dsimp only at h ⊢
      obtain ⟨h1, h2, h3⟩ := pollAll_none (l := xs) h
      refine ⟨fun y hy => ?_, ?_, ?_⟩
      · rcases List.mem_cons.1 hy with rfl | hy
        · rw [hp]
        · exact h1 y hy
      · rw [List.map_cons, hp, h2]
      · rw [List.any_cons, h3]

theorem pollAll_some {space : Nat} {app : Nat → Nat → Reply} {p : Nat} {d : Option Bytes} : ∀ {l : List Session}, (pollAll space app l).2.1 = some (p, d) →
    ∃ l1 x l2, l = l1 ++ x :: l2 ∧ x.stream = p ∧ (poll space app x).2 = some d ∧ (∀ y ∈ l1, (poll space app y).2 = none) ∧
      (pollAll space app l).1 = l1.map (fun y => (poll space app y).1) ++ (poll space app x).1 :: l2 ∧
      ((pollAll space app l).2.2 = true → (pollAll space app l).1.any (·.ready) = true)
  | x :: xs, h => by
    rw [pollAll] at h ⊢
    generalize hp : poll space app x = q at h
    obtain ⟨x', o⟩ := q
    cases o with
    | some e =>
      dsimp only at h ⊢
      cases h
      exact ⟨[], x, xs, rfl, rfl, by rw [hp], (fun _ h => nomatch h), by rw [hp]; rfl, fun h => by rw [List.any_cons, h]; rfl⟩
    | none =>
      dsimp only at h ⊢
      obtain ⟨l1, y, l2, h1, h2, h3, h4, h5, h6⟩ := pollAll_some (l := xs) h
      refine ⟨x :: l1, y, l2, by rw [h1]; rfl, h2, h3, fun z hz => ?_, ?_, fun h => ?_⟩
      · rcases List.mem_cons.1 hz with rfl | hz
        · rw [hp]
        · exact h4 z hz
      · rw [List.map_cons, hp, h5]; rfl
      · rw [List.any_cons]
        rcases Bool.or_eq_true_iff.1 h with h | h
        · rw [h]; rfl
        · rw [h6 h, Bool.or_true]

theorem split_some {last : Nat} : ∀ {l front back : List Session}, splitLast last l = some (front, back) →
    l = front ++ back ∧ ∃ f x, front = f ++ [x] ∧ x.stream = last ∧ ∀ y ∈ f, y.stream ≠ last
  | x :: xs, front, back, h => by
    rw [splitLast] at h
    by_cases hx : x.stream = last
    · rw [if_pos hx] at h
      cases h
      exact ⟨rfl, [], x, rfl, hx, fun _ h => nomatch h⟩
    · rw [if_neg hx] at h
      cases hs : splitLast last xs with
      | none => rw [hs] at h; cases h
      | some q =>
        rw [hs] at h
        obtain ⟨f, b⟩ := q
        cases h
        obtain ⟨h1, g, y, h2, h3, h4⟩ := split_some hs
        refine ⟨by rw [h1]; rfl, x :: g, y, by rw [h2]; rfl, h3, fun z hz => ?_⟩
        rcases List.mem_cons.1 hz with rfl | hz
        · exact hx
        · exact h4 z hz

theorem split_none {last : Nat} : ∀ {l : List Session}, splitLast last l = none → ∀ x ∈ l, x.stream ≠ last
  | x :: xs, h, y, hy => by
    rw [splitLast] at h
    by_cases hx : x.stream = last
    · rw [if_pos hx] at h; cases h
    · rw [if_neg hx] at h
      cases hs : splitLast last xs with
      | none =>
        rcases List.mem_cons.1 hy with rfl | hy
        · exact hx
        · exact split_none hs y hy
      | some q => rw [hs] at h; cases h

theorem split_of {last : Nat} : ∀ (f : List Session) (x : Session) (back : List Session), x.stream = last → (∀ y ∈ f, y.stream ≠ last) →
    splitLast last (f ++ x :: back) = some (f ++ [x], back)
  | [], x, back, hx, _ => by rw [List.nil_append, splitLast, if_pos hx]; rfl
  | y :: f, x, back, hx, hf => by
    rw [List.cons_append, splitLast, if_neg (hf y (List.mem_cons_self ..)), split_of f x back hx (fun z hz => hf z (List.mem_cons_of_mem _ hz))]; rfl

/-- The order in which the sessions are polled. -/
def order (c : Ctx) : List Session :=
  match splitLast c.last c.sessions with
  | none => c.sessions
  | some (front, back) => back ++ front

theorem order_perm (c : Ctx) : (order c).Perm c.sessions := by
  rw [order]
  cases h : splitLast c.last c.sessions with
  | none => exact List.Perm.refl _
  | some q => obtain ⟨f, b⟩ := q; dsimp only; rw [(split_some h).1]; exact List.perm_append_comm

/-- Nobody sends. -/
theorem prepare_none {space : Nat} {app : Nat → Nat → Reply} {c : Ctx} (h : (prepare space app c).2 = none) :
    (∀ x ∈ c.sessions, (poll space app x).2 = none) ∧ (prepare space app c).1.sessions = c.sessions.map (fun x => (poll space app x).1) ∧
    (prepare space app c).1.last = c.last ∧ (prepare space app c).1.active = (prepare space app c).1.sessions.any (·.ready) := by
  rw [prepare] at h ⊢
  cases hs : splitLast c.last c.sessions with
  | none =>
    rw [hs] at h
    dsimp only at h ⊢
    obtain ⟨h1, h2, h3⟩ := pollAll_none h
    exact ⟨h1, h2, by rw [h]; rfl, by rw [h3, Bool.or_self]⟩
  | some q =>
    obtain ⟨f, b⟩ := q
    rw [hs] at h
    dsimp only at h ⊢
    have he := (split_some hs).1
    by_cases h1 : (pollAll space app b).2.1.isSome = true
    · rw [if_pos h1] at h; rw [show (pollAll space app b).2.1 = none from h] at h1; cases h1
    · rw [if_neg h1] at h ⊢
      by_cases h2 : (pollAll space app f).2.1.isSome = true
      · rw [if_pos h2] at h; rw [show (pollAll space app f).2.1 = none from h] at h2; cases h2
      · rw [if_neg h2] at h ⊢
        rw [Bool.not_eq_true, Option.isSome_eq_false_iff, Option.isNone_iff_eq_none] at h1 h2
        obtain ⟨a1, a2, a3⟩ := pollAll_none h1
        obtain ⟨b1, b2, b3⟩ := pollAll_none h2
        refine ⟨fun x hx => ?_, ?_, rfl, ?_⟩
        · rw [he] at hx
          rcases List.mem_append.1 hx with hx | hx
          · exact b1 x hx
          · exact a1 x hx
        · dsimp only; rw [he, List.map_append, a2, b2]
        · dsimp only; rw [List.any_append, a3, b3, Bool.or_comm]

/-- Somebody sends: the first one in the order of polling. -/
theorem prepare_some {space : Nat} {app : Nat → Nat → Reply} {c : Ctx} {p : Nat} {d : Option Bytes} (h : (prepare space app c).2 = some (p, d)) :
    ∃ l1 x l2, order c = l1 ++ x :: l2 ∧ x.stream = p ∧ (poll space app x).2 = some d ∧ (∀ y ∈ l1, (poll space app y).2 = none) ∧
      (prepare space app c).1.last = p ∧ (prepare space app c).1.active = (prepare space app c).1.sessions.any (·.ready) ∧
      (∀ (n : Nat) (x0 : Session), c.sessions[n]? = some x0 → (prepare space app c).1.sessions[n]? = some x0 ∨ (x0 ∈ l1 ++ [x] ∧ (prepare space app c).1.sessions[n]? = some (poll space app x0).1)) ∧
      (prepare space app c).1.sessions.length = c.sessions.length := by
  have act (a b : Bool) (h : a = true → b = true) : (a || b) = b := by
    cases a
    · rfl
    · rw [h rfl]; rfl
  -- positions of an updated list
  have pos (l1 : List Session) (x : Session) (l2 : List Session) : ∀ (n : Nat) (x0 : Session), (l1 ++ x :: l2)[n]? = some x0 →
      (l1.map (fun y => (poll space app y).1) ++ (poll space app x).1 :: l2)[n]? = some x0 ∨
      (x0 ∈ l1 ++ [x] ∧ (l1.map (fun y => (poll space app y).1) ++ (poll space app x).1 :: l2)[n]? = some (poll space app x0).1) := by
    intro n x0 hn
    by_cases h1 : n < l1.length
    · rw [List.getElem?_append_left h1] at hn
      right
      rw [List.getElem?_append_left (by rw [List.length_map]; exact h1), List.getElem?_map, hn]
      exact ⟨List.mem_append.2 (.inl (List.mem_of_getElem? hn)), rfl⟩
    · rw [List.getElem?_append_right (by omega)] at hn
      rw [List.getElem?_append_right (by rw [List.length_map]; omega), List.length_map]
      by_cases h2 : n = l1.length
      · right
        rw [h2, Nat.sub_self] at hn ⊢
        simp only [List.getElem?_cons_zero] at hn ⊢
        cases hn
        exact ⟨by simp, rfl⟩
      · left
        obtain ⟨k, hk⟩ : ∃ k, n - l1.length = k + 1 := ⟨n - l1.length - 1, by omega⟩
        rw [hk] at hn ⊢
        simpa using hn
  rw [prepare, order] at *
  cases hs : splitLast c.last c.sessions with
  | none =>
    rw [hs] at h
    dsimp only at h ⊢
    obtain ⟨l1, x, l2, h1, h2, h3, h4, h5, h6⟩ := pollAll_some h
    refine ⟨l1, x, l2, h1, h2, h3, h4, by rw [h]; rfl, act _ _ h6, ?_, ?_⟩
    · rw [h5, h1]; exact pos l1 x l2
    · rw [h5, h1]; simp
  | some q =>
    obtain ⟨f, b⟩ := q
    rw [hs] at h
    dsimp only at h ⊢
    have he := (split_some hs).1
    by_cases hb : (pollAll space app b).2.1.isSome = true
    · rw [if_pos hb] at h ⊢
      obtain ⟨l1, x, l2, h1, h2, h3, h4, h5, h6⟩ := pollAll_some h
      refine ⟨l1, x, l2 ++ f, by rw [h1]; simp, h2, h3, h4, by dsimp only at h ⊢; rw [h]; rfl, act _ _ (fun hh => ?_), ?_, ?_⟩
      · rw [List.any_append, h6 hh, Bool.or_true]
      · intro n x0 hn
        dsimp only
        rw [he] at hn
        by_cases hn1 : n < f.length
        · rw [List.getElem?_append_left hn1] at hn ⊢; exact .inl hn
        · rw [List.getElem?_append_right (by omega)] at hn ⊢
          rw [h5]; rw [h1] at hn; exact pos l1 x l2 _ x0 hn
      · dsimp only; rw [h5, he, h1]; simp
    · rw [if_neg hb] at h ⊢
      rw [Bool.not_eq_true, Option.isSome_eq_false_iff, Option.isNone_iff_eq_none] at hb
      obtain ⟨a1, a2, a3⟩ := pollAll_none hb
      by_cases hf : (pollAll space app f).2.1.isSome = true
      · rw [if_pos hf] at h ⊢
        obtain ⟨l1, x, l2, h1, h2, h3, h4, h5, h6⟩ := pollAll_some h
        refine ⟨b ++ l1, x, l2, by rw [h1]; simp, h2, h3, fun y hy => ?_, by dsimp only at h ⊢; rw [h]; rfl, act _ _ (fun hh => ?_), ?_, ?_⟩
        · rcases List.mem_append.1 hy with hy | hy
          · exact a1 y hy
          · exact h4 y hy
        · rw [List.any_append]
          rcases Bool.or_eq_true_iff.1 hh with hh | hh
          · rw [← a3, hh, Bool.or_true]
          · rw [h6 hh]; rfl
        · intro n x0 hn
          dsimp only
          rw [he] at hn
          have hlen : (pollAll space app f).1.length = f.length := by rw [h5, h1]; simp
          by_cases hn1 : n < f.length
          · rw [List.getElem?_append_left hn1] at hn
            rw [List.getElem?_append_left (by rw [hlen]; exact hn1), h5]
            rw [h1] at hn
            rcases pos l1 x l2 _ x0 hn with hh | ⟨hh, hh2⟩
            · exact .inl hh
            · exact .inr ⟨by rw [List.append_assoc]; exact List.mem_append.2 (.inr hh), hh2⟩
          · rw [List.getElem?_append_right (by omega)] at hn
            rw [List.getElem?_append_right (by omega), hlen, a2, List.getElem?_map, hn]
            right
            exact ⟨List.mem_append.2 (.inl (List.mem_append.2 (.inl (List.mem_of_getElem? hn)))), rfl⟩
        · dsimp only; rw [h5, he, h1, a2]; simp
      · rw [if_neg hf] at h; cases h

/-! ### Taking turns -/

/-- After a session sent, it is last in the order. -/
theorem order_next {c : Ctx} (hd : distinctSessions c) {a r : List Session} {x : Session} (h : order c = a ++ x :: r) : order { c with last := x.stream } = r ++ a ++ [x] := by
  have hne {l1 l2 : List Session} (h : c.sessions = l1 ++ x :: l2) : ∀ y ∈ l1, y.stream ≠ x.stream := by
    intro y hy e
    rw [distinctSessions, h, List.map_append, List.map_cons] at hd
    have := (List.nodup_append.1 hd).2.2 y.stream (List.mem_map.2 ⟨y, hy, rfl⟩) x.stream (List.mem_cons_self ..)
    exact this e
  have goal {l1 l2 : List Session} (h : c.sessions = l1 ++ x :: l2) : order { c with last := x.stream } = l2 ++ l1 ++ [x] := by
    rw [order]
    dsimp only
    rw [h, split_of l1 x l2 rfl (hne h)]
    dsimp only
    rw [List.append_assoc]
  rw [order] at h
  cases hs : splitLast c.last c.sessions with
  | none => rw [hs] at h; exact goal h
  | some q =>
    obtain ⟨f, b⟩ := q
    rw [hs] at h
    dsimp only at h
    have he := (split_some hs).1
    rcases List.append_eq_append_iff.1 h with ⟨t, h1, h2⟩ | ⟨t, h1, h2⟩
    · rw [goal (l1 := t) (l2 := r ++ b) (by rw [he, h2]; simp), h1]; simp
    · cases t with
      | nil =>
        rw [List.nil_append] at h2
        rw [List.append_nil] at h1
        rw [goal (l1 := []) (l2 := r ++ b) (by rw [he, ← h2]; simp), h1]; simp
      | cons y t =>
        rw [List.cons_append] at h2
        injection h2 with h2 h3
        subst h2
        rw [goal (l1 := f ++ a) (l2 := t) (by rw [he, h1]; simp), h3]; simp

/-- The same, of numbers. -/
def splitIds (last : Nat) : List Nat → Option (List Nat × List Nat)
  | [] => none
  | x :: xs =>
    if x = last then some ([x], xs)
    else
      match splitIds last xs with
      | none => none
      | some (front, back) => some (x :: front, back)

theorem split_ids (last : Nat) : ∀ l : List Session, splitIds last (l.map (·.stream)) = (splitLast last l).map (fun q => (q.1.map (·.stream), q.2.map (·.stream)))
  | [] => rfl
  | x :: xs => by
    rw [List.map_cons, splitIds, splitLast]
    by_cases h : x.stream = last
    · rw [if_pos h, if_pos h]; rfl
    · rw [if_neg h, if_neg h, split_ids last xs]
      cases splitLast last xs with
      | none => rfl
      | some q => rfl

theorem order_ids {c d : Ctx} (h1 : c.sessions.map (·.stream) = d.sessions.map (·.stream)) (h2 : c.last = d.last) : (order c).map (·.stream) = (order d).map (·.stream) := by
  have e := split_ids c.last c.sessions
  rw [h1, h2, split_ids d.last d.sessions] at e
  rw [order, order, h2]
  cases hc : splitLast d.last c.sessions with
  | none =>
    cases hd : splitLast d.last d.sessions with
    | none => exact h1
    | some q => rw [hc, hd] at e; cases e
  | some p =>
    cases hd : splitLast d.last d.sessions with
    | none => rw [hc, hd] at e; cases e
    | some q =>
      rw [hc, hd] at e
      simp only [Option.map_some, Option.some.injEq, Prod.mk.injEq] at e
      obtain ⟨f, b⟩ := p
      obtain ⟨f', b'⟩ := q
      dsimp only at e ⊢
      rw [List.map_append, List.map_append, e.1, e.2]

theorem prepare_ids (space : Nat) (app : Nat → Nat → Reply) (c : Ctx) : (prepare space app c).1.sessions.map (·.stream) = c.sessions.map (·.stream) := by
  cases h : (prepare space app c).2 with
  | none =>
    rw [(prepare_none h).2.1, List.map_map]
    exact List.map_congr_left (fun x _ => (poll_stream space app x).1)
  | some q =>
    obtain ⟨p, d⟩ := q
    obtain ⟨l1, x, l2, _, _, _, _, _, _, hp, hl⟩ := prepare_some h
    refine List.ext_getElem? fun n => ?_
    rw [List.getElem?_map, List.getElem?_map]
    cases hn : c.sessions[n]? with
    | none =>
      rw [List.getElem?_eq_none_iff] at hn
      have : (prepare space app c).1.sessions[n]? = none := by rw [List.getElem?_eq_none_iff]; omega
      rw [this]
    | some x0 =>
      rcases hp n x0 hn with g | ⟨_, g⟩
      · rw [g]
      · rw [g]; simp only [Option.map_some, (poll_stream space app x0).1]

theorem setReady_ids (stream : Nat) : ∀ l : List Session, (setReady stream l).map (·.stream) = l.map (·.stream)
  | [] => rfl
  | x :: xs => by
    rw [setReady]
    split
    · rfl
    · rw [List.map_cons, setReady_ids stream xs, List.map_cons]

theorem setReady_keeps {stream p : Nat} : ∀ {l : List Session}, (∃ x ∈ l, x.stream = p ∧ x.ready = true ∧ x.handler = true) → ∃ x ∈ setReady stream l, x.stream = p ∧ x.ready = true ∧ x.handler = true
  | y :: l, ⟨x, hx, h1, h2, h3⟩ => by
    rw [setReady]
    rcases List.mem_cons.1 hx with rfl | hx
    · split
      · exact ⟨_, List.mem_cons_self .., h1, rfl, h3⟩
      · exact ⟨_, List.mem_cons_self .., h1, h2, h3⟩
    · split
      · exact ⟨x, List.mem_cons_of_mem _ hx, h1, h2, h3⟩
      · obtain ⟨z, hz, hh⟩ := setReady_keeps (stream := stream) ⟨x, hx, h1, h2, h3⟩
        exact ⟨z, List.mem_cons_of_mem _ hz, hh⟩

theorem mark_ids (c : Ctx) (stream : Nat) : (H3Datagram.mark c stream).sessions.map (·.stream) = c.sessions.map (·.stream) ∧ (H3Datagram.mark c stream).last = c.last := by
  rw [H3Datagram.mark]
  split
  · exact ⟨setReady_ids _ _, rfl⟩
  · exact ⟨rfl, rfl⟩

theorem eq_of_stream {c : Ctx} (hd : distinctSessions c) {x y : Session} (hx : x ∈ c.sessions) (hy : y ∈ c.sessions) (h : x.stream = y.stream) : x = y := by
  rw [distinctSessions] at hd
  generalize c.sessions = l at hd hx hy
  induction l with
  | nil => cases hx
  | cons z l ih =>
    rw [List.map_cons, List.nodup_cons] at hd
    rcases List.mem_cons.1 hx with hx | hx
    · rcases List.mem_cons.1 hy with hy | hy
      · rw [hx, hy]
      · exact absurd (List.mem_map.2 ⟨y, hy, by rw [← h, hx]⟩) hd.1
    · rcases List.mem_cons.1 hy with hy | hy
      · exact absurd (List.mem_map.2 ⟨x, hx, by rw [h, hy]⟩) hd.1
      · exact ih hd.2 hx hy

/-- A session that always has something to send gets its turn. -/
theorem turns (p : Nat) : ∀ (ops : List H3DgOp) (c : Ctx) (a r : List Nat), distinctSessions c → (∃ x ∈ c.sessions, x.stream = p ∧ x.ready = true ∧ x.handler = true) →
    (order c).map (·.stream) = a ++ p :: r → (∀ op ∈ ops, h3DgBusy p op) → a.length < h3DgAsks ops → p ∈ h3DgSenders c ops
  | [], _, _, _, _, _, _, _, h => by cases h
  | .mark stream :: ops, c, a, r, hd, hx, ho, hb, hl => by
    rw [h3DgSenders]
    simp only [h3DgStep]
    have hi := mark_ids c stream
    refine turns p ops _ a r (by rw [distinctSessions, hi.1]; exact hd) ?_ (by rw [order_ids hi.1 hi.2]; exact ho) (fun o h => hb o (List.mem_cons_of_mem _ h)) hl
    rw [H3Datagram.mark]
    split
    · exact setReady_keeps hx
    · exact hx
  | .prepare space app :: ops, c, a, r, hd, ⟨xp, hxp, hs, hr, hh⟩, ho, hb, hl => by
    obtain ⟨b1, b2⟩ := hb _ (List.mem_cons_self ..)
    obtain ⟨e, he⟩ := poll_busy (app := app) hr hh b1 (fun n => by rw [hs]; exact (b2 n).1)
    rw [h3DgSenders]
    simp only [h3DgStep]
    cases hp : (prepare space app c).2 with
    | none => rw [(prepare_none hp).1 xp hxp] at he; cases he
    | some q =>
      obtain ⟨q, d⟩ := q
      dsimp only
      by_cases hq : q = p
      · rw [hq]; exact List.mem_cons_self ..
      · refine List.mem_cons_of_mem _ ?_
        obtain ⟨l1, x, l2, g1, g2, g3, g4, g5, _, g7, _⟩ := prepare_some hp
        have hids := prepare_ids space app c
        have hnl : p ∉ l1.map (·.stream) := by
          intro hm
          obtain ⟨y, hy, ey⟩ := List.mem_map.1 hm
          have hyc : y ∈ c.sessions := (order_perm c).mem_iff.1 (by rw [g1]; exact List.mem_append.2 (.inl hy))
          have := eq_of_stream hd hyc hxp (by rw [ey, hs])
          rw [this] at hy
          rw [g4 xp hy] at he; cases he
        obtain ⟨a', k1, k2⟩ : ∃ a', a = l1.map (·.stream) ++ q :: a' ∧ l2.map (·.stream) = a' ++ p :: r := by
          rw [g1, List.map_append, List.map_cons, g2] at ho
          rcases List.append_eq_append_iff.1 ho with ⟨t, k1, k2⟩ | ⟨t, k1, k2⟩
          · cases t with
            | nil => rw [List.nil_append] at k2; injection k2 with k2; exact absurd k2 hq
            | cons y t =>
              rw [List.cons_append] at k2
              injection k2 with k2 k3
              exact ⟨t, by rw [k1, k2], k3⟩
          · cases t with
            | nil => rw [List.nil_append] at k2; injection k2 with k2; exact absurd k2.symm hq
            | cons y t =>
              rw [List.cons_append] at k2
              injection k2 with k2 k3
              exact absurd (by rw [k1, k2]; simp) hnl
        refine turns p ops _ a' (r ++ l1.map (·.stream) ++ [q]) (by rw [distinctSessions, hids]; exact hd) ?_ ?_ (fun o h => hb o (List.mem_cons_of_mem _ h)) ?_
        · obtain ⟨n, hn⟩ := List.mem_iff_getElem?.1 hxp
          rcases g7 n xp hn with g | ⟨g, _⟩
          · exact ⟨xp, List.mem_of_getElem? g, hs, hr, hh⟩
          · rcases List.mem_append.1 g with g | g
            · exact absurd (List.mem_map.2 ⟨xp, g, hs⟩) hnl
            · rw [List.mem_singleton] at g
              rw [g, g2] at hs; exact absurd hs hq
        · rw [order_ids (d := { c with last := x.stream }) hids (g5.trans g2.symm), order_next hd g1, List.map_append, List.map_append, k2]
          simp [g2]
        · rw [k1, List.length_append, List.length_cons] at hl
          rw [h3DgAsks] at hl; omega

end Picoquic.H3Datagram
