import Verif.Proof.Unreachable

/-!
# C106: an error of the network only concerns the path of its addresses
-/

namespace Picoquic.Props
open Picoquic.Spec Picoquic.MultiPath Picoquic.Unreachable

/-- Two socket addresses are equal for the comparison function exactly when they hold the same address: same version of
IP, same IP address, same port. Nothing else in the structures counts. -/
theorem C106_compare (a b : Sock) (x y : NetAddr) (ha : netAddr a = some x) (hb : netAddr b = some y) :
    compareAddr a b = true ↔ x = y := by
  rw [compare_iff hb, ha, Option.some.injEq]

example : netAddr { family := 10, port := 443, ip4 := 7, ip6 := 9 } = some (.v6 9 443) := by decide

/-- An address of the Internet is never equal to a structure without address. -/
theorem C106_no_address (a b : Sock) (y : NetAddr) (ha : netAddr a = none) (hb : netAddr b = some y) :
    compareAddr a b = false ∧ compareAddr b a = false := by
  have h1 : compareAddr a b = false := by
    cases h : compareAddr a b with
    | false => rfl
    | true => rw [compare_iff hb, ha] at h; cases h
  refine ⟨h1, ?_⟩
  cases h : compareAddr b a with
  | false => rfl
  | true =>
    rw [← h1, ← h]
    unfold compareAddr compareIp at h ⊢
    by_cases hf : b.family = a.family
    · rw [if_pos hf] at h; rw [if_pos hf, if_pos hf.symm, hf]
      split <;> simp only [eq_comm]
    · rw [if_neg hf] at h; simp at h

example : netAddr {} = none ∧ netAddr { family := 2, port := 443, ip4 := 7 } = some (.v4 7 443) := by decide

/-- A path that is asked for by its two addresses is found if there is one, and is the first that joins them. -/
theorem C106_found (ts : List Tuple) (loc peer : Sock) (l p : NetAddr)
    (hl : netAddr loc = some l) (hp : netAddr peer = some p) :
    match (find ts (some loc) (some peer)).1 with
    | some i => ∃ t, ts[i]? = some t ∧ Joins t l p ∧ ∀ j t', j < i → ts[j]? = some t' → ¬ Joins t' l p
    | none => ∀ t ∈ ts, ¬ Joins t l p := by
  have hf : decide (loc.family = 0) = false := decide_eq_false (netAddr_family hl)
  simp only [find, hf]
  rcases findLoop_both hl hp ts 0 none with ⟨k, t, hk, hj, hfirst, hr⟩ | ⟨hn, hr⟩
  · rw [hr, Nat.zero_add]; exact ⟨t, hk, hj, hfirst⟩
  · rw [hr]; exact hn

example :
    let a : Sock := { family := 2, port := 443, ip4 := 9 }
    let b : Sock := { family := 2, port := 5, ip4 := 1 }
    (find [⟨a, {}⟩, ⟨b, b⟩, ⟨a, b⟩] (some b) (some a)).1 = some 2 ∧
    (find [⟨b, b⟩, ⟨a, b⟩, ⟨a, {}⟩] none (some a)).1 = some 2 ∧
    (find [⟨b, b⟩, ⟨a, b⟩] none (some a)).1 = none := by decide +kernel

/-- A path that is asked for by the address of the peer alone is found if its own local address is not known. -/
theorem C106_found_by_peer_partial (ts : List Tuple) (peer : Sock) (p : NetAddr) (hp : netAddr peer = some p) :
    match (find ts none (some peer)).1 with
    | some i => ∃ t, ts[i]? = some t ∧ LeadsTo t p ∧ ∀ j t', j < i → ts[j]? = some t' → ¬ LeadsTo t' p
    | none => ∀ t ∈ ts, ¬ LeadsTo t p := by
  simp only [find]
  rcases findLoop_peer hp ts 0 with ⟨k, t, hk, hj, hfirst, hr⟩ | ⟨hn, hr⟩
  · rw [hr, Nat.zero_add]; exact ⟨t, hk, hj, hfirst⟩
  · rw [hr]; exact hn

/-- The code does not find a path by the address of the peer alone once the local address of the path is known: a
notification without local address has no effect. -/
theorem C106_known_local_violated (multi ready : Bool) (now : Nat) (addrs : Nat → Tuple) (ps : List PathX)
    (peer : Sock) (p : NetAddr) (hp : netAddr peer = some p) (hk : ∀ x ∈ ps, (addrs x.id).loc.family ≠ 0) :
    notify multi ready now addrs ps (some peer) none = { paths := ps, challenge := none } := by
  have h := C106_found_by_peer_partial (ps.map fun x => addrs x.id) peer p hp
  unfold notify
  cases hf : (find (ps.map fun x => addrs x.id) none (some peer)).1 with
  | none => rfl
  | some i =>
    rw [hf] at h
    obtain ⟨t, ht, hlead, _⟩ := h
    obtain ⟨x, hx, rfl⟩ := List.mem_map.1 (List.mem_of_getElem? ht)
    exact absurd hlead.1 (hk x hx)

/-- An error for addresses of no path changes nothing. -/
theorem C106_other_address (multi ready : Bool) (now : Nat) (addrs : Nat → Tuple) (ps : List PathX)
    (loc peer : Sock) (l p : NetAddr) (hl : netAddr loc = some l) (hp : netAddr peer = some p)
    (hno : ∀ x ∈ ps, ¬ Joins (addrs x.id) l p) :
    notify multi ready now addrs ps (some peer) (some loc) = { paths := ps, challenge := none } := by
  have h := C106_found (ps.map fun x => addrs x.id) loc peer l p hl hp
  unfold notify
  cases hf : (find (ps.map fun x => addrs x.id) (some loc) (some peer)).1 with
  | none => rfl
  | some i =>
    rw [hf] at h
    obtain ⟨t, ht, hj, _⟩ := h
    obtain ⟨x, hx, rfl⟩ := List.mem_map.1 (List.mem_of_getElem? ht)
    exact absurd hj (hno x hx)

/-- The path that is found is the first one that joins the addresses. -/
theorem find_first (addrs : Nat → Tuple) (ps : List PathX) (loc peer : Sock) (l p : NetAddr)
    (hl : netAddr loc = some l) (hp : netAddr peer = some p) (i : Nat) (x : PathX) (hx : ps[i]? = some x)
    (hj : Joins (addrs x.id) l p) (hfirst : ∀ j y, j < i → ps[j]? = some y → ¬ Joins (addrs y.id) l p) :
    (find (ps.map fun x => addrs x.id) (some loc) (some peer)).1 = some i := by
  have h := C106_found (ps.map fun x => addrs x.id) loc peer l p hl hp
  have hxi : (ps.map fun x => addrs x.id)[i]? = some (addrs x.id) := by rw [List.getElem?_map, hx]; rfl
  cases hf : (find (ps.map fun x => addrs x.id) (some loc) (some peer)).1 with
  | none =>
    rw [hf] at h
    exact absurd hj (h _ (List.mem_of_getElem? hxi))
  | some k =>
    rw [hf] at h
    obtain ⟨t, ht, hjt, hfk⟩ := h
    rcases Nat.lt_trichotomy k i with hlt | heq | hgt
    · rw [List.getElem?_map, Option.map_eq_some_iff] at ht
      obtain ⟨y, hy, rfl⟩ := ht
      exact absurd hjt (hfirst k y hlt hy)
    · rw [heq]
    · exact absurd hj (hfk i _ hgt hxi)

/-- An error for the addresses of a path in use puts that path, and no other one, out of use; the path stays known for
at least three times its retransmission timer. The other paths are as they were, and no challenge is sent. -/
theorem C106_named (multi ready : Bool) (now : Nat) (addrs : Nat → Tuple) (ps : List PathX)
    (loc peer : Sock) (l p : NetAddr) (hl : netAddr loc = some l) (hp : netAddr peer = some p) (i : Nat) (x : PathX)
    (hx : ps[i]? = some x) (hj : Joins (addrs x.id) l p)
    (hfirst : ∀ j y, j < i → ps[j]? = some y → ¬ Joins (addrs y.id) l p) (hd : x.demoted = false) :
    (notify multi ready now addrs ps (some peer) (some loc)).challenge = none ∧
    ∃ q, q.id = x.id ∧ q.demoted = true ∧ now + 3 * x.timer ≤ q.demotionTime ∧
      (notify multi ready now addrs ps (some peer) (some loc)).paths.Perm (ps.set i q) := by
  have hf := find_first addrs ps loc peer l p hl hp i x hx hj hfirst
  have hall : ps.all (fun p => p.demoted) = false := by
    rw [List.all_eq_false]
    exact ⟨x, List.mem_of_getElem? hx, by simp [hd]⟩
  simp only [notify, hf, hall, Bool.false_eq_true, if_false]
  exact ⟨trivial, demote_act multi now ps i x hx hd⟩

example :
    let addrs : Nat → Tuple := fun n => { peer := { family := 2, port := 443, ip4 := n }, loc := { family := 2, port := 5, ip4 := 1 } }
    let ps : List PathX := [{ id := 0, verified := true }, { id := 1, verified := true, timer := 300000 }]
    (notify true true 1000 addrs ps (some { family := 2, port := 443, ip4 := 1 }) (some { family := 2, port := 5, ip4 := 1 })).paths
      = [{ id := 0, verified := true },
         { id := 1, verified := true, timer := 300000, demoted := true, demotionTime := 901000, hasCid := false,
           abandonSent := true }] := by decide +kernel

/-- An error for a path that is out of use changes no path; a challenge is sent when no path is in use and the
connection is ready, and only then. -/
theorem C106_again (multi ready : Bool) (now : Nat) (addrs : Nat → Tuple) (ps : List PathX)
    (loc peer : Sock) (l p : NetAddr) (hl : netAddr loc = some l) (hp : netAddr peer = some p) (i : Nat) (x : PathX)
    (hx : ps[i]? = some x) (hj : Joins (addrs x.id) l p)
    (hfirst : ∀ j y, j < i → ps[j]? = some y → ¬ Joins (addrs y.id) l p) (hd : x.demoted = true) :
    (notify multi ready now addrs ps (some peer) (some loc)).paths = ps ∧
    ((notify multi ready now addrs ps (some peer) (some loc)).challenge = some i ↔
      ready = true ∧ ∀ y ∈ ps, y.demoted = true) ∧
    ((notify multi ready now addrs ps (some peer) (some loc)).challenge ≠ some i →
      (notify multi ready now addrs ps (some peer) (some loc)).challenge = none) := by
  have hf := find_first addrs ps loc peer l p hl hp i x hx hj hfirst
  cases hall : ps.all (fun p => p.demoted) with
  | false =>
    simp only [notify, hf, hall, Bool.false_eq_true, if_false]
    refine ⟨demote_same multi now ps i x hx hd, ?_, fun _ => trivial⟩
    constructor
    · intro h; cases h
    · rintro ⟨_, h⟩
      have : ps.all (fun p => p.demoted) = true := List.all_eq_true.2 h
      rw [hall] at this; cases this
  | true =>
    simp only [notify, hf, hall, if_true]
    have h := List.all_eq_true.1 hall
    cases ready with
    | true => simp; exact h
    | false => simp

example :
    let addrs : Nat → Tuple := fun n => { peer := { family := 2, port := 443, ip4 := n }, loc := { family := 2, port := 5, ip4 := 1 } }
    let ps : List PathX := [{ id := 1, verified := true, demoted := true }]
    (notify true true 1000 addrs ps (some { family := 2, port := 443, ip4 := 1 }) (some { family := 2, port := 5, ip4 := 1 })).challenge
      = some 0 := by decide +kernel

/-- The comment in the code ("Caution here: ICMP packets could be forged") asks that the last path is only tested with a
challenge. It is not so: the test counts the path itself. An error for the only path in use puts it out of use,
without challenge, so that no path in use is left. -/
theorem C106_last_path_violated (multi ready : Bool) (now : Nat) (addrs : Nat → Tuple) (ps : List PathX)
    (loc peer : Sock) (l p : NetAddr) (hl : netAddr loc = some l) (hp : netAddr peer = some p) (i : Nat) (x : PathX)
    (hx : ps[i]? = some x) (hj : Joins (addrs x.id) l p)
    (hfirst : ∀ j y, j < i → ps[j]? = some y → ¬ Joins (addrs y.id) l p) (hd : x.demoted = false)
    (hlast : ∀ j y, ps[j]? = some y → j ≠ i → y.demoted = true) :
    (notify multi ready now addrs ps (some peer) (some loc)).challenge = none ∧
    ∀ y ∈ (notify multi ready now addrs ps (some peer) (some loc)).paths, y.demoted = true := by
  obtain ⟨hc, q, _, hq, _, hperm⟩ := C106_named multi ready now addrs ps loc peer l p hl hp i x hx hj hfirst hd
  refine ⟨hc, ?_⟩
  intro y hy
  have hy' := hperm.mem_iff.1 hy
  obtain ⟨j, hjy⟩ := List.mem_iff_getElem?.1 hy'
  rw [List.getElem?_set] at hjy
  by_cases hij : i = j
  · rw [if_pos hij] at hjy
    split at hjy
    · injection hjy with hjy; rw [← hjy]; exact hq
    · cases hjy
  · rw [if_neg hij] at hjy
    exact hlast j y hjy (fun h => hij h.symm)

example :
    let addrs : Nat → Tuple := fun _ => { peer := { family := 2, port := 443, ip4 := 9 }, loc := { family := 2, port := 5, ip4 := 1 } }
    notify false true 1000 addrs [{ id := 0, verified := true }] (some { family := 2, port := 443, ip4 := 9 })
        (some { family := 2, port := 5, ip4 := 1 })
      = { paths := [{ id := 0, verified := true, demoted := true, demotionTime := 3001000 }], challenge := none } := by
  decide +kernel

end Picoquic.Props
