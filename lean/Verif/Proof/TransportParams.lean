import Verif.Model.TransportParams
import Verif.Spec.TransportParams
import Verif.Proof.AckProcess
import Verif.Proof.Fixed
/-!
# Transport parameters: the loop over an extension
-/

namespace Picoquic.TransportParams
open Picoquic Picoquic.Spec

theorem varint_pos {p : Bytes} {n : Nat} (h : Varint p n) : 0 < p.length := by
  obtain ⟨k, _, hl, _⟩ := h
  rw [hl]
  exact Nat.two_pow_pos k

theorem varintDecode_varint {p : Bytes} {n : Nat} (h : Varint p n) (rest : Bytes) :
    varintDecode (p ++ rest) = (p.length, n) := by
  rw [varintDecode_eq, Ack.varint_decode h]
  simp

theorem varintDecode_ok {bs : Bytes} (h : (varintDecode bs).1 ≠ 0) :
    ∃ p, bs = p ++ bs.drop (varintDecode bs).1 ∧ Varint p (varintDecode bs).2 ∧
      p.length = (varintDecode bs).1 := by
  rw [varintDecode_eq] at h ⊢
  cases hd : framesVarintDecode bs with
  | none => rw [hd] at h; simp at h
  | some x =>
    obtain ⟨n, rest⟩ := x
    obtain ⟨p, h1, h2⟩ := Ack.varint_of_decode hd
    refine ⟨p, ?_, h2, ?_⟩
    · simp [h1]
    · simp [h1]

theorem nextParam_cons {t l v rest : Bytes} {type : Nat} (ht : Varint t type)
    (hl : Varint l v.length) : nextParam (t ++ (l ++ (v ++ rest))) = some (type, v, rest) := by
  have h1 := varint_pos ht
  have h2 := varint_pos hl
  unfold nextParam
  rw [if_neg (by simp; omega)]
  dsimp only
  rw [varintDecode_varint ht]
  simp only [List.drop_left]
  rw [varintDecode_varint hl]
  simp only [List.drop_left]
  rw [if_neg (by simp only [List.length_append]; omega)]
  simp

theorem nextParam_some {bs v rest : Bytes} {type : Nat} (h : nextParam bs = some (type, v, rest)) :
    ∃ t l, bs = t ++ (l ++ (v ++ rest)) ∧ Varint t type ∧ Varint l v.length := by
  unfold nextParam at h
  by_cases h0 : 2 > bs.length
  · rw [if_pos h0] at h; cases h
  rw [if_neg h0] at h
  dsimp only at h
  by_cases h1 : (varintDecode bs).1 = 0 ∨ (varintDecode (List.drop (varintDecode bs).1 bs)).1 = 0 ∨
      (varintDecode (List.drop (varintDecode bs).1 bs)).2 >
        (List.drop (varintDecode (List.drop (varintDecode bs).1 bs)).1
          (List.drop (varintDecode bs).1 bs)).length
  · rw [if_pos h1] at h; cases h
  rw [if_neg h1] at h
  obtain ⟨t, ht1, ht2, ht3⟩ := varintDecode_ok (bs := bs) (by omega)
  obtain ⟨l, hl1, hl2, hl3⟩ := varintDecode_ok (bs := List.drop (varintDecode bs).1 bs) (by omega)
  simp only [Option.some.injEq, Prod.mk.injEq] at h
  obtain ⟨rfl, rfl, rfl⟩ := h
  refine ⟨t, l, ?_, ht2, ?_⟩
  · rw [List.take_append_drop, ← hl1, ← ht1]
  · rw [List.length_take, Nat.min_eq_left (by omega)]
    exact hl2

/-- Every byte string is a sequence of parameters, followed by nothing or by something that is not a
parameter. -/
theorem extension_split (bs : Bytes) :
    ∃ a ps rest, bs = a ++ rest ∧ Extension a ps ∧ (rest = [] ∨ nextParam rest = none) := by
  generalize hn : bs.length = n
  induction n using Nat.strongRecOn generalizing bs with
  | ind n ih =>
    cases h : nextParam bs with
    | none => exact ⟨[], [], bs, rfl, .nil, .inr h⟩
    | some x =>
      obtain ⟨type, v, rest⟩ := x
      obtain ⟨t, l, h1, h2, h3⟩ := nextParam_some h
      have p1 := varint_pos h2
      obtain ⟨a, ps, r, e1, e2, e3⟩ := ih rest.length (by rw [← hn, h1]; simp; omega) rest rfl
      refine ⟨t ++ (l ++ (v ++ a)), (type, v) :: ps, r, ?_, .cons h2 h3 e2, e3⟩
      rw [h1, e1]
      simp [List.append_assoc]

theorem extension_unique {bs : Bytes} {ps ps' : List (Nat × Bytes)} (h : Extension bs ps)
    (h' : Extension bs ps') : ps = ps' := by
  induction h generalizing ps' with
  | nil =>
    generalize he : ([] : Bytes) = e at h'
    cases h' with
    | nil => rfl
    | cons ht _ _ =>
      have := varint_pos ht
      have he' := congrArg List.length he
      simp only [List.length_append, List.length_nil] at he'
      omega
  | cons ht hl hr ih =>
    rename_i t l v rest type ps
    have h1 := nextParam_cons ht hl (rest := rest)
    generalize he : t ++ (l ++ (v ++ rest)) = e at h'
    cases h' with
    | nil =>
      have := varint_pos ht
      have he' := congrArg List.length he
      simp only [List.length_append, List.length_nil] at he'
      omega
    | cons ht' hl' hr' =>
      rename_i t' l' v' rest' type' ps'
      have h2 := nextParam_cons ht' hl' (rest := rest')
      rw [he, h2] at h1
      simp only [Option.some.injEq, Prod.mk.injEq] at h1
      obtain ⟨rfl, rfl, rfl⟩ := h1
      rw [ih hr']

/-- The parameters of an extension, if it is well formed (for concrete cases). -/
def parseExtension : Nat → Bytes → Option (List (Nat × Bytes))
  | 0, _ => none
  | fuel + 1, bs =>
    if bs = [] then some []
    else
      match nextParam bs with
      | none => none
      | some (t, v, rest) => (parseExtension fuel rest).map (fun ps => (t, v) :: ps)

theorem extension_of_parse {fuel : Nat} {bs : Bytes} {ps : List (Nat × Bytes)}
    (h : parseExtension fuel bs = some ps) : Extension bs ps := by
  induction fuel generalizing bs ps with
  | zero => cases h
  | succ fuel ih =>
    rw [parseExtension] at h
    by_cases hb : bs = []
    · rw [if_pos hb] at h
      obtain rfl := Option.some.inj h
      subst hb
      exact .nil
    rw [if_neg hb] at h
    cases hn : nextParam bs with
    | none => rw [hn] at h; cases h
    | some x =>
      obtain ⟨t, v, rest⟩ := x
      rw [hn] at h
      dsimp only at h
      obtain ⟨tb, lb, rfl, h1, h2⟩ := nextParam_some hn
      cases hp : parseExtension fuel rest with
      | none => rw [hp] at h; cases h
      | some qs =>
        rw [hp] at h
        obtain rfl := Option.some.inj h
        exact .cons h1 h2 (ih hp)

theorem parse_of_extension {bs : Bytes} {ps : List (Nat × Bytes)} (h : Extension bs ps) (fuel : Nat)
    (hf : bs.length < fuel) : parseExtension fuel bs = some ps := by
  induction h generalizing fuel with
  | nil =>
    obtain ⟨f, rfl⟩ : ∃ f, fuel = f + 1 := ⟨fuel - 1, by omega⟩
    rfl
  | cons ht hl hr ih =>
    rename_i t l v rest type ps
    obtain ⟨f, rfl⟩ : ∃ f, fuel = f + 1 := ⟨fuel - 1, by omega⟩
    have := varint_pos ht
    rw [parseExtension, if_neg (by intro e; rw [List.append_eq_nil_iff] at e; rw [e.1] at this; simp at this),
      nextParam_cons ht hl]
    dsimp only
    rw [ih f (by simp only [List.length_append] at hf; omega)]
    rfl

theorem applyParam_version (s : RState) (v : Bytes) :
    applyParam s 0x11 v =
      match processVersionNegotiation s.c.client s.c.version v with
      | .fail code => some (s.fail code)
      | .ok vn =>
        if vn ≠ 0 ∧ s.c.version ≠ vn then
          match processVersionUpgrade s.c.version vn with
          | .done => some { s with
              ret := false
              c := { s.c with doVersionNegotiation := true, version := vn } }
          | .refused => some { s with ret := true, c := { s.c with doVersionNegotiation := true } }
          | .hang => none
        else some { s with c := { s.c with doVersionNegotiation := true } } := rfl

/-- The parameters of an extension processed in order, until an error. -/
def runParams (s : RState) : List (Nat × Bytes) → Option RState
  | [] => some s
  | (t, v) :: ps =>
    if s.ret then some s
    else (applyParam (notePresent s t) t v).bind (fun s' => runParams s' ps)

/-- What follows the parameters: an error if there are bytes left. -/
def runRest (rest : Bytes) (s : RState) : RState :=
  if s.ret ∨ rest = [] then s else s.fail PARAMETER_ERROR

theorem runParams_ret {s : RState} (h : s.ret = true) (ps : List (Nat × Bytes)) :
    runParams s ps = some s := by
  cases ps with
  | nil => rfl
  | cons p ps => obtain ⟨t, v⟩ := p; simp [runParams, h]

theorem receiveLoop_ret {s : RState} (h : s.ret = true) (fuel : Nat) (bs : Bytes) :
    receiveLoop (fuel + 1) s bs = some s := by
  simp [receiveLoop, h]

theorem receiveLoop_eq {a rest : Bytes} {ps : List (Nat × Bytes)} (ha : Extension a ps)
    (hr : rest = [] ∨ nextParam rest = none) (fuel : Nat) (s : RState)
    (hf : (a ++ rest).length + 1 < fuel) :
    receiveLoop fuel s (a ++ rest) = (runParams s ps).map (runRest rest) := by
  induction ha generalizing fuel s with
  | nil =>
    obtain ⟨f, rfl⟩ : ∃ f, fuel = f + 2 := ⟨fuel - 2, by omega⟩
    simp only [List.nil_append, runParams, Option.map_some, runRest]
    rw [receiveLoop]
    by_cases h : s.ret = true ∨ rest = []
    · rw [if_pos h, if_pos h]
    · rw [if_neg h, if_neg h]
      have h2 : nextParam rest = none := by
        rcases hr with h3 | h3
        · exact absurd (.inr h3) h
        · exact h3
      rw [h2]
      exact receiveLoop_ret rfl f rest
  | cons ht hl hr' ih =>
    rename_i t l v r type ps
    have p1 := varint_pos ht
    obtain ⟨f, rfl⟩ : ∃ f, fuel = f + 1 := ⟨fuel - 1, by omega⟩
    rw [receiveLoop, runParams]
    have hne : ¬ (t ++ (l ++ (v ++ r)) ++ rest = []) := by
      intro h
      have := congrArg List.length h
      simp only [List.length_append, List.length_nil] at this
      omega
    by_cases hret : s.ret = true
    · rw [if_pos (.inl hret), if_pos hret]
      simp [runRest, hret]
    · rw [if_neg (fun h => h.elim hret hne), if_neg hret]
      have e : t ++ (l ++ (v ++ r)) ++ rest = t ++ (l ++ (v ++ (r ++ rest))) := by
        simp [List.append_assoc]
      rw [e, nextParam_cons ht hl]
      dsimp only
      cases hs : applyParam (notePresent s type) type v with
      | none => rfl
      | some s' =>
        dsimp only [Option.bind_some]
        have hlen : (r ++ rest).length + 1 < f := by
          simp only [List.length_append] at hf ⊢
          omega
        by_cases hs' : s'.ret = true
        · rw [if_pos hs']
          obtain ⟨g, rfl⟩ : ∃ g, f = g + 1 := ⟨f - 1, by omega⟩
          rw [receiveLoop_ret hs', runParams_ret hs']
          simp [runRest, hs']
        · rw [if_neg hs']
          exact ih f s' hlen

/-- The result of the parsing of a byte string made of the parameters `ps` and of `rest`. -/
theorem receive_eq {a rest : Bytes} {ps : List (Nat × Bytes)} (ha : Extension a ps)
    (hr : rest = [] ∨ nextParam rest = none) (c : Conn) :
    receive c (a ++ rest) = (runParams (receiveInit c) ps).map
      (fun s => ((finish (runRest rest s)).c, (finish (runRest rest s)).ret)) := by
  unfold receive
  rw [receiveLoop_eq ha hr _ _ (by omega), Option.map_map]
  rfl

theorem runParams_append (s : RState) (ps qs : List (Nat × Bytes)) :
    runParams s (ps ++ qs) = (runParams s ps).bind (fun s' => runParams s' qs) := by
  induction ps generalizing s with
  | nil => rfl
  | cons p ps ih =>
    obtain ⟨t, v⟩ := p
    simp only [List.cons_append, runParams]
    by_cases h : s.ret = true
    · rw [if_pos h, if_pos h]
      simp [runParams_ret h]
    · rw [if_neg h, if_neg h, Option.bind_assoc]
      congr 1
      funext s'
      exact ih s'

theorem extension_append {a b : Bytes} {ps qs : List (Nat × Bytes)} (ha : Extension a ps)
    (hb : Extension b qs) : Extension (a ++ b) (ps ++ qs) := by
  induction ha with
  | nil => exact hb
  | cons ht hl _ ih =>
    simp only [List.append_assoc, List.cons_append]
    exact .cons ht hl ih

end Picoquic.TransportParams
