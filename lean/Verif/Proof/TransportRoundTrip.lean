import Verif.Proof.TransportAccept
import Verif.Spec.TransportSettings
/-!
# Transport parameters: round trip
-/

namespace Picoquic.TransportParams
open Picoquic Picoquic.Spec

theorem versions_done (w : Nat) (h : w = 0x6b3343cf ∨ w = 0x709a50c4) :
    processVersionUpgrade 1 w = .done := by
  rcases h with rfl | rfl <;> decide

theorem vnClientLoop_ok (v : Bytes) (h : v.length % 4 = 0) : ∃ vn, vnClientLoop v = .ok vn := by
  induction v using vnClientLoop.induct with
  | case1 => exact ⟨0, rfl⟩
  | case2 a b c d rest hs => exact ⟨_, by rw [vnClientLoop, if_pos hs]⟩
  | case3 a b c d rest hs ih =>
    rw [vnClientLoop, if_neg hs]
    exact ih (by simp only [List.length_cons] at h; omega)
  | case4 v h1 h2 =>
    exfalso
    match v, h1, h2 with
    | [], h1, _ => exact h1 rfl
    | [_], _, _ => simp at h
    | [_, _], _, _ => simp at h
    | [_, _, _], _, _ => simp at h
    | a :: b :: c :: d :: r, _, h2 => exact h2 a b c d r rfl

theorem vnServerLoop_ok (v : Bytes) (h : v.length % 4 = 0) : vnServerLoop v = .ok 0 := by
  induction v using vnServerLoop.induct with
  | case1 => rfl
  | case2 a b c d rest ih =>
    rw [vnServerLoop]
    exact ih (by simp only [List.length_cons] at h; omega)
  | case3 v h1 h2 =>
    exfalso
    match v, h1, h2 with
    | [], h1, _ => exact h1 rfl
    | [_], _, _ => simp at h
    | [_, _], _, _ => simp at h
    | [_, _, _], _, _ => simp at h
    | a :: b :: c :: d :: r, _, h2 => exact h2 a b c d r rfl

theorem versionsGood_of_agree {c : Conn} {v : Bytes} (h : VersionsAgree c v) : VersionsGood c v := by
  obtain ⟨others, h1, h2, h3⟩ := h
  match v, h1, h2 with
  | [], h1, _ => cases h1
  | [_], h1, _ => cases h1
  | [_, _], h1, _ => cases h1
  | [_, _, _], h1, _ => cases h1
  | w0 :: w1 :: w2 :: w3 :: rest, h1, h2 =>
    rw [versionWords] at h1
    obtain ⟨e1, e2⟩ := List.cons.inj h1
    have hl : rest.length % 4 = 0 := by simp only [List.length_cons] at h2; omega
    unfold VersionsGood processVersionNegotiation framesUint32Decode
    dsimp only
    rw [parse32_bigEndian, e1, if_neg (by simp)]
    cases hc : c.client with
    | true =>
      rw [if_pos rfl, vnServerLoop_ok rest hl]
      exact ⟨0, rfl, .inl rfl⟩
    | false =>
      rw [if_neg (by decide)]
      obtain ⟨vn, hvn⟩ := vnClientLoop_ok rest hl
      refine ⟨vn, hvn, ?_⟩
      by_cases h0 : vn = 0
      · exact .inl h0
      · obtain ⟨g1, g2⟩ := vnClientLoop_mem rest hvn h0
        rw [e2] at g1
        rcases h3 hc vn g1 with e | e | ⟨e, e'⟩
        · exact .inr (.inl e)
        · rw [g2] at e; cases e
        · rw [e]
          exact .inr (.inr (versions_done vn e'))

theorem lastOf_mem_low {t : Nat} {ps : List (Nat × Bytes)} {v : Bytes} (hm : (t, v) ∈ ps) (ht : t < 64)
    (ho : ((ps.map Prod.fst).filter (fun t => decide (t < 64))).Nodup) : lastOf t ps = some v := by
  induction ps with
  | nil => cases hm
  | cons p ps ih =>
    obtain ⟨t', v'⟩ := p
    rw [List.map_cons, List.filter_cons] at ho
    rw [lastOf]
    rcases List.mem_cons.mp hm with h | h
    · obtain ⟨rfl, rfl⟩ := Prod.mk.inj h
      rw [if_pos (by simpa using ht), List.nodup_cons] at ho
      rw [lastOf_none (fun hx => ho.1 (List.mem_filter.mpr ⟨hx, by simpa using ht⟩)), if_pos rfl]
      rfl
    · have ho' : ((ps.map Prod.fst).filter (fun t => decide (t < 64))).Nodup := by
        split at ho
        · exact (List.nodup_cons.mp ho).2
        · exact ho
      rw [ih h ho']
      rfl

/-- What the connection becomes. -/
def accepted (c : Conn) (ps : List (Nat × Bytes)) : Conn :=
  let s := takes (receiveInit c) ps
  negotiateOptions (negotiateMultipath (defaults { s with c := negotiateIdle s.c }).c)

theorem receive_good (c : Conn) {bs : Bytes} {ps : List (Nat × Bytes)} (hext : Extension bs ps)
    (hg : ∀ t v, (t, v) ∈ ps → Good c t v)
    (ho : ((ps.map Prod.fst).filter (fun t => decide (t < 64))).Nodup)
    (hroles : c.client = false → ∀ t v, (t, v) ∈ ps → t ≠ 0 ∧ t ≠ 2 ∧ t ≠ 13 ∧ t ≠ 16)
    (hc : CidsMatch c.client c.remoteCid c.initialCid c.originalCid ps) :
    receive c bs = some (accepted c ps, false) := by
  have hrun : runParams (receiveInit c) ps = some (takes (receiveInit c) ps) := by
    refine run_good (receiveInit c).c _ ps rfl (SameSetup.refl _) (fun _ => rfl) ?_ ?_ ho
    · intro t v hm
      obtain ⟨g1, g2, g3, g4, g5, g6⟩ := hg t v hm
      exact ⟨g1, g2, g3, g4, g5, g6⟩
    · intro t _ hm
      simp [receiveInit] at hm
  have hbs := receive_eq hext (.inl rfl) c
  rw [List.append_nil] at hbs
  rw [hbs, hrun, Option.map_some]
  have hrest : runRest [] (takes (receiveInit c) ps) = takes (receiveInit c) ps := by
    unfold runRest; rw [if_pos (.inr rfl)]
  rw [hrest]
  obtain ⟨t1, t2, t3, t4, t5⟩ := takes_same (receiveInit c) ps rfl
  have hp : ∀ t, t < 64 → (t ∈ (takes (receiveInit c) ps).present ↔ t ∈ ps.map Prod.fst) := by
    intro t ht
    rw [t5 t]
    constructor
    · rintro (h | ⟨_, h⟩)
      · simp [receiveInit] at h
      · exact h
    · exact fun h => .inr ⟨ht, h⟩
  have hfst : ∀ {t v}, (t, v) ∈ ps → t ∈ ps.map Prod.fst := fun hm => List.mem_map.mpr ⟨_, hm, rfl⟩
  have h15 : 15 ∈ (takes (receiveInit c) ps).present := (hp 15 (by decide)).mpr (hfst hc.source)
  have hocid : (takes (receiveInit c) ps).ocid = ((lastOf 0 ps).map id).getD [] :=
    takes_field (·.ocid) 0 id c.loc (fun s t v _ => by unfold take note; split <;> rfl) _ rfl ps
  have hrcid : (takes (receiveInit c) ps).rcid = ((lastOf 16 ps).map id).getD [] :=
    takes_field (·.rcid) 16 id c.loc (fun s t v _ => by unfold take note; split <;> rfl) _ rfl ps
  have F : Final (takes (receiveInit c) ps) := by
    refine ⟨?_, fun _ => h15, ?_, ?_⟩
    · intro hcl
      have hcl' : c.client = false := by rw [t1.1] at hcl; exact hcl
      rw [hp _ (by decide), hp _ (by decide), hp _ (by decide), hp _ (by decide)]
      have hx := hroles hcl'
      refine ⟨?_, ?_, ?_, ?_⟩ <;> intro hm <;> obtain ⟨⟨t, v⟩, hm, rfl⟩ := List.mem_map.mp hm
      · exact (hx _ v hm).2.1 rfl
      · exact (hx _ v hm).2.2.1 rfl
      · exact (hx _ v hm).1 rfl
      · exact (hx _ v hm).2.2.2 rfl
    · intro hcl _ hor
      have hcl' : c.client = true := by rw [t1.1] at hcl; exact hcl
      have hor' : c.originalCid = [] := by rw [t1.2.2.2.2] at hor; exact hor
      obtain ⟨m1, m2⟩ := hc.original hcl' hor'
      rw [hp _ (by decide), hp _ (by decide)]
      refine ⟨?_, hfst m1, ?_⟩
      · intro hm
        obtain ⟨⟨t, v⟩, hm, rfl⟩ := List.mem_map.mp hm
        exact m2 v hm
      · rw [hocid, lastOf_mem_low m1 (by decide) ho, t1.2.2.2.1]
        rfl
    · intro hcl _ hor
      have hcl' : c.client = true := by rw [t1.1] at hcl; exact hcl
      have hor' : c.originalCid ≠ [] := by rw [t1.2.2.2.2] at hor; exact hor
      obtain ⟨m1, m2⟩ := hc.retry hcl' hor'
      rw [hp _ (by decide), hp _ (by decide)]
      refine ⟨hfst m2, hfst m1, ?_, ?_⟩
      · rw [hocid, lastOf_mem_low m1 (by decide) ho, t1.2.2.2.2]
        rfl
      · rw [hrcid, lastOf_mem_low m2 (by decide) ho, t1.2.2.2.1]
        rfl
  rw [finish_good t4 h15 F]
  show some (accepted c ps, (takes (receiveInit c) ps).ret) = _
  rw [t4]

theorem negotiateOptions_rem (c : Conn) : (negotiateOptions c).rem = c.rem := by
  unfold negotiateOptions
  dsimp only
  repeat' split
  all_goals rfl

theorem negotiateMultipath_rem (c : Conn) : (negotiateMultipath c).rem = c.rem := by
  unfold negotiateMultipath
  repeat' split
  all_goals rfl

theorem negotiateIdle_rem (c : Conn) : (negotiateIdle c).rem = c.rem := by
  unfold negotiateIdle
  dsimp only
  repeat' split
  all_goals rfl

theorem accepted_errs (c : Conn) (ps : List (Nat × Bytes)) : (accepted c ps).errs = c.errs := by
  unfold accepted
  dsimp only
  rw [negotiateOptions_errs, negotiateMultipath_errs, (defaults_same _).2.1]
  dsimp only
  rw [(negotiateIdle_same _).2.1, (takes_same (receiveInit c) ps rfl).2.1]
  rfl

theorem accepted_rem (c : Conn) (ps : List (Nat × Bytes)) :
    (accepted c ps).rem = { readParams ps with
      maxAckDelay := if 11 ∈ ps.map Prod.fst then (readParams ps).maxAckDelay else 25000
      activeCidLimit := if 14 ∈ ps.map Prod.fst then (readParams ps).activeCidLimit
        else if c.localCid.length = 0 then 0 else 2 } := by
  have h0 := takes_read c ps
  obtain ⟨t1, t2, t3, t4, t5⟩ := takes_same (receiveInit c) ps rfl
  have hl : (takes (receiveInit c) ps).c.localCid = c.localCid := t1.2.2.1
  have hp : ∀ t, t < 64 → (t ∈ (takes (receiveInit c) ps).present ↔ t ∈ ps.map Prod.fst) := by
    intro t ht
    rw [t5 t]
    constructor
    · rintro (h | ⟨_, h⟩)
      · simp [receiveInit] at h
      · exact h
    · exact fun h => .inr ⟨ht, h⟩
  have p11 := hp 11 (by decide)
  have p14 := hp 14 (by decide)
  unfold accepted
  dsimp only
  rw [negotiateOptions_rem, negotiateMultipath_rem]
  generalize takes (receiveInit c) ps = s at *
  have hr := negotiateIdle_rem s.c
  have hl' : (negotiateIdle s.c).localCid = s.c.localCid := (negotiateIdle_same s.c).1.2.2.1
  unfold defaults RState.setRem
  dsimp only
  by_cases h11 : 11 ∈ ps.map Prod.fst
  · have h11' := p11.mpr h11
    by_cases h14 : 14 ∈ ps.map Prod.fst
    · have h14' := p14.mpr h14
      rw [if_pos h11, if_pos h14]
      simp [h11', h14', hr, h0]
    · have h14' : 14 ∉ s.present := fun h => h14 (p14.mp h)
      rw [if_pos h11, if_neg h14]
      simp [h11', h14', t4, hr, h0, hl', hl]
  · have h11' : 11 ∉ s.present := fun h => h11 (p11.mp h)
    by_cases h14 : 14 ∈ ps.map Prod.fst
    · have h14' := p14.mpr h14
      rw [if_neg h11, if_pos h14]
      simp [h11', h14', t4, hr, h0]
    · have h14' : 14 ∉ s.present := fun h => h14 (p14.mp h)
      rw [if_neg h11, if_neg h14]
      simp [h11', h14', t4, hr, h0, hl', hl]

end Picoquic.TransportParams
