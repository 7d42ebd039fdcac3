import Verif.Proof.DecodeFrames
import Verif.Proof.FrameFormat
/-! Proofs about the whole payload of a packet. -/

namespace Picoquic.Frames
open Picoquic Picoquic.Spec

variable {σ : Type}

/-! ## The frames of a packet -/

theorem decodeLoop_payload {cfg : Cfg} {h : Handler σ} (hk : ∀ s p, h.pathKnown s p = true) {bs : Bytes}
    {fs : List Frame} (hp : IsPayload bs fs) : (∀ f ∈ fs, Acceptable cfg f) → ∀ (n : Nat) (s : σ) (a p : Bool),
    bs.length ≤ n →
    ∃ r, decodeLoop cfg h n s a p bs = some r ∧
      (r.accepted = true → r.ack = (a || fs.any (fun f => !pureAck f)) ∧ r.probing = (p && fs.all Probing)) ∧
      (fs.getLast? ≠ some .immediateAck → (r.accepted, r.state) = runFrames h s fs) := by
  induction hp with
  | nil =>
    intro _ n s a p _
    refine ⟨⟨s, true, a, p⟩, by cases n <;> rfl, by simp, fun _ => rfl⟩
  | @cons bs rest f fs hf hp ih =>
    intro ha n s a p hn
    cases bs with
    | nil => exact absurd hf not_startsWith_nil
    | cons b t =>
      cases n with
      | zero => simp at hn
      | succ n =>
        obtain ⟨q, hq, hbt⟩ := startsWith_suffix hf
        have hq : 0 < q.length := List.length_pos_iff.2 hq
        have hl : (b :: t).length = q.length + rest.length := by rw [hbt, List.length_append]
        have haf := ha f (by simp)
        rw [decodeLoop]
        by_cases hi : f = .immediateAck ∧ rest = []
        · obtain ⟨rfl, rfl⟩ := hi
          have hfs : fs = [] := by
            cases hp with
            | nil => rfl
            | cons h1 _ => exact absurd h1 not_startsWith_nil
          subst hfs
          rw [decodeOne_lastImmediateAck hf haf.1]
          refine ⟨⟨s, true, a || true, p && false⟩, by cases n <;> rfl, ?_, ?_⟩
          · intro _
            exact ⟨rfl, rfl⟩
          · intro hh
            exact absurd rfl hh
        · rw [decodeOne_ok hf haf (fun h1 h2 => hi ⟨h1, h2⟩) (fun c _ _ _ => hk s _)]
          unfold process
          cases hh : h.frame s f with
          | mk ok s' =>
            cases ok with
            | false =>
              refine ⟨_, rfl, (fun h => by cases h), fun _ => ?_⟩
              simp [runFrames, hh]
            | true =>
              obtain ⟨r, h1, h2, h3⟩ := ih (fun g hg => ha g (by simp [hg])) n s' (a || !pureAck f) (p && Probing f)
                (by omega)
              refine ⟨r, h1, fun hr => ?_, fun hlast => ?_⟩
              · obtain ⟨h4, h5⟩ := h2 hr
                rw [h4, h5]
                simp [Bool.or_assoc, Bool.and_assoc]
              · rw [h3 (by
                  cases fs with
                  | nil => simp
                  | cons g gs => simpa using hlast)]
                simp [runFrames, hh]

/-- The frames before are processed. -/
theorem loop_prefix {cfg : Cfg} {h : Handler σ} (hk : ∀ s p, h.pathKnown s p = true) {s s1 : σ} {bs bs1 : Bytes}
    {fs : List Frame} (hp : Processed cfg h s bs fs s1 bs1) : bs1 ≠ [] → ∀ (n : Nat) (a p : Bool), bs.length ≤ n →
    ∃ m a' p', bs1.length ≤ m ∧ decodeLoop cfg h n s a p bs = decodeLoop cfg h m s1 a' p' bs1 := by
  induction hp with
  | nil s bs => intro _ n a p hn; exact ⟨n, a, p, hn, rfl⟩
  | @cons s s1 s' bs r bs' f fs hf ha hh hp ih =>
    intro hne n a p hn
    cases bs with
    | nil => exact absurd hf not_startsWith_nil
    | cons b t =>
      cases n with
      | zero => simp at hn
      | succ n =>
        obtain ⟨q, hq, hbt⟩ := startsWith_suffix hf
        have hq : 0 < q.length := List.length_pos_iff.2 hq
        have hl : (b :: t).length = q.length + r.length := by rw [hbt, List.length_append]
        rw [decodeLoop, decodeOne_ok hf ha (by
          intro _ hr
          subst hr
          cases hp with
          | nil => exact hne rfl
          | cons h1 => exact not_startsWith_nil h1
          | ignored h1 => exact not_startsWith_nil h1) (fun c _ _ _ => hk s _)]
        unfold process
        rw [hh]
        exact ih hne n _ _ (by omega)
  | @ignored s s' bs r bs' f fs hf hi hp ih =>
    intro hne n a p hn
    rcases hi.2 with ⟨_, rfl⟩ | ⟨c, _, _, h3⟩
    · cases hp with
      | nil => exact absurd rfl hne
      | cons h1 => exact absurd h1 not_startsWith_nil
      | ignored h1 => exact absurd h1 not_startsWith_nil
    · rw [hk] at h3
      cases h3

/-! ## Closed connections stay closed -/

theorem foldl_closed {h : Handler σ} {closed : σ → Prop} (hc : IsClosed h closed) : ∀ (es : List (Nat × Nat)) (s : σ),
    closed s → closed (es.foldl (fun s e => h.error s e.1 e.2) s) := by
  intro es
  induction es with
  | nil => exact fun s hs => hs
  | cons e es ih => exact fun s _ => ih _ (hc.error _ _ _)

theorem errors_closed {h : Handler σ} {closed : σ → Prop} (hc : IsClosed h closed) {s s' : σ} (he : Errors h s s') :
    closed s' := by
  obtain ⟨es, hne, rfl⟩ := he
  cases es with
  | nil => exact absurd rfl hne
  | cons e es => exact foldl_closed hc es _ (hc.error _ _ _)

theorem dropped_closed {h : Handler σ} {closed : σ → Prop} (hc : IsClosed h closed) {s s' : σ} {bs : Bytes}
    (hs : closed s ∨ ¬ Silent bs) (hd : Dropped h s bs s') : closed s' := by
  rcases hd with h1 | h1 | ⟨h1, h2⟩
  · exact errors_closed hc h1
  · exact errors_closed hc h1
  · rcases hs with hs | hs
    · rcases h2 with rfl | rfl
      · exact hs
      · exact hc.broken _ _ hs
    · exact absurd h1 hs

theorem step_closed {cfg : Cfg} {h : Handler σ} {closed : σ → Prop} (hc : IsClosed h closed) {s : σ} {b : UInt8}
    {t : Bytes} (hs : closed s) :
    (∃ s', decodeOne cfg h s b t = .stop s' ∧ closed s') ∨
    (∃ s' rest a p, decodeOne cfg h s b t = .cont s' rest a p ∧ closed s') := by
  by_cases ho : GoesAstray cfg h s (b :: t)
  · rcases ho with ⟨he, type, r, hd, hl⟩ | ⟨hu, _⟩
    · obtain ⟨p, h1⟩ := decodeOne_lenient (h := h) (s := s) he (intAt_decode hd) hl
      exact .inr ⟨_, _, _, _, h1, hc.error _ _ _⟩
    · rcases decodeOne_unknown hu with ⟨s', h1, h2⟩ | ⟨r, h1, h2⟩
      · exact .inl ⟨s', h1, dropped_closed hc (.inl hs) h2⟩
      · exact .inr ⟨_, _, _, _, h1, hs⟩
  · rcases decodeOne_cases cfg h s b t ho with ⟨s', h1, h2⟩ | ⟨f, r, s', h1, h2, h3⟩
    · refine .inl ⟨s', h1, ?_⟩
      rcases h2 with ⟨f, _, _, _, h4⟩ | ⟨f, _, _, _, h4⟩ | ⟨_, _, h4⟩
      · have := hc.frame s f hs
        rw [h4] at this
        exact this
      · exact errors_closed hc h4
      · exact dropped_closed hc (.inl hs) h4
    · refine .inr ⟨_, _, _, _, h1, ?_⟩
      rcases h3 with ⟨_, h4⟩ | ⟨_, rfl⟩
      · have := hc.frame s f hs
        rw [h4] at this
        exact this
      · exact hs

theorem loop_closed {cfg : Cfg} {h : Handler σ} {closed : σ → Prop} (hc : IsClosed h closed) :
    ∀ (n : Nat) (s : σ) (a p : Bool) (bs : Bytes) (r : Result σ), closed s → decodeLoop cfg h n s a p bs = some r →
      closed r.state := by
  intro n
  induction n with
  | zero =>
    intro s a p bs r hs hr
    cases bs with
    | nil =>
      have hr := Option.some.inj hr
      subst hr
      exact hs
    | cons b t => cases hr
  | succ n ih =>
    intro s a p bs r hs hr
    cases bs with
    | nil =>
      have hr := Option.some.inj hr
      subst hr
      exact hs
    | cons b t =>
      rw [decodeLoop] at hr
      rcases step_closed (cfg := cfg) (b := b) (t := t) hc hs with ⟨s', h1, h2⟩ | ⟨s', rest, a', p', h1, h2⟩
      · rw [h1] at hr
        have hr := Option.some.inj hr
        subst hr
        exact h2
      · rw [h1] at hr
        exact ih _ _ _ _ _ h2 hr

/-- A step that raises an error closes the connection. -/
theorem loop_step_closed {cfg : Cfg} {h : Handler σ} {closed : σ → Prop} (hc : IsClosed h closed) {n : Nat} {s : σ}
    {a p : Bool} {b : UInt8} {t : Bytes} {r : Result σ}
    (h1 : (∃ s', decodeOne cfg h s b t = .stop s' ∧ closed s') ∨
      (∃ s' rest a p, decodeOne cfg h s b t = .cont s' rest a p ∧ closed s'))
    (hr : decodeLoop cfg h n s a p (b :: t) = some r) : closed r.state := by
  cases n with
  | zero => cases hr
  | succ n =>
    rw [decodeLoop] at hr
    rcases h1 with ⟨s', h1, h2⟩ | ⟨s', rest, a', p', h1, h2⟩
    · rw [h1] at hr
      have hr := Option.some.inj hr
      subst hr
      exact h2
    · rw [h1] at hr
      exact loop_closed hc _ _ _ _ _ _ h2 hr

/-! ## Skipping -/

theorem skipSwitch_agrees {cfg : Cfg} {h : Handler σ} {s s' : σ} {b : UInt8} {t rest : Bytes} {a p : Bool}
    (hl : ¬ (cfg.epoch = .oneRtt ∧ ∃ type r, IntAt (b :: t) type r ∧ UnnegotiatedType cfg type))
    (hc : decodeOne cfg h s b t = .cont s' rest a p) : skipSwitch b t = (some rest, !a) := by
  by_cases ho : GoesAstray cfg h s (b :: t)
  · rcases ho with ho | ⟨hu, _⟩
    · exact absurd ho hl
    · rcases decodeOne_unknown hu with ⟨_, h1, _⟩ | ⟨r, h1, h2⟩
      · rw [h1] at hc; cases hc
      · rw [h1] at hc
        injection hc with _ h3 h4
        subst h3 h4
        exact h2
  · rcases decodeOne_cases cfg h s b t ho with ⟨_, h1, _⟩ | ⟨f, r, s1, h1, h2, _⟩
    · rw [h1] at hc; cases hc
    · rw [h1] at hc
      injection hc with _ h3 h4
      subst h3 h4
      rw [Bool.not_not]
      exact skip_complete h2

theorem close_first {b : UInt8} {t rest : Bytes} {f : Frame} (hf : StartsWith (b :: t) f rest) :
    (b = 0x1c ∨ b = 0x1d) ↔ IsClose f = true := by
  have key : skipSwitch b t = (some rest, pureAck f) := skip_complete hf
  constructor
  · intro hb
    by_cases hc : IsClose f = true
    · exact hc
    exfalso
    have hx : isExt f = false := by
      cases he : isExt f with
      | false => rfl
      | true =>
        have := ext_first (parseExt_complete he hf)
        rcases hb with rfl | rfl
        · rcases this with h | h <;> revert h <;> decide
        · rcases this with h | h <;> revert h <;> decide
    have hp := parseShort_complete hx hf
    rcases hb with rfl | rfl
    · have hp : parseConnectionClose t = some (f, rest) := hp
      obtain ⟨e, ty, r, rfl⟩ : ∃ e ty r, f = .connectionClose e ty r := by
        unfold parseConnectionClose at hp
        simp only [Option.bind_eq_some_iff, Option.some.injEq, Prod.mk.injEq] at hp
        grind
      exact hc rfl
    · have hp : parseApplicationClose t = some (f, rest) := hp
      obtain ⟨e, r, rfl⟩ : ∃ e r, f = .applicationClose e r := by
        unfold parseApplicationClose at hp
        simp only [Option.bind_eq_some_iff, Option.some.injEq, Prod.mk.injEq] at hp
        grind
      exact hc rfl
  · intro hc
    cases f with
    | connectionClose =>
      obtain ⟨rfl, _⟩ := (startsWith_raw rfl (fun _ => Iff.rfl)).1 hf
      exact .inl rfl
    | applicationClose =>
      obtain ⟨rfl, _⟩ := (startsWith_raw rfl (fun _ => Iff.rfl)).1 hf
      exact .inr rfl
    | _ => cases hc

theorem closingLoop_payload {bs : Bytes} {fs : List Frame} (hp : IsPayload bs fs) : ∀ n, bs.length ≤ n →
    closingLoop n bs = some (fs.any IsClose) := by
  induction hp with
  | nil => intro n _; cases n <;> rfl
  | @cons bs rest f fs hf hp ih =>
    intro n hn
    cases bs with
    | nil => exact absurd hf not_startsWith_nil
    | cons b t =>
      cases n with
      | zero => simp at hn
      | succ n =>
        obtain ⟨q, hq, hbt⟩ := startsWith_suffix hf
        have hq : 0 < q.length := List.length_pos_iff.2 hq
        have hl : (b :: t).length = q.length + rest.length := by rw [hbt, List.length_append]
        rw [closingLoop]
        by_cases hb : b = 0x1c ∨ b = 0x1d
        · rw [if_pos hb]
          simp [(close_first hf).1 hb]
        · rw [if_neg hb]
          obtain ⟨x, h1, h2, h3, _⟩ := skipFrame_complete hf
          rw [h1]
          dsimp only
          rw [if_pos h2, h3, ih n (by omega)]
          have : IsClose f = false := by
            cases hc : IsClose f with
            | false => rfl
            | true => exact absurd ((close_first hf).2 hc) hb
          simp [this]

end Picoquic.Frames
