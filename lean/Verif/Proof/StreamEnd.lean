import Verif.Model.StreamEnd

/-! Lemmas for `Verif/Props/StreamEnd.lean`. -/

namespace Picoquic.StreamEnd

/-- A condition on the state that lasts and prevents some events. -/
theorem run_never (flag : End → Prop) (bad : Event → Bool)
    (h : ∀ s o, flag s → flag (step s o).1 ∧ ∀ e ∈ (step s o).2, bad e = false) (os : List Op) :
    ∀ s, flag s → flag (run s os).1 ∧ ∀ e ∈ (run s os).2, bad e = false := by
  induction os with
  | nil => intro s hs; exact ⟨hs, by simp [run]⟩
  | cons o os ih =>
    intro s hs
    obtain ⟨h1, h2⟩ := h s o hs
    obtain ⟨h3, h4⟩ := ih _ h1
    refine ⟨h3, ?_⟩
    intro e he
    rcases List.mem_append.1 he with he | he
    · exact h2 e he
    · exact h4 e he

/-- An event that sets a condition which prevents it happens at most once. -/
theorem run_once (flag : End → Prop) (bad : Event → Bool)
    (h : ∀ s o, flag s → flag (step s o).1 ∧ ∀ e ∈ (step s o).2, bad e = false)
    (h1 : ∀ s o, (∀ e ∈ (step s o).2, bad e = false) ∨ ((step s o).2.countP bad ≤ 1 ∧ flag (step s o).1))
    (os : List Op) : ∀ s, (run s os).2.countP bad ≤ 1 := by
  induction os with
  | nil => intro s; simp [run]
  | cons o os ih =>
    intro s
    show ((step s o).2 ++ (run (step s o).1 os).2).countP bad ≤ 1
    rw [List.countP_append]
    rcases h1 s o with h2 | ⟨h2, h3⟩
    · have : (step s o).2.countP bad = 0 := by
        rw [List.countP_eq_zero]; intro a ha; rw [h2 a ha]; decide
      have := ih (step s o).1
      omega
    · have h4 := (run_never flag bad h os _ h3).2
      have : (run (step s o).1 os).2.countP bad = 0 := by
        rw [List.countP_eq_zero]; intro a ha; rw [h4 a ha]; decide
      omega

theorem run_append (os os' : List Op) : ∀ s, run s (os ++ os') =
    ((run (run s os).1 os').1, (run s os).2 ++ (run (run s os).1 os').2) := by
  induction os with
  | nil => intro s; simp [run]
  | cons o os ih => intro s; simp [run, ih]

def isResetCallback : Event → Bool
  | .resetCallback _ => true
  | _ => false

def isStopCallback : Event → Bool
  | .stopCallback _ => true
  | _ => false

def isFin : Event → Bool
  | .fin _ => true
  | _ => false

def isDelivery : Event → Bool
  | .data _ => true
  | .fin _ => true
  | _ => false

def isCallback : Event → Bool
  | .data _ => true
  | .fin _ => true
  | .resetCallback _ => true
  | .stopCallback _ => true
  | _ => false

def isFrame : Event → Bool
  | .resetFrame _ _ => true
  | .stopFrame _ => true
  | .streamFrame _ _ _ => true
  | _ => false

/-! ## Steps -/

theorem step_reset (s : End) (o : Op) (h : s.resetSignalled = true) :
    (step s o).1.resetSignalled = true ∧ ∀ e ∈ (step s o).2, isResetCallback e = false := by
  cases o <;> simp only [step, appReset, appStop, appDiscard, appWrite, format, recvReset, recvStop, recvData, chunk,
    deleteIfClosed] <;> grind [isResetCallback]

theorem step_reset_once (s : End) (o : Op) : (∀ e ∈ (step s o).2, isResetCallback e = false) ∨
    ((step s o).2.countP isResetCallback ≤ 1 ∧ (step s o).1.resetSignalled = true) := by
  cases o <;> simp only [step, appReset, appStop, appDiscard, appWrite, format, recvReset, recvStop, recvData, chunk,
    deleteIfClosed] <;> grind [isResetCallback]

theorem step_stop (s : End) (o : Op) (h : s.stopSignalled = true) :
    (step s o).1.stopSignalled = true ∧ ∀ e ∈ (step s o).2, isStopCallback e = false := by
  cases o <;> simp only [step, appReset, appStop, appDiscard, appWrite, format, recvReset, recvStop, recvData, chunk,
    deleteIfClosed] <;> grind [isStopCallback]

theorem step_stop_once (s : End) (o : Op) : (∀ e ∈ (step s o).2, isStopCallback e = false) ∨
    ((step s o).2.countP isStopCallback ≤ 1 ∧ (step s o).1.stopSignalled = true) := by
  cases o <;> simp only [step, appReset, appStop, appDiscard, appWrite, format, recvReset, recvStop, recvData, chunk,
    deleteIfClosed] <;> grind [isStopCallback]

theorem step_fin (s : End) (o : Op) (h : s.finSignalled = true) :
    (step s o).1.finSignalled = true ∧ ∀ e ∈ (step s o).2, isFin e = false := by
  cases o <;> simp only [step, appReset, appStop, appDiscard, appWrite, format, recvReset, recvStop, recvData, chunk,
    deleteIfClosed] <;> grind [isFin]

theorem step_fin_once (s : End) (o : Op) : (∀ e ∈ (step s o).2, isFin e = false) ∨
    ((step s o).2.countP isFin ≤ 1 ∧ (step s o).1.finSignalled = true) := by
  cases o <;> simp only [step, appReset, appStop, appDiscard, appWrite, format, recvReset, recvStop, recvData, chunk,
    deleteIfClosed] <;> grind [isFin]

theorem step_silent (s : End) (o : Op) (h : s.stopRequested = true) :
    (step s o).1.stopRequested = true ∧ ∀ e ∈ (step s o).2, isDelivery e = false := by
  cases o <;> simp only [step, appReset, appStop, appDiscard, appWrite, format, recvReset, recvStop, recvData, chunk,
    deleteIfClosed] <;> grind [isDelivery]

theorem step_discarded (s : End) (o : Op) (h : s.discarded = true ∨ s.deleted = true) :
    ((step s o).1.discarded = true ∨ (step s o).1.deleted = true) ∧ ∀ e ∈ (step s o).2, isCallback e = false := by
  cases o <;> simp only [step, appReset, appStop, appDiscard, appWrite, format, recvReset, recvStop, recvData, chunk,
    deleteIfClosed] <;> grind [isCallback]

theorem step_quiet (s : End) (o : Op) (h : s.resetSent = true) :
    (step s o).1.resetSent = true ∧ ∀ e ∈ (step s o).2, isFrame e = false := by
  cases o <;> simp only [step, appReset, appStop, appDiscard, appWrite, format, recvReset, recvStop, recvData, chunk,
    deleteIfClosed] <;> grind [isFrame]

/-- The code of a callback is the one of the frame. -/
theorem step_code (s : End) (o : Op) {x : Nat} (h : Event.resetCallback x ∈ (step s o).2) :
    ∃ f, o = .recvReset x f := by
  have key : (match o with | .recvReset e _ => x = e | _ => False) := by
    cases o <;> simp only [step, appReset, appStop, appDiscard, appWrite, format, recvReset, recvStop, recvData, chunk,
      deleteIfClosed] at h ⊢ <;> grind
  cases o <;> simp only at key
  rename_i e f
  exact ⟨f, by rw [key]⟩

/-- Nothing came that ends the stream of the peer, and the application did not discard it. -/
def Open (s : End) : Prop :=
  s.finReceived = false ∧ s.resetReceived = false ∧ s.resetSignalled = false ∧ s.discarded = false ∧
  s.isClosed = false ∧ s.deleted = false ∧ (isBidir s.id || !isLocal s.id s.client) = true

theorem step_open (s : End) (o : Op) (h : Open s) (h1 : ∀ e f, o ≠ .recvReset e f) (h2 : ∀ e, o ≠ .discard e)
    (h3 : ∀ n, o ≠ .recvData n true) : Open (step s o).1 := by
  unfold Open at *
  cases o <;> simp only [step, appReset, appStop, appDiscard, appWrite, format, recvReset, recvStop, recvData, chunk,
    deleteIfClosed, closed] <;> grind

/-- What was requested fits the parity of the ID. -/
def Parity (s : End) : Prop :=
  (s.resetRequested = true → (isBidir s.id || isClientId s.id) = true) ∧
  (s.stopRequested = true → (isBidir s.id || !isClientId s.id) = true)

theorem step_parity (s : End) (o : Op) (h : Parity s) (h1 : ∀ e, o ≠ .reset e) (h2 : ∀ e, o ≠ .stop e) :
    Parity (step s o).1 ∧ (step s o).1.id = s.id ∧ (step s o).1.client = s.client ∧
    (∀ e f, Event.resetFrame e f ∈ (step s o).2 → (isBidir s.id || isClientId s.id) = true) ∧
    (∀ e, Event.stopFrame e ∈ (step s o).2 → (isBidir s.id || !isClientId s.id) = true) := by
  unfold Parity at *
  cases o <;> simp only [step, appReset, appStop, appDiscard, appWrite, format, recvReset, recvStop, recvData, chunk,
    deleteIfClosed] <;> grind

/-- The application was told to stop, or the reset was sent. -/
theorem step_told (s : End) (o : Op) (h : s.stopReceived = true ∨ s.resetSent = true) :
    (step s o).1.stopReceived = true ∨ (step s o).1.resetSent = true := by
  cases o <;> simp only [step, appReset, appStop, appDiscard, appWrite, format, recvReset, recvStop, recvData, chunk,
    deleteIfClosed] <;> grind

def isOver : Event → Bool
  | .stopCallback _ => true
  | .resetFrame _ _ => true
  | _ => false

theorem step_over (s : End) (o : Op) : (∀ e ∈ (step s o).2, isOver e = false) ∨
    ((step s o).1.stopReceived = true ∨ (step s o).1.resetSent = true) := by
  cases o <;> simp only [step, appReset, appStop, appDiscard, appWrite, format, recvReset, recvStop, recvData, chunk,
    deleteIfClosed] <;> grind [isOver]

/-- A stream that was deleted is closed. -/
def DelOk (s : End) : Prop := (s.deleted = true → s.isClosed = true) ∧ (s.isClosed = true → closed s = true)

theorem del_ok {s : End} (h : s.deleted = true → s.isClosed = true) (h' : s.isClosed = true → closed s = true) :
    DelOk (deleteIfClosed s) := by
  unfold DelOk
  simp only [deleteIfClosed, closed] at *
  grind

theorem chunk_del (s : End) (n : Nat) : (chunk s n).1.deleted = s.deleted ∧ (chunk s n).1.isClosed = s.isClosed ∧
    (closed s = true → closed (chunk s n).1 = true) := by
  simp only [chunk, closed]
  grind

theorem recvData_del (s : End) (n : Nat) (f : Bool) (h : DelOk s) : DelOk (recvData s n f).1 := by
  unfold recvData
  simp only
  generalize (s.finReceived &&
    if f = true then decide (s.finOffset ≠ s.consumed + n) else decide (s.consumed + n > s.finOffset)) = c
  cases c
  · have hb : DelOk { s with finReceived := s.finReceived || f, finOffset := max s.finOffset (s.consumed + n) } := by
      unfold DelOk closed at *
      grind
    have hc := chunk_del { s with finReceived := s.finReceived || f, finOffset := max s.finOffset (s.consumed + n) } n
    simp only [Bool.false_eq_true, if_false]
    generalize chunk { s with finReceived := s.finReceived || f, finOffset := max s.finOffset (s.consumed + n) } n
      = r at hc ⊢
    generalize ({ s with finReceived := s.finReceived || f, finOffset := max s.finOffset (s.consumed + n) } : End) = t
      at hb hc
    have hd : (r.1.deleted = true → r.1.isClosed = true) ∧ (r.1.isClosed = true → closed r.1 = true) := by
      unfold DelOk at hb
      grind
    split
    · exact del_ok hd.1 hd.2
    · exact hd
  · exact h

theorem step_del (s : End) (o : Op) (h : DelOk s) : DelOk (step s o).1 := by
  cases o
  case recvData n f =>
    unfold step
    simp only
    split
    · exact h
    · exact recvData_del s n f h
  all_goals
    unfold DelOk closed at *
    simp only [step, appReset, appStop, appDiscard, appWrite, format, recvReset, recvStop, deleteIfClosed, closed]
    grind

theorem step_ids (s : End) (o : Op) : (step s o).1.id = s.id ∧ (step s o).1.client = s.client := by
  cases o <;> simp only [step, appReset, appStop, appDiscard, appWrite, format, recvReset, recvStop, recvData, chunk,
    deleteIfClosed] <;> grind

/-- The reset is not for another code than `x`. -/
def badCode (x : Nat) : Event → Bool
  | .resetFrame c _ => decide (c ≠ x)
  | _ => false

theorem step_resetCode (x : Nat) (s : End) (o : Op) (h : s.resetRequested = true ∧ s.localError = x) :
    ((step s o).1.resetRequested = true ∧ (step s o).1.localError = x) ∧
    ∀ e ∈ (step s o).2, badCode x e = false := by
  cases o <;> simp only [step, appReset, appStop, appDiscard, appWrite, format, recvReset, recvStop, recvData, chunk,
    deleteIfClosed] <;> grind [badCode]

def isStopFrame : Event → Bool
  | .stopFrame _ => true
  | _ => false

theorem step_useless (s : End) (o : Op) (h : s.finReceived = true ∨ s.resetReceived = true) :
    ((step s o).1.finReceived = true ∨ (step s o).1.resetReceived = true) ∧
    ∀ e ∈ (step s o).2, isStopFrame e = false := by
  cases o <;> simp only [step, appReset, appStop, appDiscard, appWrite, format, recvReset, recvStop, recvData, chunk,
    deleteIfClosed] <;> grind [isStopFrame]

theorem step_ended (s : End) (o : Op) : (∀ e ∈ (step s o).2, (isFin e || isResetCallback e) = false) ∨
    ((step s o).1.finReceived = true ∨ (step s o).1.resetReceived = true) := by
  cases o <;> simp only [step, appReset, appStop, appDiscard, appWrite, format, recvReset, recvStop, recvData, chunk,
    deleteIfClosed] <;> grind [isFin, isResetCallback]

end Picoquic.StreamEnd
