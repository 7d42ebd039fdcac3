import Verif.Proof.H3Data
/-!
# C79: the message on a request stream

The frames are read by `H3Data.feedAll`: the pieces of a stream, in order, give the data of the message and a state with the header and trailer fields, or an
error that closes the connection. The frames and the messages are those of `Spec/H3Data.lean`; what header frames contain is the subject of C78.
-/

namespace Picoquic.Props
open Picoquic Picoquic.Spec Picoquic.H3Data Picoquic.Qpack

/-- The fields of a frame of headers, as C78 describes them. -/
def hdDecode (bs : Bytes) : Option Parts :=
  match parseFrame bs with
  | .ok p => some p
  | _ => none

/-- The frames about which the specification and the program agree: no PUSH_PROMISE (see `C79_push_violated`), no beginning of a web transport stream (see `C79_webtransport`),
frames of headers that are not empty and have at most 65536 bytes, and contents between header and trailer fields (see `C79_trailer_violated`). -/
def HdPlain (fs : List H3Frame) : Prop :=
  (∀ f ∈ fs, f.ty ≠ 5 ∧ f.ty ≠ 0x41 ∧ (f.ty = 1 → f.payload ≠ [] ∧ f.payload.length ≤ 65536)) ∧
  (∀ a f b, fs = a ++ f :: b → f.ty = 1 → (∃ g ∈ a, g.ty = 1) → ∃ g ∈ a, g.ty = 0)

theorem hd_plain {fs : List H3Frame} (h : HdPlain fs) : PlainAll [] fs := by
  intro a f b he
  obtain ⟨h1, h2, h3⟩ := h.1 f (by rw [he]; simp)
  exact ⟨h1, h2, fun t => ⟨(h3 t).1, (h3 t).2, by simpa using h.2 a f b he t⟩⟩

/-- **C79.** The result does not depend on how the bytes of a stream are cut into pieces. -/
theorem C79_chunks (cs cs' : List Bytes) (h : cs.flatten = cs'.flatten) : feedAll {} cs = feedAll {} cs' := by
  have hi : Inv {} := fun _ => complete_short (by decide)
  rw [feedAll_flatten cs {} hi, feedAll_flatten cs' {} hi, h]

example : feedAll {} [[1], [3, 0, 0], [0xd1, 0], [2], [7, 8]] = feedAll {} [[1, 3, 0, 0, 0xd1, 0, 2, 7, 8]] := C79_chunks _ _ rfl

/-- **C79, partial.** However the bytes of a list of frames are cut into pieces: if they are a message, the application gets its contents, its header fields and its trailer fields, and no error.
Missing: the frames that are not `HdPlain`. -/
theorem C79_message_partial (fs : List H3Frame) (cs : List Bytes) (m : H3Msg Parts) (hb : H3Stream fs cs.flatten) (hp : HdPlain fs) (hm : h3Message hdDecode {} fs = some m) :
    ∃ s, feedAll {} cs = (m.body, .ok s) ∧ s.headerFound = m.header.isSome ∧ s.trailerFound = m.trailer.isSome ∧
      (∀ p, m.header = some p → s.header = p) ∧ (∀ p, m.trailer = some p → s.trailer = p) := by
  have hi : Inv {} := fun _ => complete_short (by decide)
  have hr : Ready {} := ⟨rfl, rfl, rfl, rfl⟩
  have h := feed_frames fs _ hb [] {} {} hi
    (by rw [settle_ready hr]; exact ⟨hr, rfl, rfl, (fun p h => by cases h), (fun p h => by cases h), (fun h => by cases h), fun _ => rfl⟩)
    (fun h => by cases h) (hd_plain hp)
  rw [show h3Message H3Data.decode {} fs = h3Message hdDecode {} fs from rfl, hm] at h
  dsimp only at h
  obtain ⟨s, d, h1, ⟨b, h2⟩, h3⟩ := h
  obtain ⟨e1, e2, e3, e4⟩ := settle_fields s
  refine ⟨s, ?_, by rw [← e1]; exact h2.hf, by rw [← e2]; exact h2.tf, ?_, ?_⟩
  · rw [feedAll_flatten _ _ hi, h1, h3]; rfl
  · intro p hp; rw [← e3]; exact h2.hv p hp
  · intro p hp; rw [← e4]; exact h2.tv p hp

/-- **C79.** While a message arrives, what the application has got is always the beginning of its contents. -/
theorem C79_prefix_partial (fs : List H3Frame) (cs cs' : List Bytes) (m : H3Msg Parts) (hb : H3Stream fs (cs ++ cs').flatten) (hp : HdPlain fs) (hm : h3Message hdDecode {} fs = some m) :
    ∃ d s, feedAll {} cs = (d, .ok s) ∧ d <+: m.body := by
  obtain ⟨s, h, -⟩ := C79_message_partial fs (cs ++ cs') m hb hp hm
  have hi : Inv {} := fun _ => complete_short (by decide)
  rw [feedAll_flatten _ _ hi, List.flatten_append, feed_append _ _ _ hi] at h
  rw [feedAll_flatten _ _ hi]
  generalize feed {} cs.flatten = x at h
  obtain ⟨d, r⟩ := x
  cases r with
  | ok s1 => exact ⟨d, s1, rfl, _, congrArg Prod.fst h⟩
  | err c => cases h
  | ub => cases h

/-- **C79, partial.** However the bytes of a list of frames are cut into pieces: if they are not a message, the stream is refused.
Missing: the frames that are not `HdPlain`. -/
theorem C79_refused_partial (fs : List H3Frame) (cs : List Bytes) (hb : H3Stream fs cs.flatten) (hp : HdPlain fs) (hm : h3Message hdDecode {} fs = none) :
    ∀ d s, feedAll {} cs ≠ (d, .ok s) := by
  have hi : Inv {} := fun _ => complete_short (by decide)
  have hr : Ready {} := ⟨rfl, rfl, rfl, rfl⟩
  have h := feed_frames fs _ hb [] {} {} hi
    (by rw [settle_ready hr]; exact ⟨hr, rfl, rfl, (fun p h => by cases h), (fun p h => by cases h), (fun h => by cases h), fun _ => rfl⟩)
    (fun h => by cases h) (hd_plain hp)
  rw [show h3Message H3Data.decode {} fs = h3Message hdDecode {} fs from rfl, hm] at h
  dsimp only at h
  rw [feedAll_flatten _ _ hi]
  exact h

/-- A request with contents in two frames, an unknown frame, and trailer fields. -/
def hdFrames : List H3Frame := [⟨1, [0, 0, 0xd1]⟩, ⟨0x21, [1, 2]⟩, ⟨0, [7, 8]⟩, ⟨0, []⟩, ⟨0, [9]⟩, ⟨1, [0, 0, 0xd9]⟩]

theorem hd_small {n : Nat} (h : n < 64) : Varint [UInt8.ofNat n] n := by
  refine ⟨0, by decide, rfl, by omega, ?_⟩
  have : (UInt8.ofNat n).toNat = n := by rw [UInt8.toNat_ofNat']; exact Nat.mod_eq_of_lt (by omega)
  simp [bigEndian, this]

theorem hd_frame (f : H3Frame) (h1 : f.ty < 64) (h2 : f.payload.length < 64) : H3FrameBytes f ([UInt8.ofNat f.ty] ++ ([UInt8.ofNat f.payload.length] ++ f.payload)) :=
  ⟨_, _, rfl, hd_small h1, hd_small h2⟩

/-- The shortest bytes of frames. -/
def hdBytes (fs : List H3Frame) : Bytes := (fs.map (fun f => [UInt8.ofNat f.ty] ++ ([UInt8.ofNat f.payload.length] ++ f.payload))).flatten

theorem hd_stream : ∀ (fs : List H3Frame), (∀ f ∈ fs, f.ty < 64 ∧ f.payload.length < 64) → H3Stream fs (hdBytes fs) := by
  intro fs
  induction fs with
  | nil => intro _; exact .nil
  | cons f fs ih =>
    intro h
    exact .cons (hd_frame f (h f (by simp)).1 (h f (by simp)).2) (ih (fun g hg => h g (by simp [hg])))

example : H3Stream hdFrames (hdBytes hdFrames) := hd_stream _ (by decide)

theorem hd_split {P : List H3Frame → H3Frame → Prop} : ∀ {fs : List H3Frame}, (∀ i, (h : i < fs.length) → P (fs.take i) fs[i]) → ∀ a f b, fs = a ++ f :: b → P a f := by
  intro fs h a f b he
  subst he
  have := h a.length (by simp)
  simpa using this

example : HdPlain hdFrames := by
  refine ⟨by decide, ?_⟩
  exact hd_split (P := fun a f => f.ty = 1 → (∃ g ∈ a, g.ty = 1) → ∃ g ∈ a, g.ty = 0) (by decide)

example : ∃ m, h3Message hdDecode {} hdFrames = some m ∧ m.body = [7, 8, 9] ∧ m.trailer.isSome := by decide +kernel

/-- Contents before the header fields are no message. -/
example : HdPlain [⟨0, [7]⟩, ⟨1, [0, 0, 0xd1]⟩] ∧ (h3Message hdDecode {} [⟨0, [7]⟩, ⟨1, [0, 0, 0xd1]⟩]).isNone := by
  refine ⟨⟨by decide, ?_⟩, by decide +kernel⟩
  exact hd_split (P := fun a f => f.ty = 1 → (∃ g ∈ a, g.ty = 1) → ∃ g ∈ a, g.ty = 0) (by decide)

/-- **C79.** A stream that begins with the type 0x41 and a number is a stream of the web transport session with that number: all bytes behind them are for it, whatever they are. -/
theorem C79_webtransport (p q w : Bytes) (id : Nat) (cs : List Bytes) (hp : Varint p 0x41) (hq : Varint q id) (hc : cs.flatten = p ++ q ++ w) :
    ∃ s, feedAll {} cs = (w, .ok s) ∧ s.wt = true ∧ s.control = id := by
  have hi : Inv {} := fun _ => complete_short (by decide)
  have hr : Ready {} := ⟨rfl, rfl, rfl, rfl⟩
  rw [feedAll_flatten _ _ hi, hc, feed_front hr hp hq w]
  have hck : check { hdr := p ++ q } 0x41 id w = .ok { hdr := p ++ q, ty := 0x41, len := 0, read := 0, parsed := true, headerFound := true, wt := true, control := id } w [] := by
    unfold check; rfl
  rw [hck]
  unfold goOn
  dsimp only
  rw [feed_wt rfl rfl]
  exact ⟨_, Prod.ext rfl rfl, rfl, rfl⟩

example : ∃ s, feedAll {} [[0x40], [0x41, 8, 1], [3]] = ([1, 3], .ok s) ∧ s.wt = true ∧ s.control = 8 :=
  C79_webtransport [0x40, 0x41] [8] [1, 3] 8 _ ⟨1, by decide, rfl, by decide, by decide⟩ (hd_small (by decide)) rfl

/-- **C79.** A client with a file, and no upgrade asked for, writes just these data to it. -/
theorem C79_client_writes (c : Cli) (ps : List Bytes) (d : Bytes) (s : DS) (h1 : c.file = true) (h2 : c.noDisk = false) (h3 : c.requested = false) (h4 : c.upgraded = false)
    (h : feedAll c.ds ps = (d, .ok s)) :
    ∃ c' evs, cliAll c ps = some (c', evs) ∧ (evs.map (fun e => match e with | .write b => b | _ => [])).flatten = d ∧ c'.ds = s ∧ ∀ code, CEv.close code ∉ evs :=
  cliAll_spec ps c d s h1 h2 h3 h4 h

example : (cliAll {} [[1, 3, 0], [0, 0xd9, 0, 2, 7], [8]]).map Prod.snd = some [.write [7], .write [8]] := by decide +kernel

/-! ### Where the program differs -/

theorem hd_ok {x : Bytes × H3Data.Res} {d : Bytes} (P : DS → Bool) (h : (match x with | (e, .ok s) => decide (e = d) && P s | _ => false) = true) :
    ∃ s, x = (d, .ok s) ∧ P s = true := by
  obtain ⟨e, r⟩ := x
  cases r with
  | ok s => simp only [Bool.and_eq_true, decide_eq_true_eq] at h; exact ⟨s, by rw [h.1], h.2⟩
  | err c => cases h
  | ub => cases h

theorem hd_some {x : COut} {e : List CEv} (h : x.map Prod.snd = some e) : ∃ c, x = some (c, e) := by
  cases x with
  | none => cases h
  | some y => obtain ⟨c, e'⟩ := y; cases h; exact ⟨c, rfl⟩

/-- **C79, violated.** Header fields and trailer fields without contents between them are a message, but the program refuses it, as it does an interim response before the final one. -/
theorem C79_trailer_violated : ∃ fs bs m, H3Stream fs bs ∧ h3Message hdDecode {} fs = some m ∧ feed {} bs = ([], .err 0x105) :=
  ⟨[⟨1, [0, 0, 0xd1]⟩, ⟨1, [0, 0, 0xd9]⟩], _, _, hd_stream _ (by decide), (by rfl), by decide +kernel⟩

/-- **C79, violated.** A frame PUSH_PROMISE is skipped, though nothing can be pushed: no number for it was allowed. -/
theorem C79_push_violated : ∃ fs bs, H3Stream fs bs ∧ h3Message hdDecode {} fs = none ∧ ∃ s, feed {} bs = ([7], .ok s) := by
  refine ⟨[⟨1, [0, 0, 0xd1]⟩, ⟨5, [0, 0, 0]⟩, ⟨0, [7]⟩], _, hd_stream _ (by decide), ?_, ?_⟩
  · have h : (h3Message hdDecode {} [⟨1, [0, 0, 0xd1]⟩, ⟨5, [0, 0, 0]⟩, ⟨0, [7]⟩]).isNone = true := by decide +kernel
    exact Option.isNone_iff_eq_none.1 h
  · obtain ⟨s, h, -⟩ := hd_ok (x := feed {} (hdBytes [⟨1, [0, 0, 0xd1]⟩, ⟨5, [0, 0, 0]⟩, ⟨0, [7]⟩])) (d := [7]) (fun _ => true) (by decide +kernel)
    exact ⟨s, h⟩

/-- **C79, violated.** A request that ends in the middle of its contents is processed by a server as if it were complete: two of the five bytes of the only frame of contents arrived. -/
theorem C79_fin_server_violated : ∃ fs bs s, H3Stream fs (bs ++ [9, 10, 11]) ∧ feed {} bs = ([7, 8], .ok s) ∧ serverFin s = .request := by
  obtain ⟨s, h, h'⟩ := hd_ok (x := feed {} [1, 3, 0, 0, 0xd1, 0, 5, 7, 8]) (d := [7, 8]) (fun s => decide (serverFin s = .request)) (by decide +kernel)
  exact ⟨[⟨1, [0, 0, 0xd1]⟩, ⟨0, [7, 8, 9, 10, 11]⟩], [1, 3, 0, 0, 0xd1, 0, 5, 7, 8], s, hd_stream _ (by decide), h, of_decide_eq_true h'⟩

/-- **C79, violated.** A client takes a response that ends in the middle of a frame for a complete one, if that is before the contents of the frame. -/
theorem C79_fin_client_violated : ∃ fs bs rest c, H3Stream fs (bs ++ rest) ∧ rest ≠ [] ∧ cliData {} bs true = some (c, [.write [7], .done]) := by
  obtain ⟨c, h⟩ := hd_some (x := cliData {} [1, 3, 0, 0, 0xd9, 0, 1, 7, 0] true) (e := [.write [7], .done]) (by decide +kernel)
  exact ⟨[⟨1, [0, 0, 0xd9]⟩, ⟨0, [7]⟩, ⟨0, [8, 9]⟩], [1, 3, 0, 0, 0xd9, 0, 1, 7, 0], [2, 8, 9], c, hd_stream _ (by decide), by decide, h⟩

/-- **C79, violated.** Once a request for an upgrade is accepted, what the application gets of the bytes that follow depends on how they are cut into pieces. -/
theorem C79_upgrade_violated : ∃ ps ps' : List Bytes, ps.flatten = ps'.flatten ∧
    (cliAll { requested := true, callback := true } ps).map Prod.snd = some [.accepted, .raw [0x21, 1, 5]] ∧
    (cliAll { requested := true, callback := true } ps').map Prod.snd = some [.accepted, .accepted, .accepted] :=
  ⟨[[1, 3, 0, 0, 0xd9], [0x21, 1, 5]], [[1, 3, 0, 0, 0xd9, 0x21, 1, 5]], rfl, by decide +kernel, by decide +kernel⟩

/-- **C79, violated.** A client without a file writes the contents of a response to a file that is not there: undefined behavior. -/
theorem C79_file_violated : cliAll { requested := true, callback := true, file := false } [[1, 3, 0, 0, 0xdb, 0, 1, 7]] = none := by decide +kernel

end Picoquic.Props
