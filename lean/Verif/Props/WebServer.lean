import Verif.Proof.WebServer
import Verif.Props.WebPath

/-!
# C95: the response to a GET request has the body asked for, and the length it announces
-/

namespace Picoquic.Props
open Picoquic.Spec Picoquic.WebServer Picoquic.Uri

/-- **C84.** The check of a path accepts exactly the clean ones. -/
theorem C84_clean (path : Bytes) : sane path = true ↔ ∃ q, path = 47 :: q ∧ CleanRest q := sane_iff path

/-- `/css/main-1.css` is accepted; `/../key.pem` and `/a/..` are not. -/
example : sane [47, 99, 115, 115, 47, 109, 97, 105, 110, 45, 49, 46, 99, 115, 115] = true ∧
    sane [47, 46, 46, 47, 107, 101, 121, 46, 112, 101, 109] = false ∧ sane [47, 97, 47, 46, 46] = false := by decide

/-- The sizes of the files. -/
def sizes (fs : Bytes → Option Bytes) (n : Bytes) : Option Nat := (fs n).map List.length

/-- **There is a response.** With headers of at most 500 bytes and a default page of at most 512, each request is
answered; and a path that is not found is answered with the headers that say so, and the end of the stream. -/
theorem C95_answered (folder : Option Bytes) (fs : Bytes → Option Bytes) (notFound ok page path : Bytes)
    (h1 : notFound.length ≤ 500) (h2 : ok.length ≤ 500) (h3 : page.length ≤ 512) :
    ∃ r, replyGet folder fs notFound ok page path = some r ∧
      (parsePath (sizes fs) folder path = .notFound →
        r.fin = true ∧ r.echo = 0 ∧ H3Stream [⟨1, notFound⟩] r.first) := by
  unfold replyGet
  have hs : (fun n => (fs n).map List.length) = sizes fs := rfl
  rw [hs]
  cases hp : parsePath (sizes fs) folder path with
  | overflow => exact absurd hp (C84_no_overflow _ _ _)
  | notFound =>
    dsimp only
    rw [if_neg (show ¬ 3 + notFound.length > BUFFER by unfold BUFFER; omega)]
    exact ⟨_, rfl, fun _ => ⟨rfl, rfl, h3Stream_one (headersFrame_bytes _ (by omega))⟩⟩
  | file name size =>
    obtain ⟨r, hr⟩ := found_some ok page size (some name) h2 h3
    exact ⟨r, hr, fun h => (by cases h)⟩
  | bytes n =>
    obtain ⟨r, hr⟩ := found_some ok page n none h2 h3
    exact ⟨r, hr, fun h => (by cases h)⟩

/-- The body that a response must have: the content of the file, the number of bytes that was asked for (all `0x5A`),
or the default page if the path asks for the index and there is no file for it. -/
inductive RightBody (fs : Bytes → Option Bytes) (page : Bytes) : Target → Bytes → Prop
  | file (name content : Bytes) (h : fs name = some content) : RightBody fs page (.file name content.length) content
  | bytes (n : Nat) (h : 0 < n) : RightBody fs page (.bytes n) (List.replicate n 0x5A)
  | page : RightBody fs page (.bytes 0) page

/-- **The response is as long as it says.** When a path is found, the stream carries one HEADERS frame and one DATA
frame, with the right body. Whatever room the sender has in each call, what is sent is a first part of it, and the
stream is ended exactly when all was sent. The file is supposed not to change in between, and to be below 2^62 bytes. -/
theorem C95_response (folder : Option Bytes) (fs : Bytes → Option Bytes) (notFound ok page path : Bytes) (r : Reply)
    (t : Target) (h1 : 0 < page.length) (h2 : page.length ≤ 512)
    (hsize : ∀ n c, fs n = some c → c.length < 2 ^ 62)
    (hp : parsePath (sizes fs) folder path = t) (ht : t ≠ .notFound)
    (h : replyGet folder fs notFound ok page path = some r) :
    ∃ body, RightBody fs page t body ∧
      ((r.fin = true ∧ H3Stream [⟨1, ok⟩, ⟨0, body⟩] r.first) ∨
       (r.fin = false ∧ H3Stream [⟨1, ok⟩, ⟨0, body⟩] (r.first ++ body) ∧
        ∀ spaces, ∃ sent fin, sendBody r.echo (r.file.bind fs) 0 spaces = some (sent, fin) ∧ sent <+: body ∧
          (fin = true ↔ sent = body))) := by
  have key : ∀ (echo : Nat) (file : Option Bytes) (body : Bytes), found ok page echo file = some r → 0 < echo →
      echo < 2 ^ 62 → body = bodyOf echo (file.bind fs) → body.length = echo →
      (r.fin = false ∧ H3Stream [⟨1, ok⟩, ⟨0, body⟩] (r.first ++ body) ∧
        ∀ spaces, ∃ sent fin, sendBody r.echo (r.file.bind fs) 0 spaces = some (sent, fin) ∧ sent <+: body ∧
          (fin = true ↔ sent = body)) := by
    intro echo file body hf hpos hlt hb hlen
    obtain ⟨hok, hecho, hfile, l, room, hne, hl, hfin, hfirst⟩ := found_ok h1 h2 hf
    have he : ¬ echo = 0 := by omega
    rw [if_neg he] at hl hfirst
    rw [List.append_nil] at hfirst
    refine ⟨by rw [hfin]; simpa using he, ?_, ?_⟩
    · rw [hfirst, List.append_assoc, List.cons_append]
      exact h3Stream_two (headersFrame_bytes _ hok) (dataFrame_bytes _ _ _ room hlen hlt hl hne)
    · intro spaces
      rw [hecho, hfile]
      obtain ⟨b, fin, hs, hpre, hf⟩ := sendBody_spec echo (file.bind fs) (hb ▸ hlen) spaces 0 hpos
      rw [List.drop_zero, ← hb] at hpre hf
      exact ⟨b, fin, hs, hpre, hf⟩
  unfold replyGet at h
  have hs : (fun n => (fs n).map List.length) = sizes fs := rfl
  rw [hs, hp] at h
  cases t with
  | overflow => cases h
  | notFound => exact absurd rfl ht
  | file name size =>
    obtain ⟨f, p, _, _, _, _, _, hfs, hpos⟩ := parsePath_file _ _ _ _ _ hp
    unfold sizes at hfs
    cases hc : fs name with
    | none => rw [hc] at hfs; cases hfs
    | some c =>
      rw [hc] at hfs
      injection hfs with hfs
      have hlen : c.length = size := hfs
      subst hlen
      refine ⟨c, RightBody.file name c hc, Or.inr ?_⟩
      exact key c.length (some name) c h hpos (hsize name c hc) (by simp [bodyOf, hc]) rfl
  | bytes n =>
    by_cases h0 : n = 0
    · subst h0
      obtain ⟨hok, _, _, l, room, hne, hl, hfin, hfirst⟩ := found_ok h1 h2 h
      rw [if_pos rfl] at hl hfirst
      refine ⟨page, RightBody.page, Or.inl ⟨by rw [hfin]; rfl, ?_⟩⟩
      rw [hfirst]
      exact h3Stream_two (headersFrame_bytes _ hok) (dataFrame_bytes _ _ _ room rfl (by omega) hl hne)
    · refine ⟨_, RightBody.bytes n (by omega), Or.inr ?_⟩
      exact key n none _ h (by omega) (bytes_small hp) rfl (by simp)

/-- Seven bytes are asked for and sent in three calls with room for 3, 3 and 10. -/
example : ∃ r, replyGet none (fun _ => none) [1] [2, 2] [65] [47, 55] = some r ∧
    r.first = [1, 64, 2, 2, 2, 0, 7] ∧ sendBody r.echo (r.file.bind (fun _ => none)) 0 [3, 3, 10] =
      some ([90, 90, 90, 90, 90, 90, 90], true) := ⟨_, rfl, by decide, by decide⟩

/-- **Zero bytes.** `/0` is not answered with zero bytes, but with the default page. -/
theorem C95_zero_violated (folder : Option Bytes) (fs : Bytes → Option Bytes) (hfs : ∀ n, fs n = none)
    (ok page notFound : Bytes) (h1 : 0 < page.length) (h2 : page.length ≤ 512) (r : Reply)
    (h : replyGet folder fs notFound ok page [47, 48] = some r) :
    r.fin = true ∧ H3Stream [⟨1, ok⟩, ⟨0, page⟩] r.first := by
  have hp : parsePath (sizes fs) folder [47, 48] = .bytes 0 :=
    C84_number_partial (sizes fs) folder [48] (by simp) (by decide) (by decide) (fun n => by simp [sizes, hfs])
  obtain ⟨body, hb, hr⟩ := C95_response folder fs notFound ok page [47, 48] r _ h1 h2
    (fun n c hc => by rw [hfs] at hc; cases hc) hp (by simp) h
  cases hb with
  | bytes _ h0 => omega
  | page =>
    rcases hr with hr | ⟨hr, hs, hsend⟩
    · exact hr
    · unfold replyGet at h
      have hs : (fun n => (fs n).map List.length) = sizes fs := rfl
      rw [hs, hp] at h
      obtain ⟨_, _, _, _, _, _, _, hfin, _⟩ := found_ok h1 h2 h
      rw [hfin] at hr
      cases hr

/-- **A file that shrinks.** If the file has become shorter than announced, the sender gets an error, not other bytes:
in each call either all bytes are from the file, at their place, or there is an error. -/
theorem C95_shrunk (echo sent space : Nat) (c : Bytes) (hs : sent < echo) :
    (min (echo - sent) space ≤ c.length - sent →
      prepare echo sent (some c) space = some ((c.drop sent).take (min (echo - sent) space),
        decide (echo - sent ≤ space), sent + min (echo - sent) space)) ∧
    (¬ min (echo - sent) space ≤ c.length - sent → prepare echo sent (some c) space = none) := by
  have ha : (if echo - sent > space then space else echo - sent) = min (echo - sent) space := by
    split <;> omega
  unfold prepare
  rw [if_pos hs]
  dsimp only
  rw [ha]
  have hlen : ((c.drop sent).take (min (echo - sent) space)).length = min (min (echo - sent) space) (c.length - sent) := by
    rw [List.length_take, List.length_drop]
  constructor
  · intro h
    rw [if_neg (by omega)]
    simp only [gt_iff_lt, Nat.not_lt]
  · intro h
    rw [if_pos (by omega)]

example : prepare 10 4 (some [1, 2, 3, 4, 5]) 3 = none ∧ prepare 10 4 (some [1, 2, 3, 4, 5]) 1 = some ([5], false, 5) := by
  decide

end Picoquic.Props
