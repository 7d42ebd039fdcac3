import Verif.Model.StreamInput
import Verif.Model.Frames
import Verif.Spec.TlsStream

/-!
# The CRYPTO streams

Model of what is between TLS and the packets: `picoquic_decode_crypto_hs_frame` (frames.c 2285-2319),
`picoquic_tls_stream_process` (tls_api.c 2425-2605), `picoquic_add_to_tls_stream` (tls_api.c 2054-2092) and
`picoquic_format_crypto_hs_frame` (frames.c 2398-2450, `Frames.formatCrypto`). TLS is a parameter. The
changes of the state of the connection after a call of TLS (tls_api.c 2536-2580) are not modelled; the lists
of data are those of `StreamInput`.
-/

namespace Picoquic.TlsStream
open Picoquic.Spec Picoquic.StreamInput

/-- The four `tls_stream`: `consumed_offset`, `stream_data_tree`, `send_queue` (what remains of each item),
`sent_offset`. `error` is the code of the connection error. `fed` (what TLS was given), `wrote` (what TLS
wrote) and `sent` (the CRYPTO frames: level, offset, data) are for the statements. -/
structure Cnx (σ : Type) where
  tls : σ
  consumed : Nat → Nat := fun _ => 0
  tree : Nat → List Chunk := fun _ => []
  queue : Nat → List Bytes := fun _ => []
  sentOffset : Nat → Nat := fun _ => 0
  error : Option Nat := none
  fed : List (Nat × Bytes) := []
  wrote : List (Nat × Bytes) := []
  sent : List (Nat × Nat × Bytes) := []

/-- A function changed in one place. -/
def upd {α : Type} (f : Nat → α) (e : Nat) (v : α) : Nat → α := fun i => if i = e then v else f i

/-- `PICOQUIC_MAX_CRYPTO_BUFFER_GAP`, picoquic.h 149. -/
def GAP : Nat := 16384

/-- `PICOQUIC_TRANSPORT_CRYPTO_BUFFER_EXCEEDED`, picoquic.h 129. -/
def BUFFER_EXCEEDED : Nat := 0xD

/-- `PICOQUIC_TRANSPORT_PROTOCOL_VIOLATION`, picoquic.h 126. -/
def PROTOCOL_VIOLATION : Nat := 0xA

/-- `PICOQUIC_TRANSPORT_CRYPTO_ERROR`, picoquic.h 133: TLS failed. The alert is not modelled. -/
def TLS_FAILED : Nat := 0x100

/-- `picoquic_decode_crypto_hs_frame`, frames.c 2297-2316. -/
def decodeCrypto {σ : Type} (c : Cnx σ) (e offset : Nat) (bytes : Bytes) : Cnx σ :=
  if c.consumed e < offset ∧ c.consumed e + GAP < offset + bytes.length then
    { c with error := some BUFFER_EXCEEDED }
  else { c with tree := upd c.tree e (queueNetworkInput (c.tree e) (c.consumed e) offset bytes).1 }

/-- `picoquic_add_to_tls_stream`, tls_api.c 2054-2092: at the end of the queue of the level. -/
def addToTlsStream {σ : Type} (c : Cnx σ) (e : Nat) (data : Bytes) : Cnx σ :=
  if data.length > 0 then
    { c with queue := upd c.queue e (c.queue e ++ [data]), wrote := c.wrote ++ [(e, data)] }
  else c

/-- The loop over what TLS has written, tls_api.c 2481-2487. -/
def addAll {σ : Type} (c : Cnx σ) : List (Nat × Bytes) → Cnx σ
  | [] => c
  | p :: l => addAll (addToTlsStream c p.1 p.2) l

/-- The loop of `picoquic_tls_stream_process` on the data of a level, tls_api.c 2457-2533. The second part
of the result tells if TLS failed; `none` is a length below zero (line 2461). -/
def feed {σ : Type} (T : TlsMachine σ) (c : Cnx σ) (e : Nat) : List Chunk → Option (Cnx σ × Bool)
  | [] => some ({ c with tree := upd c.tree e [] }, false)
  | d :: ds =>
    if d.offset ≤ c.consumed e then
      if d.bytes.length < c.consumed e - d.offset then none
      else
        let data := d.bytes.drop (c.consumed e - d.offset)
        let r := T.handle c.tls e data
        let c1 : Cnx σ := { c with
          tls := r.1
          fed := c.fed ++ [(e, data)]
          consumed := upd c.consumed e (c.consumed e + data.length)
          tree := upd c.tree e ds }
        if r.2.1 then some (c1, true) else feed T (addAll c1 r.2.2) e ds
    else some ({ c with tree := upd c.tree e (d :: ds) }, false)

/-- The first data of the level are not the next ones, tls_api.c 2445. -/
def hasGap (consumed : Nat) : List Chunk → Bool
  | [] => false
  | d :: _ => decide (d.offset > consumed)

/-- The loop of `picoquic_tls_stream_process` on the levels, tls_api.c 2434-2602. -/
def processLevels {σ : Type} (T : TlsMachine σ) (c : Cnx σ) : List Nat → Option (Cnx σ)
  | [] => some c
  | e :: es =>
    if e > T.reads c.tls then some c
    else if e < T.reads c.tls then
      if hasGap (c.consumed e) (c.tree e) then some { c with error := some PROTOCOL_VIOLATION }
      else processLevels T c es
    else
      match feed T c e (c.tree e) with
      | none => none
      | some (c1, failed) =>
        processLevels T (if failed then { c1 with error := some TLS_FAILED } else c1) es

/-- `picoquic_tls_stream_process`. -/
def process {σ : Type} (T : TlsMachine σ) (c : Cnx σ) : Option (Cnx σ) := processLevels T c [0, 1, 2, 3]

/-- `picoquic_format_crypto_hs_frame` with the change of the queue, frames.c 2402-2446. -/
def sendCrypto {σ : Type} (c : Cnx σ) (e room : Nat) : Cnx σ × Bytes :=
  match c.queue e with
  | [] => (c, [])
  | q :: qs =>
    let r := Frames.formatCrypto (c.sentOffset e) q room
    if r.2 > 0 then
      ({ c with
        queue := upd c.queue e (if r.2 < q.length then q.drop r.2 :: qs else qs)
        sentOffset := upd c.sentOffset e (c.sentOffset e + r.2)
        sent := c.sent ++ [(e, c.sentOffset e, q.take r.2)] }, r.1)
    else (c, r.1)

/-- One operation. After a connection error there are none (C57, C81). -/
def step {σ : Type} (T : TlsMachine σ) (c : Cnx σ) (op : CryptoOp) : Option (Cnx σ) :=
  if c.error ≠ none then some c
  else match op with
  | .crypto e o b => some (decodeCrypto c e o b)
  | .process => process T c
  | .send e room => some (sendCrypto c e room).1

/-- A history. -/
def run {σ : Type} (T : TlsMachine σ) (c : Cnx σ) : List CryptoOp → Option (Cnx σ)
  | [] => some c
  | op :: ops => match step T c op with
    | none => none
    | some c1 => run T c1 ops

/-- A new connection. A client has the first message of TLS in the queue, tls_api.c 2208-2215. -/
def init {σ : Type} (tls : σ) (hello : Bytes) : Cnx σ := addToTlsStream { tls := tls } 0 hello

end Picoquic.TlsStream
