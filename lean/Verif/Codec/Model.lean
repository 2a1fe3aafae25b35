import Verif.Buffer.Model

/-! # Encoding a response: src/encode.c, src/response.c:629-716, src/worker.c:1072-1174

zlib and brotli are machines with a state; what the model assumes of them is in `Spec`.  `lseek` does not fail.  The way of
encoding that takes its input from the chunks of a buffer (`FLY_DE_ENCODE` without `target_already_alloc`) is used by no
caller and left out. -/

namespace Fly.Codec
open Fly.Buffer (Buf)

/-- Results of `deflate()`: `Z_OK`, `Z_STREAM_END`, `Z_BUF_ERROR`, any other. -/
inductive ZStatus where
  | ok | streamEnd | bufError | other
  deriving DecidableEq, Repr

/-- What a call of the library did: how many bytes of input it took and what it wrote. -/
structure ZRes (σ : Type) where
  status : ZStatus
  state : σ
  consumed : Nat
  out : Bytes

/-- zlib: the state after `deflateInit2` (src/encode.c:217) or `deflateInit` (652), and `deflate(strm, flush)` with
`flush` `Z_FINISH` (`true`) or `Z_NO_FLUSH`, the input `next_in`/`avail_in` and the room `avail_out`. -/
structure Zlib where
  State : Type
  start : State
  deflate : State → Bool → Bytes → Nat → ZRes State

/-- brotli: `BrotliEncoderCompressStream(state, op, …)` with `op` `BROTLI_OPERATION_FINISH` (`true`) or
`BROTLI_OPERATION_PROCESS`, and `BrotliEncoderIsFinished` (src/encode.c:488-499). -/
structure BRes (σ : Type) where
  ok : Bool
  state : σ
  consumed : Nat
  out : Bytes

structure Brotli where
  State : Type
  start : State
  compress : State → Bool → Bytes → Nat → BRes State
  finished : State → Bool

/-- What is encoded: the body made by a handler (`already_ptr`, `target_already_alloc`; src/response.c:643-647) or an open
file from `offset` on (`FLY_DE_FROM_PATH`, 630-642).  `readOk k`: the `k`-th `read` does not fail.  A `read` that does not
fail returns as many bytes as it can. -/
inductive Src where
  | body (b : Bytes)
  | file (f : Bytes) (offset : Nat) (readOk : Nat → Bool)

/-- The variables of an encoder: the library, `next_in`/`avail_in`, `flush` or `op`, the position in the file and the number
of reads, `de->encbuf`, how far `next_out` is beyond `fly_buffer_lunuse_ptr(de->encbuf)`, `contlen`, `de->decbuf`. -/
structure Enc (σ : Type) where
  lib : σ
  inp : Bytes
  finish : Bool
  pos : Nat
  reads : Nat
  enc : Buf
  off : Nat
  contlen : Nat
  dec : Option Buf

/-- `fly_buf_act_len(fly_buffer_last_chain(b))`, src/buffer.h:84-88, 127. -/
def actLen (b : Buf) : Nat :=
  match b.chunks.getLast? with
  | none => 0
  | some c => c.store.length - c.useOff

/-- `fly_buf_act_len(fly_buffer_first_chain(b))`, src/buffer.h:78-82, 127. -/
def firstLen (b : Buf) : Nat :=
  match b.chunks.head? with
  | none => 0
  | some c => c.store.length - c.useOff

/-- `fly_buffer_luse_len`, src/buffer.h:114-118, for a buffer nothing was released from. -/
def luseLen (b : Buf) : Nat :=
  match b.chunks.getLast? with
  | none => 0
  | some c => c.filled

/-- `avail_out` -/
def Enc.room {σ : Type} (s : Enc σ) : Nat := Buffer.room s.enc - s.off

/-- The library writes `bs` at `next_out`, `off` bytes beyond the used part of the last chunk. -/
def poke (b : Buf) (off : Nat) (bs : Bytes) : Buf :=
  match b.chunks.getLast? with
  | none => b
  | some c => { b with chunks := Buffer.setLast b.chunks { c with store := Buffer.writeAt c.store (c.filled + off) bs } }

/-- The effect of a call of the library on the variables. -/
def Enc.absorb {σ : Type} (s : Enc σ) (lib : σ) (consumed : Nat) (out : Bytes) : Enc σ :=
  { s with lib := lib, inp := s.inp.drop consumed, enc := poke s.enc s.off out, off := s.off + out.length }

/-- `fly_update_buffer(b, n) == -1`: never true, whatever the result (`FLY_BUF_ADD_CHAIN_LIMIT` is 0). -/
def account (mem : Nat → Bytes) (b : Buf) (n : Nat) : Buf :=
  match Buffer.updateBuffer mem b n with
  | none => b
  | some (.success b') => b'
  | some (.limit b') => b'

/-- More room for the output: src/encode.c:276-284 (gzip), 503-511 (brotli). -/
def Enc.next {σ : Type} (mem : Nat → Bytes) (s : Enc σ) : Enc σ :=
  { s with contlen := s.contlen + actLen s.enc, enc := account mem s.enc (actLen s.enc), off := 0 }

/-- Result of an encoder: `de->encbuf` and `de->contlen` with `FLY_ENCODE_SUCCESS`, `FLY_ENCODE_BUFFER_ERROR`,
`FLY_ENCODE_ERROR`; a null pointer dereferenced; not ended. -/
inductive Res where
  | success (b : Buf) (contlen : Nat)
  | bufferError
  | error
  | crash
  | running
  deriving DecidableEq, Repr

/-- The end: src/encode.c:287-297 (gzip), 514-524 (brotli), 717-727 (deflate). -/
def Enc.done {σ : Type} (mem : Nat → Bytes) (s : Enc σ) : Res :=
  .success (account mem s.enc s.off) (s.contlen + s.off)

/-- What an iteration of a loop does. -/
inductive Iter (σ : Type) where
  | stop (r : Res)
  | again (s : Enc σ)

/-- Taking more input when there is none left; `small` is the number of bytes below which what `read` returned is the end
of the file.  `none`: `read` failed. -/
def Enc.refill {σ : Type} (s : Enc σ) (src : Src) (small : Nat) : Option (Enc σ) :=
  match src with
  | .body b => some { s with inp := b, finish := true }
  | .file f _ ok =>
    if ok s.reads then
      let d := (f.drop s.pos).take ((s.dec.map firstLen).getD 0)
      some { s with inp := d, pos := s.pos + d.length, reads := s.reads + 1, finish := decide (d.length < small) }
    else none

/-- src/encode.c:233-260: the input of `fly_gzip_encode`. -/
def gzipInput {σ : Type} (src : Src) (s : Enc σ) : Option (Enc σ) :=
  if !s.finish && s.inp.isEmpty then s.refill src ((s.dec.map firstLen).getD 0) else some s

/-- One iteration of the loop of `fly_gzip_encode`, src/encode.c:232-285. -/
def gzipIter (z : Zlib) (mem : Nat → Bytes) (src : Src) (s : Enc z.State) : Iter z.State :=
  match gzipInput src s with
  | none => .stop .error
  | some s =>
    let r := z.deflate s.lib s.finish s.inp s.room
    match r.status with
    | .streamEnd => .stop ((s.absorb r.state r.consumed r.out).done mem)
    | .bufError => .stop .bufferError
    | .other => .stop .error
    | .ok =>
      let s := s.absorb r.state r.consumed r.out
      if s.room = 0 then .again (s.next mem) else .again s

/-- src/encode.c:661-692: the input of `fly_deflate_encode`; the last piece of a file is one shorter than what is used of
the last chunk of `decbuf`. -/
def deflateInput {σ : Type} (src : Src) (s : Enc σ) : Option (Enc σ) :=
  if !s.finish && s.inp.isEmpty then s.refill src ((s.dec.map luseLen).getD 0) else some s

/-- src/encode.c:706-714: the chunk of `decbuf` is marked as used; the output goes to the same place again.  `none`:
`decbuf` is a null pointer. -/
def Enc.nextDeflate {σ : Type} (mem : Nat → Bytes) (s : Enc σ) : Option (Enc σ) :=
  match s.dec with
  | none => none
  | some d => some { s with contlen := s.contlen + actLen s.enc, dec := some (account mem d (actLen d)), off := 0 }

/-- One iteration of the loop of `fly_deflate_encode`, src/encode.c:660-715. -/
def deflateIter (z : Zlib) (mem : Nat → Bytes) (src : Src) (s : Enc z.State) : Iter z.State :=
  match deflateInput src s with
  | none => .stop .error
  | some s =>
    let r := z.deflate s.lib s.finish s.inp s.room
    match r.status with
    | .streamEnd => .stop ((s.absorb r.state r.consumed r.out).done mem)
    | .bufError => .stop .bufferError
    | .other => .stop .error
    | .ok =>
      let s := s.absorb r.state r.consumed r.out
      if s.room = 0 then
        match s.nextDeflate mem with
        | none => .stop .crash
        | some s => .again s
      else .again s

/-- src/encode.c:455-487: the input of `fly_br_encode`. -/
def brInput {σ : Type} (src : Src) (s : Enc σ) : Option (Enc σ) :=
  if s.inp.isEmpty then s.refill src ((s.dec.map firstLen).getD 0) else some s

/-- One iteration of the loop of `fly_br_encode`, src/encode.c:454-512, with the test of the next one. -/
def brIter (br : Brotli) (mem : Nat → Bytes) (src : Src) (s : Enc br.State) : Iter br.State :=
  match brInput src s with
  | none => .stop .error
  | some s =>
    let r := br.compress s.lib s.finish s.inp s.room
    if !r.ok then .stop .error
    else
      let s := s.absorb r.state r.consumed r.out
      if br.finished r.state then .stop (s.done mem)
      else
        let s := if s.room = 0 then s.next mem else s
        if s.finish then .stop (s.done mem) else .again s

/-- A loop that is followed for `fuel` iterations. -/
def loop {σ : Type} (it : Enc σ → Iter σ) : Nat → Enc σ → Res
  | 0, _ => .running
  | fuel + 1, s =>
    match it s with
    | .stop r => r
    | .again s => loop it fuel s

/-- The variables before the loop, src/encode.c:222-231, 442-453, 655-659: the output begins at the first chunk of `encbuf`,
which is new. -/
def begin {σ : Type} (lib : σ) (src : Src) (enc : Buf) (dec : Option Buf) : Enc σ :=
  { lib := lib, inp := [], finish := false, pos := (match src with | .body _ => 0 | .file _ o _ => o), reads := 0,
    enc := enc, off := 0, contlen := 0, dec := dec }

/-- `fly_gzip_encode`, src/encode.c:191-316. -/
def gzipEncode (z : Zlib) (mem : Nat → Bytes) (src : Src) (enc : Buf) (dec : Option Buf) (fuel : Nat) : Res :=
  loop (gzipIter z mem src) fuel (begin z.start src enc dec)

/-- `fly_deflate_encode`, src/encode.c:624-746. -/
def deflateEncode (z : Zlib) (mem : Nat → Bytes) (src : Src) (enc : Buf) (dec : Option Buf) (fuel : Nat) : Res :=
  loop (deflateIter z mem src) fuel (begin z.start src enc dec)

/-- `fly_br_encode`, src/encode.c:416-534. -/
def brEncode (br : Brotli) (mem : Nat → Bytes) (src : Src) (enc : Buf) (dec : Option Buf) (fuel : Nat) : Res :=
  loop (brIter br mem src) fuel (begin br.start src enc dec)

/-! ## The callers -/

/-- `FLY_RESPONSE_ENCBUF_PER_LEN` and the others, src/response.h:231-237, src/worker.h:47-53. -/
def perLen : Nat := 4096

/-- `FLY_RESPONSE_ENCBUF_CHAIN_MAX`, src/response.h:237; `max` is the configured `FLY_MAX_RESPONSE_CONTENT_LENGTH`. -/
def chainMax (max : Nat) : Nat := max / perLen + 1

/-- The `decbuf` made by the callers: one chunk for files, none for the body of a handler (src/response.c:630-647). -/
def decbuf (mem : Nat → Bytes) : Src → Option Buf
  | .body _ => none
  | .file _ _ _ => Buffer.init mem 1 1 perLen

/-- What happens to a response: the encoded content and the value of `Content-Length` (src/response.c:711-719), an error
status instead (665-709), the end of the process, no end. -/
inductive Answer where
  | content (c : Bytes) (contentLength : Nat)
  | status (n : Nat)
  | crash
  | running
  deriving DecidableEq, Repr

/-- The bytes of a buffer that are used. -/
def bytes (b : Buf) : Bytes := (b.chunks.map fun c => (c.store.take c.filled).drop c.useOff).flatten

/-- src/response.c:665-716 for a given encoder. -/
def answer (run : Buf → Res) (mem : Nat → Bytes) (max : Nat) : Answer :=
  match Buffer.init mem 1 (chainMax max) perLen with
  | none => .crash
  | some enc =>
    match run enc with
    | .success b n => .content (bytes b) n
    | .bufferError => .status 413
    | .error => .status 500
    | .crash => .crash
    | .running => .running

/-- A response encoded with gzip. -/
def respondGzip (z : Zlib) (mem : Nat → Bytes) (max : Nat) (src : Src) (fuel : Nat) : Answer :=
  answer (fun enc => gzipEncode z mem src enc (decbuf mem src) fuel) mem max

/-- A response encoded with deflate. -/
def respondDeflate (z : Zlib) (mem : Nat → Bytes) (max : Nat) (src : Src) (fuel : Nat) : Answer :=
  answer (fun enc => deflateEncode z mem src enc (decbuf mem src) fuel) mem max

/-- A response encoded with brotli. -/
def respondBr (br : Brotli) (mem : Nat → Bytes) (max : Nat) (src : Src) (fuel : Nat) : Answer :=
  answer (fun enc => brEncode br mem src enc (decbuf mem src) fuel) mem max

/-- A file encoded before it is asked for, `fly_preencode_pf` (src/worker.c:1072-1123) for a file of at least the threshold:
`none` is the failure of the scan, `some none` a file that is only answered 413 (`overflow`, src/response.c:712-713), otherwise
the stored encoding and its length.  `size` is `st_size`. -/
def preencode (run : Buf → Res) (mem : Nat → Bytes) (max size : Nat) : Option (Option (Bytes × Nat)) :=
  if max < size then some none
  else
    match answer run mem max with
    | .content c n => some (some (c, n))
    | .status 413 => some none
    | _ => none

end Fly.Codec
