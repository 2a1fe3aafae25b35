import Verif.Send.Model
import Verif.Response.Model

/-! # Bodies of HTTP/2 responses: what is announced and what is sent, src/v2.c:2557-2874, 5065-5280

The header list itself is in Hpack and Header; of the fields only the last value given to `content-length` and the
`content-encoding` are kept here.  Window sizes and frame sizes are in Send. -/

namespace Fly.H2B

open Send (Sys)
open Response (File Coding Accepts identity)

/-! ## Preparation -/

/-- `res->type` with what it sends. -/
inductive Kind where
  /-- `FLY_RESPONSE_TYPE_BODY`; `none` is the null pointer of a response without body -/
  | body (b : Option Bytes)
  | encoded (enc : Bytes)
  /-- `FLY_RESPONSE_TYPE_PATH_FILE`, a file that had this content when it was mounted -/
  | file (content : Bytes)
  /-- `FLY_RESPONSE_TYPE_DEFAULT`, the content configured for a status -/
  | default (content : Bytes)
  | noContent
  deriving DecidableEq, Repr

/-- A prepared response: type, `response_len`, the value of `content-length`, the coding announced. -/
structure Plan where
  kind : Kind
  len : Nat
  contentLength : Nat
  coding : Option Coding
  deriving DecidableEq, Repr

inductive Prepared where
  | ready (p : Plan)
  /-- replaced by a 413 response -/
  | tooLarge
  deriving DecidableEq, Repr

/-- What is known before the negotiation, src/v2.c:5120-5153. -/
structure Source where
  kind : Kind
  len : Nat
  orig : Nat
  /-- `res->encoding_type` and `res->de` if there is a stored encoding -/
  pre : Option (Coding × Bytes)
  /-- what the encoder reads -/
  raw : Bytes
  hasContent : Bool

/-- src/v2.c:5120-5153: a body goes before a file, a file before the default content. -/
def source (body : Option Bytes) (pf rcbs : Option File) : Source :=
  match body, pf, rcbs with
  | some b, _, _ => ⟨.body (some b), b.length, 0, none, b, true⟩
  | none, some ⟨c, some (k, e)⟩, _ => ⟨.encoded e, e.length, c.length, some (k, e), c, true⟩
  | none, some ⟨c, none⟩, _ => ⟨.file c, c.length, c.length, none, c, true⟩
  | none, none, some ⟨c, some (k, e)⟩ => ⟨.encoded e, e.length, c.length, some (k, e), c, true⟩
  | none, none, some ⟨c, none⟩ => ⟨.default c, c.length, c.length, none, c, true⟩
  | none, none, none => ⟨.noContent, 0, 0, none, [], false⟩

/-- `fly_hv2_response_event`, src/v2.c:5109-5280, before the header is sent.  `compress` is the encoder (oracle),
`overflow` tells whether its result is too long; encoder errors (500) are not modelled.  `none`: undefined. -/
def prepare (compress : Coding → Bytes → Bytes) (overflow : Bytes → Bool) (threshold : Nat) (acc : Accepts) (dontEncode : Bool)
    (body : Option Bytes) (pf rcbs : Option File) : Option Prepared :=
  let s := source body pf rcbs
  -- 5156-5160
  if dontEncode then some (.ready ⟨s.kind, s.len, s.len, none⟩)
  else
    -- 5162-5166
    let stay := match s.pre with | some (k, _) => acc.matching k | none => false
    let len := if s.pre.isSome && !stay then s.orig else s.len
    -- 5168-5174
    let coding := if stay then s.pre.map (·.1) else if threshold ≤ len then acc.decided else none
    -- 5177-5271
    match (if stay then none else coding) with
    | some c =>
      if c = identity then some (.ready ⟨.body body, len, len, coding⟩)
      else if !s.hasContent then none
      else
        let enc := compress c s.raw
        if overflow enc then some .tooLarge
        else some (.ready ⟨.encoded enc, enc.length, enc.length, coding⟩)
    | none =>
      -- 5274-5280
      some (.ready ⟨s.kind, len, (match s.pre with | some (_, e) => e.length | none => len), coding⟩)

/-! ## Sending -/

inductive Status where
  /-- everything sent -/
  | done
  /-- waiting for the connection -/
  | more
  /-- the connection is given up -/
  | gone
  /-- the worker process ends (`fly_error_error`, src/err.c:539-548) -/
  | fatal
  /-- the worker never leaves the loop -/
  | spin
  /-- more bytes are written to the stack buffer than it has -/
  | overrun
  | undef
  deriving DecidableEq, Repr

/-- What went out as payload of the DATA frame, and how the sender stands. -/
structure Run where
  out : Bytes
  st : Status
  deriving DecidableEq, Repr

def Run.after (pre : Bytes) (r : Run) : Run := ⟨pre ++ r.out, r.st⟩

/-- `FLY_SEND_BUF_LENGTH`, src/context.h:54. -/
def bufLen : Nat := 4096

/-- `res->count-total<FLY_SEND_BUF_LENGTH ? FLY_SEND_BUF_LENGTH : res->count-total`, src/v2.c:2738, 2803, on `size_t`. -/
def readSize (count total : Nat) : Nat :=
  let rest := (count + 18446744073709551616 - total) % 18446744073709551616
  if rest < bufLen then bufLen else rest

/-- A file over TLS, src/v2.c:2722-2785: `read` at `offset + total` (the offset stays 0), then `SSL_write`.  `disk` is the file as it
is now.  Failures of `SSL_write` give up the connection or end with -1 (both `gone`). -/
def fileTls (disk : Bytes) (count : Nat) : Nat → List Sys → Run
  | total, [] => ⟨[], if count ≤ total then .done else .more⟩
  | total, s :: ss =>
    if count ≤ total then ⟨[], .done⟩
    else
      let data := (disk.drop total).take (readSize count total)
      if bufLen < data.length then ⟨[], .overrun⟩
      else if data = [] then ⟨[], .undef⟩
      else
        match s with
        | .block => fileTls disk count total ss
        | .intr => ⟨[], .gone⟩
        | .fail => ⟨[], .gone⟩
        | .sent n => (fileTls disk count (total + (data.take n).length) ss).after (data.take n)

/-- A file without TLS, src/v2.c:2722-2785: `sendfile` (src/util.c:106-110) moves the offset.  A result of 0 (end of the file) leaves
`total` as it is.  Every error but EAGAIN ends the process, also a closed connection. -/
def filePlain (disk : Bytes) (count : Nat) : Nat → Nat → List Sys → Run
  | total, _, [] => ⟨[], if count ≤ total then .done else .more⟩
  | total, off, s :: ss =>
    if count ≤ total then ⟨[], .done⟩
    else
      let data := (disk.drop off).take (count - total)
      match s with
      | .block => filePlain disk count total off ss
      | .intr => ⟨[], .fatal⟩
      | .fail => ⟨[], .fatal⟩
      | .sent n =>
        if data = [] then ⟨[], .spin⟩
        else
          (filePlain disk count (total + (data.take n).length) (off + (data.take n).length) ss).after (data.take n)

/-- Default content over TLS, src/v2.c:2786-2826: `res->count` is 0 (src/response.c:83), the offset moves, and the position is the offset
plus `total`, which starts again at 0 after blocking (`byte_from_start` stays 0). -/
def defaultTls (disk : Bytes) (len : Nat) : Nat → Nat → List Sys → Run
  | total, _, [] => ⟨[], if len ≤ total then .done else .more⟩
  | total, off, s :: ss =>
    if len ≤ total then ⟨[], .done⟩
    else
      let data := (disk.drop (off + total)).take (readSize 0 total)
      if bufLen < data.length then ⟨[], .overrun⟩
      else if data = [] then ⟨[], .undef⟩
      else
        match s with
        | .block => defaultTls disk len 0 off ss
        | .intr => ⟨[], .gone⟩
        | .fail => ⟨[], .gone⟩
        | .sent n => (defaultTls disk len (total + (data.take n).length) (off + (data.take n).length) ss).after (data.take n)

/-- Default content without TLS, src/v2.c:2827-2849: the first `sendfile` is asked for `res->count - 0 = 0` bytes. -/
def defaultPlain (len : Nat) : List Sys → Run
  | [] => ⟨[], if len = 0 then .done else .more⟩
  | s :: ss =>
    if len = 0 then ⟨[], .done⟩
    else
      match s with
      | .block => defaultPlain len ss
      | .intr => ⟨[], .fatal⟩
      | .fail => ⟨[], .fatal⟩
      | .sent _ => ⟨[], .spin⟩

/-- Encoded content, src/v2.c:2601-2666, chunk borders left out (a call takes part of a chunk).  After EINTR without TLS the position is
moved by -1 (2610, 2642). -/
def encodedRun (tls : Bool) (enc : Bytes) : Nat → List Sys → Run
  | total, [] => ⟨[], if enc.length ≤ total then .done else .more⟩
  | total, s :: ss =>
    if enc.length ≤ total then ⟨[], .done⟩
    else
      let data := enc.drop total
      match s with
      | .block => encodedRun tls enc total ss
      | .intr => ⟨[], if tls then .gone else .undef⟩
      | .fail => ⟨[], .gone⟩
      | .sent n => (encodedRun tls enc (total + (data.take n).length) ss).after (data.take n)

/-- A body, src/v2.c:2667-2721. -/
def bodyRun (tls : Bool) (b : Bytes) : Nat → List Sys → Run
  | total, [] => ⟨[], if b.length ≤ total then .done else .more⟩
  | total, s :: ss =>
    if b.length ≤ total then ⟨[], .done⟩
    else
      let data := b.drop total
      match s with
      | .block => bodyRun tls b total ss
      | .intr => if tls then ⟨[], .gone⟩ else bodyRun tls b total ss
      | .fail => ⟨[], .gone⟩
      | .sent n => (bodyRun tls b (total + (data.take n).length) ss).after (data.take n)

/-- The payload of the DATA frame of `p.len` bytes (src/v2.c:2557-2600): nothing is sent if `p.len` is 0.  `disk` is the content of the file
sent, as it is now. -/
def payload (tls : Bool) (disk : Bytes) (p : Plan) (ss : List Sys) : Run :=
  if p.len = 0 then ⟨[], .done⟩
  else
    match p.kind with
    | .body none => ⟨[], .undef⟩
    | .body (some b) => bodyRun tls b 0 ss
    | .encoded e => encodedRun tls e 0 ss
    | .file c => if tls then fileTls disk c.length 0 ss else filePlain disk c.length 0 0 ss
    | .default _ => if tls then defaultTls disk p.len 0 0 ss else defaultPlain p.len ss
    | .noContent => ⟨[], .undef⟩

end Fly.H2B
