import Verif.H2Trip.Model
import Verif.Trip.Spec
import Verif.Hpack.Spec
import Verif.Hpack.Props
import Verif.H2Request.Spec
import Verif.H2Body.Spec
import Verif.Nego.Spec

/-! # What the client and the application see of each other over HTTP/2 -/

namespace Fly.H2Trip
open Trip (App Each Chosen Unserved WrittenPath Outcome CfgOk coding coded)
open Req (Method queryText)
open Header (Pairs)
open Hpack (Rep rfcBlock Entry)
open PyReq (PyRequest)
open PyBridge (Reads statuses contentTypes missing Cfg build)
open H2R (WellFormed PlainPath PlainQuery)
open Send (Sys)

/-! ## The client -/

/-- A frame as the client reads it (RFC 9113 4.1). -/
structure Frame where
  type : Nat
  flags : Nat
  sid : Nat
  payload : Bytes
  deriving DecidableEq, Repr

/-- The client reads one frame: 24 bits of length, type, flags, a reserved bit and 31 bits of stream identifier, payload.  It refuses frames larger than it allowed. -/
def readFrame (maxFrame : Nat) : Bytes → Option (Frame × Bytes)
  | l2 :: l1 :: l0 :: t :: fl :: s3 :: s2 :: s1 :: s0 :: rest =>
    let len := l2 * 65536 + l1 * 256 + l0
    if maxFrame < len ∨ rest.length < len then none
    else some (⟨t, fl, (s3 % 128) * 16777216 + s2 * 65536 + s1 * 256 + s0, rest.take len⟩, rest.drop len)
  | _ => none

def readFrames (maxFrame : Nat) : Nat → Bytes → Option (List Frame)
  | _, [] => some []
  | 0, _ :: _ => none
  | n + 1, b :: bs =>
    match readFrame maxFrame (b :: bs) with
    | none => none
    | some (f, rest) => (readFrames maxFrame n rest).map (f :: ·)

/-- Flags (RFC 9113 6.1, 6.2). -/
def Frame.endStream (f : Frame) : Bool := f.flags % 2 == 1
def Frame.endHeaders (f : Frame) : Bool := f.flags / 4 % 2 == 1
/-- Neither padded nor with priority. -/
def Frame.bare (f : Frame) : Bool := f.flags / 8 % 2 == 0 && f.flags / 32 % 2 == 0

/-- The content: DATA frames, the last and only the last with END_STREAM. -/
def content (sid : Nat) : List Frame → Option Bytes
  | [] => none
  | [f] => if f.type == 0 && f.sid == sid && f.bare && f.endStream then some f.payload else none
  | f :: fs => if f.type == 0 && f.sid == sid && f.bare && !f.endStream then (content sid fs).map (f.payload ++ ·) else none

/-- What follows the first header frame: CONTINUATION frames until END_HEADERS, then the content unless the stream has ended. -/
def continued (sid : Nat) (fin : Bool) (block : Bytes) : Bool → List Frame → Option (Bytes × Bytes)
  | true, fs => if fin then (if fs = [] then some (block, []) else none) else (content sid fs).map fun c => (block, c)
  | false, [] => none
  | false, f :: fs => if f.type == 9 && f.sid == sid then continued sid fin (block ++ f.payload) f.endHeaders fs else none

/-- A whole response on a stream: header block and content.  `none`: not (yet) a whole response, or not one at all. -/
def message (maxFrame sid : Nat) (bs : Bytes) : Option (Bytes × Bytes) :=
  match readFrames maxFrame bs.length bs with
  | some (f :: fs) => if f.type == 1 && f.sid == sid && f.bare then continued sid f.endStream f.payload f.endHeaders fs else none
  | _ => none

/-- The client reads a response with these header fields and this content, whatever fields it has in its table. -/
def Shows (maxFrame sid : Nat) (bs : Bytes) (fields : Pairs) (body : Bytes) : Prop :=
  ∃ block, message maxFrame sid bs = some (block, body) ∧
    ∀ limit t, ∃ rs tab, block = rs.flatMap Rep.wire ∧ rfcBlock limit t rs = some (fields, tab)

/-! ## The request -/

/-- A request: `fields` are all its header fields in the order sent, those with a colon included. -/
structure Ask where
  method : Method
  path : Bytes
  query : Option Bytes
  fields : Pairs
  body : Option Bytes

/-- A text in ASCII that can be a C string. -/
def Ascii (s : Bytes) : Prop := ∀ c ∈ s, c < 128 ∧ c ≠ 0

/-- The name of a header field: not empty, in ASCII, in lower case (RFC 9113 8.2.1). -/
def LowerName (n : Bytes) : Prop := n ≠ [] ∧ Ascii n ∧ ∀ c ∈ n, ¬ (65 ≤ c ∧ c ≤ 90)

/-- A well-formed request without content coding and form. -/
structure Ask.Sound (q : Ask) : Prop where
  wellFormed : WellFormed q.fields q.method true (q.path ++ queryText q.query)
  path : PlainPath q.path
  query : PlainQuery q.query
  names : ∀ p ∈ q.fields, LowerName p.1 ∧ Ascii p.2
  noCoding : ∀ p ∈ q.fields, p.1 ≠ b!"content-encoding"
  known : ∀ p ∈ q.fields, p.1 = b!"content-type" → ∃ t ∈ contentTypes, t ≠ b!"multipart/form-data" ∧ t <+: p.2

/-- Such a request whose client does not refuse every form of the response. -/
structure Ask.Good (q : Ask) : Prop extends q.Sound where
  agreeable : Nego.Agreeable q.fields

/-- The header block of the request, as it is with the server, is a correct one for these fields (RFC 7541), of any representations with a name or index that the server understands
(see C60), after requests that have left the entries `tab` in the client's table; it leaves `tab'`. -/
def Decodes (limit : Nat) (tab tab' : List Entry) (i : Incoming) (fields : Pairs) : Prop :=
  Buffer.NE i.block ∧
    ∃ rs rest, i.block.flat = rs.flatMap Rep.wire ++ rest ∧ rest ≠ [] ∧ i.len = (rs.flatMap Rep.wire).length ∧ rfcBlock limit tab rs = some (fields, tab') ∧
      (∀ r ∈ rs, Hpack.okRep r) ∧ (i.block.rest = [] ∨ ∀ r ∈ rs, Hpack.huffNames r)

/-- The header block and content of the request, as they are with the server. -/
def Carries (limit : Nat) (tab tab' : List Entry) (i : Incoming) (q : Ask) : Prop :=
  i.body = q.body ∧ i.discard = false ∧ Decodes limit tab tab' i q.fields

/-- Fields that are no request: an unknown pseudo-header field, a method that does not begin as a known one, a scheme that does not begin with `http`, no method or no path. -/
def Malformed (fs : Pairs) : Prop :=
  (∃ p ∈ fs, p.1.head? = some 58 ∧ ∀ x ∈ [b!":method", b!":scheme", b!":authority", b!":path"], ¬ x <+: p.1) ∨
  (∃ p ∈ fs, p.1 = b!":method" ∧ ∀ m, ¬ Req.methodName m <+: p.2) ∨
  (∃ p ∈ fs, p.1 = b!":scheme" ∧ ¬ b!"http" <+: p.2) ∨
  (∀ p ∈ fs, ¬ b!":method" <+: p.1) ∨ (∀ p ∈ fs, ¬ b!":path" <+: p.1)

/-- No field of a response, except those that are in the static table by name, can be taken for one that the client has entered in its table. -/
def Apart (tab : List Entry) (fs : Pairs) : Prop :=
  ∀ p ∈ fs, p.1 ∉ [b!"content-type", b!"content-encoding", b!"date", b!"server", b!"content-length", b!"etag", b!"last-modified", b!"allow"] → ∀ e ∈ tab, e.1 ≠ [] → e.1 <+: p.1 → ¬ e.2 <+: p.2

/-- The request dictionary the function is called with. -/
def dictionary (q : Ask) (ps : Pairs) : PyRequest :=
  ⟨q.path, q.query, ps, q.fields, (q.fields.filter fun p => p.1 = b!"cookie").map (·.2), q.body⟩

/-- The function of the request's route returns `ret` when it is called with what the client sent. -/
def Returns (a : App) (q : Ask) (ret : PyBridge.Ret) : Prop :=
  ∃ f ps, Chosen a q.path q.method f ps ∧ a.fns f (dictionary q ps) = ret

/-! ## The response -/

/-- What the connection takes: the header frame not at first but then in pieces without blocking, the header of the DATA frame without blocking, the content as it likes;
enough for `n` bytes of content. -/
structure Takes (w : Writes) (n : Nat) : Prop where
  frame : ∃ k ss, w.frames = [List.replicate k .block ++ ss] ∧ (∀ s ∈ ss, ∃ j, s = .sent (j + 1)) ∧ 1009 ≤ ss.length
  dataHeader : (∀ s ∈ w.dataHeader, ∃ j, s = .sent (j + 1)) ∧ 9 ≤ w.dataHeader.length
  data : H2B.Calm w.data ∧ n ≤ H2B.takes w.data

/-- The field that tells the coding. -/
def codingField (c : Cfg) (body : Bytes) : Pairs :=
  match coding c body with
  | some k => [(b!"content-encoding", c.encName k)]
  | none => []

/-- The fields of the response to the client: the status first, the names in lower case. -/
def Shown (c : Cfg) : Outcome → Option (Pairs × Bytes)
  | .response code _ hs ct body =>
    let hs := hs.map fun p => (Trip.lowerCase p.1, p.2)
    some ((b!":status", Response.threeDigits code) :: hs ++ missing hs [(b!"content-type", ct), (b!"date", c.date), (b!"server", b!"fly")] ++
      codingField c body, coded c body)
  | .value _ body =>
    some ([(b!":status", b!"200"), (b!"date", c.date), (b!"server", b!"fly"), (b!"content-type", b!"text/plain")] ++
      codingField c body, coded c body)
  | .failed => some ([(b!":status", b!"500"), (b!"server", b!"fly"), (b!"date", c.date), (b!"content-type", b!"text/plain")], [])
  | .tooLong .. => some ([(b!":status", b!"413"), (b!"server", b!"fly"), (b!"date", c.date), (b!"content-type", b!"text/plain")], [])
  | .notFound => some ([(b!":status", b!"404"), (b!"server", b!"fly"), (b!"date", c.date)], [])
  | .codedTooLong .. => none

/-- What the server brings to the response. -/
def Outcome.cfg (a : App) (header : Header.HList) : Outcome → Cfg
  | .notFound => a.cfg0
  | _ => a.cfg header

/-- This is what the application makes of the request. -/
def Makes (a : App) (q : Ask) (c : Cfg) : Outcome → Prop
  | .response code reason hs ct body =>
    Returns a q (.response (build code hs body ct).obj) ∧ (code, reason) ∈ statuses ∧ (∀ p ∈ hs, p.1 ≠ [] ∧ 0 ∉ p.1) ∧ ct ∈ contentTypes ∧
      (body.length : Int) ≤ c.maxLen ∧ (∀ k, c.overflow (c.compress k body) = false) ∧ b!"content-length" ∉ hs.map (fun p => Trip.lowerCase p.1) ∧
      (body = [] → c.dflt code = none)
  | .value v body =>
    Returns a q (.value v) ∧ PyBridge.plain v = some body ∧ (body.length : Int) ≤ c.maxLen ∧ (∀ k, c.overflow (c.compress k body) = false) ∧
      (body = [] → c.dflt 200 = none)
  | .failed => Returns a q .raised ∧ c.dflt 500 = none
  | .tooLong ret body =>
    Returns a q ret ∧ c.maxLen < (body.length : Int) ∧ body ≠ [] ∧ c.dflt 413 = none ∧
      (ret = .value (.str body) ∨ ret = .value (.bytes body) ∨ ∃ o : PyBridge.RespObj, o.body = some (.bytes body) ∧ ret = .response o)
  | .codedTooLong .. => False
  | .notFound => Unserved a q.path q.method ∧ (∀ h, a.file h q.path = none) ∧ c.dflt 404 = none

/-- A request, how it is with the server, and what the application makes of it. -/
structure Exchange where
  ask : Ask
  inc : Incoming
  out : Outcome

/-- What the server brings to the response to this request. -/
def Exchange.cfg (a : App) (x : Exchange) : Cfg :=
  Outcome.cfg a ⟨cells x.inc.alloc x.ask.fields, (cells x.inc.alloc x.ask.fields).length⟩ x.out

/-- An upper bound of the length of header fields in a block. -/
def size (fs : Pairs) : Nat := (fs.map fun p => p.1.length + p.2.length + 3).sum

/-- A proper exchange; the method HEAD is left out.  `tab` and `tab'` are what the client has in its table before and after. -/
structure Proper (a : App) (limit : Nat) (tab tab' : List Entry) (x : Exchange) : Prop where
  good : x.ask.Good
  method : x.ask.method ≠ .head
  carries : Carries limit tab tab' x.inc x.ask
  sid : x.inc.sid < 2 ^ 31
  threshold : 0 < (x.cfg a).threshold
  codings : ∀ c b, (x.cfg a).compress c b ≠ []
  makes : Makes a x.ask (x.cfg a) x.out
  /-- the fields are of a kind the server can encode (see C61), and not too long -/
  fields : ∀ fs body, Shown (x.cfg a) x.out = some (fs, body) → (∀ p ∈ fs, Hpack.okHeader p) ∧ size fs ≤ 960
  takes : ∀ fs body, Shown (x.cfg a) x.out = some (fs, body) → Takes x.inc.writes body.length

/-- The fields of the response cannot be taken for those in the client's table. -/
def Clear (a : App) (tab : List Entry) (x : Exchange) : Prop := ∀ fs body, Shown (x.cfg a) x.out = some (fs, body) → Apart tab fs

/-- The content is smaller than the windows and fits in a frame. -/
def Roomy (a : App) (k : Conn) (x : Exchange) : Prop :=
  ∀ fs body, Shown (x.cfg a) x.out = some (fs, body) → body ≠ [] →
    (body.length : Int) < x.inc.win.stream ∧ (body.length : Int) < x.inc.win.conn ∧ body.length ≤ k.maxFrame

/-- The exchanges of a connection are proper, and the client keeps its table as RFC 7541 says. -/
def Course (a : App) (k : Conn) (limit : Nat) : List Entry → List Exchange → Prop
  | _, [] => True
  | tab, x :: xs => ∃ tab', Proper a limit tab tab' x ∧ Clear a tab' x ∧ Roomy a k x ∧ Course a k limit tab' xs

/-- The client sees the response that the application made. -/
def Answered (a : App) (k : Conn) (x : Exchange) (bs : Bytes) : Prop :=
  ∃ fs body len, Shown (x.cfg a) x.out = some (fs, body) ∧ Reads len body.length ∧
    Shows k.maxFrame x.inc.sid bs (fs ++ [(b!"content-length", len)]) body

end Fly.H2Trip
