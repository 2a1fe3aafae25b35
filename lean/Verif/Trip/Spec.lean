import Verif.Trip.Model
import Verif.Keep.Spec
import Verif.PyBridge.Spec
import Verif.PyBridge.Props

/-! # What the client and the application see of each other -/

namespace Fly.Trip
open ReqEvent (Msg Rcv)
open Req (Method)
open Header (Pairs setFirst)
open PyReq (PyRequest)
open PyBridge (Field Reads statuses contentTypes missing Cfg build)
open Route (Plain Fits writePath NameOk)

/-! ## The client -/

/-- The number written by decimal digits. -/
def number (s : Bytes) : Nat := s.foldl (fun a d => a * 10 + (d - 48)) 0

/-- A response as a client takes it: status line, header fields, content. -/
abbrev Seen := Bytes × Pairs × Bytes

/-- The client reads one response: status line, header fields, and as many bytes of content as Content-Length says.  The rest belongs to the next. -/
def readOne (bs : Bytes) : Option (Seen × Bytes) :=
  match Response.readResponse bs with
  | none => none
  | some (line, fs, rest) =>
    match fs.find? (fun p => p.1 == b!"Content-Length") with
    | none => none
    | some (_, v) => if rest.length < number v then none else some ((line, fs, rest.take (number v)), rest.drop (number v))

def readMany : Nat → Bytes → Option (List Seen)
  | _, [] => some []
  | 0, _ :: _ => none
  | f + 1, b :: bs =>
    match readOne (b :: bs) with
    | none => none
    | some (r, rest) => (readMany f rest).map (r :: ·)

/-- The client reads all responses on a connection; `none` if there is something it cannot read. -/
def client (bs : Bytes) : Option (List Seen) := readMany bs.length bs

/-! ## The application -/

/-- A path is written without parameters, or with one, `{name}` or `{name:type}`, as its last segment. -/
def WrittenPath (p : Bytes) : Prop :=
  Plain p ∨ ∃ pre name t, p = writePath [⟨pre ++ b!"/", name, t⟩] [] ∧ Plain pre ∧ NameOk name

/-- The route for this path and method serves this request.  (The method of a route with a parameter is not looked at, see C24.) -/
def Serves (p : Bytes) (meth : Method) (u : Bytes) (m : Method) : Prop := Fits p u ∧ (Plain p → meth = m)

/-- The parameters of a request path: none, or the last segment. -/
def Values (p u : Bytes) (ps : Pairs) : Prop :=
  (Plain p ∧ ps = []) ∨ ∃ pre name t s, p = writePath [⟨pre ++ b!"/", name, t⟩] [] ∧ Plain pre ∧ NameOk name ∧ u = pre ++ b!"/" ++ s ∧ ps = [(name, s)]

/-- The request goes to function `f` with path parameters `ps`: its route is the first registered one that serves the request. -/
def Chosen (a : App) (u : Bytes) (m : Method) (f : Nat) (ps : Pairs) : Prop :=
  ∃ before p meth later, a.routes = before ++ (p, meth, f) :: later ∧ Serves p meth u m ∧ (∀ x ∈ before, ¬ Serves x.1 x.2.1 u m) ∧ Values p u ps

/-- No route serves the request. -/
def Unserved (a : App) (u : Bytes) (m : Method) : Prop := ∀ x ∈ a.routes, ¬ Serves x.1 x.2.1 u m

/-- Upper case letters become lower case. -/
def lowerCase (n : Bytes) : Bytes := n.map fun b => if 65 ≤ b ∧ b ≤ 90 then b + 32 else b

/-- The request dictionary the function is called with: path, query, path parameters, header fields with names in lower case, values of the cookie fields, content. -/
def dictionary (m : Msg) (ps : Pairs) : PyRequest :=
  ⟨m.line.uri, m.line.query, ps, m.fields.map fun p => (lowerCase p.1, p.2), (m.fields.filter fun p => lowerCase p.1 = b!"cookie").map (·.2),
    if m.body = [] then none else some m.body⟩

/-- If the request has content its type, where it is given, begins with one that the server knows, and is not `multipart/form-data`. -/
def ContentKnown (m : Msg) : Prop :=
  m.body = [] ∨ ∀ p ∈ m.fields, lowerCase p.1 = b!"content-type" → ∃ t ∈ contentTypes, t ≠ b!"multipart/form-data" ∧ t <+: p.2

/-! ## One request and its response -/

/-- What the application makes of a request. -/
inductive Outcome where
  /-- a `Response` with this status, these header fields, content type and content -/
  | response (code : Nat) (reason : Bytes) (fields : Pairs) (ct body : Bytes)
  /-- a text, bytes or `None` with these bytes -/
  | value (v : PyBridge.PyObj) (body : Bytes)
  /-- an exception -/
  | failed
  /-- a `Response`, text or bytes with more bytes than allowed -/
  | tooLong (ret : PyBridge.Ret) (body : Bytes)
  /-- the same with a content whose encoded form is too long for the server -/
  | codedTooLong (ret : PyBridge.Ret) (body : Bytes)
  /-- there is no function and no file for it -/
  | notFound

/-- A request, the pieces it arrives in, how often the server finds that it cannot write yet and how much it can write then, and what the application makes of it. -/
structure Exchange where
  msg : Msg
  pieces : List Rcv
  blocked : Nat
  room : Nat
  out : Outcome

/-- The results of the server's write calls for the response. -/
def Exchange.writes (x : Exchange) : List Send.Sys := List.replicate x.blocked .block ++ [.sent x.room]

/-- The configuration can be written in a response. -/
structure CfgOk (c : Cfg) : Prop where
  threshold : 0 < c.threshold
  date : 13 ∉ c.date
  encName : ∀ k, 13 ∉ c.encName k

/-- The function of the request's route returns `ret` when it is called with what the client sent. -/
def Returns (a : App) (m : Msg) (ret : PyBridge.Ret) : Prop :=
  ∃ f ps, Chosen a m.line.uri m.line.method f ps ∧ ContentKnown m ∧ a.fns f (dictionary m ps) = ret

/-- This is what the application makes of the request. -/
def Makes (a : App) (m : Msg) : Outcome → Prop
  | .response code reason hs ct body =>
    Returns a m (.response (build code hs body ct).obj) ∧ CfgOk (a.cfg m.header) ∧ (code, reason) ∈ statuses ∧ (∀ p ∈ hs, Field p) ∧ ct ∈ contentTypes ∧
      (body.length : Int) ≤ (a.cfg m.header).maxLen ∧ (∀ k, (a.cfg m.header).overflow ((a.cfg m.header).compress k body) = false) ∧ b!"Content-Length" ∉ hs.map (·.1)
  | .value v body =>
    Returns a m (.value v) ∧ CfgOk (a.cfg m.header) ∧ PyBridge.plain v = some body ∧ (body.length : Int) ≤ (a.cfg m.header).maxLen ∧
      ((a.cfg m.header).threshold ≤ body.length → ∀ k, (a.cfg m.header).overflow ((a.cfg m.header).compress k body) = false)
  | .failed => Returns a m .raised ∧ CfgOk (a.cfg m.header)
  | .tooLong ret body =>
    Returns a m ret ∧ CfgOk (a.cfg m.header) ∧ (a.cfg m.header).maxLen < (body.length : Int) ∧ body ≠ [] ∧
      (ret = .value (.str body) ∨ ret = .value (.bytes body) ∨ ∃ o : PyBridge.RespObj, o.body = some (.bytes body) ∧ ret = .response o)
  | .codedTooLong ret body =>
    Returns a m ret ∧ CfgOk (a.cfg m.header) ∧ (a.cfg m.header).dflt 413 = none ∧ (body.length : Int) ≤ (a.cfg m.header).maxLen ∧
      (a.cfg m.header).threshold ≤ body.length ∧ (∃ k, (a.cfg m.header).acc.decided = some k ∧ k ≠ 0 ∧ (a.cfg m.header).overflow ((a.cfg m.header).compress k body) = true) ∧
      (ret = .value (.str body) ∨ ret = .value (.bytes body) ∨
        ∃ (code : Nat) (hs : Pairs) (ct : Bytes), (∀ p ∈ hs, Field p) ∧ ct ∈ contentTypes ∧ ret = .response (build code hs body ct).obj)
  | .notFound => Unserved a m.line.uri m.line.method ∧ a.file m.header m.line.uri = none ∧ CfgOk a.cfg0 ∧ a.cfg0.dflt 404 = none

/-- The response leaves the connection open. -/
def Outcome.Stays : Outcome → Prop
  | .response _ _ hs _ _ => b!"Connection" ∉ hs.map (·.1)
  | .value .. => True
  | .failed => True
  | .notFound => True
  | _ => False

/-- The response says that the connection ends. -/
def Outcome.Closes : Outcome → Prop
  | .response _ _ hs _ _ => ∃ before after, hs = before ++ (b!"Connection", b!"close") :: after ∧ b!"Connection" ∉ before.map (·.1)
  | .tooLong .. => True
  | .codedTooLong .. => True
  | _ => False

/-- The whole response to the request fits in what can be written at once. -/
def Fitting (a : App) (x : Exchange) : Prop :=
  ∀ r buf, ReqEvent.answer a.env x.msg = .reply r → a.bytes r = some buf → buf.bytes.length ≤ x.room

/-- A proper exchange; the method HEAD is left out. -/
structure Proper (a : App) (x : Exchange) : Prop where
  within : Keep.Within a.env x.msg
  arrives : Keep.Arrives x.msg x.pieces
  method : x.msg.line.method ≠ .head
  makes : Makes a x.msg x.out
  fitting : Fitting a x

/-- The coding applied to a content. -/
def coding (c : Cfg) (body : Bytes) : Option Response.Coding := if c.threshold ≤ body.length then c.acc.decided else none

/-- The content as sent. -/
def coded (c : Cfg) (body : Bytes) : Bytes :=
  match coding c body with
  | some k => if k = 0 then body else c.compress k body
  | none => body

/-- What the client should see. -/
def Shown (a : App) (x : Exchange) (o : Seen) : Prop :=
  match x.out with
  | .response code reason hs ct body =>
    ∃ len, Reads len (coded (a.cfg x.msg.header) body).length ∧
      o = (b!"HTTP/1.1 " ++ Response.threeDigits code ++ b!" " ++ reason,
        hs ++ missing hs [(b!"Content-Type", ct), (b!"Date", (a.cfg x.msg.header).date), (b!"Server", b!"fly")] ++
          (match coding (a.cfg x.msg.header) body with | some k => [(b!"Content-Encoding", (a.cfg x.msg.header).encName k)] | none => []) ++
          [(b!"Content-Length", len)],
        coded (a.cfg x.msg.header) body)
  | .value _ body =>
    ∃ len, Reads len (coded (a.cfg x.msg.header) body).length ∧
      o = (b!"HTTP/1.1 200 OK",
        [(b!"Date", (a.cfg x.msg.header).date), (b!"Server", b!"fly"), (b!"Content-Type", b!"text/plain")] ++
          (match coding (a.cfg x.msg.header) body with | some k => [(b!"Content-Encoding", (a.cfg x.msg.header).encName k)] | none => []) ++
          [(b!"Content-Length", len)],
        coded (a.cfg x.msg.header) body)
  | .failed =>
    o = (b!"HTTP/1.1 500 Internal Server Error",
      [(b!"Server", b!"fly"), (b!"Date", (a.cfg x.msg.header).date), (b!"Connection", b!"keep-alive"), (b!"Content-Type", b!"text/plain"),
        (b!"Content-Length", b!"0")], [])
  | .tooLong .. =>
    o = (b!"HTTP/1.1 413 Payload Too Large",
      [(b!"Server", b!"fly"), (b!"Date", (a.cfg x.msg.header).date), (b!"Connection", b!"close"), (b!"Content-Type", b!"text/plain"),
        (b!"Content-Length", b!"0")], [])
  | .codedTooLong .. =>
    o = (b!"HTTP/1.1 413 Payload Too Large",
      [(b!"Server", b!"fly"), (b!"Date", (a.cfg x.msg.header).date), (b!"Connection", b!"close"), (b!"Content-Length", b!"0")], [])
  | .notFound =>
    o = (b!"HTTP/1.1 404 Not Found",
      [(b!"Server", b!"fly"), (b!"Date", a.cfg0.date), (b!"Connection", b!"keep-alive"), (b!"Content-Length", b!"0")], [])

/-- Element by element. -/
inductive Each {α β : Type} (R : α → β → Prop) : List α → List β → Prop where
  | nil : Each R [] []
  | cons {x y l m} : R x y → Each R l m → Each R (x :: l) (y :: m)

end Fly.Trip
