import Verif.H2Wire.Model
import Verif.H2Frame.Spec
import Verif.H2Refuse.Spec

/-! # A client that sends its requests in frames (RFC 9113, 4 to 6) -/

namespace Fly.H2Wire
open Buffer (Cursor NE)
open H2 (wireHeader wireSettings)
open H2Refuse (Step)
open Header (Pairs)
open Hpack (Entry)
open PyBridge (Reads)
open Site (Site)

/-- At this place of the buffer is a frame, whatever its reserved bit and however it lies over the chunks of the buffer; the memory of the buffer goes on behind it. -/
def Holds (c : Cursor) (type flags sid : Nat) (payload : Bytes) : Prop :=
  NE c ∧ sid < 2 ^ 31 ∧ payload.length ≤ 16384 ∧
    ∃ r rest, rest ≠ [] ∧ c.cur ++ c.rest.flatten = wireHeader payload.length type flags r sid ++ payload ++ rest

/-- The place `p` is `n` bytes behind the place `c`. -/
def Behind (n : Nat) (c p : Cursor) : Prop :=
  p.cur ≠ [] ∧ ∃ a b, c.cur :: c.rest = a ++ (b ++ p.cur) :: p.rest ∧ (a.flatten ++ b).length = n

/-- A setting that RFC 9113, 6.5.2 allows, with a size of header lists between 16384 and 16777215 (see C56). -/
def Setting (p : Nat × Nat) : Prop :=
  p.1 < 2 ^ 16 ∧ p.2 < 2 ^ 32 ∧ (p.1 = 2 → p.2 ≤ 1) ∧ (p.1 = 4 → p.2 < 2 ^ 31) ∧ (p.1 = 5 → 16384 ≤ p.2 ∧ p.2 ≤ 16777215) ∧
    (p.1 = 6 → 16384 ≤ p.2 ∧ p.2 ≤ 16777215)

/-- More window for a stream or (0) the connection.  The four bytes lie in one chunk with a byte behind, or the last of them is below 128 (see C07). -/
def Grows (c : Cursor) (sid n : Nat) : Prop :=
  Holds c 8 0 sid [n / 16777216, n / 65536 % 256, n / 256 % 256, n % 256] ∧ 0 < n ∧ n < 2 ^ 31 ∧ (n % 256 < 128 ∨ 13 < c.cur.length)

/-- Settings (all but that of the window), an acknowledgement of the server's settings, more window for the connection (`n` bytes, otherwise 0), or a frame of a type that HTTP/2 does
not know. -/
inductive Control (c : Cursor) : Nat → Prop where
  | settings (l : List (Nat × Nat)) : Holds c 4 0 0 (wireSettings l) → (∀ p ∈ l, Setting p ∧ p.1 ≠ 4) → Control c 0
  | ack : Holds c 4 1 0 [] → Control c 0
  | window (n : Nat) : Grows c 0 n → Control c n
  | unknown (type flags : Nat) (payload : Bytes) : 10 ≤ type → Holds c type flags 0 payload → Control c 0

/-- The window with which streams begin according to the first settings of the client: 65535 if they do not tell it. -/
def Starts (ss : List (Nat × Nat)) (init : Nat) : Prop :=
  ((∀ p ∈ ss, p.1 ≠ 4) ∧ init = 65535) ∨ ∃ a b, ss = a ++ (4, init) :: b ∧ ∀ p ∈ a ++ b, p.1 ≠ 4

/-- All header fields of a request. -/
def fieldsOf : Step → Pairs
  | .turn t => t.ask.ask.fields
  | .garbled q _ => q.fields
  | .malformed fs _ => fs
  | .long q _ => q.fields

/-- The fields tell the length of the content, in upper or lower case and more than once if they like. -/
def Tells (fs : Pairs) (n : Nat) : Prop :=
  ∃ v, (b!"content-length", v) ∈ fs ∧ Reads v n ∧ ∀ p ∈ fs, Trip.lowerCase p.1 = b!"content-length" → p.2 = v

/-- The frame with the header block of the request at its place; nothing or five bytes of priority (with the flag 32) before it; with the flag END_HEADERS, and END_STREAM if there is no
content. -/
def Opens (x : Step) (c : Cursor) (fin : Bool) : Prop :=
  ∃ prio block, (prio = [] ∨ prio.length = 5) ∧ block.length = x.inc.len ∧
    Holds c 1 ((if fin then 5 else 4) + (if prio = [] then 0 else 32)) x.inc.sid (prio ++ block) ∧ Behind (9 + prio.length) c x.inc.block

/-- The response takes what the request says. -/
def Belongs (x : Step) (z : At) : Prop := z.alloc = x.inc.alloc ∧ z.win = x.inc.win ∧ z.writes = x.inc.writes ∧ z.now = x.now

/-- The length of the content of the response. -/
def Draws (s : Site) : Step → Nat → Prop
  | .turn t, d => (t.wish.Met → ∃ pre post body, H2Site.Shown s t.ask = some (pre, post, body) ∧ body.length = d) ∧ (¬ t.wish.Met → d = 0)
  | _, d => d = 0

/-- The content of the request has the length its fields tell, up to the length the server allows or beyond. -/
def Contains (maxBody : Nat) (x : Step) (body : Bytes) : Prop :=
  Tells (fieldsOf x) body.length ∧ body.length < 2 ^ 63 ∧ (body ≠ [] → body.length ≤ maxBody → x.inc.body = some body ∧ x.inc.discard = false) ∧
    (maxBody < body.length → x.inc.body = none ∧ x.inc.discard = true) ∧ (body = [] → x.inc.body = none ∧ x.inc.discard = false)

/-- No entry of the client's table can be taken for a field of the response. -/
def Apart (s : Site) (tab : List Entry) : Step → Prop
  | .turn t => (t.wish.Met → ∀ pre post body, H2Site.Shown s t.ask = some (pre, post, body) → H2Trip.Apart tab (pre ++ post)) ∧
      (¬ t.wish.Met → ∀ e ∈ tab, ¬ e.1 <+: b!":status")
  | _ => ∀ e ∈ tab, ¬ e.1 <+: b!":status"

/-- A request under way: what is to come of its content, and the window of its stream. -/
structure Call where
  step : Step
  rest : Bytes
  window : Int

/-- What a client knows of its connection: the entries of its table, its last stream, its window of the connection, the window with which streams begin, and the requests that are
`under` way. -/
structure Client where
  tab : List Entry
  last : Nat
  conn : Int
  init : Nat
  under : List Call

/-- A client that has sent its settings. -/
def Client.fresh (init : Nat) : Client := ⟨[], 0, 65535, init, []⟩

/-- A frame of a client, and the request that is complete with it, if there is one.  Requests are begun on growing odd streams; those that are under way
may go on in any order, in DATA frames without padding, get more window or frames of unknown types, or be cancelled; control frames come anywhere.  The content of a response is
taken from the window of the connection. -/
inductive Says (s : Site) (k : H2Trip.Conn) (limit maxBody : Nat) : Client → Arrival → List Step → Client → Prop where
  | control (tab : List Entry) (last : Nat) (conn : Int) (init : Nat) (under : List Call) (n : Nat) (a : Arrival) :
      Control a.place n → Says s k limit maxBody ⟨tab, last, conn, init, under⟩ a [] ⟨tab, last, conn + n, init, under⟩
  | bare (tab tab' : List Entry) (last : Nat) (conn : Int) (init : Nat) (under : List Call) (x : Step) (d : Nat) (z : Arrival) :
      x.Proper s k limit tab tab' → Opens x z.place true → last < x.inc.sid → x.inc.sid % 2 = 1 → x.inc.body = none → x.inc.discard = false →
      Belongs x ⟨z, ⟨init, conn⟩⟩ → Draws s x d → Says s k limit maxBody ⟨tab, last, conn, init, under⟩ z [x] ⟨tab', x.inc.sid, conn - d, init, under⟩
  | opens (tab tab' : List Entry) (last : Nat) (conn : Int) (init : Nat) (under : List Call) (x : Step) (body : Bytes) (a : Arrival) :
      H2Trip.Decodes limit tab tab' x.inc (fieldsOf x) → Opens x a.place false → last < x.inc.sid → x.inc.sid % 2 = 1 → Contains maxBody x body →
      Says s k limit maxBody ⟨tab, last, conn, init, under⟩ a [] ⟨tab', x.inc.sid, conn, init, under ++ [⟨x, body, init⟩]⟩
  | data (tab : List Entry) (last : Nat) (conn : Int) (init : Nat) (pre post : List Call) (x : Step) (d rest : Bytes) (w : Int) (a : Arrival) :
      Holds a.place 0 0 x.inc.sid d →
      Says s k limit maxBody ⟨tab, last, conn, init, pre ++ ⟨x, d ++ rest, w⟩ :: post⟩ a [] ⟨tab, last, conn, init, pre ++ ⟨x, rest, w⟩ :: post⟩
  | ends (tab tab0 tab0' : List Entry) (last : Nat) (conn : Int) (init : Nat) (pre post : List Call) (x : Step) (b : Bytes) (w : Int) (d : Nat) (z : Arrival) :
      x.Proper s k limit tab0 tab0' → Holds z.place 0 1 x.inc.sid b → Belongs x ⟨z, ⟨w, conn⟩⟩ → Apart s tab x → Draws s x d →
      Says s k limit maxBody ⟨tab, last, conn, init, pre ++ ⟨x, b, w⟩ :: post⟩ z [x] ⟨tab, last, conn - d, init, pre ++ post⟩
  | grows (tab : List Entry) (last : Nat) (conn : Int) (init : Nat) (pre post : List Call) (x : Step) (rest : Bytes) (w : Int) (n : Nat) (a : Arrival) :
      Grows a.place x.inc.sid n →
      Says s k limit maxBody ⟨tab, last, conn, init, pre ++ ⟨x, rest, w⟩ :: post⟩ a [] ⟨tab, last, conn, init, pre ++ ⟨x, rest, w + n⟩ :: post⟩
  | unknown (tab : List Entry) (last : Nat) (conn : Int) (init : Nat) (pre post : List Call) (c : Call) (type flags : Nat) (payload : Bytes) (a : Arrival) :
      10 ≤ type → Holds a.place type flags c.step.inc.sid payload →
      Says s k limit maxBody ⟨tab, last, conn, init, pre ++ c :: post⟩ a [] ⟨tab, last, conn, init, pre ++ c :: post⟩
  | cancels (tab : List Entry) (last : Nat) (conn : Int) (init : Nat) (pre post : List Call) (c : Call) (flags : Nat) (code : Bytes) (a : Arrival) :
      Holds a.place 3 flags c.step.inc.sid code → code.length = 4 →
      Says s k limit maxBody ⟨tab, last, conn, init, pre ++ c :: post⟩ a [] ⟨tab, last, conn, init, pre ++ post⟩

/-- The frames of a connection after the first, and the requests in the order in which they are complete. -/
inductive Talk (s : Site) (k : H2Trip.Conn) (limit maxBody : Nat) : Client → List Arrival → List Step → Prop where
  | done (c : Client) : Talk s k limit maxBody c [] []
  | next (c c' : Client) (a : Arrival) (as : List Arrival) (xs ys : List Step) :
      Says s k limit maxBody c a xs c' → Talk s k limit maxBody c' as ys → Talk s k limit maxBody c (a :: as) (xs ++ ys)

/-- Nothing that tells the client of an error. -/
def Calm (o : H2S.Out) : Prop :=
  match o with
  | .goaway _ | .rst _ _ | .emergency | .pong => False
  | _ => True

end Fly.H2Wire
