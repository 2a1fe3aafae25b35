import Verif.Nego.Turn
import Verif.Request.Spec

/-! # Requests the server refuses -/

namespace Fly.Refuse
open ReqEvent (Msg Rcv Plain dataOf)
open Header (Pairs)
open Site (Site)
open Trip (Seen CfgOk)
open Nego (Wish Says SaysCodings SaysMedia SaysTags Turn told)

/-- The fields accept some content coding, as far as they speak of codings. -/
def SomeCoding (w : Wish) : Prop :=
  ∀ es, w.codings = some es → (∃ e ∈ es, ∃ k, Encode.Named e.name k ∧ 10 ≤ e.quality) ∨ ∀ e ∈ es, ∀ k, ¬ Encode.Named e.name k

/-- They accept some media type. -/
def SomeMedia (w : Wish) : Prop := ∀ rs, w.media = some rs → ∃ r ∈ rs, 10 ≤ r.quality

/-- They accept some character set. -/
def SomeCharset (w : Wish) : Prop := ∀ es, w.charsets = some es → ∃ e ∈ es, 0 < e.quality

/-- In the field that lists character sets or languages, the first one has a weight of more than three decimals, against RFC 9110, 12.4.2. -/
def TooFine (f : Lang.Field) (fs : Pairs) : Prop :=
  ∃ (n rest : Bytes) (ds : List Nat), (∀ c ∈ n, Lang.NameChar c) ∧ n ≠ [] ∧ (∀ d ∈ ds, d < 10) ∧ 3 < ds.length ∧ Lang.FirstField f.name (n ++ b!";q=0." ++ ds.map (48 + ·) ++ rest) fs

/-- Fields that are against the rules, while those the server looks at before do not refuse everything. -/
def Garbled (fs : Pairs) : Prop :=
  ∃ w, SaysCodings fs w.codings ∧ SomeCoding w ∧ SaysMedia fs w.media ∧ SomeMedia w ∧
    (TooFine .charset fs ∨ (SaysTags .charset fs w.charsets ∧ SomeCharset w ∧ TooFine .language fs))

/-- A request on a connection: one that is served or refused with 406 (see C195), or one with garbled fields and without content. -/
inductive Step where
  | turn (t : Turn)
  | garbled (msg : Msg) (pieces : List Rcv) (blocked room : Nat)

def Step.pieces : Step → List Rcv
  | .turn t => t.ask.pieces
  | .garbled _ p _ _ => p

def Step.now : Step → Bytes → Bytes
  | .turn t => t.ask.now
  | .garbled .. => fun _ => []

/-- The socket takes nothing for some time and then all of the response. -/
def Step.writes : Step → List Send.Sys
  | .turn t => t.ask.writes
  | .garbled _ _ blocked room => List.replicate blocked .block ++ [.sent room]

/-- There is room for a short response. -/
def room (s : Site) : Nat := s.app.cfg0.date.length + 200

def Step.Proper (s : Site) (mem : Nat → Nat) : Step → Prop
  | .turn t => t.Proper s mem
  | .garbled m rs _ r => m.Good ∧ Garbled (told m) ∧ m.body = [] ∧ Header.expect100 m.header = false ∧ Keep.Arrives m rs ∧ room s ≤ r

/-- A response of the server without content. -/
def short (s : Site) (line conn : Bytes) : Seen :=
  (line, [(b!"Server", b!"fly"), (b!"Date", s.app.cfg0.date), (b!"Connection", conn), (b!"Content-Length", b!"0")], [])

def Step.Shown (s : Site) : Step → Seen → Prop
  | .turn t, o => t.Shown s o
  | .garbled .., o => o = short s b!"HTTP/1.1 400 Bad Request" b!"keep-alive"

/-- What ends a connection. -/
inductive Offence where
  /-- something that is no request line, and whatever comes behind it -/
  | line (x more : Bytes)
  /-- a request with more content than the server allows -/
  | long (msg : Msg)

/-- The bytes the client sends. -/
def Offence.text : Offence → Bytes
  | .line x more => x ++ b!"\r\n" ++ more
  | .long m => m.text

/-- `line`: shorter than 8000 bytes (see C23) and not accepted as a request line (see C22).  `long`: well-formed in all else. -/
def Offence.Proper (s : Site) : Offence → Prop
  | .line x _ => 13 ∉ x ∧ x.length + 2 < 8000 ∧ ¬ ∃ r, Req.Accepted x r
  | .long m => m.Good ∧ (∃ w, Says (told m) w ∧ w.Met) ∧ Header.expect100 m.header = false ∧ s.app.maxLen < m.body.length

def Offence.status : Offence → Bytes
  | .line .. => b!"HTTP/1.1 400 Bad Request"
  | .long _ => b!"HTTP/1.1 413 Payload Too Large"

end Fly.Refuse
