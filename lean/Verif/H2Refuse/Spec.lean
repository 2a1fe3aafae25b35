import Verif.Nego.Turn2
import Verif.Refuse.Spec

/-! # Requests the server refuses, over HTTP/2 -/

namespace Fly.H2Refuse
open Header (Pairs)
open Site (Site)
open H2Trip (Conn Incoming Ask Decodes Takes Shows Malformed)
open Hpack (Entry)
open Nego (Turn2)
open PyBridge (Reads)

/-- A request on a connection: one that is served or refused with 406 (see C195), one with fields against the rules, fields that are no request at all, or a request with more
content than is allowed (the server has thrown the content away). -/
inductive Step where
  | turn (t : Turn2)
  | garbled (ask : Ask) (inc : Incoming)
  | malformed (fields : Pairs) (inc : Incoming)
  | long (ask : Ask) (inc : Incoming)

def Step.inc : Step → Incoming
  | .turn t => t.ask.inc
  | .garbled _ i => i
  | .malformed _ i => i
  | .long _ i => i

def Step.now : Step → Bytes → Bytes
  | .turn t => t.ask.now
  | _ => fun _ => []

/-- What the server and the socket need for a short response with this status: no configured page, a date, no entry of the client that looks like a status, room. -/
structure Short (s : Site) (n : Nat) (tab' : List Entry) (i : Incoming) : Prop where
  sid : i.sid < 2 ^ 31
  threshold : 0 < s.app.cfg0.threshold
  page : s.app.cfg0.dflt n = none
  date : s.app.cfg0.date.length < 127
  apart : ∀ e ∈ tab', ¬ e.1 <+: b!":status"
  takes : Takes i.writes 0

/-- `tab` and `tab'` are what the client has in its table before and after. -/
def Step.Proper (s : Site) (k : Conn) (limit : Nat) (tab tab' : List Entry) : Step → Prop
  | .turn t => t.Proper s k limit tab tab'
  | .garbled q i => q.Sound ∧ Refuse.Garbled q.fields ∧ i.discard = false ∧ Decodes limit tab tab' i q.fields ∧ Short s 400 tab' i
  | .malformed fs i => Malformed fs ∧ (∀ p ∈ fs, b!":scheme" <+: p.1 → p.2 ≠ []) ∧ Decodes limit tab tab' i fs ∧ Short s 400 tab' i
  | .long q i => q.Sound ∧ i.discard = true ∧ Decodes limit tab tab' i q.fields ∧ Short s 413 tab' i

/-- The requests of a connection are proper, and the client keeps its table as RFC 7541 says. -/
def Course (s : Site) (k : Conn) (limit : Nat) : List Entry → List Step → Prop
  | _, [] => True
  | tab, t :: ts => ∃ tab', t.Proper s k limit tab tab' ∧ Course s k limit tab' ts

/-- One whole response of the server without content on the stream of the request. -/
def Refused (s : Site) (k : Conn) (status : Bytes) (i : Incoming) (bs : Bytes) : Prop :=
  ∃ len, Reads len 0 ∧ Shows k.maxFrame i.sid bs [(b!":status", status), (b!"server", b!"fly"), (b!"date", s.app.cfg0.date), (b!"content-length", len)] []

/-- What the client should see on the stream of a request. -/
def Step.Answered (s : Site) (k : Conn) : Step → Bytes → Prop
  | .turn t, bs => t.Answered s k bs
  | .garbled _ i, bs => Refused s k b!"400" i bs
  | .malformed _ i, bs => Refused s k b!"400" i bs
  | .long _ i, bs => Refused s k b!"413" i bs

end Fly.H2Refuse
