import Verif.H2Wire.Spec
import Verif.Access.Spec
import Verif.H2Access.Model

/-! # What an access log should say of an HTTP/2 connection -/

namespace Fly.H2Access
open H2Refuse (Step)
open Access (Ends Fits)

/-- The request, if the fields are one. -/
def askOf : Step → Option H2Trip.Ask
  | .turn t => some t.ask.ask
  | .garbled q _ => some q
  | .malformed .. => none
  | .long q _ => some q

/-- What the log is to show of a request. -/
def lineOf (x : Step) : Bytes :=
  match askOf x with
  | some q => Req.methodName q.method ++ b!" " ++ q.path ++ Req.queryText q.query ++ b!" HTTP/2"
  | none => b!"?"

/-- The same without as many characters at the end as its query has. -/
def cutLine (x : Step) : Bytes :=
  match askOf x with
  | some q => (lineOf x).take ((lineOf x).length - (Req.queryText q.query).length)
  | none => lineOf x

/-- The line that records a response: when, from whom, what was asked, to whom, and the status with its name. -/
def record (c : Ends) (stamp line : Bytes) (code : Nat) (phrase : Bytes) : Bytes :=
  stamp ++ c.host ++ b!":" ++ c.port ++ b!" (" ++ line ++ b!") --> " ++ c.myHost ++ b!":" ++ c.myPort ++ b!" (" ++ Response.threeDigits code ++ b!" " ++ phrase ++ b!")\n"

/-- The client reads a response with this status on the stream. -/
def Told (k : H2Trip.Conn) (sid : Nat) (bs : Bytes) (code : Nat) : Prop :=
  ∃ fields body, H2Trip.Shows k.maxFrame sid bs ((b!":status", Response.threeDigits code) :: fields) body

/-- A request that is recorded whole: one that is short enough (see C106), from a client whose windows are open. -/
def Brief (c : Ends) (x : Step) : Prop := (∃ q, askOf x = some q) ∧ Fits c (lineOf x) ∧ 0 < x.inc.win.stream ∧ 0 < x.inc.win.conn

/-- A request without query. -/
def NoQuery (x : Step) : Prop := ∀ q, askOf x = some q → q.query = none

end Fly.H2Access
