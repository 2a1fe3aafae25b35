import Verif.Refuse.Spec
import Verif.Log.Spec
import Verif.Access.Model

/-! # What an access log should say of a connection -/

namespace Fly.Access
open Trip (Seen)
open Refuse (Step Offence)

/-- The request line a client sent. -/
def lineOf : Step → Bytes
  | .turn t => t.ask.msg.lineText
  | .garbled m .. => m.lineText

/-- The same for what ends a connection; what is no request line is not shown. -/
def lastLine : Offence → Bytes
  | .line .. => b!"?"
  | .long m => m.lineText

/-- The line that records a response: when, from whom, what was asked, to whom, and the status as the client read it (without the version). -/
def record (c : Ends) (stamp line : Bytes) (o : Seen) : Bytes :=
  stamp ++ c.host ++ b!":" ++ c.port ++ b!" (" ++ line ++ b!") --> " ++ c.myHost ++ b!":" ++ c.myPort ++ b!" (" ++ o.1.drop (b!"HTTP/1.1 ").length ++ b!")\n"

/-- A text without line break and NUL. -/
def Tidy (t : Bytes) : Prop := 10 ∉ t ∧ 0 ∉ t

/-- Addresses are such texts. -/
def Ends.Ok (c : Ends) : Prop := Tidy c.host ∧ Tidy c.port ∧ Tidy c.myHost ∧ Tidy c.myPort

/-- The entry for this line is short enough to be recorded whole (see C106). -/
def Fits (c : Ends) (line : Bytes) : Prop := c.host.length + c.port.length + c.myHost.length + c.myPort.length + line.length ≤ 240

end Fly.Access
