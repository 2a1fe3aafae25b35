import Verif.Keep.Model

/-! # What a client of a persistent connection relies on -/

namespace Fly.Keep
open ReqEvent

/-- A request that the server reads to its end: acceptable to it, with a body within the limit, and without `Expect`. -/
structure Within (e : Env) (m : Msg) : Prop where
  good : m.Good
  nego : e.nego m.header = .ok
  plain : Header.expect100 m.header = false
  fits : m.body.length ≤ e.maxLen

/-- A request that the server reads to its end, be it that its header is refused but there is no body. -/
structure Whole (e : Env) (m : Msg) : Prop where
  good : m.Good
  nego : e.nego m.header = .ok ∨ (m.body = [] ∧ e.nego m.header ≠ .error)
  plain : Header.expect100 m.header = false
  fits : m.body.length ≤ e.maxLen

/-- The request arrives in this round, and nothing else: in any pieces, with pauses anywhere. -/
def Arrives (m : Msg) (rs : List Rcv) : Prop := Plain rs ∧ dataOf rs = m.text

/-- The application keeps the connection in its response to this request, if the request is its own. -/
def Kept (e : Env) (app : Reply → Bool) (m : Msg) : Prop := ∀ i l h b, answer e m = .reply (.handler i l h b) → app (.handler i l h b) = true

end Fly.Keep
