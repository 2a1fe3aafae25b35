import Verif.PyRoute.Model
import Verif.Response.Model

/-!
# Model of the CORS decorators

Models `allow_cors`, `all_allow_cors` and the preflight function made by `_option` (fly/cors.py) while an
application file is loaded.  Routes, registration and handlers are those of Verif.PyRoute.

Simplifications:
* arguments of the wrong type (`_check_cors_type`, fly/cors.py:232-264) are not modelled, except members of `Method` in
  `allow_methods`, which that check accepts; `allow_origin`, which it does not check, is a text;
* an application file is a list of function definitions, each under decorators of one application; an exception ends the
  loading (nothing in the file catches it).
-/

namespace Fly.PyCors
open PyRoute

/-- An element of `allow_methods`: a text or a member of `Method` (fly/method.py) with this value. -/
inductive Item where
  | str (s : Str)
  | member (value : Str)
  deriving DecidableEq, Repr

/-- The arguments of `allow_cors` (fly/cors.py:127-135). -/
structure Settings where
  origin : Str
  methods : List Item
  allow : List Str
  expose : List Str
  credentials : Bool
  maxAge : Option Int
  onlyDebug : Bool
  deriving DecidableEq, Repr

/-- `','.join(allow_methods)` works for texts only (a member of `Method` raises `TypeError`): the texts.  The list
`_check_cors_type` makes of them (fly/cors.py:252-258) is its own variable and is dropped. -/
def texts : List Item → Option (List Str)
  | [] => some []
  | .str s :: l => (texts l).map (s :: ·)
  | .member _ :: _ => none

/-- `func.route` (fly/app.py:193-198) as set by the route decorator: the path as written in the application. -/
structure Mark where
  path : Str
  method : Str
  debugRoute : Bool
  deriving DecidableEq, Repr

/-- A decorator: `app.get(path, debug_route=…, only_debug=…)` and its like, `allow_cors(…)`, `all_allow_cors`. -/
inductive Deco where
  | route (path method : Str) (debugRoute onlyDebug : Bool)
  | allow (s : Settings)
  | allowAll
  deriving DecidableEq, Repr

/-- The application while its file is loaded: its routes and the settings of the preflight functions made so far.  As functions of routes, `2 * i` is the `i`-th
function defined in the file and `2 * k + 1` the `k`-th preflight function. -/
structure State where
  routes : List Route
  pre : List Settings
  deriving DecidableEq, Repr

/-- The search for `_base` in `app.routes` (fly/cors.py:180-185, 95-99), which keeps the last route with this path and method, and the headers
appended to it (186-228, 100-124).  `none`: `_base` stays `None` and its use raises `AttributeError`. -/
def giveLast (c : Cors) (u m : Str) : List Route → Option (List Route)
  | [] => none
  | r :: l =>
    match giveLast c u m l with
    | some l' => some (r :: l')
    | none =>
      if r.uri = u ∧ r.method = m then
        some ({ r with headers := r.headers ++ corsHeaders c, debugNames := r.debugNames ++ corsDebugNames c } :: l)
      else none

/-- The body of `_allow_cors` behind its checks (fly/cors.py:163-229) and of `all_allow_cors` (70-125): register the preflight function, then give the
route its headers. -/
def decorate (debug : Bool) (s : Settings) (k : Mark) (st : State) : Option State :=
  match appRoute debug st.routes k.path options (2 * st.pre.length + 1) k.debugRoute s.onlyDebug with
  | none => none
  | some rs1 =>
    match texts s.methods with
    | none => none
    | some ms =>
      match giveLast ⟨s.origin, ms, s.allow, s.expose, s.credentials, s.onlyDebug⟩ k.path k.method rs1 with
      | none => none
      | some rs2 => some ⟨rs2, st.pre ++ [s]⟩

/-- The settings of `all_allow_cors` (fly/cors.py:76-83). -/
def allSettings : Settings where
  origin := b!"*"
  methods := [.str b!"GET", .str b!"POST", .str b!"HEAD", .str b!"OPTIONS", .str b!"PUT", .str b!"DELETE", .str b!"TRACE", .str b!"PATCH"]
  allow := []
  expose := []
  credentials := true
  maxAge := none
  onlyDebug := false

/-- One decorator applied to function `f`.  `Fly.route` (fly/app.py:189-213) marks the function and registers it; `allow_cors` (fly/cors.py:145-161) raises for a
function without mark and does nothing for debugging only outside debug mode; `all_allow_cors` (71-72) raises for a function without mark too. -/
def step (debug : Bool) (f : Nat) (x : State × Option Mark) : Deco → Option (State × Option Mark)
  | .route path method dr od =>
    match appRoute debug x.1.routes path method (2 * f) dr od with
    | none => none
    | some rs => some (⟨rs, x.1.pre⟩, some ⟨path, method, dr⟩)
  | .allow s =>
    match x.2 with
    | none => none
    | some k => if s.onlyDebug && !debug then some x else (decorate debug s k x.1).map (·, some k)
  | .allowAll =>
    match x.2 with
    | none => none
    | some k => (decorate debug allSettings k x.1).map (·, some k)

/-- The decorators of one definition, from the lowest to the highest. -/
def decos (debug : Bool) (f : Nat) : State × Option Mark → List Deco → Option (State × Option Mark)
  | x, [] => some x
  | x, d :: l =>
    match step debug f x d with
    | none => none
    | some x' => decos debug f x' l

/-- The definitions of a file, from the `n`-th on. -/
def loadFrom (debug : Bool) : Nat → State → List (List Deco) → Option State
  | _, st, [] => some st
  | n, st, ds :: l =>
    match decos debug n (st, none) ds with
    | none => none
    | some x => loadFrom debug (n + 1) x.1 l

/-- Loading an application file; `debug` is the argument of `Fly(debug=…)`.  `none`: an exception. -/
def load (debug : Bool) (prog : List (List Deco)) : Option State := loadFrom debug 0 ⟨[], []⟩ prog

/-- `str(n)` for an `int`. -/
def intStr (n : Int) : Str := if n < 0 then 45 :: Response.decimal n.natAbs else Response.decimal n.natAbs

def acma : Str := b!"Access-Control-Max-Age"

/-- `_option_for_allow_cors` (fly/cors.py:50-65). -/
def preflight (s : Settings) : Ending :=
  match texts s.methods with
  | none => .exc []
  | some ms =>
    (corsHeaders ⟨s.origin, ms, s.allow, s.expose, s.credentials, s.onlyDebug⟩ ++
      (match s.maxAge with | some n => [⟨acma, intStr n⟩] | none => [])).foldl addHeader (newResponse 200 none none)

/-- Calling the function of a route through its `_BaseRoute` (fly/_base.py:39-102); `fns` is what the functions of the file return or raise. -/
def answer (st : State) (fns : Nat → Ending) (te : List Nat) (r : Route) : Out :=
  handler r te
    (if r.func % 2 = 1 then
      match st.pre[r.func / 2]? with
      | some s => preflight s
      | none => .baseExc
    else fns (r.func / 2))

end Fly.PyCors
