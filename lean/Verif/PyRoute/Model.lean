import Verif.Basic

/-!
# Model of the application's route table, its start and the route handlers

Models `fly/route.py`, `fly/cors.py` (`_Cors`), `fly/app.py` (`route`, `_start_server`), the
`--production` switch of `fly/main.py` and `_BaseRoute` of `fly/_base.py`.

A Python `str` is the list of its code points.  A Python list that a loop changes while it walks it
is walked by index, as CPython's list iterator does.

Simplifications:
* arguments of the wrong type (`TypeError` before anything is done) are not modelled;
* `str.lower` is modelled on ASCII letters (header names are ASCII);
* a function is a number; its `_BaseRoute` object belongs to one route only (each registration makes
  a new one), so its two header lists are fields of the route.  A function that already carries a
  `default_headers` attribute of its own is not modelled.
-/

namespace Fly.PyRoute

abbrev Str := List Nat

/-- One entry of a header list, `{"name": …, "value": …}`. -/
structure Hdr where
  name : Str
  value : Str
  deriving DecidableEq, Repr

/-- One entry of `Route._routes` (fly/route.py:58-67) with the parts of its `_BaseRoute`
(fly/_base.py:17-27) that matter: `baseDebug` is `_debug`, `headers` is `_default_headers`,
`debugNames` is `_only_debug_default_headers`. -/
structure Route where
  uri : Str
  method : Str
  func : Nat
  debugRoute : Bool
  onlyDebug : Bool
  baseDebug : Bool
  headers : List Hdr
  debugNames : List Str
  deriving DecidableEq, Repr

/-! ## Registration -/

/-- `re.match(r"^/(.*/?)*$", uri)` and `group(0)` (fly/route.py:9,46-51): `.` does not match a
newline and `$` also matches before a final newline, so the text must begin with `/` and have no
newline except possibly one at its very end, which is not part of `group(0)`. -/
def matchUri (uri : Str) : Option Str :=
  match uri with
  | 47 :: r =>
    if r.dropWhile (· ≠ 10) = [] then some (47 :: r)
    else if r.dropWhile (· ≠ 10) = [10] then some (47 :: r.takeWhile (· ≠ 10))
    else none
  | _ => none

/-- `re.sub(r"(/{2,})", '/', uri)` (fly/route.py:10,53): every run of slashes becomes one.  `p` says
whether the character before was a slash. -/
def collapse (p : Bool) : Str → Str
  | [] => []
  | c :: r =>
    if c = 47 then (if p then collapse true r else 47 :: collapse true r)
    else c :: collapse false r

/-- What a caller passes to `register_route` (fly/route.py:19-27); `func = none` is Python's `None`. -/
structure Reg where
  uri : Str
  method : Str
  func : Option Nat
  debug : Bool
  debugRoute : Bool
  onlyDebug : Bool
  deriving DecidableEq, Repr

/-- `Route.register_route` (fly/route.py:45-72).  `none` is a `ValueError`: the address does not
match, the function is `None` (fly/_base.py:12-13) or the route exists already. -/
def register (rs : List Route) (q : Reg) : Option (List Route) :=
  match matchUri q.uri with
  | none => none
  | some u0 =>
    match q.func with
    | none => none
    | some f =>
      if rs.any (fun r => r.method == q.method && r.uri == collapse false u0) then none
      else some (rs ++ [{ uri := collapse false u0, method := q.method, func := f,
                          debugRoute := q.debugRoute, onlyDebug := q.onlyDebug,
                          baseDebug := q.debug, headers := [], debugNames := [] }])

/-- The table after an attempt; a `ValueError` the caller catches leaves it as it was. -/
def attempt (rs : List Route) (q : Reg) : List Route := (register rs q).getD rs

/-- A history of attempts on a new application (fly/route.py:11-13). -/
def history (qs : List Reg) : List Route := qs.foldl attempt []

/-- `Fly.route` as a decorator (fly/app.py:174-213): nothing is registered for a debug route when the
application is not in debug mode; otherwise the application's own debug flag is handed on. -/
def appRoute (appDebug : Bool) (rs : List Route) (path method : Str) (f : Nat)
    (debugRoute onlyDebug : Bool) : Option (List Route) :=
  if !appDebug && debugRoute then some rs
  else register rs { uri := path, method := method, func := some f, debug := appDebug,
                     debugRoute := debugRoute, onlyDebug := onlyDebug }

/-! ## Application-wide CORS -/

/-- The settings kept by `_Cors.__init__` (fly/cors.py:291-297), without `max_age`, which only the
`OPTIONS` handler uses. -/
structure Cors where
  origin : Str
  methods : List Str
  allow : List Str
  expose : List Str
  credentials : Bool
  onlyDebug : Bool
  deriving DecidableEq, Repr

def acao : Str := b!"Access-Control-Allow-Origin"
def acam : Str := b!"Access-Control-Allow-Methods"
def acah : Str := b!"Access-Control-Allow-Headers"
def aceh : Str := b!"Access-Control-Expose-Headers"
def acac : Str := b!"Access-Control-Allow-Credentials"

/-- `','.join(l)`. -/
def commaJoin : List Str → Str
  | [] => []
  | [a] => a
  | a :: l => a ++ 44 :: commaJoin l

/-- The headers `_apply_route` appends to `default_headers` (fly/cors.py:318-354). -/
def corsHeaders (c : Cors) : List Hdr :=
  [⟨acao, c.origin⟩] ++
  (if c.methods.length > 0 then [⟨acam, commaJoin c.methods⟩] else []) ++
  (if c.allow.length > 0 then [⟨acah, commaJoin c.allow⟩] else []) ++
  (if c.expose.length > 0 then [⟨aceh, commaJoin c.expose⟩] else []) ++
  (if c.credentials then [⟨acac, b!"true"⟩] else [])

/-- The names it appends to `only_debug_default_headers` (fly/cors.py:322-358): the first one
always, the others only when the settings are for debugging only. -/
def corsDebugNames (c : Cors) : List Str :=
  [acao] ++
  (if c.methods.length > 0 && c.onlyDebug then [acam] else []) ++
  (if c.allow.length > 0 && c.onlyDebug then [acah] else []) ++
  (if c.expose.length > 0 && c.onlyDebug then [aceh] else []) ++
  (if c.credentials && c.onlyDebug then [acac] else [])

def options : Str := b!"OPTIONS"

/-- The number standing for the handler made by `_option` (fly/cors.py:39-68) for function `f`. -/
def optionOf (f : Nat) : Nat := f + 1000000

/-- `_Cors._apply_route` (fly/cors.py:299-358) for the route at index `i`: register an `OPTIONS`
route through `app.options`, then append the headers to the route.  `none`: an exception escapes. -/
def applyRoute (appDebug : Bool) (c : Cors) (rs : List Route) (i : Nat) (r : Route) :
    Option (List Route) :=
  match appRoute appDebug rs r.uri options (optionOf r.func) r.debugRoute c.onlyDebug with
  | none => none
  | some rs1 => some (rs1.set i { r with headers := r.headers ++ corsHeaders c,
                                         debugNames := r.debugNames ++ corsDebugNames c })

/-- The loop of `_Cors.apply_route` (fly/cors.py:364-376) at index `i`; `fuel` bounds the number of
rounds, running out of it is `none` (as is an escaping exception). -/
def corsLoop (appDebug : Bool) (c : Cors) : Nat → List Route → Nat → Option (List Route)
  | 0, _, _ => none
  | fuel + 1, rs, i =>
    match rs[i]? with
    | none => some rs
    | some r =>
      if r.method = options then corsLoop appDebug c fuel rs (i + 1)
      else if rs.any (fun j => j.uri == r.uri && j.method == options) then
        corsLoop appDebug c fuel rs (i + 1)
      else
        match applyRoute appDebug c rs i r with
        | none => none
        | some rs1 => corsLoop appDebug c fuel rs1 (i + 1)

/-- `_Cors.apply_route` (fly/cors.py:360-376).  Each round adds at most one route, and none for an
`OPTIONS` route, so twice the number of routes bounds the rounds. -/
def applyCors (appDebug : Bool) (c : Cors) (rs : List Route) : Option (List Route) :=
  corsLoop appDebug c (2 * rs.length + 1) rs 0

/-! ## Start -/

/-- `Route._production_routes` (fly/route.py:113-124). -/
def productionRoutes (appDebug : Bool) (rs : List Route) : List Route :=
  if appDebug then rs else rs.filter (fun r => !r.debugRoute)

/-- The inner loop of `remove_default_headers_with_debug` (fly/_base.py:115-117) at index `k`: the
list is changed while it is walked, `remove` takes out the first equal entry. -/
def stripName (n : Str) : Nat → List Hdr → Nat → List Hdr
  | 0, hs, _ => hs
  | fuel + 1, hs, k =>
    match hs[k]? with
    | none => hs
    | some h => if n = h.name then stripName n fuel (hs.erase h) (k + 1)
                else stripName n fuel hs (k + 1)

/-- `_BaseRoute.remove_default_headers_with_debug` (fly/_base.py:113-117). -/
def strip (r : Route) : Route :=
  { r with headers := r.debugNames.foldl (fun hs n => stripName n (hs.length + 1) hs 0) r.headers }

/-- The loop of `Route.remove_only_debug_headers` (fly/route.py:130-138) at index `i`: removing a
route from the list that is being walked makes the walk skip the next one.  (The headers of a
removed route are cleaned too; nobody uses them any more.) -/
def sweep : Nat → List Route → Nat → List Route
  | 0, rs, _ => rs
  | fuel + 1, rs, i =>
    match rs[i]? with
    | none => rs
    | some r => if r.onlyDebug then sweep fuel (rs.eraseIdx i) (i + 1)
                else sweep fuel (rs.set i (strip r)) (i + 1)

/-- `Route.remove_only_debug_headers` (fly/route.py:126-138). -/
def removeOnlyDebug (appDebug : Bool) (rs : List Route) : List Route :=
  if appDebug then rs else sweep (rs.length + 1) rs 0

/-- The part of `Fly._start_server` that decides which routes are served (fly/app.py:268-276,
378-380).  `cors = none`: `CORS(app)` was not called.  The result is what `_configure` gets. -/
def start (appDebug : Bool) (cors : Option Cors) (rs : List Route) : Option (List Route) :=
  match cors with
  | none => some (removeOnlyDebug appDebug (productionRoutes appDebug rs))
  | some c =>
    match applyCors appDebug c (productionRoutes appDebug rs) with
    | none => none
    | some rs1 => some (removeOnlyDebug appDebug rs1)

/-- An application: its `_debug` flag (fly/app.py:154-160) and its routes. -/
structure App where
  debug : Bool
  routes : List Route
  deriving DecidableEq, Repr

/-- Running an application file with the `fly` command (fly/main.py:240-255, 307-320): the module is
loaded, which makes the application and registers its routes, and only then `--production` switches
the application's flag off. -/
def runCommand (production : Bool) (app : App) : App :=
  if production then { app with debug := false } else app

/-! ## Calling a handler -/

/-- How the application's function ends.  `other` stands for a value of any other type, `exc` for an
exception with its traceback as formatted by Python, `baseExc` for `SystemExit`,
`KeyboardInterrupt` and other exceptions that are not `Exception`s. -/
inductive Ending where
  | response (status : Int) (headers : List Hdr) (body : List Nat)
  | text (s : Str)
  | bytes (b : List Nat)
  | noneVal
  | other
  | httpExc (status : Int) (message : Str) (headers : List Hdr)
  | exc (traceback : List Nat)
  | baseExc
  deriving DecidableEq, Repr

/-- What the C side gets from the handler. -/
inductive Out where
  | response (status : Int) (headers : List Hdr) (body : List Nat)
  | text (s : Str)
  | bytes (b : List Nat)
  | noneVal
  | other
  /-- an exception escapes -/
  | raises
  deriving DecidableEq, Repr

/-- ASCII `str.lower`. -/
def lowerC (c : Nat) : Nat := if 65 ≤ c ∧ c ≤ 90 then c + 32 else c
def lower (s : Str) : Str := s.map lowerC

/-- The bytes of `s.encode("utf-8")` for one code point (CPython; surrogates raise and are not
modelled). -/
def utf8c (c : Nat) : List Nat :=
  if c < 0x80 then [c]
  else if c < 0x800 then [0xC0 + c / 64, 0x80 + c % 64]
  else if c < 0x10000 then [0xE0 + c / 4096, 0x80 + c / 64 % 64, 0x80 + c % 64]
  else [0xF0 + c / 262144, 0x80 + c / 4096 % 64, 0x80 + c / 64 % 64, 0x80 + c % 64]
def utf8 (s : Str) : List Nat := s.flatMap utf8c

/-- The loop over the default headers (fly/_base.py:91-101). -/
def addDefaults (res : List Hdr) (defaults : List Hdr) : List Hdr :=
  defaults.foldl (fun hs i =>
    if hs.any (fun j => lower j.name == lower i.name) then hs else hs ++ [i]) res

/-- `Response.__init__` (fly/response.py:49-71): the `header` argument is checked and dropped, the
object starts with an empty header list; a missing body is empty. -/
def newResponse (status : Int) (_header : Option (List Hdr)) (body : Option (List Nat)) : Ending :=
  .response status [] (body.getD [])

/-- `Response.add_header`: append one entry. -/
def addHeader (e : Ending) (h : Hdr) : Ending :=
  match e with
  | .response st hs b => .response st (hs ++ [h]) b
  | e => e

/-- `res` when the `finally` block begins (fly/_base.py:40-82); `none`: `res` was never assigned. -/
def bodyOf (debug : Bool) (typeError : List Nat) (e : Ending) : Option Out :=
  match e with
  | .response st hs b => some (.response st hs b)
  | .text s => some (.text s)
  | .bytes b => some (.bytes b)
  | .noneVal => some .noneVal
  | .other => if debug then some (.response 500 [] typeError) else some .other
  | .httpExc st m hs => some (.response st hs (if m.length > 0 then utf8 m else []))
  | .exc t => some (.response 500 [] (if debug then t else []))
  | .baseExc => none

/-- `_BaseRoute.handler` (fly/_base.py:39-102).  `typeError` is the traceback text of the `TypeError`
raised in debug mode for a result of an unexpected type.  The `return` of the `finally` block
replaces an exception that is under way, unless the block itself raises. -/
def handler (r : Route) (typeError : List Nat) (e : Ending) : Out :=
  match bodyOf r.baseDebug typeError e with
  | none => .raises
  | some res =>
    if r.headers.length > 0 then
      match res with
      | .response st hs b => .response st (addDefaults hs r.headers) b
      | .text s => .response 200 (addDefaults [] r.headers) (utf8 s)
      | .bytes b => .response 200 (addDefaults [] r.headers) b
      | .noneVal => .response 200 (addDefaults [] r.headers) []
      | .other => .raises
      | .raises => .raises
    else res

end Fly.PyRoute
