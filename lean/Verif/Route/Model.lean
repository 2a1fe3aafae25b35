import Verif.Request.Model

/-! # Routes: src/route.c

A route's path is a NUL-terminated string without NUL bytes (pyserver.c:1038), modelled by its bytes.  Reading the
request path behind its length, or the route path behind its terminator, is the outcome `outside`.
Allocation succeeds. -/

namespace Fly.Route
open Req (Method alpha numeral)

/-- `enum fly_path_param_type`, src/uri.h:15-21, as far as it is produced. -/
inductive PType where
  | int | float | bool | str
  deriving DecidableEq, Repr

/-- `struct fly_param`, src/uri.h:23-31: name, type and value. -/
structure Param where
  var : Bytes
  type : PType
  value : Bytes
  deriving DecidableEq, Repr

/-! ## Parsing `{ name : type }` -/

/-- `fly_space || fly_ht`. -/
def blank (c : Nat) : Bool := c == 32 || c == 9

/-- `fly_pp_var_first`, src/route.c:137-140. -/
def varFirst (c : Nat) : Bool := alpha c || c == 95

/-- `fly_pp_var`, src/route.c:141-144. -/
def varChar (c : Nat) : Bool := alpha c || numeral c || c == 95

/-- `fly_pp_get_type`, src/route.c:145-169, at the rest `p` of the path; each type name must be followed by
another byte. -/
def getType (p : Bytes) : Option PType :=
  if 3 < p.length && (b!"int").isPrefixOf p then some .int
  else if 5 < p.length && (b!"float").isPrefixOf p then some .float
  else if 4 < p.length && (b!"bool").isPrefixOf p then some .float
  else if 3 < p.length && (b!"str").isPrefixOf p then some .str
  else none

/-- States of the parser, src/route.c:224-233. -/
inductive PS where
  | start | space | var (acc : Bytes) | varSpace (acc : Bytes) | colon (acc : Bytes)
  deriving DecidableEq, Repr

/-- The loop of `fly_rr_parse_path_param`, src/route.c:244-331, on the bytes behind `{`; `none` is a syntax error.
The last byte of the path must be `}` to be stepped over (327-329). -/
def parseOne : PS → Bytes → Option (Bytes × PType)
  | _, [] => none
  | .start, c :: r =>
    if blank c then (if r = [] then none else parseOne .space r)
    else if varFirst c then (if r = [] then none else parseOne (.var [c]) r)
    else none
  | .space, c :: r =>
    if blank c then (if r = [] then none else parseOne .space r)
    else if varFirst c then (if r = [] then none else parseOne (.var [c]) r)
    else none
  | .var acc, c :: r =>
    if varChar c then (if r = [] then none else parseOne (.var (acc ++ [c])) r)
    else if blank c then (if r = [] then none else parseOne (.varSpace acc) r)
    else if c == 58 then (if r = [] then none else parseOne (.colon acc) r)
    else if c == 125 then some (acc, .str)
    else none
  | .varSpace acc, c :: r =>
    if blank c then (if r = [] then none else parseOne (.varSpace acc) r)
    else if c == 58 then (if r = [] then none else parseOne (.colon acc) r)
    else if c == 125 then some (acc, .str)
    else none
  | .colon acc, c :: r =>
    if blank c then (if r = [] then none else parseOne (.colon acc) r)
    else if alpha c then (match getType (c :: r) with | some t => some (acc, t) | none => none)
    else none

/-- Return codes of registration, src/route.h:50-53. -/
inductive RegErr where
  | noBracket | syntax | noMethod
  deriving DecidableEq, Repr

/-- `fly_rr_parse_path_param`, src/route.c:186-352: every `{` of the path.  (`memchr` for `}` gets the length of the
whole path and may look behind its end; only the path itself is searched here.) -/
def parseParams : Bytes → Except RegErr (List Param)
  | [] => .ok []
  | c :: r =>
    if c == 123 then
      (if (125 : Nat) ∉ r then .error .noBracket
       else
        match parseOne .start r with
        | none => .error .syntax
        | some (v, t) =>
          match parseParams r with
          | .error e => .error e
          | .ok ps => .ok (⟨v, t, []⟩ :: ps))
    else parseParams r

/-- `struct fly_route`, src/route.h:22-32; `fn` names the function and its data. -/
structure Route where
  uri : Bytes
  method : Method
  params : List Param
  fn : Nat
  deriving DecidableEq, Repr

/-- `fly_register_route`, src/route.c:33-115.  The method comes from a table, so it exists. -/
def register (rs : List Route) (uri : Bytes) (m : Method) (fn : Nat) : Except RegErr (List Route) :=
  match parseParams uri with
  | .error e => .error e
  | .ok ps => .ok (rs ++ [⟨uri, m, ps, fn⟩])

/-! ## Looking up -/

inductive MR where
  | yes | no | outside
  deriving DecidableEq, Repr

/-- Position of the first `c` (`memchr`). -/
def pos (c : Nat) : Bytes → Option Nat
  | [] => none
  | x :: r => if x == c then some 0 else (pos c r).map (· + 1)

/-- `fly_match_param_uri`, src/route.c:354-426, with `__i` and `__j`: the path is `u`, `after` are the bytes behind it
in the request line's buffer, `r` is the path of the route.  `__i` grows in every iteration, so the length of the path
is enough fuel.  Line 415 adds the distance of the slash from the beginning of the path. -/
def matchFrom (u after r : Bytes) : Nat → Nat → Nat → MR
  | 0, _, _ => .no
  | f + 1, i, j =>
    if i < u.length then
      match (r ++ [0])[j]? with
      | none => .outside
      | some c =>
        if c == 123 then
          match pos 47 (r.drop j), pos 47 (u.drop i) with
          | none, some _ => .no
          | some _, none => .no
          | none, none => .yes
          | some _, some k =>
            match pos 125 (r.drop j) with
            | none => .outside
            | some l =>
              match (u ++ after)[i + (i + k)]? with
              | none => .outside
              | some x => if x == 125 then matchFrom u after r f (i + (i + k) + 1) (j + l + 1) else .no
        else
          match u[i]? with
          | none => .outside
          | some x => if x == c then matchFrom u after r f (i + 1) (j + 1) else .no
    else if j = r.length then .yes else .no

def matchParam (u after r : Bytes) : MR := matchFrom u after r (u.length + 1) 0 0

/-- `fly_found_route`, src/route.c:428-451; `none` in the outer option is `outside`. -/
def found (u after : Bytes) (m : Method) : List Route → Option (Option Route)
  | [] => some none
  | r :: rs =>
    if r.params = [] then
      (if r.uri.length = u.length ∧ r.uri = u ∧ r.method = m then some (some r) else found u after m rs)
    else
      match matchParam u after r.uri with
      | .outside => none
      | .yes => some (some r)
      | .no => found u after m rs

/-- `fly_parse_path_params_from_request`, src/route.c:522-588: the parameters given to the handler.  The `none`s are
a parameter number without registered parameter (`-1`, answered 500) and a missing slash in the route (NULL
pointer arithmetic). -/
def bindFrom (u r : Bytes) (ps : List Param) : Nat → Nat → Nat → Nat → List Param → Option (List Param)
  | 0, _, _, _, acc => some acc
  | f + 1, i, j, k, acc =>
    if i < u.length then
      match (r ++ [0])[j]? with
      | none => none
      | some c =>
        if c == 123 then
          match ps[k]? with
          | none => none
          | some p =>
            match pos 47 (u.drop i) with
            | none => some (acc ++ [{ p with value := u.drop i }])
            | some n =>
              match pos 47 (r.drop j) with
              | none => none
              | some l => bindFrom u r ps f (i + n + 1) (j + l + 1) (k + 1) (acc ++ [{ p with value := (u.drop i).take n }])
        else bindFrom u r ps f (i + 1) (j + 1) k acc
    else some acc

def bind (u : Bytes) (r : Route) : Option (List Param) :=
  if r.params = [] then some [] else bindFrom u r.uri r.params (u.length + 1) 0 0 0 []

/-- `fly_valid_method`, src/route.c:453-497: GET and the other methods of every route whose path is a prefix of
`line`, the memory at the request path (the path and what follows it in the request line). -/
def validMethods (rs : List Route) (line : Bytes) : List Method :=
  .get :: (rs.filter fun r => r.uri.isPrefixOf line && r.method != .get).map (·.method)

/-- `fly_add_allow`, src/header.c:535-580: the value of the Allow field. -/
def allowValue (rs : List Route) (line : Bytes) : Bytes :=
  ((validMethods rs line).map fun m => ((Req.methods.find? fun x => x.2 == m).map (·.1)).getD []) |> List.intersperse b!", " |> List.flatten

end Fly.Route
