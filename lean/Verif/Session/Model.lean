import Verif.PyArgs.Model

/-! # Cookies over several responses and requests: fly/response.py, fly/cookie.py, fly/_parse.py

The field values travel unchanged (C172, C177).  Texts are ASCII. -/

namespace Fly.Session
open Fly.PyArgs (Str Cookie)

/-- `Response.set_cookie`, fly/response.py:97-107: the value of the `Set-Cookie` field that is appended. -/
def setCookie (c : Cookie) : Str := PyArgs.cookieValue c

/-- What a parameter named `param`, annotated as a cookie, gets from the values of the `Cookie` fields of a request:
`RequestParser.parse_cookie` and `_get_cookie`, fly/_parse.py:44-63, 118-125. -/
def cookieParam (param : Str) (cookieFields : List Str) : Option Str :=
  PyArgs.getNamed param (PyArgs.parseCookie cookieFields)

/-- How a parameter has to be named for a cookie: in lower case, with `_` for `-` (`_convert_to_lower`, fly/_parse.py:113-115). -/
def paramName (cookie : Str) : Str := PyArgs.norm cookie

end Fly.Session
