import Verif.Header.Model
import Verif.Response.Model

/-! # Validators of static files (src/cache.c, src/ftime.c)

The MD5 function and the date functions of the C library are parameters. -/

namespace Fly.Cache

open Fly.Header (HList HField cstr strEq)

/-- `__fly_number_of_digits_time`, src/cache.c:8-17: the loop divides until 0 is reached (division rounds
towards 0). -/
def digitsTime (t : Int) : Nat := Response.countDigits t.natAbs t.natAbs

/-- `printf("%ld")`. -/
def printLong (t : Int) : Bytes :=
  if t < 0 then 45 :: Response.decimal t.natAbs else Response.decimal t.natAbs

/-- The text that is hashed (src/cache.c:24-41); `none`: it does not fit in the space counted for it, the
function returns -1. -/
def md5Source (filename : Bytes) (mtime ctime : Int) : Option Bytes :=
  let md5Len := filename.length + digitsTime mtime + digitsTime ctime + 1
  let text := filename ++ printLong mtime ++ printLong ctime
  if text.length ≥ md5Len then none else some text

/-- One hexadecimal digit of `printf`. -/
def hexDigit (n : Nat) : Nat := if n < 10 then 48 + n else 87 + n

/-- `printf("%02x")` of an `unsigned int`: hexadecimal digits, at least two. -/
def printHex : Nat → Nat → Bytes → Bytes
  | 0, _, acc => acc
  | f + 1, n, acc =>
    if n < 16 then
      (if acc.length = 0 then 48 :: hexDigit n :: acc else hexDigit n :: acc)
    else printHex f (n / 16) (hexDigit (n % 16) :: acc)

/-- A `char` passed to `printf` as `unsigned int`: `char` is signed (x86), so bytes from 128 on are extended
with ones. -/
def charArg (b : Nat) : Nat := if b < 128 then b else 4294967296 - 256 + b

/-- `snprintf(&md5[2*i], 3, "%02x", preload[i])`, src/cache.c:52-56: at most two characters are kept. -/
def hexByte (b : Nat) : Bytes := (printHex 8 (charArg b) []).take 2

/-- The entity tag of a digest of 16 bytes (src/cache.c:52-57). -/
def tag (digest : Bytes) : Bytes := (digest.take 16).flatMap hexByte

/-- `__fly_md5_from_hash`, src/cache.c:19-61, with the MD5 function as a parameter. -/
def etag (md5 : Bytes → Bytes) (filename : Bytes) (mtime ctime : Int) : Option Bytes :=
  (md5Source filename mtime ctime).map fun s => tag (md5 s)

/-- `fly_if_none_match`, src/cache.c:131-147.  `none` is `strcmp` on NULL. -/
def ifNoneMatchLoop (etag : Bytes) : List HField → Option Bool
  | [] => some false
  | f :: fs =>
    if 0 < (f.name.getD []).length ∧ cstr (f.name.getD []) = b!"If-None-Match" then
      match strEq f.value etag with
      | none => none
      | some true => some true
      | some false => ifNoneMatchLoop etag fs
    else ifNoneMatchLoop etag fs

def ifNoneMatch (h : HList) (etag : Bytes) : Option Bool :=
  if h.count = 0 then some false else ifNoneMatchLoop etag h.items

/-- `fly_cmp_imt_fixdate`, src/ftime.c:82-99.  `read` stands for `strptime` followed by `mktime`; `none` is a
failure of either. -/
def cmpDate (read : Bytes → Option Int) (t1 t2 : Bytes) : Int :=
  match read t1 with
  | none => -1
  | some a =>
    match read t2 with
    | none => -1
    | some b => if a ≥ b then 1 else 0

/-- `fly_if_modified_since`, src/cache.c:149-167; the first field of that name decides. -/
def ifModifiedSinceLoop (read : Bytes → Option Int) (lastMod : Bytes) : List HField → Option Bool
  | [] => some false
  | f :: fs =>
    if 0 < (f.name.getD []).length ∧ cstr (f.name.getD []) = b!"If-Modified-Since" then
      match f.value with
      | none => none
      | some v => some (decide (cmpDate read (cstr v) lastMod ≥ 0))
    else ifModifiedSinceLoop read lastMod fs

def ifModifiedSince (read : Bytes → Option Int) (h : HList) (lastMod : Bytes) : Option Bool :=
  if h.count = 0 then some false else ifModifiedSinceLoop read lastMod h.items

/-- `response_path`, src/request.c:1600-1606 (HTTP/1) and src/v2.c:4990-4994 (HTTP/2): whether a request for
the file is answered with 304; `none` is a crash. -/
def answers304 (read : Bytes → Option Int) (h : HList) (etag lastMod : Bytes) : Option Bool :=
  match ifNoneMatch h etag with
  | none => none
  | some true => some true
  | some false => ifModifiedSince read h lastMod

end Fly.Cache
