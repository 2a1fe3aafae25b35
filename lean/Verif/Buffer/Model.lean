import Verif.Basic

/-! # Model of `src/buffer.c` — the chained connection buffer

A buffer is a list of fixed-size chunks.  A chunk keeps its whole storage (`store`), including
bytes never written, so reading beyond the received data is visible in the model.
`none`/`crash` stands for a NULL dereference in the C code.

Simplifications: allocation never fails; lengths are unbounded naturals. -/

namespace Fly.Buffer

/-- `FLY_BUF_FULL/HALF/EMPTY`, src/buffer.h:9-11. -/
inductive Status where
  | full | half | empty
  deriving DecidableEq, Repr

/-- `struct fly_buffer_chain`, src/buffer.h:14-26.  `store` is the memory `ptr … lptr`
(`len = store.length`), `useOff = use_ptr - ptr`, `filled = len - unuse_len` (`unuse_ptr` is
`ptr + filled`, or `lptr` when the chunk is full). -/
structure Chunk where
  store : Bytes
  useOff : Nat
  filled : Nat
  status : Status
  deriving DecidableEq, Repr

/-- `struct fly_buffer`, src/buffer.h:28-38.  `chain_count` is modelled by the length of the list
(every list update in buffer.c is paired with the counter update, lines 72-73 and 79-81). -/
structure Buf where
  chunks : List Chunk
  chainMax : Nat
  perLen : Nat
  useLen : Nat
  deriving DecidableEq, Repr

/-- A freshly allocated chunk; `mem` is whatever the allocator returned (src/buffer.c:61-70). -/
def Chunk.fresh (mem : Bytes) : Chunk := ⟨mem, 0, 0, .empty⟩

/-- `unuse_len` of a chunk. -/
def Chunk.unuseLen (c : Chunk) : Nat := c.store.length - c.filled

/-- `fly_buffer_add_chain`, src/buffer.c:53-75; `mem` is the new storage of `per_len` bytes.
`none` = `FLY_BUF_ADD_CHAIN_LIMIT`. -/
def addChain (mem : Nat → Bytes) (b : Buf) : Option Buf :=
  if b.chunks.length ≥ b.chainMax then none
  else some { b with chunks := b.chunks ++ [Chunk.fresh (mem b.perLen)] }

/-- `fly_buffer_init`, src/buffer.c:10-36: `init_len` empty chunks (`none` = NULL). -/
def init (mem : Nat → Bytes) (initLen chainMax perLen : Nat) : Option Buf :=
  let rec go : Nat → Buf → Option Buf
    | 0, b => some b
    | n + 1, b => (addChain mem b).bind (go n)
  go initLen ⟨[], chainMax, perLen, 0⟩

/-- Result of `fly_update_buffer`. -/
inductive Upd where
  | success (b : Buf)
  | limit (b : Buf)
  deriving DecidableEq, Repr

/-- Replace the last chunk. -/
def setLast (cs : List Chunk) (c : Chunk) : List Chunk := cs.dropLast ++ [c]

/-- Loop of `fly_update_buffer`, src/buffer.c:117-163, with `i` bytes left to account.  `fuel` is
`chain_max - chain_count`; when it is exhausted `fly_buffer_add_chain` reports the limit.
`last` is `fly_buffer_last_chain`. -/
def updateLoop (mem : Nat → Bytes) : Nat → Buf → Chunk → Nat → Upd
  | fuel, b, last, i =>
    if i ≥ last.unuseLen then
      -- 120-126: mark the chunk full
      let b1 := { b with
        useLen := b.useLen + last.unuseLen,
        chunks := setLast b.chunks { last with filled := last.store.length, status := .full } }
      match fuel with
      | 0 => .limit b1                                            -- 137-138
      | fuel' + 1 =>
        let new := Chunk.fresh (mem b.perLen)
        updateLoop mem fuel' { b1 with chunks := b1.chunks ++ [new] } new (i - last.unuseLen)
    else if i = 0 then .success b
    else
      -- 148-153
      .success { b with
        useLen := b.useLen + i,
        chunks := setLast b.chunks { last with filled := last.filled + i, status := .half } }

/-- `fly_update_buffer`, src/buffer.c:112-164 (`none`: the buffer has no chunk). -/
def updateBuffer (mem : Nat → Bytes) (b : Buf) (len : Nat) : Option Upd :=
  match b.chunks.getLast? with
  | none => none
  | some last => some (updateLoop mem (b.chainMax - b.chunks.length) b last len)

/-- Overwrite `bs` at offset `off` of the storage. -/
def writeAt (store : Bytes) (off : Nat) (bs : Bytes) : Bytes :=
  store.take off ++ bs ++ store.drop (off + bs.length)

/-- Room offered to `recv`: `fly_buffer_lunuse_len`, src/buffer.h:108-112. -/
def room (b : Buf) : Nat :=
  match b.chunks.getLast? with
  | none => 0
  | some c => c.unuseLen

/-- `recv(fd, lunuse_ptr, lunuse_len, …)` followed by `fly_update_buffer` (src/request.c:1047-1119):
the kernel writes `bs` (at most `room` bytes) at `unuse_ptr`. -/
def receive (mem : Nat → Bytes) (b : Buf) (bs : Bytes) : Option Upd :=
  match b.chunks.getLast? with
  | none => none
  | some c =>
    updateBuffer mem
      { b with chunks := setLast b.chunks { c with store := writeAt c.store c.filled bs } } bs.length

/-- Bytes from `use_ptr` to `lptr` (written or not): `fly_buf_act_len`, src/buffer.h:127. -/
def Chunk.region (c : Chunk) : Bytes := c.store.drop c.useOff

/-- Counting loop of `fly_buffer_chain_release_from_length`, src/buffer.c:385-394: the number of
leading chunks that are given back and their total length. -/
def releaseCount : List Chunk → Nat → Nat → Nat × Nat
  | [], total, _ => (0, total)
  | c :: rest, total, len =>
    if total + c.region.length ≤ len then
      match rest with
      | [] => (1, total + c.region.length)                           -- 390-391
      | _ :: _ =>
        let r := releaseCount rest (total + c.region.length) len
        (r.1 + 1, r.2)
    else (0, total)

/-- `fly_buffer_chain_release_from_length` called on the first chunk, src/buffer.c:374-430.
`none`: all chunks were released and `__n->use_ptr` dereferences NULL (406). -/
def release (b : Buf) (len : Nat) : Option Buf :=
  match b.chunks with
  | [] => none
  | c :: rest =>
    if c.region.length > len then                                     -- 376-380
      some { b with chunks := { c with useOff := c.useOff + len } :: rest, useLen := b.useLen - len }
    else
      let r := releaseCount (c :: rest) 0 len
      let freed := ((c :: rest).take r.1).foldl (fun a x => a + x.region.length) 0
      match (c :: rest).drop r.1 with
      | [] => none
      | n :: more =>
        let left := len - r.2
        some { b with
          chunks := { n with useOff := left } :: more                  -- use_ptr = ptr + left, 406
          useLen := b.useLen - freed - left }

/-! ## Pointers into the chain

A pointer `p` inside a chunk is represented by the bytes from `p` to the end of its chunk and the
chunks that follow (each from its `use_ptr`). -/

structure Cursor where
  cur : Bytes
  rest : List Bytes
  deriving DecidableEq, Repr

/-- All bytes from the pointer to the end of the last chunk. -/
def Cursor.flat (c : Cursor) : Bytes := c.cur ++ c.rest.flatten

/-- `fly_buffer_first_useptr`, src/buffer.h:96-100 (`none`: no chunk). -/
def firstPtr (b : Buf) : Option Cursor :=
  match b.chunks with
  | [] => none
  | c :: rest => some ⟨c.region, rest.map Chunk.region⟩

/-- `__fly_bufp_inc`, src/buffer.c:166-179: next byte, moving to the next chunk at the end of this
one; at the very end the pointer is left unchanged. -/
def Cursor.inc (c : Cursor) : Cursor :=
  match c.cur, c.rest with
  | _ :: y :: t, rest => ⟨y :: t, rest⟩
  | _, r :: rs => ⟨r, rs⟩
  | cur, [] => ⟨cur, []⟩

/-- `__fly_bufp_end`, src/buffer.c:181-188: last chunk and `ptr >= lptr`. -/
def Cursor.atEnd (c : Cursor) : Bool := c.rest.isEmpty && (c.cur.length ≤ 1)

/-- Search loop of `__fly_buffer_strstr` with `FLY_BUFFER_STRSTR_AFTER`, src/buffer.c:191-225.
`s` is the part of `str` still to match.  After a mismatch the mismatching byte is skipped and the
search restarts (no backtracking). `fuel` bounds the number of steps by the bytes left. -/
def strstrAfter (str : Bytes) : Nat → Bytes → Cursor → Option Cursor
  | 0, _, _ => none
  | fuel + 1, s, c =>
    match c.cur, s with
    | x :: _, y :: s' =>
      if x = y then
        let c' := c.inc
        if s' = [] then some c'                    -- 204-207
        else if c'.atEnd then none                 -- 212-214
        else strstrAfter str fuel s' c'
      else
        let c' := c.inc                            -- 219
        if c'.atEnd then none                      -- 221-222
        else strstrAfter str fuel str c'
    | _, _ => none

/-- `fly_buffer_strstr_after` from the first chunk. -/
def findAfter (c : Cursor) (str : Bytes) : Option Cursor :=
  strstrAfter str c.flat.length str c

/-- Pointer identity: same chunk (same number of chunks behind) and same offset. -/
def Cursor.same (a b : Cursor) : Bool :=
  a.rest.length = b.rest.length && a.cur.length = b.cur.length

/-- Walk of `fly_buffer_ptr_len`, src/buffer.c:238-272: `p1 - p2` measured along the chain,
0 if they are not both found.  `fuel` is the number of bytes from `ptr` to the end. -/
def ptrLenGo (p1 p2 : Cursor) : Nat → Cursor → Bool → Bool → Int → Int
  | 0, _, _, _, _ => 0
  | fuel + 1, ptr, f1, f2, len =>
    let f1' := f1 || ptr.same p1
    let f2' := f2 || (!ptr.same p1 && ptr.same p2)
    if f1' && f2' then len
    else
      let len' := if f1' then len - 1 else if f2' then len + 1 else len
      if ptr.atEnd then 0 else ptrLenGo p1 p2 fuel ptr.inc f1' f2' len'

/-- `fly_buffer_ptr_len`. -/
def ptrLen (first p1 p2 : Cursor) : Int :=
  ptrLenGo p1 p2 first.flat.length first false false 0

/-- `fly_buffer_memcpy` from a pointer inside the chunk, src/buffer.c:319-342.  After the last byte
of a chunk the next chunk is dereferenced even when no byte is left to copy. -/
def memcpy : Nat → Cursor → Option Bytes
  | 0, _ => some []
  | n + 1, c =>
    match c.cur, c.rest with
    | x :: y :: t, rest => (memcpy n ⟨y :: t, rest⟩).map (x :: ·)
    | [x], r :: rs => (memcpy n ⟨r, rs⟩).map (x :: ·)
    | [_], [] => none
    | [], _ => none

/-- `fly_update_chain`, src/buffer.c:92-110: advance a pointer by `len` bytes; `none` = NULL. -/
def advance (c : Cursor) (len : Nat) : Option Cursor :=
  if len < c.cur.length then some ⟨c.cur.drop len, c.rest⟩
  else go (len - c.cur.length + 1) c.rest
where
  /-- Loop 98-106: `__len` bytes beyond `lptr`; uses the chunk's full length `len`. -/
  go : Nat → List Bytes → Option Cursor
    | _, [] => none
    | l, r :: rs => if l ≤ r.length then some ⟨r.drop (l - 1), rs⟩ else go (l - r.length) rs

/-- Result of `fly_buffer_memcmp` (src/buffer.h:141-144); `BIG`/`SMALL` are merged into `differ`. -/
inductive MemCmp where
  | equal | differ | overflow | crash
  deriving DecidableEq, Repr

/-- Loop of `fly_buffer_memcmp`, src/buffer.c:285-304.  `cur` is the rest of the current chunk, `k`
how many of its bytes were received, `half` whether its status is `FLY_BUF_HALF`.  The byte is
compared before the "not received yet" test, and only a `HALF` chunk is tested. -/
def memcmpGo : Bytes → Bytes → Nat → Bool → List Chunk → MemCmp
  | [], _, _, _, _ => .equal
  | d :: ds, cur, k, half, rest =>
    match cur with
    | [] => .crash
    | x :: xs =>
      if d ≠ x then .differ
      else if x = 0 then .equal
      else if half && k = 0 then .overflow
      else
        match xs, rest with
        | y :: ys, _ => memcmpGo ds (y :: ys) (k - 1) half rest
        | [], c :: cs => memcmpGo ds c.region (c.filled - c.useOff) (c.status = .half) cs
        | [], [] => .crash                                       -- 299-300 on the last chunk

/-- `fly_buffer_memcmp(dist, fly_buffer_first_useptr(b), fly_buffer_first_chain(b), strlen(dist))`. -/
def memcmpFirst (b : Buf) (dist : Bytes) : MemCmp :=
  match b.chunks with
  | [] => .crash
  | c :: cs => memcmpGo dist c.region (c.filled - c.useOff) (c.status = .half) cs

/-- `FLY_CONNECTION_PREFACE`, src/v2.h ("PRI * HTTP/2.0\r\n\r\nSM\r\n\r\n"). -/
def preface : Bytes := b!"PRI * HTTP/2.0\r\n\r\nSM\r\n\r\n"

/-- `fly_hv2_init_connection_preface`, src/v2.c:431-447. -/
inductive Preface where
  | wait | error | ok | crash
  deriving DecidableEq, Repr

def initPreface (b : Buf) : Preface :=
  match memcmpFirst b preface with
  | .overflow => .wait
  | .equal => .ok
  | .differ => .error
  | .crash => .crash

/-- `FLY_REQUEST_LINE_MAX`, src/request.h. -/
def requestLineMax : Nat := 8000

/-- Result of the line extraction in `__fly_request_operation`. -/
inductive LineOut where
  | notReady                     -- no CRLF yet
  | tooLong                      -- 414
  | line (l : Bytes)             -- the line including its CRLF, handed to the parser
  | crash
  deriving DecidableEq, Repr

/-- `__fly_request_operation` up to the parser call, src/request.c:642-667: find the end of the
line, measure it, refuse it when too long, else copy it.  The buffer is released by
`release b l.length` after a successful parse (673). -/
def takeLine (b : Buf) : LineOut :=
  match firstPtr b with
  | none => .crash
  | some p =>
    match findAfter p [13, 10] with
    | none => .notReady
    | some e =>
      let len := (ptrLen p e p).toNat
      if len ≥ requestLineMax then .tooLong
      else
        match memcpy len p with
        | some l => .line l
        | none => .crash

end Fly.Buffer
