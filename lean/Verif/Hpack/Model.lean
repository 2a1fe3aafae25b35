import Verif.Buffer.Model
import Verif.Hpack.Table

/-! # Model of header compression (HPACK) in `src/v2.c`

`none` is undefined behaviour (NULL dereference, read outside a chunk, failed assert, signed
overflow).  The buffer is read through `Cursor`s (Buffer/Model); the memory behind the received bytes
belongs to the last chunk. -/

namespace Fly.Hpack
open Fly.Buffer

/-! ## Integers -/

/-- Loop of `fly_hv2_integer`, src/v2.c:3912-3927, from the byte under the pointer on.  `1<<power` and
its product with the seven value bits are C `int`s: `power` is 0, 7, .., 28 for the first five bytes
(`fuel`), the next shift is undefined, and so is a product of 2^31 or more.  Result: number, bytes
consumed including `upd`, new pointer. -/
def intLoop : Nat → Cursor → Nat → Nat → Nat → Option (Nat × Nat × Option Cursor)
  | 0, _, _, _, _ => none
  | fuel + 1, c, number, power, upd =>
    match advance c 1 with
    | none => none
    | some c' =>
      match c'.cur with
      | [] => none
      | b :: _ =>
        let part := b % 128 * 2 ^ power
        if 2 ^ 31 ≤ part then none
        else
          let number' := (number + part) % 2 ^ 32
          if 128 ≤ b % 256 then intLoop fuel c' number' (power + 7) (upd + 1)
          else some (number', upd + 2, advance c' 1)

/-- `fly_hv2_integer`, src/v2.c:3900-3937. -/
def decodeInt (prefixBit : Nat) (c : Cursor) : Option (Nat × Nat × Option Cursor) :=
  match c.cur with
  | [] => none
  | b :: _ =>
    if b % 2 ^ prefixBit = 2 ^ prefixBit - 1 then intLoop 5 c (2 ^ prefixBit - 1) 0 0
    else some (b % 2 ^ prefixBit, 1, advance c 1)

/-- The continuation loop of `fly_hv2_set_integer`, src/v2.c:3872-3890 (`now` is divided by 128 every
turn; `fuel` = `now` is more than enough). -/
def encodeCont : Nat → Nat → Bytes
  | 0, now => [now % 128]
  | fuel + 1, now =>
    if 128 ≤ now then (now % 128 + 128) :: encodeCont fuel (now / 128)
    else [now % 128]

/-- `fly_hv2_set_integer`, src/v2.c:3849-3892: the low `prefixBit` bits of the byte `b0` already at the
pointer are cleared and the integer's low byte is ORed in (also when it does not fit, 3866).
The output buffer is modelled as growing without limit. -/
def encodeInt (prefixBit : Nat) (b0 : Nat) (i : Nat) : Bytes :=
  let head := (b0 / 2 ^ prefixBit * 2 ^ prefixBit) ||| (i % 256)
  if i < 2 ^ prefixBit - 1 then [head]
  else head :: encodeCont (i - (2 ^ prefixBit - 1)) (i - (2 ^ prefixBit - 1))

/-! ## Huffman coding -/

/-- The bits of a table entry, first bit first: `fly_huffman_decode_k_bit`, src/v2.c:4492-4498. -/
def codeBits (code len : Nat) : List Bool := (List.range len).map fun k => code.testBit (len - k - 1)

/-- The inner loop of `fly_hv2_huffman_decode`, src/v2.c:4548-4558, comparing the rest of a code with
the input at pointer `c`, bit `j`, `step` bytes into the code.
`some none`: mismatch; `some (some r)`: all bits equal. -/
def matchBits : List Bool → Option Cursor → Nat → Nat → Option (Option (Option Cursor × Nat × Nat))
  | [], c, j, step => some (some (c, j, step))
  | _ :: _, none, _, _ => none
  | b :: bs, some c, j, step =>
    match c.cur with
    | [] => none
    | x :: _ =>
      if x.testBit (7 - j) ≠ b then some none
      else if 8 ≤ j + 1 then matchBits bs (advance c 1) 0 (step + 1)
      else matchBits bs (some c) (j + 1) step

/-- The table loop, src/v2.c:4542-4572: first entry whose code matches; no entry is the failed assert
of 4573-4574. -/
def findCode : List (Nat × Nat × Nat) → Option Cursor → Nat → Option (Nat × Option Cursor × Nat × Nat)
  | [], _, _ => none
  | (sym, code, len) :: es, c, j =>
    match matchBits (codeBits code len) c j 0 with
    | none => none
    | some none => findCode es c j
    | some (some r) => some (sym, r)

/-- `fly_huffman_last_padding`, src/v2.c:4508-4514. -/
def lastPadding (j : Nat) (x : Nat) : Bool := x % 2 ^ (8 - j) == 2 ^ (8 - j) - 1

/-- Loop of `fly_hv2_huffman_decode`, src/v2.c:4531-4575.  `len` is a `uint32_t`; the symbol is stored
as one byte.  Every turn consumes input, so `fuel` = number of bits in the buffer + 1 is enough. -/
def huffLoop : Nat → Nat → Option Cursor → Nat → Bytes → Option Bytes
  | 0, _, _, _, _ => none
  | fuel + 1, len, c, j, out =>
    if len = 0 then some out
    else
      match c with
      | none => none
      | some cu =>
        match cu.cur with
        | [] => none
        | x :: _ =>
          if len = 1 && lastPadding j x then some out
          else
            match findCode huffmanCodes c j with
            | none => none
            | some (sym, c', j', step) =>
              huffLoop fuel ((len + 2 ^ 32 - step) % 2 ^ 32) c' j' (out ++ [sym % 256])

/-- The decode buffer takes 100 chunks of 200 bytes (src/v2.c:4519-4521).  The test for a full buffer
compares with -1 while `fly_update_buffer` reports 0, and copying 20000 bytes out of it dereferences
the chunk after the last: modelled as undefined. -/
def huffCapacity : Nat := 20000

/-- `fly_hv2_huffman_decode`, src/v2.c:4516-4578. -/
def huffDecode (c : Option Cursor) (len : Nat) : Option Bytes :=
  match huffLoop (8 * (c.map fun cu => cu.flat.length).getD 0 + 2) len c 0 [] with
  | none => none
  | some out => if huffCapacity ≤ out.length then none else some out

/-! ## Dynamic table -/

/-- `struct fly_hv2_dynamic_table`, src/v2.h:426-436; nodes are named by numbers, 0 is the list head
`state->dtable`. -/
structure DNode where
  name : Bytes
  value : Bytes
  entrySize : Nat
  prev : Nat
  next : Nat

/-- The dynamic table fields of `fly_hv2_state_t` (src/v2.h:104-109) and its nodes in memory. -/
structure DTab where
  nodes : Nat → DNode
  fresh : Nat
  last : Nat
  count : Nat
  size : Nat
  maxIndex : Nat
  limit : Nat

/-- `FLY_HV2_STATIC_TABLE_LENGTH`. -/
def staticLen : Nat := 61

/-- `fly_hv2_dynamic_table_init`, src/v2.c:3616-3629; the head's links are not initialised
(`dt->prev = dt->prev`), they are the arbitrary `g`. -/
def DTab.init (g : DNode) (limit : Nat) : DTab :=
  { nodes := fun _ => g, fresh := 1, last := 0, count := 0, size := 0, maxIndex := staticLen, limit := limit }

def setNode (f : Nat → DNode) (i : Nat) (n : DNode) : Nat → DNode := fun k => if k = i then n else f k

/-- `fly_hv2_dynamic_table_remove_entry`, src/v2.c:3738-3755 (count is not 0). -/
def DTab.removeEntry (t : DTab) : DTab :=
  let dt := t.nodes t.last
  { t with
    nodes := setNode t.nodes dt.prev { t.nodes dt.prev with next := 0 }
    last := dt.prev
    size := t.size - dt.entrySize
    count := t.count - 1
    maxIndex := t.maxIndex - 1 }

/-- The loop 3651-3653.  With no entry left `remove_entry` does nothing and the loop never ends
(`none`); each turn removes one of the `fuel` entries. -/
def DTab.evict : Nat → DTab → Option DTab
  | fuel, t =>
    if t.size ≤ t.limit then some t
    else if t.count = 0 then none
    else
      match fuel with
      | 0 => none
      | fuel + 1 => evict fuel t.removeEntry

/-- `__fly_hv2_dynamic_table_add_entry` (3632-3655) on the entry built by
`fly_hv2_dynamic_table_add_entry`, `_bv` and `_bvn` (3657-3736). -/
def DTab.addEntry (t : DTab) (name value : Bytes) : Option DTab :=
  let id := t.fresh
  let sz := name.length + value.length + 32
  let oldFirst := (t.nodes 0).next
  let nodes1 := setNode t.nodes id
    { name := name, value := value, entrySize := sz, prev := 0, next := if t.count = 0 then 0 else oldFirst }
  let nodes2 := if t.count = 0 then nodes1 else setNode nodes1 oldFirst { nodes1 oldFirst with prev := id }
  let nodes3 := setNode nodes2 0 { nodes2 0 with next := id }
  DTab.evict (t.count + 1)
    { t with
      nodes := nodes3
      fresh := id + 1
      last := if t.count = 0 then id else t.last
      count := t.count + 1
      maxIndex := t.count + 1 + staticLen
      size := t.size + sz }

/-- The walk along `next` in `fly_hv2_add_header_by_index`, src/v2.c:4073-4084: `n` entries from `dt`. -/
def DTab.walk (t : DTab) : Nat → Nat → DNode
  | 0, dt => t.nodes dt
  | n + 1, dt => t.walk n (t.nodes dt).next

/-- Entry number `index` (0-based over both tables, `index ≥ 61`), or `none`. -/
def DTab.lookup (t : DTab) (index : Nat) : Option (Bytes × Bytes) :=
  if staticLen ≤ index ∧ index < t.maxIndex then
    let n := t.walk (index - staticLen) (t.nodes 0).next
    some (n.name, n.value)
  else none

/-! ## Header blocks -/

/-- Decoder state: the dynamic table and the request's headers so far. -/
structure HState where
  dtab : DTab
  headers : List (Bytes × Bytes)

/-- `index - 1` of a `uint32_t`. -/
def dec32 (i : Nat) : Nat := (i + 2 ^ 32 - 1) % 2 ^ 32

/-- The name and value looked up for a (0-based) index; not found leaves NULL / length 0
(src/v2.c:4065-4084, 4103-4118). -/
def tableEntry (t : DTab) (index : Nat) : Bytes × Bytes :=
  if index < staticLen then
    match staticTable[index]? with
    | some (n, v) => (n, v.getD [])
    | none => ([], [])
  else (t.lookup index).getD ([], [])

/-- `fly_hv2_add_header_by_index`, src/v2.c:4058-4090. -/
def addByIndex (st : HState) (index : Nat) : HState :=
  { st with headers := st.headers ++ [tableEntry st.dtab index] }

/-- `fly_buffer_memcpy` from a possibly NULL pointer. -/
def bufCopy (c : Option Cursor) (n : Nat) : Option Bytes :=
  if n = 0 then some [] else c.bind (memcpy n)

/-- Plain `memcpy` from the buffer: undefined when it runs over the end of the chunk. -/
def rawCopy (c : Option Cursor) (n : Nat) : Option Bytes :=
  if n = 0 then some []
  else
    match c with
    | none => none
    | some cu => if n ≤ cu.cur.length then some (cu.cur.take n) else none

/-- Kinds of literal representation, `enum fly_hv2_index_type`. -/
inductive IndexType where
  | update | noUpdate | noIndex
  deriving DecidableEq, Repr

/-- Add to the dynamic table if the representation asks for it. -/
def maybeAdd (t : DTab) (ty : IndexType) (name value : Bytes) : Option DTab :=
  match ty with
  | .update => t.addEntry name value
  | _ => some t

/-- `fly_hv2_add_header_by_indexname`, src/v2.c:4092-4146. -/
def addByIndexName (st : HState) (index : Nat) (v : Option Cursor) (vlen : Nat) (huff : Bool) (ty : IndexType) :
    Option HState :=
  let name := (tableEntry st.dtab index).1
  match (if huff then huffDecode v vlen else bufCopy v vlen) with
  | none => none
  | some value =>
    (maybeAdd st.dtab ty name value).map fun t => ⟨t, st.headers ++ [(name, value)]⟩

/-- `fly_hv2_add_header_by_name`, src/v2.c:4148-4211: without Huffman coding the bytes are taken with
a plain `memcpy` (4180, 4185). -/
def addByName (st : HState) (n : Option Cursor) (nlen : Nat) (nhuff : Bool) (v : Option Cursor) (vlen : Nat) (vhuff : Bool)
    (ty : IndexType) : Option HState :=
  match (if nhuff then huffDecode n nlen else rawCopy n nlen) with
  | none => none
  | some name =>
    match (if vhuff then huffDecode v vlen else rawCopy v vlen) with
    | none => none
    | some value =>
      (maybeAdd st.dtab ty name value).map fun t => ⟨t, st.headers ++ [(name, value)]⟩

/-- Huffman flag and length in front of a string: src/v2.c:4017-4019, 4032-4034. -/
def stringHead (c : Option Cursor) : Option (Bool × Nat × Nat × Option Cursor) :=
  match c with
  | none => none
  | some cu =>
    match cu.cur with
    | [] => none
    | b :: _ =>
      match decodeInt 7 cu with
      | none => none
      | some (n, upd, c') => some (decide (128 ≤ b % 256), n, upd, c')

/-- `fly_update_chain` on a possibly NULL pointer. -/
def adv (c : Option Cursor) (n : Nat) : Option Cursor := c.bind fun cu => advance cu n

/-- Result of one representation: new `total`, pointer and state; `error` is `return -1`. -/
inductive RepOut where
  | ok (total : Nat) (c : Option Cursor) (st : HState)
  | error

/-- `prefix_bit` of a literal with indexed name, src/v2.c:4000-4013. -/
def litPrefix : IndexType → Nat
  | .update => 6
  | .noUpdate => 4
  | .noIndex => 4

/-- The branch 3998-4027: name by index. -/
def repIndexName (st : HState) (ty : IndexType) (total : Nat) (cu : Cursor) : Option RepOut :=
  match decodeInt (litPrefix ty) cu with
  | none => none
  | some (index, u1, c1) =>
    match stringHead c1 with
    | none => none
    | some (huff, vlen, u2, c2) =>
      match addByIndexName st (dec32 index) c2 vlen huff ty with
      | none => none
      | some st' => some (.ok (total + u1 + u2 + vlen) (adv c2 vlen) st')

/-- The branch 4028-4050: name as a string. -/
def repName (st : HState) (ty : IndexType) (total : Nat) (cu : Cursor) : Option RepOut :=
  match stringHead (advance cu 1) with
  | none => none
  | some (nhuff, nlen, u1, c1) =>
    match stringHead (adv c1 nlen) with
    | none => none
    | some (vhuff, vlen, u2, c2) =>
      match addByName st c1 nlen nhuff c2 vlen vhuff ty with
      | none => none
      | some st' => some (.ok (total + 1 + u1 + nlen + u2 + vlen) (adv c2 vlen) st')

/-- Type of a literal from its first byte, src/v2.c:3970-3995 with the tests 3785-3844. -/
def literalType (b : Nat) : Option IndexType :=
  if b / 64 % 4 = 1 then some .update
  else if b / 16 % 16 = 0 then some .noUpdate
  else if b / 16 % 16 = 1 then some .noIndex
  else none

/-- Loop body of `fly_hv2_parse_headers`, src/v2.c:3955-4052. `fly_hv2_is_header_literal` (3945-3948)
tests the low six bits whatever the type. -/
def parseRep (st : HState) (total : Nat) (c : Option Cursor) : Option RepOut :=
  match c with
  | none => none
  | some cu =>
    match cu.cur with
    | [] => none
    | b :: _ =>
      if 128 ≤ b % 256 then
        match decodeInt 7 cu with
        | none => none
        | some (i, u, c') => some (.ok (total + u) c' (addByIndex st (dec32 i)))
      else
        match literalType b with
        | none => some .error
        | some ty => if b % 64 ≠ 0 then repIndexName st ty total cu else repName st ty total cu

/-- Result of a header block. -/
inductive BlockOut where
  | ok (st : HState)
  | error

/-- `fly_hv2_parse_headers`, src/v2.c:3950-4054; every turn consumes a byte, `fuel` = `length`. -/
def parseHeaders : Nat → HState → Nat → Nat → Option Cursor → Option BlockOut
  | fuel, st, length, total, c =>
    if length ≤ total then some (.ok st)
    else
      match fuel with
      | 0 => none
      | fuel + 1 =>
        match parseRep st total c with
        | none => none
        | some .error => some .error
        | some (.ok total' c' st') => parseHeaders fuel st' length total' c'

end Fly.Hpack
