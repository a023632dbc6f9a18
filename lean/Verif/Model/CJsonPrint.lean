import Verif.Model.CJson
/-
Printing a JSON document: src/common/cJSON.c (version 1.7.15), printing half. The server itself only parses; this half is part of the library it
is built with. Simplifications: the document is a tree as `cJSON_Parse` gives it, every string is there (cJSON.c:916-927 is left out), there are no
raw items (cJSON.c:1408-1424), and the allocation hooks are the default ones (cJSON.c:178-180, 186).
-/
namespace Verif.CJsonPrint
open Verif.CJson (J)

/-- A `double`: a finite number, taken as a rational, an infinity or no number (src/common/cJSON.h:119, `valuedouble`). Simplification: minus zero is zero. -/
inductive Dbl where
  | fin (q : Rat)
  | inf (negative : Bool)
  | nan
deriving DecidableEq

/-- What the C library does for printing numbers: the decimal point of the locale (src/common/cJSON.c:277-285), `%1.<p>g` (572, 578) and reading a number
back (575, `none`: nothing read). -/
structure Lib where
  point : UInt8
  g : Nat → Rat → List UInt8
  scan : List UInt8 → Option Dbl

/-- `valueint` of a finite number (src/common/cJSON.c:361-373, 2438-2449): rounded towards zero and kept within the range of `int`. -/
def valueint (q : Rat) : Int :=
  if 2147483647 ≤ q then 2147483647
  else if q ≤ -2147483648 then -2147483648
  else q.num.tdiv q.den

/-- The digits of a natural number, as `%d` gives them (src/common/cJSON.c:567). -/
def dec (n : Nat) : List UInt8 :=
  if n < 10 then [UInt8.ofNat (0x30 + n)] else dec (n / 10) ++ [UInt8.ofNat (0x30 + n % 10)]
termination_by n
decreasing_by omega

/-- `%d` (src/common/cJSON.c:567). -/
def decInt (n : Int) : List UInt8 := if n < 0 then 0x2D :: dec n.natAbs else dec n.natAbs

/-- `compare_double` (src/common/cJSON.c:538-542) against a finite number; `DBL_EPSILON` is 2⁻⁵². With an infinity both sides are infinite. Simplification: the
difference is not rounded. -/
def close (a : Dbl) (q : Rat) : Bool :=
  match a with
  | .fin t => decide ((t - q).abs ≤ (if q.abs < t.abs then t.abs else q.abs) / 4503599627370496)
  | .inf _ => true
  | .nan => false

/-- The text put into `number_buffer` by `print_number` (src/common/cJSON.c:561-580). -/
def numText (l : Lib) (d : Dbl) : List UInt8 :=
  match d with
  | .nan => [0x6E, 0x75, 0x6C, 0x6C]
  | .inf _ => [0x6E, 0x75, 0x6C, 0x6C]
  | .fin q =>
    if q = (valueint q : Rat) then decInt (valueint q)
    else if ((l.scan (l.g 15 q)).any fun t => close t q) then l.g 15 q
    else l.g 17 q

/-- The print buffer (src/common/cJSON.c:427-436): the block, as many bytes as `length` says; where the text goes on; the nesting; besides that, how many
allocations were made and how many blocks are held. -/
structure B where
  buf : Option (List UInt8)
  offset : Nat
  depth : Nat
  tries : Nat
  held : Nat

/-- The rest of the circumstances (src/common/cJSON.c:432-435): the library, `noalloc`, `format`, which allocations succeed and what new memory holds. -/
structure Env where
  lib : Lib
  noalloc : Bool
  format : Bool
  ok : Nat → Bool
  junk : Nat → Nat → UInt8

/-- How a step ends: memory outside a block is touched; `false` is returned; `true` is returned. See src/common/cJSON.c:439-600. -/
inductive Res where
  | fault
  | no (b : B)
  | yes (b : B)

/-- Going on after a step that returned `true`. See src/common/cJSON.c:1564-1568. -/
def Res.bind (r : Res) (f : B → Res) : Res :=
  match r with
  | .fault => .fault
  | .no b => .no b
  | .yes b => f b

/-- `realloc` to `n` bytes (src/common/cJSON.c:492, 1215). -/
def resize (m : List UInt8) (n : Nat) (f : Nat → UInt8) : List UInt8 := m.take n ++ (List.range (n - m.length)).map f

/-- `ensure` (src/common/cJSON.c:439-522); the pointer it returns is always the one at `offset`. -/
def ensure (e : Env) (b : B) (needed : Nat) : Res :=
  match b.buf with
  | none => .no b
  | some m =>
    if 0 < m.length ∧ m.length ≤ b.offset then .no b
    else if 2147483647 < needed then .no b
    else
      let needed := needed + (b.offset + 1)
      if needed ≤ m.length then .yes b
      else if e.noalloc then .no b
      else if 1073741823 < needed ∧ 2147483647 < needed then .no b
      else
        let newsize := if 1073741823 < needed then 2147483647 else needed * 2
        if e.ok b.tries then .yes { b with buf := some (resize m newsize (e.junk b.tries)), tries := b.tries + 1 }
        else .no { b with buf := none, tries := b.tries + 1, held := b.held - 1 }

/-- Writing bytes at `offset + k`, which must lie in the block (src/common/cJSON.c:597-607, 964-967, 1017-1018). -/
def putAt (b : B) (k : Nat) (bs : List UInt8) : Res :=
  match b.buf with
  | none => .fault
  | some m =>
    if b.offset + k + bs.length ≤ m.length then
      .yes { b with buf := some (m.take (b.offset + k) ++ bs ++ m.drop (b.offset + k + bs.length)) }
    else .fault

/-- `update_offset` (src/common/cJSON.c:525-535): `strlen` stays in the block only if there is a zero byte. -/
def updateOffset (b : B) : Res :=
  match b.buf with
  | none => .yes b
  | some m =>
    if (0 : UInt8) ∈ m.drop b.offset then .yes { b with offset := b.offset + ((m.drop b.offset).takeWhile (· ≠ 0)).length }
    else .fault

/-- `print_number` (src/common/cJSON.c:545-612); more than 25 characters overrun `number_buffer`. -/
def printNumber (e : Env) (d : Dbl) (b : B) : Res :=
  let t := numText e.lib d
  if 25 < t.length then .fault
  else
    (ensure e b (t.length + 1)).bind fun b =>
    (putAt b 0 (t.map (fun c => if c = e.lib.point then 0x2E else c) ++ [0])).bind fun b =>
    .yes { b with offset := b.offset + t.length }

/-- How many more characters a byte takes (src/common/cJSON.c:932-951). -/
def extra (c : UInt8) : Nat :=
  if c = 0x22 ∨ c = 0x5C ∨ c = 8 ∨ c = 12 ∨ c = 10 ∨ c = 13 ∨ c = 9 then 1
  else if c < 32 then 5 else 0

/-- A hexadecimal digit as `%x` gives it (src/common/cJSON.c:1011). -/
def hexOf (n : Nat) : UInt8 := if n < 10 then UInt8.ofNat (0x30 + n) else UInt8.ofNat (0x57 + n)

/-- One byte in the second loop (src/common/cJSON.c:977-1015). -/
def escByte (c : UInt8) : List UInt8 :=
  if 31 < c ∧ c ≠ 0x22 ∧ c ≠ 0x5C then [c]
  else
    0x5C ::
      (if c = 0x5C then [0x5C]
       else if c = 0x22 then [0x22]
       else if c = 8 then [0x62]
       else if c = 12 then [0x66]
       else if c = 10 then [0x6E]
       else if c = 13 then [0x72]
       else if c = 9 then [0x74]
       else [0x75, 0x30, 0x30, hexOf (c.toNat / 16), hexOf (c.toNat % 16)])

/-- `print_string_ptr` (src/common/cJSON.c:902-1021) of a string up to its first zero byte. -/
def printString (e : Env) (s : List UInt8) (b : B) : Res :=
  let s := s.takeWhile (· ≠ 0)
  let esc := (s.map extra).sum
  let len := s.length + esc
  (ensure e b (len + 3)).bind fun b =>
  if esc = 0 then
    (putAt b 0 [0x22]).bind fun b => (putAt b 1 s).bind fun b => putAt b (len + 1) [0x22, 0]
  else
    (putAt b 0 [0x22]).bind fun b => (putAt b 1 (s.flatMap escByte)).bind fun b => putAt b (len + 1) [0x22, 0]

/-- A word and its terminator (src/common/cJSON.c:1378-1403). -/
def printWord (e : Env) (needed : Nat) (w : List UInt8) (b : B) : Res :=
  (ensure e b needed).bind fun b => putAt b 0 (w ++ [0])

/-- Between two elements of an array (src/common/cJSON.c:1569-1584). -/
def arraySep (e : Env) (b : B) : Res :=
  let length := if e.format then 2 else 1
  (ensure e b (length + 1)).bind fun b =>
  (putAt b 0 ((if e.format then [0x2C, 0x20] else [0x2C]) ++ [0])).bind fun b =>
  .yes { b with offset := b.offset + length }

/-- The tabs in front of a member (src/common/cJSON.c:1743-1756). -/
def indent (e : Env) (b : B) : Res :=
  if e.format then
    (ensure e b b.depth).bind fun b =>
    (putAt b 0 (List.replicate b.depth 9)).bind fun b =>
    .yes { b with offset := b.offset + b.depth }
  else .yes b

/-- The colon behind a name (src/common/cJSON.c:1766-1777). -/
def colon (e : Env) (b : B) : Res :=
  let length := if e.format then 2 else 1
  (ensure e b length).bind fun b =>
  (putAt b 0 (if e.format then [0x3A, 9] else [0x3A])).bind fun b =>
  .yes { b with offset := b.offset + length }

/-- What follows a member, `more` saying whether another one comes (src/common/cJSON.c:1786-1802). -/
def memberEnd (e : Env) (more : Bool) (b : B) : Res :=
  let length := (if e.format then 1 else 0) + (if more then 1 else 0)
  (ensure e b (length + 1)).bind fun b =>
  (putAt b 0 ((if more then [0x2C] else []) ++ (if e.format then [10] else []) ++ [0])).bind fun b =>
  .yes { b with offset := b.offset + length }

/-- The start of an array (src/common/cJSON.c:1552-1560). -/
def arrayOpen (e : Env) (b : B) : Res :=
  (ensure e b 1).bind fun b =>
  (putAt b 0 [0x5B]).bind fun b =>
  .yes { b with offset := b.offset + 1, depth := b.depth + 1 }

/-- The end of an array (src/common/cJSON.c:1588-1597). -/
def arrayClose (e : Env) (b : B) : Res :=
  (ensure e b 2).bind fun b =>
  (putAt b 0 [0x5D, 0]).bind fun b =>
  .yes { b with depth := b.depth - 1 }

/-- The start of an object (src/common/cJSON.c:1726-1739). -/
def objectOpen (e : Env) (b : B) : Res :=
  let length := if e.format then 2 else 1
  (ensure e b (length + 1)).bind fun b =>
  (putAt b 0 (if e.format then [0x7B, 10] else [0x7B])).bind fun b =>
  .yes { b with offset := b.offset + length, depth := b.depth + 1 }

/-- The end of an object (src/common/cJSON.c:1807-1822). -/
def objectClose (e : Env) (b : B) : Res :=
  (ensure e b (if e.format then b.depth + 1 else 2)).bind fun b =>
  (putAt b 0 ((if e.format then List.replicate (b.depth - 1) 9 else []) ++ [0x7D, 0])).bind fun b =>
  .yes { b with depth := b.depth - 1 }

mutual

/-- `print_value` (src/common/cJSON.c:1367-1438), `print_array` (1539-1598) and `print_object` (1714-1825). -/
def printValue (e : Env) : J Dbl → B → Res
  | .null, b => printWord e 5 [0x6E, 0x75, 0x6C, 0x6C] b
  | .bool false, b => printWord e 6 [0x66, 0x61, 0x6C, 0x73, 0x65] b
  | .bool true, b => printWord e 5 [0x74, 0x72, 0x75, 0x65] b
  | .num d, b => printNumber e d b
  | .str s, b => printString e s b
  | .arr xs, b => (arrayOpen e b).bind fun b => (printElems e xs b).bind fun b => arrayClose e b
  | .obj xs, b => (objectOpen e b).bind fun b => (printMembers e xs b).bind fun b => objectClose e b

/-- The loop of `print_array` (src/common/cJSON.c:1562-1586). -/
def printElems (e : Env) : List (J Dbl) → B → Res
  | [], b => .yes b
  | x :: xs, b =>
    (printValue e x b).bind fun b =>
    (updateOffset b).bind fun b =>
    (if xs.isEmpty then .yes b else arraySep e b).bind fun b =>
    printElems e xs b

/-- The loop of `print_object` (src/common/cJSON.c:1741-1805). -/
def printMembers (e : Env) : List (List UInt8 × J Dbl) → B → Res
  | [], b => .yes b
  | (name, x) :: xs, b =>
    (indent e b).bind fun b =>
    (printString e name b).bind fun b =>
    (updateOffset b).bind fun b =>
    (colon e b).bind fun b =>
    (printValue e x b).bind fun b =>
    (updateOffset b).bind fun b =>
    (memberEnd e (!xs.isEmpty) b).bind fun b =>
    printMembers e xs b

end

/-- Giving the block back, if there is one (src/common/cJSON.c:1238-1241). -/
def release (b : B) : Nat := match b.buf with | none => b.held | some _ => b.held - 1

/-- `print` (src/common/cJSON.c:1187-1249): `none` if memory outside a block is touched; otherwise the block returned, or NULL, and how many blocks are
held afterwards that were not held before. -/
def print (e : Env) (j : J Dbl) : Option (Option (List UInt8) × Nat) :=
  if e.ok 0 then
    match printValue { e with noalloc := false } j ⟨some (resize [] 256 (e.junk 0)), 0, 0, 1, 1⟩ with
    | .fault => none
    | .no b => some (none, release b)
    | .yes b =>
      match updateOffset b with
      | .yes b =>
        if e.ok b.tries then some (b.buf.map fun m => resize m (b.offset + 1) (e.junk b.tries), b.held)
        else some (none, release b)
      | _ => none
  else some (none, 0)

/-- `cJSON_Print` (src/common/cJSON.c:1252-1255). -/
def printFormatted (e : Env) (j : J Dbl) : Option (Option (List UInt8) × Nat) := print { e with format := true } j

/-- `cJSON_PrintUnformatted` (src/common/cJSON.c:1257-1260). -/
def printUnformatted (e : Env) (j : J Dbl) : Option (Option (List UInt8) × Nat) := print { e with format := false } j

/-- `cJSON_PrintBuffered` (src/common/cJSON.c:1262-1290). -/
def printBuffered (e : Env) (pre : Int) (j : J Dbl) : Option (Option (List UInt8) × Nat) :=
  if pre < 0 then some (none, 0)
  else if e.ok 0 then
    match printValue { e with noalloc := false } j ⟨some (resize [] pre.toNat (e.junk 0)), 0, 0, 1, 1⟩ with
    | .fault => none
    | .no b => some (none, release b)
    | .yes b => some (b.buf, b.held)
  else some (none, 0)

/-- `cJSON_PrintPreallocated` (src/common/cJSON.c:1292-1309) with the caller's buffer; `none` if memory outside it is touched; otherwise what is returned and
what the buffer holds then. -/
def printPreallocated (e : Env) (buf : List UInt8) (j : J Dbl) : Option (Bool × List UInt8) :=
  match printValue { e with noalloc := true } j ⟨some buf, 0, 0, 0, 0⟩ with
  | .fault => none
  | .no b => some (false, b.buf.getD [])
  | .yes b => some (true, b.buf.getD [])

end Verif.CJsonPrint
