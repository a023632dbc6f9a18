/-
The JSON parser that reads the configuration and the list of keys: src/common/cJSON.c (version 1.7.15), parsing half.
-/
namespace Verif.CJson

/-- A parsed item (src/common/cJSON.h:88-123). `V` stands for a number with its two representations `valuedouble` and `valueint`. -/
inductive J (V : Type) where
  | null
  | bool (b : Bool)
  | num (v : V)
  | str (s : List UInt8)
  | arr (xs : List (J V))
  | obj (xs : List (List UInt8 × J V))
deriving Repr

/-- How parsing can end without a value: the input is rejected; a byte outside the buffer is read; a byte outside the allocated string is
written; the model's loop counter ran out (proved not to happen). See src/common/cJSON.c:1095-1172. -/
inductive Err where
  | reject
  | read
  | write
  | stuck
deriving DecidableEq, Repr

/-- Result of a parsing step. See src/common/cJSON.c:1095-1172. -/
abbrev R (α : Type) := Except Err α

/-- Reading one byte of the buffer (src/common/cJSON.c:302 `buffer_at_offset`); outside the buffer it is an error. -/
def rd (buf : List UInt8) (i : Nat) : R UInt8 :=
  match buf[i]? with
  | some b => .ok b
  | none => .error .read

/-- The loop of `buffer_skip_whitespace` (src/common/cJSON.c:1050-1053). -/
def skipRun (buf : List UInt8) (i : Nat) : Nat :=
  if _h : i < buf.length then
    if buf[i] ≤ 32 then skipRun buf (i + 1) else i
  else i
termination_by buf.length - i

/-- `buffer_skip_whitespace` (src/common/cJSON.c:1038-1061): at the end of the buffer it steps back to the last byte. -/
def skipWs (buf : List UInt8) (i : Nat) : Nat :=
  if i < buf.length then
    if skipRun buf i = buf.length then skipRun buf i - 1 else skipRun buf i
  else i

/-- `skip_utf8_bom` (src/common/cJSON.c:1064-1077): only if at least five bytes are there. -/
def bom (buf : List UInt8) : Nat :=
  if 4 < buf.length ∧ buf.take 3 = [0xEF, 0xBB, 0xBF] then 3 else 0

/-- One hexadecimal digit in `parse_hex4` (src/common/cJSON.c:622-638). -/
def hexDigit (b : UInt8) : Option Nat :=
  if 0x30 ≤ b ∧ b ≤ 0x39 then some (b.toNat - 0x30)
  else if 0x41 ≤ b ∧ b ≤ 0x46 then some (10 + b.toNat - 0x41)
  else if 0x61 ≤ b ∧ b ≤ 0x66 then some (10 + b.toNat - 0x61)
  else none

/-- `parse_hex4` (src/common/cJSON.c:615-648): `k` digits are still to be read; the value is shifted after all but the last; a byte
that is no digit gives 0. -/
def hex4 (buf : List UInt8) : Nat → Nat → Nat → R Nat
  | 0, _, h => .ok h
  | k + 1, i, h =>
    match rd buf i with
    | .error e => .error e
    | .ok b =>
      match hexDigit b with
      | none => .ok 0
      | some d => hex4 buf k (i + 1) (if k = 0 then h + d else (h + d) <<< 4)

/-- The loop of the UTF-8 encoder (src/common/cJSON.c:748-753): `k` continuation bytes, last one first; returns the rest of the code point
and the bytes in order. -/
def cont : Nat → Nat → List UInt8 → Nat × List UInt8
  | 0, c, acc => (c, acc)
  | k + 1, c, acc => cont k (c >>> 6) (UInt8.ofNat ((c ||| 0x80) &&& 0xBF) :: acc)

/-- UTF-8 encoding of a code point (src/common/cJSON.c:718-764). -/
def toUtf8 (c : Nat) : Option (List UInt8) :=
  if c < 0x80 then some [UInt8.ofNat (c &&& 0x7F)]
  else if c < 0x800 then
    let r := cont 1 c []
    some (UInt8.ofNat ((r.1 ||| 0xC0) &&& 0xFF) :: r.2)
  else if c < 0x10000 then
    let r := cont 2 c []
    some (UInt8.ofNat ((r.1 ||| 0xE0) &&& 0xFF) :: r.2)
  else if c ≤ 0x10FFFF then
    let r := cont 3 c []
    some (UInt8.ofNat ((r.1 ||| 0xF0) &&& 0xFF) :: r.2)
  else none

/-- `utf16_literal_to_utf8` (src/common/cJSON.c:652-770) for a literal at `i`, the string ending at `e`: number of bytes consumed and the
bytes to write. -/
def utf16 (buf : List UInt8) (i e : Nat) : R (Nat × List UInt8) :=
  if e < i + 6 then .error .reject
  else
    match hex4 buf 4 (i + 2) 0 with
    | .error x => .error x
    | .ok first =>
      if 0xDC00 ≤ first ∧ first ≤ 0xDFFF then .error .reject
      else if 0xD800 ≤ first ∧ first ≤ 0xDBFF then
        if e < i + 6 + 6 then .error .reject
        else
          match rd buf (i + 6), rd buf (i + 7) with
          | .ok a, .ok b =>
            if a ≠ 0x5C ∨ b ≠ 0x75 then .error .reject
            else
              match hex4 buf 4 (i + 8) 0 with
              | .error x => .error x
              | .ok second =>
                if second < 0xDC00 ∨ 0xDFFF < second then .error .reject
                else
                  match toUtf8 (0x10000 + (((first &&& 0x3FF) <<< 10) ||| (second &&& 0x3FF))) with
                  | none => .error .reject
                  | some bs => .ok (12, bs)
          | _, _ => .error .read
      else
        match toUtf8 first with
        | none => .error .reject
        | some bs => .ok (6, bs)

/-- The first loop of `parse_string` (src/common/cJSON.c:790-808): find the closing quote, counting escapes. -/
def scan (buf : List UInt8) (i skipped : Nat) : R (Nat × Nat) :=
  if _h : i < buf.length then
    if buf[i] = 0x22 then .ok (i, skipped)
    else if buf[i] = 0x5C then
      if buf.length ≤ i + 1 then .error .reject else scan buf (i + 2) (skipped + 1)
    else scan buf (i + 1) skipped
  else .error .reject
termination_by buf.length - i

/-- The meaning of a two-byte escape (src/common/cJSON.c:836-857); `none` for any other letter. -/
def escape (b : UInt8) : Option UInt8 :=
  if b = 0x62 then some 8
  else if b = 0x66 then some 12
  else if b = 0x6E then some 10
  else if b = 0x72 then some 13
  else if b = 0x74 then some 9
  else if b = 0x22 ∨ b = 0x5C ∨ b = 0x2F then some b
  else none

/-- Writing to the output (src/common/cJSON.c:825, 839, 757, ...), which has `cap` bytes. -/
def emit (cap : Nat) (out bs : List UInt8) : R (List UInt8) :=
  if out.length + bs.length ≤ cap then .ok (out ++ bs) else .error .write

/-- The second loop of `parse_string` (src/common/cJSON.c:821-874), from `i` to the closing quote at `e`. -/
def decode (buf : List UInt8) (e cap i : Nat) (out : List UInt8) : R (List UInt8) :=
  if _h : i < e then
    match rd buf i with
    | .error x => .error x
    | .ok b =>
      if b ≠ 0x5C then
        match emit cap out [b] with
        | .error x => .error x
        | .ok out => decode buf e cap (i + 1) out
      else
        match rd buf (i + 1) with
        | .error x => .error x
        | .ok c =>
          if c = 0x75 then
            match utf16 buf i e with
            | .error x => .error x
            | .ok (n, bs) =>
              match emit cap out bs with
              | .error x => .error x
              | .ok out => if n = 0 then .error .reject else decode buf e cap (i + n) out
          else
            match escape c with
            | none => .error .reject
            | some d =>
              match emit cap out [d] with
              | .error x => .error x
              | .ok out => decode buf e cap (i + 2) out
  else .ok out
termination_by e - i

/-- `parse_string` (src/common/cJSON.c:773-899) at offset `i`: the bytes before the terminating zero, and the new offset. Simplification: the
allocation succeeds. -/
def parseString (buf : List UInt8) (i : Nat) : R (List UInt8 × Nat) :=
  match rd buf i with
  | .error x => .error x
  | .ok q =>
    if q ≠ 0x22 then .error .reject
    else
      match scan buf (i + 1) 0 with
      | .error x => .error x
      | .ok (e, skipped) =>
        let cap := e - i - skipped + 1
        match decode buf e cap (i + 1) [] with
        | .error x => .error x
        | .ok out =>
          match emit cap out [0] with
          | .error x => .error x
          | .ok _ => .ok (out, e + 1)

/-- The characters copied by `parse_number` (src/common/cJSON.c:325-347). -/
def numChar (b : UInt8) : Bool :=
  (0x30 ≤ b ∧ b ≤ 0x39) ∨ b = 0x2B ∨ b = 0x2D ∨ b = 0x65 ∨ b = 0x45 ∨ b = 0x2E

/-- `parse_number` (src/common/cJSON.c:305-379): at most 63 characters are copied and given to `strtod`, which is a parameter here: how many
characters it uses and the value (including the saturated `valueint`). -/
def parseNumber {V : Type} (strtod : List UInt8 → Nat × V) (buf : List UInt8) (i : Nat) : R (J V × Nat) :=
  let s := ((buf.drop i).take 63).takeWhile numChar
  if (strtod s).1 = 0 then .error .reject else .ok (.num (strtod s).2, i + (strtod s).1)

/-- Whether the text at `i` is the given word (`can_read` and `strncmp`, src/common/cJSON.c:1321-1341). -/
def word (buf : List UInt8) (i : Nat) (w : List UInt8) : Bool := (buf.drop i).take w.length = w

/-- The byte at `i`, if it may be accessed (`can_access_at_index`, src/common/cJSON.c:299). -/
def isAt (buf : List UInt8) (i : Nat) (b : UInt8) : Bool := buf[i]? = some b

/-- The loop of `parse_array` (src/common/cJSON.c:1473-1508): `i` is the offset in front of the next element, `val` parses an element. Result:
the elements and the offset of the closing bracket. -/
def elems {V : Type} (val : Nat → R (J V × Nat)) (buf : List UInt8) : Nat → Nat → List (J V) → R (List (J V) × Nat)
  | 0, _, _ => .error .stuck
  | fuel + 1, i, acc =>
    match val (skipWs buf (i + 1)) with
    | .error x => .error x
    | .ok (v, j) =>
      let k := skipWs buf j
      if isAt buf k 0x2C then elems val buf fuel k (acc ++ [v])
      else if isAt buf k 0x5D then .ok (acc ++ [v], k)
      else .error .reject

/-- `parse_array` (src/common/cJSON.c:1441-1536) at an opening bracket; the nesting limit is checked by the caller here. -/
def array {V : Type} (val : Nat → R (J V × Nat)) (buf : List UInt8) (i : Nat) : R (J V × Nat) :=
  let k := skipWs buf (i + 1)
  if isAt buf k 0x5D then .ok (.arr [], k + 1)
  else if buf.length ≤ k then .error .reject
  else
    match elems val buf (buf.length + 1) (k - 1) [] with
    | .error x => .error x
    | .ok (xs, k) => .ok (.arr xs, k + 1)

/-- The loop of `parse_object` (src/common/cJSON.c:1634-1684). The name is parsed without checking that a byte is there (1658-1660). -/
def members {V : Type} (val : Nat → R (J V × Nat)) (buf : List UInt8) : Nat → Nat → List (List UInt8 × J V) → R (List (List UInt8 × J V) × Nat)
  | 0, _, _ => .error .stuck
  | fuel + 1, i, acc =>
    match parseString buf (skipWs buf (i + 1)) with
    | .error x => .error x
    | .ok (name, j) =>
      let k := skipWs buf j
      if isAt buf k 0x3A then
        match val (skipWs buf (k + 1)) with
        | .error x => .error x
        | .ok (v, j) =>
          let k := skipWs buf j
          if isAt buf k 0x2C then members val buf fuel k (acc ++ [(name, v)])
          else if isAt buf k 0x7D then .ok (acc ++ [(name, v)], k)
          else .error .reject
      else .error .reject

/-- `parse_object` (src/common/cJSON.c:1601-1711) at an opening brace; the nesting limit is checked by the caller here. -/
def object {V : Type} (val : Nat → R (J V × Nat)) (buf : List UInt8) (i : Nat) : R (J V × Nat) :=
  let k := skipWs buf (i + 1)
  if isAt buf k 0x7D then .ok (.obj [], k + 1)
  else if buf.length ≤ k then .error .reject
  else
    match members val buf (buf.length + 1) (k - 1) [] with
    | .error x => .error x
    | .ok (xs, k) => .ok (.obj xs, k + 1)

/-- `parse_value` (src/common/cJSON.c:1312-1364); `n` is the nesting that is still allowed (`CJSON_NESTING_LIMIT - depth`, checked in 1446-1450
and 1606-1610). -/
def value {V : Type} (strtod : List UInt8 → Nat × V) (buf : List UInt8) (n : Nat) (i : Nat) : R (J V × Nat) :=
  if word buf i [0x6E, 0x75, 0x6C, 0x6C] then .ok (.null, i + 4)
  else if word buf i [0x66, 0x61, 0x6C, 0x73, 0x65] then .ok (.bool false, i + 5)
  else if word buf i [0x74, 0x72, 0x75, 0x65] then .ok (.bool true, i + 4)
  else
    match buf[i]? with
    | none => .error .reject
    | some b =>
      if b = 0x22 then
        match parseString buf i with
        | .error x => .error x
        | .ok (s, j) => .ok (.str s, j)
      else if b = 0x2D ∨ (0x30 ≤ b ∧ b ≤ 0x39) then parseNumber strtod buf i
      else if b = 0x5B then
        match n with
        | 0 => .error .reject
        | n + 1 => array (value strtod buf n) buf i
      else if b = 0x7B then
        match n with
        | 0 => .error .reject
        | n + 1 => object (value strtod buf n) buf i
      else .error .reject

/-- `cJSON_ParseWithLengthOpts` without requiring a terminator (src/common/cJSON.c:1095-1140, 1180-1183) and with the limit of 1000
(src/common/cJSON.h:137). Simplification: the allocation of the item succeeds; the recorded error position is left out. -/
def parseLen {V : Type} (strtod : List UInt8 → Nat × V) (buf : List UInt8) : R (J V × Nat) :=
  if buf = [] then .error .reject else value strtod buf 1000 (skipWs buf (bom buf))

/-- `cJSON_Parse` (src/common/cJSON.c:1175-1178, 1079-1092): the text up to its terminator, and the terminator itself. -/
def parse {V : Type} (strtod : List UInt8 → Nat × V) (text : List UInt8) : R (J V × Nat) :=
  parseLen strtod (text.takeWhile (· ≠ 0) ++ [0])

end Verif.CJson
