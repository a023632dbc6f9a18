import Verif.Model.CJson
import Verif.Model.Config
/-
The JSON parser with the memory it uses: items and strings are blocks that are linked by pointers, every allocation may fail, and what was built is deleted when parsing
fails. src/common/cJSON.c (parsing half). The text is scanned and decoded as in `Model/CJson`.
Simplifications: an address is never handed out again, so that every use of a freed block is noticed; a string is stored when it is complete.
-/
namespace Verif.CJsonMem
open Verif.CJson

/-- The type of an item with the values that need no memory (src/common/cJSON.h:88-123). `invalid`: zero, as left by `memset`. -/
inductive Ty (V : Type) where
  | invalid
  | null
  | bool (b : Bool)
  | num (v : V)
  | string
  | array
  | object
deriving Repr, DecidableEq

/-- An item (`cJSON`, src/common/cJSON.h:103-123). -/
structure Item (V : Type) where
  ty : Ty V
  next : Option Nat
  prev : Option Nat
  child : Option Nat
  vstr : Option Nat
  str : Option Nat
deriving Repr, DecidableEq

/-- A block: an item or a string. See src/common/cJSON.c:243, 812. -/
inductive Cell (V : Type) where
  | item (it : Item V)
  | bytes (bs : List UInt8)
deriving Repr, DecidableEq

/-- The memory: the number of allocations that were asked for, and the block at every address. See src/common/cJSON.c:208-238. -/
structure H (V : Type) where
  used : Nat
  cells : Nat → Option (Cell V)

variable {V : Type}

/-- Changing one block. See src/common/cJSON.c:241-273. -/
def H.set (h : H V) (a : Nat) (c : Option (Cell V)) : H V := { h with cells := fun b => if b = a then c else h.cells b }

/-- `malloc` (src/common/cJSON.c:178): `ok k` tells whether the allocation number `k` succeeds. -/
def alloc (ok : Nat → Bool) (h : H V) (c : Cell V) : Option Nat × H V :=
  if ok h.used then (some h.used, { used := h.used + 1, cells := fun b => if b = h.used then some c else h.cells b })
  else (none, { h with used := h.used + 1 })

/-- `free` (src/common/cJSON.c:179); `none`: there is no such block (any more). -/
def free (h : H V) (a : Nat) : Option (H V) :=
  if (h.cells a).isSome then some (h.set a none) else none

/-- Freeing what a pointer points to unless it is NULL (src/common/cJSON.c:263-270). -/
def freeOpt (h : H V) : Option Nat → Option (H V)
  | none => some h
  | some a => free h a

/-- Reading an item; `none`: there is no item. See src/common/cJSON.c:253-273. -/
def item (h : H V) (p : Nat) : Option (Item V) :=
  match h.cells p with
  | some (.item it) => some it
  | _ => none

/-- Writing to an item; `none`: there is no item. See src/common/cJSON.c:882-883, 1517-1525. -/
def upd (h : H V) (p : Nat) (f : Item V → Item V) : Option (H V) :=
  match h.cells p with
  | some (.item it) => some (h.set p (some (.item (f it))))
  | _ => none

/-- `cJSON_New_Item` (src/common/cJSON.c:241-250). -/
def newItem (ok : Nat → Bool) (h : H V) : Option Nat × H V := alloc ok h (.item ⟨.invalid, none, none, none, none, none⟩)

/-- `cJSON_Delete` (src/common/cJSON.c:253-273): the loop over the siblings with the recursion into the children. `none`: a block is freed or read that is not there, or the
model's counter ran out (proved not to happen). No item is a reference or has a constant name here. -/
def delete : Nat → H V → Option Nat → Option (H V)
  | _, h, none => some h
  | 0, _, some _ => none
  | n + 1, h, some p =>
    (item h p).bind fun it =>
    (delete n h it.child).bind fun h =>
    (freeOpt h it.vstr).bind fun h =>
    (freeOpt h it.str).bind fun h =>
    (free h p).bind fun h =>
    delete n h it.next

/-- What a function of the parser gives: `none` if it uses memory that is not there; otherwise the memory, and the new offset unless it returns false.
See src/common/cJSON.c:1312-1364. -/
abbrev Out (V : Type) := Option (Option Nat × H V)

/-- `parse_string` (src/common/cJSON.c:773-899) into the item `p`, at offset `i`. -/
def pstring (ok : Nat → Bool) (buf : List UInt8) (h : H V) (p i : Nat) : Out V :=
  match rd buf i with
  | .error _ => none
  | .ok q =>
    if q ≠ 0x22 then some (none, h)
    else
      match scan buf (i + 1) 0 with
      | .error .reject => some (none, h)
      | .error _ => none
      | .ok (e, skipped) =>
        match alloc ok h (.bytes []) with
        | (none, h) => some (none, h)
        | (some a, h) =>
          match decode buf e (e - i - skipped + 1) (i + 1) [] with
          | .error .reject => (free h a).map fun h => (none, h)
          | .error _ => none
          | .ok out =>
            match emit (e - i - skipped + 1) out [0] with
            | .error _ => none
            | .ok _ => (upd (h.set a (some (.bytes out))) p fun it => { it with ty := .string, vstr := some a }).map fun h => (some (e + 1), h)

/-- The end of `parse_array` and `parse_object` when something is wrong: the items of the list are deleted (src/common/cJSON.c:1529-1535, 1704-1710). -/
def drop {α : Type} (h : H V) (hd : Option Nat) : Option (Option α × H V) := (delete h.used h hd).map fun h => (none, h)

/-- A new item is put at the end of the list (src/common/cJSON.c:1485-1497, 1643-1655). `hd`: `head` and `current_item`. Result: the new ones. -/
def link (h : H V) (hd : Option (Nat × Nat)) (a : Nat) : Option ((Nat × Nat) × H V) :=
  match hd with
  | none => some ((a, a), h)
  | some (f, cur) =>
    (upd h cur fun it => { it with next := some a }).bind fun h =>
    (upd h a fun it => { it with prev := some cur }).map fun h => ((f, a), h)

/-- The end of `parse_array` and `parse_object` when all is well (src/common/cJSON.c:1515-1527, 1691-1702). -/
def finish (h : H V) (p : Nat) (ty : Ty V) (hd : Option (Nat × Nat)) (i : Nat) : Out V :=
  match hd with
  | none => (upd h p fun it => { it with ty := ty, child := none }).map fun h => (some i, h)
  | some (f, cur) =>
    (upd h f fun it => { it with prev := some cur }).bind fun h =>
    (upd h p fun it => { it with ty := ty, child := some f }).map fun h => (some i, h)

/-- The loop of `parse_array` (src/common/cJSON.c:1476-1513); see `CJson.elems`. Result: the offset of the closing bracket with `head` and `current_item`. -/
def elems (ok : Nat → Bool) (val : H V → Nat → Nat → Out V) (buf : List UInt8) :
    Nat → H V → Nat → Option (Nat × Nat) → Option (Option (Nat × Nat × Nat) × H V)
  | 0, _, _, _ => none
  | fuel + 1, h, i, hd =>
    match newItem ok h with
    | (none, h) => drop h (hd.map (·.1))
    | (some a, h) =>
      (link h hd a).bind fun (hd, h) =>
      (val h a (skipWs buf (i + 1))).bind fun (r, h) =>
      match r with
      | none => drop h (some hd.1)
      | some j =>
        let k := skipWs buf j
        if isAt buf k 0x2C then elems ok val buf fuel h k (some hd)
        else if isAt buf k 0x5D then some (some (k, hd), h)
        else drop h (some hd.1)

/-- `parse_array` (src/common/cJSON.c:1441-1536) into the item `p`; see `CJson.array`. -/
def array (ok : Nat → Bool) (val : H V → Nat → Nat → Out V) (buf : List UInt8) (h : H V) (p i : Nat) : Out V :=
  let k := skipWs buf (i + 1)
  if isAt buf k 0x5D then finish h p .array none (k + 1)
  else if buf.length ≤ k then some (none, h)
  else
    (elems ok val buf (buf.length + 1) h (k - 1) none).bind fun (r, h) =>
    match r with
    | none => some (none, h)
    | some (k, hd) => finish h p .array (some hd) (k + 1)

/-- The loop of `parse_object` (src/common/cJSON.c:1634-1689); see `CJson.members`. The name is parsed into the item's value and then moved (1667-1668). -/
def members (ok : Nat → Bool) (val : H V → Nat → Nat → Out V) (buf : List UInt8) :
    Nat → H V → Nat → Option (Nat × Nat) → Option (Option (Nat × Nat × Nat) × H V)
  | 0, _, _, _ => none
  | fuel + 1, h, i, hd =>
    match newItem ok h with
    | (none, h) => drop h (hd.map (·.1))
    | (some a, h) =>
      (link h hd a).bind fun (hd, h) =>
      (pstring ok buf h a (skipWs buf (i + 1))).bind fun (r, h) =>
      match r with
      | none => drop h (some hd.1)
      | some j =>
        (upd h a fun it => { it with str := it.vstr, vstr := none }).bind fun h =>
        let k := skipWs buf j
        if isAt buf k 0x3A then
          (val h a (skipWs buf (k + 1))).bind fun (r, h) =>
          match r with
          | none => drop h (some hd.1)
          | some j =>
            let k := skipWs buf j
            if isAt buf k 0x2C then members ok val buf fuel h k (some hd)
            else if isAt buf k 0x7D then some (some (k, hd), h)
            else drop h (some hd.1)
        else drop h (some hd.1)

/-- `parse_object` (src/common/cJSON.c:1601-1711) into the item `p`; see `CJson.object`. -/
def object (ok : Nat → Bool) (val : H V → Nat → Nat → Out V) (buf : List UInt8) (h : H V) (p i : Nat) : Out V :=
  let k := skipWs buf (i + 1)
  if isAt buf k 0x7D then finish h p .object none (k + 1)
  else if buf.length ≤ k then some (none, h)
  else
    (members ok val buf (buf.length + 1) h (k - 1) none).bind fun (r, h) =>
    match r with
    | none => some (none, h)
    | some (k, hd) => finish h p .object (some hd) (k + 1)

/-- A value that needs no memory (src/common/cJSON.c:1321-1341, 375-378). -/
def leaf (h : H V) (p : Nat) (ty : Ty V) (i : Nat) : Out V :=
  (upd h p fun it => { it with ty := ty }).map fun h => (some i, h)

/-- `parse_value` (src/common/cJSON.c:1312-1364) into the item `p`; see `CJson.value`. -/
def value (ok : Nat → Bool) (strtod : List UInt8 → Nat × V) (buf : List UInt8) (n : Nat) (h : H V) (p i : Nat) : Out V :=
  if word buf i [0x6E, 0x75, 0x6C, 0x6C] then leaf h p .null (i + 4)
  else if word buf i [0x66, 0x61, 0x6C, 0x73, 0x65] then leaf h p (.bool false) (i + 5)
  else if word buf i [0x74, 0x72, 0x75, 0x65] then leaf h p (.bool true) (i + 4)
  else
    match buf[i]? with
    | none => some (none, h)
    | some b =>
      if b = 0x22 then pstring ok buf h p i
      else if b = 0x2D ∨ (0x30 ≤ b ∧ b ≤ 0x39) then
        match parseNumber strtod buf i with
        | .ok (.num v, j) => leaf h p (.num v) j
        | _ => some (none, h)
      else if b = 0x5B then
        match n with
        | 0 => some (none, h)
        | n + 1 => array ok (value ok strtod buf n) buf h p i
      else if b = 0x7B then
        match n with
        | 0 => some (none, h)
        | n + 1 => object ok (value ok strtod buf n) buf h p i
      else some (none, h)

/-- `cJSON_ParseWithLengthOpts` without requiring a terminator (src/common/cJSON.c:1095-1148); the result is the item, NULL when something is wrong. -/
def parseLen (ok : Nat → Bool) (strtod : List UInt8 → Nat × V) (buf : List UInt8) (h : H V) : Out V :=
  if buf = [] then some (none, h)
  else
    match newItem ok h with
    | (none, h) => some (none, h)
    | (some p, h) =>
      (value ok strtod buf 1000 h p (skipWs buf (bom buf))).bind fun (r, h) =>
      match r with
      | none => drop h (some p)
      | some _ => some (some p, h)

/-- `cJSON_Parse` (src/common/cJSON.c:1175-1178, 1079-1092). -/
def parse (ok : Nat → Bool) (strtod : List UInt8 → Nat × V) (text : List UInt8) (h : H V) : Out V :=
  parseLen ok strtod (text.takeWhile (· ≠ 0) ++ [0]) h

/-- The loop of `cJSON_GetArraySize` (src/common/cJSON.c:1839-1843) from the child `c` on; `none`: something is read that is not there, or the model's counter ran out. -/
def count : Nat → H V → Option Nat → Option Nat
  | _, _, none => some 0
  | 0, _, some _ => none
  | n + 1, h, some c => (item h c).bind fun it => (count n h it.next).map (· + 1)

/-- `cJSON_GetArraySize` (src/common/cJSON.c:1828-1848) of an item that is there. -/
def arraySize (n : Nat) (h : H V) (p : Nat) : Option Nat := (item h p).bind fun it => count n h it.child

/-- The loop of `get_array_item` (src/common/cJSON.c:1860-1866). -/
def nth (h : H V) : Option Nat → Nat → Option (Option Nat)
  | none, _ => some none
  | some c, 0 => some (some c)
  | some c, i + 1 => (item h c).bind fun it => nth h it.next i

/-- `cJSON_GetArrayItem` (src/common/cJSON.c:1850-1878) of an item that is there; the result may be NULL. -/
def arrayItem (h : H V) (p i : Nat) : Option (Option Nat) := (item h p).bind fun it => nth h it.child i

/-- The loop of `get_object_item` (src/common/cJSON.c:1899-1903) and what follows it (1906-1910); a name that is NULL is never the same (135-138). -/
def find (name : List UInt8) : Nat → H V → Option Nat → Option (Option Nat)
  | _, _, none => some none
  | 0, _, some _ => none
  | n + 1, h, some c =>
    (item h c).bind fun it =>
    match it.str with
    | none => find name n h it.next
    | some a =>
      match h.cells a with
      | some (.bytes s) => if Config.same name s then some (some c) else find name n h it.next
      | _ => none

/-- `cJSON_GetObjectItem` (src/common/cJSON.c:1880-1915) of an item that is there. -/
def objectItem (n : Nat) (h : H V) (p : Nat) (name : List UInt8) : Option (Option Nat) := (item h p).bind fun it => find name n h it.child

end Verif.CJsonMem
