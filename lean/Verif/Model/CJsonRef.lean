import Verif.Model.CJsonNamed
import Verif.Model.CJsonCreate
/-
References and constant names. src/common/cJSON.c:253-273, 400-430, 1934-1954, 2011-2077, 2472-2503. Memory as in `Model/CJsonMem`. The bits `cJSON_IsReference` and `cJSON_StringIsConst` of the type of an item are kept beside the
memory, by its address.
-/
namespace Verif.CJsonMem

variable {V : Type}

/-- The two bits of the items (src/common/cJSON.h:99-100). -/
structure Bits where
  ref : Nat → Bool
  const : Nat → Bool

/-- `cJSON_Delete` (src/common/cJSON.c:253-273) with regard to the bits. `none`: as in `delete`. -/
def deleteBits (b : Bits) : Nat → H V → Option Nat → Option (H V)
  | _, h, none => some h
  | 0, _, some _ => none
  | n + 1, h, some p =>
    (item h p).bind fun it =>
    (if b.ref p then some h else deleteBits b n h it.child).bind fun h =>
    (if b.ref p then some h else freeOpt h it.vstr).bind fun h =>
    (if b.const p then some h else freeOpt h it.str).bind fun h =>
    (free h p).bind fun h =>
    deleteBits b n h it.next

/-- `create_reference` (src/common/cJSON.c:1935-1954) to the item `x`; the result is NULL if there is no memory. -/
def createRef (ok : Nat → Bool) (b : Bits) (h : H V) (x : Nat) : Option (Option Nat × H V × Bits) :=
  match newItem ok h with
  | (none, h) => some (none, h, b)
  | (some q, h) =>
    (item h x).bind fun it =>
    (upd h q fun _ => { it with str := none, next := none, prev := none }).map fun h =>
      (some q, h, { ref := fun a => if a = q then true else b.ref a, const := fun a => if a = q then b.const x else b.const a })

/-- `cJSON_AddItemReferenceToArray` (src/common/cJSON.c:2059-2067). -/
def addRef (ok : Nat → Bool) (b : Bits) (h : H V) (p x : Nat) : Option (Bool × H V × Bits) :=
  (createRef ok b h x).bind fun (r, h, b) =>
  match r with
  | none => some (false, h, b)
  | some q => (addItem h p q).map fun (r, h) => (r, h, b)

/-- `cJSON_AddItemReferenceToObject` (src/common/cJSON.c:2069-2077): the new item has no name that could be freed (2036); its name is then no constant (2033). -/
def addRefNamed (ok : Nat → Bool) (b : Bits) (h : H V) (p s x : Nat) : Option (Bool × H V × Bits) :=
  (createRef ok b h x).bind fun (r, h, b) =>
  match r with
  | none => some (false, h, b)
  | some q => (addNamed ok h p s q).map fun (r, h) => (r, h, if r then { b with const := fun a => if a = q then false else b.const a } else b)

/-- `cJSON_AddItemToObjectCS` (src/common/cJSON.c:2011-2047, 2054-2057): the item `a` becomes a member of the object `p`; its name is the string at `s` itself. -/
def addConst (b : Bits) (h : H V) (p s a : Nat) : Option (Bool × H V × Bits) :=
  if p = a then some (false, h, b)
  else
    (item h a).bind fun it =>
    (if b.const a then some h else freeOpt h it.str).bind fun h =>
    (upd h a fun i => { i with str := some s }).bind fun h =>
    (addItem h p a).map fun (r, h) => (r, h, { b with const := fun x => if x = a then true else b.const x })

/-- `cJSON_CreateStringReference` (src/common/cJSON.c:2472-2482) with the string at `s`. -/
def createStringRef (ok : Nat → Bool) (b : Bits) (h : H V) (s : Nat) : Option (Option Nat × H V × Bits) :=
  match newItem ok h with
  | (none, h) => some (none, h, b)
  | (some q, h) => (upd h q fun it => { it with ty := .string, vstr := some s }).map fun h => (some q, h, { b with ref := fun a => if a = q then true else b.ref a })

/-- `cJSON_CreateObjectReference` and `cJSON_CreateArrayReference` (src/common/cJSON.c:2484-2503) with the list that begins at `c`. -/
def createListRef (ok : Nat → Bool) (b : Bits) (h : H V) (obj : Bool) (c : Option Nat) : Option (Option Nat × H V × Bits) :=
  match newItem ok h with
  | (none, h) => some (none, h, b)
  | (some q, h) => (upd h q fun it => { it with ty := if obj then .object else .array, child := c }).map fun h => (some q, h, { b with ref := fun a => if a = q then true else b.ref a })

/-- `cJSON_SetValuestring` (src/common/cJSON.c:400-430) with regard to the bits. -/
def setStringBits (ok : Nat → Bool) (b : Bits) (h : H V) (p s : Nat) : Out V := if b.ref p then some (none, h) else setString ok h p s

end Verif.CJsonMem
