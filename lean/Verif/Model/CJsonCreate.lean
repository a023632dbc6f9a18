import Verif.Model.CJsonNamed
/-
Creating items. src/common/cJSON.c:400-425, 2079-2186, 2385-2703. Memory as in `Model/CJsonMem`. Not modelled: raw text and references (2472-2520); the saturated integer beside the floating value of a
number is part of the type. A string or name that the caller gives is a block of the memory.
-/
namespace Verif.CJsonMem

variable {V : Type} {α : Type}

/-- `cJSON_CreateNull`, `cJSON_CreateTrue`, `cJSON_CreateFalse`, `cJSON_CreateBool`, `cJSON_CreateNumber`, `cJSON_CreateArray`, `cJSON_CreateObject` (src/common/cJSON.c:2385-2453, 2522-2542): an
item with the type `ty`. -/
def createItem (ok : Nat → Bool) (ty : Ty V) (h : H V) : Out V :=
  match newItem ok h with
  | (none, h) => some (none, h)
  | (some q, h) => (upd h q fun it => { it with ty := ty }).map fun h => (some q, h)

/-- `cJSON_CreateString` (src/common/cJSON.c:2455-2470) of the string at `s`. -/
def createString (ok : Nat → Bool) (s : Nat) (h : H V) : Out V :=
  match newItem ok h with
  | (none, h) => some (none, h)
  | (some q, h) =>
    (upd h q fun it => { it with ty := .string }).bind fun h =>
    (strdup ok h (some s)).bind fun (okv, v, h) =>
    (upd h q fun it => { it with vstr := v }).bind fun h =>
    if okv then some (some q, h) else drop h (some q)

/-- The loop over the elements (src/common/cJSON.c:2559-2576, 2599-2616, 2639-2656, 2679-2696), with the creating of one item as parameter. `false`: one could not be created. With the last one. -/
def creates (mk : α → H V → Out V) (q : Nat) : List α → H V → Option Nat → Option (Bool × Option Nat × H V)
  | [], h, last => some (true, last, h)
  | x :: xs, h, last =>
    (mk x h).bind fun (r, h) =>
    match r with
    | none => some (false, last, h)
    | some n => (hook h q last n).bind fun h => creates mk q xs h (some n)

/-- `cJSON_CreateIntArray`, `cJSON_CreateFloatArray`, `cJSON_CreateDoubleArray`, `cJSON_CreateStringArray` (src/common/cJSON.c:2545-2703) with the elements `xs`; the result may be NULL. -/
def createArray (ok : Nat → Bool) (mk : α → H V → Out V) (xs : List α) (h : H V) : Out V :=
  (createItem ok .array h).bind fun (r, h) =>
  match r with
  | none => some (none, h)
  | some q =>
    (creates mk q xs h none).bind fun (okc, last, h) =>
    if okc then (close h q last).map fun h => (some q, h) else drop h (some q)

/-- `cJSON_CreateIntArray`, `cJSON_CreateFloatArray`, `cJSON_CreateDoubleArray` (src/common/cJSON.c:2545-2663); the numbers are already converted. -/
def createNumbers (ok : Nat → Bool) (vs : List V) (h : H V) : Out V := createArray ok (fun v => createItem ok (.num v)) vs h

/-- `cJSON_CreateStringArray` (src/common/cJSON.c:2665-2703) of the strings at these addresses. -/
def createStrings (ok : Nat → Bool) (ss : List Nat) (h : H V) : Out V := createArray ok (createString ok) ss h

/-- `cJSON_AddNullToObject` and the others of its kind (src/common/cJSON.c:2079-2185): a new item becomes the member of the object `p` with the name at `s`. Adding NULL is refused (2016-2019). -/
def addCreated (ok : Nat → Bool) (mk : H V → Out V) (h : H V) (p s : Nat) : Out V :=
  (mk h).bind fun (r, h) =>
  match r with
  | none => some (none, h)
  | some a =>
    (addNamed ok h p s a).bind fun (okn, h) =>
    if okn then some (some a, h) else drop h (some a)

/-- `cJSON_SetValuestring` (src/common/cJSON.c:400-425): the value of the item `p` becomes the string at `s`; the result is the address of the new value. `none`: memory is used that is not there, or a string
is copied to its own place, for which C says nothing. -/
def setString (ok : Nat → Bool) (h : H V) (p s : Nat) : Out V :=
  (item h p).bind fun it =>
  match it.ty with
  | .string =>
    match it.vstr with
    | none => none
    | some v =>
      match h.cells s, h.cells v with
      | some (.bytes new), some (.bytes old) =>
        if (new.takeWhile (· ≠ 0)).length ≤ (old.takeWhile (· ≠ 0)).length then
          if s = v then none else some (some v, h.set v (some (.bytes (new.takeWhile (· ≠ 0)))))
        else
          (strdup ok h (some s)).bind fun (okc, c, h) =>
          if okc then (free h v).bind fun h => (upd h p fun it => { it with vstr := c }).map fun h => (c, h)
          else some (none, h)
      | _, _ => none
  | _ => some (none, h)

end Verif.CJsonMem
