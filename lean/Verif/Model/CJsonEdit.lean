import Verif.Model.CJsonMem
/-
Editing the children of an array or object. src/common/cJSON.c:1850-1878, 1926-1985, 2187-2231, 2263-2339. Memory as in `Model/CJsonMem`; pointers that the functions check for NULL first are
not NULL here, and no item is a reference or has a constant name.
-/
namespace Verif.CJsonMem

variable {V : Type}

/-- Writing through a pointer; `none`: it is NULL or there is no item. See src/common/cJSON.c:2197, 2202. -/
def updAt (h : H V) (p : Option Nat) (f : Item V → Item V) : Option (H V) := p.bind fun p => upd h p f

/-- `add_item_to_array` (src/common/cJSON.c:1956-1985) with `suffix_object` (1928-1932) for the array `p` and the item `a`; the answer is the function's. -/
def addItem (h : H V) (p a : Nat) : Option (Bool × H V) :=
  if p = a then some (false, h)
  else
    (item h p).bind fun par =>
    match par.child with
    | none =>
      (upd h p fun it => { it with child := some a }).bind fun h =>
      (upd h a fun it => { it with prev := some a, next := none }).map fun h => (true, h)
    | some c =>
      (item h c).bind fun first =>
      match first.prev with
      | none => some (true, h)
      | some l =>
        (upd h l fun it => { it with next := some a }).bind fun h =>
        (upd h a fun it => { it with prev := some l }).bind fun h =>
        (upd h c fun it => { it with prev := some a }).map fun h => (true, h)

/-- `cJSON_DetachItemViaPointer` (src/common/cJSON.c:2187-2221) of the item `x` of `p`. Simplification: the fields of `x` and the first child are read once at the beginning. -/
def detach (h : H V) (p x : Nat) : Option (H V) :=
  (item h p).bind fun par =>
  (item h x).bind fun it =>
  (if par.child ≠ some x then updAt h it.prev fun i => { i with next := it.next } else some h).bind fun h =>
  (if it.next ≠ none then updAt h it.next fun i => { i with prev := it.prev } else some h).bind fun h =>
  (if par.child = some x then upd h p fun i => { i with child := it.next }
    else if it.next = none then updAt h par.child fun i => { i with prev := it.prev } else some h).bind fun h =>
  upd h x fun i => { i with prev := none, next := none }

/-- `cJSON_DetachItemFromArray` (src/common/cJSON.c:2223-2231) with an index that is not negative; NULL if there is no such item. -/
def detachAt (h : H V) (p i : Nat) : Option (Option Nat × H V) :=
  (arrayItem h p i).bind fun r =>
  match r with
  | none => some (none, h)
  | some x => (detach h p x).map fun h => (some x, h)

/-- `cJSON_InsertItemInArray` (src/common/cJSON.c:2263-2290) with an index that is not negative. -/
def insertAt (h : H V) (p i a : Nat) : Option (Bool × H V) :=
  (arrayItem h p i).bind fun r =>
  match r with
  | none => addItem h p a
  | some y =>
    (item h y).bind fun it =>
    (upd h a fun i => { i with next := some y, prev := it.prev }).bind fun h =>
    (upd h y fun i => { i with prev := some a }).bind fun h =>
    (item h p).bind fun par =>
    (if par.child = some y then upd h p fun i => { i with child := some a }
      else updAt h it.prev fun i => { i with next := some a }).map fun h => (true, h)

/-- `cJSON_ReplaceItemViaPointer` (src/common/cJSON.c:2292-2339) of the item `x` of `p` by `a`, up to where the old item is deleted (2336). -/
def replaceLinks (h : H V) (p x a : Nat) : Option (H V) :=
  (item h x).bind fun it =>
  (upd h a fun i => { i with next := it.next, prev := it.prev }).bind fun h =>
  (if it.next ≠ none then updAt h it.next fun i => { i with prev := some a } else some h).bind fun h =>
  (item h p).bind fun par =>
  (if par.child = some x then
    (item h x).bind fun first =>
    (if first.prev = some x then upd h a fun i => { i with prev := some a } else some h).bind fun h =>
    upd h p fun i => { i with child := some a }
  else
    (if it.prev ≠ none then updAt h it.prev fun i => { i with next := some a } else some h).bind fun h =>
    if it.next = none then updAt h par.child fun i => { i with prev := some a } else some h).bind fun h =>
  upd h x fun i => { i with next := none, prev := none }

/-- `cJSON_ReplaceItemViaPointer` (src/common/cJSON.c:2292-2339); `true` is the function's answer. -/
def replace (h : H V) (p x a : Nat) : Option (Bool × H V) :=
  if a = x then some (true, h)
  else (replaceLinks h p x a).bind fun h => (delete h.used h (some x)).map fun h => (true, h)

end Verif.CJsonMem
