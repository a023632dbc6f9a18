import Verif.Model.CJsonEdit
import Verif.Model.CJsonDup
/-
Editing the members of an object by name. src/common/cJSON.c:2011-2047, 2238-2243, 2351-2372. Memory as in `Model/CJsonMem`; pointers that the functions check for NULL first are not NULL here,
and no item is a reference or has a constant name. The name that the caller gives is a block `s` of the memory, so that it may be the name of an item.
-/
namespace Verif.CJsonMem

variable {V : Type}

/-- `add_item_to_object` without a constant key (src/common/cJSON.c:2011-2047): the member `a` with the name at `s` is put into the object `p`. -/
def addNamed (ok : Nat → Bool) (h : H V) (p s a : Nat) : Option (Bool × H V) :=
  if p = a then some (false, h)
  else
    (strdup ok h (some s)).bind fun (okn, key, h) =>
    if okn then
      (item h a).bind fun it =>
      (freeOpt h it.str).bind fun h =>
      (upd h a fun i => { i with str := key }).bind fun h => addItem h p a
    else some (false, h)

/-- `cJSON_DetachItemFromObject` (src/common/cJSON.c:2238-2243) of the member with the name `nm`, with NULL passed on (2189-2192). `n`: as in `find`. -/
def detachNamed (n : Nat) (h : H V) (p : Nat) (nm : List UInt8) : Option (Option Nat × H V) :=
  (objectItem n h p nm).bind fun r =>
  match r with
  | none => some (none, h)
  | some x => (detach h p x).map fun h => (some x, h)

/-- `replace_item_in_object` (src/common/cJSON.c:2351-2372) without regard to case: the member with the name at `s` is replaced by `a`, which gets that name. `n`: as in `find`. -/
def replaceNamed (ok : Nat → Bool) (n : Nat) (h : H V) (p s a : Nat) : Option (Bool × H V) :=
  (item h a).bind fun it =>
  (freeOpt h it.str).bind fun h =>
  (strdup ok h (some s)).bind fun (okn, key, h) =>
  (upd h a fun i => { i with str := key }).bind fun h =>
  if okn then
    match h.cells s with
    | some (.bytes nm) =>
      (objectItem n h p nm).bind fun r =>
      match r with
      | none => some (false, h)
      | some x => replace h p x a
    | _ => none
  else some (false, h)

end Verif.CJsonMem
