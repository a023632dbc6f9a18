import Verif.Model.CJsonMem
/-
Copying a document in memory. src/common/cJSON.c:2706-2787. Memory as in `Model/CJsonMem`; no item is a reference or has a constant name here.
Simplification: the integer and the floating value of a number are one value, part of the type.
-/
namespace Verif.CJsonMem

variable {V : Type}

/-- `cJSON_strdup` (src/common/cJSON.c:188-207) of a string that is there or NULL (the callers ask first, 2729, 2737). `false`: there is no memory.
The copy ends at the first zero byte of the string. -/
def strdup (ok : Nat → Bool) (h : H V) : Option Nat → Option (Bool × Option Nat × H V)
  | none => some (true, none, h)
  | some a =>
    match h.cells a with
    | some (.bytes s) =>
      match alloc ok h (.bytes (s.takeWhile (· ≠ 0))) with
      | (none, h) => some (false, none, h)
      | (some b, h) => some (true, some b, h)
    | _ => none

/-- A copied child `c` is put at the end of the children of the item `q` (src/common/cJSON.c:2759-2771). `last`: the variable `next`. -/
def hook (h : H V) (q : Nat) (last : Option Nat) (c : Nat) : Option (H V) :=
  match last with
  | some m => (upd h m fun it => { it with next := some c }).bind fun h => upd h c fun it => { it with prev := some m }
  | none => upd h q fun it => { it with child := some c }

/-- The loop over the children (src/common/cJSON.c:2752-2773) from the child `c` on, with the copying of one item as parameter. `none`: memory is used that is not there, or the
model's counter ran out (proved not to happen); `false`: a copy failed. With the last copy. -/
def copies (dup : H V → Nat → Out V) (q : Nat) : Nat → H V → Option Nat → Option Nat → Option (Bool × Option Nat × H V)
  | _, h, none, last => some (true, last, h)
  | 0, _, some _, _ => none
  | n + 1, h, some c, last =>
    (dup h c).bind fun (r, h) =>
    match r with
    | none => some (false, last, h)
    | some c' =>
      (hook h q last c').bind fun h =>
      (item h c).bind fun it => copies dup q n h it.next (some c')

/-- The first child is told which one is the last (src/common/cJSON.c:2774-2777). -/
def close (h : H V) (q : Nat) (last : Option Nat) : Option (H V) :=
  (item h q).bind fun it =>
  match it.child with
  | none => some h
  | some f => upd h f fun it => { it with prev := last }

/-- `cJSON_Duplicate` (src/common/cJSON.c:2706-2787) of an item that is there. `recurse`: with all that is in it. The result may be NULL. -/
def duplicate (ok : Nat → Bool) (recurse : Bool) : Nat → H V → Nat → Out V
  | 0, _, _ => none
  | n + 1, h, p =>
    match newItem ok h with
    | (none, h) => some (none, h)
    | (some q, h) =>
      (item h p).bind fun src =>
      (upd h q fun it => { it with ty := src.ty }).bind fun h =>
      (strdup ok h src.vstr).bind fun (okv, v, h) =>
      if okv then
        (upd h q fun it => { it with vstr := v }).bind fun h =>
        (strdup ok h src.str).bind fun (oks, s, h) =>
        if oks then
          (upd h q fun it => { it with str := s }).bind fun h =>
          if recurse then
            (copies (duplicate ok true n) q n h src.child none).bind fun (okc, last, h) =>
            if okc then (close h q last).map fun h => (some q, h) else drop h (some q)
          else some (some q, h)
        else drop h (some q)
      else drop h (some q)

end Verif.CJsonMem
