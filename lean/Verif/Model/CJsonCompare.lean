import Verif.Model.CJsonPrint
import Verif.Model.Config
/-
Comparing two JSON documents. src/common/cJSON.c:2986-3109 with 1880-1911. Simplifications: the documents are trees as `cJSON_Parse` gives them; the two are never the same item
(3010-3014), nor are two names of theirs (140-143); there are no raw items.
-/
namespace Verif.CJsonCompare
open Verif.CJson (J)
open Verif.CJsonPrint (Dbl)

/-- `compare_double` (src/common/cJSON.c:538-542). An infinity minus a finite number, or minus the other infinity, is infinite and so is the bound (infinite times `DBL_EPSILON`);
an infinity minus itself is no number, and comparing that gives false. Simplification: the difference of finite numbers is not rounded. -/
def compareDouble : Dbl → Dbl → Bool
  | .fin a, .fin b => decide ((a - b).abs ≤ (if b.abs < a.abs then a.abs else b.abs) / 4503599627370496)
  | .nan, _ => false
  | _, .nan => false
  | .inf s, .inf t => s != t
  | .inf _, .fin _ => true
  | .fin _, .inf _ => true

/-- `strcmp(...) == 0` (src/common/cJSON.c:1892, 3037) of two C strings, given without their terminators. -/
def strEq (a b : List UInt8) : Bool := a.takeWhile (· ≠ 0) == b.takeWhile (· ≠ 0)

/-- The test of one name in `get_object_item` (src/common/cJSON.c:1890-1903). -/
def nameEq (cs : Bool) (name s : List UInt8) : Bool := if cs then strEq name s else Config.same name s

/-- `get_object_item` (src/common/cJSON.c:1880-1911): the first member with the name. -/
def getItem (cs : Bool) (xs : List (List UInt8 × J Dbl)) (name : List UInt8) : Option (J Dbl) := (xs.find? fun x => nameEq cs name x.1).map (·.2)

/-- The loop over two arrays (src/common/cJSON.c:3049-3065), with the comparison of two elements as parameter. Second: the number of calls of `cJSON_Compare`. -/
def elems (cmp : J Dbl → J Dbl → Bool × Nat) : List (J Dbl) → List (J Dbl) → Bool × Nat
  | x :: xs, y :: ys =>
    let r := cmp x y
    if r.1 then
      let s := elems cmp xs ys
      (s.1, r.2 + s.2)
    else (false, r.2)
  | [], [] => (true, 0)
  | _, _ => (false, 0)

/-- One loop over the members of an object (src/common/cJSON.c:3072-3085, 3089-3101): each is looked up in the other object and compared. -/
def members (cs : Bool) (cmp : J Dbl → J Dbl → Bool × Nat) (other : List (List UInt8 × J Dbl)) : List (List UInt8 × J Dbl) → Bool × Nat
  | [] => (true, 0)
  | x :: xs =>
    match getItem cs other x.1 with
    | none => (false, 0)
    | some y =>
      let r := cmp x.2 y
      if r.1 then
        let s := members cs cmp other xs
        (s.1, r.2 + s.2)
      else (false, r.2)

/-- `cJSON_Compare` (src/common/cJSON.c:2986-3109): the answer, and the number of calls. The first argument bounds the nesting; with it at least as large as the nesting of one of the
documents it never runs out. -/
def compare (cs : Bool) : Nat → J Dbl → J Dbl → Bool × Nat
  | _, .null, .null => (true, 1)
  | _, .bool a, .bool b => (a == b, 1)
  | _, .num a, .num b => (compareDouble a b, 1)
  | _, .str a, .str b => (strEq a b, 1)
  | n + 1, .arr xs, .arr ys =>
    let r := elems (compare cs n) xs ys
    (r.1, r.2 + 1)
  | n + 1, .obj xs, .obj ys =>
    let r := members cs (compare cs n) ys xs
    if r.1 then
      let s := members cs (compare cs n) xs ys
      (s.1, r.2 + s.2 + 1)
    else (false, r.2 + 1)
  | _, _, _ => (false, 1)

end Verif.CJsonCompare
