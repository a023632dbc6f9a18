import Verif.Model.Recv
/-
The byte stream a connection delivers, independent of how it is cut into receive calls.
-/
namespace Verif

/-- The bytes a connection delivers before it fails. -/
def streamOf : List Rx → List UInt8
  | [] => []
  | .data b bs :: t => b :: bs ++ streamOf t
  | .again :: t => streamOf t
  | .fail :: _ => []

/-- The connection fails (or reaches end of stream) at the end of its stream. -/
def failsAtEnd : List Rx → Bool
  | [] => false
  | .data _ _ :: t => failsAtEnd t
  | .again :: t => failsAtEnd t
  | .fail :: _ => true

end Verif
