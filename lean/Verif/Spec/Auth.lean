import Verif.Model.Auth
import Verif.Spec.Stream
/-
Vocabulary for the authorisation properties.
-/
namespace Verif.Auth
open Verif Verif.Aho

/-- Whether an attempt was admitted. -/
def Verdict.isAdmitted : Verdict → Bool
  | .admitted _ _ => true
  | _ => false

/-- The text an attempt presents to the matcher: nothing unless the header is complete and starts with the magic. -/
def presented (l : List Rx) : List UInt8 :=
  match authRecv [] l with
  | .have_ buf _ => if buf.take 4 = magic then keyText buf else []
  | _ => []

/-- For attempt number `n` of a history: all text presented since the last admitted attempt before it, including its own. -/
def window (acc : List UInt8) : List (List Rx) → List Verdict → Nat → List UInt8
  | l :: _, _ :: _, 0 => acc ++ presented l
  | l :: ls, v :: vs, n + 1 => window (if v.isAdmitted then [] else acc ++ presented l) ls vs n
  | _, _, _ => []

/-- The matcher after a history. -/
def after (m : Matcher) : List (List Rx) → Matcher
  | [] => m
  | l :: ls => after ((authChk m l).next m) ls

end Verif.Auth
