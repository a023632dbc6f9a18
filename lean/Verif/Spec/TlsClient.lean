import Verif.Model.TlsClient
import Verif.Spec.TlsRelay
/-
What a session of the tunnel client on top of TLS is measured against.
-/
namespace Verif.Spec.TlsClient
open Verif Verif.TlsClient

/-- The header is written without a wait. -/
def HeaderAtOnce (key : List UInt8) : C → List Ev → Prop
  | _, [] => True
  | c, e :: es => (c.phase = .auth → e ≠ .call .waitR ∧ e ≠ .call .waitW) ∧ HeaderAtOnce key (step key c e) es

instance decHeaderAtOnce (key : List UInt8) : (c : C) → (es : List Ev) → Decidable (HeaderAtOnce key c es)
  | _, [] => .isTrue trivial
  | c, e :: es =>
    have := decHeaderAtOnce key (step key c e) es
    by unfold HeaderAtOnce; infer_instance

/-- The header: a magic number, sixteen bytes of the key, filled up with zeros, and sixteen zeros. -/
def header (key : List UInt8) : List UInt8 := [0xa0, 0x01, 0xbe, 0xef] ++ (key ++ List.replicate 16 0).take 16 ++ List.replicate 16 0

end Verif.Spec.TlsClient
