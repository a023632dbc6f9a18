import Mathlib.Data.List.Basic
/-
Vocabulary for C113.
-/
namespace Verif.Spec.Cipher

/-- Byte-wise exclusive or of two messages, as far as both go. -/
def xors (a b : List UInt8) : List UInt8 := List.zipWith (· ^^^ ·) a b

end Verif.Spec.Cipher
