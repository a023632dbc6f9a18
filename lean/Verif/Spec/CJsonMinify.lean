import Verif.Model.CJson
/-
A JSON text without the white space outside its strings. Of the program only the type of documents is used here.
-/
namespace Verif.CJsonMinify.Spec

mutual

/-- Outside strings white space is left out. -/
def strip : List UInt8 → List UInt8
  | [] => []
  | c :: r => if c = 0x22 then c :: within r else if c ∈ [0x20, 9, 10, 13] then strip r else c :: strip r

/-- Inside a string everything is kept; a backslash takes the next byte with it. -/
def within : List UInt8 → List UInt8
  | [] => []
  | c :: r => if c = 0x5C then c :: escaped r else if c = 0x22 then c :: strip r else c :: within r

/-- Behind a backslash. -/
def escaped : List UInt8 → List UInt8
  | [] => []
  | c :: r => c :: within r

end

/-- A comment: two slashes up to the end of the line, or what lies between slash and star and the first star and slash. -/
inductive Comment : List UInt8 → Prop where
  | line (s : List UInt8) (h : ∀ c ∈ s, c ≠ 10 ∧ c ≠ 0) : Comment (0x2F :: 0x2F :: s ++ [10])
  | block (s : List UInt8) (h0 : 0 ∉ s) (h : ∀ a b, s ++ [0x2A] ≠ a ++ 0x2A :: 0x2F :: b) : Comment (0x2F :: 0x2A :: s ++ [0x2A, 0x2F])

/-- White space and comments. -/
inductive Gap : List UInt8 → Prop where
  | nil : Gap []
  | blank (c : UInt8) (s : List UInt8) (h : c ∈ [0x20, 9, 10, 13]) (hs : Gap s) : Gap (c :: s)
  | comment (c s : List UInt8) (h : Comment c) (hs : Gap s) : Gap (c ++ s)

/-- All strings and names of a document are like `P` says. -/
inductive Strings {V : Type} (P : List UInt8 → Prop) : CJson.J V → Prop where
  | null : Strings P .null
  | bool (b) : Strings P (.bool b)
  | num (v) : Strings P (.num v)
  | str (s) (h : P s) : Strings P (.str s)
  | arr (xs) (h : ∀ x ∈ xs, Strings P x) : Strings P (.arr xs)
  | obj (xs) (hn : ∀ x ∈ xs, P x.1) (h : ∀ x ∈ xs, Strings P x.2) : Strings P (.obj xs)

end Verif.CJsonMinify.Spec
