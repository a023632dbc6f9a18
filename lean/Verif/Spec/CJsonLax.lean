import Verif.Spec.CJson
/-
The texts that are more than JSON: white space is any control character, strings may hold any byte, four characters behind `\u` that are no
number stand for the byte 0, and numbers are whatever the C library takes whole. Nothing of the parser is used here, only its result type.
-/
namespace Verif.CJson.Lax
open Spec (utf8 Scalar Hex4 letters commas)

/-- Blank: the space and the control characters below it. -/
def Blank (s : List UInt8) : Prop := ∀ b ∈ s, b ≤ 0x20

/-- One element of a string literal: its spelling and its bytes. -/
inductive Unit : List UInt8 → List UInt8 → Prop where
  | raw (b : UInt8) (h : b ≠ 0x5C) : Unit [b] [b]
  | letter (b c : UInt8) (h : (b, c) ∈ letters) : Unit [0x5C, b] [c]
  | hex (hs : List UInt8) (c : Nat) (h : Hex4 hs c) (hc : Scalar c) : Unit (0x5C :: 0x75 :: hs) (utf8 c)
  | bad (hs : List UInt8) (hl : hs.length = 4) (h : ¬ ∃ c, Hex4 hs c) : Unit (0x5C :: 0x75 :: hs) [0]
  | pair (hs ls : List UInt8) (hi lo : Nat) (h1 : Hex4 hs (0xD800 + hi)) (h2 : Hex4 ls (0xDC00 + lo)) (b1 : hi < 1024) (b2 : lo < 1024) :
      Unit (0x5C :: 0x75 :: hs ++ 0x5C :: 0x75 :: ls) (utf8 (0x10000 + hi * 1024 + lo))

/-- A sequence of elements and the bytes they denote. -/
inductive Str : List UInt8 → List UInt8 → Prop where
  | nil : Str [] []
  | cons (u o s t : List UInt8) (hu : Unit u o) (hs : Str s t) : Str (u ++ s) (o ++ t)

/-- A text without a quote that ends it: every quote stands behind a backslash that takes it. -/
inductive Closed : List UInt8 → Prop where
  | nil : Closed []
  | esc (b : UInt8) (s : List UInt8) (h : Closed s) : Closed (0x5C :: b :: s)
  | plain (b : UInt8) (s : List UInt8) (h1 : b ≠ 0x22) (h2 : b ≠ 0x5C) (h : Closed s) : Closed (b :: s)

/-- The inside of a string literal and the bytes it denotes. The second case: a backslash in front of the closing quote that is the second
half of an escape when the end is looked for, but not when the elements are read; then the closing quote belongs to the string as well. -/
def Literal (body out : List UInt8) : Prop :=
  Closed body ∧ (Str body out ∨ ∃ b o, body = b ++ [0x5C] ∧ Str b o ∧ out = o ++ [0x22])

/-- The characters numbers are made of. -/
def numeric : List UInt8 := "0123456789+-eE.".toUTF8.toList

/-- A number: at most 63 such characters, beginning with a digit or a minus sign, that the C library's conversion takes as a whole. -/
def Number {V : Type} (conv : List UInt8 → Nat × V) (s : List UInt8) (v : V) : Prop :=
  s.length ≤ 63 ∧ (∀ b ∈ s, b ∈ numeric) ∧ (∃ b ∈ s.head?, b = 0x2D ∨ b ∈ "0123456789".toUTF8.toList) ∧ conv s = (s.length, v)

/-- A law of the conversion: it takes a prefix, and that prefix alone gives the same. -/
def Prefix {V : Type} (conv : List UInt8 → Nat × V) : Prop :=
  ∀ t, (conv t).1 ≤ t.length ∧ conv (t.take (conv t).1) = conv t

/-- The texts of a value with nesting up to `n`. -/
def Val {V : Type} (conv : List UInt8 → Nat × V) : Nat → List UInt8 → J V → Prop
  | n, s, j =>
    (s = [0x6E, 0x75, 0x6C, 0x6C] ∧ j = .null) ∨
    (s = [0x66, 0x61, 0x6C, 0x73, 0x65] ∧ j = .bool false) ∨
    (s = [0x74, 0x72, 0x75, 0x65] ∧ j = .bool true) ∨
    (∃ v, Number conv s v ∧ j = .num v) ∨
    (∃ b o, Literal b o ∧ s = 0x22 :: b ++ [0x22] ∧ j = .str o) ∨
    match n with
    | 0 => False
    | n + 1 =>
      (∃ w, Blank w ∧ s = 0x5B :: w ++ [0x5D] ∧ j = .arr []) ∨
      (∃ w, Blank w ∧ s = 0x7B :: w ++ [0x7D] ∧ j = .obj []) ∨
      (∃ items : List (List UInt8 × List UInt8 × List UInt8 × J V), items ≠ [] ∧
        (∀ x ∈ items, Blank x.1 ∧ Val conv n x.2.1 x.2.2.2 ∧ Blank x.2.2.1) ∧
        s = 0x5B :: commas (items.map fun x => x.1 ++ x.2.1 ++ x.2.2.1) ++ [0x5D] ∧ j = .arr (items.map fun x => x.2.2.2)) ∨
      (∃ items : List ((List UInt8 × List UInt8 × List UInt8 × List UInt8) × List UInt8 × List UInt8 × List UInt8 × J V), items ≠ [] ∧
        (∀ x ∈ items, Blank x.1.1 ∧ Literal x.1.2.1 x.1.2.2.1 ∧ Blank x.1.2.2.2 ∧ Blank x.2.1 ∧ Val conv n x.2.2.1 x.2.2.2.2 ∧ Blank x.2.2.2.1) ∧
        s = 0x7B :: commas (items.map fun x => x.1.1 ++ 0x22 :: x.1.2.1 ++ 0x22 :: x.1.2.2.2 ++ 0x3A :: x.2.1 ++ x.2.2.1 ++ x.2.2.2.1) ++ [0x7D] ∧
        j = .obj (items.map fun x => (x.1.2.2.1, x.2.2.2.2)))

/-- An array or an object. -/
def Container {V : Type} : J V → Prop
  | .arr _ => True
  | .obj _ => True
  | _ => False

/-- A text up to its first zero byte: an optional byte order mark, blanks, a value, and anything. The value ends at `k`. -/
def Text {V : Type} (conv : List UInt8 → Nat × V) (text : List UInt8) (j : J V) (k : Nat) : Prop :=
  ∃ pre w s rest, text.takeWhile (· ≠ 0) = pre ++ w ++ s ++ rest ∧ (pre = [] ∨ pre = [0xEF, 0xBB, 0xBF]) ∧ Blank w ∧ Val conv 1000 s j ∧
    k = pre.length + w.length + s.length

end Verif.CJson.Lax
