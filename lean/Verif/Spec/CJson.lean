import Verif.Model.CJson
/-
JSON texts and what they denote, after RFC 8259 and RFC 3629. Nothing of the parser is used here, only its result type.
-/
namespace Verif.CJson.Spec

/-- UTF-8 of a scalar value (RFC 3629, section 3). -/
def utf8 (c : Nat) : List UInt8 :=
  if c < 0x80 then [UInt8.ofNat c]
  else if c < 0x800 then [UInt8.ofNat (0xC0 + c / 64), UInt8.ofNat (0x80 + c % 64)]
  else if c < 0x10000 then [UInt8.ofNat (0xE0 + c / 4096), UInt8.ofNat (0x80 + c / 64 % 64), UInt8.ofNat (0x80 + c % 64)]
  else [UInt8.ofNat (0xF0 + c / 262144), UInt8.ofNat (0x80 + c / 4096 % 64), UInt8.ofNat (0x80 + c / 64 % 64), UInt8.ofNat (0x80 + c % 64)]

/-- Unicode scalar values. -/
def Scalar (c : Nat) : Prop := c < 0xD800 ∨ (0xE000 ≤ c ∧ c ≤ 0x10FFFF)

/-- The value of a hexadecimal digit: its place in one of the two rows. -/
def hexDigit (b : UInt8) : Option Nat :=
  match "0123456789abcdef".toUTF8.toList.idxOf? b with
  | some d => some d
  | none => "0123456789ABCDEF".toUTF8.toList.idxOf? b

/-- Four hexadecimal digits with the value `c`. -/
def Hex4 (hs : List UInt8) (c : Nat) : Prop :=
  ∃ a b d e x y z w, hs = [a, b, d, e] ∧ hexDigit a = some x ∧ hexDigit b = some y ∧ hexDigit d = some z ∧ hexDigit e = some w ∧
    c = ((x * 16 + y) * 16 + z) * 16 + w

/-- The escapes with one letter. -/
def letters : List (UInt8 × UInt8) :=
  [(0x22, 0x22), (0x5C, 0x5C), (0x2F, 0x2F), (0x62, 8), (0x66, 12), (0x6E, 10), (0x72, 13), (0x74, 9)]

/-- One character of a string literal: its spelling and its UTF-8 bytes. -/
inductive Unit : List UInt8 → List UInt8 → Prop where
  | raw (c : Nat) (h : Scalar c) (h1 : 0x20 ≤ c) (h2 : c ≠ 0x22) (h3 : c ≠ 0x5C) : Unit (utf8 c) (utf8 c)
  | letter (b c : UInt8) (h : (b, c) ∈ letters) : Unit [0x5C, b] [c]
  | hex (hs : List UInt8) (c : Nat) (h : Hex4 hs c) (hc : Scalar c) : Unit (0x5C :: 0x75 :: hs) (utf8 c)
  | pair (hs ls : List UInt8) (hi lo : Nat) (h1 : Hex4 hs (0xD800 + hi)) (h2 : Hex4 ls (0xDC00 + lo)) (b1 : hi < 1024) (b2 : lo < 1024) :
      Unit (0x5C :: 0x75 :: hs ++ 0x5C :: 0x75 :: ls) (utf8 (0x10000 + hi * 1024 + lo))

/-- The inside of a string literal and the bytes it denotes. -/
inductive Str : List UInt8 → List UInt8 → Prop where
  | nil : Str [] []
  | cons (u o s t : List UInt8) (hu : Unit u o) (hs : Str s t) : Str (u ++ s) (o ++ t)

/-- White space. -/
def Ws (s : List UInt8) : Prop := ∀ b ∈ s, b = 0x20 ∨ b = 9 ∨ b = 10 ∨ b = 13

/-- `xs` separated by commas. -/
def commas : List (List UInt8) → List UInt8
  | [] => []
  | [x] => x
  | x :: y :: xs => x ++ 0x2C :: commas (y :: xs)

/-- Decimal digits, at least one. -/
def Digits (s : List UInt8) : Prop := s ≠ [] ∧ ∀ b ∈ s, b ∈ "0123456789".toUTF8.toList

/-- A JSON number (RFC 8259, section 6): sign, integer part without leading zeros, fraction, exponent. -/
def Number (s : List UInt8) : Prop :=
  ∃ sign int frac exp, s = sign ++ int ++ frac ++ exp ∧
    (sign = [] ∨ sign = [0x2D]) ∧
    Digits int ∧ (int = [0x30] ∨ int.head? ≠ some 0x30) ∧
    (frac = [] ∨ ∃ d, Digits d ∧ frac = 0x2E :: d) ∧
    (exp = [] ∨ ∃ e g d, (e = 0x65 ∨ e = 0x45) ∧ (g = [] ∨ g = [0x2B] ∨ g = [0x2D]) ∧ Digits d ∧ exp = e :: g ++ d)

/-- The texts of a JSON value with nesting up to `n`, given the texts of the numbers. -/
def Val {V : Type} (Num : List UInt8 → V → Prop) : Nat → List UInt8 → J V → Prop
  | n, s, j =>
    (s = [0x6E, 0x75, 0x6C, 0x6C] ∧ j = .null) ∨
    (s = [0x66, 0x61, 0x6C, 0x73, 0x65] ∧ j = .bool false) ∨
    (s = [0x74, 0x72, 0x75, 0x65] ∧ j = .bool true) ∨
    (∃ v, Num s v ∧ j = .num v) ∨
    (∃ b o, Str b o ∧ s = 0x22 :: b ++ [0x22] ∧ j = .str o) ∨
    match n with
    | 0 => False
    | n + 1 =>
      (∃ w, Ws w ∧ s = 0x5B :: w ++ [0x5D] ∧ j = .arr []) ∨
      (∃ w, Ws w ∧ s = 0x7B :: w ++ [0x7D] ∧ j = .obj []) ∨
      (∃ items : List (List UInt8 × List UInt8 × List UInt8 × J V), items ≠ [] ∧
        (∀ x ∈ items, Ws x.1 ∧ Val Num n x.2.1 x.2.2.2 ∧ Ws x.2.2.1) ∧
        s = 0x5B :: commas (items.map fun x => x.1 ++ x.2.1 ++ x.2.2.1) ++ [0x5D] ∧ j = .arr (items.map fun x => x.2.2.2)) ∨
      (∃ items : List ((List UInt8 × List UInt8 × List UInt8 × List UInt8) × List UInt8 × List UInt8 × List UInt8 × J V), items ≠ [] ∧
        (∀ x ∈ items, Ws x.1.1 ∧ Str x.1.2.1 x.1.2.2.1 ∧ Ws x.1.2.2.2 ∧ Ws x.2.1 ∧ Val Num n x.2.2.1 x.2.2.2.2 ∧ Ws x.2.2.2.1) ∧
        s = 0x7B :: commas (items.map fun x => x.1.1 ++ 0x22 :: x.1.2.1 ++ 0x22 :: x.1.2.2.2 ++ 0x3A :: x.2.1 ++ x.2.2.1 ++ x.2.2.2.1) ++ [0x7D] ∧
        j = .obj (items.map fun x => (x.1.2.2.1, x.2.2.2.2)))

/-- A value nested at most `n` deep. -/
inductive Within {V : Type} : Nat → J V → Prop where
  | null (n) : Within n .null
  | bool (n b) : Within n (.bool b)
  | num (n v) : Within n (.num v)
  | str (n s) : Within n (.str s)
  | arr (n xs) (h : ∀ x ∈ xs, Within n x) : Within (n + 1) (.arr xs)
  | obj (n xs) (h : ∀ x ∈ xs, Within n x.2) : Within (n + 1) (.obj xs)

end Verif.CJson.Spec
