import Verif.Spec.CJson
import Verif.Model.CJsonPrint
/-
The text a document is printed as, and what a document must be like to be read back. Of the printer only the type of numbers and the library are used.
-/
namespace Verif.CJsonPrint.Spec
open Verif.CJson (J)

/-- An integer in decimal. -/
def decimal (n : Int) : List UInt8 := (if n < 0 then [0x2D] else []) ++ (Nat.toDigits 10 n.natAbs).map (fun c => UInt8.ofNat c.toNat)

/-- A number read back that counts as the same: at most one part in 2⁵² away. An infinity counts as well. -/
def near : Dbl → Rat → Bool
  | .fin t, q => 4503599627370496 * (t - q).abs ≤ t.abs ∨ 4503599627370496 * (t - q).abs ≤ q.abs
  | .inf _, _ => true
  | .nan, _ => false

/-- The text of a number: an integer that fits into 32 bits in decimal; otherwise with 15 digits if that is read back as nearly the same, and with 17 if
not, a point in place of the decimal point of the locale; what is not finite is `null`. -/
def number (l : Lib) : Dbl → List UInt8
  | .fin q =>
    if q.den = 1 ∧ -2147483648 ≤ q.num ∧ q.num ≤ 2147483647 then decimal q.num
    else
      let t := if (match l.scan (l.g 15 q) with | some t => near t q | none => false) then l.g 15 q else l.g 17 q
      t.map fun c => if c = l.point then 0x2E else c
  | _ => [0x6E, 0x75, 0x6C, 0x6C]

/-- How a byte of a string is spelled: with a letter where there is one for it, the slash excepted; other control characters with four digits. -/
def spell (c : UInt8) : List UInt8 :=
  match CJson.Spec.letters.find? (fun p => p.2 = c ∧ c ≠ 0x2F) with
  | some p => [0x5C, p.1]
  | none =>
    if c < 0x20 then [0x5C, 0x75, 0x30, 0x30] ++ [c.toNat / 16, c.toNat % 16].map (fun n => "0123456789abcdef".toUTF8.toList[n]?.getD 0)
    else [c]

/-- A string between quotes, up to its first zero byte. -/
def quoted (s : List UInt8) : List UInt8 := 0x22 :: (s.takeWhile (· ≠ 0)).flatMap spell ++ [0x22]

/-- `s` if the text is laid out for reading. -/
def when (fmt : Bool) (s : List UInt8) : List UInt8 := if fmt then s else []

/-- `d` tabs if the text is laid out for reading. -/
def tabs (fmt : Bool) (d : Nat) : List UInt8 := when fmt (List.replicate d 9)

mutual

/-- The text of a value nested `d` deep. -/
def text (l : Lib) (fmt : Bool) : Nat → J Dbl → List UInt8
  | _, .null => [0x6E, 0x75, 0x6C, 0x6C]
  | _, .bool false => [0x66, 0x61, 0x6C, 0x73, 0x65]
  | _, .bool true => [0x74, 0x72, 0x75, 0x65]
  | _, .num v => number l v
  | _, .str s => quoted s
  | d, .arr xs => 0x5B :: elems l fmt (d + 1) xs ++ [0x5D]
  | d, .obj xs => 0x7B :: when fmt [10] ++ members l fmt (d + 1) xs ++ tabs fmt d ++ [0x7D]

/-- The texts of the elements of an array with commas between them. -/
def elems (l : Lib) (fmt : Bool) : Nat → List (J Dbl) → List UInt8
  | _, [] => []
  | d, x :: xs => text l fmt d x ++ (if xs.isEmpty then [] else 0x2C :: when fmt [0x20]) ++ elems l fmt d xs

/-- The texts of the members of an object, one to a line when laid out for reading. -/
def members (l : Lib) (fmt : Bool) : Nat → List (List UInt8 × J Dbl) → List UInt8
  | _, [] => []
  | d, (k, x) :: xs =>
    tabs fmt d ++ quoted k ++ 0x3A :: when fmt [9] ++ text l fmt d x ++ (if xs.isEmpty then [] else [0x2C]) ++ when fmt [10] ++ members l fmt d xs

end

/-- What is taken for granted of the library: the decimal point is no character of an integer or of `null`, and a number with 15 or 17 digits has some
characters, at most 25, and no zero byte. -/
def Sane (l : Lib) : Prop :=
  l.point ∉ "0123456789-nul".toUTF8.toList ∧ ∀ p q, p = 15 ∨ p = 17 → l.g p q ≠ [] ∧ (l.g p q).length ≤ 25 ∧ (0 : UInt8) ∉ l.g p q

/-- All strings and names of a document are like `P` says and all its numbers like `Q` says. -/
inductive Each (P : List UInt8 → Prop) (Q : Dbl → Prop) : J Dbl → Prop where
  | null : Each P Q .null
  | bool (b) : Each P Q (.bool b)
  | num (v) (h : Q v) : Each P Q (.num v)
  | str (s) (h : P s) : Each P Q (.str s)
  | arr (xs) (h : ∀ x ∈ xs, Each P Q x) : Each P Q (.arr xs)
  | obj (xs) (hn : ∀ x ∈ xs, P x.1) (h : ∀ x ∈ xs, Each P Q x.2) : Each P Q (.obj xs)

/-- Text in UTF-8 without the character U+0000. -/
def Utf8 (s : List UInt8) : Prop := ∃ cs : List Nat, (∀ c ∈ cs, CJson.Spec.Scalar c ∧ c ≠ 0) ∧ s = cs.flatMap CJson.Spec.utf8

end Verif.CJsonPrint.Spec
