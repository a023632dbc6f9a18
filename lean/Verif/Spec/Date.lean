/-
Specification of date texts: the fixed-length HTTP date of RFC 7231 and the time stamp of log lines, both as readers.
-/
namespace Verif.DateSpec

/-- A date and time of day; months and weekdays count from 0. -/
structure Fields where
  year : Nat
  mon : Nat
  day : Nat
  hour : Nat
  min : Nat
  sec : Nat
deriving Repr, DecidableEq

/-- ASCII bytes of a string. -/
def ascii (s : String) : List UInt8 := s.toUTF8.toList

/-- The number written by a text of decimal digits, `none` for other texts. -/
def number : List UInt8 → Option Nat
  | [] => some 0
  | b :: r => if 48 ≤ b.toNat ∧ b.toNat ≤ 57 then (number r).map ((b.toNat - 48) * 10 ^ r.length + ·) else none

/-- Position of a text in a list of names. -/
def nameIdx (names : List String) (t : List UInt8) : Option Nat := names.findIdx? (ascii · == t)

/-- English weekday names, RFC 7231 `day-name`. -/
def days : List String := ["Sun", "Mon", "Tue", "Wed", "Thu", "Fri", "Sat"]

/-- English month names, RFC 7231 `month`. -/
def months : List String := ["Jan", "Feb", "Mar", "Apr", "May", "Jun", "Jul", "Aug", "Sep", "Oct", "Nov", "Dec"]

/-- Reader for `IMF-fixdate`: `Sun, 06 Nov 1994 08:49:37 GMT`; returns the weekday and the rest. -/
def readHttp (t : List UInt8) : Option (Nat × Fields) :=
  match t with
  | [w0, w1, w2, 44, 32, d0, d1, 32, m0, m1, m2, 32, y0, y1, y2, y3, 32, h0, h1, 58, i0, i1, 58, s0, s1, 32, 71, 77, 84] =>
    match nameIdx days [w0, w1, w2], number [d0, d1], nameIdx months [m0, m1, m2], number [y0, y1, y2, y3], number [h0, h1],
      number [i0, i1], number [s0, s1] with
    | some w, some d, some m, some y, some h, some i, some s => some (w, ⟨y, m, d, h, i, s⟩)
    | _, _, _, _, _, _, _ => none
  | _ => none

/-- Reader for log time stamps: `2026/11/15 04:05:06.789`; months count from 1 in the text. -/
def readLog (t : List UInt8) : Option (Fields × Nat) :=
  match t with
  | [y0, y1, y2, y3, 47, m0, m1, 47, d0, d1, 32, h0, h1, 58, i0, i1, 58, s0, s1, 46, u0, u1, u2] =>
    match number [d0, d1], number [m0, m1], number [y0, y1, y2, y3], number [h0, h1], number [i0, i1], number [s0, s1],
      number [u0, u1, u2] with
    | some d, some m, some y, some h, some i, some s, some u => if m = 0 then none else some (⟨y, m - 1, d, h, i, s⟩, u)
    | _, _, _, _, _, _, _ => none
  | _ => none

end Verif.DateSpec
