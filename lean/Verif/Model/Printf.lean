/-
The conversions of the C library's `printf` family that the program uses to build texts (`%d`, `%02d`, `%03d`, `%04d`).
-/
namespace Verif.Printf

/-- Decimal digits of a natural number, as printed by `%d` (used in src/common/sys_time.c:30-44, src/app/webser.c:322, src/main.c:38). -/
def nat (n : Nat) : List UInt8 :=
  if n < 10 then [UInt8.ofNat (48 + n)] else nat (n / 10) ++ [UInt8.ofNat (48 + n % 10)]
termination_by n

/-- `%d` for an `int` (src/app/webser.c:322). -/
def d (i : Int) : List UInt8 := if i < 0 then 45 :: nat i.natAbs else nat i.natAbs

/-- `%0wd` (src/common/sys_time.c:30-44): zeros between the sign and the digits up to width `w`. -/
def d0 (w : Nat) (i : Int) : List UInt8 :=
  if i < 0 then 45 :: (List.replicate (w - 1 - (nat i.natAbs).length) 48 ++ nat i.natAbs)
  else List.replicate (w - (nat i.natAbs).length) 48 ++ nat i.natAbs

/-- `snprintf(buf, size, …)` on a text without NUL into a zeroed buffer, `size > 0`: the C string left in the buffer
(src/app/webser.c:273). -/
def sn (size : Nat) (text : List UInt8) : List UInt8 := text.take (size - 1)

end Verif.Printf
