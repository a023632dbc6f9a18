import Verif.Model.Printf
/-
The clock and its texts: src/common/sys_time.c.
-/
namespace Verif.SysTime
open Printf

/-- The fields of `struct tm` the code uses, as filled by `gmtime_r` and `localtime_r` (src/common/sys_time.c:28, 35): `mon` counts from 0,
`year` from 1900. Simplification: `tm_wday` and `tm_mon` are naturals; indices outside the name tables are a distinct outcome. -/
structure Tm where
  sec : Int
  min : Int
  hour : Int
  mday : Int
  mon : Nat
  year : Int
  wday : Nat
deriving Repr, DecidableEq

/-- ASCII bytes of a literal. See src/common/sys_time.c:16-46. -/
def str (s : String) : List UInt8 := s.toUTF8.toList

/-- `arr_week` (src/common/sys_time.c:6). -/
def week : List (List UInt8) := [str "Sun", str "Mon", str "Tue", str "Wed", str "Thu", str "Fri", str "Sat"]

/-- `arr_month` (src/common/sys_time.c:7-8). -/
def month : List (List UInt8) :=
  [str "Jan", str "Feb", str "Mar", str "Apr", str "May", str "Jun", str "Jul", str "Aug", str "Sep", str "Oct", str "Nov", str "Dec"]

/-- Size of `time_str_gmt` and of `time_str_log` (src/common/sys_time.c:3-4). -/
def room : Nat := 128

/-- A text written by `sprintf` into one of the arrays, or `none` if it is written behind the end (src/common/sys_time.c:30, 39). -/
def into (text : List UInt8) : Option (List UInt8) := if text.length < room then some text else none

/-- `time_str_gmt` (src/common/sys_time.c:27-32); `none` is an access outside an array. -/
def gmt (t : Tm) : Option (List UInt8) :=
  match week[t.wday]?, month[t.mon]? with
  | some w, some m =>
    into (w ++ (str ", " ++ (d0 2 t.mday ++ (str " " ++ (m ++ (str " " ++ (d0 4 (t.year + 1900) ++ (str " " ++ (d0 2 t.hour ++ (str ":" ++
      (d0 2 t.min ++ (str ":" ++ (d0 2 t.sec ++ str " GMT")))))))))))))
  | _, _ => none

/-- `time_str_log` (src/common/sys_time.c:34-44). Simplification: the casts to `unsigned int` are the identity, `%` is the remainder with the
sign of the dividend as in C. -/
def log (t : Tm) (msec : Int) : Option (List UInt8) :=
  into (d0 4 ((t.year + 1900).tmod 1000 + 2000) ++ (str "/" ++ (d0 2 (((t.mon : Int) + 1).tmod 100) ++ (str "/" ++ (d0 2 (t.mday.tmod 100) ++
    (str " " ++ (d0 2 (t.hour.tmod 100) ++ (str ":" ++ (d0 2 (t.min.tmod 100) ++ (str ":" ++ (d0 2 (t.sec.tmod 100) ++ (str "." ++
      d0 3 msec))))))))))))

/-- `time_msec` (src/common/sys_time.c:23-25) for the seconds and microseconds of `gettimeofday`. -/
def msec (sec usec : Int) : Int := sec * 1000 + usec.tdiv 1000

end Verif.SysTime
