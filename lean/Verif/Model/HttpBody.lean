import Verif.Model.HttpReq
/-
The body of an HTTP request: `web_req_payload` (src/http/http_req.c:315-355) with the announced length.
-/
namespace Verif.Http

/-- `isspace` in the C locale, as used by `strtol`. See src/http/http_req.c:315-330. -/
def isSpace (b : UInt8) : Bool := b = 32 || (9 ≤ b && b ≤ 13)

/-- A decimal digit. See src/http/http_req.c:315-330. -/
def isDigit (b : UInt8) : Bool := 48 ≤ b && b ≤ 57

/-- Accumulation of decimal digits. See src/http/http_req.c:315-330. -/
def decVal (l : List UInt8) : Nat := l.foldl (fun n b => n * 10 + (b.toNat - 48)) 0

/-- `strtol(s, NULL, 10)` of the C library (called at src/http/http_req.c:320) on a 64-bit system: white space, a sign, digits; the result is
limited to the range of `long`. -/
def strtol (s : List UInt8) : Int :=
  match s.dropWhile isSpace with
  | [] => 0
  | b :: r =>
    if b = 45 then max (-(decVal (r.takeWhile isDigit) : Int)) (-9223372036854775808)
    else if b = 43 then min (decVal (r.takeWhile isDigit) : Int) 9223372036854775807
    else min (decVal ((b :: r).takeWhile isDigit) : Int) 9223372036854775807

/-- Conversion of a `long` to `int` (the field `payloadn`, src/http/http_req.h:35). -/
def toInt (x : Int) : Int := (x + 2147483648) % 4294967296 - 2147483648

/-- The limit at src/http/http_req.c:325. -/
def maxBody : Int := 10485760

/-- The loop over the header fields (src/http/http_req.c:318-330): for each field its name and the buffer from its value on; `n` is `payloadn`.
`none` is a refusal. -/
def bodyLen : Int → List (List UInt8 × List UInt8) → Option Nat
  | n, [] => some n.toNat
  | n, (k, v) :: r =>
    if ncaseEq k sClen then
      if toInt (strtol v) < 0 then none
      else if toInt (strtol v) > maxBody then none
      else bodyLen (toInt (strtol v)) r
    else bodyLen n r

/-- What the loop looks at: names, and the buffer from each value on (`strtol` does not know the value's length). See src/http/http_req.c:315-330. -/
def tails (buf : List UInt8) (r : Req) : List (List UInt8 × List UInt8) :=
  (List.range r.kvn).map fun i => (sub buf (r.kvs i).1, buf.drop (r.kvs i).2.data)

/-- `web_req_payload` (src/http/http_req.c:315-355) after the head. Simplification: the buffer for the body can be allocated (see C57). -/
def body (buf : List UInt8) (r : Req) (pos : Nat) (rx : List Rx) : Pay :=
  match bodyLen 0 (tails buf r) with
  | none => .err
  | some n => payload n (buf.drop pos) rx

end Verif.Http
