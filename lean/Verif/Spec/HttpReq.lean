/-
Specification of HTTP/1.1 request heads, independent of the parser.
-/
namespace Verif.HttpSpec

/-- Printable ASCII, and DEL, which the server lets through. -/
def Text (l : List UInt8) : Prop := ∀ b ∈ l, 32 ≤ b.toNat ∧ b.toNat ≤ 127

/-- A header field: name, number of spaces behind the colon, value. -/
structure Field where
  name : List UInt8
  sp : Nat
  value : List UInt8

/-- Valid header field: non-empty name without colon, non-empty value that does not start with a space. -/
def Field.Ok (f : Field) : Prop :=
  f.name ≠ [] ∧ Text f.name ∧ 58 ∉ f.name ∧ f.value ≠ [] ∧ Text f.value ∧ f.value.head? ≠ some 32

/-- A request head in origin form (`GET /path HTTP/1.1`). -/
structure Head where
  method : List UInt8
  target : List UInt8
  version : List UInt8
  fields : List Field

/-- Valid head: method of 1 to 16 characters without space, target starting with a slash without space, non-empty version, at
most fifteen valid fields. -/
def Head.Ok (h : Head) : Prop :=
  (1 ≤ h.method.length ∧ h.method.length ≤ 16 ∧ Text h.method ∧ 32 ∉ h.method) ∧
  (∃ t, h.target = 47 :: t ∧ Text t ∧ 32 ∉ t) ∧
  (h.version ≠ [] ∧ Text h.version) ∧
  h.fields.length ≤ 15 ∧ ∀ f ∈ h.fields, f.Ok

/-- Request line on the wire. -/
def Head.line (h : Head) : List UInt8 := h.method ++ (32 :: (h.target ++ (32 :: (h.version ++ [13, 10]))))

/-- A field on the wire. -/
def Field.bytes (f : Field) : List UInt8 := f.name ++ (58 :: (List.replicate f.sp 32 ++ (f.value ++ [13, 10])))

/-- The fields on the wire. -/
def fieldBytes : List Field → List UInt8
  | [] => []
  | f :: r => f.bytes ++ fieldBytes r

/-- A head on the wire. -/
def Head.bytes (h : Head) : List UInt8 := h.line ++ (fieldBytes h.fields ++ [13, 10])

/-- A request line in absolute form (`GET http://host:port/path HTTP/1.1`), as sent to proxies. -/
structure Absolute where
  method : List UInt8
  scheme : List UInt8
  host : List UInt8
  port : Option (List UInt8)
  target : List UInt8
  version : List UInt8

/-- Valid line: like the origin form, with a scheme and a host without colon, slash and space, and a port, if any, without slash and space. -/
def Absolute.Ok (h : Absolute) : Prop :=
  (1 ≤ h.method.length ∧ h.method.length ≤ 16 ∧ Text h.method ∧ 32 ∉ h.method) ∧
  (h.scheme ≠ [] ∧ Text h.scheme ∧ 58 ∉ h.scheme ∧ 47 ∉ h.scheme ∧ 32 ∉ h.scheme) ∧
  (h.host ≠ [] ∧ Text h.host ∧ 58 ∉ h.host ∧ 47 ∉ h.host ∧ 32 ∉ h.host) ∧
  (∀ p, h.port = some p → p ≠ [] ∧ Text p ∧ 47 ∉ p ∧ 32 ∉ p) ∧
  (∃ t, h.target = 47 :: t ∧ Text t ∧ 32 ∉ t) ∧
  (h.version ≠ [] ∧ Text h.version)

/-- The port with its colon. -/
def portBytes : Option (List UInt8) → List UInt8
  | none => []
  | some p => 58 :: p

/-- The line on the wire. -/
def Absolute.line (h : Absolute) : List UInt8 :=
  h.method ++ (32 :: (h.scheme ++ (58 :: 47 :: 47 :: (h.host ++ (portBytes h.port ++ (h.target ++ (32 :: (h.version ++ [13, 10]))))))))

/-- Bytes that may occur in a request head: printable ASCII, DEL, and the line break characters. -/
def HeadByte (b : UInt8) : Prop := (32 ≤ b.toNat ∧ b.toNat ≤ 127) ∨ b = 13 ∨ b = 10

/-- The number written by decimal digits, most significant first. -/
def decimal : List UInt8 → Nat
  | [] => 0
  | b :: r => (b.toNat - 48) * 10 ^ r.length + decimal r

/-- Decimal digits. -/
def Digits (l : List UInt8) : Prop := l ≠ [] ∧ ∀ b ∈ l, 48 ≤ b.toNat ∧ b.toNat ≤ 57

/-- Two names are equal up to the case of letters. -/
def SameName (a b : List UInt8) : Prop :=
  a.map (fun x => if 65 ≤ x.toNat ∧ x.toNat ≤ 90 then x.toNat + 32 else x.toNat) =
    b.map (fun x => if 65 ≤ x.toNat ∧ x.toNat ≤ 90 then x.toNat + 32 else x.toNat)

/-- `Content-Length`. -/
def contentLength : List UInt8 := [67, 111, 110, 116, 101, 110, 116, 45, 76, 101, 110, 103, 116, 104]

/-- `Connection`. -/
def connection : List UInt8 := [67, 111, 110, 110, 101, 99, 116, 105, 111, 110]

/-- `keep-alive`. -/
def keepAliveText : List UInt8 := [107, 101, 101, 112, 45, 97, 108, 105, 118, 101]

/-- A name that is a proper prefix of another one, up to the case of letters. -/
def Abbreviates (a b : List UInt8) : Prop := ∃ p, p <+: b ∧ p ≠ b ∧ SameName a p

end Verif.HttpSpec
