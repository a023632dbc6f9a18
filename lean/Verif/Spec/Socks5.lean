/-
RFC 1928 wire format, independent of the model.
-/
namespace Verif.S5Spec

/-- A destination a client can ask for. -/
inductive Host where
  | v4 (a b c d : UInt8)
  | name (bytes : List UInt8)
deriving Repr, DecidableEq

/-- The address field of a request: type byte and address (RFC 1928, section 5). -/
def encodeHost : Host → List UInt8
  | .v4 a b c d => [1, a, b, c, d]
  | .name bs => 3 :: UInt8.ofNat bs.length :: bs

/-- A port in network byte order. -/
def encodePort (port : Nat) : List UInt8 := [UInt8.ofNat (port / 256), UInt8.ofNat (port % 256)]

/-- A request with command `cmd` and reserved byte `rsv` (RFC 1928, section 4). -/
def encodeReq (ver cmd rsv : UInt8) (h : Host) (port : Nat) : List UInt8 :=
  [ver, cmd, rsv] ++ encodeHost h ++ encodePort port

/-- Names a client can put into a request and that fit a C string of the record: 1 to 254 bytes, no NUL
(DNS names have at most 253 characters). -/
def NameOk (bs : List UInt8) : Prop := 1 ≤ bs.length ∧ bs.length ≤ 254 ∧ (0 : UInt8) ∉ bs

/-- Hosts a client can put into a request. -/
def HostOk : Host → Prop
  | .v4 .. => True
  | .name bs => NameOk bs

/-- A greeting with the given methods (RFC 1928, section 3). -/
def encodeGreeting (ver : UInt8) (methods : List UInt8) : List UInt8 :=
  ver :: UInt8.ofNat methods.length :: methods

end Verif.S5Spec
