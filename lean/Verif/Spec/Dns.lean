/-
Specification of the DNS message format used (RFC 1035 sections 3.1, 4.1), independent of the model.
-/
namespace Verif.DnsSpec

/-- A label of a host name: 1 to 63 bytes, no dot and no NUL. -/
def Label (l : List UInt8) : Prop := 1 ≤ l.length ∧ l.length ≤ 63 ∧ 46 ∉ l ∧ 0 ∉ l

/-- The text of a host name: labels separated by dots. -/
def hostText : List (List UInt8) → List UInt8
  | [] => []
  | [l] => l
  | l :: r => l ++ 46 :: hostText r

/-- Decoder for an uncompressed domain name (RFC 1035 section 3.1): labels and the remaining bytes. -/
def decodeName (m : List UInt8) : Option (List (List UInt8) × List UInt8) :=
  match m with
  | [] => none
  | n :: r =>
    if n = 0 then some ([], r)
    else if n.toNat ≤ 63 ∧ n.toNat ≤ r.length then
      match decodeName (r.drop n.toNat) with
      | some (ls, rest) => some (r.take n.toNat :: ls, rest)
      | none => none
    else none
  termination_by m.length
  decreasing_by all_goals (simp; try omega)

/-- 16-bit big-endian number. -/
def u16 (n : Nat) : List UInt8 := [UInt8.ofNat (n / 256), UInt8.ofNat n]

/-- 32-bit big-endian number. -/
def u32 (n : Nat) : List UInt8 :=
  [UInt8.ofNat (n / 16777216), UInt8.ofNat (n / 65536), UInt8.ofNat (n / 256), UInt8.ofNat n]

/-- A DNS query with one question, read back from a datagram: identifier, flags, the labels, type and class. -/
structure Query where
  id : Nat
  flags : Nat
  name : List (List UInt8)
  qtype : Nat
  qclass : Nat
deriving DecidableEq, Repr

/-- Decoder for a query message that has exactly one question and nothing else. -/
def decodeQuery (m : List UInt8) : Option Query :=
  match m with
  | i0 :: i1 :: f0 :: f1 :: 0 :: 1 :: 0 :: 0 :: 0 :: 0 :: 0 :: 0 :: r =>
    match decodeName r with
    | some (ls, [t0, t1, c0, c1]) =>
      some ⟨i0.toNat * 256 + i1.toNat, f0.toNat * 256 + f1.toNat, ls, t0.toNat * 256 + t1.toNat, c0.toNat * 256 + c1.toNat⟩
    | _ => none
  | _ => none

/-- Owner name of a resource record. -/
inductive Owner where
  /-- compression pointer: two bytes, the first with both top bits set -/
  | ptr (hi lo : UInt8) (h : hi &&& 0xc0 = 0xc0)
  /-- the root: one zero byte -/
  | root

/-- A resource record. -/
structure RR where
  owner : Owner
  type : Nat
  cls : Nat
  ttl : Nat
  data : List UInt8

/-- Field ranges. -/
def RR.Ok (r : RR) : Prop := r.type < 65536 ∧ r.cls < 65536 ∧ r.ttl < 4294967296 ∧ r.data.length < 65536

/-- Wire form of the owner name. -/
def Owner.bytes : Owner → List UInt8
  | .ptr hi lo _ => [hi, lo]
  | .root => [0]

/-- Wire form of a record (RFC 1035 section 4.1.3). -/
def RR.bytes (r : RR) : List UInt8 :=
  r.owner.bytes ++ (u16 r.type ++ (u16 r.cls ++ (u32 r.ttl ++ (u16 r.data.length ++ r.data))))

/-- Wire form of a list of records. -/
def rrBytes : List RR → List UInt8
  | [] => []
  | r :: rs => r.bytes ++ rrBytes rs

/-- The first address record. -/
def firstA : List RR → Option RR
  | [] => none
  | r :: rs => if r.type = 1 then some r else firstA rs

end Verif.DnsSpec
