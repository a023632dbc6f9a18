import Verif.Spec.Date
/-
Specification of HTTP/1.1 responses: how a client reads one from the connection (RFC 7230: status line, header fields, a body of
Content-Length bytes).
-/
namespace Verif.RspSpec
open DateSpec (ascii number)

/-- A response as the client sees it. -/
structure Msg where
  code : Nat
  fields : List (List UInt8 × List UInt8)
  body : List UInt8
deriving Repr, DecidableEq

/-- The text up to the first CRLF, and what follows it. -/
def line : List UInt8 → Option (List UInt8 × List UInt8)
  | [] => none
  | b :: r =>
    match b, r with
    | 13, 10 :: r' => some ([], r')
    | _, _ => (line r).map fun x => (b :: x.1, x.2)

/-- The status code of a status line: `HTTP/1.1 ddd reason`. -/
def status (l : List UInt8) : Option Nat :=
  match l with
  | 72 :: 84 :: 84 :: 80 :: 47 :: 49 :: 46 :: 49 :: 32 :: a :: b :: c :: 32 :: _ => number [a, b, c]
  | _ => none

/-- Name and value of a header line: split at the first colon, spaces before the value dropped. -/
def field (l : List UInt8) : Option (List UInt8 × List UInt8) :=
  match l.dropWhile (· ≠ 58) with
  | [] => none
  | _ :: v => some (l.takeWhile (· ≠ 58), v.dropWhile (· = 32))

theorem line_length {l x r : List UInt8} (h : line l = some (x, r)) : r.length < l.length := by
  fun_induction line l generalizing x r with
  | case1 => simp at h
  | case2 => simp at h; obtain ⟨_, rfl⟩ := h; simp; omega
  | case3 b r' _ ih =>
    cases hl : line r' with
    | none => simp [hl] at h
    | some y =>
      simp only [hl, Option.map_some, Option.some.injEq, Prod.mk.injEq] at h
      have := ih hl
      rw [← h.2]
      simp; omega

/-- The header fields up to the empty line, and what follows it. -/
def fields (l : List UInt8) : Option (List (List UInt8 × List UInt8) × List UInt8) :=
  match _h : line l with
  | none => none
  | some ([], r) => some ([], r)
  | some (b :: x, r) =>
    match field (b :: x), fields r with
    | some f, some o => some (f :: o.1, o.2)
    | _, _ => none
termination_by l.length
decreasing_by exact line_length _h

/-- The announced length of the body. -/
def bodyLength (fs : List (List UInt8 × List UInt8)) : Option Nat :=
  match fs.filter fun f => f.1 = ascii "Content-Length" with
  | [f] => if f.2 = [] then none else number f.2
  | _ => none

/-- The first response on the connection and the bytes behind it; `none` if it is malformed or not complete. -/
def read (l : List UInt8) : Option (Msg × List UInt8) :=
  match line l with
  | none => none
  | some (s, r) =>
    match status s, fields r with
    | some code, some (fs, rest) =>
      match bodyLength fs with
      | some n => if n ≤ rest.length then some (⟨code, fs, rest.take n⟩, rest.drop n) else none
      | none => none
    | _, _ => none

end Verif.RspSpec
