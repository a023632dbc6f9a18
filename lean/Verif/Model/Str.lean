/-
`l_find_str`: src/common/sys_string.c.
-/
namespace Verif.Str

/-- Result of the search: an assertion failed, a pointer `str + i`, NULL, or memory behind the readable bytes was read.
See src/common/sys_string.c:4-26. -/
inductive Out where
  | abort
  | found (i : Nat)
  | absent
  | oob
deriving DecidableEq, Repr

/-- The inner loop (src/common/sys_string.c:13-21): are the bytes of `pat` at the beginning of `m`? `none`: the readable memory ends first. -/
def cmp : List UInt8 → List UInt8 → Option Bool
  | _, [] => some true
  | [], _ :: _ => none
  | a :: m, b :: p => if a = b then cmp m p else some false

/-- The outer loop (src/common/sys_string.c:12-24) with `n` positions left; `m` is the memory from `str + i` on. -/
def scan (pat : List UInt8) : (n i : Nat) → (m : List UInt8) → Out
  | 0, _, _ => .absent
  | n + 1, i, m =>
    match m with
    | [] => .oob
    | a :: m' =>
      if some a = pat.head? then
        match cmp (a :: m') pat with
        | none => .oob
        | some true => .found i
        | some false => scan pat n (i + 1) m'
      else scan pat n (i + 1) m'

/-- `l_find_str(str, strn, find, findn)` (src/common/sys_string.c:4-26): `mem` are the bytes readable from `str` on (at least the text). -/
def find (mem : List UInt8) (strn : Nat) (pat : List UInt8) : Out :=
  if strn > 0 ∧ pat.length > 0 ∧ strn ≥ pat.length then scan pat strn 0 mem else .abort

end Verif.Str
