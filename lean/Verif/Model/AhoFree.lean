import Verif.Model.Aho
/-
Releasing the key matcher: `ezac_free` (src/common/aho_corasick.c:3-27).
-/
namespace Verif.Aho

/-- The inner `for` loop of `ezac_node_free` (src/common/aho_corasick.c:11-14): the children of `p` are pushed. -/
def pushKids (t : Trie) (p : Path) : List Nat → List Path → Except Crash (List Path)
  | [], stack => .ok stack
  | i :: is, stack =>
    if i :: p ∈ t.nodes then
      match push stack (i :: p) with
      | .error e => .error e
      | .ok stack' => pushKids t p is stack'
    else pushKids t p is stack

/-- The `while` loop of `ezac_node_free` (src/common/aho_corasick.c:9-17): `freed` are the nodes given to `sys_free`, in order. The root is
not, it is part of the context (aho_corasick.h:16-19). The first argument bounds the iterations; running out of it is `hang`. -/
def freeLoop (t : Trie) : Nat → List Path → List Path → Except Crash (List Path)
  | _, [], freed => .ok freed
  | 0, _ :: _, _ => .error .hang
  | k + 1, p :: stack, freed =>
    match pushKids t p (List.range 128) stack with
    | .error e => .error e
    | .ok stack' => freeLoop t k stack' (if p ≠ [] then freed ++ [p] else freed)

/-- `ezac_free` (src/common/aho_corasick.c:21-27): the nodes freed, then the context itself. -/
def freeAll (t : Trie) : Except Crash (List Path) := freeLoop t (t.nodes.length + 1) [[]] []

end Verif.Aho
