/-
The key matcher: src/common/aho_corasick.c.
-/
namespace Verif.Aho

/-- A trie node, identified by the child indices on the way from the root, last one first; `[]` is the root.
Simplification: the C code uses heap nodes (aho_corasick.h:11-15); the node reached by a path is unique, so the path names it. -/
abbrev Path := List Nat

/-- The trie built by `ezac_add`: the allocated nodes and the nodes with `fendup` set (aho_corasick.h:11-15).
`arr[i]` of node `p` is non-NULL exactly if `i :: p` is in `nodes`. -/
structure Trie where
  nodes : List Path
  terms : List Path
deriving Repr, DecidableEq

/-- `ezac_init` (src/common/aho_corasick.c:29-35): the empty trie. -/
def empty : Trie := { nodes := [], terms := [] }

/-- `int idx = data[i]; if (idx < 0 || idx > EZAC_MAX) idx = 0;` (src/common/aho_corasick.c:42-43, 94-95). `char` is
signed (x86): bytes 128..255 are negative. -/
def idx (b : UInt8) : Nat := if b.toNat < 128 then b.toNat else 0

/-- The loop of `ezac_add` from node `n` on (src/common/aho_corasick.c:41-49). Simplification: allocation succeeds. -/
def addFrom (t : Trie) (n : Path) : List UInt8 → Trie
  | [] => { t with terms := n :: t.terms }
  | c :: cs =>
    let m := idx c :: n
    addFrom (if m ∈ t.nodes then t else { t with nodes := m :: t.nodes }) m cs

/-- `ezac_add` (src/common/aho_corasick.c:37-51). -/
def add (t : Trie) (key : List UInt8) : Trie := addFrom t [] key

/-- All keys of the key file in order (src/app/tls_tunnel_s.c:344-349). -/
def addAll (keys : List (List UInt8)) : Trie := keys.foldl add empty

/-- `pfail` of every node for which it has been set; other nodes have NULL (aho_corasick.h:13). -/
abbrev Fails := List (Path × Path)

/-- `p->pfail`; the root's is the root (src/common/aho_corasick.c:32). -/
def failOf (fs : Fails) (p : Path) : Option Path :=
  if p = [] then some [] else fs.lookup p

/-- What the matcher's functions can run into. See src/common/aho_corasick.c:37-109. -/
inductive Crash where
  | null      -- NULL dereference
  | overflow  -- store beyond `stack[4096]`
  | hang      -- loop that never ends
deriving Repr, DecidableEq

/-- Result of the `do .. while` loop: `found x` (`find == 1`), or `x` is the root without a match. See src/common/aho_corasick.c:91-109. -/
inductive Walk where
  | found (x : Path)
  | root
deriving Repr, DecidableEq

/-- `do { if (x->arr[i]) { find = 1; break; } x = x->pfail; } while (x != &ctx->root);`
(src/common/aho_corasick.c:71-77). The first argument bounds the iterations; running out of it is `hang`. -/
def walk (t : Trie) (fs : Fails) (i : Nat) : Nat → Path → Except Crash Walk
  | 0, _ => .error .hang
  | k + 1, x =>
    if i :: x ∈ t.nodes then .ok (.found x)
    else
      match failOf fs x with
      | none => .error .null
      | some y => if y = [] then .ok .root else walk t fs i k y

/-- Size of the work stack (src/common/aho_corasick.c:54). -/
def stackMax : Nat := 4096

/-- `stack[stackn++] = p` (src/common/aho_corasick.c:61, 79). -/
def push (stack : List Path) (p : Path) : Except Crash (List Path) :=
  if stack.length < stackMax then .ok (p :: stack) else .error .overflow

/-- The first loop of `ezac_compiler` (src/common/aho_corasick.c:58-63): children of the root. -/
def seed (t : Trie) : List Nat → Fails × List Path → Except Crash (Fails × List Path)
  | [], s => .ok s
  | i :: is, (fs, stack) =>
    if [i] ∈ t.nodes then
      match push stack [i] with
      | .error e => .error e
      | .ok stack' => seed t is (([i], []) :: fs, stack')
    else seed t is (fs, stack)

/-- The inner `for` loop of `ezac_compiler` for a popped node `n` (src/common/aho_corasick.c:67-81). -/
def visit (t : Trie) (n : Path) : List Nat → Fails × List Path → Except Crash (Fails × List Path)
  | [], s => .ok s
  | i :: is, (fs, stack) =>
    if i :: n ∈ t.nodes then
      match failOf fs n with
      | none => .error .null
      | some x =>
        match walk t fs i (x.length + 1) x with
        | .error e => .error e
        | .ok w =>
          let target := match w with
            | .found y => i :: y
            | .root => []
          match push stack (i :: n) with
          | .error e => .error e
          | .ok stack' => visit t n is ((i :: n, target) :: fs, stack')
    else visit t n is (fs, stack)

/-- The outer `while (stackn > 0)` loop of `ezac_compiler` (src/common/aho_corasick.c:65-82). The first
argument bounds the iterations; running out of it is `hang`. -/
def compileLoop (t : Trie) : Nat → Fails × List Path → Except Crash Fails
  | _, (fs, []) => .ok fs
  | 0, (_, _ :: _) => .error .hang
  | k + 1, (fs, n :: stack) =>
    match visit t n (List.range 128) (fs, stack) with
    | .error e => .error e
    | .ok s => compileLoop t k s

/-- `ezac_compiler` (src/common/aho_corasick.c:53-84). Every node is pushed once, so the number of nodes bounds the iterations. -/
def compile (t : Trie) : Except Crash Fails :=
  match seed t (List.range 128) ([], []) with
  | .error e => .error e
  | .ok s => compileLoop t t.nodes.length s

/-- Verdict of a lookup. See src/common/aho_corasick.c:91-109. -/
inductive Verdict where
  | match_
  | noMatch
deriving Repr, DecidableEq

/-- `ezac_find` (src/common/aho_corasick.c:91-109): result and the new `ctx->cur`. -/
def find (t : Trie) (fs : Fails) (cur : Path) : List UInt8 → Except Crash (Verdict × Path)
  | [] => .ok (.noMatch, cur)
  | b :: bs =>
    let i := idx b
    let cur' := if i :: cur ∈ t.nodes then some cur else failOf fs cur
    match cur' with
    | none => .error .null
    | some c =>
      if i :: c ∈ t.nodes then
        if i :: c ∈ t.terms then .ok (.match_, [])
        else find t fs (i :: c) bs
      else find t fs c bs

end Verif.Aho
