/-
The search tree: src/common/util/bst.c, bst.h. (Utility code; nothing else in the repository calls it.)
-/
namespace Verif.Bst

/-- The `type` field of a node (src/common/util/bst.h:11-12): 0 in the head, `BST_LEFT` or `BST_RIGHT` elsewhere. The same values name the
link by which a node really hangs on its parent. -/
inductive Tag where
  | none
  | left
  | right
deriving DecidableEq, Repr

/-- The nodes reachable from a pointer (src/common/util/bst.h:16-21). `parent` is implied by the position as long as the structure is a tree;
`level` is written but never read and is left out. -/
inductive T where
  | nil
  | node (l : T) (num : Int) (tag : Tag) (r : T)
deriving DecidableEq, Repr

/-- Whether a pointer is NULL. See src/common/util/bst.c:35-145. -/
def T.isNil : T → Bool
  | .nil => true
  | _ => false

/-- `bst_create` (src/common/util/bst.c:3-14): the head node has the number -1. -/
def create : T := .node .nil (-1) .none .nil

/-- `bst_add` (src/common/util/bst.c:35-67) below a link of the given kind: greater keys to the right, others to the left, new nodes at
the end. -/
def ins (side : Tag) (key : Int) : T → T
  | .nil => .node .nil key side .nil
  | .node l n tg r => if key > n then .node l n tg (ins .right key r) else .node (ins .left key l) n tg r

/-- `bst_add` (src/common/util/bst.c:35-67) starting at the head; `mem` says whether the allocation succeeds. Result: the return value. -/
def add (t : T) (key : Int) (mem : Bool) : T × Int :=
  if mem then (ins .none key t, 0) else (t, -1)

/-- Steps from the head. See src/common/util/bst.h:11-12. -/
inductive Dir where
  | l
  | r
deriving DecidableEq, Repr

/-- Result of `bst_find`: a node, given by its way from the head, or NULL; `overflow` is a write behind the array of 8192 entries.
See src/common/util/bst.c:76-92. -/
inductive Found where
  | node (p : List Dir)
  | null
  | overflow
deriving DecidableEq, Repr

/-- `if(n->left) stack[stackn++] = n->left;` (src/common/util/bst.c:86-89); `none` when the array of 8192 entries is exceeded. -/
def push (p : List Dir) (t : T) (st : List (List Dir × T)) : Option (List (List Dir × T)) :=
  if t.isNil then some st else if st.length < 8192 then some ((p, t) :: st) else .none

/-- Number of nodes. See src/common/util/bst.c:76-92. -/
def T.size : T → Nat
  | .nil => 0
  | .node l _ _ r => l.size + 1 + r.size

/-- Measure of the search (used for termination only). See src/common/util/bst.c:76-92. -/
def work : List (List Dir × T) → Nat
  | [] => 0
  | (_, t) :: st => 1 + 2 * t.size + work st

theorem push_work {p : List Dir} {t : T} {st st' : List (List Dir × T)} (h : push p t st = some st') : work st' ≤ 1 + 2 * t.size + work st := by
  unfold push at h
  split at h
  · cases h; omega
  · split at h
    · cases h; exact Nat.le_refl _
    · cases h

/-- The loop of `bst_find` (src/common/util/bst.c:81-90); the stack's top is the head of the list. Only non-NULL pointers are on the
stack. -/
def findLoop (key : Int) (st : List (List Dir × T)) : Found :=
  match st with
  | [] => .null
  | (_, .nil) :: st => findLoop key st
  | (p, .node l n _ r) :: st =>
    if n = key then .node p
    else
      match _h1 : push (p ++ [.l]) l st with
      | .none => .overflow
      | some s1 =>
        match _h2 : push (p ++ [.r]) r s1 with
        | .none => .overflow
        | some s2 => findLoop key s2
termination_by work st
decreasing_by
  · simp only [work]; omega
  · have a := push_work _h1; have b := push_work _h2
    simp only [work, T.size]; omega

/-- `bst_find` (src/common/util/bst.c:76-92). -/
def find (t : T) (key : Int) : Found := findLoop key [([], t)]

/-- Outcome of a deletion: the new tree; a NULL pointer is dereferenced; a link is written on the wrong side of the parent because
the `type` field is out of date, which leaves a pointer to freed memory or a lost subtree. See src/common/util/bst.c:94-145. -/
inductive Del where
  | ok (t : T)
  | crash
  | corrupt
deriving DecidableEq, Repr

/-- Lift a result to the tree around it. See src/common/util/bst.c:94-145. -/
def Del.map (f : T → T) : Del → Del
  | .ok t => .ok (f t)
  | .crash => .crash
  | .corrupt => .corrupt

/-- Unlinking the minimum of the right subtree (src/common/util/bst.c:118-129): result is the remaining subtree and the node's number and
tag. `side` is the link it hangs on: if the minimum is the right child itself and has no child, `m->parent->left = NULL` clears the left
pointer of the node to be deleted, which line 133 dereferences. -/
def popMin (side : Tag) : T → Except Bool (T × Int × Tag)
  | .nil => .error true
  | .node .nil n tg r =>
    if r.isNil then
      if side = .right then .error true else .ok (.nil, n, tg)
    else if (tg = .left) ↔ (side = .left) then .ok (r, n, tg) else .error false
  | .node l n tg r =>
    match popMin .left l with
    | .error e => .error e
    | .ok (l', m) => .ok (.node l' n tg r, m)

/-- Lines 131-134 and the like (src/common/util/bst.c:101-104, 109-112, 131-134): hang `t` on the parent in place of a node with tag `tg`, which
really hangs on the link `side`; the head has no parent. -/
def relink (side tg : Tag) (t : T) : Del :=
  if side = .none then .crash
  else if (tg = .left) ↔ (side = .left) then .ok t
  else .corrupt

/-- `bst_del` on the node found (src/common/util/bst.c:100-141), which hangs on the link `side`. -/
def delNode (side : Tag) : T → Del
  | .nil => .crash
  | .node l _ tg r =>
    if l.isNil = false ∧ r.isNil = true then relink side tg l
    else if l.isNil = true ∧ r.isNil = false then relink side tg r
    else if l.isNil then .crash
    else
      match popMin .right r with
      | .error true => .crash
      | .error false => .corrupt
      | .ok (r', m, mtg) => relink side tg (.node l m mtg r')

/-- The deletion seen from the head: only the subtree at the way `p` changes (src/common/util/bst.c:100-141). -/
def delAt (side : Tag) : List Dir → T → Del
  | [], t => delNode side t
  | _ :: _, .nil => .crash
  | .l :: p, .node l n tg r => (delAt .left p l).map fun l' => .node l' n tg r
  | .r :: p, .node l n tg r => (delAt .right p r).map fun r' => .node l n tg r'

/-- Operations of the interface. See src/common/util/bst.h:28-33. -/
inductive Op where
  | add (key : Int) (mem : Bool)
  | find (key : Int)
  | del (key : Int)
deriving DecidableEq, Repr

/-- What the caller sees: the return value, or for `bst_find` the number of the node returned. See src/common/util/bst.c:35-145. -/
inductive Reply where
  | ret (n : Int)
  | node (n : Int)
  | null
deriving DecidableEq, Repr

/-- Number stored at a way from the head. See src/common/util/bst.h:17. -/
def numAt : List Dir → T → Int
  | _, .nil => 0
  | [], .node _ n _ _ => n
  | .l :: p, .node l _ _ _ => numAt p l
  | .r :: p, .node _ _ _ r => numAt p r

/-- One call (`bst_add` src/common/util/bst.c:35-67, `bst_find` 76-92, `bst_del` 94-145); `none` when it goes wrong. -/
def step (t : T) : Op → Option (T × Reply)
  | .add k mem => some ((add t k mem).1, .ret (add t k mem).2)
  | .find k =>
    match find t k with
    | .node p => some (t, .node (numAt p t))
    | .null => some (t, .null)
    | .overflow => .none
  | .del k =>
    match find t k with
    | .null => some (t, .ret (-1))
    | .overflow => .none
    | .node p =>
      match delAt .none p t with
      | .ok t' => some (t', .ret 0)
      | _ => .none

/-- A sequence of calls: the tree and the replies; `none` when a call goes wrong. See src/common/util/bst.c:35-145. -/
def run (t : T) : List Op → Option (T × List Reply)
  | [] => some (t, [])
  | o :: os =>
    match step t o with
    | .none => .none
    | some (t', r) =>
      match run t' os with
      | .none => .none
      | some (t'', rs) => some (t'', r :: rs)

/-- All numbers in a subtree. See src/common/util/bst.c:35-67. -/
def keys : T → List Int
  | .nil => []
  | .node l n _ r => keys l ++ n :: keys r

/-- `bst_free` (src/common/util/bst.c:16-33): the nodes freed are those of the subtree right of the head. Simplification: the order of freeing
and the limit of the stack are left out (the stack is the same as in `findLoop`). -/
def freed : T → List Int
  | .nil => []
  | .node _ _ _ r => keys r

end Verif.Bst
