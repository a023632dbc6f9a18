/-
The chained hash table: src/common/util/ezhash.c.

The buckets (`queue_t`) are modelled as sequences; property C18 is the theorem that the pointer queues behave like that.
Keys are the bytes given by pointer and length; a value stands for the `valn` bytes copied (src/common/util/ezhash.c:155),
`valn > 0` as in the only caller (src/dns/dns.c:43).
-/
namespace Verif.EzHash

/-- A key: `key`, `keyn`. See src/common/util/ezhash.h:13-14. -/
abbrev Key := List UInt8

/-- `fnv1a_32` (src/common/util/ezhash.c:6-15). -/
def fnv1a (k : Key) : UInt32 :=
  k.foldl (fun h b => (h ^^^ b.toUInt32) * 0x01000193) 0x811c9dc5

/-- `ezhash_t` and `ezhash_obj_t` (src/common/util/ezhash.h): number of buckets and their entries in queue order. -/
structure Tab (V : Type) where
  arrn : Nat
  arr : Nat → List (Key × V)

/-- `ezhash_create` (src/common/util/ezhash.c:17-36), successful allocation. -/
def create (V : Type) (space : Nat) : Tab V := ⟨space, fun _ => []⟩

/-- Bucket index (src/common/util/ezhash.c:70-71, 99-100, 129-130); the hash function is a parameter of the model. -/
def idx {V : Type} (hf : Key → UInt32) (t : Tab V) (k : Key) : Nat := (hf k).toNat % t.arrn

/-- The walk along one bucket (src/common/util/ezhash.c:103-118): the first entry of equal length and equal bytes. -/
def walk {V : Type} (k : Key) : List (Key × V) → Option V
  | [] => none
  | (k', v) :: r => if k'.length = k.length ∧ k' = k then some v else walk k r

/-- `ezhash_find` (src/common/util/ezhash.c:97-119); `none` is NULL. -/
def find {V : Type} (hf : Key → UInt32) (t : Tab V) (k : Key) : Option V :=
  walk k (t.arr (idx hf t k))

/-- Replace the content of one bucket. See src/common/util/ezhash.c:68-159. -/
def Tab.set {V : Type} (t : Tab V) (i : Nat) (l : List (Key × V)) : Tab V :=
  ⟨t.arrn, fun j => if j = i then l else t.arr j⟩

/-- `ezhash_del` (src/common/util/ezhash.c:68-95): every matching entry of the bucket is unlinked. -/
def del {V : Type} (hf : Key → UInt32) (t : Tab V) (k : Key) : Tab V :=
  t.set (idx hf t k) ((t.arr (idx hf t k)).filter fun e => !(e.1.length = k.length && e.1 = k))

/-- Result of `ezhash_add`. See src/common/util/ezhash.c:121-159. -/
inductive AddRes (V : Type) where
  /-- returns 0 -/
  | ok (t : Tab V)
  /-- returns −1, table unchanged -/
  | noMem
  /-- `assert(size > 0)` in `mem_pool_alloc` (src/common/mem.c:137) for an empty key -/
  | abort

/-- `ezhash_add` (src/common/util/ezhash.c:121-159); `m1 m2 m3` say whether the three pool allocations succeed. -/
def add {V : Type} (hf : Key → UInt32) (t : Tab V) (k : Key) (v : V) (m1 m2 m3 : Bool) : AddRes V :=
  match find hf t k with
  | some _ => .ok t
  | none =>
    if m1 = false then .noMem
    else if k.length = 0 then .abort
    else if m2 = false then .noMem
    else if m3 = false then .noMem
    else .ok (t.set (idx hf t k) (t.arr (idx hf t k) ++ [(k, v)]))

/-- The loop over all buckets that unlinks the entries satisfying a condition (`dns_rec_chk`, src/dns/dns.c:61-83). -/
def sweep {V : Type} (t : Tab V) (p : V → Bool) : Tab V :=
  ⟨t.arrn, fun i => if i < t.arrn then (t.arr i).filter fun e => !p e.2 else t.arr i⟩

end Verif.EzHash
