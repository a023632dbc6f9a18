import Verif.Model.Aho
import Mathlib.Data.List.Perm.Subperm
/-
Lemmas about the key matcher.
-/
namespace Verif.Aho

theorem idx_lt (b : UInt8) : idx b < 128 := by unfold idx; split <;> omega

/-- Shape of a trie. -/
structure TrieOk (t : Trie) : Prop where
  nodup : t.nodes.Nodup
  ne : [] ∉ t.nodes
  parent : ∀ i q, i :: q ∈ t.nodes → q = [] ∨ q ∈ t.nodes
  small : ∀ i q, i :: q ∈ t.nodes → i < 128

theorem mem_addFrom (t : Trie) (n : Path) (cs : List UInt8) (p : Path) :
    p ∈ (addFrom t n cs).nodes ↔ p ∈ t.nodes ∨ ∃ u, u ≠ [] ∧ u <+: cs.map idx ∧ p = u.reverse ++ n := by
  induction cs generalizing t n with
  | nil =>
    simp only [addFrom, List.map_nil, List.prefix_nil]
    constructor
    · exact Or.inl
    · rintro (h | ⟨u, h1, h2, _⟩)
      · exact h
      · exact absurd h2 h1
  | cons c cs ih =>
    simp only [addFrom, ih]
    constructor
    · rintro (h | ⟨u, h1, h2, h3⟩)
      · split at h
        · exact Or.inl h
        · simp only [List.mem_cons] at h
          rcases h with h | h
          · right; exact ⟨[idx c], by simp, by simp, by simp [h]⟩
          · exact Or.inl h
      · right
        exact ⟨idx c :: u, by simp, by simpa using h2, by simp [h3]⟩
    · rintro (h | ⟨u, h1, h2, h3⟩)
      · left; split
        · exact h
        · exact List.mem_cons_of_mem _ h
      · cases u with
        | nil => exact absurd rfl h1
        | cons a u =>
          rw [List.map_cons, List.cons_prefix_cons] at h2
          obtain ⟨rfl, h2⟩ := h2
          cases u with
          | nil =>
            left
            have : p = idx c :: n := by simp [h3]
            split
            · next h => rw [this]; exact h
            · rw [this]; simp
          | cons b u =>
            right; exact ⟨b :: u, by simp, h2, by simp [h3]⟩

theorem terms_addFrom (t : Trie) (n : Path) (cs : List UInt8) :
    (addFrom t n cs).terms = ((cs.map idx).reverse ++ n) :: t.terms := by
  induction cs generalizing t n with
  | nil => simp [addFrom]
  | cons c cs ih =>
    simp only [addFrom, ih]
    split <;> simp

theorem nodup_addFrom (t : Trie) (n : Path) (cs : List UInt8) (h : t.nodes.Nodup) : (addFrom t n cs).nodes.Nodup := by
  induction cs generalizing t n with
  | nil => exact h
  | cons c cs ih =>
    simp only [addFrom]
    apply ih
    split
    · exact h
    · next hn => exact List.nodup_cons.mpr ⟨hn, h⟩

theorem length_addFrom (t : Trie) (n : Path) (cs : List UInt8) :
    (addFrom t n cs).nodes.length ≤ t.nodes.length + cs.length := by
  induction cs generalizing t n with
  | nil => simp [addFrom]
  | cons c cs ih =>
    simp only [addFrom]
    refine Nat.le_trans (ih _ _) ?_
    split <;> (simp; try omega)

theorem addAll_facts (keys : List (List UInt8)) (t : Trie) (h : t.nodes.Nodup) :
    let r := keys.foldl add t
    r.nodes.Nodup ∧ r.nodes.length ≤ t.nodes.length + keys.flatten.length ∧
    (∀ p, p ∈ r.nodes ↔ p ∈ t.nodes ∨ (p ≠ [] ∧ ∃ k ∈ keys, p.reverse <+: k.map idx)) ∧
    (∀ p, p ∈ r.terms ↔ p ∈ t.terms ∨ ∃ k ∈ keys, p = (k.map idx).reverse) := by
  induction keys generalizing t with
  | nil => simp [h]
  | cons k ks ih =>
    obtain ⟨h1, h2, h3, h4⟩ := ih (add t k) (nodup_addFrom t [] k h)
    refine ⟨h1, ?_, ?_, ?_⟩
    · have := length_addFrom t [] k
      simp only [List.flatten_cons, List.length_append]
      have e : (add t k).nodes.length ≤ t.nodes.length + k.length := this
      simp only [List.foldl_cons]
      omega
    · intro p
      simp only [List.foldl_cons, h3]
      simp only [add, mem_addFrom, List.append_nil]
      constructor
      · rintro ((h | ⟨u, a, b, c⟩) | ⟨a, k', hk', b⟩)
        · exact Or.inl h
        · right; subst c; exact ⟨by simpa using a, k, by simp, by simpa using b⟩
        · right; exact ⟨a, k', List.mem_cons_of_mem _ hk', b⟩
      · rintro (h | ⟨a, k', hk', b⟩)
        · exact Or.inl (Or.inl h)
        · rcases List.mem_cons.mp hk' with rfl | hk'
          · left; right; exact ⟨p.reverse, by simpa using a, b, by simp⟩
          · right; exact ⟨a, k', hk', b⟩
    · intro p
      simp only [List.foldl_cons, h4]
      simp only [add, terms_addFrom, List.append_nil, List.mem_cons]
      constructor
      · rintro ((h | h) | ⟨k', hk', b⟩)
        · right; exact ⟨k, Or.inl rfl, h⟩
        · exact Or.inl h
        · right; exact ⟨k', Or.inr hk', b⟩
      · rintro (h | ⟨k', rfl | hk', b⟩)
        · exact Or.inl (Or.inr h)
        · exact Or.inl (Or.inl b)
        · right; exact ⟨k', hk', b⟩

theorem mem_nodes (keys : List (List UInt8)) (p : Path) :
    p ∈ (addAll keys).nodes ↔ p ≠ [] ∧ ∃ k ∈ keys, p.reverse <+: k.map idx := by
  have := (addAll_facts keys empty (by simp [empty])).2.2.1 p
  simpa [empty, addAll] using this

theorem mem_terms (keys : List (List UInt8)) (p : Path) :
    p ∈ (addAll keys).terms ↔ ∃ k ∈ keys, p = (k.map idx).reverse := by
  have := (addAll_facts keys empty (by simp [empty])).2.2.2 p
  simpa [empty, addAll] using this

theorem nodes_length (keys : List (List UInt8)) : (addAll keys).nodes.length ≤ keys.flatten.length := by
  have := (addAll_facts keys empty (by simp [empty])).2.1
  simpa [empty, addAll] using this

theorem addAll_ok (keys : List (List UInt8)) : TrieOk (addAll keys) := by
  constructor
  · exact (addAll_facts keys empty (by simp [empty])).1
  · simp [mem_nodes]
  · intro i q h
    rw [mem_nodes] at h
    obtain ⟨_, k, hk, hp⟩ := h
    by_cases hq : q = []
    · exact Or.inl hq
    · right
      rw [mem_nodes]
      refine ⟨hq, k, hk, ?_⟩
      rw [List.reverse_cons] at hp
      exact (List.prefix_append _ _).trans hp
  · intro i q h
    rw [mem_nodes] at h
    obtain ⟨_, k, hk, hp⟩ := h
    have : i ∈ k.map idx := hp.subset (by simp)
    rw [List.mem_map] at this
    obtain ⟨b, _, rfl⟩ := this
    exact idx_lt b

/-- The set fail links point to a node spelling a proper suffix. -/
def FailsOk (t : Trie) (fs : Fails) : Prop :=
  ∀ p y, (p, y) ∈ fs → p ∈ t.nodes ∧ p ≠ [] ∧ y.length < p.length ∧ y <+: p ∧ (y = [] ∨ y ∈ t.nodes)

/-- Nodes whose fail link is set. -/
abbrev dom (fs : Fails) : List Path := fs.map Prod.fst

theorem lookup_mem (fs : Fails) (p y : Path) (h : fs.lookup p = some y) : (p, y) ∈ fs := by
  induction fs with
  | nil => simp at h
  | cons a fs ih =>
    obtain ⟨a1, a2⟩ := a
    rw [List.lookup_cons] at h
    split at h
    · next hb => simp at hb; simp at h; subst hb; subst h; simp
    · exact List.mem_cons_of_mem _ (ih h)

theorem lookup_dom (fs : Fails) (p : Path) : p ∈ dom fs ↔ ∃ y, fs.lookup p = some y := by
  induction fs with
  | nil => simp [dom]
  | cons a fs ih =>
    obtain ⟨a1, a2⟩ := a
    rw [List.lookup_cons]
    split
    · next hb => simp at hb; simp [dom, hb]
    · next hb =>
      have : p ≠ a1 := by simpa using hb
      simp only [dom, List.map_cons, List.mem_cons, this, false_or]
      exact ih

theorem failOf_some {t : Trie} {fs : Fails} (hf : FailsOk t fs) {p y : Path} (h : failOf fs p = some y) :
    (p = [] ∧ y = []) ∨ (p ≠ [] ∧ p ∈ t.nodes ∧ y.length < p.length ∧ y <+: p ∧ (y = [] ∨ y ∈ t.nodes)) := by
  unfold failOf at h
  split at h
  · next hp => left; simp at h; exact ⟨hp, h⟩
  · next hp =>
    right
    obtain ⟨a, b, c, d, e⟩ := hf p y (lookup_mem fs p y h)
    exact ⟨hp, a, c, d, e⟩

theorem failOf_dom {fs : Fails} {p : Path} (h : p = [] ∨ p ∈ dom fs) : ∃ y, failOf fs p = some y := by
  unfold failOf
  split
  · exact ⟨_, rfl⟩
  · next hp =>
    rcases h with h | h
    · exact absurd h hp
    · exact (lookup_dom fs p).mp h

/-- The walk never runs out of its bound, and what it finds is a suffix with the child. -/
theorem walk_spec {t : Trie} {fs : Fails} (hf : FailsOk t fs) (i : Nat) (k : Nat) (x : Path) (hk : x.length < k) :
    (walk t fs i k x = .error .null) ∨ (walk t fs i k x = .ok .root) ∨
    (∃ y, walk t fs i k x = .ok (.found y) ∧ y <+: x ∧ i :: y ∈ t.nodes) := by
  induction k generalizing x with
  | zero => omega
  | succ k ih =>
    unfold walk
    split
    · next h => right; right; exact ⟨x, rfl, List.prefix_rfl, h⟩
    · split
      · left; rfl
      · next y hy =>
        split
        · right; left; rfl
        · next hy0 =>
          rcases failOf_some hf hy with ⟨_, h⟩ | ⟨_, _, hl, hp, _⟩
          · exact absurd h hy0
          · rcases ih y (by omega) with h | h | ⟨z, h1, h2, h3⟩
            · exact Or.inl h
            · exact Or.inr (Or.inl h)
            · exact Or.inr (Or.inr ⟨z, h1, h2.trans hp, h3⟩)

/-- The walk does not meet a missing link if all shorter nodes have one. -/
theorem walk_no_null {t : Trie} {fs : Fails} (hf : FailsOk t fs) (i : Nat) (k : Nat) (x : Path)
    (hx : x = [] ∨ x ∈ t.nodes) (hd : ∀ q ∈ t.nodes, q.length ≤ x.length → q ∈ dom fs) : walk t fs i k x ≠ .error .null := by
  induction k generalizing x with
  | zero => simp [walk]
  | succ k ih =>
    unfold walk
    split
    · simp
    · split
      · next h =>
        obtain ⟨y, hy⟩ := failOf_dom (fs := fs) (p := x) (by
          rcases hx with hx | hx
          · exact Or.inl hx
          · exact Or.inr (hd x hx (Nat.le_refl _)))
        rw [hy] at h; cases h
      · next y hy =>
        split
        · simp
        · next hy0 =>
          rcases failOf_some hf hy with ⟨_, h⟩ | ⟨_, _, hl, hp, he⟩
          · exact absurd h hy0
          · exact ih y he (fun q hq hl2 => hd q hq (by omega))

/-- Invariant of the compile loop at its head, with the node `n` being visited excluded from closedness for the indices `is`. -/
structure CInv (t : Trie) (n : Option Path) (is : List Nat) (fs : Fails) (stack : List Path) : Prop where
  fails : FailsOk t fs
  nodup : (dom fs).Nodup
  sub : ∀ p ∈ stack, p ∈ dom fs
  snodup : stack.Nodup
  parent : ∀ i q, i :: q ∈ dom fs → q = [] ∨ (q ∈ dom fs ∧ q ∉ stack)
  closed : ∀ q, (q = [] ∨ (q ∈ dom fs ∧ q ∉ stack)) → ∀ i, i :: q ∈ t.nodes → i :: q ∈ dom fs ∨ (n = some q ∧ i ∈ is)
  fresh : ∀ q, n = some q → q ∉ stack ∧ (q = [] ∨ q ∈ dom fs) ∧ ∀ i ∈ is, i :: q ∉ dom fs

theorem dom_length {t : Trie} {fs : Fails} (hf : FailsOk t fs) (hn : (dom fs).Nodup) :
    (dom fs).length ≤ t.nodes.length := by
  apply List.Subperm.length_le
  apply List.Nodup.subperm hn
  intro p hp
  simp only [dom, List.mem_map] at hp
  obtain ⟨⟨a, b⟩, h, rfl⟩ := hp
  exact (hf a b h).1

theorem stack_length {stack : List Path} {fs : Fails} (h : stack.Nodup) (hs : ∀ p ∈ stack, p ∈ dom fs) :
    stack.length ≤ (dom fs).length :=
  (List.Nodup.subperm h hs).length_le

/-- Pushing one child keeps the invariant. -/
theorem CInv.pushChild {t : Trie} {n : Path} {i : Nat} {is : List Nat} {fs : Fails} {stack : List Path}
    (h : CInv t (some n) (i :: is) fs stack) (hnd : (i :: is).Nodup) (hin : i :: n ∈ t.nodes) (y : Path)
    (hy : y <+: n) (hy2 : i :: y ∈ t.nodes ∨ y = []) (target : Path)
    (htar : target = [] ∨ (target = i :: y ∧ i :: y ∈ t.nodes ∧ y.length < n.length)) :
    CInv t (some n) is ((i :: n, target) :: fs) ((i :: n) :: stack) := by
  obtain ⟨hns, hnd2, hfr⟩ := h.fresh n rfl
  have hnew : i :: n ∉ dom fs := hfr i (by simp)
  have hni : n ≠ i :: n := by intro e; have := congrArg List.length e; simp at this
  constructor
  · intro p z hp
    rcases List.mem_cons.mp hp with hp | hp
    · cases hp
      refine ⟨hin, by simp, ?_, ?_, ?_⟩
      · rcases htar with rfl | ⟨rfl, _, hl⟩
        · simp
        · simp only [List.length_cons]; omega
      · rcases htar with rfl | ⟨rfl, _, _⟩
        · exact List.nil_prefix
        · exact (List.cons_prefix_cons).mpr ⟨rfl, hy⟩
      · rcases htar with rfl | ⟨rfl, h, _⟩
        · exact Or.inl rfl
        · exact Or.inr h
    · exact h.fails p z hp
  · simp only [dom, List.map_cons]
    exact List.nodup_cons.mpr ⟨hnew, h.nodup⟩
  · intro p hp
    simp only [dom, List.map_cons]
    rcases List.mem_cons.mp hp with rfl | hp
    · exact List.mem_cons_self
    · exact List.mem_cons_of_mem _ (h.sub p hp)
  · exact List.nodup_cons.mpr ⟨fun hc => hnew (h.sub _ hc), h.snodup⟩
  · intro j q hj
    simp only [dom, List.map_cons, List.mem_cons] at hj
    rcases hj with hj | hj
    · obtain ⟨rfl, rfl⟩ := List.cons.inj hj
      rcases hnd2 with h0 | h0
      · exact Or.inl h0
      · right
        refine ⟨List.mem_cons_of_mem _ h0, ?_⟩
        intro hc
        rcases List.mem_cons.mp hc with hc | hc
        · exact hni hc
        · exact hns hc
    · rcases h.parent j q hj with h0 | ⟨h1, h2⟩
      · exact Or.inl h0
      · right
        refine ⟨List.mem_cons_of_mem _ h1, ?_⟩
        intro hc
        rcases List.mem_cons.mp hc with rfl | hc
        · exact hnew h1
        · exact h2 hc
  · intro q hq j hj
    by_cases hq2 : q = i :: n
    · exfalso
      rcases hq with hq | ⟨_, hq⟩
      · rw [hq2] at hq; cases hq
      · exact hq (by rw [hq2]; simp)
    · have hq' : q = [] ∨ (q ∈ dom fs ∧ q ∉ stack) := by
        rcases hq with hq | ⟨h1, h2⟩
        · exact Or.inl hq
        · right
          simp only [dom, List.map_cons, List.mem_cons] at h1 h2
          exact ⟨h1.resolve_left hq2, fun hc => h2 (Or.inr hc)⟩
      rcases h.closed q hq' j hj with h1 | ⟨h1, h2⟩
      · left; exact List.mem_cons_of_mem _ h1
      · rcases List.mem_cons.mp h2 with rfl | h2
        · left
          cases h1
          exact List.mem_cons_self
        · exact Or.inr ⟨h1, h2⟩
  · intro q hq
    cases hq
    refine ⟨?_, ?_, ?_⟩
    · intro hc
      rcases List.mem_cons.mp hc with hc | hc
      · exact hni hc
      · exact hns hc
    · rcases hnd2 with h0 | h0
      · exact Or.inl h0
      · exact Or.inr (List.mem_cons_of_mem _ h0)
    · intro j hj hc
      simp only [dom, List.map_cons, List.mem_cons] at hc
      rcases hc with hc | hc
      · have := (List.cons.inj hc).1
        subst this
        exact (List.nodup_cons.mp hnd).1 hj
      · exact hfr j (List.mem_cons_of_mem _ hj) hc

/-- Skipping an index without a child keeps the invariant. -/
theorem CInv.skip {t : Trie} {n : Path} {i : Nat} {is : List Nat} {fs : Fails} {stack : List Path}
    (h : CInv t (some n) (i :: is) fs stack) (hin : i :: n ∉ t.nodes) : CInv t (some n) is fs stack := by
  refine ⟨h.fails, h.nodup, h.sub, h.snodup, h.parent, ?_, ?_⟩
  · intro q hq j hj
    rcases h.closed q hq j hj with h1 | ⟨h1, h2⟩
    · exact Or.inl h1
    · rcases List.mem_cons.mp h2 with rfl | h2
      · cases h1; exact absurd hj hin
      · exact Or.inr ⟨h1, h2⟩
  · intro q hq
    obtain ⟨a, b, c⟩ := h.fresh q hq
    exact ⟨a, b, fun j hj => c j (List.mem_cons_of_mem _ hj)⟩

theorem CInv.done {t : Trie} {n : Path} {fs : Fails} {stack : List Path} (h : CInv t (some n) [] fs stack) :
    CInv t none [] fs stack := by
  refine ⟨h.fails, h.nodup, h.sub, h.snodup, h.parent, ?_, by simp⟩
  intro q hq j hj
  rcases h.closed q hq j hj with h1 | ⟨_, h2⟩
  · exact Or.inl h1
  · cases h2

/-- Popping the top of the stack. -/
theorem CInv.pop {t : Trie} (ht : TrieOk t) {n : Path} {fs : Fails} {stack : List Path}
    (h : CInv t none [] fs (n :: stack)) : CInv t (some n) (List.range 128) fs stack := by
  have hns : n ∉ stack := (List.nodup_cons.mp h.snodup).1
  have hnd : n ∈ dom fs := h.sub n (by simp)
  refine ⟨h.fails, h.nodup, fun p hp => h.sub p (List.mem_cons_of_mem _ hp), (List.nodup_cons.mp h.snodup).2, ?_, ?_, ?_⟩
  · intro i q hi
    rcases h.parent i q hi with h0 | ⟨h1, h2⟩
    · exact Or.inl h0
    · exact Or.inr ⟨h1, fun hc => h2 (List.mem_cons_of_mem _ hc)⟩
  · intro q hq j hj
    by_cases e : q = n
    · subst e
      right; exact ⟨rfl, by simpa using ht.small _ _ hj⟩
    · left
      have hq' : q = [] ∨ (q ∈ dom fs ∧ q ∉ n :: stack) := by
        rcases hq with hq | ⟨h1, h2⟩
        · exact Or.inl hq
        · exact Or.inr ⟨h1, fun hc => (List.mem_cons.mp hc).elim e h2⟩
      rcases h.closed q hq' j hj with h1 | ⟨h1, _⟩
      · exact h1
      · cases h1
  · intro q hq
    cases hq
    refine ⟨hns, Or.inr hnd, ?_⟩
    intro i _ hi
    rcases h.parent i n hi with h0 | ⟨_, h2⟩
    · subst h0
      have := h.fails
      simp only [dom, List.mem_map] at hnd
      obtain ⟨⟨a, b⟩, h3, h4⟩ := hnd
      exact (this a b h3).2.1 h4
    · exact h2 (by simp)

/-- The invariant step for one visited node. -/
theorem visit_spec {t : Trie} (hsz : t.nodes.length ≤ stackMax) (n : Path) (hn : n ≠ []) (is : List Nat)
    (hnd : is.Nodup) (fs : Fails) (stack : List Path) (h : CInv t (some n) is fs stack) :
    (visit t n is (fs, stack) = .error .null ∧ ∃ q ∈ t.nodes, q.length ≤ n.length ∧ q ∉ dom fs) ∨
    ∃ fs' stack', visit t n is (fs, stack) = .ok (fs', stack') ∧ CInv t none [] fs' stack' ∧
      (dom fs').length + stack.length = (dom fs).length + stack'.length := by
  induction is generalizing fs stack with
  | nil => right; exact ⟨fs, stack, rfl, h.done, rfl⟩
  | cons i is ih =>
    unfold visit
    split
    · next hin =>
      split
      · next hx =>
        obtain ⟨y, hy⟩ := failOf_dom (h.fresh n rfl).2.1
        rw [hy] at hx; cases hx
      · next x hx =>
        have hxm : x = [] ∨ x ∈ t.nodes := by
          rcases failOf_some h.fails hx with ⟨_, h0⟩ | ⟨_, _, _, _, h0⟩
          · exact Or.inl h0
          · exact h0
        have hgrow : ∀ target, (∃ q ∈ t.nodes, q.length ≤ n.length ∧ q ∉ dom ((i :: n, target) :: fs)) →
            ∃ q ∈ t.nodes, q.length ≤ n.length ∧ q ∉ dom fs := by
          rintro target ⟨q, h1, h2, h3⟩
          exact ⟨q, h1, h2, fun hc => h3 (List.mem_cons_of_mem _ hc)⟩
        have hxn : x <+: n ∧ x.length < n.length := by
          rcases failOf_some h.fails hx with ⟨h0, _⟩ | ⟨_, _, h1, h2, _⟩
          · exact absurd h0 hn
          · exact ⟨h2, h1⟩
        have hnew : i :: n ∉ dom fs := (h.fresh n rfl).2.2 i (by simp)
        have hpush : ∀ target, CInv t (some n) is ((i :: n, target) :: fs) ((i :: n) :: stack) → push stack (i :: n) = .ok ((i :: n) :: stack) := by
          intro target hc
          have h1 := stack_length hc.snodup hc.sub
          have h2 := dom_length hc.fails hc.nodup
          unfold push
          rw [if_pos]
          simp only [List.length_cons] at h1
          omega
        rcases walk_spec h.fails i (x.length + 1) x (by omega) with hw | hw | ⟨y, hw, hyx, hyn⟩
        · left
          refine ⟨by simp [hw], ?_⟩
          apply Classical.byContradiction
          intro hno
          refine walk_no_null h.fails i (x.length + 1) x hxm ?_ hw
          intro q hq hl
          apply Classical.byContradiction
          intro hqd
          exact hno ⟨q, hq, by omega, hqd⟩
        · have hc := h.pushChild hnd hin [] List.nil_prefix (Or.inr rfl) [] (Or.inl rfl)
          simp only [hw, hpush _ hc]
          rcases ih (List.nodup_cons.mp hnd).2 _ _ hc with ⟨hv, hv2⟩ | ⟨fs', st', hv, hc', hl⟩
          · exact Or.inl ⟨hv, hgrow _ hv2⟩
          · right; exact ⟨fs', st', hv, hc', by simp [dom] at hl ⊢; omega⟩
        · have hlt : y.length < n.length := Nat.lt_of_le_of_lt hyx.length_le hxn.2
          have hc := h.pushChild hnd hin y (hyx.trans hxn.1) (Or.inl hyn) (i :: y) (Or.inr ⟨rfl, hyn, hlt⟩)
          simp only [hw, hpush _ hc]
          rcases ih (List.nodup_cons.mp hnd).2 _ _ hc with ⟨hv, hv2⟩ | ⟨fs', st', hv, hc', hl⟩
          · exact Or.inl ⟨hv, hgrow _ hv2⟩
          · right; exact ⟨fs', st', hv, hc', by simp [dom] at hl ⊢; omega⟩
    · next hin =>
      exact ih (List.nodup_cons.mp hnd).2 fs stack (h.skip hin)

theorem seed_spec {t : Trie} (hsz : t.nodes.length ≤ stackMax) (is : List Nat) (hnd : is.Nodup) (fs : Fails)
    (stack : List Path) (h : CInv t (some []) is fs stack) :
    ∃ fs' stack', seed t is (fs, stack) = .ok (fs', stack') ∧ CInv t none [] fs' stack' ∧
      (dom fs').length + stack.length = (dom fs).length + stack'.length := by
  induction is generalizing fs stack with
  | nil => exact ⟨fs, stack, rfl, h.done, rfl⟩
  | cons i is ih =>
    unfold seed
    split
    · next hin =>
      have hc := h.pushChild hnd hin [] List.nil_prefix (Or.inr rfl) [] (Or.inl rfl)
      have hpush : push stack [i] = .ok ([i] :: stack) := by
        have h1 := stack_length hc.snodup hc.sub
        have h2 := dom_length hc.fails hc.nodup
        unfold push
        rw [if_pos]
        simp only [List.length_cons] at h1
        omega
      simp only [hpush]
      obtain ⟨fs', st', hv, hc', hl⟩ := ih (List.nodup_cons.mp hnd).2 _ _ hc
      exact ⟨fs', st', hv, hc', by simp [dom] at hl ⊢; omega⟩
    · next hin => exact ih (List.nodup_cons.mp hnd).2 fs stack (h.skip hin)

theorem seed_init {t : Trie} (ht : TrieOk t) : CInv t (some []) (List.range 128) [] [] := by
  constructor
  · intro p y h; cases h
  · simp
  · simp
  · simp
  · simp
  · intro q hq j hj
    rcases hq with rfl | ⟨h, _⟩
    · right; exact ⟨rfl, by simpa using ht.small _ _ hj⟩
    · simp at h
  · intro q hq; cases hq; simp

theorem compileLoop_spec {t : Trie} (ht : TrieOk t) (hsz : t.nodes.length ≤ stackMax) (k : Nat) (fs : Fails) (stack : List Path)
    (h : CInv t none [] fs stack) (hk : t.nodes.length + stack.length ≤ k + (dom fs).length) :
    (compileLoop t k (fs, stack) = .error .null) ∨
    ∃ fs', compileLoop t k (fs, stack) = .ok fs' ∧ CInv t none [] fs' [] := by
  induction k generalizing fs stack with
  | zero =>
    cases stack with
    | nil => right; exact ⟨fs, rfl, h⟩
    | cons n stack =>
      have := dom_length h.fails h.nodup
      simp only [List.length_cons] at hk
      omega
  | succ k ih =>
    cases stack with
    | nil => right; exact ⟨fs, rfl, h⟩
    | cons n stack =>
      unfold compileLoop
      have hn : n ≠ [] := by
        have := h.sub n (by simp)
        simp only [dom, List.mem_map] at this
        obtain ⟨⟨a, b⟩, h3, h4⟩ := this
        rw [← h4]; exact (h.fails a b h3).2.1
      rcases visit_spec hsz n hn (List.range 128) List.nodup_range fs stack (h.pop ht) with ⟨hv, _⟩ | ⟨fs', st', hv, hc, hl⟩
      · left; simp [hv]
      · simp only [hv]
        apply ih _ _ hc
        simp only [List.length_cons] at hk
        omega

/-- After compilation every node has a fail link. -/
theorem CInv.total {t : Trie} (ht : TrieOk t) {fs : Fails} (h : CInv t none [] fs []) : ∀ p ∈ t.nodes, p ∈ dom fs := by
  intro p
  induction p with
  | nil => intro hp; exact absurd hp ht.ne
  | cons i q ih =>
    intro hp
    have hq : q = [] ∨ (q ∈ dom fs ∧ q ∉ ([] : List Path)) := by
      rcases ht.parent i q hp with h0 | h0
      · exact Or.inl h0
      · exact Or.inr ⟨ih h0, by simp⟩
    rcases h.closed q hq i hp with h1 | ⟨h1, _⟩
    · exact h1
    · cases h1

/-- Compilation of a trie of at most 4096 nodes: it succeeds with a complete set of suffix links, or dereferences NULL; nothing else. -/
theorem compile_spec {t : Trie} (ht : TrieOk t) (hsz : t.nodes.length ≤ stackMax) :
    (compile t = .error .null) ∨
    ∃ fs, compile t = .ok fs ∧ FailsOk t fs ∧ ∀ p ∈ t.nodes, p ∈ dom fs := by
  unfold compile
  obtain ⟨fs, st, hs, hc, hl⟩ := seed_spec hsz (List.range 128) List.nodup_range [] [] (seed_init ht)
  simp only [hs]
  have hk : t.nodes.length + st.length ≤ t.nodes.length + (dom fs).length := by
    simp [dom] at hl ⊢; omega
  rcases compileLoop_spec ht hsz t.nodes.length fs st hc hk with h | ⟨fs', h, hc'⟩
  · exact Or.inl h
  · exact Or.inr ⟨fs', h, hc'.fails, hc'.total ht⟩

/-! ### Key sets for which compilation succeeds -/

/-- A trie with at most one node per depth (one key). -/
def Chain (t : Trie) : Prop := ∀ p ∈ t.nodes, ∀ q ∈ t.nodes, p.length = q.length → p = q

theorem ancestors {t : Trie} {fs : Fails} {stack : List Path} (h : CInv t none [] fs stack) (a n : Path)
    (hn : a ++ n ∈ dom fs) (hne : n ≠ []) : n ∈ dom fs := by
  induction a with
  | nil => exact hn
  | cons i a ih =>
    rcases h.parent i (a ++ n) hn with h0 | ⟨h1, _⟩
    · simp [hne] at h0
    · exact ih h1

theorem compileLoop_chain {t : Trie} (ht : TrieOk t) (hsz : t.nodes.length ≤ stackMax) (hch : Chain t) (k : Nat) (fs : Fails)
    (stack : List Path) (h : CInv t none [] fs stack) : compileLoop t k (fs, stack) ≠ .error .null := by
  induction k generalizing fs stack with
  | zero => cases stack <;> simp [compileLoop]
  | succ k ih =>
    cases stack with
    | nil => simp [compileLoop]
    | cons n stack =>
      unfold compileLoop
      have hnd := h.sub n (by simp)
      have hn : n ∈ t.nodes ∧ n ≠ [] := by
        have := hnd
        simp only [dom, List.mem_map] at this
        obtain ⟨⟨a, b⟩, h3, h4⟩ := this
        rw [← h4]; exact ⟨(h.fails a b h3).1, (h.fails a b h3).2.1⟩
      rcases visit_spec hsz n hn.2 (List.range 128) List.nodup_range fs stack (h.pop ht) with
        ⟨_, q, hq, hl, hqd⟩ | ⟨fs', st', hv, hc, hl⟩
      · exfalso
        have hqne : q ≠ [] := fun e => ht.ne (e ▸ hq)
        have hm : n.drop (n.length - q.length) ∈ dom fs := by
          apply ancestors h (n.take (n.length - q.length))
          · rw [List.take_append_drop]; exact hnd
          · intro e
            have := congrArg List.length e
            have h0 : 0 < q.length := List.length_pos_iff.mpr hqne
            simp only [List.length_drop, List.length_nil] at this; omega
        have hm2 : n.drop (n.length - q.length) ∈ t.nodes := by
          have := hm
          simp only [dom, List.mem_map] at this
          obtain ⟨⟨a, b⟩, h3, h4⟩ := this
          rw [← h4]; exact (h.fails a b h3).1
        have := hch q hq _ hm2 (by simp only [List.length_drop]; omega)
        rw [this] at hqd; exact hqd hm
      · simp only [hv]
        exact ih _ _ hc

theorem compile_chain {t : Trie} (ht : TrieOk t) (hsz : t.nodes.length ≤ stackMax) (hch : Chain t) :
    ∃ fs, compile t = .ok fs ∧ FailsOk t fs ∧ ∀ p ∈ t.nodes, p ∈ dom fs := by
  rcases compile_spec ht hsz with h | h
  · exfalso
    unfold compile at h
    obtain ⟨fs, st, hs, hc, hl⟩ := seed_spec hsz (List.range 128) List.nodup_range [] [] (seed_init ht)
    simp only [hs] at h
    exact compileLoop_chain ht hsz hch _ _ _ hc h
  · exact h

/-- All links point to the root. -/
def AllRoot (fs : Fails) : Prop := ∀ p y, (p, y) ∈ fs → y = []

theorem failOf_allRoot {fs : Fails} (h : AllRoot fs) {p : Path} (hp : p ∈ dom fs) : failOf fs p = some [] := by
  obtain ⟨y, hy⟩ := failOf_dom (fs := fs) (p := p) (Or.inr hp)
  unfold failOf at hy ⊢
  split
  · rfl
  · next hne =>
    rw [if_neg hne] at hy
    rw [hy, h p y (lookup_mem fs p y hy)]

/-- First characters of keys never occur later in a key. -/
def FreshHeads (t : Trie) : Prop := ∀ i q, q ≠ [] → i :: q ∈ t.nodes → [i] ∉ t.nodes

theorem visit_roots {t : Trie} (hfh : FreshHeads t) (n : Path) (hn : n ≠ []) (is : List Nat) (fs : Fails) (stack : List Path)
    (hr : AllRoot fs) (hd : n ∈ dom fs) (hst : ∀ p ∈ stack, p ∈ dom fs) :
    visit t n is (fs, stack) = .error .overflow ∨
    ∃ fs' st', visit t n is (fs, stack) = .ok (fs', st') ∧ AllRoot fs' ∧ (∀ p ∈ st', p ∈ dom fs') := by
  induction is generalizing fs stack with
  | nil => right; exact ⟨fs, stack, rfl, hr, hst⟩
  | cons i is ih =>
    unfold visit
    split
    · next hin =>
      rw [failOf_allRoot hr hd]
      have hw : walk t fs i ([] : Path).length.succ [] = .ok .root := by
        simp [walk, hfh i n hn hin, failOf]
      simp only
      rw [show ([] : Path).length + 1 = ([] : Path).length.succ from rfl, hw]
      simp only [push]
      by_cases hl : stack.length < stackMax
      · simp only [if_pos hl]
        apply ih
        · intro p y hp
          rcases List.mem_cons.mp hp with hp | hp
          · cases hp; rfl
          · exact hr p y hp
        · exact List.mem_cons_of_mem _ hd
        · intro p hp
          rcases List.mem_cons.mp hp with rfl | hp
          · exact List.mem_cons_self
          · exact List.mem_cons_of_mem _ (hst p hp)
      · left; simp [if_neg hl]
    · exact ih fs stack hr hd hst

theorem compileLoop_roots {t : Trie} (hfh : FreshHeads t) (k : Nat) (fs : Fails) (stack : List Path)
    (hf : ∀ p ∈ dom fs, p ≠ []) (hr : AllRoot fs) (hst : ∀ p ∈ stack, p ∈ dom fs) :
    compileLoop t k (fs, stack) ≠ .error .null ∧ ∀ fs', compileLoop t k (fs, stack) = .ok fs' → AllRoot fs' := by
  induction k generalizing fs stack with
  | zero => cases stack <;> simp [compileLoop, hr]
  | succ k ih =>
    cases stack with
    | nil => simp [compileLoop, hr]
    | cons n stack =>
      unfold compileLoop
      have hnd := hst n (by simp)
      have hdom : ∀ (is : List Nat) (fs fs' : Fails) (st st' : List Path), visit t n is (fs, st) = .ok (fs', st') →
          (∀ p ∈ dom fs, p ≠ []) → ∀ p ∈ dom fs', p ≠ [] := by
        intro is
        induction is with
        | nil => intro fs fs' st st' h hp; simp [visit] at h; rw [← h.1]; exact hp
        | cons i is ih2 =>
          intro fs fs' st st' h hp
          unfold visit at h
          split at h
          · split at h
            · cases h
            · split at h
              · cases h
              · simp only at h
                split at h
                · cases h
                · refine ih2 _ _ _ _ h ?_
                  intro p hp2
                  simp only [dom, List.map_cons, List.mem_cons] at hp2
                  rcases hp2 with rfl | hp2
                  · simp
                  · exact hp p hp2
          · exact ih2 _ _ _ _ h hp
      rcases visit_roots hfh n (hf n hnd) (List.range 128) fs stack hr hnd (fun p hp => hst p (List.mem_cons_of_mem _ hp)) with
        hv | ⟨fs', st', hv, hr', hst'⟩
      · simp [hv]
      · simp only [hv]
        exact ih fs' st' (hdom _ _ _ _ _ hv hf) hr' hst'

theorem compile_roots {t : Trie} (hfh : FreshHeads t) (ht : TrieOk t) (hsz : t.nodes.length ≤ stackMax) :
    ∃ fs, compile t = .ok fs ∧ FailsOk t fs ∧ (∀ p ∈ t.nodes, p ∈ dom fs) ∧ AllRoot fs := by
  obtain ⟨fs, st, hs, hc, hl⟩ := seed_spec hsz (List.range 128) List.nodup_range [] [] (seed_init ht)
  have hseed : ∀ (is : List Nat) (fs fs' : Fails) (st st' : List Path), seed t is (fs, st) = .ok (fs', st') →
      AllRoot fs → AllRoot fs' := by
    intro is
    induction is with
    | nil => intro fs fs' st st' h hp; simp [seed] at h; rw [← h.1]; exact hp
    | cons i is ih2 =>
      intro fs fs' st st' h hp
      unfold seed at h
      split at h
      · split at h
        · cases h
        · refine ih2 _ _ _ _ h ?_
          intro p y hp2
          rcases List.mem_cons.mp hp2 with hp2 | hp2
          · cases hp2; rfl
          · exact hp p y hp2
      · exact ih2 _ _ _ _ h hp
  have hne : ∀ p ∈ dom fs, p ≠ [] := by
    intro p hp
    simp only [dom, List.mem_map] at hp
    obtain ⟨⟨a, b⟩, h3, h4⟩ := hp
    rw [← h4]; exact (hc.fails a b h3).2.1
  have hroot := hseed _ _ _ _ _ hs (by intro p y h; cases h)
  obtain ⟨hnn, hall⟩ := compileLoop_roots hfh t.nodes.length fs st hne hroot hc.sub
  have heq : compile t = compileLoop t t.nodes.length (fs, st) := by simp only [compile, hs]
  rcases compile_spec ht hsz with h | ⟨fs', h, h2, h3⟩
  · rw [heq] at h; exact absurd h hnn
  · exact ⟨fs', h, h2, h3, hall fs' (by rw [← heq]; exact h)⟩

/-! ### Lookup -/

/-- Complete links. -/
structure Ready (t : Trie) (fs : Fails) : Prop where
  trie : TrieOk t
  fails : FailsOk t fs
  total : ∀ p ∈ t.nodes, p ∈ dom fs

/-- One lookup never crashes; the new current node spells a subsequence of what was scanned since the current node was the root;
a match means some terminal node's string is such a subsequence. -/
theorem find_spec {t : Trie} {fs : Fails} (hr : Ready t fs) (cur : Path) (hc : cur = [] ∨ cur ∈ t.nodes) (text : List UInt8) :
    ∃ v c, find t fs cur text = .ok (v, c) ∧ (c = [] ∨ c ∈ t.nodes) ∧
      (v = .noMatch → c.reverse.Sublist (cur.reverse ++ text.map idx)) ∧
      (v = .match_ → c = [] ∧ ∃ p ∈ t.terms, p ∈ t.nodes ∧ p.reverse.Sublist (cur.reverse ++ text.map idx)) := by
  induction text generalizing cur with
  | nil => exact ⟨.noMatch, cur, rfl, hc, by simp, by simp⟩
  | cons b bs ih =>
    have hcur' : ∃ d, (if idx b :: cur ∈ t.nodes then some cur else failOf fs cur) = some d ∧ d <+: cur ∧ (d = [] ∨ d ∈ t.nodes) := by
      split
      · exact ⟨cur, rfl, List.prefix_rfl, hc⟩
      · obtain ⟨y, hy⟩ := failOf_dom (fs := fs) (p := cur) (hc.imp_right (hr.total cur))
        refine ⟨y, hy, ?_⟩
        rcases failOf_some hr.fails hy with ⟨_, h0⟩ | ⟨_, _, _, h2, h3⟩
        · rw [h0]; exact ⟨List.nil_prefix, Or.inl rfl⟩
        · exact ⟨h2, h3⟩
    obtain ⟨d, hd, hdp, hdn⟩ := hcur'
    have hsub : d.reverse.Sublist cur.reverse := (List.reverse_suffix.mpr hdp).sublist
    unfold find
    simp only [hd]
    split
    · next hin =>
      split
      · next hterm =>
        refine ⟨.match_, [], rfl, Or.inl rfl, by simp, fun _ => ⟨rfl, _, hterm, hin, ?_⟩⟩
        rw [List.reverse_cons, List.map_cons]
        refine List.Sublist.append hsub ?_
        exact List.Sublist.cons_cons _ (List.nil_sublist _)
      · obtain ⟨v, c, h1, h2, h3, h4⟩ := ih (idx b :: d) (Or.inr hin)
        have hs2 : ((idx b :: d).reverse ++ bs.map idx).Sublist (cur.reverse ++ (b :: bs).map idx) := by
          rw [List.reverse_cons, List.map_cons, List.append_assoc]
          exact List.Sublist.append hsub (by simp)
        refine ⟨v, c, h1, h2, fun hv => (h3 hv).trans hs2, ?_⟩
        intro hv
        obtain ⟨h5, p, h6, h7, h8⟩ := h4 hv
        exact ⟨h5, p, h6, h7, h8.trans hs2⟩
    · obtain ⟨v, c, h1, h2, h3, h4⟩ := ih d hdn
      have hs2 : (d.reverse ++ bs.map idx).Sublist (cur.reverse ++ (b :: bs).map idx) :=
        List.Sublist.append hsub (by simp)
      refine ⟨v, c, h1, h2, fun hv => (h3 hv).trans hs2, ?_⟩
      intro hv
      obtain ⟨h5, p, h6, h7, h8⟩ := h4 hv
      exact ⟨h5, p, h6, h7, h8.trans hs2⟩

/-- With all links to the root the matched string is a contiguous part of what was scanned. -/
theorem find_infix {t : Trie} {fs : Fails} (hr : Ready t fs) (har : AllRoot fs) (cur : Path) (hc : cur = [] ∨ cur ∈ t.nodes)
    (pre : List Nat) (hpre : cur.reverse <:+ pre) (text : List UInt8) :
    ∃ v c, find t fs cur text = .ok (v, c) ∧ (c = [] ∨ c ∈ t.nodes) ∧
      (v = .noMatch → c.reverse <:+ pre ++ text.map idx) ∧
      (v = .match_ → c = [] ∧ ∃ p ∈ t.terms, p ∈ t.nodes ∧ p.reverse <:+: pre ++ text.map idx) := by
  induction text generalizing cur pre with
  | nil => exact ⟨.noMatch, cur, rfl, hc, by simpa using hpre, by simp⟩
  | cons b bs ih =>
    have hcur' : ∃ d, (if idx b :: cur ∈ t.nodes then some cur else failOf fs cur) = some d ∧
        (d = [] ∨ (d = cur ∧ idx b :: cur ∈ t.nodes)) := by
      split
      · next h => exact ⟨cur, rfl, Or.inr ⟨rfl, h⟩⟩
      · refine ⟨[], ?_, Or.inl rfl⟩
        rcases hc with rfl | hc
        · simp [failOf]
        · exact failOf_allRoot har (hr.total cur hc)
    obtain ⟨d, hd, hdc⟩ := hcur'
    have hdn : d = [] ∨ d ∈ t.nodes := by
      rcases hdc with h | ⟨h, _⟩
      · exact Or.inl h
      · rw [h]; exact hc
    have hsuf : d.reverse <:+ pre := by
      rcases hdc with h | ⟨h, _⟩
      · rw [h]; exact List.nil_suffix
      · rw [h]; exact hpre
    have hsuf2 : (idx b :: d).reverse <:+ pre ++ [idx b] := by
      rw [List.reverse_cons]
      obtain ⟨a, ha⟩ := hsuf
      exact ⟨a, by rw [← List.append_assoc, ha]⟩
    have he : pre ++ (b :: bs).map idx = (pre ++ [idx b]) ++ bs.map idx := by simp
    unfold find
    simp only [hd]
    rw [he]
    split
    · next hin =>
      split
      · next hterm =>
        refine ⟨.match_, [], rfl, Or.inl rfl, by simp, fun _ => ⟨rfl, _, hterm, hin, ?_⟩⟩
        exact List.IsInfix.trans hsuf2.isInfix (List.prefix_append _ _).isInfix
      · exact ih (idx b :: d) (Or.inr hin) (pre ++ [idx b]) hsuf2
    · next hin =>
      have hd0 : d = [] := by
        rcases hdc with h | ⟨h, h2⟩
        · exact h
        · rw [h] at hin; exact absurd h2 hin
      exact ih d hdn (pre ++ [idx b]) (by rw [hd0]; exact List.nil_suffix)

/-- From the node `n`, a text leading along the trie to a terminal node is matched. -/
theorem find_key {t : Trie} (fs : Fails) (n : Path) (text : List UInt8) (hne : text ≠ [])
    (hn : ∀ u, u ≠ [] → u <+: text.map idx → u.reverse ++ n ∈ t.nodes) (ht : (text.map idx).reverse ++ n ∈ t.terms) :
    find t fs n text = .ok (.match_, []) := by
  induction text generalizing n with
  | nil => exact absurd rfl hne
  | cons b bs ih =>
    have h1 : idx b :: n ∈ t.nodes := by simpa using hn [idx b] (by simp) (by simp)
    unfold find
    simp only [h1, if_true]
    split
    · rfl
    · next hterm =>
      by_cases hbs : bs = []
      · subst hbs; simp at ht; exact absurd ht hterm
      · apply ih _ hbs
        · intro u hu hp
          have := hn (idx b :: u) (by simp) (by simpa using hp)
          simpa using this
        · simpa using ht

end Verif.Aho
