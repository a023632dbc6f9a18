import Verif.Spec.Bst
/-
Properties C43 and C61: the search tree.
-/
namespace Verif.Bst

/-- The number at a way, if the way exists. -/
def at? : List Dir → T → Option Int
  | _, .nil => .none
  | [], .node _ n _ _ => some n
  | .l :: p, .node l _ _ _ => at? p l
  | .r :: p, .node _ _ _ r => at? p r

theorem numAt_of_at? {p : List Dir} {t : T} {k : Int} (h : at? p t = some k) : numAt p t = k := by
  induction p generalizing t with
  | nil => cases t with
    | nil => simp [at?] at h
    | node l n tg r => simpa [at?, numAt] using h
  | cons d p ih => cases t with
    | nil => simp [at?] at h
    | node l n tg r => cases d <;> simp only [at?] at h <;> simpa [numAt] using ih h

theorem at?_mem {p : List Dir} {t : T} {k : Int} (h : at? p t = some k) : k ∈ keys t := by
  induction p generalizing t with
  | nil => cases t with
    | nil => simp [at?] at h
    | node l n tg r => simp [at?] at h; simp [keys, h]
  | cons d p ih => cases t with
    | nil => simp [at?] at h
    | node l n tg r => cases d <;> simp only [at?] at h <;> simp [keys, ih h]

theorem push_mem {p : List Dir} {t : T} {st st' : List (List Dir × T)} (h : push p t st = some st') :
    (∀ x, x ∈ st' → x ∈ st ∨ x = (p, t)) ∧ (∀ x, x ∈ st → x ∈ st') ∧ (t ≠ .nil → (p, t) ∈ st') := by
  unfold push at h
  split at h
  · rename_i hn
    cases h
    refine ⟨fun x hx => .inl hx, fun x hx => hx, ?_⟩
    intro ht; cases t <;> simp_all [T.isNil]
  · split at h
    · cases h
      refine ⟨fun x hx => ?_, fun x hx => List.mem_cons_of_mem _ hx, fun _ => List.mem_cons_self ..⟩
      rcases List.mem_cons.mp hx with h | h
      · exact .inr h
      · exact .inl h
    · cases h

/-- What the search loop returns. -/
theorem findLoop_spec (key : Int) (st : List (List Dir × T)) :
    (∀ p, findLoop key st = .node p → ∃ q t p', (q, t) ∈ st ∧ p = q ++ p' ∧ at? p' t = some key) ∧
    (findLoop key st = .null → ∀ q t, (q, t) ∈ st → key ∉ keys t) := by
  fun_induction findLoop key st with
  | case1 => simp
  | case2 p st ih =>
    refine ⟨fun p h => ?_, fun h q t hm => ?_⟩
    · obtain ⟨q, t, p', h1, h2⟩ := ih.1 p h
      exact ⟨q, t, p', List.mem_cons_of_mem _ h1, h2⟩
    · rcases List.mem_cons.mp hm with h' | h'
      · cases h'; simp [keys]
      · exact ih.2 h q t h'
  | case3 p l tg r st =>
    refine ⟨fun p' h => ?_, fun h => by cases h⟩
    cases h
    exact ⟨p, _, [], List.mem_cons_self .., by simp, by simp [at?]⟩
  | case4 => simp
  | case5 => simp
  | case6 p l n tg r st hn s1 h1 s2 h2 ih =>
    obtain ⟨a1, a2, a3⟩ := push_mem h1
    obtain ⟨b1, b2, b3⟩ := push_mem h2
    refine ⟨fun p' h => ?_, fun h q t hm => ?_⟩
    · obtain ⟨q, t, p'', hm, hp, ha⟩ := ih.1 p' h
      rcases b1 _ hm with h' | h'
      · rcases a1 _ h' with h'' | h''
        · exact ⟨q, t, p'', List.mem_cons_of_mem _ h'', hp, ha⟩
        · cases h''
          exact ⟨p, _, .l :: p'', List.mem_cons_self .., by rw [hp]; simp, by simpa [at?] using ha⟩
      · cases h'
        exact ⟨p, _, .r :: p'', List.mem_cons_self .., by rw [hp]; simp, by simpa [at?] using ha⟩
    · rcases List.mem_cons.mp hm with h' | h'
      · cases h'
        have hl : key ∉ keys l := by
          by_cases hl : l = .nil
          · simp [hl, keys]
          · exact ih.2 h _ _ (b2 _ (a3 hl))
        have hr : key ∉ keys r := by
          by_cases hr : r = .nil
          · simp [hr, keys]
          · exact ih.2 h _ _ (b3 hr)
        simp only [keys, List.mem_append, List.mem_cons, not_or]
        exact ⟨hl, fun e => hn e.symm, hr⟩
      · exact ih.2 h q t (b2 _ (a2 _ h'))

theorem find_node {t : T} {k : Int} {p : List Dir} (h : find t k = .node p) : at? p t = some k := by
  obtain ⟨q, t', p', h1, h2, h3⟩ := (findLoop_spec k [([], t)]).1 p h
  simp only [List.mem_singleton, Prod.mk.injEq] at h1
  obtain ⟨rfl, rfl⟩ := h1
  simpa [h2] using h3

theorem find_null {t : T} {k : Int} (h : find t k = .null) : k ∉ keys t :=
  (findLoop_spec k [([], t)]).2 h [] t (List.mem_singleton_self _)

theorem count_ins (x k : Int) (side : Tag) (t : T) :
    (keys (ins side k t)).count x = (keys t).count x + if x = k then 1 else 0 := by
  induction t generalizing side with
  | nil => by_cases h : x = k <;> simp [ins, keys, h, eq_comm]
  | node l n tg r ihl ihr =>
    unfold ins
    split
    · simp only [keys, List.count_append, List.count_cons, ihr]; omega
    · simp only [keys, List.count_append, List.count_cons, ihl]; omega

theorem isNil_iff {t : T} : t.isNil = true ↔ t = .nil := by cases t <;> simp [T.isNil]

theorem count_one (x n : Int) : [n].count x = if x = n then 1 else 0 := by
  by_cases h : x = n
  · simp [h]
  · simp [h, Ne.symm h]

theorem count_node (x n : Int) (l r : T) (tg : Tag) :
    (keys (.node l n tg r)).count x = (keys l).count x + (keys r).count x + if x = n then 1 else 0 := by
  rw [keys, List.count_append, show n :: keys r = [n] ++ keys r from rfl, List.count_append, count_one]; omega

theorem count_popMin (x : Int) (t : T) : ∀ side t' m tg, popMin side t = .ok (t', m, tg) →
    (keys t).count x = (keys t').count x + if x = m then 1 else 0 := by
  induction t with
  | nil => intro side t' m tg h; cases h
  | node l n tg0 r ihl _ =>
    intro side t' m tg h
    cases l with
    | nil =>
      simp only [popMin] at h
      rw [count_node]
      split at h
      · rename_i hr
        split at h
        · cases h
        · cases h; rw [isNil_iff.mp hr]; simp [keys]
      · split at h
        · cases h; simp [keys]
        · cases h
    | node a b c d =>
      simp only [popMin] at h
      split at h
      · cases h
      · rename_i l' m' hp
        cases h
        have := ihl _ _ _ _ hp
        rw [count_node, count_node x n l', this]; omega

theorem relink_ok {side tg : Tag} {t t' : T} (h : relink side tg t = .ok t') : t' = t ∧ side ≠ .none := by
  unfold relink at h
  split at h
  · cases h
  · split at h
    · cases h; exact ⟨rfl, by assumption⟩
    · cases h

theorem delNode_ok {side tg : Tag} {l r t' : T} {n : Int} (x : Int) (h : delNode side (.node l n tg r) = .ok t') :
    side ≠ .none ∧ (keys (.node l n tg r)).count x = (keys t').count x + if x = n then 1 else 0 := by
  simp only [delNode] at h
  by_cases hl : l.isNil = true <;> by_cases hr : r.isNil = true <;> simp only [hl, hr] at h
  · simp at h
  · simp only [reduceCtorEq, false_and, Bool.not_eq_true] at h hr
    simp only [if_false, and_self, if_true] at h
    obtain ⟨rfl, h2⟩ := relink_ok h
    refine ⟨h2, ?_⟩
    rw [count_node, isNil_iff.mp hl]; simp [keys]
  · simp only [Bool.not_eq_true] at hl
    simp only [and_self, if_true] at h
    obtain ⟨rfl, h2⟩ := relink_ok h
    refine ⟨h2, ?_⟩
    rw [count_node, isNil_iff.mp hr]; simp [keys]
  · simp only [Bool.not_eq_true] at hl hr
    simp only [reduceCtorEq, and_false, false_and, if_false] at h
    split at h
    · cases h
    · cases h
    · rename_i r' m mtg hp
      obtain ⟨rfl, h2⟩ := relink_ok h
      refine ⟨h2, ?_⟩
      rw [count_node, count_node, count_popMin x _ _ _ _ _ hp]; omega

theorem delAt_ok {side : Tag} {p : List Dir} {t t' : T} {k : Int} (x : Int) (ha : at? p t = some k) (h : delAt side p t = .ok t') :
    (keys t).count x = (keys t').count x + if x = k then 1 else 0 := by
  induction p generalizing side t t' with
  | nil => cases t with
    | nil => simp [at?] at ha
    | node l n tg r =>
      simp only [at?, Option.some.injEq] at ha
      subst ha
      exact (delNode_ok x h).2
  | cons d p ih => cases t with
    | nil => simp [at?] at ha
    | node l n tg r =>
      cases d
      all_goals
        simp only [at?] at ha
        simp only [delAt] at h
        unfold Del.map at h
        split at h
        · rename_i t1 h1
          cases h
          rw [count_node, count_node, ih ha h1]; omega
        · cases h
        · cases h

/-- The head node stays what it is. -/
def Headed : T → Prop
  | .nil => False
  | .node _ n tg _ => n = -1 ∧ tg = .none

theorem headed_ins {t : T} {k : Int} (h : Headed t) : Headed (ins .none k t) := by
  cases t with
  | nil => exact h.elim
  | node l n tg r => unfold ins; split <;> exact h

theorem headed_delAt {p : List Dir} {t t' : T} (h : Headed t) (hd : delAt .none p t = .ok t') : Headed t' := by
  cases t with
  | nil => exact h.elim
  | node l n tg r =>
    cases p with
    | nil => exact absurd rfl (delNode_ok 0 hd).1
    | cons d p =>
      cases d
      all_goals
        simp only [delAt, Del.map] at hd
        split at hd
        · cases hd; exact h
        · cases hd
        · cases hd

theorem headed_step {t t' : T} {o : Op} {r : Reply} (h : Headed t) (hs : step t o = some (t', r)) : Headed t' := by
  cases o with
  | add k mem =>
    simp only [step, Option.some.injEq, Prod.mk.injEq] at hs
    rw [← hs.1, add]
    split
    · exact headed_ins h
    · exact h
  | find k =>
    simp only [step] at hs
    split at hs <;> simp_all
  | del k =>
    simp only [step] at hs
    split at hs
    · simp_all
    · cases hs
    · split at hs
      · rename_i hd
        simp only [Option.some.injEq, Prod.mk.injEq] at hs
        rw [← hs.1]; exact headed_delAt h hd
      · cases hs

/-- One call agrees with the bag. -/
theorem step_spec {t t' : T} {o : Op} {r : Reply} {b : Spec.Bag} (hb : ∀ x, x ≠ -1 → (keys t).count x = b x)
    (hk : Spec.key o ≠ -1) (hs : step t o = some (t', r)) :
    r = (Spec.step b o).2 ∧ ∀ x, x ≠ -1 → (keys t').count x = (Spec.step b o).1 x := by
  cases o with
  | add k mem =>
    simp only [step, Option.some.injEq, Prod.mk.injEq] at hs
    obtain ⟨rfl, rfl⟩ := hs
    unfold add Spec.step
    cases mem with
    | false => exact ⟨rfl, hb⟩
    | true =>
      refine ⟨rfl, fun x hx => ?_⟩
      simp only [if_true, count_ins, hb x hx]
      split <;> simp
  | find k =>
    simp only [Spec.key] at hk
    simp only [step] at hs
    simp only [Spec.step]
    split at hs
    · rename_i p hf
      simp only [Option.some.injEq, Prod.mk.injEq] at hs
      obtain ⟨rfl, rfl⟩ := hs
      have ha := find_node hf
      have : 0 < (keys t).count k := List.count_pos_iff.mpr (at?_mem ha)
      rw [hb k hk] at this
      rw [if_neg (by omega), numAt_of_at? ha]
      exact ⟨rfl, hb⟩
    · rename_i hf
      simp only [Option.some.injEq, Prod.mk.injEq] at hs
      obtain ⟨rfl, rfl⟩ := hs
      have : (keys t).count k = 0 := List.count_eq_zero.mpr (find_null hf)
      rw [hb k hk] at this
      rw [if_pos this]
      exact ⟨rfl, hb⟩
    · cases hs
  | del k =>
    simp only [Spec.key] at hk
    simp only [step] at hs
    simp only [Spec.step]
    split at hs
    · rename_i hf
      simp only [Option.some.injEq, Prod.mk.injEq] at hs
      obtain ⟨rfl, rfl⟩ := hs
      have : (keys t).count k = 0 := List.count_eq_zero.mpr (find_null hf)
      rw [hb k hk] at this
      rw [if_pos this]
      exact ⟨rfl, hb⟩
    · cases hs
    · rename_i p hf
      split at hs
      · rename_i t1 hd
        simp only [Option.some.injEq, Prod.mk.injEq] at hs
        obtain ⟨rfl, rfl⟩ := hs
        have ha := find_node hf
        have : 0 < (keys t).count k := List.count_pos_iff.mpr (at?_mem ha)
        rw [hb k hk] at this
        rw [if_neg (by omega)]
        refine ⟨rfl, fun x hx => ?_⟩
        have := delAt_ok x ha hd
        rw [hb x hx] at this
        dsimp only
        split
        · rename_i e; rw [if_pos e] at this; omega
        · rename_i e; rw [if_neg e] at this; omega
      · cases hs

/-- C43, partial correctness. For every sequence of insertions, deletions and lookups of numbers other than -1: if no call crashes or
corrupts the tree, then all replies are those of a bag of numbers, and so is the content. -/
theorem c43_refines_partial (ops : List Op) (hk : ∀ o ∈ ops, Spec.key o ≠ -1) (t : T) (rs : List Reply) (h : run create ops = some (t, rs)) :
    rs = (Spec.run (fun _ => 0) ops).2 ∧ ∀ x, x ≠ -1 → (keys t).count x = (Spec.run (fun _ => 0) ops).1 x := by
  have gen : ∀ (ops : List Op) (t0 : T) (b : Spec.Bag) (rs : List Reply), (∀ x, x ≠ -1 → (keys t0).count x = b x) → (∀ o ∈ ops, Spec.key o ≠ -1) →
      run t0 ops = some (t, rs) → rs = (Spec.run b ops).2 ∧ ∀ x, x ≠ -1 → (keys t).count x = (Spec.run b ops).1 x := by
    intro ops
    induction ops with
    | nil =>
      intro t0 b rs hb _ h
      simp only [run, Option.some.injEq, Prod.mk.injEq] at h
      obtain ⟨rfl, rfl⟩ := h
      exact ⟨rfl, hb⟩
    | cons o os ih =>
      intro t0 b rs hb hk h
      simp only [run] at h
      split at h
      · cases h
      · rename_i t1 r hs
        split at h
        · cases h
        · rename_i t2 rs' hr
          simp only [Option.some.injEq, Prod.mk.injEq] at h
          obtain ⟨rfl, rfl⟩ := h
          obtain ⟨h1, h2⟩ := step_spec hb (hk o (List.mem_cons_self ..)) hs
          obtain ⟨h3, h4⟩ := ih _ _ _ h2 (fun o' ho => hk o' (List.mem_cons_of_mem _ ho)) hr
          exact ⟨by rw [Spec.run, h1, h3], h4⟩
  exact gen ops create _ rs (by intro x hx; simp [create, keys, Ne.symm hx]) hk h

/-- Case: insertions, a deletion that works (see the end of this file) and two lookups are answered like the multiset answers. -/
example (t : T) (rs : List Reply) (h : run create [.add 10 true, .add 5 true, .add 20 true, .add 15 true, .del 10, .find 10, .find 15] = some (t, rs)) :
    rs = [.ret 0, .ret 0, .ret 0, .ret 0, .ret 0, .null, .node 15] :=
  (c43_refines_partial _ (by decide) t rs h).1.trans (by decide +kernel)

/-! ### When calls go wrong -/

/-- Total size of the trees on the stack. -/
def total : List (List Dir × T) → Nat
  | [] => 0
  | (_, t) :: st => t.size + total st

/-- Only non-NULL pointers. -/
def NonNil (st : List (List Dir × T)) : Prop := ∀ x ∈ st, x.2 ≠ .nil

theorem NonNil.len {st : List (List Dir × T)} (h : NonNil st) : st.length ≤ total st := by
  induction st with
  | nil => simp
  | cons x st ih =>
    have h1 := ih (fun y hy => h y (List.mem_cons_of_mem _ hy))
    have h2 := h x (List.mem_cons_self ..)
    obtain ⟨p, t⟩ := x
    cases t with
    | nil => exact absurd rfl h2
    | node l n tg r => simp only [total, T.size, List.length_cons]; omega

theorem push_small {p : List Dir} {t : T} {st : List (List Dir × T)} (hn : NonNil st) (h : t.size + total st ≤ 8192) :
    ∃ st', push p t st = some st' ∧ NonNil st' ∧ total st' = t.size + total st := by
  unfold push
  split
  · rename_i ht
    exact ⟨st, rfl, hn, by rw [isNil_iff.mp ht]; simp [T.size]⟩
  · rename_i ht
    have := hn.len
    have h1 : 0 < t.size := by cases t with
      | nil => exact absurd rfl ht
      | node => simp only [T.size]; omega
    rw [if_pos (by omega)]
    refine ⟨_, rfl, ?_, rfl⟩
    intro x hx
    rcases List.mem_cons.mp hx with h | h
    · rw [h]; intro e; exact ht (isNil_iff.mpr e)
    · exact hn x h

theorem findLoop_small (key : Int) (st : List (List Dir × T)) (hn : NonNil st) (h : total st ≤ 8193) : findLoop key st ≠ .overflow := by
  fun_induction findLoop key st with
  | case1 => simp
  | case2 p st ih => exact absurd rfl (hn _ (List.mem_cons_self ..))
  | case3 => simp
  | case4 p l n tg r st hk h1 =>
    have hn' : NonNil st := fun y hy => hn y (List.mem_cons_of_mem _ hy)
    simp only [total, T.size] at h
    obtain ⟨_, e, _⟩ := push_small (p := p ++ [.l]) (t := l) hn' (by omega)
    rw [h1] at e; cases e
  | case5 p l n tg r st hk s1 h1 h2 =>
    have hn' : NonNil st := fun y hy => hn y (List.mem_cons_of_mem _ hy)
    simp only [total, T.size] at h
    obtain ⟨_, e, f, g⟩ := push_small (p := p ++ [.l]) (t := l) hn' (by omega)
    rw [h1] at e; cases e
    obtain ⟨_, e, _⟩ := push_small (p := p ++ [.r]) (t := r) f (by omega)
    rw [h2] at e; cases e
  | case6 p l n tg r st hk s1 h1 s2 h2 ih =>
    have hn' : NonNil st := fun y hy => hn y (List.mem_cons_of_mem _ hy)
    simp only [total, T.size] at h
    obtain ⟨_, e, f, g⟩ := push_small (p := p ++ [.l]) (t := l) hn' (by omega)
    rw [h1] at e; cases e
    obtain ⟨_, e, f, g⟩ := push_small (p := p ++ [.r]) (t := r) f (by omega)
    rw [h2] at e; cases e
    exact ih f (by omega)

theorem size_ins (side : Tag) (k : Int) (t : T) : (ins side k t).size = t.size + 1 := by
  induction t generalizing side with
  | nil => rfl
  | node l n tg r ihl ihr => unfold ins; split <;> simp only [T.size, ihl, ihr] <;> omega

/-- The tree after inserting numbers one after the other. -/
def addAll (t : T) (ks : List Int) : T := ks.foldl (fun t k => ins .none k t) t

theorem run_adds (t : T) (ks : List Int) (os : List Op) :
    run t (ks.map (fun k => Op.add k true) ++ os) = (run (addAll t ks) os).map fun x => (x.1, ks.map (fun _ => Reply.ret 0) ++ x.2) := by
  induction ks generalizing t with
  | nil => simp [addAll]
  | cons k ks ih =>
    have hs : step t (.add k true) = some (ins .none k t, .ret 0) := rfl
    simp only [List.map_cons, List.cons_append, run, hs, ih, addAll, List.foldl_cons]
    cases run (List.foldl (fun t k => ins Tag.none k t) (ins Tag.none k t) ks) os <;> rfl

theorem size_addAll (t : T) (ks : List Int) : (addAll t ks).size = t.size + ks.length := by
  induction ks generalizing t with
  | nil => rfl
  | cons k ks ih => rw [addAll, List.foldl_cons, ← addAll, ih, size_ins, List.length_cons]; omega

theorem count_addAll (x : Int) (t : T) (ks : List Int) : (keys (addAll t ks)).count x = (keys t).count x + ks.count x := by
  induction ks generalizing t with
  | nil => simp [addAll]
  | cons k ks ih =>
    rw [addAll, List.foldl_cons, ← addAll, ih, count_ins, show k :: ks = [k] ++ ks from rfl, List.count_append, count_one]; omega

/-- C43, insertion and lookup. After inserting up to 8192 numbers in any order, with repetitions, looking up a number other than -1
returns a node with it exactly when it was inserted. -/
theorem c43_insert_find_partial (ks : List Int) (hl : ks.length ≤ 8192) (k : Int) (hk : k ≠ -1) :
    ∃ t, run create (ks.map (fun k => Op.add k true) ++ [.find k]) =
      some (t, ks.map (fun _ => Reply.ret 0) ++ [if k ∈ ks then .node k else .null]) := by
  rw [run_adds]
  have hno : find (addAll create ks) k ≠ .overflow := by
    apply findLoop_small
    · intro x hx
      rw [List.mem_singleton.mp hx]
      intro e
      have := size_addAll create ks
      rw [show addAll create ks = .nil from e] at this
      simp [T.size, create] at this
      omega
    · simp only [total, size_addAll]; simp [create, T.size]; omega
  have hc := count_addAll k create ks
  have hc0 : (keys create).count k = 0 := by simp [create, keys, Ne.symm hk]
  simp only [run, step]
  cases hf : find (addAll create ks) k with
  | overflow => exact absurd hf hno
  | node p =>
    have ha := find_node hf
    have hm : k ∈ ks := by
      have := List.count_pos_iff.mpr (at?_mem ha)
      exact List.count_pos_iff.mp (by omega)
    refine ⟨addAll create ks, ?_⟩
    simp [hm, numAt_of_at? ha]
  | null =>
    have hm : k ∉ ks := by
      have := List.count_eq_zero.mpr (find_null hf)
      exact List.count_eq_zero.mp (by omega)
    refine ⟨addAll create ks, ?_⟩
    simp [hm]

/-- Case: with a repetition, and a key that is there. -/
example : ∃ t, run create [.add 3 true, .add 7 true, .add 3 true, .find 7] = some (t, [.ret 0, .ret 0, .ret 0, .node 7]) :=
  c43_insert_find_partial [3, 7, 3] (by decide) 7 (by decide)

/-- All `type` fields agree with the real positions. -/
def Tagged (side : Tag) : T → Prop
  | .nil => True
  | .node l _ tg r => tg = side ∧ Tagged .left l ∧ Tagged .right r

theorem tagged_ins {side : Tag} {t : T} (k : Int) (h : Tagged side t) : Tagged side (ins side k t) := by
  induction t generalizing side with
  | nil => exact ⟨rfl, trivial, trivial⟩
  | node l n tg r ihl ihr =>
    obtain ⟨h1, h2, h3⟩ := h
    unfold ins
    split
    · exact ⟨h1, h2, ihr h3⟩
    · exact ⟨h1, ihl h2, h3⟩

/-- The subtree at a way. -/
def sub : List Dir → T → T
  | [], t => t
  | _ :: _, .nil => .nil
  | .l :: p, .node l _ _ _ => sub p l
  | .r :: p, .node _ _ _ r => sub p r

/-- A node without children, or one with two children whose right child has none. -/
def Bad : T → Prop
  | .nil => True
  | .node .nil _ _ .nil => True
  | .node (.node ..) _ _ (.node .nil _ _ .nil) => True
  | _ => False

theorem popMin_tagged {side : Tag} (l r : T) (n : Int) (tg : Tag) (h : Tagged side (.node l n tg r)) :
    (side = .right ∧ l = .nil ∧ r = .nil → popMin side (.node l n tg r) = .error true) ∧
    (¬(side = .right ∧ l = .nil ∧ r = .nil) → ∃ x, popMin side (.node l n tg r) = .ok x) := by
  induction l generalizing side n tg r with
  | nil =>
    obtain ⟨rfl, _, _⟩ := h
    refine ⟨fun ⟨h1, _, h2⟩ => by simp [popMin, h1, h2, T.isNil], fun hb => ?_⟩
    simp only [popMin]
    cases r with
    | nil => exact ⟨(.nil, n, tg), by simp at hb; simp [T.isNil, hb]⟩
    | node a b c d => exact ⟨(.node a b c d, n, tg), by simp [T.isNil]⟩
  | node a b c d iha _ =>
    refine ⟨fun ⟨_, h1, _⟩ => by simp at h1, fun _ => ?_⟩
    obtain ⟨x, hx⟩ := (iha d b c h.2.1).2 (by simp)
    obtain ⟨l', m⟩ := x
    exact ⟨(.node l' n tg r, m), by simp [popMin, hx]⟩

theorem relink_self {tg : Tag} (t : T) (h : tg ≠ .none) : relink tg tg t = .ok t := by
  unfold relink
  rw [if_neg h, if_pos Iff.rfl]

theorem delNode_tagged {side : Tag} {t : T} (h : Tagged side t) (hs : side ≠ .none) :
    (Bad t → delNode side t = .crash) ∧ (¬Bad t → ∃ t', delNode side t = .ok t') := by
  cases t with
  | nil => simp [Bad, delNode]
  | node l n tg r =>
    obtain ⟨rfl, h1, h2⟩ := h
    cases l with
    | nil =>
      cases r with
      | nil => simp [Bad, delNode, T.isNil]
      | node a b c d => simp [Bad, delNode, T.isNil, relink_self _ hs]
    | node a b c d =>
      cases r with
      | nil => simp [Bad, delNode, T.isNil, relink_self _ hs]
      | node a' b' c' d' =>
        obtain ⟨p1, p2⟩ := popMin_tagged a' d' b' c' h2
        refine ⟨fun hb => ?_, fun hb => ?_⟩
        · have : a' = .nil ∧ d' = .nil := by cases a' <;> cases d' <;> simp_all [Bad]
          simp [delNode, T.isNil, p1 ⟨rfl, this⟩]
        · have : ¬(a' = .nil ∧ d' = .nil) := by rintro ⟨rfl, rfl⟩; exact hb trivial
          obtain ⟨⟨x, y, z⟩, hx⟩ := p2 (by simp [this])
          simp [delNode, T.isNil, hx, relink_self _ hs]

theorem delAt_tagged {side : Tag} {p : List Dir} {t : T} (h : Tagged side t) (hs : side ≠ .none ∨ p ≠ []) :
    (Bad (sub p t) → delAt side p t = .crash) ∧ (¬Bad (sub p t) → ∃ t', delAt side p t = .ok t') := by
  induction p generalizing side t with
  | nil => exact delNode_tagged h (by simpa using hs)
  | cons d p ih =>
    cases t with
    | nil => cases d <;> simp [sub, delAt, Bad]
    | node l n tg r =>
      obtain ⟨_, h1, h2⟩ := h
      cases d
      · obtain ⟨a, b⟩ := ih h1 (.inl (by simp))
        refine ⟨fun hb => by simp [delAt, a hb, Del.map], fun hb => ?_⟩
        obtain ⟨t', ht⟩ := b hb
        exact ⟨_, by simp [delAt, ht, Del.map]; rfl⟩
      · obtain ⟨a, b⟩ := ih h2 (.inl (by simp))
        refine ⟨fun hb => by simp [delAt, a hb, Del.map], fun hb => ?_⟩
        obtain ⟨t', ht⟩ := b hb
        exact ⟨_, by simp [delAt, ht, Del.map]; rfl⟩

theorem tagged_addAll (ks : List Int) {t : T} (h : Tagged .none t) : Tagged .none (addAll t ks) := by
  induction ks generalizing t with
  | nil => exact h
  | cons k ks ih => exact ih (tagged_ins k h)

theorem headed_addAll (ks : List Int) {t : T} (h : Headed t) : Headed (addAll t ks) := by
  induction ks generalizing t with
  | nil => exact h
  | cons k ks ih => exact ih (headed_ins h)

/-- C43, exactly when a first deletion works. After inserting any numbers, deleting one that is found succeeds exactly when its node has a
child, and if it has two, its right child has one; otherwise a NULL pointer is dereferenced. -/
theorem c43_delete_iff (ks : List Int) (k : Int) (hk : k ≠ -1) (p : List Dir) (hf : find (addAll create ks) k = .node p) :
    (Bad (sub p (addAll create ks)) → delAt .none p (addAll create ks) = .crash) ∧
    (¬Bad (sub p (addAll create ks)) → ∃ t, step (addAll create ks) (.del k) = some (t, .ret 0)) := by
  have ha := find_node hf
  have hh : Headed (addAll create ks) := headed_addAll ks ⟨rfl, rfl⟩
  have hp : p ≠ [] := by
    rintro rfl
    generalize addAll create ks = t at ha hh
    cases t with
    | nil => exact hh
    | node l n tg r =>
      simp only [at?, Option.some.injEq] at ha
      exact hk (by rw [← ha, hh.1])
  obtain ⟨a, b⟩ := delAt_tagged (p := p) (tagged_addAll ks (t := create) ⟨rfl, trivial, trivial⟩) (.inr hp)
  refine ⟨a, fun hb => ?_⟩
  obtain ⟨t', ht⟩ := b hb
  exact ⟨t', by simp [step, hf, ht]⟩

/-- Case: 10, at the root with both children, can be deleted. -/
example : ∃ t, step (addAll create [10, 5, 20, 15]) (.del 10) = some (t, .ret 0) :=
  (c43_delete_iff [10, 5, 20, 15] 10 (by decide) [.r] (by decide +kernel)).2 (fun h => h)

theorem delAt_leaf {side s2 : Tag} {p : List Dir} {t : T} {k : Int} (hk : k ∉ keys t) (ha : at? p (ins side k t) = some k) :
    delAt s2 p (ins side k t) = .crash := by
  induction t generalizing side s2 p with
  | nil =>
    cases p with
    | nil => simp [ins, delAt, delNode, T.isNil]
    | cons d p => cases d <;> simp [ins, at?] at ha
  | node l n tg r ihl ihr =>
    simp only [keys, List.mem_append, List.mem_cons, not_or] at hk
    obtain ⟨k1, k2, k3⟩ := hk
    unfold ins at ha ⊢
    by_cases hg : k > n
    · rw [if_pos hg] at ha ⊢
      cases p with
      | nil => simp only [at?, Option.some.injEq] at ha; exact absurd ha.symm k2
      | cons d p =>
        cases d
        · simp only [at?] at ha; exact absurd (at?_mem ha) k1
        · simp only [at?] at ha; simp [delAt, ihr k3 ha, Del.map]
    · rw [if_neg hg] at ha ⊢
      cases p with
      | nil => simp only [at?, Option.some.injEq] at ha; exact absurd ha.symm k2
      | cons d p =>
        cases d
        · simp only [at?] at ha; simp [delAt, ihl k1 ha, Del.map]
        · simp only [at?] at ha; exact absurd (at?_mem ha) k3

/-- C43, counterexample: whatever the tree, inserting a new number and deleting it again crashes (the new node has no children). -/
theorem c43_last_counterexample (t : T) (k : Int) (hk : k ∉ keys t) : run t [.add k true, .del k] = .none := by
  have hs : step t (.add k true) = some (ins .none k t, .ret 0) := rfl
  have h2 : step (ins .none k t) (.del k) = .none := by
    simp only [step]
    cases hf : find (ins .none k t) k with
    | overflow => rfl
    | null =>
      have h := find_null hf
      have := count_ins k k .none t
      rw [List.count_eq_zero.mpr h] at this
      simp at this
    | node p => simp [delAt_leaf (s2 := .none) hk (find_node hf)]
  simp only [run, hs, h2]

/-- Case: 7 is put below 5 and deleted. -/
example : run (addAll create [5]) [.add 7 true, .del 7] = .none := c43_last_counterexample _ 7 (by decide +kernel)

/-- C43, counterexample: the number -1 is found in every tree, and deleting it crashes. -/
theorem c43_minus_one_counterexample (l r : T) :
    step (.node l (-1) .none r) (.find (-1)) = some (.node l (-1) .none r, .node (-1)) ∧ step (.node l (-1) .none r) (.del (-1)) = .none := by
  have hf : find (.node l (-1) .none r) (-1) = .node [] := by unfold find; rw [findLoop]; simp
  refine ⟨by simp [step, hf, numAt], ?_⟩
  simp only [step, hf]
  cases hd : delAt .none [] (.node l (-1) .none r) with
  | ok t' => exact absurd rfl (delNode_ok 0 hd).1
  | crash => rfl
  | corrupt => rfl

/-- Case: the tree that holds 5. -/
example : addAll create [5] = .node .nil (-1) .none (.node .nil 5 .right .nil) ∧ step (addAll create [5]) (.del (-1)) = .none :=
  ⟨by decide +kernel, (c43_minus_one_counterexample .nil (.node .nil 5 .right .nil)).2⟩

/-- C43, counterexample: after one successful deletion the remaining `type` field is out of date, and the next deletion destroys the
structure: for any three descending non-negative numbers. -/
theorem c43_stale_counterexample (a b c : Int) (h1 : a > b) (h2 : b > c) (h3 : c > -1) :
    ∃ t p, run create [.add a true, .add b true, .add c true, .del a] = some (t, [.ret 0, .ret 0, .ret 0, .ret 0]) ∧
      find t b = .node p ∧ delAt .none p t = .corrupt := by
  have e1 : a > -1 := by omega
  have e2 : b > -1 := by omega
  have e3 : ¬ b > a := by omega
  have e4 : ¬ c > a := by omega
  have e5 : ¬ c > b := by omega
  have n1 : (-1 : Int) ≠ a := by omega
  have n2 : (-1 : Int) ≠ b := by omega
  let tree := T.node .nil (-1) .none (.node (.node (.node .nil c .left .nil) b .left .nil) a .right .nil)
  have ht : addAll create [a, b, c] = tree := by
    simp [addAll, create, ins, e1, e2, e3, e4, e5, h3, tree]
  have hf : find tree a = .node [.r] := by
    unfold find; rw [findLoop]; simp [n1, push, T.isNil]; rw [findLoop]; simp
  have hd : delAt .none [.r] tree = .ok (.node .nil (-1) .none (.node (.node .nil c .left .nil) b .left .nil)) := by
    simp [tree, delAt, delNode, T.isNil, relink, Del.map]
  refine ⟨.node .nil (-1) .none (.node (.node .nil c .left .nil) b .left .nil), [.r], ?_, ?_, ?_⟩
  · have := run_adds create [a, b, c] [.del a]
    simp only [List.map_cons, List.map_nil, List.cons_append, List.nil_append] at this
    rw [this, ht]
    simp [run, step, hf, hd]
  · unfold find; rw [findLoop]; simp [n2, push, T.isNil]; rw [findLoop]; simp
  · simp [delAt, delNode, T.isNil, relink, Del.map]

/-- Case: 3, 2 and 1. -/
example : ∃ t p, run create [.add 3 true, .add 2 true, .add 1 true, .del 3] = some (t, [.ret 0, .ret 0, .ret 0, .ret 0]) ∧
    find t 2 = .node p ∧ delAt .none p t = .corrupt := c43_stale_counterexample 3 2 1 (by decide) (by decide) (by decide)

/-! ### The search stack -/

/-- A spine to the right, every node with a left child, ending in `x`. -/
def comb (i : Int) : Nat → T → T
  | 0, x => x
  | m + 1, x => .node (.node .nil (2 * i - 1) .left .nil) (2 * i) .right (comb (i + 1) m x)

theorem comb_ins (i : Int) (m : Nat) (x : T) (k : Int) (h : k > 2 * (i + m - 1)) : ins .right k (comb i m x) = comb i m (ins .right k x) := by
  induction m generalizing i with
  | zero => rfl
  | succ m ih =>
    simp only [comb, ins]
    rw [if_pos (by omega), ih (i + 1) (by omega)]

theorem comb_snoc (i : Int) (m : Nat) : comb i m (.node (.node .nil (2 * (i + m) - 1) .left .nil) (2 * (i + m)) .right .nil) = comb i (m + 1) .nil := by
  induction m generalizing i with
  | zero => simp [comb]
  | succ m ih =>
    have := ih (i + 1)
    rw [comb, show i + ((m + 1 : Nat) : Int) = i + 1 + (m : Int) by omega, this]
    rfl

/-- 2, 1, 4, 3, 6, 5, ... -/
def pairs : Nat → List Int
  | 0 => []
  | m + 1 => pairs m ++ [2 * ((m : Int) + 1), 2 * ((m : Int) + 1) - 1]

theorem addAll_pairs (m : Nat) : addAll create (pairs m) = .node .nil (-1) .none (comb 1 m .nil) := by
  induction m with
  | zero => rfl
  | succ m ih =>
    have h1 : addAll create (pairs (m + 1)) = ins .none (2 * ((m : Int) + 1) - 1) (ins .none (2 * ((m : Int) + 1)) (addAll create (pairs m))) := by
      simp [addAll, pairs, List.foldl_append]
    rw [h1, ih]
    rw [ins, if_pos (by omega), ins, if_pos (by omega)]
    rw [comb_ins 1 m _ _ (by omega), comb_ins 1 m _ _ (by omega)]
    rw [← comb_snoc 1 m]
    simp only [ins]
    rw [if_neg (by omega)]
    rw [show (1 : Int) + m = m + 1 by omega]

theorem findLoop_comb (k : Int) (hk : k < 1) (m : Nat) : ∀ (i : Int), 1 ≤ i → ∀ (p : List Dir) (st : List (List Dir × T)), st.length ≤ 8191 → 8193 ≤ st.length + m →
    findLoop k ((p, comb i m .nil) :: st) = .overflow := by
  induction m with
  | zero => intro i hi p st h1 h2; omega
  | succ m ih =>
    intro i hi p st h1 h2
    rw [comb, findLoop, if_neg (by omega)]
    have hp1 : push (p ++ [.l]) (.node .nil (2 * i - 1) .left .nil) st = some ((p ++ [.l], .node .nil (2 * i - 1) .left .nil) :: st) := by
      simp [push, T.isNil]; omega
    have hnn : (comb (i + 1) m .nil).isNil = false := by
      cases m with
      | zero => omega
      | succ m => rfl
    by_cases hl : st.length + 1 < 8192
    · have hp2 : push (p ++ [.r]) (comb (i + 1) m .nil) ((p ++ [.l], .node .nil (2 * i - 1) .left .nil) :: st) =
          some ((p ++ [.r], comb (i + 1) m .nil) :: (p ++ [.l], .node .nil (2 * i - 1) .left .nil) :: st) := by
        simp [push, hnn]; omega
      split
      · rename_i e; rw [hp1] at e
      · rename_i s1 e
        rw [hp1] at e; cases e
        split
        · rename_i e; rw [hp2] at e
        · rename_i s2 e
          rw [hp2] at e; cases e
          exact ih (i + 1) (by omega) _ _ (by simp; omega) (by simp; omega)
    · have hp2 : push (p ++ [.r]) (comb (i + 1) m .nil) ((p ++ [.l], .node .nil (2 * i - 1) .left .nil) :: st) = .none := by
        simp [push, hnn]; omega
      split
      · rename_i e; rw [hp1] at e
      · rename_i s1 e
        rw [hp1] at e; cases e
        split
        · rfl
        · rename_i s2 e; rw [hp2] at e; cases e

/-- C43, counterexample: after inserting 2, 1, 4, 3, 6, 5, ... for 8193 or more pairs, looking up any absent number below -1 or the number 0
writes behind the end of the search stack. -/
theorem c43_stack_counterexample (m : Nat) (hm : 8193 ≤ m) (k : Int) (hk : k < 1) (hk2 : k ≠ -1) : find (addAll create (pairs m)) k = .overflow := by
  rw [addAll_pairs]
  unfold find
  rw [findLoop, if_neg (Ne.symm hk2)]
  have h1 : push ([] ++ [.l]) .nil ([] : List (List Dir × T)) = some [] := rfl
  have h2 : push ([] ++ [.r]) (comb 1 m .nil) ([] : List (List Dir × T)) = some [([] ++ [.r], comb 1 m .nil)] := by
    obtain ⟨n, rfl⟩ : ∃ n, m = n + 1 := ⟨m - 1, by omega⟩
    simp [push, comb, T.isNil]
  split
  · rename_i e; rw [h1] at e
  · rename_i s1 e
    rw [h1] at e; cases e
    split
    · rename_i e; rw [h2] at e
    · rename_i s2 e
      rw [h2] at e; cases e
      exact findLoop_comb k hk m 1 (by omega) _ _ (by simp) (by simp; omega)

/-- Case: the smallest such tree. -/
example : find (addAll create (pairs 8193)) 0 = .overflow := c43_stack_counterexample 8193 (by decide) 0 (by decide) (by decide)

/-- C61. Freeing a tree built by insertions releases exactly the nodes with numbers above -1, each once. -/
theorem c61_freed_partial (ks : List Int) (x : Int) : (freed (addAll create ks)).count x = if x > -1 then ks.count x else 0 := by
  have gen : ∀ (ks : List Int) (l r : T), ∃ l' r', addAll (.node l (-1) .none r) ks = .node l' (-1) .none r' ∧
      (keys r').count x = (keys r).count x + if x > -1 then ks.count x else 0 := by
    intro ks
    induction ks with
    | nil => intro l r; exact ⟨l, r, rfl, by simp⟩
    | cons k ks ih =>
      intro l r
      have hc : (k :: ks).count x = ks.count x + if x = k then 1 else 0 := by
        rw [show k :: ks = [k] ++ ks from rfl, List.count_append, count_one]; omega
      by_cases hk : k > -1
      · obtain ⟨l', r', h1, h2⟩ := ih l (ins .right k r)
        refine ⟨l', r', ?_, ?_⟩
        · rw [addAll, List.foldl_cons, ← addAll, ins, if_pos hk, h1]
        · rw [h2, count_ins, hc]
          by_cases e : x = k
          · subst e; simp [hk]; omega
          · simp [e]
      · obtain ⟨l', r', h1, h2⟩ := ih (ins .left k l) r
        refine ⟨l', r', ?_, ?_⟩
        · rw [addAll, List.foldl_cons, ← addAll, ins, if_neg hk, h1]
        · rw [h2, hc]
          by_cases e : x = k
          · subst e; simp [hk]
          · simp [e]
  obtain ⟨l', r', h1, h2⟩ := gen ks .nil .nil
  rw [show create = .node .nil (-1) .none .nil from rfl, h1, freed, h2]
  simp [keys]

/-- Case: a repeated key is freed as often as it was put in, a negative one is not. -/
example : (freed (addAll create [4, 9, 4, -7])).count 4 = 2 ∧ (freed (addAll create [4, 9, 4, -7])).count (-7) = 0 :=
  ⟨c61_freed_partial [4, 9, 4, -7] 4, c61_freed_partial [4, 9, 4, -7] (-7)⟩

/-- C61, counterexample: numbers up to -1 are never freed. -/
theorem c61_leak_counterexample (ks : List Int) (k : Int) (hk : k ≤ -1) (hm : k ∈ ks) :
    k ∈ keys (addAll create ks) ∧ k ∉ freed (addAll create ks) := by
  refine ⟨?_, ?_⟩
  · apply List.count_pos_iff.mp
    rw [count_addAll]
    have := List.count_pos_iff.mpr hm
    omega
  · apply List.count_eq_zero.mp
    rw [c61_freed_partial, if_neg (by omega)]

/-- Concrete cases: insertions with a repetition, lookups, and deletions that work. -/
example : (run create [.add 10 true, .add 5 true, .add 20 true, .add 15 true, .add 5 true, .find 5, .del 10, .find 10, .find 15, .find 5]).map (·.2) =
    some [.ret 0, .ret 0, .ret 0, .ret 0, .ret 0, .node 5, .ret 0, .null, .node 15, .node 5] := by decide +kernel

example : (Spec.run (fun _ => 0) [.add 10 true, .add 5 true, .del 10, .find 10, .find 5]).2 = [.ret 0, .ret 0, .ret 0, .null, .node 5] := by
  decide +kernel

example : ¬Bad (sub [.r] (addAll create [10, 5, 20, 15])) := fun h => h

end Verif.Bst
