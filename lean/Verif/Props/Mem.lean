import Verif.Proofs.Mem
/-
Properties C15, C16, C17: the memory pool.
-/
namespace Verif.Mem

/-- C15. After any history, a successful allocation returns a block at least as large as requested, all zero, not among the
live blocks, disjoint from every live block, and no byte of a live block changes. -/
theorem c15_fresh_block {base : Nat → Nat} (L : Layout base) {ops : List Op} (hok : ∀ op ∈ ops, okOp op) {rs : List Ret}
    {s s' : St} (h : run (init base) ops = some (rs, s)) {n : Int} {i j : Nat} (ha : alloc s n = .next (.ptr i j) s') :
    n ≤ space i ∧
    (∀ x, inBlock (s'.addr i j) (space i) x → s'.mem x = 0) ∧
    (i, j) ∉ live [] (ops.zip rs) ∧
    ∀ k l, (k, l) ∈ live [] (ops.zip rs) → ∀ x, inBlock (s'.addr k l) (space k) x →
      ¬ inBlock (s'.addr i j) (space i) x ∧ s'.mem x = s.mem x := by
  have I := run_inv ops (init_inv base) hok h
  have hb : s.base = base := run_base ops h
  obtain ⟨-, -, -, hp, rest, hu, rfl⟩ := alloc_ptr ha
  obtain ⟨hi, hsz⟩ := pick_lt hp
  have hnd := inv_nodup I hi
  rw [List.nodup_append'] at hnd
  have hju : j ∈ s.usable i := by rw [hu]; simp
  have hnl : (i, j) ∉ live [] (ops.zip rs) := by
    intro hc
    exact hnd.2.2 hju ((I.live i j).mp hc).2
  refine ⟨hsz, ?_, hnl, ?_⟩
  · intro x hx
    simp only [inBlock, St.addr] at hx
    simp only [zero, St.addr, hx.1, hx.2, and_self, if_true]
  · intro k l hkl x hx
    obtain ⟨hk, hl⟩ := (I.live k l).mp hkl
    have hlt := inv_lt I hk (Or.inr hl)
    have hjt := inv_lt I hi (Or.inl hju)
    have hno : ¬ inBlock (s.addr i j) (space i) x := by
      intro hy
      simp only [inBlock, St.addr, hdr] at hx hy
      refine extents_apart L hi hk hjt hlt (fun e => hnl (e ▸ hkl)) x ?_ ?_
      · rw [← hb]; simp only [stride, hdr] at *; omega
      · rw [← hb]; simp only [stride, hdr] at *; omega
    refine ⟨hno, ?_⟩
    simp only [inBlock] at hno
    simp only [zero, hno, if_false]

/-- C15. All live blocks are pairwise disjoint and distinct, after any history. -/
theorem c15_live_disjoint {base : Nat → Nat} (L : Layout base) {ops : List Op} (hok : ∀ op ∈ ops, okOp op) {rs : List Ret}
    {s : St} (h : run (init base) ops = some (rs, s)) {i j k l : Nat} (h1 : (i, j) ∈ live [] (ops.zip rs))
    (h2 : (k, l) ∈ live [] (ops.zip rs)) (hne : (i, j) ≠ (k, l)) (x : Nat) :
    ¬ (inBlock (s.addr i j) (space i) x ∧ inBlock (s.addr k l) (space k) x) := by
  rintro ⟨hx, hy⟩
  have I := run_inv ops (init_inv base) hok h
  have hb : s.base = base := run_base ops h
  obtain ⟨hi, hj⟩ := (I.live i j).mp h1
  obtain ⟨hk, hl⟩ := (I.live k l).mp h2
  simp only [inBlock, St.addr, hdr] at hx hy
  refine extents_apart L hi hk (inv_lt I hi (Or.inr hj)) (inv_lt I hk (Or.inr hl)) hne x ?_ ?_
  · rw [← hb]; simp only [stride, hdr] at *; omega
  · rw [← hb]; simp only [stride, hdr] at *; omega

/-- C15. A store inside any block never lands in the bookkeeping header of any object. -/
theorem c15_headers_apart {base : Nat → Nat} (L : Layout base) {i j k l : Nat} (hi : i < 6) (hj : j < count i)
    (hk : k < 6) (hl : l < count k) (x : Nat) (hx : inBlock ((init base).addr i j) (space i) x) :
    ¬ inBlock (base k + l * stride k) 24 x := by
  intro hy
  simp only [inBlock, St.addr, init, hdr] at hx hy
  by_cases hne : (i, j) = (k, l)
  · simp only [Prod.mk.injEq] at hne; obtain ⟨rfl, rfl⟩ := hne; omega
  · refine extents_apart L hi hk hj hl hne x ?_ ?_
    · simp only [stride, hdr] at *; omega
    · simp only [stride, hdr] at *; omega

/-- C15. Every block is aligned for pointers and 64-bit numbers if the areas are, as those returned by `malloc` are. -/
theorem c15_aligned {base : Nat → Nat} (hb : ∀ i < 6, base i % 8 = 0) {ops : List Op} {rs : List Ret} {s : St}
    (h : run (init base) ops = some (rs, s)) (i j : Nat) (hi : i < 6) : s.addr i j % 8 = 0 := by
  have h1 := hb i hi
  have h2 : s.base = base := run_base ops h
  have h3 : stride i % 8 = 0 := by
    rcases i with _ | _ | _ | _ | _ | _ | i <;> first | rfl | omega
  have h4 : (j * stride i) % 8 = 0 := by rw [Nat.mul_mod, h3]; simp
  have h5 : hdr % 8 = 0 := rfl
  unfold St.addr
  rw [h2]
  omega

theorem run_contents {base : Nat → Nat} (L : Layout base) : ∀ (ops : List Op) {s s' : St} {lv} {rs : List Ret}, Inv s lv → s.base = base →
    (∀ op ∈ ops, okOp op) → run s ops = some (rs, s') → ∀ {i j : Nat}, (i, j) ∈ lv → (∀ op ∈ ops, op ≠ .free i j) →
    ∀ x, inBlock (s.addr i j) (space i) x → s'.mem x = stored x (s.mem x) ops
  | [], s, s', lv, rs, I, hb, _, h, i, j, _, _, x, _ => by
    simp only [run, Option.some.injEq, Prod.mk.injEq] at h
    rw [← h.2]; rfl
  | op :: ops, s, s', lv, rs, I, hb, hok, h, i, j, hl, hnf, x, hx => by
    obtain ⟨r, s1, rs', hs, hr, -⟩ := run_cons h
    have I1 := step_inv I (hok op (by simp)) hs
    have ih := fun hb1 hl1 hx1 => run_contents L ops (s := s1) I1 hb1 (fun o ho => hok o (List.mem_cons_of_mem _ ho)) hr (i := i) (j := j) hl1
      (fun o ho => hnf o (List.mem_cons_of_mem _ ho)) x hx1
    have hfree : op ≠ .free i j := hnf op (by simp)
    obtain ⟨hi, hj⟩ := (I.live i j).mp hl
    cases op with
    | alloc n =>
      simp only [stored]
      by_cases hp : ∃ k l, r = .ptr k l
      · obtain ⟨k, l, rfl⟩ := hp
        obtain ⟨-, -, -, hpk, rest, hu, rfl⟩ := alloc_ptr hs
        have hk := (pick_lt hpk).1
        have hlu : l ∈ s.usable k := by rw [hu]; simp
        have hne : (k, l) ≠ (i, j) := by
          intro e
          simp only [Prod.mk.injEq] at e
          obtain ⟨rfl, rfl⟩ := e
          have hnd := inv_nodup I hk
          rw [List.nodup_append'] at hnd
          exact hnd.2.2 hlu hj
        rw [ih hb (by simp [live, hl]) hx]
        congr 1
        have hno : ¬ inBlock (s.addr k l) (space k) x := by
          intro hy
          simp only [inBlock, St.addr, hdr] at hx hy
          refine extents_apart L hk hi (inv_lt I hk (Or.inl hlu)) (inv_lt I hi (Or.inr hj)) hne x ?_ ?_
          · rw [← hb]; simp only [stride, hdr] at *; omega
          · rw [← hb]; simp only [stride, hdr] at *; omega
        simp only [inBlock] at hno
        simp only [zero, hno, if_false]
      · have hr' : ∀ i j, r ≠ .ptr i j := fun i j e => hp ⟨i, j, e⟩
        obtain ⟨rfl, rfl⟩ := alloc_other hs hr'
        exact ih hb (by simpa [live] using hl) hx
    | free k l =>
      simp only [stored]
      simp only [step, free] at hs
      split at hs
      · cases hs
      · simp only [Outcome.next.injEq] at hs
        obtain ⟨rfl, rfl⟩ := hs
        refine ih hb ?_ hx
        simp only [live, List.mem_filter, decide_eq_true_eq]
        exact ⟨hl, fun e => hfree (by simp only [Prod.mk.injEq] at e; rw [e.1, e.2])⟩
    | freeForeign =>
      simp only [stored]
      simp only [step, freeForeign] at hs
      split at hs
      · cases hs
      · simp only [Outcome.next.injEq] at hs
        obtain ⟨rfl, rfl⟩ := hs
        exact ih hb (by simpa [live] using hl) hx
    | write a v =>
      simp only [step, Outcome.next.injEq] at hs
      obtain ⟨rfl, rfl⟩ := hs
      rw [ih hb (by simpa [live] using hl) hx]
      simp only [stored, eq_comm (a := a) (b := x)]

/-- C15. A block keeps what its owner stores: until it is freed, whatever is allocated, freed and stored elsewhere, every byte of it is the
one last stored there, or zero. -/
theorem c15_contents {base : Nat → Nat} (L : Layout base) {ops1 ops2 : List Op} (hok1 : ∀ op ∈ ops1, okOp op)
    (hok2 : ∀ op ∈ ops2, okOp op) {rs1 rs2 : List Ret} {s s1 s2 : St} (h1 : run (init base) ops1 = some (rs1, s))
    {n : Int} {i j : Nat} (ha : alloc s n = .next (.ptr i j) s1) (h2 : run s1 ops2 = some (rs2, s2))
    (hno : ∀ op ∈ ops2, op ≠ .free i j) (x : Nat) (hx : inBlock (s1.addr i j) (space i) x) :
    s2.mem x = stored x 0 ops2 := by
  have I := run_inv ops1 (init_inv base) hok1 h1
  have I1 := step_inv I (op := .alloc n) trivial ha
  have hb : s.base = base := run_base ops1 h1
  have hb1 : s1.base = base := by
    obtain ⟨-, -, -, -, rest, -, rfl⟩ := alloc_ptr ha
    exact hb
  rw [run_contents L ops2 I1 hb1 hok2 h2 (i := i) (j := j) (by simp [live]) hno x hx, (c15_fresh_block L hok1 h1 ha).2.1 x hx]

/-- Case for `c15_contents`: a byte stored in the block, another block allocated, another byte stored elsewhere. -/
example (a : Nat) : stored a 0 [.write a 7, .alloc 100, .write (a + 1) 9] = 7 := by simp [stored]

/-- C16, what does hold: the exact outcome of an allocation in every state with the lock free. With a free block in the
smallest class and in the requested class it succeeds; with none in the smallest class it returns NULL whatever the size;
unsupported sizes return NULL; with none in the requested class but some in the smallest, the pool is corrupted. -/
theorem c16_outcome_partial (s : St) (n : Int) (hn : 0 < n) (hl : s.locked = false) :
    (s.usable 0 = [] → alloc s n = .next .null s) ∧
    (16384 < n → alloc s n = .next .null s) ∧
    ∀ i, pick n = some i → s.usable 0 ≠ [] →
      (s.usable i = [] → alloc s n = .corrupt) ∧ (s.usable i ≠ [] → ∃ j s', alloc s n = .next (.ptr i j) s') := by
  have h0 : ¬ n ≤ 0 := by omega
  refine ⟨?_, ?_, ?_⟩
  · intro h; simp [alloc, h0, hl, h]
  · intro h
    have := pick_none.mpr h
    simp [alloc, h0, hl, this]
  · intro i hp hne
    refine ⟨?_, ?_⟩
    · intro h; simp [alloc, h0, hl, hne, hp, h]
    · intro h
      cases hu : s.usable i with
      | nil => exact absurd hu h
      | cons j rest =>
        simp only [alloc, h0, hl, hne, hp, hu]
        exact ⟨j, _, rfl⟩

/-- Case: the pool as it starts serves a request of 600 bytes from the second class, and none of 20000 bytes. -/
example (base : Nat → Nat) : (∃ j s', alloc (init base) 600 = .next (.ptr 1 j) s') ∧ alloc (init base) 20000 = .next .null (init base) :=
  ⟨((c16_outcome_partial (init base) 600 (by decide) rfl).2.2 1 (by decide) (List.ne_nil_of_length_pos (by simp [init, count]))).2 (List.ne_nil_of_length_pos (by simp [init, count])),
    (c16_outcome_partial (init base) 20000 (by decide) rfl).2.1 (by decide)⟩

/-- C16 is false: after 2048 small allocations, a request for 600 bytes fails although all 1024 blocks of its class are free. -/
theorem c16_starved_counterexample (base : Nat → Nat) : ∃ rs s,
    run (init base) (List.replicate 2048 (.alloc 100)) = some (rs, s) ∧
      (s.usable 1).length = 1024 ∧ alloc s 600 = .next .null s := by
  obtain ⟨rs, s, h1, h2, h3, h4⟩ := run_drain (n := 100) (i := 0) (by decide) (by decide) 2048 (init base) rfl
    (by simp [init, count]) (Or.inl rfl)
  refine ⟨rs, s, h1, ?_, ?_⟩
  · rw [h4 1 (by decide)]; simp [init, count]
  · have : s.usable 0 = [] := by rw [h2]; simp [init, count]
    exact (c16_outcome_partial s 600 (by decide) h3).1 this

/-- C16 is false: after 1024 allocations of 600 bytes, the next one neither fails nor succeeds: it takes the list sentinel as
an object. -/
theorem c16_corrupt_counterexample (base : Nat → Nat) : ∃ rs s,
    run (init base) (List.replicate 1024 (.alloc 600)) = some (rs, s) ∧ alloc s 600 = .corrupt := by
  obtain ⟨rs, s, h1, h2, h3, h4⟩ := run_drain (n := 600) (i := 1) (by decide) (by decide) 1024 (init base) rfl
    (by simp [init, count]) (Or.inr (by simp [init, count]))
  refine ⟨rs, s, h1, ?_⟩
  have h0 : s.usable 0 ≠ [] := by rw [h4 0 (by decide)]; simp [init, count]
  have : s.usable 1 = [] := by rw [h2]; simp [init, count]
  exact ((c16_outcome_partial s 600 (by decide) h3).2.2 1 (by decide) h0).1 this

/-- C16. Freeing one pointer that did not come from the pool disables it: every later call hangs. -/
theorem c16_foreign_free_counterexample (s : St) (hl : s.locked = false) : ∃ s', freeForeign s = .next .null s' ∧
    (∀ n : Int, 0 < n → alloc s' n = .hang) ∧ ∀ i j, free s' i j = .hang := by
  refine ⟨{ s with locked := true }, by simp [freeForeign, hl], ?_, ?_⟩
  · intro n hn
    have h0 : ¬ n ≤ 0 := by omega
    simp [alloc, h0]
  · intro i j; simp [free]

/-- Case: the pool as it starts. -/
example (base : Nat → Nat) : ∃ s', freeForeign (init base) = .next .null s' ∧ alloc s' 10 = .hang := by
  obtain ⟨s', h1, h2, -⟩ := c16_foreign_free_counterexample (init base) rfl
  exact ⟨s', h1, h2 10 (by decide)⟩

/-- C17. Blocks are conserved: after any history, free plus live blocks of a class number what the class was created with, and
none is both or counted twice. -/
theorem c17_conserved {base : Nat → Nat} {ops : List Op} (hok : ∀ op ∈ ops, okOp op) {rs : List Ret} {s : St}
    (h : run (init base) ops = some (rs, s)) {i : Nat} (hi : i < 6) :
    (s.usable i).length + (s.inuse i).length = count i ∧ (s.usable i ++ s.inuse i).Nodup ∧
      ∀ j, (i, j) ∈ live [] (ops.zip rs) ↔ j ∈ s.inuse i := by
  have I := run_inv ops (init_inv base) hok h
  refine ⟨?_, inv_nodup I hi, ?_⟩
  · have := (I.perm i hi).length_eq
    simpa using this
  · intro j; rw [I.live]; exact ⟨fun h => h.2, fun h => ⟨hi, h⟩⟩

/-- C17. A freed block is handed out again: after it is freed, once as many allocations of its class have been served as there
were free blocks of the class (counting it), one of them returned it — whatever else happens in between. -/
theorem c17_reused {base : Nat → Nat} {ops1 ops2 : List Op} (hok1 : ∀ op ∈ ops1, okOp op)
    (hok2 : ∀ op ∈ ops2, okOp op) {rs1 rs2 : List Ret} {s s1 s2 : St} (h1 : run (init base) ops1 = some (rs1, s))
    {i j : Nat} (hi : i < 6) (hj : j < count i) (hf : free s i j = .next .done s1)
    (h2 : run s1 ops2 = some (rs2, s2)) (hno : ∀ op ∈ ops2, op ≠ .free i j)
    (hserved : (s1.usable i).length ≤ served i rs2) : .ptr i j ∈ rs2 := by
  have I := run_inv ops1 (init_inv base) hok1 h1
  have I1 := step_inv I (op := .free i j) ⟨hi, hj⟩ hf
  have hm : j ∈ s1.usable i := by
    simp only [free] at hf
    split at hf
    · cases hf
    · simp only [Outcome.next.injEq, true_and] at hf
      subst hf; simp
  refine run_reuse ops2 I1 hi hm hok2 hno h2 ?_
  exact Nat.lt_of_lt_of_le (List.idxOf_lt_length_iff.mpr hm) hserved

/-- C17. Freeing again a block that was not handed out since its first free changes nothing but the order in which free blocks
will be reused; freeing it twice in a row changes nothing at all. -/
theorem c17_double_free {base : Nat → Nat} {ops1 ops2 : List Op} (hok1 : ∀ op ∈ ops1, okOp op)
    (hok2 : ∀ op ∈ ops2, okOp op) {rs1 rs2 : List Ret} {s s1 s2 s3 : St} (h1 : run (init base) ops1 = some (rs1, s))
    {i j : Nat} (hi : i < 6) (hj : j < count i) (hf : free s i j = .next .done s1)
    (h2 : run s1 ops2 = some (rs2, s2)) (hno : .ptr i j ∉ rs2) (hf2 : free s2 i j = .next .done s3) :
    s3.inuse = s2.inuse ∧ s3.mem = s2.mem ∧ s3.locked = s2.locked ∧ (∀ k, (s3.usable k).Perm (s2.usable k)) ∧
      (ops2 = [] → s3 = s2) := by
  have I := run_inv ops1 (init_inv base) hok1 h1
  have I1 := step_inv I (op := .free i j) ⟨hi, hj⟩ hf
  have hf' := hf
  simp only [free] at hf'
  split at hf'
  · cases hf'
  · simp only [Outcome.next.injEq, true_and] at hf'
    have hm : j ∈ s1.usable i := by subst hf'; simp
    have hm2 : j ∈ s2.usable i := run_keeps_free ops2 I1 hi hm hok2 h2 hno
    have I2 := run_inv ops2 I1 hok2 h2
    have hnd := inv_nodup I2 hi
    rw [List.nodup_append'] at hnd
    have hni : j ∉ s2.inuse i := fun hc => hnd.2.2 hm2 hc
    simp only [free] at hf2
    split at hf2
    · cases hf2
    · simp only [Outcome.next.injEq, true_and] at hf2
      have hinuse : upd s2.inuse i ((s2.inuse i).erase j) = s2.inuse := by
        funext k
        by_cases hk : k = i
        · subst hk; simp [List.erase_of_not_mem hni]
        · rw [upd_ne _ _ hk]
      refine ⟨by subst hf2; exact hinuse, by subst hf2; rfl, by subst hf2; rfl, ?_, ?_⟩
      · intro k
        subst hf2
        by_cases hk : k = i
        · subst hk
          simp only [upd_same]
          exact List.Perm.trans (List.perm_append_singleton _ _) (List.perm_cons_erase hm2).symm
        · simp only [upd_ne _ _ hk]; exact List.Perm.refl _
      · rintro rfl
        simp only [run, Option.some.injEq, Prod.mk.injEq] at h2
        obtain ⟨-, rfl⟩ := h2
        have hI0 := inv_nodup I hi
        rw [List.nodup_append'] at hI0
        have hue : upd s1.usable i ((s1.usable i).erase j ++ [j]) = s1.usable := by
          funext k
          by_cases hk : k = i
          · subst hk
            have : s1.usable k = (s.usable k).erase j ++ [j] := by subst hf'; simp
            have hje : j ∉ (s.usable k).erase j := by
              rw [List.Nodup.mem_erase_iff hI0.1]; simp
            rw [upd_same, this, List.erase_append_right _ hje]
            simp
          · rw [upd_ne _ _ hk]
        rw [← hf2, hinuse, hue]

/-- Non-trivial case for `c15_fresh_block`, `c15_live_disjoint`, `c15_headers_apart`, `c15_aligned`, `c17_conserved` and `c17_reused`: three allocations in
two classes, a free, and reuse. -/
example : (run (init (fun i => i * 100000000)) [.alloc 10, .alloc 10, .alloc 3000, .free 0 1, .alloc 5]).map Prod.fst =
      some [.ptr 0 0, .ptr 0 1, .ptr 3 0, .done, .ptr 0 2] ∧
    live [] ([.alloc 10, .alloc 10, .alloc 3000, .free 0 1, .alloc 5].zip
      [.ptr 0 0, .ptr 0 1, .ptr 3 0, .done, .ptr 0 2]) = [(0, 0), (3, 0), (0, 2)] ∧
    Layout (fun i => i * 100000000) := by
  refine ⟨by decide +kernel, by decide, ?_⟩
  unfold Layout
  decide

end Verif.Mem
