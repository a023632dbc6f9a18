import Verif.Model.Ident
/-
Property C93: every process has its entry and knows what it is.
-/
namespace Verif.Ident

theorem number_ok (b : Nat) : ∀ (k i : Nat), (i + k) * 12 ≤ b + 8 → number b i k = some (List.range' i k) := by
  intro k
  induction k with
  | zero => intro i _; rfl
  | succ k ih =>
    intro i h
    rw [number, if_pos (by omega), ih (i + 1) (by omega)]
    simp [List.range'_succ]

theorem number_none (b : Nat) : ∀ (k i : Nat), b + 8 < (i + k) * 12 → 0 < k → number b i k = none := by
  intro k
  induction k with
  | zero => intro i _ h; omega
  | succ k ih =>
    intro i h _
    rw [number]
    split
    · by_cases hk : k = 0
      · subst hk; omega
      · rw [ih (i + 1) (by omega) (by omega)]; rfl
    · rfl

theorem shmSize_nat (n : Nat) : shmSize n = (n * 12 + 4) % 4294967296 := by
  have e : ((n : Int) * 12 + 4) = ((n * 12 + 4 : Nat) : Int) := by simp
  show (((n : Int) * 12 + 4) % ((4294967296 : Nat) : Int)).toNat = _
  rw [e, ← Int.natCast_emod, Int.toNat_natCast]

/-- C93: the numbers of workers a start can have. For every number from 0 to 178956970 the table has an entry of twelve bytes for each worker
and the entries are numbered 0, 1, 2, …; if the memory is not there the start fails. -/
theorem c93_table (n : Nat) (h : n ≤ 178956970) :
    processInit n true = some (some (List.range n)) ∧ processInit n false = some none ∧
    ∃ b, shmAlloc n true = .mapped b ∧ 12 * n ≤ b := by
  have hs : shmSize n = n * 12 + 4 := by rw [shmSize_nat]; exact Nat.mod_eq_of_lt (by omega)
  have ha : shmArg n = n * 12 + 4 := by
    unfold shmArg
    rw [hs, if_pos (by omega)]
    omega
  have h1 : ¬ shmArg n ≤ 0 := by rw [ha]; omega
  have e : shmAlloc n true = .mapped ((shmSize n + 4095) / 4096 * 4096) := by simp [shmAlloc, h1]
  refine ⟨?_, by simp [processInit, shmAlloc, h1], _, e, by rw [hs]; omega⟩
  simp only [processInit, e]
  have := number_ok ((shmSize n + 4095) / 4096 * 4096) n 0 (by rw [hs]; omega)
  rw [show (n : Int).toNat = n from Int.toNat_natCast n, this, List.range_eq_range']
  rfl

/-- Case for `c93_table`. -/
example : processInit 4 true = some (some [0, 1, 2, 3]) ∧ shmAlloc 4 true = .mapped 4096 := by decide

theorem wrapped (n : Nat) (h2 : 357913942 ≤ n) (h3 : n ≤ 536870911) :
    0 < (n * 12 + 4) % 4294967296 ∧ (n * 12 + 4) % 4294967296 < 2147483648 := by
  obtain ⟨k, rfl⟩ := Nat.exists_eq_add_of_le h2
  have e : (357913942 + k) * 12 + 4 = (12 * k + 12) + 4294967296 := by omega
  rw [e, Nat.add_mod_right, Nat.mod_eq_of_lt (by omega)]
  omega

/-- C93 is false of the code for larger numbers: no number above 178956970 (that fits an `int`) gives a table with an entry for each worker.
Either the start fails, or the table is too small and numbering its entries leaves it. The second happens for every number from 357913942 to
536870911 for which the system has the memory. -/
theorem c93_large_counterexample (n : Nat) (h : 178956970 < n) (hi : n < 2147483648) :
    (∀ e, processInit n e = some none ∨ processInit n e = none) ∧
    (357913942 ≤ n → n ≤ 536870911 → processInit n true = none) := by
  have hs := shmSize_nat n
  have hpos : ∀ b, b + 8 < n * 12 → number b 0 (n : Int).toNat = none := by
    intro b hb
    rw [Int.toNat_natCast]
    exact number_none b n 0 (by omega) (by omega)
  refine ⟨?_, ?_⟩
  · intro e
    unfold processInit shmAlloc
    by_cases h1 : shmArg n ≤ 0
    · simp [h1]
    · cases e with
      | false => simp [h1]
      | true =>
        right
        simp only [h1, if_false, Bool.not_true, Bool.false_eq_true]
        rw [hpos]
        · rfl
        · have : shmSize n < 2147483648 := by
            unfold shmArg at h1
            split at h1
            · assumption
            · have : shmSize n < 4294967296 := by rw [hs]; omega
              omega
          rw [hs] at this ⊢
          omega
  · intro h2 h3
    have h0 : 0 < shmSize n ∧ shmSize n < 2147483648 := by rw [hs]; exact wrapped n h2 h3
    have ha : ¬ shmArg n ≤ 0 := by
      unfold shmArg
      rw [if_pos h0.2]
      generalize shmSize n = m at h0
      omega
    unfold processInit shmAlloc
    simp only [ha, if_false, Bool.not_true, Bool.false_eq_true]
    rw [hpos]
    · rfl
    · generalize shmSize n = m at h0
      clear hs ha
      omega

/-- Case for `c93_large_counterexample`: the table for 357913942 workers is one page. -/
example : shmAlloc 357913942 true = .mapped 4096 ∧ shmAlloc 178956971 true = .failed := by decide

/-- C93 (partial): with at most 255 workers every worker ends when it has left its loop, whether it was started first or later, and none of them
waits for the master's children. Missing: more workers (`c93_worker_255_counterexample`). -/
theorem c93_ends_partial (n i : Nat) (hn : n ≤ 255) (hi : i < n) (exited : Nat → Bool) :
    afterLoop n i = .ends ∧ afterRestart n i exited = .ends ∧ waits i = false := by
  have : isMaster i = false := by
    simp only [isMaster, beq_eq_false_iff_ne, ne_eq]
    show ¬ i = 255
    omega
  simp [afterLoop, afterRestart, waits, this]

/-- Case for `c93_ends_partial`. -/
example : afterLoop 255 254 = .ends := by decide

theorem spawn_master (id : Nat) (h : isMaster id = true) : ∀ (k i : Nat), spawn id i k = List.range' i k := by
  intro k
  induction k with
  | zero => intro i; rfl
  | succ k ih => intro i; simp [spawn, h, ih, List.range'_succ]

/-- C93: the master starts every worker once, in the order of the entries. -/
theorem c93_starts (n : Nat) : spawn 255 0 n = List.range n := by
  rw [spawn_master 255 rfl, List.range_eq_range']

/-- Case for `c93_starts`. -/
example : spawn 255 0 3 = [0, 1, 2] := by decide

/-- C93 is false of the code with more than 255 workers: the number of worker 255 is the mark of the master. When it is told to stop it does not end
but starts every worker after its own entry once more and supervises. The workers it starts are in turn different processes with entries
already in use. -/
theorem c93_worker_255_counterexample (n : Nat) (_hn : 256 ≤ n) : afterLoop n 255 = .supervises (List.range' 256 (n - 256)) := by
  have : isMaster 255 = true := rfl
  simp only [afterLoop, this, if_true]
  rw [spawn_master 255 this]

/-- Case for `c93_worker_255_counterexample`. -/
example : afterLoop 259 255 = .supervises [256, 257, 258] ∧ afterLoop 259 256 = .ends := by decide

/-- C93 is false of the code with more than 255 workers also after a restart: worker 255 starts exactly the workers of later entries that are marked as
exited, each once, and supervises. -/
theorem c93_restart_255_counterexample (n : Nat) (exited : Nat → Bool) :
    ∃ l, afterRestart n 255 exited = .supervises l ∧ l.Nodup ∧ ∀ j, j ∈ l ↔ 255 < j ∧ j < n ∧ exited j = true := by
  refine ⟨_, by simp only [afterRestart, show isMaster 255 = true from rfl, if_true]; rfl, List.nodup_range.filter _, ?_⟩
  intro j
  simp only [List.mem_filter, List.mem_range, Bool.and_eq_true, decide_eq_true_eq]
  exact ⟨fun h => ⟨h.2.1, h.1, h.2.2⟩, fun h => ⟨h.2.1, h.1, h.2.2⟩⟩

/-- Case for `c93_restart_255_counterexample`. -/
example : afterRestart 259 255 (fun j => j == 255 || j == 257 || j == 3) = .supervises [257] := by decide

end Verif.Ident
