import Verif.Model.Spawn
import Verif.Props.Control
import Verif.Props.Process
/-
C100: the configured workers run under a master that can be reached, or the start is reported as failed.
-/
namespace Verif.Spawn

/-! ### Starting the workers -/

theorem forkAll_ok (pids : List Nat) (f : List (Option Nat)) (done : List Nat) :
    forkAll pids.length (pids.map some ++ f) done = .loop (Process.init (done ++ pids)) := by
  induction pids generalizing done with
  | nil => simp [forkAll, Process.init]
  | cons p pids ih =>
    rw [List.length_cons, List.map_cons, List.cons_append, forkAll, ih]
    simp

theorem forkAll_fail (pids : List Nat) (n : Nat) (hn : pids.length < n) (f : List (Option Nat)) (hf : ∀ p, f.head? ≠ some (some p)) (done : List Nat) :
    forkAll n (pids.map some ++ f) done = .back (done ++ pids) := by
  induction pids generalizing n done with
  | nil =>
    cases n with
    | zero => simp at hn
    | succ n =>
      cases f with
      | nil => simp [forkAll]
      | cons x f =>
        cases x with
        | none => simp [forkAll]
        | some p => exact absurd rfl (hf p)
  | cons p pids ih =>
    cases n with
    | zero => simp at hn
    | succ n =>
      rw [List.map_cons, List.cons_append, forkAll, ih n (by simpa using hn)]
      simp

/-- Results of `fork` begin with successes; then there are `n` of them, or a failure comes before. -/
theorem forks_split (n : Nat) (forks : List (Option Nat)) :
    (∃ (pids : List Nat) (f : List (Option Nat)), forks = pids.map some ++ f ∧ pids.length = n) ∨
    (∃ (pids : List Nat) (f : List (Option Nat)), forks = pids.map some ++ f ∧ pids.length < n ∧ ∀ p, f.head? ≠ some (some p)) := by
  induction n generalizing forks with
  | zero => exact .inl ⟨[], forks, rfl, rfl⟩
  | succ n ih =>
    cases forks with
    | nil => exact .inr ⟨[], [], rfl, by simp, by simp⟩
    | cons x forks =>
      cases x with
      | none => exact .inr ⟨[], none :: forks, rfl, by simp, by simp⟩
      | some p =>
        rcases ih forks with ⟨pids, f, rfl, rfl⟩ | ⟨pids, f, rfl, hl, hf⟩
        · exact .inl ⟨p :: pids, f, rfl, rfl⟩
        · exact .inr ⟨p :: pids, f, rfl, by simpa using hl, hf⟩

/-- C100 (partial): if the signals can be blocked and none of the first `n` calls of `fork` fails, a master with all `n` workers in its table waits for
signals, all of them run, and the commands reach the master. Missing: a failing call (the counterexamples). -/
theorem c100_partial (n pid : Nat) (hn : 0 < n) (h : pid < 2147483648) (pids : List Nat) (hl : pids.length = n) (f : List (Option Nat)) (prog : List UInt8)
    (running : List Nat) :
    let s := main n pid true (pids.map some ++ f)
    s.master = some { slots := pids.map fun p => ⟨p, false⟩, live := pids, dead := [] } ∧ s.workers = pids ∧ s.status = none ∧
    (Control.step ⟨s.file, running⟩ (.command [prog, [45, 115, 116, 111, 112]])).2 = some ((pid : Int), 2) ∧
    (Control.step ⟨s.file, running⟩ (.command [prog, [45, 114, 101, 108, 111, 97, 100]])).2 = some ((pid : Int), 1) := by
  have e : main n pid true (pids.map some ++ f) =
      { master := some (Process.init pids), workers := pids, file := some (Printf.d pid) } := by
    unfold main start
    rw [if_pos (by omega), if_pos rfl, Int.toNat_natCast, ← hl, forkAll_ok]
    rfl
  intro s
  have hs : s = _ := e
  rw [hs]
  have a := Control.option_stop prog
  have b := Control.option_reload prog
  refine ⟨rfl, rfl, rfl, ?_, ?_⟩
  · simp only [Control.stop] at a
    simp only [Control.step, a, Control.pid_roundtrip pid h, Option.map_some]
  · simp only [Control.reload] at b
    simp only [Control.step, b, Control.pid_roundtrip pid h, Option.map_some]

/-- Case: two workers. -/
example : (main 2 4711 true [some 10, some 11]).master.map (·.slots.length) = some 2 ∧ (main 2 4711 true [some 10, some 11]).workers = [10, 11] :=
  ⟨by decide, (c100_partial 2 4711 (by decide) (by decide) [10, 11] rfl [] [] []).2.1⟩

/-- C100, exactly when: with workers configured there is a master after the start if and only if the signals could be blocked and the first `n` calls of
`fork` succeeded. In all other cases the started process has ended, with status 0. -/
theorem c100_exact_partial (n pid : Nat) (hn : 0 < n) (mask : Bool) (forks : List (Option Nat)) :
    let s := main n pid mask forks
    (s.master.isSome = true ↔ mask = true ∧ ∃ (pids : List Nat) (f : List (Option Nat)), forks = pids.map some ++ f ∧ pids.length = n) ∧
    (s.master = none ↔ s.status = some 0) ∧ (s.master = none ↔ s.file = none) := by
  intro s
  have hs : s = main n pid mask forks := rfl
  unfold main start at hs
  rw [if_pos (by omega), Int.toNat_natCast] at hs
  cases mask with
  | false => simp [hs]
  | true =>
    rw [if_pos rfl] at hs
    rcases forks_split n forks with ⟨pids, f, rfl, hl⟩ | ⟨pids, f, rfl, hl, hf⟩
    · rw [← hl, forkAll_ok] at hs
      refine ⟨⟨fun _ => ⟨rfl, pids, f, rfl, hl⟩, fun _ => by rw [hs]; rfl⟩, ?_, ?_⟩ <;> simp [hs]
    · rw [forkAll_fail pids n hl f hf] at hs
      refine ⟨⟨fun h => by simp [hs] at h, ?_⟩, ?_, ?_⟩
      · rintro ⟨-, pids', f', he, hl'⟩
        exfalso
        have hlt : pids.length < pids'.length := by omega
        have h1 := congrArg (fun l => l[pids.length]?) he
        simp only [List.getElem?_append_right (Nat.le_of_eq (List.length_map ..)), List.length_map, Nat.sub_self] at h1
        rw [List.getElem?_append_left (by simp; omega), List.getElem?_map, List.getElem?_eq_getElem hlt, Option.map_some] at h1
        rw [← List.head?_eq_getElem?] at h1
        exact hf _ h1
      · simp [hs]
      · simp [hs]

/-- Case: the third of three workers cannot be started. -/
example : (main 3 4711 true [some 10, some 11, none]).master = none ∧ (main 3 4711 true [some 10, some 11, none]).status = some 0 := by decide

/-- C100 is false when a `fork` fails: the workers started before run on without a master, the started process ends with status 0 and removes the PID
file; from then on, until the program is started again, no command sends a signal to anybody, whatever happens. -/
theorem c100_fork_counterexample (n pid : Nat) (pids : List Nat) (hl : pids.length < n) (f : List (Option Nat)) (running : List Nat)
    (es : List Control.Ev) (hq : ∀ e ∈ es, match e with | .start _ _ _ => False | _ => True) :
    let s := main n pid true (pids.map some ++ none :: f)
    s.workers = pids ∧ s.master = none ∧ s.single = none ∧ s.status = some 0 ∧ ∀ o ∈ (Control.run ⟨s.file, running⟩ es).2, o = none := by
  have e : main n pid true (pids.map some ++ none :: f) = { workers := pids, status := some 0 } := by
    unfold main start
    rw [if_pos (by omega), if_pos rfl, Int.toNat_natCast, forkAll_fail pids n hl _ (by simp)]
    rfl
  intro s
  have hs : s = _ := e
  rw [hs]
  refine ⟨rfl, rfl, rfl, rfl, (Control.missing_stays _ rfl es ?_).1⟩
  intro e he
  have := hq e he
  cases e <;> simp_all [Control.Quiet]

/-- Case: the second of two workers cannot be started; the first runs, and `-stop` reaches nobody. -/
example : (main 2 4711 true [some 10, none]).workers = [10] ∧
    (Control.run ⟨(main 2 4711 true [some 10, none]).file, []⟩ [.command [[115], "-stop".toUTF8.toList]]).2 = [none] := by decide +kernel

/-- C100 is false when the signals cannot be blocked: nothing runs, and the status is 0. -/
theorem c100_mask_counterexample (n pid : Nat) (hn : 0 < n) (forks : List (Option Nat)) :
    main n pid false forks = { master := none, workers := [], single := none, file := none, status := some 0 } := by
  unfold main start
  rw [if_pos (by omega)]
  rfl

example : (main 4 4711 false []).status = some 0 := by decide

/-! ### Without workers -/

theorem handlers_quit (g : List Process.Sig) (f : Flags) : (g.foldl handler f).quit = (f.quit || g.contains .int) := by
  induction g generalizing f with
  | nil => simp
  | cons x g ih =>
    rw [List.foldl_cons, ih]
    cases x <;> simp [handler]

theorem loop_stays {α : Type} (serve : α → α) (f : Flags) (hf : f.quit = false) (s : α) (a b : List (List Process.Sig))
    (ha : ∀ x ∈ a, Process.Sig.int ∉ x) :
    ∃ f', f'.quit = false ∧ loop serve f s (a ++ b) = loop serve f' (Nat.iterate serve a.length s) b := by
  induction a generalizing f s with
  | nil => exact ⟨f, hf, rfl⟩
  | cons x a ih =>
    have hq : (x.foldl handler f).quit = false := by
      have hx := ha x (by simp)
      rw [handlers_quit, hf]
      simpa using hx
    obtain ⟨f', h1, h2⟩ := ih (x.foldl handler f) hq (serve s) (fun y hy => ha y (by simp [hy]))
    refine ⟨f', h1, ?_⟩
    rw [List.cons_append, loop, if_neg (by simp [hf]), h2]
    rfl

/-- C100 without workers: the process itself serves, and its number is in the PID file. If SIGINT comes, its loop is left at the next look at the flag, having
served every turn until then. -/
theorem c100_single (n : Int) (hn : n ≤ 0) (pid : Nat) (mask : Bool) (forks : List (Option Nat)) {α : Type} (serve : α → α) (s : α)
    (a b : List (List Process.Sig)) (g h : List Process.Sig) (ha : ∀ x ∈ a, Process.Sig.int ∉ x) (hg : Process.Sig.int ∈ g) :
    main n pid mask forks = { master := none, workers := [], single := some pid, file := some (Printf.d pid), status := none } ∧
    (loop serve {} s (a ++ [g])).1 = false ∧
    (loop serve {} s (a ++ g :: h :: b)).1 = true ∧ (loop serve {} s (a ++ g :: h :: b)).2.2 = Nat.iterate serve (a.length + 1) s := by
  have hit : ∀ (k : Nat) (s : α), serve (Nat.iterate serve k s) = Nat.iterate serve (k + 1) s := by
    intro k
    induction k with
    | zero => intro s; rfl
    | succ k ih => intro s; exact ih (serve s)
  refine ⟨?_, ?_, ?_⟩
  · unfold main
    rw [if_neg (by omega)]
  · obtain ⟨f, hf, e⟩ := loop_stays serve {} rfl s a [g] ha
    rw [e, loop, if_neg (by simp [hf])]
    rfl
  · obtain ⟨f, hf, e⟩ := loop_stays serve {} rfl s a (g :: h :: b) ha
    have hq : (g.foldl handler f).quit = true := by
      rw [handlers_quit]
      simp [hg]
    rw [e, loop, if_neg (by simp [hf]), loop, if_pos hq]
    exact ⟨rfl, hit _ _⟩

/-- Case: SIGHUP in the first turn, SIGINT in the second; two turns are served. -/
example : loop (· + 1) {} 0 [[.hup], [.int], [], []] = (true, { reload := true }, 2) := by decide

/-- C100 is false for `-reload` without workers: whatever signals other than SIGINT arrive, the loop goes on exactly as if none had come. -/
theorem c100_reload_counterexample {α : Type} (serve : α → α) (s : α) (gs : List (List Process.Sig)) (hg : ∀ x ∈ gs, Process.Sig.int ∉ x) :
    (loop serve {} s gs).1 = false ∧ (loop serve {} s gs).2.2 = (loop serve {} s (gs.map fun _ => [])).2.2 := by
  obtain ⟨f, _, e⟩ := loop_stays serve {} rfl s gs [] hg
  obtain ⟨f', _, e'⟩ := loop_stays serve {} rfl s (gs.map fun _ => []) [] (by
    intro x hx
    obtain ⟨_, _, rfl⟩ := List.mem_map.mp hx
    simp)
  rw [List.append_nil] at e e'
  rw [e, e', List.length_map]
  exact ⟨rfl, rfl⟩

/-- Case: a reload in the second of three turns. -/
example : loop (· + 1) {} 0 [[], [.hup], []] = (false, { reload := true }, 3) := by decide

end Verif.Spawn
