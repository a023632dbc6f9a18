import Verif.Model.Control
import Verif.Proofs.Printf
import Verif.Proofs.HttpBody
/-
Property C78: `-stop` and `-reload` reach the running program.
-/
namespace Verif.Control

theorem same_iff (w s : List UInt8) : same w s = true ↔ s = w := by
  unfold same
  simp only [Bool.and_eq_true, beq_iff_eq]
  constructor
  · rintro ⟨h1, h2⟩
    rw [List.take_of_length_le (by omega)] at h2
    exact h2.symm
  · rintro rfl
    simp

/-- C78: the exact words. A signal is sent for a command line with exactly one argument, which is `-reload` (SIGHUP, 1) or
`-stop` (SIGINT, 2), letter by letter; the program starts only without arguments. -/
theorem c78_words (argv : List (List UInt8)) :
    (∀ sig, option argv = .send sig ↔ ∃ prog, (argv = [prog, [45, 114, 101, 108, 111, 97, 100]] ∧ sig = 1) ∨
      (argv = [prog, [45, 115, 116, 111, 112]] ∧ sig = 2)) ∧
    (option argv = .run ↔ argv.length ≤ 1) := by
  have e1 : "-reload".toUTF8.toList = [45, 114, 101, 108, 111, 97, 100] := by decide +kernel
  have e2 : "-stop".toUTF8.toList = [45, 115, 116, 111, 112] := by decide +kernel
  match argv with
  | [] => simp [option]
  | [_] => simp [option]
  | [x, a] =>
    simp only [option, same_iff, e1, e2]
    by_cases h1 : a = [45, 114, 101, 108, 111, 97, 100]
    · subst h1
      simp only [if_true, Opt.send.injEq]
      refine ⟨fun sig => ⟨fun h => ⟨x, Or.inl ⟨rfl, h.symm⟩⟩, ?_⟩, by simp⟩
      rintro ⟨prog, ⟨-, rfl⟩ | ⟨h, -⟩⟩
      · rfl
      · simp at h
    · rw [if_neg h1]
      by_cases h2 : a = [45, 115, 116, 111, 112]
      · subst h2
        simp only [if_true, Opt.send.injEq]
        refine ⟨fun sig => ⟨fun h => ⟨x, Or.inr ⟨rfl, h.symm⟩⟩, ?_⟩, by simp⟩
        rintro ⟨prog, ⟨h, -⟩ | ⟨-, rfl⟩⟩
        · simp at h
        · rfl
      · rw [if_neg h2]
        refine ⟨fun sig => ⟨by simp, ?_⟩, by simp⟩
        rintro ⟨prog, ⟨h, -⟩ | ⟨h, -⟩⟩
        · simp only [List.cons.injEq, and_true] at h; exact absurd h.2 h1
        · simp only [List.cons.injEq, and_true] at h; exact absurd h.2 h2
  | _ :: _ :: _ :: _ => simp [option]

/-- Case: the two commands and a misspelt one. -/
example : option [[115], "-stop".toUTF8.toList] = .send 2 ∧ option [[115], "-reload".toUTF8.toList] = .send 1 ∧
    ∀ sig, option [[115], "-Stop".toUTF8.toList] ≠ .send sig := by
  refine ⟨by decide +kernel, by decide +kernel, fun sig h => ?_⟩
  obtain ⟨p, ⟨h, -⟩ | ⟨h, -⟩⟩ := (c78_words _).1 sig |>.mp h
  · exact absurd (List.cons.inj (List.cons.inj h).2).1 (by decide +kernel)
  · exact absurd (List.cons.inj (List.cons.inj h).2).1 (by decide +kernel)

theorem decimal_number : ∀ (l : List UInt8) (n : Nat), DateSpec.number l = some n → HttpSpec.decimal l = n
  | [], n, h => by simpa [DateSpec.number, HttpSpec.decimal] using h
  | b :: r, n, h => by
    simp only [DateSpec.number] at h
    split at h
    · cases hr : DateSpec.number r with
      | none => simp [hr] at h
      | some m =>
        rw [hr] at h
        simp only [Option.map_some, Option.some.injEq] at h
        simp only [HttpSpec.decimal, decimal_number r m hr]
        exact h
    · cases h

theorem takeWhile_all (p : UInt8 → Bool) : ∀ (l : List UInt8), (∀ x ∈ l, p x = true) → l.takeWhile p = l
  | [], _ => rfl
  | a :: l, h => by simp [h a (by simp), takeWhile_all p l (fun x hx => h x (by simp [hx]))]

/-- The file written by an instance is read back as its pid. -/
theorem pid_roundtrip (pid : Nat) (h : pid < 2147483648) : pidRead (some (Printf.d pid)) = some (pid : Int) := by
  have hd : Printf.d (pid : Int) = Printf.nat pid := by
    unfold Printf.d; rw [if_neg (by omega)]; rfl
  rw [hd]
  have hne := Printf.nat_ne_nil pid
  have hdig := Printf.nat_digit pid
  have hlen : (Printf.nat pid).length ≤ 10 := (Printf.nat_pad 9 pid (by omega)).1
  have hnum := decimal_number _ _ (Printf.nat_number pid)
  cases hl : Printf.nat pid with
  | nil => exact absurd hl hne
  | cons b r =>
    rw [← hl]
    have : pidRead (some (Printf.nat pid)) = some (Http.toInt (Http.strtol (((Printf.nat pid).take 32).takeWhile (· ≠ 0)))) := by
      rw [hl]; rfl
    rw [this, List.take_of_length_le (by omega), takeWhile_all]
    · have h2 := Http.strtol_digits (Printf.nat pid) [] ⟨hne, hdig⟩ (by simp)
      rw [List.append_nil] at h2
      rw [h2, hnum]
      have : min (pid : Int) 9223372036854775807 = pid := by omega
      rw [this]
      unfold Http.toInt
      refine congrArg some ?_
      omega
    · intro x hx
      have := hdig x hx
      simp only [ne_eq, decide_not, Bool.not_eq_eq_eq_not, Bool.not_true, decide_eq_false_iff_not]
      rintro rfl
      simp at this

theorem run_append (w : World) (a b : List Ev) :
    (run w (a ++ b)).2 = (run w a).2 ++ (run (run w a).1 b).2 ∧ (run w (a ++ b)).1 = (run (run w a).1 b).1 := by
  induction a generalizing w with
  | nil => simp [run]
  | cons e a ih => simp [run, ih]

/-- The program was started with a command line of this shape. -/
def stop (prog : List UInt8) : List (List UInt8) := [prog, [45, 115, 116, 111, 112]]

/-- As above. -/
def reload (prog : List UInt8) : List (List UInt8) := [prog, [45, 114, 101, 108, 111, 97, 100]]

theorem option_stop (x : List UInt8) : option (stop x) = .send 2 := ((c78_words _).1 2).mpr ⟨x, Or.inr ⟨rfl, rfl⟩⟩
theorem option_reload (x : List UInt8) : option (reload x) = .send 1 := ((c78_words _).1 1).mpr ⟨x, Or.inl ⟨rfl, rfl⟩⟩

theorem commands_keep (w : World) (cs : List (List (List UInt8))) : (run w (cs.map .command)).1 = w := by
  induction cs with
  | nil => rfl
  | cons c cs ih =>
    have : (step w (.command c)).1 = w := by simp only [step]; split <;> rfl
    simp [run, this, ih]

/-- C78, as long as no worker process has ended: after an instance with pid `pid` has started, whatever commands were given before, `-stop` sends SIGINT and
`-reload` sends SIGHUP to exactly that process. Missing: histories with worker processes that end (every reload), a second start, or a killed master, for which this is
false (counterexamples below). -/
theorem c78_reaches_partial (w : World) (pid : Nat) (h : pid < 2147483648) (cs : List (List (List UInt8))) (prog : List UInt8) :
    let ev := .start pid (Printf.d pid).length true :: cs.map .command
    (step (run w ev).1 (.command [prog, [45, 115, 116, 111, 112]])).2 = some ((pid : Int), 2) ∧
    (step (run w ev).1 (.command [prog, [45, 114, 101, 108, 111, 97, 100]])).2 = some ((pid : Int), 1) := by
  have hs : (step w (.start pid (Printf.d pid).length true)).1 = { file := some (Printf.d pid), running := pid :: w.running } := by
    simp [step, pidCreate]
  have hw : (run w (.start pid (Printf.d pid).length true :: cs.map .command)).1 =
      { file := some (Printf.d pid), running := pid :: w.running } := by
    simp only [run, hs, commands_keep]
  simp only [hw, step]
  have a := option_stop prog
  have b := option_reload prog
  simp only [stop] at a
  simp only [reload] at b
  rw [a, b]
  simp only [pid_roundtrip pid h, Option.map_some, and_self]

/-- Case: process 4711 is started and told to stop. -/
example : (run {} [.start 4711 4 true, .command [[115], "-stop".toUTF8.toList]]).2 = [none, some (4711, 2)] := by decide +kernel

/-- A pid of which only a part was written would be another one; then the start fails. -/
theorem c78_short_write (w : World) (pid written : Nat) (init : Bool) (h : written < (Printf.d pid).length) :
    (step w (.start pid written init)).1.running = w.running := by
  have : ¬ written = (Printf.d pid).length := by omega
  simp [step, pidCreate, this]

/-- Case: of the four digits only three are written. -/
example : (step {} (.start 4711 3 true)).1.running = [] := c78_short_write {} 4711 3 true (by decide +kernel)

/-- Events that leave a missing file missing. -/
def Quiet : Ev → Prop
  | .start _ _ _ => False
  | _ => True

theorem missing_stays (w : World) (h : w.file = none) (es : List Ev) (hq : ∀ e ∈ es, Quiet e) :
    (∀ o ∈ (run w es).2, o = none) ∧ (run w es).1.file = none := by
  induction es generalizing w with
  | nil => simp [run, h]
  | cons e es ih =>
    have he := hq e (by simp)
    have hf : (step w e).1.file = none ∧ (step w e).2 = none := by
      cases e with
      | start p n i => exact absurd he (by simp [Quiet])
      | workerEnd => simp [step]
      | masterEnd p => simp [step]
      | killed p => simp [step, h]
      | command c => simp only [step]; split <;> simp [h, pidRead]
    obtain ⟨h1, h2⟩ := ih (step w e).1 hf.1 (fun e' he' => hq e' (by simp [he']))
    refine ⟨?_, by simpa [run] using h2⟩
    intro o ho
    simp only [run, List.mem_cons] at ho
    rcases ho with rfl | ho
    · exact hf.2
    · exact h1 o ho

/-- C78: without a PID file, or with an empty one - as a write that stores nothing leaves it -, no command sends a signal to anything. -/
theorem c78_no_pid (w : World) (h : w.file = none ∨ w.file = some []) (argv : List (List UInt8)) : step w (.command argv) = (w, none) := by
  simp only [step]
  split
  · rcases h with h | h <;> rw [h] <;> rfl
  · rfl

/-- Case: the disk is full when the PID file is written, then somebody runs `-stop`. -/
example (w : World) (pid : Nat) (init : Bool) (h : 0 < (Printf.d pid).length) :
    (step (step w (.start pid 0 init)).1 (.command [[115], [45, 115, 116, 111, 112]])).2 = none := by
  rw [c78_no_pid _ (Or.inr ?_)]
  have : (0 = (Printf.d pid).length) = False := by simp; omega
  simp [step, pidCreate, this]

/-- C78 is false after a reload: the first worker that ends removes the PID file of the running program. From then on, until the next start, no command sends a signal
at all, whatever else happens: the program can neither be reloaded again nor stopped this way. -/
theorem c78_reload_counterexample (w : World) (pid : Nat) (h : pid < 2147483648) (prog : List UInt8) (es : List Ev)
    (hq : ∀ e ∈ es, match e with | .start _ _ _ => False | _ => True) :
    ∃ w', (run w [.start pid (Printf.d pid).length true, .command [prog, [45, 114, 101, 108, 111, 97, 100]], .workerEnd]).1 = w' ∧
      (run w [.start pid (Printf.d pid).length true, .command [prog, [45, 114, 101, 108, 111, 97, 100]], .workerEnd]).2 =
        [none, some ((pid : Int), 1), none] ∧
      pid ∈ w'.running ∧ ∀ o ∈ (run w' es).2, o = none := by
  refine ⟨_, rfl, ?_, ?_, ?_⟩
  · have b := option_reload prog
    simp only [reload] at b
    simp only [run, step, pidCreate, b]
    simp [pid_roundtrip pid h]
  · have b := option_reload prog
    simp only [reload] at b
    simp [run, step, pidCreate, b]
  · refine (missing_stays _ ?_ es ?_).1
    · have b := option_reload prog
      simp only [reload] at b
      simp [run, step, b]
    · intro e he
      have := hq e he
      cases e <;> simp_all [Quiet]

/-- Case: after a reload the second `-stop` reaches nobody. -/
example : (run {} [.start 4711 4 true, .command [[115], "-reload".toUTF8.toList], .workerEnd, .command [[115], "-stop".toUTF8.toList]]).2 =
    [none, some (4711, 1), none, none] := by decide +kernel

/-- C78 is false after a second start by mistake: if it fails in `modules_core_init` (as when the ports are in use), it removes the PID file of the first
instance, which goes on running and cannot be reached any more. -/
theorem c78_second_counterexample (w : World) (pid q : Nat) (es : List Ev)
    (hq : ∀ e ∈ es, match e with | .start _ _ _ => False | _ => True) :
    ∃ w', (run w [.start pid (Printf.d pid).length true, .start q (Printf.d q).length false]).1 = w' ∧
      pid ∈ w'.running ∧ ∀ o ∈ (run w' es).2, o = none := by
  refine ⟨_, rfl, ?_, ?_⟩
  · simp [run, step, pidCreate]
  · refine (missing_stays _ ?_ es ?_).1
    · simp [run, step, pidCreate]
    · intro e he
      have := hq e he
      cases e <;> simp_all [Quiet]

/-- Case: a second instance that does not start leaves the first one out of reach. -/
example : (run {} [.start 4711 4 true, .start 4712 4 false, .command [[115], "-stop".toUTF8.toList]]).2 = [none, none, none] ∧
    (run {} [.start 4711 4 true, .start 4712 4 false]).1.running = [4711] := by decide +kernel

/-- C78 is false after the master was killed: its PID file stays, and `-stop` sends SIGINT to whatever process has that number now. -/
theorem c78_stale_counterexample (w : World) (pid : Nat) (h : pid < 2147483648) (hw : pid ∉ w.running) (prog : List UInt8) :
    ∃ w', (run w [.start pid (Printf.d pid).length true, .killed pid]).1 = w' ∧ pid ∉ w'.running ∧
      (step w' (.command [prog, [45, 115, 116, 111, 112]])).2 = some ((pid : Int), 2) := by
  refine ⟨_, rfl, ?_, ?_⟩
  · simpa [run, step, pidCreate] using hw
  · have a := option_stop prog
    simp only [stop] at a
    simp only [run, step, a, pidCreate]
    simp [pid_roundtrip pid h]

/-- Non-trivial case: a misspelt command, a reload, a stop. -/
example : (run {} [.start 4711 4 true, .command [[115], "-Stop".toUTF8.toList], .command [[115], "-reload".toUTF8.toList],
    .command [[115], "-stop".toUTF8.toList, [120]], .command [[115], "-stop".toUTF8.toList]]).2 =
    [none, none, some (4711, 1), none, some (4711, 2)] := by
  decide +kernel

end Verif.Control
