import Verif.Model.Process
import Verif.Model.Control
/-
From `main` to the loop of the master: the start of the workers (src/common/process.c:80-106), what `main` does when that returns
(src/main.c:124-127), and the program without workers (src/common/process.c:49-65, 179-197).
-/
namespace Verif.Spawn

/-- What comes of `proc_master_run` in the master before its first `sigsuspend`: it goes on to its loop with that table, or returns with these workers
started. See src/common/process.c:92-106. -/
inductive Start where
  | loop (w : Process.W)
  | back (workers : List Nat)
deriving Repr, DecidableEq

/-- The loop that starts the workers (src/common/process.c:97-104) in the master, `n` of them being left and `done` started; `forks` are the results
of `fork`, an exhausted list meaning failure. The table was cleared when it was made (src/common/shm.c:10), so no entry is marked as exited. -/
def forkAll : Nat → List (Option Nat) → List Nat → Start
  | 0, _, done => .loop { slots := done.map fun p => ⟨p, false⟩, live := done, dead := [] }
  | n + 1, some p :: f, done => forkAll n f (done ++ [p])
  | _ + 1, _, done => .back done

/-- `proc_master_run` up to its loop (src/common/process.c:80-106); `mask` is whether `sigprocmask` succeeds. -/
def start (n : Nat) (mask : Bool) (forks : List (Option Nat)) : Start :=
  if mask then forkAll n forks [] else .back []

/-- The program as seen from outside once `main` has come past its initialisation (src/main.c:119-127): the table of a master that waits for signals, if
there is one; the worker processes; the process of a program without workers; the PID file; the status with which the started process has ended, if it has. -/
structure Sys where
  master : Option Process.W := none
  workers : List Nat := []
  single : Option Nat := none
  file : Option (List UInt8) := none
  status : Option Nat := none
deriving Repr, DecidableEq

/-- The end of `main` (src/main.c:124-127) from the successful initialisation on, in the process `pid` that has written its number to the PID file. `n`
is `sys_process_num`. Returning from `proc_master_run` leads to the end of the program with status 0. -/
def main (n : Int) (pid : Nat) (mask : Bool) (forks : List (Option Nat)) : Sys :=
  if 0 < n then
    match start n.toNat mask forks with
    | .loop w => { master := some w, workers := w.live, file := some (Printf.d pid) }
    | .back ws => { workers := ws, status := some 0 }
  else { single := some pid, file := some (Printf.d pid) }

/-! ### The program without workers -/

/-- The flags of `process_ctx_t` (src/common/process.c:12-14). -/
structure Flags where
  quit : Bool := false
  reap : Bool := false
  reload : Bool := false
deriving Repr, DecidableEq

/-- `proc_signal_cb` in the program without workers (src/common/process.c:179-197): its `process_id` is still the master's (src/common/process.c:227). There
are no children, so `proc_waitpid` changes nothing. -/
def handler (f : Flags) : Process.Sig → Flags
  | .int => { f with quit := true }
  | .chld => { f with reap := true }
  | .hup => { f with reload := true }
  | .other => f

/-- The loop of `proc_worker_run` (src/common/process.c:56-63): each entry is the signals that arrive from one look at `sig_quit` to the next. `serve` is
what a turn does to the rest of the worker, which sees none of the flags. The result tells whether the loop was left, and the flags and the rest then. -/
def loop {α : Type} (serve : α → α) (f : Flags) (s : α) : List (List Process.Sig) → Bool × Flags × α
  | [] => (false, f, s)
  | g :: gs => if f.quit then (true, { f with quit := false }, s) else loop serve (g.foldl handler f) (serve s) gs

end Verif.Spawn
