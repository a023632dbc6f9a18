import Verif.Model.HttpBody
import Verif.Model.Printf
/-
The command line and the PID file: src/main.c:30-128, src/common/process.c:24-36.
-/
namespace Verif.Control

/-- What the command line asks for (src/main.c:49-87): start the program, nothing, or send a signal to the running one. -/
inductive Opt where
  | run
  | nothing
  | send (sig : Nat)
deriving Repr, DecidableEq

/-- `(strlen(w) == strlen(s)) && !strncmp(w, s, strlen(w))` (src/main.c:68, 70). -/
def same (w s : List UInt8) : Bool := w.length == s.length && w == s.take w.length

/-- `option_parse` (src/main.c:49-87) up to the choice of the signal. -/
def option : List (List UInt8) → Opt
  | [] => .run
  | [_] => .run
  | [_, a] =>
    if same "-reload".toUTF8.toList a then .send 1
    else if same "-stop".toUTF8.toList a then .send 2
    else .nothing
  | _ => .nothing

/-- `proc_pid_create` (src/main.c:32-43): the file is truncated, then the decimal pid is written; `written` bytes of it arrive. Returns the content and whether
all was written. `open` is assumed to succeed. -/
def pidCreate (pid written : Nat) : List UInt8 × Bool :=
  ((Printf.d pid).take written, decide (written = (Printf.d pid).length))

/-- `proc_pid_form_file` (src/common/process.c:24-31) on the content of the file (`none`: no file): one `read` of at most 32 bytes, `strtol`, conversion
to `pid_t`. A file of 32 digits or more (not written by this program) is read as if it ended there; in the code `strtol` runs on past the array. -/
def pidRead : Option (List UInt8) → Option Int
  | none => none
  | some [] => none
  | some (b :: r) => some (Http.toInt (Http.strtol (((b :: r).take 32).takeWhile (· ≠ 0))))

/-- The system: the PID file, and the masters of running instances. See src/main.c:32-87, 97-128. -/
structure World where
  file : Option (List UInt8) := none
  running : List Nat := []
deriving Repr, DecidableEq

/-- What happens: an instance starts with a pid (`written` bytes reach the PID file; `init` tells whether `modules_core_init` succeeds); a worker process ends after SIGINT;
a master ends after SIGINT; a master is killed or crashes; somebody runs the program with arguments. See src/main.c:97-128. -/
inductive Ev where
  | start (pid written : Nat) (init : Bool)
  | workerEnd
  | masterEnd (pid : Nat)
  | killed (pid : Nat)
  | command (argv : List (List UInt8))
deriving Repr, DecidableEq

/-- One event; the second component is the `kill` it performs: target and signal.
Start: src/main.c:119-122. A worker that leaves its loop returns through `proc_worker_run`, `proc_fork`, `proc_master_run` (src/common/process.c:64-65, 72-74,
102-103, 137-138) to `main` (src/main.c:124-126) and unlinks the file, as the master does. A command: src/main.c:66-85. -/
def step (w : World) : Ev → World × Option (Int × Nat)
  | .start pid written init =>
    let c := pidCreate pid written
    if c.2 then
      if init then ({ file := some c.1, running := pid :: w.running }, none) else ({ w with file := none }, none)
    else ({ w with file := some c.1 }, none)
  | .workerEnd => ({ w with file := none }, none)
  | .masterEnd pid => ({ file := none, running := w.running.erase pid }, none)
  | .killed pid => ({ w with running := w.running.erase pid }, none)
  | .command argv =>
    match option argv with
    | .send sig => (w, (pidRead w.file).map fun p => (p, sig))
    | _ => (w, none)

/-- A history; the signals sent by the commands in it, one entry per event. See src/main.c:97-128. -/
def run (w : World) : List Ev → World × List (Option (Int × Nat))
  | [] => (w, [])
  | e :: es => ((run (step w e).1 es).1, (step w e).2 :: (run (step w e).1 es).2)

end Verif.Control
