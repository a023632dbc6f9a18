/-
The supervisor: src/common/process.c. The kernel's view of the child processes (`live`: running, `dead`: exited and not yet waited for) is part of the
state; signals, exits of workers and results of `fork` are chosen by the environment.
-/
namespace Verif.Process

/-- `process_t` (src/common/process.h:11-16); `sequence_num` is the position. -/
structure Slot where
  pid : Nat
  exited : Bool
deriving Repr, DecidableEq

/-- `process_ctx_t` of the master (src/common/process.c:6-15) and the kernel's children of the master. -/
structure W where
  slots : List Slot
  live : List Nat
  dead : List Nat
  quit : Bool := false
  reap : Bool := false
  reload : Bool := false
deriving Repr, DecidableEq

/-- The signals with handlers (src/common/process.c:202-210); `other` are SIGPIPE, SIGUSR1, SIGUSR2. -/
inductive Sig where
  | int | chld | hup | other
deriving Repr, DecidableEq

/-- The search in `proc_waitpid` (src/common/process.c:169-174): the first slot with that pid. -/
def mark (pid : Nat) : List Slot → List Slot
  | [] => []
  | s :: t => if pid = s.pid then { s with exited := true } :: t else s :: mark pid t

/-- `proc_waitpid` (src/common/process.c:157-177): all exited children are waited for. -/
def waitpid (w : W) : W := { w with slots := w.dead.foldl (fun s p => mark p s) w.slots, dead := [] }

/-- `proc_signal_cb` in the master (src/common/process.c:183-191). -/
def handler (w : W) : Sig → W
  | .int => { w with quit := true }
  | .chld => waitpid { w with reap := true }
  | .hup => { w with reload := true }
  | .other => w

/-- `proc_signal_bcast` (src/common/process.c:38-47): the processes SIGINT is sent to. `kill` fails for a pid that is no child (any more), and the
loop ends there. -/
def bcast (w : W) : List Slot → List Nat
  | [] => []
  | s :: t => if s.pid ∈ w.live ∨ s.pid ∈ w.dead then s.pid :: bcast w t else []

/-- The restart loop (src/common/process.c:129-144) in the master when not quitting, from slot `i` on. `forks` are the results of `fork`; an exhausted
list means failure. Returns the slots, the started processes with their slots, and the remaining results. -/
def restart (i : Nat) : List Slot → List (Option Nat) → List Slot × List (Nat × Nat) × List (Option Nat)
  | [], f => ([], [], f)
  | s :: t, f =>
    if s.exited then
      match f with
      | some p :: f' =>
        let r := restart (i + 1) t f'
        (⟨p, false⟩ :: r.1, (i, p) :: r.2.1, r.2.2)
      | none :: f' =>
        let r := restart (i + 1) t f'
        (s :: r.1, r.2.1, r.2.2)
      | [] =>
        let r := restart (i + 1) t []
        (s :: r.1, r.2.1, r.2.2)
    else
      let r := restart (i + 1) t f
      (s :: r.1, r.2.1, r.2.2)

/-- What a pass of the master's loop does: processes SIGINT was sent to, processes started (slot, pid), whether the loop was left.
See src/common/process.c:113-153. -/
structure Out where
  killed : List Nat
  forked : List (Nat × Nat)
  stop : Bool
deriving Repr, DecidableEq

/-- One pass of the master's loop after `sigsuspend` returned (src/common/process.c:113-153). -/
def pass (w : W) (forks : List (Option Nat)) : W × Out :=
  let k1 := if w.quit then bcast w w.slots else []
  if w.quit ∧ w.slots.all (·.exited) then (w, ⟨k1, [], true⟩)
  else
    let r := if w.reap ∧ ¬ w.quit then restart 0 w.slots forks else (w.slots, [], forks)
    let w1 := { w with slots := r.1, live := (r.2.1.map (·.2)) ++ w.live, reap := false }
    let k2 := if w1.reload then bcast w1 w1.slots else []
    ({ w1 with reload := false }, ⟨k1 ++ k2, r.2.1, false⟩)

/-- What happens until the end of the next pass: workers exit, signals are delivered in `sigsuspend`, `fork` results, and SIGHUPs (not blocked,
src/common/process.c:87-91) that arrive after the pass has looked at `sig_reload`. -/
structure Wake where
  exits : List Nat
  sigs : List Sig
  forks : List (Option Nat) := []
  lateHup : Bool := false
deriving Repr, DecidableEq

/-- A worker process exits. See src/common/process.c:157-177. -/
def exit1 (w : W) (p : Nat) : W := if p ∈ w.live then { w with live := w.live.erase p, dead := p :: w.dead } else w

/-- The state in which a pass runs: exits and signal handlers done. See src/common/process.c:157-197. -/
def before (w : W) (k : Wake) : W := k.sigs.foldl handler (k.exits.foldl exit1 w)

/-- One round of the master's loop (src/common/process.c:107-154). -/
def step (w : W) (k : Wake) : W × Out :=
  let r := pass (before w k) k.forks
  (if k.lateHup then { r.1 with reload := true } else r.1, r.2)

/-- Rounds until the loop is left. See src/common/process.c:113-153. -/
def run (w : W) : List Wake → W × List Out
  | [] => (w, [])
  | k :: ks =>
    let r := step w k
    if r.2.stop then (r.1, [r.2]) else ((run r.1 ks).1, r.2 :: (run r.1 ks).2)

/-- The state after the start-up loop (src/common/process.c:97-104) if no `fork` fails: worker `i` has the `i`-th pid. (If one fails the master returns.) -/
def init (pids : List Nat) : W := { slots := pids.map fun p => ⟨p, false⟩, live := pids, dead := [] }

end Verif.Process
