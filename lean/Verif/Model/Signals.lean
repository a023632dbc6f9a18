/-
Signals at any moment: the handlers (src/common/process.c:179-217), the context they use (src/common/process.c:17, 219-245) and the signal mask
(src/common/process.c:51-53, 85-95, 106-113) through the life of a process. Between any two steps any signals may arrive.
-/
namespace Verif.Signals

/-- The signals for which a handler is installed (src/common/process.c:202-210). -/
inductive Sig where
  | int | hup | chld | pipe | usr1 | usr2
deriving Repr, DecidableEq

/-- `g_proc_ctx` (src/common/process.c:17): NULL, allocated, or freed (`process_end` does not clear the pointer, src/common/process.c:238-247). -/
inductive Ctx where
  | null | live | freed
deriving Repr, DecidableEq

/-- How the process ended, if it has: it came to its end, it was ended by the default action of a signal, or the handler used a NULL pointer or freed
memory (src/common/process.c:182). -/
inductive End where
  | done
  | default (s : Sig)
  | nullPointer (s : Sig)
  | afterFree (s : Sig)
deriving Repr, DecidableEq

/-- The state (src/common/process.c:6-17): which handlers are installed, which signals are blocked, which wait, the context, the signals the
handler has dealt with, and how the process ended. -/
structure St where
  installed : List Sig
  blocked : List Sig
  waiting : List Sig
  ctx : Ctx
  handled : List Sig
  fin : Option End
deriving Repr, DecidableEq

/-- `proc_signal_cb` (src/common/process.c:179-197) starts with a write to the context. Without a handler SIGCHLD is ignored and the others end the
process. -/
def deliver (st : St) (s : Sig) : St :=
  if st.fin.isSome then st
  else if s ∉ st.installed then (if s = .chld then st else { st with fin := some (.default s) })
  else match st.ctx with
    | .null => { st with fin := some (.nullPointer s) }
    | .freed => { st with fin := some (.afterFree s) }
    | .live => { st with handled := st.handled ++ [s] }

/-- A signal arrives (src/common/process.c:51-53, 85-95: blocked signals wait). -/
def arrive (st : St) (s : Sig) : St :=
  if st.fin.isSome then st
  else if s ∈ st.blocked then { st with waiting := st.waiting ++ [s] } else deliver st s

/-- The steps that matter here: installing a handler (src/common/process.c:211-216), allocating the context (src/common/process.c:223), blocking
signals (src/common/process.c:87-95), blocking none (src/common/process.c:52-53), `sigsuspend` (src/common/process.c:112), any other work, freeing the
context (src/common/process.c:238-247) and the end of `main` (src/main.c:127). -/
inductive Op where
  | install (s : Sig)
  | alloc
  | block (l : List Sig)
  | blockNone
  | suspend
  | work
  | free
  | done
deriving Repr, DecidableEq

/-- One step (src/common/process.c:51-53, 85-113, 199-247). When signals are no longer blocked those that wait are delivered. -/
def op (st : St) : Op → St
  | o => if st.fin.isSome then st else match o with
    | .install s => { st with installed := st.installed ++ [s] }
    | .alloc => { st with ctx := .live }
    | .block l => { st with blocked := st.blocked ++ l }
    | .blockNone => st.waiting.foldl deliver { st with blocked := [], waiting := [] }
    | .suspend => st.waiting.foldl deliver { st with waiting := [] }
    | .work => st
    | .free => { st with ctx := .freed }
    | .done => { st with fin := some .done }

/-- Steps, each with the signals that arrive before it (src/common/process.c:179-247). -/
def run (st : St) : List (List Sig × Op) → St
  | [] => st
  | (sigs, o) :: t => run (op (sigs.foldl arrive st) o) t

/-- A process at its start, before `modules_core_init` (src/main.c:122). -/
def init : St := ⟨[], [], [], .null, [], none⟩

/-- `process_init` (src/common/process.c:202-225): six handlers, then the context. -/
def start : List Op := [.install .int, .install .hup, .install .chld, .install .pipe, .install .usr1, .install .usr2, .alloc]

/-- The program without workers, from `modules_core_init` to the end of `main` (src/main.c:122-127, src/common/process.c:49-65): `n` and `m`
steps of other work before and after the mask is cleared, `k` after the context was freed. -/
def single (n m k : Nat) : List Op :=
  start ++ List.replicate n .work ++ [.blockNone] ++ List.replicate m .work ++ [.free] ++ List.replicate k .work ++ [.done]

/-- The master (src/main.c:122-127, src/common/process.c:81-155): it blocks four signals, starts the workers, then waits `m` times. -/
def masterOps (n m k : Nat) : List Op :=
  start ++ List.replicate n .work ++ [.block [.chld, .int, .usr1, .usr2]] ++ List.replicate n .work ++
    (List.replicate m [.suspend, .work]).flatten ++ [.free] ++ List.replicate k .work ++ [.done]

/-- A worker from the `fork` on (src/common/process.c:67-75, 49-65, 101-103, src/main.c:124-127): it has the handlers, the context and the mask of
the master. -/
def workerInit : St := ⟨[.int, .hup, .chld, .pipe, .usr1, .usr2], [.chld, .int, .usr1, .usr2], [], .live, [], none⟩

/-- Its steps (src/common/process.c:49-65, src/main.c:125-127). -/
def workerOps (n m k : Nat) : List Op :=
  List.replicate n .work ++ [.blockNone] ++ List.replicate m .work ++ [.free] ++ List.replicate k .work ++ [.done]

end Verif.Signals
