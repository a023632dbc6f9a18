/-
The process table and how a process knows what it is: `process_init` (src/common/process.c:221-236), `sys_shm_alloc` (src/common/shm.c:4-13), the
start of the workers (src/common/process.c:67-104) and what a worker does when it leaves its loop (src/common/process.c:72-74, 98-104).
-/
namespace Verif.Ident

/-- `g_proc_ctx->shm.size` (src/common/process.c:228-229, `uint32` src/common/shm.h:11): twelve bytes for each process (src/common/process.h:11-16) and
four more, modulo 2³². `n` is `sys_process_num`, an `int`. -/
def shmSize (n : Int) : Nat := ((n * 12 + 4) % 4294967296).toNat

/-- The argument `int size` of `sys_shm_alloc` (src/common/shm.c:4, src/common/process.c:230). -/
def shmArg (n : Int) : Int := if shmSize n < 2147483648 then shmSize n else (shmSize n : Int) - 4294967296

/-- What `process_init` does: `mmap` fails (a negative length is converted to one that no address space has), or `bytes` bytes are mapped. See
src/common/shm.c:5-9. -/
inductive Table where
  | failed
  | mapped (bytes : Nat)
deriving Repr, DecidableEq

/-- `sys_shm_alloc` (src/common/shm.c:4-13): whole pages of 4096 bytes are mapped. `enough` tells whether the system has the memory. The `memset`
(src/common/shm.c:10) clears `shm->size` bytes, the same number. -/
def shmAlloc (n : Int) (enough : Bool) : Table :=
  if shmArg n ≤ 0 then .failed
  else if !enough then .failed
  else .mapped ((shmSize n + 4095) / 4096 * 4096)

/-- The loop that numbers the entries (src/common/process.c:233-234), from entry `i`: `none` is an access beyond the mapping; otherwise the numbers written. -/
def number (bytes i : Nat) : Nat → Option (List Nat)
  | 0 => some []
  | k + 1 => if i * 12 + 4 ≤ bytes then (number bytes (i + 1) k).map (i :: ·) else none

/-- `process_init` from the table on (src/common/process.c:228-235): `none` is a crash, `some none` a failed start, otherwise the numbers of the entries. -/
def processInit (n : Int) (enough : Bool) : Option (Option (List Nat)) :=
  match shmAlloc n enough with
  | .failed => some none
  | .mapped b => (number b 0 n.toNat).map some

/-- `L_PROCESS_MASTER` (src/common/process.c:4). -/
def master : Nat := 255

/-- Whether a process whose `process_id` is `id` takes itself for the master (src/common/process.c:102, 137, 183). -/
def isMaster (id : Nat) : Bool := id == master

/-- The loop that starts the workers (src/common/process.c:97-104) in a process with `process_id` `id`, from worker `i` of `n` on: the workers
it starts. All `fork`s succeed; a process that does not take itself for the master leaves after the first. -/
def spawn (id i : Nat) : Nat → List Nat
  | 0 => []
  | k + 1 => i :: (if isMaster id then spawn id (i + 1) k else [])

/-- What a worker does after it was told to stop and has left its loop (src/common/process.c:64-65, 72-74, 102-104): it ends, or it goes on with
the loop of its parent, starting these workers and then supervising the table. -/
inductive After where
  | ends
  | supervises (started : List Nat)
deriving Repr, DecidableEq

/-- Worker `i` of `n` after its loop, if the master started it in the first loop (src/common/process.c:72-74: `process_id` is the number of its entry). -/
def afterLoop (n i : Nat) : After := if isMaster i then .supervises (spawn i (i + 1) (n - (i + 1))) else .ends

/-- The same for a worker that was started again later (src/common/process.c:131-140), in the loop over the entries from `i` on; `exited` are
the entries marked as exited at that time. -/
def afterRestart (n i : Nat) (exited : Nat → Bool) : After :=
  if isMaster i then .supervises ((List.range n).filter fun j => decide (i < j) && exited j) else .ends

/-- What the handler of SIGCHLD does in process `id`: it waits for children (src/common/process.c:183-188). -/
def waits (id : Nat) : Bool := isMaster id

end Verif.Ident
