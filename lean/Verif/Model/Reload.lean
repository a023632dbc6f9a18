import Verif.Model.Process
/-
What the workers work with: the supervisor (src/common/process.c, `Process`) together with the two files that are read. The master reads the
configuration once (src/main.c:119, src/common/config.c:109-143); a worker has the master's memory (`fork`, src/common/process.c:68) and reads the key
file when it starts (src/common/process.c:55, src/common/modules.c:57, src/app/tls_tunnel_s.c:355-364).
-/
namespace Verif.Reload
open Verif

/-- What a worker works with: the text of the configuration and the text of the key file as they were when they were read. See
src/common/config.c:1-3, src/app/tls_tunnel_s.c:355-389. -/
structure Loaded where
  cfg : List UInt8
  keys : List UInt8
deriving Repr, DecidableEq

/-- The supervisor, the configuration in the master's memory, and what each worker that was started works with, newest first (`g_config`
src/common/config.c:3, `g_ses_ctx` src/app/tls_tunnel_s.c:10-13). -/
structure Sys where
  proc : Process.W
  cfg : List UInt8
  loaded : List (Nat × Loaded)
deriving Repr, DecidableEq

/-- A round of the master's loop and the contents of the two files during it (src/common/process.c:107-154). -/
structure Round where
  wake : Process.Wake
  cfgFile : List UInt8
  keyFile : List UInt8
deriving Repr, DecidableEq

/-- After the start with these files (src/main.c:119-124, src/common/process.c:97-104). Reading the key file is taken to succeed. -/
def init (pids : List Nat) (cfgFile keyFile : List UInt8) : Sys :=
  ⟨Process.init pids, cfgFile, pids.map fun p => (p, ⟨cfgFile, keyFile⟩)⟩

/-- One round: a process that is started has the master's configuration and reads the key file (src/common/process.c:67-80, 49-55,
src/app/tls_tunnel_s.c:355-389). -/
def step (s : Sys) (r : Round) : Sys :=
  let t := Process.step s.proc r.wake
  { s with proc := t.1, loaded := (t.2.forked.map fun x => (x.2, ⟨s.cfg, r.keyFile⟩)) ++ s.loaded }

/-- Several rounds (src/common/process.c:107-154). -/
def run (s : Sys) (rs : List Round) : Sys := rs.foldl step s

/-- What the worker in slot `j` works with, if there is one (src/common/process.h:11-16). -/
def inForce (s : Sys) (j : Nat) : Option Loaded :=
  match s.proc.slots[j]? with
  | some sl => if sl.exited then none else (s.loaded.find? fun x => x.1 == sl.pid).map (·.2)
  | none => none

end Verif.Reload
