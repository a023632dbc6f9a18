import Verif.Model.Start
import Verif.Proofs.Auth
/-
Properties C88 and C89: starting the program and its workers.
-/
namespace Verif.Start
open Verif

/-! ### C88: `main` -/

/-- C88, part: the PID file holds the number of a process exactly if that process is the one that goes on to run the program; and if nothing
runs and the started process is not a daemon's parent, the user sees a failure. Missing: see the counterexamples. -/
theorem c88_pid_partial (e : Env) :
    (∀ w, (main e).file = .pid w ↔ (main e).runs = some w) ∧
      ((main e).runs = some .starter → (main e).status = none) ∧
      (e.daemon = false → (main e).runs = none → (main e).status = some (-1)) ∧
      (e.daemon = true → (main e).runs = none → e.fork = false → (main e).status = some (-1)) := by
  refine ⟨fun w => ?_, ?_⟩
  · cases w <;> unfold main mainRest <;> grind (splits := 40)
  · unfold main mainRest
    grind (splits := 40)

/-- C88, part: when every call succeeds the program runs, in a child exactly if the configuration asks for a daemon. -/
theorem c88_runs_partial (e : Env) (h : e.fork ∧ e.setsid ∧ e.null ∧ e.dup0 ∧ e.dup1 ∧ e.pidOpen ∧ e.pidWrite ∧ e.log ∧ e.proc ∧ e.listen) :
    (main e).runs = some (if e.daemon then .child else .starter) := by
  unfold main mainRest
  grind (splits := 40)

/-- C88 as stated is false: a daemon's start is reported as a success whatever happens to it, for instance when a port cannot be bound. -/
theorem c88_status_counterexample (e : Env) (hd : e.daemon = true) (hf : e.fork = true) :
    (main e).status = some 0 ∧ (e.listen = false → (main e).runs = none) := by
  unfold main mainRest
  grind (splits := 40)

/-- C88 as stated is false: when the number cannot be written, a file without a usable number is left behind. -/
theorem c88_file_counterexample (e : Env) (hd : e.daemon = false) (ho : e.pidOpen = true) (hw : e.pidWrite = false) :
    (main e).runs = none ∧ (main e).file = .broken := by
  unfold main mainRest
  grind (splits := 40)

/-- Everything works. -/
def good : Env := ⟨true, true, true, true, true, true, true, true, true, true, true⟩

/-- Cases for `c88_pid_partial`, `c88_runs_partial` and `c88_status_counterexample`. -/
example : main good = ⟨some .child, .pid .child, some 0⟩ := by decide
example : main { good with daemon := false } = ⟨some .starter, .pid .starter, none⟩ := by decide
example : main { good with listen := false } = ⟨none, .removed, some 0⟩ := by decide
example : main { good with daemon := false, listen := false } = ⟨none, .removed, some (-1)⟩ := by decide
example : main { good with daemon := false, pidWrite := false } = ⟨none, .broken, some (-1)⟩ := by decide

/-! ### C89: workers -/

/-- A worker gets everything it asks for. -/
def WEnv.Ready (e : WEnv) : Prop :=
  e.pool = true ∧ e.heap = true ∧ e.epoll = true ∧
    (e.server = true → e.matcher = true ∧ e.keyOpen = true ∧ e.keyRead = true ∧ ∃ m, Auth.load e.keys = .ok m)

/-- C89, part: a worker handles a web request, and a request for a host name, exactly if everything could be initialised: the pool, the heap,
`epoll`, and in server mode the matcher with the keys of the key file. Missing: a worker that lacks one of these goes on nevertheless. -/
theorem c89_web_partial (e : WEnv) :
    (worker e .web = .handled ↔ e.Ready) ∧ (worker e .name = .handled ↔ e.Ready) := by
  obtain ⟨s, p, h, ep, ma, ko, kr, ks⟩ := e
  unfold WEnv.Ready worker workerInit tunnelInit work
  cases p <;> cases s <;> cases h <;> cases ep <;> cases ma <;> cases ko <;> cases kr <;> simp <;>
    cases Auth.load ks <;> simp

/-- C89, part: a worker that lacks its keys admits nobody. A key is admitted exactly by a tunnel server that has everything it needs and whose
keys, as loaded from the key file, contain it. -/
theorem c89_no_keys_partial (e : WEnv) (text : List UInt8) :
    worker e (.key text) = .verdict true ↔ e.Ready ∧ e.server = true ∧ ∃ m cur, Auth.load e.keys = .ok m ∧ Aho.find m.trie m.fails m.cur text = .ok (.match_, cur) := by
  have hfind : ∀ t : List UInt8, Aho.find Aho.empty [] [] t = .ok (.noMatch, []) := by
    intro t
    induction t with
    | nil => rfl
    | cons b t ih => simp only [Aho.find, Aho.empty, List.not_mem_nil, if_false, Aho.failOf, if_true]; exact ih
  constructor
  rotate_left
  · intro ⟨⟨h1, h2, h3, h4⟩, h5, m, cur, hm, hf⟩
    obtain ⟨h6, h7, h8, -⟩ := h4 h5
    simp [worker, workerInit, tunnelInit, work, h1, h2, h3, h5, h6, h7, h8, hm, hf]
  intro h
  obtain ⟨s, p, hp, ep, ma, ko, kr, ks⟩ := e
  unfold worker workerInit tunnelInit work at h
  unfold WEnv.Ready
  cases hl : Auth.load ks with
  | error _ =>
    cases p <;> cases s <;> cases hp <;> cases ep <;> cases ma <;> cases ko <;> cases kr <;> simp [hfind, hl] at h <;> split at h <;> simp at h
  | ok m =>
    cases p <;> cases s <;> cases hp <;> cases ep <;> cases ma <;> cases ko <;> cases kr <;> simp [hfind, hl] at h ⊢ <;> split at h <;> simp at h
    rename_i hf
    exact ⟨_, hf⟩

/-- Case for `c89_no_keys_partial`: a key that is admitted, and the empty text in a client, which has no keys. -/
example : worker ⟨true, true, true, true, true, true, true, [[107, 49]]⟩ (.key [107, 49]) = .verdict true ∧
    worker ⟨false, true, true, true, true, true, true, []⟩ (.key []) = .verdict false := by
  refine ⟨?_, ?_⟩ <;> decide +kernel

/-- C89 as stated is false: a tunnel server whose key file cannot be opened goes on with the web server and the resolver uninitialised. It
refuses every key, and the first web request makes it dereference NULL. -/
theorem c89_keyfile_counterexample (keys : List (List UInt8)) (readable : Bool) (text : List UInt8) :
    let e : WEnv := ⟨true, true, true, true, true, false, readable, keys⟩
    worker e .idle = .handled ∧ worker e .web = .crash ∧ worker e .name = .crash ∧ worker e (.key text) = .verdict false := by
  have hfind : ∀ t : List UInt8, Aho.find Aho.empty [] [] t = .ok (.noMatch, []) := by
    intro t
    induction t with
    | nil => rfl
    | cons b t ih => simp only [Aho.find, Aho.empty, List.not_mem_nil, if_false, Aho.failOf, if_true]; exact ih
  simp [worker, workerInit, tunnelInit, work, hfind]

/-- Case: no key file; a web request is met by a crash. -/
example : worker ⟨true, true, true, true, true, false, false, []⟩ .web = .crash := (c89_keyfile_counterexample [] false []).2.1

/-- C89 as stated is false: without memory for the pool or the timer heap the worker crashes at once, in every mode. -/
theorem c89_memory_counterexample (e : WEnv) (h : e.pool = false ∨ e.heap = false) : worker e .idle = .crash := by
  obtain ⟨s, p, hp, ep, ma, ko, kr, ks⟩ := e
  unfold worker workerInit tunnelInit work
  cases p <;> cases s <;> cases hp <;> cases ep <;> cases ma <;> cases ko <;> cases kr <;> simp at h ⊢ <;>
    cases Auth.load ks <;> simp

/-- Case: no memory for the pool. -/
example : worker ⟨true, false, true, true, true, true, true, [[107, 49]]⟩ .idle = .crash := c89_memory_counterexample _ (.inl rfl)

/-- C89 as stated is false: if `epoll_create1` fails the worker runs but never notices any request. -/
theorem c89_epoll_counterexample (keys : List (List UInt8)) (j : Job) :
    worker ⟨false, true, true, false, true, true, true, keys⟩ j = .ignored := by
  simp [worker, workerInit, tunnelInit, work]

/-- A server with one key: it serves, admits the key and refuses another text. -/
def one : WEnv := ⟨true, true, true, true, true, true, true, [[107, 49]]⟩

/-- Case for `c89_web_partial`. -/
example : worker one .web = .handled ∧ worker one (.key [107, 49]) = .verdict true ∧ worker one (.key [120]) = .verdict false := by
  refine ⟨?_, ?_, ?_⟩ <;> decide +kernel

example : one.Ready :=
  ⟨rfl, rfl, rfl, fun _ => ⟨rfl, rfl, rfl, ⟨⟨Aho.addAll [[107, 49]], [([49, 107], []), ([107], [])], []⟩, by decide +kernel⟩⟩⟩

end Verif.Start
