import Verif.Model.Ssl
/-
Properties C40 (TLS callbacks are restored) and C58 (a TLS failure does not stop the worker).
-/
namespace Verif.Ssl
open Verif.Event (Mask Mask.none)

/-! ### C40: reads and writes -/

/-- Whether a read (write) waits after a sequence of operations: the last read (write) ended with a want. -/
def waits (sel : Op → Option Res) : Bool → List Op → Bool
  | b, [] => b
  | b, o :: l => match sel o with
    | none => waits sel b l
    | some .ok => waits sel false l
    | some .wantR => waits sel true l
    | some .wantW => waits sel true l
    | some .err => waits sel b l

/-- Result of a read. -/
def ofRead : Op → Option Res
  | .read r => some r
  | _ => none

/-- Result of a write. -/
def ofWrite : Op → Option Res
  | .write r => some r
  | _ => none

/-- An operation of the TLS layer (not of the application). -/
def isIo : Op → Bool
  | .read _ => true
  | .write _ => true
  | _ => false

/-- Invariant while the application has interest `o` and callbacks `r`, `w` installed; `pr`, `pw`: a read, a write waits. -/
structure Inv (o : Mask) (r w : Nat) (pr pw : Bool) (s : S) : Prop where
  typ : s.typ = Mask.none ∧ s.opt = o ∨ s.typ = o
  ccr : s.ccr = none ∨ s.ccr = some (.app r)
  ccw : s.ccw = none ∨ s.ccw = some (.app w)
  rcb : s.rcb = some (.app r) ∨ s.rcb = some .wr ∧ s.ccr = some (.app r) ∧ pw = true
  wcb : s.wcb = some (.app w) ∨ s.wcb = some .rd ∧ s.ccw = some (.app w) ∧ pr = true
  idle : pr = false → pw = false → s.opt = o

theorem inv_step {o : Mask} (ho : o ≠ Mask.none) {r w : Nat} {pr pw : Bool} {s : S} (h : Inv o r w pr pw s) (op : Op) (hio : isIo op = true) :
    Inv o r w (waits ofRead pr [op]) (waits ofWrite pw [op]) (step s op) := by
  obtain ⟨opt, rcb, wcb, typ, ccr, ccw⟩ := s
  obtain ⟨h1, h2, h3, h4, h5, h6⟩ := h
  simp only at h1 h2 h3 h4 h5 h6
  cases op with
  | setR => simp [isIo] at hio
  | setW => simp [isIo] at hio
  | opt => simp [isIo] at hio
  | read res =>
    cases res <;> rcases h1 with ⟨h1, h1'⟩ | h1 <;> rcases h2 with h2 | h2 <;> rcases h3 with h3 | h3 <;>
      rcases h4 with h4 | ⟨h4, h4', h4''⟩ <;> rcases h5 with h5 | ⟨h5, h5', h5''⟩ <;>
      simp_all [step, read, cache, restoreTyp, restoreW, waits, ofRead, ofWrite] <;> constructor <;> simp_all
  | write res =>
    cases res <;> rcases h1 with ⟨h1, h1'⟩ | h1 <;> rcases h2 with h2 | h2 <;> rcases h3 with h3 | h3 <;>
      rcases h4 with h4 | ⟨h4, h4', h4''⟩ <;> rcases h5 with h5 | ⟨h5, h5', h5''⟩ <;>
      simp_all [step, write, cache, restoreTyp, restoreR, waits, ofRead, ofWrite] <;> constructor <;> simp_all

theorem waits_append (sel : Op → Option Res) (b : Bool) (l m : List Op) : waits sel b (l ++ m) = waits sel (waits sel b l) m := by
  induction l generalizing b with
  | nil => rfl
  | cons o l ih =>
    simp only [List.cons_append, waits]
    cases sel o with
    | none => exact ih b
    | some r => cases r <;> exact ih _

theorem inv_run {o : Mask} (ho : o ≠ Mask.none) {r w : Nat} (ops : List Op) (hio : ∀ op ∈ ops, isIo op = true) {pr pw : Bool} {s : S}
    (h : Inv o r w pr pw s) : Inv o r w (waits ofRead pr ops) (waits ofWrite pw ops) (run s ops) := by
  induction ops generalizing pr pw s with
  | nil => exact h
  | cons op ops ih =>
    have := ih (fun x hx => hio x (List.mem_cons_of_mem _ hx)) (inv_step ho h op (hio op (List.mem_cons_self ..)))
    rw [show op :: ops = [op] ++ ops from rfl, waits_append, waits_append]
    exact this

theorem run_snoc (s : S) (ops : List Op) (op : Op) : run s (ops ++ [op]) = step (run s ops) op := by
  simp [run]

/-- An application's connection: interest `o`, callbacks `r` and `w`, nothing cached. -/
def clean (o : Mask) (r w : Nat) : S := { opt := o, rcb := some (.app r), wcb := some (.app w) }

theorem inv_clean (o : Mask) (r w : Nat) : Inv o r w false false (clean o r w) :=
  ⟨.inl ⟨rfl, rfl⟩, .inl rfl, .inl rfl, .inl rfl, .inl rfl, fun _ _ => rfl⟩

/-- C40 (partial, reads and writes): the application has an interest and both callbacks installed. After every sequence of reads and writes,
each succeeding, waiting for either readiness or failing: if neither a read nor a write waits, interest and both callbacks are the
application's. Missing: callbacks that are NULL, and changes by the application while an operation waits; both are false of the code
(counterexamples below). -/
theorem c40_restored_partial (o : Mask) (ho : o ≠ Mask.none) (r w : Nat) (ops : List Op) (hio : ∀ op ∈ ops, isIo op = true)
    (hr : waits ofRead false ops = false) (hw : waits ofWrite false ops = false) :
    (run (clean o r w) ops).opt = o ∧ (run (clean o r w) ops).rcb = some (.app r) ∧
      (run (clean o r w) ops).wcb = some (.app w) := by
  have h := inv_run ho ops hio (inv_clean o r w)
  rw [hr, hw] at h
  refine ⟨h.idle rfl rfl, ?_, ?_⟩
  · rcases h.rcb with h | h
    · exact h
    · simp at h
  · rcases h.wcb with h | h
    · exact h
    · simp at h

/-- C40: a successful read restores interest and write callback even if a write waits, and a successful write restores interest and read
callback even if a read waits. -/
theorem c40_restored_one_partial (o : Mask) (ho : o ≠ Mask.none) (r w : Nat) (ops : List Op) (hio : ∀ op ∈ ops, isIo op = true) :
    ((run (clean o r w) (ops ++ [.read .ok])).opt = o ∧ (run (clean o r w) (ops ++ [.read .ok])).wcb = some (.app w)) ∧
    ((run (clean o r w) (ops ++ [.write .ok])).opt = o ∧ (run (clean o r w) (ops ++ [.write .ok])).rcb = some (.app r)) := by
  have h := inv_run ho ops hio (inv_clean o r w)
  simp only [run_snoc]
  generalize run (clean o r w) ops = s at h
  obtain ⟨h1, h2, h3, h4, h5, -⟩ := h
  obtain ⟨opt, rcb, wcb, typ, ccr, ccw⟩ := s
  simp only at h1 h2 h3 h4 h5
  constructor
  · rcases h1 with ⟨h1, h1'⟩ | h1 <;> rcases h3 with h3 | h3 <;> rcases h5 with h5 | ⟨h5, h5', h5''⟩ <;>
      simp_all [step, read, restoreTyp, restoreW]
  · rcases h1 with ⟨h1, h1'⟩ | h1 <;> rcases h2 with h2 | h2 <;> rcases h4 with h4 | ⟨h4, h4', h4''⟩ <;>
      simp_all [step, write, restoreTyp, restoreR]

/-- C40: wake-up. After every such sequence in which no write waits, a read that has to wait makes the event it waits for call the
application's read callback; likewise for a write when no read waits. -/
theorem c40_wakeup_partial (o : Mask) (ho : o ≠ Mask.none) (r w : Nat) (ops : List Op) (hio : ∀ op ∈ ops, isIo op = true) :
    (waits ofWrite false ops = false →
      (let s := run (clean o r w) (ops ++ [.read .wantR]); s.opt = ⟨true, false⟩ ∧ Reaches s s.rcb r) ∧
      (let s := run (clean o r w) (ops ++ [.read .wantW]); s.opt = ⟨false, true⟩ ∧ Reaches s s.wcb r)) ∧
    (waits ofRead false ops = false →
      (let s := run (clean o r w) (ops ++ [.write .wantW]); s.opt = ⟨false, true⟩ ∧ Reaches s s.wcb w) ∧
      (let s := run (clean o r w) (ops ++ [.write .wantR]); s.opt = ⟨true, false⟩ ∧ Reaches s s.rcb w)) := by
  have h := inv_run ho ops hio (inv_clean o r w)
  simp only [run_snoc]
  generalize run (clean o r w) ops = s at h
  constructor
  · intro hw
    rw [hw] at h
    have hr : s.rcb = some (.app r) := by
      rcases h.rcb with h | h
      · exact h
      · simp at h
    refine ⟨⟨rfl, ?_⟩, ⟨rfl, ?_⟩⟩
    · show Reaches _ s.rcb r
      rw [hr]; exact .app r
    · refine .rd ?_
      show Reaches _ s.rcb r
      rw [hr]; exact .app r
  · intro hr
    rw [hr] at h
    have hw : s.wcb = some (.app w) := by
      rcases h.wcb with h | h
      · exact h
      · simp at h
    refine ⟨⟨rfl, ?_⟩, ⟨rfl, ?_⟩⟩
    · show Reaches _ s.wcb w
      rw [hw]; exact .app w
    · refine .wr ?_
      show Reaches _ s.wcb w
      rw [hw]; exact .app w

/-- The interest to return to is `o`. -/
def Aims (o : Mask) (s : S) : Prop := (s.typ = Mask.none ∧ s.opt = o) ∨ s.typ = o

theorem aims_step {o : Mask} (ho : o ≠ Mask.none) {s : S} (h : Aims o s) (op : Op) (hio : isIo op = true) : Aims o (step s op) := by
  obtain ⟨opt, rcb, wcb, typ, ccr, ccw⟩ := s
  simp only [Aims] at h ⊢
  rcases h with ⟨rfl, rfl⟩ | rfl
  · cases op with
    | read r => cases r <;> by_cases hc : ccw = none <;> simp_all [step, read, restoreTyp, restoreW, cache]
    | write r => cases r <;> by_cases hc : ccr = none <;> simp_all [step, write, restoreTyp, restoreR, cache]
    | _ => cases hio
  · cases op with
    | read r => cases r <;> by_cases hc : ccw = none <;> simp_all [step, read, restoreTyp, restoreW, cache]
    | write r => cases r <;> by_cases hc : ccr = none <;> simp_all [step, write, restoreTyp, restoreR, cache]
    | _ => cases hio

theorem aims_run {o : Mask} (ho : o ≠ Mask.none) (ops : List Op) (hio : ∀ op ∈ ops, isIo op = true) {s : S} (h : Aims o s) : Aims o (run s ops) := by
  induction ops generalizing s with
  | nil => exact h
  | cons op ops ih => exact ih (fun x hx => hio x (List.mem_cons_of_mem _ hx)) (aims_step ho h op (hio op (by simp)))

theorem ok_typ (s : S) (op : Op) (h : op = .read .ok ∨ op = .write .ok) : (step s op).typ = Mask.none := by
  rcases h with rfl | rfl <;> simp only [step, read, write, restoreW, restoreR, restoreTyp] <;> (repeat' split) <;> simp_all

theorem aims_ok {o : Mask} (ho : o ≠ Mask.none) {s : S} (h : Aims o s) (op : Op) (hok : op = .read .ok ∨ op = .write .ok) : (step s op).opt = o := by
  obtain ⟨opt, rcb, wcb, typ, ccr, ccw⟩ := s
  simp only [Aims] at h
  rcases h with ⟨rfl, rfl⟩ | rfl <;> rcases hok with rfl | rfl <;> simp only [step, read, write, restoreW, restoreR, restoreTyp] <;>
    (repeat' split) <;> simp_all

/-- C40: an interest that the application sets when an operation has succeeded is the one that counts from then on. Whatever the state was:
after any reads and writes that follow, each succeeding, waiting or failing, the next success brings back this interest and no former one. -/
theorem c40_new_interest (s : S) (o : Mask) (ho : o ≠ Mask.none) (a b : Op) (ha : a = .read .ok ∨ a = .write .ok) (hb : b = .read .ok ∨ b = .write .ok)
    (ops : List Op) (hio : ∀ op ∈ ops, isIo op = true) : (run s ([a, .opt o] ++ ops ++ [b])).opt = o := by
  rw [run_snoc]
  refine aims_ok ho ?_ b hb
  rw [show run s ([a, .opt o] ++ ops) = run (step (step s a) (.opt o)) ops by simp [run]]
  exact aims_run ho ops hio (Or.inl ⟨ok_typ s a ha, rfl⟩)

/-- Case: reading and writing after a wait for reading only; a write then waits. -/
example : (run (clean ⟨true, false⟩ 1 2) ([.read .wantR] ++ ([.read .ok, .opt ⟨true, true⟩] ++ [.write .wantW] ++ [.write .ok]))).opt = ⟨true, true⟩ := by
  rw [run, List.foldl_append]
  exact c40_new_interest _ _ (by decide) _ _ (.inl rfl) (.inr rfl) [.write .wantW] (by simp [isIo])

/-- Case for `c40_restored_partial` and `c40_restored_one_partial`: a read waits for writability, then succeeds; a write waits for readability, then succeeds. -/
example : waits ofRead false [.read .wantW, .read .wantR, .read .ok, .write .wantR, .write .ok] = false ∧
    waits ofWrite false [.read .wantW, .read .wantR, .read .ok, .write .wantR, .write .ok] = false ∧
    (run (clean ⟨true, true⟩ 1 2) [.read .wantW, .read .wantR, .read .ok, .write .wantR, .write .ok]) =
      { opt := ⟨true, true⟩, rcb := some (.app 1), wcb := some (.app 2), typ := Mask.none, ccr := none, ccw := some (.app 2) } := by decide

/-- C40 is false of the code. The application installs a new write callback while a read waits: the read's completion puts the old one back.
For all callbacks and interests, either kind of waiting. -/
theorem c40_stale_write_callback_counterexample (o : Mask) (r w w' : Nat) (res : Res) (hres : res = .wantR ∨ res = .wantW) :
    (run (clean o r w) [.read res, .setW (some w'), .read .ok]).wcb = some (.app w) := by
  rcases hres with rfl | rfl <;> obtain ⟨_ | _, _ | _⟩ := o <;> exact rfl

/-- Case: callback 9 is installed while a read waits, and lost. -/
example : (run (clean ⟨true, true⟩ 1 2) [.read .wantW, .setW (some 9), .read .ok]).wcb = some (.app 2) :=
  c40_stale_write_callback_counterexample _ 1 2 9 _ (.inr rfl)

/-- C40: the same for read callbacks. A read waits and then succeeds, the application moves on to its next read callback and writes
successfully: the read callback is the one of the earlier stage again. This is the sequence of every server session that waits for the
greeting (src/app/socks5.c:390-431, where the write handler happens to set the callback once more). -/
theorem c40_stale_read_callback_counterexample (o : Mask) (r w r' : Nat) (res : Res) (hres : res = .wantR ∨ res = .wantW) :
    (run (clean o r w) [.read res, .read .ok, .setR (some r'), .write .ok]).rcb = some (.app r) := by
  rcases hres with rfl | rfl <;> obtain ⟨_ | _, _ | _⟩ := o <;> exact rfl

/-- Case: callback 9 is installed after a read has succeeded; a write puts back the old one. -/
example : (run (clean ⟨true, true⟩ 1 2) [.read .wantR, .read .ok, .setR (some 9), .write .ok]).rcb = some (.app 1) :=
  c40_stale_read_callback_counterexample _ 1 2 9 _ (.inl rfl)

/-- C40: the application changes its interest while a read waits: completion puts the old interest back. -/
theorem c40_stale_interest_counterexample (o o' : Mask) (ho : o ≠ Mask.none) (r w : Nat) :
    (run (clean o r w) [.read .wantR, .opt o', .read .ok]).opt = o := by
  simp [run, step, read, clean, cache, restoreTyp, restoreW, ho, maskR]

/-- Case: from reading to writing while a read waits. -/
example : (run (clean ⟨true, false⟩ 1 2) [.read .wantR, .opt ⟨false, true⟩, .read .ok]).opt = ⟨true, false⟩ :=
  c40_stale_interest_counterexample _ _ (by decide) 1 2

/-- C40: with no write callback installed (every server connection while it reads), a read that waited for writability leaves
`ssl_read_cb` as write callback for good. If the application then clears its read callback because its buffer is full
(src/app/tls_tunnel_s.c:78), the next writability event calls NULL. -/
theorem c40_null_call_counterexample (o : Mask) (r : Nat) :
    let s := run { clean o r 0 with wcb := none } [.read .wantW, .read .ok, .setR none]
    s.wcb = some .rd ∧ CallsNull s s.wcb ∧ ∀ n, ¬ Reaches s s.wcb n := by
  have hw : (run { clean o r 0 with wcb := none } [.read .wantW, .read .ok, .setR none]).wcb = some .rd ∧
      (run { clean o r 0 with wcb := none } [.read .wantW, .read .ok, .setR none]).rcb = none := by
    obtain ⟨_ | _, _ | _⟩ := o <;> exact ⟨rfl, rfl⟩
  intro s
  obtain ⟨h1, h2⟩ := hw
  change s.wcb = some .rd at h1
  change s.rcb = none at h2
  refine ⟨h1, ?_, ?_⟩
  · rw [h1]; refine .rd ?_; rw [h2]; exact .null
  · intro n hn
    rw [h1] at hn
    cases hn with
    | rd h => rw [h2] at h; cases h

/-- C40: a read waiting for writability and a write waiting for readability call each other without end: no event ever reaches the
application. -/
theorem c40_endless_counterexample (o : Mask) (r w : Nat) :
    let s := run (clean o r w) [.read .wantW, .write .wantR]
    ∀ n, ¬ Reaches s s.rcb n ∧ ¬ Reaches s s.wcb n := by
  have hw : (run (clean o r w) [.read .wantW, .write .wantR]).wcb = some .rd ∧
      (run (clean o r w) [.read .wantW, .write .wantR]).rcb = some .wr := by
    obtain ⟨_ | _, _ | _⟩ := o <;> exact ⟨rfl, rfl⟩
  intro s n
  obtain ⟨h1, h2⟩ := hw
  change s.wcb = some .rd at h1
  change s.rcb = some .wr at h2
  have key : ∀ c, Reaches s c n → c = some .rd ∨ c = some .wr → False := by
    intro c h
    induction h with
    | app n => intro h; simp at h
    | rd _ ih => intro _; exact ih (.inr h2)
    | wr _ ih => intro _; exact ih (.inl h1)
  exact ⟨fun h => key _ h (.inr h2), fun h => key _ h (.inl h1)⟩

/-! ### C40: handshake -/

/-- What is left of the application's callback `cb` after a handshake: `ssl_handshake_cb` stays if there was none and it was used. -/
def left (used : Bool) (cb : Option Nat) : Option Cb := if cb = none ∧ used = true then some .hs else cb.map .app

/-- Invariant of the handshake: `a`, `b`: reading, writing was waited for. -/
structure Hs (o : Mask) (r w : Option Nat) (a b : Bool) (s : S) : Prop where
  typ : s.typ = Mask.none ∧ s.opt = o ∨ s.typ = o
  rcb : s.rcb = if a then some .hs else r.map .app
  wcb : s.wcb = if b then some .hs else w.map .app
  ccr : (s.ccr = none ∧ (a = true → r = none)) ∨ s.ccr = left a r
  ccw : (s.ccw = none ∧ (b = true → w = none)) ∨ s.ccw = left b w

theorem hs_init (o : Mask) (r w : Option Nat) : Hs o r w false false { opt := o, rcb := r.map .app, wcb := w.map .app } :=
  ⟨.inl ⟨rfl, rfl⟩, rfl, rfl, .inl ⟨rfl, by simp⟩, .inl ⟨rfl, by simp⟩⟩

theorem hs_step {o : Mask} (ho : o ≠ Mask.none) {r w : Option Nat} {a b : Bool} {s : S} (h : Hs o r w a b s) (x : Res)
    (hx : x = .wantR ∨ x = .wantW) : Hs o r w (a || x == .wantR) (b || x == .wantW) (handshake s x) := by
  obtain ⟨opt, rcb, wcb, typ, ccr, ccw⟩ := s
  obtain ⟨h1, h2, h3, h4, h5⟩ := h
  simp only at h1 h2 h3 h4 h5
  rcases hx with rfl | rfl <;> cases a <;> cases b <;> cases r <;> cases w <;> rcases h1 with ⟨h1, h1'⟩ | h1 <;>
    rcases h4 with ⟨h4, h4'⟩ | h4 <;> rcases h5 with ⟨h5, h5'⟩ | h5 <;>
    simp_all [handshake, cache, left] <;> constructor <;> simp_all [left]

theorem hs_run {o : Mask} (ho : o ≠ Mask.none) {r w : Option Nat} (ws : List Res) (hws : ∀ x ∈ ws, x = .wantR ∨ x = .wantW) {a b : Bool}
    {s : S} (h : Hs o r w a b s) : Hs o r w (a || ws.contains .wantR) (b || ws.contains .wantW) (ws.foldl handshake s) := by
  induction ws generalizing a b s with
  | nil => simpa using h
  | cons x ws ih =>
    have := ih (fun y hy => hws y (List.mem_cons_of_mem _ hy)) (hs_step ho h x (hws x (List.mem_cons_self ..)))
    rw [List.foldl_cons]
    have e : ∀ (c : Bool) (y : Res), (c || x == y || ws.contains y) = (c || (x :: ws).contains y) := by
      intro c y
      rw [List.contains_cons, Bool.or_assoc]
      congr 2
      cases x <;> cases y <;> rfl
    rw [e, e] at this
    exact this

/-- C40 (handshake): for every interest, every callbacks (NULL or not) and every sequence of waits, after the successful end of the handshake
the interest is the application's, and each callback is the application's, except that one that was NULL and was used for waiting
remains `ssl_handshake_cb`. -/
theorem c40_handshake (o : Mask) (ho : o ≠ Mask.none) (r w : Option Nat) (ws : List Res) (hws : ∀ x ∈ ws, x = .wantR ∨ x = .wantW) :
    let s := handshakeDone (ws.foldl handshake { opt := o, rcb := r.map .app, wcb := w.map .app })
    s.opt = o ∧ s.rcb = left (ws.contains .wantR) r ∧ s.wcb = left (ws.contains .wantW) w ∧ s.ccr = none ∧ s.ccw = none := by
  have h := hs_run ho ws hws (hs_init o r w)
  simp only [Bool.false_or] at h
  generalize ws.foldl handshake _ = s at h
  generalize ws.contains .wantR = a at h ⊢
  generalize ws.contains .wantW = b at h ⊢
  obtain ⟨opt, rcb, wcb, typ, ccr, ccw⟩ := s
  obtain ⟨h1, h2, h3, h4, h5⟩ := h
  simp only at h1 h2 h3 h4 h5
  cases a <;> cases b <;> cases r <;> cases w <;> rcases h1 with ⟨h1, h1'⟩ | h1 <;> rcases h4 with ⟨h4, h4'⟩ | h4 <;>
    rcases h5 with ⟨h5, h5'⟩ | h5 <;> simp_all [handshakeDone, restoreR, restoreW, left]

/-- C40: when the handshake ends, the application's callback is called: the write callback if there is one, else the read callback, provided
no callback that was NULL was used for waiting. -/
theorem c40_handshake_next_partial (o : Mask) (ho : o ≠ Mask.none) (r w : Option Nat) (ws : List Res)
    (hws : ∀ x ∈ ws, x = .wantR ∨ x = .wantW) (hw : w = none → Res.wantW ∉ ws) (hr : r = none → w = none → Res.wantR ∉ ws) :
    handshakeNext (handshakeDone (ws.foldl handshake { opt := o, rcb := r.map .app, wcb := w.map .app })) = (w.or r).map .app := by
  obtain ⟨-, h1, h2, -, -⟩ := c40_handshake o ho r w ws hws
  unfold handshakeNext
  rw [h1, h2]
  cases w with
  | some w => simp [left]
  | none =>
    have : ws.contains .wantW = false := by simpa using hw rfl
    cases r with
    | some r => simpa [left] using hw rfl
    | none =>
      have : ws.contains .wantR = false := by simpa using hr rfl rfl
      simp_all [left]

/-- Case for `c40_handshake`: a client (write callback, interest in writing) that waits three times. -/
example : handshakeDone ([.wantR, .wantW, .wantR].foldl handshake { opt := maskW, rcb := none, wcb := some (.app 7) }) =
    { opt := maskW, rcb := some .hs, wcb := some (.app 7), typ := maskW, ccr := none, ccw := none } := by decide

/-- C40: a server connection (read callback only) whose handshake has to wait for writability: at the end `ssl_handshake_cb` calls itself,
and since nothing has changed, again and again, whatever else it waited for. -/
theorem c40_handshake_loop_counterexample (o : Mask) (ho : o ≠ Mask.none) (r : Option Nat) (ws : List Res)
    (hws : ∀ x ∈ ws, x = .wantR ∨ x = .wantW) (hw : Res.wantW ∈ ws) :
    let s := handshakeDone (ws.foldl handshake { opt := o, rcb := r.map .app, wcb := none })
    handshakeNext s = some .hs ∧ handshakeNext (handshakeDone (handshake s .ok)) = some .hs ∧
      (s.typ = o → handshakeDone (handshake s .ok) = s) := by
  obtain ⟨h0, h1, h2, h3, h4⟩ := c40_handshake o ho r none ws hws
  intro s
  change s.opt = o at h0
  change s.wcb = _ at h2
  change s.ccr = none at h3
  change s.ccw = none at h4
  have hc : ws.contains .wantW = true := by simpa using hw
  rw [hc] at h2
  simp only [left, and_self, if_true] at h2
  clear_value s
  obtain ⟨opt, rcb, wcb, typ, ccr, ccw⟩ := s
  simp only at h0 h2 h3 h4
  subst h0 h2 h3 h4
  refine ⟨rfl, ?_, ?_⟩
  · by_cases ht : typ = Mask.none <;> simp [handshakeNext, handshakeDone, handshake, restoreR, restoreW, ht]
  · intro ht
    simp only at ht
    subst ht
    simp [handshakeDone, handshake, restoreR, restoreW, ho]

/-- Case: a handshake that waited once for reading and once for writing. -/
example : handshakeNext (handshakeDone ([.wantR, .wantW].foldl handshake { opt := ⟨true, false⟩, rcb := some (.app 1), wcb := none })) = some .hs :=
  (c40_handshake_loop_counterexample ⟨true, false⟩ (by decide) (some 1) [.wantR, .wantW] (by decide) (by decide)).1

/-- C40: the cached interest survives the handshake, so the first successful read after it undoes the interest the application asked for in
between (a server asks for reading and writing when it starts to relay, src/app/tls_tunnel_s.c:226). -/
theorem c40_handshake_interest_counterexample (o o' : Mask) (ho : o ≠ Mask.none) (r : Nat) (rest : List Res)
    (hws : ∀ x ∈ rest, x = .wantR) :
    (run (handshakeDone ((.wantR :: rest).foldl handshake { opt := o, rcb := some (.app r), wcb := none })) [.opt o', .read .ok]).opt = o := by
  have ht : ((.wantR :: rest).foldl handshake { opt := o, rcb := some (.app r), wcb := none }).typ = o := by
    have key : ∀ (l : List Res) (s : S), (∀ x ∈ l, x = .wantR) → s.typ = o → (l.foldl handshake s).typ = o := by
      intro l
      induction l with
      | nil => intro s _ h; exact h
      | cons a l ih =>
        intro s hl h
        rw [List.foldl_cons]
        refine ih _ (fun x hx => hl x (List.mem_cons_of_mem _ hx)) ?_
        rw [hl a (List.mem_cons_self ..)]
        simp [handshake, cache, h, ho]
    rw [List.foldl_cons]
    exact key rest _ hws (by simp [handshake, cache])
  generalize (Res.wantR :: rest).foldl handshake _ = s at ht
  obtain ⟨opt, rcb, wcb, typ, ccr, ccw⟩ := s
  simp only at ht
  subst ht
  cases ccr <;> cases ccw <;> simp [run, step, read, handshakeDone, restoreTyp, restoreW, restoreR, ho]

/-- Case: from reading to writing after a handshake that waited twice for reading. -/
example : (run (handshakeDone ([.wantR, .wantR].foldl handshake { opt := ⟨true, false⟩, rcb := some (.app 1), wcb := none }))
    [.opt ⟨false, true⟩, .read .ok]).opt = ⟨true, false⟩ :=
  c40_handshake_interest_counterexample ⟨true, false⟩ ⟨false, true⟩ (by decide) 1 [.wantR] (by decide)

/-! ### C58 -/

/-- C58 (partial): if creating connections never fails in OpenSSL and successful or waiting operations leave no errors behind, no operation
hangs and the error queue stays empty. Missing: failures to load a certificate or key (`c58_hang_counterexample`). -/
theorem c58_no_hang_partial (ops : List Tls) (h : ∀ o ∈ ops, (∀ k, o = .io k → k = 0) ∧ (∀ k, o = .setup k → k = 0)) :
    tlsRun 0 ops = some 0 := by
  induction ops with
  | nil => rfl
  | cons o ops ih =>
    have h1 := h o (List.mem_cons_self ..)
    have := ih (fun x hx => h x (List.mem_cons_of_mem _ hx))
    cases o with
    | io k => rw [h1.1 k rfl]; simpa [tlsRun, tls] using this
    | ioErr k => simpa [tlsRun, tls] using this
    | setup k => rw [h1.2 k rfl]; simpa [tlsRun, tls] using this

/-- Case for `c58_no_hang_partial`: connections created, operations failing with errors. -/
example : tlsRun 0 [.setup 0, .io 0, .ioErr 3, .setup 0, .io 0, .ioErr 1] = some 0 := by decide

/-- C58 is false of the code. After every history, if creating a connection fails in OpenSSL (it leaves at least one error; the
certificate is read from its file for every connection, so running out of descriptors is enough), the next handshake, read, write or
shutdown of any connection of the worker never returns, whatever connections are created in between. -/
theorem c58_hang_counterexample (q k : Nat) (hk : 0 < k) (mid : List Nat) (o : Tls) (ho : ∀ k, o ≠ .setup k) (rest : List Tls) :
    tlsRun q (.setup k :: mid.map .setup ++ o :: rest) = none := by
  have key : ∀ (mid : List Nat) (q : Nat), 0 < q → tlsRun q (mid.map .setup ++ o :: rest) = none := by
    intro mid
    induction mid with
    | nil =>
      intro q hq
      have : q ≠ 0 := by omega
      cases o with
      | io k => simp [tlsRun, tls, this]
      | ioErr k => simp [tlsRun, tls, this]
      | setup k => exact absurd rfl (ho k)
    | cons m mid ih =>
      intro q hq
      simp only [List.map_cons, List.cons_append, tlsRun, tls]
      exact ih _ (by omega)
  simp only [List.cons_append, tlsRun, tls]
  exact key mid _ (by omega)

/-- Case: two errors left by a failed connection, another connection in between, then a read. -/
example : tlsRun 0 [.setup 2, .setup 0, .io 5, .io 0] = none := c58_hang_counterexample 0 2 (by decide) [0] (.io 5) (by intro k h; cases h) [.io 0]

end Verif.Ssl
