/-
The session model has finitely many states. A set of states is given as a search tree of numbers; the functions here translate between states
and numbers, and `closed_sound` turns a check of such a tree into an invariant of all executions.
-/
import Verif.Spec.Session

namespace Verif.Session

/-- All callbacks, in the order of their declaration. -/
def cbs : List Cb := [.sAccept, .sStart, .auth, .p1req, .p1rsp, .p2req, .cupAddr, .tryRead, .connect, .connectChk, .p2rsp,
  .proc, .recv, .send, .rrecv, .rsend, .cAccept, .cRecv, .cChk, .cSsl, .cBuild, .cAuthSend, .dnsPacket, .dnsSend, .dnsRecv,
  .handshakeCb, .shutdownCb, .netExp, .sesExp, .freeDirect, .sslExp, .dnsExp]

def cbCode : Option Cb → Nat
  | none => 0
  | some f => f.ctorIdx + 1

def cbOf (n : Nat) : Option Cb := if n = 0 then none else cbs[n - 1]?

def lifeCode : Life → Nat
  | .absent => 0
  | .live => 1
  | .freed => 2

def lifeOf (n : Nat) : Life := if n = 0 then .absent else if n = 1 then .live else .freed

def tlsCode : Tls → Nat
  | .none => 0
  | .fresh => 1
  | .ready => 2
  | .bad => 3

def tlsOf (n : Nat) : Tls := if n = 0 then .none else if n = 1 then .fresh else if n = 2 then .ready else .bad

def boolCode : Bool → Nat
  | false => 0
  | true => 1

def idCode : Id → Nat
  | .down => 0
  | .up => 1
  | .dns => 2

def idOf (n : Nat) : Id := if n = 0 then .down else if n = 1 then .up else .dns

def conCode (c : Con) : Nat :=
  lifeCode c.life + 4 * (cbCode c.r + 64 * (cbCode c.w + 64 * (cbCode c.tm + 64 * (tlsCode c.tls + 4 * (cbCode c.saveR + 64 *
    (cbCode c.saveW + 64 * (boolCode c.data + 2 * boolCode c.closed)))))))

def conOf (n : Nat) : Con :=
  ⟨lifeOf (n % 4), cbOf (n / 4 % 64), cbOf (n / 256 % 64), cbOf (n / 16384 % 64), tlsOf (n / 1048576 % 4), cbOf (n / 4194304 % 64),
    cbOf (n / 268435456 % 64), n / 17179869184 % 2 == 1, n / 34359738368 % 2 == 1⟩

def wCode (w : W) : Nat :=
  boolCode w.client + 2 * (lifeCode w.ses + 4 * (lifeCode w.adata + 4 * (lifeCode w.dns + 4 * (boolCode w.sesCup + 2 * (boolCode w.sesDns +
    2 * (boolCode w.flag + 2 * (boolCode w.flagUp + 2 * (boolCode w.twice + 2 * (cbCode (w.call.map (·.1)) + 64 *
    ((match w.call with | none => 0 | some (_, i) => idCode i) + 4 * (conCode w.down + 68719476736 * (conCode w.up + 68719476736 *
    conCode w.dcon))))))))))))

def wOf (n : Nat) : W :=
  let call := n / 4096 % 64
  { client := n % 2 == 1, ses := lifeOf (n / 2 % 4), adata := lifeOf (n / 8 % 4), dns := lifeOf (n / 32 % 4), sesCup := n / 128 % 2 == 1,
    sesDns := n / 256 % 2 == 1, flag := n / 512 % 2 == 1, flagUp := n / 1024 % 2 == 1, twice := n / 2048 % 2 == 1,
    call := (cbOf call).map fun f => (f, idOf (n / 262144 % 4)),
    down := conOf (n / 1048576 % 68719476736), up := conOf (n / 72057594037927936 % 68719476736),
    dcon := conOf (n / 4951760157141521099596496896) }

/-- A search tree of numbers. -/
inductive Tree where
  | leaf
  | node (l : Tree) (k : Nat) (r : Tree)

/-- Search. -/
def Tree.has : Tree → Nat → Bool
  | .leaf, _ => false
  | .node l k r, n => if n.blt k then l.has n else if k.blt n then r.has n else n == k

/-- A property of all entries. -/
def Tree.all (p : Nat → Bool) : Tree → Bool
  | .leaf => true
  | .node l k r => p k && (l.all p && r.all p)

theorem Tree.has_all {p : Nat → Bool} {t : Tree} (h : t.all p = true) {n : Nat} (hn : t.has n = true) : p n = true := by
  induction t with
  | leaf => cases hn
  | node l k r ihl ihr =>
    simp only [Tree.all, Bool.and_eq_true] at h
    simp only [Tree.has] at hn
    split at hn
    · exact ihl h.2.1 hn
    · split at hn
      · exact ihr h.2.2 hn
      · have : n = k := by simpa using hn
        rw [this]; exact h.1

/-- The state belongs to the set: its number does, and the number stands for it. -/
def Tree.mem (t : Tree) (w : W) : Bool :=
  match wCode w with
  | 0 => false
  | n + 1 => t.has (n + 1) && decide (wOf (n + 1) = w)

def outs : List Out := [.ok, .ok2, .wait true, .wait false, .err, .mem1, .mem2, .mem3]

def sds : List Sd := [.done, .wait true, .wait false]

def ids : List Id := [.down, .up, .dns]

/-- The events that can have an effect. -/
def evs (w : W) : List Ev :=
  match w.call with
  | none => ids.flatMap fun i => [.ready i true, .ready i false, .timer i]
  | some _ => outs.flatMap fun o => sds.map fun s => .out o s

instance (w : W) (e : Ev) : Decidable (Unlucky w e) := by
  unfold Unlucky
  split <;> infer_instance

/-- Every step from the state stays in the set. -/
def okState (t : Tree) (n : Nat) : Bool :=
  (evs (wOf n)).all fun e => decide (Unlucky (wOf n) e) ||
    match step (wOf n) e with
    | .ok w => t.mem w
    | .error _ => false

theorem mem_outs (o : Out) : o ∈ outs := by
  cases o with
  | wait b => cases b <;> decide
  | _ => decide

theorem mem_sds (s : Sd) : s ∈ sds := by
  cases s with
  | wait b => cases b <;> decide
  | _ => decide

theorem mem_ids (i : Id) : i ∈ ids := by cases i <;> decide

/-- Events without effect change nothing. -/
theorem mem_evs (w : W) (e : Ev) : e ∈ evs w ∨ step w e = .ok w := by
  cases hc : w.call with
  | none =>
    cases e with
    | ready i b =>
      left
      simp only [evs, hc, List.mem_flatMap]
      exact ⟨i, mem_ids i, by cases b <;> simp⟩
    | timer i =>
      left
      simp only [evs, hc, List.mem_flatMap]
      exact ⟨i, mem_ids i, by simp⟩
    | out o s => right; simp [step, hc]
  | some p =>
    obtain ⟨f, j⟩ := p
    cases e with
    | out o s =>
      left
      simp only [evs, hc, List.mem_flatMap, List.mem_map]
      exact ⟨o, mem_outs o, s, mem_sds s, rfl⟩
    | ready i b => right; simp [step, hc]
    | timer i => right; simp [step, hc]

theorem Tree.mem_spec {t : Tree} {w : W} (h : t.mem w = true) : ∃ n, t.has n = true ∧ wOf n = w := by
  unfold Tree.mem at h
  split at h
  · cases h
  · rename_i n hn
    simp only [Bool.and_eq_true, decide_eq_true_eq] at h
    exact ⟨n + 1, h.1, h.2⟩

/-- A tree that contains the start state and is closed under all steps contains all reachable states, and no step from them is a fault. -/
theorem closed_sound {t : Tree} {client : Bool} (h0 : t.mem (start client) = true) (hs : t.all (okState t) = true) {w : W}
    (h : Reach client w) : (∃ n, t.has n = true ∧ wOf n = w) ∧ ∀ e, ¬ Unlucky w e → ∃ w', step w e = .ok w' := by
  have key : ∀ w, (∃ n, t.has n = true ∧ wOf n = w) → ∀ e, ¬ Unlucky w e → ∃ w', step w e = .ok w' ∧ ∃ n, t.has n = true ∧ wOf n = w' := by
    intro w hw e he
    obtain ⟨n, hn, rfl⟩ := hw
    have hk := Tree.has_all hs hn
    unfold okState at hk
    rw [List.all_eq_true] at hk
    rcases mem_evs (wOf n) e with hm | hm
    · have := hk e hm
      simp only [he, decide_false, Bool.false_or] at this
      split at this
      · rename_i w' hw'
        exact ⟨w', hw', Tree.mem_spec this⟩
      · cases this
    · exact ⟨_, hm, n, hn, rfl⟩
  have hin : ∃ n, t.has n = true ∧ wOf n = w := by
    induction h with
    | start => exact Tree.mem_spec h0
    | step _ hu hst ih =>
      obtain ⟨w', hw', hm⟩ := key _ ih _ hu
      rw [hst] at hw'
      injection hw' with hw'
      rw [hw']; exact hm
  exact ⟨hin, fun e he => let ⟨w', h, _⟩ := key w hin e he; ⟨w', h⟩⟩

end Verif.Session
